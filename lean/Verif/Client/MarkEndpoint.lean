import Verif.Chains.ServedProps
/-
C168: where requests to an entity of the federation are sent. Model of `get_entity_endpoint` (/repo/src/fedservice/entity/function/__init__.py 164-176), which the scripts of this software use, and of
`TrustMark.get_endpoint` (/repo/src/fedservice/entity/client/trust_mark.py 59-71), of the service that asks for a trust mark.
-/
namespace Fed.Chains
open Fed Fed.Verify

/-- `metadata[type][parameter]`: KeyError, or TypeError if there is no dictionary. -/
def member2 (md : Dict Val) (type param : String) : Except PyErr Val :=
  match md.get? type with
  | none => .error .keyError
  | some (.obj m) =>
    match Dict.get? m param with
    | none => .error .keyError
    | some v => .ok v
  | some _ => .error .typeError

/-- `get_entity_endpoint` (function/__init__.py 164-176). `ask`: the metadata in what `client.do_request("entity_configuration", …)` gives for a trust anchor. Simplification: that the answer is
kept in the cache is left out (`Collect.Mixed` has it). -/
def entityEndpoint (V : Env) (ask : String → Except PyErr (Dict Val)) (st : State) (entity type param : String) : Except PyErr Val × State :=
  if entity ∈ V.P.anchors then
    match ask entity with
    | .error e => (.error e, st)
    | .ok md => (member2 md type param, st)
  else
    match getVerified V st entity with
    | (.error e, st) => (.error e, st)
    | (.ok [], st) => (.ok (.str ""), st)
    | (.ok (tc :: _), st) => (member2 tc.metadata type param, st)

/-- `TrustMark.get_endpoint` (trust_mark.py 59-71); `issuer` is `client.context.issuer`. -/
def trustMarkEndpoint (V : Env) (st : State) (issuer : String) : Except PyErr Val × State :=
  match getTrustChains V st issuer with
  | (.error e, st) => (.error e, st)
  | (.ok (tc :: _), st) => (member2 tc.metadata "federation_entity" "federation_trust_mark_endpoint", st)
  | (.ok [], st) =>
    match getVerified V st issuer with
    | (.error e, st) => (.error e, st)
    | (.ok [], st) => (.ok (.str ""), st)
    | (.ok (tc :: tcs), st) => (member2 tc.metadata "federation_entity" "federation_trust_mark_endpoint", { st with store := st.store.set issuer (tc :: tcs) })

/-- A federation whose members run this software, see to their duties and register only keys, as it is asked at time `now`, whatever was asked before. -/
structure Runs (V : Env) (J : Jose) (member : String → Option Member) (host : Val → Option String) (issued now : Int) (st : State) (h : List Collect.FRun) (rank : String → Nat) : Prop where
  kept : WellKept J V.L member host st.jar rank
  world : V.W = (world J member host issued).at now
  collected : st.coll = Collect.runAll V.L.toCrypto V.P (h.map (Collect.FRun.run (Chains.world J member host issued)))
  ordered : h.Pairwise fun a b => a.time ≤ b.time
  past : ∀ r ∈ h, r.time ≤ now
  plain : ∀ r ∈ h, Collect.Plain r.entity
  now : now < issued + 86400 - V.P.delta ∧ now < issued + 86400
  fuel : ∀ e, rank e < V.fuel
  urls : ∀ e m, member e = some m → Constraints.IsUrl e
  only : ∀ e m a ma reg, member e = some m → a ∈ strs m.authority.hints → member a = some ma → ma.authority.subordinate.get? e = some reg → OnlyKeys ma.authority e reg
  anchors : ∀ e m, member e = some m → strs m.authority.hints = [] → e ∈ V.P.anchors

/-- Member `m` states `v` as parameter `param` of its entity type `type`. -/
def States (m : Member) (type param : String) (v : Val) : Prop :=
  ∃ all md, m.authority.metadata = .obj all ∧ Dict.get? all type = some (.obj md) ∧ Dict.get? md param = some v

/-- The metadata the members publish. -/
def publishedMetadata (member : String → Option Member) (e : String) : Except PyErr (Dict Val) :=
  match member e with
  | none => .error .serviceError
  | some m =>
    match m.authority.metadata with
    | .obj md => .ok md
    | _ => .error .keyError

/-- C168, full: the request for a trust mark goes to the endpoint that the issuer states. -/
def C168_full : Prop := ∀ (V : Env) (J : Jose) (member : String → Option Member) (host : Val → Option String) (issued now : Int) (st : State) (h : List Collect.FRun) (rank : String → Nat)
    (issuer : String) (m : Member) (v : Val), Runs V J member host issued now st h rank → st.store = [] → member issuer = some m → m.authority.metadata.truthy = true →
  States m "federation_entity" "federation_trust_mark_endpoint" v → (trustMarkEndpoint V st issuer).1 = .ok v

namespace Ex
/-- A trust anchor that issues trust marks. -/
def mTa168 : Member :=
  { authority := { entityId := "https://ta", ownKeys := .int 1, hints := .arr [], metadata := .obj [("federation_entity", .obj [("federation_trust_mark_endpoint", .str "https://ta/mark"), ("federation_list_endpoint", .str "https://ta/list"), ("federation_trust_mark_status_endpoint", .str "https://ta/status")])] } }
def member168 : String → Option Member
  | "https://ta" => some mTa168
  | _ => none
def env168 : Env := env ((world J member168 host133 0).at 100)

theorem member168_some {e : String} {m : Member} (h : member168 e = some m) : e = "https://ta" ∧ m = mTa168 := by
  unfold member168 at h
  split at h <;> simp_all

theorem runs168 : Runs env168 J member168 host133 0 100 st [] rank109 where
  kept := {
    id := fun e m h => by obtain ⟨rfl, rfl⟩ := member168_some h; exact ⟨rfl, by decide, by decide⟩
    signs := fun e m d h => by obtain ⟨rfl, rfl⟩ := member168_some h; exact ⟨1, List.mem_singleton.2 rfl, rfl, rfl⟩
    time := fun j x t hx ht => by
      simp only [env168, env, L, notExpired, hx, decide_eq_true_eq]
      omega
    hints := fun e m h => by obtain ⟨rfl, rfl⟩ := member168_some h; exact .inr ⟨[], rfl⟩
    superior := fun e m a h ha => by obtain ⟨rfl, rfl⟩ := member168_some h; cases ha
    requests := fun e m h r hr => by obtain ⟨rfl, rfl⟩ := member168_some h; cases hr
    anchors := fun e m h hh => by
      obtain ⟨rfl, rfl⟩ := member168_some h
      refine ⟨by decide, fun k hk => ?_⟩
      have hk : k ∈ [1] := hk
      simpa [st, KeyJar.keysOf, Dict.get?] using hk }
  world := rfl
  collected := rfl
  ordered := by simp
  past := by simp
  plain := by simp
  now := by decide
  fuel e := by
    show rank109 e < 10
    unfold rank109
    split <;> decide
  urls e m h := by
    obtain ⟨rfl, rfl⟩ := member168_some h
    exact Constraints.isUrl_iff.2 (Option.isSome_iff_exists.1 (by decide +kernel))
  only e m a ma reg h ha := by obtain ⟨rfl, rfl⟩ := member168_some h; cases ha
  anchors e m h _ := by obtain ⟨rfl, rfl⟩ := member168_some h; decide
end Ex

/-- C168 does not hold: there is no trust chain for a trust anchor, so for a trust mark of a trust anchor no endpoint is found. -/
theorem C168_anchor_violation : ¬ C168_full := by
  intro h
  have h1 := h Ex.env168 Ex.J Ex.member168 Ex.host133 0 100 Ex.st [] Ex.rank109 "https://ta" Ex.mTa168 (.str "https://ta/mark") Ex.runs168 rfl rfl rfl ⟨_, _, rfl, rfl, rfl⟩
  have h2 : (trustMarkEndpoint Ex.env168 Ex.st "https://ta").1 = .ok (.str "") := by decide +kernel
  rw [h2] at h1
  exact absurd h1 (by decide)

theorem get?_objs {t : String} {md : Dict Val} : ∀ {d : Dict Val}, d.get? t = some (.obj md) → (objs (.obj d)).get? t = some md
  | [], h => by cases h
  | (k, x) :: d, h => by
    rw [Dict.get?_cons] at h
    have ih := get?_objs (t := t) (md := md) (d := d)
    unfold objs at ih ⊢
    by_cases hk : k = t
    · rw [if_pos hk] at h
      cases h
      simp only [List.filterMap_cons]
      rw [Dict.get?_cons, if_pos hk]
    · rw [if_neg hk] at h
      cases x with
      | obj m =>
        simp only [List.filterMap_cons]
        rw [Dict.get?_cons, if_neg hk]
        exact ih h
      | _ => simp only [List.filterMap_cons]; exact ih h

theorem Runs.resolved {V : Env} {J : Jose} {member : String → Option Member} {host : Val → Option String} {issued now : Int} {st : State} {h : List Collect.FRun} {rank : String → Nat}
    (r : Runs V J member host issued now st h rank) {entity : String} {m : Member} (he : member entity = some m) (hmd : m.authority.metadata.truthy = true) (hh : strs m.authority.hints ≠ [])
    {type param : String} {v : Val} (hs : States m type param v) :
    ∃ tc tcs, (getVerified V st entity).1 = .ok (tc :: tcs) ∧ member2 tc.metadata type param = .ok v := by
  have hstop : member "" = none := by
    cases hm : member "" with
    | none => rfl
    | some x => exact absurd rfl (r.kept.id "" x hm).2.1
  obtain ⟨out, o1, o2, -, o3⟩ := C133_keys_suffice V J member host issued now st h "" entity m rank r.kept r.world r.collected r.ordered r.past r.plain r.now (.none hstop) he (r.fuel entity) hh hmd r.urls r.only
  cases out with
  | nil => exact absurd rfl o2
  | cons tc tcs =>
    obtain ⟨-, -, h1⟩ := o3 tc (by simp)
    obtain ⟨all, md, h0, h2, h3⟩ := hs
    obtain ⟨got, h4, h5⟩ := h1 type md (by rw [h0]; exact get?_objs h2)
    refine ⟨tc, tcs, o1, ?_⟩
    unfold member2
    rw [h4]
    simp only
    rw [h5 param v h3]

/-- The intermediate of the federation of C133, as an issuer of trust marks. -/
example : (trustMarkEndpoint (Ex.env ((world Ex.J (fun e => if e = "https://im" then some { Ex.mIm with authority := { Ex.mIm.authority with
      metadata := .obj [("federation_entity", .obj (Ex.imEntity ++ [("federation_trust_mark_endpoint", .str "https://im/mark")]))] } } else Ex.member133 [] e) Ex.host133 0).at 100)) Ex.st "https://im").1 =
    .ok (.str "https://im/mark") := by decide +kernel

/-- C168 as far as it holds: for issuers that are no trust anchors; and the trust chains are kept, so that the answer stays. Missing: trust anchors. -/
theorem C168_trust_mark_partial (V : Env) (J : Jose) (member : String → Option Member) (host : Val → Option String) (issued now : Int) (st : State) (h : List Collect.FRun) (rank : String → Nat)
    (issuer : String) (m : Member) (v : Val) (r : Runs V J member host issued now st h rank) (hst : st.store = []) (he : member issuer = some m) (hmd : m.authority.metadata.truthy = true)
    (hs : States m "federation_entity" "federation_trust_mark_endpoint" v) (hh : strs m.authority.hints ≠ []) :
    (trustMarkEndpoint V st issuer).1 = .ok v ∧ ∀ V', (trustMarkEndpoint V' (trustMarkEndpoint V st issuer).2 issuer).1 = .ok v := by
  obtain ⟨tc, tcs, h1, h2⟩ := r.resolved he hmd hh hs
  have h3 : st.store.get? issuer = none := by rw [hst]; rfl
  have h4 : getTrustChains V st issuer = (.ok (tc :: tcs), { (getVerified V st issuer).2 with store := (getVerified V st issuer).2.store.set issuer (tc :: tcs) }) := by
    unfold getTrustChains
    rw [h3]
    generalize getVerified V st issuer = g at h1 ⊢
    obtain ⟨g, s⟩ := g
    simp only at h1
    subst h1
    rfl
  have h5 : trustMarkEndpoint V st issuer = (member2 tc.metadata "federation_entity" "federation_trust_mark_endpoint",
      { (getVerified V st issuer).2 with store := (getVerified V st issuer).2.store.set issuer (tc :: tcs) }) := by
    unfold trustMarkEndpoint
    rw [h4]
  refine ⟨by rw [h5]; exact h2, fun V' => ?_⟩
  rw [h5]
  have h6 : getTrustChains V' { (getVerified V st issuer).2 with store := (getVerified V st issuer).2.store.set issuer (tc :: tcs) } issuer =
      (.ok (tc :: tcs), { (getVerified V st issuer).2 with store := (getVerified V st issuer).2.store.set issuer (tc :: tcs) }) := by
    unfold getTrustChains
    simp only [Dict.get?_set_self]
  unfold trustMarkEndpoint
  rw [h6]
  exact h2

/-- For the endpoints the scripts look for it holds for every member, trust anchors included, if what a trust anchor answers is what it publishes. -/
theorem C168_endpoint (V : Env) (J : Jose) (member : String → Option Member) (host : Val → Option String) (issued now : Int) (st : State) (h : List Collect.FRun) (rank : String → Nat)
    (entity : String) (m : Member) (type param : String) (v : Val) (r : Runs V J member host issued now st h rank) (he : member entity = some m) (hmd : m.authority.metadata.truthy = true)
    (hs : States m type param v) : (entityEndpoint V (publishedMetadata member) st entity type param).1 = .ok v := by
  unfold entityEndpoint
  by_cases ha : entity ∈ V.P.anchors
  · rw [if_pos ha]
    obtain ⟨all, md, h0, h1, h2⟩ := hs
    simp only [publishedMetadata, he, h0, member2, h1, h2]
  · rw [if_neg ha]
    obtain ⟨tc, tcs, h1, h2⟩ := r.resolved he hmd (fun hn => ha (r.anchors entity m he hn)) hs
    generalize getVerified V st entity = g at h1 ⊢
    obtain ⟨g, s⟩ := g
    simp only at h1
    subst h1
    exact h2

/-- Of an entity that is no trust anchor and has no trust chain, no endpoint is known. -/
theorem C168_none (V : Env) (ask : String → Except PyErr (Dict Val)) (st : State) (entity type param : String) (ha : entity ∉ V.P.anchors) (h : (getVerified V st entity).1 = .ok []) :
    (entityEndpoint V ask st entity type param).1 = .ok (.str "") := by
  unfold entityEndpoint
  rw [if_neg ha]
  generalize getVerified V st entity = g at h ⊢
  obtain ⟨g, s⟩ := g
  simp only at h
  subst h
  rfl

/-- The federation of C168_anchor_violation, as another client sees it that trusts nobody. -/
example : "https://ta" ∉ ({ Ex.env168 with P := { Ex.env168.P with anchors := [] } } : Env).P.anchors ∧ (getVerified { Ex.env168 with P := { Ex.env168.P with anchors := [] } } Ex.st "https://ta").1 = .ok [] :=
  ⟨by decide, by decide +kernel⟩

/-- Whatever the federation is like and whatever was asked before: an endpoint for trust marks that is not empty is stated in the metadata of a trust chain that was verified for the issuer, then or
at an earlier time. -/
theorem C168_sourced (jar : KeyJar) (h : List (Env × String)) (V : Env) (issuer : String) (v : Val) (hv : v ≠ .str "") (he : (trustMarkEndpoint V (runGets { jar := jar } h) issuer).1 = .ok v) :
    ∃ h' V' tc tcs, (h' <+: h ++ [(V, issuer)]) ∧ (getVerified V' (runGets { jar := jar } h') issuer).1 = .ok (tc :: tcs) ∧
      ∃ md, tc.metadata.get? "federation_entity" = some (.obj md) ∧ Dict.get? md "federation_trust_mark_endpoint" = some v := by
  have hm : ∀ md : Dict Val, member2 md "federation_entity" "federation_trust_mark_endpoint" = .ok v →
      ∃ m, md.get? "federation_entity" = some (.obj m) ∧ Dict.get? m "federation_trust_mark_endpoint" = some v := by
    intro md h
    unfold member2 at h
    split at h
    · cases h
    · rename_i m h1
      split at h
      · cases h
      · rename_i w h2
        cases h
        exact ⟨m, h1, h2⟩
    · cases h
  unfold trustMarkEndpoint at he
  cases hs : (runGets { jar := jar } h).store.get? issuer with
  | some tcs =>
    obtain ⟨hne, before, V', after, h1, h2⟩ := C47_stored_was_resolved_partial jar h issuer tcs hs
    have hg : getTrustChains V (runGets { jar := jar } h) issuer = (.ok tcs, runGets { jar := jar } h) := by
      unfold getTrustChains; rw [hs]
    rw [hg] at he
    cases tcs with
    | nil => exact absurd rfl hne
    | cons tc tcs => exact ⟨before, V', tc, tcs, ⟨_, by rw [h1, List.append_assoc]⟩, h2, hm _ he⟩
  | none =>
    have hg : ∀ r st1, getVerified V (runGets { jar := jar } h) issuer = (r, st1) → getTrustChains V (runGets { jar := jar } h) issuer =
        match r with
        | .error e => (.error e, st1)
        | .ok [] => (.ok [], st1)
        | .ok (tc :: tcs) => (.ok (tc :: tcs), { st1 with store := st1.store.set issuer (tc :: tcs) }) := by
      intro r st1 hr
      unfold getTrustChains
      rw [hs, hr]
      match r with
      | .error e => rfl
      | .ok [] => rfl
      | .ok (tc :: tcs) => rfl
    rcases hv1 : getVerified V (runGets { jar := jar } h) issuer with ⟨r, st1⟩
    have hg := hg r st1 hv1
    match r, hv1, hg with
    | .error e, _, hg => rw [hg] at he; cases he
    | .ok (tc :: tcs), hv1, hg =>
      rw [hg] at he
      exact ⟨h, V, tc, tcs, List.prefix_append _ _, by rw [hv1], hm _ he⟩
    | .ok [], hv1, hg =>
      have hrun : runGets { jar := jar } (h ++ [(V, issuer)]) = st1 := by
        simp only [runGets, List.foldl_append, List.foldl_cons, List.foldl_nil]
        show (getTrustChains V (runGets { jar := jar } h) issuer).2 = st1
        rw [hg]
      rw [hg] at he
      simp only at he
      rcases hv2 : getVerified V st1 issuer with ⟨r2, st2⟩
      rw [hv2] at he
      match r2, hv2, he with
      | .error e, _, he => cases he
      | .ok [], _, he => exact absurd (by cases he; rfl) hv
      | .ok (tc :: tcs), hv2, he => exact ⟨h ++ [(V, issuer)], V, tc, tcs, List.prefix_rfl, by rw [hrun, hv2], hm _ he⟩

end Fed.Chains
