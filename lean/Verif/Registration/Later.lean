import Verif.Registration.Admitted
/-
C204 and C205 for federations whose members make their statements anew whenever they are asked, and C206: what becomes of a client that its authorities have dropped.
-/
namespace Fed.Registration
open Fed Verify Chains Client

/-- A client and a server as in `Comes`, in a federation whose members make their statements anew whenever they are asked (see `worldAt`). -/
structure ComesAnew (H : Host) (J : Jose) (members : Int → String → Option Member) (host : Val → Option String) (now : Int) (st0 : AppState) (vs : List Visit) (kind : Kind) (me : String)
    (md : Policy.Metadata) (rank : String → Nat) (want : String → String → Policy.Want) (M : String → Policy.Metadata) : Prop where
  kept : ∀ t, WellKept J H.V.L (members t) host st0.fed.jar rank
  same : SameMembers members
  start : st0.fed.coll = {}
  order : vs.Pairwise fun a b => a.time ≤ b.time
  past : ∀ v ∈ vs, v.time ≤ now
  delta : 0 ≤ H.V.P.delta ∧ H.V.P.delta < 86400
  auto : ∃ l, H.supported = some l ∧ "automatic" ∈ l
  client : ∃ m, members now me = some m ∧ strs m.authority.hints ≠ [] ∧ (objs m.authority.metadata).get? kind.leafType = some md
  fuel : rank me < H.V.fuel
  constraints : ∀ p, Up (directoryAt J members now) me p → WithinConstraints ((stmtsOf (directoryAt J members now) me p).map (·.payload)) ((directoryAt J members now).cfg me).payload
  policies : ∀ p, Up (directoryAt J members now) me p → ∀ s ∈ stmtsOf (directoryAt J members now) me p, SatisfiedBy want M ((directoryAt J members now).cfg me).payload s.payload
  takes : ∀ p md', Up (directoryAt J members now) me p → Suits (directoryAt J members now) want me kind.leafType md p md' → Takes H kind me md'

section
variable {H : Host} {J : Jose} {members : Int → String → Option Member} {host : Val → Option String} {now : Int} {st0 : AppState} {vs : List Visit} {kind : Kind} {me : String} {md : Policy.Metadata}
  {rank : String → Nat} {want : String → String → Policy.Want} {M : String → Policy.Metadata}

theorem ComesAnew.declared (h : ComesAnew H J members host now st0 vs kind me md rank want M) : ((directoryAt J members now).cfg me).payload.md.get? kind.leafType = some md := by
  obtain ⟨m, h1, -, h2⟩ := h.client
  unfold directoryAt
  rw [(h.kept now).md h1]
  exact h2

theorem ComesAnew.truthy {m : Member} {md : Policy.Metadata} {t : String} (h : (objs m.authority.metadata).get? t = some md) : m.authority.metadata.truthy = true := by
  cases hm : m.authority.metadata with
  | obj o =>
    cases o with
    | nil => rw [hm] at h; cases h
    | cons x o => rfl
  | _ => rw [hm] at h; cases h

theorem ComesAnew.stop (h : ComesAnew H J members host now st0 vs kind me md rank want M) (t : Int) : Stop (members t) "" := .none (by
  cases h0 : members t "" with
  | none => rfl
  | some m0 => exact absurd rfl ((h.kept t).id "" m0 h0).2.1)

/-- C204: the client is let in up to a day (less the allowed delta) after requests began to reach the server, whatever the requests were. Missing: later requests, for which it is false
(`C204_next_day_violation`); how members state what they state (see C109); the registration proper of OpenID providers, which is not part of this software. -/
theorem C204_reissued_partial (h : ComesAnew H J members host now st0 vs kind me md rank want M) (t0 : Int) (hsince : ∀ v ∈ vs, t0 ≤ v.time) (h0 : t0 ≤ now) (hnow : now < t0 + 86400 - H.V.P.delta) :
    LetIn H (worldAt J members host) (directoryAt J members now) want now kind (H.visits (worldAt J members host) st0 vs) me md [] (fun _ => True) := by
  obtain ⟨m, h1, h2, h3⟩ := h.client
  obtain ⟨hj, hs, g1, -, g3⟩ := collected_visits (H := H) (F := worldAt J members host) h.start vs
  obtain ⟨D, out, -, o1, o2, -, o4⟩ := C133_reissued_partial (H.env (worldAt J members host) now kind).V J members host t0 now (H.visits (worldAt J members host) st0 vs).fed hs "" me m rank want M
    (fun t => WellKept.has (h.kept t) hj) h.same rfl g1 (fun r hr => by obtain ⟨v, hv, e, -⟩ := g3 r hr; rw [← e]; exact ⟨hsince v hv, h.past v hv⟩) h0 h.delta.1 hnow (h.stop now) h1 h.fuel h2
    (ComesAnew.truthy h3) h.constraints h.policies
  refine letIn_of h.declared h.auto ?_ h.takes
  cases out with
  | nil => exact absurd rfl o2
  | cons tc tcs =>
    obtain ⟨p, hp, hr, hd⟩ := o4 tc (by simp)
    exact ⟨tc, tcs, p, o1, hp, trivial, hr.anchor, hd⟩

/-- C205: a chain of statements that were each made at some time, however long ago, does as well when it is handed in. -/
theorem C205_reissued_partial (h : ComesAnew H J members host now st0 vs kind me md rank want M) (F : Int → Collect.World) (D : Directory) (t0 : Int) (h0 : t0 ≤ now)
    (fp : FromPeriod J members t0 now D) (p : List String) (hp : Up (directoryAt J members now) me p) :
    LetIn H F (directoryAt J members now) want now kind (H.visits (worldAt J members host) st0 vs) me md ((stmtsOf D me p ++ [D.cfg me]).map some).reverse (fun q => q = p) := by
  obtain ⟨m, h1, h2, h3⟩ := h.client
  obtain ⟨hj, -⟩ := collected_visits (H := H) (F := worldAt J members host) h.start vs
  have hkept := fun t => WellKept.has (h.kept t) hj
  have sts : ∀ (q : List String) (e : String), stmtsOf { D with keys := (directoryAt J members now).keys } e q = stmtsOf D e q := by
    intro q
    induction q with
    | nil => intro e; rfl
    | cons a q ih => intro e; simp only [stmtsOf, ih]
  have fp' : FromPeriod J members t0 now { D with keys := (directoryAt J members now).keys } := ⟨fp.cfg, fp.about⟩
  have w := fp'.wellRun hkept h.same H.V.P h0 t0 (by have := h.delta; omega) "" (h.stop now) rfl ⟨fun e => .ok (some (D.cfg e)), fun _ a e => .ok (some (D.about a e))⟩ (fun _ _ _ => rfl) (fun _ _ _ _ _ _ _ => rfl)
  obtain ⟨w1, w2, w3⟩ := fp'.within hkept h.same h1 hp want M
  obtain ⟨ups, -, hmd, -⟩ := fp'.alike hkept h.same h1
  obtain ⟨tcs, tc, jar', g1, g2, g3⟩ := accepted_as_given (H.env F now kind).V _ (H.visits (worldAt J members host) st0 vs).fed.jar t0 "" me { D with keys := (directoryAt J members now).keys } _ rank want M p
    ((ups p).2 hp) w ⟨m, h1⟩ (by
      intro hn
      have := h.declared
      rw [hmd, Payload.md, hn] at this
      cases this) (w1 (h.constraints p hp)) (w2 (h.policies p hp))
  rw [sts] at g1
  refine letIn_of h.declared h.auto ⟨tc, [], p, ?_, hp, rfl, g3.anchor, w3 _ g3.metadata⟩ h.takes
  unfold registrationChains
  rw [if_neg (by simp), List.reverse_reverse, g1]
  exact g2

end

/-- C204 in full: without a limit of time. -/
def C204_full : Prop :=
  ∀ (H : Host) (J : Jose) (members : Int → String → Option Member) (host : Val → Option String) (now : Int) (st0 : AppState) (vs : List Visit) (kind : Kind) (me : String) (md : Policy.Metadata)
    (rank : String → Nat) (want : String → String → Policy.Want) (M : String → Policy.Metadata), ComesAnew H J members host now st0 vs kind me md rank want M →
    ∃ c, (clientAuthentication (H.env (worldAt J members host) now kind) kind (H.visits (worldAt J members host) st0 vs) me []).1 = .ok (some c)

namespace Ex204
theorem comesAnew (now : Int) (vs : List Visit) (h1 : vs.Pairwise fun a b => a.time ≤ b.time) (h2 : ∀ v ∈ vs, v.time ≤ now) :
    ComesAnew H Chains.Ex.J Chains.Ex.members133 Chains.Ex.host133 now st0 vs .oidc "https://leaf" md Chains.Ex.rank109 (fun _ _ => .one .null .null) (fun _ => []) := by
  have k := keys_only Chains.Ex.L Chains.Ex.J (Chains.Ex.member133 []) Chains.Ex.host133 Chains.Ex.st.jar now now H.V.P "" "https://leaf" Chains.Ex.mLeaf Chains.Ex.rank109
    (Chains.Ex.wellKept133 [] (.inl rfl)) (by have : H.V.P.delta = 300 := rfl; omega) (.none rfl) rfl Chains.Ex.url133 Chains.Ex.onlyKeys133
  exact { kept := fun _ => Chains.Ex.wellKept133 [] (.inl rfl), same := fun _ _ _ m hm => ⟨m, hm, rfl⟩, start := rfl, order := h1, past := h2, delta := by decide, auto := ⟨_, rfl, by decide⟩,
          client := ⟨Chains.Ex.mLeaf, rfl, by decide, rfl⟩, fuel := by decide, constraints := k.1, policies := k.2.1,
          takes := fun p md' _ _ S => ⟨_, _, rfl, by simp [Dict.get?_set_self]⟩ }

/-- `im` is looked up, and hours later `leaf`, below it, comes. -/
def day : List Visit := [⟨0, .oidc, true, "https://im", []⟩, ⟨10000, .oidc, false, "https://leaf", []⟩]
end Ex204

/-- When it comes again in the afternoon it is let in, although what is cached of it and of `im` dates from different times. -/
example : LetIn Ex204.H (worldAt Chains.Ex.J Chains.Ex.members133 Chains.Ex.host133) (directoryAt Chains.Ex.J Chains.Ex.members133 50000) (fun _ _ => .one .null .null) 50000 .oidc
    (Ex204.H.visits (worldAt Chains.Ex.J Chains.Ex.members133 Chains.Ex.host133) Ex204.st0 Ex204.day) "https://leaf" Ex204.md [] (fun _ => True) :=
  C204_reissued_partial (Ex204.comesAnew 50000 Ex204.day (by decide) (by decide)) 0 (by decide) (by decide) (by decide)

/-- At the end of the day it is not: the statement about it is still in the cache, while the configuration of `im` is about to expire and is dropped. -/
theorem C204_next_day_violation : ¬ C204_full := by
  intro h
  obtain ⟨c, hc⟩ := h _ _ _ _ _ _ _ _ _ _ _ _ _ (Ex204.comesAnew 86200 Ex204.day (by decide) (by decide))
  have : (clientAuthentication (Ex204.H.env (worldAt Chains.Ex.J Chains.Ex.members133 Chains.Ex.host133) 86200 .oidc) .oidc
      (Ex204.H.visits (worldAt Chains.Ex.J Chains.Ex.members133 Chains.Ex.host133) Ex204.st0 Ex204.day) "https://leaf" []).1 = .error .typeError := by decide +kernel
  rw [this] at hc
  cases hc

/-- Statements and configurations that were made at different times, a week ago. -/
def Ex204.mixed : Directory := { directoryAt Chains.Ex.J Chains.Ex.members133 0 with cfg := (directoryAt Chains.Ex.J Chains.Ex.members133 5).cfg }

example : LetIn Ex204.H (fun t => ⟨t, fun _ => .error .connectionError, fun _ _ _ => .error .connectionError⟩) (directoryAt Chains.Ex.J Chains.Ex.members133 604800) (fun _ _ => .one .null .null) 604800 .oidc
    (Ex204.H.visits (worldAt Chains.Ex.J Chains.Ex.members133 Chains.Ex.host133) Ex204.st0 []) "https://leaf" Ex204.md
    ((stmtsOf Ex204.mixed "https://leaf" ["https://im", "https://ta"] ++ [Ex204.mixed.cfg "https://leaf"]).map some).reverse (fun q => q = ["https://im", "https://ta"]) := by
  refine C205_reissued_partial (Ex204.comesAnew 604800 [] (by simp) (by simp)) _ Ex204.mixed 0 (by decide) ⟨fun _ _ _ => ⟨5, by decide, by decide, rfl⟩, fun _ _ _ _ _ => ⟨0, by decide, by decide, rfl⟩⟩ _ ?_
  exact .step (hs := ["https://im"]) (by decide +kernel) (by decide) (.top (hs := ["https://ta"]) (by decide +kernel) (by decide) (by decide +kernel))

/-! ## C206 -/

/-- A client that its authorities have dropped: all authorities `as` that it names say nothing about it any more, and what they said in all the time has expired (at `last`, at the latest). -/
structure Dropped (H : Host) (F : Int → Collect.World) (vs : List Visit) (now : Int) (me : String) (as : List String) (last : Int) : Prop where
  plain : Collect.Plain me ∧ ∀ a ∈ as, Collect.Plain a
  before : ∀ a ∈ as, ∀ v ∈ vs, Collect.GivenUntil (F v.time) a me last
  none : ∀ a ∈ as, Collect.Withheld (F now) a me
  names : ∀ t, (t = now ∨ ∃ v ∈ vs, v.time = t) → ∀ j, (F t).config me = .ok (some j) → (∀ hs, j.payload.hints = some hs → ∀ a ∈ hs, a ∈ as) ∧ ∀ d, j.payload.metadata = some d → d.get? "" = .none
  over : (F now).now ≥ last ∧ (F now).now > last - H.V.P.delta

/-- C206 in full: a client that its authorities have dropped, and that is not registered for good, is not let in; what it hands in, if all that is said there about the client has expired, does not help. -/
def C206_full : Prop :=
  ∀ (H : Host) (F : Int → Collect.World) (st0 : AppState) (vs : List Visit) (now : Int) (kind : Kind) (me : String) (as : List String) (last : Int) (provided : List Doc), st0.fed.coll = {} →
    Dropped H F vs now me as last → Settled kind ((H.visits F st0 vs).srv.cdb.get? me) = false →
    (∀ j, some j ∈ provided → j.payload.sub = me → ∃ x, j.payload.exp = some x ∧ x ≤ last) →
    ∀ c, (clientAuthentication (H.env F now kind) kind (H.visits F st0 vs) me provided).1 ≠ .ok (some c)

/-- What a collection keeps, a history keeps. -/
theorem runAll_keeps {C : Crypto} {P : Collect.Params} {I : Collect.State → Prop} : ∀ (h : List Collect.Run) (st : Collect.State), I st →
    (∀ r ∈ h, ∀ st, I st → I (Collect.collect C P r.world r.fuel st r.entity r.stopAt).2) → I (h.foldl (fun st r => (Collect.collect C P r.world r.fuel st r.entity r.stopAt).2) st)
  | [], _, h0, _ => h0
  | r :: h, st, h0, hk => runAll_keeps h _ (hk r (by simp) _ h0) (fun x hx => hk x (by simp [hx]))

/-- C206 for clients that hand in nothing, after any history. Missing: clients that hand in a chain, for which it is false. -/
theorem C206_dropped_partial (H : Host) (F : Int → Collect.World) (st0 : AppState) (vs : List Visit) (now : Int) (kind : Kind) (me : String) (as : List String) (last : Int) (h0 : st0.fed.coll = {})
    (hd : Dropped H F vs now me as last) (hs : Settled kind ((H.visits F st0 vs).srv.cdb.get? me) = false) (c : String) :
    (clientAuthentication (H.env F now kind) kind (H.visits F st0 vs) me []).1 ≠ .ok (some c) := by
  obtain ⟨-, h, g1, -, g3⟩ := collected_visits (H := H) (F := F) h0 vs
  have hnone : ∀ fed : Chains.State, fed.coll = (H.visits F st0 vs).fed.coll → ∀ out, (getVerified (H.env F now kind).V fed me).1 = .ok out → out = [] := by
    intro fed hfed out ho
    refine dropped_of (H.env F now kind).V fed me as last hd.plain.1 hd.plain.2 hd.none (fun a ha => ?_) (fun j hj => ?_) hd.over.2 "" out ho
    · rw [hfed, g1]
      refine runAll_keeps _ _ (fun x hx => by simp at hx) (fun r hr st hI => ?_)
      obtain ⟨r', hr', rfl⟩ := List.mem_map.1 hr
      obtain ⟨v, hv, e, -⟩ := g3 r' hr'
      exact (Collect.NotedUntil.kept (hd.plain.2 a ha) hd.plain.1 (by rw [← e]; exact hd.before a ha v hv)).collect _ _ _ _ hI
    · have hc : ∀ cf, fed.coll.config.get? me = some cf → ∃ v ∈ vs, (F v.time).config me = .ok (some cf.jws) := by
        rw [hfed, g1]
        refine runAll_keeps (I := fun coll => ∀ cf, coll.config.get? me = some cf → ∃ v ∈ vs, (F v.time).config me = .ok (some cf.jws)) _ _ (fun c hc => by simp at hc) (fun r hr st hI cf hcf => ?_)
        obtain ⟨r', hr', rfl⟩ := List.mem_map.1 hr
        obtain ⟨v, hv, e, -⟩ := g3 r' hr'
        rcases Collect.collect_faithful.1.config me cf hcf with k | ⟨k, -⟩
        · exact hI cf k
        · exact ⟨v, hv, by rw [e]; exact k⟩
      rcases hj with k | ⟨k, -⟩
      · obtain ⟨v, hv, k2⟩ := hc _ k
        exact hd.names _ (.inr ⟨v, hv, rfl⟩) j k2
      · exact hd.names _ (.inl rfl) j k
  unfold clientAuthentication
  rw [if_neg (by rw [hs]; decide)]
  cases automaticSupported kind (H.env F now kind).supported with
  | error e => simp
  | ok b =>
    cases b with
    | false => simp
    | true =>
      simp only
      unfold doAutomatic registrationChains
      rw [if_pos (by rfl)]
      have hn := hnone (H.visits F st0 vs).fed rfl
      simp only
      generalize getVerified (H.env F now kind).V (H.visits F st0 vs).fed me = r at hn ⊢
      obtain ⟨r1, fed⟩ := r
      rcases r1 with e | _ | ⟨tc, tcs⟩
      · simp
      · simp
      · cases hn _ rfl

namespace Ex204
/-- Everyone is gone. -/
def gone (t : Int) : Collect.World := ⟨t, fun _ => .error .connectionError, fun _ _ _ => .error .connectionError⟩
/-- `im` has dropped `leaf` after the first day. -/
def dropping (t : Int) : Collect.World :=
  if t < 86400 then worldAt Chains.Ex.J Chains.Ex.members133 Chains.Ex.host133 t
  else { worldAt Chains.Ex.J Chains.Ex.members133 Chains.Ex.host133 t with fetch := fun ep a e => if e = "https://leaf" then .error .failedRetrieval else (worldAt Chains.Ex.J Chains.Ex.members133 Chains.Ex.host133 t).fetch ep a e }
end Ex204

/-- What the member at an endpoint says about `leaf` when it is taken for `im`. -/
def Ex204.said (t : Int) (h : Option String) : Except Collect.NetErr Doc :=
  match h.bind (Chains.Ex.members133 t) with
  | none => .error .missingPage
  | some m => answer Chains.Ex.J m.authority.entityId (Server.fetch (Server.after m.authority m.requests) t { iss := some "https://im", sub := some "https://leaf" }).1

/-- Where the client is dropped it is not let in the next day, although it was before. -/
example (c : String) : (clientAuthentication (Ex204.H.env Ex204.dropping 200000 .oidc) .oidc (Ex204.H.visits Ex204.dropping Ex204.st0 Ex204.day) "https://leaf" []).1 ≠ .ok (some c) := by
  refine C206_dropped_partial _ _ _ _ _ _ _ ["https://im"] 96400 rfl ⟨by decide, ?_, ?_, ?_, by decide +kernel⟩ (by decide +kernel) c
  · intro a ha v hv ep j x hj hx
    simp only [List.mem_singleton] at ha
    subst ha
    have hep : Chains.Ex.host133 ep ∈ [none, some "https://ta", some "https://im"] := by unfold Chains.Ex.host133; split <;> decide
    have ht : v.time ∈ [0, 10000] := by
      simp only [Ex204.day, List.mem_cons, List.not_mem_nil, or_false] at hv
      rcases hv with rfl | rfl <;> decide
    have hj : Ex204.said v.time (Chains.Ex.host133 ep) = .ok (some j) := by
      have hlt : v.time < 86400 := by
        simp only [List.mem_cons, List.not_mem_nil, or_false] at ht
        omega
      rw [Ex204.dropping, if_pos hlt] at hj
      exact hj
    have all : ∀ t ∈ [0, 10000], ∀ h ∈ [none, some "https://ta", some "https://im"], (match Ex204.said t h with | .ok (some j) => j.payload.exp.all fun x => decide (x ≤ 96400) | _ => true) = true := by
      decide +kernel
    have := all _ ht _ hep
    rw [hj] at this
    simpa [hx] using this
  · intro a ha ep j hj
    simp [Ex204.dropping] at hj
  · intro t ht j hj
    have ht : t ∈ [200000, 0, 10000] := by
      rcases ht with rfl | ⟨v, hv, rfl⟩
      · decide
      · simp only [Ex204.day, List.mem_cons, List.not_mem_nil, or_false] at hv
        rcases hv with rfl | rfl <;> decide
    have all : ∀ t ∈ [200000, 0, 10000], (match (Ex204.dropping t).config "https://leaf" with
        | .ok (some j) => (j.payload.hints.all fun hs => hs.all fun a => decide (a ∈ ["https://im"])) && j.payload.metadata.all fun d => (d.get? "").isNone
        | _ => true) = true := by decide +kernel
    have := all t ht
    rw [hj] at this
    simp only [Bool.and_eq_true, Option.all_eq_true, List.all_eq_true, decide_eq_true_eq] at this
    exact ⟨fun hs h => this.1 hs h, fun d h => by simpa using this.2 d h⟩

/-- Years later, with nobody left to ask, the chain of the first day lets the client in. -/
theorem C206_old_chain_violation : ¬ C206_full := by
  intro h
  have hl := C205_handed_in_partial (now := 100000000) { Ex204.comes [] (by simp) (by simp) (by simp) with past := by simp } (by decide) Ex204.gone _ Server.Ex91.up
  have key : ∀ c, (clientAuthentication (Ex204.H.env Ex204.gone 100000000 .oidc) .oidc Ex204.st0 "https://leaf"
      ((stmtsOf (directory Chains.Ex.J (Chains.Ex.member133 []) 0) "https://leaf" ["https://im", "https://ta"] ++ [(directory Chains.Ex.J (Chains.Ex.member133 []) 0).cfg "https://leaf"]).map some).reverse).1 ≠ .ok (some c) := by
    refine h Ex204.H Ex204.gone Ex204.st0 [] 100000000 .oidc "https://leaf" ["https://im"] 86400 _ rfl ⟨by decide, by simp, ?_, ?_, by decide⟩ rfl ?_
    · intro a _ ep j hj
      cases hj
    · intro t _ j hj
      cases hj
    · intro j hj hsub
      have : j ∈ stmtsOf (directory Chains.Ex.J (Chains.Ex.member133 []) 0) "https://leaf" ["https://im", "https://ta"] ++ [(directory Chains.Ex.J (Chains.Ex.member133 []) 0).cfg "https://leaf"] := by
        rw [List.mem_reverse] at hj
        obtain ⟨x, hx, e⟩ := List.mem_map.1 hj
        cases e
        exact hx
      have all : ∀ j ∈ stmtsOf (directory Chains.Ex.J (Chains.Ex.member133 []) 0) "https://leaf" ["https://im", "https://ta"] ++ [(directory Chains.Ex.J (Chains.Ex.member133 []) 0).cfg "https://leaf"],
          j.payload.exp = some 86400 := by decide +kernel
      exact ⟨86400, all j this, by decide⟩
  rcases hl with ⟨info, h1, -⟩ | ⟨c, st', _, _, _, h1, -⟩
  · cases h1
  · exact key c (congrArg Prod.fst h1)

end Fed.Registration
