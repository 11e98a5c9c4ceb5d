import Verif.Chains.ServedProps
import Verif.Chains.Enforced
/-
Property C160: what an authority registers about a subordinate takes effect on everything resolved through it. Servers and clients of this software.
-/
namespace Fed.Chains
open Fed Verify

/-- Members run this software as they should, and a client that has asked them before asks them at time `now`, while what they state is fresh. -/
structure Running (V : Env) (J : Jose) (member : String → Option Member) (host : Val → Option String) (issued now : Int) (st : State) (h : List Collect.FRun) (stopAt : String) (rank : String → Nat) : Prop where
  kept : WellKept J V.L member host st.jar rank
  world : V.W = (world J member host issued).at now
  coll : st.coll = Collect.runAll V.L.toCrypto V.P (h.map (Collect.FRun.run (Chains.world J member host issued)))
  order : h.Pairwise fun a b => a.time ≤ b.time
  past : ∀ r ∈ h, r.time ≤ now
  plain : ∀ r ∈ h, Collect.Plain r.entity
  fresh : now < issued + 86400 - V.P.delta ∧ now < issued + 86400
  stop : Stop member stopAt

section
variable {V : Env} {J : Jose} {member : String → Option Member} {host : Val → Option String} {issued now : Int} {st : State} {h : List Collect.FRun} {stopAt : String} {rank : String → Nat}

/-- Returned chains are ways up from the entity. -/
theorem Running.chains (r : Running V J member host issued now st h stopAt rank) {entity : String} {m : Member} (he : member entity = some m) (hfuel : rank entity < V.fuel) {out : List TrustChain}
    (hg : (getVerified V st entity stopAt).1 = .ok out) {tc : TrustChain} (ht : tc ∈ out) :
    ∃ p, Up (directory J member issued) entity p ∧ tc.chain = (stmtsOf (directory J member issued) entity p ++ [(directory J member issued).cfg entity]).map some ∧
      tc.verified = (stmtsOf (directory J member issued) entity p).map (·.payload) ++ [((directory J member issued).cfg entity).payload] := by
  have w := r.kept.wellRun (issued := issued) V.P now stopAt r.fresh r.stop
  obtain ⟨f, h1, h2, -, -, h3⟩ := w.tree V.fuel entity ⟨m, he⟩ hfuel
  have hcoll : (Collect.collect V.L.toCrypto V.P V.W V.fuel st.coll entity stopAt).1 = .ok (f, (directory J member issued).cfg entity) := by
    have := (Collect.collect_ideal (Collect.runAll_coherent (C := V.L.toCrypto) (P := V.P) r.kept.dated r.kept.plainHints h now (r.kept.lasting r.fresh.2) r.order r.past r.plain)
      r.kept.dated r.kept.plainHints V.fuel entity stopAt (r.kept.id entity m he).2.2).2
    rw [r.world, r.coll]
    simp only [Collect.idealCollect, w.published ⟨m, he⟩, h1, Option.map_some] at this
    revert this
    cases (Collect.collect V.L.toCrypto V.P ((Chains.world J member host issued).at now) V.fuel (Collect.runAll V.L.toCrypto V.P (h.map (Collect.FRun.run (Chains.world J member host issued)))) entity stopAt).1 with
    | error e => intro h; simp [Except.toOption] at h
    | ok x => intro h; simp only [Except.toOption, Option.some.injEq] at h; rw [h]
  obtain ⟨f', ec, tcs, g1, g2, g3, -⟩ := getVerified_ok hg
  rw [hcoll] at g1
  simp only [Except.ok.injEq, Prod.mk.injEq] at g1
  obtain ⟨rfl, rfl⟩ := g1
  obtain ⟨tc0, hm, ha⟩ := (applyPolicies_mem g3).1 tc ht
  have same : tc.chain = tc0.chain ∧ tc.verified = tc0.verified := by
    obtain ⟨_, _, _, _, ⟨_, _, _, rfl⟩ | ⟨_, _, _, rfl⟩⟩ := applyToChain_ok.1 ha <;> exact ⟨rfl, rfl⟩
  obtain ⟨pre, c, post, hd, hv⟩ := (verifyChains_mem g2 tc0).1 hm
  obtain ⟨d1, d2, -, -⟩ := C42_describes_chain _ _ _ _ hv
  have hcm : c ∈ docs f ((directory J member issued).cfg entity) := by rw [hd]; simp
  unfold docs at hcm
  rw [Collect.tree2chains_paths f h2, List.map_map, List.mem_map] at hcm
  obtain ⟨q, hq, rfl⟩ := hcm
  obtain ⟨p, hp, rfl⟩ := (h3 q).1 ((Collect.mem_paths f q).1 hq)
  refine ⟨p, hp, ?_, ?_⟩
  · rw [same.1, d1]; simp [chainOf_labelled]
  · rw [same.2, d2]
    simp [statements, List.filterMap_map, List.filterMap_append, chainOf_labelled]

/-- A statement of one entity about another in a returned chain is the one the authority makes now. -/
theorem Running.stated (r : Running V J member host issued now st h stopAt rank) {entity : String} {m : Member} (he : member entity = some m) (hfuel : rank entity < V.fuel) {out : List TrustChain}
    (hg : (getVerified V st entity stopAt).1 = .ok out) {tc : TrustChain} (ht : tc ∈ out) {j : Jws} (hj : some j ∈ tc.chain) {a e : String} (hi : j.payload.iss = a) (hs : j.payload.sub = e) (hae : a ≠ e) :
    (∃ sups leaf, tc.verified = sups ++ [leaf] ∧ leaf = ((directory J member issued).cfg entity).payload ∧ j.payload ∈ sups) ∧
    ∃ ma reg d, member a = some ma ∧ ma.authority.entityId = a ∧ e ≠ "" ∧ ma.authority.subordinate.get? e = some reg ∧
      (Server.fetch ma.authority issued { iss := some a, sub := some e }).1 = .ok d ∧ j.payload = decode J d := by
  have w := r.kept.wellRun (issued := issued) V.P now stopAt r.fresh r.stop
  obtain ⟨p, hp, hc, hv⟩ := r.chains he hfuel hg ht
  rw [hc] at hj
  simp only [List.map_append, List.map_cons, List.map_nil, List.mem_append, List.mem_map, Option.some.injEq, exists_eq_right, List.mem_singleton] at hj
  rcases hj with hj | rfl
  · refine ⟨⟨_, _, hv, rfl, List.mem_map.2 ⟨j, hj, rfl⟩⟩, ?_⟩
    obtain ⟨a', e', hs', ⟨me, k1⟩, k2, k3, rfl⟩ := w.mem_stmtsOf hp ⟨m, he⟩ j hj
    obtain ⟨s1, s2, -, -⟩ := w.stated _ _ _ ⟨me, k1⟩ k2 k3
    rw [s1] at hi
    rw [s2] at hs
    subst hi hs
    have k3' : a' ∈ strs me.authority.hints := by
      rw [r.kept.read k1] at k2
      split at k2
      · cases k2
      · cases k2; exact k3
    obtain ⟨ma, reg, -, -, h1, -, h3, -⟩ := r.kept.superior e' me a' k1 k3'
    obtain ⟨hid, hne, -⟩ := r.kept.id a' ma h1
    obtain ⟨d, kw, f1, -, -, -⟩ := h3.fetched (issued := issued) (r.kept.id e' me k1).2.1 (by rw [hid]; exact Ne.symm hae) (by rw [hid]; exact hne)
    rw [hid] at f1
    refine ⟨ma, reg, d, h1, hid, (r.kept.id e' me k1).2.1, h3.entry, f1, ?_⟩
    simp [directory, h1, f1, Except.toOption, token]
  · have := (r.kept.cfg (issued := issued) he).2
    exact absurd (hi.symm.trans ((this.iss.trans this.sub.symm).trans hs)) hae

/-! ## C160 -/

/-- The metadata policies an authority has laid down for a subordinate `e` with the entry `reg`, for entities of type `t`: those for that subordinate, or, if there is nothing for it, those for a type of entity
it is registered as. -/
inductive LaysDown (A : Server.Authority) (e : String) (reg : Dict Val) (t : String) (claims : Dict Val) : Prop
  | entity (q mp : Dict Val) : A.policy.get? e = some q → q.get? "metadata_policy" = some (.obj mp) → Dict.get? mp t = some (.obj claims) → LaysDown A e reg t claims
  | type (ts : List Val) (q : Dict Val) : (A.policy.get? e).getD [] = [] → reg.get? "entity_types" = some (.arr ts) → .str t ∈ ts → A.policy.get? t = some q →
      q.get? "metadata_policy" = some (.obj claims) → LaysDown A e reg t claims

/-- The constraints an authority has laid down for a subordinate: with its policy, or in its entry. -/
def Constrains (A : Server.Authority) (e : String) (reg : Dict Val) (c : Dict Val) : Prop :=
  (((A.policy.get? e).getD []).get? "constraints").or (reg.get? "constraints") = some (.obj c) ∧ c ≠ []

theorem objs_get {d : Dict Val} {k : String} {m : Dict Val} (hk : Dict.get? d k = some (.obj m)) : (objs (.obj d)).get? k = some m := by
  induction d with
  | nil => cases hk
  | cons x d ih =>
    obtain ⟨q, v⟩ := x
    rw [Dict.get?_cons] at hk
    have hcons : objs (.obj ((q, v) :: d)) = (match v with | .obj m => [(q, m)] | _ => []) ++ objs (.obj d) := by
      simp only [objs, List.filterMap_cons]
      cases v <;> rfl
    rw [hcons]
    by_cases hq : q = k
    · subst hq
      rw [if_pos rfl] at hk
      cases hk
      simp [Dict.get?_cons]
    · rw [if_neg hq] at hk
      have := ih hk
      cases v <;> simp [Dict.get?_cons, hq, this]

theorem policy_get {J : Jose} {d mp : Dict Val} (hd : d.get? "metadata_policy" = some (.obj mp)) {t : String} {claims : Dict Val} (ht : Dict.get? mp t = some (.obj claims)) {c : String} {ops : Dict Val}
    (hc : Dict.get? claims c = some (.obj ops)) : Asks (decode J d) t c ops := by
  have h1 := objs_get ht
  have h2 := objs_get hc
  refine ⟨objs (.obj claims), ?_, h2⟩
  simp only [decode, hd, Option.map_some, Option.getD_some]
  have : ∀ D : Dict (Dict Val), Dict.get? (D.map fun x => (x.1, objs (.obj x.2))) t = (D.get? t).map fun m => objs (.obj m) := by
    intro D
    induction D with
    | nil => rfl
    | cons x D ih =>
      simp only [List.map_cons, Dict.get?_cons]
      split
      · rfl
      · exact ih
  rw [this, h1]
  rfl

/-- The policies an authority has laid down are in the chains that go through it. -/
theorem Running.laidDown (r : Running V J member host issued now st h stopAt rank) {entity : String} {m : Member} (he : member entity = some m) (hfuel : rank entity < V.fuel) {out : List TrustChain}
    (hg : (getVerified V st entity stopAt).1 = .ok out) {tc : TrustChain} (ht : tc ∈ out) {j : Jws} (hj : some j ∈ tc.chain) {a e : String} (hi : j.payload.iss = a) (hs : j.payload.sub = e) (hae : a ≠ e)
    {ma : Member} (hma : member a = some ma) {reg : Dict Val} (hreg : ma.authority.subordinate.get? e = some reg) {t : String} {claims : Dict Val} (hl : LaysDown ma.authority e reg t claims) {c : String}
    {ops : Dict Val} (hc : claims.get? c = some (.obj ops)) : Asks j.payload t c ops := by
  obtain ⟨-, ma', reg', d, k1, k2, k3, k4, k5, k6⟩ := r.stated he hfuel hg ht hj hi hs hae
  rw [hma] at k1
  cases k1
  rw [hreg] at k4
  cases k4
  have hiss : Server.FetchRequest.issuer { iss := some a, sub := some e } ma.authority = a := by
    have := (r.kept.id a ma hma).2.1
    simp [Server.FetchRequest.issuer, this]
  have h84 := Server.C84_policies ma.authority issued { iss := some a, sub := some e } e d reg rfl k3 (by rw [hiss]; exact Ne.symm hae) hreg k5
  rw [k6]
  cases hl with
  | entity q mp h1 h2 h3 =>
    refine policy_get (h84.1 q _ h1 h2 ?_) h3 hc
    cases mp with
    | nil => cases h3
    | cons _ _ => rfl
  | type ts q h1 h2 h3 h4 h5 =>
    obtain ⟨mp, g1, g2⟩ := (h84.2 ts h1 h2).1 t q _ h3 h4 h5
    exact policy_get g1 g2 hc

/-- The constraints an authority has laid down are in the chains that go through it. -/
theorem Running.constrained (r : Running V J member host issued now st h stopAt rank) {entity : String} {m : Member} (he : member entity = some m) (hfuel : rank entity < V.fuel) {out : List TrustChain}
    (hg : (getVerified V st entity stopAt).1 = .ok out) {tc : TrustChain} (ht : tc ∈ out) {j : Jws} (hj : some j ∈ tc.chain) {a e : String} (hi : j.payload.iss = a) (hs : j.payload.sub = e) (hae : a ≠ e)
    {ma : Member} (hma : member a = some ma) {reg : Dict Val} (hreg : ma.authority.subordinate.get? e = some reg) {c : Dict Val} (hc : Constrains ma.authority e reg c) :
    j.payload.constraints = some (asConstr (.obj c)) := by
  obtain ⟨-, ma', reg', d, k1, k2, k3, k4, k5, k6⟩ := r.stated he hfuel hg ht hj hi hs hae
  rw [hma] at k1
  cases k1
  rw [hreg] at k4
  cases k4
  have hiss : Server.FetchRequest.issuer { iss := some a, sub := some e } ma.authority = a := by
    have := (r.kept.id a ma hma).2.1
    simp [Server.FetchRequest.issuer, this]
  obtain ⟨reg', kw, hr, -, hw, hcs⟩ := Server.fetch_foreign rfl k3 (by rw [hiss]; exact Ne.symm hae) k5
  rw [hreg] at hr
  cases hr
  have h1 := (Server.C59_payload _ _ _ _ _ _ _ hcs).2.2.2.1 "constraints" (by simp)
  have h2 := Server.withPolicies_get? hw "constraints" (by decide) (by decide) (by decide)
  rw [Server.get?_addHints _ _ _ (by decide), hc.1] at h2
  rw [h2] at h1
  rw [k6]
  have htr : (Val.obj c).truthy = true := by
    cases c with
    | nil => exact absurd rfl hc.2
    | cons _ _ => rfl
  simp only [decode, h1, Option.filter, htr, if_true, Option.map_some]

/-- What a name list in laid down constraints has. -/
def Lists (c : Dict Val) (kind : String) (ns : List String) : Prop :=
  ∃ nc, c.get? "naming_constraints" = some (.obj nc) ∧ Dict.get? nc kind = some (.arr (ns.map .str))

theorem lists_permitted {p : Payload} {c : Dict Val} {ns : List String} (h : p.constraints = some (asConstr (.obj c))) (hl : Lists c "permitted" ns) : permittedBy p = ns := by
  obtain ⟨nc, h1, h2⟩ := hl
  simp [permittedBy, h, asConstr, h1, h2, strs_arr]

theorem lists_excluded {p : Payload} {c : Dict Val} {ns : List String} (h : p.constraints = some (asConstr (.obj c))) (hl : Lists c "excluded" ns) : excludedBy p = ns := by
  obtain ⟨nc, h1, h2⟩ := hl
  simp [excludedBy, h, asConstr, h1, h2, strs_arr]

end

/-- C160 in full: the metadata of an entity resolved through an authority meets the policies the authority has laid down for the subordinate the chain goes through. -/
def C160_full : Prop :=
  ∀ (V : Env) (J : Jose) (member : String → Option Member) (host : Val → Option String) (issued now : Int) (st : State) (h : List Collect.FRun) (stopAt entity : String) (rank : String → Nat) (m : Member)
    (out : List TrustChain), Running V J member host issued now st h stopAt rank → member entity = some m → rank entity < V.fuel → (getVerified V st entity stopAt).1 = .ok out →
    ∀ tc ∈ out, ∀ j, some j ∈ tc.chain → j.payload.iss ≠ j.payload.sub → ∀ ma reg t claims c ops, member j.payload.iss = some ma → ma.authority.subordinate.get? j.payload.sub = some reg →
      LaysDown ma.authority j.payload.sub reg t claims → claims.get? c = some (.obj ops) → (∃ md, (objs m.authority.metadata).get? t = some md) →
      ∃ got, tc.metadata.get? t = some (.obj got) ∧ Meets ops (Dict.get? got c)

section
variable (V : Env) (J : Jose) (member : String → Option Member) (host : Val → Option String) (issued now : Int) (st : State) (h : List Collect.FRun) (stopAt entity : String) (rank : String → Nat) (m : Member)
  (out : List TrustChain) (r : Running V J member host issued now st h stopAt rank) (he : member entity = some m) (hfuel : rank entity < V.fuel) (hg : (getVerified V st entity stopAt).1 = .ok out)
  (tc : TrustChain) (ht : tc ∈ out) (j : Jws) (hj : some j ∈ tc.chain) (hne : j.payload.iss ≠ j.payload.sub) (ma : Member) (reg : Dict Val) (hma : member j.payload.iss = some ma)
  (hreg : ma.authority.subordinate.get? j.payload.sub = some reg)
include r he hfuel hg ht hj hne hma hreg

omit hma hreg hne hj in
theorem leaf_md {sups : List Payload} {leaf : Payload} (hv : tc.verified = sups ++ [leaf]) {t : String} {md : Dict Val} (hmd : (objs m.authority.metadata).get? t = some md) : leaf.md.get? t = some md := by
  obtain ⟨p, -, -, hv'⟩ := r.chains he hfuel hg ht
  rw [hv] at hv'
  have := List.append_inj_right' hv' rfl
  simp only [List.cons.injEq, and_true] at this
  subst this
  have htr : m.authority.metadata.truthy = true := by
    cases hm : m.authority.metadata with
    | obj d =>
      cases d with
      | nil => rw [hm] at hmd; cases hmd
      | cons x xs => rfl
    | null => rw [hm] at hmd; cases hmd
    | bool b => rw [hm] at hmd; cases hmd
    | int b => rw [hm] at hmd; cases hmd
    | str b => rw [hm] at hmd; cases hmd
    | arr b => rw [hm] at hmd; cases hmd
  simp [Payload.md, (r.kept.cfg (issued := issued) he).2.metadata, htr, hmd]

/-- C160 for `subset_of`: of what the entity lists, only what the authority allows is resolved, if no statement of the chain fixes the claim. -/
theorem C160_subset_of_partial (t c : String) (claims ops : Dict Val) (hl : LaysDown ma.authority j.payload.sub reg t claims) (hc : claims.get? c = some (.obj ops)) (md : Dict Val)
    (hmd : (objs m.authority.metadata).get? t = some md) (ds L : List Val) (hd : md.get? c = some (.arr ds)) (hL : ops.get? "subset_of" = some (.arr L))
    (hn : ∀ x ∈ tc.verified, ∀ p, Asks x t c p → p.get? "value" = none) :
    ∃ got xs, tc.metadata.get? t = some (.obj got) ∧ Dict.get? got c = some (.arr xs) ∧ xs ≠ [] ∧ ∀ x ∈ xs, x ∈ L := by
  obtain ⟨⟨sups, leaf, hv, -, hjs⟩, -⟩ := r.stated he hfuel hg ht hj rfl rfl hne
  have ha := r.laidDown he hfuel hg ht hj rfl rfl hne hma hreg hl hc
  exact C111_subset_of_partial V st entity stopAt out hg tc ht sups leaf hv j.payload hjs t c ops md (leaf_md V J member host issued now st h stopAt entity rank m out r he hfuel hg tc ht hv hmd) ha
    (fun x hx p hp => hn x (by rw [hv]; simp [hx]) p hp) ds L hd hL

/-- C160 for `one_of`: a single value resolved is one the authority allows, if no statement of the chain fixes the claim. -/
theorem C160_one_of_partial (t c : String) (claims ops : Dict Val) (hl : LaysDown ma.authority j.payload.sub reg t claims) (hc : claims.get? c = some (.obj ops)) (md : Dict Val)
    (hmd : (objs m.authority.metadata).get? t = some md) (L : List Val) (hL : ops.get? "one_of" = some (.arr L)) (hn : ∀ x ∈ tc.verified, ∀ p, Asks x t c p → p.get? "value" = none) :
    ∃ got, tc.metadata.get? t = some (.obj got) ∧ ∀ v, Dict.get? got c = some v → (∀ xs, v ≠ .arr xs) → v ∈ L := by
  obtain ⟨⟨sups, leaf, hv, -, hjs⟩, -⟩ := r.stated he hfuel hg ht hj rfl rfl hne
  have ha := r.laidDown he hfuel hg ht hj rfl rfl hne hma hreg hl hc
  exact C111_one_of_partial V st entity stopAt out hg tc ht sups leaf hv j.payload hjs t c ops md (leaf_md V J member host issued now st h stopAt entity rank m out r he hfuel hg tc ht hv hmd) ha
    (fun x hx p hp => hn x (by rw [hv]; simp [hx]) p hp) L hL

/-- C160 for `essential`: a claim the authority calls essential is in what is resolved. (Whether claims are essential is said with true or false.) -/
theorem C160_essential_partial (t c : String) (claims ops : Dict Val) (hl : LaysDown ma.authority j.payload.sub reg t claims) (hc : claims.get? c = some (.obj ops)) (md : Dict Val)
    (hmd : (objs m.authority.metadata).get? t = some md) (hess : ops.get? "essential" = some (.bool true))
    (hb : ∀ x ∈ tc.verified, ∀ c p e, Asks x t c p → p.get? "essential" = some e → ∃ b, e = .bool b) :
    ∃ got v, tc.metadata.get? t = some (.obj got) ∧ Dict.get? got c = some v := by
  obtain ⟨⟨sups, leaf, hv, -, hjs⟩, -⟩ := r.stated he hfuel hg ht hj rfl rfl hne
  have ha := r.laidDown he hfuel hg ht hj rfl rfl hne hma hreg hl hc
  exact C111_essential_partial V st entity stopAt out hg tc ht sups leaf hv j.payload hjs t c ops md (leaf_md V J member host issued now st h stopAt entity rank m out r he hfuel hg tc ht hv hmd) ha
    (fun x hx c p e => hb x (by rw [hv]; simp [hx]) c p e) hess

/-- C160 for `add`: what the authority adds is in what is resolved, if no statement of the chain fixes the claim or limits it by `subset_of`. -/
theorem C160_add_partial (t c : String) (claims ops : Dict Val) (hl : LaysDown ma.authority j.payload.sub reg t claims) (hc : claims.get? c = some (.obj ops)) (md : Dict Val)
    (hmd : (objs m.authority.metadata).get? t = some md) (a : Val) (hadd : ops.get? "add" = some a) (hn : ∀ x ∈ tc.verified, ∀ p, Asks x t c p → p.get? "value" = none ∧ p.get? "subset_of" = none) :
    ∃ got, tc.metadata.get? t = some (.obj got) ∧ ∀ y ∈ Policy.held (some a), y ∈ Policy.held (Dict.get? got c) := by
  obtain ⟨⟨sups, leaf, hv, -, hjs⟩, -⟩ := r.stated he hfuel hg ht hj rfl rfl hne
  have ha := r.laidDown he hfuel hg ht hj rfl rfl hne hma hreg hl hc
  exact C111_add_partial V st entity stopAt out hg tc ht sups leaf hv j.payload hjs t c ops md (leaf_md V J member host issued now st h stopAt entity rank m out r he hfuel hg tc ht hv hmd) ha
    (fun x hx p hp => hn x (by rw [hv]; simp [hx]) p hp) a hadd

/-- C160 for permitted names: an entity resolved through an authority that permits only some names below a subordinate has one of them, if no statement above in the chain lists permitted names. -/
theorem C160_permitted_partial (c : Dict Val) (hc : Constrains ma.authority j.payload.sub reg c) (ns : List String) (hns : Lists c "permitted" ns) (hne' : ns ≠ [])
    (hfirst : ∀ pre post, tc.verified = pre ++ j.payload :: post → ∀ x ∈ pre, permittedBy x = []) : ∃ n ∈ ns, Constraints.moreSpecific entity n = .ok true := by
  obtain ⟨⟨sups, leaf, hv, hleaf, hjs⟩, -⟩ := r.stated he hfuel hg ht hj rfl rfl hne
  have hcon := r.constrained he hfuel hg ht hj rfl rfl hne hma hreg hc
  obtain ⟨pre, post, rfl⟩ := List.append_of_mem hjs
  have hp := lists_permitted hcon hns
  have := (C110_permitted_partial V st entity stopAt out hg tc ht pre post j.payload leaf hv (hfirst pre (post ++ [leaf]) (by rw [hv]; simp)) (by rw [hp]; exact hne')).1
  rw [hp] at this
  have hsub : leaf.sub = entity := by
    rw [hleaf, (r.kept.cfg (issued := issued) he).2.sub, (r.kept.id entity m he).1]
  rw [hsub] at this
  exact this

/-- C160 for excluded names: an entity resolved through an authority that excludes a name below a subordinate does not have it, if no statement above in the chain excludes any and none below excludes a part
of it. -/
theorem C160_excluded_partial (c : Dict Val) (hc : Constrains ma.authority j.payload.sub reg c) (ns : List String) (hns : Lists c "excluded" ns) (n : String) (hn : n ∈ ns)
    (hfirst : ∀ pre post, tc.verified = pre ++ j.payload :: post → (∀ x ∈ pre, excludedBy x = []) ∧ ∀ x ∈ post, ∀ k ∈ excludedBy x, Constraints.moreSpecific k n = .ok true → k = n) :
    Constraints.moreSpecific entity n = .ok false := by
  obtain ⟨⟨sups, leaf, hv, hleaf, hjs⟩, -⟩ := r.stated he hfuel hg ht hj rfl rfl hne
  have hcon := r.constrained he hfuel hg ht hj rfl rfl hne hma hreg hc
  obtain ⟨pre, post, rfl⟩ := List.append_of_mem hjs
  have hp := lists_excluded hcon hns
  obtain ⟨f1, f2⟩ := hfirst pre (post ++ [leaf]) (by rw [hv]; simp)
  have := (C110_excluded_partial V st entity stopAt out hg tc ht pre post j.payload leaf hv f1 n (by rw [hp]; exact hn) (fun x hx => f2 x (by simp [hx]))).1
  have hsub : leaf.sub = entity := by
    rw [hleaf, (r.kept.cfg (issued := issued) he).2.sub, (r.kept.id entity m he).1]
  rw [hsub] at this
  exact this

/-- C160 for `value`: a value the authority fixes for a claim is the one resolved. -/
theorem C160_value_partial (t c : String) (claims ops : Dict Val) (hl : LaysDown ma.authority j.payload.sub reg t claims) (hc : claims.get? c = some (.obj ops)) (md : Dict Val)
    (hmd : (objs m.authority.metadata).get? t = some md) (v : Val) (hval : ops.get? "value" = some v) :
    ∃ got, tc.metadata.get? t = some (.obj got) ∧ Dict.get? got c = some v := by
  obtain ⟨⟨sups, leaf, hv, -, hjs⟩, -⟩ := r.stated he hfuel hg ht hj rfl rfl hne
  obtain ⟨mp, h1, h2⟩ := r.laidDown he hfuel hg ht hj rfl rfl hne hma hreg hl hc
  obtain ⟨_, _, tcs, _, _, h3, -⟩ := getVerified_ok hg
  obtain ⟨tc0, _, ha⟩ := (applyPolicies_mem h3).1 tc ht
  exact applyToChain_fixed ha sups leaf hv j.payload hjs t c md (leaf_md V J member host issued now st h stopAt entity rank m out r he hfuel hg tc ht hv hmd) mp ops v h1 h2 hval

end

/-! ### An example

The federation of C133, with policies `ta` and `im` have laid down: `ta` for `im`, `im` for relying parties. The constraints are in the entry of `im`.
-/
namespace Ex
def entry160 : Dict Val := [("jwks", .int 2), ("constraints", .obj [("naming_constraints", .obj [("permitted", .arr [.str "https://im", .str "https://leaf"]), ("excluded", .arr [.str "https://other"])])])]
def mTa160 (pol : Dict (Dict Val)) : Member :=
  { authority := { entityId := "https://ta", ownKeys := .int 1, metadata := serves "https://ta/fetch", hints := .arr [], subordinate := [("https://im", entry160)], policy := pol } }
def mIm160 (pol : Dict (Dict Val)) : Member :=
  { authority := { entityId := "https://im", ownKeys := .int 2, metadata := .obj [("federation_entity", .obj imEntity)], hints := .arr [.str "https://ta"], subordinate := imRegistry, policy := pol } }
def member160 (ta im : Dict (Dict Val)) : String → Option Member
  | "https://ta" => some (mTa160 ta)
  | "https://im" => some (mIm160 im)
  | "https://leaf" => some mLeaf
  | _ => none
def forScopes (ops : Dict Val) : Dict Val := [("scopes", .obj ops)]
def ta160 : Dict (Dict Val) := [("https://im", [("metadata_policy", .obj [("openid_relying_party", .obj (forScopes [("subset_of", .arr [.str "openid", .str "phone"])]))])])]
def im160 (ops : Dict Val) : Dict (Dict Val) := [("openid_relying_party", [("metadata_policy", .obj (forScopes ops))])]

theorem member160_some {ta im : Dict (Dict Val)} {e : String} {m : Member} (h : member160 ta im e = some m) :
    (e = "https://ta" ∧ m = mTa160 ta) ∨ (e = "https://im" ∧ m = mIm160 im) ∨ (e = "https://leaf" ∧ m = mLeaf) := by
  unfold member160 at h
  split at h <;> simp_all

theorem wellKept160 (ops : Dict Val) : WellKept J L (member160 ta160 (im160 ops)) host133 [("https://ta", [1])] rank109 where
  id e m h := by
    rcases member160_some h with ⟨rfl, rfl⟩ | ⟨rfl, rfl⟩ | ⟨rfl, rfl⟩ <;> exact ⟨rfl, by decide, by decide⟩
  signs e m d h := by
    rcases member160_some h with ⟨rfl, rfl⟩ | ⟨rfl, rfl⟩ | ⟨rfl, rfl⟩
    · exact ⟨1, List.mem_singleton.2 rfl, rfl, rfl⟩
    · exact ⟨2, List.mem_singleton.2 rfl, rfl, rfl⟩
    · exact ⟨3, by decide, rfl, rfl⟩
  time j x t hx ht := by
    simp only [L, notExpired, hx, decide_eq_true_eq]
    omega
  hints e m h := by
    rcases member160_some h with ⟨rfl, rfl⟩ | ⟨rfl, rfl⟩ | ⟨rfl, rfl⟩
    · exact .inr ⟨[], rfl⟩
    · exact .inr ⟨["https://ta"], rfl⟩
    · exact .inr ⟨["https://im"], rfl⟩
  superior e m a h ha := by
    rcases member160_some h with ⟨rfl, rfl⟩ | ⟨rfl, rfl⟩ | ⟨rfl, rfl⟩
    · cases ha
    · have : a = "https://ta" := by simpa [mIm160, strs] using ha
      subst this
      refine ⟨mTa160 ta160, entry160, [("federation_fetch_endpoint", .str "https://ta/fetch")], .str "https://ta/fetch", rfl, by decide, ⟨rfl, ⟨.int 2, rfl, rfl⟩, ?_, ?_, rfl⟩, rfl, rfl, rfl, rfl⟩
      · intro v hv; cases hv
      · decide
    · have : a = "https://im" := by simpa [mLeaf, strs] using ha
      subst this
      refine ⟨mIm160 (im160 ops), [("jwks", .int 3), ("entity_types", .arr [.str "openid_relying_party"])], imEntity, .str "https://im/fetch", rfl, by decide,
        ⟨rfl, ⟨.int 3, rfl, rfl⟩, ?_, ?_, rfl⟩, rfl, rfl, rfl, rfl⟩
      · intro v hv
        cases hv
        exact ⟨["openid_relying_party"], rfl⟩
      · intro k hk
        simp only [List.mem_cons, List.not_mem_nil, or_false] at hk
        rcases hk with rfl | rfl | rfl | rfl | rfl <;> exact ⟨rfl, rfl⟩
  requests e m h r hr := by
    rcases member160_some h with ⟨rfl, rfl⟩ | ⟨rfl, rfl⟩ | ⟨rfl, rfl⟩ <;> cases hr
  anchors e m h hh := by
    rcases member160_some h with ⟨rfl, rfl⟩ | ⟨rfl, rfl⟩ | ⟨rfl, rfl⟩
    · refine ⟨by decide, fun k hk => ?_⟩
      have hk : k ∈ [1] := hk
      simpa [KeyJar.keysOf, Dict.get?] using hk
    · cases hh
    · cases hh

def env160 (ops : Dict Val) : Env := env ((world J (member160 ta160 (im160 ops)) host133 0).at 100)

theorem running160 (ops : Dict Val) : Running (env160 ops) J (member160 ta160 (im160 ops)) host133 0 100 st [] "" rank109 where
  kept := wellKept160 ops
  world := rfl
  coll := rfl
  order := by simp
  past := by simp
  plain := by simp
  fresh := by
    show (100 : Int) < 0 + 86400 - 300 ∧ (100 : Int) < 0 + 86400
    decide
  stop := .none rfl

/-- What `ta` states about `im`, and what `im` states about `leaf`. -/
def taAbout : Payload :=
  { iss := "https://ta", sub := "https://im", exp := some 86400, jwks := some [2], hints := some ["https://ta"], policy := [("openid_relying_party", [("scopes", [("subset_of", .arr [.str "openid", .str "phone"])])])], constraints := some ⟨none, some ⟨some ["https://im", "https://leaf"], some ["https://other"]⟩⟩ }
def imAbout (ops : Dict Val) : Payload :=
  { iss := "https://im", sub := "https://leaf", exp := some 86400, jwks := some [3], hints := some ["https://im"], policy := [("openid_relying_party", [("scopes", ops)])] }
def leafConf : Payload :=
  { iss := "https://leaf", sub := "https://leaf", exp := some 86400, jwks := some [3], hints := some ["https://im"], metadata := some (rp (.arr [.str "email", .str "openid"])) }
def chain160 (ops : Dict Val) (v : Val) : TrustChain where
  anchor := "https://ta"
  issPath := ["https://leaf", "https://im", "https://ta"]
  exp := 86400
  verified := [taAbout, imAbout ops, leafConf]
  chain := [some ⟨taAbout, 1⟩, some ⟨imAbout ops, 2⟩, some ⟨leafConf, 3⟩]
  metadata := [("openid_relying_party", .obj [("scopes", v)])]
end Ex

/-- `ta` allows the scopes `openid` and `phone`, `im` wants some: of what `leaf` lists, `openid` is left. -/
theorem Ex.resolved160 : (getVerified (Ex.env160 [("essential", .bool true)]) Ex.st "https://leaf").1 = .ok [Ex.chain160 [("essential", .bool true)] (.arr [.str "openid"])] := by decide +kernel

example : ∃ got xs, (Ex.chain160 [("essential", .bool true)] (.arr [.str "openid"])).metadata.get? "openid_relying_party" = some (.obj got) ∧ Dict.get? got "scopes" = some (.arr xs) ∧ xs ≠ [] ∧
    ∀ x ∈ xs, x ∈ [Val.str "openid", .str "phone"] :=
  C160_subset_of_partial _ _ _ _ _ _ _ _ _ _ _ Ex.mLeaf _ (Ex.running160 [("essential", .bool true)]) rfl (by decide) Ex.resolved160 _ (List.mem_singleton.2 rfl) ⟨Ex.taAbout, 1⟩ (by decide) (by decide)
    (Ex.mTa160 Ex.ta160) Ex.entry160 rfl rfl "openid_relying_party" "scopes" _ [("subset_of", .arr [.str "openid", .str "phone"])] (.entity _ _ rfl rfl rfl) rfl _ rfl _ _ rfl rfl
    (by
      intro x hx p hp
      simp only [Ex.chain160, List.mem_cons, List.not_mem_nil, or_false] at hx
      obtain ⟨mp, h1, h2⟩ := hp
      rcases hx with rfl | rfl | rfl
      · cases h1; cases h2; rfl
      · cases h1; cases h2; rfl
      · cases h1)

/-- The claim `im` calls essential for relying parties, and the names `ta` permits and excludes below `im`. -/
example : LaysDown (Ex.mIm160 (Ex.im160 [("essential", .bool true)])).authority "https://leaf" [("jwks", .int 3), ("entity_types", .arr [.str "openid_relying_party"])] "openid_relying_party"
    (Ex.forScopes [("essential", .bool true)]) := .type _ _ rfl rfl (List.mem_singleton.2 rfl) rfl rfl
example : ∃ n ∈ ["https://im", "https://leaf"], Constraints.moreSpecific "https://leaf" n = .ok true :=
  C160_permitted_partial _ _ _ _ _ _ _ _ _ _ _ Ex.mLeaf _ (Ex.running160 [("essential", .bool true)]) rfl (by decide) Ex.resolved160 _ (List.mem_singleton.2 rfl) ⟨Ex.taAbout, 1⟩ (by decide) (by decide)
    (Ex.mTa160 Ex.ta160) Ex.entry160 rfl rfl _ ⟨rfl, by simp⟩ _ ⟨_, rfl, rfl⟩ (by simp) (by
      intro pre post h x hx
      cases pre with
      | nil => cases hx
      | cons y pre =>
        exfalso
        have : Ex.taAbout ∈ pre ++ Ex.taAbout :: post := by simp
        injection h with h1 h2
        rw [show pre ++ Ex.taAbout :: post = _ from h2.symm] at this
        revert this
        decide)
example : Lists [("naming_constraints", .obj [("permitted", .arr [.str "https://im", .str "https://leaf"]), ("excluded", .arr [.str "https://other"])])] "excluded" ["https://other"] := ⟨_, rfl, rfl⟩

/-- C160 does not hold: what `im` fixes for its relying parties is resolved, though `ta` does not allow it. -/
theorem C160_violation : ¬ C160_full := by
  intro h
  have hr : (getVerified (Ex.env160 [("value", .arr [.str "admin"])]) Ex.st "https://leaf").1 = .ok [Ex.chain160 [("value", .arr [.str "admin"])] (.arr [.str "admin"])] := by decide +kernel
  obtain ⟨got, h1, h2, -⟩ := h _ _ _ _ _ _ _ _ "" "https://leaf" _ Ex.mLeaf _ (Ex.running160 [("value", .arr [.str "admin"])]) rfl (by decide) hr _ (List.mem_singleton.2 rfl) ⟨Ex.taAbout, 1⟩ (by decide) (by decide)
    (Ex.mTa160 Ex.ta160) Ex.entry160 "openid_relying_party" _ "scopes" [("subset_of", .arr [.str "openid", .str "phone"])] rfl rfl (.entity _ _ rfl rfl rfl) rfl ⟨_, rfl⟩
  simp only [Ex.chain160, Dict.get?_cons, if_true, Option.some.injEq, Val.obj.injEq] at h1
  subst h1
  exact absurd (h2.2.2.1 [.str "openid", .str "phone"] (by decide) (.str "admin") (by decide)) (by decide)

end Fed.Chains
