import Verif.Policy.CombineProps
/-
Property C111, on the level of metadata policies: `essential` and `add` of every statement of a chain.
-/
namespace Fed.Policy
open Fed

/-- What combining guarantees of a claim policy `p` that went into `r`: `add` survives, or the value is fixed. -/
structure Adds (p r : ClaimPolicy) : Prop where
  value : ∀ x, p.get? "value" = some x → r.get? "value" = some x
  add : ∀ a, p.get? "add" = some a → (r.get? "value").isSome ∨ ∃ a', r.get? "add" = some a' ∧ ∀ y ∈ held (some a), y ∈ held (some a')

/-- The same for `essential`. -/
structure Demands (p r : ClaimPolicy) : Prop where
  value : ∀ x, p.get? "value" = some x → r.get? "value" = some x
  essential : p.get? "essential" = some (.bool true) → (r.get? "value").isSome ∨ r.get? "essential" = some (.bool true)

theorem Adds.refl (p : ClaimPolicy) : Adds p p := ⟨fun _ h => h, fun a h => Or.inr ⟨a, h, fun _ h => h⟩⟩
theorem Demands.refl (p : ClaimPolicy) : Demands p p := ⟨fun _ h => h, Or.inr⟩

theorem fixed_mono {q r : ClaimPolicy} (h : ∀ x, q.get? "value" = some x → r.get? "value" = some x) (hv : (q.get? "value").isSome) : (r.get? "value").isSome := by
  obtain ⟨x, hx⟩ := Option.isSome_iff_exists.1 hv
  rw [h x hx]; rfl

theorem Demands.trans {p q r : ClaimPolicy} (h : Demands p q) (h' : Demands q r) : Demands p r := by
  refine ⟨fun x hx => h'.value x (h.value x hx), fun he => ?_⟩
  rcases h.essential he with hv | hq
  · exact Or.inl (fixed_mono h'.value hv)
  · exact h'.essential hq

theorem Adds.trans {p q r : ClaimPolicy} (h : Adds p q) (h' : Adds q r) : Adds p r := by
  refine ⟨fun x hx => h'.value x (h.value x hx), fun a ha => ?_⟩
  rcases h.add a ha with hv | ⟨a', h1, h2⟩
  · exact Or.inl (fixed_mono h'.value hv)
  · rcases h'.add a' h1 with hv | ⟨a'', h3, h4⟩
    · exact Or.inl hv
    · exact Or.inr ⟨a'', h3, fun y hy => h4 y (h2 y hy)⟩

theorem setOrSingleton_held {v : Val} {a : List Val} (h : setOrSingleton v = .ok a) : a = held (some v) := by
  rcases (setOrSingleton_ok h).2 with ⟨xs, rfl, rfl⟩ | ⟨hl, rfl⟩
  · rfl
  · cases v <;> simp_all [held, Val.isList]

theorem combineFree_add {E : SetEnum Val} {K : SetEnum String} {s c rule : ClaimPolicy} (h : combineFree E K s c = .ok rule) :
    (s.get? "add" = none ∧ rule.get? "add" = c.get? "add") ∨ (c.get? "add" = none ∧ rule.get? "add" = s.get? "add") ∨
    ∃ x y L, s.get? "add" = some x ∧ c.get? "add" = some y ∧ rule.get? "add" = some (.arr L) ∧
      ∀ z, z ∈ L ↔ z ∈ held (some x) ∨ z ∈ held (some y) := by
  obtain ⟨_, _, _, h1, h2⟩ := combineFree_ok h
  by_cases hm : "add" ∈ combPolicy s c
  · obtain ⟨v, hv, hr⟩ := h1 _ hm
    rw [doPolicy_set (Or.inl rfl)] at hv
    unfold doSubOneSuperAdd at hv
    cases hs : s.get? "add" with
    | none =>
      cases hc : c.get? "add" with
      | none => simp [mem_combPolicy, hs, hc] at hm
      | some y => simp [hs, hc] at hv; left; exact ⟨rfl, by rw [hr, hv]⟩
    | some x =>
      cases hc : c.get? "add" with
      | none => simp [hs, hc] at hv; right; left; exact ⟨rfl, by rw [hr, hv]⟩
      | some y =>
        right; right
        simp only [hs, hc, op2func, if_true, combineAdd] at hv
        cases ha : setOrSingleton x with
        | error e => simp [ha] at hv
        | ok a =>
          cases hb : setOrSingleton y with
          | error e => simp [ha, hb] at hv
          | ok b =>
            simp only [ha, hb, ok_bind, except_pure] at hv
            split at hv
            · simp only [Except.ok.injEq] at hv
              refine ⟨x, y, _, rfl, rfl, by rw [hr, ← hv], ?_⟩
              intro z
              rw [E.mem_enum, List.mem_append, setOrSingleton_held ha, setOrSingleton_held hb]
            · simp at hv
  · left
    have : s.get? "add" = none ∧ c.get? "add" = none := by
      rw [mem_combPolicy] at hm
      simp only [show "add" ∈ policyFunctions by decide, true_and, not_or] at hm
      simpa using hm
    exact ⟨this.1, by rw [h2 _ hm, this.2]⟩

theorem combineClaim_boolEssential {E : SetEnum Val} {K : SetEnum String} {s c r : ClaimPolicy}
    (hs : BoolEssential s) (hc : BoolEssential c) (h : combineClaimPolicy E K s c = .ok r) : BoolEssential r := by
  unfold combineClaimPolicy at h
  intro x hx
  cases hv : s.get? "value" with
  | some v =>
    simp only [hv] at h
    obtain ⟨_, ⟨rfl, _⟩ | ⟨e, rfl, _, he⟩⟩ := combineFixed_ok hv h
    · exact hs x hx
    · simp only [Dict.get?_cons, Dict.get?_nil, String.reduceEq, if_false, if_true, Option.some.injEq] at hx
      subst hx; exact hc e he
  | none =>
    simp only [hv] at h
    rcases combineFree_essential h with ⟨_, e⟩ | ⟨_, e⟩ | ⟨x', y, e1, e2, _, e⟩
    · exact hc x (by rw [← e, hx])
    · exact hs x (by rw [← e, hx])
    · rw [e, Option.some.injEq] at hx
      subst hx
      split
      · exact ⟨true, rfl⟩
      · exact hs x' e1

theorem combineClaim_demands {E : SetEnum Val} {K : SetEnum String} {s c r : ClaimPolicy} (hbs : BoolEssential s)
    (h : combineClaimPolicy E K s c = .ok r) : Demands s r ∧ Demands c r := by
  obtain ⟨v1, v2⟩ := combineClaim_value h
  unfold combineClaimPolicy at h
  cases hs : s.get? "value" with
  | some x =>
    have hr : (r.get? "value").isSome := by rw [v1 x hs]; rfl
    exact ⟨⟨v1, fun _ => Or.inl hr⟩, ⟨v2, fun _ => Or.inl hr⟩⟩
  | none =>
    simp only [hs] at h
    have he := combineFree_essential h
    refine ⟨⟨v1, fun hes => Or.inr ?_⟩, ⟨v2, fun hec => Or.inr ?_⟩⟩
    · rcases he with ⟨e1, _⟩ | ⟨_, e2⟩ | ⟨x, y, e1, _, _, e2⟩
      · rw [e1] at hes; simp at hes
      · rw [e2, hes]
      · rw [e1, Option.some.injEq] at hes; subst hes; simpa [Val.truthy] using e2
    · rcases he with ⟨_, e2⟩ | ⟨e1, _⟩ | ⟨x, y, e1, e1', e4, e2⟩
      · rw [e2, hec]
      · rw [e1] at hec; simp at hec
      · rw [e1', Option.some.injEq] at hec; subst hec
        rw [e2]
        obtain ⟨b, rfl⟩ := hbs x e1
        cases b <;> rfl

theorem combineClaim_adds {E : SetEnum Val} {K : SetEnum String} {s c r : ClaimPolicy}
    (h : combineClaimPolicy E K s c = .ok r) : Adds s r ∧ Adds c r := by
  obtain ⟨v1, v2⟩ := combineClaim_value h
  unfold combineClaimPolicy at h
  cases hs : s.get? "value" with
  | some x =>
    have hr : (r.get? "value").isSome := by rw [v1 x hs]; rfl
    exact ⟨⟨v1, fun _ _ => Or.inl hr⟩, ⟨v2, fun _ _ => Or.inl hr⟩⟩
  | none =>
    simp only [hs] at h
    have ha := combineFree_add h
    refine ⟨⟨v1, fun a has => Or.inr ?_⟩, ⟨v2, fun a hac => Or.inr ?_⟩⟩
    · rcases ha with ⟨e1, _⟩ | ⟨_, e2⟩ | ⟨x, y, L, e1, _, e2, e3⟩
      · rw [e1] at has; simp at has
      · exact ⟨a, by rw [e2, has], fun _ h => h⟩
      · rw [e1, Option.some.injEq] at has; subst has
        exact ⟨_, e2, fun z hz => (e3 z).2 (Or.inl hz)⟩
    · rcases ha with ⟨_, e2⟩ | ⟨e1, _⟩ | ⟨x, y, L, _, e1, e2, e3⟩
      · exact ⟨a, by rw [e2, hac], fun _ h => h⟩
      · rw [e1] at hac; simp at hac
      · rw [e1, Option.some.injEq] at hac; subst hac
        exact ⟨_, e2, fun z hz => (e3 z).2 (Or.inr hz)⟩

/-- What holds of every combination of two claim policies holds of all statements of a chain. -/
theorem gatherRest_rel {E : SetEnum Val} {K : SetEnum String} {t : String} {Inv : ClaimPolicy → Prop} {Rel : ClaimPolicy → ClaimPolicy → Prop}
    (hrefl : ∀ p, Rel p p) (htrans : ∀ {p q r}, Rel p q → Rel q r → Rel p r)
    (hcomb : ∀ {s c r}, Inv s → Inv c → combineClaimPolicy E K s c = .ok r → Inv r ∧ Rel s r ∧ Rel c r) {chain : List PStatement} :
    ∀ {rule R : Rule}, gatherRest E K t chain rule = .ok R → (∀ c p, rule.policy.get? c = some p → Inv p) →
    (∀ es ∈ chain, ∀ c p, (es.rule t).policy.get? c = some p → Inv p) →
    (∀ c p, rule.policy.get? c = some p → ∃ q, R.policy.get? c = some q ∧ Rel p q) ∧
    ∀ es ∈ chain, ∀ c p, (es.rule t).policy.get? c = some p → ∃ q, R.policy.get? c = some q ∧ Rel p q := by
  induction chain with
  | nil =>
    intro rule R h _ _
    simp only [gatherRest, Except.ok.injEq] at h; subst h
    exact ⟨fun c p hp => ⟨p, hp, hrefl p⟩, by simp⟩
  | cons es chain ih =>
    intro rule R h hi0 hi
    have hi' : ∀ es ∈ chain, ∀ c p, (es.rule t).policy.get? c = some p → Inv p := fun e he => hi e (by simp [he])
    have hie := hi es (by simp)
    simp only [gatherRest] at h
    split at h
    · next he =>
      obtain ⟨i1, i2⟩ := ih h hi0 hi'
      refine ⟨i1, ?_⟩
      intro es' hes'
      rcases List.mem_cons.1 hes' with rfl | hm
      · intro c x hx; rw [he] at hx; simp at hx
      · exact i2 es' hm
    · split at h
      · simp at h
      · cases hc : combine E K rule (es.rule t) with
        | error e => simp [hc] at h
        | ok rule' =>
          simp only [hc, ok_bind] at h
          have hp := (combine_ok hc).2.2
          have hi1 : ∀ c p, rule'.policy.get? c = some p → Inv p := by
            intro c p hpc
            have := hp c
            rw [hpc] at this
            cases ha : rule.policy.get? c with
            | none => rw [ha] at this; exact hie c p this.symm
            | some a =>
              cases hb : (es.rule t).policy.get? c with
              | none => rw [ha, hb] at this; simp only [CombinedClaim, Option.some.injEq] at this; subst this; exact hi0 c p ha
              | some b =>
                rw [ha, hb] at this
                obtain ⟨q, hq, e⟩ := this
                simp only [Option.some.injEq] at e; subst e
                exact (hcomb (hi0 c a ha) (hie c b hb) hq).1
          obtain ⟨i1, i2⟩ := ih h hi1 hi'
          constructor
          · intro c p hpc
            have := hp c
            rw [hpc] at this
            cases hb : (es.rule t).policy.get? c with
            | none => rw [hb] at this; exact i1 c p this
            | some b =>
              rw [hb] at this
              obtain ⟨q, hq, e⟩ := this
              obtain ⟨q', h1, h2⟩ := i1 c q e
              exact ⟨q', h1, htrans (hcomb (hi0 c p hpc) (hie c b hb) hq).2.1 h2⟩
          · intro es' hes'
            rcases List.mem_cons.1 hes' with rfl | hm
            · intro c p hpc
              have := hp c
              rw [hpc] at this
              cases hb : rule.policy.get? c with
              | none => rw [hb] at this; exact i1 c p this
              | some b =>
                rw [hb] at this
                obtain ⟨q, hq, e⟩ := this
                obtain ⟨q', h1, h2⟩ := i1 c q e
                exact ⟨q', h1, htrans (hcomb (hi0 c b hb) (hie c p hpc) hq).2.2 h2⟩
            · exact i2 es' hm

/-- Every statement that says whether a claim of the type is essential says so with true or false. -/
def PlainEssential (chain : List PStatement) (t : String) : Prop :=
  ∀ es ∈ chain, ∀ mp c p, es.policy.get? t = some mp → mp.get? c = some p → BoolEssential p

theorem rule_policy {es : PStatement} {t c : String} {p : ClaimPolicy} (h : (es.rule t).policy.get? c = some p) :
    ∃ mp, es.policy.get? t = some mp ∧ mp.get? c = some p := by
  simp only [PStatement.rule] at h
  cases hm : es.policy.get? t with
  | none => rw [hm] at h; simp at h
  | some mp => rw [hm] at h; exact ⟨mp, rfl, h⟩

theorem gatherPolicies_demands {E : SetEnum Val} {K : SetEnum String} {t : String} {chain : List PStatement}
    {R : Rule} (h : gatherPolicies E K chain t = .ok R) (hb : PlainEssential chain t) {es : PStatement} (hes : es ∈ chain) {mp : MetadataPolicy}
    (hmp : es.policy.get? t = some mp) {c : String} {p : ClaimPolicy} (hp : mp.get? c = some p) :
    ∃ q, R.policy.get? c = some q ∧ Demands p q := by
  cases chain with
  | nil => simp at hes
  | cons e0 rest =>
    simp only [gatherPolicies] at h
    have hinv : ∀ e ∈ e0 :: rest, ∀ c p, (e.rule t).policy.get? c = some p → BoolEssential p := by
      intro e he c p hcp
      obtain ⟨mp, h1, h2⟩ := rule_policy hcp
      exact hb e he mp c p h1 h2
    obtain ⟨h1, h2⟩ := gatherRest_rel (Inv := BoolEssential) Demands.refl (fun a b => a.trans b)
      (fun hs hc hr => ⟨combineClaim_boolEssential hs hc hr, combineClaim_demands hs hr⟩) h (hinv e0 (by simp)) (fun e he => hinv e (by simp [he]))
    have hr : (es.rule t).policy.get? c = some p := by simp [PStatement.rule, hmp, hp]
    rcases List.mem_cons.1 hes with rfl | hm
    · exact h1 c p hr
    · exact h2 es hm c p hr

theorem gatherPolicies_adds {E : SetEnum Val} {K : SetEnum String} {t : String} {chain : List PStatement}
    {R : Rule} (h : gatherPolicies E K chain t = .ok R) {es : PStatement} (hes : es ∈ chain) {mp : MetadataPolicy}
    (hmp : es.policy.get? t = some mp) {c : String} {p : ClaimPolicy} (hp : mp.get? c = some p) :
    ∃ q, R.policy.get? c = some q ∧ Adds p q := by
  cases chain with
  | nil => simp at hes
  | cons e0 rest =>
    simp only [gatherPolicies] at h
    obtain ⟨h1, h2⟩ := gatherRest_rel (Inv := fun _ => True) Adds.refl (fun a b => a.trans b)
      (fun _ _ hr => ⟨trivial, combineClaim_adds hr⟩) h (fun _ _ _ => trivial) (fun _ _ _ _ _ => trivial)
    have hr : (es.rule t).policy.get? c = some p := by simp [PStatement.rule, hmp, hp]
    rcases List.mem_cons.1 hes with rfl | hm
    · exact h1 c p hr
    · exact h2 es hm c p hr

/-- No statement of the chain limits the claim by `subset_of`. -/
def NoSubset (chain : List PStatement) (t c : String) : Prop :=
  ∀ es ∈ chain, ∀ mp p, es.policy.get? t = some mp → mp.get? c = some p → p.get? "subset_of" = none

theorem combineClaim_noSubset {E : SetEnum Val} {K : SetEnum String} {s c r : ClaimPolicy} (hs : s.get? "subset_of" = none) (hc : c.get? "subset_of" = none)
    (h : combineClaimPolicy E K s c = .ok r) : r.get? "subset_of" = none := by
  unfold combineClaimPolicy at h
  cases hv : s.get? "value" with
  | some v =>
    simp only [hv] at h
    obtain ⟨_, ⟨rfl, _⟩ | ⟨e, rfl, _, he⟩⟩ := combineFixed_ok hv h
    · exact hs
    · simp [Dict.get?_cons]
  | none =>
    simp only [hv] at h
    rcases combineFree_inter h (op := "subset_of") (by simp) with ⟨_, e⟩ | ⟨_, e⟩ | ⟨x, _, _, _, e1, _⟩
    · rw [e, hc]
    · rw [e, hs]
    · rw [hs] at e1; simp at e1

theorem gatherRest_noSubset {E : SetEnum Val} {K : SetEnum String} {t c : String} {chain : List PStatement} : ∀ {rule R : Rule}, gatherRest E K t chain rule = .ok R →
    (∀ p, rule.policy.get? c = some p → p.get? "subset_of" = none) →
    (∀ es ∈ chain, ∀ p, (es.rule t).policy.get? c = some p → p.get? "subset_of" = none) →
    ∀ p, R.policy.get? c = some p → p.get? "subset_of" = none := by
  induction chain with
  | nil => intro rule R h h0 _; simp only [gatherRest, Except.ok.injEq] at h; subst h; exact h0
  | cons es chain ih =>
    intro rule R h h0 hn
    have hn' : ∀ es ∈ chain, ∀ p, (es.rule t).policy.get? c = some p → p.get? "subset_of" = none := fun es hes => hn es (by simp [hes])
    simp only [gatherRest] at h
    split at h
    · exact ih h h0 hn'
    · split at h
      · simp at h
      · cases hc : combine E K rule (es.rule t) with
        | error e => simp [hc] at h
        | ok rule' =>
          simp only [hc, ok_bind] at h
          refine ih h ?_ hn'
          intro p hp
          have := (combine_ok hc).2.2 c
          rw [hp] at this
          cases ha : rule.policy.get? c with
          | none => rw [ha] at this; exact hn es (by simp) p this.symm
          | some a =>
            cases hb : (es.rule t).policy.get? c with
            | none => rw [ha, hb] at this; simp only [CombinedClaim, Option.some.injEq] at this; subst this; exact h0 p ha
            | some b =>
              rw [ha, hb] at this
              obtain ⟨q, hq, e⟩ := this
              simp only [Option.some.injEq] at e; subst e
              exact combineClaim_noSubset (h0 a ha) (hn es (by simp) b hb) hq

theorem gatherPolicies_noSubset {E : SetEnum Val} {K : SetEnum String} {t c : String} {chain : List PStatement}
    {R : Rule} (h : gatherPolicies E K chain t = .ok R) (hn : NoSubset chain t c) :
    ∀ p, R.policy.get? c = some p → p.get? "subset_of" = none := by
  have hr : ∀ es ∈ chain, ∀ p, (es.rule t).policy.get? c = some p → p.get? "subset_of" = none := by
    intro es hes p hp
    obtain ⟨mp, h1, h2⟩ := rule_policy hp
    exact hn es hes mp p h1 h2
  cases chain with
  | nil => simp [gatherPolicies] at h
  | cons e0 rest =>
    simp only [gatherPolicies] at h
    exact gatherRest_noSubset h (hr e0 (by simp)) (fun es hes => hr es (by simp [hes]))

/-- A claim that any statement of the chain declares essential is there. -/
theorem policyFor_essential {E : SetEnum Val} {K : SetEnum String} {sups : List PStatement} {leaf : PStatement} {t c : String}
    {md' : Metadata} (h : policyFor E K sups leaf t = .ok (some md')) (hb : PlainEssential sups t) {es : PStatement} (hes : es ∈ sups)
    {mp : MetadataPolicy} {p : ClaimPolicy} (hmp : es.policy.get? t = some mp) (hp : mp.get? c = some p)
    (he : p.get? "essential" = some (.bool true)) : ∃ v, md'.get? c = some v := by
  obtain ⟨R, md, hg, _, ha⟩ := policyFor_inv h
  obtain ⟨q, hq, hs⟩ := gatherPolicies_demands hg hb hes hmp hp
  rcases hs.essential he with hv | he'
  · obtain ⟨x, hx⟩ := Option.isSome_iff_exists.1 hv
    exact ⟨x, C01_value_final E K md md' R c q x ha hq hx⟩
  · exact C07_essential_present E K md md' R c q ha hq he'

/-- What any statement of the chain adds to a claim is there, unless the value is fixed or limited by `subset_of`. -/
theorem policyFor_add {E : SetEnum Val} {K : SetEnum String} {sups : List PStatement} {leaf : PStatement} {t c : String}
    {md' : Metadata} (h : policyFor E K sups leaf t = .ok (some md')) (hn : NoValue sups t c) (hns : NoSubset sups t c)
    {es : PStatement} (hes : es ∈ sups)
    {mp : MetadataPolicy} {p : ClaimPolicy} (hmp : es.policy.get? t = some mp) (hp : mp.get? c = some p) {a : Val}
    (he : p.get? "add" = some a) : ∀ y ∈ held (some a), y ∈ held (md'.get? c) := by
  obtain ⟨R, md, hg, _, ha⟩ := policyFor_inv h
  obtain ⟨q, hq, hs⟩ := gatherPolicies_adds hg hes hmp hp
  have hqv := gatherPolicies_noValue hg hn q hq
  rcases hs.add a he with hv | ⟨a', h1, h2⟩
  · rw [hqv] at hv; simp at hv
  · intro y hy
    exact (C05_add E K md md' R c q a' ha hq h1 hqv (gatherPolicies_noSubset hg hns q hq) y).2 (Or.inr (h2 y hy))

end Fed.Policy
