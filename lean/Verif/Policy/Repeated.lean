import Verif.Policy.Separate
/-
Property C207: authorities that add nothing change nothing. An authority that says nothing about a type of entity, or that says again what an authority above it has said, makes no difference to the metadata that is resolved.
-/
namespace Fed.Policy
open Fed

/-- The same outcome: the same refusal to go on or the same metadata, lists taken as sets. Why something is refused is left open. -/
def SameOutcome : Except PyErr (Option Metadata) → Except PyErr (Option Metadata) → Prop
  | .ok (some m), .ok (some m') => ∀ c, OptSetEq (m.get? c) (m'.get? c)
  | .ok none, .ok none => True
  | .error _, .error _ => True
  | _, _ => False

/-- A policy for a claim that is in order in itself: only the operators of the specification, lists that are not empty for the operators about sets, no operator beside `value` that says whether the claim is essential, no `one_of` beside the operators about lists, and operators that do not contradict each other. -/
structure InOrder (c : ClaimPolicy) : Prop where
  known : ∀ n v, c.get? n = some v → n ∈ ["subset_of", "superset_of", "one_of", "add", "value", "default", "essential"]
  lists : ∀ n ∈ ["subset_of", "superset_of", "one_of", "add"], ∀ v, c.get? n = some v → ∃ xs, v = .arr xs ∧ xs ≠ [] ∧ ∀ x ∈ xs, x.hashable = true
  value : ∀ x, c.get? "value" = some x → c.get? "essential" = none
  oneOf : ∀ x, c.get? "one_of" = some x → c.get? "subset_of" = none ∧ c.get? "superset_of" = none
  lower : Within c "superset_of" "subset_of"
  defaultList : ∀ d, c.get? "default" = some d → ((c.get? "subset_of").isSome ∨ (c.get? "superset_of").isSome) → ∃ xs, d = .arr xs ∧ ∀ x ∈ xs, x.hashable = true
  defaultUpper : Within c "default" "subset_of"
  defaultLower : Within c "superset_of" "default"
  defaultOne : ∀ d ys, c.get? "default" = some d → c.get? "one_of" = some (.arr ys) → (∃ xs, d = .arr xs ∧ ∀ x ∈ xs, x ∈ ys) ∨ (d.isList = false ∧ d ∈ ys)
  addUpper : Within c "add" "subset_of"
  addLower : OpsExactly c ["superset_of", "add"] → Within c "superset_of" "add"

/-- What is in a policy already: saying it again adds nothing. -/
def Contains (r c : ClaimPolicy) : Prop :=
  (∃ x, r.get? "value" = some x ∧ (recognised c = [] ∨ (c.get? "essential" = none ∧ c.get? "value" = some x) ∨
    (∃ e, recognised c = ["essential"] ∧ c.get? "essential" = some e ∧ CPEq r [("value", x), ("essential", e)]))) ∨
  (r.get? "value" = none ∧ c.get? "value" = none ∧
    (∀ n ∈ setOps, ∀ v, c.get? n = some v → ∃ xs ys, v = .arr xs ∧ r.get? n = some (.arr ys) ∧ (∀ x ∈ xs, x.hashable = true) ∧
      (∀ x ∈ ys, x.hashable = true) ∧ ys ≠ [] ∧ (n = "add" → ∀ x ∈ xs, x ∈ ys) ∧ (n ≠ "add" → ∀ x ∈ ys, x ∈ xs)) ∧
    (∀ d, c.get? "default" = some d → r.get? "default" = some d) ∧
    (∀ b, c.get? "essential" = some b → ∃ a, r.get? "essential" = some a ∧ (b = .bool false → a = .bool false) ∧ (b.truthy = true → a.truthy = true)) ∧
    ¬ ("one_of" ∈ recognised r ∧ ("subset_of" ∈ recognised r ∨ "superset_of" ∈ recognised r)) ∧
    consistency (recognised r) r = .ok () ∧ ∀ n, n ∉ policyFunctions → r.get? n = none)

theorem mem_recognised {c : ClaimPolicy} {n : String} : n ∈ recognised c ↔ n ∈ policyFunctions ∧ (c.get? n).isSome := by
  simp [recognised, Dict.has]

theorem combPolicy_eq {s c r : ClaimPolicy} (h : ∀ n ∈ policyFunctions, ((s.get? n).isSome ∨ (c.get? n).isSome) ↔ (r.get? n).isSome) : combPolicy s c = recognised r := by
  unfold combPolicy recognised
  apply List.filter_congr
  intro n hn
  rw [Bool.eq_iff_iff, Bool.or_eq_true]
  exact h n hn

theorem policyFunctions_cases {n : String} (h : n ∈ policyFunctions) : n ∈ setOps ∨ n = "value" ∨ n = "default" ∨ n = "essential" := by
  simp only [policyFunctions, setOps, List.mem_cons, List.not_mem_nil, or_false] at h ⊢
  rcases h with h | h | h | h | h | h | h <;> simp [h]

theorem setOps_op {n : String} (h : n ∈ setOps) : n = "add" ∨ n = "superset_of" ∨ n = "subset_of" ∨ n = "one_of" := by
  simp only [setOps, List.mem_cons, List.not_mem_nil, or_false] at h
  rcases h with h | h | h | h <;> simp [h]

theorem mkSet_hash {xs : List Val} (h : ∀ x ∈ xs, x.hashable = true) : mkSet xs = .ok xs := by
  unfold mkSet
  rw [if_pos (List.all_eq_true.2 h)]

theorem pySet_hash {xs : List Val} (h : ∀ x ∈ xs, x.hashable = true) : pySet (.arr xs) = .ok xs := by
  simpa [pySet, pyIter] using mkSet_hash h

theorem enum_ne_nil {E : SetEnum Val} {l : List Val} (h : l ≠ []) : E.enum l ≠ [] := fun e => h ((enum_nil E l).1 e)

/-- Saying again what a set operator has: the set is the same. -/
theorem doSet_again (E : SetEnum Val) {r c : ClaimPolicy} {n : String} {xs ys : List Val} (hc : c.get? n = some (.arr xs)) (hr : r.get? n = some (.arr ys))
    (hx : ∀ x ∈ xs, x.hashable = true) (hy : ∀ x ∈ ys, x.hashable = true) (hne : ys ≠ []) (ha : n = "add" → ∀ x ∈ xs, x ∈ ys) (hi : n ≠ "add" → ∀ x ∈ ys, x ∈ xs) :
    ∃ zs, doSubOneSuperAdd E r c n = .ok (.arr zs) ∧ ∀ x, x ∈ ys ↔ x ∈ zs := by
  unfold doSubOneSuperAdd
  simp only [hc, hr]
  unfold op2func
  by_cases hn : n = "add"
  · rw [if_pos hn]
    have e : ∀ l : List Val, setOrSingleton (.arr l) = mkSet l := fun _ => rfl
    have hnn : ys ++ xs ≠ [] := by simp [hne]
    have ht : (Val.arr (E.enum (ys ++ xs))).truthy = true := by
      simp only [Val.truthy, Bool.not_eq_true', List.isEmpty_eq_false_iff]; exact enum_ne_nil hnn
    refine ⟨E.enum (ys ++ xs), ?_, fun x => ?_⟩
    · simp only [combineAdd, e, mkSet_hash hx, mkSet_hash hy, ok_bind, except_pure, if_pos ht]
    · rw [E.mem_enum, List.mem_append]
      exact ⟨Or.inl, fun h => h.elim id (ha hn x)⟩
  · rw [if_neg hn]
    have hmem : ∀ x, x ∈ ys ↔ x ∈ inter ys xs := fun x => by rw [mem_inter]; exact ⟨fun h => ⟨h, hi hn x h⟩, fun h => h.1⟩
    have hnn : inter ys xs ≠ [] := fun e => hne ((nil_congr hmem).2 e)
    have ht : (Val.arr (E.enum (inter ys xs))).truthy = true := by
      simp only [Val.truthy, Bool.not_eq_true', List.isEmpty_eq_false_iff]; exact enum_ne_nil hnn
    refine ⟨E.enum (inter ys xs), ?_, fun x => ?_⟩
    · simp only [combineInter, pySet_hash hx, pySet_hash hy, ok_bind, except_pure, if_pos ht]
    · rw [E.mem_enum]; exact hmem x

theorem combineFree_of {E : SetEnum Val} {K : SetEnum String} {s c r : ClaimPolicy} (h1 : essentialClash s c = false)
    (h2 : ¬ ("one_of" ∈ combPolicy s c ∧ ("subset_of" ∈ combPolicy s c ∨ "superset_of" ∈ combPolicy s c)))
    (h3 : consistency (combPolicy s c) r = .ok ())
    (h4 : ∀ n ∈ combPolicy s c, ∃ v w, doPolicy E s c n = .ok v ∧ r.get? n = some w ∧ (n ∈ setOps → w.SetEq v) ∧ (n ∉ setOps → w = v))
    (h5 : ∀ n, n ∉ combPolicy s c → r.get? n = none) : ∃ r', combineFree E K s c = .ok r' ∧ CPEq r r' := by
  cases hb : buildRule E s c (K.enum (combPolicy s c)) with
  | error e =>
    obtain ⟨p, hp, he⟩ := buildRule_error hb
    rw [SetEnum.mem_enum] at hp
    obtain ⟨v, w, hv, _⟩ := h4 p hp
    rw [he] at hv; cases hv
  | ok r' =>
    obtain ⟨b1, b2⟩ := buildRule_ok hb
    have heq : CPEq r r' := by
      constructor
      · intro n hn
        by_cases hm : n ∈ combPolicy s c
        · obtain ⟨v, w, hv, hr, hs, _⟩ := h4 n hm
          obtain ⟨v', hv', hr'⟩ := b1 n ((K.mem_enum _ _).2 hm)
          rw [hv, Except.ok.injEq] at hv'; subst hv'
          rw [hr, hr']; exact hs hn
        · rw [h5 n hm, b2 n (by rwa [SetEnum.mem_enum])]; exact OptSetEq.refl _
      · intro n hn
        by_cases hm : n ∈ combPolicy s c
        · obtain ⟨v, w, hv, hr, _, hs⟩ := h4 n hm
          obtain ⟨v', hv', hr'⟩ := b1 n ((K.mem_enum _ _).2 hm)
          rw [hv, Except.ok.injEq] at hv'; subst hv'
          rw [hr, hr', hs hn]
        · rw [h5 n hm, b2 n (by rwa [SetEnum.mem_enum])]
    refine ⟨r', ?_, heq⟩
    unfold combineFree
    simp only [h1, Bool.false_eq_true, if_false]
    rw [if_neg h2, hb]
    simp only [ok_bind, ← consistency_congr heq, h3, except_pure]

/-- What is in a policy already can be said again and changes nothing. -/
theorem Contains.again (E : SetEnum Val) (K : SetEnum String) {r c : ClaimPolicy} (h : Contains r c) :
    ∃ r', combineClaimPolicy E K r c = .ok r' ∧ CPEq r r' := by
  unfold combineClaimPolicy
  rcases h with ⟨x, hx, h⟩ | ⟨hv, hcv, hsets, hdef, hess, hone, hcons, hunk⟩
  · simp only [hx, combineFixed]
    rcases h with h | ⟨h1, h2⟩ | ⟨e, h1, h2, h3⟩
    · rw [h]; exact ⟨r, rfl, CPEq.refl r⟩
    · have hne : (recognised c).isEmpty = false := by
        rw [List.isEmpty_eq_false_iff]
        exact List.ne_nil_of_mem (mem_recognised.2 ⟨(by decide : "value" ∈ policyFunctions), by rw [h2]; rfl⟩)
      simp only [hne, Bool.false_eq_true, if_false, h1, h2]
      exact ⟨r, by simp, CPEq.refl r⟩
    · rw [h1]
      simp only [h2]
      exact ⟨_, rfl, h3⟩
  · simp only [hv]
    have hsub : ∀ n ∈ policyFunctions, ((r.get? n).isSome ∨ (c.get? n).isSome) ↔ (r.get? n).isSome := by
      intro n hn
      refine ⟨fun h => h.elim id fun hc => ?_, Or.inl⟩
      obtain ⟨v, hc⟩ := Option.isSome_iff_exists.1 hc
      rcases policyFunctions_cases hn with hs | rfl | rfl | rfl
      · obtain ⟨xs, ys, _, h2, _⟩ := hsets n hs v hc
        rw [h2]; rfl
      · rw [hcv] at hc; cases hc
      · rw [hdef v hc]; rfl
      · obtain ⟨a, ha, _⟩ := hess v hc
        rw [ha]; rfl
    have hcomb := combPolicy_eq hsub
    apply combineFree_of
    · unfold essentialClash
      cases hb : c.get? "essential" with
      | none => cases r.get? "essential" <;> rfl
      | some b =>
        obtain ⟨a, ha, hf, _⟩ := hess b hb
        rw [ha]
        simp only [decide_eq_false_iff_not]
        rintro ⟨h1, h2⟩
        exact h1 (by rw [hf h2, h2])
    · rw [hcomb]; exact hone
    · rw [hcomb]; exact hcons
    · intro n hn
      rw [hcomb] at hn
      obtain ⟨hp, hr⟩ := mem_recognised.1 hn
      obtain ⟨w, hw⟩ := Option.isSome_iff_exists.1 hr
      rcases policyFunctions_cases hp with hs | rfl | rfl | rfl
      · rw [doPolicy_set (setOps_op hs)]
        cases hc : c.get? n with
        | none => exact ⟨w, w, by simp [doSubOneSuperAdd, hw, hc], hw, fun _ => Val.SetEq.refl w, fun _ => rfl⟩
        | some v =>
          obtain ⟨xs, ys, rfl, h2, h3, h4, h5, h6, h7⟩ := hsets n hs v hc
          obtain ⟨zs, hz, hz'⟩ := doSet_again E hc h2 h3 h4 h5 h6 h7
          exact ⟨_, _, hz, h2, fun _ => hz', fun hns => absurd hs hns⟩
      · rw [hv] at hw; cases hw
      · rw [doPolicy_default]
        refine ⟨w, w, ?_, hw, fun _ => Val.SetEq.refl w, fun _ => rfl⟩
        unfold doDefault
        cases hc : c.get? "default" with
        | none => simp [hw]
        | some d =>
          have := hdef d hc
          rw [hw, Option.some.injEq] at this
          subst this
          simp [hw]
      · rw [doPolicy_essential]
        refine ⟨w, w, ?_, hw, fun _ => Val.SetEq.refl w, fun _ => rfl⟩
        unfold doEssential
        cases hc : c.get? "essential" with
        | none => simp [hw]
        | some b =>
          obtain ⟨a, ha, _, ht⟩ := hess b hc
          rw [hw, Option.some.injEq] at ha
          subst ha
          simp only [hw]
          rw [if_neg]
          intro hh
          rw [Bool.and_eq_true, Bool.not_eq_true'] at hh
          rw [ht hh.2] at hh
          cases hh.1
    · intro n hn
      rw [hcomb] at hn
      by_cases hp : n ∈ policyFunctions
      · cases hr : r.get? n with
        | none => rfl
        | some w => exact absurd (mem_recognised.2 ⟨hp, by rw [hr]; rfl⟩) hn
      · exact hunk n hp

/-- What two set operands make: a list that holds both (`add`) or is held by both. -/
theorem op2func_made {E : SetEnum Val} {n : String} {a b v : Val} (h : op2func E n a b = .ok v) (ht : v.truthy = true) :
    ∃ zs, v = .arr zs ∧ (∀ x ∈ zs, x.hashable = true) ∧ zs ≠ [] ∧
      (n = "add" → ∀ ys, (a = .arr ys ∨ b = .arr ys) → ∀ x ∈ ys, x ∈ zs) ∧ (n ≠ "add" → ∀ ys, (a = .arr ys ∨ b = .arr ys) → ∀ x ∈ zs, x ∈ ys) := by
  unfold op2func at h
  by_cases hn : n = "add"
  · rw [if_pos hn] at h
    unfold combineAdd at h
    cases ha : setOrSingleton a with
    | error e => rw [ha] at h; cases h
    | ok as =>
      cases hb : setOrSingleton b with
      | error e => rw [ha, hb] at h; cases h
      | ok bs =>
        simp only [ha, hb, ok_bind, except_pure, Except.ok.injEq] at h
        subst h
        have q1 := setOrSingleton_ok ha
        have q2 := setOrSingleton_ok hb
        refine ⟨_, rfl, ?_, ?_, ?_, fun h' => absurd hn h'⟩
        · intro x hx
          rw [E.mem_enum, List.mem_append] at hx
          exact hx.elim (q1.1 x) (q2.1 x)
        · intro e; rw [e] at ht; cases ht
        · intro _ ys hy x hx
          rw [E.mem_enum, List.mem_append]
          rcases hy with rfl | rfl
          · rcases q1.2 with ⟨zs, e1, e2⟩ | ⟨e1, _⟩
            · cases e1; subst e2; exact Or.inl hx
            · cases e1
          · rcases q2.2 with ⟨zs, e1, e2⟩ | ⟨e1, _⟩
            · cases e1; subst e2; exact Or.inr hx
            · cases e1
  · rw [if_neg hn] at h
    unfold combineInter at h
    cases ha : pySet a with
    | error e => rw [ha] at h; cases h
    | ok as =>
      cases hb : pySet b with
      | error e => rw [ha, hb] at h; cases h
      | ok bs =>
        simp only [ha, hb, ok_bind, except_pure, Except.ok.injEq] at h
        subst h
        refine ⟨_, rfl, ?_, ?_, fun h' => absurd h' hn, ?_⟩
        · intro x hx
          rw [E.mem_enum, mem_inter] at hx
          exact pySet_hashable ha x hx.1
        · intro e; rw [e] at ht; cases ht
        · intro _ ys hy x hx
          rw [E.mem_enum, mem_inter] at hx
          rcases hy with rfl | rfl
          · rw [← (pySet_arr ha).1]; exact hx.1
          · rw [← (pySet_arr hb).1]; exact hx.2

/-- A list that one of the two sides has for a set operator. -/
theorem doSet_made {E : SetEnum Val} {s c : ClaimPolicy} {n : String} {v : Val} {ys : List Val} (h : doSubOneSuperAdd E s c n = .ok v)
    (hy : s.get? n = some (.arr ys) ∨ c.get? n = some (.arr ys)) (hh : ∀ x ∈ ys, x.hashable = true) (hne : ys ≠ []) :
    ∃ zs, v = .arr zs ∧ (∀ x ∈ zs, x.hashable = true) ∧ zs ≠ [] ∧ (n = "add" → ∀ x ∈ ys, x ∈ zs) ∧ (n ≠ "add" → ∀ x ∈ zs, x ∈ ys) := by
  unfold doSubOneSuperAdd at h
  cases hs : s.get? n with
  | none =>
    rw [hs] at hy
    rcases hy with hy | hy
    · cases hy
    · simp only [hs, hy, Except.ok.injEq] at h
      subst h
      exact ⟨ys, rfl, hh, hne, fun _ _ => id, fun _ _ => id⟩
  | some a =>
    cases hc : c.get? n with
    | none =>
      rw [hs, hc] at hy
      rcases hy with hy | hy
      · cases hy
        simp only [hs, hc, Except.ok.injEq] at h
        subst h
        exact ⟨ys, rfl, hh, hne, fun _ _ => id, fun _ _ => id⟩
      · cases hy
    | some b =>
      simp only [hs, hc] at h
      cases ho : op2func E n a b with
      | error e => rw [ho] at h; cases h
      | ok w =>
        simp only [ho, ok_bind] at h
        split at h
        · next ht =>
          cases h
          obtain ⟨zs, e, h1, h2, h3, h4⟩ := op2func_made ho ht
          rw [hs, hc, Option.some.injEq, Option.some.injEq] at hy
          exact ⟨zs, e, h1, h2, fun hn => h3 hn ys hy, fun hn => h4 hn ys hy⟩
        · cases h

theorem recognised_of_free {E : SetEnum Val} {K : SetEnum String} {s c r : ClaimPolicy} (h : combineFree E K s c = .ok r) : combPolicy s c = recognised r := by
  obtain ⟨_, _, _, h4, h5⟩ := combineFree_ok h
  apply combPolicy_eq
  intro n hn
  constructor
  · intro hh
    obtain ⟨v, _, hr⟩ := h4 n (mem_combPolicy.2 ⟨hn, hh⟩)
    rw [hr]; rfl
  · intro hh
    by_cases hm : n ∈ combPolicy s c
    · exact (mem_combPolicy.1 hm).2
    · rw [h5 n hm] at hh; cases hh

theorem free_mem {E : SetEnum Val} {K : SetEnum String} {s c r : ClaimPolicy} (h : combineFree E K s c = .ok r) {n : String} (hn : n ∈ policyFunctions)
    (hh : (s.get? n).isSome ∨ (c.get? n).isSome) : ∃ v, doPolicy E s c n = .ok v ∧ r.get? n = some v :=
  (combineFree_ok h).2.2.2.1 n (mem_combPolicy.2 ⟨hn, hh⟩)

/-- What a policy says that is in order is in the policy it is combined into. -/
theorem contains_of_combined {E : SetEnum Val} {K : SetEnum String} {s c r : ClaimPolicy} (hc : InOrder c) (h : combineClaimPolicy E K s c = .ok r) : Contains r c := by
  unfold combineClaimPolicy at h
  cases hs : s.get? "value" with
  | some x =>
    simp only [hs] at h
    obtain ⟨h1, h2⟩ := combineFixed_ok hs h
    refine Or.inl ⟨x, h1, ?_⟩
    rcases h2 with ⟨_, h2 | h2⟩ | ⟨e, h2, h3, h4⟩
    · exact Or.inl h2
    · exact Or.inr (Or.inl h2)
    · exact Or.inr (Or.inr ⟨e, h3, h4, h2 ▸ CPEq.refl _⟩)
  | none =>
    simp only [hs] at h
    have hcomb := recognised_of_free h
    obtain ⟨h1, h2, h3, h4, h5⟩ := combineFree_ok h
    cases hv : c.get? "value" with
    | some x =>
      obtain ⟨v, hd, hr⟩ := free_mem h (n := "value") (by decide) (Or.inr (by rw [hv]; rfl))
      rw [doPolicy_value] at hd
      simp only [doValue, hs, hv, Except.ok.injEq] at hd
      subst hd
      exact Or.inl ⟨x, hr, Or.inr (Or.inl ⟨hc.value x hv, hv⟩)⟩
    | none =>
      refine Or.inr ⟨h5 "value" ?_, hv, ?_, ?_, ?_, ?_, ?_, ?_⟩
      · intro hm
        rcases (mem_combPolicy.1 hm).2 with hh | hh
        · rw [hs] at hh; cases hh
        · rw [hv] at hh; cases hh
      · intro n hn v hcn
        obtain ⟨xs, rfl, hne, hh⟩ := hc.lists n hn v hcn
        have hp : n ∈ policyFunctions := by
          rcases setOps_op hn with rfl | rfl | rfl | rfl <;> decide
        obtain ⟨w, hd, hr⟩ := free_mem h hp (Or.inr (by rw [hcn]; rfl))
        rw [doPolicy_set (setOps_op hn)] at hd
        obtain ⟨zs, rfl, q1, q2, q3, q4⟩ := doSet_made hd (Or.inr hcn) hh hne
        exact ⟨xs, zs, rfl, hr, hh, q1, q2, q3, q4⟩
      · intro d hd
        obtain ⟨w, hw, hr⟩ := free_mem h (n := "default") (by decide) (Or.inr (by rw [hd]; rfl))
        rw [doPolicy_default] at hw
        unfold doDefault at hw
        rw [hr]
        cases hsd : s.get? "default" with
        | none => simp only [hsd, hd, Except.ok.injEq] at hw; rw [hw]
        | some d' =>
          simp only [hsd, hd] at hw
          split at hw
          · next e => cases hw; rw [e]
          · cases hw
      · intro b hb
        obtain ⟨w, hw, hr⟩ := free_mem h (n := "essential") (by decide) (Or.inr (by rw [hb]; rfl))
        rw [doPolicy_essential] at hw
        unfold doEssential at hw
        refine ⟨w, hr, ?_, ?_⟩
        · intro e
          subst e
          cases hse : s.get? "essential" with
          | none => simp only [hse, hb, Except.ok.injEq] at hw; exact hw.symm
          | some a =>
            simp only [hse, hb, Val.truthy, Bool.and_false, Bool.false_eq_true, if_false, Except.ok.injEq] at hw
            subst hw
            simp only [essentialClash, hse, hb, decide_eq_false_iff_not] at h1
            exact Decidable.byContradiction fun hne => h1 ⟨hne, trivial⟩
        · intro ht
          cases hse : s.get? "essential" with
          | none => simp only [hse, hb, Except.ok.injEq] at hw; rw [← hw]; exact ht
          | some a =>
            simp only [hse, hb, ht, Bool.and_true] at hw
            split at hw
            · cases hw; rfl
            · next hn => cases hw; simpa using hn
      · rw [← hcomb]; exact h2
      · rw [← hcomb]; exact h3
      · intro n hn
        exact h5 n fun hm => hn (mem_combPolicy.1 hm).1

/-- What somebody says about a claim does not touch what is said again later: it fixes no value unless the other does, and says nothing different about whether the claim is essential. -/
def Leaves (d c : ClaimPolicy) : Prop :=
  (d.get? "value" = none ∨ (c.get? "value").isSome) ∧ (d.get? "essential" = none ∨ c.get? "essential" = none ∨ d.get? "essential" = c.get? "essential")

/-- What is in a policy stays in it. -/
theorem Contains.kept {E : SetEnum Val} {K : SetEnum String} {r c d r2 : ClaimPolicy} (hc : Contains r c) (hl : Leaves d c) (h : combineClaimPolicy E K r d = .ok r2) : Contains r2 c := by
  unfold combineClaimPolicy at h
  rcases hc with ⟨x, hx, hc⟩ | ⟨hv, hcv, hsets, hdef, hess, hone, hcons, hunk⟩
  · simp only [hx] at h
    obtain ⟨h1, h2⟩ := combineFixed_ok hx h
    refine Or.inl ⟨x, h1, ?_⟩
    rcases hc with hc | hc | ⟨e, q1, q2, q3⟩
    · exact Or.inl hc
    · exact Or.inr (Or.inl hc)
    · refine Or.inr (Or.inr ⟨e, q1, q2, ?_⟩)
      rcases h2 with ⟨rfl, _⟩ | ⟨e', rfl, _, h4⟩
      · exact q3
      · rcases hl.2 with h | h | h
        · rw [h4] at h; cases h
        · rw [q2] at h; cases h
        · rw [h4, q2] at h
          cases h
          exact CPEq.refl _
  · simp only [hv] at h
    have hcomb := recognised_of_free h
    obtain ⟨h1, h2, h3, h4, h5⟩ := combineFree_ok h
    have hdv : d.get? "value" = none := hl.1.elim id fun hh => by rw [hcv] at hh; cases hh
    refine Or.inr ⟨h5 "value" ?_, hcv, ?_, ?_, ?_, ?_, ?_, ?_⟩
    · intro hm
      rcases (mem_combPolicy.1 hm).2 with hh | hh
      · rw [hv] at hh; cases hh
      · rw [hdv] at hh; cases hh
    · intro n hn v hcn
      obtain ⟨xs, ys, rfl, hr, hhx, hhy, hne, ha, hi⟩ := hsets n hn v hcn
      have hp : n ∈ policyFunctions := by
        rcases setOps_op hn with rfl | rfl | rfl | rfl <;> decide
      obtain ⟨w, hd, hr2⟩ := free_mem h hp (Or.inl (by rw [hr]; rfl))
      rw [doPolicy_set (setOps_op hn)] at hd
      obtain ⟨zs, rfl, q1, q2, q3, q4⟩ := doSet_made hd (Or.inl hr) hhy hne
      exact ⟨xs, zs, rfl, hr2, hhx, q1, q2, fun e x hx => q3 e x (ha e x hx), fun e x hx => hi e x (q4 e x hx)⟩
    · intro v hcd
      have hr := hdef v hcd
      obtain ⟨w, hw, hr2⟩ := free_mem h (n := "default") (by decide) (Or.inl (by rw [hr]; rfl))
      rw [doPolicy_default] at hw
      unfold doDefault at hw
      rw [hr2]
      cases hd : d.get? "default" with
      | none => simp only [hr, hd, Except.ok.injEq] at hw; rw [hw]
      | some d' =>
        simp only [hr, hd] at hw
        split at hw
        · cases hw; rfl
        · cases hw
    · intro b hb
      obtain ⟨a, ha, hf, ht⟩ := hess b hb
      obtain ⟨w, hw, hr2⟩ := free_mem h (n := "essential") (by decide) (Or.inl (by rw [ha]; rfl))
      rw [doPolicy_essential] at hw
      unfold doEssential at hw
      refine ⟨w, hr2, ?_, ?_⟩
      · intro e
        subst e
        have ha' := hf rfl
        subst ha'
        cases hd : d.get? "essential" with
        | none => simp only [ha, hd, Except.ok.injEq] at hw; exact hw.symm
        | some a' =>
          rcases hl.2 with h | h | h
          · rw [hd] at h; cases h
          · rw [hb] at h; cases h
          · rw [hd, hb, Option.some.injEq] at h
            subst h
            simp only [ha, hd, Val.truthy, Bool.and_false, Bool.false_eq_true, if_false, Except.ok.injEq] at hw
            exact hw.symm
      · intro htb
        have := ht htb
        cases hd : d.get? "essential" with
        | none => simp only [ha, hd, Except.ok.injEq] at hw; rw [← hw]; exact this
        | some a' =>
          simp only [ha, hd, this, Bool.not_true, Bool.false_and, Bool.false_eq_true, if_false, Except.ok.injEq] at hw
          rw [← hw]; exact this
    · rw [← hcomb]; exact h2
    · rw [← hcomb]; exact h3
    · intro n hn
      exact h5 n fun hm => hn (mem_combPolicy.1 hm).1

theorem demand_of_within {xs ys : List Val} (h1 : ∀ x ∈ xs, x.hashable = true) (h2 : ∀ x ∈ ys, x.hashable = true) (h : ∀ x ∈ xs, x ∈ ys) : demandSubset (.arr xs) (.arr ys) = .ok () := by
  unfold demandSubset
  rw [pySet_hash h1, pySet_hash h2]
  have : (diff xs ys).isEmpty = true := by
    rw [List.isEmpty_iff, List.eq_nil_iff_forall_not_mem]
    intro x hx
    exact (mem_diff.1 hx).2 (h x (mem_diff.1 hx).1)
  simp only [ok_bind, this, if_true, except_pure]

/-- A policy that is in order passes the tests that combinations are put to. -/
theorem InOrder.consistent {c : ClaimPolicy} (hc : InOrder c) : consistency (recognised c) c = .ok () := by
  have mem : ∀ {ops : List String}, sameSet (recognised c) ops = true → ∀ {n}, n ∈ ops → ∃ v, c.get? n = some v := by
    intro ops h n hn
    exact Option.isSome_iff_exists.1 (mem_recognised.1 ((sameSet_iff.1 h n).2 hn)).2
  have lst : ∀ {n v}, n ∈ setOps → c.get? n = some v → ∃ xs, v = .arr xs ∧ ∀ x ∈ xs, x.hashable = true := by
    intro n v hn hv
    obtain ⟨xs, e, _, hh⟩ := hc.lists n hn v hv
    exact ⟨xs, e, hh⟩
  unfold consistency
  split
  · next hs =>
    obtain ⟨a, ha⟩ := mem hs (n := "superset_of") (by decide)
    obtain ⟨b, hb⟩ := mem hs (n := "subset_of") (by decide)
    obtain ⟨xs, rfl, hx⟩ := lst (by decide) ha
    obtain ⟨ys, rfl, hy⟩ := lst (by decide) hb
    simp only [Dict.get, ha, hb, ok_bind]
    exact demand_of_within hx hy (hc.lower _ _ ha hb)
  split
  · next hs =>
    obtain ⟨a, ha⟩ := mem hs (n := "superset_of") (by decide)
    obtain ⟨b, hb⟩ := mem hs (n := "subset_of") (by decide)
    obtain ⟨d, hd⟩ := mem hs (n := "default") (by decide)
    obtain ⟨xs, rfl, hx⟩ := lst (by decide) ha
    obtain ⟨ys, rfl, hy⟩ := lst (by decide) hb
    obtain ⟨zs, rfl, hz⟩ := hc.defaultList d hd (Or.inl (by rw [hb]; rfl))
    simp only [Dict.get, ha, hb, hd, ok_bind, demand_of_within hx hy (hc.lower _ _ ha hb), demand_of_within hz hy (hc.defaultUpper _ _ hd hb)]
    exact demand_of_within hx hz (hc.defaultLower _ _ ha hd)
  split
  · next hs =>
    obtain ⟨b, hb⟩ := mem hs (n := "subset_of") (by decide)
    obtain ⟨d, hd⟩ := mem hs (n := "default") (by decide)
    obtain ⟨ys, rfl, hy⟩ := lst (by decide) hb
    obtain ⟨zs, rfl, hz⟩ := hc.defaultList d hd (Or.inl (by rw [hb]; rfl))
    simp only [Dict.get, hb, hd, ok_bind]
    exact demand_of_within hz hy (hc.defaultUpper _ _ hd hb)
  split
  · next hs =>
    obtain ⟨a, ha⟩ := mem hs (n := "superset_of") (by decide)
    obtain ⟨d, hd⟩ := mem hs (n := "default") (by decide)
    obtain ⟨xs, rfl, hx⟩ := lst (by decide) ha
    obtain ⟨zs, rfl, hz⟩ := hc.defaultList d hd (Or.inr (by rw [ha]; rfl))
    simp only [Dict.get, ha, hd, ok_bind]
    exact demand_of_within hx hz (hc.defaultLower _ _ ha hd)
  split
  · next hs =>
    obtain ⟨a, ha⟩ := mem hs (n := "one_of") (by decide)
    obtain ⟨d, hd⟩ := mem hs (n := "default") (by decide)
    obtain ⟨ys, rfl, hy⟩ := lst (by decide) ha
    simp only [Dict.get, ha, hd, ok_bind]
    rcases hc.defaultOne d ys hd ha with ⟨xs, rfl, hxs⟩ | ⟨hl, hm⟩
    · rw [if_pos (by rfl)]
      exact demand_of_within (fun x hx => hy x (hxs x hx)) hy hxs
    · rw [if_neg (by rw [hl]; decide)]
      have h1 : mkSet [d] = .ok [d] := mkSet_hash (by simpa using hy d hm)
      have : (diff [d] ys).isEmpty = true := by
        rw [List.isEmpty_iff, List.eq_nil_iff_forall_not_mem]
        intro x hx
        have := mem_diff.1 hx
        rw [List.mem_singleton] at this
        exact this.2 (this.1 ▸ hm)
      simp only [h1, pySet_hash hy, ok_bind, this, if_true, except_pure]
  split
  · next hs =>
    obtain ⟨a, ha⟩ := mem hs (n := "add") (by decide)
    obtain ⟨b, hb⟩ := mem hs (n := "subset_of") (by decide)
    obtain ⟨xs, rfl, hx⟩ := lst (by decide) ha
    obtain ⟨ys, rfl, hy⟩ := lst (by decide) hb
    simp only [Dict.get, ha, hb, ok_bind]
    exact demand_of_within hx hy (hc.addUpper _ _ ha hb)
  split
  · next hs =>
    obtain ⟨a, ha⟩ := mem hs (n := "superset_of") (by decide)
    obtain ⟨b, hb⟩ := mem hs (n := "add") (by decide)
    obtain ⟨xs, rfl, hx⟩ := lst (by decide) ha
    obtain ⟨ys, rfl, hy⟩ := lst (by decide) hb
    simp only [Dict.get, ha, hb, ok_bind]
    refine demand_of_within hx hy (hc.addLower (fun n => ?_) _ _ ha hb)
    rw [← sameSet_iff.1 hs n, mem_recognised]
    refine ⟨fun h => ⟨?_, h⟩, fun h => h.2⟩
    obtain ⟨v, hv⟩ := Option.isSome_iff_exists.1 h
    exact hc.known n v hv
  · rfl

/-- A policy that is in order can be said twice. -/
theorem InOrder.contains {c : ClaimPolicy} (hc : InOrder c) : Contains c c := by
  cases hv : c.get? "value" with
  | some x => exact Or.inl ⟨x, hv, Or.inr (Or.inl ⟨hc.value x hv, hv⟩)⟩
  | none =>
    refine Or.inr ⟨hv, hv, ?_, fun _ h => h, fun b h => ⟨b, h, id, id⟩, ?_, hc.consistent, ?_⟩
    · intro n hn v hcn
      obtain ⟨xs, rfl, hne, hh⟩ := hc.lists n hn v hcn
      exact ⟨xs, xs, rfl, hcn, hh, hh, hne, fun _ _ => id, fun _ _ => id⟩
    · rintro ⟨h1, h2⟩
      obtain ⟨x, hx⟩ := Option.isSome_iff_exists.1 (mem_recognised.1 h1).2
      obtain ⟨q1, q2⟩ := hc.oneOf x hx
      rcases h2 with h2 | h2
      · have := (mem_recognised.1 h2).2; rw [q1] at this; cases this
      · have := (mem_recognised.1 h2).2; rw [q2] at this; cases this
    · intro n hn
      cases h : c.get? n with
      | none => rfl
      | some v => exact absurd (hc.known n v h) hn

/-- What a whole statement says is in what was combined. -/
structure RContains (R C : Rule) : Prop where
  metadata : ∀ k y, C.metadata.get? k = some y → R.metadata.get? k = some y
  policy : ∀ k c, C.policy.get? k = some c → ∃ r, R.policy.get? k = some r ∧ Contains r c

theorem OptCPEq.symm {a b : Option ClaimPolicy} (h : OptCPEq a b) : OptCPEq b a := by
  cases a <;> cases b <;> simp_all [OptCPEq]
  exact h.symm

theorem RuleEq.symm {r r' : Rule} (h : RuleEq r r') : RuleEq r' r := ⟨fun k => (h.metadata k).symm, fun k => (h.policy k).symm⟩

theorem RContains.again (E : SetEnum Val) (K : SetEnum String) {R C : Rule} (h : RContains R C) : ∃ R', combine E K R C = .ok R' ∧ RuleEq R R' := by
  cases hr : combine E K R C with
  | error e =>
    exfalso
    rcases combine_error hr with ⟨k, x, y, hx, hy, hne⟩ | ⟨k, a, b, ha, hb, he⟩
    · have := h.metadata k y hy
      rw [hx, Option.some.injEq] at this
      exact hne this
    · obtain ⟨r, h1, h2⟩ := h.policy k b hb
      rw [ha, Option.some.injEq] at h1
      subst h1
      obtain ⟨r', h3, _⟩ := h2.again E K
      rw [he] at h3; cases h3
  | ok R' =>
    obtain ⟨g1, _, g3⟩ := combine_ok hr
    refine ⟨R', rfl, ⟨fun k => ?_, fun k => ?_⟩⟩
    · rw [g1 k]
      cases hc : C.metadata.get? k with
      | none => rfl
      | some y => rw [h.metadata k y hc]; rfl
    · have hk := g3 k
      cases hc : C.policy.get? k with
      | none =>
        rw [hc] at hk
        cases hs : R.policy.get? k with
        | none => rw [hs] at hk; rw [show R'.policy.get? k = none from hk]; trivial
        | some a => rw [hs] at hk; rw [show R'.policy.get? k = some a from hk]; exact CPEq.refl a
      | some c =>
        obtain ⟨r, h1, h2⟩ := h.policy k c hc
        rw [hc, h1] at hk
        obtain ⟨p, h3, h4⟩ := hk
        obtain ⟨r', h5, h6⟩ := h2.again E K
        rw [h3, Except.ok.injEq] at h5
        subst h5
        rw [h1, h4]
        exact h6

theorem rcontains_of_combined {E : SetEnum Val} {K : SetEnum String} {S C R : Rule} (hc : ∀ k c, C.policy.get? k = some c → InOrder c) (h : combine E K S C = .ok R) : RContains R C := by
  obtain ⟨g1, _, g3⟩ := combine_ok h
  refine ⟨fun k y hy => by rw [g1 k, hy]; rfl, fun k c hk => ?_⟩
  have q := g3 k
  rw [hk] at q
  cases hs : S.policy.get? k with
  | none => rw [hs] at q; exact ⟨c, q, (hc k c hk).contains⟩
  | some s =>
    rw [hs] at q
    obtain ⟨p, h1, h2⟩ := q
    exact ⟨p, h2, contains_of_combined (hc k c hk) h1⟩

theorem rcontains_self {C : Rule} (hc : ∀ k c, C.policy.get? k = some c → InOrder c) : RContains C C :=
  ⟨fun _ _ h => h, fun k c hk => ⟨c, hk, (hc k c hk).contains⟩⟩

theorem RContains.kept {E : SetEnum Val} {K : SetEnum String} {R C D R2 : Rule} (hc : RContains R C)
    (hl : ∀ k c d, C.policy.get? k = some c → D.policy.get? k = some d → Leaves d c) (h : combine E K R D = .ok R2) : RContains R2 C := by
  obtain ⟨g1, g2, g3⟩ := combine_ok h
  refine ⟨fun k y hy => ?_, fun k c hk => ?_⟩
  · have := hc.metadata k y hy
    rw [g1 k]
    cases hd : D.metadata.get? k with
    | none => exact this
    | some z => rw [g2 k y z this hd]; rfl
  · obtain ⟨r, h1, h2⟩ := hc.policy k c hk
    have q := g3 k
    rw [h1] at q
    cases hd : D.policy.get? k with
    | none => rw [hd] at q; exact ⟨r, q, h2⟩
    | some d =>
      rw [hd] at q
      obtain ⟨p, h3, h4⟩ := q
      exact ⟨p, h4, h2.kept (hl k c d hk hd) h3⟩

/-! ### Chains -/

/-- Two statements say the same about entities of a type. -/
def SayTheSameOf (t : String) (es es' : PStatement) : Prop := es.metadata.get? t = es'.metadata.get? t ∧ es.policy.get? t = es'.policy.get? t

/-- A statement says nothing about entities of a type. -/
def Silent (t : String) (es : PStatement) : Prop := (∀ m, es.metadata.get? t = some m → m = []) ∧ (∀ p, es.policy.get? t = some p → p = [])

/-- No claim is both given a value and constrained by a statement. -/
def NoOverlap (t : String) (es : PStatement) : Prop := ∀ m p, es.metadata.get? t = some m → es.policy.get? t = some p → ∀ c, c ∈ p.keys → c ∉ m.keys

/-- The policies that a statement has for entities of a type are in order. -/
def PoliciesInOrder (t : String) (es : PStatement) : Prop := ∀ p, es.policy.get? t = some p → ∀ k c, p.get? k = some c → InOrder c

/-- What a statement says about the claims that another one has policies for leaves these as they are. -/
def LeavesAlone (t : String) (es d : PStatement) : Prop :=
  ∀ p q, es.policy.get? t = some p → d.policy.get? t = some q → ∀ k c c', p.get? k = some c → q.get? k = some c' → Leaves c' c

/-- C207 in full: an authority that is put into a chain and says nothing about a type of entity, or says what an authority above it says, makes no difference to the metadata of that type. -/
def C207_full : Prop :=
  ∀ (E : SetEnum Val) (K : SetEnum String) (pre post : List PStatement) (es leaf : PStatement) (t : String), pre ++ post ≠ [] →
    (Silent t es ∨ ∃ e ∈ pre, SayTheSameOf t e es) → SameOutcome (policyFor E K (pre ++ post) leaf t) (policyFor E K (pre ++ es :: post) leaf t)

theorem Silent.rule {t : String} {es : PStatement} (h : Silent t es) : es.rule t = ⟨[], []⟩ := by
  unfold PStatement.rule
  have h1 : (es.metadata.get? t).getD [] = [] := by
    cases hm : es.metadata.get? t with
    | none => rfl
    | some m => exact h.1 m hm
  have h2 : (es.policy.get? t).getD [] = [] := by
    cases hm : es.policy.get? t with
    | none => rfl
    | some m => exact h.2 m hm
  rw [h1, h2]

theorem SayTheSameOf.rule {t : String} {es es' : PStatement} (h : SayTheSameOf t es es') : es.rule t = es'.rule t := by
  unfold PStatement.rule
  rw [h.1, h.2]

theorem rule_policy_of {t k : String} {es : PStatement} {c : ClaimPolicy} (h : (es.rule t).policy.get? k = some c) : ∃ p, es.policy.get? t = some p ∧ p.get? k = some c := by
  unfold PStatement.rule at h
  cases hm : es.policy.get? t with
  | none => rw [hm] at h; cases h
  | some p => rw [hm] at h; exact ⟨p, rfl, h⟩

theorem NoOverlap.rule {t : String} {es : PStatement} (h : NoOverlap t es) : (es.rule t).policy.keys.any (fun c => decide (c ∈ (es.rule t).metadata.keys)) = false := by
  rw [Bool.eq_false_iff]
  intro hh
  rw [List.any_eq_true] at hh
  obtain ⟨c, h1, h2⟩ := hh
  rw [decide_eq_true_eq] at h2
  unfold PStatement.rule at h1 h2
  cases hp : es.policy.get? t with
  | none => rw [hp] at h1; cases h1
  | some p =>
    cases hm : es.metadata.get? t with
    | none => rw [hm] at h2; cases h2
    | some m =>
      rw [hp] at h1
      rw [hm] at h2
      exact h m p hm hp c h1 h2

theorem gatherRest_append (E : SetEnum Val) (K : SetEnum String) (t : String) (a b : List PStatement) (R : Rule) :
    gatherRest E K t (a ++ b) R = gatherRest E K t a R >>= gatherRest E K t b := by
  induction a generalizing R with
  | nil => rfl
  | cons es a ih =>
    simp only [List.cons_append, gatherRest]
    split
    · exact ih R
    · split
      · rfl
      · cases combine E K R (es.rule t) with
        | error e => rfl
        | ok R' => exact ih R'

/-- The same outcome of combining. -/
def SameRule : Except PyErr Rule → Except PyErr Rule → Prop
  | .ok r, .ok r' => RuleEq r r'
  | .error _, .error _ => True
  | _, _ => False

theorem SameRule.refl (r) : SameRule r r := by cases r <;> simp [SameRule, RuleEq.refl]

theorem sameRule_rest (E : SetEnum Val) (K : SetEnum String) (t : String) (chain : List PStatement) {R R' : Rule} (h : RuleEq R R') :
    SameRule (gatherRest E K t chain R) (gatherRest E K t chain R') := by
  cases h1 : gatherRest E K t chain R with
  | ok r =>
    obtain ⟨r', h2, h3⟩ := gatherRest_congr E E K K t h h1
    rw [h2]; exact h3
  | error e =>
    cases h2 : gatherRest E K t chain R' with
    | error e' => trivial
    | ok r' =>
      obtain ⟨r, h3, _⟩ := gatherRest_congr E E K K t h.symm h2
      rw [h1] at h3; cases h3

/-- Rules that are the same resolve to the same. -/
theorem sameOutcome_of {E : SetEnum Val} {K : SetEnum String} {a b : List PStatement} {leaf : PStatement} {t : String} (h : SameRule (gatherPolicies E K a t) (gatherPolicies E K b t)) :
    SameOutcome (policyFor E K a leaf t) (policyFor E K b leaf t) := by
  unfold policyFor
  cases h1 : gatherPolicies E K a t with
  | error e =>
    cases h2 : gatherPolicies E K b t with
    | error e' => trivial
    | ok r => rw [h1, h2] at h; cases h
  | ok r =>
    cases h2 : gatherPolicies E K b t with
    | error e' => rw [h1, h2] at h; cases h
    | ok r' =>
      rw [h1, h2] at h
      simp only [ok_bind]
      cases leaf.metadata.get? t with
      | none => trivial
      | some md =>
        simp only
        cases h3 : applyPolicy E K md r with
        | ok m =>
          obtain ⟨m', h4, h5⟩ := applyPolicy_congr E E K K h h3
          rw [h4]; exact h5
        | error e =>
          cases h4 : applyPolicy E K md r' with
          | error e' => trivial
          | ok m' =>
            obtain ⟨m, h5, _⟩ := applyPolicy_congr E E K K (RuleEq.symm h) h4
            rw [h3] at h5; cases h5

theorem empty_combined (E : SetEnum Val) (K : SetEnum String) (C : Rule) : ∃ R, combine E K ⟨[], []⟩ C = .ok R ∧ RuleEq C R := by
  cases hr : combine E K ⟨[], []⟩ C with
  | error e =>
    rcases combine_error hr with ⟨k, x, y, hx, _⟩ | ⟨k, a, b, ha, _⟩
    · cases hx
    · cases ha
  | ok R =>
    obtain ⟨g1, _, g3⟩ := combine_ok hr
    refine ⟨R, rfl, ⟨fun k => ?_, fun k => ?_⟩⟩
    · rw [g1 k]; cases C.metadata.get? k <;> rfl
    · have := g3 k
      rw [show R.policy.get? k = C.policy.get? k from this]
      exact OptCPEq.refl _

/-- C207 for an authority that says nothing. Missing: a chain whose first statement gives a value to a claim and constrains it as well. -/
theorem C207_silent_partial (E : SetEnum Val) (K : SetEnum String) (pre post : List PStatement) (es leaf : PStatement) (t : String) (hne : pre ++ post ≠ []) (hs : Silent t es)
    (ho : ∀ e ∈ post.head?, pre = [] → NoOverlap t e) : SameOutcome (policyFor E K (pre ++ post) leaf t) (policyFor E K (pre ++ es :: post) leaf t) := by
  apply sameOutcome_of
  cases pre with
  | cons e0 pre =>
    simp only [List.cons_append, gatherPolicies, gatherRest_append]
    cases gatherRest E K t pre (e0.rule t) with
    | error e => trivial
    | ok R =>
      simp only [ok_bind, gatherRest, if_pos hs.rule]
      exact SameRule.refl _
  | nil =>
    cases post with
    | nil => exact absurd rfl hne
    | cons e1 post =>
      simp only [List.nil_append, gatherPolicies, gatherRest, hs.rule]
      split
      · next h => rw [h]; exact SameRule.refl _
      · rw [if_neg (by rw [(ho e1 rfl rfl).rule]; decide)]
        obtain ⟨R, h1, h2⟩ := empty_combined E K (e1.rule t)
        rw [h1]
        exact sameRule_rest E K t post h2

theorem contained_rest {E : SetEnum Val} {K : SetEnum String} {t : String} {es : PStatement} {mid : List PStatement} (hl : ∀ d ∈ mid, LeavesAlone t es d) {R R2 : Rule}
    (hc : RContains R (es.rule t)) (h : gatherRest E K t mid R = .ok R2) : RContains R2 (es.rule t) := by
  induction mid generalizing R with
  | nil => cases h; exact hc
  | cons d mid ih =>
    have ih := fun {R} => ih (fun d hd => hl d (List.mem_cons_of_mem _ hd)) (R := R)
    simp only [gatherRest] at h
    split at h
    · exact ih hc h
    · split at h
      · cases h
      · cases h1 : combine E K R (d.rule t) with
        | error e => rw [h1] at h; cases h
        | ok R1 =>
          rw [h1] at h
          refine ih (hc.kept (fun k c c' hk hk' => ?_) h1) h
          obtain ⟨p, q1, q2⟩ := rule_policy_of hk
          obtain ⟨p', q3, q4⟩ := rule_policy_of hk'
          exact hl d (List.mem_cons_self ..) p p' q1 q3 k c c' q2 q4

/-- C207 for an authority that says again what an authority above it says. Missing: policies that are not in order in themselves, which combine with nothing, themselves included; authorities in between that fix the value of one of the claims, or say something different about whether it is essential. -/
theorem C207_repeated_partial (E : SetEnum Val) (K : SetEnum String) (pre mid post : List PStatement) (e es leaf : PStatement) (t : String) (hs : SayTheSameOf t e es)
    (ho : PoliciesInOrder t e) (hn : pre = [] → NoOverlap t e) (hl : ∀ d ∈ mid, LeavesAlone t e d) :
    SameOutcome (policyFor E K (pre ++ e :: mid ++ post) leaf t) (policyFor E K (pre ++ e :: mid ++ es :: post) leaf t) := by
  apply sameOutcome_of
  have hin : ∀ k c, (e.rule t).policy.get? k = some c → InOrder c := by
    intro k c h
    obtain ⟨p, h1, h2⟩ := rule_policy_of h
    exact ho p h1 k c h2
  have last : ∀ R, RContains R (e.rule t) → (e.rule t).policy.keys.any (fun c => decide (c ∈ (e.rule t).metadata.keys)) = false →
      SameRule (gatherRest E K t (mid ++ post) R) (gatherRest E K t (mid ++ es :: post) R) := by
    intro R hR hno
    rw [gatherRest_append, gatherRest_append]
    cases h1 : gatherRest E K t mid R with
    | error err => trivial
    | ok R2 =>
      have h2 := contained_rest hl hR h1
      simp only [ok_bind, gatherRest, ← hs.rule]
      split
      · exact SameRule.refl _
      · rw [if_neg (by rw [hno]; decide)]
        obtain ⟨R3, h3, h4⟩ := h2.again E K
        rw [h3]
        exact sameRule_rest E K t post h4
  cases pre with
  | nil =>
    simp only [List.nil_append, List.cons_append, gatherPolicies]
    exact last _ (rcontains_self hin) (hn rfl).rule
  | cons e0 pre =>
    simp only [List.cons_append, List.append_assoc, gatherPolicies]
    rw [gatherRest_append, gatherRest_append]
    cases gatherRest E K t pre (e0.rule t) with
    | error err => trivial
    | ok R =>
      simp only [ok_bind]
      rw [gatherRest, gatherRest]
      split
      · next hz =>
        refine last R ⟨?_, ?_⟩ ?_
        · rw [hz]; intro k y h; cases h
        · rw [hz]; intro k c h; cases h
        · rw [hz]; rfl
      · split
        · trivial
        · next hno =>
          cases h1 : combine E K R (e.rule t) with
          | error err => trivial
          | ok R1 => exact last R1 (rcontains_of_combined hin h1) (by simpa using hno)

/-! ### Cases -/

namespace Ex207
/-- A policy of one operator about a set is in order. -/
theorem single {n : String} {xs : List Val} (hn : n ∈ ["subset_of", "superset_of", "one_of", "add"]) (h : xs ≠ []) (hh : ∀ x ∈ xs, x.hashable = true) : InOrder [(n, .arr xs)] := by
  have key : ∀ m v, Dict.get? [(n, Val.arr xs)] m = some v → n = m ∧ v = .arr xs := by
    intro m v hm
    rw [Dict.get?_cons] at hm
    split at hm
    · next e => cases hm; exact ⟨e, rfl⟩
    · cases hm
  have none : ∀ m, n ≠ m → Dict.get? [(n, Val.arr xs)] m = none := by
    intro m hm
    rw [Dict.get?_cons, if_neg hm]; rfl
  have two : ∀ a b, a ≠ b → Within [(n, Val.arr xs)] a b := by
    intro a b hab A B ha hb
    exact absurd ((key a _ ha).1.symm.trans (key b _ hb).1) hab
  have nd : n ≠ "default" ∧ n ≠ "value" ∧ n ≠ "essential" := by
    simp only [List.mem_cons, List.not_mem_nil, or_false] at hn
    rcases hn with rfl | rfl | rfl | rfl <;> decide
  refine ⟨?_, ?_, ?_, ?_, two _ _ (by decide), ?_, two _ _ (by decide), two _ _ (by decide), ?_, two _ _ (by decide), fun _ => two _ _ (by decide)⟩
  · intro m v hm
    rw [← (key m v hm).1]
    simp only [List.mem_cons, List.not_mem_nil, or_false] at hn ⊢
    rcases hn with h | h | h | h <;> simp [h]
  · intro m _ v hm
    exact ⟨xs, (key m v hm).2, h, hh⟩
  · intro x hx; exact absurd (key _ _ hx).1 nd.2.1
  · intro x hx
    have e := (key _ _ hx).1
    exact ⟨none _ (by rw [e]; decide), none _ (by rw [e]; decide)⟩
  · intro d hd; exact absurd (key _ _ hd).1 nd.1
  · intro d ys hd; exact absurd (key _ _ hd).1 nd.1

/-- Says about providers what `Ex.im` says, and something else about relying parties. -/
def again : PStatement := ⟨[("op", [("city", Ex.s "B")]), ("rp", [("city", Ex.s "C")])], Ex.im.policy⟩
def other : PStatement := ⟨[("rp", [("city", Ex.s "C")])], [("op", [])]⟩

theorem orderly : PoliciesInOrder "op" Ex.im := by
  intro p hp k c hk
  have : p = [("scopes", [("subset_of", Ex.strs ["b", "c", "d"])]), ("alg", [("one_of", Ex.strs ["x", "y"])])] := by
    have e : Ex.im.policy.get? "op" = some [("scopes", [("subset_of", Ex.strs ["b", "c", "d"])]), ("alg", [("one_of", Ex.strs ["x", "y"])])] := by decide +kernel
    rw [e, Option.some.injEq] at hp; exact hp.symm
  subst this
  rw [Dict.get?_cons] at hk
  split at hk
  · cases hk; exact single (by decide) (by decide) (by decide)
  · rw [Dict.get?_cons] at hk
    split at hk
    · cases hk; exact single (by decide) (by decide) (by decide)
    · cases hk

theorem alone : LeavesAlone "op" Ex.im Ex.im2 := by
  intro p q hp hq k c c' hc hc'
  have e : Ex.im2.policy.get? "op" = some [("alg", [("one_of", Ex.strs ["y", "z"]), ("essential", .bool true)])] := by decide +kernel
  have e' : Ex.im.policy.get? "op" = some [("scopes", [("subset_of", Ex.strs ["b", "c", "d"])]), ("alg", [("one_of", Ex.strs ["x", "y"])])] := by decide +kernel
  rw [e, Option.some.injEq] at hq
  rw [e', Option.some.injEq] at hp
  subst hq; subst hp
  rw [Dict.get?_cons] at hc'
  split at hc'
  · next hk =>
    subst hk
    rw [Dict.get?_cons, if_neg (by decide), Dict.get?_cons, if_pos rfl] at hc
    cases hc; cases hc'
    exact ⟨Or.inl (by decide +kernel), Or.inr (Or.inl (by decide +kernel))⟩
  · cases hc'

def fixed : PStatement := ⟨[], [("op", [("alg", [("value", Ex.s "y"), ("essential", .bool true)])])]⟩
def upper : PStatement := ⟨[], [("op", [("scopes", [("subset_of", Ex.strs ["a", "b"])])])]⟩
def exact' : PStatement := ⟨[], [("op", [("scopes", [("value", Ex.strs ["a"])])])]⟩
def both : PStatement := ⟨[("op", [("alg", Ex.s "y")])], [("op", [("alg", [("one_of", Ex.strs ["y"])])])]⟩
def optional : PStatement := ⟨[], [("op", [("alg", [("essential", .bool false)])])]⟩
def required : PStatement := ⟨[], [("op", [("alg", [("essential", .bool true)])])]⟩
end Ex207

/-- A later authority says the same as the second one, with a stricter one in between. -/
example : SameOutcome (policyFor Ex.E Ex.K [Ex.ta, Ex.im, Ex.im2] Ex.lf "op") (policyFor Ex.E Ex.K [Ex.ta, Ex.im, Ex.im2, Ex207.again] Ex.lf "op") :=
  C207_repeated_partial Ex.E Ex.K [Ex.ta] [Ex.im2] [] Ex.im Ex207.again Ex.lf "op" ⟨by decide +kernel, by decide +kernel⟩ Ex207.orderly (fun h => by cases h) (by
    intro d hd
    rw [List.mem_singleton] at hd
    subst hd
    exact Ex207.alone)

/-- and there is something that is resolved. -/
example : policyFor Ex.E Ex.K [Ex.ta, Ex.im, Ex.im2, Ex207.again] Ex.lf "op" =
    .ok (some [("org", .str "A"), ("city", .str "B"), ("alg", .str "y"), ("scopes", Ex.strs ["b"])]) := by decide +kernel

/-- An authority that speaks of other entities only, at the front of a chain. -/
example : SameOutcome (policyFor Ex.E Ex.K [Ex.ta, Ex.im] Ex.lf "op") (policyFor Ex.E Ex.K [Ex207.other, Ex.ta, Ex.im] Ex.lf "op") :=
  C207_silent_partial Ex.E Ex.K [] [Ex.ta, Ex.im] Ex207.other Ex.lf "op" (by simp) ⟨fun m h => by revert h; simp [Ex207.other, Dict.get?], fun m h => by
    have : Ex207.other.policy.get? "op" = some [] := by decide +kernel
    rw [this, Option.some.injEq] at h; exact h.symm⟩ (by
    intro e he _
    cases he
    intro m p hm hp c hc hc'
    have e1 : Ex.ta.metadata.get? "op" = some [("org", Ex.s "A")] := by decide +kernel
    have e2 : Ex.ta.policy.get? "op" = some [("scopes", [("subset_of", Ex.strs ["a", "b", "c"])])] := by decide +kernel
    rw [e1, Option.some.injEq] at hm
    rw [e2, Option.some.injEq] at hp
    subst hm; subst hp
    simp [Dict.keys] at hc hc'
    rw [hc] at hc'
    revert hc'; decide)

/-- C207 is violated: an authority that repeats what its superior says, word for word, breaks the chain when the superior fixes a value and says that the claim is essential. -/
theorem C207_word_for_word_violation : ¬ C207_full := by
  intro h
  have := h Ex.E Ex.K [Ex207.fixed] [] Ex207.fixed Ex.lf "op" (by simp) (Or.inr ⟨_, by simp, rfl, rfl⟩)
  have e1 : policyFor Ex.E Ex.K ([Ex207.fixed] ++ []) Ex.lf "op" = .ok (some [("scopes", Ex.strs ["a", "b", "e"]), ("alg", Ex.s "y")]) := by decide +kernel
  have e2 : policyFor Ex.E Ex.K ([Ex207.fixed] ++ [Ex207.fixed]) Ex.lf "op" = .error .policyError := by decide +kernel
  rw [e1, e2] at this
  exact this

/-- C207 is violated: what the trust anchor says can not be said again below an authority that fixed the value, although the value is one of those the anchor allows. -/
theorem C207_below_value_violation : ¬ C207_full := by
  intro h
  have := h Ex.E Ex.K [Ex207.upper, Ex207.exact'] [] Ex207.upper Ex.lf "op" (by simp) (Or.inr ⟨_, by simp, rfl, rfl⟩)
  have e1 : policyFor Ex.E Ex.K ([Ex207.upper, Ex207.exact'] ++ []) Ex.lf "op" = .ok (some [("scopes", Ex.strs ["a"]), ("alg", Ex.s "y")]) := by decide +kernel
  have e2 : policyFor Ex.E Ex.K ([Ex207.upper, Ex207.exact'] ++ [Ex207.upper]) Ex.lf "op" = .error .policyError := by decide +kernel
  rw [e1, e2] at this
  exact this

/-- C207 is violated: a claim that the anchor calls optional and an authority below calls essential can not be called optional again. -/
theorem C207_optional_violation : ¬ C207_full := by
  intro h
  have := h Ex.E Ex.K [Ex207.optional, Ex207.required] [] Ex207.optional Ex.lf "op" (by simp) (Or.inr ⟨_, by simp, rfl, rfl⟩)
  have e1 : policyFor Ex.E Ex.K ([Ex207.optional, Ex207.required] ++ []) Ex.lf "op" = .ok (some [("scopes", Ex.strs ["a", "b", "e"]), ("alg", Ex.s "y")]) := by decide +kernel
  have e2 : policyFor Ex.E Ex.K ([Ex207.optional, Ex207.required] ++ [Ex207.optional]) Ex.lf "op" = .error .policyError := by decide +kernel
  rw [e1, e2] at this
  exact this

/-- C207 is violated: putting an anchor that says nothing in front of a chain makes it fail when its first statement gives a value to a claim that it also constrains. -/
theorem C207_silent_anchor_violation : ¬ C207_full := by
  intro h
  have := h Ex.E Ex.K [] [Ex207.both] Ex207.other Ex.lf "op" (by simp) (Or.inl ⟨fun m hm => by revert hm; simp [Ex207.other, Dict.get?], fun p hp => by
    have : Ex207.other.policy.get? "op" = some [] := by decide +kernel
    rw [this, Option.some.injEq] at hp; exact hp.symm⟩)
  have e1 : policyFor Ex.E Ex.K ([] ++ [Ex207.both]) Ex.lf "op" = .ok (some [("alg", Ex.s "y"), ("scopes", Ex.strs ["a", "b", "e"])]) := by decide +kernel
  have e2 : policyFor Ex.E Ex.K ([] ++ [Ex207.other, Ex207.both]) Ex.lf "op" = .error .policyError := by decide +kernel
  rw [e1, e2] at this
  exact this

end Fed.Policy
