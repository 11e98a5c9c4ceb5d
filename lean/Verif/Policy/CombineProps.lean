import Verif.Policy.CombineLemmas
import Verif.Policy.OperatorsProps
import Verif.Policy.HashOrderCombine
/-
Properties C12–C18, C20, C22: combination of the policies of a trust chain.
-/
namespace Fed.Policy
open Fed

/-! ## Specification: when a claim value is acceptable to a claim policy -/

/-- `value`: exactly that value. -/
def SatValue (cp : ClaimPolicy) (v : Option Val) : Prop := ∀ x, cp.get? "value" = some x → v = some x
/-- `one_of`: absent, or one of the list. -/
def SatOneOf (cp : ClaimPolicy) (v : Option Val) : Prop :=
  ∀ L, cp.get? "one_of" = some (.arr L) → ∀ y, v = some y → y ∈ L
/-- `subset_of`: holds nothing outside the list. -/
def SatSubset (cp : ClaimPolicy) (v : Option Val) : Prop :=
  ∀ L, cp.get? "subset_of" = some (.arr L) → ∀ y ∈ held v, y ∈ L
/-- `superset_of`: absent, or holds everything in the list. -/
def SatSuperset (cp : ClaimPolicy) (v : Option Val) : Prop :=
  ∀ L, cp.get? "superset_of" = some (.arr L) → v ≠ none → ∀ y ∈ L, y ∈ held v
/-- `essential`: present. -/
def SatEssential (cp : ClaimPolicy) (v : Option Val) : Prop := cp.get? "essential" = some (.bool true) → v ≠ none

/-- A value acceptable to a claim policy. -/
def Sat (cp : ClaimPolicy) (v : Option Val) : Prop :=
  SatValue cp v ∧ SatOneOf cp v ∧ SatSubset cp v ∧ SatSuperset cp v ∧ SatEssential cp v

/-- Schema condition: `essential`, when given, is a JSON boolean. -/
def BoolEssential (cp : ClaimPolicy) : Prop := ∀ e, cp.get? "essential" = some e → ∃ b, e = .bool b

/-! ## C12, C13 -/

/-- C12 in full. -/
def C12_full : Prop :=
  ∀ (E : SetEnum Val) (K : SetEnum String) (sup child r : ClaimPolicy) (v : Option Val), (∃ u, Sat sup u) →
    combineClaimPolicy E K sup child = .ok r → Sat r v → Sat sup v

/-- C12 is violated: `superset_of` of both are intersected (policy.py 16-17), so the subordinate can drop what the superior
demands. -/
theorem C12_superior_violation : ¬ C12_full := by
  intro h
  have h1 := h Ex.E Ex.K [("superset_of", Ex.strs ["a", "b"])] [("superset_of", Ex.strs ["b", "c"])]
    [("superset_of", Ex.strs ["b"])] (some (Ex.strs ["b"])) ⟨none, by simp [Sat, SatValue, SatOneOf, SatSubset, SatSuperset, SatEssential, Dict.get?, held]⟩
    (by decide +kernel)
    (by
      refine ⟨by simp [SatValue, Dict.get?], by simp [SatOneOf, Dict.get?], by simp [SatSubset, Dict.get?], ?_,
        by simp [SatEssential, Dict.get?]⟩
      intro L hL _ y hy
      simp [Dict.get?, Ex.strs] at hL
      subst hL; simpa [held, Ex.strs] using hy)
  have := h1.2.2.2.1 [.str "a", .str "b"] (by decide +kernel) (by simp) (.str "a") (by simp)
  revert this; decide +kernel

/-- C13 in full. -/
def C13_full : Prop :=
  ∀ (E : SetEnum Val) (K : SetEnum String) (sup child r : ClaimPolicy) (v : Option Val), (∃ u, Sat child u) →
    BoolEssential sup → combineClaimPolicy E K sup child = .ok r → Sat r v → Sat child v

/-- C13 is violated by the same `superset_of` intersection. -/
theorem C13_subordinate_violation : ¬ C13_full := by
  intro h
  have h1 := h Ex.E Ex.K [("superset_of", Ex.strs ["b", "c"])] [("superset_of", Ex.strs ["a", "b"])]
    [("superset_of", Ex.strs ["b"])] (some (Ex.strs ["b"])) ⟨none, by simp [Sat, SatValue, SatOneOf, SatSubset, SatSuperset, SatEssential, Dict.get?, held]⟩
    (by simp [BoolEssential, Dict.get?]) (by decide +kernel)
    (by
      refine ⟨by simp [SatValue, Dict.get?], by simp [SatOneOf, Dict.get?], by simp [SatSubset, Dict.get?], ?_,
        by simp [SatEssential, Dict.get?]⟩
      intro L hL _ y hy
      simp [Dict.get?, Ex.strs] at hL
      subst hL; simpa [held, Ex.strs] using hy)
  have := h1.2.2.2.1 [.str "a", .str "b"] (by decide +kernel) (by simp) (.str "a") (by simp)
  revert this; decide +kernel

/-- Intersections are within both sides. -/
theorem inter_shrinks {E : SetEnum Val} {K : SetEnum String} {s c rule : ClaimPolicy}
    (h : combineFree E K s c = .ok rule) {op : String} (hop : op = "superset_of" ∨ op = "subset_of" ∨ op = "one_of") :
    (∀ L, s.get? op = some (.arr L) → ∃ L', rule.get? op = some (.arr L') ∧ ∀ y ∈ L', y ∈ L) ∧
    (∀ L, c.get? op = some (.arr L) → ∃ L', rule.get? op = some (.arr L') ∧ ∀ y ∈ L', y ∈ L) := by
  rcases combineFree_inter h hop with ⟨h1, h2⟩ | ⟨h1, h2⟩ | ⟨x, y, a, b, hx, hy, ha, hb, hr, _⟩
  · exact ⟨fun L hL => by rw [h1] at hL; simp at hL, fun L hL => ⟨L, by rw [h2, hL], fun _ h => h⟩⟩
  · exact ⟨fun L hL => ⟨L, by rw [h2, hL], fun _ h => h⟩, fun L hL => by rw [h1] at hL; simp at hL⟩
  · constructor
    · intro L hL
      rw [hx, Option.some.injEq] at hL; subst hL
      obtain ⟨rfl, _⟩ := pySet_arr ha
      exact ⟨_, hr, fun y hy => (mem_inter.1 ((E.mem_enum _ _).1 hy)).1⟩
    · intro L hL
      rw [hy, Option.some.injEq] at hL; subst hL
      obtain ⟨rfl, _⟩ := pySet_arr hb
      exact ⟨_, hr, fun y hy => (mem_inter.1 ((E.mem_enum _ _).1 hy)).2⟩

/-- C12 without a `superset_of` on both sides (missing: that case, in which it is false). The superior's own policy is
assumed satisfiable at all. -/
theorem C12_superior_partial (E : SetEnum Val) (K : SetEnum String) (sup child r : ClaimPolicy) (v : Option Val)
    (hsat : ∃ u, Sat sup u) (hss : sup.get? "superset_of" = none ∨ child.get? "superset_of" = none)
    (h : combineClaimPolicy E K sup child = .ok r) (hr : Sat r v) : Sat sup v := by
  unfold combineClaimPolicy at h
  cases hv : sup.get? "value" with
  | some x =>
    simp only [hv] at h
    obtain ⟨h1, _⟩ := combineFixed_ok hv h
    have hvx := hr.1 x h1
    obtain ⟨u, hu⟩ := hsat
    have := hu.1 x hv
    rw [hvx, ← this]; exact hu
  | none =>
    simp only [hv] at h
    obtain ⟨_, r2, r3, r4, r5⟩ := hr
    refine ⟨fun x hx => by rw [hv] at hx; simp at hx, ?_, ?_, ?_, ?_⟩
    · intro L hL y hy
      obtain ⟨L', e, hs⟩ := (inter_shrinks h (op := "one_of") (by simp)).1 L hL
      exact hs y (r2 L' e y hy)
    · intro L hL y hy
      obtain ⟨L', e, hs⟩ := (inter_shrinks h (op := "subset_of") (by simp)).1 L hL
      exact hs y (r3 L' e y hy)
    · intro L hL hn y hy
      rcases hss with hss | hss
      · rw [hss] at hL; simp at hL
      · rcases combineFree_inter h (op := "superset_of") (by simp) with ⟨e1, _⟩ | ⟨_, e2⟩ | ⟨_, y', _, _, _, e3, _⟩
        · rw [e1] at hL; simp at hL
        · exact r4 L (by rw [e2, hL]) hn y hy
        · rw [hss] at e3; simp at e3
    · intro he
      apply r5
      rcases combineFree_essential h with ⟨e1, _⟩ | ⟨_, e2⟩ | ⟨x, y, e1, _, _, e2⟩
      · rw [e1] at he; simp at he
      · rw [e2, he]
      · rw [e1, Option.some.injEq] at he
        subst he
        simpa [Val.truthy] using e2

example : Sat [("subset_of", Ex.strs ["a", "b"]), ("essential", .bool false)] (some (Ex.strs ["b"])) := by
  refine C12_superior_partial Ex.E Ex.K _ [("subset_of", Ex.strs ["b", "c"]), ("essential", .bool true)]
    [("subset_of", Ex.strs ["b"]), ("essential", .bool true)] _ ⟨some (Ex.strs ["a"]), ?_⟩ (by decide +kernel)
    (by decide +kernel) ?_ <;>
  · refine ⟨by simp [SatValue, Dict.get?], by simp [SatOneOf, Dict.get?], ?_, by simp [SatSuperset, Dict.get?],
      by simp [SatEssential, Dict.get?]⟩
    intro L hL y hy
    simp [Dict.get?, Ex.strs] at hL
    subst hL; simp [held, Ex.strs] at hy; simp [hy]

/-- C13 without a `superset_of` on both sides (missing: that case, in which it is false). -/
theorem C13_subordinate_partial (E : SetEnum Val) (K : SetEnum String) (sup child r : ClaimPolicy) (v : Option Val)
    (hsat : ∃ u, Sat child u) (hb : BoolEssential sup)
    (hss : sup.get? "superset_of" = none ∨ child.get? "superset_of" = none)
    (h : combineClaimPolicy E K sup child = .ok r) (hr : Sat r v) : Sat child v := by
  have hval := (combineClaim_value h).2
  unfold combineClaimPolicy at h
  cases hv : sup.get? "value" with
  | some x =>
    simp only [hv] at h
    obtain ⟨h1, h2⟩ := combineFixed_ok hv h
    have hvx := hr.1 x h1
    rcases h2 with ⟨_, h3 | ⟨_, h3⟩⟩ | ⟨e, _, h3, _⟩
    · have hn : ∀ op ∈ policyFunctions, child.get? op = none := fun op => recognised_nil h3
      refine ⟨?_, ?_, ?_, ?_, ?_⟩
      · intro a ha; rw [hn _ (by decide)] at ha; simp at ha
      · intro a ha; rw [hn _ (by decide)] at ha; simp at ha
      · intro a ha; rw [hn _ (by decide)] at ha; simp at ha
      · intro a ha; rw [hn _ (by decide)] at ha; simp at ha
      · intro ha; rw [hn _ (by decide)] at ha; simp at ha
    · obtain ⟨u, hu⟩ := hsat
      rw [hvx, ← hu.1 x h3]; exact hu
    · have hn : ∀ op ∈ policyFunctions, op ≠ "essential" → child.get? op = none := fun op => recognised_essential h3
      refine ⟨?_, ?_, ?_, ?_, ?_⟩
      · intro a ha; rw [hn _ (by decide) (by decide)] at ha; simp at ha
      · intro a ha; rw [hn _ (by decide) (by decide)] at ha; simp at ha
      · intro a ha; rw [hn _ (by decide) (by decide)] at ha; simp at ha
      · intro a ha; rw [hn _ (by decide) (by decide)] at ha; simp at ha
      · intro _; rw [hvx]; simp
  | none =>
    simp only [hv] at h
    obtain ⟨r1, r2, r3, r4, r5⟩ := hr
    refine ⟨fun x hx => r1 x (hval x hx), ?_, ?_, ?_, ?_⟩
    · intro L hL y hy
      obtain ⟨L', e, hs⟩ := (inter_shrinks h (op := "one_of") (by simp)).2 L hL
      exact hs y (r2 L' e y hy)
    · intro L hL y hy
      obtain ⟨L', e, hs⟩ := (inter_shrinks h (op := "subset_of") (by simp)).2 L hL
      exact hs y (r3 L' e y hy)
    · intro L hL hn y hy
      rcases hss with hss | hss
      · rcases combineFree_inter h (op := "superset_of") (by simp) with ⟨_, e2⟩ | ⟨e1, _⟩ | ⟨_, _, _, _, e3, _⟩
        · exact r4 L (by rw [e2, hL]) hn y hy
        · rw [e1] at hL; simp at hL
        · rw [hss] at e3; simp at e3
      · rw [hss] at hL; simp at hL
    · intro he
      apply r5
      rcases combineFree_essential h with ⟨_, e2⟩ | ⟨e1, _⟩ | ⟨x, y, e0, e1, _, e2⟩
      · rw [e2, he]
      · rw [e1] at he; simp at he
      · rw [e1, Option.some.injEq] at he
        subst he
        obtain ⟨b, rfl⟩ := hb x e0
        cases b <;> simpa [Val.truthy] using e2

example : Sat [("subset_of", Ex.strs ["b", "c"]), ("essential", .bool true)] (some (Ex.strs ["b"])) := by
  refine C13_subordinate_partial Ex.E Ex.K [("subset_of", Ex.strs ["a", "b"]), ("essential", .bool false)] _
    [("subset_of", Ex.strs ["b"]), ("essential", .bool true)] _ ⟨some (Ex.strs ["c"]), ?_⟩ ?_ (by decide +kernel)
    (by decide +kernel) ?_
  · refine ⟨by simp [SatValue, Dict.get?], by simp [SatOneOf, Dict.get?], ?_, by simp [SatSuperset, Dict.get?],
      by simp [SatEssential, Dict.get?]⟩
    intro L hL y hy
    simp [Dict.get?, Ex.strs] at hL
    subst hL; simp [held, Ex.strs] at hy; simp [hy]
  · intro e he; simp [Dict.get?] at he; exact ⟨_, he.symm⟩
  · refine ⟨by simp [SatValue, Dict.get?], by simp [SatOneOf, Dict.get?], ?_, by simp [SatSuperset, Dict.get?],
      by simp [SatEssential, Dict.get?]⟩
    intro L hL y hy
    simp [Dict.get?, Ex.strs] at hL
    subst hL; simp [held, Ex.strs] at hy; simp [hy]

/-! ## C15 -/

/-- C15: another value than the superior's is refused. -/
theorem C15_value_conflict_refused (E : SetEnum Val) (K : SetEnum String) (sup child : ClaimPolicy) (x y : Val)
    (hx : sup.get? "value" = some x) (hy : child.get? "value" = some y) (hne : x ≠ y) :
    ∃ e, combineClaimPolicy E K sup child = .error e := by
  cases h : combineClaimPolicy E K sup child with
  | error e => exact ⟨e, rfl⟩
  | ok r =>
    have h1 := (combineClaim_value h).1 x hx
    have h2 := (combineClaim_value h).2 y hy
    rw [h1] at h2; simp at h2; exact absurd h2 hne

example : ∃ e, combineClaimPolicy Ex.E Ex.K [("value", .str "a")] [("value", .str "b")] = .error e :=
  C15_value_conflict_refused Ex.E Ex.K _ _ _ _ rfl rfl (by decide)

/-- C15: another default than the superior's is refused, unless the superior fixes the value anyway. -/
theorem C15_default_conflict_refused (E : SetEnum Val) (K : SetEnum String) (sup child : ClaimPolicy) (x y : Val)
    (hv : sup.get? "value" = none) (hx : sup.get? "default" = some x) (hy : child.get? "default" = some y)
    (hne : x ≠ y) : ∃ e, combineClaimPolicy E K sup child = .error e := by
  cases h : combineClaimPolicy E K sup child with
  | error e => exact ⟨e, rfl⟩
  | ok r =>
    simp only [combineClaimPolicy, hv] at h
    exact absurd ((combineFree_default h).2 x y hx hy) hne

example : ∃ e, combineClaimPolicy Ex.E Ex.K [("default", .str "a"), ("essential", .bool true)] [("default", .str "b")] = .error e :=
  C15_default_conflict_refused Ex.E Ex.K _ _ _ _ rfl rfl rfl (by decide)

/-- C15: making an essential claim optional is refused, unless the superior fixes the value anyway. -/
theorem C15_essential_weakening_refused (E : SetEnum Val) (K : SetEnum String) (sup child : ClaimPolicy)
    (hv : sup.get? "value" = none) (hx : sup.get? "essential" = some (.bool true))
    (hy : child.get? "essential" = some (.bool false)) : combineClaimPolicy E K sup child = .error .policyError := by
  simp [combineClaimPolicy, hv, combineFree, essentialClash, hx, hy]

example : combineClaimPolicy Ex.E Ex.K [("essential", .bool true)] [("essential", .bool false)] = .error .policyError :=
  C15_essential_weakening_refused Ex.E Ex.K _ _ rfl rfl rfl

/-! ## C16 -/

/-- Set inclusion of list operands: when both operators are present as lists, the first is within the second. -/
def Within (r : ClaimPolicy) (op1 op2 : String) : Prop :=
  ∀ A B, r.get? op1 = some (.arr A) → r.get? op2 = some (.arr B) → ∀ x ∈ A, x ∈ B

/-- C16 in full. -/
def C16_full : Prop :=
  ∀ (E : SetEnum Val) (K : SetEnum String) (sup child r : ClaimPolicy), combineClaimPolicy E K sup child = .ok r →
    Within r "superset_of" "subset_of" ∧ Within r "default" "subset_of" ∧ Within r "superset_of" "default" ∧
    Within r "add" "subset_of" ∧ Within r "default" "one_of" ∧
    (∀ d L, r.get? "default" = some d → d.isList = false → r.get? "one_of" = some (.arr L) → d ∈ L)

/-- C16 is violated: the checks compare the *exact* set of operators, so adding `essential` disables them. -/
theorem C16_self_consistent_violation : ¬ C16_full := by
  intro h
  have := (h Ex.E Ex.K [("subset_of", Ex.strs ["a"]), ("essential", .bool true)] [("superset_of", Ex.strs ["b"])]
    [("subset_of", Ex.strs ["a"]), ("superset_of", Ex.strs ["b"]), ("essential", .bool true)] (by decide +kernel)).1
    [.str "b"] [.str "a"] (by decide +kernel) (by decide +kernel) (.str "b") (by simp)
  revert this; decide +kernel

/-- The operators present in `r` are exactly those listed. -/
def OpsExactly (r : ClaimPolicy) (ops : List String) : Prop := ∀ n, (r.get? n).isSome ↔ n ∈ ops

theorem demandSubset_ok {a b : Val} (h : demandSubset a b = .ok ()) :
    ∃ x y, pySet a = .ok x ∧ pySet b = .ok y ∧ ∀ z ∈ x, z ∈ y := by
  unfold demandSubset at h
  cases hx : pySet a with
  | error e => simp [hx] at h
  | ok x =>
    cases hy : pySet b with
    | error e => simp [hx, hy] at h
    | ok y =>
      simp only [hx, hy, ok_bind] at h
      refine ⟨x, y, rfl, rfl, ?_⟩
      split at h
      · next hd =>
        intro z hz
        rw [List.isEmpty_iff] at hd
        by_cases hzy : z ∈ y
        · exact hzy
        · have := mem_diff.2 ⟨hz, hzy⟩; rw [hd] at this; simp at this
      · simp at h

theorem within_of_demand {r : ClaimPolicy} {op1 op2 : String} {a b : Val} (ha : r.get? op1 = some a)
    (hb : r.get? op2 = some b) (h : demandSubset a b = .ok ()) : Within r op1 op2 := by
  intro A B hA hB
  rw [ha, Option.some.injEq] at hA; rw [hb, Option.some.injEq] at hB
  subst hA; subst hB
  obtain ⟨x, y, hx, hy, hs⟩ := demandSubset_ok h
  obtain ⟨rfl, _⟩ := pySet_arr hx
  obtain ⟨rfl, _⟩ := pySet_arr hy
  exact hs

theorem sameSet_iff {a b : List String} : sameSet a b = true ↔ ∀ x, x ∈ a ↔ x ∈ b := by
  simp only [sameSet, Bool.and_eq_true, List.all_eq_true, decide_eq_true_eq]
  exact ⟨fun h x => ⟨h.1 x, h.2 x⟩, fun h => ⟨fun x => (h x).1, fun x => (h x).2⟩⟩

/-- C16 for the operator sets the code looks at. Missing: every other set of operators (one of these sets plus, say,
`essential`), where the contradiction goes unnoticed. -/
theorem C16_self_consistent_partial (E : SetEnum Val) (K : SetEnum String) (sup child r : ClaimPolicy)
    (h : combineClaimPolicy E K sup child = .ok r) :
    (OpsExactly r ["superset_of", "subset_of"] → Within r "superset_of" "subset_of") ∧
    (OpsExactly r ["superset_of", "subset_of", "default"] →
      Within r "superset_of" "subset_of" ∧ Within r "default" "subset_of" ∧ Within r "superset_of" "default") ∧
    (OpsExactly r ["subset_of", "default"] → Within r "default" "subset_of") ∧
    (OpsExactly r ["superset_of", "default"] → Within r "superset_of" "default") ∧
    (OpsExactly r ["one_of", "default"] → Within r "default" "one_of" ∧
      ∀ d L, r.get? "default" = some d → d.isList = false → r.get? "one_of" = some (.arr L) → d ∈ L) ∧
    (OpsExactly r ["subset_of", "add"] → Within r "add" "subset_of") ∧
    (OpsExactly r ["superset_of", "add"] → Within r "superset_of" "add") := by
  have key : ∀ ops, OpsExactly r ops → "value" ∉ ops → ∀ ops', combPolicy sup child = ops' →
      (∀ x, x ∈ ops' ↔ x ∈ ops) ∧ consistency ops' r = .ok () := by
    intro ops ho hv ops' hops
    subst hops
    have hrv : r.get? "value" = none := by
      have := fun e => hv ((ho "value").1 e); simpa using this
    have hsv : sup.get? "value" = none := by
      cases hs : sup.get? "value" with
      | none => rfl
      | some x => rw [(combineClaim_value h).1 x hs] at hrv; simp at hrv
    simp only [combineClaimPolicy, hsv] at h
    obtain ⟨_, _, hc, h1, h2⟩ := combineFree_ok h
    refine ⟨fun x => ?_, hc⟩
    rw [← ho x]
    constructor
    · intro hx; obtain ⟨v, _, e⟩ := h1 x hx; simp [e]
    · intro hx
      by_cases hm : x ∈ combPolicy sup child
      · exact hm
      · rw [h2 x hm] at hx; simp at hx
  have get : ∀ {ops : List String}, OpsExactly r ops → ∀ {n : String}, n ∈ ops → ∃ v, r.get? n = some v := by
    intro ops ho n hn
    exact Option.isSome_iff_exists.1 ((ho n).2 hn)
  have ss : ∀ {a b c : List String}, (∀ x, x ∈ a ↔ x ∈ b) → sameSet a c = sameSet b c := by
    intro a b c hab
    rw [Bool.eq_iff_iff, sameSet_iff, sameSet_iff]
    simp only [hab]
  refine ⟨?_, ?_, ?_, ?_, ?_, ?_, ?_⟩
  · intro ho
    obtain ⟨hm, hc⟩ := key _ ho (by decide) _ rfl
    obtain ⟨a, ha⟩ := get ho (n := "superset_of") (by decide)
    obtain ⟨b, hb⟩ := get ho (n := "subset_of") (by decide)
    simp (decide := true) only [consistency, ss hm, Dict.get, ha, hb, ok_bind, if_true, if_false] at hc
    exact within_of_demand ha hb hc
  · intro ho
    obtain ⟨hm, hc⟩ := key _ ho (by decide) _ rfl
    obtain ⟨a, ha⟩ := get ho (n := "superset_of") (by decide)
    obtain ⟨b, hb⟩ := get ho (n := "subset_of") (by decide)
    obtain ⟨d, hd⟩ := get ho (n := "default") (by decide)
    simp (decide := true) only [consistency, ss hm, Dict.get, ha, hb, hd, ok_bind, if_true, if_false] at hc
    cases h1 : demandSubset a b with
    | error e => simp [h1] at hc
    | ok u =>
      simp only [h1, ok_bind] at hc
      cases h2 : demandSubset d b with
      | error e => simp [h2] at hc
      | ok u =>
        simp only [h2, ok_bind] at hc
        exact ⟨within_of_demand ha hb h1, within_of_demand hd hb h2, within_of_demand ha hd hc⟩
  · intro ho
    obtain ⟨hm, hc⟩ := key _ ho (by decide) _ rfl
    obtain ⟨b, hb⟩ := get ho (n := "subset_of") (by decide)
    obtain ⟨d, hd⟩ := get ho (n := "default") (by decide)
    simp (decide := true) only [consistency, ss hm, Dict.get, hb, hd, ok_bind, if_true, if_false] at hc
    exact within_of_demand hd hb hc
  · intro ho
    obtain ⟨hm, hc⟩ := key _ ho (by decide) _ rfl
    obtain ⟨b, hb⟩ := get ho (n := "superset_of") (by decide)
    obtain ⟨d, hd⟩ := get ho (n := "default") (by decide)
    simp (decide := true) only [consistency, ss hm, Dict.get, hb, hd, ok_bind, if_true, if_false] at hc
    exact within_of_demand hb hd hc
  · intro ho
    obtain ⟨hm, hc⟩ := key _ ho (by decide) _ rfl
    obtain ⟨b, hb⟩ := get ho (n := "one_of") (by decide)
    obtain ⟨d, hd⟩ := get ho (n := "default") (by decide)
    simp (decide := true) only [consistency, ss hm, Dict.get, hb, hd, ok_bind, if_true, if_false] at hc
    by_cases hl : d.isList = true
    · simp only [hl, if_true] at hc
      refine ⟨within_of_demand hd hb hc, ?_⟩
      intro d' L e hn
      rw [hd, Option.some.injEq] at e; subst e; rw [hl] at hn; simp at hn
    · simp only [hl, Bool.false_eq_true, if_false] at hc
      constructor
      · intro A B hA
        rw [hd, Option.some.injEq] at hA; subst hA; simp [Val.isList] at hl
      · intro d' L e _ hL
        rw [hd, Option.some.injEq] at e; subst e
        rw [hb, Option.some.injEq] at hL; subst hL
        cases hx : mkSet [d] with
        | error e => simp [hx] at hc
        | ok x =>
          cases hy : pySet (.arr L) with
          | error e => simp [hx, hy] at hc
          | ok y =>
            obtain ⟨rfl, _⟩ := mkSet_ok hx
            obtain ⟨rfl, _⟩ := pySet_arr hy
            simp only [hx, hy, ok_bind] at hc
            split at hc
            · next he =>
              rw [List.isEmpty_iff] at he
              by_cases hm : d ∈ y
              · exact hm
              · have := mem_diff.2 ⟨List.mem_singleton_self d, hm⟩; rw [he] at this; simp at this
            · simp at hc
  · intro ho
    obtain ⟨hm, hc⟩ := key _ ho (by decide) _ rfl
    obtain ⟨b, hb⟩ := get ho (n := "subset_of") (by decide)
    obtain ⟨d, hd⟩ := get ho (n := "add") (by decide)
    simp (decide := true) only [consistency, ss hm, Dict.get, hb, hd, ok_bind, if_true, if_false] at hc
    exact within_of_demand hd hb hc
  · intro ho
    obtain ⟨hm, hc⟩ := key _ ho (by decide) _ rfl
    obtain ⟨b, hb⟩ := get ho (n := "superset_of") (by decide)
    obtain ⟨d, hd⟩ := get ho (n := "add") (by decide)
    simp (decide := true) only [consistency, ss hm, Dict.get, hb, hd, ok_bind, if_true, if_false] at hc
    exact within_of_demand hb hd hc

/-- Non-vacuity: accepted and refused combinations of `superset_of` with `subset_of`. -/
example : combineClaimPolicy Ex.E Ex.K [("subset_of", Ex.strs ["a", "b"])] [("superset_of", Ex.strs ["b"])]
      = .ok [("subset_of", Ex.strs ["a", "b"]), ("superset_of", Ex.strs ["b"])] ∧
    combineClaimPolicy Ex.E Ex.K [("subset_of", Ex.strs ["a"])] [("superset_of", Ex.strs ["b"])] = .error .policyError := by
  decide +kernel

/-- C16, also true in general: `one_of` is never combined with `subset_of` or `superset_of` (when the superior does not fix
the value). -/
theorem C16_one_of_exclusive_partial (E : SetEnum Val) (K : SetEnum String) (sup child r : ClaimPolicy)
    (h : combineClaimPolicy E K sup child = .ok r) (hv : sup.get? "value" = none)
    (ho : (r.get? "one_of").isSome) : r.get? "subset_of" = none ∧ r.get? "superset_of" = none := by
  simp only [combineClaimPolicy, hv] at h
  obtain ⟨_, hex, _, h1, h2⟩ := combineFree_ok h
  have hm : "one_of" ∈ combPolicy sup child := by
    by_cases hm : "one_of" ∈ combPolicy sup child
    · exact hm
    · rw [h2 _ hm] at ho; simp at ho
  constructor
  · exact h2 _ fun hs => hex ⟨hm, Or.inl hs⟩
  · exact h2 _ fun hs => hex ⟨hm, Or.inr hs⟩

example : combineClaimPolicy Ex.E Ex.K [("one_of", Ex.strs ["a", "b"])] [("one_of", Ex.strs ["b"])]
    = .ok [("one_of", Ex.strs ["b"])] := by decide +kernel

/-! ## C17 -/

/-- C17: the combined policy has a claim iff one of the two has it; a claim only one of them has keeps its operators. -/
theorem C17_combine_covers (E : SetEnum Val) (K : SetEnum String) (sup sub r : Rule)
    (h : combine E K sup sub = .ok r) (c : String) :
    (c ∈ r.policy.keys ↔ c ∈ sup.policy.keys ∨ c ∈ sub.policy.keys) ∧
    (c ∉ sub.policy.keys → r.policy.get? c = sup.policy.get? c) ∧
    (c ∉ sup.policy.keys → r.policy.get? c = sub.policy.get? c) := by
  have hc := (combine_ok h).2.2 c
  simp only [Dict.mem_keys_iff]
  cases hs : sup.policy.get? c with
  | none => rw [hs] at hc; simp only [CombinedClaim] at hc; rw [hc]; simp
  | some a =>
    cases hb : sub.policy.get? c with
    | none => rw [hs, hb] at hc; simp only [CombinedClaim] at hc; simp [hc]
    | some b =>
      rw [hs, hb] at hc
      obtain ⟨p, _, e⟩ := hc
      simp [e]

example : combine Ex.E Ex.K ⟨[], [("a", [("value", .int 1)]), ("b", [("essential", .bool true)])]⟩
    ⟨[], [("c", [("value", .int 2)]), ("b", [("default", .int 3)])]⟩ =
    .ok ⟨[], [("b", [("default", .int 3), ("essential", .bool true)]), ("a", [("value", .int 1)]), ("c", [("value", .int 2)])]⟩ := by
  decide +kernel

/-! ## Chains -/

theorem gatherRest_metadata {E : SetEnum Val} {K : SetEnum String} {t : String} {chain : List PStatement}
    {rule R : Rule} (h : gatherRest E K t chain rule = .ok R) :
    (∀ c x, rule.metadata.get? c = some x → R.metadata.get? c = some x) ∧
    ∀ es ∈ chain, ∀ c x, (es.rule t).metadata.get? c = some x → R.metadata.get? c = some x := by
  induction chain generalizing rule with
  | nil => simp only [gatherRest, Except.ok.injEq] at h; subst h; simp
  | cons es chain ih =>
    simp only [gatherRest] at h
    split at h
    · next he =>
      obtain ⟨i1, i2⟩ := ih h
      refine ⟨i1, ?_⟩
      intro es' hes'
      rcases List.mem_cons.1 hes' with rfl | hm
      · intro c x hx; rw [he] at hx; simp at hx
      · exact i2 es' hm
    · split at h
      · simp at h
      · cases hc : combine E K rule (es.rule t) with
        | error e => simp [hc] at h
        | ok rule' =>
          simp only [hc, ok_bind] at h
          obtain ⟨i1, i2⟩ := ih h
          obtain ⟨m1, m2, _⟩ := combine_ok hc
          constructor
          · intro c x hx
            apply i1
            rw [m1, hx]
            cases hs : (es.rule t).metadata.get? c with
            | none => rfl
            | some y => simp [m2 c x y hx hs]
          · intro es' hes'
            rcases List.mem_cons.1 hes' with rfl | hm
            · intro c x hx
              apply i1
              rw [m1, hx]; rfl
            · exact i2 es' hm

/-- C18: explicit metadata of every statement of the chain is in the combined metadata. -/
theorem C18_superior_metadata_kept (E : SetEnum Val) (K : SetEnum String) (chain : List PStatement) (t : String) (R : Rule)
    (h : gatherPolicies E K chain t = .ok R) (es : PStatement) (hes : es ∈ chain) (md : Metadata)
    (hmd : es.metadata.get? t = some md) (c : String) (x : Val) (hx : md.get? c = some x) :
    R.metadata.get? c = some x := by
  cases chain with
  | nil => simp at hes
  | cons e0 rest =>
    simp only [gatherPolicies] at h
    obtain ⟨h1, h2⟩ := gatherRest_metadata h
    have hr : (es.rule t).metadata.get? c = some x := by simp [PStatement.rule, hmd, hx]
    rcases List.mem_cons.1 hes with rfl | hm
    · exact h1 c x hr
    · exact h2 es hm c x hr

/-- C18: two statements of a chain that set one claim differently make resolution fail. -/
theorem C18_contradiction_refused (E : SetEnum Val) (K : SetEnum String) (chain : List PStatement) (t : String)
    (es es' : PStatement) (hes : es ∈ chain) (hes' : es' ∈ chain) (md md' : Metadata)
    (hmd : es.metadata.get? t = some md) (hmd' : es'.metadata.get? t = some md') (c : String) (x y : Val)
    (hx : md.get? c = some x) (hy : md'.get? c = some y) (hne : x ≠ y) :
    ∃ e, gatherPolicies E K chain t = .error e := by
  cases h : gatherPolicies E K chain t with
  | error e => exact ⟨e, rfl⟩
  | ok R =>
    have h1 := C18_superior_metadata_kept E K chain t R h es hes md hmd c x hx
    have h2 := C18_superior_metadata_kept E K chain t R h es' hes' md' hmd' c y hy
    rw [h1] at h2; simp at h2; exact absurd h2 hne

namespace Ex
def ta : PStatement := ⟨[("op", [("org", s "A")])], [("op", [("scopes", [("subset_of", strs ["a", "b", "c"])])])]⟩
def im : PStatement := ⟨[("op", [("city", s "B")])],
  [("op", [("scopes", [("subset_of", strs ["b", "c", "d"])]), ("alg", [("one_of", strs ["x", "y"])])])]⟩
def im2 : PStatement := ⟨[], [("op", [("alg", [("one_of", strs ["y", "z"]), ("essential", .bool true)])])]⟩
def lf : PStatement := ⟨[("op", [("scopes", strs ["a", "b", "e"]), ("alg", s "y")])], []⟩
def comb : Rule := ⟨[("org", s "A"), ("city", s "B")],
  [("alg", [("one_of", strs ["y"]), ("essential", .bool true)]), ("scopes", [("subset_of", strs ["b", "c"])])]⟩
theorem gathers : gatherPolicies E K [ta, im, im2] "op" = .ok comb := by decide +kernel
theorem leafResolves : policyFor E K [ta, im, im2] lf "op" =
    .ok (some [("org", s "A"), ("city", s "B"), ("alg", s "y"), ("scopes", strs ["b"])]) := by decide +kernel
end Ex

example : Ex.comb.metadata.get? "city" = some (.str "B") :=
  C18_superior_metadata_kept Ex.E Ex.K [Ex.ta, Ex.im, Ex.im2] "op" _ Ex.gathers Ex.im (by simp) [("city", .str "B")]
    (by decide +kernel) "city" _ (by decide +kernel)

/-! ### C14 -/

/-- The combined claim policy `r` is at least as strict as `p` (or fixes the value). -/
structure AsStrict (p r : ClaimPolicy) : Prop where
  value : ∀ x, p.get? "value" = some x → r.get? "value" = some x
  subset : ∀ L, p.get? "subset_of" = some (.arr L) →
    (r.get? "value").isSome ∨ ∃ L', r.get? "subset_of" = some (.arr L') ∧ ∀ y ∈ L', y ∈ L
  oneOf : ∀ L, p.get? "one_of" = some (.arr L) →
    (r.get? "value").isSome ∨ ∃ L', r.get? "one_of" = some (.arr L') ∧ ∀ y ∈ L', y ∈ L

theorem AsStrict.refl (p : ClaimPolicy) : AsStrict p p :=
  ⟨fun _ h => h, fun L h => Or.inr ⟨L, h, fun _ h => h⟩, fun L h => Or.inr ⟨L, h, fun _ h => h⟩⟩

theorem AsStrict.trans {p q r : ClaimPolicy} (h : AsStrict p q) (h' : AsStrict q r) : AsStrict p r := by
  refine ⟨fun x hx => h'.value x (h.value x hx), ?_, ?_⟩
  · intro L hL
    rcases h.subset L hL with hv | ⟨L', h1, h2⟩
    · obtain ⟨x, hx⟩ := Option.isSome_iff_exists.1 hv
      left; rw [h'.value x hx]; rfl
    · rcases h'.subset L' h1 with hv | ⟨L'', h3, h4⟩
      · exact Or.inl hv
      · exact Or.inr ⟨L'', h3, fun y hy => h2 y (h4 y hy)⟩
  · intro L hL
    rcases h.oneOf L hL with hv | ⟨L', h1, h2⟩
    · obtain ⟨x, hx⟩ := Option.isSome_iff_exists.1 hv
      left; rw [h'.value x hx]; rfl
    · rcases h'.oneOf L' h1 with hv | ⟨L'', h3, h4⟩
      · exact Or.inl hv
      · exact Or.inr ⟨L'', h3, fun y hy => h2 y (h4 y hy)⟩

theorem combineClaim_strict {E : SetEnum Val} {K : SetEnum String} {s c r : ClaimPolicy}
    (h : combineClaimPolicy E K s c = .ok r) : AsStrict s r ∧ AsStrict c r := by
  obtain ⟨v1, v2⟩ := combineClaim_value h
  unfold combineClaimPolicy at h
  cases hs : s.get? "value" with
  | some x =>
    have hr : (r.get? "value").isSome := by rw [v1 x hs]; rfl
    exact ⟨⟨v1, fun _ _ => Or.inl hr, fun _ _ => Or.inl hr⟩, ⟨v2, fun _ _ => Or.inl hr, fun _ _ => Or.inl hr⟩⟩
  | none =>
    simp only [hs] at h
    have hsub := inter_shrinks h (op := "subset_of") (by simp)
    have hone := inter_shrinks h (op := "one_of") (by simp)
    exact ⟨⟨v1, fun L hL => Or.inr (hsub.1 L hL), fun L hL => Or.inr (hone.1 L hL)⟩,
      ⟨v2, fun L hL => Or.inr (hsub.2 L hL), fun L hL => Or.inr (hone.2 L hL)⟩⟩

theorem gatherRest_strict {E : SetEnum Val} {K : SetEnum String} {t : String} {chain : List PStatement}
    {rule R : Rule} (h : gatherRest E K t chain rule = .ok R) :
    (∀ c p, rule.policy.get? c = some p → ∃ q, R.policy.get? c = some q ∧ AsStrict p q) ∧
    ∀ es ∈ chain, ∀ c p, (es.rule t).policy.get? c = some p → ∃ q, R.policy.get? c = some q ∧ AsStrict p q := by
  induction chain generalizing rule with
  | nil =>
    simp only [gatherRest, Except.ok.injEq] at h; subst h
    exact ⟨fun c p hp => ⟨p, hp, AsStrict.refl p⟩, by simp⟩
  | cons es chain ih =>
    simp only [gatherRest] at h
    split at h
    · next he =>
      obtain ⟨i1, i2⟩ := ih h
      refine ⟨i1, ?_⟩
      intro es' hes'
      rcases List.mem_cons.1 hes' with rfl | hm
      · intro c x hx; rw [he] at hx; simp at hx
      · exact i2 es' hm
    · split at h
      · simp at h
      · cases hc : combine E K rule (es.rule t) with
        | error e => simp [hc] at h
        | ok rule' =>
          simp only [hc, ok_bind] at h
          obtain ⟨i1, i2⟩ := ih h
          have hp := (combine_ok hc).2.2
          constructor
          · intro c p hpc
            have := hp c
            rw [hpc] at this
            cases hb : (es.rule t).policy.get? c with
            | none =>
              rw [hb] at this; exact i1 c p this
            | some b =>
              rw [hb] at this
              obtain ⟨q, hq, e⟩ := this
              obtain ⟨q', h1, h2⟩ := i1 c q e
              exact ⟨q', h1, (combineClaim_strict hq).1.trans h2⟩
          · intro es' hes'
            rcases List.mem_cons.1 hes' with rfl | hm
            · intro c p hpc
              have := hp c
              rw [hpc] at this
              cases hb : rule.policy.get? c with
              | none => rw [hb] at this; exact i1 c p this
              | some b =>
                rw [hb] at this
                obtain ⟨q, hq, e⟩ := this
                obtain ⟨q', h1, h2⟩ := i1 c q e
                exact ⟨q', h1, (combineClaim_strict hq).2.trans h2⟩
            · exact i2 es' hm

theorem gatherPolicies_strict {E : SetEnum Val} {K : SetEnum String} {t : String} {chain : List PStatement}
    {R : Rule} (h : gatherPolicies E K chain t = .ok R) {es : PStatement} (hes : es ∈ chain) {mp : MetadataPolicy}
    (hmp : es.policy.get? t = some mp) {c : String} {p : ClaimPolicy} (hp : mp.get? c = some p) :
    ∃ q, R.policy.get? c = some q ∧ AsStrict p q := by
  cases chain with
  | nil => simp at hes
  | cons e0 rest =>
    simp only [gatherPolicies] at h
    obtain ⟨h1, h2⟩ := gatherRest_strict h
    have hr : (es.rule t).policy.get? c = some p := by simp [PStatement.rule, hmp, hp]
    rcases List.mem_cons.1 hes with rfl | hm
    · exact h1 c p hr
    · exact h2 es hm c p hr

/-- No statement of the chain fixes the value of the claim. -/
def NoValue (chain : List PStatement) (t c : String) : Prop :=
  ∀ es ∈ chain, ∀ mp p, es.policy.get? t = some mp → mp.get? c = some p → p.get? "value" = none

theorem gatherRest_value_origin {E : SetEnum Val} {K : SetEnum String} {t c : String} {chain : List PStatement}
    {rule R : Rule} (h : gatherRest E K t chain rule = .ok R)
    (h0 : ∀ p, rule.policy.get? c = some p → p.get? "value" = none)
    (hn : ∀ es ∈ chain, ∀ p, (es.rule t).policy.get? c = some p → p.get? "value" = none) :
    ∀ p, R.policy.get? c = some p → p.get? "value" = none := by
  induction chain generalizing rule with
  | nil => simp only [gatherRest, Except.ok.injEq] at h; subst h; exact h0
  | cons es chain ih =>
    have hn' : ∀ es ∈ chain, ∀ p, (es.rule t).policy.get? c = some p → p.get? "value" = none :=
      fun es hes => hn es (by simp [hes])
    simp only [gatherRest] at h
    split at h
    · exact ih h h0 hn'
    · split at h
      · simp at h
      · cases hc : combine E K rule (es.rule t) with
        | error e => simp [hc] at h
        | ok rule' =>
          simp only [hc, ok_bind] at h
          refine ih h ?_ hn'
          intro p hp
          have := (combine_ok hc).2.2 c
          rw [hp] at this
          cases ha : rule.policy.get? c with
          | none => rw [ha] at this; exact hn es (by simp) p this.symm
          | some a =>
            cases hb : (es.rule t).policy.get? c with
            | none => rw [ha, hb] at this; simp only [CombinedClaim, Option.some.injEq] at this; subst this; exact h0 p ha
            | some b =>
              rw [ha, hb] at this
              obtain ⟨q, hq, e⟩ := this
              simp only [Option.some.injEq] at e; subst e
              have hav := h0 a ha
              simp only [combineClaimPolicy, hav] at hq
              rw [combineFree_value hq hav]
              exact hn es (by simp) b hb

theorem gatherPolicies_noValue {E : SetEnum Val} {K : SetEnum String} {t c : String} {chain : List PStatement}
    {R : Rule} (h : gatherPolicies E K chain t = .ok R) (hn : NoValue chain t c) :
    ∀ p, R.policy.get? c = some p → p.get? "value" = none := by
  have hr : ∀ es ∈ chain, ∀ p, (es.rule t).policy.get? c = some p → p.get? "value" = none := by
    intro es hes p hp
    simp only [PStatement.rule] at hp
    cases hm : es.policy.get? t with
    | none => rw [hm] at hp; simp at hp
    | some mp => rw [hm] at hp; exact hn es hes mp p hm hp
  cases chain with
  | nil => simp [gatherPolicies] at h
  | cons e0 rest =>
    simp only [gatherPolicies] at h
    exact gatherRest_value_origin h (hr e0 (by simp)) (fun es hes => hr es (by simp [hes]))

theorem policyFor_inv {E : SetEnum Val} {K : SetEnum String} {sups : List PStatement} {leaf : PStatement} {t : String}
    {md' : Metadata} (h : policyFor E K sups leaf t = .ok (some md')) :
    ∃ R md, gatherPolicies E K sups t = .ok R ∧ leaf.metadata.get? t = some md ∧ applyPolicy E K md R = .ok md' := by
  unfold policyFor at h
  cases hg : gatherPolicies E K sups t with
  | error e => simp [hg] at h
  | ok R =>
    simp only [hg, ok_bind] at h
    cases hm : leaf.metadata.get? t with
    | none => simp [hm] at h
    | some md =>
      simp only [hm] at h
      cases ha : applyPolicy E K md R with
      | error e => simp [ha] at h
      | ok m => simp [ha] at h; subst h; exact ⟨R, md, rfl, rfl, ha⟩

/-- C14 in full: the resolved claim obeys `value`, `one_of` and `subset_of` of every statement of the chain. -/
def C14_full : Prop :=
  ∀ (E : SetEnum Val) (K : SetEnum String) (sups : List PStatement) (leaf : PStatement) (t c : String) (md' : Metadata)
    (es : PStatement) (mp : MetadataPolicy) (p : ClaimPolicy),
    policyFor E K sups leaf t = .ok (some md') → es ∈ sups → es.policy.get? t = some mp → mp.get? c = some p →
    SatValue p (md'.get? c) ∧ SatOneOf p (md'.get? c) ∧ SatSubset p (md'.get? c)

/-- C14 is violated: an intermediate that fixes the `value` of a claim escapes its superior's `subset_of`: the two are
combined without comparing them, and `value` is final on application. -/
theorem C14_chain_violation : ¬ C14_full := by
  intro h
  have := (h Ex.E Ex.K
    [⟨[], [("op", [("scopes", [("subset_of", Ex.strs ["a"])])])]⟩, ⟨[], [("op", [("scopes", [("value", Ex.strs ["admin"])])])]⟩]
    ⟨[("op", [("scopes", Ex.strs ["a"])])], []⟩ "op" "scopes" [("scopes", Ex.strs ["admin"])]
    ⟨[], [("op", [("scopes", [("subset_of", Ex.strs ["a"])])])]⟩ [("scopes", [("subset_of", Ex.strs ["a"])])]
    [("subset_of", Ex.strs ["a"])] (by decide +kernel) (by simp) (by decide +kernel) (by decide +kernel)).2.2
    [.str "a"] (by decide +kernel) (.str "admin") (by decide +kernel)
  revert this; decide +kernel

/-- C14, `value`: for every chain, every statement's `value` is what the leaf gets. -/
theorem C14_value_partial (E : SetEnum Val) (K : SetEnum String) (sups : List PStatement) (leaf : PStatement) (t c : String)
    (md' : Metadata) (h : policyFor E K sups leaf t = .ok (some md')) (es : PStatement) (hes : es ∈ sups)
    (mp : MetadataPolicy) (p : ClaimPolicy) (hmp : es.policy.get? t = some mp) (hp : mp.get? c = some p) (x : Val)
    (hx : p.get? "value" = some x) : md'.get? c = some x := by
  obtain ⟨R, md, hg, _, ha⟩ := policyFor_inv h
  obtain ⟨q, hq, hs⟩ := gatherPolicies_strict hg hes hmp hp
  exact C01_value_final E K md md' R c q x ha hq (hs.value x hx)

/-- C14, `subset_of`: for every chain in which no statement fixes the value of the claim, the values a leaf declares as a
list are cut down to the `subset_of` of every statement. Missing: chains with a `value` (false there), and claims the leaf
writes as a single value (C02). -/
theorem C14_subset_of_partial (E : SetEnum Val) (K : SetEnum String) (sups : List PStatement) (leaf : PStatement)
    (t c : String) (md' : Metadata) (h : policyFor E K sups leaf t = .ok (some md')) (hn : NoValue sups t c)
    (md : Metadata) (ds : List Val) (hleaf : leaf.metadata.get? t = some md) (hd : md.get? c = some (.arr ds))
    (es : PStatement) (hes : es ∈ sups) (mp : MetadataPolicy) (p : ClaimPolicy) (hmp : es.policy.get? t = some mp)
    (hp : mp.get? c = some p) (L : List Val) (hL : p.get? "subset_of" = some (.arr L)) :
    ∃ xs, md'.get? c = some (.arr xs) ∧ xs ≠ [] ∧ ∀ x ∈ xs, x ∈ L := by
  obtain ⟨R, md0, hg, hm, ha⟩ := policyFor_inv h
  rw [hleaf, Option.some.injEq] at hm; subst hm
  obtain ⟨q, hq, hs⟩ := gatherPolicies_strict hg hes hmp hp
  have hqv := gatherPolicies_noValue hg hn q hq
  rcases hs.subset L hL with hv | ⟨L', h1, h2⟩
  · rw [hqv] at hv; simp at hv
  · obtain ⟨xs, e1, e2, e3⟩ := C02_subset_of_list_partial E K md md' R c q L' ds ha hq h1 hqv (by simp [declared, hd])
    exact ⟨xs, e1, e2, fun x hx => h2 x (e3 x hx)⟩

/-- C14, `one_of`: likewise for claims that resolve to a single value. -/
theorem C14_one_of_partial (E : SetEnum Val) (K : SetEnum String) (sups : List PStatement) (leaf : PStatement)
    (t c : String) (md' : Metadata) (h : policyFor E K sups leaf t = .ok (some md')) (hn : NoValue sups t c)
    (es : PStatement) (hes : es ∈ sups) (mp : MetadataPolicy) (p : ClaimPolicy) (hmp : es.policy.get? t = some mp)
    (hp : mp.get? c = some p) (L : List Val) (hL : p.get? "one_of" = some (.arr L)) (v : Val)
    (hv : md'.get? c = some v) (hnl : ∀ xs, v ≠ .arr xs) : v ∈ L := by
  obtain ⟨R, md0, hg, hm, ha⟩ := policyFor_inv h
  obtain ⟨q, hq, hs⟩ := gatherPolicies_strict hg hes hmp hp
  have hqv := gatherPolicies_noValue hg hn q hq
  rcases hs.oneOf L hL with hv' | ⟨L', h1, h2⟩
  · rw [hqv] at hv'; simp at hv'
  · exact h2 v (C04_one_of_partial E K md0 md' R c q L' v ha hq h1 hqv hv hnl)

theorem Ex.noValue (c : String) : NoValue [Ex.ta, Ex.im, Ex.im2] "op" c := by
  intro es hes mp p hmp hp
  have : ∀ es ∈ [Ex.ta, Ex.im, Ex.im2], ∀ x ∈ es.policy, ∀ y ∈ x.2, y.2.get? "value" = none := by decide +kernel
  exact this es hes _ (Dict.get?_mem hmp) _ (Dict.get?_mem hp)

/-- Three-level chain: the leaf's scopes end up inside both lists. -/
example : ∃ xs, Dict.get? [("org", Ex.s "A"), ("city", Ex.s "B"), ("alg", Ex.s "y"), ("scopes", Ex.strs ["b"])] "scopes" =
      some (.arr xs) ∧ xs ≠ [] ∧ ∀ x ∈ xs, x ∈ [Val.str "b", .str "c", .str "d"] :=
  C14_subset_of_partial Ex.E Ex.K [Ex.ta, Ex.im, Ex.im2] Ex.lf "op" "scopes" _ Ex.leafResolves (Ex.noValue _)
    [("scopes", Ex.strs ["a", "b", "e"]), ("alg", Ex.s "y")] [.str "a", .str "b", .str "e"] (by decide +kernel) (by decide +kernel)
    Ex.im (by simp) [("scopes", [("subset_of", Ex.strs ["b", "c", "d"])]), ("alg", [("one_of", Ex.strs ["x", "y"])])]
    [("subset_of", Ex.strs ["b", "c", "d"])] (by decide +kernel) (by decide +kernel) _ (by decide +kernel)

example : Val.str "y" ∈ [Val.str "y", .str "z"] :=
  C14_one_of_partial Ex.E Ex.K [Ex.ta, Ex.im, Ex.im2] Ex.lf "op" "alg" _ Ex.leafResolves (Ex.noValue _)
    Ex.im2 (by simp) [("alg", [("one_of", Ex.strs ["y", "z"]), ("essential", .bool true)])]
    [("one_of", Ex.strs ["y", "z"]), ("essential", .bool true)] (by decide +kernel) (by decide +kernel) _
    (by decide +kernel) _ (by decide +kernel) (by simp)

/-- C15 along a chain: two statements, at any distance, that fix one claim to different values make resolution fail. -/
theorem C15_chain_value_conflict_refused (E : SetEnum Val) (K : SetEnum String) (chain : List PStatement) (t c : String)
    (es es' : PStatement) (hes : es ∈ chain) (hes' : es' ∈ chain) (mp mp' : MetadataPolicy) (p p' : ClaimPolicy)
    (hmp : es.policy.get? t = some mp) (hp : mp.get? c = some p) (hmp' : es'.policy.get? t = some mp')
    (hp' : mp'.get? c = some p') (x y : Val) (hx : p.get? "value" = some x) (hy : p'.get? "value" = some y)
    (hne : x ≠ y) : ∃ e, gatherPolicies E K chain t = .error e := by
  cases h : gatherPolicies E K chain t with
  | error e => exact ⟨e, rfl⟩
  | ok R =>
    obtain ⟨q, hq, s1⟩ := gatherPolicies_strict h hes hmp hp
    obtain ⟨q', hq', s2⟩ := gatherPolicies_strict h hes' hmp' hp'
    rw [hq, Option.some.injEq] at hq'; subst hq'
    have e1 := s1.value x hx
    have e2 := s2.value y hy
    rw [e1] at e2; simp at e2; exact absurd e2 hne

example : ∃ e, gatherPolicies Ex.E Ex.K [⟨[], [("op", [("c", [("value", .int 1)])])]⟩, ⟨[], []⟩,
    ⟨[], [("op", [("c", [("value", .int 2)])])]⟩] "op" = .error e :=
  C15_chain_value_conflict_refused Ex.E Ex.K _ "op" "c" ⟨[], [("op", [("c", [("value", .int 1)])])]⟩
    ⟨[], [("op", [("c", [("value", .int 2)])])]⟩ (by simp) (by simp) _ _ _ _ rfl rfl rfl rfl _ _ rfl rfl (by decide)

/-! ## C17 along a chain -/

/-- C17 for whole chains: a claim is in the combined policy iff some statement of the chain has a policy for it. -/
theorem C17_chain_covers (E : SetEnum Val) (K : SetEnum String) (chain : List PStatement) (t : String) (R : Rule)
    (h : gatherPolicies E K chain t = .ok R) (c : String) :
    c ∈ R.policy.keys ↔ ∃ es ∈ chain, ∃ mp, es.policy.get? t = some mp ∧ c ∈ mp.keys := by
  have hr : ∀ es : PStatement, c ∈ (es.rule t).policy.keys ↔ ∃ mp, es.policy.get? t = some mp ∧ c ∈ mp.keys := by
    intro es
    simp only [PStatement.rule]
    cases es.policy.get? t with
    | none => simp [Dict.keys]
    | some mp => simp
  have key : ∀ (chain : List PStatement) (rule R : Rule), gatherRest E K t chain rule = .ok R →
      (c ∈ R.policy.keys ↔ c ∈ rule.policy.keys ∨ ∃ es ∈ chain, c ∈ (es.rule t).policy.keys) := by
    intro chain
    induction chain with
    | nil => intro rule R h; simp only [gatherRest, Except.ok.injEq] at h; subst h; simp
    | cons es chain ih =>
      intro rule R h
      simp only [gatherRest] at h
      split at h
      · next he =>
        rw [ih rule R h]
        have : c ∉ (es.rule t).policy.keys := by rw [he]; simp [Dict.keys]
        simp [this]
      · split at h
        · simp at h
        · cases hc : combine E K rule (es.rule t) with
          | error e => simp [hc] at h
          | ok rule' =>
            simp only [hc, ok_bind] at h
            rw [ih rule' R h, (C17_combine_covers E K rule _ rule' hc c).1]
            simp [or_assoc]
  cases chain with
  | nil => simp [gatherPolicies] at h
  | cons e0 rest =>
    simp only [gatherPolicies] at h
    rw [key rest _ R h]
    simp [hr]

example : "alg" ∈ Ex.comb.policy.keys ↔ ∃ es ∈ [Ex.ta, Ex.im, Ex.im2], ∃ mp, es.policy.get? "op" = some mp ∧ "alg" ∈ mp.keys :=
  C17_chain_covers Ex.E Ex.K _ "op" _ Ex.gathers "alg"

/-! ## C20 -/

/-- A statement that both sets and constrains a claim for the entity type. -/
def Overlaps (es : PStatement) (t c : String) : Prop :=
  ∃ md mp, es.metadata.get? t = some md ∧ es.policy.get? t = some mp ∧ c ∈ md.keys ∧ c ∈ mp.keys

/-- C20 in full. -/
def C20_full : Prop :=
  ∀ (E : SetEnum Val) (K : SetEnum String) (chain : List PStatement) (t c : String) (es : PStatement),
    es ∈ chain → Overlaps es t c → ∃ e, gatherPolicies E K chain t = .error e

/-- C20 is violated: the first statement of the chain (the trust anchor's) is not checked (policy.py 308-313). -/
theorem C20_overlap_violation : ¬ C20_full := by
  intro h
  obtain ⟨e, he⟩ := h Ex.E Ex.K [⟨[("op", [("c", .int 1)])], [("op", [("c", [("value", .int 2)])])]⟩] "op" "c"
    ⟨[("op", [("c", .int 1)])], [("op", [("c", [("value", .int 2)])])]⟩ (by simp)
    ⟨[("c", .int 1)], [("c", [("value", .int 2)])], rfl, rfl, by decide, by decide⟩
  simp [gatherPolicies, gatherRest] at he

theorem gatherRest_overlap {E : SetEnum Val} {K : SetEnum String} {t c : String} {chain : List PStatement} {rule : Rule}
    {es : PStatement} (hes : es ∈ chain) (ho : Overlaps es t c) : ∃ e, gatherRest E K t chain rule = .error e := by
  induction chain generalizing rule with
  | nil => simp at hes
  | cons e0 rest ih =>
    simp only [gatherRest]
    obtain ⟨md, mp, h1, h2, h3, h4⟩ := ho
    rcases List.mem_cons.1 hes with rfl | hm
    · have hr : es.rule t = ⟨md, mp⟩ := by simp [PStatement.rule, h1, h2]
      have hne : es.rule t ≠ ⟨[], []⟩ := by
        rw [hr]; intro e; simp only [Rule.mk.injEq] at e; rw [e.1] at h3; simp [Dict.keys] at h3
      rw [if_neg hne, if_pos (by rw [hr]; simp only [List.any_eq_true, decide_eq_true_eq]; exact ⟨c, h4, h3⟩)]
      exact ⟨_, rfl⟩
    · split
      · exact ih hm
      · split
        · exact ⟨_, rfl⟩
        · cases combine E K rule (e0.rule t) with
          | error e => exact ⟨e, rfl⟩
          | ok rule' => exact ih hm

/-- C20 for every statement but the first of the chain. -/
theorem C20_overlap_partial (E : SetEnum Val) (K : SetEnum String) (first : PStatement) (rest : List PStatement)
    (t c : String) (es : PStatement) (hes : es ∈ rest) (ho : Overlaps es t c) :
    ∃ e, gatherPolicies E K (first :: rest) t = .error e :=
  gatherRest_overlap hes ho

example : ∃ e, gatherPolicies Ex.E Ex.K [Ex.ta, Ex.im, ⟨[("op", [("c", .int 1)])], [("op", [("c", [("value", .int 1)])])]⟩] "op" = .error e :=
  C20_overlap_partial Ex.E Ex.K Ex.ta _ "op" "c" ⟨[("op", [("c", .int 1)])], [("op", [("c", [("value", .int 1)])])]⟩ (by simp)
    ⟨[("c", .int 1)], [("c", [("value", .int 1)])], rfl, rfl, by decide, by decide⟩

/-! ## C21 -/

/-- C21: whether the policies of a chain combine, and into what, does not depend on the enumeration of sets. Metadata and the
operands of `value`, `default`, `essential` are equal, the operands of the list operators are equal as sets. -/
theorem C21_hash_order_irrelevant (E E' : SetEnum Val) (K K' : SetEnum String) (chain : List PStatement) (t : String) (R : Rule)
    (h : gatherPolicies E K chain t = .ok R) :
    ∃ R', gatherPolicies E' K' chain t = .ok R' ∧ (∀ c, R.metadata.get? c = R'.metadata.get? c) ∧
      (∀ c, c ∈ R.policy.keys ↔ c ∈ R'.policy.keys) ∧
      ∀ c p p', R.policy.get? c = some p → R'.policy.get? c = some p' →
        (∀ op ∈ ["value", "default", "essential"], p.get? op = p'.get? op) ∧
        ∀ op ∈ ["subset_of", "superset_of", "one_of", "add"], OptSetEq (p.get? op) (p'.get? op) := by
  obtain ⟨R', h1, h2⟩ := gatherPolicies_congr E E' K K' t h
  refine ⟨R', h1, h2.metadata, ?_, ?_⟩
  · intro c
    have := h2.policy c
    rw [Dict.mem_keys_iff, Dict.mem_keys_iff]
    cases ha : R.policy.get? c <;> cases hb : R'.policy.get? c <;> simp_all [OptCPEq]
  · intro c p p' hp hp'
    have := h2.policy c
    rw [hp, hp'] at this
    refine ⟨fun op hop => this.others op ?_, fun op hop => this.sets op hop⟩
    revert op; decide

example : gatherPolicies SetEnum.reversed SetEnum.reversed [Ex.ta, Ex.im, Ex.im2] "op" =
    .ok ⟨[("org", .str "A"), ("city", .str "B")],
      [("alg", [("essential", .bool true), ("one_of", Ex.strs ["y"])]), ("scopes", [("subset_of", Ex.strs ["c", "b"])])]⟩ := by
  decide +kernel

/-- C21, end to end: resolving a leaf's metadata against a whole chain gives the same result (lists as sets) under any two
hash orders. -/
theorem C21_resolution_hash_order_irrelevant (E E' : SetEnum Val) (K K' : SetEnum String) (sups : List PStatement)
    (leaf : PStatement) (t : String) (m : Metadata) (h : policyFor E K sups leaf t = .ok (some m)) :
    ∃ m', policyFor E' K' sups leaf t = .ok (some m') ∧ ∀ c, OptSetEq (m.get? c) (m'.get? c) := by
  obtain ⟨R, md, hg, hm, ha⟩ := policyFor_inv h
  obtain ⟨R', h1, h2⟩ := gatherPolicies_congr E E' K K' t hg
  obtain ⟨m', h3, h4⟩ := applyPolicy_congr E E' K K' h2 ha
  exact ⟨m', by simp [policyFor, h1, hm, h3], h4⟩

example : ∃ m', policyFor SetEnum.reversed SetEnum.reversed [Ex.ta, Ex.im, Ex.im2] Ex.lf "op" = .ok (some m') ∧
    ∀ c, OptSetEq (Dict.get? [("org", Ex.s "A"), ("city", Ex.s "B"), ("alg", Ex.s "y"), ("scopes", Ex.strs ["b"])] c) (m'.get? c) :=
  C21_resolution_hash_order_irrelevant Ex.E SetEnum.reversed Ex.K SetEnum.reversed _ _ _ _ Ex.leafResolves

/-! ## C22 -/

theorem diff2policy_get? (new old : Metadata) (hnd : new.keys.Nodup) (c : String) :
    (diff2policy new old).get? c =
      match new.get? c with
      | none => none
      | some n =>
        match old.get? c with
        | some o => if n = o then none else some [("value", n)]
        | none => if c = "contacts" then some [("add", n)] else some [("value", n)] := by
  induction new with
  | nil => rfl
  | cons p new ih =>
    obtain ⟨k, n⟩ := p
    have hk : k ∉ Dict.keys new := by
      simp only [Dict.keys, List.map_cons, List.nodup_cons] at hnd; exact hnd.1
    have ih := ih (by simp only [Dict.keys, List.map_cons, List.nodup_cons] at hnd; exact hnd.2)
    have hkn : Dict.get? new k = none := (Dict.get?_eq_none_iff _ _).2 hk
    rw [Dict.get?_cons]
    unfold diff2policy at ih ⊢
    rw [List.filterMap_cons]
    by_cases hc : k = c
    · subst hc
      simp only [hkn] at ih
      cases ho : old.get? k with
      | none =>
        by_cases hk' : k = "contacts"
        · simp [hk', Dict.get?]
        · simp [hk', Dict.get?]
      | some o =>
        by_cases hno : n = o
        · simp [hno, ih]
        · simp [hno, Dict.get?]
    · simp only [hc, if_false]
      rw [← ih]
      cases ho : old.get? k with
      | none =>
        by_cases hk' : k = "contacts"
        · subst hk'; simp [Dict.get?, hc]
        · simp [hk', Dict.get?, hc]
      | some o =>
        by_cases hno : n = o
        · simp [hno]
        · simp [hno, Dict.get?, hc]

/-- C22: applying the difference policy to `old` always succeeds and gives every claim of `new` its new value, keeping the
claims `new` does not mention. (`new` has no repeated keys, as a Python dict.) -/
theorem C22_diff2policy_round_trip (E : SetEnum Val) (K : SetEnum String) (new old : Metadata) (hnd : new.keys.Nodup) :
    ∃ m, applyPolicy E K old ⟨[], diff2policy new old⟩ = .ok m ∧
      ∀ c, m.get? c = match new.get? c with
        | some n => some n
        | none => old.get? c := by
  have hst : ∀ c, startValue old ⟨[], diff2policy new old⟩ c = old.get? c := by intro c; simp [startValue]
  have hres : ∀ c, claimRes E (diff2policy new old) c (old.get? c) = .ok (match new.get? c with
      | some n => some n
      | none => old.get? c) := by
    intro c
    rw [claimRes, diff2policy_get? new old hnd c]
    cases hn : new.get? c with
    | none => rfl
    | some n =>
      cases ho : old.get? c with
      | none =>
        simp only
        by_cases hc : c = "contacts"
        · simp [hc, claimRun, stepAdd, stepDefault, stepOneOf, stepSubset, stepSuperset, stepEssential, Dict.get?]
        · simp [hc, claimRun, Dict.get?]
      | some o =>
        simp only
        by_cases hne : n = o
        · simp [hne]
        · simp [hne, claimRun, Dict.get?]
  have hex : ∃ m, applyPolicy E K old ⟨[], diff2policy new old⟩ = .ok m := by
    rw [applyPolicy_ok_iff]; intro c _; rw [hst]; exact ⟨_, hres c⟩
  obtain ⟨m, hm⟩ := hex
  refine ⟨m, hm, fun c => ?_⟩
  have := applyPolicy_ok E K hm c
  rw [hst, hres] at this
  simpa using this.symm

example : diff2policy [("contacts", Ex.strs ["a"]), ("x", .int 1), ("y", .int 2)] [("x", .int 1), ("y", .int 3), ("z", .int 4)]
    = [("contacts", [("add", Ex.strs ["a"])]), ("y", [("value", .int 2)])] := by decide +kernel

end Fed.Policy
