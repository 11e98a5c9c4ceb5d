import Verif.Policy.Exact
import Verif.Policy.CombineProps
/-
Property C107: metadata that satisfies every policy of a chain is resolved, and keeps its values.
-/
namespace Fed.Policy
open Fed

/-- The policy for a claim allows the list `xs`, and `ds` as its default: both are in `subset_of` and contain `superset_of`, what is added is in `xs` already. -/
structure Allows (xs ds : List Val) (cp : ClaimPolicy) : Prop where
  value : cp.get? "value" = none
  one : cp.get? "one_of" = none
  subset : ∀ v, cp.get? "subset_of" = some v → ∃ L, v = .arr L ∧ (∀ x ∈ L, x.hashable = true) ∧ (∀ x ∈ xs, x ∈ L) ∧ ∀ x ∈ ds, x ∈ L
  add : ∀ v, cp.get? "add" = some v → ∃ A, v = .arr A ∧ A ≠ [] ∧ (∀ x ∈ A, x.hashable = true) ∧ ∀ x ∈ A, x ∈ xs
  superset : ∀ v, cp.get? "superset_of" = some v → ∃ P, v = .arr P ∧ P ≠ [] ∧ (∀ x ∈ P, x.hashable = true) ∧ (∀ x ∈ P, x ∈ xs) ∧ ∀ x ∈ P, x ∈ ds
  default : ∀ v, cp.get? "default" = some v → v = .arr ds
  essential : ∀ v, cp.get? "essential" = some v → v = .bool true

/-- All `superset_of` are `P`, as sets, and are not used together with `add`. -/
structure Alike (P : List Val) (adds : Bool) (cp : ClaimPolicy) : Prop where
  superset : ∀ Q, cp.get? "superset_of" = some (.arr Q) → adds = false ∧ ∀ x, x ∈ Q ↔ x ∈ P
  add : cp.get? "add" ≠ none → adds = true

/-- The policy for a claim allows the single value `v`, and `dv` as its default. -/
structure AllowsOne (v dv : Val) (cp : ClaimPolicy) : Prop where
  value : cp.get? "value" = none
  one : ∀ l, cp.get? "one_of" = some l → ∃ L, l = .arr L ∧ (∀ x ∈ L, x.hashable = true) ∧ v ∈ L ∧ dv ∈ L
  subset : cp.get? "subset_of" = none
  add : cp.get? "add" = none
  superset : cp.get? "superset_of" = none
  default : ∀ d, cp.get? "default" = some d → d = dv
  essential : ∀ e, cp.get? "essential" = some e → e = .bool true

/-! ## C107 -/

/-- C107 for two policies in full: if some list satisfies both, they can be combined. -/
def C107_full : Prop :=
  ∀ (E : SetEnum Val) (K : SetEnum String) (sup sub : ClaimPolicy) (xs ds : List Val), xs ≠ [] → (∀ x ∈ xs, x.hashable = true) → (∀ x ∈ ds, x.hashable = true) →
    Allows xs ds sup → Allows xs ds sub → ∃ r, combineClaimPolicy E K sup sub = .ok r

theorem Ex.allows {xs ds : List Val} {cp : ClaimPolicy} (op : String) (l : List Val) (hcp : cp = [(op, .arr l)]) (hne : l ≠ []) (hop : op = "superset_of" ∨ op = "add")
    (hl : ∀ x ∈ l, x.hashable = true) (hx : ∀ x ∈ l, x ∈ xs) (hd : ∀ x ∈ l, x ∈ ds) : Allows xs ds cp := by
  subst hcp
  rcases hop with rfl | rfl <;> constructor <;> simp [Dict.get?, hne] <;> first | exact ⟨hl, hx, hd⟩ | exact ⟨hl, hx⟩

/-- C107 does not hold: two different demands for minimal sets are refused although they can both be met: they are intersected. -/
theorem C107_superset_violation : ¬ C107_full := by
  intro h
  obtain ⟨r, hr⟩ := h Ex.E Ex.K [("superset_of", .arr [.str "a"])] [("superset_of", .arr [.str "b"])] [.str "a", .str "b"] [.str "a", .str "b"] (by simp) (by decide) (by decide)
    (Ex.allows _ _ rfl (by simp) (by simp) (by decide) (by decide) (by decide)) (Ex.allows _ _ rfl (by simp) (by simp) (by decide) (by decide) (by decide))
  have : combineClaimPolicy Ex.E Ex.K [("superset_of", .arr [.str "a"])] [("superset_of", .arr [.str "b"])] = .error .policyError := by decide +kernel
  rw [this] at hr
  cases hr

/-- Nor can a value be added below a demand for a minimal set, unless it is all of that set. -/
theorem C107_superset_add_violation : ¬ C107_full := by
  intro h
  obtain ⟨r, hr⟩ := h Ex.E Ex.K [("superset_of", .arr [.str "a"])] [("add", .arr [.str "b"])] [.str "a", .str "b"] [.str "a", .str "b"] (by simp) (by decide) (by decide)
    (Ex.allows _ _ rfl (by simp) (by simp) (by decide) (by decide) (by decide)) (Ex.allows _ _ rfl (by simp) (by simp) (by decide) (by decide) (by decide))
  have : combineClaimPolicy Ex.E Ex.K [("superset_of", .arr [.str "a"])] [("add", .arr [.str "b"])] = .error .policyError := by decide +kernel
  rw [this] at hr
  cases hr

/-- The combined policy has exactly the operators of either. -/
theorem buildRule_exists {E : SetEnum Val} {K : SetEnum String} {s c : ClaimPolicy} (h : ∀ p ∈ combPolicy s c, ∃ v, doPolicy E s c p = .ok v) :
    ∃ rule, buildRule E s c (K.enum (combPolicy s c)) = .ok rule ∧ (∀ p v, rule.get? p = some v → doPolicy E s c p = .ok v) ∧
      ∀ p, p ∈ combPolicy s c ↔ rule.get? p ≠ none := by
  cases hb : buildRule E s c (K.enum (combPolicy s c)) with
  | error e =>
    obtain ⟨p, hp, he⟩ := buildRule_error hb
    obtain ⟨v, hv⟩ := h p ((K.mem_enum _ _).1 hp)
    rw [hv] at he
    cases he
  | ok rule =>
    obtain ⟨b1, b2⟩ := buildRule_ok hb
    refine ⟨rule, rfl, fun p v hv => ?_, fun p => ?_⟩
    · by_cases hp : p ∈ K.enum (combPolicy s c)
      · obtain ⟨w, h1, h2⟩ := b1 p hp
        rw [hv] at h2
        cases h2
        exact h1
      · rw [b2 p hp] at hv
        cases hv
    · rw [← K.mem_enum]
      constructor
      · intro hp
        obtain ⟨w, -, h2⟩ := b1 p hp
        rw [h2]
        simp
      · intro hp
        exact Classical.byContradiction fun hc => hp (b2 p hc)

theorem demand_ok {a b : List Val} (ha : ∀ x ∈ a, x.hashable = true) (hb : ∀ x ∈ b, x.hashable = true) (h : ∀ x ∈ a, x ∈ b) : demandSubset (.arr a) (.arr b) = .ok () := by
  have : diff a b = [] := by
    rw [List.eq_nil_iff_forall_not_mem]
    intro x hx
    rw [mem_diff] at hx
    exact hx.2 (h x hx.1)
  simp [demandSubset, pySet, pyIter, mkSet_of ha, mkSet_of hb, this]

theorem enum_ne_nil {E : SetEnum Val} {l : List Val} (h : l ≠ []) : E.enum l ≠ [] := by
  cases l with
  | nil => exact absurd rfl h
  | cons x l =>
    intro hc
    have : x ∈ E.enum (x :: l) := (E.mem_enum _ _).2 (by simp)
    rw [hc] at this
    cases this

theorem truthy_arr {l : List Val} (h : l ≠ []) : (Val.arr l).truthy = true := by
  cases l with
  | nil => exact absurd rfl h
  | cons x l => simp [Val.truthy]

section
variable {E : SetEnum Val} {K : SetEnum String} {s c : ClaimPolicy}

theorem essential_true (hs : ∀ v, s.get? "essential" = some v → v = .bool true) (hc : ∀ v, c.get? "essential" = some v → v = .bool true) :
    essentialClash s c = false ∧ (∃ v, doPolicy E s c "essential" = .ok v) ∧ ∀ v, "essential" ∈ combPolicy s c → doPolicy E s c "essential" = .ok v → v = .bool true := by
  rw [doPolicy_essential, doEssential, mem_combPolicy, essentialClash]
  cases h1 : s.get? "essential" with
  | none =>
    cases h2 : c.get? "essential" with
    | none => simp
    | some y => simp [hc y h2]
  | some x =>
    cases h2 : c.get? "essential" with
    | none => simp [hs x h1]
    | some y =>
      rw [hs x h1, hc y h2]
      simp [Val.truthy]

theorem default_same {dv : Val} (hs : ∀ v, s.get? "default" = some v → v = dv) (hc : ∀ v, c.get? "default" = some v → v = dv) :
    (∃ v, doPolicy E s c "default" = .ok v) ∧ ∀ v, "default" ∈ combPolicy s c → doPolicy E s c "default" = .ok v → v = dv := by
  rw [doPolicy_default, doDefault, mem_combPolicy]
  cases h1 : s.get? "default" with
  | none =>
    cases h2 : c.get? "default" with
    | none => simp
    | some y => simp [hc y h2]
  | some x =>
    cases h2 : c.get? "default" with
    | none => simp [hs x h1]
    | some y =>
      rw [hs x h1, hc y h2]
      simp

/-- Two policies that allow the same list can be combined, and the result allows it. -/
theorem combine_allows {xs ds P : List Val} {adds : Bool} (hne : xs ≠ []) (hxs : ∀ x ∈ xs, x.hashable = true) (hds : ∀ x ∈ ds, x.hashable = true)
    (hs : Allows xs ds s) (hc : Allows xs ds c) (as : Alike P adds s) (ac : Alike P adds c) :
    ∃ r, combineClaimPolicy E K s c = .ok r ∧ Allows xs ds r ∧ Alike P adds r := by
  obtain ⟨e1, e2, e3⟩ := essential_true (E := E) hs.essential hc.essential
  obtain ⟨d1, d2⟩ := default_same (E := E) hs.default hc.default
  -- subset_of
  have sub : (∃ v, doPolicy E s c "subset_of" = .ok v) ∧ ∀ v, "subset_of" ∈ combPolicy s c → doPolicy E s c "subset_of" = .ok v →
      ∃ L, v = .arr L ∧ (∀ x ∈ L, x.hashable = true) ∧ (∀ x ∈ xs, x ∈ L) ∧ ∀ x ∈ ds, x ∈ L := by
    rw [doPolicy_set (by simp), doSubOneSuperAdd, mem_combPolicy]
    cases h1 : s.get? "subset_of" with
    | none =>
      cases h2 : c.get? "subset_of" with
      | none => simp
      | some y => exact ⟨⟨y, rfl⟩, fun v _ hv => by cases hv; exact hc.subset y h2⟩
    | some x =>
      cases h2 : c.get? "subset_of" with
      | none => exact ⟨⟨x, rfl⟩, fun v _ hv => by cases hv; exact hs.subset x h1⟩
      | some y =>
        obtain ⟨L, rfl, g1, g2, g3⟩ := hs.subset x h1
        obtain ⟨L', rfl, k1, k2, k3⟩ := hc.subset y h2
        have hn : E.enum (inter L L') ≠ [] := by
          apply enum_ne_nil
          cases xs with
          | nil => exact absurd rfl hne
          | cons x0 xs0 =>
            intro hcon
            have := mem_inter.2 ⟨g2 x0 (by simp), k2 x0 (by simp)⟩
            rw [hcon] at this
            cases this
        simp only [op2func, String.reduceEq, if_false, combineInter, pySet, pyIter, ok_bind, mkSet_of g1, mkSet_of k1, except_pure, truthy_arr hn, if_true]
        refine ⟨⟨_, rfl⟩, fun v _ hv => ?_⟩
        cases hv
        refine ⟨_, rfl, fun z hz => ?_, fun z hz => ?_, fun z hz => ?_⟩
        · rw [E.mem_enum, mem_inter] at hz; exact g1 z hz.1
        · rw [E.mem_enum, mem_inter]; exact ⟨g2 z hz, k2 z hz⟩
        · rw [E.mem_enum, mem_inter]; exact ⟨g3 z hz, k3 z hz⟩
  have add : (∃ v, doPolicy E s c "add" = .ok v) ∧ ∀ v, "add" ∈ combPolicy s c → doPolicy E s c "add" = .ok v →
      adds = true ∧ ∃ A, v = .arr A ∧ A ≠ [] ∧ (∀ x ∈ A, x.hashable = true) ∧ ∀ x ∈ A, x ∈ xs := by
    rw [doPolicy_set (by simp), doSubOneSuperAdd, mem_combPolicy]
    cases h1 : s.get? "add" with
    | none =>
      cases h2 : c.get? "add" with
      | none => simp
      | some y => exact ⟨⟨y, rfl⟩, fun v _ hv => by cases hv; exact ⟨ac.add (by simp [h2]), hc.add y h2⟩⟩
    | some x =>
      cases h2 : c.get? "add" with
      | none => exact ⟨⟨x, rfl⟩, fun v _ hv => by cases hv; exact ⟨as.add (by simp [h1]), hs.add x h1⟩⟩
      | some y =>
        obtain ⟨A, rfl, g1, g2, g3⟩ := hs.add x h1
        obtain ⟨A', rfl, k1, k2, k3⟩ := hc.add y h2
        have hn : E.enum (A ++ A') ≠ [] := enum_ne_nil (by simp [g1])
        simp only [op2func, if_true, combineAdd, setOrSingleton, ok_bind, mkSet_of g2, mkSet_of k2, except_pure, truthy_arr hn]
        refine ⟨⟨_, rfl⟩, fun v _ hv => ?_⟩
        cases hv
        refine ⟨as.add (by simp [h1]), _, rfl, hn, fun z hz => ?_, fun z hz => ?_⟩
        · rw [E.mem_enum, List.mem_append] at hz; exact hz.elim (g2 z) (k2 z)
        · rw [E.mem_enum, List.mem_append] at hz; exact hz.elim (g3 z) (k3 z)
  have sup : (∃ v, doPolicy E s c "superset_of" = .ok v) ∧ ∀ v, "superset_of" ∈ combPolicy s c → doPolicy E s c "superset_of" = .ok v →
      ∃ Q, v = .arr Q ∧ Q ≠ [] ∧ (∀ x ∈ Q, x.hashable = true) ∧ (∀ x ∈ Q, x ∈ xs) ∧ (∀ x ∈ Q, x ∈ ds) ∧ adds = false ∧ ∀ x, x ∈ Q ↔ x ∈ P := by
    rw [doPolicy_set (by simp), doSubOneSuperAdd, mem_combPolicy]
    cases h1 : s.get? "superset_of" with
    | none =>
      cases h2 : c.get? "superset_of" with
      | none => simp
      | some y =>
        refine ⟨⟨y, rfl⟩, fun v _ hv => ?_⟩
        cases hv
        obtain ⟨Q, rfl, g1, g2, g3, g4⟩ := hc.superset y h2
        exact ⟨Q, rfl, g1, g2, g3, g4, ac.superset Q h2⟩
    | some x =>
      obtain ⟨Q, rfl, g1, g2, g3, g4⟩ := hs.superset x h1
      cases h2 : c.get? "superset_of" with
      | none => exact ⟨⟨_, rfl⟩, fun v _ hv => by cases hv; exact ⟨Q, rfl, g1, g2, g3, g4, as.superset Q h1⟩⟩
      | some y =>
        obtain ⟨Q', rfl, k1, k2, k3, k4⟩ := hc.superset y h2
        have a1 := (as.superset Q h1).2
        have a2 := (ac.superset Q' h2).2
        have hmem : ∀ z, z ∈ inter Q Q' ↔ z ∈ Q := by
          intro z
          rw [mem_inter, a2, a1]
          simp
        have hn : E.enum (inter Q Q') ≠ [] := by
          apply enum_ne_nil
          cases Q with
          | nil => exact absurd rfl g1
          | cons q Q0 =>
            intro hcon
            have := (hmem q).2 (by simp)
            rw [hcon] at this
            cases this
        simp only [op2func, String.reduceEq, if_false, combineInter, pySet, pyIter, ok_bind, mkSet_of g2, mkSet_of k2, except_pure, truthy_arr hn, if_true]
        refine ⟨⟨_, rfl⟩, fun v _ hv => ?_⟩
        cases hv
        refine ⟨_, rfl, hn, ?_, ?_, ?_, (as.superset Q h1).1, ?_⟩ <;> intro z <;> rw [E.mem_enum, hmem]
        · exact g2 z
        · exact g3 z
        · exact g4 z
        · exact a1 z
  have hone : "one_of" ∉ combPolicy s c := by rw [mem_combPolicy]; simp [hs.one, hc.one]
  have hval : "value" ∉ combPolicy s c := by rw [mem_combPolicy]; simp [hs.value, hc.value]
  obtain ⟨rule, hb, b1, b2⟩ := buildRule_exists (E := E) (K := K) (s := s) (c := c) (by
    intro p hp
    have := (mem_combPolicy.1 hp).1
    simp only [policyFunctions, List.mem_cons, List.not_mem_nil, or_false] at this
    rcases this with rfl | rfl | rfl | rfl | rfl | rfl | rfl
    · exact sub.1
    · exact sup.1
    · exact absurd hp hone
    · exact add.1
    · exact absurd hp hval
    · exact d1
    · exact e2)
  have inComb : ∀ {p v}, rule.get? p = some v → p ∈ combPolicy s c := fun h => (b2 _).2 (by rw [h]; simp)
  have hall : Allows xs ds rule := by
    refine ⟨?_, ?_, fun v h => sub.2 v (inComb h) (b1 _ _ h), fun v h => (add.2 v (inComb h) (b1 _ _ h)).2, fun v h => ?_, fun v h => d2 v (inComb h) (b1 _ _ h), fun v h => e3 v (inComb h) (b1 _ _ h)⟩
    · exact Classical.byContradiction fun h => hval ((b2 _).2 h)
    · exact Classical.byContradiction fun h => hone ((b2 _).2 h)
    · obtain ⟨Q, g1, g2, g3, g4, g5, -⟩ := sup.2 v (inComb h) (b1 _ _ h)
      exact ⟨Q, g1, g2, g3, g4, g5⟩
  have halike : Alike P adds rule := by
    refine ⟨fun Q h => ?_, fun h => ?_⟩
    · obtain ⟨Q', g1, -, -, -, -, g6⟩ := sup.2 _ (inComb h) (b1 _ _ h)
      cases g1
      exact g6
    · cases ha : rule.get? "add" with
      | none => exact absurd ha h
      | some v => exact (add.2 v (inComb ha) (b1 _ _ ha)).1
  have hcons : consistency (combPolicy s c) rule = .ok () := by
    have need : ∀ {p l}, sameSet (combPolicy s c) l = true → p ∈ l → ∃ v, rule.get? p = some v := by
      intro p l hl hp
      have := (b2 p).1 ((sameSet_iff.1 hl p).2 hp)
      cases h : rule.get? p with
      | none => exact absurd h this
      | some v => exact ⟨v, rfl⟩
    unfold consistency
    split
    · next hl =>
      obtain ⟨v, hv⟩ := need (p := "superset_of") hl (by simp)
      obtain ⟨w, hw⟩ := need (p := "subset_of") hl (by simp)
      obtain ⟨Q, rfl, -, g2, g3, -⟩ := hall.superset v hv
      obtain ⟨L, rfl, k1, k2, -⟩ := hall.subset w hw
      simp only [Dict.get, hv, hw, ok_bind]
      exact demand_ok g2 k1 fun x hx => k2 x (g3 x hx)
    · split
      · next hl =>
        obtain ⟨v, hv⟩ := need (p := "superset_of") hl (by simp)
        obtain ⟨w, hw⟩ := need (p := "subset_of") hl (by simp)
        obtain ⟨d, hd⟩ := need (p := "default") hl (by simp)
        obtain ⟨Q, rfl, -, g2, g3, g4⟩ := hall.superset v hv
        obtain ⟨L, rfl, k1, k2, k3⟩ := hall.subset w hw
        have := hall.default d hd
        subst this
        simp only [Dict.get, hv, hw, hd, ok_bind, demand_ok g2 k1 fun x hx => k2 x (g3 x hx), demand_ok hds k1 k3, demand_ok g2 hds g4]
      · split
        · next hl =>
          obtain ⟨w, hw⟩ := need (p := "subset_of") hl (by simp)
          obtain ⟨d, hd⟩ := need (p := "default") hl (by simp)
          obtain ⟨L, rfl, k1, k2, k3⟩ := hall.subset w hw
          have := hall.default d hd
          subst this
          simp only [Dict.get, hw, hd, ok_bind, demand_ok hds k1 k3]
        · split
          · next hl =>
            obtain ⟨v, hv⟩ := need (p := "superset_of") hl (by simp)
            obtain ⟨d, hd⟩ := need (p := "default") hl (by simp)
            obtain ⟨Q, rfl, -, g2, g3, g4⟩ := hall.superset v hv
            have := hall.default d hd
            subst this
            simp only [Dict.get, hv, hd, ok_bind, demand_ok g2 hds g4]
          · split
            · next hl =>
              obtain ⟨v, hv⟩ := need (p := "one_of") hl (by simp)
              rw [hall.one] at hv
              cases hv
            · split
              · next hl =>
                obtain ⟨a, ha⟩ := need (p := "add") hl (by simp)
                obtain ⟨w, hw⟩ := need (p := "subset_of") hl (by simp)
                obtain ⟨A, rfl, -, g2, g3⟩ := hall.add a ha
                obtain ⟨L, rfl, k1, k2, k3⟩ := hall.subset w hw
                simp only [Dict.get, ha, hw, ok_bind, demand_ok g2 k1 fun x hx => k2 x (g3 x hx)]
              · split
                · next hl =>
                  obtain ⟨a, ha⟩ := need (p := "add") hl (by simp)
                  obtain ⟨v, hv⟩ := need (p := "superset_of") hl (by simp)
                  obtain ⟨Q, rfl, -⟩ := hall.superset v hv
                  have h1 := halike.add (by simp [ha])
                  rw [(halike.superset Q hv).1] at h1
                  cases h1
                · rfl
  refine ⟨rule, ?_, hall, halike⟩
  unfold combineClaimPolicy
  rw [hs.value]
  simp only [combineFree, e1, Bool.false_eq_true, if_false, hone, false_and, hb, ok_bind, hcons, except_pure]

/-- Likewise for single values. -/
theorem combine_allowsOne {v dv : Val} (hd : Single (some dv)) (hdh : dv.hashable = true)
    (hs : AllowsOne v dv s) (hc : AllowsOne v dv c) : ∃ r, combineClaimPolicy E K s c = .ok r ∧ AllowsOne v dv r := by
  obtain ⟨e1, e2, e3⟩ := essential_true (E := E) hs.essential hc.essential
  obtain ⟨d1, d2⟩ := default_same (E := E) hs.default hc.default
  have one : (∃ v, doPolicy E s c "one_of" = .ok v) ∧ ∀ w, "one_of" ∈ combPolicy s c → doPolicy E s c "one_of" = .ok w →
      ∃ L, w = .arr L ∧ (∀ x ∈ L, x.hashable = true) ∧ v ∈ L ∧ dv ∈ L := by
    rw [doPolicy_set (by simp), doSubOneSuperAdd, mem_combPolicy]
    cases h1 : s.get? "one_of" with
    | none =>
      cases h2 : c.get? "one_of" with
      | none => simp
      | some y => exact ⟨⟨y, rfl⟩, fun v _ hv => by cases hv; exact hc.one y h2⟩
    | some x =>
      cases h2 : c.get? "one_of" with
      | none => exact ⟨⟨x, rfl⟩, fun v _ hv => by cases hv; exact hs.one x h1⟩
      | some y =>
        obtain ⟨L, rfl, g1, g2, g3⟩ := hs.one x h1
        obtain ⟨L', rfl, k1, k2, k3⟩ := hc.one y h2
        have hn : E.enum (inter L L') ≠ [] := by
          apply enum_ne_nil
          intro hcon
          have := mem_inter.2 ⟨g2, k2⟩
          rw [hcon] at this
          cases this
        simp only [op2func, String.reduceEq, if_false, combineInter, pySet, pyIter, ok_bind, mkSet_of g1, mkSet_of k1, except_pure, truthy_arr hn, if_true]
        refine ⟨⟨_, rfl⟩, fun v _ hv => ?_⟩
        cases hv
        refine ⟨_, rfl, fun z hz => ?_, ?_, ?_⟩
        · rw [E.mem_enum, mem_inter] at hz; exact g1 z hz.1
        · rw [E.mem_enum, mem_inter]; exact ⟨g2, k2⟩
        · rw [E.mem_enum, mem_inter]; exact ⟨g3, k3⟩
  have hsub : "subset_of" ∉ combPolicy s c := by rw [mem_combPolicy]; simp [hs.subset, hc.subset]
  have hsup : "superset_of" ∉ combPolicy s c := by rw [mem_combPolicy]; simp [hs.superset, hc.superset]
  have hadd : "add" ∉ combPolicy s c := by rw [mem_combPolicy]; simp [hs.add, hc.add]
  have hval : "value" ∉ combPolicy s c := by rw [mem_combPolicy]; simp [hs.value, hc.value]
  obtain ⟨rule, hb, b1, b2⟩ := buildRule_exists (E := E) (K := K) (s := s) (c := c) (by
    intro p hp
    have := (mem_combPolicy.1 hp).1
    simp only [policyFunctions, List.mem_cons, List.not_mem_nil, or_false] at this
    rcases this with rfl | rfl | rfl | rfl | rfl | rfl | rfl
    · exact absurd hp hsub
    · exact absurd hp hsup
    · exact one.1
    · exact absurd hp hadd
    · exact absurd hp hval
    · exact d1
    · exact e2)
  have inComb : ∀ {p v}, rule.get? p = some v → p ∈ combPolicy s c := fun h => (b2 _).2 (by rw [h]; simp)
  have absent : ∀ {p}, p ∉ combPolicy s c → rule.get? p = none := fun hp => Classical.byContradiction fun h => hp ((b2 _).2 h)
  have hall : AllowsOne v dv rule :=
    ⟨absent hval, fun w h => one.2 w (inComb h) (b1 _ _ h), absent hsub, absent hadd, absent hsup, fun v h => d2 v (inComb h) (b1 _ _ h), fun v h => e3 v (inComb h) (b1 _ _ h)⟩
  have hcons : consistency (combPolicy s c) rule = .ok () := by
    have no : ∀ {p l}, p ∉ combPolicy s c → p ∈ l → sameSet (combPolicy s c) l ≠ true := fun hp hl h => hp ((sameSet_iff.1 h _).2 hl)
    unfold consistency
    rw [if_neg (no hsup (by simp)), if_neg (no hsup (by simp)), if_neg (no hsub (by simp)), if_neg (no hsup (by simp))]
    split
    · next hl =>
      have need : ∀ {p}, p ∈ ["one_of", "default"] → ∃ v, rule.get? p = some v := by
        intro p hp
        have := (b2 p).1 ((sameSet_iff.1 hl p).2 hp)
        cases h : rule.get? p with
        | none => exact absurd h this
        | some v => exact ⟨v, rfl⟩
      obtain ⟨w, hw⟩ := need (p := "one_of") (by simp)
      obtain ⟨d, hd'⟩ := need (p := "default") (by simp)
      obtain ⟨L, rfl, g1, g2, g3⟩ := hall.one w hw
      have := hall.default d hd'
      subst this
      have hnl : d.isList = false := by cases d <;> first | rfl | exact absurd hd id
      have hdf : diff [d] L = [] := by simp [diff, g3]
      simp only [Dict.get, hw, hd', ok_bind, hnl, Bool.false_eq_true, if_false, pySet, pyIter, mkSet_of g1, mkSet_of (xs := [d]) (by simpa using hdh), hdf, List.isEmpty_nil, if_true, except_pure]
    · rw [if_neg (no hsub (by simp)), if_neg (no hsup (by simp))]
      rfl
  refine ⟨rule, ?_, hall⟩
  unfold combineClaimPolicy
  rw [hs.value]
  simp only [combineFree, e1, Bool.false_eq_true, if_false, hsub, hsup, or_self, and_false, hb, ok_bind, hcons, except_pure]
end

/-- C107 for two policies, as far as it holds: without two different `superset_of` and without `superset_of` together with `add`. -/
theorem C107_combine_partial (E : SetEnum Val) (K : SetEnum String) (sup sub : ClaimPolicy) (xs ds P : List Val) (adds : Bool) (hne : xs ≠ []) (hxs : ∀ x ∈ xs, x.hashable = true)
    (hds : ∀ x ∈ ds, x.hashable = true) (hs : Allows xs ds sup) (hc : Allows xs ds sub) (as : Alike P adds sup) (ac : Alike P adds sub) :
    ∃ r, combineClaimPolicy E K sup sub = .ok r := by
  obtain ⟨r, h, -⟩ := combine_allows (E := E) (K := K) hne hxs hds hs hc as ac
  exact ⟨r, h⟩

/-- What an entity has for a claim: a list or a single value. -/
inductive Want
  | list (xs ds P : List Val) (adds : Bool)
  | one (v dv : Val)

/-- The policy for a claim is satisfied. -/
def Want.ok : Want → ClaimPolicy → Prop
  | .list xs ds P adds, cp => xs ≠ [] ∧ (∀ x ∈ xs, x.hashable = true) ∧ (∀ x ∈ ds, x.hashable = true) ∧ Allows xs ds cp ∧ Alike P adds cp
  | .one v dv, cp => Single (some v) ∧ Single (some dv) ∧ dv.hashable = true ∧ AllowsOne v dv cp

/-- The claim has the wanted value, lists compared as sets. -/
def Want.is : Want → Option Val → Prop
  | .list xs _ _ _, w => ∃ ys, w = some (.arr ys) ∧ ∀ x, x ∈ ys ↔ x ∈ xs
  | .one v _, w => w = some v

/-- A rule is satisfied by what is wanted, says nothing else in its metadata than `M`, and does not both set and constrain a claim. -/
structure RuleOk (want : String → Want) (M : Metadata) (r : Rule) : Prop where
  policy : ∀ c cp, r.policy.get? c = some cp → (want c).ok cp
  metadata : ∀ c v, r.metadata.get? c = some v → M.get? c = some v

theorem combine_ruleOk {E : SetEnum Val} {K : SetEnum String} {want : String → Want} {M : Metadata} {s c : Rule} (hs : RuleOk want M s) (hc : RuleOk want M c) :
    ∃ r, combine E K s c = .ok r ∧ RuleOk want M r := by
  have step : ∀ k a b, s.policy.get? k = some a → c.policy.get? k = some b → ∃ r, combineClaimPolicy E K a b = .ok r ∧ (want k).ok r := by
    intro k a b ha hb
    have h1 := hs.policy k a ha
    have h2 := hc.policy k b hb
    cases hw : want k with
    | list xs ds P adds =>
      rw [hw] at h1 h2
      obtain ⟨g1, g2, g3, g4, g5⟩ := h1
      obtain ⟨-, -, -, k4, k5⟩ := h2
      obtain ⟨r, r1, r2, r3⟩ := combine_allows (E := E) (K := K) g1 g2 g3 g4 k4 g5 k5
      exact ⟨r, r1, g1, g2, g3, r2, r3⟩
    | one v dv =>
      rw [hw] at h1 h2
      obtain ⟨g1, g2, g3, g4⟩ := h1
      obtain ⟨-, -, -, k4⟩ := h2
      obtain ⟨r, r1, r2⟩ := combine_allowsOne (E := E) (K := K) g2 g3 g4 k4
      exact ⟨r, r1, g1, g2, g3, r2⟩
  cases h : combine E K s c with
  | error e =>
    rcases combine_error h with ⟨k, x, y, h1, h2, h3⟩ | ⟨k, a, b, h1, h2, h3⟩
    · have := hs.metadata k x h1
      rw [hc.metadata k y h2] at this
      cases this
      exact absurd rfl h3
    · obtain ⟨r, hr, -⟩ := step k a b h1 h2
      rw [hr] at h3
      cases h3
  | ok r =>
    obtain ⟨m1, -, m3⟩ := combine_ok h
    refine ⟨r, rfl, fun k cp hk => ?_, fun k v hk => ?_⟩
    · have := m3 k
      rw [hk] at this
      cases ha : s.policy.get? k with
      | none =>
        rw [ha] at this
        exact hc.policy k cp this.symm
      | some a =>
        cases hb : c.policy.get? k with
        | none =>
          rw [ha, hb] at this
          cases this
          exact hs.policy k _ ha
        | some b =>
          rw [ha, hb] at this
          obtain ⟨p, g1, g2⟩ := this
          cases g2
          obtain ⟨r', g3, g4⟩ := step k a b ha hb
          rw [g1] at g3
          cases g3
          exact g4
    · rw [m1] at hk
      cases hm : c.metadata.get? k with
      | none => rw [hm] at hk; exact hs.metadata k v hk
      | some w => rw [hm] at hk; cases hk; exact hc.metadata k _ hm

theorem gatherRest_ruleOk {E : SetEnum Val} {K : SetEnum String} {t : String} {want : String → Want} {M : Metadata} : ∀ {chain : List PStatement} {rule : Rule}, RuleOk want M rule →
    (∀ es ∈ chain, RuleOk want M (es.rule t) ∧ ∀ c ∈ (es.rule t).policy.keys, c ∉ (es.rule t).metadata.keys) → ∃ R, gatherRest E K t chain rule = .ok R ∧ RuleOk want M R
  | [], rule, hr, _ => ⟨rule, rfl, hr⟩
  | es :: chain, rule, hr, h => by
    obtain ⟨h1, h2⟩ := h es (by simp)
    have ih := fun {rule} hr => @gatherRest_ruleOk E K t want M chain rule hr fun es' he => h es' (by simp [he])
    simp only [gatherRest]
    split
    · exact ih hr
    · rw [if_neg (by simpa using h2)]
      obtain ⟨r, hc, hr'⟩ := combine_ruleOk (E := E) (K := K) hr h1
      simp only [hc, ok_bind]
      exact ih hr'

/-- C107 for chains: if what an entity declares satisfies the policies of all statements above it, then it is resolved, every claim with a policy has the declared value, lists compared as sets, and
claims without a policy are unchanged. The statements do not contradict each other in their metadata, and say nothing else about claims the entity declares. Missing: the cases in which it is false
for two policies; policies that fix a value (C79). -/
theorem C107_chain_partial (E : SetEnum Val) (K : SetEnum String) (sups : List PStatement) (leaf : PStatement) (t : String) (md M : Metadata) (want : String → Want)
    (hne : sups ≠ []) (hleaf : leaf.metadata.get? t = some md)
    (hsups : ∀ es ∈ sups, RuleOk want M (es.rule t) ∧ ∀ c ∈ (es.rule t).policy.keys, c ∉ (es.rule t).metadata.keys)
    (hdecl : ∀ es ∈ sups, ∀ c ∈ (es.rule t).policy.keys, match want c with
      | .list xs _ _ _ => md.get? c = some (.arr xs)
      | .one v _ => md.get? c = some v) :
    ∃ m, policyFor E K sups leaf t = .ok (some m) ∧ (∀ es ∈ sups, ∀ c ∈ (es.rule t).policy.keys, (want c).is (m.get? c)) ∧
      ∀ c v, md.get? c = some v → (∀ es ∈ sups, c ∉ (es.rule t).policy.keys) → m.get? c = some v := by
  cases sups with
  | nil => exact absurd rfl hne
  | cons e0 rest =>
    obtain ⟨R, hg, hR⟩ := gatherRest_ruleOk (E := E) (K := K) (chain := rest) (hsups e0 (by simp)).1 fun es he => hsups es (by simp [he])
    have hg' : gatherPolicies E K (e0 :: rest) t = .ok R := hg
    have covers : ∀ c, c ∈ R.policy.keys ↔ ∃ es ∈ e0 :: rest, c ∈ (es.rule t).policy.keys := by
      intro c
      rw [(C17_chain_covers E K (e0 :: rest) t R hg' c)]
      constructor
      · rintro ⟨es, he, mp, h1, h2⟩
        exact ⟨es, he, by simpa [PStatement.rule, h1] using h2⟩
      · rintro ⟨es, he, h⟩
        cases hm : es.policy.get? t with
        | none => simp [PStatement.rule, hm, Dict.keys] at h
        | some mp => exact ⟨es, he, mp, hm, by simpa [PStatement.rule, hm] using h⟩
    have wanted : ∀ c cp, R.policy.get? c = some cp → match want c with
        | .list xs _ _ _ => declared md R c = some (.arr xs)
        | .one v _ => declared md R c = some v := by
      intro c cp hc
      obtain ⟨es, he, hk⟩ := (covers c).1 ((Dict.mem_keys_iff_exists _ _).2 ⟨cp, hc⟩)
      have := hdecl es he c hk
      cases hw : want c with
      | list xs ds P adds => simp only [hw] at this; simp [declared, this]
      | one v dv => simp only [hw] at this; simp [declared, this]
    have shape : ∀ c cp, R.policy.get? c = some cp → cp.get? "value" = none ∧ match want c with
        | .list xs _ _ _ => ListShape cp (declared md R c) ∧ ListFits cp (declared md R c) ∧ ∀ x, Kept cp (declared md R c) x ↔ x ∈ xs
        | .one v _ => SingleShape cp (declared md R c) ∧ SingleFits cp (declared md R c) ∧ only cp (declared md R c) = some v := by
      intro c cp hc
      have h1 := hR.policy c cp hc
      have h2 := wanted c cp hc
      cases hw : want c with
      | list xs ds P adds =>
        rw [hw] at h1
        simp only [hw] at h2
        obtain ⟨g1, g2, g3, g4, g5⟩ := h1
        rw [h2]
        have hkept : ∀ x, Kept cp (some (.arr xs)) x ↔ x ∈ xs := by
          intro x
          unfold Kept Supplied
          constructor
          · rintro ⟨h | h | ⟨h, -⟩, -⟩
            · exact h
            · cases ha : cp.get? "add" with
              | none => rw [ha] at h; cases h
              | some a =>
                obtain ⟨A, rfl, -, -, k⟩ := g4.add a ha
                rw [ha] at h
                exact k x h
            · cases h
          · intro hx
            refine ⟨Or.inl hx, fun hn => ?_⟩
            cases hL : cp.get? "subset_of" with
            | none => exact absurd hL hn
            | some v =>
              obtain ⟨L, rfl, -, k, -⟩ := g4.subset v hL
              exact k x hx
        refine ⟨g4.value, ⟨g2, ?_, ?_, ?_, ?_, g4.one⟩, ⟨fun _ => ⟨fun _ => ?_, fun x hx => ?_⟩, fun _ => Or.inl (by simp)⟩, hkept⟩
        · cases ha : cp.get? "add" with
          | none => trivial
          | some a => obtain ⟨A, rfl, -, k, -⟩ := g4.add a ha; exact k
        · cases ha : cp.get? "default" with
          | none => trivial
          | some a => rw [g4.default a ha]; exact g3
        · cases ha : cp.get? "subset_of" with
          | none => trivial
          | some a => obtain ⟨A, rfl, k, -⟩ := g4.subset a ha; exact k
        · cases ha : cp.get? "superset_of" with
          | none => trivial
          | some a => obtain ⟨A, rfl, -, k, -⟩ := g4.superset a ha; exact k
        · cases xs with
          | nil => exact absurd rfl g1
          | cons x0 xs0 => exact ⟨x0, (hkept x0).2 (by simp)⟩
        · rw [hkept]
          cases ha : cp.get? "superset_of" with
          | none => rw [ha] at hx; cases hx
          | some a =>
            obtain ⟨A, rfl, -, -, k, -⟩ := g4.superset a ha
            rw [ha] at hx
            exact k x hx
      | one v dv =>
        rw [hw] at h1
        simp only [hw] at h2
        obtain ⟨g1, g2, g3, g4⟩ := h1
        rw [h2]
        refine ⟨g4.value, ⟨g1, ?_, fun l hl => ?_, g4.add, g4.subset, g4.superset⟩, ⟨fun v' l h1 h2 => ?_, fun _ => by simp [only]⟩, rfl⟩
        · cases hd : cp.get? "default" with
          | none => trivial
          | some d => rw [g4.default d hd]; exact g2
        · obtain ⟨L, rfl, -⟩ := g4.one l hl
          exact ⟨L, rfl⟩
        · simp only [only, Option.some.injEq] at h1
          subst h1
          obtain ⟨L, hL, -, k, -⟩ := g4.one _ h2
          cases hL
          exact k
    obtain ⟨m, hm⟩ := (C106_refused_with_reason E K md R (by
      intro c cp hc _
      have := (shape c cp hc).2
      cases hw : want c with
      | list xs ds P adds => simp only [hw] at this; exact Or.inl this.1
      | one v dv => simp only [hw] at this; exact Or.inr this.1)).2 (by
      intro c cp hc _
      have := (shape c cp hc).2
      have hwd := wanted c cp hc
      cases hw : want c with
      | list xs ds P adds =>
        simp only [hw] at this hwd
        refine ⟨fun _ => this.2.1, fun h => ?_⟩
        have := h.declared
        rw [hwd] at this
        exact absurd this id
      | one v dv =>
        simp only [hw] at this hwd
        refine ⟨fun h => ?_, fun _ => this.2.1⟩
        have h3 := h.declared
        have h4 := this.1.declared
        rw [hwd] at h3 h4
        cases v <;> first | exact absurd h3 id | exact absurd h4 id)
    refine ⟨m, ?_, fun es he c hc => ?_, fun c v hcv hno => ?_⟩
    · simp only [policyFor, hg', hleaf, hm, ok_bind, except_pure]
    · obtain ⟨cp, hcp⟩ := (Dict.mem_keys_iff_exists _ _).1 ((covers c).2 ⟨es, he, hc⟩)
      obtain ⟨hv, hsh⟩ := shape c cp hcp
      have hwd := wanted c cp hcp
      cases hw : want c with
      | list xs ds P adds =>
        simp only [hw] at hsh hwd
        rcases C106_list_kept E K md m R hm c cp hcp hv hsh.1 with ⟨-, hp⟩ | ⟨ys, h1, -, h2⟩
        · exact absurd (Or.inl (by rw [hwd]; simp)) hp
        · exact ⟨ys, h1, fun x => (h2 x).trans (hsh.2.2 x)⟩
      | one v dv =>
        simp only [hw] at hsh hwd
        exact (C106_single_kept E K md m R hm c cp hcp hv hsh.1).trans hsh.2.2
    · have hnk : c ∉ R.policy.keys := by
        rw [covers]
        rintro ⟨es, he, h⟩
        exact hno es he h
      have := C08_pass_through E K md m R c hm hnk
      rw [hcv] at this
      exact this

/-- The anchor limits scopes and methods, the intermediate limits them further and demands a scope. -/
def Ex.c107a : PStatement := ⟨[], [("op", [("scopes", [("subset_of", .arr [.str "a", .str "b", .str "c"]), ("superset_of", .arr [.str "a"])]), ("auth", [("one_of", .arr [.str "x", .str "y"])])])]⟩
def Ex.c107b : PStatement := ⟨[], [("op", [("scopes", [("subset_of", .arr [.str "b", .str "a"]), ("essential", .bool true)]), ("auth", [("one_of", .arr [.str "y", .str "z"]), ("default", .str "y")])])]⟩
def Ex.c107md : Metadata := [("scopes", .arr [.str "a", .str "b"]), ("auth", .str "y"), ("name", .str "n")]
def Ex.c107want (c : String) : Want := if c = "scopes" then .list [.str "a", .str "b"] [.str "a"] [.str "a"] false else .one (.str "y") (.str "y")

theorem Ex.op107 (x : MetadataPolicy) : (Dict.get? [("op", x)] "op").getD [] = x := rfl

/-- The hypotheses of C107 are met, and the theorem applies. -/
example : ∃ m, policyFor Ex.E Ex.K [Ex.c107a, Ex.c107b] ⟨[("op", Ex.c107md)], []⟩ "op" = .ok (some m) ∧ m.get? "auth" = some (.str "y") ∧ m.get? "name" = some (.str "n") := by
  obtain ⟨m, h1, h2, h3⟩ := C107_chain_partial Ex.E Ex.K [Ex.c107a, Ex.c107b] ⟨[("op", Ex.c107md)], []⟩ "op" Ex.c107md [] Ex.c107want (by simp) rfl
    (by
      intro es hes
      simp only [List.mem_cons, List.not_mem_nil, or_false] at hes
      rcases hes with rfl | rfl <;> refine ⟨⟨fun c cp h => ?_, fun c v h => by cases h⟩, fun c _ h => by cases h⟩
      · simp only [PStatement.rule, Ex.c107a] at h
        rw [Ex.op107, Dict.get?_cons] at h
        split at h
        · next hc =>
          have hc : c = "scopes" := hc.symm
          cases h
          subst hc
          refine ⟨by simp, by decide, by decide, ⟨rfl, rfl, ?_, ?_, ?_, ?_, ?_⟩, ?_, ?_⟩ <;> simp [Dict.get?, Val.hashable]
        · next hc0 =>
          rw [Dict.get?_cons] at h
          split at h
          · next hc =>
            have hc : c = "auth" := hc.symm
            cases h
            subst hc
            refine ⟨trivial, trivial, rfl, ⟨rfl, ?_, rfl, rfl, rfl, ?_, ?_⟩⟩ <;> simp [Dict.get?, Val.hashable]
          · cases h
      · simp only [PStatement.rule, Ex.c107b] at h
        rw [Ex.op107, Dict.get?_cons] at h
        split at h
        · next hc =>
          have hc : c = "scopes" := hc.symm
          cases h
          subst hc
          refine ⟨by simp, by decide, by decide, ⟨rfl, rfl, ?_, ?_, ?_, ?_, ?_⟩, ?_, ?_⟩ <;> simp [Dict.get?, Val.hashable]
        · next hc0 =>
          rw [Dict.get?_cons] at h
          split at h
          · next hc =>
            have hc : c = "auth" := hc.symm
            cases h
            subst hc
            refine ⟨trivial, trivial, rfl, ⟨rfl, ?_, rfl, rfl, rfl, ?_, ?_⟩⟩ <;> simp [Dict.get?, Val.hashable]
          · cases h)
    (by
      intro es hes c hc
      simp only [List.mem_cons, List.not_mem_nil, or_false] at hes
      rcases hes with rfl | rfl <;> simp [PStatement.rule, Ex.c107a, Ex.c107b, Dict.get?, Dict.keys] at hc <;> rcases hc with rfl | rfl <;> rfl)
  exact ⟨m, h1, h2 Ex.c107a (by simp) "auth" (by decide), h3 "name" _ rfl (by decide)⟩

end Fed.Policy
