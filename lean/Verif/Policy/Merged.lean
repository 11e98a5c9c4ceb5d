import Verif.Policy.Repeated
/-
Properties C234 and C235: how the policies of a chain are grouped, and in which order the authorities come that state them. What is combined is what `gather_policies` and `combine` of /repo/src/fedservice/entity/function/policy.py
combine (209-242 and 301-332; modelled in `Policy/Combine`).
-/
namespace Fed.Policy
open Fed

/-! ### Policies with one operator -/

/-- The policy has the operator `n`, with the set `xs`, and nothing else. -/
def MeansS (n : String) (c : ClaimPolicy) (xs : List Val) : Prop :=
  (∃ ys, c.get? n = some (.arr ys) ∧ ∀ x, x ∈ ys ↔ x ∈ xs) ∧ (∀ m, m ≠ n → c.get? m = none) ∧ xs ≠ [] ∧ ∀ x ∈ xs, x.hashable = true

/-- The policy has the operator `n`, with the value `v`, and nothing else. -/
def MeansV (n : String) (c : ClaimPolicy) (v : Val) : Prop := c.get? n = some v ∧ ∀ m, m ≠ n → c.get? m = none

/-- The policy for a claim has the operator `n` and nothing else: a set operator with a list that is not empty, or `value` or `default`. -/
def Uses (n : String) (c : ClaimPolicy) : Prop := (n ∈ setOps ∧ ∃ xs, MeansS n c xs) ∨ ((n = "value" ∨ n = "default") ∧ ∃ v, MeansV n c v)

/-- What two sets for an operator are combined to. -/
def join (n : String) (xs ys : List Val) : List Val := if n = "add" then xs ++ ys else inter xs ys

theorem comb_only {n : String} {a b : ClaimPolicy} (hn : n ∈ policyFunctions) (ha : (a.get? n).isSome) (ha' : ∀ m, m ≠ n → a.get? m = none) (hb' : ∀ m, m ≠ n → b.get? m = none) {m : String} : m ∈ combPolicy a b ↔ m = n := by
  rw [mem_combPolicy]
  constructor
  · rintro ⟨-, h⟩
    by_cases e : m = n
    · exact e
    · rw [ha' m e, hb' m e] at h; rcases h with h | h <;> cases h
  · rintro rfl
    exact ⟨hn, Or.inl ha⟩

theorem clash_none {a b : ClaimPolicy} (h : a.get? "essential" = none) : essentialClash a b = false := by
  unfold essentialClash
  rw [h]

theorem consistency_only {n : String} {l : List String} {r : ClaimPolicy} (h : ∀ m, m ∈ l ↔ m = n) : consistency l r = .ok () := by
  have two : ∀ (p q : String) (ops : List String), p ∈ ops → q ∈ ops → p ≠ q → sameSet l ops = false := by
    intro p q ops hp hq hne
    rw [Bool.eq_false_iff]
    intro hs
    have h1 := (h p).1 ((sameSet_iff.1 hs p).2 hp)
    have h2 := (h q).1 ((sameSet_iff.1 hs q).2 hq)
    exact hne (h1.trans h2.symm)
  unfold consistency
  rw [if_neg (by rw [two "superset_of" "subset_of" _ (by simp) (by simp) (by decide)]; decide),
    if_neg (by rw [two "superset_of" "subset_of" _ (by simp) (by simp) (by decide)]; decide),
    if_neg (by rw [two "subset_of" "default" _ (by simp) (by simp) (by decide)]; decide),
    if_neg (by rw [two "superset_of" "default" _ (by simp) (by simp) (by decide)]; decide),
    if_neg (by rw [two "one_of" "default" _ (by simp) (by simp) (by decide)]; decide),
    if_neg (by rw [two "subset_of" "add" _ (by simp) (by simp) (by decide)]; decide),
    if_neg (by rw [two "superset_of" "add" _ (by simp) (by simp) (by decide)]; decide)]
  rfl

theorem setOps_facts {n : String} (h : n ∈ setOps) : n ∈ policyFunctions ∧ "value" ≠ n ∧ "essential" ≠ n := by
  rcases setOps_op h with rfl | rfl | rfl | rfl <;> decide

theorem doPolicy_setOp {E : SetEnum Val} {n : String} (hn : n ∈ setOps) (a b : ClaimPolicy) : doPolicy E a b n = doSubOneSuperAdd E a b n := by
  unfold doPolicy
  rw [if_pos]
  rcases setOps_op hn with h | h | h | h <;> simp [h]

/-- What the set operators make of two sets. -/
theorem op2func_join {E : SetEnum Val} {n : String} {xs ys : List Val} (hx : ∀ x ∈ xs, x.hashable = true) (hy : ∀ x ∈ ys, x.hashable = true) :
    op2func E n (.arr xs) (.arr ys) = .ok (.arr (E.enum (join n xs ys))) := by
  unfold op2func join
  split
  · unfold combineAdd
    have e : ∀ zs, setOrSingleton (.arr zs) = mkSet zs := fun _ => rfl
    rw [e, e, mkSet_hash hx, mkSet_hash hy]
    rfl
  · unfold combineInter
    rw [pySet_hash hx, pySet_hash hy]
    rfl

theorem join_congr {n : String} {xs xs' ys ys' : List Val} (hx : ∀ x, x ∈ xs ↔ x ∈ xs') (hy : ∀ x, x ∈ ys ↔ x ∈ ys') (x : Val) : x ∈ join n xs ys ↔ x ∈ join n xs' ys' := by
  unfold join
  split
  · rw [List.mem_append, List.mem_append, hx, hy]
  · rw [mem_inter, mem_inter, hx, hy]

theorem ne_nil_congr {xs ys : List Val} (h : ∀ x, x ∈ xs ↔ x ∈ ys) (hx : xs ≠ []) : ys ≠ [] := by
  obtain ⟨x, hm⟩ := List.exists_mem_of_ne_nil xs hx
  exact List.ne_nil_of_mem ((h x).1 hm)

theorem arr_truthy {xs : List Val} : (Val.arr xs).truthy = true ↔ xs ≠ [] := by
  cases xs <;> simp [Val.truthy]

theorem meansS_combine {E : SetEnum Val} {K : SetEnum String} {n : String} {a b : ClaimPolicy} {xs ys : List Val} (hn : n ∈ setOps) (ha : MeansS n a xs) (hb : MeansS n b ys) :
    (join n xs ys ≠ [] → ∃ r, combineClaimPolicy E K a b = .ok r ∧ MeansS n r (join n xs ys)) ∧ (join n xs ys = [] → ∀ r, combineClaimPolicy E K a b ≠ .ok r) := by
  obtain ⟨⟨xs', a1, a2⟩, a3, a4, a5⟩ := ha
  obtain ⟨⟨ys', b1, b2⟩, b3, b4, b5⟩ := hb
  obtain ⟨f1, f2, f3⟩ := setOps_facts hn
  have hx' : ∀ x ∈ xs', x.hashable = true := fun x h => a5 x ((a2 x).1 h)
  have hy' : ∀ x ∈ ys', x.hashable = true := fun x h => b5 x ((b2 x).1 h)
  have hcomb : ∀ {m}, m ∈ combPolicy a b ↔ m = n := comb_only f1 (by rw [a1]; rfl) a3 b3
  have hjoin : ∀ x, x ∈ E.enum (join n xs' ys') ↔ x ∈ join n xs ys := fun x => by rw [E.mem_enum]; exact join_congr a2 b2 x
  have hdo : doPolicy E a b n = if (Val.arr (E.enum (join n xs' ys'))).truthy then .ok (.arr (E.enum (join n xs' ys'))) else .error .policyError := by
    rw [doPolicy_setOp hn]
    unfold doSubOneSuperAdd
    simp only [a1, b1]
    rw [op2func_join hx' hy']
    rfl
  unfold combineClaimPolicy
  rw [a3 "value" f2]
  simp only
  constructor
  · intro hne
    have hne' : E.enum (join n xs' ys') ≠ [] := ne_nil_congr (fun x => (hjoin x).symm) hne
    rw [if_pos (arr_truthy.2 hne')] at hdo
    have one : Dict.get? ([(n, Val.arr (E.enum (join n xs' ys')))] : ClaimPolicy) n = some (Val.arr (E.enum (join n xs' ys'))) := by simp [Dict.get?]
    have none' : ∀ m, m ≠ n → Dict.get? ([(n, Val.arr (E.enum (join n xs' ys')))] : ClaimPolicy) m = none := by
      intro m hm; simp [Dict.get?, Ne.symm hm]
    obtain ⟨r, h1, h2⟩ := combineFree_of (E := E) (K := K) (s := a) (c := b) (r := [(n, .arr (E.enum (join n xs' ys')))]) (clash_none (a3 _ f3))
      (by
        rintro ⟨h1, h2⟩
        have e1 := hcomb.1 h1
        rcases h2 with h2 | h2
        · exact absurd (e1.trans (hcomb.1 h2).symm) (by decide)
        · exact absurd (e1.trans (hcomb.1 h2).symm) (by decide))
      (consistency_only fun m => hcomb)
      (by
        intro m hm
        cases hcomb.1 hm
        exact ⟨_, _, hdo, one, fun _ => Val.SetEq.refl _, fun h => absurd hn h⟩)
      (fun m hm => none' m fun e => hm (hcomb.2 e))
    refine ⟨r, h1, ?_, ?_, hne, ?_⟩
    · have := h2.sets n hn
      rw [one] at this
      cases hr : r.get? n with
      | none => rw [hr] at this; cases this
      | some v =>
        rw [hr] at this
        obtain ⟨zs, rfl, hz⟩ := setEq_arr this
        exact ⟨zs, rfl, fun x => (hz x).symm.trans (hjoin x)⟩
    · intro m hm
      by_cases hs : m ∈ setOps
      · have := h2.sets m hs
        rw [none' m hm] at this
        cases hr : r.get? m with
        | none => rfl
        | some v => rw [hr] at this; cases this
      · rw [← h2.others m hs, none' m hm]
    · intro x hx
      unfold join at hx
      split at hx
      · rcases List.mem_append.1 hx with h | h
        · exact a5 x h
        · exact b5 x h
      · exact a5 x (mem_inter.1 hx).1
  · intro he r hr
    obtain ⟨v, h1, -⟩ := (combineFree_ok hr).2.2.2.1 n (hcomb.2 rfl)
    have hnil : ¬ (Val.arr (E.enum (join n xs' ys'))).truthy = true := by
      rw [arr_truthy]
      intro h
      exact ne_nil_congr hjoin h he
    rw [hdo, if_neg hnil] at h1
    cases h1

theorem meansV_combine {E : SetEnum Val} {K : SetEnum String} {n : String} {a b : ClaimPolicy} {v w : Val} (hn : n = "value" ∨ n = "default") (ha : MeansV n a v) (hb : MeansV n b w) :
    (v = w → ∃ r, combineClaimPolicy E K a b = .ok r ∧ MeansV n r v) ∧ (v ≠ w → ∀ r, combineClaimPolicy E K a b ≠ .ok r) := by
  obtain ⟨a1, a2⟩ := ha
  obtain ⟨b1, b2⟩ := hb
  rcases hn with rfl | rfl
  · unfold combineClaimPolicy
    simp only [a1, combineFixed]
    have hne : (recognised b).isEmpty = false := by
      cases h : recognised b with
      | nil => have : "value" ∈ recognised b := mem_recognised.2 ⟨by decide, by rw [b1]; rfl⟩
               rw [h] at this; cases this
      | cons => rfl
    rw [hne, b2 "essential" (by decide), b1]
    constructor
    · rintro rfl
      exact ⟨a, by simp, a1, a2⟩
    · intro h r hr
      simp [Ne.symm h] at hr
  · have hcomb : ∀ {m}, m ∈ combPolicy a b ↔ m = "default" := comb_only (by decide) (by rw [a1]; rfl) a2 b2
    unfold combineClaimPolicy
    rw [a2 "value" (by decide)]
    simp only
    have hdo : doPolicy E a b "default" = if v = w then .ok v else .error .policyError := by
      have : doPolicy E a b "default" = doDefault a b "default" := by unfold doPolicy; rw [if_neg (by decide), if_neg (by decide), if_pos rfl]
      rw [this]
      unfold doDefault
      simp only [a1, b1]
      rfl
    constructor
    · intro hvw
      rw [if_pos hvw] at hdo
      have one : Dict.get? ([("default", v)] : ClaimPolicy) "default" = some v := by simp [Dict.get?]
      have none' : ∀ m, m ≠ "default" → Dict.get? ([("default", v)] : ClaimPolicy) m = none := by
        intro m hm; simp [Dict.get?, Ne.symm hm]
      obtain ⟨r, h1, h2⟩ := combineFree_of (E := E) (K := K) (s := a) (c := b) (r := [("default", v)]) (clash_none (a2 _ (by decide)))
        (by
          rintro ⟨h1, -⟩
          exact absurd (hcomb.1 h1) (by decide))
        (consistency_only fun m => hcomb)
        (by
          intro m hm
          cases hcomb.1 hm
          exact ⟨_, _, hdo, one, fun h => absurd h (by decide), fun _ => rfl⟩)
        (fun m hm => none' m fun e => hm (hcomb.2 e))
      refine ⟨r, h1, ?_, ?_⟩
      · rw [← h2.others _ (by decide), one]
      · intro m hm
        by_cases hs : m ∈ setOps
        · have := h2.sets m hs
          rw [none' m hm] at this
          cases hr : r.get? m with
          | none => rfl
          | some v => rw [hr] at this; cases this
        · rw [← h2.others m hs, none' m hm]
    · intro h r hr
      obtain ⟨x, h1, -⟩ := (combineFree_ok hr).2.2.2.1 "default" (hcomb.2 rfl)
      rw [hdo, if_neg h] at h1
      cases h1

theorem meansS_eq {n : String} {r r' : ClaimPolicy} {xs xs' : List Val} (hn : n ∈ setOps) (h : MeansS n r xs) (h' : MeansS n r' xs') (hx : ∀ x, x ∈ xs ↔ x ∈ xs') : CPEq r r' := by
  obtain ⟨⟨ys, a1, a2⟩, a3, -⟩ := h
  obtain ⟨⟨ys', b1, b2⟩, b3, -⟩ := h'
  refine ⟨fun m hm => ?_, fun m hm => ?_⟩
  · by_cases e : m = n
    · subst e
      rw [a1, b1]
      show (Val.arr ys).SetEq (.arr ys')
      intro x
      rw [a2, b2, hx]
    · rw [a3 m e, b3 m e]; trivial
  · have e : m ≠ n := fun e => hm (e ▸ hn)
    rw [a3 m e, b3 m e]

theorem meansV_eq {n : String} {r r' : ClaimPolicy} {v : Val} (h : MeansV n r v) (h' : MeansV n r' v) : CPEq r r' := by
  have e : ∀ m, r.get? m = r'.get? m := by
    intro m
    by_cases e : m = n
    · rw [e, h.1, h'.1]
    · rw [h.2 m e, h'.2 m e]
  refine ⟨fun m _ => ?_, fun m _ => e m⟩
  rw [e m]
  exact OptSetEq.refl _

theorem join_mem {n : String} {xs ys : List Val} {x : Val} : x ∈ join n xs ys ↔ (n = "add" ∧ (x ∈ xs ∨ x ∈ ys)) ∨ (n ≠ "add" ∧ x ∈ xs ∧ x ∈ ys) := by
  unfold join
  by_cases h : n = "add"
  · rw [if_pos h, List.mem_append]
    constructor
    · exact fun hx => Or.inl ⟨h, hx⟩
    · rintro (⟨-, hx⟩ | ⟨hx, -⟩)
      · exact hx
      · exact absurd h hx
  · rw [if_neg h, mem_inter]
    constructor
    · exact fun hx => Or.inr ⟨h, hx⟩
    · rintro (⟨hx, -⟩ | ⟨-, hx⟩)
      · exact absurd hx h
      · exact hx

theorem join_assoc {n : String} {xs ys zs : List Val} (x : Val) : x ∈ join n (join n xs ys) zs ↔ x ∈ join n xs (join n ys zs) := by
  rw [join_mem, join_mem, join_mem, join_mem]
  by_cases h : n = "add"
  · simp only [h, true_and, ne_eq, not_true_eq_false, false_and, or_false]; exact or_assoc
  · simp only [h, false_and, false_or, ne_eq, not_false_eq_true, true_and]; exact and_assoc

theorem join_swap {n : String} {xs ys zs : List Val} (x : Val) : x ∈ join n (join n xs ys) zs ↔ x ∈ join n (join n xs zs) ys := by
  rw [join_mem, join_mem, join_mem, join_mem]
  by_cases h : n = "add"
  · simp [h, or_comm, or_left_comm]
    exact or_assoc
  · simp [h, and_comm, and_left_comm]
    exact and_assoc

theorem join_comm {n : String} {xs ys : List Val} (x : Val) : x ∈ join n xs ys ↔ x ∈ join n ys xs := by
  rw [join_mem, join_mem]
  by_cases h : n = "add"
  · simp [h, or_comm]
  · simp [h, and_comm]

theorem join_left {n : String} {xs ys zs : List Val} (hx : xs ≠ []) (h : join n xs (join n ys zs) ≠ []) : join n xs ys ≠ [] := by
  by_cases hn : n = "add"
  · unfold join; rw [if_pos hn]; simp [hx]
  · obtain ⟨x, hm⟩ := List.exists_mem_of_ne_nil _ h
    rw [join_mem, join_mem] at hm
    refine List.ne_nil_of_mem (a := x) (join_mem.2 (Or.inr ⟨hn, ?_⟩))
    rcases hm with ⟨h1, -⟩ | ⟨-, h1, h2⟩
    · exact absurd h1 hn
    · rcases h2 with ⟨h2, -⟩ | ⟨-, h2, -⟩
      · exact absurd h2 hn
      · exact ⟨h1, h2⟩

section
variable {E : SetEnum Val} {K : SetEnum String}

theorem Uses.combined {n : String} {a b r : ClaimPolicy} (ha : Uses n a) (hb : Uses n b) (h : combineClaimPolicy E K a b = .ok r) : Uses n r := by
  rcases ha with ⟨hn, xs, ha⟩ | ⟨hn, v, ha⟩
  · rcases hb with ⟨-, ys, hb⟩ | ⟨hn', -⟩
    · obtain ⟨h1, h2⟩ := meansS_combine (E := E) (K := K) hn ha hb
      by_cases hj : join n xs ys = []
      · exact absurd h (h2 hj r)
      · obtain ⟨r', h3, h4⟩ := h1 hj
        rw [h] at h3
        cases h3
        exact Or.inl ⟨hn, _, h4⟩
    · rcases hn' with rfl | rfl <;> exact absurd hn (by decide)
  · rcases hb with ⟨hn', -⟩ | ⟨-, w, hb⟩
    · rcases hn with rfl | rfl <;> exact absurd hn' (by decide)
    · obtain ⟨h1, h2⟩ := meansV_combine (E := E) (K := K) hn ha hb
      by_cases hj : v = w
      · obtain ⟨r', h3, h4⟩ := h1 hj
        rw [h] at h3
        cases h3
        exact Or.inr ⟨hn, _, h4⟩
      · exact absurd h (h2 hj r)

/-- Three policies with the same operator: how they are grouped does not matter. -/
theorem uses_assoc {n : String} {a b c m : ClaimPolicy} (ha : Uses n a) (hb : Uses n b) (hc : Uses n c) (hm : combineClaimPolicy E K b c = .ok m) :
    (∀ ab abc, combineClaimPolicy E K a b = .ok ab → combineClaimPolicy E K ab c = .ok abc → ∃ r, combineClaimPolicy E K a m = .ok r ∧ CPEq abc r) ∧
    (∀ r, combineClaimPolicy E K a m = .ok r → ∃ ab abc, combineClaimPolicy E K a b = .ok ab ∧ combineClaimPolicy E K ab c = .ok abc) := by
  rcases ha with ⟨hn, xs, ha⟩ | ⟨hn, v, ha⟩
  · have no : ¬ (n = "value" ∨ n = "default") := by rintro (rfl | rfl) <;> exact absurd hn (by decide)
    obtain ⟨-, ys, hb⟩ := hb.resolve_right fun h => no h.1
    obtain ⟨-, zs, hc⟩ := hc.resolve_right fun h => no h.1
    have bc := meansS_combine (E := E) (K := K) hn hb hc
    have hbc : join n ys zs ≠ [] := fun e => bc.2 e m hm
    obtain ⟨m', h1, mm⟩ := bc.1 hbc
    rw [hm] at h1
    cases h1
    have ab := meansS_combine (E := E) (K := K) hn ha hb
    have am := meansS_combine (E := E) (K := K) hn ha mm
    constructor
    · intro p q hp hq
      have hab : join n xs ys ≠ [] := fun e => ab.2 e p hp
      obtain ⟨p', h1, mp⟩ := ab.1 hab
      rw [hp] at h1
      cases h1
      have abc := meansS_combine (E := E) (K := K) hn mp hc
      have hne : join n (join n xs ys) zs ≠ [] := fun e => abc.2 e q hq
      obtain ⟨q', h1, mq⟩ := abc.1 hne
      rw [hq] at h1
      cases h1
      obtain ⟨r, h2, mr⟩ := am.1 (ne_nil_congr (fun x => join_assoc x) hne)
      exact ⟨r, h2, meansS_eq hn mq mr fun x => join_assoc x⟩
    · intro r hr
      have hne : join n xs (join n ys zs) ≠ [] := fun e => am.2 e r hr
      obtain ⟨p, hp, mp⟩ := ab.1 (join_left ha.2.2.1 hne)
      have abc := meansS_combine (E := E) (K := K) hn mp hc
      obtain ⟨q, hq, -⟩ := abc.1 (ne_nil_congr (fun x => (join_assoc x).symm) hne)
      exact ⟨p, q, hp, hq⟩
  · have no : n ∉ setOps := by rcases hn with rfl | rfl <;> decide
    obtain ⟨-, w, hb⟩ := hb.resolve_left fun h => no h.1
    obtain ⟨-, z, hc⟩ := hc.resolve_left fun h => no h.1
    have bc := meansV_combine (E := E) (K := K) hn hb hc
    have hbc : w = z := Classical.byContradiction fun e => bc.2 e m hm
    obtain ⟨m', h1, mm⟩ := bc.1 hbc
    rw [hm] at h1
    cases h1
    subst hbc
    have ab := meansV_combine (E := E) (K := K) hn ha hb
    have am := meansV_combine (E := E) (K := K) hn ha mm
    constructor
    · intro p q hp hq
      have hab : v = w := Classical.byContradiction fun e => ab.2 e p hp
      obtain ⟨p', h1, mp⟩ := ab.1 hab
      rw [hp] at h1
      cases h1
      have abc := meansV_combine (E := E) (K := K) hn mp hc
      obtain ⟨q', h1, mq⟩ := abc.1 hab
      rw [hq] at h1
      cases h1
      obtain ⟨r, h2, mr⟩ := am.1 hab
      exact ⟨r, h2, meansV_eq mq mr⟩
    · intro r hr
      have hab : v = w := Classical.byContradiction fun e => am.2 e r hr
      obtain ⟨p, hp, mp⟩ := ab.1 hab
      have abc := meansV_combine (E := E) (K := K) hn mp hc
      obtain ⟨q, hq, -⟩ := abc.1 hab
      exact ⟨p, q, hp, hq⟩

/-- Three policies with the same operator: the order of the lower two does not matter. -/
theorem uses_swap {n : String} {a b c ab abc : ClaimPolicy} (ha : Uses n a) (hb : Uses n b) (hc : Uses n c) (h1 : combineClaimPolicy E K a b = .ok ab) (h2 : combineClaimPolicy E K ab c = .ok abc) :
    ∃ ac acb, combineClaimPolicy E K a c = .ok ac ∧ combineClaimPolicy E K ac b = .ok acb ∧ CPEq abc acb := by
  rcases ha with ⟨hn, xs, ha⟩ | ⟨hn, v, ha⟩
  · have no : ¬ (n = "value" ∨ n = "default") := by rintro (rfl | rfl) <;> exact absurd hn (by decide)
    obtain ⟨-, ys, hb⟩ := hb.resolve_right fun h => no h.1
    obtain ⟨-, zs, hc⟩ := hc.resolve_right fun h => no h.1
    have AB := meansS_combine (E := E) (K := K) hn ha hb
    obtain ⟨p, e1, mp⟩ := AB.1 fun e => AB.2 e _ h1
    rw [h1] at e1
    cases e1
    have ABC := meansS_combine (E := E) (K := K) hn mp hc
    have hne : join n (join n xs ys) zs ≠ [] := fun e => ABC.2 e _ h2
    obtain ⟨q, e2, mq⟩ := ABC.1 hne
    rw [h2] at e2
    cases e2
    have hne' : join n (join n xs zs) ys ≠ [] := ne_nil_congr (fun x => join_swap x) hne
    have AC := meansS_combine (E := E) (K := K) hn ha hc
    obtain ⟨r, e3, mr⟩ := AC.1 (join_left (zs := ys) ha.2.2.1 (ne_nil_congr (fun x => join_assoc x) hne'))
    obtain ⟨s, e4, ms⟩ := (meansS_combine (E := E) (K := K) hn mr hb).1 hne'
    exact ⟨r, s, e3, e4, meansS_eq hn mq ms fun x => join_swap x⟩
  · have no : n ∉ setOps := by rcases hn with rfl | rfl <;> decide
    obtain ⟨-, w, hb⟩ := hb.resolve_left fun h => no h.1
    obtain ⟨-, z, hc⟩ := hc.resolve_left fun h => no h.1
    have AB := meansV_combine (E := E) (K := K) hn ha hb
    have hvw : v = w := Classical.byContradiction fun e => AB.2 e _ h1
    obtain ⟨p, e1, mp⟩ := AB.1 hvw
    rw [h1] at e1
    cases e1
    have ABC := meansV_combine (E := E) (K := K) hn mp hc
    have hvz : v = z := Classical.byContradiction fun e => ABC.2 e _ h2
    obtain ⟨q, e2, mq⟩ := ABC.1 hvz
    rw [h2] at e2
    cases e2
    obtain ⟨r, e3, mr⟩ := (meansV_combine (E := E) (K := K) hn ha hc).1 hvz
    obtain ⟨s, e4, ms⟩ := (meansV_combine (E := E) (K := K) hn mr hb).1 hvw
    exact ⟨r, s, e3, e4, meansV_eq mq ms⟩

theorem uses_comm {n : String} {b c bc : ClaimPolicy} (hb : Uses n b) (hc : Uses n c) (h : combineClaimPolicy E K b c = .ok bc) : ∃ cb, combineClaimPolicy E K c b = .ok cb ∧ CPEq bc cb := by
  rcases hb with ⟨hn, ys, hb⟩ | ⟨hn, w, hb⟩
  · have no : ¬ (n = "value" ∨ n = "default") := by rintro (rfl | rfl) <;> exact absurd hn (by decide)
    obtain ⟨-, zs, hc⟩ := hc.resolve_right fun h => no h.1
    have BC := meansS_combine (E := E) (K := K) hn hb hc
    have hne : join n ys zs ≠ [] := fun e => BC.2 e _ h
    obtain ⟨p, e1, mp⟩ := BC.1 hne
    rw [h] at e1
    cases e1
    obtain ⟨r, e3, mr⟩ := (meansS_combine (E := E) (K := K) hn hc hb).1 (ne_nil_congr (fun x => join_comm x) hne)
    exact ⟨r, e3, meansS_eq hn mp mr fun x => join_comm x⟩
  · have no : n ∉ setOps := by rcases hn with rfl | rfl <;> decide
    obtain ⟨-, z, hc⟩ := hc.resolve_left fun h => no h.1
    have BC := meansV_combine (E := E) (K := K) hn hb hc
    have hwz : w = z := Classical.byContradiction fun e => BC.2 e _ h
    obtain ⟨p, e1, mp⟩ := BC.1 hwz
    rw [h] at e1
    cases e1
    obtain ⟨r, e3, mr⟩ := (meansV_combine (E := E) (K := K) hn hc hb).1 hwz.symm
    exact ⟨r, e3, meansV_eq mp (hwz ▸ mr)⟩
/-- Two policies for a claim that neither fix its value nor disagree about whether it is essential. -/
def Unfixed (b c : ClaimPolicy) : Prop :=
  b.get? "value" = none ∧ c.get? "value" = none ∧ ∀ x y, b.get? "essential" = some x → c.get? "essential" = some y → x = y

theorem Unfixed.symm {b c : ClaimPolicy} (h : Unfixed b c) : Unfixed c b := ⟨h.2.1, h.1, fun x y hx hy => (h.2.2 y x hy hx).symm⟩

theorem combPolicy_comm (b c : ClaimPolicy) : combPolicy c b = combPolicy b c := by
  unfold combPolicy
  congr 1
  funext n
  exact Bool.or_comm _ _

theorem op2func_comm {n : String} {x y v : Val} (h : op2func E n x y = .ok v) : ∃ w, op2func E n y x = .ok w ∧ v.SetEq w ∧ v.truthy = w.truthy := by
  have arr : ∀ (p q : List Val), (∀ z, z ∈ p ↔ z ∈ q) → (Val.arr p).SetEq (.arr q) ∧ (Val.arr p).truthy = (Val.arr q).truthy := by
    intro p q hpq
    refine ⟨hpq, ?_⟩
    rw [Bool.eq_iff_iff, arr_truthy, arr_truthy]
    exact ⟨ne_nil_congr hpq, ne_nil_congr fun z => (hpq z).symm⟩
  unfold op2func at h ⊢
  split at h
  · next hn =>
    rw [if_pos hn]
    unfold combineAdd at h ⊢
    cases h1 : setOrSingleton x with
    | error e => rw [h1] at h; cases h
    | ok a =>
      cases h2 : setOrSingleton y with
      | error e => rw [h1, h2] at h; cases h
      | ok b =>
        rw [h1, h2] at h
        cases h
        refine ⟨_, rfl, arr _ _ fun z => ?_⟩
        rw [E.mem_enum, E.mem_enum, List.mem_append, List.mem_append]
        exact or_comm
  · next hn =>
    rw [if_neg hn]
    unfold combineInter at h ⊢
    cases h1 : pySet x with
    | error e => rw [h1] at h; cases h
    | ok a =>
      cases h2 : pySet y with
      | error e => rw [h1, h2] at h; cases h
      | ok b =>
        rw [h1, h2] at h
        cases h
        refine ⟨_, rfl, arr _ _ fun z => ?_⟩
        rw [E.mem_enum, E.mem_enum, mem_inter, mem_inter]
        exact and_comm

theorem doSet_comm {n : String} {b c : ClaimPolicy} {v : Val} (h : doSubOneSuperAdd E b c n = .ok v) : ∃ w, doSubOneSuperAdd E c b n = .ok w ∧ v.SetEq w := by
  unfold doSubOneSuperAdd at h ⊢
  cases hb : b.get? n with
  | none =>
    cases hc : c.get? n with
    | none => rw [hb, hc] at h; exact ⟨v, h, Val.SetEq.refl _⟩
    | some y => rw [hb, hc] at h; exact ⟨v, h, Val.SetEq.refl _⟩
  | some x =>
    cases hc : c.get? n with
    | none => rw [hb, hc] at h; exact ⟨v, h, Val.SetEq.refl _⟩
    | some y =>
      rw [hb, hc] at h
      simp only at h ⊢
      cases h1 : op2func E n x y with
      | error e => rw [h1] at h; cases h
      | ok z =>
        rw [h1] at h
        simp only [ok_bind] at h
        obtain ⟨w, h2, h3, h4⟩ := op2func_comm h1
        rw [h2]
        simp only [ok_bind]
        split at h
        · next ht => cases h; rw [if_pos (h4 ▸ ht)]; exact ⟨w, rfl, h3⟩
        · cases h

theorem unfixed_comm {b c r : ClaimPolicy} (hu : Unfixed b c) (h : combineClaimPolicy E K b c = .ok r) : ∃ r', combineClaimPolicy E K c b = .ok r' ∧ CPEq r r' := by
  obtain ⟨u1, u2, u3⟩ := hu
  unfold combineClaimPolicy at h ⊢
  rw [u1] at h
  rw [u2]
  simp only at h ⊢
  obtain ⟨-, h2, h3, h4, h5⟩ := combineFree_ok h
  rw [← combPolicy_comm b c] at h2 h3 h4 h5
  refine combineFree_of ?_ h2 h3 ?_ h5
  · unfold essentialClash
    cases hc : c.get? "essential" with
    | none => rfl
    | some y =>
      cases hb : b.get? "essential" with
      | none => rfl
      | some x => simp [u3 x y hb hc]
  · intro n hn
    obtain ⟨v, g1, g2⟩ := h4 n hn
    have hf := (mem_combPolicy.1 hn).1
    by_cases hs : n ∈ setOps
    · rw [doPolicy_setOp hs] at g1
      obtain ⟨w, g3, g4⟩ := doSet_comm g1
      exact ⟨w, v, by rw [doPolicy_setOp hs]; exact g3, g2, fun _ => g4, fun h => absurd hs h⟩
    · refine ⟨v, v, ?_, g2, fun h => absurd h hs, fun _ => rfl⟩
      have hcases : n = "value" ∨ n = "default" ∨ n = "essential" := by
        simp only [policyFunctions, setOps, List.mem_cons, List.not_mem_nil, or_false] at hf hs
        rcases hf with h | h | h | h | h | h | h <;> simp_all
      rcases hcases with rfl | rfl | rfl
      · have hv := (mem_combPolicy.1 hn).2
        rw [u1, u2] at hv
        rcases hv with hv | hv <;> cases hv
      · have e : ∀ p q, doPolicy E p q "default" = doDefault p q "default" := fun p q => by
          unfold doPolicy; rw [if_neg (by decide), if_neg (by decide), if_pos rfl]
        rw [e] at g1 ⊢
        unfold doDefault at g1 ⊢
        cases hb : b.get? "default" with
        | none =>
          cases hc : c.get? "default" with
          | none => rw [hb, hc] at g1; exact g1
          | some y => rw [hb, hc] at g1; exact g1
        | some x =>
          cases hc : c.get? "default" with
          | none => rw [hb, hc] at g1; exact g1
          | some y =>
            rw [hb, hc] at g1
            simp only at g1 ⊢
            split at g1
            · next exy => subst exy; rw [if_pos rfl]; exact g1
            · cases g1
      · have e : ∀ p q, doPolicy E p q "essential" = doEssential p q "essential" := fun p q => by
          unfold doPolicy; rw [if_neg (by decide), if_neg (by decide), if_neg (by decide), if_pos rfl]
        rw [e] at g1 ⊢
        unfold doEssential at g1 ⊢
        cases hb : b.get? "essential" with
        | none =>
          cases hc : c.get? "essential" with
          | none => rw [hb, hc] at g1; exact g1
          | some y => rw [hb, hc] at g1; exact g1
        | some x =>
          cases hc : c.get? "essential" with
          | none => rw [hb, hc] at g1; exact g1
          | some y =>
            rw [hb, hc] at g1
            cases u3 x y hb hc
            exact g1
end

/-! ### Rules -/

section
variable {E : SetEnum Val} {K : SetEnum String}

theorem combine_empty_right (R : Rule) : combine E K R ⟨[], []⟩ = .ok R := by
  have h : combineMetadata R.metadata [] = .ok R.metadata := rfl
  unfold combine
  simp only [h, ok_bind, List.isEmpty_nil, if_true, ite_self]
  rfl

/-- A statement without overlap takes part in the combination with what it says. -/
theorem gatherRest_step {t : String} {x : PStatement} (hx : NoOverlap t x) (l : List PStatement) (R : Rule) :
    gatherRest E K t (x :: l) R = combine E K R (x.rule t) >>= gatherRest E K t l := by
  simp only [gatherRest]
  split
  · next h => rw [h, combine_empty_right]; rfl
  · rw [if_neg (by rw [hx.rule]; decide)]

/-- Rules combine when what they say about every claim combines. -/
theorem combine_of {s c : Rule} (h1 : ∀ k x y, s.metadata.get? k = some x → c.metadata.get? k = some y → x = y)
    (h2 : ∀ k a b, s.policy.get? k = some a → c.policy.get? k = some b → ∃ p, combineClaimPolicy E K a b = .ok p) : ∃ r, combine E K s c = .ok r := by
  cases hr : combine E K s c with
  | ok r => exact ⟨r, rfl⟩
  | error e =>
    rcases combine_error hr with ⟨k, x, y, hx, hy, hne⟩ | ⟨k, a, b, ha, hb, he⟩
    · exact absurd (h1 k x y hx hy) hne
    · obtain ⟨p, hp⟩ := h2 k a b ha hb
      rw [he] at hp; cases hp

/-- What two rules, one below the other, say about a claim can be put into one. -/
def Grouped (R S U : Rule) : Prop :=
  ∀ k a b c, R.policy.get? k = some a → S.policy.get? k = some b → U.policy.get? k = some c → ∃ n, Uses n a ∧ Uses n b ∧ Uses n c

theorem md_assoc {r s u rs rsu m rm : Option Val} (h1 : rs = s.or r) (h2 : rsu = u.or rs) (h3 : m = u.or s) (h4 : rm = m.or r) : rsu = rm := by
  subst h1; subst h2; subst h3; subst h4
  cases u <;> rfl

theorem combine_assoc {R S U M : Rule} (hm : combine E K S U = .ok M) (hg : Grouped R S U) :
    SameRule (combine E K R S >>= fun T => combine E K T U) (combine E K R M) := by
  obtain ⟨m1, m2, m3⟩ := combine_ok hm
  have fwd : ∀ T V, combine E K R S = .ok T → combine E K T U = .ok V → ∃ W, combine E K R M = .ok W ∧ RuleEq V W := by
    intro T V hT hV
    obtain ⟨t1, t2, t3⟩ := combine_ok hT
    obtain ⟨v1, v2, v3⟩ := combine_ok hV
    have ex : ∃ W, combine E K R M = .ok W := by
      refine combine_of ?_ ?_
      · intro k x y hx hy
        rw [m1 k] at hy
        cases hu : U.metadata.get? k with
        | none => rw [hu] at hy; exact t2 k x y hx hy
        | some z =>
          rw [hu] at hy
          cases hy
          cases hs : S.metadata.get? k with
          | none => exact v2 k x y (by rw [t1 k, hs, hx]; rfl) hu
          | some w => exact (t2 k x w hx hs).trans (m2 k w y hs hu)
      · intro k a b ha hb
        have hk := m3 k
        have tk := t3 k
        have vk := v3 k
        rw [ha] at tk
        cases hs : S.policy.get? k with
        | none =>
          rw [hs] at hk tk
          rw [show U.policy.get? k = some b from (Eq.symm hk).trans hb, show T.policy.get? k = some a from tk] at vk
          obtain ⟨p, hp, -⟩ := vk
          exact ⟨p, hp⟩
        | some b' =>
          rw [hs] at hk tk
          obtain ⟨ab, hab, hT'⟩ := tk
          cases hu : U.policy.get? k with
          | none =>
            rw [hu, hb] at hk
            cases hk
            exact ⟨ab, hab⟩
          | some c =>
            rw [hu, hb] at hk
            rw [hu, hT'] at vk
            obtain ⟨p, hp, e⟩ := hk
            cases e
            obtain ⟨abc, habc, -⟩ := vk
            obtain ⟨n, ua, ub, uc⟩ := hg k a b' c ha hs hu
            obtain ⟨r, hr, -⟩ := (uses_assoc ua ub uc hp).1 ab abc hab habc
            exact ⟨r, hr⟩
    obtain ⟨W, hW⟩ := ex
    obtain ⟨w1, w2, w3⟩ := combine_ok hW
    refine ⟨W, hW, ⟨fun k => md_assoc (t1 k) (v1 k) (m1 k) (w1 k), fun k => ?_⟩⟩
    have hk := m3 k
    have tk := t3 k
    have vk := v3 k
    have wk := w3 k
    cases hr : R.policy.get? k with
    | none =>
      rw [hr] at tk wk
      rw [show T.policy.get? k = S.policy.get? k from tk] at vk
      rw [show W.policy.get? k = M.policy.get? k from wk, combinedClaim_fun vk hk]
      exact OptCPEq.refl _
    | some a =>
      cases hs : S.policy.get? k with
      | none =>
        rw [hr, hs] at tk
        rw [hs] at hk
        rw [show T.policy.get? k = some a from tk] at vk
        rw [hr, show M.policy.get? k = U.policy.get? k from hk] at wk
        rw [combinedClaim_fun vk wk]
        exact OptCPEq.refl _
      | some b =>
        cases hu : U.policy.get? k with
        | none =>
          rw [hs, hu] at hk
          rw [show M.policy.get? k = S.policy.get? k from (show M.policy.get? k = some b from hk).trans hs.symm] at wk
          rw [hu] at vk
          have e := combinedClaim_fun tk wk
          rw [← e]
          cases hT' : T.policy.get? k with
          | none => rw [hT'] at vk; rw [show V.policy.get? k = none from vk]; exact OptCPEq.refl _
          | some p => rw [hT'] at vk; rw [show V.policy.get? k = some p from vk]; exact OptCPEq.refl _
        | some c =>
          rw [hs, hu] at hk
          rw [hr, hs] at tk
          obtain ⟨ab, hab, hT'⟩ := tk
          rw [hT', hu] at vk
          obtain ⟨p, hp, eM⟩ := hk
          rw [hr, eM] at wk
          obtain ⟨abc, habc, eV⟩ := vk
          obtain ⟨w, hw, eW⟩ := wk
          obtain ⟨n, ua, ub, uc⟩ := hg k a b c hr hs hu
          obtain ⟨r, h1, h2⟩ := (uses_assoc ua ub uc hp).1 ab abc hab habc
          rw [hw] at h1
          cases h1
          rw [eV, eW]
          exact h2
  cases hW : combine E K R M with
  | ok W =>
    obtain ⟨w1, w2, w3⟩ := combine_ok hW
    have exT : ∃ T, combine E K R S = .ok T := by
      refine combine_of ?_ ?_
      · intro k x y hx hy
        refine w2 k x y hx ?_
        rw [m1 k]
        cases hu : U.metadata.get? k with
        | none => exact hy
        | some z => rw [m2 k y z hy hu]; rfl
      · intro k a b ha hb
        have hk := m3 k
        have wk := w3 k
        rw [hb] at hk
        rw [ha] at wk
        cases hu : U.policy.get? k with
        | none =>
          rw [hu] at hk
          rw [show M.policy.get? k = some b from hk] at wk
          obtain ⟨p, hp, -⟩ := wk
          exact ⟨p, hp⟩
        | some c =>
          rw [hu] at hk
          obtain ⟨p, hp, eM⟩ := hk
          rw [eM] at wk
          obtain ⟨w, hw, -⟩ := wk
          obtain ⟨n, ua, ub, uc⟩ := hg k a b c ha hb hu
          obtain ⟨ab, abc, h1, -⟩ := (uses_assoc ua ub uc hp).2 w hw
          exact ⟨ab, h1⟩
    obtain ⟨T, hT⟩ := exT
    obtain ⟨t1, t2, t3⟩ := combine_ok hT
    have exV : ∃ V, combine E K T U = .ok V := by
      refine combine_of ?_ ?_
      · intro k x y hx hy
        rw [t1 k] at hx
        cases hs : S.metadata.get? k with
        | none =>
          rw [hs] at hx
          exact w2 k x y hx (by rw [m1 k, hy]; rfl)
        | some z =>
          rw [hs] at hx
          cases hx
          exact m2 k x y hs hy
      · intro k a c ha hc
        have hk := m3 k
        have wk := w3 k
        have tk := t3 k
        rw [hc] at hk
        cases hr : R.policy.get? k with
        | none =>
          rw [hr] at tk
          rw [show S.policy.get? k = some a from (Eq.symm tk).trans ha] at hk
          obtain ⟨p, hp, -⟩ := hk
          exact ⟨p, hp⟩
        | some r =>
          cases hs : S.policy.get? k with
          | none =>
            rw [hr, hs] at tk
            rw [hs] at hk
            rw [hr, show M.policy.get? k = some c from hk] at wk
            rw [ha] at tk
            cases tk
            obtain ⟨p, hp, -⟩ := wk
            exact ⟨p, hp⟩
          | some b =>
            rw [hr, hs, ha] at tk
            rw [hs] at hk
            obtain ⟨p, hp, eM⟩ := hk
            rw [hr, eM] at wk
            obtain ⟨w, hw, -⟩ := wk
            obtain ⟨q, hq, e⟩ := tk
            cases e
            obtain ⟨n, ua, ub, uc⟩ := hg k r b c hr hs hc
            obtain ⟨ab, abc, h1, h2⟩ := (uses_assoc ua ub uc hp).2 w hw
            rw [hq] at h1
            cases h1
            exact ⟨abc, h2⟩
    obtain ⟨V, hV⟩ := exV
    obtain ⟨W', h1, h2⟩ := fwd T V hT hV
    rw [hW] at h1
    cases h1
    rw [hT]
    simp only [ok_bind]
    rw [hV]
    exact h2
  | error e =>
    cases hT : combine E K R S with
    | error e' => trivial
    | ok T =>
      simp only [ok_bind]
      cases hV : combine E K T U with
      | error e' => trivial
      | ok V =>
        obtain ⟨W, h1, -⟩ := fwd T V hT hV
        rw [hW] at h1
        cases h1

/-- Wherever two rules speak about the same claim they do it with the same operator, and so does what is above them; or what is above says nothing about the claim and the two do not fix its value. -/
def AlikeRules (R S U : Rule) : Prop :=
  ∀ k b c, S.policy.get? k = some b → U.policy.get? k = some c →
    (∃ n, Uses n b ∧ Uses n c ∧ ∀ a, R.policy.get? k = some a → Uses n a) ∨ (R.policy.get? k = none ∧ Unfixed b c)

theorem AlikeRules.swap {R S U : Rule} (h : AlikeRules R S U) : AlikeRules R U S := by
  intro k b c hb hc
  rcases h k c b hc hb with ⟨n, h1, h2, h3⟩ | ⟨h1, h2⟩
  · exact Or.inl ⟨n, h2, h1, h3⟩
  · exact Or.inr ⟨h1, h2.symm⟩

theorem AlikeRules.same {R S U : Rule} (h : AlikeRules R S U) {k : String} {a b c : ClaimPolicy} (ha : R.policy.get? k = some a) (hb : S.policy.get? k = some b) (hc : U.policy.get? k = some c) :
    ∃ n, Uses n b ∧ Uses n c ∧ Uses n a := by
  rcases h k b c hb hc with ⟨n, h1, h2, h3⟩ | ⟨h1, -⟩
  · exact ⟨n, h1, h2, h3 a ha⟩
  · rw [ha] at h1; cases h1

theorem AlikeRules.comm {R S U : Rule} (h : AlikeRules R S U) {k : String} {b c q : ClaimPolicy} (hb : S.policy.get? k = some b) (hc : U.policy.get? k = some c)
    (hq : combineClaimPolicy E K b c = .ok q) : ∃ q', combineClaimPolicy E K c b = .ok q' ∧ CPEq q q' := by
  rcases h k b c hb hc with ⟨n, h1, h2, -⟩ | ⟨-, h2⟩
  · exact uses_comm h1 h2 hq
  · exact unfixed_comm h2 hq

theorem combine_swap_ok {R S U T V : Rule} (ha : AlikeRules R S U) (hT : combine E K R S = .ok T) (hV : combine E K T U = .ok V) :
    ∃ T' V', combine E K R U = .ok T' ∧ combine E K T' S = .ok V' ∧ RuleEq V V' := by
  obtain ⟨t1, t2, t3⟩ := combine_ok hT
  obtain ⟨v1, v2, v3⟩ := combine_ok hV
  have su : ∀ k y z, S.metadata.get? k = some y → U.metadata.get? k = some z → y = z := by
    intro k y z hy hz
    exact v2 k y z (by rw [t1 k, hy]; rfl) hz
  have exT : ∃ T', combine E K R U = .ok T' := by
    refine combine_of ?_ ?_
    · intro k x z hx hz
      cases hs : S.metadata.get? k with
      | none => exact v2 k x z (by rw [t1 k, hs, hx]; rfl) hz
      | some y => exact (t2 k x y hx hs).trans (su k y z hs hz)
    · intro k a c hr hc
      have tk := t3 k
      have vk := v3 k
      cases hs : S.policy.get? k with
      | none =>
        rw [hr, hs] at tk
        rw [hc, show T.policy.get? k = some a from tk] at vk
        obtain ⟨p, hp, -⟩ := vk
        exact ⟨p, hp⟩
      | some b =>
        rw [hr, hs] at tk
        obtain ⟨ab, hab, eT⟩ := tk
        rw [eT, hc] at vk
        obtain ⟨abc, habc, -⟩ := vk
        obtain ⟨n, ub, uc, ua⟩ := ha.same hr hs hc
        obtain ⟨ac, acb, h1, -⟩ := uses_swap ua ub uc hab habc
        exact ⟨ac, h1⟩
  obtain ⟨T', hT'⟩ := exT
  obtain ⟨t1', t2', t3'⟩ := combine_ok hT'
  have exV : ∃ V', combine E K T' S = .ok V' := by
    refine combine_of ?_ ?_
    · intro k x y hx hy
      rw [t1' k] at hx
      cases hu : U.metadata.get? k with
      | none => rw [hu] at hx; exact t2 k x y hx hy
      | some z =>
        rw [hu] at hx
        cases hx
        exact (su k y x hy hu).symm
    · intro k p b hp hb
      have tk := t3 k
      have tk' := t3' k
      have vk := v3 k
      cases hu : U.policy.get? k with
      | none =>
        cases hr : R.policy.get? k with
        | none => rw [hr, hu, hp] at tk'; cases tk'
        | some a =>
          rw [hr, hu, hp] at tk'
          cases tk'
          rw [hr, hb] at tk
          obtain ⟨q, hq, -⟩ := tk
          exact ⟨q, hq⟩
      | some c =>
        cases hr : R.policy.get? k with
        | none =>
          rw [hr, hu, hp] at tk'
          cases tk'
          rw [hr, hb] at tk
          rw [show T.policy.get? k = some b from tk, hu] at vk
          obtain ⟨q, hq, -⟩ := vk
          obtain ⟨q', h1, -⟩ := ha.comm hb hu hq
          exact ⟨q', h1⟩
        | some a =>
          rw [hr, hb] at tk
          obtain ⟨ab, hab, eT⟩ := tk
          rw [eT, hu] at vk
          obtain ⟨abc, habc, -⟩ := vk
          obtain ⟨n, ub, uc, ua⟩ := ha.same hr hb hu
          obtain ⟨ac, acb, h1, h2, -⟩ := uses_swap ua ub uc hab habc
          rw [hr, hu, hp] at tk'
          obtain ⟨q, hq, e⟩ := tk'
          cases e
          rw [h1] at hq
          cases hq
          exact ⟨acb, h2⟩
  obtain ⟨V', hV'⟩ := exV
  obtain ⟨v1', v2', v3'⟩ := combine_ok hV'
  refine ⟨T', V', hT', hV', ⟨fun k => ?_, fun k => ?_⟩⟩
  · rw [v1 k, t1 k, v1' k, t1' k]
    cases hs : S.metadata.get? k with
    | none => cases U.metadata.get? k <;> rfl
    | some y =>
      cases hu : U.metadata.get? k with
      | none => rfl
      | some z => rw [su k y z hs hu]
  · have tk := t3 k
    have tk' := t3' k
    have vk := v3 k
    have vk' := v3' k
    cases hs : S.policy.get? k with
    | none =>
      have e : T.policy.get? k = R.policy.get? k := by
        rw [hs] at tk
        cases hr : R.policy.get? k with
        | none => rw [hr] at tk; exact tk
        | some a => rw [hr] at tk; exact tk
      have e' : V'.policy.get? k = T'.policy.get? k := by
        rw [hs] at vk'
        cases hr : T'.policy.get? k with
        | none => rw [hr] at vk'; exact vk'
        | some a => rw [hr] at vk'; exact vk'
      rw [e] at vk
      rw [e', combinedClaim_fun vk tk']
      exact OptCPEq.refl _
    | some b =>
      cases hu : U.policy.get? k with
      | none =>
        have e : T'.policy.get? k = R.policy.get? k := by
          rw [hu] at tk'
          cases hr : R.policy.get? k with
          | none => rw [hr] at tk'; exact tk'
          | some a => rw [hr] at tk'; exact tk'
        have e' : V.policy.get? k = T.policy.get? k := by
          rw [hu] at vk
          cases hr : T.policy.get? k with
          | none => rw [hr] at vk; exact vk
          | some a => rw [hr] at vk; exact vk
        rw [e] at vk'
        rw [e', combinedClaim_fun tk vk']
        exact OptCPEq.refl _
      | some c =>
        cases hr : R.policy.get? k with
        | none =>
          rw [hr, hs] at tk
          rw [hr, hu] at tk'
          rw [show T.policy.get? k = some b from tk, hu] at vk
          rw [show T'.policy.get? k = some c from tk', hs] at vk'
          obtain ⟨q, hq, eV⟩ := vk
          obtain ⟨q', hq', eV'⟩ := vk'
          obtain ⟨q'', h1, h2⟩ := ha.comm hs hu hq
          rw [hq'] at h1
          cases h1
          rw [eV, eV']
          exact h2
        | some a =>
          rw [hr, hs] at tk
          rw [hr, hu] at tk'
          obtain ⟨ab, hab, eT⟩ := tk
          obtain ⟨ac, hac, eT'⟩ := tk'
          rw [eT, hu] at vk
          rw [eT', hs] at vk'
          obtain ⟨abc, habc, eV⟩ := vk
          obtain ⟨acb, hacb, eV'⟩ := vk'
          obtain ⟨n, ub, uc, ua⟩ := ha.same hr hs hu
          obtain ⟨x, y, h1, h2, h3⟩ := uses_swap ua ub uc hab habc
          rw [hac] at h1
          cases h1
          rw [hacb] at h2
          cases h2
          rw [eV, eV']
          exact h3

theorem combine_swap {R S U : Rule} (ha : AlikeRules R S U) :
    SameRule (combine E K R S >>= fun T => combine E K T U) (combine E K R U >>= fun T => combine E K T S) := by
  cases h1 : (combine E K R S >>= fun T => combine E K T U) with
  | ok V =>
    cases hT : combine E K R S with
    | error e => rw [hT] at h1; cases h1
    | ok T =>
      rw [hT] at h1
      simp only [ok_bind] at h1
      obtain ⟨T', V', h2, h3, h4⟩ := combine_swap_ok ha hT h1
      rw [h2]
      simp only [ok_bind]
      rw [h3]
      exact h4
  | error e =>
    cases h2 : (combine E K R U >>= fun T => combine E K T S) with
    | error e' => trivial
    | ok V =>
      exfalso
      cases hT : combine E K R U with
      | error e => rw [hT] at h2; cases h2
      | ok T =>
        rw [hT] at h2
        simp only [ok_bind] at h2
        obtain ⟨T', V', h3, h4, -⟩ := combine_swap_ok ha.swap hT h2
        rw [h3] at h1
        simp only [ok_bind] at h1
        rw [h4] at h1
        cases h1

/-! ### Chains -/

/-- What a claim's policies in a chain are combined to has what every one of them has, if combining keeps it. -/
theorem gathered_keeps {t k : String} {Q : ClaimPolicy → Prop} (hQ : ∀ a b r, Q a → Q b → combineClaimPolicy E K a b = .ok r → Q r) {l : List PStatement} {R R' : Rule}
    (hl : ∀ e ∈ l, ∀ a, (e.rule t).policy.get? k = some a → Q a) (hR : ∀ a, R.policy.get? k = some a → Q a) (h : gatherRest E K t l R = .ok R') : ∀ a, R'.policy.get? k = some a → Q a := by
  induction l generalizing R with
  | nil => cases h; exact hR
  | cons e l ih =>
    obtain ⟨r1, h1, h2⟩ := gatherRest_cons h
    refine ih (fun e he => hl e (List.mem_cons_of_mem _ he)) ?_ h1
    rcases h2 with ⟨-, rfl⟩ | ⟨-, -, h2⟩
    · exact hR
    · obtain ⟨-, -, c3⟩ := combine_ok h2
      intro a ha
      have ck := c3 k
      cases hr : R.policy.get? k with
      | none => rw [hr, ha] at ck; exact hl e (List.mem_cons_self ..) a (Eq.symm ck)
      | some x =>
        rw [hr, ha] at ck
        cases hs : (e.rule t).policy.get? k with
        | none => rw [hs] at ck; cases ck; exact hR a hr
        | some y =>
          rw [hs] at ck
          obtain ⟨p, hp, e'⟩ := ck
          cases e'
          exact hQ x y a (hR x hr) (hl e (List.mem_cons_self ..) y hs) hp
end

theorem OptSetEq.trans' {a b c : Option Val} (h : OptSetEq a b) (h' : OptSetEq b c) : OptSetEq a c := by
  cases a <;> cases b <;> cases c <;> first | trivial | cases h | cases h' | exact Val.SetEq.trans h h'

theorem CPEq.trans {a b c : ClaimPolicy} (h : CPEq a b) (h' : CPEq b c) : CPEq a c :=
  ⟨fun n hn => OptSetEq.trans' (h.sets n hn) (h'.sets n hn), fun n hn => (h.others n hn).trans (h'.others n hn)⟩

theorem OptCPEq.trans {a b c : Option ClaimPolicy} (h : OptCPEq a b) (h' : OptCPEq b c) : OptCPEq a c := by
  cases a <;> cases b <;> cases c <;> first | trivial | exact CPEq.trans h h' | exact False.elim h | exact False.elim h'

theorem RuleEq.trans {a b c : Rule} (h : RuleEq a b) (h' : RuleEq b c) : RuleEq a c :=
  ⟨fun k => (h.metadata k).trans (h'.metadata k), fun k => (h.policy k).trans (h'.policy k)⟩

section
variable {E : SetEnum Val} {K : SetEnum String}

theorem combine_comm_ok {S U V : Rule} (ha : AlikeRules ⟨[], []⟩ S U) (h : combine E K S U = .ok V) : ∃ V', combine E K U S = .ok V' ∧ RuleEq V V' := by
  obtain ⟨S', s1, s2⟩ := empty_combined E K S
  obtain ⟨U', u1, u2⟩ := empty_combined E K U
  obtain ⟨V1, h1, e1⟩ := combine_congr E E K K s2 h
  obtain ⟨T, V2, h2, h3, e2⟩ := combine_swap_ok ha s1 h1
  rw [u1] at h2
  cases h2
  obtain ⟨V3, h4, e3⟩ := combine_congr E E K K u2.symm h3
  exact ⟨V3, h4, (e1.trans e2).trans e3⟩

theorem combine_comm' {S U : Rule} (ha : AlikeRules ⟨[], []⟩ S U) : SameRule (combine E K S U) (combine E K U S) := by
  cases h : combine E K S U with
  | ok V =>
    obtain ⟨V', h1, h2⟩ := combine_comm_ok ha h
    rw [h1]
    exact h2
  | error e =>
    cases h' : combine E K U S with
    | error e' => trivial
    | ok V =>
      obtain ⟨V', h1, h2⟩ := combine_comm_ok ha.swap h'
      rw [h] at h1
      cases h1

theorem sameRule_bind {t : String} {a b : Except PyErr Rule} (h : SameRule a b) (l : List PStatement) : SameRule (a >>= gatherRest E K t l) (b >>= gatherRest E K t l) := by
  cases a with
  | ok r =>
    cases b with
    | ok r' => exact sameRule_rest E K t l h
    | error e => cases h
  | error e =>
    cases b with
    | ok r' => cases h
    | error e => trivial

theorem two_steps {t : String} {s u : PStatement} (hs : NoOverlap t s) (hu : NoOverlap t u) (l : List PStatement) (R : Rule) :
    gatherRest E K t (s :: u :: l) R = (combine E K R (s.rule t) >>= fun T => combine E K T (u.rule t)) >>= gatherRest E K t l := by
  rw [gatherRest_step hs]
  cases combine E K R (s.rule t) with
  | error e => rfl
  | ok T => simp only [ok_bind]; exact gatherRest_step hu l T
end

/-! ### C234 and C235 -/

/-- The policy that a statement has for a claim of entities of a type. -/
def PStatement.about (es : PStatement) (t k : String) : Option ClaimPolicy := (es.policy.get? t).bind fun p => p.get? k

theorem about_rule (es : PStatement) (t k : String) : (es.rule t).policy.get? k = es.about t k := by
  unfold PStatement.rule PStatement.about
  cases es.policy.get? t <;> rfl

/-- C234 in full: two authorities, one below the other, can be replaced by one that says what the two together say. -/
def C234_full : Prop :=
  ∀ (E : SetEnum Val) (K : SetEnum String) (pre post : List PStatement) (s u m leaf : PStatement) (t : String), combine E K (s.rule t) (u.rule t) = .ok (m.rule t) →
    SameOutcome (policyFor E K (pre ++ s :: u :: post) leaf t) (policyFor E K (pre ++ m :: post) leaf t)

/-- C235 in full: the order of two authorities in a chain makes no difference. -/
def C235_full : Prop :=
  ∀ (E : SetEnum Val) (K : SetEnum String) (pre post : List PStatement) (s u leaf : PStatement) (t : String),
    SameOutcome (policyFor E K (pre ++ s :: u :: post) leaf t) (policyFor E K (pre ++ u :: s :: post) leaf t)

theorem NoOverlap.of_combine {E : SetEnum Val} {K : SetEnum String} {t : String} {s u m : PStatement} (h : combine E K (s.rule t) (u.rule t) = .ok (m.rule t)) (hm : NoOverlap t m) :
    NoOverlap t s ∧ NoOverlap t u := by
  obtain ⟨c1, -, c3⟩ := combine_ok h
  have key : ∀ x : PStatement, (∀ k, ((x.rule t).metadata.get? k).isSome → ((m.rule t).metadata.get? k).isSome) → (∀ k, ((x.rule t).policy.get? k).isSome → ((m.rule t).policy.get? k).isSome) → NoOverlap t x := by
    intro x h1 h2 xm xp hxm hxp k hk hk'
    have e1 : (x.rule t).metadata = xm := by unfold PStatement.rule; rw [hxm]; rfl
    have e2 : (x.rule t).policy = xp := by unfold PStatement.rule; rw [hxp]; rfl
    have i1 := h1 k (by rw [e1]; exact (Dict.mem_keys_iff _ _).1 hk')
    have i2 := h2 k (by rw [e2]; exact (Dict.mem_keys_iff _ _).1 hk)
    have no := hm.rule
    rw [List.any_eq_false] at no
    have := no k ((Dict.mem_keys_iff _ _).2 i2)
    rw [decide_eq_true_eq] at this
    exact this ((Dict.mem_keys_iff _ _).2 i1)
  constructor
  · refine key s (fun k hk => ?_) fun k hk => ?_
    · rw [c1 k]
      cases (u.rule t).metadata.get? k with
      | none => exact hk
      | some x => rfl
    · have ck := c3 k
      cases hs : (s.rule t).policy.get? k with
      | none => rw [hs] at hk; cases hk
      | some b =>
        rw [hs] at ck
        cases hu : (u.rule t).policy.get? k with
        | none => rw [hu] at ck; rw [show (m.rule t).policy.get? k = some b from ck]; rfl
        | some c => rw [hu] at ck; obtain ⟨p, -, e⟩ := ck; rw [e]; rfl
  · refine key u (fun k hk => ?_) fun k hk => ?_
    · rw [c1 k]
      cases hu : (u.rule t).metadata.get? k with
      | none => rw [hu] at hk; cases hk
      | some x => rfl
    · have ck := c3 k
      cases hu : (u.rule t).policy.get? k with
      | none => rw [hu] at hk; cases hk
      | some c =>
        rw [hu] at ck
        cases hs : (s.rule t).policy.get? k with
        | none => rw [hs] at ck; rw [show (m.rule t).policy.get? k = some c from ck]; rfl
        | some b => rw [hs] at ck; obtain ⟨p, -, e⟩ := ck; rw [e]; rfl

/-- C234, as far as it holds: when no claim is both given a value and constrained by what the two say together, and when for every claim that both have a policy for nobody above them has one, or all these policies use the same operator and no other. -/
theorem C234_merged_partial (E : SetEnum Val) (K : SetEnum String) (pre post : List PStatement) (s u m leaf : PStatement) (t : String) (hm : combine E K (s.rule t) (u.rule t) = .ok (m.rule t))
    (ho : NoOverlap t m)
    (hk : ∀ k b c, s.about t k = some b → u.about t k = some c →
      (∀ e ∈ pre, e.about t k = none) ∨ ∃ n, Uses n b ∧ Uses n c ∧ ∀ e ∈ pre, ∀ a, e.about t k = some a → Uses n a) :
    SameOutcome (policyFor E K (pre ++ s :: u :: post) leaf t) (policyFor E K (pre ++ m :: post) leaf t) := by
  obtain ⟨hs, hu⟩ := ho.of_combine hm
  apply sameOutcome_of
  cases pre with
  | nil =>
    simp only [List.nil_append, gatherPolicies]
    rw [gatherRest_step hu, hm]
    exact SameRule.refl _
  | cons e0 pre =>
    simp only [List.cons_append, gatherPolicies, gatherRest_append]
    cases hR : gatherRest E K t pre (e0.rule t) with
    | error e => trivial
    | ok R =>
      simp only [ok_bind]
      rw [two_steps hs hu, gatherRest_step ho]
      refine sameRule_bind (combine_assoc hm ?_) post
      intro k a b c ha hb hc
      rw [about_rule] at hb hc
      rcases hk k b c hb hc with h | ⟨n, h1, h2, h3⟩
      · have none : ∀ e ∈ e0 :: pre, ∀ a, (e.rule t).policy.get? k = some a → False := by
          intro e he a h'
          rw [about_rule, h e he] at h'
          cases h'
        exact (gathered_keeps (Q := fun _ => False) (fun _ _ _ h _ _ => h) (fun e he => none e (List.mem_cons_of_mem _ he)) (none e0 (List.mem_cons_self ..)) hR a ha).elim
      · have all : ∀ e ∈ e0 :: pre, ∀ a, (e.rule t).policy.get? k = some a → Uses n a := by
          intro e he a h'
          rw [about_rule] at h'
          exact h3 e he a h'
        exact ⟨n, gathered_keeps (Q := Uses n) (fun _ _ _ h h' h'' => h.combined h' h'') (fun e he => all e (List.mem_cons_of_mem _ he)) (all e0 (List.mem_cons_self ..)) hR a ha, h1, h2⟩

/-- C235, as far as it holds: when neither of the two both gives a value to a claim and constrains it, and when for every claim that both have a policy for these policies, and those above them, use the same operator and no other, or nobody above them has one and the two neither fix the value
nor disagree about whether the claim is essential. -/
theorem C235_swapped_partial (E : SetEnum Val) (K : SetEnum String) (pre post : List PStatement) (s u leaf : PStatement) (t : String) (hs : NoOverlap t s) (hu : NoOverlap t u)
    (hk : ∀ k b c, s.about t k = some b → u.about t k = some c →
      (∃ n, Uses n b ∧ Uses n c ∧ ∀ e ∈ pre, ∀ a, e.about t k = some a → Uses n a) ∨ ((∀ e ∈ pre, e.about t k = none) ∧ Unfixed b c)) :
    SameOutcome (policyFor E K (pre ++ s :: u :: post) leaf t) (policyFor E K (pre ++ u :: s :: post) leaf t) := by
  apply sameOutcome_of
  cases pre with
  | nil =>
    simp only [List.nil_append, gatherPolicies]
    rw [gatherRest_step hu, gatherRest_step hs]
    refine sameRule_bind (combine_comm' ?_) post
    intro k b c hb hc
    rw [about_rule] at hb hc
    rcases hk k b c hb hc with ⟨n, h1, h2, -⟩ | ⟨-, h2⟩
    · exact Or.inl ⟨n, h1, h2, fun a ha => by cases ha⟩
    · exact Or.inr ⟨rfl, h2⟩
  | cons e0 pre =>
    simp only [List.cons_append, gatherPolicies, gatherRest_append]
    cases hR : gatherRest E K t pre (e0.rule t) with
    | error e => trivial
    | ok R =>
      simp only [ok_bind]
      rw [two_steps hs hu, two_steps hu hs]
      refine sameRule_bind (combine_swap ?_) post
      intro k b c hb hc
      rw [about_rule] at hb hc
      rcases hk k b c hb hc with ⟨n, h1, h2, h3⟩ | ⟨h1, h2⟩
      · have all : ∀ e ∈ e0 :: pre, ∀ a, (e.rule t).policy.get? k = some a → Uses n a := by
          intro e he a h'
          rw [about_rule] at h'
          exact h3 e he a h'
        exact Or.inl ⟨n, h1, h2, fun a ha => gathered_keeps (Q := Uses n) (fun _ _ _ h h' h'' => h.combined h' h'') (fun e he => all e (List.mem_cons_of_mem _ he)) (all e0 (List.mem_cons_self ..)) hR a ha⟩
      · have none : ∀ e ∈ e0 :: pre, ∀ a, (e.rule t).policy.get? k = some a → False := by
          intro e he a h'
          rw [about_rule, h1 e he] at h'
          cases h'
        refine Or.inr ⟨?_, h2⟩
        cases hr : R.policy.get? k with
        | none => rfl
        | some a =>
          exact (gathered_keeps (Q := fun _ => False) (fun _ _ _ h _ _ => h) (fun e he => none e (List.mem_cons_of_mem _ he)) (none e0 (List.mem_cons_self ..)) hR a hr).elim

namespace Ex234
/-- An authority below `Ex.im`, about the same claims with the same operators. -/
def low : PStatement := ⟨[("op", [("unit", Ex.s "U")])], [("op", [("scopes", [("subset_of", Ex.strs ["b", "d"])]), ("alg", [("one_of", Ex.strs ["y", "z"])])])]⟩
/-- What `Ex.im` and `low` say together. -/
def one : PStatement := ⟨[("op", [("city", Ex.s "B"), ("unit", Ex.s "U")])], [("op", [("scopes", [("subset_of", Ex.strs ["b", "d"])]), ("alg", [("one_of", Ex.strs ["y"])])])]⟩

theorem together : combine Ex.E Ex.K (Ex.im.rule "op") (low.rule "op") = .ok (one.rule "op") := by decide +kernel

theorem set_uses {n : String} {xs : List Val} (hn : n ∈ setOps) (h : xs ≠ []) (hh : ∀ x ∈ xs, x.hashable = true) : Uses n [(n, .arr xs)] := by
  refine Or.inl ⟨hn, xs, ⟨xs, by simp [Dict.get?], fun _ => Iff.rfl⟩, fun m hm => ?_, h, hh⟩
  simp [Dict.get?, Ne.symm hm]

theorem strs_uses {n : String} {xs : List String} (hn : n ∈ setOps) (h : xs ≠ []) : Uses n [(n, Ex.strs xs)] := by
  refine set_uses hn (by simp [h]) ?_
  intro x hx
  obtain ⟨y, -, rfl⟩ := List.mem_map.1 hx
  rfl

theorem no_overlap (es : PStatement) (h : (es.rule "op").policy.keys.all (fun c => decide (c ∉ (es.rule "op").metadata.keys)) = true) : NoOverlap "op" es := by
  intro m p hm hp c hc hc'
  rw [List.all_eq_true] at h
  have := h c (by unfold PStatement.rule; rw [hp]; exact hc)
  rw [decide_eq_true_eq] at this
  exact this (by unfold PStatement.rule; rw [hm]; exact hc')

theorem about_two {es : PStatement} {k : String} {c p q : ClaimPolicy} (he : es.policy.get? "op" = some [("scopes", p), ("alg", q)]) (h : es.about "op" k = some c) : (k = "scopes" ∧ c = p) ∨ (k = "alg" ∧ c = q) := by
  unfold PStatement.about at h
  rw [he] at h
  simp only [Option.bind_some, Dict.get?_cons] at h
  split at h
  · next e => cases h; exact Or.inl ⟨e.symm, rfl⟩
  · split at h
    · next e => cases h; exact Or.inr ⟨e.symm, rfl⟩
    · cases h

theorem alike : ∀ k b c, Ex.im.about "op" k = some b → low.about "op" k = some c →
    ∃ n, Uses n b ∧ Uses n c ∧ ∀ e ∈ [Ex.ta], ∀ a, e.about "op" k = some a → Uses n a := by
  intro k b c hb hc
  have e1 := about_two (p := [("subset_of", Ex.strs ["b", "c", "d"])]) (q := [("one_of", Ex.strs ["x", "y"])]) (by decide +kernel) hb
  have e2 := about_two (p := [("subset_of", Ex.strs ["b", "d"])]) (q := [("one_of", Ex.strs ["y", "z"])]) (by decide +kernel) hc
  rcases e1 with ⟨rfl, rfl⟩ | ⟨rfl, rfl⟩
  · rcases e2 with ⟨-, rfl⟩ | ⟨e, -⟩
    · refine ⟨"subset_of", strs_uses (by decide) (by simp), strs_uses (by decide) (by simp), ?_⟩
      intro e he a ha
      rw [List.mem_singleton] at he
      subst he
      have : Ex.ta.about "op" "scopes" = some [("subset_of", Ex.strs ["a", "b", "c"])] := by decide +kernel
      rw [this] at ha
      cases ha
      exact strs_uses (by decide) (by simp)
    · exact absurd e (by decide)
  · rcases e2 with ⟨e, -⟩ | ⟨-, rfl⟩
    · exact absurd e (by decide)
    · refine ⟨"one_of", strs_uses (by decide) (by simp), strs_uses (by decide) (by simp), ?_⟩
      intro e he a ha
      rw [List.mem_singleton] at he
      subst he
      have : Ex.ta.about "op" "alg" = none := by decide +kernel
      rw [this] at ha
      cases ha

/-- Allows one scope. -/
def narrow : PStatement := ⟨[], [("op", [("scopes", [("subset_of", Ex.strs ["a"])])])]⟩
/-- Demands two scopes. -/
def demand2 : PStatement := ⟨[], [("op", [("scopes", [("superset_of", Ex.strs ["a", "b"])])])]⟩
/-- Demands one scope. -/
def demand1 : PStatement := ⟨[], [("op", [("scopes", [("superset_of", Ex.strs ["a"])])])]⟩
/-- Gives a value to a claim. -/
def gives : PStatement := ⟨[("op", [("alg", Ex.s "y")])], []⟩
/-- Constrains that claim. -/
def limits : PStatement := ⟨[], [("op", [("alg", [("one_of", Ex.strs ["y", "z"])])])]⟩
/-- Does both. -/
def does : PStatement := ⟨[("op", [("alg", Ex.s "y")])], [("op", [("alg", [("one_of", Ex.strs ["y", "z"])])])]⟩
/-- Fixes the value of that claim. -/
def fixes : PStatement := ⟨[], [("op", [("alg", [("value", Ex.s "y")])])]⟩
end Ex234

/-- Below an anchor with policies of its own, two authorities are replaced by one. -/
example : SameOutcome (policyFor Ex.E Ex.K ([Ex.ta] ++ Ex.im :: Ex234.low :: [Ex.im2]) Ex.lf "op") (policyFor Ex.E Ex.K ([Ex.ta] ++ Ex234.one :: [Ex.im2]) Ex.lf "op") :=
  C234_merged_partial Ex.E Ex.K [Ex.ta] [Ex.im2] Ex.im Ex234.low Ex234.one Ex.lf "op" Ex234.together (Ex234.no_overlap _ (by decide +kernel)) fun k b c hb hc => Or.inr (Ex234.alike k b c hb hc)

/-- Below the same anchor the two change places. -/
example : SameOutcome (policyFor Ex.E Ex.K ([Ex.ta] ++ Ex.im :: Ex234.low :: [Ex.im2]) Ex.lf "op") (policyFor Ex.E Ex.K ([Ex.ta] ++ Ex234.low :: Ex.im :: [Ex.im2]) Ex.lf "op") :=
  C235_swapped_partial Ex.E Ex.K [Ex.ta] [Ex.im2] Ex.im Ex234.low Ex.lf "op" (Ex234.no_overlap _ (by decide +kernel)) (Ex234.no_overlap _ (by decide +kernel)) fun k b c hb hc => Or.inl (Ex234.alike k b c hb hc)

/-- An authority that calls a claim essential and limits it changes places with one that only limits it. -/
example : SameOutcome (policyFor Ex.E Ex.K ([Ex.ta] ++ Ex.im :: Ex.im2 :: []) Ex.lf "op") (policyFor Ex.E Ex.K ([Ex.ta] ++ Ex.im2 :: Ex.im :: []) Ex.lf "op") :=
  C235_swapped_partial Ex.E Ex.K [Ex.ta] [] Ex.im Ex.im2 Ex.lf "op" (Ex234.no_overlap _ (by decide +kernel)) (Ex234.no_overlap _ (by decide +kernel)) (by
    intro k b c hb hc
    have e1 := Ex234.about_two (p := [("subset_of", Ex.strs ["b", "c", "d"])]) (q := [("one_of", Ex.strs ["x", "y"])]) (by decide +kernel) hb
    rcases e1 with ⟨rfl, -⟩ | ⟨rfl, rfl⟩
    · have : Ex.im2.about "op" "scopes" = none := by decide +kernel
      rw [this] at hc
      cases hc
    · have e2 : Ex.im2.about "op" "alg" = some [("one_of", Ex.strs ["y", "z"]), ("essential", .bool true)] := by decide +kernel
      rw [e2] at hc
      cases hc
      refine Or.inr ⟨?_, rfl, rfl, fun x y hx => by cases hx⟩
      intro e he
      rw [List.mem_singleton] at he
      subst he
      decide +kernel)

/-- and there is something that is resolved. -/
example : policyFor Ex.E Ex.K [Ex.ta, Ex.im, Ex234.low, Ex.im2] Ex.lf "op" =
    .ok (some [("org", .str "A"), ("city", .str "B"), ("unit", .str "U"), ("alg", .str "y"), ("scopes", Ex.strs ["b"])]) := by decide +kernel

/-- C234 is violated: an authority that gives a value to a claim, with one below it that constrains the claim, is accepted; one authority that does both is refused. -/
theorem C234_overlap_violation : ¬ C234_full := by
  intro h
  have := h Ex.E Ex.K [Ex.ta] [] Ex234.gives Ex234.limits Ex234.does Ex.lf "op" (by decide +kernel)
  have e1 : (policyFor Ex.E Ex.K ([Ex.ta] ++ Ex234.gives :: Ex234.limits :: []) Ex.lf "op").toOption.isSome = true := by decide +kernel
  have e2 : policyFor Ex.E Ex.K ([Ex.ta] ++ Ex234.does :: []) Ex.lf "op" = .error .policyError := by decide +kernel
  rw [e2] at this
  revert e1 this
  cases policyFor Ex.E Ex.K ([Ex.ta] ++ Ex234.gives :: Ex234.limits :: []) Ex.lf "op" with
  | error e => intro _ e1; cases e1
  | ok r => intro h _; cases r <;> exact h

/-- C234 is violated: an authority that demands more scopes than the anchor allows is refused; together with one below it that demands fewer it is accepted. -/
theorem C234_demands_violation : ¬ C234_full := by
  intro h
  have := h Ex.E Ex.K [Ex234.narrow] [] Ex234.demand2 Ex234.demand1 Ex234.demand1 Ex.lf "op" (by decide +kernel)
  have e1 : policyFor Ex.E Ex.K ([Ex234.narrow] ++ Ex234.demand2 :: Ex234.demand1 :: []) Ex.lf "op" = .error .policyError := by decide +kernel
  have e2 : (policyFor Ex.E Ex.K ([Ex234.narrow] ++ Ex234.demand1 :: []) Ex.lf "op").toOption.isSome = true := by decide +kernel
  rw [e1] at this
  revert e2 this
  cases policyFor Ex.E Ex.K ([Ex234.narrow] ++ Ex234.demand1 :: []) Ex.lf "op" with
  | error e => intro _ e2; cases e2
  | ok r => intro h _; exact h

/-- C235 is violated: a value that is fixed below a constraint it meets is accepted; the constraint below the value is refused. -/
theorem C235_value_violation : ¬ C235_full := by
  intro h
  have := h Ex.E Ex.K [] [] Ex234.fixes Ex234.limits Ex.lf "op"
  have e1 : policyFor Ex.E Ex.K ([] ++ Ex234.fixes :: Ex234.limits :: []) Ex.lf "op" = .error .policyError := by decide +kernel
  have e2 : (policyFor Ex.E Ex.K ([] ++ Ex234.limits :: Ex234.fixes :: []) Ex.lf "op").toOption.isSome = true := by decide +kernel
  rw [e1] at this
  revert e2 this
  cases policyFor Ex.E Ex.K ([] ++ Ex234.limits :: Ex234.fixes :: []) Ex.lf "op" with
  | error e => intro _ e2; cases e2
  | ok r => intro h _; exact h

/-- C235 is violated: an authority that gives a value to a claim and constrains it is accepted as the anchor and refused below another. -/
theorem C235_anchor_violation : ¬ C235_full := by
  intro h
  have := h Ex.E Ex.K [] [] Ex.im2 Ex234.does Ex.lf "op"
  have e1 : policyFor Ex.E Ex.K ([] ++ Ex.im2 :: Ex234.does :: []) Ex.lf "op" = .error .policyError := by decide +kernel
  have e2 : (policyFor Ex.E Ex.K ([] ++ Ex234.does :: Ex.im2 :: []) Ex.lf "op").toOption.isSome = true := by decide +kernel
  rw [e1] at this
  revert e2 this
  cases policyFor Ex.E Ex.K ([] ++ Ex234.does :: Ex.im2 :: []) Ex.lf "op" with
  | error e => intro _ e2; cases e2
  | ok r => intro h _; exact h

end Fed.Policy
