import Verif.Policy.CombineLemmas
import Verif.Policy.HashOrder
/-
Helper lemmas: combination of policies respects equality of list operands as sets, whatever the set enumeration.
-/
namespace Fed.Policy
open Fed

/-- The operators whose operand is a set. -/
def setOps : List String := ["subset_of", "superset_of", "one_of", "add"]

/-- Equal claim policies, the operands of set operators compared as sets. -/
structure CPEq (p q : ClaimPolicy) : Prop where
  sets : ∀ n ∈ setOps, OptSetEq (p.get? n) (q.get? n)
  others : ∀ n, n ∉ setOps → p.get? n = q.get? n

theorem CPEq.refl (p : ClaimPolicy) : CPEq p p := ⟨fun _ _ => OptSetEq.refl _, fun _ _ => rfl⟩

theorem CPEq.symm {p q : ClaimPolicy} (h : CPEq p q) : CPEq q p :=
  ⟨fun n hn => (h.sets n hn).symm, fun n hn => (h.others n hn).symm⟩

theorem optSetEq_isSome {a b : Option Val} (h : OptSetEq a b) : a.isSome = b.isSome := by
  cases a <;> cases b <;> simp_all [OptSetEq]

theorem CPEq.any {p q : ClaimPolicy} (h : CPEq p q) (n : String) : OptSetEq (p.get? n) (q.get? n) := by
  by_cases hn : n ∈ setOps
  · exact h.sets n hn
  · rw [h.others n hn]; exact OptSetEq.refl _

theorem CPEq.has {p q : ClaimPolicy} (h : CPEq p q) (n : String) : p.has n = q.has n := by
  simp only [Dict.has]; exact optSetEq_isSome (h.any n)

/-- Same outcome of building a set. -/
def SetRes : Except PyErr (List Val) → Except PyErr (List Val) → Prop
  | .ok a, .ok b => ∀ x, x ∈ a ↔ x ∈ b
  | .error e, .error f => e = f
  | _, _ => False

theorem SetRes.refl (a) : SetRes a a := by cases a <;> simp [SetRes]

theorem setEq_cases {a b : Val} (h : a.SetEq b) :
    a = b ∨ ∃ xs ys, a = .arr xs ∧ b = .arr ys ∧ ∀ x, x ∈ xs ↔ x ∈ ys := by
  cases a <;> cases b <;> simp_all [Val.SetEq]

theorem mkSet_res {xs ys : List Val} (h : ∀ x, x ∈ xs ↔ x ∈ ys) : SetRes (mkSet xs) (mkSet ys) := by
  rcases mkSet_congr h with ⟨h1, h2⟩ | ⟨h1, h2⟩ <;> simp [h1, h2, SetRes, h]

theorem pySet_res {a b : Val} (h : a.SetEq b) : SetRes (pySet a) (pySet b) := by
  rcases setEq_cases h with rfl | ⟨xs, ys, rfl, rfl, hxy⟩
  · exact SetRes.refl _
  · simpa [pySet, pyIter] using mkSet_res hxy

theorem setOrSingleton_res {a b : Val} (h : a.SetEq b) : SetRes (setOrSingleton a) (setOrSingleton b) := by
  rcases setEq_cases h with rfl | ⟨xs, ys, rfl, rfl, hxy⟩
  · exact SetRes.refl _
  · have e : ∀ zs, setOrSingleton (.arr zs) = mkSet zs := fun _ => rfl
    rw [e, e]; exact mkSet_res hxy

theorem diff_congr {a a' b b' : List Val} (ha : ∀ x, x ∈ a ↔ x ∈ a') (hb : ∀ x, x ∈ b ↔ x ∈ b') :
    (diff a b).isEmpty = (diff a' b').isEmpty := by
  rw [Bool.eq_iff_iff, List.isEmpty_iff, List.isEmpty_iff]
  simp only [List.eq_nil_iff_forall_not_mem, mem_diff, ha, hb]

theorem inter_congr {a a' b b' : List Val} (ha : ∀ x, x ∈ a ↔ x ∈ a') (hb : ∀ x, x ∈ b ↔ x ∈ b') (x : Val) :
    x ∈ inter a b ↔ x ∈ inter a' b' := by
  simp only [mem_inter, ha, hb]

theorem nil_congr {a b : List Val} (h : ∀ x, x ∈ a ↔ x ∈ b) : a = [] ↔ b = [] := by
  simp only [List.eq_nil_iff_forall_not_mem, h]

theorem demandSubset_congr {a a' b b' : Val} (ha : a.SetEq a') (hb : b.SetEq b') :
    demandSubset a b = demandSubset a' b' := by
  unfold demandSubset
  have h1 := pySet_res ha
  have h2 := pySet_res hb
  cases hx : pySet a <;> cases hx' : pySet a' <;> simp only [hx, hx', SetRes] at h1
  · simp [h1]
  · cases hy : pySet b <;> cases hy' : pySet b' <;> simp only [hy, hy', SetRes] at h2
    · simp [h2]
    · simp only [ok_bind, diff_congr h1 h2]

theorem demandOps_congr {p q : ClaimPolicy} (h : CPEq p q) (n m : String) :
    (do demandSubset (← p.get n) (← p.get m)) = (do demandSubset (← q.get n) (← q.get m)) := by
  have hn := h.any n
  have hm := h.any m
  simp only [Dict.get]
  cases h1 : p.get? n <;> cases h2 : q.get? n <;> simp only [h1, h2, OptSetEq] at hn
  · rfl
  · cases h3 : p.get? m <;> cases h4 : q.get? m <;> simp only [h3, h4, OptSetEq] at hm
    · rfl
    · simp only [ok_bind]; exact demandSubset_congr hn hm

theorem consistency_congr {p q : ClaimPolicy} (h : CPEq p q) (comb : List String) :
    consistency comb p = consistency comb q := by
  have hd : p.get "default" = q.get "default" := by simp only [Dict.get, h.others "default" (by decide)]
  have h3 : (do
      demandSubset (← p.get "superset_of") (← p.get "subset_of")
      demandSubset (← p.get "default") (← p.get "subset_of")
      demandSubset (← p.get "superset_of") (← p.get "default")) = (do
      demandSubset (← q.get "superset_of") (← q.get "subset_of")
      demandSubset (← q.get "default") (← q.get "subset_of")
      demandSubset (← q.get "superset_of") (← q.get "default")) := by
    have a := demandOps_congr h "superset_of" "subset_of"
    have b := demandOps_congr h "default" "subset_of"
    have c := demandOps_congr h "superset_of" "default"
    have e : ∀ r : ClaimPolicy, (do
      demandSubset (← r.get "superset_of") (← r.get "subset_of")
      demandSubset (← r.get "default") (← r.get "subset_of")
      demandSubset (← r.get "superset_of") (← r.get "default")) = (do
      (do demandSubset (← r.get "superset_of") (← r.get "subset_of"))
      (do demandSubset (← r.get "default") (← r.get "subset_of"))
      (do demandSubset (← r.get "superset_of") (← r.get "default"))) := by
      intro r; simp only [Dict.get]
      cases r.get? "superset_of" <;> cases r.get? "subset_of" <;> cases r.get? "default" <;> rfl
    rw [e, e, a, b, c]
  have h5 : (do
      let d ← p.get "default"
      if d.isList then demandSubset d (← p.get "one_of")
      else do
        let x ← mkSet [d]
        let y ← pySet (← p.get "one_of")
        if (diff x y).isEmpty then pure () else throw PyErr.policyError) = (do
      let d ← q.get "default"
      if d.isList then demandSubset d (← q.get "one_of")
      else do
        let x ← mkSet [d]
        let y ← pySet (← q.get "one_of")
        if (diff x y).isEmpty then pure () else throw PyErr.policyError) := by
    rw [hd]
    cases q.get "default" with
    | error e => rfl
    | ok d =>
      simp only [ok_bind]
      have ho := h.any "one_of"
      simp only [Dict.get]
      cases h1 : p.get? "one_of" <;> cases h2 : q.get? "one_of" <;> simp only [h1, h2, OptSetEq] at ho
      · rfl
      · simp only [ok_bind, demandSubset_congr (Val.SetEq.refl d) ho]
        split
        · rfl
        · cases mkSet [d] with
          | error e => rfl
          | ok x =>
            simp only [ok_bind]
            have := pySet_res ho
            rename_i b b' _
            cases hx : pySet b <;> cases hx' : pySet b' <;> simp only [hx, hx', SetRes] at this
            · simp [this]
            · simp only [ok_bind, diff_congr (fun _ => Iff.rfl) this]
  unfold consistency
  rw [demandOps_congr h "superset_of" "subset_of", h3, demandOps_congr h "default" "subset_of",
    demandOps_congr h "superset_of" "default", h5, demandOps_congr h "add" "subset_of",
    demandOps_congr h "superset_of" "add"]

theorem op2func_congr (E E' : SetEnum Val) (n : String) {a a' b b' : Val} (ha : a.SetEq a') (hb : b.SetEq b') :
    (∃ x y, op2func E n a b = .ok (.arr x) ∧ op2func E' n a' b' = .ok (.arr y) ∧ ∀ z, z ∈ x ↔ z ∈ y) ∨
    ∃ e, op2func E n a b = .error e ∧ op2func E' n a' b' = .error e := by
  unfold op2func
  split
  · unfold combineAdd
    have h1 := setOrSingleton_res ha
    have h2 := setOrSingleton_res hb
    cases hx : setOrSingleton a <;> cases hx' : setOrSingleton a' <;> simp only [hx, hx', SetRes] at h1
    · simp [h1]
    · cases hy : setOrSingleton b <;> cases hy' : setOrSingleton b' <;> simp only [hy, hy', SetRes] at h2
      · simp [h2]
      · left; exact ⟨_, _, rfl, rfl, fun z => by simp [SetEnum.mem_enum, h1, h2]⟩
  · unfold combineInter
    have h1 := pySet_res ha
    have h2 := pySet_res hb
    cases hx : pySet a <;> cases hx' : pySet a' <;> simp only [hx, hx', SetRes] at h1
    · simp [h1]
    · cases hy : pySet b <;> cases hy' : pySet b' <;> simp only [hy, hy', SetRes] at h2
      · simp [h2]
      · left; exact ⟨_, _, rfl, rfl, fun z => by simp only [SetEnum.mem_enum, inter_congr h1 h2]⟩

theorem doSet_congr (E E' : SetEnum Val) {s s' c c' : ClaimPolicy} (hs : CPEq s s') (hc : CPEq c c') {n : String}
    {v : Val} (h : doSubOneSuperAdd E s c n = .ok v) : ∃ v', doSubOneSuperAdd E' s' c' n = .ok v' ∧ v.SetEq v' := by
  have h1 := hs.any n
  have h2 := hc.any n
  unfold doSubOneSuperAdd at h ⊢
  cases hx : s.get? n <;> cases hx' : s'.get? n <;> simp only [hx, hx', OptSetEq] at h1 h
  · cases hy : c.get? n <;> cases hy' : c'.get? n <;> simp only [hy, hy', OptSetEq] at h2 h
    · exact ⟨_, rfl, by simp only [Except.ok.injEq] at h; subst h; exact Val.SetEq.refl _⟩
    · simp only [Except.ok.injEq] at h; subst h; exact ⟨_, rfl, h2⟩
  · cases hy : c.get? n <;> cases hy' : c'.get? n <;> simp only [hy, hy', OptSetEq] at h2 h
    · simp only [Except.ok.injEq] at h; subst h; exact ⟨_, rfl, h1⟩
    · rcases op2func_congr E E' n h1 h2 with ⟨x, y, e1, e2, hxy⟩ | ⟨e, e1, e2⟩
      · simp only [e1, ok_bind] at h
        simp only [e2, ok_bind]
        have hn := nil_congr hxy
        by_cases hxn : x = []
        · subst hxn; simp [Val.truthy] at h
        · have hyn : ¬ y = [] := fun e => hxn (hn.2 e)
          simp only [Val.truthy, Bool.not_eq_true', except_pure] at h ⊢
          have t1 : (!x.isEmpty) = true := by simp [hxn]
          have t2 : (!y.isEmpty) = true := by simp [hyn]
          simp_all [Val.SetEq]
          subst h; simpa [Val.SetEq] using hxy
      · simp [e1] at h

theorem doPolicy_congr (E E' : SetEnum Val) {s s' c c' : ClaimPolicy} (hs : CPEq s s') (hc : CPEq c c') {n : String}
    {v : Val} (h : doPolicy E s c n = .ok v) :
    ∃ v', doPolicy E' s' c' n = .ok v' ∧ (n ∈ setOps → v.SetEq v') ∧ (n ∉ setOps → v = v') := by
  unfold doPolicy at h ⊢
  by_cases hn : n = "add" ∨ n = "superset_of" ∨ n = "subset_of" ∨ n = "one_of"
  · rw [if_pos hn] at h ⊢
    obtain ⟨v', h1, h2⟩ := doSet_congr E E' hs hc h
    refine ⟨v', h1, fun _ => h2, fun h3 => absurd ?_ h3⟩
    rcases hn with rfl | rfl | rfl | rfl <;> decide
  · rw [if_neg hn] at h ⊢
    have hn' : n ∉ setOps := by
      intro hm; apply hn; simp only [setOps, List.mem_cons, List.not_mem_nil, or_false] at hm
      rcases hm with h | h | h | h <;> simp [h]
    refine ⟨v, ?_, fun h => absurd h hn', fun _ => rfl⟩
    rw [← h]
    simp only [doValue, doDefault, doEssential, hs.others n hn', hc.others n hn']

theorem combPolicy_congr {s s' c c' : ClaimPolicy} (hs : CPEq s s') (hc : CPEq c c') :
    combPolicy s c = combPolicy s' c' := by
  unfold combPolicy
  congr 1; funext n; rw [hs.has, hc.has]

theorem combineFree_congr (E E' : SetEnum Val) (K K' : SetEnum String) {s s' c c' r : ClaimPolicy} (hs : CPEq s s')
    (hc : CPEq c c') (h : combineFree E K s c = .ok r) : ∃ r', combineFree E' K' s' c' = .ok r' ∧ CPEq r r' := by
  obtain ⟨h1, h2, h3, h4, h5⟩ := combineFree_ok h
  have hcomb := combPolicy_congr hs hc
  have hess : essentialClash s' c' = false := by
    rw [← h1]; unfold essentialClash
    rw [hs.others "essential" (by decide), hc.others "essential" (by decide)]
  cases hb : buildRule E' s' c' (K'.enum (combPolicy s c)) with
  | error e =>
    obtain ⟨p, hp, he⟩ := buildRule_error hb
    rw [SetEnum.mem_enum] at hp
    obtain ⟨v, hv, _⟩ := h4 p hp
    obtain ⟨v', hv', _⟩ := doPolicy_congr E E' hs hc hv
    rw [he] at hv'; simp at hv'
  | ok r' =>
    obtain ⟨b1, b2⟩ := buildRule_ok hb
    have heq : CPEq r r' := by
      constructor
      · intro n hn
        by_cases hm : n ∈ combPolicy s c
        · obtain ⟨v, hv, hr⟩ := h4 n hm
          obtain ⟨v', hv', hse, _⟩ := doPolicy_congr E E' hs hc hv
          obtain ⟨w, hw, hr'⟩ := b1 n ((K'.mem_enum _ _).2 hm)
          rw [hv', Except.ok.injEq] at hw; subst hw
          rw [hr, hr']; exact hse hn
        · rw [h5 n hm, b2 n (by rwa [SetEnum.mem_enum])]; exact OptSetEq.refl _
      · intro n hn
        by_cases hm : n ∈ combPolicy s c
        · obtain ⟨v, hv, hr⟩ := h4 n hm
          obtain ⟨v', hv', _, hse⟩ := doPolicy_congr E E' hs hc hv
          obtain ⟨w, hw, hr'⟩ := b1 n ((K'.mem_enum _ _).2 hm)
          rw [hv', Except.ok.injEq] at hw; subst hw
          rw [hr, hr', hse hn]
        · rw [h5 n hm, b2 n (by rwa [SetEnum.mem_enum])]
    refine ⟨r', ?_, heq⟩
    unfold combineFree
    simp only [← hcomb, hess, Bool.false_eq_true, if_false]
    rw [if_neg h2, hb]
    simp only [ok_bind, ← consistency_congr heq, h3, except_pure]

theorem combineFixed_congr {s s' c c' r : ClaimPolicy} (hs : CPEq s s') (hc : CPEq c c') {x : Val}
    (h : combineFixed s c x = .ok r) : ∃ r', combineFixed s' c' x = .ok r' ∧ CPEq r r' := by
  have hr : recognised c' = recognised c := by
    unfold recognised; congr 1; funext n; rw [hc.has]
  unfold combineFixed at h ⊢
  rw [hr, ← hc.others "essential" (by decide), ← hc.others "value" (by decide)]
  simp only at h ⊢
  split at h
  · next h0 => rw [if_pos h0]; simp only [Except.ok.injEq] at h; subst h; exact ⟨_, rfl, hs⟩
  · next h0 =>
    rw [if_neg h0]
    cases he : c.get? "essential" with
    | some e =>
      simp only [he] at h ⊢
      exact ⟨r, h, CPEq.refl r⟩
    | none =>
      simp only [he] at h ⊢
      cases hv : c.get? "value" with
      | none => simp [hv] at h
      | some y =>
        simp only [hv] at h ⊢
        split at h
        · simp at h
        · next hn => rw [if_neg hn]; simp only [Except.ok.injEq] at h; subst h; exact ⟨_, rfl, hs⟩

theorem combineClaimPolicy_congr (E E' : SetEnum Val) (K K' : SetEnum String) {s s' c c' r : ClaimPolicy} (hs : CPEq s s')
    (hc : CPEq c c') (h : combineClaimPolicy E K s c = .ok r) :
    ∃ r', combineClaimPolicy E' K' s' c' = .ok r' ∧ CPEq r r' := by
  unfold combineClaimPolicy at h ⊢
  rw [← hs.others "value" (by decide)]
  cases hv : s.get? "value" with
  | some x => simp only [hv] at h ⊢; exact combineFixed_congr hs hc h
  | none => simp only [hv] at h ⊢; exact combineFree_congr E E' K K' hs hc h

/-- Claim policies of one claim agree. -/
def OptCPEq : Option ClaimPolicy → Option ClaimPolicy → Prop
  | some a, some b => CPEq a b
  | none, none => True
  | _, _ => False

theorem OptCPEq.refl (a) : OptCPEq a a := by cases a <;> simp [OptCPEq, CPEq.refl]

/-- Two combined rules agree, list operands compared as sets. -/
structure RuleEq (r r' : Rule) : Prop where
  metadata : ∀ k, r.metadata.get? k = r'.metadata.get? k
  policy : ∀ k, OptCPEq (r.policy.get? k) (r'.policy.get? k)

theorem RuleEq.refl (r : Rule) : RuleEq r r := ⟨fun _ => rfl, fun _ => OptCPEq.refl _⟩

theorem combine_congr (E E' : SetEnum Val) (K K' : SetEnum String) {s s' c r : Rule} (hs : RuleEq s s')
    (h : combine E K s c = .ok r) : ∃ r', combine E' K' s' c = .ok r' ∧ RuleEq r r' := by
  obtain ⟨h1, h2, h3⟩ := combine_ok h
  cases hr : combine E' K' s' c with
  | error e =>
    exfalso
    rcases combine_error hr with ⟨k, x, y, hx, hy, hne⟩ | ⟨k, a, b, ha, hb, he⟩
    · exact hne (h2 k x y (by rw [hs.metadata]; exact hx) hy)
    · have hp := hs.policy k
      have hk := h3 k
      rw [ha] at hp
      cases hsa : s.policy.get? k with
      | none => rw [hsa] at hp; exact hp
      | some a0 =>
        rw [hsa] at hp hk; rw [hb] at hk
        obtain ⟨p, hp', _⟩ := hk
        obtain ⟨r', hr', _⟩ := combineClaimPolicy_congr E E' K K' hp (CPEq.refl b) hp'
        rw [he] at hr'; simp at hr'
  | ok r' =>
    refine ⟨r', rfl, ?_⟩
    obtain ⟨g1, _, g3⟩ := combine_ok hr
    constructor
    · intro k; rw [h1, g1, hs.metadata]
    · intro k
      have hp := hs.policy k
      have hk := h3 k
      have gk := g3 k
      cases hsa : s.policy.get? k with
      | none =>
        cases hsa' : s'.policy.get? k with
        | none => rw [hsa] at hk; rw [hsa'] at gk; simp only [CombinedClaim] at hk gk; rw [hk, gk]; exact OptCPEq.refl _
        | some a' => rw [hsa, hsa'] at hp; exact absurd hp (by simp [OptCPEq])
      | some a =>
        cases hsa' : s'.policy.get? k with
        | none => rw [hsa, hsa'] at hp; exact absurd hp (by simp [OptCPEq])
        | some a' =>
          rw [hsa, hsa'] at hp
          rw [hsa] at hk; rw [hsa'] at gk
          cases hb : c.policy.get? k with
          | none => rw [hb] at hk gk; simp only [CombinedClaim] at hk gk; rw [hk, gk]; exact hp
          | some b =>
            rw [hb] at hk gk
            obtain ⟨p, e1, e2⟩ := hk
            obtain ⟨p', e3, e4⟩ := gk
            obtain ⟨q, f1, f2⟩ := combineClaimPolicy_congr E E' K K' hp (CPEq.refl b) e1
            rw [e3, Except.ok.injEq] at f1; subst f1
            rw [e2, e4]; exact f2

theorem gatherRest_congr (E E' : SetEnum Val) (K K' : SetEnum String) (t : String) {chain : List PStatement}
    {s s' r : Rule} (hs : RuleEq s s') (h : gatherRest E K t chain s = .ok r) :
    ∃ r', gatherRest E' K' t chain s' = .ok r' ∧ RuleEq r r' := by
  induction chain generalizing s s' with
  | nil => simp only [gatherRest, Except.ok.injEq] at h ⊢; subst h; exact ⟨s', rfl, hs⟩
  | cons es chain ih =>
    simp only [gatherRest] at h ⊢
    split at h
    · next he => rw [if_pos he]; exact ih hs h
    · next he =>
      rw [if_neg he]
      split at h
      · simp at h
      · next ho =>
        rw [if_neg ho]
        cases hc : combine E K s (es.rule t) with
        | error e => simp [hc] at h
        | ok r1 =>
          simp only [hc, ok_bind] at h
          obtain ⟨r1', e1, e2⟩ := combine_congr E E' K K' hs hc
          simp only [e1, ok_bind]
          exact ih e2 h

theorem gatherPolicies_congr (E E' : SetEnum Val) (K K' : SetEnum String) (t : String) {chain : List PStatement}
    {r : Rule} (h : gatherPolicies E K chain t = .ok r) :
    ∃ r', gatherPolicies E' K' chain t = .ok r' ∧ RuleEq r r' := by
  cases chain with
  | nil => simp [gatherPolicies] at h
  | cons e0 rest => exact gatherRest_congr E E' K K' t (RuleEq.refl _) h

/-! ### Application of set-equal policies -/

theorem ResEq.trans {a b c} (h : ResEq a b) (h' : ResEq b c) : ResEq a c := by
  cases a <;> cases b <;> cases c <;> simp_all [ResEq]
  exact h.trans h'

theorem stepAdd_cp (E : SetEnum Val) {p q : ClaimPolicy} (h : CPEq p q) (v : Option Val) :
    ResEq (stepAdd E p v) (stepAdd E q v) := by
  have hn := h.any "add"
  unfold stepAdd
  cases ha : p.get? "add" <;> cases hb : q.get? "add" <;> simp only [ha, hb, OptSetEq] at hn
  · exact ResEq.refl _
  · rename_i a b
    cases v with
    | none => simpa [ResEq, OptSetEq] using hn
    | some w =>
      simp only [union]
      cases setOrSingleton w with
      | error e => simp [ResEq]
      | ok u =>
        have := setOrSingleton_res hn
        cases hx : setOrSingleton a <;> cases hx' : setOrSingleton b <;> simp only [hx, hx', SetRes] at this
        · simp [ResEq, this]
        · simp [ResEq, OptSetEq, Val.SetEq, SetEnum.mem_enum, this]

theorem stepDefault_cp {p q : ClaimPolicy} (h : CPEq p q) (v : Option Val) : stepDefault p v = stepDefault q v := by
  simp only [stepDefault, h.others "default" (by decide)]

theorem pyIn_congr {a b : Val} (h : a.SetEq b) (v : Val) : pyIn v a = pyIn v b := by
  rcases setEq_cases h with rfl | ⟨xs, ys, rfl, rfl, hxy⟩
  · rfl
  · simp [pyIn, hxy]

theorem stepOneOf_cp {p q : ClaimPolicy} (h : CPEq p q) (v : Option Val) : stepOneOf p v = stepOneOf q v := by
  have hn := h.any "one_of"
  unfold stepOneOf
  cases ha : p.get? "one_of" <;> cases hb : q.get? "one_of" <;> simp only [ha, hb, OptSetEq] at hn
  · rfl
  · cases v with
    | none => rfl
    | some w => simp only [pyIn_congr hn]

theorem keys_congr {p q : ClaimPolicy} (h : CPEq p q) (s : String) : s ∈ p.keys ↔ s ∈ q.keys := by
  rw [Dict.mem_keys_iff, Dict.mem_keys_iff, optSetEq_isSome (h.any s)]

theorem keysAny_congr {p q : ClaimPolicy} (h : CPEq p q) (w : Val) :
    p.keys.any (fun k => decide (Val.str k = w)) = q.keys.any (fun k => decide (Val.str k = w)) := by
  rw [Bool.eq_iff_iff]
  simp only [List.any_eq_true, keys_congr h]

theorem stepSubset_cp (E : SetEnum Val) {p q : ClaimPolicy} (h : CPEq p q) (v : Option Val) :
    ResEq (stepSubset E p v) (stepSubset E q v) := by
  have hn := h.any "subset_of"
  unfold stepSubset
  cases ha : p.get? "subset_of" <;> cases hb : q.get? "subset_of" <;> simp only [ha, hb, OptSetEq] at hn
  · exact ResEq.refl _
  · rename_i a b
    have hp := pySet_res hn
    cases v with
    | none => exact ResEq.refl _
    | some w =>
      cases w with
      | arr xs =>
        simp only
        cases hx : pySet a <;> cases hx' : pySet b <;> simp only [hx, hx', SetRes] at hp
        · simp [ResEq, hp]
        · simp only [ok_bind]
          cases mkSet xs with
          | error e => simp [ResEq]
          | ok u =>
            simp only [ok_bind]
            rename_i c d
            have hi : ∀ x, x ∈ E.enum (inter c u) ↔ x ∈ E.enum (inter d u) := by
              intro x; simp only [SetEnum.mem_enum, inter_congr hp (fun _ => Iff.rfl)]
            by_cases hz : E.enum (inter c u) = []
            · have := (nil_congr hi).1 hz
              simp [hz, this, ResEq]
            · have : ¬ E.enum (inter d u) = [] := fun e => hz ((nil_congr hi).2 e)
              simp only [List.isEmpty_iff, hz, this, if_false, except_pure, ResEq, OptSetEq, Val.SetEq]
              exact hi
      | _ => simp only [keysAny_congr h]; exact ResEq.refl _

theorem stepSuperset_cp {p q : ClaimPolicy} (h : CPEq p q) (v : Option Val) : stepSuperset p v = stepSuperset q v := by
  have hn := h.any "superset_of"
  unfold stepSuperset
  cases ha : p.get? "superset_of" <;> cases hb : q.get? "superset_of" <;> simp only [ha, hb, OptSetEq] at hn
  · rfl
  · rename_i a b
    have hp := pySet_res hn
    cases v with
    | none => rfl
    | some w =>
      simp only
      cases hx : pySet a <;> cases hx' : pySet b <;> simp only [hx, hx', SetRes] at hp
      · simp [hp]
      · simp only [ok_bind]
        cases pySet w with
        | error e => rfl
        | ok u => simp only [ok_bind, diff_congr hp (fun _ => Iff.rfl)]

theorem stepEssential_cp {p q : ClaimPolicy} (h : CPEq p q) (v : Option Val) : stepEssential p v = stepEssential q v := by
  simp only [stepEssential, h.others "essential" (by decide)]

theorem claimRun_cp (E : SetEnum Val) {p q : ClaimPolicy} (h : CPEq p q) (v : Option Val) :
    ResEq (claimRun E p v) (claimRun E q v) := by
  unfold claimRun
  rw [h.others "value" (by decide)]
  cases q.get? "value" with
  | some x => exact ResEq.refl _
  | none =>
    simp only
    have h1 := stepAdd_cp E h v
    cases ha : stepAdd E p v with
    | error e => cases hb : stepAdd E q v <;> simp_all [ResEq]
    | ok v1 =>
      cases hb : stepAdd E q v with
      | error e => simp [ha, hb, ResEq] at h1
      | ok v1' =>
        simp only [ha, hb, ResEq] at h1
        simp only [ok_bind]
        have h2 : OptSetEq (stepDefault p v1) (stepDefault q v1') := by
          rw [stepDefault_cp h]; exact stepDefault_congr q h1
        rw [stepOneOf_congr p h2, stepOneOf_cp h]
        cases stepOneOf q (stepDefault q v1') with
        | error e => simp [ResEq]
        | ok b =>
          cases b with
          | true => simpa [ResEq] using h2
          | false =>
            simp only [ok_bind, Bool.false_eq_true, if_false]
            have h3 := (stepSubset_congr E E p h2).trans (stepSubset_cp E h _)
            cases hc : stepSubset E p (stepDefault p v1) with
            | error e => cases hd : stepSubset E q (stepDefault q v1') <;> simp_all [ResEq]
            | ok v3 =>
              cases hd : stepSubset E q (stepDefault q v1') with
              | error e => simp [hc, hd, ResEq] at h3
              | ok v3' =>
                simp only [hc, hd, ResEq] at h3
                simp only [ok_bind]
                rw [stepSuperset_congr p h3, stepEssential_congr p h3, stepSuperset_cp h, stepEssential_cp h]
                cases stepSuperset q v3' with
                | error e => simp [ResEq]
                | ok u =>
                  cases stepEssential q v3' with
                  | error e => simp [ResEq]
                  | ok u => simpa [ResEq] using h3

theorem claimRes_cp (E E' : SetEnum Val) {r r' : Rule} (h : RuleEq r r') (c : String) (v : Option Val) :
    ResEq (claimRes E r.policy c v) (claimRes E' r'.policy c v) := by
  have hp := h.policy c
  unfold claimRes
  cases ha : r.policy.get? c <;> cases hb : r'.policy.get? c <;> simp only [ha, hb, OptCPEq] at hp
  · exact ResEq.refl _
  · exact (claimRun_cp E hp v).trans (claimRun_congr E E' _ (OptSetEq.refl v))

theorem applyPolicy_congr (E E' : SetEnum Val) (K K' : SetEnum String) {r r' : Rule} (h : RuleEq r r') {md m : Metadata}
    (ha : applyPolicy E K md r = .ok m) :
    ∃ m', applyPolicy E' K' md r' = .ok m' ∧ ∀ c, OptSetEq (m.get? c) (m'.get? c) := by
  have hst : ∀ c, startValue md r c = startValue md r' c := by
    intro c; simp only [startValue, h.metadata]
  have key : ∀ c, ∃ w, claimRes E' r'.policy c (startValue md r' c) = .ok w ∧ OptSetEq (m.get? c) w := by
    intro c
    have h1 := applyPolicy_ok E K ha c
    have h2 := claimRes_cp E E' h c (startValue md r c)
    rw [h1, hst] at h2
    cases hw : claimRes E' r'.policy c (startValue md r' c) with
    | error e => rw [hw] at h2; simp [ResEq] at h2
    | ok w => rw [hw] at h2; exact ⟨w, rfl, h2⟩
  obtain ⟨m', hm'⟩ := (applyPolicy_ok_iff E' K' md r').2 fun c _ => (key c).imp fun _ h => h.1
  refine ⟨m', hm', fun c => ?_⟩
  obtain ⟨w, h1, h2⟩ := key c
  have := applyPolicy_ok E' K' hm' c
  rw [h1, Except.ok.injEq] at this
  rw [← this]; exact h2

end Fed.Policy
