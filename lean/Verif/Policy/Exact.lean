import Verif.Policy.OperatorsProps
/-
Property C106: policies refuse nothing and remove nothing without reason.
-/
namespace Fed.Policy
open Fed

/-- Absent, or a list without nested lists or objects. -/
def Atoms : Option Val → Prop
  | none => True
  | some (.arr xs) => ∀ x ∈ xs, x.hashable = true
  | some _ => False

/-- A claim that is meant to be a list, with operators for lists. -/
structure ListShape (cp : ClaimPolicy) (d : Option Val) : Prop where
  declared : Atoms d
  add : Atoms (cp.get? "add")
  default : Atoms (cp.get? "default")
  subset : Atoms (cp.get? "subset_of")
  superset : Atoms (cp.get? "superset_of")
  one : cp.get? "one_of" = none

/-- Absent, or not a list. -/
def Single : Option Val → Prop
  | some (.arr _) => False
  | _ => True

/-- A claim that is meant to have one value, with operators for that. -/
structure SingleShape (cp : ClaimPolicy) (d : Option Val) : Prop where
  declared : Single d
  default : Single (cp.get? "default")
  one : ∀ v, cp.get? "one_of" = some v → ∃ l, v = .arr l
  add : cp.get? "add" = none
  subset : cp.get? "subset_of" = none
  superset : cp.get? "superset_of" = none

/-- Something supplies the claim. -/
def Present (cp : ClaimPolicy) (d : Option Val) : Prop := d ≠ none ∨ cp.get? "add" ≠ none ∨ cp.get? "default" ≠ none

/-- The values the claim has before anything is removed: declared and added ones, else the default. -/
def Supplied (cp : ClaimPolicy) (d : Option Val) (x : Val) : Prop :=
  x ∈ held d ∨ x ∈ held (cp.get? "add") ∨ (d = none ∧ cp.get? "add" = none ∧ x ∈ held (cp.get? "default"))

/-- Those that the policy allows. -/
def Kept (cp : ClaimPolicy) (d : Option Val) (x : Val) : Prop := Supplied cp d x ∧ (cp.get? "subset_of" ≠ none → x ∈ held (cp.get? "subset_of"))

/-- The policy demands the claim. -/
def Demanded (cp : ClaimPolicy) : Prop := cp.get? "essential" = some (.bool true) ∨ cp.get? "essential" = some (.int 1)

/-- What is supplied for a list satisfies the policy. -/
def ListFits (cp : ClaimPolicy) (d : Option Val) : Prop :=
  (Present cp d → (cp.get? "subset_of" ≠ none → ∃ x, Kept cp d x) ∧ ∀ x ∈ held (cp.get? "superset_of"), Kept cp d x) ∧ (Demanded cp → Present cp d)

/-- The one value that is supplied. -/
def only (cp : ClaimPolicy) (d : Option Val) : Option Val :=
  match d with
  | some v => some v
  | none => cp.get? "default"

/-- What is supplied for a single value satisfies the policy. -/
def SingleFits (cp : ClaimPolicy) (d : Option Val) : Prop :=
  (∀ v l, only cp d = some v → cp.get? "one_of" = some (.arr l) → v ∈ l) ∧ (Demanded cp → only cp d ≠ none)

theorem atoms_cases {o : Option Val} (h : Atoms o) : o = none ∨ ∃ xs, o = some (.arr xs) ∧ ∀ x ∈ xs, x.hashable = true := by
  cases o with
  | none => exact Or.inl rfl
  | some v =>
    cases v with
    | arr xs => exact Or.inr ⟨xs, rfl, h⟩
    | _ => exact absurd h id

theorem list_supplied {E : SetEnum Val} {cp : ClaimPolicy} {d : Option Val} (hs : ListShape cp d) :
    ∃ v1, stepAdd E cp d = .ok v1 ∧ ((stepDefault cp v1 = none ∧ ¬ Present cp d) ∨
      ∃ xs, stepDefault cp v1 = some (.arr xs) ∧ (∀ x ∈ xs, x.hashable = true) ∧ Present cp d ∧ ∀ x, x ∈ xs ↔ Supplied cp d x) := by
  unfold stepAdd
  rcases atoms_cases hs.add with ha | ⟨as, ha, hha⟩
  · simp only [ha, Except.ok.injEq, exists_eq_left']
    rcases atoms_cases hs.declared with rfl | ⟨ds, rfl, hhd⟩
    · simp only [stepDefault]
      rcases atoms_cases hs.default with hd | ⟨xs, hd, hhx⟩
      · exact Or.inl ⟨hd, by simp [Present, ha, hd]⟩
      · exact Or.inr ⟨xs, hd, hhx, by simp [Present, hd], by simp [Supplied, held, ha, hd]⟩
    · exact Or.inr ⟨ds, rfl, hhd, by simp [Present], by simp [Supplied, held, ha]⟩
  · simp only [ha]
    rcases atoms_cases hs.declared with rfl | ⟨ds, rfl, hhd⟩
    · simp only [Except.ok.injEq, exists_eq_left']
      exact Or.inr ⟨as, rfl, hha, by simp [Present, ha], by simp [Supplied, held, ha]⟩
    · simp only [union, setOrSingleton, mkSet_of hhd, mkSet_of hha, ok_bind, except_pure, Except.ok.injEq, exists_eq_left']
      refine Or.inr ⟨_, rfl, ?_, by simp [Present], ?_⟩
      · intro x hx
        rw [E.mem_enum, List.mem_append] at hx
        exact hx.elim (hhd x) (hha x)
      · intro x
        rw [E.mem_enum, List.mem_append]
        simp [Supplied, held, ha]

theorem stepEssential_some (cp : ClaimPolicy) (v : Val) : stepEssential cp (some v) = .ok () := by
  unfold stepEssential
  cases cp.get? "essential" <;> rfl

theorem stepEssential_none (cp : ClaimPolicy) : stepEssential cp none = .ok () ↔ ¬ Demanded cp := by
  unfold stepEssential Demanded
  cases h : cp.get? "essential" with
  | none => simp
  | some e =>
    simp only [Option.some.injEq]
    split
    · next he => simp [he]
    · next he => simp [he]

theorem list_run {E : SetEnum Val} {cp : ClaimPolicy} {d : Option Val} (hv : cp.get? "value" = none) (hs : ListShape cp d) :
    (ListFits cp d → ∃ w, claimRun E cp d = .ok w) ∧ ∀ w, claimRun E cp d = .ok w → ListFits cp d ∧
      ((w = none ∧ ¬ Present cp d) ∨ ∃ xs, w = some (.arr xs) ∧ Present cp d ∧ ∀ x, x ∈ xs ↔ Kept cp d x) := by
  obtain ⟨v1, h1, h2⟩ := list_supplied (E := E) hs
  have ho : stepOneOf cp (stepDefault cp v1) = .ok false := stepOneOf_false.2 (Or.inl hs.one)
  have key : claimRun E cp d = (do
      let v3 ← stepSubset E cp (stepDefault cp v1)
      stepSuperset cp v3
      stepEssential cp v3
      pure v3) := by
    simp [claimRun, hv, h1, ho]
  rw [key]
  rcases h2 with ⟨h2, hp⟩ | ⟨xs, h2, hh, hp, hx⟩
  · rw [h2]
    have e1 : stepSubset E cp none = .ok none := by unfold stepSubset; cases cp.get? "subset_of" <;> rfl
    have e2 : stepSuperset cp none = .ok () := by unfold stepSuperset; cases cp.get? "superset_of" <;> rfl
    simp only [e1, e2, ok_bind]
    constructor
    · intro hf
      rw [(stepEssential_none cp).2 fun hd => hp (hf.2 hd)]
      exact ⟨none, rfl⟩
    · intro w hw
      cases he : stepEssential cp none with
      | error e => rw [he] at hw; cases hw
      | ok u =>
        rw [he] at hw
        simp only [ok_bind, except_pure, Except.ok.injEq] at hw
        exact ⟨⟨fun h => absurd h hp, fun h => absurd h ((stepEssential_none cp).1 he)⟩, Or.inl ⟨hw.symm, hp⟩⟩
  · rw [h2]
    -- what is left after the bound
    have hsub : (∃ ys, stepSubset E cp (some (.arr xs)) = .ok (some (.arr ys)) ∧ (∀ y ∈ ys, y.hashable = true) ∧ (∀ x, x ∈ ys ↔ Kept cp d x) ∧
          (cp.get? "subset_of" ≠ none → ∃ x, Kept cp d x)) ∨
        (stepSubset E cp (some (.arr xs)) = .error .policyError ∧ cp.get? "subset_of" ≠ none ∧ ¬ ∃ x, Kept cp d x) := by
      unfold stepSubset
      rcases atoms_cases hs.subset with hn | ⟨L, hL, hhL⟩
      · exact Or.inl ⟨xs, by simp [hn], hh, by simp [Kept, hn, hx], fun h => absurd hn h⟩
      · simp only [hL, pySet, pyIter, ok_bind, mkSet_of hhL, mkSet_of hh]
        have hmem : ∀ x, x ∈ E.enum (inter L xs) ↔ Kept cp d x := by
          intro x
          rw [E.mem_enum, mem_inter, hx]
          simp [Kept, hL, held, and_comm]
        cases hr : E.enum (inter L xs) with
        | nil =>
          refine Or.inr ⟨by simp, by simp, ?_⟩
          rintro ⟨x, hk⟩
          have := (hmem x).2 hk
          rw [hr] at this
          cases this
        | cons y ys =>
          refine Or.inl ⟨y :: ys, by simp, ?_, by rw [← hr]; exact hmem, fun _ => ⟨y, (hmem y).1 (by rw [hr]; simp)⟩⟩
          intro z hz
          rw [← hr, E.mem_enum, mem_inter] at hz
          exact hhL z hz.1
    rcases hsub with ⟨ys, e1, hhy, hk, hne⟩ | ⟨e1, hn, hne⟩
    · simp only [e1, ok_bind, stepEssential_some]
      have hsup : (stepSuperset cp (some (.arr ys)) = .ok () ∧ ∀ x ∈ held (cp.get? "superset_of"), Kept cp d x) ∨
          (stepSuperset cp (some (.arr ys)) = .error .policyError ∧ ¬ ∀ x ∈ held (cp.get? "superset_of"), Kept cp d x) := by
        unfold stepSuperset
        rcases atoms_cases hs.superset with hn | ⟨L, hL, hhL⟩
        · exact Or.inl ⟨by simp [hn], by simp [hn, held]⟩
        · simp only [hL, pySet, pyIter, ok_bind, mkSet_of hhL, mkSet_of hhy]
          cases hd : diff L ys with
          | nil =>
            refine Or.inl ⟨by simp, fun x hxL => ?_⟩
            rw [← hk]
            exact Classical.byContradiction fun hc => by
              have : x ∈ diff L ys := mem_diff.2 ⟨hxL, hc⟩
              rw [hd] at this
              cases this
          | cons z zs =>
            refine Or.inr ⟨by simp, fun hall => ?_⟩
            have hz : z ∈ diff L ys := by rw [hd]; simp
            rw [mem_diff, hk] at hz
            exact hz.2 (hall z hz.1)
      rcases hsup with ⟨e2, hall⟩ | ⟨e2, hall⟩
      · simp only [e2, ok_bind, except_pure, Except.ok.injEq, exists_eq', implies_true, true_and]
        rintro w rfl
        exact ⟨⟨fun _ => ⟨hne, hall⟩, fun _ => hp⟩, Or.inr ⟨ys, rfl, hp, hk⟩⟩
      · simp only [e2, error_bind, reduceCtorEq, exists_false, imp_false, false_implies, implies_true, and_true]
        exact fun hf => hall (hf.1 hp).2
    · simp only [e1, error_bind, reduceCtorEq, exists_false, imp_false, false_implies, implies_true, and_true]
      exact fun hf => hne ((hf.1 hp).1 hn)

theorem single_run {E : SetEnum Val} {cp : ClaimPolicy} {d : Option Val} (hv : cp.get? "value" = none) (hs : SingleShape cp d) :
    (SingleFits cp d → ∃ w, claimRun E cp d = .ok w) ∧ ∀ w, claimRun E cp d = .ok w → SingleFits cp d ∧ w = only cp d := by
  have h1 : stepAdd E cp d = .ok d := by simp [stepAdd, hs.add]
  have h2 : stepDefault cp d = only cp d := by cases d <;> rfl
  have h3 : ∀ v, stepSubset E cp v = .ok v := by intro v; simp [stepSubset, hs.subset]
  have h4 : ∀ v, stepSuperset cp v = .ok () := by intro v; simp [stepSuperset, hs.superset]
  have hsg : Single (only cp d) := by
    cases d with
    | none => exact hs.default
    | some v => exact hs.declared
  have key : claimRun E cp d = (do
      let jump ← stepOneOf cp (only cp d)
      if jump then pure (only cp d)
      else do
        stepEssential cp (only cp d)
        pure (only cp d)) := by
    simp [claimRun, hv, h1, h2, h3, h4]
  rw [key]
  cases ho : only cp d with
  | none =>
    have e1 : stepOneOf cp none = .ok false := stepOneOf_false.2 (Or.inr (Or.inl rfl))
    simp only [e1, ok_bind, Bool.false_eq_true, if_false, except_pure]
    constructor
    · intro hf
      rw [(stepEssential_none cp).2 fun hd => hf.2 hd ho]
      exact ⟨none, rfl⟩
    · intro w hw
      cases he : stepEssential cp none with
      | error e => rw [he] at hw; cases hw
      | ok u =>
        rw [he] at hw
        simp only [ok_bind, Except.ok.injEq] at hw
        refine ⟨⟨fun v l h => ?_, fun h => absurd h ((stepEssential_none cp).1 he)⟩, hw.symm⟩
        rw [ho] at h
        cases h
  | some v =>
    have hnl : v.isList = false := by
      rw [ho] at hsg
      cases v <;> first | rfl | exact absurd hsg id
    cases hl : cp.get? "one_of" with
    | none =>
      have e1 : stepOneOf cp (some v) = .ok false := stepOneOf_false.2 (Or.inl hl)
      simp only [e1, ok_bind, Bool.false_eq_true, if_false, stepEssential_some, except_pure, Except.ok.injEq, exists_eq', implies_true, true_and]
      rintro w rfl
      exact ⟨⟨fun v l _ h => (by rw [hl] at h; cases h), fun _ => by rw [ho]; simp⟩, rfl⟩
    | some o =>
      obtain ⟨l, rfl⟩ := hs.one o hl
      simp only [stepOneOf, hl, hnl, Bool.false_eq_true, if_false, pyIn, ok_bind]
      by_cases hm : v ∈ l
      · simp only [hm, decide_true, if_true, except_pure, ok_bind, Except.ok.injEq, exists_eq', implies_true, true_and]
        rintro w rfl
        refine ⟨⟨fun v' l' h h' => ?_, fun _ => by rw [ho]; simp⟩, rfl⟩
        rw [ho] at h
        cases h
        rw [hl] at h'
        cases h'
        exact hm
      · simp only [hm, decide_false, Bool.false_eq_true, if_false, except_throw, error_bind, reduceCtorEq, exists_false, imp_false, false_implies, implies_true, and_true]
        exact fun hf => hm (hf.1 v l ho hl)

/-! ## C106 -/

/-- C106 (a): when each claim has the shape its operators are for, metadata is refused if and only if some claim does not satisfy its policy. -/
theorem C106_refused_with_reason (E : SetEnum Val) (K : SetEnum String) (md : Metadata) (r : Rule)
    (hs : ∀ c cp, r.policy.get? c = some cp → cp.get? "value" = none → ListShape cp (declared md r c) ∨ SingleShape cp (declared md r c)) :
    (∃ m, applyPolicy E K md r = .ok m) ↔ ∀ c cp, r.policy.get? c = some cp → cp.get? "value" = none →
      (ListShape cp (declared md r c) → ListFits cp (declared md r c)) ∧ (SingleShape cp (declared md r c) → SingleFits cp (declared md r c)) := by
  constructor
  · rintro ⟨m, hm⟩ c cp hc hv
    have := applyPolicy_claim hm hc
    exact ⟨fun h => ((list_run hv h).2 _ this).1, fun h => ((single_run hv h).2 _ this).1⟩
  · intro hf
    cases h : applyPolicy E K md r with
    | ok m => exact ⟨m, rfl⟩
    | error e =>
      obtain ⟨c, hc, h2⟩ := applyPolicy_error E K h
      obtain ⟨cp, hcp⟩ := (Dict.mem_keys_iff_exists _ _).1 hc
      rw [declared_eq, claimRes, hcp] at h2
      simp only at h2
      cases hv : cp.get? "value" with
      | some x => rw [claimRun_value hv] at h2; cases h2
      | none =>
        rcases hs c cp hcp hv with h3 | h3
        · obtain ⟨w, hw⟩ := (list_run (E := E) hv h3).1 ((hf c cp hcp hv).1 h3)
          rw [hw] at h2
          cases h2
        · obtain ⟨w, hw⟩ := (single_run (E := E) hv h3).1 ((hf c cp hcp hv).2 h3)
          rw [hw] at h2
          cases h2

/-- C106 (b): a list then has exactly the supplied values that the policy allows; it is absent if nothing supplies it. -/
theorem C106_list_kept (E : SetEnum Val) (K : SetEnum String) (md m : Metadata) (r : Rule) (h : applyPolicy E K md r = .ok m) (c : String) (cp : ClaimPolicy)
    (hc : r.policy.get? c = some cp) (hv : cp.get? "value" = none) (hs : ListShape cp (declared md r c)) :
    (m.get? c = none ∧ ¬ Present cp (declared md r c)) ∨
    ∃ xs, m.get? c = some (.arr xs) ∧ Present cp (declared md r c) ∧ ∀ x, x ∈ xs ↔ Kept cp (declared md r c) x :=
  ((list_run hv hs).2 _ (applyPolicy_claim h hc)).2

/-- C106 (c): a single value is the declared one, else the default. -/
theorem C106_single_kept (E : SetEnum Val) (K : SetEnum String) (md m : Metadata) (r : Rule) (h : applyPolicy E K md r = .ok m) (c : String) (cp : ClaimPolicy)
    (hc : r.policy.get? c = some cp) (hv : cp.get? "value" = none) (hs : SingleShape cp (declared md r c)) : m.get? c = only cp (declared md r c) :=
  ((single_run hv hs).2 _ (applyPolicy_claim h hc)).2

/-- The rule and the leaf used above have these shapes. -/
example : ListShape Ex.scopes (declared Ex.leaf Ex.rule "scopes") ∧ ListShape Ex.contacts (declared Ex.leaf Ex.rule "contacts") ∧ SingleShape Ex.auth (declared Ex.leaf Ex.rule "auth") ∧
    SingleShape Ex.alg (declared Ex.leaf Ex.rule "alg") ∧ Ex.logo.get? "value" ≠ none := by
  refine ⟨⟨?_, ?_, ?_, ?_, ?_, ?_⟩, ⟨?_, ?_, ?_, ?_, ?_, ?_⟩, ⟨?_, ?_, ?_, ?_, ?_, ?_⟩, ⟨?_, ?_, ?_, ?_, ?_, ?_⟩, ?_⟩ <;>
    simp [Ex.scopes, Ex.contacts, Ex.auth, Ex.alg, Ex.logo, Ex.leaf, Ex.rule, Ex.strs, Ex.s, declared, Dict.get?, Atoms, Single, Val.hashable]

end Fed.Policy
