import Verif.Policy.Demands
import Verif.Policy.Exact
import Verif.Policy.Repeated
/-
Property C226: an authority that adds nothing but restrictions lets nobody in. A chain that is accepted with one more statement, whose policies only restrict what a claim may be, is accepted without it, and then with at least the same values.
-/
namespace Fed.Policy
open Fed

/-! ## What is claimed -/

/-- The statement says nothing but restrictions about entities of type `t`: it gives no metadata, and its policies do not set, add or supply values. -/
structure OnlyRestricts (t : String) (es : PStatement) : Prop where
  metadata : (es.rule t).metadata = []
  ops : ∀ c p, (es.rule t).policy.get? c = some p → p.get? "value" = none ∧ p.get? "add" = none ∧ p.get? "default" = none

/-- The claim is the same, or has fewer values: `w'` with the restrictions, `w` without. -/
def Narrower (w' w : Option Val) : Prop := w' = w ∨ ∃ xs ys, w' = some (.arr xs) ∧ w = some (.arr ys) ∧ ∀ x ∈ xs, x ∈ ys

/-- The full claim: whatever is accepted with a statement that only restricts, anywhere below the first one, is accepted without it, type by type, with at least the same values. -/
def C226_full : Prop :=
  ∀ (E : SetEnum Val) (K : SetEnum String) (sups post : List PStatement) (es leaf : PStatement) (et : Option String) (d' : Dict (Option Metadata)), sups ≠ [] → (∀ t, OnlyRestricts t es) →
    callPolicy E K (sups ++ es :: post) leaf et = .ok d' → ∃ d, callPolicy E K (sups ++ post) leaf et = .ok d ∧
      ∀ t m', d'.get? t = some (some m') → ∃ m, d.get? t = some (some m) ∧ ∀ c, Narrower (m'.get? c) (m.get? c)

/-- Absent, or a list. -/
def IsListed (o : Option Val) : Prop := ∀ v, o = some v → ∃ xs, v = .arr xs

/-- What is asked of the statements above the one that restricts, and of the entity: `superset_of` is not said twice of a claim, and claims bound by `subset_of` are lists, for the claims about which the statement says something. -/
structure Restrictable (t : String) (sups : List PStatement) (es leaf : PStatement) : Prop where
  superset : ∀ c p, (es.rule t).policy.get? c = some p → p.get? "superset_of" ≠ none → ∀ e ∈ sups, ∀ q, (e.rule t).policy.get? c = some q → q.get? "superset_of" = none
  lists : ∀ c p, (es.rule t).policy.get? c = some p → (p.get? "subset_of" ≠ none ∨ ∃ e ∈ sups, ∃ q, (e.rule t).policy.get? c = some q ∧ q.get? "subset_of" ≠ none) →
    (∀ md, leaf.metadata.get? t = some md → IsListed (md.get? c)) ∧
    ∀ e ∈ sups, IsListed ((e.rule t).metadata.get? c) ∧ ∀ q, (e.rule t).policy.get? c = some q → IsListed (q.get? "default") ∧ IsListed (q.get? "add")

/-! ## One claim -/

theorem Narrower.refl (w : Option Val) : Narrower w w := Or.inl rfl

theorem pyIn_of_pySet {x u : Val} {a : List Val} (h : pySet x = .ok a) (hu : u ∈ a) : pyIn u x = .ok true := by
  cases x with
  | arr xs =>
    obtain ⟨rfl, -⟩ := pySet_arr h
    simp [pyIn, hu]
  | str s =>
    have : a = strChars s := by
      simp only [pySet, pyIter, ok_bind] at h
      exact (mkSet_ok h).1
    subst this
    simp only [strChars, List.mem_map] at hu
    obtain ⟨ch, hc, rfl⟩ := hu
    simp only [pyIn, String.toList_ofList, Except.ok.injEq]
    generalize s.toList = l at hc
    induction l with
    | nil => cases hc
    | cons b l ih =>
      simp only [isInfixB, Bool.or_eq_true]
      rcases List.mem_cons.1 hc with rfl | hc
      · left; simp [List.isPrefixOf]
      · right; exact ih hc
  | obj kvs =>
    have : a = kvs.map fun p => Val.str p.1 := by
      simp only [pySet, pyIter, ok_bind] at h
      exact (mkSet_ok h).1
    subst this
    simp only [List.mem_map] at hu
    obtain ⟨p, hp, rfl⟩ := hu
    simp only [pyIn, Val.hashable, if_true, Except.ok.injEq, List.any_eq_true, decide_eq_true_eq]
    exact ⟨p, hp, rfl⟩
  | _ => simp [pySet, pyIter] at h

/-- A demand that fewer values satisfy is satisfied by more. -/
theorem stepSuperset_more {cp : ClaimPolicy} {xs ys : List Val} (hy : mkSet ys = .ok ys) (hs : ∀ x ∈ xs, x ∈ ys) (h : stepSuperset cp (some (.arr xs)) = .ok ()) : stepSuperset cp (some (.arr ys)) = .ok () := by
  unfold stepSuperset
  cases hl : cp.get? "superset_of" with
  | none => rfl
  | some l =>
    obtain ⟨a, b, ha, hb, hab⟩ := stepSuperset_ok hl h
    obtain ⟨rfl, -⟩ := pySet_arr hb
    have hp : pySet (.arr ys) = .ok ys := hy
    simp only [ha, ok_bind, hp]
    have : diff a ys = [] := by
      rw [List.eq_nil_iff_forall_not_mem]
      intro x hx
      rw [mem_diff] at hx
      exact hx.2 (hs x (hab x hx.1))
    rw [this]
    rfl

theorem listed_supplied {E : SetEnum Val} {a : ClaimPolicy} {v v1 : Option Val} (hv : IsListed v) (hd : IsListed (a.get? "default")) (ha : IsListed (a.get? "add")) (h : stepAdd E a v = .ok v1) :
    IsListed (stepDefault a v1) := by
  have h1 : IsListed v1 := by
    rcases stepAdd_ok h with ⟨_, rfl⟩ | ⟨z, hz, _, rfl⟩ | ⟨z, x, u, _, _, _, rfl⟩
    · exact hv
    · rw [hz] at ha; exact ha
    · intro w hw; cases hw; exact ⟨_, rfl⟩
  cases v1 with
  | none => exact hd
  | some w => exact h1

/-- A claim accepted under the combined policy is accepted under the superior's, with at least the same values. -/
theorem run_without {E : SetEnum Val} {K : SetEnum String} {a b r : ClaimPolicy} {v w' : Option Val} (hb : b.get? "value" = none ∧ b.get? "add" = none ∧ b.get? "default" = none)
    (hss : b.get? "superset_of" = none ∨ a.get? "superset_of" = none)
    (hl : b.get? "subset_of" ≠ none ∨ a.get? "subset_of" ≠ none → IsListed v ∧ IsListed (a.get? "default") ∧ IsListed (a.get? "add"))
    (hc : combineClaimPolicy E K a b = .ok r) (h : claimRun E r v = .ok w') : ∃ w, claimRun E a v = .ok w ∧ Narrower w' w := by
  unfold combineClaimPolicy at hc
  cases hv : a.get? "value" with
  | some x =>
    simp only [hv] at hc
    obtain ⟨h1, -⟩ := combineFixed_ok hv hc
    rw [claimRun_value h1] at h
    cases h
    exact ⟨_, claimRun_value hv v, .refl _⟩
  | none =>
    simp only [hv] at hc
    have rv : r.get? "value" = none := by rw [combineFree_value hc hv]; exact hb.1
    have rd : r.get? "default" = a.get? "default" := by
      rw [(combineFree_default hc).1, hb.2.2]
      cases a.get? "default" <;> rfl
    have ra : r.get? "add" = a.get? "add" := by
      rcases combineFree_add hc with ⟨h1, h2⟩ | ⟨_, h2⟩ | ⟨x, y, L, _, h2, _⟩
      · rw [h2, h1]; exact hb.2.1
      · exact h2
      · rw [hb.2.1] at h2; cases h2
    obtain ⟨v1, s1, s2⟩ := claimRun_ok_inv rv h
    have s1' : stepAdd E a v = .ok v1 := by
      unfold stepAdd at s1 ⊢
      rw [← ra]; exact s1
    have hd : stepDefault r v1 = stepDefault a v1 := by
      unfold stepDefault
      rw [rd]
    rw [hd] at s2
    obtain ⟨-, hex, -, -, -⟩ := combineFree_ok hc
    have hsup : a.get? "superset_of" = none ∨ r.get? "superset_of" = a.get? "superset_of" := by
      rcases hss with hs | hs
      · right
        rcases combineFree_inter hc (op := "superset_of") (by simp) with ⟨h1, h2⟩ | ⟨_, h2⟩ | ⟨_, _, _, _, _, h2, _⟩
        · rw [h2, h1, hs]
        · exact h2
        · rw [hs] at h2; cases h2
      · exact Or.inl hs
    have supOk : ∀ w, stepSuperset r w = .ok () → stepSuperset a w = .ok () := by
      intro w hw
      unfold stepSuperset at hw ⊢
      rcases hsup with hs | hs
      · rw [hs]
      · rw [← hs]; exact hw
    have essOk : ∀ w, stepEssential r w = .ok () → stepEssential a w = .ok () := by
      intro w hw
      cases w with
      | some z => exact stepEssential_some a z
      | none =>
        rw [stepEssential_none] at hw ⊢
        intro hda
        apply hw
        rcases combineFree_essential hc with ⟨e1, _⟩ | ⟨_, e2⟩ | ⟨x, y, e1, _, _, e2⟩
        · unfold Demanded at hda; rw [e1] at hda; rcases hda with hda | hda <;> cases hda
        · unfold Demanded; rw [e2]; exact hda
        · unfold Demanded at hda ⊢
          rw [e1] at hda
          rw [e2]
          rcases hda with hda | hda <;> (cases hda; simp [Val.truthy])
    generalize hz : stepDefault a v1 = z at s2
    rcases s2 with ⟨hj, rfl⟩ | ⟨hj, hsub, hsp, hes⟩
    · -- one_of was tested
      obtain ⟨l, u, hl1, rfl, hnl, hin⟩ := stepOneOf_true hj
      refine ⟨some u, ?_, .refl _⟩
      have hone : "one_of" ∈ combPolicy a b := by
        rw [mem_combPolicy]
        refine ⟨by decide, ?_⟩
        rcases combineFree_inter hc (op := "one_of") (by simp) with ⟨_, h2⟩ | ⟨_, h2⟩ | ⟨_, _, _, _, h2, _⟩
        · right; rw [← h2, hl1]; rfl
        · left; rw [← h2, hl1]; rfl
        · left; rw [h2]; rfl
      have no : ∀ op, op = "subset_of" ∨ op = "superset_of" → a.get? op = none := by
        intro op hop
        cases ho : a.get? op with
        | none => rfl
        | some q =>
          refine absurd ⟨hone, ?_⟩ hex
          rcases hop with rfl | rfl
          · left; rw [mem_combPolicy]; exact ⟨by decide, Or.inl (by rw [ho]; rfl)⟩
          · right; rw [mem_combPolicy]; exact ⟨by decide, Or.inl (by rw [ho]; rfl)⟩
      have jumpOf : ∀ l', a.get? "one_of" = some l' → pyIn u l' = .ok true → claimRun E a v = .ok (some u) := by
        intro l' hl' hp
        rw [← hz]
        refine claimRun_intro_jump hv s1' ?_
        rw [hz]
        simp [stepOneOf, hl', hnl, hp]
      rcases combineFree_inter hc (op := "one_of") (by simp) with ⟨h1, _⟩ | ⟨_, h2⟩ | ⟨x, y, p, q, hx, _, hp, _, hr, _⟩
      · refine claimRun_intro hv s1' (stepOneOf_false.2 (Or.inl h1)) ?_ ?_ (stepEssential_some a u)
        · rw [hz]; unfold stepSubset; rw [no _ (Or.inl rfl)]
        · unfold stepSuperset; rw [no _ (Or.inr rfl)]
      · exact jumpOf l (by rw [← h2]; exact hl1) hin
      · rw [hr] at hl1
        cases hl1
        refine jumpOf x hx (pyIn_of_pySet hp ?_)
        simp only [pyIn, Except.ok.injEq, decide_eq_true_eq] at hin
        exact (mem_inter.1 ((E.mem_enum _ _).1 hin)).1
    · have hj' : stepOneOf a (stepDefault a v1) = .ok false := by
        rw [hz]
        rw [stepOneOf_false] at hj ⊢
        rcases hj with hj | hj
        · left
          rcases combineFree_inter hc (op := "one_of") (by simp) with ⟨h1, _⟩ | ⟨_, h2⟩ | ⟨_, _, _, _, _, _, _, _, h2, _⟩
          · exact h1
          · rw [← h2]; exact hj
          · rw [hj] at h2; cases h2
        · exact Or.inr hj
      rcases stepSubset_ok hsub with ⟨hn, rfl⟩ | ⟨rfl, rfl⟩ | ⟨l, A, xs, hL, hA, rfl, hxs, hne, rfl⟩ | ⟨l, s, hL, rfl, hk, rfl⟩
      · refine ⟨w', claimRun_intro hv s1' hj' ?_ (supOk _ hsp) (essOk _ hes), .refl _⟩
        rw [hz]
        unfold stepSubset
        rcases combineFree_inter hc (op := "subset_of") (by simp) with ⟨h1, _⟩ | ⟨_, h2⟩ | ⟨_, _, _, _, _, _, _, _, h2, _⟩
        · rw [h1]
        · rw [← h2, hn]
        · rw [hn] at h2; cases h2
      · refine ⟨none, claimRun_intro hv s1' hj' ?_ (supOk _ hsp) (essOk _ hes), .refl _⟩
        rw [hz]
        unfold stepSubset
        cases a.get? "subset_of" <;> rfl
      · have hle : ∀ x ∈ E.enum (inter A xs), x ∈ xs := fun x hx => (mem_inter.1 ((E.mem_enum _ _).1 hx)).2
        rcases combineFree_inter hc (op := "subset_of") (by simp) with ⟨h1, _⟩ | ⟨_, h2⟩ | ⟨x, y, p, q, hx, _, hp, _, hr, _⟩
        · refine ⟨some (.arr xs), claimRun_intro hv s1' hj' ?_ (stepSuperset_more hxs hle (supOk _ hsp)) (stepEssential_some a _), Or.inr ⟨_, _, rfl, rfl, hle⟩⟩
          rw [hz]
          unfold stepSubset
          rw [h1]
        · refine ⟨_, claimRun_intro hv s1' hj' ?_ (supOk _ hsp) (stepEssential_some a _), .refl _⟩
          rw [hz]
          unfold stepSubset at hsub ⊢
          rw [← h2]
          simp only [hL, hA, hxs, ok_bind] at hsub ⊢
          exact hsub
        · rw [hr] at hL
          cases hL
          obtain ⟨rfl, hAh⟩ := pySet_arr hA
          have hpA : ∀ x ∈ E.enum (inter (E.enum (inter p q)) xs), x ∈ E.enum (inter p xs) := by
            intro x hx
            rw [E.mem_enum, mem_inter, E.mem_enum, mem_inter] at hx
            rw [E.mem_enum, mem_inter]
            exact ⟨hx.1.1, hx.2⟩
          have hne' : E.enum (inter p xs) ≠ [] := by
            intro hc
            cases hh : E.enum (inter (E.enum (inter p q)) xs) with
            | nil => exact hne hh
            | cons x l =>
              have := hpA x (by rw [hh]; simp)
              rw [hc] at this
              cases this
          have hm : mkSet (E.enum (inter p xs)) = .ok (E.enum (inter p xs)) := by
            refine mkSet_of fun x hx => ?_
            rw [E.mem_enum, mem_inter] at hx
            exact pySet_hashable hp x hx.1
          refine ⟨some (.arr (E.enum (inter p xs))), claimRun_intro hv s1' hj' ?_ (stepSuperset_more hm hpA (supOk _ hsp)) (stepEssential_some a _), Or.inr ⟨_, _, rfl, rfl, hpA⟩⟩
          rw [hz]
          unfold stepSubset
          simp only [hx, hp, hxs, ok_bind]
          rw [if_neg (by simpa using hne')]
          rfl
      · have hor : b.get? "subset_of" ≠ none ∨ a.get? "subset_of" ≠ none := by
          rcases combineFree_inter hc (op := "subset_of") (by simp) with ⟨_, h2⟩ | ⟨_, h2⟩ | ⟨_, _, _, _, h2, _⟩
          · left; rw [← h2, hL]; simp
          · right; rw [← h2, hL]; simp
          · right; rw [h2]; simp
        obtain ⟨l1, l2, l3⟩ := hl hor
        obtain ⟨xs, hx⟩ := listed_supplied l1 l2 l3 s1' _ hz
        cases hx

/-- A claim accepted under a policy that only restricts had at least the same values before. -/
theorem run_alone {E : SetEnum Val} {b : ClaimPolicy} {v w' : Option Val} (hb : b.get? "value" = none ∧ b.get? "add" = none ∧ b.get? "default" = none)
    (hl : b.get? "subset_of" ≠ none → IsListed v) (h : claimRun E b v = .ok w') : Narrower w' v := by
  obtain ⟨v1, s1, s2⟩ := claimRun_ok_inv hb.1 h
  have e1 : v1 = v := by
    rcases stepAdd_ok s1 with ⟨_, rfl⟩ | ⟨z, hz, _⟩ | ⟨z, _, _, hz, _⟩
    · rfl
    · rw [hb.2.1] at hz; cases hz
    · rw [hb.2.1] at hz; cases hz
  subst e1
  have e2 : stepDefault b v1 = v1 := by
    cases v1 with
    | none => exact hb.2.2
    | some w => rfl
  rw [e2] at s2
  rcases s2 with ⟨_, rfl⟩ | ⟨_, hsub, _, _⟩
  · exact .refl _
  · rcases stepSubset_ok hsub with ⟨_, rfl⟩ | ⟨rfl, rfl⟩ | ⟨l, A, xs, _, _, rfl, _, _, rfl⟩ | ⟨l, s, hL, rfl, _, _⟩
    · exact .refl _
    · exact .refl _
    · exact Or.inr ⟨_, _, rfl, rfl, fun x hx => (mem_inter.1 ((E.mem_enum _ _).1 hx)).2⟩
    · obtain ⟨xs, hx⟩ := hl (by rw [hL]; simp) _ rfl
      cases hx

/-! ## Chains -/

/-- What holds of the policies for a claim in every statement, and of every combination of such policies, holds of the policy that is gathered. -/
theorem gatherRest_pred {E : SetEnum Val} {K : SetEnum String} {t c : String} {P : ClaimPolicy → Prop} (hP : ∀ a b r, P a → P b → combineClaimPolicy E K a b = .ok r → P r) :
    ∀ {l : List PStatement} {r R : Rule}, gatherRest E K t l r = .ok R → (∀ p, r.policy.get? c = some p → P p) → (∀ e ∈ l, ∀ p, (e.rule t).policy.get? c = some p → P p) →
      ∀ p, R.policy.get? c = some p → P p := by
  intro l
  induction l with
  | nil =>
    intro r R h h0 _
    simp only [gatherRest, Except.ok.injEq] at h
    subst h
    exact h0
  | cons es l ih =>
    intro r R h h0 hl
    obtain ⟨r1, g1, s1⟩ := gatherRest_cons h
    refine ih g1 ?_ fun e he => hl e (List.mem_cons_of_mem _ he)
    rcases s1 with ⟨_, rfl⟩ | ⟨_, _, hc⟩
    · exact h0
    · intro p hp
      obtain ⟨_, _, hc⟩ := combine_ok hc
      have hc := hc c
      rw [hp] at hc
      cases ha : r.policy.get? c with
      | none => rw [ha] at hc; exact hl es (by simp) p hc.symm
      | some a =>
        cases hb : (es.rule t).policy.get? c with
        | none => rw [ha, hb] at hc; cases hc; exact h0 _ ha
        | some b =>
          rw [ha, hb] at hc
          obtain ⟨q, h1, h2⟩ := hc
          cases h2
          exact hP a b _ (h0 a ha) (hl es (by simp) b hb) h1

theorem gatherPolicies_pred {E : SetEnum Val} {K : SetEnum String} {t c : String} {P : ClaimPolicy → Prop} (hP : ∀ a b r, P a → P b → combineClaimPolicy E K a b = .ok r → P r) {l : List PStatement} {R : Rule}
    (h : gatherPolicies E K l t = .ok R) (hl : ∀ e ∈ l, ∀ p, (e.rule t).policy.get? c = some p → P p) : ∀ p, R.policy.get? c = some p → P p := by
  cases l with
  | nil => cases h
  | cons e l => exact gatherRest_pred hP h (hl e (by simp)) fun e' he => hl e' (List.mem_cons_of_mem _ he)

/-- What is gathered as metadata comes from a statement. -/
theorem gatherRest_metadata_origin {E : SetEnum Val} {K : SetEnum String} {t c : String} {x : Val} : ∀ {l : List PStatement} {r R : Rule}, gatherRest E K t l r = .ok R → R.metadata.get? c = some x →
    r.metadata.get? c = some x ∨ ∃ e ∈ l, (e.rule t).metadata.get? c = some x := by
  intro l
  induction l with
  | nil =>
    intro r R h hx
    simp only [gatherRest, Except.ok.injEq] at h
    subst h
    exact Or.inl hx
  | cons es l ih =>
    intro r R h hx
    obtain ⟨r1, g1, s1⟩ := gatherRest_cons h
    rcases ih g1 hx with h1 | ⟨e, he, h1⟩
    · rcases s1 with ⟨_, rfl⟩ | ⟨_, _, hc⟩
      · exact Or.inl h1
      · obtain ⟨hm, _, _⟩ := combine_ok hc
        rw [hm c] at h1
        cases hb : (es.rule t).metadata.get? c with
        | none => rw [hb] at h1; exact Or.inl h1
        | some y => rw [hb] at h1; cases h1; exact Or.inr ⟨es, by simp, hb⟩
    · exact Or.inr ⟨e, List.mem_cons_of_mem _ he, h1⟩

theorem gatherPolicies_metadata_origin {E : SetEnum Val} {K : SetEnum String} {t c : String} {x : Val} {l : List PStatement} {R : Rule} (h : gatherPolicies E K l t = .ok R) (hx : R.metadata.get? c = some x) :
    ∃ e ∈ l, (e.rule t).metadata.get? c = some x := by
  cases l with
  | nil => cases h
  | cons e l =>
    rcases gatherRest_metadata_origin h hx with h1 | ⟨e', he, h1⟩
    · exact ⟨e, by simp, h1⟩
    · exact ⟨e', List.mem_cons_of_mem _ he, h1⟩

theorem combined_none {E : SetEnum Val} {K : SetEnum String} {op : String} (hop : op = "superset_of" ∨ op = "subset_of") (a b r : ClaimPolicy) (ha : a.get? op = none) (hb : b.get? op = none)
    (h : combineClaimPolicy E K a b = .ok r) : r.get? op = none := by
  unfold combineClaimPolicy at h
  cases hv : a.get? "value" with
  | some x =>
    simp only [hv] at h
    rcases (combineFixed_ok hv h).2 with ⟨rfl, _⟩ | ⟨e, rfl, _⟩
    · exact ha
    · rcases hop with rfl | rfl <;> rfl
  | none =>
    simp only [hv] at h
    rcases combineFree_inter h (op := op) (by rcases hop with rfl | rfl <;> simp) with ⟨_, h2⟩ | ⟨_, h2⟩ | ⟨_, _, _, _, h2, _⟩
    · rw [h2]; exact hb
    · rw [h2]; exact ha
    · rw [ha] at h2; cases h2

theorem combined_listed {E : SetEnum Val} {K : SetEnum String} (a b r : ClaimPolicy) (ha : IsListed (a.get? "default") ∧ IsListed (a.get? "add")) (hb : IsListed (b.get? "default") ∧ IsListed (b.get? "add"))
    (h : combineClaimPolicy E K a b = .ok r) : IsListed (r.get? "default") ∧ IsListed (r.get? "add") := by
  unfold combineClaimPolicy at h
  cases hv : a.get? "value" with
  | some x =>
    simp only [hv] at h
    rcases (combineFixed_ok hv h).2 with ⟨rfl, _⟩ | ⟨e, rfl, _⟩
    · exact ha
    · exact ⟨fun v hv => (by cases hv), fun v hv => (by cases hv)⟩
  | none =>
    simp only [hv] at h
    refine ⟨?_, ?_⟩
    · rw [(combineFree_default h).1]
      intro v hv
      cases hd : a.get? "default" with
      | none => rw [hd] at hv; exact hb.1 v hv
      | some z => rw [hd] at hv; exact ha.1 v (by rw [hd]; exact hv)
    · rcases combineFree_add h with ⟨_, h2⟩ | ⟨_, h2⟩ | ⟨_, _, L, _, _, h2, _⟩
      · rw [h2]; exact hb.2
      · rw [h2]; exact ha.2
      · intro v hv; rw [h2] at hv; cases hv; exact ⟨L, rfl⟩

theorem gathered_without {E : SetEnum Val} {K : SetEnum String} {t : String} {sups : List PStatement} {es : PStatement} {R' : Rule} (hne : sups ≠ []) (h : gatherPolicies E K (sups ++ [es]) t = .ok R') :
    ∃ R, gatherPolicies E K sups t = .ok R ∧ (es.rule t = ⟨[], []⟩ ∧ R' = R ∨ combine E K R (es.rule t) = .ok R') := by
  cases sups with
  | nil => exact absurd rfl hne
  | cons e l =>
    simp only [List.cons_append, gatherPolicies, gatherRest_append] at h ⊢
    cases hR : gatherRest E K t l (e.rule t) with
    | error err => rw [hR] at h; cases h
    | ok R =>
      rw [hR, ok_bind] at h
      refine ⟨R, rfl, ?_⟩
      obtain ⟨r1, g1, s1⟩ := gatherRest_cons h
      simp only [gatherRest, Except.ok.injEq] at g1
      subst g1
      rcases s1 with h1 | ⟨_, _, h1⟩
      · exact Or.inl h1
      · exact Or.inr h1

/-- One type of entity. -/
theorem policyFor_without {E : SetEnum Val} {K : SetEnum String} {sups : List PStatement} {es leaf : PStatement} {t : String} {o : Option Metadata} (hne : sups ≠ []) (ho : OnlyRestricts t es)
    (hr : Restrictable t sups es leaf) (h : policyFor E K (sups ++ [es]) leaf t = .ok o) :
    ∃ o', policyFor E K sups leaf t = .ok o' ∧ ∀ m', o = some m' → ∃ m, o' = some m ∧ ∀ c, Narrower (m'.get? c) (m.get? c) := by
  unfold policyFor at h ⊢
  cases hg : gatherPolicies E K (sups ++ [es]) t with
  | error e => rw [hg] at h; cases h
  | ok R' =>
    obtain ⟨R, hR, hs⟩ := gathered_without hne hg
    rw [hg, ok_bind] at h
    rw [hR, ok_bind]
    cases hm : leaf.metadata.get? t with
    | none =>
      simp only [hm] at h
      cases h
      exact ⟨none, rfl, fun m' he => by cases he⟩
    | some md =>
      simp only [hm] at h ⊢
      cases ha : applyPolicy E K md R' with
      | error e => rw [ha] at h; cases h
      | ok m' =>
        rw [ha, ok_bind] at h
        cases h
        rcases hs with ⟨_, rfl⟩ | hcomb
        · exact ⟨some m', by rw [ha]; rfl, fun m'' he => by cases he; exact ⟨m', rfl, fun c => .refl _⟩⟩
        · obtain ⟨hmd, _, hcl⟩ := combine_ok hcomb
          have hst : ∀ c, startValue md R' c = startValue md R c := by
            intro c
            unfold startValue
            rw [hmd c, ho.metadata]
            rfl
          have key : ∀ c, ∃ w, claimRes E R.policy c (startValue md R c) = .ok w ∧ Narrower (m'.get? c) w := by
            intro c
            have hrun := applyPolicy_ok E K ha c
            rw [hst c] at hrun
            have hc := hcl c
            unfold claimRes at hrun ⊢
            have lst : ∀ b, (es.rule t).policy.get? c = some b → (b.get? "subset_of" ≠ none ∨ ∃ e ∈ sups, ∃ q, (e.rule t).policy.get? c = some q ∧ q.get? "subset_of" ≠ none) →
                IsListed (startValue md R c) := by
              intro b hb hor v hv
              obtain ⟨l1, l2⟩ := hr.lists c b hb hor
              unfold startValue at hv
              cases hmc : md.get? c with
              | some x => rw [hmc] at hv; exact l1 md hm v (by rw [hmc]; exact hv)
              | none =>
                rw [hmc] at hv
                obtain ⟨e, he, hx⟩ := gatherPolicies_metadata_origin hR hv
                exact (l2 e he).1 v hx
            cases hA : R.policy.get? c with
            | none =>
              rw [hA] at hc
              refine ⟨_, rfl, ?_⟩
              cases hB : (es.rule t).policy.get? c with
              | none =>
                have hn : R'.policy.get? c = none := Eq.trans hc hB
                rw [hn] at hrun
                exact Or.inl (Except.ok.inj hrun).symm
              | some b =>
                have hn : R'.policy.get? c = some b := Eq.trans hc hB
                rw [hn] at hrun
                exact run_alone (ho.ops c b hB) (fun hs => lst b hB (Or.inl hs)) hrun
            | some a =>
              cases hB : (es.rule t).policy.get? c with
              | none =>
                rw [hA, hB] at hc
                have hn : R'.policy.get? c = some a := hc
                rw [hn] at hrun
                exact ⟨_, hrun, .refl _⟩
              | some b =>
                rw [hA, hB] at hc
                obtain ⟨p, hp, hq⟩ := hc
                rw [hq] at hrun
                refine run_without (ho.ops c b hB) ?_ ?_ hp hrun
                · cases hbs : b.get? "superset_of" with
                  | none => exact Or.inl rfl
                  | some z =>
                    right
                    exact gatherPolicies_pred (P := fun p => p.get? "superset_of" = none) (combined_none (Or.inl rfl)) hR (hr.superset c b hB (by rw [hbs]; simp)) a hA
                · intro hor
                  have hor' : b.get? "subset_of" ≠ none ∨ ∃ e ∈ sups, ∃ q, (e.rule t).policy.get? c = some q ∧ q.get? "subset_of" ≠ none := by
                    rcases hor with hor | hor
                    · exact Or.inl hor
                    · right
                      exact Classical.byContradiction fun hno => hor
                        (gatherPolicies_pred (P := fun p => p.get? "subset_of" = none) (combined_none (Or.inr rfl)) hR
                          (fun e he q hq => Classical.byContradiction fun hc => hno ⟨e, he, q, hq, hc⟩) a hA)
                  refine ⟨lst b hB hor', ?_⟩
                  exact gatherPolicies_pred (P := fun p => IsListed (p.get? "default") ∧ IsListed (p.get? "add")) combined_listed hR (fun e he q hq => ((hr.lists c b hB hor').2 e he).2 q hq) a hA
          obtain ⟨m, hm2⟩ := (applyPolicy_ok_iff E K md R).2 fun c _ => (key c).imp fun w hw => hw.1
          refine ⟨some m, by rw [hm2]; rfl, fun m'' he => ?_⟩
          cases he
          refine ⟨m, rfl, fun c => ?_⟩
          obtain ⟨w, h1, h2⟩ := key c
          rw [applyPolicy_ok E K hm2 c] at h1
          cases h1
          exact h2

/-- C226 for a statement at the end of the chain, where `superset_of` is not said twice of a claim, and claims bound by `subset_of` are lists (missing: the rest, where it is false). -/
theorem C226_last_partial (E : SetEnum Val) (K : SetEnum String) (sups : List PStatement) (es leaf : PStatement) (et : Option String) (d' : Dict (Option Metadata)) (hne : sups ≠ []) (ho : ∀ t, OnlyRestricts t es)
    (hr : ∀ t, Restrictable t sups es leaf) (h : callPolicy E K (sups ++ [es]) leaf et = .ok d') : ∃ d, callPolicy E K sups leaf et = .ok d ∧
      ∀ t m', d'.get? t = some (some m') → ∃ m, d.get? t = some (some m) ∧ ∀ c, Narrower (m'.get? c) (m.get? c) := by
  have types : ∀ ts d', policyForTypes E K (sups ++ [es]) leaf ts = .ok d' → ∃ d, policyForTypes E K sups leaf ts = .ok d ∧
      ∀ t m', d'.get? t = some (some m') → ∃ m, d.get? t = some (some m) ∧ ∀ c, Narrower (m'.get? c) (m.get? c) := by
    intro ts
    induction ts with
    | nil => intro d' h; cases h; exact ⟨[], rfl, fun t m' h => by cases h⟩
    | cons a ts ih =>
      intro d' h
      unfold policyForTypes at h ⊢
      cases h1 : policyFor E K (sups ++ [es]) leaf a with
      | error e => rw [h1] at h; cases h
      | ok o =>
        rw [h1, ok_bind] at h
        cases h2 : policyForTypes E K (sups ++ [es]) leaf ts with
        | error e => rw [h2] at h; cases h
        | ok rest =>
          rw [h2, ok_bind] at h
          cases h
          obtain ⟨o', g1, g2⟩ := policyFor_without hne (ho a) (hr a) h1
          obtain ⟨d, g3, g4⟩ := ih rest h2
          refine ⟨(a, o') :: d, by rw [g1, g3]; rfl, fun t m' ht => ?_⟩
          rw [Dict.get?_cons] at ht ⊢
          by_cases hat : a = t
          · rw [if_pos hat] at ht ⊢
            cases ht
            obtain ⟨m, rfl, hm⟩ := g2 m' rfl
            exact ⟨m, rfl, hm⟩
          · rw [if_neg hat] at ht ⊢
            exact g4 t m' ht
  cases et with
  | some t => exact types _ _ h
  | none => exact types _ _ h

/-! ## What is false, and the cases -/

theorem only_restricts {t0 c0 : String} {p0 : ClaimPolicy} (h : p0.get? "value" = none ∧ p0.get? "add" = none ∧ p0.get? "default" = none) (t : String) : OnlyRestricts t ⟨[], [(t0, [(c0, p0)])]⟩ := by
  refine ⟨rfl, fun c p hp => ?_⟩
  simp only [PStatement.rule, Dict.get?_cons] at hp
  by_cases h1 : t0 = t
  · rw [if_pos h1, Option.getD_some, Dict.get?_cons] at hp
    by_cases h2 : c0 = c
    · rw [if_pos h2] at hp; cases hp; exact h
    · rw [if_neg h2] at hp; cases hp
  · rw [if_neg h1] at hp; cases hp

/-- Violation: an authority that demands less than the one above it takes away what that one demands. -/
theorem C226_superset_violation : ¬ C226_full := by
  intro hf
  obtain ⟨d, h, -⟩ := hf Ex.E Ex.K [⟨[], [("op", [("scopes", [("superset_of", Ex.strs ["a", "b"])])])]⟩] [] ⟨[], [("op", [("scopes", [("superset_of", Ex.strs ["a"])])])]⟩
    ⟨[("op", [("scopes", Ex.strs ["a"])])], []⟩ none _ (by simp) (only_restricts (by decide)) (rfl : _ = Except.ok _)
  have : callPolicy Ex.E Ex.K ([⟨[], [("op", [("scopes", [("superset_of", Ex.strs ["a", "b"])])])]⟩] ++ []) ⟨[("op", [("scopes", Ex.strs ["a"])])], []⟩ none = .error .policyError := by decide +kernel
  rw [this] at h
  cases h

/-- Violation: an authority in the middle that says whether a claim is essential makes two contradicting policies, above and below it, acceptable. -/
theorem C226_middle_violation : ¬ C226_full := by
  intro hf
  obtain ⟨d, h, -⟩ := hf Ex.E Ex.K [⟨[], [("op", [("scopes", [("superset_of", Ex.strs ["a", "b"])])])]⟩] [⟨[], [("op", [("scopes", [("subset_of", Ex.strs ["a"])])])]⟩]
    ⟨[], [("op", [("scopes", [("essential", .bool false)])])]⟩ ⟨[("op", [("alg", Ex.s "x")])], []⟩ none _ (by simp) (only_restricts (by decide)) (rfl : _ = Except.ok _)
  have : callPolicy Ex.E Ex.K ([⟨[], [("op", [("scopes", [("superset_of", Ex.strs ["a", "b"])])])]⟩] ++ [⟨[], [("op", [("scopes", [("subset_of", Ex.strs ["a"])])])]⟩])
      ⟨[("op", [("alg", Ex.s "x")])], []⟩ none = .error .policyError := by decide +kernel
  rw [this] at h
  cases h

/-- Violation: an authority that demands a claim makes `essential` an acceptable value of it, whatever the authority above allows. -/
theorem C226_name_violation : ¬ C226_full := by
  intro hf
  obtain ⟨d, h, -⟩ := hf Ex.E Ex.K [⟨[], [("op", [("alg", [("subset_of", Ex.strs ["x"])])])]⟩] [] ⟨[], [("op", [("alg", [("essential", .bool true)])])]⟩
    ⟨[("op", [("alg", Ex.s "essential")])], []⟩ none _ (by simp) (only_restricts (by decide)) (rfl : _ = Except.ok _)
  have : callPolicy Ex.E Ex.K ([⟨[], [("op", [("alg", [("subset_of", Ex.strs ["x"])])])]⟩] ++ []) ⟨[("op", [("alg", Ex.s "essential")])], []⟩ none = .error .policyError := by decide +kernel
  rw [this] at h
  cases h

/-! The case of the theorem: the chain of C14, and one more authority that allows less. -/
namespace Ex226
def es : PStatement := ⟨[], [("op", [("scopes", [("subset_of", Ex.strs ["b", "c"]), ("essential", .bool true)])])]⟩
def sup : PStatement := ⟨[("op", [("org", Ex.s "A")])], [("op", [("scopes", [("subset_of", Ex.strs ["a", "b"]), ("superset_of", Ex.strs ["b"])])])]⟩
def lf : PStatement := ⟨[("op", [("scopes", Ex.strs ["a", "b", "d"])])], []⟩
end Ex226

open Ex226 in
example : (∀ t, OnlyRestricts t es) ∧ (∀ t, Restrictable t [sup] es lf) ∧
    callPolicy Ex.E Ex.K ([sup] ++ [es]) lf none = .ok [("op", some [("org", Ex.s "A"), ("scopes", Ex.strs ["b"])])] ∧
    callPolicy Ex.E Ex.K [sup] lf none = .ok [("op", some [("org", Ex.s "A"), ("scopes", Ex.strs ["a", "b"])])] := by
  refine ⟨only_restricts (by decide), fun t => ⟨fun c p hp => ?_, fun c p hp _ => ⟨fun md hm v hv => ?_, fun e he => ?_⟩⟩, by decide +kernel, by decide +kernel⟩
  · simp only [PStatement.rule, es, Dict.get?_cons] at hp
    by_cases h1 : "op" = t
    · rw [if_pos h1, Option.getD_some, Dict.get?_cons] at hp
      by_cases h2 : "scopes" = c
      · rw [if_pos h2] at hp; cases hp; exact fun h => absurd rfl h
      · rw [if_neg h2] at hp; cases hp
    · rw [if_neg h1] at hp; cases hp
  · simp only [lf, Dict.get?_cons] at hm
    by_cases h1 : "op" = t
    · rw [if_pos h1] at hm
      cases hm
      rw [Dict.get?_cons] at hv
      by_cases h2 : "scopes" = c
      · rw [if_pos h2] at hv; cases hv; exact ⟨_, rfl⟩
      · rw [if_neg h2] at hv; cases hv
    · rw [if_neg h1] at hm; cases hm
  · have hc : t = "op" ∧ c = "scopes" := by
      simp only [PStatement.rule, es, Dict.get?_cons] at hp
      by_cases h1 : "op" = t
      · rw [if_pos h1, Option.getD_some, Dict.get?_cons] at hp
        by_cases h2 : "scopes" = c
        · exact ⟨h1.symm, h2.symm⟩
        · rw [if_neg h2] at hp; cases hp
      · rw [if_neg h1] at hp; cases hp
    obtain ⟨rfl, rfl⟩ := hc
    rw [List.mem_singleton] at he
    subst he
    refine ⟨fun v hv => (by cases hv), fun q hq => ?_⟩
    cases hq
    exact ⟨fun v hv => (by cases hv), fun v hv => (by cases hv)⟩

end Fed.Policy
