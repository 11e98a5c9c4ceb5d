import Verif.Policy.Narrowed
/-
Property C226, for a statement anywhere in the chain: what one more statement that only restricts does to the policies that are gathered from the statements above and below it.
-/
namespace Fed.Policy
open Fed

/-! ## Policies for one claim, with and without the statement -/

/-- The operand of `subset_of` or `one_of`: nothing is asked without the statement, the same is asked, or more is allowed. -/
def Inside (o' o : Option Val) : Prop :=
  o = none ∨ o' = o ∨ ∃ l A' A, o' = some (.arr A') ∧ o = some l ∧ pySet (.arr A') = .ok A' ∧ pySet l = .ok A ∧ ∀ x ∈ A', x ∈ A

/-- The policy `r'` that is gathered with the statement asks at least as much as `r`, which is gathered without it. `S`: the statement says `superset_of`. -/
structure Tighter (S : Prop) (r' r : ClaimPolicy) : Prop where
  value : r'.get? "value" = r.get? "value"
  free : r.get? "value" = none → r'.get? "add" = r.get? "add" ∧ r'.get? "default" = r.get? "default" ∧ Inside (r'.get? "one_of") (r.get? "one_of") ∧ Inside (r'.get? "subset_of") (r.get? "subset_of") ∧
    (r'.get? "superset_of" = r.get? "superset_of" ∨ r.get? "superset_of" = none ∧ S) ∧ (Demanded r → Demanded r') ∧
    (r'.get? "essential" = r.get? "essential" ∨ ∃ b, r'.get? "essential" = some (.bool b)) ∧ (r'.get? "one_of" ≠ none → r.get? "one_of" = none → r.get? "subset_of" = none ∧ r.get? "superset_of" = none)

theorem pySet_enum {E : SetEnum Val} {x : Val} {a b : List Val} (h : pySet x = .ok a) : pySet (.arr (E.enum (inter a b))) = .ok (E.enum (inter a b)) := by
  refine mkSet_of fun z hz => ?_
  rw [E.mem_enum, mem_inter] at hz
  exact pySet_hashable h z hz.1

/-- A claim accepted under the tighter policy is accepted under the other, with at least the same values. -/
theorem run_tighter {E : SetEnum Val} {S : Prop} {r' r : ClaimPolicy} {v w' : Option Val} (ht : Tighter S r' r)
    (hl : r'.get? "subset_of" ≠ none → IsListed v ∧ IsListed (r.get? "default") ∧ IsListed (r.get? "add")) (h : claimRun E r' v = .ok w') : ∃ w, claimRun E r v = .ok w ∧ Narrower w' w := by
  cases hv : r.get? "value" with
  | some x =>
    rw [claimRun_value (by rw [ht.value]; exact hv)] at h
    cases h
    exact ⟨_, claimRun_value hv v, .refl _⟩
  | none =>
    obtain ⟨ra, rd, one, sub, sup, ess, -, ex⟩ := ht.free hv
    obtain ⟨v1, s1, s2⟩ := claimRun_ok_inv (by rw [ht.value]; exact hv) h
    have s1' : stepAdd E r v = .ok v1 := by
      unfold stepAdd at s1 ⊢
      rw [← ra]; exact s1
    have hd : stepDefault r' v1 = stepDefault r v1 := by
      unfold stepDefault
      rw [rd]
    rw [hd] at s2
    have supOk : ∀ w, stepSuperset r' w = .ok () → stepSuperset r w = .ok () := by
      intro w hw
      unfold stepSuperset at hw ⊢
      rcases sup with hs | ⟨hs, -⟩
      · rw [← hs]; exact hw
      · rw [hs]
    have essOk : ∀ w, stepEssential r' w = .ok () → stepEssential r w = .ok () := by
      intro w hw
      cases w with
      | some z => exact stepEssential_some r z
      | none =>
        rw [stepEssential_none] at hw ⊢
        exact fun hda => hw (ess hda)
    generalize hz : stepDefault r v1 = z at s2
    rcases s2 with ⟨hj, rfl⟩ | ⟨hj, hsub, hsp, hes⟩
    · obtain ⟨l, u, hl1, rfl, hnl, hin⟩ := stepOneOf_true hj
      refine ⟨some u, ?_, .refl _⟩
      have jumpOf : ∀ l', r.get? "one_of" = some l' → pyIn u l' = .ok true → claimRun E r v = .ok (some u) := by
        intro l' hl' hp
        rw [← hz]
        refine claimRun_intro_jump hv s1' ?_
        rw [hz]
        simp [stepOneOf, hl', hnl, hp]
      rcases one with h1 | h1 | ⟨l2, A', A, e1, e2, p1, p2, hA⟩
      · obtain ⟨n1, n2⟩ := ex (by rw [hl1]; simp) h1
        refine claimRun_intro hv s1' (stepOneOf_false.2 (Or.inl h1)) ?_ ?_ (stepEssential_some r u)
        · rw [hz]; unfold stepSubset; rw [n1]
        · unfold stepSuperset; rw [n2]
      · exact jumpOf l (by rw [← h1]; exact hl1) hin
      · rw [hl1] at e1
        cases e1
        simp only [pyIn, Except.ok.injEq, decide_eq_true_eq] at hin
        exact jumpOf l2 e2 (pyIn_of_pySet p2 (hA u hin))
    · have hj' : stepOneOf r (stepDefault r v1) = .ok false := by
        rw [hz]
        rw [stepOneOf_false] at hj ⊢
        rcases hj with hj | hj
        · left
          rcases one with h1 | h1 | ⟨_, _, _, e1, _⟩
          · exact h1
          · rw [← h1]; exact hj
          · rw [hj] at e1; cases e1
        · exact Or.inr hj
      rcases stepSubset_ok hsub with ⟨hn, rfl⟩ | ⟨rfl, rfl⟩ | ⟨l, A, xs, hL, hA, rfl, hxs, hne, rfl⟩ | ⟨l, s, hL, rfl, hk, rfl⟩
      · refine ⟨w', claimRun_intro hv s1' hj' ?_ (supOk _ hsp) (essOk _ hes), .refl _⟩
        rw [hz]
        unfold stepSubset
        rcases sub with h1 | h1 | ⟨_, _, _, e1, _⟩
        · rw [h1]
        · rw [← h1, hn]
        · rw [hn] at e1; cases e1
      · refine ⟨none, claimRun_intro hv s1' hj' ?_ (supOk _ hsp) (essOk _ hes), .refl _⟩
        rw [hz]
        unfold stepSubset
        cases r.get? "subset_of" <;> rfl
      · have hle : ∀ x ∈ E.enum (inter A xs), x ∈ xs := fun x hx => (mem_inter.1 ((E.mem_enum _ _).1 hx)).2
        rcases sub with h1 | h1 | ⟨l2, A', A2, e1, e2, p1, p2, hA2⟩
        · refine ⟨some (.arr xs), claimRun_intro hv s1' hj' ?_ (stepSuperset_more hxs hle (supOk _ hsp)) (stepEssential_some r _), Or.inr ⟨_, _, rfl, rfl, hle⟩⟩
          rw [hz]
          unfold stepSubset
          rw [h1]
        · refine ⟨_, claimRun_intro hv s1' hj' ?_ (supOk _ hsp) (stepEssential_some r _), .refl _⟩
          rw [hz]
          unfold stepSubset at hsub ⊢
          rw [← h1]
          simp only [hL, hA, hxs, ok_bind] at hsub ⊢
          exact hsub
        · rw [e1] at hL
          cases hL
          rw [p1] at hA
          cases hA
          have hpA : ∀ x ∈ E.enum (inter A xs), x ∈ E.enum (inter A2 xs) := by
            intro x hx
            rw [E.mem_enum, mem_inter] at hx ⊢
            exact ⟨hA2 x hx.1, hx.2⟩
          have hne' : E.enum (inter A2 xs) ≠ [] := by
            intro hc
            cases hh : E.enum (inter A xs) with
            | nil => exact hne hh
            | cons x l =>
              have := hpA x (by rw [hh]; simp)
              rw [hc] at this
              cases this
          refine ⟨some (.arr (E.enum (inter A2 xs))), claimRun_intro hv s1' hj' ?_ (stepSuperset_more (pySet_enum p2) hpA (supOk _ hsp)) (stepEssential_some r _), Or.inr ⟨_, _, rfl, rfl, hpA⟩⟩
          rw [hz]
          unfold stepSubset
          simp only [e2, p2, hxs, ok_bind]
          rw [if_neg (by simpa using hne')]
          rfl
      · obtain ⟨l1, l2, l3⟩ := hl (by rw [hL]; simp)
        obtain ⟨xs, hx⟩ := listed_supplied l1 l2 l3 s1' _ hz
        cases hx

/-! ## Combining -/

theorem mem_comb {a b : ClaimPolicy} {op : String} (hop : op ∈ policyFunctions) : op ∈ combPolicy a b ↔ a.get? op ≠ none ∨ b.get? op ≠ none := by
  rw [mem_combPolicy]
  simp [hop, Option.isSome_iff_ne_none]

/-- Where one_of is, the other two are not. -/
theorem combined_excl {E : SetEnum Val} {K : SetEnum String} {a b q : ClaimPolicy} (h : combineFree E K a b = .ok q) (h1 : q.get? "one_of" ≠ none) :
    (a.get? "subset_of" = none ∧ b.get? "subset_of" = none) ∧ a.get? "superset_of" = none ∧ b.get? "superset_of" = none := by
  obtain ⟨-, hex, -, -, hno⟩ := combineFree_ok h
  have hone : "one_of" ∈ combPolicy a b := Classical.byContradiction fun hc => h1 (hno _ hc)
  have no : ∀ op, op = "subset_of" ∨ op = "superset_of" → a.get? op = none ∧ b.get? op = none := by
    intro op hop
    have : op ∉ combPolicy a b := by
      intro hc
      refine hex ⟨hone, ?_⟩
      rcases hop with rfl | rfl
      · exact Or.inl hc
      · exact Or.inr hc
    rw [mem_comb (by rcases hop with rfl | rfl <;> decide)] at this
    constructor
    · exact Classical.byContradiction fun hc => this (Or.inl hc)
    · exact Classical.byContradiction fun hc => this (Or.inr hc)
  exact ⟨no _ (Or.inl rfl), no _ (Or.inr rfl)⟩

theorem essential_of {E : SetEnum Val} {K : SetEnum String} {a b q : ClaimPolicy} (h : combineFree E K a b = .ok q) :
    q.get? "essential" = match a.get? "essential", b.get? "essential" with
      | some x, some y => some (if !x.truthy && y.truthy then .bool true else x)
      | some x, none => some x
      | none, o => o := by
  rcases combineFree_essential h with ⟨e1, e2⟩ | ⟨e1, e2⟩ | ⟨x, y, e1, e2, _, e3⟩
  · rw [e2, e1]
  · rw [e2, e1]
    cases a.get? "essential" <;> rfl
  · rw [e3, e1, e2]

/-- What the statement says, below what is gathered above it. -/
theorem tighter_above {E : SetEnum Val} {K : SetEnum String} {a e q : ClaimPolicy} (he : e.get? "value" = none ∧ e.get? "add" = none ∧ e.get? "default" = none)
    (hb : ∀ x, e.get? "essential" = some x → ∃ b, x = .bool b) (hs : e.get? "superset_of" ≠ none → a.get? "superset_of" = none) (h : combineClaimPolicy E K a e = .ok q) :
    Tighter (e.get? "superset_of" ≠ none) q a := by
  unfold combineClaimPolicy at h
  cases hv : a.get? "value" with
  | some x =>
    simp only [hv] at h
    exact ⟨by rw [(combineFixed_ok hv h).1, hv], fun hn => by rw [hv] at hn; cases hn⟩
  | none =>
    simp only [hv] at h
    refine ⟨by rw [combineFree_value h hv, he.1, hv], fun _ => ⟨?_, ?_, ?_, ?_, ?_, ?_, ?_, ?_⟩⟩
    · rcases combineFree_add h with ⟨h1, h2⟩ | ⟨_, h2⟩ | ⟨x, y, L, _, h2, _⟩
      · rw [h2, h1]; exact he.2.1
      · exact h2
      · rw [he.2.1] at h2; cases h2
    · rw [(combineFree_default h).1, he.2.2]
      cases a.get? "default" <;> rfl
    · rcases combineFree_inter h (op := "one_of") (by simp) with ⟨h1, _⟩ | ⟨_, h2⟩ | ⟨x, y, p, q, hx, _, hp, _, hr, _⟩
      · exact Or.inl h1
      · exact Or.inr (Or.inl h2)
      · exact Or.inr (Or.inr ⟨x, _, p, hr, hx, pySet_enum hp, hp, fun z hz => (mem_inter.1 ((E.mem_enum _ _).1 hz)).1⟩)
    · rcases combineFree_inter h (op := "subset_of") (by simp) with ⟨h1, _⟩ | ⟨_, h2⟩ | ⟨x, y, p, q, hx, _, hp, _, hr, _⟩
      · exact Or.inl h1
      · exact Or.inr (Or.inl h2)
      · exact Or.inr (Or.inr ⟨x, _, p, hr, hx, pySet_enum hp, hp, fun z hz => (mem_inter.1 ((E.mem_enum _ _).1 hz)).1⟩)
    · cases hes : e.get? "superset_of" with
      | some z => exact Or.inr ⟨hs (by rw [hes]; simp), by simp⟩
      | none =>
        left
        rcases combineFree_inter h (op := "superset_of") (by simp) with ⟨h1, h2⟩ | ⟨_, h2⟩ | ⟨_, _, _, _, _, h2, _⟩
        · rw [h2, h1, hes]
        · exact h2
        · rw [hes] at h2; cases h2
    · unfold Demanded
      rw [essential_of h]
      intro hd
      cases hx : a.get? "essential" with
      | none => rw [hx] at hd; rcases hd with hd | hd <;> cases hd
      | some x =>
        rw [hx] at hd
        cases e.get? "essential" with
        | none => exact hd
        | some y => rcases hd with hd | hd <;> (cases hd; simp [Val.truthy])
    · rw [essential_of h]
      cases hx : a.get? "essential" with
      | none =>
        cases hy : e.get? "essential" with
        | none => exact Or.inl rfl
        | some y => obtain ⟨b, rfl⟩ := hb y hy; exact Or.inr ⟨b, rfl⟩
      | some x =>
        cases e.get? "essential" with
        | none => exact Or.inl rfl
        | some y =>
          simp only
          split
          · exact Or.inr ⟨true, rfl⟩
          · exact Or.inl rfl
    · intro h1 _
      obtain ⟨g1, g2⟩ := combined_excl h h1
      exact ⟨g1.1, g2.1⟩

/-- What the statement says, above what the next statement says, which is the only other one to say something. -/
theorem tighter_below {E : SetEnum Val} {K : SetEnum String} {e b q : ClaimPolicy} (he : e.get? "value" = none ∧ e.get? "add" = none ∧ e.get? "default" = none)
    (hb : ∀ x, e.get? "essential" = some x → ∃ b, x = .bool b) (hs : e.get? "superset_of" ≠ none → b.get? "superset_of" = none) (h : combineClaimPolicy E K e b = .ok q) :
    Tighter (e.get? "superset_of" ≠ none) q b := by
  unfold combineClaimPolicy at h
  simp only [he.1] at h
  refine ⟨combineFree_value h he.1, fun _ => ⟨?_, ?_, ?_, ?_, ?_, ?_, ?_, ?_⟩⟩
  · rcases combineFree_add h with ⟨_, h2⟩ | ⟨h1, h2⟩ | ⟨x, y, L, h2, _⟩
    · exact h2
    · rw [h2, h1]; exact he.2.1
    · rw [he.2.1] at h2; cases h2
  · rw [(combineFree_default h).1, he.2.2]
    rfl
  · rcases combineFree_inter h (op := "one_of") (by simp) with ⟨_, h2⟩ | ⟨h1, _⟩ | ⟨x, y, p, q, _, hy, hp, hq, hr, _⟩
    · exact Or.inr (Or.inl h2)
    · exact Or.inl h1
    · exact Or.inr (Or.inr ⟨y, _, q, hr, hy, pySet_enum hp, hq, fun z hz => (mem_inter.1 ((E.mem_enum _ _).1 hz)).2⟩)
  · rcases combineFree_inter h (op := "subset_of") (by simp) with ⟨_, h2⟩ | ⟨h1, _⟩ | ⟨x, y, p, q, _, hy, hp, hq, hr, _⟩
    · exact Or.inr (Or.inl h2)
    · exact Or.inl h1
    · exact Or.inr (Or.inr ⟨y, _, q, hr, hy, pySet_enum hp, hq, fun z hz => (mem_inter.1 ((E.mem_enum _ _).1 hz)).2⟩)
  · cases hes : e.get? "superset_of" with
    | some z => exact Or.inr ⟨hs (by rw [hes]; simp), by simp⟩
    | none =>
      left
      rcases combineFree_inter h (op := "superset_of") (by simp) with ⟨_, h2⟩ | ⟨h1, h2⟩ | ⟨_, _, _, _, h2, _⟩
      · exact h2
      · rw [h2, h1, hes]
      · rw [hes] at h2; cases h2
  · unfold Demanded
    rw [essential_of h]
    intro hd
    cases hx : e.get? "essential" with
    | none => exact hd
    | some x =>
      obtain ⟨z, rfl⟩ := hb x hx
      cases hy : b.get? "essential" with
      | none => rw [hy] at hd; rcases hd with hd | hd <;> cases hd
      | some y =>
        rw [hy] at hd
        rcases hd with hd | hd <;> (cases hd; cases z <;> simp [Val.truthy])
  · rw [essential_of h]
    cases hx : e.get? "essential" with
    | none => exact Or.inl rfl
    | some x =>
      obtain ⟨z, rfl⟩ := hb x hx
      cases hy : b.get? "essential" with
      | none => exact Or.inr ⟨z, rfl⟩
      | some y =>
        simp only
        split
        · exact Or.inr ⟨true, rfl⟩
        · exact Or.inr ⟨z, rfl⟩
  · intro h1 _
    obtain ⟨g1, g2⟩ := combined_excl h h1
    exact ⟨g1.2, g2.2⟩

theorem inside_step {E : SetEnum Val} {K : SetEnum String} {a' a b q' q : ClaimPolicy} {op : String} (hop : op = "superset_of" ∨ op = "subset_of" ∨ op = "one_of") (hi : Inside (a'.get? op) (a.get? op))
    (h' : combineFree E K a' b = .ok q') (h : combineFree E K a b = .ok q) : Inside (q'.get? op) (q.get? op) := by
  rcases combineFree_inter h hop with ⟨h1, h2⟩ | ⟨h1, h2⟩ | ⟨x, y, p, s, hx, hy, hp, hs, hr, _⟩
  · rw [h2]
    rcases combineFree_inter h' hop with ⟨_, g2⟩ | ⟨g1, _⟩ | ⟨x', y', p', s', _, gy, gp, gs, gr, _⟩
    · exact Or.inr (Or.inl g2)
    · exact Or.inl g1
    · exact Or.inr (Or.inr ⟨y', _, s', gr, gy, pySet_enum gp, gs, fun z hz => (mem_inter.1 ((E.mem_enum _ _).1 hz)).2⟩)
  · rw [h2]
    rcases combineFree_inter h' hop with ⟨g1, g2⟩ | ⟨_, g2⟩ | ⟨_, _, _, _, _, g2, _⟩
    · rw [g2, h1, ← g1]; exact hi
    · rw [g2]; exact hi
    · rw [h1] at g2; cases g2
  · rcases combineFree_inter h' hop with ⟨g1, g2⟩ | ⟨g1, _⟩ | ⟨x', y', p', s', gx, gy, gp, gs, gr, _⟩
    · rcases hi with hi | hi | ⟨_, _, _, e1, _⟩
      · rw [hx] at hi; cases hi
      · rw [g1, hx] at hi; cases hi
      · rw [g1] at e1; cases e1
    · rw [hy] at g1; cases g1
    · rw [hy] at gy
      cases gy
      rw [hs] at gs
      cases gs
      rcases hi with hi | hi | ⟨l, A', A, e1, e2, p1, p2, hA⟩
      · rw [hx] at hi; cases hi
      · rw [gx, hx] at hi
        cases hi
        rw [hp] at gp
        cases gp
        exact Or.inr (Or.inl (by rw [gr, hr]))
      · rw [gx] at e1
        cases e1
        rw [hx] at e2
        cases e2
        rw [gp] at p1
        cases p1
        rw [hp] at p2
        cases p2
        refine Or.inr (Or.inr ⟨_, _, _, gr, hr, pySet_enum gp, pySet_enum hp, fun z hz => ?_⟩)
        rw [E.mem_enum, mem_inter] at hz ⊢
        exact ⟨hA z hz.1, hz.2⟩

theorem inside_none {o' o : Option Val} (h : Inside o' o) (hn : o' = none) : o = none := by
  rcases h with h | h | ⟨_, _, _, e1, _⟩
  · exact h
  · rw [← h]; exact hn
  · rw [hn] at e1; cases e1

/-- The next statement is combined with both. -/
theorem tighter_step {E : SetEnum Val} {K : SetEnum String} {S : Prop} {r' r b q' q : ClaimPolicy} (ht : Tighter S r' r) (hs : S → b.get? "superset_of" = none)
    (h' : combineClaimPolicy E K r' b = .ok q') (h : combineClaimPolicy E K r b = .ok q) : Tighter S q' q := by
  unfold combineClaimPolicy at h h'
  rw [ht.value] at h'
  cases hv : r.get? "value" with
  | some x =>
    simp only [hv] at h h'
    have g := (combineFixed_ok hv h).1
    have g' := (combineFixed_ok (by rw [ht.value]; exact hv) h').1
    exact ⟨by rw [g, g'], fun hn => by rw [g] at hn; cases hn⟩
  | none =>
    simp only [hv] at h h'
    have hv' : r'.get? "value" = none := by rw [ht.value]; exact hv
    obtain ⟨ra, rd, one, sub, sup, ess, essb, ex⟩ := ht.free hv
    refine ⟨by rw [combineFree_value h hv, combineFree_value h' hv'], fun _ => ⟨?_, ?_, inside_step (by simp) one h' h, inside_step (by simp) sub h' h, ?_, ?_, ?_, ?_⟩⟩
    · obtain ⟨-, -, -, g1, g2⟩ := combineFree_ok h
      obtain ⟨-, -, -, g1', g2'⟩ := combineFree_ok h'
      have hm : "add" ∈ combPolicy r' b ↔ "add" ∈ combPolicy r b := by
        rw [mem_comb (by decide), mem_comb (by decide), ra]
      by_cases hc : "add" ∈ combPolicy r b
      · obtain ⟨v, e1, e2⟩ := g1 _ hc
        obtain ⟨v', e1', e2'⟩ := g1' _ (hm.2 hc)
        have : doPolicy E r' b "add" = doPolicy E r b "add" := by
          rw [doPolicy_set (Or.inl rfl), doPolicy_set (Or.inl rfl)]
          unfold doSubOneSuperAdd
          rw [ra]
        rw [this, e1] at e1'
        cases e1'
        rw [e2, e2']
      · rw [g2 _ hc, g2' _ (fun hc' => hc (hm.1 hc'))]
    · rw [(combineFree_default h).1, (combineFree_default h').1, rd]
    · rcases sup with hsup | ⟨hsup, hS⟩
      · left
        obtain ⟨-, -, -, g1, g2⟩ := combineFree_ok h
        obtain ⟨-, -, -, g1', g2'⟩ := combineFree_ok h'
        have hm : "superset_of" ∈ combPolicy r' b ↔ "superset_of" ∈ combPolicy r b := by
          rw [mem_comb (by decide), mem_comb (by decide), hsup]
        by_cases hc : "superset_of" ∈ combPolicy r b
        · obtain ⟨v, e1, e2⟩ := g1 _ hc
          obtain ⟨v', e1', e2'⟩ := g1' _ (hm.2 hc)
          have : doPolicy E r' b "superset_of" = doPolicy E r b "superset_of" := by
            rw [doPolicy_set (Or.inr (Or.inl rfl)), doPolicy_set (Or.inr (Or.inl rfl))]
            unfold doSubOneSuperAdd
            rw [hsup]
          rw [this, e1] at e1'
          cases e1'
          rw [e2, e2']
        · rw [g2 _ hc, g2' _ (fun hc' => hc (hm.1 hc'))]
      · right
        refine ⟨?_, hS⟩
        rcases combineFree_inter h (op := "superset_of") (by simp) with ⟨_, h2⟩ | ⟨_, h2⟩ | ⟨_, _, _, _, h2, _⟩
        · rw [h2]; exact hs hS
        · rw [h2]; exact hsup
        · rw [hsup] at h2; cases h2
    · unfold Demanded at ess ⊢
      rw [essential_of h, essential_of h']
      intro hd
      rcases essb with he | ⟨z, he⟩
      · rw [he]; exact hd
      · rw [he] at ess ⊢
        cases hy : b.get? "essential" with
        | none =>
          rw [hy] at hd
          cases hx : r.get? "essential" with
          | none => rw [hx] at hd; rcases hd with hd | hd <;> cases hd
          | some x => rw [hx] at hd ess; exact ess hd
        | some y =>
          rw [hy] at hd
          left
          cases z with
          | true => simp [Val.truthy]
          | false =>
            have hty : y.truthy = true := by
              cases hx : r.get? "essential" with
              | none =>
                rw [hx] at hd
                rcases hd with hd | hd <;> (cases hd; simp [Val.truthy])
              | some x =>
                rw [hx] at hd ess
                simp only [Option.some.injEq] at hd ess
                by_cases hc : (!x.truthy && y.truthy) = true
                · simp only [Bool.and_eq_true] at hc; exact hc.2
                · rw [if_neg hc] at hd
                  rcases ess hd with h1 | h1 <;> cases h1
            have hf : (Val.bool false).truthy = false := rfl
            simp [hf, hty]
    · rw [essential_of h, essential_of h']
      rcases essb with he | ⟨z, he⟩
      · left; rw [he]
      · rw [he]
        right
        cases b.get? "essential" with
        | none => exact ⟨z, rfl⟩
        | some y =>
          simp only
          split
          · exact ⟨true, rfl⟩
          · exact ⟨z, rfl⟩
    · intro h1 h2
      obtain ⟨⟨g1, g2⟩, g3, g4⟩ := combined_excl h' h1
      have n1 := inside_none sub g1
      have n2 : r.get? "superset_of" = none := by
        rcases sup with hsup | ⟨hsup, _⟩
        · rw [← hsup]; exact g3
        · exact hsup
      exact ⟨combined_none (Or.inr rfl) r b q n1 g2 (by unfold combineClaimPolicy; simp only [hv]; exact h), combined_none (Or.inl rfl) r b q n2 g4 (by unfold combineClaimPolicy; simp only [hv]; exact h)⟩

/-! ## Chains -/

/-- What is gathered for claim `c` with and without the statement, which says `e` about it. -/
def Gathered (e : Option ClaimPolicy) (p' p : Option ClaimPolicy) : Prop :=
  p' = p ∨ (∃ x, e = some x ∧ p' = some x ∧ p = none) ∨ ∃ x q' q, e = some x ∧ p' = some q' ∧ p = some q ∧ Tighter (x.get? "superset_of" ≠ none) q' q

/-- The statement says nothing but restrictions about the claim, and says plainly whether it is essential. -/
structure Restricts (e : ClaimPolicy) : Prop where
  ops : e.get? "value" = none ∧ e.get? "add" = none ∧ e.get? "default" = none
  essential : ∀ x, e.get? "essential" = some x → ∃ b, x = .bool b

theorem gathered_step {E : SetEnum Val} {K : SetEnum String} {e p' p b q' q : Option ClaimPolicy} (he : ∀ x, e = some x → Restricts x) (hg : Gathered e p' p)
    (hs : ∀ x y, e = some x → b = some y → x.get? "superset_of" ≠ none → y.get? "superset_of" = none) (h' : CombinedClaim E K p' b q') (h : CombinedClaim E K p b q) : Gathered e q' q := by
  rcases hg with rfl | ⟨x, rfl, rfl, rfl⟩ | ⟨x, u', u, rfl, rfl, rfl, ht⟩
  · exact Or.inl (combinedClaim_fun h' h)
  · have h : q = b := h
    subst h
    cases q with
    | none =>
      have h' : q' = some x := h'
      exact Or.inr (Or.inl ⟨x, rfl, h', rfl⟩)
    | some y =>
      obtain ⟨z, hz, rfl⟩ := h'
      exact Or.inr (Or.inr ⟨x, z, y, rfl, rfl, rfl, tighter_below (he x rfl).ops (he x rfl).essential (hs x y rfl rfl) hz⟩)
  · cases b with
    | none =>
      have h : q = some u := h
      have h' : q' = some u' := h'
      exact Or.inr (Or.inr ⟨x, u', u, rfl, h', h, ht⟩)
    | some y =>
      obtain ⟨z, hz, rfl⟩ := h
      obtain ⟨z', hz', rfl⟩ := h'
      exact Or.inr (Or.inr ⟨x, z', z, rfl, rfl, rfl, tighter_step ht (hs x y rfl rfl) hz' hz⟩)

theorem gatherRest_tighter {E : SetEnum Val} {K : SetEnum String} {t c : String} {e : Option ClaimPolicy} (he : ∀ x, e = some x → Restricts x) : ∀ {l : List PStatement} {r' r R' R : Rule},
    (∀ s ∈ l, ∀ x y, e = some x → (s.rule t).policy.get? c = some y → x.get? "superset_of" ≠ none → y.get? "superset_of" = none) →
    r'.metadata.get? c = r.metadata.get? c → Gathered e (r'.policy.get? c) (r.policy.get? c) → gatherRest E K t l r' = .ok R' → gatherRest E K t l r = .ok R →
    R'.metadata.get? c = R.metadata.get? c ∧ Gathered e (R'.policy.get? c) (R.policy.get? c) := by
  intro l
  induction l with
  | nil =>
    intro r' r R' R _ hm hg h' h
    cases h
    cases h'
    exact ⟨hm, hg⟩
  | cons s l ih =>
    intro r' r R' R hs hm hg h' h
    obtain ⟨q, g, st⟩ := gatherRest_cons h
    obtain ⟨q', g', st'⟩ := gatherRest_cons h'
    have hl : ∀ s ∈ l, ∀ x y, e = some x → (s.rule t).policy.get? c = some y → x.get? "superset_of" ≠ none → y.get? "superset_of" = none := fun s hs' => hs s (List.mem_cons_of_mem _ hs')
    rcases st with ⟨e1, rfl⟩ | ⟨n1, _, c1⟩
    · rcases st' with ⟨_, rfl⟩ | ⟨n2, _, _⟩
      · exact ih hl hm hg g' g
      · exact absurd e1 n2
    · rcases st' with ⟨e2, _⟩ | ⟨_, _, c2⟩
      · exact absurd e2 n1
      · obtain ⟨m1, _, p1⟩ := combine_ok c1
        obtain ⟨m2, _, p2⟩ := combine_ok c2
        refine ih hl ?_ ?_ g' g
        · rw [m1 c, m2 c, hm]
        · exact gathered_step he hg (fun x y hx hy => hs s (by simp) x y hx hy) (p2 c) (p1 c)

/-- What is asked of the other statements, `others`, and of the entity, for the claims about which the statement says something: it says plainly whether they are essential, `superset_of` is not said of a claim by it and by another, and claims bound by `subset_of` are lists. -/
structure RestrictableAmong (t : String) (others : List PStatement) (es leaf : PStatement) : Prop where
  rest : Restrictable t others es leaf
  essential : ∀ c p x, (es.rule t).policy.get? c = some p → p.get? "essential" = some x → ∃ b, x = .bool b

theorem policyFor_anywhere {E : SetEnum Val} {K : SetEnum String} {sups post : List PStatement} {es leaf : PStatement} {t : String} {o : Option Metadata} (hne : sups ≠ []) (ho : OnlyRestricts t es)
    (hr : RestrictableAmong t (sups ++ post) es leaf) {R : Rule} (hR : gatherPolicies E K (sups ++ post) t = .ok R) (h : policyFor E K (sups ++ es :: post) leaf t = .ok o) :
    ∃ o', policyFor E K (sups ++ post) leaf t = .ok o' ∧ ∀ m', o = some m' → ∃ m, o' = some m ∧ ∀ c, Narrower (m'.get? c) (m.get? c) := by
  unfold policyFor at h ⊢
  cases hg : gatherPolicies E K (sups ++ es :: post) t with
  | error e => rw [hg] at h; cases h
  | ok R' =>
    rw [hg, ok_bind] at h
    rw [hR, ok_bind]
    have key0 : ∀ c, R'.metadata.get? c = R.metadata.get? c ∧ Gathered ((es.rule t).policy.get? c) (R'.policy.get? c) (R.policy.get? c) := by
      intro c
      cases sups with
      | nil => exact absurd rfl hne
      | cons e0 l =>
        simp only [List.cons_append, gatherPolicies, gatherRest_append] at hg hR
        cases h0 : gatherRest E K t l (e0.rule t) with
        | error err => rw [h0] at hR; cases hR
        | ok r =>
          rw [h0, ok_bind] at hR hg
          have hres : ∀ x, (es.rule t).policy.get? c = some x → Restricts x := fun x hx => ⟨ho.ops c x hx, fun y hy => hr.essential c x y hx hy⟩
          have habove : ∀ x, (es.rule t).policy.get? c = some x → x.get? "superset_of" ≠ none → ∀ a, r.policy.get? c = some a → a.get? "superset_of" = none := by
            intro x hx hn a ha
            have hgl : gatherPolicies E K (e0 :: l) t = .ok r := h0
            refine gatherPolicies_pred (P := fun p => p.get? "superset_of" = none) (combined_none (Or.inl rfl)) hgl (fun e he q hq => ?_) a ha
            exact hr.rest.superset c x hx hn e (List.mem_append_left _ he) q hq
          have hbelow : ∀ s ∈ post, ∀ x y, (es.rule t).policy.get? c = some x → (s.rule t).policy.get? c = some y → x.get? "superset_of" ≠ none → y.get? "superset_of" = none :=
            fun s hs x y hx hy hn => hr.rest.superset c x hx hn s (List.mem_append_right _ hs) y hy
          obtain ⟨r1, g1, s1⟩ := gatherRest_cons hg
          rcases s1 with ⟨_, rfl⟩ | ⟨_, _, hc⟩
          · rw [hR] at g1
            cases g1
            exact ⟨rfl, Or.inl rfl⟩
          · obtain ⟨m1, _, p1⟩ := combine_ok hc
            refine gatherRest_tighter hres hbelow ?_ ?_ g1 hR
            · rw [m1 c, ho.metadata]; rfl
            · have p1 := p1 c
              cases hx : (es.rule t).policy.get? c with
              | none =>
                rw [hx] at p1
                cases ha : r.policy.get? c with
                | none => rw [ha] at p1; exact Or.inl p1
                | some a => rw [ha] at p1; exact Or.inl p1
              | some x =>
                rw [hx] at p1
                cases ha : r.policy.get? c with
                | none =>
                  rw [ha] at p1
                  exact Or.inr (Or.inl ⟨x, rfl, p1, rfl⟩)
                | some a =>
                  rw [ha] at p1
                  obtain ⟨z, hz, hq⟩ := p1
                  exact Or.inr (Or.inr ⟨x, z, a, rfl, hq, rfl, tighter_above (hres x hx).ops (hres x hx).essential (fun hn => habove x hx hn a ha) hz⟩)
    cases hm : leaf.metadata.get? t with
    | none =>
      simp only [hm] at h
      cases h
      exact ⟨none, rfl, fun m' he => by cases he⟩
    | some md =>
      simp only [hm] at h ⊢
      cases ha : applyPolicy E K md R' with
      | error e => rw [ha] at h; cases h
      | ok m' =>
        rw [ha, ok_bind] at h
        cases h
        have key : ∀ c, ∃ w, claimRes E R.policy c (startValue md R c) = .ok w ∧ Narrower (m'.get? c) w := by
          intro c
          obtain ⟨hmd, hcl⟩ := key0 c
          have hst : startValue md R' c = startValue md R c := by
            unfold startValue
            rw [hmd]
          have hrun := applyPolicy_ok E K ha c
          rw [hst] at hrun
          unfold claimRes at hrun ⊢
          have lst : ∀ b, (es.rule t).policy.get? c = some b → (b.get? "subset_of" ≠ none ∨ ∃ e ∈ sups ++ post, ∃ q, (e.rule t).policy.get? c = some q ∧ q.get? "subset_of" ≠ none) →
              IsListed (startValue md R c) := by
            intro b hb hor v hv
            obtain ⟨l1, l2⟩ := hr.rest.lists c b hb hor
            unfold startValue at hv
            cases hmc : md.get? c with
            | some x => rw [hmc] at hv; exact l1 md hm v (by rw [hmc]; exact hv)
            | none =>
              rw [hmc] at hv
              obtain ⟨e, he, hx⟩ := gatherPolicies_metadata_origin hR hv
              exact (l2 e he).1 v hx
          rcases hcl with heq | ⟨x, hx, h1, h2⟩ | ⟨x, q', q, hx, h1, h2, ht⟩
          · rw [← heq]
            exact ⟨_, hrun, .refl _⟩
          · rw [h1] at hrun
            rw [h2]
            exact ⟨_, rfl, run_alone (ho.ops c x hx) (fun hs => lst x hx (Or.inl hs)) hrun⟩
          · rw [h1] at hrun
            rw [h2]
            refine run_tighter ht (fun hn => ?_) hrun
            have hor : x.get? "subset_of" ≠ none ∨ ∃ e ∈ sups ++ post, ∃ q, (e.rule t).policy.get? c = some q ∧ q.get? "subset_of" ≠ none := by
              refine Classical.byContradiction fun hno => hn ?_
              refine gatherPolicies_pred (P := fun p => p.get? "subset_of" = none) (combined_none (Or.inr rfl)) hg (fun e he q hq => ?_) q' h1
              refine Classical.byContradiction fun hc => hno ?_
              rcases List.mem_append.1 he with he | he
              · exact Or.inr ⟨e, List.mem_append_left _ he, q, hq, hc⟩
              · rcases List.mem_cons.1 he with rfl | he
                · rw [hx] at hq; cases hq; exact Or.inl hc
                · exact Or.inr ⟨e, List.mem_append_right _ he, q, hq, hc⟩
            refine ⟨lst x hx hor, ?_⟩
            exact gatherPolicies_pred (P := fun p => IsListed (p.get? "default") ∧ IsListed (p.get? "add")) combined_listed hR (fun e he q hq => ((hr.rest.lists c x hx hor).2 e he).2 q hq) q h2
        obtain ⟨m, hm2⟩ := (applyPolicy_ok_iff E K md R).2 fun c _ => (key c).imp fun w hw => hw.1
        refine ⟨some m, by rw [hm2]; rfl, fun m'' he => ?_⟩
        cases he
        refine ⟨m, rfl, fun c => ?_⟩
        obtain ⟨w, h1, h2⟩ := key c
        rw [applyPolicy_ok E K hm2 c] at h1
        cases h1
        exact h2

/-- C226 for a statement anywhere below the first, if the policies of the other statements can be combined, that is, they let somebody in, under the same conditions, and if the statement says plainly, true or false, whether a claim is essential (missing: the rest, where it is false). -/
theorem C226_anywhere_partial (E : SetEnum Val) (K : SetEnum String) (sups post : List PStatement) (es leaf : PStatement) (et : Option String) (d' : Dict (Option Metadata)) (hne : sups ≠ [])
    (ho : ∀ t, OnlyRestricts t es) (hr : ∀ t, RestrictableAmong t (sups ++ post) es leaf) (hg : ∀ t, ∃ leaf0 d0, callPolicy E K (sups ++ post) leaf0 (some t) = .ok d0)
    (h : callPolicy E K (sups ++ es :: post) leaf et = .ok d') : ∃ d, callPolicy E K (sups ++ post) leaf et = .ok d ∧
      ∀ t m', d'.get? t = some (some m') → ∃ m, d.get? t = some (some m) ∧ ∀ c, Narrower (m'.get? c) (m.get? c) := by
  have gath : ∀ t, ∃ R, gatherPolicies E K (sups ++ post) t = .ok R := by
    intro t
    obtain ⟨l0, d0, h0⟩ := hg t
    obtain ⟨m, -, h1⟩ := policyForTypes_ok (show policyForTypes E K (sups ++ post) l0 [t] = .ok d0 from h0) t (by simp)
    unfold policyFor at h1
    cases hR : gatherPolicies E K (sups ++ post) t with
    | error e => rw [hR] at h1; cases h1
    | ok R => exact ⟨R, rfl⟩
  have types : ∀ ts d', policyForTypes E K (sups ++ es :: post) leaf ts = .ok d' → ∃ d, policyForTypes E K (sups ++ post) leaf ts = .ok d ∧
      ∀ t m', d'.get? t = some (some m') → ∃ m, d.get? t = some (some m) ∧ ∀ c, Narrower (m'.get? c) (m.get? c) := by
    intro ts
    induction ts with
    | nil => intro d' h; cases h; exact ⟨[], rfl, fun t m' h => by cases h⟩
    | cons a ts ih =>
      intro d' h
      unfold policyForTypes at h ⊢
      cases h1 : policyFor E K (sups ++ es :: post) leaf a with
      | error e => rw [h1] at h; cases h
      | ok o =>
        rw [h1, ok_bind] at h
        cases h2 : policyForTypes E K (sups ++ es :: post) leaf ts with
        | error e => rw [h2] at h; cases h
        | ok rest =>
          rw [h2, ok_bind] at h
          cases h
          obtain ⟨R, hR⟩ := gath a
          obtain ⟨o', g1, g2⟩ := policyFor_anywhere hne (ho a) (hr a) hR h1
          obtain ⟨d, g3, g4⟩ := ih rest h2
          refine ⟨(a, o') :: d, by rw [g1, g3]; rfl, fun t m' ht => ?_⟩
          rw [Dict.get?_cons] at ht ⊢
          by_cases hat : a = t
          · rw [if_pos hat] at ht ⊢
            cases ht
            obtain ⟨m, rfl, hm⟩ := g2 m' rfl
            exact ⟨m, rfl, hm⟩
          · rw [if_neg hat] at ht ⊢
            exact g4 t m' ht
  cases et with
  | some t => exact types _ _ h
  | none => exact types _ _ h

/-- Violation: an authority in the middle that demands a claim, but not with the value `true`, makes what one below demands void. -/
theorem C226_essential_violation : ¬ C226_full := by
  intro hf
  obtain ⟨d, h, -⟩ := hf Ex.E Ex.K [⟨[], [("op", [("alg", [("essential", .bool false)])])]⟩] [⟨[], [("op", [("scopes", [("essential", .bool true)])])]⟩]
    ⟨[], [("op", [("scopes", [("essential", Ex.s "yes")])])]⟩ ⟨[("op", [("alg", Ex.s "x")])], []⟩ none _ (by simp) (only_restricts (by decide)) (rfl : _ = Except.ok _)
  have : callPolicy Ex.E Ex.K ([⟨[], [("op", [("alg", [("essential", .bool false)])])]⟩] ++ [⟨[], [("op", [("scopes", [("essential", .bool true)])])]⟩])
      ⟨[("op", [("alg", Ex.s "x")])], []⟩ none = .error .policyError := by decide +kernel
  rw [this] at h
  cases h

/-! The case of the theorem: the chain and entity of C226, with one more authority below the one that restricts. -/
namespace Ex226
def low : PStatement := ⟨[], [("op", [("scopes", [("subset_of", Ex.strs ["b", "a"])])])]⟩
end Ex226

open Ex226 in
example : (∀ t, OnlyRestricts t es) ∧ (∀ t, RestrictableAmong t ([sup] ++ [low]) es lf) ∧ (∀ t, ∃ leaf0 d0, callPolicy Ex.E Ex.K ([sup] ++ [low]) leaf0 (some t) = .ok d0) ∧
    callPolicy Ex.E Ex.K ([sup] ++ es :: [low]) lf none = .ok [("op", some [("org", Ex.s "A"), ("scopes", Ex.strs ["b"])])] ∧
    callPolicy Ex.E Ex.K ([sup] ++ [low]) lf none = .ok [("op", some [("org", Ex.s "A"), ("scopes", Ex.strs ["a", "b"])])] := by
  have only : ∀ t c p, (es.rule t).policy.get? c = some p → t = "op" ∧ c = "scopes" ∧ p = [("subset_of", Ex.strs ["b", "c"]), ("essential", .bool true)] := by
    intro t c p hp
    simp only [PStatement.rule, es, Dict.get?_cons] at hp
    by_cases h1 : "op" = t
    · rw [if_pos h1, Option.getD_some, Dict.get?_cons] at hp
      by_cases h2 : "scopes" = c
      · rw [if_pos h2] at hp; cases hp; exact ⟨h1.symm, h2.symm, rfl⟩
      · rw [if_neg h2] at hp; cases hp
    · rw [if_neg h1] at hp; cases hp
  refine ⟨only_restricts (by decide), fun t => ⟨⟨fun c p hp hn => ?_, fun c p hp _ => ⟨fun md hm v hv => ?_, fun e he => ?_⟩⟩, fun c p x hp hx => ?_⟩, fun t => ?_, by decide +kernel, by decide +kernel⟩
  · obtain ⟨-, -, rfl⟩ := only t c p hp
    exact absurd rfl hn
  · obtain ⟨rfl, rfl, -⟩ := only t c p hp
    cases hm
    cases hv
    exact ⟨_, rfl⟩
  · obtain ⟨rfl, rfl, -⟩ := only t c p hp
    rcases List.mem_append.1 he with he | he
    · rw [List.mem_singleton] at he
      subst he
      refine ⟨fun v hv => (by cases hv), fun q hq => ?_⟩
      cases hq
      exact ⟨fun v hv => (by cases hv), fun v hv => (by cases hv)⟩
    · rw [List.mem_singleton] at he
      subst he
      refine ⟨fun v hv => (by cases hv), fun q hq => ?_⟩
      cases hq
      exact ⟨fun v hv => (by cases hv), fun v hv => (by cases hv)⟩
  · obtain ⟨-, -, rfl⟩ := only t c p hp
    cases hx
    exact ⟨true, rfl⟩
  · by_cases ht : "op" = t
    · subst ht
      exact ⟨lf, _, (by decide +kernel : callPolicy Ex.E Ex.K ([sup] ++ [low]) lf (some "op") = .ok [("op", some [("org", Ex.s "A"), ("scopes", Ex.strs ["a", "b"])])])⟩
    · have h1 : sup.rule t = ⟨[], []⟩ := by simp [PStatement.rule, sup, Dict.get?_cons, ht, Dict.get?]
      have h2 : low.rule t = ⟨[], []⟩ := by simp [PStatement.rule, low, Dict.get?_cons, ht, Dict.get?]
      exact ⟨⟨[], []⟩, [(t, none)], by simp [callPolicy, policyForTypes, policyFor, gatherPolicies, gatherRest, h2, Dict.get?]⟩

end Fed.Policy
