import Verif.Constraints.Model
/-
Helper lemmas on label matching and on the accumulation of naming constraints.
-/
namespace Fed.Constraints
open Fed

/-! ### Labels -/

theorem splitDot_ne_nil (s : List Char) : splitDot s ≠ [] := by
  cases s with
  | nil => simp [splitDot]
  | cons c cs =>
    simp only [splitDot]
    split
    · simp
    · split <;> simp

theorem splitDot_no_dot (s : List Char) : ∀ l ∈ splitDot s, '.' ∉ l := by
  induction s with
  | nil => simp [splitDot]
  | cons c cs ih =>
    simp only [splitDot]
    split
    · intro l hl
      rcases List.mem_cons.1 hl with rfl | h
      · simp
      · exact ih l h
    · next hc =>
      split
      · next h => exact absurd h (splitDot_ne_nil cs)
      · next l ls h =>
        intro l' hl'
        rcases List.mem_cons.1 hl' with rfl | hm
        · simp only [List.mem_cons, not_or]
          exact ⟨fun e => hc e.symm, ih l (by rw [h]; simp)⟩
        · exact ih l' (by rw [h]; simp [hm])

theorem splitDot_join (s : List Char) : List.intercalate ['.'] (splitDot s) = s := by
  induction s with
  | nil => simp [splitDot, List.intercalate]
  | cons c cs ih =>
    simp only [splitDot]
    split
    · next hc =>
      subst hc
      cases h : splitDot cs with
      | nil => exact absurd h (splitDot_ne_nil cs)
      | cons l ls =>
        rw [h] at ih
        simp only [List.intercalate] at ih ⊢
        rw [List.intersperse_cons_cons]
        simp [ih]
    · split
      · next h => exact absurd h (splitDot_ne_nil cs)
      · next l ls h =>
        rw [h] at ih
        cases ls with
        | nil => simp [List.intercalate] at ih ⊢; exact ih
        | cons m ms =>
          simp only [List.intercalate, List.intersperse_cons_cons, List.flatten_cons] at ih ⊢
          simp [← ih]

/-- The labels of an identifier with a known scheme. -/
def labelsOf (s : String) : Option (List (List Char)) :=
  match removeScheme s with
  | .ok r => some (splitDot r)
  | .error _ => none

theorem moreSpecific_true {a b : String} :
    moreSpecific a b = .ok true ↔ ∃ A B, labelsOf a = some A ∧ labelsOf b = some B ∧ B.length ≤ A.length ∧
      cmpLabels A.reverse B.reverse = true := by
  unfold moreSpecific labelsOf
  cases ha : removeScheme a with
  | error e => simp
  | ok x =>
    cases hb : removeScheme b with
    | error e => simp
    | ok y =>
      simp only [ok_bind]
      by_cases hl : (splitDot x).length ≥ (splitDot y).length
      · simp [hl, except_pure]
      · simp [hl, except_pure]

theorem moreSpecific_ok {a b : String} :
    (∃ r, moreSpecific a b = .ok r) ↔ (∃ A, labelsOf a = some A) ∧ ∃ B, labelsOf b = some B := by
  unfold moreSpecific labelsOf
  cases ha : removeScheme a with
  | error e => simp
  | ok x =>
    cases hb : removeScheme b with
    | error e => simp
    | ok y =>
      simp only [ok_bind]
      by_cases hl : (splitDot x).length ≥ (splitDot y).length <;> simp [hl, except_pure]

theorem cmpLabels_refl (A : List (List Char)) : cmpLabels A A = true := by
  induction A with
  | nil => rfl
  | cons x A ih => simp [cmpLabels, ih]

theorem cmpLabels_trans {A B C : List (List Char)} (hl : C.length ≤ B.length) (h : cmpLabels A B = true) (h' : cmpLabels B C = true) :
    cmpLabels A C = true := by
  induction A generalizing B C with
  | nil => simp [cmpLabels]
  | cons x A ih =>
    cases C with
    | nil => simp [cmpLabels]
    | cons z C =>
      cases B with
      | nil => simp at hl
      | cons y B =>
        simp only [cmpLabels, ne_eq, ite_not] at h h' ⊢
        by_cases h1 : x = y
        · subst h1
          rw [if_pos rfl] at h
          by_cases h2 : x = z
          · rw [if_pos h2] at h' ⊢
            exact ih (by simpa using hl) h h'
          · rw [if_neg h2] at h' ⊢; exact h'
        · rw [if_neg h1] at h
          by_cases h2 : y = z
          · subst h2
            rw [if_neg h1]; exact h
          · rw [if_neg h2] at h'
            simp only [decide_eq_true_eq] at h h'
            exact absurd (h.trans h'.symm) h2

theorem moreSpecific_trans {a b c : String} (h : moreSpecific a b = .ok true) (h' : moreSpecific b c = .ok true) :
    moreSpecific a c = .ok true := by
  rw [moreSpecific_true] at h h' ⊢
  obtain ⟨A, B, ha, hb, hl, hc⟩ := h
  obtain ⟨B', C, hb', hc', hl', hcc⟩ := h'
  rw [hb, Option.some.injEq] at hb'; subst hb'
  exact ⟨A, C, ha, hc', by omega, cmpLabels_trans (by simpa using hl') hc hcc⟩

/-- Without empty labels in the constraint, matching reversed labels is being a prefix. -/
theorem cmpLabels_prefix {A B : List (List Char)} (hl : B.length ≤ A.length) (hne : [] ∉ B) :
    cmpLabels A B = true ↔ B <+: A := by
  induction B generalizing A with
  | nil => simp [cmpLabels]
  | cons y B ih =>
    cases A with
    | nil => simp at hl
    | cons x A =>
      simp only [List.mem_cons, not_or] at hne
      simp only [cmpLabels, ne_eq, ite_not]
      by_cases h : x = y
      · subst h
        rw [if_pos rfl, ih (by simpa using hl) hne.2, List.prefix_cons_inj]
      · rw [if_neg h]
        simp only [decide_eq_true_eq]
        constructor
        · intro e; exact absurd e.symm hne.1
        · intro hp; rw [List.cons_prefix_cons] at hp; exact absurd hp.1.symm h

theorem cmpLabels_append_nil {A B : List (List Char)} (hl : B.length + 1 ≤ A.length) (hne : [] ∉ B) :
    cmpLabels A (B ++ [[]]) = true ↔ B <+: A := by
  induction B generalizing A with
  | nil =>
    cases A with
    | nil => simp at hl
    | cons x A => simp [cmpLabels]
  | cons y B ih =>
    cases A with
    | nil => simp at hl
    | cons x A =>
      simp only [List.mem_cons, not_or] at hne
      simp only [List.cons_append, cmpLabels, ne_eq, ite_not]
      by_cases h : x = y
      · subst h
        rw [if_pos rfl, ih (by simpa using hl) hne.2, List.prefix_cons_inj]
      · rw [if_neg h]
        simp only [decide_eq_true_eq]
        constructor
        · intro e; exact absurd e.symm hne.1
        · intro hp; rw [List.cons_prefix_cons] at hp; exact absurd hp.1.symm h

/-! ### Accumulation -/

theorem refinements_mem {o : String} {new r : List String} (h : refinements o new = .ok r) (n : String) :
    n ∈ r ↔ n ∈ new ∧ moreSpecific n o = .ok true := by
  induction new generalizing r with
  | nil => simp only [refinements, Except.ok.injEq] at h; subst h; simp
  | cons m ns ih =>
    simp only [refinements] at h
    cases hb : moreSpecific m o with
    | error e => simp [hb] at h
    | ok b =>
      cases hr : refinements o ns with
      | error e => simp [hb, hr] at h
      | ok rest =>
        simp only [hb, hr, ok_bind, except_pure, Except.ok.injEq] at h
        subst h
        cases b with
        | true =>
          simp only [if_true, List.mem_cons, ih hr]
          constructor
          · rintro (rfl | h)
            · exact ⟨Or.inl rfl, hb⟩
            · exact ⟨Or.inr h.1, h.2⟩
          · rintro ⟨rfl | h1, h2⟩
            · exact Or.inl rfl
            · exact Or.inr ⟨h1, h2⟩
        | false =>
          simp only [Bool.false_eq_true, if_false, List.mem_cons, ih hr]
          constructor
          · rintro h; exact ⟨Or.inr h.1, h.2⟩
          · rintro ⟨rfl | h1, h2⟩
            · rw [hb] at h2; simp at h2
            · exact ⟨h1, h2⟩

/-- What is in the updated list. -/
theorem updateSpecs_mem {new old r : List String} (h : updateSpecs new old = .ok r) (x : String) :
    x ∈ r ↔ (∃ o ∈ old, x ∈ new ∧ moreSpecific x o = .ok true) ∨
      (x ∈ old ∧ ∀ n ∈ new, moreSpecific n x ≠ .ok true) := by
  induction old generalizing r with
  | nil => simp only [updateSpecs, Except.ok.injEq] at h; subst h; simp
  | cons o os ih =>
    simp only [updateSpecs] at h
    cases hr : refinements o new with
    | error e => simp [hr] at h
    | ok q =>
      cases hu : updateSpecs new os with
      | error e => simp [hr, hu] at h
      | ok rest =>
        simp only [hr, hu, ok_bind, except_pure, Except.ok.injEq] at h
        subst h
        have hq := refinements_mem hr
        rw [List.mem_append, ih hu]
        by_cases hqe : q = []
        · subst hqe
          simp only [List.isEmpty_nil, if_true, List.mem_cons, List.not_mem_nil, or_false]
          have hno : ∀ n ∈ new, moreSpecific n o ≠ .ok true := fun n hn hs => by
            have := (hq n).2 ⟨hn, hs⟩; simp at this
          constructor
          · rintro (rfl | ⟨o', h1, h2⟩ | ⟨h1, h2⟩)
            · exact Or.inr ⟨Or.inl rfl, hno⟩
            · exact Or.inl ⟨o', Or.inr h1, h2⟩
            · exact Or.inr ⟨Or.inr h1, h2⟩
          · rintro (⟨o', rfl | h1, h2⟩ | ⟨rfl | h1, h2⟩)
            · exact absurd h2.2 (hno x h2.1)
            · exact Or.inr (Or.inl ⟨o', h1, h2⟩)
            · exact Or.inl rfl
            · exact Or.inr (Or.inr ⟨h1, h2⟩)
        · have : q.isEmpty = false := by simpa using hqe
          simp only [this, Bool.false_eq_true, if_false, hq, List.mem_cons]
          constructor
          · rintro (⟨h1, h2⟩ | ⟨o', h1, h2⟩ | ⟨h1, h2⟩)
            · exact Or.inl ⟨o, Or.inl rfl, h1, h2⟩
            · exact Or.inl ⟨o', Or.inr h1, h2⟩
            · exact Or.inr ⟨Or.inr h1, h2⟩
          · rintro (⟨o', rfl | h1, h2⟩ | ⟨rfl | h1, h2⟩)
            · exact Or.inl h2
            · exact Or.inr (Or.inl ⟨o', h1, h2⟩)
            · obtain ⟨n, hn⟩ := List.exists_mem_of_ne_nil q hqe
              have := (hq n).1 hn
              exact absurd this.2 (h2 n this.1)
            · exact Or.inr (Or.inr ⟨h1, h2⟩)

theorem updateSpecs_ne_nil {new old r : List String} (h : updateSpecs new old = .ok r) (ho : old ≠ []) : r ≠ [] := by
  obtain ⟨o, hm⟩ := List.exists_mem_of_ne_nil old ho
  by_cases hx : ∃ n ∈ new, moreSpecific n o = .ok true
  · obtain ⟨n, h1, h2⟩ := hx
    exact List.ne_nil_of_mem ((updateSpecs_mem h n).2 (Or.inl ⟨o, hm, h1, h2⟩))
  · refine List.ne_nil_of_mem ((updateSpecs_mem h o).2 (Or.inr ⟨hm, fun n hn hs => hx ⟨n, hn, hs⟩⟩))

theorem addConstraints_ok {new : Naming} {cur acc : Acc} (h : addConstraints new cur = .ok acc) :
    addKey new.permitted cur.permitted = .ok acc.permitted ∧ addKey new.excluded cur.excluded = .ok acc.excluded := by
  unfold addConstraints at h
  cases h1 : addKey new.permitted cur.permitted with
  | error e => simp [h1] at h
  | ok p =>
    cases h2 : addKey new.excluded cur.excluded with
    | error e => simp [h1, h2] at h
    | ok e => simp [h1, h2] at h; subst h; exact ⟨rfl, rfl⟩

theorem anyMatch_true {s : String} {l : List String} (h : anyMatch s l = .ok true) :
    ∃ e ∈ l, moreSpecific s e = .ok true := by
  induction l with
  | nil => simp [anyMatch] at h
  | cons e es ih =>
    simp only [anyMatch] at h
    cases hb : moreSpecific s e with
    | error x => simp [hb] at h
    | ok b =>
      cases b with
      | true => exact ⟨e, by simp, hb⟩
      | false =>
        simp only [hb, ok_bind, Bool.false_eq_true, if_false] at h
        obtain ⟨e', h1, h2⟩ := ih h
        exact ⟨e', by simp [h1], h2⟩

theorem anyMatch_false {s : String} {l : List String} (h : anyMatch s l = .ok false) :
    ∀ e ∈ l, moreSpecific s e = .ok false := by
  induction l with
  | nil => simp
  | cons e es ih =>
    simp only [anyMatch] at h
    cases hb : moreSpecific s e with
    | error x => simp [hb] at h
    | ok b =>
      cases b with
      | true => simp [hb] at h
      | false =>
        simp only [hb, ok_bind, Bool.false_eq_true, if_false] at h
        intro e' he'
        rcases List.mem_cons.1 he' with rfl | hm
        · exact hb
        · exact ih h e' hm

/-- A subject that passes. -/
theorem checkNames_true {s : String} {acc : Acc} (h : checkNames s acc = .ok true) :
    (∀ e ∈ acc.excluded, moreSpecific s e = .ok false) ∧
    (acc.permitted ≠ [] → ∃ p ∈ acc.permitted, moreSpecific s p = .ok true) := by
  unfold checkNames at h
  have h1 : (∀ e ∈ acc.excluded, moreSpecific s e = .ok false) ∧
      (if acc.permitted.isEmpty then pure true else anyMatch s acc.permitted : Except PyErr Bool) = .ok true := by
    by_cases he : acc.excluded = []
    · simp only [he, List.isEmpty_nil, if_true, except_pure, ok_bind, Bool.false_eq_true, if_false] at h
      rw [he]; exact ⟨by simp, h⟩
    · have : acc.excluded.isEmpty = false := by simpa using he
      simp only [this, Bool.false_eq_true, if_false] at h
      cases hb : anyMatch s acc.excluded with
      | error x => simp [hb] at h
      | ok b =>
        cases b with
        | true => simp [hb] at h
        | false =>
          simp only [hb, ok_bind, Bool.false_eq_true, if_false] at h
          exact ⟨anyMatch_false hb, h⟩
  refine ⟨h1.1, fun hp => ?_⟩
  have : acc.permitted.isEmpty = false := by simpa using hp
  have h2 := h1.2
  simp only [this, Bool.false_eq_true, if_false] at h2
  exact anyMatch_true h2

/-- What one statement contributes. -/
def CStatement.naming (st : CStatement) : Option Naming := st.constraints.bind (·.naming)

theorem restrictLoop_cons {st : CStatement} {rest : List CStatement} {cur : Int} {m : Bool} {acc fin : Acc}
    (h : restrictLoop (st :: rest) cur m acc = .ok (some fin)) :
    ∃ cur' acc', restrictLoop rest cur' m acc' = .ok (some fin) ∧
      (st.naming = none → acc' = acc) ∧
      (∀ n, st.naming = some n → addConstraints n acc = .ok acc') ∧
      (st.constraints ≠ none → checkNames st.sub acc' = .ok true) := by
  simp only [restrictLoop] at h
  cases hc : st.constraints with
  | none =>
    simp only [hc] at h
    exact ⟨cur, acc, h, fun _ => rfl, fun n hn => by simp [CStatement.naming, hc] at hn, fun h => absurd rfl h⟩
  | some c =>
    simp only [hc] at h
    split at h
    · simp at h
    · cases hu : updateNaming c acc with
      | error e => simp [hu] at h
      | ok acc' =>
        simp only [hu, ok_bind] at h
        cases hk : checkNames st.sub acc' with
        | error e => simp [hk] at h
        | ok b =>
          cases b with
          | false => simp [hk] at h
          | true =>
            simp only [hk, ok_bind, if_true] at h
            refine ⟨_, acc', h, ?_, ?_, fun _ => hk⟩
            · intro hn
              simp only [CStatement.naming, hc, Option.bind_some] at hn
              simpa [updateNaming, hn] using hu.symm
            · intro n hn
              simp only [CStatement.naming, hc, Option.bind_some] at hn
              simpa [updateNaming, hn] using hu

theorem restrictLoop_append {pre rest : List CStatement} {cur : Int} {m : Bool} {acc fin : Acc}
    (h : restrictLoop (pre ++ rest) cur m acc = .ok (some fin)) :
    ∃ cur' acc', restrictLoop pre cur m acc = .ok (some acc') ∧ restrictLoop rest cur' m acc' = .ok (some fin) := by
  induction pre generalizing cur acc with
  | nil => exact ⟨cur, acc, rfl, h⟩
  | cons st pre ih =>
    simp only [List.cons_append, restrictLoop] at h ⊢
    cases hc : st.constraints with
    | none => simp only [hc] at h; exact ih h
    | some c =>
      simp only [hc] at h
      split at h
      · simp at h
      · next hlt =>
        cases hu : updateNaming c acc with
        | error e => simp [hu] at h
        | ok acc1 =>
          simp only [hu, ok_bind] at h
          cases hk : checkNames st.sub acc1 with
          | error e => simp [hk] at h
          | ok b =>
            cases b with
            | false => simp [hk] at h
            | true =>
              simp only [hk, ok_bind, if_true] at h
              obtain ⟨c', a', h1, h2⟩ := ih h
              refine ⟨c', a', ?_, h2⟩
              simp only [hlt, if_false, hu, ok_bind, hk, if_true]; exact h1

theorem meetsRestrictions_true {sups : List CStatement} {leaf : CStatement} (h : meetsRestrictions sups leaf = .ok true) :
    ∃ acc, restrictLoop sups 0 false ⟨[], []⟩ = .ok (some acc) ∧ checkNames leaf.sub acc = .ok true := by
  unfold meetsRestrictions at h
  cases hl : restrictLoop sups 0 false ⟨[], []⟩ with
  | error e => simp [hl] at h
  | ok o =>
    cases o with
    | none => simp [hl] at h
    | some acc => simp only [hl, ok_bind] at h; exact ⟨acc, rfl, h⟩

end Fed.Constraints
