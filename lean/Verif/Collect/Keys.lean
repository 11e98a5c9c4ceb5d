import Verif.Collect.Collector
/-
Property C34: the keys of the entity statement cache.
-/
namespace Fed.Collect
open Fed

theorem split_first {x : Char} : ∀ {a a' r r' : List Char}, x ∉ a → x ∉ a' → a ++ x :: r = a' ++ x :: r' → a = a' ∧ r = r'
  | [], [], _, _, _, _, h => by simpa using h
  | [], c :: a', _, _, _, h', h => by
      simp only [List.nil_append, List.cons_append, List.cons.injEq] at h
      exact absurd (by simp [h.1]) h'
  | c :: a, [], _, _, h', _, h => by
      simp only [List.nil_append, List.cons_append, List.cons.injEq] at h
      exact absurd (by simp [h.1]) h'
  | c :: a, c' :: a', _, _, h1, h2, h => by
      simp only [List.cons_append, List.cons.injEq] at h
      have := split_first (a := a) (a' := a') (by simp at h1; exact h1.2) (by simp at h2; exact h2.2) h.2
      exact ⟨by rw [h.1, this.1], this.2⟩

/-- The identifier has no exclamation mark. -/
def Plain (s : String) : Prop := '!' ∉ s.toList

instance (s : String) : Decidable (Plain s) := inferInstanceAs (Decidable (¬ _))

theorem cacheKey_toList (a e : String) : (cacheKey a e).toList = a.toList ++ '!' :: '!' :: e.toList := by
  have : "!!".toList = ['!', '!'] := by decide
  simp [cacheKey, this]

theorem timeKey_toList (a e : String) :
    (timeKey a e).toList = a.toList ++ '!' :: 'e' :: 'x' :: 'p' :: '!' :: e.toList := by
  have : "!exp!".toList = ['!', 'e', 'x', 'p', '!'] := by decide
  simp [timeKey, this]

theorem count_plain {s : String} : s.toList.count '!' = 0 ↔ Plain s := by
  simp [Plain, List.count_eq_zero]

/-- A key for plain identifiers belongs to one pair only, whatever the other pair looks like. -/
theorem cacheKey_inj {a e a' e' : String} (ha : Plain a) (he : Plain e) (h : cacheKey a e = cacheKey a' e') :
    a = a' ∧ e = e' := by
  have h := congrArg String.toList h
  rw [cacheKey_toList, cacheKey_toList] at h
  have hc := congrArg (List.count '!') h
  simp only [List.count_append, List.count_cons_self] at hc
  have h1 := count_plain.2 ha
  have h2 := count_plain.2 he
  have ha' : Plain a' := count_plain.1 (by omega)
  have := split_first ha ha' h
  simp only [List.cons.injEq, true_and] at this
  exact ⟨String.toList_inj.1 this.1, String.toList_inj.1 this.2⟩

theorem timeKey_inj {a e a' e' : String} (ha : Plain a) (he : Plain e) (h : timeKey a e = timeKey a' e') :
    a = a' ∧ e = e' := by
  have h := congrArg String.toList h
  rw [timeKey_toList, timeKey_toList] at h
  have hc := congrArg (List.count '!') h
  simp only [List.count_append, List.count_cons] at hc
  simp at hc
  have h1 := count_plain.2 ha
  have h2 := count_plain.2 he
  have ha' : Plain a' := count_plain.1 (by omega)
  have := split_first ha ha' h
  simp only [List.cons.injEq, true_and] at this
  exact ⟨String.toList_inj.1 this.1, String.toList_inj.1 this.2⟩

theorem not_plain_cacheKey_timeKey {a e a' e' : String} (ha : Plain a) (he : Plain e) (h : cacheKey a e = timeKey a' e') : False := by
  have h := congrArg String.toList h
  rw [cacheKey_toList, timeKey_toList] at h
  have hc := congrArg (List.count '!') h
  simp only [List.count_append, List.count_cons] at hc
  simp at hc
  have h1 := count_plain.2 ha
  have h2 := count_plain.2 he
  have ha' : Plain a' := count_plain.1 (by omega)
  have := split_first ha ha' h
  simp at this

theorem not_plain_timeKey_cacheKey {a e a' e' : String} (ha : Plain a) (he : Plain e) (h : timeKey a e = cacheKey a' e') : False := by
  have h := congrArg String.toList h
  rw [cacheKey_toList, timeKey_toList] at h
  have hc := congrArg (List.count '!') h
  simp only [List.count_append, List.count_cons] at hc
  simp at hc
  have h1 := count_plain.2 ha
  have h2 := count_plain.2 he
  have ha' : Plain a' := count_plain.1 (by omega)
  have := split_first ha ha' h
  simp at this

theorem cacheKey_ne_timeKey (a e : String) : cacheKey a e ≠ timeKey a e := by
  intro h
  have h := congrArg (fun s => s.toList.length) h
  simp only [cacheKey_toList, timeKey_toList, List.length_append, List.length_cons] at h
  omega

/-- C34 in full: statements for different pairs have different cache entries, and no statement shares one with an expiry
time. -/
def C34_full : Prop :=
  (∀ a e a' e', cacheKey a e = cacheKey a' e' → a = a' ∧ e = e') ∧ (∀ a e a' e', cacheKey a e ≠ timeKey a' e')

/-- C34 does not hold for identifiers with exclamation marks: two statements on one entry, -/
theorem C34_statements_collide_violation : ¬ C34_full := by
  intro h
  have := (h.1 "https://a" "b!!https://c" "https://a!!b" "https://c" (by decide +kernel)).1
  exact absurd this (by decide)

/-- and a statement on the entry of an expiry time. -/
theorem C34_expiry_collides_violation : ¬ C34_full := by
  intro h
  exact h.2 "https://a!exp!x" "https://c" "https://a" "x!!https://c" (by decide +kernel)

/-- C34 for identifiers without exclamation mark: such a pair shares its entries with no other pair, not even with one that has
exclamation marks. Missing: pairs where both have exclamation marks. -/
theorem C34_plain_partial (a e : String) (ha : Plain a) (he : Plain e) (a' e' : String) :
    (cacheKey a e = cacheKey a' e' → a = a' ∧ e = e') ∧ (timeKey a e = timeKey a' e' → a = a' ∧ e = e') ∧
    cacheKey a e ≠ timeKey a' e' ∧ timeKey a e ≠ cacheKey a' e' :=
  ⟨cacheKey_inj ha he, timeKey_inj ha he, not_plain_cacheKey_timeKey ha he, not_plain_timeKey_cacheKey ha he⟩

example : Plain "https://ta.example.org" ∧ Plain "https://op.example.org/x?y#z" := by decide +kernel

end Fed.Collect
