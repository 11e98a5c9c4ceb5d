import Verif.Constraints.Lemmas
/-
Properties C23–C27, C68: path length and naming constraints.
-/
namespace Fed.Constraints
open Fed

/-- The list a statement has for a kind of naming constraint; absent = empty. -/
def CStatement.permitted (st : CStatement) : List String := (st.naming.bind (·.permitted)).getD []
def CStatement.excluded (st : CStatement) : List String := (st.naming.bind (·.excluded)).getD []

/-! ## C27 -/

/-- C27: what the labels of a name are: the dot-free pieces that, joined by dots, give the name back. -/
theorem C27_labels (s : List Char) :
    List.intercalate ['.'] (splitDot s) = s ∧ (∀ l ∈ splitDot s, '.' ∉ l) ∧ splitDot s ≠ [] :=
  ⟨splitDot_join s, splitDot_no_dot s, splitDot_ne_nil s⟩

/-- The characters after the scheme. -/
def AfterScheme (s : String) (r : List Char) : Prop :=
  s.toList = "https://".toList ++ r ∨ s.toList = "http://".toList ++ r

theorem removeScheme_iff {s : String} {r : List Char} : removeScheme s = .ok r ↔ AfterScheme s r := by
  unfold removeScheme AfterScheme
  have e1 : "https://".toList = ['h','t','t','p','s',':','/','/'] := by decide
  have e2 : "http://".toList = ['h','t','t','p',':','/','/'] := by decide
  by_cases h1 : "https://".toList.isPrefixOf s.toList = true
  · rw [if_pos h1]
    rw [List.isPrefixOf_iff_prefix] at h1
    obtain ⟨t, ht⟩ := h1
    rw [← ht]
    have : (("https://".toList ++ t).drop 8) = t := by rw [e1]; simp
    rw [this]
    simp only [Except.ok.injEq, List.append_cancel_left_eq]
    constructor
    · exact fun h => Or.inl h
    · rintro (h | h)
      · exact h
      · rw [e1, e2] at h; simp at h
  · rw [if_neg h1]
    by_cases h2 : "http://".toList.isPrefixOf s.toList = true
    · rw [if_pos h2]
      rw [List.isPrefixOf_iff_prefix] at h2
      obtain ⟨t, ht⟩ := h2
      rw [← ht]
      have : (("http://".toList ++ t).drop 7) = t := by rw [e2]; simp
      rw [this]
      simp only [Except.ok.injEq, List.append_cancel_left_eq]
      constructor
      · exact fun h => Or.inr h
      · rintro (h | h)
        · rw [e1, e2] at h; simp at h
        · exact h
    · rw [if_neg h2]
      simp only [reduceCtorEq, false_iff, not_or]
      constructor
      · intro h; apply h1; rw [List.isPrefixOf_iff_prefix]; exact ⟨r, h.symm⟩
      · intro h; apply h2; rw [List.isPrefixOf_iff_prefix]; exact ⟨r, h.symm⟩

/-- C27: a name matches a constraint iff its labels end in the constraint's labels; a constraint with a leading dot demands at
least one label more. (Constraints with an empty label elsewhere are malformed.) -/
theorem C27_suffix_match (a b : String) (x y : List Char) (ha : AfterScheme a x) (hb : AfterScheme b y)
    (hwf : [] ∉ (splitDot y).tail) :
    moreSpecific a b = .ok true ↔
      (splitDot y <:+ splitDot x) ∨
      ∃ ls, splitDot y = [] :: ls ∧ ls <:+ splitDot x ∧ ls.length < (splitDot x).length := by
  rw [← removeScheme_iff] at ha hb
  rw [moreSpecific_true]
  simp only [labelsOf, ha, hb, Option.some.injEq]
  cases hy : splitDot y with
  | nil => exact absurd hy (splitDot_ne_nil y)
  | cons l ls =>
    rw [hy] at hwf
    simp only [List.tail_cons] at hwf
    by_cases hl : l = []
    · subst hl
      constructor
      · rintro ⟨A, B, rfl, rfl, h1, h2⟩
        rw [List.reverse_cons, cmpLabels_append_nil (by simpa using h1) (by simpa using hwf), List.reverse_prefix] at h2
        exact Or.inr ⟨ls, rfl, h2, by simp at h1; omega⟩
      · rintro (h | ⟨ls', h1, h2, h3⟩)
        · refine ⟨_, _, rfl, rfl, h.length_le, ?_⟩
          rw [List.reverse_cons, cmpLabels_append_nil (by have := h.length_le; simpa using this) (by simpa using hwf),
            List.reverse_prefix]
          exact (List.suffix_cons _ _).trans h
        · simp only [List.cons.injEq, true_and] at h1; subst h1
          refine ⟨_, _, rfl, rfl, by simp; omega, ?_⟩
          rw [List.reverse_cons, cmpLabels_append_nil (by simp; omega) (by simpa using hwf), List.reverse_prefix]
          exact h2
    · have hno : [] ∉ (l :: ls).reverse := by
        simp only [List.mem_reverse, List.mem_cons, not_or]; exact ⟨fun e => hl e.symm, hwf⟩
      constructor
      · rintro ⟨A, B, rfl, rfl, h1, h2⟩
        rw [cmpLabels_prefix (by simpa using h1) hno, List.reverse_prefix] at h2
        exact Or.inl h2
      · rintro (h | ⟨ls', h1, _⟩)
        · refine ⟨_, _, rfl, rfl, h.length_le, ?_⟩
          rw [cmpLabels_prefix (by simpa using h.length_le) hno, List.reverse_prefix]
          exact h
        · simp only [List.cons.injEq] at h1; exact absurd h1.1 hl

/-- C27: matching is reflexive. -/
theorem C27_reflexive (a : String) (x : List Char) (ha : AfterScheme a x) : moreSpecific a a = .ok true := by
  rw [← removeScheme_iff] at ha
  rw [moreSpecific_true]
  exact ⟨splitDot x, splitDot x, by simp [labelsOf, ha], by simp [labelsOf, ha], Nat.le_refl _, cmpLabels_refl _⟩

/-- C27: matching is transitive. -/
theorem C27_transitive (a b c : String) (h : moreSpecific a b = .ok true) (h' : moreSpecific b c = .ok true) :
    moreSpecific a c = .ok true := moreSpecific_trans h h'

example : moreSpecific "https://op.example.com" "https://example.com" = .ok true := by decide +kernel
example : moreSpecific "https://evilexample.com" "https://example.com" = .ok false := by decide +kernel
example : moreSpecific "https://example.com" "https://.example.com" = .ok false := by decide +kernel
example : moreSpecific "https://a.example.com" "https://.example.com" = .ok true := by decide +kernel
example : ¬ ([[ 'e','x'],['c']] : List (List Char)) <:+ [['e','v','i','l','e','x'],['c']] := by decide

/-! ## C68 -/

/-- The host of an identifier: the characters after the scheme up to a path, port, query or fragment. -/
def HostOf (s : String) (h : List Char) : Prop :=
  ∃ r, AfterScheme s r ∧ h = r.takeWhile fun c => c ≠ '/' ∧ c ≠ ':' ∧ c ≠ '?' ∧ c ≠ '#'

/-- C68 in full: a name matches a constraint iff its *host* is the constraint's host or below it (constraints without a
leading dot). -/
def C68_full : Prop :=
  ∀ (a b : String) (ha hb : List Char), HostOf a ha → HostOf b hb → [] ∉ splitDot hb →
    (moreSpecific a b = .ok true ↔ splitDot hb <:+ splitDot ha)

/-- C68 is violated: the path takes part in the matching. A foreign host gets inside a permitted domain … -/
theorem C68_host_violation : ¬ C68_full := by
  intro h
  have := (h "https://evil.org/.example.com" "https://example.com" "evil.org".toList "example.com".toList
    ⟨"evil.org/.example.com".toList, Or.inl (by decide +kernel), by decide +kernel⟩
    ⟨"example.com".toList, Or.inl (by decide +kernel), by decide +kernel⟩ (by decide +kernel)).1 (by decide +kernel)
  revert this; decide +kernel

/-- … and a host of an excluded domain escapes the exclusion by a path (or a port). -/
theorem C68_exclusion_violation : ¬ C68_full := by
  intro h
  have := (h "https://op.example.com/x" "https://example.com" "op.example.com".toList "example.com".toList
    ⟨"op.example.com/x".toList, Or.inl (by decide +kernel), by decide +kernel⟩
    ⟨"example.com".toList, Or.inl (by decide +kernel), by decide +kernel⟩ (by decide +kernel)).2 (by decide +kernel)
  revert this; decide +kernel

/-- Nothing but a host after the scheme. -/
def BareHost (s : String) : Prop := ∃ r, AfterScheme s r ∧ ∀ c ∈ r, c ≠ '/' ∧ c ≠ ':' ∧ c ≠ '?' ∧ c ≠ '#'

theorem takeWhile_self {p : Char → Bool} {l : List Char} (h : ∀ c ∈ l, p c = true) : l.takeWhile p = l := by
  induction l with
  | nil => rfl
  | cons x l ih => rw [List.takeWhile_cons, if_pos (h x (by simp)), ih fun c hc => h c (by simp [hc])]

theorem bareHost_after {s : String} {h : List Char} (hb : BareHost s) (hh : HostOf s h) : AfterScheme s h := by
  obtain ⟨r, h1, h2⟩ := hb
  obtain ⟨r', h3, rfl⟩ := hh
  have : r' = r := by
    rw [← removeScheme_iff] at h1 h3; rw [h1] at h3; simpa using h3.symm
  subst this
  have : r'.takeWhile (fun c => c ≠ '/' ∧ c ≠ ':' ∧ c ≠ '?' ∧ c ≠ '#') = r' := by
    apply takeWhile_self
    intro c hc
    simpa using h2 c hc
  rw [this]; exact h1

/-- C68 for identifiers that are a bare scheme and host. -/
theorem C68_host_partial (a b : String) (ha hb : List Char) (h1 : BareHost a) (h2 : BareHost b)
    (h3 : HostOf a ha) (h4 : HostOf b hb) (hne : [] ∉ splitDot hb) :
    moreSpecific a b = .ok true ↔ splitDot hb <:+ splitDot ha := by
  rw [C27_suffix_match a b ha hb (bareHost_after h1 h3) (bareHost_after h2 h4) (fun h => hne (List.mem_of_mem_tail h))]
  constructor
  · rintro (h | ⟨ls, h, _⟩)
    · exact h
    · rw [h] at hne; simp at hne
  · exact Or.inl

example : moreSpecific "https://op.example.com" "https://example.com" = .ok true ↔
    splitDot "example.com".toList <:+ splitDot "op.example.com".toList :=
  C68_host_partial _ _ _ _
    ⟨"op.example.com".toList, Or.inl (by decide +kernel), by decide +kernel⟩
    ⟨"example.com".toList, Or.inl (by decide +kernel), by decide +kernel⟩
    ⟨"op.example.com".toList, Or.inl (by decide +kernel), by decide +kernel⟩
    ⟨"example.com".toList, Or.inl (by decide +kernel), by decide +kernel⟩ (by decide +kernel)

/-! ## C23 -/

/-- C23 in full: when more statements follow (above the leaf's) than `max_path_length` says, the chain is refused. -/
def C23_full : Prop :=
  ∀ (pre rest : List CStatement) (es leaf : CStatement) (c : Constr) (m : Int),
    es.constraints = some c → c.maxPathLength = some m → m < rest.length →
    meetsRestrictions (pre ++ es :: rest) leaf ≠ .ok true

/-- C23 is violated: the flag that a maximum has been assigned is never set, so the path length is never counted down. -/
theorem C23_path_length_violation : ¬ C23_full := by
  intro h
  exact h [] [⟨"https://b.se", some ⟨none, none⟩⟩, ⟨"https://c.se", none⟩] ⟨"https://a.se", some ⟨some 0, none⟩⟩
    ⟨"https://leaf.se", none⟩ ⟨some 0, none⟩ 0 rfl rfl (by decide) (by decide +kernel)

/-- C23 for negative maxima (all that the code refuses). -/
theorem C23_path_length_partial (pre rest : List CStatement) (es leaf : CStatement) (c : Constr) (m : Int)
    (hc : es.constraints = some c) (hm : c.maxPathLength = some m) (hneg : m < 0) :
    meetsRestrictions (pre ++ es :: rest) leaf ≠ .ok true := by
  intro h
  obtain ⟨acc, h1, _⟩ := meetsRestrictions_true h
  obtain ⟨cur, acc', _, h2⟩ := restrictLoop_append h1
  simp only [restrictLoop, hc, calculatePathLength, hm, Bool.false_eq_true, if_false, hneg, if_true] at h2
  simp at h2

example : meetsRestrictions ([] ++ ⟨"https://a.se", some ⟨some (-1), none⟩⟩ :: []) ⟨"https://leaf.se", none⟩ ≠ .ok true :=
  C23_path_length_partial _ _ _ _ ⟨some (-1), none⟩ (-1) rfl rfl (by decide)

/-- C23, the counting itself: had the flag been set (as the parameter allows), the remaining length after any run of
constrained statements would be at most the initial maximum less their number, and never above any of their own maxima. -/
theorem C23_counting_partial (cs : List Constr) (m : Int) :
    cs.foldl (fun cur c => calculatePathLength c cur true) m ≤ m - cs.length := by
  induction cs generalizing m with
  | nil => simp
  | cons c cs ih =>
    simp only [List.foldl_cons, List.length_cons]
    refine Int.le_trans (ih _) ?_
    have : calculatePathLength c m true ≤ m - 1 := by
      unfold calculatePathLength
      split
      · simp
      · simp only [if_true]; split <;> omega
    omega

example : [Constr.mk none none, ⟨some 5, none⟩].foldl (fun cur c => calculatePathLength c cur true) 3 = 1 := by decide

/-! ## C25 -/

theorem addKey_ok {new : Option (List String)} {cur r : List String} (h : addKey new cur = .ok r) :
    (cur = [] ∧ r = new.getD []) ∨
    (cur ≠ [] ∧ new.getD [] = [] ∧ r = cur) ∨
    (cur ≠ [] ∧ new.getD [] ≠ [] ∧ updateSpecs (new.getD []) cur = .ok r) := by
  unfold addKey at h
  by_cases hc : cur = []
  · subst hc
    left
    cases new with
    | none => simp at h; simp [h]
    | some n =>
      simp only [List.isEmpty_nil, if_true] at h
      split at h
      · next hn => simp at hn h; simp [hn, h]
      · simp at h; simp [h]
  · right
    have : cur.isEmpty = false := by simpa using hc
    simp only [this, Bool.false_eq_true, if_false] at h
    cases new with
    | none => simp at h
    | some n =>
      simp only at h
      split at h
      · next hn => simp at hn h; left; exact ⟨hc, by simp [hn], h.symm⟩
      · next hn => simp at hn; right; simp [hc, hn, h]

theorem acc_permitted {st : CStatement} {acc acc' : Acc} (h1 : st.naming = none → acc' = acc)
    (h2 : ∀ n, st.naming = some n → addConstraints n acc = .ok acc') :
    (acc.permitted = [] ∧ acc'.permitted = st.permitted) ∨
    (acc.permitted ≠ [] ∧ st.permitted = [] ∧ acc'.permitted = acc.permitted) ∨
    (acc.permitted ≠ [] ∧ st.permitted ≠ [] ∧ updateSpecs st.permitted acc.permitted = .ok acc'.permitted) := by
  cases hn : st.naming with
  | none =>
    have := h1 hn; subst this
    have hp : st.permitted = [] := by simp [CStatement.permitted, hn]
    by_cases he : acc'.permitted = []
    · left; simp [he, hp]
    · right; left; simp [he, hp]
  | some n =>
    have := addKey_ok (addConstraints_ok (h2 n hn)).1
    have hp : st.permitted = n.permitted.getD [] := by simp [CStatement.permitted, hn]
    rw [hp]; exact this

theorem acc_excluded {st : CStatement} {acc acc' : Acc} (h1 : st.naming = none → acc' = acc)
    (h2 : ∀ n, st.naming = some n → addConstraints n acc = .ok acc') :
    (acc.excluded = [] ∧ acc'.excluded = st.excluded) ∨
    (acc.excluded ≠ [] ∧ st.excluded = [] ∧ acc'.excluded = acc.excluded) ∨
    (acc.excluded ≠ [] ∧ st.excluded ≠ [] ∧ updateSpecs st.excluded acc.excluded = .ok acc'.excluded) := by
  cases hn : st.naming with
  | none =>
    have := h1 hn; subst this
    have hp : st.excluded = [] := by simp [CStatement.excluded, hn]
    by_cases he : acc'.excluded = []
    · left; simp [he, hp]
    · right; left; simp [he, hp]
  | some n =>
    have := addKey_ok (addConstraints_ok (h2 n hn)).2
    have hp : st.excluded = n.excluded.getD [] := by simp [CStatement.excluded, hn]
    rw [hp]; exact this

theorem prefix_permitted {pre : List CStatement} {cur : Int} {acc acc' : Acc}
    (h : restrictLoop pre cur false acc = .ok (some acc')) (hp : ∀ st ∈ pre, st.permitted = []) :
    acc'.permitted = acc.permitted := by
  induction pre generalizing cur acc with
  | nil => simp [restrictLoop] at h; rw [h]
  | cons st pre ih =>
    obtain ⟨cur', a, h1, h2, h3, _⟩ := restrictLoop_cons h
    rw [ih h1 (fun s hs => hp s (by simp [hs]))]
    have hst := hp st (by simp)
    rcases acc_permitted h2 h3 with ⟨e1, e2⟩ | ⟨_, _, e⟩ | ⟨_, e, _⟩
    · rw [e1, e2, hst]
    · exact e
    · exact absurd hst e

theorem prefix_excluded {pre : List CStatement} {cur : Int} {acc acc' : Acc}
    (h : restrictLoop pre cur false acc = .ok (some acc')) (hp : ∀ st ∈ pre, st.excluded = []) :
    acc'.excluded = acc.excluded := by
  induction pre generalizing cur acc with
  | nil => simp [restrictLoop] at h; rw [h]
  | cons st pre ih =>
    obtain ⟨cur', a, h1, h2, h3, _⟩ := restrictLoop_cons h
    rw [ih h1 (fun s hs => hp s (by simp [hs]))]
    have hst := hp st (by simp)
    rcases acc_excluded h2 h3 with ⟨e1, e2⟩ | ⟨_, _, e⟩ | ⟨_, e, _⟩
    · rw [e1, e2, hst]
    · exact e
    · exact absurd hst e

/-- Every entry is inside some entry of `P`. -/
def Narrows (P l : List String) : Prop := l ≠ [] ∧ ∀ x ∈ l, ∃ p ∈ P, x = p ∨ moreSpecific x p = .ok true

theorem narrows_step {P : List String} {st : CStatement} {acc acc' : Acc} (hn : Narrows P acc.permitted)
    (h1 : st.naming = none → acc' = acc) (h2 : ∀ n, st.naming = some n → addConstraints n acc = .ok acc') :
    Narrows P acc'.permitted := by
  rcases acc_permitted h1 h2 with ⟨e, _⟩ | ⟨_, _, e⟩ | ⟨_, _, e⟩
  · exact absurd e hn.1
  · rw [e]; exact hn
  · refine ⟨updateSpecs_ne_nil e hn.1, fun x hx => ?_⟩
    rcases (updateSpecs_mem e x).1 hx with ⟨o, ho, _, hs⟩ | ⟨ho, _⟩
    · obtain ⟨p, hp, hop⟩ := hn.2 o ho
      refine ⟨p, hp, Or.inr ?_⟩
      rcases hop with rfl | hop
      · exact hs
      · exact moreSpecific_trans hs hop
    · exact hn.2 x ho

theorem narrows_check {P : List String} {s : String} {acc : Acc} (hn : Narrows P acc.permitted)
    (h : checkNames s acc = .ok true) : ∃ p ∈ P, moreSpecific s p = .ok true := by
  obtain ⟨q, hq, hs⟩ := (checkNames_true h).2 hn.1
  obtain ⟨p, hp, hqp⟩ := hn.2 q hq
  rcases hqp with rfl | hqp
  · exact ⟨q, hp, hs⟩
  · exact ⟨p, hp, moreSpecific_trans hs hqp⟩

theorem narrows_loop {P : List String} {rest : List CStatement} {cur : Int} {acc fin : Acc} (hn : Narrows P acc.permitted)
    (h : restrictLoop rest cur false acc = .ok (some fin)) :
    Narrows P fin.permitted ∧ ∀ st ∈ rest, st.constraints ≠ none → ∃ p ∈ P, moreSpecific st.sub p = .ok true := by
  induction rest generalizing cur acc with
  | nil => simp only [restrictLoop, Except.ok.injEq, Option.some.injEq] at h; subst h; exact ⟨hn, by simp⟩
  | cons st rest ih =>
    obtain ⟨cur', a, h1, h2, h3, h4⟩ := restrictLoop_cons h
    have hn' := narrows_step hn h2 h3
    obtain ⟨i1, i2⟩ := ih hn' h1
    refine ⟨i1, fun st' hst' => ?_⟩
    rcases List.mem_cons.1 hst' with rfl | hm
    · intro hc; exact narrows_check hn' (h4 hc)
    · exact i2 st' hm

/-- C25: with `es` the topmost statement that has a permitted list, an accepted chain's leaf (and every constrained subject on
the way) is inside that list, whatever the statements below `es` declare. -/
theorem C25_permitted_only_narrows (pre rest : List CStatement) (es leaf : CStatement)
    (hpre : ∀ st ∈ pre, st.permitted = []) (hes : es.permitted ≠ [])
    (h : meetsRestrictions (pre ++ es :: rest) leaf = .ok true) :
    (∃ p ∈ es.permitted, moreSpecific leaf.sub p = .ok true) ∧
    ∀ st ∈ es :: rest, st.constraints ≠ none → ∃ p ∈ es.permitted, moreSpecific st.sub p = .ok true := by
  obtain ⟨fin, h1, h2⟩ := meetsRestrictions_true h
  obtain ⟨cur, acc, h3, h4⟩ := restrictLoop_append h1
  have hacc := prefix_permitted h3 hpre
  obtain ⟨cur', a, h5, h6, h7, h8⟩ := restrictLoop_cons h4
  have hn : Narrows es.permitted a.permitted := by
    rcases acc_permitted h6 h7 with ⟨_, e⟩ | ⟨e, _⟩ | ⟨e, _⟩
    · rw [e]; exact ⟨hes, fun x hx => ⟨x, hx, Or.inl rfl⟩⟩
    · exact absurd hacc e
    · exact absurd hacc e
  obtain ⟨i1, i2⟩ := narrows_loop hn h5
  refine ⟨narrows_check i1 h2, fun st hst hc => ?_⟩
  rcases List.mem_cons.1 hst with rfl | hm
  · exact narrows_check hn (h8 hc)
  · exact i2 st hm hc

namespace Ex
def st (sub : String) (p e : List String) : CStatement := ⟨sub, some ⟨none, some ⟨some p, some e⟩⟩⟩
def ta := st "https://ia.example.com" ["https://example.com", "https://example.org"] []
def ia := st "https://op.sub.example.com" ["https://sub.example.com", "https://evil.net"] []
end Ex

example : ∃ p ∈ Ex.ta.permitted, moreSpecific "https://op.sub.example.com" p = .ok true :=
  (C25_permitted_only_narrows [] [Ex.ia] Ex.ta ⟨"https://op.sub.example.com", none⟩ (by simp) (by decide)
    (by decide +kernel)).1

/-- A subordinate's list cannot let in `evil.net`. -/
example : meetsRestrictions [Ex.ta, Ex.ia] ⟨"https://op.evil.net", none⟩ = .ok false := by decide +kernel

/-! ## C26 -/

/-- C26 in full. -/
def C26_full : Prop :=
  ∀ (sups : List CStatement) (leaf st : CStatement), meetsRestrictions sups leaf = .ok true → st ∈ sups →
    st.permitted ≠ [] → ∃ p ∈ st.permitted, moreSpecific leaf.sub p = .ok true

/-- C26 is violated: a list that refines no entry of the superior's is ignored. -/
theorem C26_every_list_violation : ¬ C26_full := by
  intro h
  obtain ⟨p, hp, hs⟩ := h [⟨"https://ia.se", some ⟨none, some ⟨some ["https://example.com", "https://ia.se"], some []⟩⟩⟩,
    ⟨"https://op.example.com", some ⟨none, some ⟨some ["https://example.org"], some []⟩⟩⟩] ⟨"https://op.example.com", none⟩
    ⟨"https://op.example.com", some ⟨none, some ⟨some ["https://example.org"], some []⟩⟩⟩ (by decide +kernel) (by simp) (by decide)
  have : p = "https://example.org" := by simpa [CStatement.permitted, CStatement.naming] using hp
  subst this; revert hs; decide +kernel

/-- Each permitted list on the way down refines every entry of the one before it. -/
def Covering : List String → List CStatement → Prop
  | _, [] => True
  | P, st :: rest =>
    if st.permitted = [] then Covering P rest
    else (∀ o ∈ P, ∃ n ∈ st.permitted, moreSpecific n o = .ok true) ∧ Covering st.permitted rest

theorem covering_loop {P : List String} {rest : List CStatement} {cur : Int} {acc fin : Acc}
    (hs : ∀ x ∈ acc.permitted, x ∈ P) (hne : acc.permitted ≠ []) (hc : Covering P rest)
    (h : restrictLoop rest cur false acc = .ok (some fin)) :
    ∀ st ∈ rest, st.permitted ≠ [] → Narrows st.permitted fin.permitted := by
  induction rest generalizing cur acc P with
  | nil => simp
  | cons st rest ih =>
    obtain ⟨cur', a, h1, h2, h3, h4⟩ := restrictLoop_cons h
    rcases acc_permitted h2 h3 with ⟨e, _⟩ | ⟨_, e, e'⟩ | ⟨_, e, e'⟩
    · exact absurd e hne
    · simp only [Covering, e, if_true] at hc
      intro st' hst' hp
      rcases List.mem_cons.1 hst' with rfl | hm
      · exact absurd e hp
      · exact ih (by rw [e']; exact hs) (by rw [e']; exact hne) hc h1 st' hm hp
    · simp only [Covering, e, if_false] at hc
      have hsub : ∀ x ∈ a.permitted, x ∈ st.permitted := by
        intro x hx
        rcases (updateSpecs_mem e' x).1 hx with ⟨_, _, hn, _⟩ | ⟨ho, hno⟩
        · exact hn
        · obtain ⟨n, hn, hs'⟩ := hc.1 x (hs x ho)
          exact absurd hs' (hno n hn)
      have hane := updateSpecs_ne_nil e' hne
      intro st' hst' hp
      rcases List.mem_cons.1 hst' with rfl | hm
      · exact (narrows_loop ⟨hane, fun x hx => ⟨x, hsub x hx, Or.inl rfl⟩⟩ h1).1
      · exact ih hsub hane hc.2 h1 st' hm hp

/-- C26 when each permitted list refines every entry of the list before it (missing: lists that leave an entry of the superior
unrefined; there the superior's entry stays in force and the leaf may be outside the subordinate's list). -/
theorem C26_every_list_partial (pre rest : List CStatement) (es leaf : CStatement)
    (hpre : ∀ st ∈ pre, st.permitted = []) (hes : es.permitted ≠ []) (hcov : Covering es.permitted rest)
    (h : meetsRestrictions (pre ++ es :: rest) leaf = .ok true) (st : CStatement) (hst : st ∈ pre ++ es :: rest)
    (hp : st.permitted ≠ []) : ∃ p ∈ st.permitted, moreSpecific leaf.sub p = .ok true := by
  rcases List.mem_append.1 hst with hm | hm
  · exact absurd (hpre st hm) hp
  · rcases List.mem_cons.1 hm with rfl | hm
    · exact (C25_permitted_only_narrows pre rest st leaf hpre hp h).1
    · obtain ⟨fin, h1, h2⟩ := meetsRestrictions_true h
      obtain ⟨cur, acc, h3, h4⟩ := restrictLoop_append h1
      have hacc := prefix_permitted h3 hpre
      obtain ⟨cur', a, h5, h6, h7, h8⟩ := restrictLoop_cons h4
      have ha : a.permitted = es.permitted := by
        rcases acc_permitted h6 h7 with ⟨_, e⟩ | ⟨e, _⟩ | ⟨e, _⟩
        · exact e
        · exact absurd hacc e
        · exact absurd hacc e
      exact narrows_check (covering_loop (by rw [ha]; exact fun _ h => h) (by rw [ha]; exact hes) hcov h5 st hm hp) h2

example : ∃ p ∈ (Ex.st "https://op.sub.example.com" ["https://sub.example.com"] []).permitted,
    moreSpecific "https://op.sub.example.com" p = .ok true :=
  C26_every_list_partial [] [Ex.st "https://op.sub.example.com" ["https://sub.example.com"] []]
    (Ex.st "https://ia.example.com" ["https://example.com"] []) ⟨"https://op.sub.example.com", none⟩ (by simp) (by decide)
    (by
      simp only [Covering, show (Ex.st "https://op.sub.example.com" ["https://sub.example.com"] []).permitted =
        ["https://sub.example.com"] from rfl, and_true]
      rw [if_neg (by decide)]
      intro o ho
      simp only [Ex.st, CStatement.permitted, CStatement.naming, Option.bind_some, Option.getD_some, List.mem_singleton] at ho
      subst ho
      exact ⟨"https://sub.example.com", by simp, by decide +kernel⟩)
    (by decide +kernel) _ (by simp) (by decide)

/-! ## C24 -/

/-- C24 in full: nobody at or below an exclusion matches it. -/
def C24_full : Prop :=
  ∀ (sups : List CStatement) (leaf es : CStatement) (x : String), meetsRestrictions sups leaf = .ok true → es ∈ sups →
    x ∈ es.excluded → moreSpecific leaf.sub x ≠ .ok true

/-- C24 is violated: a subordinate that excludes a smaller subtree replaces, and so lifts, the superior's exclusion. -/
theorem C24_exclusion_violation : ¬ C24_full := by
  intro h
  exact h [⟨"https://ia.se", some ⟨none, some ⟨some [], some ["https://example.com"]⟩⟩⟩,
    ⟨"https://ib.se", some ⟨none, some ⟨some [], some ["https://tiny.example.com"]⟩⟩⟩] ⟨"https://op.example.com", none⟩
    ⟨"https://ia.se", some ⟨none, some ⟨some [], some ["https://example.com"]⟩⟩⟩ "https://example.com"
    (by decide +kernel) (by simp) (by decide) (by decide +kernel)

/-- The same for a second list of exclusions: one that refines nothing is ignored. -/
theorem C24_second_list_violation : ¬ C24_full := by
  intro h
  exact h [⟨"https://ia.se", some ⟨none, some ⟨some [], some ["https://other.org"]⟩⟩⟩,
    ⟨"https://ib.se", some ⟨none, some ⟨some [], some ["https://example.com"]⟩⟩⟩] ⟨"https://op.example.com", none⟩
    ⟨"https://ib.se", some ⟨none, some ⟨some [], some ["https://example.com"]⟩⟩⟩ "https://example.com"
    (by decide +kernel) (by simp) (by decide) (by decide +kernel)

theorem excl_loop {x : String} {rest : List CStatement} {cur : Int} {acc fin : Acc} (hx : x ∈ acc.excluded)
    (hno : ∀ st ∈ rest, ∀ n ∈ st.excluded, moreSpecific n x = .ok true → n = x)
    (h : restrictLoop rest cur false acc = .ok (some fin)) :
    x ∈ fin.excluded ∧ ∀ st ∈ rest, st.constraints ≠ none → moreSpecific st.sub x = .ok false := by
  induction rest generalizing cur acc with
  | nil => simp only [restrictLoop, Except.ok.injEq, Option.some.injEq] at h; subst h; exact ⟨hx, by simp⟩
  | cons st rest ih =>
    obtain ⟨cur', a, h1, h2, h3, h4⟩ := restrictLoop_cons h
    have hxa : x ∈ a.excluded := by
      rcases acc_excluded h2 h3 with ⟨e, _⟩ | ⟨_, _, e⟩ | ⟨_, _, e⟩
      · rw [e] at hx; simp at hx
      · rw [e]; exact hx
      · rw [updateSpecs_mem e]
        by_cases hn : ∃ n ∈ st.excluded, moreSpecific n x = .ok true
        · obtain ⟨n, hn1, hn2⟩ := hn
          have := hno st (by simp) n hn1 hn2
          subst this
          exact Or.inl ⟨n, hx, hn1, hn2⟩
        · exact Or.inr ⟨hx, fun n hn1 hn2 => hn ⟨n, hn1, hn2⟩⟩
    obtain ⟨i1, i2⟩ := ih hxa (fun s hs => hno s (by simp [hs])) h1
    refine ⟨i1, fun st' hst' => ?_⟩
    rcases List.mem_cons.1 hst' with rfl | hm
    · intro hc; exact (checkNames_true (h4 hc)).1 x hxa
    · exact i2 st' hm

/-- C24 for the topmost exclusions, as long as no statement below excludes a smaller subtree (missing: those chains, and
exclusions that a lower statement adds; both are violated). -/
theorem C24_exclusion_partial (pre rest : List CStatement) (es leaf : CStatement) (x : String)
    (hpre : ∀ st ∈ pre, st.excluded = []) (hx : x ∈ es.excluded)
    (hno : ∀ st ∈ rest, ∀ n ∈ st.excluded, moreSpecific n x = .ok true → n = x)
    (h : meetsRestrictions (pre ++ es :: rest) leaf = .ok true) :
    moreSpecific leaf.sub x = .ok false ∧
    ∀ st ∈ es :: rest, st.constraints ≠ none → moreSpecific st.sub x = .ok false := by
  obtain ⟨fin, h1, h2⟩ := meetsRestrictions_true h
  obtain ⟨cur, acc, h3, h4⟩ := restrictLoop_append h1
  have hacc := prefix_excluded h3 hpre
  obtain ⟨cur', a, h5, h6, h7, h8⟩ := restrictLoop_cons h4
  have hxa : x ∈ a.excluded := by
    rcases acc_excluded h6 h7 with ⟨_, e⟩ | ⟨e, _⟩ | ⟨e, _⟩
    · rw [e]; exact hx
    · exact absurd hacc e
    · exact absurd hacc e
  obtain ⟨i1, i2⟩ := excl_loop hxa hno h5
  refine ⟨(checkNames_true h2).1 x i1, fun st hst hc => ?_⟩
  rcases List.mem_cons.1 hst with rfl | hm
  · exact (checkNames_true (h8 hc)).1 x hxa
  · exact i2 st hm hc

example : moreSpecific "https://op.example.org" "https://example.com" = .ok false :=
  (C24_exclusion_partial [⟨"https://r.se", none⟩] [⟨"https://b.se", none⟩]
    ⟨"https://ia.se", some ⟨none, some ⟨none, some ["https://example.com"]⟩⟩⟩ ⟨"https://op.example.org", none⟩
    "https://example.com" (by decide) (by decide) (by decide) (by decide +kernel)).1

/-! ## C69 -/

/-- An http(s) URL. -/
def IsUrl (s : String) : Prop := ∃ r, AfterScheme s r

/-- Every name in the statement is an http(s) URL. -/
def UrlNames (st : CStatement) : Prop :=
  IsUrl st.sub ∧ (∀ x ∈ st.permitted, IsUrl x) ∧ ∀ x ∈ st.excluded, IsUrl x

/-- C69 in full: constraint checking gives a verdict on every chain whose names are URLs. -/
def C69_full : Prop :=
  ∀ (sups : List CStatement) (leaf : CStatement), (∀ st ∈ sups, UrlNames st) → UrlNames leaf →
    ∃ b, meetsRestrictions sups leaf = .ok b

theorem isUrl_iff {s : String} : IsUrl s ↔ ∃ A, labelsOf s = some A := by
  unfold IsUrl labelsOf
  constructor
  · rintro ⟨r, h⟩; rw [← removeScheme_iff] at h; simp [h]
  · intro h
    cases hr : removeScheme s with
    | error e => simp [hr] at h
    | ok r => exact ⟨r, removeScheme_iff.1 hr⟩

theorem moreSpecific_total {a b : String} (ha : IsUrl a) (hb : IsUrl b) : ∃ r, moreSpecific a b = .ok r :=
  moreSpecific_ok.2 ⟨isUrl_iff.1 ha, isUrl_iff.1 hb⟩

/-- C69 is violated: a statement with naming constraints but without `excluded`, below one that excludes something, makes
checking fail with a KeyError instead of a verdict. -/
theorem C69_verdict_violation : ¬ C69_full := by
  intro h
  have hu : ∀ s : String, (labelsOf s).isSome = true → IsUrl s :=
    fun s hs => isUrl_iff.2 (Option.isSome_iff_exists.1 hs)
  obtain ⟨b, hb⟩ := h [⟨"https://ia.se", some ⟨none, some ⟨none, some ["https://evil.org"]⟩⟩⟩,
      ⟨"https://op.se", some ⟨none, some ⟨some ["https://op.se"], none⟩⟩⟩] ⟨"https://op.se", none⟩
    (by
      intro st hst
      simp only [List.mem_cons, List.not_mem_nil, or_false] at hst
      rcases hst with rfl | rfl
      · exact ⟨hu _ (by decide +kernel), fun x hx => hu x (by revert x; decide +kernel), fun x hx => hu x (by revert x; decide +kernel)⟩
      · exact ⟨hu _ (by decide +kernel), fun x hx => hu x (by revert x; decide +kernel), fun x hx => hu x (by revert x; decide +kernel)⟩)
    ⟨hu _ (by decide +kernel), fun x hx => hu x (by revert x; decide +kernel), fun x hx => hu x (by revert x; decide +kernel)⟩
  have : meetsRestrictions [⟨"https://ia.se", some ⟨none, some ⟨none, some ["https://evil.org"]⟩⟩⟩,
      ⟨"https://op.se", some ⟨none, some ⟨some ["https://op.se"], none⟩⟩⟩] ⟨"https://op.se", none⟩ = .error .keyError := by
    decide +kernel
  rw [this] at hb; simp at hb

theorem refinements_total {o : String} {new : List String} (ho : IsUrl o) (hn : ∀ x ∈ new, IsUrl x) :
    ∃ r, refinements o new = .ok r := by
  induction new with
  | nil => exact ⟨[], rfl⟩
  | cons n ns ih =>
    obtain ⟨r, hr⟩ := ih fun x hx => hn x (by simp [hx])
    obtain ⟨b, hb⟩ := moreSpecific_total (hn n (by simp)) ho
    exact ⟨_, by simp [refinements, hb, hr]; rfl⟩

theorem updateSpecs_total {new old : List String} (ho : ∀ x ∈ old, IsUrl x) (hn : ∀ x ∈ new, IsUrl x) :
    ∃ r, updateSpecs new old = .ok r ∧ ∀ x ∈ r, IsUrl x := by
  have : ∃ r, updateSpecs new old = .ok r := by
    induction old with
    | nil => exact ⟨[], rfl⟩
    | cons o os ih =>
      obtain ⟨r, hr⟩ := ih fun x hx => ho x (by simp [hx])
      obtain ⟨q, hq⟩ := refinements_total (ho o (by simp)) hn
      exact ⟨_, by simp [updateSpecs, hq, hr]; rfl⟩
  obtain ⟨r, hr⟩ := this
  refine ⟨r, hr, fun x hx => ?_⟩
  rcases (updateSpecs_mem hr x).1 hx with ⟨_, _, h, _⟩ | ⟨h, _⟩
  · exact hn x h
  · exact ho x h

theorem addKey_total {new : Option (List String)} {cur : List String} (hs : new ≠ none) (ho : ∀ x ∈ cur, IsUrl x)
    (hn : ∀ x ∈ new.getD [], IsUrl x) : ∃ r, addKey new cur = .ok r ∧ ∀ x ∈ r, IsUrl x := by
  cases new with
  | none => exact absurd rfl hs
  | some n =>
    unfold addKey
    by_cases hc : cur.isEmpty = true
    · by_cases hne : n.isEmpty = true
      · exact ⟨cur, by simp [hc, hne], ho⟩
      · exact ⟨n, by simp [hc, hne], by simpa using hn⟩
    · by_cases hne : n.isEmpty = true
      · exact ⟨cur, by simp [hc, hne], ho⟩
      · obtain ⟨r, h1, h2⟩ := updateSpecs_total ho (by simpa using hn : ∀ x ∈ n, IsUrl x)
        exact ⟨r, by simp [hc, hne, h1], h2⟩

theorem anyMatch_total {s : String} {l : List String} (hs : IsUrl s) (hl : ∀ x ∈ l, IsUrl x) : ∃ b, anyMatch s l = .ok b := by
  induction l with
  | nil => exact ⟨false, rfl⟩
  | cons e es ih =>
    obtain ⟨b, hb⟩ := moreSpecific_total hs (hl e (by simp))
    obtain ⟨r, hr⟩ := ih fun x hx => hl x (by simp [hx])
    cases b with
    | true => exact ⟨true, by simp [anyMatch, hb]⟩
    | false => exact ⟨r, by simp [anyMatch, hb, hr]⟩

theorem checkNames_total {s : String} {acc : Acc} (hs : IsUrl s) (hp : ∀ x ∈ acc.permitted, IsUrl x)
    (he : ∀ x ∈ acc.excluded, IsUrl x) : ∃ b, checkNames s acc = .ok b := by
  obtain ⟨p, hp⟩ := anyMatch_total hs hp
  obtain ⟨e, he⟩ := anyMatch_total hs he
  unfold checkNames
  by_cases h1 : acc.excluded.isEmpty = true
  · by_cases h2 : acc.permitted.isEmpty = true
    · exact ⟨true, by simp [h1, h2]⟩
    · exact ⟨p, by simp [h1, h2, hp]⟩
  · cases e with
    | true => exact ⟨false, by simp [h1, he]⟩
    | false =>
      by_cases h2 : acc.permitted.isEmpty = true
      · exact ⟨true, by simp [h1, h2, he]⟩
      · exact ⟨p, by simp [h1, h2, hp, he]⟩

/-- C69 when every statement with naming constraints has both lists (possibly empty). -/
theorem C69_verdict_partial (sups : List CStatement) (leaf : CStatement) (hu : ∀ st ∈ sups, UrlNames st) (hl : UrlNames leaf)
    (hboth : ∀ st ∈ sups, ∀ n, st.naming = some n → n.permitted ≠ none ∧ n.excluded ≠ none) :
    ∃ b, meetsRestrictions sups leaf = .ok b := by
  have key : ∀ (sups : List CStatement), (∀ st ∈ sups, UrlNames st) →
      (∀ st ∈ sups, ∀ n, st.naming = some n → n.permitted ≠ none ∧ n.excluded ≠ none) →
      ∀ (cur : Int) (acc : Acc), (∀ x ∈ acc.permitted, IsUrl x) → (∀ x ∈ acc.excluded, IsUrl x) →
      ∃ o, restrictLoop sups cur false acc = .ok o ∧
        ∀ fin, o = some fin → (∀ x ∈ fin.permitted, IsUrl x) ∧ ∀ x ∈ fin.excluded, IsUrl x := by
    intro sups
    induction sups with
    | nil =>
      intro _ _ cur acc h1 h2
      exact ⟨some acc, rfl, fun fin hf => by simp only [Option.some.injEq] at hf; subst hf; exact ⟨h1, h2⟩⟩
    | cons st sups ih =>
      intro hu hboth cur acc h1 h2
      have ih := ih (fun s hs => hu s (by simp [hs])) (fun s hs => hboth s (by simp [hs]))
      obtain ⟨u1, u2, u3⟩ := hu st (by simp)
      have hb := hboth st (by simp)
      simp only [restrictLoop]
      cases hc : st.constraints with
      | none => exact ih cur acc h1 h2
      | some c =>
        simp only
        split
        · exact ⟨none, rfl, by simp⟩
        · have : ∃ a, updateNaming c acc = .ok a ∧ (∀ x ∈ a.permitted, IsUrl x) ∧ ∀ x ∈ a.excluded, IsUrl x := by
            unfold updateNaming
            cases hn : c.naming with
            | none => exact ⟨acc, rfl, h1, h2⟩
            | some n =>
              have hsn : st.naming = some n := by simp [CStatement.naming, hc, hn]
              obtain ⟨b1, b2⟩ := hb n hsn
              obtain ⟨p, hp1, hp2⟩ := addKey_total b1 h1 (by simpa [CStatement.permitted, hsn] using u2)
              obtain ⟨e, he1, he2⟩ := addKey_total b2 h2 (by simpa [CStatement.excluded, hsn] using u3)
              exact ⟨⟨p, e⟩, by simp [addConstraints, hp1, he1], hp2, he2⟩
          obtain ⟨a, ha, ha1, ha2⟩ := this
          obtain ⟨b, hk⟩ := checkNames_total u1 ha1 ha2
          simp only [ha, ok_bind, hk]
          cases b with
          | true => simp only [if_true]; exact ih _ a ha1 ha2
          | false => exact ⟨none, by simp, by simp⟩
  obtain ⟨o, h1, h2⟩ := key sups hu hboth 0 ⟨[], []⟩ (by simp) (by simp)
  unfold meetsRestrictions
  cases o with
  | none => exact ⟨false, by simp [h1]⟩
  | some fin =>
    obtain ⟨b, hb⟩ := checkNames_total hl.1 (h2 fin rfl).1 (h2 fin rfl).2
    exact ⟨b, by simp [h1, hb]⟩

example : meetsRestrictions [Ex.ta, Ex.ia] ⟨"https://op.sub.example.com", none⟩ = .ok true := by decide +kernel

end Fed.Constraints
