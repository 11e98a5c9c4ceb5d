import Verif.Constraints.Props
/-
Property C108: chains that keep to all constraints are accepted.
-/
namespace Fed.Constraints
open Fed

/-- The name is excluded by none of the statements and inside every permitted list. -/
def Keeps (s : String) (sts : List CStatement) : Prop :=
  ∀ st ∈ sts, (∀ x ∈ st.excluded, moreSpecific s x ≠ .ok true) ∧ (st.permitted ≠ [] → ∃ p ∈ st.permitted, moreSpecific s p = .ok true)

/-- Every subject keeps to the constraints of its own statement and of those before it, and no path is longer than allowed. -/
structure KeepsAll (sups : List CStatement) (leaf : CStatement) : Prop where
  path : ∀ pre st post c m, sups = pre ++ st :: post → st.constraints = some c → c.maxPathLength = some m → (post.length : Int) ≤ m
  subjects : ∀ pre st post, sups = pre ++ st :: post → Keeps st.sub (pre ++ [st])
  leaf : Keeps leaf.sub sups

/-- C108 in full: chains that keep to all constraints are accepted. (That each naming constraint gives both lists is assumed here already, see C69.) -/
def C108_full : Prop :=
  ∀ (sups : List CStatement) (leaf : CStatement), (∀ st ∈ sups, UrlNames st) → UrlNames leaf →
    (∀ st ∈ sups, ∀ n, st.naming = some n → n.permitted ≠ none ∧ n.excluded ≠ none) → KeepsAll sups leaf → meetsRestrictions sups leaf = .ok true

/-- C108 is violated: a statement that permits a wider tree and a narrower one beside it loses the wider one. -/
theorem C108_wider_violation : ¬ C108_full := by
  intro h
  have hu : ∀ s : String, (labelsOf s).isSome = true → IsUrl s := fun s hs => isUrl_iff.2 (Option.isSome_iff_exists.1 hs)
  let a : CStatement := ⟨"https://a.example.com", some ⟨none, some ⟨some ["https://example.com"], some []⟩⟩⟩
  let b : CStatement := ⟨"https://b.tiny.example.com", some ⟨none, some ⟨some ["https://com", "https://tiny.example.com"], some []⟩⟩⟩
  have hsplit : ∀ (pre : List CStatement) st post, [a, b] = pre ++ st :: post → (pre = [] ∧ st = a ∧ post = [b]) ∨ (pre = [a] ∧ st = b ∧ post = []) := by
    intro pre st post h
    match pre, h with
    | [], h => simp at h; exact Or.inl ⟨rfl, h.1.symm, h.2.symm⟩
    | [x], h => simp at h; exact Or.inr ⟨by rw [h.1], h.2.1.symm, h.2.2⟩
    | x :: y :: pre, h => simp at h
  have := h [a, b] ⟨"https://leaf.example.com", none⟩
    (by
      intro st hst
      simp only [List.mem_cons, List.not_mem_nil, or_false] at hst
      rcases hst with rfl | rfl
      · exact ⟨hu _ (by decide +kernel), fun x hx => hu x (by revert x; decide +kernel), fun x hx => hu x (by revert x; decide +kernel)⟩
      · exact ⟨hu _ (by decide +kernel), fun x hx => hu x (by revert x; decide +kernel), fun x hx => hu x (by revert x; decide +kernel)⟩)
    ⟨hu _ (by decide +kernel), fun x hx => (by cases hx), fun x hx => (by cases hx)⟩
    (by
      intro st hst n hn
      simp only [List.mem_cons, List.not_mem_nil, or_false] at hst
      rcases hst with rfl | rfl <;> · cases hn; exact ⟨by simp, by simp⟩)
    ⟨(by
      intro pre st post c m he hc hm
      rcases hsplit pre st post he with ⟨-, rfl, -⟩ | ⟨-, rfl, -⟩ <;> · cases hc; cases hm),
    (by
      intro pre st post he
      rcases hsplit pre st post he with ⟨rfl, rfl, -⟩ | ⟨rfl, rfl, -⟩ <;> unfold Keeps <;> decide +kernel),
    by unfold Keeps; decide +kernel⟩
  revert this
  decide +kernel

/-- Later permitted trees that meet an earlier one lie inside it. -/
def Narrowing (sups : List CStatement) : Prop :=
  sups.Pairwise fun st st' => ∀ o ∈ st.permitted, ∀ n ∈ st'.permitted, (∃ s, moreSpecific s o = .ok true ∧ moreSpecific s n = .ok true) → moreSpecific n o = .ok true

/-- What has been gathered from the statements before. -/
structure Gathered (done : List CStatement) (acc : Acc) : Prop where
  permitted : ∀ p ∈ acc.permitted, IsUrl p ∧ ∃ st ∈ done, p ∈ st.permitted
  excluded : ∀ x ∈ acc.excluded, IsUrl x ∧ ∃ st ∈ done, x ∈ st.excluded
  covers : ∀ s, Keeps s done → acc.permitted ≠ [] → ∃ p ∈ acc.permitted, moreSpecific s p = .ok true

theorem checkNames_keeps {s : String} {done : List CStatement} {acc : Acc} (hg : Gathered done acc) (hs : IsUrl s) (hk : Keeps s done) : checkNames s acc = .ok true := by
  obtain ⟨p, hp⟩ := anyMatch_total hs fun x hx => (hg.permitted x hx).1
  obtain ⟨e, he⟩ := anyMatch_total hs fun x hx => (hg.excluded x hx).1
  have he' : e = false := by
    cases e with
    | false => rfl
    | true =>
      obtain ⟨x, h1, h2⟩ := anyMatch_true he
      obtain ⟨-, st, h3, h4⟩ := hg.excluded x h1
      exact absurd h2 ((hk st h3).1 x h4)
  subst he'
  unfold checkNames
  by_cases h2 : acc.permitted = []
  · by_cases h1 : acc.excluded.isEmpty = true <;> simp [h1, h2, he]
  · have : p = true := by
      cases p with
      | true => rfl
      | false =>
        obtain ⟨q, h3, h4⟩ := hg.covers s hk h2
        have := anyMatch_false hp q h3
        rw [h4] at this
        cases this
    subst this
    have h2' : acc.permitted.isEmpty = false := by simpa using h2
    by_cases h1 : acc.excluded.isEmpty = true <;> simp [h1, h2', he, hp]

theorem gathered_step {done : List CStatement} {st : CStatement} {c : Constr} {acc : Acc} (hg : Gathered done acc) (hc : st.constraints = some c) (hu : UrlNames st)
    (hb : ∀ n, st.naming = some n → n.permitted ≠ none ∧ n.excluded ≠ none)
    (hn : ∀ d ∈ done, ∀ o ∈ d.permitted, ∀ n ∈ st.permitted, (∃ s, moreSpecific s o = .ok true ∧ moreSpecific s n = .ok true) → moreSpecific n o = .ok true) :
    ∃ acc', updateNaming c acc = .ok acc' ∧ Gathered (done ++ [st]) acc' := by
  obtain ⟨-, u2, u3⟩ := hu
  have wider : ∀ {s}, Keeps s (done ++ [st]) → Keeps s done := fun h d hd => h d (by simp [hd])
  cases hnm : c.naming with
  | none =>
    refine ⟨acc, by simp [updateNaming, hnm], fun p hp => ?_, fun x hx => ?_, fun s hs => hg.covers s (wider hs)⟩
    · obtain ⟨h1, d, h2, h3⟩ := hg.permitted p hp; exact ⟨h1, d, by simp [h2], h3⟩
    · obtain ⟨h1, d, h2, h3⟩ := hg.excluded x hx; exact ⟨h1, d, by simp [h2], h3⟩
  | some n =>
    have hsn : st.naming = some n := by simp [CStatement.naming, hc, hnm]
    obtain ⟨b1, b2⟩ := hb n hsn
    obtain ⟨np, hnp⟩ := Option.ne_none_iff_exists'.1 b1
    obtain ⟨ne, hne⟩ := Option.ne_none_iff_exists'.1 b2
    have hsp : st.permitted = np := by simp [CStatement.permitted, hsn, hnp]
    have hse : st.excluded = ne := by simp [CStatement.excluded, hsn, hne]
    rw [hsp] at u2 hn
    rw [hse] at u3
    have P : ∃ p, addKey n.permitted acc.permitted = .ok p ∧ (∀ q ∈ p, IsUrl q ∧ ∃ d ∈ done ++ [st], q ∈ d.permitted) ∧
        ∀ s, Keeps s (done ++ [st]) → p ≠ [] → ∃ q ∈ p, moreSpecific s q = .ok true := by
      rw [hnp]
      unfold addKey
      have old : (∀ q ∈ acc.permitted, IsUrl q ∧ ∃ d ∈ done ++ [st], q ∈ d.permitted) := fun q hq => by
        obtain ⟨h1, d, h2, h3⟩ := hg.permitted q hq; exact ⟨h1, d, by simp [h2], h3⟩
      by_cases he : np.isEmpty = true
      · refine ⟨acc.permitted, by simp [he], old, fun s hs => hg.covers s (wider hs)⟩
      · have he' : np.isEmpty = false := by simpa using he
        have hnne : np ≠ [] := by simpa using he
        by_cases hac : acc.permitted.isEmpty = true
        · refine ⟨np, by simp [hac, he'], fun q hq => ⟨u2 q hq, st, by simp, by rw [hsp]; exact hq⟩, fun s hs _ => ?_⟩
          have := (hs st (by simp)).2
          rw [hsp] at this
          exact this hnne
        · have hac' : acc.permitted.isEmpty = false := by simpa using hac
          have hane : acc.permitted ≠ [] := by simpa using hac
          obtain ⟨r, hr, hru⟩ := updateSpecs_total (fun x hx => (hg.permitted x hx).1) u2
          refine ⟨r, by simp [hac', he', hr], fun q hq => ⟨hru q hq, ?_⟩, fun s hs _ => ?_⟩
          · rcases (updateSpecs_mem hr q).1 hq with ⟨_, _, h, _⟩ | ⟨h, _⟩
            · exact ⟨st, by simp, by rw [hsp]; exact h⟩
            · exact (old q h).2
          · obtain ⟨o, h1, h2⟩ := hg.covers s (wider hs) hane
            have h3 := (hs st (by simp)).2
            rw [hsp] at h3
            obtain ⟨m, h4, h5⟩ := h3 hnne
            obtain ⟨-, d, h6, h7⟩ := hg.permitted o h1
            exact ⟨m, (updateSpecs_mem hr m).2 (Or.inl ⟨o, h1, h4, hn d h6 o h7 m h4 ⟨s, h2, h5⟩⟩), h5⟩
    have X : ∃ e, addKey n.excluded acc.excluded = .ok e ∧ (∀ q ∈ e, IsUrl q ∧ ∃ d ∈ done ++ [st], q ∈ d.excluded) := by
      rw [hne]
      have old : (∀ q ∈ acc.excluded, IsUrl q ∧ ∃ d ∈ done ++ [st], q ∈ d.excluded) := fun q hq => by
        obtain ⟨h1, d, h2, h3⟩ := hg.excluded q hq; exact ⟨h1, d, by simp [h2], h3⟩
      have new : ∀ q ∈ ne, IsUrl q ∧ ∃ d ∈ done ++ [st], q ∈ d.excluded := fun q hq => ⟨u3 q hq, st, by simp, by rw [hse]; exact hq⟩
      unfold addKey
      by_cases he : ne.isEmpty = true
      · exact ⟨acc.excluded, by simp [he], old⟩
      · have he' : ne.isEmpty = false := by simpa using he
        by_cases hac : acc.excluded.isEmpty = true
        · exact ⟨ne, by simp [hac, he'], new⟩
        · have hac' : acc.excluded.isEmpty = false := by simpa using hac
          obtain ⟨r, hr, hru⟩ := updateSpecs_total (fun x hx => (hg.excluded x hx).1) u3
          refine ⟨r, by simp [hac', he', hr], fun q hq => ?_⟩
          rcases (updateSpecs_mem hr q).1 hq with ⟨_, _, h, _⟩ | ⟨h, _⟩
          · exact new q h
          · exact old q h
    obtain ⟨p, p1, p2, p3⟩ := P
    obtain ⟨e, e1, e2⟩ := X
    exact ⟨⟨p, e⟩, by simp [updateNaming, hnm, addConstraints, p1, e1], p2, e2, p3⟩

theorem loop_keeps : ∀ {sups done : List CStatement} {acc : Acc} {cur : Int}, Gathered done acc → (∀ st ∈ sups, UrlNames st) →
    (∀ st ∈ sups, ∀ n, st.naming = some n → n.permitted ≠ none ∧ n.excluded ≠ none) → Narrowing (done ++ sups) →
    (∀ pre st post, sups = pre ++ st :: post → Keeps st.sub (done ++ pre ++ [st])) →
    (∀ st ∈ sups, ∀ c m, st.constraints = some c → c.maxPathLength = some m → 0 ≤ m) →
    ∃ fin, restrictLoop sups cur false acc = .ok (some fin) ∧ Gathered (done ++ sups) fin
  | [], done, acc, cur, hg, _, _, _, _, _ => ⟨acc, rfl, by simpa using hg⟩
  | st :: sups, done, acc, cur, hg, hu, hb, hn, hk, hm => by
    have hn0 : ∀ d ∈ done, ∀ o ∈ d.permitted, ∀ n ∈ st.permitted, (∃ s, moreSpecific s o = .ok true ∧ moreSpecific s n = .ok true) → moreSpecific n o = .ok true := by
      intro d hd
      exact (List.pairwise_append.1 hn).2.2 d hd st (by simp)
    have ih := fun {acc cur} hg => @loop_keeps sups (done ++ [st]) acc cur hg (fun s hs => hu s (by simp [hs])) (fun s hs => hb s (by simp [hs])) (by simpa using hn)
      (fun pre s post he => by have := hk (st :: pre) s post (by simp [he]); simpa using this) (fun s hs => hm s (by simp [hs]))
    simp only [restrictLoop]
    cases hc : st.constraints with
    | none =>
      have hg' : Gathered (done ++ [st]) acc := by
        refine ⟨fun p hp => ?_, fun x hx => ?_, fun s hs => hg.covers s (fun d hd => hs d (by simp [hd]))⟩
        · obtain ⟨h1, d, h2, h3⟩ := hg.permitted p hp; exact ⟨h1, d, by simp [h2], h3⟩
        · obtain ⟨h1, d, h2, h3⟩ := hg.excluded x hx; exact ⟨h1, d, by simp [h2], h3⟩
      simpa using ih (cur := cur) hg'
    | some c =>
      obtain ⟨acc', h1, h2⟩ := gathered_step hg hc (hu st (by simp)) (hb st (by simp)) hn0
      have hcur : ¬ calculatePathLength c cur false < 0 := by
        unfold calculatePathLength
        cases hmp : c.maxPathLength with
        | none => simp
        | some m =>
          have := hm st (by simp) c m hc hmp
          simp only [Bool.false_eq_true, if_false]
          omega
      have hcn : checkNames st.sub acc' = .ok true := checkNames_keeps h2 (hu st (by simp)).1 (by simpa using hk [] st sups rfl)
      simp only [hcur, if_false, h1, ok_bind, hcn, if_true]
      simpa using ih (cur := calculatePathLength c cur false) h2

/-- C108 for chains whose permitted lists narrow from the anchor down. Missing: the other chains, for which it is false. -/
theorem C108_accepted_partial (sups : List CStatement) (leaf : CStatement) (hu : ∀ st ∈ sups, UrlNames st) (hl : UrlNames leaf)
    (hb : ∀ st ∈ sups, ∀ n, st.naming = some n → n.permitted ≠ none ∧ n.excluded ≠ none) (hk : KeepsAll sups leaf) (hn : Narrowing sups) :
    meetsRestrictions sups leaf = .ok true := by
  obtain ⟨fin, h1, h2⟩ := loop_keeps (sups := sups) (done := []) (acc := ⟨[], []⟩) (cur := 0) ⟨by simp, by simp, by simp⟩ hu hb (by simpa using hn)
    (fun pre st post he => by simpa using hk.subjects pre st post he)
    (fun st hst c m hc hm => by
      obtain ⟨pre, post, he⟩ := List.append_of_mem hst
      have := hk.path pre st post c m he hc hm
      omega)
  unfold meetsRestrictions
  simp only [h1, ok_bind]
  exact checkNames_keeps h2 hl.1 (by simpa using hk.leaf)

/-- The hypotheses are met by a chain with two lists, exclusions and path lengths. -/
example : meetsRestrictions [⟨"https://a.example.com", some ⟨some 1, some ⟨some ["https://example.com"], some ["https://bad.example.com"]⟩⟩⟩,
    ⟨"https://b.tiny.example.com", some ⟨some 0, some ⟨some ["https://tiny.example.com"], some []⟩⟩⟩] ⟨"https://leaf.tiny.example.com", none⟩ = .ok true := by
  have hu : ∀ s : String, (labelsOf s).isSome = true → IsUrl s := fun s hs => isUrl_iff.2 (Option.isSome_iff_exists.1 hs)
  let a : CStatement := ⟨"https://a.example.com", some ⟨some 1, some ⟨some ["https://example.com"], some ["https://bad.example.com"]⟩⟩⟩
  let b : CStatement := ⟨"https://b.tiny.example.com", some ⟨some 0, some ⟨some ["https://tiny.example.com"], some []⟩⟩⟩
  have hsplit : ∀ (pre : List CStatement) st post, [a, b] = pre ++ st :: post → (pre = [] ∧ st = a ∧ post = [b]) ∨ (pre = [a] ∧ st = b ∧ post = []) := by
    intro pre st post h
    match pre, h with
    | [], h => simp at h; exact Or.inl ⟨rfl, h.1.symm, h.2.symm⟩
    | [x], h => simp at h; exact Or.inr ⟨by rw [h.1], h.2.1.symm, h.2.2⟩
    | x :: y :: pre, h => simp at h
  refine C108_accepted_partial [a, b] ⟨"https://leaf.tiny.example.com", none⟩
    (by
      intro st hst
      simp only [List.mem_cons, List.not_mem_nil, or_false] at hst
      rcases hst with rfl | rfl
      · exact ⟨hu _ (by decide +kernel), fun x hx => hu x (by revert x; decide +kernel), fun x hx => hu x (by revert x; decide +kernel)⟩
      · exact ⟨hu _ (by decide +kernel), fun x hx => hu x (by revert x; decide +kernel), fun x hx => hu x (by revert x; decide +kernel)⟩)
    ⟨hu _ (by decide +kernel), fun x hx => (by cases hx), fun x hx => (by cases hx)⟩
    (by
      intro st hst n hn
      simp only [List.mem_cons, List.not_mem_nil, or_false] at hst
      rcases hst with rfl | rfl <;> · cases hn; exact ⟨by simp, by simp⟩)
    ⟨(by
      intro pre st post c m he hc hm
      rcases hsplit pre st post he with ⟨-, rfl, rfl⟩ | ⟨-, rfl, rfl⟩ <;> · cases hc; cases hm; decide),
    (by
      intro pre st post he
      rcases hsplit pre st post he with ⟨rfl, rfl, -⟩ | ⟨rfl, rfl, -⟩ <;> unfold Keeps <;> decide +kernel),
    by unfold Keeps; decide +kernel⟩ ?_
  refine List.Pairwise.cons ?_ (List.pairwise_singleton _ _)
  intro st hst o ho n hn _
  simp only [List.mem_cons, List.not_mem_nil, or_false] at hst
  subst hst
  have ho : o = "https://example.com" := by simpa [a, CStatement.permitted, CStatement.naming] using ho
  have hn : n = "https://tiny.example.com" := by simpa [b, CStatement.permitted, CStatement.naming] using hn
  subst ho hn
  decide +kernel

end Fed.Constraints
