import Verif.Chains.Lemmas
import Verif.Policy.CombineProps
/-
Properties C43–C47, C67 and C76–C79: choosing, keeping and using trust chains; the whole way from an entity identifier to
verified metadata.
-/
namespace Fed.Chains
open Fed Verify

/-! ### Examples -/
namespace Ex
/-- A chain with the given anchor, subject and number of statements. -/
def tc (anchor leaf : String) (n : Nat) : TrustChain where
  anchor := anchor
  issPath := [leaf, anchor]
  exp := 100
  verified := List.replicate n { iss := anchor, sub := leaf }
  chain := []
end Ex

/-! ## C43 -/

/-- C43: the dictionary has an entry for an anchor exactly if some chain has that anchor, and it is the first of the shortest
chains with that anchor; no anchor twice. -/
theorem C43_shortest_first (tcs : List TrustChain) :
    (Dict.keys (chains2dict tcs)).Nodup ∧
    (∀ a tc, (chains2dict tcs).get? a = some tc ↔
      ∃ pre post, tcs = pre ++ tc :: post ∧ tc.anchor = a ∧
        (∀ x ∈ pre, x.anchor = a → tc.verified.length < x.verified.length) ∧
        (∀ x ∈ post, x.anchor = a → tc.verified.length ≤ x.verified.length)) ∧
    ∀ a, (∃ tc, (chains2dict tcs).get? a = some tc) ↔ ∃ x ∈ tcs, x.anchor = a := by
  refine ⟨chains2dictLoop_nodup tcs [] (by simp [Dict.keys]), fun a tc => chains2dict_get tcs a tc, fun a => ?_⟩
  constructor
  · rintro ⟨tc, h⟩
    exact ⟨tc, ((chains2dict_get tcs a tc).1 h).mem⟩
  · intro h
    obtain ⟨tc, h⟩ := exists_firstShortest (q := fun x => x.anchor = a) h
    exact ⟨tc, (chains2dict_get tcs a tc).2 h⟩

example : chains2dict [Ex.tc "ta1" "x" 3, Ex.tc "ta2" "x" 3, Ex.tc "ta1" "x" 2, Ex.tc "ta1" "y" 2] =
    [("ta1", Ex.tc "ta1" "x" 2), ("ta2", Ex.tc "ta2" "x" 3)] := by decide

/-! ## C44 -/

/-- The store after a history of saves. -/
def runSaves (s : Store) (h : List (List TrustChain)) : Store := h.foldl (fun s tcs => (saveTrustChains s tcs).2) s

/-- `tc` is about the entity and has the anchor. -/
def About (e a : String) (tc : TrustChain) : Prop := tc.issPath.head? = some e ∧ tc.anchor = a

/-- C44 in full. -/
def C44_full : Prop :=
  ∀ (h : List (List TrustChain)), (∀ tcs ∈ h, ∀ tc ∈ tcs, tc.issPath ≠ []) → ∀ e a tc,
    getTrustChain (runSaves [] h) e a = some tc ↔
      ∃ before tcs after, h = before ++ tcs :: after ∧ FirstShortest (About e a) tcs tc ∧
        ∀ later ∈ after, ∀ x ∈ later, ¬ About e a x

/-- C44 does not hold: of chains of two entities to the same anchor, saved together, only one is found again. -/
theorem C44_mixed_save_violation : ¬ C44_full := by
  intro h
  have := (h [[Ex.tc "ta" "x" 2, Ex.tc "ta" "y" 2]] (by decide) "y" "ta" (Ex.tc "ta" "y" 2)).2
    ⟨[], _, [], rfl, ⟨[Ex.tc "ta" "x" 2], [], rfl, ⟨rfl, rfl⟩, by
      intro x hx hq
      simp only [List.mem_singleton] at hx
      subst hx
      exact absurd hq.1 (by decide), by simp⟩, by simp⟩
  exact absurd this (by decide)

theorem saveLoop_get : ∀ (d : List (String × TrustChain)) (s : Store) (e a : String), (d.map (·.1)).Nodup →
    (∀ p ∈ d, p.2.issPath ≠ []) →
    (saveLoop d s).1 = .ok () ∧ getTrustChain (saveLoop d s).2 e a =
      match Dict.get? d a with
      | some t => if t.issPath.head? = some e then some t else getTrustChain s e a
      | none => getTrustChain s e a
  | [], s, e, a, _, _ => ⟨rfl, rfl⟩
  | (ta, t) :: d, s, e, a, hn, hp => by
      simp only [List.map_cons, List.nodup_cons] at hn
      have hd : Dict.get? d ta = none := by
        cases h : Dict.get? d ta with
        | none => rfl
        | some v => exact absurd ((Dict.mem_keys_iff d ta).2 (by simp [h])) hn.1
      unfold saveLoop
      cases hi : t.issPath with
      | nil => exact absurd hi (hp (ta, t) (by simp))
      | cons x xs =>
        have get : ∀ s' : Store, (∀ e' a', getTrustChain s' e' a' = if x = e' ∧ ta = a' then some t else getTrustChain s e' a') →
            (saveLoop d s').1 = .ok () ∧ getTrustChain (saveLoop d s').2 e a =
              match Dict.get? ((ta, t) :: d) a with
              | some t => if t.issPath.head? = some e then some t else getTrustChain s e a
              | none => getTrustChain s e a := by
          intro s' hs'
          obtain ⟨i1, i2⟩ := saveLoop_get d s' e a hn.2 fun p h => hp p (by simp [h])
          refine ⟨i1, ?_⟩
          rw [i2, hs', Dict.get?_cons]
          by_cases hta : ta = a
          · subst hta
            rw [hd, if_pos rfl]
            simp [hi]
          · simp [hta]
        simp only
        cases hs : s.get? x with
        | none =>
          refine get _ fun e' a' => ?_
          unfold getTrustChain
          rw [Dict.get?_set]
          by_cases hx : x = e'
          · subst hx
            simp only [if_true, hs, true_and]
            rw [Dict.get?_cons, Dict.get?_nil]
          · simp [hx]
        | some dd =>
          refine get _ fun e' a' => ?_
          unfold getTrustChain
          rw [Dict.get?_set]
          by_cases hx : x = e'
          · subst hx
            simp only [if_true, hs, true_and]
            rw [Dict.get?_set]
          · simp [hx]

theorem get?_mem {β} {d : Dict β} {k : String} {v : β} (h : d.get? k = some v) : (k, v) ∈ d := by
  induction d with
  | nil => simp at h
  | cons p d ih =>
    obtain ⟨q, w⟩ := p
    rw [Dict.get?_cons] at h
    split at h
    · rename_i e; subst e; cases h; simp
    · exact List.mem_cons_of_mem _ (ih h)

theorem mem_get? {β} {d : Dict β} {k : String} {v : β} (hn : (Dict.keys d).Nodup) (h : (k, v) ∈ d) : d.get? k = some v := by
  induction d with
  | nil => simp at h
  | cons p d ih =>
    obtain ⟨q, w⟩ := p
    simp only [Dict.keys, List.map_cons, List.nodup_cons] at hn
    rw [Dict.get?_cons]
    rcases List.mem_cons.1 h with h | h
    · cases h; simp
    · have : q ≠ k := by
        rintro rfl
        exact hn.1 (List.mem_map.2 ⟨_, h, rfl⟩)
      rw [if_neg this]
      exact ih hn.2 h

theorem saveTrustChains_get (s : Store) (tcs : List TrustChain) (e a : String) (hp : ∀ tc ∈ tcs, tc.issPath ≠ []) :
    (saveTrustChains s tcs).1 = .ok () ∧ getTrustChain (saveTrustChains s tcs).2 e a =
      match (chains2dict tcs).get? a with
      | some t => if t.issPath.head? = some e then some t else getTrustChain s e a
      | none => getTrustChain s e a := by
  have hn := (C43_shortest_first tcs).1
  refine saveLoop_get _ s e a hn fun p hpm => ?_
  have := mem_get? hn (k := p.1) (v := p.2) hpm
  rw [chains2dict_get] at this
  exact hp _ this.mem.1

/-- C44 as far as it holds: a chain that is found was saved for that entity and that anchor. -/
theorem C44_found_was_saved_partial (h : List (List TrustChain)) (hp : ∀ tcs ∈ h, ∀ tc ∈ tcs, tc.issPath ≠ [])
    (e a : String) (tc : TrustChain) (hg : getTrustChain (runSaves [] h) e a = some tc) :
    ∃ tcs ∈ h, tc ∈ tcs ∧ tc.issPath.head? = some e ∧ tc.anchor = a := by
  have key : ∀ (h : List (List TrustChain)) (s : Store), (∀ tcs ∈ h, ∀ tc ∈ tcs, tc.issPath ≠ []) →
      getTrustChain (runSaves s h) e a = some tc →
      (∃ tcs ∈ h, tc ∈ tcs ∧ tc.issPath.head? = some e ∧ tc.anchor = a) ∨ getTrustChain s e a = some tc := by
    intro h
    induction h with
    | nil => intro s _ hg; exact Or.inr hg
    | cons tcs h ih =>
      intro s hp hg
      rcases ih _ (fun x hx => hp x (by simp [hx])) hg with ⟨x, hx, h1⟩ | h1
      · exact Or.inl ⟨x, by simp [hx], h1⟩
      · rw [(saveTrustChains_get s tcs e a (hp tcs (by simp))).2] at h1
        split at h1
        · rename_i t ht
          split at h1
          · rename_i hh
            cases h1
            have := ((chains2dict_get _ _ _).1 ht).mem
            exact Or.inl ⟨tcs, by simp, this.1, hh, this.2⟩
          · exact Or.inr h1
        · exact Or.inr h1
  rcases key h [] hp hg with h1 | h1
  · exact h1
  · simp [getTrustChain] at h1

theorem firstShortest_congr {q q' : TrustChain → Prop} {tcs : List TrustChain} {tc : TrustChain} (h : ∀ x ∈ tcs, q x ↔ q' x) :
    FirstShortest q tcs tc ↔ FirstShortest q' tcs tc := by
  unfold FirstShortest
  refine exists_congr fun pre => exists_congr fun post => ?_
  constructor
  · rintro ⟨rfl, h1, h2, h3⟩
    exact ⟨rfl, (h tc (by simp)).1 h1, fun x hx hq => h2 x hx ((h x (by simp [hx])).2 hq),
      fun x hx hq => h3 x hx ((h x (by simp [hx])).2 hq)⟩
  · rintro ⟨rfl, h1, h2, h3⟩
    exact ⟨rfl, (h tc (by simp)).2 h1, fun x hx hq => h2 x hx ((h x (by simp [hx])).1 hq),
      fun x hx hq => h3 x hx ((h x (by simp [hx])).1 hq)⟩

/-- C44 when each save is about one entity, which is how the library saves: the chain that is found is the first of the shortest in
the last save that has one for the pair. Missing: saves that mix entities. -/
theorem C44_one_entity_partial (h : List (List TrustChain)) (hp : ∀ tcs ∈ h, ∃ e0, ∀ tc ∈ tcs, tc.issPath.head? = some e0)
    (e a : String) (tc : TrustChain) :
    getTrustChain (runSaves [] h) e a = some tc ↔
      ∃ before tcs after, h = before ++ tcs :: after ∧ FirstShortest (About e a) tcs tc ∧
        ∀ later ∈ after, ∀ x ∈ later, ¬ About e a x := by
  have ne : ∀ tcs : List TrustChain, (∃ e0, ∀ tc ∈ tcs, tc.issPath.head? = some e0) → ∀ tc ∈ tcs, tc.issPath ≠ [] := by
    rintro tcs ⟨e0, h⟩ tc htc hn
    have := h tc htc
    rw [hn] at this
    simp at this
  have step : ∀ (s : Store) (tcs : List TrustChain), (∃ e0, ∀ tc ∈ tcs, tc.issPath.head? = some e0) →
      (getTrustChain (saveTrustChains s tcs).2 e a = some tc ↔
        FirstShortest (About e a) tcs tc ∨ ((∀ x ∈ tcs, ¬ About e a x) ∧ getTrustChain s e a = some tc)) := by
    rintro s tcs ⟨e0, h0⟩
    rw [(saveTrustChains_get s tcs e a (ne tcs ⟨e0, h0⟩)).2]
    by_cases he : e0 = e
    · subst he
      have hq : ∀ x ∈ tcs, x.anchor = a ↔ About e0 a x := fun x hx => by simp [About, h0 x hx]
      cases hc : (chains2dict tcs).get? a with
      | none =>
        have hno : ∀ x ∈ tcs, ¬ About e0 a x := by
          intro x hx hab
          obtain ⟨t, ht⟩ := ((C43_shortest_first tcs).2.2 a).2 ⟨x, hx, hab.2⟩
          rw [hc] at ht; cases ht
        have hno' : ¬ FirstShortest (About e0 a) tcs tc := fun hf => hno tc hf.mem.1 hf.mem.2
        simp only [hno', false_or]
        exact ⟨fun h => ⟨hno, h⟩, fun h => h.2⟩
      | some t =>
        have ht := (chains2dict_get _ _ _).1 hc
        have hh := h0 t ht.mem.1
        rw [firstShortest_congr hq] at ht
        simp only [hh, if_true, Option.some.injEq]
        constructor
        · rintro rfl; exact Or.inl ht
        · rintro (h1 | ⟨h1, -⟩)
          · exact ht.unique h1
          · exact absurd ht.mem.2 (h1 t ht.mem.1)
    · have hno : ∀ x ∈ tcs, ¬ About e a x := by
        intro x hx hab
        have := h0 x hx
        rw [hab.1] at this
        exact he (by simpa using this.symm)
      have hno' : ¬ FirstShortest (About e a) tcs tc := fun hf => hno tc hf.mem.1 hf.mem.2
      simp only [hno', false_or]
      have : (match (chains2dict tcs).get? a with
          | some t => if t.issPath.head? = some e then some t else getTrustChain s e a
          | none => getTrustChain s e a) = getTrustChain s e a := by
        split
        · rename_i t ht
          have := h0 t ((chains2dict_get _ _ _).1 ht).mem.1
          rw [this, if_neg (by simpa using he)]
        · rfl
      rw [this]
      exact ⟨fun h => ⟨hno, h⟩, fun h => h.2⟩
  have key : ∀ (h : List (List TrustChain)) (s : Store), (∀ tcs ∈ h, ∃ e0, ∀ tc ∈ tcs, tc.issPath.head? = some e0) →
      (getTrustChain (runSaves s h) e a = some tc ↔
        (∃ before tcs after, h = before ++ tcs :: after ∧ FirstShortest (About e a) tcs tc ∧
          ∀ later ∈ after, ∀ x ∈ later, ¬ About e a x) ∨
        ((∀ tcs ∈ h, ∀ x ∈ tcs, ¬ About e a x) ∧ getTrustChain s e a = some tc)) := by
    intro h
    induction h with
    | nil => intro s _; simp [runSaves]
    | cons tcs h ih =>
      intro s hp
      have : runSaves s (tcs :: h) = runSaves (saveTrustChains s tcs).2 h := rfl
      rw [this, ih _ fun x hx => hp x (by simp [hx]), step s tcs (hp tcs (by simp))]
      constructor
      · rintro (⟨b, t, af, rfl, h1, h2⟩ | ⟨h1, h2 | ⟨h2, h3⟩⟩)
        · exact Or.inl ⟨tcs :: b, t, af, rfl, h1, h2⟩
        · exact Or.inl ⟨[], tcs, h, rfl, h2, h1⟩
        · refine Or.inr ⟨fun x hx => ?_, h3⟩
          rcases List.mem_cons.1 hx with rfl | hx
          · exact h2
          · exact h1 x hx
      · rintro (⟨b, t, af, h0, h1, h2⟩ | ⟨h1, h2⟩)
        · cases b with
          | nil =>
            simp only [List.nil_append, List.cons.injEq] at h0
            obtain ⟨rfl, rfl⟩ := h0
            exact Or.inr ⟨h2, Or.inl h1⟩
          | cons x b =>
            simp only [List.cons_append, List.cons.injEq] at h0
            obtain ⟨rfl, rfl⟩ := h0
            exact Or.inl ⟨b, t, af, rfl, h1, h2⟩
        · exact Or.inr ⟨fun x hx => h1 x (by simp [hx]), Or.inr ⟨h1 tcs (by simp), h2⟩⟩
  rw [key h [] hp]
  simp [getTrustChain]

example : ∀ tcs ∈ [[Ex.tc "ta" "x" 3, Ex.tc "ta2" "x" 2], [Ex.tc "ta" "y" 2], [Ex.tc "ta" "x" 2]],
    ∃ e0, ∀ tc ∈ tcs, tc.issPath.head? = some e0 := by
  intro tcs h
  simp only [List.mem_cons, List.not_mem_nil, or_false] at h
  rcases h with rfl | rfl | rfl
  · exact ⟨"x", by decide⟩
  · exact ⟨"y", by decide⟩
  · exact ⟨"x", by decide⟩
example : getTrustChain (runSaves [] [[Ex.tc "ta" "x" 3, Ex.tc "ta2" "x" 2], [Ex.tc "ta" "y" 2], [Ex.tc "ta" "x" 2]]) "x" "ta" =
    some (Ex.tc "ta" "x" 2) := by decide

/-! ## C45 -/

/-- The chain object after `n` exports. -/
def exported (tc : TrustChain) : Nat → TrustChain
  | 0 => tc
  | n + 1 => (exportChain (exported tc n)).2

/-- C45 in full: each export is leaf first. (`verified` is anchor first, see C42.) -/
def C45_full : Prop :=
  ∀ (tc : TrustChain) (n : Nat), (exportChain (exported tc n)).1 = tc.verified.reverse ∧ exported tc n = tc

/-- C45 does not hold: the second export is anchor first, and the chain has changed. -/
theorem C45_second_export_violation : ¬ C45_full := by
  intro h
  have := (h { Ex.tc "ta" "leaf" 0 with verified := [{ iss := "ta", sub := "leaf" }, { iss := "leaf", sub := "leaf" }] } 1).1
  exact absurd this (by decide)

/-- C45 as far as it holds: the exports alternate between the two orders, beginning with leaf first; after an even number of
exports the chain is as it was. Missing: every other export is the wrong way round. -/
theorem C45_alternates_partial (tc : TrustChain) (n : Nat) :
    (exportChain (exported tc n)).1 = (if n % 2 = 0 then tc.verified.reverse else tc.verified) ∧
    exported tc n = if n % 2 = 0 then tc else { tc with verified := tc.verified.reverse } := by
  have key : exported tc n = if n % 2 = 0 then tc else { tc with verified := tc.verified.reverse } := by
    induction n with
    | zero => rfl
    | succ n ih =>
      rw [exported, ih]
      by_cases h : n % 2 = 0
      · have : ¬ (n + 1) % 2 = 0 := by omega
        simp [h, this, exportChain]
      · have : (n + 1) % 2 = 0 := by omega
        simp [h, this, exportChain]
  refine ⟨?_, key⟩
  rw [key]
  split <;> simp [exportChain]

/-! ## C46 -/

/-- The choice follows the priority list: if some of the anchors is in the list, the one that comes first in the list is taken. -/
def Follows (priority anchors : List String) (chosen : String) : Prop :=
  ∀ pre a post, priority = pre ++ a :: post → a ∈ anchors → (∀ b ∈ pre, b ∉ anchors) → chosen = a

theorem pickByPriority_some {tcs : List TrustChain} : ∀ {prio : List String} {tc : TrustChain}, pickByPriority tcs prio = some tc ↔
    ∃ pre a post, prio = pre ++ a :: post ∧ (∀ b ∈ pre, ∀ x ∈ tcs, x.anchor ≠ b) ∧ tcs.find? (fun x => x.anchor = a) = some tc
  | [], tc => by simp [pickByPriority]
  | f :: fs, tc => by
      unfold pickByPriority
      cases h : tcs.find? fun x => x.anchor = f with
      | some t =>
        simp only [Option.some.injEq]
        constructor
        · rintro rfl; exact ⟨[], f, fs, rfl, by simp, h⟩
        · rintro ⟨pre, a, post, h1, h2, h3⟩
          cases pre with
          | nil => simp only [List.nil_append, List.cons.injEq] at h1; rw [← h1.1, h] at h3; exact Option.some.inj h3
          | cons p pre =>
            simp only [List.cons_append, List.cons.injEq] at h1
            have hm := List.mem_of_find?_eq_some h
            have := List.find?_some h
            simp only [decide_eq_true_eq] at this
            exact absurd this (by rw [h1.1]; exact h2 p (by simp) t hm)
      | none =>
        simp only [pickByPriority_some]
        rw [List.find?_eq_none] at h
        simp only [decide_eq_true_eq] at h
        constructor
        · rintro ⟨pre, a, post, rfl, h2, h3⟩
          refine ⟨f :: pre, a, post, rfl, fun b hb => ?_, h3⟩
          rcases List.mem_cons.1 hb with rfl | hb
          · exact h
          · exact h2 b hb
        · rintro ⟨pre, a, post, h1, h2, h3⟩
          cases pre with
          | nil =>
            simp only [List.nil_append, List.cons.injEq] at h1
            have hm := List.mem_of_find?_eq_some h3
            have := List.find?_some h3
            simp only [decide_eq_true_eq] at this
            exact absurd this (by rw [← h1.1]; exact h tc hm)
          | cons p pre =>
            simp only [List.cons_append, List.cons.injEq] at h1
            exact ⟨pre, a, post, h1.2, fun b hb => h2 b (by simp [hb]), h3⟩

/-- C46 for fresh chains: one of them is chosen whenever there are any, following the priority list, and the first of its anchor. -/
theorem C46_fresh_partial (prio : List String) (tcs : List TrustChain) (hne : tcs ≠ []) :
    ∃ tc, pickTrustChain prio tcs = .ok tc ∧ tc ∈ tcs ∧ Follows prio (tcs.map (·.anchor)) tc.anchor ∧
      tcs.find? (fun x => x.anchor = tc.anchor) = some tc := by
  have first : ∀ x l, tcs = x :: l → tcs.find? (fun y => y.anchor = x.anchor) = some x := by
    rintro x l rfl; simp
  match tcs, hne with
  | [tc], _ =>
    refine ⟨tc, rfl, by simp, fun pre a post h1 h2 _ => ?_, by simp⟩
    simp at h2; exact h2.symm
  | tc :: t2 :: rest, _ =>
    cases h : pickByPriority (tc :: t2 :: rest) prio with
    | some t =>
      have hpick : pickTrustChain prio (tc :: t2 :: rest) = .ok t := by simp [pickTrustChain, h]
      obtain ⟨pre, a, post, h1, h2, h3⟩ := pickByPriority_some.1 h
      have ha := List.find?_some h3
      simp only [decide_eq_true_eq] at ha
      refine ⟨t, hpick, List.mem_of_find?_eq_some h3, fun pre' a' post' h4 h5 h6 => ?_, by rw [ha]; exact h3⟩
      rw [h1] at h4
      obtain ⟨y, hy, hya⟩ := List.mem_map.1 h5
      have hm := List.mem_of_find?_eq_some h3
      rcases List.append_eq_append_iff.1 h4 with ⟨l, e1, e2⟩ | ⟨l, e1, e2⟩
      · cases l with
        | nil => simp only [List.nil_append, List.cons.injEq] at e2; rw [ha]; exact e2.1
        | cons q l =>
          simp only [List.cons_append, List.cons.injEq] at e2
          refine absurd ?_ (h6 a (by rw [e1]; simp [e2.1]))
          exact List.mem_map.2 ⟨t, hm, ha⟩
      · cases l with
        | nil => simp only [List.nil_append, List.cons.injEq] at e2; rw [ha]; exact e2.1.symm
        | cons q l =>
          simp only [List.cons_append, List.cons.injEq] at e2
          exact absurd hya (h2 a' (by rw [e1]; simp [e2.1]) y hy)
    | none =>
      refine ⟨tc, by simp [pickTrustChain, h], by simp, fun pre a post h1 h2 h3 => ?_, by simp⟩
      exfalso
      obtain ⟨y, hy, hya⟩ := List.mem_map.1 h2
      cases hf : (tc :: t2 :: rest).find? fun x => x.anchor = a with
      | none =>
        rw [List.find?_eq_none] at hf
        exact absurd hya (by simpa using hf y hy)
      | some t =>
        have := pickByPriority_some.2 ⟨pre, a, post, h1, fun b hb x hx hxb => h3 b hb (List.mem_map.2 ⟨x, hx, hxb⟩), hf⟩
        rw [h] at this; cases this

example : pickTrustChain ["ta3", "ta2", "ta1"] [Ex.tc "ta1" "x" 2, Ex.tc "ta2" "x" 3, Ex.tc "ta2" "x" 2] = .ok (Ex.tc "ta2" "x" 3) := by decide

/-- C46 in full, for stored chains: as for fresh ones. -/
def C46_stored_full : Prop :=
  ∀ (prio : List String) (s : Store) (e : String) (d : Dict TrustChain) (tc : TrustChain), s.get? e = some d →
    (∀ a t, d.get? a = some t → t.anchor = a) → pickStored prio s e = .ok tc → Follows prio (Dict.keys d) tc.anchor

/-- C46 does not hold for stored chains: the first stored one is taken whatever the priority. -/
theorem C46_stored_violation : ¬ C46_stored_full := by
  intro h
  have := h ["ta2", "ta1"] [("x", [("ta1", Ex.tc "ta1" "x" 2), ("ta2", Ex.tc "ta2" "x" 2)])] "x" _ (Ex.tc "ta1" "x" 2) rfl (by
    intro a t ht
    simp only [Dict.get?_cons, Dict.get?_nil] at ht
    split at ht
    · rename_i h; cases ht; exact h
    · split at ht
      · rename_i h; cases ht; exact h
      · cases ht) (by decide) [] "ta2" ["ta1"] rfl (by decide) (by simp)
  exact absurd this (by decide)

/-- C46 for stored chains as far as it holds: some stored chain of the entity is chosen whenever there is one, always the one
stored first; so the priority is followed if there is only one, or if the first stored anchor is the first in the list.
Missing: everything else. -/
theorem C46_stored_first_partial (prio : List String) (s : Store) (e a : String) (t : TrustChain) (d : Dict TrustChain)
    (h : s.get? e = some ((a, t) :: d)) :
    pickStored prio s e = .ok t ∧ (d = [] ∨ prio.head? = some a → Follows prio (Dict.keys ((a, t) :: d)) a) := by
  constructor
  · unfold pickStored
    rw [h]
    cases d with
    | nil => rfl
    | cons p d => cases prio <;> rfl
  · rintro (rfl | hp) pre b post h1 h2 h3
    · simp [Dict.keys] at h2; exact h2.symm
    · cases pre with
      | nil => rw [h1] at hp; simpa using hp.symm
      | cons c pre =>
        rw [h1] at hp
        simp only [List.cons_append, List.head?_cons, Option.some.injEq] at hp
        exact absurd (by rw [hp]; simp [Dict.keys]) (h3 c (by simp))

/-! ## An example federation

The signature number is the key number. `ta` (key 1) is above `im` (2), which is above `leaf` (3); `evil` (4) is below `ta`.
-/
namespace Ex
def L : Lib := { usable := fun _ _ => true, verifies := fun j k => decide (j.sig = k), current := notExpired, unknownRaises := true }
def keyOf : String → Key
  | "https://ta" => 1
  | "https://im" => 2
  | "https://leaf" => 3
  | "https://im2" => 5
  | _ => 9
def fe (ep : Bool) : Dict Policy.Metadata :=
  [("federation_entity", if ep then [("federation_fetch_endpoint", .str "fetch")] else [])]
/-- A self-signed configuration. -/
def conf (e : String) (hints : Option (List String)) (md : Dict Policy.Metadata) (exp : Int := 10000) : Jws :=
  ⟨{ iss := e, sub := e, exp := some exp, jwks := some [keyOf e], hints := hints, metadata := some md }, keyOf e⟩
/-- What `a` states about `e`. -/
def about (a e : String) (pol : Dict Policy.MetadataPolicy := []) (exp : Int := 10000) : Jws :=
  ⟨{ iss := a, sub := e, exp := some exp, jwks := some [keyOf e], policy := pol }, keyOf a⟩
def rp (v : Val) : Dict Policy.Metadata := [("openid_relying_party", [("scopes", v)])]
/-- The policy of `ta`: no scope but `openid`. -/
def taPolicy : Dict Policy.MetadataPolicy := [("openid_relying_party", [("scopes", [("value", .str "openid")])])]
def W (now : Int) : Collect.World where
  now := now
  config
    | "https://ta" => .ok (some (conf "https://ta" none (fe true)))
    | "https://im" => .ok (some (conf "https://im" (some ["https://ta"]) (fe true)))
    | "https://leaf" => .ok (some (conf "https://leaf" (some ["https://im"]) (rp (.str "admin"))))
    | _ => .error .missingPage
  fetch _ a e := .ok (some (about a e (if a = "https://ta" then taPolicy else [])))
def env (W : Collect.World) : Env := { L := L, P := { anchors := ["https://ta"] }, W := W, fuel := 10, E := SetEnum.insertion, K := SetEnum.insertion }
def st : State := { jar := [("https://ta", [1])] }
def leafChain : TrustChain where
  anchor := "https://ta"
  issPath := ["https://leaf", "https://im", "https://ta"]
  exp := 10000
  verified := [(about "https://ta" "https://im" taPolicy).payload, (about "https://im" "https://leaf").payload,
    (conf "https://leaf" (some ["https://im"]) (rp (.str "admin"))).payload]
  chain := [some (about "https://ta" "https://im" taPolicy), some (about "https://im" "https://leaf"),
    some (conf "https://leaf" (some ["https://im"]) (rp (.str "admin")))]
  metadata := [("openid_relying_party", .obj [("scopes", .str "openid")])]
/-- The resolution of `leaf`. -/
theorem leaf_resolved : (getVerified (env (W 0)) st "https://leaf").1 = .ok [leafChain] := by decide +kernel
end Ex

/-! ## C47 -/

/-- The state after calls of get_trust_chains (and get_verified_metadata, which keeps the same state). -/
def runGets (st : State) (h : List (Env × String)) : State := h.foldl (fun st p => (getTrustChains p.1 st p.2).2) st

/-- C47 in full: no chain that get_trust_chains gives has expired. -/
def C47_full : Prop :=
  ∀ (jar : KeyJar) (h : List (Env × String)) (V : Env) (entity : String) (tcs : List TrustChain),
    (getTrustChains V (runGets { jar := jar } h) entity).1 = .ok tcs → ∀ tc ∈ tcs, tc.isExpired V.W.now = false

/-- C47 does not hold: what was resolved at time 0 is still answered at time 20000, though it expired at 10000. -/
theorem C47_expired_violation : ¬ C47_full := by
  intro h
  have := h [("https://ta", [1])] [(Ex.env (Ex.W 0), "https://leaf")] (Ex.env (Ex.W 20000)) "https://leaf" [Ex.leafChain]
    (by decide +kernel) Ex.leafChain (by simp)
  exact absurd this (by decide +kernel)

theorem getVerified_store {V : Env} {st : State} {entity stopAt : String} : (getVerified V st entity stopAt).2.store = st.store := by
  unfold getVerified
  generalize Collect.collect V.L.toCrypto V.P V.W V.fuel st.coll entity stopAt = r
  obtain ⟨r1, coll⟩ := r
  rcases r1 with e | ⟨f, ec⟩
  · rfl
  · simp only
    generalize verifyChains V.L _ st.jar = r
    obtain ⟨r1, jar⟩ := r
    cases r1 with
    | error e => rfl
    | ok tcs =>
      simp only
      cases applyPolicies V.E V.K tcs <;> rfl

theorem getTrustChains_store {V : Env} {st : State} {entity : String} :
    (getTrustChains V st entity).2.store = st.store ∨
    (st.store.get? entity = none ∧ ∃ tcs, tcs ≠ [] ∧ (getVerified V st entity).1 = .ok tcs ∧
      (getTrustChains V st entity).2.store = st.store.set entity tcs) := by
  unfold getTrustChains
  cases hs : st.store.get? entity with
  | some tcs => exact Or.inl rfl
  | none =>
    have hst := getVerified_store (V := V) (st := st) (entity := entity) (stopAt := "")
    simp only
    generalize getVerified V st entity = r at hst ⊢
    obtain ⟨r1, st1⟩ := r
    match r1 with
    | .error e => exact Or.inl hst
    | .ok [] => exact Or.inl hst
    | .ok (t :: ts) =>
      simp only at hst ⊢
      exact Or.inr ⟨trivial, t :: ts, by simp, rfl, by rw [hst]⟩

/-- C47 as far as it holds: a stored answer is what an earlier call for that entity resolved afresh, and it has chains.
Missing: that it has not expired since. -/
theorem C47_stored_was_resolved_partial (jar : KeyJar) (h : List (Env × String)) (entity : String) (tcs : List TrustChain)
    (hs : (runGets { jar := jar } h).store.get? entity = some tcs) :
    tcs ≠ [] ∧ ∃ before V after, h = before ++ (V, entity) :: after ∧
      (getVerified V (runGets { jar := jar } before) entity).1 = .ok tcs := by
  have key : ∀ (h before : List (Env × String)), (∀ tcs, (runGets { jar := jar } before).store.get? entity = some tcs →
        tcs ≠ [] ∧ ∃ b V a, before = b ++ (V, entity) :: a ∧ (getVerified V (runGets { jar := jar } b) entity).1 = .ok tcs) →
      ∀ tcs, (runGets { jar := jar } (before ++ h)).store.get? entity = some tcs →
        tcs ≠ [] ∧ ∃ b V a, before ++ h = b ++ (V, entity) :: a ∧ (getVerified V (runGets { jar := jar } b) entity).1 = .ok tcs := by
    intro h
    induction h with
    | nil => intro before hb; simpa using hb
    | cons p h ih =>
      intro before hb tcs hs
      have : before ++ p :: h = (before ++ [p]) ++ h := by simp
      rw [this] at hs ⊢
      refine ih (before ++ [p]) (fun tcs hs => ?_) tcs hs
      have hrun : runGets { jar := jar } (before ++ [p]) = (getTrustChains p.1 (runGets { jar := jar } before) p.2).2 := by
        simp [runGets, List.foldl_append]
      rw [hrun] at hs
      rcases getTrustChains_store (V := p.1) (st := runGets { jar := jar } before) (entity := p.2) with h1 | ⟨h1, l, h2, h3, h4⟩
      · rw [h1] at hs
        obtain ⟨hne, b, V, a, rfl, hg⟩ := hb tcs hs
        exact ⟨hne, b, V, a ++ [p], by simp, hg⟩
      · rw [h4, Dict.get?_set] at hs
        split at hs
        · rename_i e
          cases hs
          exact ⟨h2, before, p.1, [], by rw [← e], by rw [← e]; exact h3⟩
        · obtain ⟨hne, b, V, a, rfl, hg⟩ := hb tcs hs
          exact ⟨hne, b, V, a ++ [p], by simp, hg⟩
  have := key h [] (by intro tcs hs; simp [runGets] at hs) tcs (by simpa using hs)
  simpa using this

theorem stored_kept {st : State} {entity : String} {tcs : List TrustChain} (h : List (Env × String))
    (hs : st.store.get? entity = some tcs) : (runGets st h).store.get? entity = some tcs := by
  induction h generalizing st with
  | nil => exact hs
  | cons p h ih =>
    refine ih ?_
    rcases getTrustChains_store (V := p.1) (st := st) (entity := p.2) with h1 | ⟨h1, l, h2, h3, h4⟩
    · rw [h1]; exact hs
    · rw [h4, Dict.get?_set]
      split
      · rename_i e; rw [e, hs] at h1; cases h1
      · exact hs

/-- C47, the other side: once chains have been found for an entity they are the answer for ever, whatever the time and whatever
becomes of the federation; the metadata likewise. -/
theorem C47_first_answer_stays_partial (st : State) (V : Env) (entity : String) (tcs : List TrustChain) (hne : tcs ≠ [])
    (h : (getTrustChains V st entity).1 = .ok tcs) (later : List (Env × String)) (V' : Env) :
    (getTrustChains V' (runGets (getTrustChains V st entity).2 later) entity).1 = .ok tcs ∧
    (getVerifiedMetadata V' (runGets (getTrustChains V st entity).2 later) entity).1 = .ok (tcs.head?.map (·.metadata)) := by
  have hst : (getTrustChains V st entity).2.store.get? entity = some tcs := by
    unfold getTrustChains at h ⊢
    cases hs : st.store.get? entity with
    | some l => rw [hs] at h; simp only [Except.ok.injEq] at h ⊢; rw [hs, h]
    | none =>
      rw [hs] at h
      simp only at h ⊢
      generalize getVerified V st entity = r at h ⊢
      obtain ⟨r1, st1⟩ := r
      match r1 with
      | .error e => cases h
      | .ok [] => simp only [Except.ok.injEq] at h; exact absurd h.symm hne
      | .ok (t :: ts) => simp only [Except.ok.injEq] at h ⊢; subst h; simp
  have := stored_kept later hst
  generalize runGets (getTrustChains V st entity).2 later = st' at this ⊢
  constructor
  · unfold getTrustChains; rw [this]
  · unfold getVerifiedMetadata getTrustChains; rw [this]

example : (getTrustChains (Ex.env (Ex.W 0)) Ex.st "https://leaf").1 = .ok [Ex.leafChain] := by decide +kernel

/-! ## C67 -/

/-- C67 in full: whenever a collected chain can be verified and its policies applied, it is among the chains returned. -/
def C67_full : Prop :=
  ∀ (V : Env) (st : State) (entity : String) (f : Collect.Forest Jws) (ec : Jws) (c : List Doc) (tc tc' : TrustChain),
    (Collect.collect V.L.toCrypto V.P V.W V.fuel st.coll entity "").1 = .ok (f, ec) → c ∈ docs f ec →
    (verifyChain V.L st.jar c).1 = .ok (some tc) → applyToChain V.E V.K tc = .ok tc' →
    ∃ out, (getVerified V st entity).1 = .ok out ∧ tc' ∈ out

namespace Ex
/-- `leaf` is also below `im2`, and `im2` contradicts `ta`; or signs with a wrong key. -/
def W2 (sig : Bool) : Collect.World where
  now := 0
  config
    | "https://im2" => .ok (some (conf "https://im2" (some ["https://ta"]) (fe true)))
    | "https://leaf" => .ok (some (conf "https://leaf" (some ["https://im", "https://im2"]) (rp (.str "admin"))))
    | e => (W 0).config e
  fetch ep a e :=
    if a = "https://im2" then
      if sig then .ok (some (about a e [("openid_relying_party", [("scopes", [("value", .str "other")])])]))
      else .ok (some ⟨(about a e).payload, 77⟩)
    else (W 0).fetch ep a e
def leafEc2 : Jws := conf "https://leaf" (some ["https://im", "https://im2"]) (rp (.str "admin"))
def goodChain2 : List Doc := [some (about "https://ta" "https://im" taPolicy), some (about "https://im" "https://leaf"), some leafEc2]
def tree2 (sig : Bool) : Collect.Forest Jws :=
  .node "https://im" (about "https://im" "https://leaf") (.node "https://ta" (about "https://ta" "https://im" taPolicy) .nil .nil) <|
  .node "https://im2" (if sig then about "https://im2" "https://leaf" [("openid_relying_party", [("scopes", [("value", .str "other")])])]
    else ⟨(about "https://im2" "https://leaf").payload, 77⟩) (.node "https://ta" (about "https://ta" "https://im2" taPolicy) .nil .nil) .nil
def tc2 (m : Bool) : TrustChain where
  anchor := "https://ta"
  issPath := ["https://leaf", "https://im", "https://ta"]
  exp := 10000
  verified := [(about "https://ta" "https://im" taPolicy).payload, (about "https://im" "https://leaf").payload, leafEc2.payload]
  chain := goodChain2
  metadata := if m then [("openid_relying_party", .obj [("scopes", .str "openid")])] else []
end Ex

/-- C67 does not hold: contradicting policies in one chain make the whole resolution fail. -/
theorem C67_policy_violation : ¬ C67_full := by
  intro h
  obtain ⟨out, h1, -⟩ := h (Ex.env (Ex.W2 true)) Ex.st "https://leaf" (Ex.tree2 true) Ex.leafEc2 Ex.goodChain2 (Ex.tc2 false) (Ex.tc2 true)
    (by decide +kernel) (by decide +kernel) (by decide +kernel) (by decide +kernel)
  have h2 : (getVerified (Ex.env (Ex.W2 true)) Ex.st "https://leaf").1 = .error .policyError := by decide +kernel
  rw [h2] at h1; cases h1

/-- C67 does not hold: neither does it when a statement of another chain is badly signed. -/
theorem C67_signature_violation : ¬ C67_full := by
  intro h
  obtain ⟨out, h1, -⟩ := h (Ex.env (Ex.W2 false)) Ex.st "https://leaf" (Ex.tree2 false) Ex.leafEc2 Ex.goodChain2 (Ex.tc2 false) (Ex.tc2 true)
    (by decide +kernel) (by decide +kernel) (by decide +kernel) (by decide +kernel)
  have h2 : (getVerified (Ex.env (Ex.W2 false)) Ex.st "https://leaf").1 = .error .badSignature := by decide +kernel
  rw [h2] at h1; cases h1

theorem docs_split {f : Collect.Forest Jws} {ec : Jws} {c : List Doc} (h : c ∈ docs f ec) : ∃ pre post, docs f ec = pre ++ c :: post :=
  List.append_of_mem h

/-- C67 as far as it holds: when the resolution succeeds at all, no good chain is missing. Missing: that it succeeds. -/
theorem C67_none_missing_partial (V : Env) (st : State) (entity : String) (f : Collect.Forest Jws) (ec : Jws) (c : List Doc)
    (tc tc' : TrustChain) (out : List TrustChain)
    (hc : (Collect.collect V.L.toCrypto V.P V.W V.fuel st.coll entity "").1 = .ok (f, ec)) (hd : c ∈ docs f ec)
    (hv : (verifyChain V.L st.jar c).1 = .ok (some tc)) (ha : applyToChain V.E V.K tc = .ok tc')
    (ho : (getVerified V st entity).1 = .ok out) : tc' ∈ out := by
  obtain ⟨f', ec', tcs, h1, h2, h3, -⟩ := getVerified_ok ho
  rw [hc] at h1
  cases h1
  obtain ⟨pre, post, hs⟩ := docs_split hd
  have hm : tc ∈ tcs := (verifyChains_mem h2 tc).2 ⟨pre, c, post, hs, C73_attempts_do_not_harm V.L st.jar pre c tc hv⟩
  obtain ⟨t, ht, hta⟩ := (applyPolicies_mem h3).2 tc hm
  rw [ha] at hta
  cases hta
  exact ht

example : ∃ out, (getVerified (Ex.env (Ex.W 0)) Ex.st "https://leaf").1 = .ok out ∧ out ≠ [] := ⟨_, Ex.leaf_resolved, by simp⟩

/-- C67, the other side: one chain whose policies cannot be applied, or one whose verification raises, and nothing is returned. -/
theorem C67_one_spoils_all_partial (V : Env) (st : State) (entity : String) (f : Collect.Forest Jws) (ec : Jws)
    (hc : (Collect.collect V.L.toCrypto V.P V.W V.fuel st.coll entity "").1 = .ok (f, ec)) (pre post : List (List Doc)) (c : List Doc)
    (hd : docs f ec = pre ++ c :: post)
    (hbad : (∃ e, (verifyChain V.L (runAll V.L st.jar pre) c).1 = .error e) ∨
      ∃ tc, (verifyChain V.L (runAll V.L st.jar pre) c).1 = .ok (some tc) ∧ ∀ t, applyToChain V.E V.K tc ≠ .ok t) :
    ∃ e, (getVerified V st entity).1 = .error e := by
  cases ho : (getVerified V st entity).1 with
  | error e => exact ⟨e, rfl⟩
  | ok out =>
    exfalso
    obtain ⟨f', ec', tcs, h1, h2, h3, -⟩ := getVerified_ok ho
    rw [hc] at h1
    cases h1
    rcases hbad with ⟨e, he⟩ | ⟨tc, htc, hno⟩
    · have key : ∀ (cs : List (List Doc)) (jar : KeyJar) (tcs : List TrustChain) (pre : List (List Doc)), cs = pre ++ c :: post →
          (verifyChains V.L cs jar).1 = .ok tcs → ¬ ∃ e, (verifyChain V.L (runAll V.L jar pre) c).1 = .error e := by
        intro cs
        induction cs with
        | nil => intro jar tcs pre h; simp at h
        | cons c0 cs ih =>
          intro jar tcs pre h hv
          unfold verifyChains at hv
          generalize hr : verifyChain V.L jar c0 = r at hv
          obtain ⟨r1, j1⟩ := r
          cases r1 with
          | error e => cases hv
          | ok o =>
            simp only at hv
            cases pre with
            | nil =>
              simp only [List.nil_append, List.cons.injEq] at h
              rintro ⟨e, he⟩
              rw [← h.1, runAll, List.foldl_nil, hr] at he
              cases he
            | cons p pre =>
              simp only [List.cons_append, List.cons.injEq] at h
              have hj : (verifyChain V.L jar p).2 = j1 := by rw [← h.1, hr]
              generalize hr2 : verifyChains V.L cs j1 = r2 at hv
              obtain ⟨r2, j2⟩ := r2
              cases r2 with
              | error e => cases hv
              | ok l =>
                have := ih j1 l pre h.2 (by rw [hr2])
                simpa [runAll, hj] using this
      exact key _ _ _ pre hd h2 ⟨e, he⟩
    · have hm : tc ∈ tcs := (verifyChains_mem h2 tc).2 ⟨pre, c, post, hd, htc⟩
      obtain ⟨t, -, ht⟩ := (applyPolicies_mem h3).2 tc hm
      exact hno t ht

/-! ## C76 -/

/-- `HintPath src cfg e c p`: starting from `e` with configuration `c`, each authority on `p` is named as authority by the
configuration below it, has the configuration `cfg` says, and made the statement about the entity below it. -/
inductive HintPath (src : String → String → Jws → Prop) (cfg : String → Jws → Prop) : String → Payload → List (String × Jws) → Prop
  | nil {e c} : HintPath src cfg e c []
  | cons {e c hs a s ca p} : c.hints = some hs → a ∈ hs → src a e s → cfg a ca → HintPath src cfg a ca.payload p →
      HintPath src cfg e c ((a, s) :: p)

theorem mem_of_dedup {α} [DecidableEq α] {l : List α} {a : α} (h : a ∈ dedup l) : a ∈ l := by
  rwa [mem_dedup] at h

theorem hintPath_of_faithful {src cfg gone} {stopAt e : String} {c : Payload} {f : Collect.Forest Jws}
    (h : Collect.Faithful src cfg gone stopAt e c f) : ∀ p, Collect.IsPath f p ∨ Collect.IsCut f p → HintPath src cfg e c p := by
  induction h with
  | noHints _ =>
    rintro p (h | h)
    · exact absurd h Collect.not_isPath_nil
    · exact absurd h Collect.isCut_nil
  | stopped _ =>
    rintro p (h | h)
    · exact absurd h Collect.not_isPath_nil
    · exact absurd h Collect.isCut_nil
  | @hints e c hs f conf h1 h2 h3 h4 h5 h6 h7 ih =>
    have hin : ∀ a b, (a, b) ∈ f.items → a ∈ hs := by
      intro a b hab
      have : a ∈ f.keys := List.mem_map.2 ⟨_, hab, rfl⟩
      rw [h3] at this
      exact mem_of_dedup this
    rintro p (h | h)
    · cases h with
      | top hm => exact .cons h1 (hin _ _ hm) (h5 _ _ _ hm) (h6 _ _ _ hm) .nil
      | step hm hp => exact .cons h1 (hin _ _ hm) (h5 _ _ _ hm) (h6 _ _ _ hm) (ih _ _ _ hm _ (Or.inl hp))
    · cases h with
      | here _ => exact .nil
      | step hm hp => exact .cons h1 (hin _ _ hm) (h5 _ _ _ hm) (h6 _ _ _ hm) (ih _ _ _ hm _ (Or.inr hp))

/-- The documents on a path of authority hints up from the configuration of the entity, topmost first. -/
def WayUp (V : Env) (st : State) (entity : String) (c : List Doc) : Prop :=
  ∃ ec p, Collect.ConfigFrom V.L.toCrypto V.W st.coll entity ec ∧
    HintPath (fun a e s => Collect.Plain a → Collect.Plain e → Collect.StatementFrom V.L.toCrypto V.W st.coll a e s)
      (Collect.ConfigFrom V.L.toCrypto V.W st.coll) entity ec.payload p ∧ c = ((p.map (·.2)).reverse ++ [ec]).map some

/-- Where a chain returned for an entity comes from. -/
structure Provenance (V : Env) (st : State) (entity : String) (tc : TrustChain) : Prop where
  /-- The chain is a path of authority hints up from the configuration of the entity. -/
  path : ∃ ec p, Collect.ConfigFrom V.L.toCrypto V.W st.coll entity ec ∧
    HintPath (fun a e s => Collect.Plain a → Collect.Plain e → Collect.StatementFrom V.L.toCrypto V.W st.coll a e s)
      (Collect.ConfigFrom V.L.toCrypto V.W st.coll) entity ec.payload p ∧
    tc.chain = ((p.map (·.2)).reverse ++ [ec]).map some ∧ tc.verified = ((p.map (·.2)).reverse ++ [ec]).map (·.payload)
  /-- Every signature goes back to a key known at the start, by way of documents on such paths. -/
  signed : ∃ h : List (List Doc), (∀ c ∈ h, WayUp V st entity c) ∧ tc.chain ∈ h ∧ KnownEntity V.L st.jar h tc.anchor ∧
    ∀ j, some j ∈ tc.chain → ∃ k, Known V.L st.jar h j.payload.iss k ∧ V.L.verifies j k = true

/-- C76: a chain returned for an entity starts with the entity's own configuration, goes up along authority hints with
statements that the named authority gave about the entity below, and is signed throughout with keys that go back to
the keys known at the start. (Authority and entity identifiers without exclamation mark, see C34.) With or without `stopAt`. -/
theorem C76_provenance (V : Env) (st : State) (entity : String) {stopAt : String} (out : List TrustChain)
    (h : (getVerified V st entity stopAt).1 = .ok out) (tc : TrustChain) (ht : tc ∈ out) : Provenance V st entity tc := by
  obtain ⟨f, ec, tcs, h1, h2, h3, -⟩ := getVerified_ok h
  obtain ⟨tc0, hm, ha⟩ := (applyPolicies_mem h3).1 tc ht
  have same : tc.chain = tc0.chain ∧ tc.verified = tc0.verified ∧ tc.anchor = tc0.anchor := by
    obtain ⟨_, _, _, _, ⟨_, _, _, rfl⟩ | ⟨_, _, _, rfl⟩⟩ := applyToChain_ok.1 ha <;> exact ⟨rfl, rfl, rfl⟩
  obtain ⟨pre, c, post, hd, hv⟩ := (verifyChains_mem h2 tc0).1 hm
  obtain ⟨d1, d2, -, -⟩ := C42_describes_chain _ _ _ _ hv
  have hcm : c ∈ docs f ec := by rw [hd]; simp
  obtain ⟨c0, hc0, rfl⟩ := List.mem_map.1 hcm
  obtain ⟨p, hp, rfl⟩ := (Collect.tree2chains_mem f c0).1 hc0
  obtain ⟨e1, -, e3⟩ := Collect.C31_tree_faithful_partial _ _ _ _ _ _ _ _ _ h1
  have hst : statements ((Collect.chainOf p).map some ++ [some ec]) = Collect.chainOf p ++ [ec] := by
    simp [statements, List.filterMap_map, List.filterMap_append]
  have hpath : ∀ p, (Collect.IsPath f p ∨ Collect.IsCut f p) → HintPath (fun a e s => Collect.Plain a → Collect.Plain e → Collect.StatementFrom V.L.toCrypto V.W st.coll a e s)
      (Collect.ConfigFrom V.L.toCrypto V.W st.coll) entity ec.payload p := fun p hp =>
    hintPath_of_faithful (e3.mono (fun _ _ _ h => h) (fun _ _ h => h.1) (fun _ _ h => h)) p hp
  refine ⟨⟨ec, p, e1, hpath p hp, ?_, ?_⟩, docs f ec, ?_, ?_, ?_, ?_⟩
  · rw [same.1, d1]; simp [Collect.chainOf]
  · rw [same.2.1, d2, hst]; rfl
  · intro c hc
    obtain ⟨c1, hc1, rfl⟩ := List.mem_map.1 hc
    obtain ⟨q, hq, rfl⟩ := (Collect.tree2chains_mem f c1).1 hc1
    exact ⟨ec, q, e1, hpath q hq, by simp [Collect.chainOf]⟩
  · rw [same.1, d1]; exact hcm
  · rw [same.2.2]
    obtain ⟨j, rest, k, h4, h5, h6, -⟩ := C35_known_anchor _ _ _ _ hv
    rw [h5]
    have := (runAll_origin V.L st.jar (docs f ec) pre st.jar (fun c' hc' => by rw [hd]; simp [hc']) (fun _ _ h => .start h) (fun _ h => Or.inl h)).2 _ h6
    exact this
  · intro j hj
    rw [same.1, d1] at hj
    have hj' : j ∈ statements ((Collect.chainOf p).map some ++ [some ec]) := by
      simp only [statements, List.mem_filterMap]; exact ⟨some j, hj, rfl⟩
    have ho := (runAll_origin V.L st.jar (docs f ec) pre st.jar (fun c' hc' => by rw [hd]; simp [hc']) (fun _ _ h => .start h) (fun _ h => Or.inl h)).1
    have key : ∀ n (l : List Jws) (j : Jws) (r : List Jws), l.length = n →
        statements ((Collect.chainOf p).map some ++ [some ec]) = l ++ j :: r →
        ∃ k, Known V.L st.jar (docs f ec) j.payload.iss k ∧ V.L.usable j k = true ∧ V.L.verifies j k = true := by
      intro n
      induction n using Nat.strongRecOn with
      | _ n ih =>
        intro l j r hl hs
        obtain ⟨k, hu, hve, hk | ⟨j', hj'm, hsub, ks, hks, hkk⟩⟩ := C37_keys_from_above _ _ _ _ hv l j r hs
        · exact ⟨k, ho _ _ hk, hu, hve⟩
        · obtain ⟨l1, l2, rfl⟩ := List.append_of_mem hj'm
          obtain ⟨k', hk', hu', hv'⟩ := ih l1.length (by rw [← hl]; simp) l1 j' (l2 ++ j :: r) rfl (by rw [hs]; simp)
          refine ⟨k, ?_, hu, hve⟩
          rw [← hsub]
          have hjc : some j' ∈ (Collect.chainOf p).map some ++ [some ec] := by
            have : j' ∈ statements ((Collect.chainOf p).map some ++ [some ec]) := by rw [hs]; simp
            simpa [statements] using this
          exact .declared hcm hjc hk' hu' hv' hks hkk
    obtain ⟨l, r, hs⟩ := List.append_of_mem hj'
    obtain ⟨k, h7, -, h8⟩ := key _ l j r rfl hs
    exact ⟨k, h7, h8⟩

/-! ## C77 -/

/-- The state after resolving entities one after the other. -/
def runResolve (st : State) (h : List (Env × String)) : State := h.foldl (fun st p => (getVerified p.1 st p.2).2) st

/-- C77 in full: an entity that is not a trust anchor from the start is only accepted on the word of somebody else: its chain
has a statement by another issuer. -/
def C77_full : Prop :=
  ∀ (jar : KeyJar) (h : List (Env × String)) (V : Env) (entity : String) (out : List TrustChain),
    Dict.has jar entity = false → (getVerified V (runResolve { jar := jar } h) entity).1 = .ok out →
    ∀ tc ∈ out, ∃ p ∈ tc.verified, p.iss ≠ entity

namespace Ex
/-- Later, `leaf` names itself as its authority and publishes metadata under the entity type "". -/
def evilMd : Dict Policy.Metadata := [("federation_entity", []), ("", [("openid_relying_party", .obj [("scopes", .str "admin")])])]
def W3 : Collect.World where
  now := 20000
  config
    | "https://leaf" => .ok (some (conf "https://leaf" (some ["https://leaf"]) evilMd 30000))
    | e => (W 0).config e
  fetch := (W 0).fetch
end Ex

/-- C77 does not hold: an entity that was resolved once can afterwards name itself as its authority and is then its own trust
anchor, with whatever metadata it likes: the policy of `ta`, which fixes the scopes to `openid`, is gone. -/
theorem C77_self_anchored_violation : ¬ C77_full := by
  intro h
  let ec := Ex.conf "https://leaf" (some ["https://leaf"]) Ex.evilMd 30000
  let tc : TrustChain := ⟨"https://leaf", ["https://leaf"], 30000, [ec.payload], [some ec],
    [("openid_relying_party", .obj [("scopes", .str "admin")])]⟩
  have h1 : (getVerified (Ex.env Ex.W3) (runResolve Ex.st [(Ex.env (Ex.W 0), "https://leaf")]) "https://leaf").1 = .ok [tc] := by
    decide +kernel
  obtain ⟨p, hp, hne⟩ := h [("https://ta", [1])] [(Ex.env (Ex.W 0), "https://leaf")] (Ex.env Ex.W3) "https://leaf" [tc] (by decide) h1 tc (by simp)
  simp only [tc, List.mem_singleton] at hp
  subst hp
  exact hne rfl

namespace Ex
/-- `leaf` names `im` and itself. -/
def W4 : Collect.World where
  now := 0
  config
    | "https://leaf" => .ok (some (conf "https://leaf" (some ["https://im", "https://leaf"]) evilMd))
    | e => (W 0).config e
  fetch := (W 0).fetch
end Ex

/-- C77 does not hold even for an entity never seen before: naming itself after a real authority is enough. -/
theorem C77_first_contact_violation : ¬ C77_full := by
  intro h
  have h1 : ((getVerified (Ex.env Ex.W4) Ex.st "https://leaf").1.toOption.map fun out => out.map fun tc => (tc.anchor, tc.issPath)) =
      some [("https://ta", ["https://leaf", "https://im", "https://ta"]), ("https://leaf", ["https://leaf"])] := by decide +kernel
  have h2 := h [("https://ta", [1])] [] (Ex.env Ex.W4) "https://leaf"
  have h3 : ∀ out, (getVerified (Ex.env Ex.W4) Ex.st "https://leaf").1 = .ok out → (∀ tc ∈ out, ∃ p ∈ tc.verified, p.iss ≠ "https://leaf") →
      ((getVerified (Ex.env Ex.W4) Ex.st "https://leaf").1.toOption.map fun out =>
        out.all fun tc => tc.verified.any fun p => decide (p.iss ≠ "https://leaf")) = some true := by
    intro out ho hall
    rw [ho]
    simp only [Except.toOption, Option.map_some, Option.some.injEq, List.all_eq_true, List.any_eq_true, decide_eq_true_eq]
    exact hall
  cases ho : (getVerified (Ex.env Ex.W4) Ex.st "https://leaf").1 with
  | error e => rw [ho] at h1; simp [Except.toOption] at h1
  | ok out => exact absurd (h3 out ho (h2 out (by decide) ho)) (by decide +kernel)

/-- C77 as far as it holds: when the key store does not know the entity and only one chain is collected for it, the chain has a
statement by another issuer. Missing: entities seen before, and entities with several chains. -/
theorem C77_unknown_entity_partial (V : Env) (st : State) (entity : String) (out : List TrustChain)
    (h : (getVerified V st entity).1 = .ok out) (tc : TrustChain) (ht : tc ∈ out) (hno : Dict.has st.jar entity = false)
    (hone : ∀ f ec, (Collect.collect V.L.toCrypto V.P V.W V.fuel st.coll entity "").1 = .ok (f, ec) → (Collect.tree2chains f).length ≤ 1) :
    ∃ p ∈ tc.verified, p.iss ≠ entity := by
  obtain ⟨f, ec, tcs, h1, h2, h3, -⟩ := getVerified_ok h
  obtain ⟨tc0, hm, ha⟩ := (applyPolicies_mem h3).1 tc ht
  have same : tc.verified = tc0.verified ∧ tc.anchor = tc0.anchor := by
    obtain ⟨_, _, _, _, ⟨_, _, _, rfl⟩ | ⟨_, _, _, rfl⟩⟩ := applyToChain_ok.1 ha <;> exact ⟨rfl, rfl⟩
  obtain ⟨pre, c, post, hd, hv⟩ := (verifyChains_mem h2 tc0).1 hm
  have hl := hone f ec h1
  have hlen : (docs f ec).length ≤ 1 := by simpa [docs] using hl
  rw [hd] at hlen
  have hpre : pre = [] := by
    cases pre with
    | nil => rfl
    | cons _ _ => simp at hlen
  subst hpre
  obtain ⟨j, rest, k, rfl, h5, h6, -⟩ := C35_known_anchor _ _ _ _ hv
  obtain ⟨-, d2, -⟩ := C42_describes_chain _ _ _ _ hv
  refine ⟨j.payload, ?_, ?_⟩
  · rw [same.1, d2]; simp [statements]
  · intro he
    rw [he] at h6
    simp only [runAll, List.foldl_nil] at h6
    rw [hno] at h6; cases h6

example : ∃ f ec, (Collect.collect Ex.L.toCrypto { anchors := ["https://ta"] } (Ex.W 0) 10 {} "https://leaf" "").1 = .ok (f, ec) ∧
    (Collect.tree2chains f).length ≤ 1 :=
  ⟨.node "https://im" (Ex.about "https://im" "https://leaf") (.node "https://ta" (Ex.about "https://ta" "https://im" Ex.taPolicy) .nil .nil) .nil,
    Ex.conf "https://leaf" (some ["https://im"]) (Ex.rp (.str "admin")), by decide +kernel, by decide +kernel⟩

/-! ## C78 -/

/-- C78 in full: the chains returned for an entity are about that entity. -/
def C78_full : Prop :=
  ∀ (V : Env) (st : State) (entity : String) (out : List TrustChain), (getVerified V st entity).1 = .ok out →
    ∀ tc ∈ out, ∀ leaf, tc.verified.getLast? = some leaf → leaf.sub = entity

namespace Ex
/-- `https://mirror`, below `im`, publishes the configuration of `leaf` as its own. -/
def W5 : Collect.World where
  now := 0
  config
    | "https://mirror" => (W 0).config "https://leaf"
    | e => (W 0).config e
  fetch := (W 0).fetch
end Ex

/-- C78 does not hold: an entity that publishes somebody else's configuration is given that somebody's metadata. -/
theorem C78_mirror_violation : ¬ C78_full := by
  intro h
  have h1 : ((getVerified (Ex.env Ex.W5) (getVerified (Ex.env (Ex.W 0)) Ex.st "https://leaf").2 "https://mirror").1.toOption.map
      fun out => out.map fun tc => (tc.verified.getLast?.map (·.sub), tc.metadata)) =
      some [(some "https://leaf", [("openid_relying_party", .obj [("scopes", .str "openid")])])] := by decide +kernel
  have h2 := h (Ex.env Ex.W5) (getVerified (Ex.env (Ex.W 0)) Ex.st "https://leaf").2 "https://mirror"
  cases ho : (getVerified (Ex.env Ex.W5) (getVerified (Ex.env (Ex.W 0)) Ex.st "https://leaf").2 "https://mirror").1 with
  | error e => rw [ho] at h1; simp [Except.toOption] at h1
  | ok out =>
    rw [ho] at h1
    simp only [Except.toOption, Option.map_some, Option.some.injEq] at h1
    obtain ⟨tc, rest, rfl, h3, -⟩ := List.map_eq_cons_iff.1 h1
    have := h2 _ ho tc (by simp)
    cases hl : tc.verified.getLast? with
    | none => rw [hl] at h3; simp at h3
    | some leaf =>
      have h4 := this leaf hl
      rw [hl] at h3
      simp only [Option.map_some, Prod.mk.injEq, Option.some.injEq] at h3
      rw [h3.1] at h4
      exact absurd h4 (by decide)

/-- C78 as far as it holds: the chains are about the subject of the configuration that was found for the entity, so about the
entity if everyone publishes (and published, as far as cached) its own configuration. Missing: nobody checks that. -/
theorem C78_honest_partial (V : Env) (st : State) (entity : String) (out : List TrustChain)
    (h : (getVerified V st entity).1 = .ok out) (tc : TrustChain) (ht : tc ∈ out) (leaf : Payload)
    (hl : tc.verified.getLast? = some leaf) (hcache : ∀ c, st.coll.config.get? entity = some c → c.jws.payload.sub = entity)
    (hworld : ∀ j, V.W.config entity = .ok (some j) → j.payload.sub = entity) : leaf.sub = entity := by
  obtain ⟨ec, p, h1, -, -, h2⟩ := (C76_provenance V st entity out h tc ht).path
  rw [h2] at hl
  simp only [List.map_append, List.map_cons, List.map_nil, List.getLast?_append, List.getLast?_singleton, Option.some_or,
    Option.some.injEq] at hl
  rw [← hl]
  rcases h1 with h1 | ⟨h1, -⟩
  · exact hcache _ h1
  · exact hworld _ h1

example : ∀ j, (Ex.W 0).config "https://leaf" = .ok (some j) → j.payload.sub = "https://leaf" := by
  intro j h; simp only [Ex.W, Except.ok.injEq, Option.some.injEq] at h; subst h; rfl

/-! ## C79 -/

theorem policyForTypes_get {E : SetEnum Val} {K : SetEnum String} {sups : List Policy.PStatement} {leaf : Policy.PStatement} :
    ∀ {ts : List String} {m : Dict (Option Policy.Metadata)}, Policy.policyForTypes E K sups leaf ts = .ok m → ∀ t ∈ ts,
      ∃ r, Policy.policyFor E K sups leaf t = .ok r ∧ m.get? t = some r
  | [], m, _, t, ht => by simp at ht
  | t0 :: ts, m, h, t, ht => by
      unfold Policy.policyForTypes at h
      cases h1 : Policy.policyFor E K sups leaf t0 with
      | error e => rw [h1] at h; cases h
      | ok r =>
        rw [h1] at h
        simp only [ok_bind] at h
        cases h2 : Policy.policyForTypes E K sups leaf ts with
        | error e => rw [h2] at h; cases h
        | ok rest =>
          rw [h2] at h
          simp only [ok_bind, except_pure, Except.ok.injEq] at h
          subst h
          rw [Dict.get?_cons]
          by_cases he : t0 = t
          · subst he; exact ⟨r, h1, by simp⟩
          · rw [if_neg he]
            have : t ∈ ts := by
              rcases List.mem_cons.1 ht with h | h
              · exact absurd h.symm he
              · exact h
            exact policyForTypes_get h2 t this

theorem get?_map_val (m : Dict (Option Policy.Metadata)) (t : String) :
    Dict.get? (m.map fun p => (p.1, mdVal p.2)) t = (m.get? t).map mdVal := by
  induction m with
  | nil => rfl
  | cons p m ih =>
    obtain ⟨q, v⟩ := p
    simp only [List.map_cons, Dict.get?_cons, ih]
    split <;> rfl

/-- A value that the policy of a statement above the leaf fixes is in the metadata of the chain. -/
theorem applyToChain_fixed {E : SetEnum Val} {K : SetEnum String} {tc0 tc : TrustChain} (ha : applyToChain E K tc0 = .ok tc) (sups : List Payload) (leaf : Payload)
    (hv : tc.verified = sups ++ [leaf]) (sup : Payload) (hsup : sup ∈ sups) (t c : String) (md : Policy.Metadata)
    (hmd : leaf.md.get? t = some md) (mp : Policy.MetadataPolicy) (p : Policy.ClaimPolicy) (x : Val)
    (hmp : sup.policy.get? t = some mp) (hp : mp.get? c = some p) (hx : p.get? "value" = some x) :
    ∃ m, tc.metadata.get? t = some (.obj m) ∧ Dict.get? m c = some x := by
  obtain ⟨leaf', md', e1, e2, ⟨e3, m, e4, rfl⟩ | ⟨e3, m, e4, rfl⟩⟩ := applyToChain_ok.1 ha
  · simp only at hv
    rw [hv] at e1 e4
    simp only [List.getLast?_append, List.getLast?_singleton, Option.some_or, Option.some.injEq] at e1
    subst e1
    rw [List.dropLast_concat] at e4
    unfold Policy.callPolicy at e4
    have hk : t ∈ Dict.keys (toP leaf).metadata := by
      rw [Dict.mem_keys_iff]; simp [toP, hmd]
    obtain ⟨r, e5, e6⟩ := policyForTypes_get e4 t hk
    simp only
    rw [get?_map_val, e6]
    cases r with
    | none =>
      exfalso
      unfold Policy.policyFor at e5
      simp only [toP, hmd] at e5
      revert e5
      cases Policy.gatherPolicies E K (sups.map toP) t with
      | error e => simp
      | ok R =>
        simp only [ok_bind]
        cases Policy.applyPolicy E K md R with
        | error e => simp
        | ok _ => simp
    | some m' =>
      refine ⟨m', rfl, ?_⟩
      exact Policy.C14_value_partial E K _ _ t c m' e5 (toP sup) (List.mem_map.2 ⟨sup, hsup, rfl⟩) mp p hmp hp x hx
  · exfalso
    simp only at hv
    rw [hv] at e3
    cases sups with
    | nil => simp at hsup
    | cons _ _ => simp at e3

/-- C79: on the whole way from identifier to metadata, a value that the policy of any statement above the leaf fixes for a claim,
for an entity type the leaf has, is the value in the resulting metadata. -/
theorem C79_fixed_value_arrives (V : Env) (st : State) (entity : String) (out : List TrustChain)
    (h : (getVerified V st entity).1 = .ok out) (tc : TrustChain) (ht : tc ∈ out) (sups : List Payload) (leaf : Payload)
    (hv : tc.verified = sups ++ [leaf]) (sup : Payload) (hsup : sup ∈ sups) (t c : String) (md : Policy.Metadata)
    (hmd : leaf.md.get? t = some md) (mp : Policy.MetadataPolicy) (p : Policy.ClaimPolicy) (x : Val)
    (hmp : sup.policy.get? t = some mp) (hp : mp.get? c = some p) (hx : p.get? "value" = some x) :
    ∃ m, tc.metadata.get? t = some (.obj m) ∧ Dict.get? m c = some x := by
  obtain ⟨f, ec, tcs, h1, h2, h3, -⟩ := getVerified_ok h
  obtain ⟨tc0, hm, ha⟩ := (applyPolicies_mem h3).1 tc ht
  exact applyToChain_fixed ha sups leaf hv sup hsup t c md hmd mp p x hmp hp hx

/-- In the example the scopes `admin` that `leaf` asks for are overruled by `ta`. -/
example : (Ex.leafChain.metadata.get? "openid_relying_party") = some (.obj [("scopes", .str "openid")]) := by decide

end Fed.Chains
