import Verif.Collect.Cache
/-
Property C32: the configuration cache over arbitrary histories.
-/
namespace Fed.Collect
open Fed
variable {β : Type} [CacheVal β]
set_option linter.unusedSectionVars false

/-- The operation stores or deletes key `k`. -/
def Writes (k : String) (op : CacheOp β) : Prop := (∃ v, op = .set k v) ∨ op = .del k

/-- `v` was stored under `k` and since then nothing was stored under `k` nor was `k` deleted. -/
def LastStored (k : String) (h : List (Int × CacheOp β)) (v : β) : Prop :=
  ∃ pre t post, h = pre ++ (t, .set k v) :: post ∧ ∀ op ∈ post, ¬ Writes k op.2

/-- A dictionary is fresh when it expires more than the allowed delta from now. -/
def Fresh (delta now : Int) (v : β) : Prop := ∀ e, CacheVal.dictExp v = some (some e) → now < e - delta

/-- Times do not go backwards. -/
def Ordered (h : List (Int × CacheOp β)) : Prop := h.Pairwise fun a b => a.1 ≤ b.1

theorem get?_drop (db : Dict β) (k q : String) : Dict.get? (drop db k) q = if k = q then none else db.get? q :=
  Dict.get?_filter_ne db k q

theorem get?_del (db : Dict β) (k q : String) :
    Dict.get? (CacheOp.apply 0 0 db (.del k)) q = if k = q then none else db.get? q := by
  simp only [CacheOp.apply, Dict.del]
  by_cases h : db.has k = true
  · simp only [h, if_true]; exact Dict.get?_filter_ne db k q
  · simp only [h]
    by_cases hq : k = q
    · subst hq
      simp only [if_true]
      simp only [Dict.has, Bool.not_eq_true, Option.isSome_eq_false_iff, Option.isNone_iff_eq_none] at h
      simp [h]
    · simp [hq]

/-- What one more operation does to the value stored last. -/
def stored1 (k : String) (cur : Option β) : CacheOp β → Option β
  | .set q v => if q = k then some v else cur
  | .del q => if q = k then none else cur
  | .get _ => cur

/-- The value stored last, computed. -/
def lastStored (k : String) (h : List (Int × CacheOp β)) : Option β := h.foldl (fun cur op => stored1 k cur op.2) none

theorem lastStored_snoc (k : String) (h : List (Int × CacheOp β)) (op : Int × CacheOp β) :
    lastStored k (h ++ [op]) = stored1 k (lastStored k h) op.2 := by
  simp [lastStored]

theorem stored1_of_not_writes (k : String) (cur : Option β) (op : CacheOp β) (h : ¬ Writes k op) : stored1 k cur op = cur := by
  cases op with
  | set q v => simp only [stored1]; split
               · rename_i e; exact absurd (Or.inl ⟨v, by rw [e]⟩) h
               · rfl
  | del q => simp only [stored1]; split
             · rename_i e; exact absurd (Or.inr (by rw [e])) h
             · rfl
  | get q => rfl

theorem lastStored_iff (k : String) (h : List (Int × CacheOp β)) (v : β) : lastStored k h = some v ↔ LastStored k h v := by
  constructor
  · have main : ∀ n, ∀ h : List (Int × CacheOp β), h.length = n → lastStored k h = some v → LastStored k h v := by
      intro n
      induction n with
      | zero => intro h hl e; cases h with
        | nil => simp [lastStored] at e
        | cons => simp at hl
      | succ n ih =>
        intro h hl e
        obtain ⟨h', op, rfl⟩ : ∃ h' op, h = h' ++ [op] :=
          ⟨h.dropLast, h.getLast (by intro e; simp [e] at hl), (List.dropLast_concat_getLast _).symm⟩
        rw [lastStored_snoc] at e
        by_cases hw : Writes k op.2
        · obtain ⟨t, o⟩ := op
          rcases hw with ⟨w, rfl⟩ | rfl
          · simp only [stored1, if_true, Option.some.injEq] at e
            exact ⟨h', t, [], by rw [e], by simp⟩
          · simp [stored1] at e
        · rw [stored1_of_not_writes k _ _ hw] at e
          obtain ⟨pre, t, post, rfl, hp⟩ := ih h' (by simpa using hl) e
          refine ⟨pre, t, post ++ [op], by simp, ?_⟩
          intro o ho
          rcases List.mem_append.1 ho with ho | ho
          · exact hp o ho
          · rw [List.mem_singleton.1 ho]; exact hw
    exact main _ h rfl
  · rintro ⟨pre, t, post, rfl, hp⟩
    simp only [lastStored, List.foldl_append, List.foldl_cons, stored1, if_true]
    have : ∀ l : List (Int × CacheOp β), (∀ op ∈ l, ¬ Writes k op.2) → l.foldl (fun cur op => stored1 k cur op.2) (some v) = some v := by
      intro l
      induction l with
      | nil => intro _; rfl
      | cons a l ih =>
        intro hl
        rw [List.foldl_cons, stored1_of_not_writes k _ _ (hl a (by simp))]
        exact ih fun op h => hl op (by simp [h])
    exact this post hp

theorem runCache_snoc (delta : Int) (h : List (Int × CacheOp β)) (op : Int × CacheOp β) :
    runCache delta (h ++ [op]) = op.2.apply delta op.1 (runCache delta h) := by
  simp [runCache]

/-- What is in the cache is the last value stored; and what was stored and is gone is stale by the time of the last
operation. -/
theorem runCache_inv (delta : Int) (h : List (Int × CacheOp β)) (ho : Ordered h) (k : String) (now : Int)
    (hn : ∀ op ∈ h, op.1 ≤ now) :
    (Dict.get? (runCache delta h) k = lastStored k h) ∨
    (Dict.get? (runCache delta h) k = none ∧ ∃ v e, lastStored k h = some v ∧ CacheVal.dictExp v = some (some e) ∧
      ¬ now < e - delta) := by
  have main : ∀ n, ∀ h : List (Int × CacheOp β), h.length = n → Ordered h → ∀ now, (∀ op ∈ h, op.1 ≤ now) →
      (Dict.get? (runCache delta h) k = lastStored k h) ∨
      (Dict.get? (runCache delta h) k = none ∧ ∃ v e, lastStored k h = some v ∧ CacheVal.dictExp v = some (some e) ∧
        ¬ now < e - delta) := by
    intro n
    induction n with
    | zero => intro h hl _ _ _; cases h with
      | nil => exact Or.inl rfl
      | cons => simp at hl
    | succ n ih =>
      intro h hl ho now hn
      obtain ⟨h', op, rfl⟩ : ∃ h' op, h = h' ++ [op] :=
        ⟨h.dropLast, h.getLast (by intro e; simp [e] at hl), (List.dropLast_concat_getLast _).symm⟩
      have ho' : Ordered h' := (List.pairwise_append.1 ho).1
      have hle : ∀ o ∈ h', o.1 ≤ op.1 := fun o hm => (List.pairwise_append.1 ho).2.2 o hm op (by simp)
      have hop : op.1 ≤ now := hn op (by simp)
      have := ih h' (by simpa using hl) ho' op.1 hle
      rw [runCache_snoc, lastStored_snoc]
      obtain ⟨t, o⟩ := op
      simp only at hle hop this ⊢
      cases o with
      | set q v =>
        simp only [CacheOp.apply, stored1, Dict.get?_set]
        by_cases hq : q = k
        · simp [hq]
        · simp only [hq, if_false]
          rcases this with h1 | ⟨h1, v, e, h2, h3, h4⟩
          · exact Or.inl h1
          · exact Or.inr ⟨h1, v, e, h2, h3, by omega⟩
      | del q =>
        have hd : CacheOp.apply delta t (runCache delta h') (.del q) = CacheOp.apply 0 0 (runCache delta h') (.del q) := rfl
        rw [hd, get?_del]
        simp only [stored1]
        by_cases hq : q = k
        · simp [hq]
        · simp only [hq, if_false]
          rcases this with h1 | ⟨h1, v, e, h2, h3, h4⟩
          · exact Or.inl h1
          · exact Or.inr ⟨h1, v, e, h2, h3, by omega⟩
      | get q =>
        simp only [stored1, CacheOp.apply]
        have keep : (Dict.get? (runCache delta h') k = lastStored k h') ∨
            (Dict.get? (runCache delta h') k = none ∧ ∃ v e, lastStored k h' = some v ∧ CacheVal.dictExp v = some (some e) ∧
            ¬ now < e - delta) := by
          rcases this with h1 | ⟨h1, v, e, h2, h3, h4⟩
          · exact Or.inl h1
          · exact Or.inr ⟨h1, v, e, h2, h3, by omega⟩
        unfold subscript
        split
        · exact keep
        · rename_i v hv
          split
          · exact keep
          · exact keep
          · rename_i e he
            split
            · exact keep
            · rename_i hs
              rw [get?_drop]
              by_cases hq : q = k
              · subst hq
                simp only [if_true]
                rcases this with h1 | ⟨h1, v, e, h2, h3, h4⟩
                · rw [h1] at hv
                  exact Or.inr ⟨trivial, v, e, hv, he, by omega⟩
                · rw [h1] at hv; cases hv
              · simp only [hq, if_false]; exact keep
  exact main _ h rfl ho now hn

/-- C32: after any history with times that do not go backwards, a lookup by subscript gives exactly the value last stored under
the key (and not deleted since) when it is fresh, and nothing otherwise. It fails only for a dictionary without `exp`. -/
theorem C32_lookup_is_last_fresh (delta : Int) (h : List (Int × CacheOp β)) (ho : Ordered h) (now : Int)
    (hn : ∀ op ∈ h, op.1 ≤ now) (k : String) (hexp : ∀ v, LastStored k h v → CacheVal.dictExp v ≠ some none) :
    ∃ r, (subscript delta now (runCache delta h) k).1 = .ok r ∧
      ∀ v, r = some v ↔ LastStored k h v ∧ Fresh delta now v := by
  simp only [← lastStored_iff] at hexp ⊢
  rcases runCache_inv delta h ho k now hn with h1 | ⟨h1, v, e, h2, h3, h4⟩
  · unfold subscript
    rw [h1]
    cases hl : lastStored k h with
    | none => exact ⟨none, rfl, by simp⟩
    | some v =>
      have := hexp v hl
      simp only
      cases hd : CacheVal.dictExp v with
      | none => refine ⟨some v, rfl, fun w => ?_⟩; simp only [Option.some.injEq, Fresh]; constructor
                · rintro rfl; exact ⟨rfl, by simp [hd]⟩
                · exact fun h => h.1
      | some o =>
        cases o with
        | none => exact absurd hd this
        | some e =>
          simp only
          by_cases hf : now < e - delta
          · simp only [hf, if_true]
            refine ⟨some v, rfl, fun w => ?_⟩
            simp only [Option.some.injEq, Fresh]
            constructor
            · rintro rfl; refine ⟨rfl, fun e' he' => ?_⟩
              rw [hd] at he'; simp only [Option.some.injEq] at he'; omega
            · exact fun h => h.1
          · simp only [hf, if_false]
            refine ⟨none, rfl, fun w => ?_⟩
            simp only [reduceCtorEq, false_iff, not_and, Option.some.injEq]
            rintro rfl hfr
            exact hf (hfr e hd)
  · refine ⟨none, by simp [subscript, h1], fun w => ?_⟩
    simp only [reduceCtorEq, false_iff, not_and]
    intro hw hfr
    rw [h2] at hw
    simp only [Option.some.injEq] at hw
    subst hw
    exact h4 (hfr e h3)

/-- C32: an entry found stale is gone. -/
theorem C32_stale_entry_gone (delta now : Int) (db : Dict β) (k : String) (v : β) (hv : db.get? k = some v)
    (hd : CacheVal.dictExp v ≠ some none) (hs : ¬ Fresh delta now v) :
    (subscript delta now db k).1 = .ok none ∧ Dict.get? (subscript delta now db k).2 k = none ∧
    ∀ q, q ≠ k → Dict.get? (subscript delta now db k).2 q = db.get? q := by
  unfold subscript
  rw [hv]
  dsimp only
  cases he : CacheVal.dictExp v with
  | none => exact absurd (fun e h => by rw [he] at h; cases h) hs
  | some o =>
    cases o with
    | none => exact absurd he hd
    | some e =>
      have : ¬ now < e - delta := by
        intro h; apply hs; intro e' h'; rw [he] at h'; simp only [Option.some.injEq] at h'; omega
      dsimp only
      rw [if_neg this]
      refine ⟨rfl, by simp [get?_drop], fun q hq => ?_⟩
      rw [get?_drop]; simp [Ne.symm hq]

/-! A store with delta 300: fresh at 600, stale at 700, and gone. -/
instance : CacheVal Int := ⟨fun e => some (some e)⟩
example : Ordered [(500, CacheOp.set "a" (1000 : Int)), (600, .get "a")] := by simp [Ordered]
example : LastStored "a" [(500, CacheOp.set "a" (1000 : Int)), (600, .get "a")] 1000 :=
  ⟨[], 500, [(600, .get "a")], rfl, by simp [Writes]⟩
example : (subscript 300 699 (runCache 300 [(500, CacheOp.set "a" (1000 : Int)), (600, .get "a")]) "a").1 = .ok (some 1000) := by
  decide +kernel
example : (subscript 300 700 (runCache 300 [(500, CacheOp.set "a" (1000 : Int)), (600, .get "a")]) "a") = (.ok none, []) := by
  decide +kernel

end Fed.Collect
