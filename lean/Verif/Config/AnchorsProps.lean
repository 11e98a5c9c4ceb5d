import Verif.Config.Anchors
/-
Properties C134, C135, C136: the trust anchors of an entity.
-/
namespace Fed.Config
open Fed Verify

/-- What each entity was given: its own keys, the anchors it was made with, the anchors added to it. -/
def grant (G : List (List (String × List Key))) : Op → List (List (String × List Key))
  | .make s => G ++ [(s.id, s.own) :: (s.initAnchors.getD [] ++ s.anchors)]
  | .add i id ks => G.modify i (· ++ [(id, ks)])

def grants (ops : List Op) : List (List (String × List Key)) := ops.foldl grant []

/-- All keys of the dict have been given for that entity. -/
def Within (d : Dict (List Key)) (g : List (String × List Key)) : Prop :=
  ∀ a ks, Dict.get? d a = some ks → (∃ ks', (a, ks') ∈ g) ∧ ∀ k ∈ ks, ∃ ks', (a, ks') ∈ g ∧ k ∈ ks'

/-! ## C134 -/

/-- C134 in full: an entity has keys only for itself and for the trust anchors it was made with or given later, and no other trust anchors. -/
def C134_full : Prop := ∀ (ops : List Op) (i : Nat) (e : Ent) (g : List (String × List Key)),
  (run ops).ents[i]? = some e → (grants ops)[i]? = some g → Within e.jar g ∧ Within ((run ops).anchorsOf e) g

namespace Ex
/-- An entity gets an anchor; another is made afterwards. -/
def addThenMake : List Op := [.make ⟨"https://a", [1], none, none, []⟩, .add 0 "https://rogue" [66], .make ⟨"https://b", [2], none, none, [("https://ta", [3])]⟩]
/-- An entity is made with an anchor among the settings of its collector; another is made afterwards. -/
def initThenMake : List Op := [.make ⟨"https://a", [1], some [("https://rogue", [66])], none, []⟩, .make ⟨"https://b", [2], none, none, [("https://ta", [3])]⟩]
end Ex

/-- C134 does not hold: an anchor added to one entity becomes one of entities made later. -/
theorem C134_add_violation : ¬ C134_full := by
  intro h
  obtain ⟨h1, -⟩ := h Ex.addThenMake 1 ⟨"https://b", 1, 600, [("https://b", [2]), ("https://rogue", [66]), ("https://ta", [3])]⟩ [("https://b", [2]), ("https://ta", [3])]
    (by decide) (by decide)
  obtain ⟨⟨ks, hk⟩, -⟩ := h1 "https://rogue" [66] (by decide)
  simp at hk

/-- Nor does it hold of anchors given in the settings of the collector. -/
theorem C134_init_violation : ¬ C134_full := by
  intro h
  obtain ⟨h1, -⟩ := h Ex.initThenMake 1 ⟨"https://b", 2, 600, [("https://b", [2]), ("https://rogue", [66]), ("https://ta", [3])]⟩ [("https://b", [2]), ("https://ta", [3])]
    (by decide) (by decide)
  obtain ⟨⟨ks, hk⟩, -⟩ := h1 "https://rogue" [66] (by decide)
  simp at hk

/-- It matters: an entity made to trust one anchor accepts chains of an anchor that was added to another entity. -/
theorem C134_chain_violation : ∃ (ops : List Op) (e : Ent) (g : List (String × List Key)) (L : Lib) (chain : List Doc) (tc : TrustChain),
    (run ops).ents[1]? = some e ∧ (grants ops)[1]? = some g ∧ (verifyChain L e.jar chain).1 = .ok (some tc) ∧ ∀ ks, (tc.anchor, ks) ∉ g :=
  ⟨Ex.addThenMake, ⟨"https://b", 1, 600, [("https://b", [2]), ("https://rogue", [66]), ("https://ta", [3])]⟩, [("https://b", [2]), ("https://ta", [3])],
    { usable := fun _ _ => true, verifies := fun j k => decide (j.sig = k), current := notExpired, unknownRaises := true },
    [some ⟨{ iss := "https://rogue", sub := "https://leaf", exp := some 9, jwks := some [7] }, 66⟩, some ⟨{ iss := "https://leaf", sub := "https://leaf", exp := some 9, jwks := some [7] }, 7⟩],
    _, by decide, by decide, rfl, by simp⟩

/-! ### What holds -/

theorem Within.set {d : Dict (List Key)} {g : List (String × List Key)} {a : String} {ks : List Key} (h : Within d g) (ha : ∃ ks', (a, ks') ∈ g)
    (hk : ∀ k ∈ ks, ∃ ks', (a, ks') ∈ g ∧ k ∈ ks') : Within (d.set a ks) g := by
  intro b ks' hb
  rw [Dict.get?_set] at hb
  split at hb
  · rename_i hab
    cases hb
    subst hab
    exact ⟨ha, hk⟩
  · exact h b ks' hb

theorem Within.mono {d : Dict (List Key)} {g g' : List (String × List Key)} (h : Within d g) (hg : ∀ x ∈ g, x ∈ g') : Within d g' := by
  intro a ks ha
  obtain ⟨⟨ks', h1⟩, h2⟩ := h a ks ha
  refine ⟨⟨ks', hg _ h1⟩, fun k hk => ?_⟩
  obtain ⟨ks'', h3, h4⟩ := h2 k hk
  exact ⟨ks'', hg _ h3, h4⟩

theorem Within.importJwks {jar : KeyJar} {g : List (String × List Key)} {a : String} {ks : List Key} (h : Within jar g) (ha : (a, ks) ∈ g) : Within (importJwks jar a ks) g := by
  unfold Config.importJwks
  refine h.set ⟨ks, ha⟩ fun k hk => ?_
  rcases List.mem_append.1 hk with hk | hk
  · unfold KeyJar.keysOf at hk
    cases hj : Dict.get? jar a with
    | none => rw [hj] at hk; cases hk
    | some old => rw [hj] at hk; exact (h a old hj).2 k hk
  · exact ⟨ks, ha, hk⟩

theorem Within.importAll {g : List (String × List Key)} : ∀ {as : Anchors} {jar : KeyJar}, Within jar g → (∀ x ∈ as, x ∈ g) → Within (importAll jar as) g
  | [], _, h, _ => h
  | (a, ks) :: as, jar, h, hs => by
    rw [Config.importAll]
    exact (h.importJwks (hs _ (by simp))).importAll (fun x hx => hs x (by simp [hx]))

theorem within_self {d : Anchors} {g : List (String × List Key)} (h : ∀ x ∈ d, x ∈ g) : Within d g := by
  intro a ks ha
  have := h _ (Dict.get?_mem ha)
  exact ⟨⟨ks, this⟩, fun k hk => ⟨ks, this, hk⟩⟩

/-- The entities made so far, as specified. -/
def specs (S : List Spec) : Op → List Spec
  | .make s => S ++ [s]
  | .add _ _ _ => S

/-- What is kept up while nothing is shared but (if `sh`) the empty default. -/
structure Apart (sh : Bool) (P : Proc) (G : List (List (String × List Key))) (S : List Spec) : Prop where
  len : P.ents.length = G.length
  lenS : P.ents.length = S.length
  ref : ∀ (i : Nat) (e : Ent), P.ents[i]? = some e → e.anchors < P.objs.length
  apart : ∀ (i j : Nat) (e e' : Ent), i ≠ j → P.ents[i]? = some e → P.ents[j]? = some e' → e.anchors = e'.anchors → sh = true ∧ e.anchors = 0
  within : ∀ (i : Nat) (e : Ent) (g : List (String × List Key)), P.ents[i]? = some e → G[i]? = some g → Within e.jar g ∧ Within (P.anchorsOf e) g
  zero : sh = true → P.objs[0]? = some [] ∧ P.default = 0
  own : ∀ (i : Nat) (e : Ent) (s : Spec), P.ents[i]? = some e → S[i]? = some s → s.anchors ≠ [] → sh = true → e.anchors ≠ 0

theorem getElem?_snoc {α : Type} {l : List α} {x y : α} {i : Nat} (h : (l ++ [x])[i]? = some y) : l[i]? = some y ∨ (i = l.length ∧ y = x) := by
  rw [List.getElem?_append] at h
  split at h
  · exact Or.inl h
  · rename_i hi
    right
    by_cases h0 : i - l.length = 0
    · rw [h0] at h
      simp only [List.getElem?_cons_zero, Option.some.injEq] at h
      exact ⟨by omega, h.symm⟩
    · rw [List.getElem?_eq_none (by simp; omega)] at h; cases h

theorem Apart.extend {sh : Bool} {P : Proc} {G : List (List (String × List Key))} {S : List Spec} (h : Apart sh P G S) {ext : List Anchors} {e : Ent} {g : List (String × List Key)} {s : Spec}
    {P' : Proc} (ho : P'.objs = P.objs ++ ext) (he : P'.ents = P.ents ++ [e]) (hz : sh = true → P'.default = 0)
    (hr : P.objs.length ≤ e.anchors ∨ (sh = true ∧ e.anchors = 0)) (hr' : e.anchors < (P.objs ++ ext).length)
    (hw : Within e.jar g ∧ Within (P'.anchorsOf e) g) (hs : s.anchors ≠ [] → sh = true → e.anchors ≠ 0) : Apart sh P' (G ++ [g]) (S ++ [s]) := by
  have old : ∀ x : Ent, x.anchors < P.objs.length → P'.anchorsOf x = P.anchorsOf x := by
    intro x hx
    simp only [Proc.anchorsOf, ho]
    rw [List.getElem?_append, if_pos hx]
  refine ⟨by simp [he, h.len], by simp [he, h.lenS], ?_, ?_, ?_, ?_, ?_⟩
  · intro i x hx
    rw [he] at hx
    rw [ho]
    rcases getElem?_snoc hx with hx | ⟨-, rfl⟩
    · have := h.ref i x hx
      simp only [List.length_append]
      omega
    · exact hr'
  · intro i j x y hij hx hy hxy
    rw [he] at hx hy
    rcases getElem?_snoc hx with hx' | ⟨hi, rfl⟩ <;> rcases getElem?_snoc hy with hy | ⟨hj, rfl⟩
    · exact h.apart i j x y hij hx' hy hxy
    · have := h.ref i x hx'
      rcases hr with hr | hr
      · omega
      · exact ⟨hr.1, by omega⟩
    · have := h.ref j y hy
      rcases hr with hr | hr
      · omega
      · exact hr
    · omega
  · intro i x g' hx hg
    rw [he] at hx
    rcases getElem?_snoc hx with hx | ⟨hi, rfl⟩ <;> rcases getElem?_snoc hg with hg | ⟨hj, rfl⟩
    · rw [old x (h.ref i x hx)]
      exact h.within i x g' hx hg
    · have : i < P.ents.length := by
        rcases Nat.lt_or_ge i P.ents.length with h1 | h1
        · exact h1
        · rw [List.getElem?_eq_none h1] at hx; cases hx
      rw [h.len] at this
      omega
    · have : i < G.length := by
        rcases Nat.lt_or_ge i G.length with h1 | h1
        · exact h1
        · rw [List.getElem?_eq_none h1] at hg; cases hg
      rw [← h.len] at this
      omega
    · exact hw
  · intro hsh
    obtain ⟨h1, h2⟩ := h.zero hsh
    refine ⟨?_, hz hsh⟩
    rw [ho, List.getElem?_append, if_pos]
    · exact h1
    · rcases Nat.lt_or_ge 0 P.objs.length with h3 | h3
      · exact h3
      · rw [List.getElem?_eq_none h3] at h1; cases h1
  · intro i x s' hx hs'
    rw [he] at hx
    rcases getElem?_snoc hx with hx | ⟨hi, rfl⟩ <;> rcases getElem?_snoc hs' with hg | ⟨hj, rfl⟩
    · exact h.own i x s' hx hg
    · have : i < P.ents.length := by
        rcases Nat.lt_or_ge i P.ents.length with h1 | h1
        · exact h1
        · rw [List.getElem?_eq_none h1] at hx; cases hx
      rw [h.lenS] at this
      omega
    · have : i < S.length := by
        rcases Nat.lt_or_ge i S.length with h1 | h1
        · exact h1
        · rw [List.getElem?_eq_none h1] at hg; cases hg
      rw [← h.lenS] at this
      omega
    · exact hs

theorem Apart.add {sh : Bool} {P : Proc} {G : List (List (String × List Key))} {S : List Spec} (h : Apart sh P G S) (i : Nat) (a : String) (ks : List Key)
    (hs : sh = true → ∀ e, P.ents[i]? = some e → e.anchors ≠ 0) : Apart sh (P.add i a ks) (G.modify i (· ++ [(a, ks)])) S := by
  unfold Proc.add
  cases he : P.ents[i]? with
  | none =>
    have : G.modify i (· ++ [(a, ks)]) = G := by
      refine List.modify_eq_self ?_
      rw [List.getElem?_eq_none_iff] at he
      rw [h.len] at he
      exact he
    rw [this]
    exact h
  | some e =>
    -- what entity `j` is before and after
    have ent : ∀ (j : Nat) x, (P.ents.modify i fun e => { e with jar := importJwks e.jar a ks })[j]? = some x →
        (j ≠ i ∧ P.ents[j]? = some x) ∨ (j = i ∧ x = { e with jar := importJwks e.jar a ks }) := by
      intro j x hx
      rw [List.getElem?_modify] at hx
      by_cases hij : i = j
      · subst hij
        rw [he] at hx
        simp only [if_true, Option.map_eq_map, Option.map_some, Option.some.injEq] at hx
        exact Or.inr ⟨rfl, hx.symm⟩
      · left
        refine ⟨Ne.symm hij, ?_⟩
        simpa [hij] using hx
    have gr : ∀ (j : Nat) g, (G.modify i (· ++ [(a, ks)]))[j]? = some g → (j ≠ i ∧ G[j]? = some g) ∨ (j = i ∧ ∃ g0, G[i]? = some g0 ∧ g = g0 ++ [(a, ks)]) := by
      intro j g hg
      rw [List.getElem?_modify] at hg
      by_cases hij : i = j
      · subst hij
        right
        refine ⟨rfl, ?_⟩
        cases hgi : G[i]? with
        | none => rw [hgi] at hg; cases hg
        | some g0 =>
          rw [hgi] at hg
          simp only [if_true, Option.map_eq_map, Option.map_some, Option.some.injEq] at hg
          exact ⟨g0, rfl, hg.symm⟩
      · left
        refine ⟨Ne.symm hij, ?_⟩
        simpa [hij] using hg
    refine ⟨by simp [h.len], by simp [h.lenS], ?_, ?_, ?_, ?_, ?_⟩
    · intro j x hx
      simp only [List.length_modify]
      rcases ent j x hx with ⟨-, hx⟩ | ⟨-, rfl⟩
      · exact h.ref j x hx
      · exact h.ref i e he
    · intro j k x y hjk hx hy hxy
      rcases ent j x hx with ⟨-, hx'⟩ | ⟨rfl, rfl⟩ <;> rcases ent k y hy with ⟨-, hy'⟩ | ⟨rfl, rfl⟩
      · exact h.apart j k x y hjk hx' hy' hxy
      · exact h.apart j k x e hjk hx' he hxy
      · exact h.apart j k e y hjk he hy' hxy
      · exact absurd rfl hjk
    · intro j x g hx hg
      rcases ent j x hx with ⟨hji, hx⟩ | ⟨rfl, rfl⟩ <;> rcases gr j g hg with ⟨hji', hg⟩ | ⟨hji', g0, hg0, rfl⟩
      · obtain ⟨h1, h2⟩ := h.within j x g hx hg
        refine ⟨h1, ?_⟩
        have hne : e.anchors ≠ x.anchors := by
          intro heq
          obtain ⟨hsh, h0⟩ := h.apart j i x e hji hx he heq.symm
          exact hs hsh e he (heq.trans h0)
        simp only [Proc.anchorsOf] at h2 ⊢
        rw [List.getElem?_modify]
        simpa [hne] using h2
      · exact absurd hji' hji
      · exact absurd rfl hji'
      · obtain ⟨h1, h2⟩ := h.within j e g0 he hg0
        have up : ∀ x ∈ g0, x ∈ g0 ++ [(a, ks)] := fun x hx => List.mem_append.2 (Or.inl hx)
        refine ⟨(h1.mono up).importJwks (by simp), ?_⟩
        simp only [Proc.anchorsOf] at h2 ⊢
        rw [List.getElem?_modify]
        cases ho : P.objs[e.anchors]? with
        | none =>
          have := h.ref j e he
          rw [List.getElem?_eq_none_iff] at ho
          omega
        | some d =>
          rw [ho] at h2
          simp only [Option.map_eq_map, Option.map_some, Option.getD_some, if_true] at h2 ⊢
          exact (h2.mono up).set ⟨ks, by simp⟩ fun k hk => ⟨ks, by simp, hk⟩
    · intro hsh
      obtain ⟨h1, h2⟩ := h.zero hsh
      refine ⟨?_, h2⟩
      show (P.objs.modify e.anchors _)[0]? = _
      rw [List.getElem?_modify]
      simp [h1, hs hsh e he]
    · intro j x s hx hsj
      rcases ent j x hx with ⟨-, hx⟩ | ⟨rfl, rfl⟩
      · exact h.own j x s hx hsj
      · exact h.own j e s he hsj

theorem initKwargs_none {P : Proc} {s : Spec} (h : s.initAnchors = none) : (P.initKwargs s).objs = P.objs ∧ (P.initKwargs s).default = P.default ∧ (P.initKwargs s).ents = P.ents := by
  unfold Proc.initKwargs
  rw [h]
  cases s.initDelta <;> exact ⟨rfl, rfl, rfl⟩

theorem initKwargs_some {P : Proc} {s : Spec} {d : Anchors} (h : s.initAnchors = some d) :
    (P.initKwargs s).objs = P.objs ++ [d] ∧ (P.initKwargs s).default = P.objs.length ∧ (P.initKwargs s).ents = P.ents := by
  unfold Proc.initKwargs
  rw [h]
  cases s.initDelta <;> exact ⟨rfl, rfl, rfl⟩

theorem Apart.make {sh : Bool} {P : Proc} {G : List (List (String × List Key))} {S : List Spec} (h : Apart sh P G S) (s : Spec) (hs : if sh = true then s.initAnchors = none else s.initAnchors ≠ none) :
    Apart sh (P.make s) (G ++ [(s.id, s.own) :: (s.initAnchors.getD [] ++ s.anchors)]) (S ++ [s]) := by
  have hself : ∀ g : List (String × List Key), (s.id, s.own) ∈ g → Within [(s.id, s.own)] g := fun g hg => within_self (by simpa using hg)
  cases sh with
  | true =>
    simp only [if_true] at hs
    obtain ⟨z1, z2⟩ := h.zero rfl
    obtain ⟨d1, d2, d3⟩ := initKwargs_none (P := P) hs
    have hlen : 0 < P.objs.length := by
      rcases Nat.lt_or_ge 0 P.objs.length with h3 | h3
      · exact h3
      · rw [List.getElem?_eq_none h3] at z1; cases z1
    unfold Proc.make
    generalize P.initKwargs s = Q at d1 d2 d3 ⊢
    simp only [d1, d2, d3, z2, z1, Option.getD_some, importAll, hs, Option.getD_none, List.nil_append]
    split
    · rename_i ha
      refine h.extend (ext := []) (by simp [d1]) rfl (fun _ => by simp [d2, z2]) (Or.inr ⟨rfl, rfl⟩) (by simpa using hlen) ⟨hself _ (by simp), ?_⟩ (fun hn => absurd ha hn)
      simp only [Proc.anchorsOf, d1, z1, Option.getD_some]
      intro a ks ha
      cases ha
    · rename_i ha
      refine h.extend (ext := [s.anchors]) rfl rfl (fun _ => by simp [d2, z2]) (Or.inl (Nat.le_refl _)) (by simp) ⟨?_, ?_⟩ (fun _ _ => by simp only; omega)
      · exact (hself _ (by simp)).importAll (fun x hx => by simp [hx])
      · simp only [Proc.anchorsOf]
        rw [List.getElem?_append, if_neg (by omega), Nat.sub_self]
        exact within_self (fun x hx => List.mem_cons_of_mem _ hx)
  | false =>
    simp only [Bool.false_eq_true, if_false] at hs
    cases hi : s.initAnchors with
    | none => exact absurd hi hs
    | some d =>
      obtain ⟨d1, d2, d3⟩ := initKwargs_some (P := P) hi
      unfold Proc.make
      generalize P.initKwargs s = Q at d1 d2 d3 ⊢
      have hd : (P.objs ++ [d])[P.objs.length]? = some d := by simp
      simp only [d1, d2, d3, hd, Option.getD_some]
      split
      · rename_i ha
        refine h.extend (ext := [d]) (by simp [d1]) rfl (fun hf => (by cases hf)) (Or.inl (Nat.le_refl _)) (by simp) ⟨?_, ?_⟩ (fun _ hf => by cases hf)
        · exact (hself _ (by simp)).importAll (fun x hx => by simp [hx])
        · simp only [Proc.anchorsOf, d1, hd, Option.getD_some]
          exact within_self (fun x hx => by simp [hx])
      · rename_i ha
        refine h.extend (ext := [d, s.anchors]) (by simp) rfl (fun hf => (by cases hf)) (Or.inl (by simp)) (by simp) ⟨?_, ?_⟩ (fun _ hf => by cases hf)
        · exact ((hself _ (by simp)).importAll (fun x hx => by simp [hx])).importAll (fun x hx => by simp [hx])
        · simp only [Proc.anchorsOf]
          rw [List.getElem?_append, if_neg (by omega), Nat.sub_self]
          exact within_self (fun x hx => List.mem_cons_of_mem _ (List.mem_append.2 (Or.inr hx)))

theorem foldl_snoc_induction {β : Type} (f : β → Op → β) (b : β) {motive : List Op → β → Prop} (h0 : motive [] b)
    (h1 : ∀ ops op, motive ops (ops.foldl f b) → motive (ops ++ [op]) (f (ops.foldl f b) op)) (ops : List Op) : motive ops (ops.foldl f b) := by
  have : ∀ l : List Op, motive l.reverse (l.reverse.foldl f b) := by
    intro l
    induction l with
    | nil => exact h0
    | cons op l ih =>
      rw [List.reverse_cons, List.foldl_append]
      exact h1 _ _ ih
  have h := this ops.reverse
  rw [List.reverse_reverse] at h
  exact h

/-- C134, what holds (1): if every entity is made with trust anchors in the settings of its collector (an empty dict will do), each has the anchors it was given and no others. -/
theorem C134_settings_partial (ops : List Op) (hs : ∀ s, .make s ∈ ops → s.initAnchors ≠ none) (i : Nat) (e : Ent) (g : List (String × List Key))
    (he : (run ops).ents[i]? = some e) (hg : (grants ops)[i]? = some g) : Within e.jar g ∧ Within ((run ops).anchorsOf e) g := by
  have main : ∀ ops : List Op, (∀ s, .make s ∈ ops → s.initAnchors ≠ none) → Apart false (run ops) (grants ops) (ops.foldl specs []) := by
    intro ops
    refine foldl_snoc_induction specs [] (motive := fun ops S => (∀ s, .make s ∈ ops → s.initAnchors ≠ none) → Apart false (run ops) (grants ops) S) ?_ ?_ ops
    · intro _
      refine ⟨rfl, rfl, ?_, ?_, ?_, fun hf => (by cases hf), ?_⟩ <;> intros <;> rename_i h1 h2 <;> first | (simp [run] at h1; done) | (simp [run] at h2; done) | skip
      all_goals simp_all [run]
    · intro ops op ih hs
      have ih := ih (fun s hm => hs s (by simp [hm]))
      cases op with
      | make s =>
        have := ih.make s (by simpa using hs s (by simp))
        simpa [run, grants, List.foldl_append, Proc.step, grant, specs] using this
      | add i a ks =>
        have := ih.add i a ks (fun hf => by cases hf)
        simpa [run, grants, List.foldl_append, Proc.step, grant, specs] using this
  exact (main ops hs).within i e g he hg

/-- C134, what holds (2): the same if no entity is made with anchors in the settings of its collector, and `add_trust_anchor` is used only on entities made with trust anchors. -/
theorem C134_arguments_partial (ops : List Op) (hs : ∀ s, .make s ∈ ops → s.initAnchors = none) (ha : ∀ i a ks, .add i a ks ∈ ops → ∀ s, (ops.foldl specs [])[i]? = some s → s.anchors ≠ [])
    (i : Nat) (e : Ent) (g : List (String × List Key)) (he : (run ops).ents[i]? = some e) (hg : (grants ops)[i]? = some g) : Within e.jar g ∧ Within ((run ops).anchorsOf e) g := by
  have grows : ∀ (ops : List Op) (op : Op) (i : Nat) s, (ops.foldl specs [])[i]? = some s → (specs (ops.foldl specs []) op)[i]? = some s := by
    intro ops op i s h
    cases op with
    | add => exact h
    | make s' =>
      simp only [specs]
      rw [List.getElem?_append, if_pos]
      · exact h
      · rcases Nat.lt_or_ge i (ops.foldl specs []).length with h3 | h3
        · exact h3
        · rw [List.getElem?_eq_none h3] at h; cases h
  have main : ∀ ops : List Op, (∀ s, .make s ∈ ops → s.initAnchors = none) → (∀ i a ks, .add i a ks ∈ ops → ∀ s, (ops.foldl specs [])[i]? = some s → s.anchors ≠ []) →
      Apart true (run ops) (grants ops) (ops.foldl specs []) := by
    intro ops
    refine foldl_snoc_induction specs [] (motive := fun ops S => (∀ s, .make s ∈ ops → s.initAnchors = none) → (∀ i a ks, .add i a ks ∈ ops → ∀ s, S[i]? = some s → s.anchors ≠ []) →
      Apart true (run ops) (grants ops) S) ?_ ?_ ops
    · intro _ _
      refine ⟨rfl, rfl, ?_, ?_, ?_, fun _ => ⟨rfl, rfl⟩, ?_⟩ <;> intros <;> simp_all [run]
    · intro ops op ih hs ha
      have ih := ih (fun s hm => hs s (by simp [hm])) (fun i a ks hm s hsi => ha i a ks (by simp [hm]) s (grows ops op i s hsi))
      cases op with
      | make s =>
        have := ih.make s (by simpa using hs s (by simp))
        simpa [run, grants, List.foldl_append, Proc.step, grant, specs] using this
      | add i a ks =>
        have := ih.add i a ks (by
          intro _ e he
          have hlt : i < (ops.foldl specs []).length := by
            rcases Nat.lt_or_ge i (ops.foldl specs []).length with h3 | h3
            · exact h3
            · rw [← ih.lenS] at h3; rw [List.getElem?_eq_none h3] at he; cases he
          obtain ⟨s, hsi⟩ : ∃ s, (ops.foldl specs [])[i]? = some s := ⟨_, List.getElem?_eq_getElem hlt⟩
          exact ih.own i e s he hsi (ha i a ks (by simp) s hsi) rfl)
        simpa [run, grants, List.foldl_append, Proc.step, grant, specs] using this
  exact (main ops hs ha).within i e g he hg

namespace Ex
def fine : List Op := [.make ⟨"https://a", [1], none, none, [("https://ta", [3])]⟩, .add 0 "https://ta2" [4], .make ⟨"https://b", [2], none, none, []⟩, .add 0 "https://ta3" [5]]
def fine' : List Op := [.make ⟨"https://a", [1], some [], none, []⟩, .add 0 "https://ta2" [4], .make ⟨"https://b", [2], some [("https://ta", [3])], none, []⟩]
end Ex

example : (∀ s, .make s ∈ Ex.fine → s.initAnchors = none) ∧ (∀ i a ks, .add i a ks ∈ Ex.fine → ∀ s, (Ex.fine.foldl specs [])[i]? = some s → s.anchors ≠ []) ∧
    ((run Ex.fine).ents.map (·.jar)) = [[("https://a", [1]), ("https://ta", [3]), ("https://ta2", [4]), ("https://ta3", [5])], [("https://b", [2])]] := by
  refine ⟨?_, ?_, by decide⟩
  · intro s hs
    simp only [Ex.fine, List.mem_cons, List.not_mem_nil, or_false, Op.make.injEq, reduceCtorEq, false_or] at hs
    rcases hs with rfl | rfl <;> rfl
  · intro i a ks hm s hs
    simp only [Ex.fine, List.mem_cons, List.not_mem_nil, or_false, Op.add.injEq, reduceCtorEq, false_or] at hm
    rcases hm with ⟨rfl, -⟩ | ⟨rfl, -⟩ <;> · cases hs; decide

example : (∀ s, .make s ∈ Ex.fine' → s.initAnchors ≠ none) ∧
    ((run Ex.fine').ents.map (·.jar)) = [[("https://a", [1]), ("https://ta2", [4])], [("https://b", [2]), ("https://ta", [3])]] := by
  refine ⟨?_, by decide⟩
  intro s hs
  simp only [Ex.fine', List.mem_cons, List.not_mem_nil, or_false, Op.make.injEq, reduceCtorEq, false_or] at hs
  rcases hs with rfl | rfl <;> simp

/-! ## C135 -/

/-- C135 in full: the trust anchors an entity is made with or given later have effect: their keys are there, and they are listed. -/
def C135_full : Prop := ∀ (ops : List Op) (i : Nat) (e : Ent) (g : List (String × List Key)),
  (run ops).ents[i]? = some e → (grants ops)[i]? = some g →
    (∀ a ks, (a, ks) ∈ g → ∀ k ∈ ks, k ∈ e.jar.keysOf a) ∧ ∀ a ks, (a, ks) ∈ g.tail → ((run ops).anchorsOf e).has a = true

/-- C135 does not hold: anchors in the settings of the collector are no longer listed if anchors are also given as an argument. -/
theorem C135_violation : ¬ C135_full := by
  intro h
  have := (h [.make ⟨"https://a", [1], some [("https://ta", [3])], none, [("https://ta2", [4])]⟩] 0 ⟨"https://a", 2, 600, [("https://a", [1]), ("https://ta", [3]), ("https://ta2", [4])]⟩
    [("https://a", [1]), ("https://ta", [3]), ("https://ta2", [4])] (by decide) (by decide)).2 "https://ta" [3] (by decide)
  exact absurd this (by decide)

theorem keysOf_importJwks (jar : KeyJar) (a b : String) (ks : List Key) : (importJwks jar a ks).keysOf b = if a = b then jar.keysOf a ++ ks else jar.keysOf b := by
  unfold importJwks
  conv => lhs; unfold KeyJar.keysOf
  rw [Dict.get?_set]
  by_cases h : a = b
  · rw [if_pos h, if_pos h]
    rfl
  · rw [if_neg h, if_neg h]
    rfl

theorem keysOf_importJwks_mono {jar : KeyJar} {a b : String} {ks : List Key} {k : Key} (h : k ∈ jar.keysOf b) : k ∈ (importJwks jar a ks).keysOf b := by
  rw [keysOf_importJwks]
  split
  · rename_i hab
    subst hab
    exact List.mem_append.2 (Or.inl h)
  · exact h

theorem keysOf_importJwks_self {jar : KeyJar} {a : String} {ks : List Key} {k : Key} (h : k ∈ ks) : k ∈ (importJwks jar a ks).keysOf a := by
  rw [keysOf_importJwks, if_pos rfl]
  exact List.mem_append.2 (Or.inr h)

theorem keysOf_importAll_mono {b : String} {k : Key} : ∀ {as : Anchors} {jar : KeyJar}, k ∈ jar.keysOf b → k ∈ (importAll jar as).keysOf b
  | [], _, h => h
  | (a, ks) :: as, jar, h => by
    rw [importAll]
    exact keysOf_importAll_mono (keysOf_importJwks_mono h)

theorem keysOf_importAll_self {b : String} {ks' : List Key} {k : Key} (hk : k ∈ ks') : ∀ {as : Anchors} {jar : KeyJar}, (b, ks') ∈ as → k ∈ (importAll jar as).keysOf b
  | [], _, h => by cases h
  | (a, ks) :: as, jar, h => by
    rw [importAll]
    rcases List.mem_cons.1 h with h | h
    · cases h
      exact keysOf_importAll_mono (keysOf_importJwks_self hk)
    · exact keysOf_importAll_self hk h

/-- The dict that is the default after the settings have been put in place. -/
theorem initKwargs_default {P : Proc} {s : Spec} {a : String} {ks : List Key} (h : (a, ks) ∈ s.initAnchors.getD []) : (a, ks) ∈ ((P.initKwargs s).objs[(P.initKwargs s).default]?.getD []) := by
  cases hi : s.initAnchors with
  | none => rw [hi] at h; cases h
  | some d =>
    obtain ⟨d1, d2, -⟩ := initKwargs_some (P := P) hi
    rw [hi] at h
    rw [d1, d2]
    simpa using h

theorem initKwargs_frame (P : Proc) (s : Spec) (hd : P.default < P.objs.length) : (P.initKwargs s).ents = P.ents ∧ (∃ ext, (P.initKwargs s).objs = P.objs ++ ext) ∧
    (P.initKwargs s).default < (P.initKwargs s).objs.length := by
  cases hi : s.initAnchors with
  | none =>
    obtain ⟨d1, d2, d3⟩ := initKwargs_none (P := P) hi
    exact ⟨d3, ⟨[], by simp [d1]⟩, by rw [d1, d2]; exact hd⟩
  | some d =>
    obtain ⟨d1, d2, d3⟩ := initKwargs_some (P := P) hi
    exact ⟨d3, ⟨[d], d1⟩, by rw [d1, d2]; simp⟩

theorem make_frame (P : Proc) (s : Spec) (hd : P.default < P.objs.length) : ∃ e ext, (P.make s).ents = P.ents ++ [e] ∧ (P.make s).objs = P.objs ++ ext ∧ e.anchors < (P.make s).objs.length ∧
    (P.make s).default < (P.make s).objs.length ∧ (∀ a ks, (a, ks) ∈ (s.id, s.own) :: (s.initAnchors.getD [] ++ s.anchors) → ∀ k ∈ ks, k ∈ e.jar.keysOf a) ∧
    (s.initAnchors.getD [] = [] ∨ s.anchors = [] → ∀ a ks, (a, ks) ∈ s.initAnchors.getD [] ++ s.anchors → ((P.make s).anchorsOf e).has a = true) ∧
    e.delta = (P.initKwargs s).delta ∧ (P.make s).delta = (P.initKwargs s).delta := by
  obtain ⟨h1, ⟨ext, h2⟩, h3⟩ := initKwargs_frame P s hd
  have h4 := fun a ks => initKwargs_default (P := P) (s := s) (a := a) (ks := ks)
  have hself : ∀ k ∈ s.own, k ∈ KeyJar.keysOf [(s.id, s.own)] s.id := by
    intro k hk
    simpa [KeyJar.keysOf, Dict.get?] using hk
  unfold Proc.make
  generalize P.initKwargs s = Q at h1 h2 h3 h4 ⊢
  dsimp only
  have has : ∀ (d : Anchors) a ks, (a, ks) ∈ d → Dict.has d a = true := by
    intro d a ks h
    rw [Dict.has_iff]
    exact List.mem_map.2 ⟨_, h, rfl⟩
  split
  · rename_i ha
    refine ⟨_, ext, by rw [h1], h2, h3, h3, ?_, ?_, rfl, rfl⟩
    · intro a ks hm k hk
      rcases List.mem_cons.1 hm with hm | hm
      · cases hm
        exact keysOf_importAll_mono (hself k hk)
      · rw [ha, List.append_nil] at hm
        exact keysOf_importAll_self hk (h4 a ks hm)
    · intro _ a ks hm
      rw [ha, List.append_nil] at hm
      exact has _ a ks (h4 a ks hm)
  · rename_i ha
    refine ⟨_, ext ++ [s.anchors], by rw [h1], by rw [h2, List.append_assoc], by simp, by simp; omega, ?_, ?_, rfl, rfl⟩
    · intro a ks hm k hk
      rcases List.mem_cons.1 hm with hm | hm
      · cases hm
        exact keysOf_importAll_mono (keysOf_importAll_mono (hself k hk))
      · rcases List.mem_append.1 hm with hm | hm
        · exact keysOf_importAll_mono (keysOf_importAll_self hk (h4 a ks hm))
        · exact keysOf_importAll_self hk hm
    · intro hor a ks hm
      rcases hor with hor | hor
      · rw [hor, List.nil_append] at hm
        simp only [Proc.anchorsOf, List.getElem?_concat_length, Option.getD_some]
        exact has _ a ks hm
      · exact absurd hor ha

theorem lt_of_getElem? {α : Type} {l : List α} {i : Nat} {x : α} (h : l[i]? = some x) : i < l.length := by
  rcases Nat.lt_or_ge i l.length with h1 | h1
  · exact h1
  · rw [List.getElem?_eq_none h1] at h; cases h

structure Kept (P : Proc) (G : List (List (String × List Key))) (S : List Spec) : Prop where
  len : P.ents.length = G.length
  lenS : P.ents.length = S.length
  refs : ∀ (i : Nat) (e : Ent), P.ents[i]? = some e → e.anchors < P.objs.length
  ref : P.default < P.objs.length
  keys : ∀ (i : Nat) (e : Ent) (g : List (String × List Key)), P.ents[i]? = some e → G[i]? = some g → ∀ a ks, (a, ks) ∈ g → ∀ k ∈ ks, k ∈ e.jar.keysOf a
  ne : ∀ (i : Nat) (g : List (String × List Key)), G[i]? = some g → g ≠ []
  listed : ∀ (i : Nat) (e : Ent) (g : List (String × List Key)) (s : Spec), P.ents[i]? = some e → G[i]? = some g → S[i]? = some s → s.initAnchors.getD [] = [] ∨ s.anchors = [] →
    ∀ a ks, (a, ks) ∈ g.tail → (P.anchorsOf e).has a = true

theorem Kept.make {P : Proc} {G : List (List (String × List Key))} {S : List Spec} (h : Kept P G S) (s : Spec) :
    Kept (P.make s) (G ++ [(s.id, s.own) :: (s.initAnchors.getD [] ++ s.anchors)]) (S ++ [s]) := by
  obtain ⟨e, ext, h1, h2, h3, h4, h5, h6, -⟩ := make_frame P s h.ref
  refine ⟨by simp [h1, h.len], by simp [h1, h.lenS], ?_, h4, ?_, ?_, ?_⟩
  · intro i x hx
    rw [h1] at hx
    rcases getElem?_snoc hx with hx | ⟨-, rfl⟩
    · have := h.refs i x hx
      rw [h2, List.length_append]
      omega
    · exact h3
  · intro i x g hx hg
    rw [h1] at hx
    rcases getElem?_snoc hx with hx' | ⟨hi, rfl⟩ <;> rcases getElem?_snoc hg with hg' | ⟨hj, rfl⟩
    · exact h.keys i x g hx' hg'
    · have := lt_of_getElem? hx'
      rw [h.len] at this
      omega
    · have := lt_of_getElem? hg'
      rw [← h.len] at this
      omega
    · exact h5
  · intro i g hg
    rcases getElem?_snoc hg with hg | ⟨-, rfl⟩
    · exact h.ne i g hg
    · simp
  · intro i x g s' hx hg hs
    rw [h1] at hx
    rcases getElem?_snoc hx with hx' | ⟨hi, rfl⟩
    · have hlt := lt_of_getElem? hx'
      rcases getElem?_snoc hg with hg' | ⟨hj, rfl⟩
      · rcases getElem?_snoc hs with hs' | ⟨hj, rfl⟩
        · have hr := h.refs i x hx'
          have : (P.make s).anchorsOf x = P.anchorsOf x := by
            simp only [Proc.anchorsOf, h2]
            rw [List.getElem?_append, if_pos hr]
          rw [this]
          exact h.listed i x g s' hx' hg' hs'
        · rw [h.lenS] at hlt
          omega
      · rw [h.len] at hlt
        omega
    · rcases getElem?_snoc hg with hg' | ⟨hj, rfl⟩
      · have := lt_of_getElem? hg'
        rw [← h.len] at this
        omega
      · rcases getElem?_snoc hs with hs' | ⟨hj, rfl⟩
        · have := lt_of_getElem? hs'
          rw [← h.lenS] at this
          omega
        · exact h6

theorem Kept.add {P : Proc} {G : List (List (String × List Key))} {S : List Spec} (h : Kept P G S) (i : Nat) (a : String) (ks : List Key) :
    Kept (P.add i a ks) (G.modify i (· ++ [(a, ks)])) S := by
  unfold Proc.add
  cases he : P.ents[i]? with
  | none =>
    have : G.modify i (· ++ [(a, ks)]) = G := by
      refine List.modify_eq_self ?_
      rw [List.getElem?_eq_none_iff] at he
      rw [h.len] at he
      exact he
    rw [this]
    exact h
  | some e =>
    have ent : ∀ (j : Nat) x, (P.ents.modify i fun e => { e with jar := importJwks e.jar a ks })[j]? = some x →
        (j ≠ i ∧ P.ents[j]? = some x) ∨ (j = i ∧ x = { e with jar := importJwks e.jar a ks }) := by
      intro j x hx
      rw [List.getElem?_modify] at hx
      by_cases hij : i = j
      · subst hij
        rw [he] at hx
        simp only [if_true, Option.map_eq_map, Option.map_some, Option.some.injEq] at hx
        exact Or.inr ⟨rfl, hx.symm⟩
      · left
        refine ⟨Ne.symm hij, ?_⟩
        simpa [hij] using hx
    have gr : ∀ (j : Nat) g, (G.modify i (· ++ [(a, ks)]))[j]? = some g → (j ≠ i ∧ G[j]? = some g) ∨ (j = i ∧ ∃ g0, G[i]? = some g0 ∧ g = g0 ++ [(a, ks)]) := by
      intro j g hg
      rw [List.getElem?_modify] at hg
      by_cases hij : i = j
      · subst hij
        right
        refine ⟨rfl, ?_⟩
        cases hgi : G[i]? with
        | none => rw [hgi] at hg; cases hg
        | some g0 =>
          rw [hgi] at hg
          simp only [if_true, Option.map_eq_map, Option.map_some, Option.some.injEq] at hg
          exact ⟨g0, rfl, hg.symm⟩
      · left
        refine ⟨Ne.symm hij, ?_⟩
        simpa [hij] using hg
    -- nothing is removed from any dict
    have has : ∀ (x : Ent) (b : String), x.anchors < P.objs.length → (P.anchorsOf x).has b = true ∨ (x.anchors = e.anchors ∧ b = a) →
        (((P.objs.modify e.anchors (fun d => d.set a ks))[x.anchors]?).getD []).has b = true := by
      intro x b hlt hb
      rw [List.getElem?_modify]
      unfold Proc.anchorsOf at hb
      rw [List.getElem?_eq_getElem hlt] at hb ⊢
      simp only [Option.getD_some, Option.map_eq_map, Option.map_some] at hb ⊢
      unfold Dict.has at hb ⊢
      split
      · rw [Dict.get?_set]
        split
        · rfl
        · rename_i hne
          rcases hb with hb | hb
          · exact hb
          · exact absurd hb.2.symm hne
      · rename_i hne
        rcases hb with hb | hb
        · exact hb
        · exact absurd hb.1.symm hne
    refine ⟨by simp [h.len], by simp [h.lenS], ?_, by simpa using h.ref, ?_, ?_, ?_⟩
    · intro j x hx
      simp only [List.length_modify]
      rcases ent j x hx with ⟨-, hx⟩ | ⟨-, rfl⟩
      · exact h.refs j x hx
      · exact h.refs i e he
    · intro j x g hx hg b ks' hm k hk
      rcases ent j x hx with ⟨hji, hx⟩ | ⟨rfl, rfl⟩ <;> rcases gr j g hg with ⟨hji', hg⟩ | ⟨hji', g0, hg0, rfl⟩
      · exact h.keys j x g hx hg b ks' hm k hk
      · exact absurd hji' hji
      · exact absurd rfl hji'
      · rcases List.mem_append.1 hm with hm | hm
        · exact keysOf_importJwks_mono (h.keys j e g0 he hg0 b ks' hm k hk)
        · cases List.mem_singleton.1 hm
          exact keysOf_importJwks_self hk
    · intro j g hg
      rcases gr j g hg with ⟨-, hg⟩ | ⟨-, g0, -, rfl⟩
      · exact h.ne j g hg
      · simp
    · intro j x g s hx hg hs hor b ks' hm
      rcases ent j x hx with ⟨hji, hx⟩ | ⟨rfl, rfl⟩ <;> rcases gr j g hg with ⟨hji', hg⟩ | ⟨hji', g0, hg0, rfl⟩
      · exact has x b (h.refs j x hx) (Or.inl (h.listed j x g s hx hg hs hor b ks' hm))
      · exact absurd hji' hji
      · exact absurd rfl hji'
      · refine has e b (h.refs j e he) ?_
        rw [List.tail_append_of_ne_nil (h.ne j g0 hg0)] at hm
        rcases List.mem_append.1 hm with hm | hm
        · exact Or.inl (h.listed j e g0 s he hg0 hs hor b ks' hm)
        · cases List.mem_singleton.1 hm
          exact Or.inr ⟨rfl, rfl⟩

theorem kept (ops : List Op) : Kept (run ops) (grants ops) (ops.foldl specs []) := by
  refine foldl_snoc_induction specs [] (motive := fun ops S => Kept (run ops) (grants ops) S) ?_ ?_ ops
  · refine ⟨rfl, rfl, ?_, by decide, ?_, ?_, ?_⟩ <;> intros <;> simp_all [run, grants]
  · intro ops op ih
    cases op with
    | make s => simpa [run, grants, List.foldl_append, Proc.step, grant, specs] using ih.make s
    | add i a ks => simpa [run, grants, List.foldl_append, Proc.step, grant, specs] using ih.add i a ks

/-- C135, what always holds: every key of an anchor the entity was made with or given later is there, whatever else is done in the process. -/
theorem C135_keys (ops : List Op) (i : Nat) (e : Ent) (g : List (String × List Key)) (he : (run ops).ents[i]? = some e) (hg : (grants ops)[i]? = some g)
    (a : String) (ks : List Key) (ha : (a, ks) ∈ g) (k : Key) (hk : k ∈ ks) : k ∈ e.jar.keysOf a := (kept ops).keys i e g he hg a ks ha k hk

/-- C135, the list: complete if the entity was not made with anchors both in the settings of its collector and as an argument. -/
theorem C135_listed_partial (ops : List Op) (i : Nat) (e : Ent) (g : List (String × List Key)) (s : Spec) (he : (run ops).ents[i]? = some e) (hg : (grants ops)[i]? = some g)
    (hs : (ops.foldl specs [])[i]? = some s) (hor : s.initAnchors.getD [] = [] ∨ s.anchors = []) (a : String) (ks : List Key) (ha : (a, ks) ∈ g.tail) : ((run ops).anchorsOf e).has a = true :=
  (kept ops).listed i e g s he hg hs hor a ks ha

example : (run Ex.fine).ents[0]?.isSome ∧ (grants Ex.fine)[0]? = some [("https://a", [1]), ("https://ta", [3]), ("https://ta2", [4]), ("https://ta3", [5])] ∧
    ((run Ex.fine).ents.map fun e => ((run Ex.fine).anchorsOf e).keys) = [["https://ta", "https://ta2", "https://ta3"], []] := by decide

/-! ## C136 -/

/-- C136 in full: an entity made with an `allowed_delta` in the settings of its collector uses it, and one made without uses the default. -/
def C136_full : Prop := ∀ (ops : List Op) (i : Nat) (e : Ent) (s : Spec), (run ops).ents[i]? = some e → (ops.foldl specs [])[i]? = some s → e.delta = s.initDelta.getD 600

/-- C136 does not hold: the settings of one entity become the default of those made later. -/
theorem C136_violation : ¬ C136_full := by
  intro h
  have := h [.make ⟨"https://a", [1], none, some 0, []⟩, .make ⟨"https://b", [2], none, none, []⟩] 1 ⟨"https://b", 0, 0, [("https://b", [2])]⟩ ⟨"https://b", [2], none, none, []⟩ (by decide) (by decide)
  exact absurd this (by decide)

theorem deltas (b : Bool) (ops : List Op) (h : ∀ s, .make s ∈ ops → s.initDelta.isSome = b) :
    (b = false → (run ops).delta = 600) ∧ ∀ (i : Nat) (e : Ent) (s : Spec), (run ops).ents[i]? = some e → (ops.foldl specs [])[i]? = some s → e.delta = s.initDelta.getD 600 := by
  revert h
  refine foldl_snoc_induction specs [] (motive := fun ops S => (∀ s, .make s ∈ ops → s.initDelta.isSome = b) →
    (b = false → (run ops).delta = 600) ∧ ∀ (i : Nat) (e : Ent) (s : Spec), (run ops).ents[i]? = some e → S[i]? = some s → e.delta = s.initDelta.getD 600) ?_ ?_ ops
  · intro _
    exact ⟨fun _ => rfl, fun i e s he => by simp [run] at he⟩
  · intro ops op ih h
    obtain ⟨i1, i2⟩ := ih (fun s hm => h s (by simp [hm]))
    have hk := kept ops
    have hrun : run (ops ++ [op]) = (run ops).step op := by simp [run, List.foldl_append]
    rw [hrun]
    cases op with
    | make s =>
      obtain ⟨e, ext, h1, -, -, -, -, -, h7, h8⟩ := make_frame (run ops) s hk.ref
      have hd : (Proc.initKwargs (run ops) s).delta = s.initDelta.getD (run ops).delta := by
        unfold Proc.initKwargs
        cases s.initAnchors <;> cases s.initDelta <;> rfl
      have hb := h s (by simp)
      simp only [Proc.step, specs]
      refine ⟨fun hf => ?_, ?_⟩
      · rw [h8, hd]
        rw [hf] at hb
        cases hi : s.initDelta with
        | none => exact i1 hf
        | some x => rw [hi] at hb; cases hb
      · intro i x s' hx hs
        rw [h1] at hx
        rcases getElem?_snoc hx with hx' | ⟨hi, rfl⟩ <;> rcases getElem?_snoc hs with hs' | ⟨hj, rfl⟩
        · exact i2 i x s' hx' hs'
        · have := lt_of_getElem? hx'
          rw [hk.lenS] at this
          omega
        · have := lt_of_getElem? hs'
          rw [← hk.lenS] at this
          omega
        · rw [h7, hd]
          cases hi : s'.initDelta with
          | none =>
            rw [hi] at hb
            exact i1 hb.symm
          | some x => rfl
    | add j a ks =>
      simp only [Proc.step, specs]
      unfold Proc.add
      cases he : (run ops).ents[j]? with
      | none => exact ⟨i1, i2⟩
      | some e0 =>
        refine ⟨i1, fun i x s hx hs => ?_⟩
        dsimp only at hx
        rw [List.getElem?_modify] at hx
        cases hx0 : (run ops).ents[i]? with
        | none => rw [hx0] at hx; cases hx
        | some y =>
          rw [hx0] at hx
          simp only [Option.map_eq_map, Option.map_some, Option.some.injEq] at hx
          have := i2 i y s hx0 hs
          rw [← hx]
          split <;> exact this

/-- C136, what holds: it does if every entity of the process is made with an `allowed_delta`, or none is. -/
theorem C136_partial (ops : List Op) (h : (∀ s, .make s ∈ ops → s.initDelta.isSome = true) ∨ (∀ s, .make s ∈ ops → s.initDelta.isSome = false))
    (i : Nat) (e : Ent) (s : Spec) (he : (run ops).ents[i]? = some e) (hs : (ops.foldl specs [])[i]? = some s) : e.delta = s.initDelta.getD 600 := by
  rcases h with h | h
  · exact (deltas true ops h).2 i e s he hs
  · exact (deltas false ops h).2 i e s he hs

example : ((run [.make ⟨"https://a", [1], none, some 0, []⟩, .make ⟨"https://b", [2], none, some 60, []⟩]).ents.map (·.delta)) = [0, 60] := by decide

end Fed.Config
