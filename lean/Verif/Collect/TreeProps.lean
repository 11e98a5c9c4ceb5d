import Verif.Collect.Tree
/-
Properties C28 and C29: the chains read off a collected tree.
-/
namespace Fed.Collect
open Fed

namespace Forest
variable {α : Type}

/-- A Python dictionary has each key once, at every level. -/
def Wf : Forest α → Prop
  | nil => True
  | missing i r => i ∉ r.keys ∧ Wf r
  | node i _ sub r => i ∉ r.keys ∧ Wf sub ∧ Wf r

/-- No branch failed, at any level. -/
def Complete : Forest α → Prop
  | nil => True
  | missing _ _ => False
  | node _ _ sub r => Complete sub ∧ Complete r

end Forest

/-- A path from the bottom of the tree up to an authority with nothing above it: authorities with their statements. -/
inductive IsPath {α : Type} : Forest α → List (String × α) → Prop
  | top {f i s} : (i, some (s, Forest.nil)) ∈ f.items → IsPath f [(i, s)]
  | step {f i s sub p} : (i, some (s, sub)) ∈ f.items → IsPath sub p → IsPath f ((i, s) :: p)

/-- A path up to (not including) an authority whose branch failed. -/
inductive IsCut {α : Type} : Forest α → List (String × α) → Prop
  | here {f i} : (i, none) ∈ f.items → IsCut f []
  | step {f i s sub p} : (i, some (s, sub)) ∈ f.items → IsCut sub p → IsCut f ((i, s) :: p)

/-- The first path takes an earlier authority than the second where they part. -/
inductive Before {α : Type} : Forest α → List (String × α) → List (String × α) → Prop
  | here {f i b j c pre mid post s t p q} : f.items = pre ++ (i, b) :: mid ++ (j, c) :: post → Before f ((i, s) :: p) ((j, t) :: q)
  | deeper {f i s sub p q} : (i, some (s, sub)) ∈ f.items → Before sub p q → Before f ((i, s) :: p) ((i, s) :: q)

/-- The chain of a path: the statements, topmost first. -/
def chainOf {α : Type} (p : List (String × α)) : List α := (p.map (·.2)).reverse

variable {α : Type}

theorem isPath_ne_nil {f : Forest α} {p} (h : IsPath f p) : p ≠ [] := by cases h <;> simp

theorem not_isPath_nil {p} : ¬ IsPath (Forest.nil : Forest α) p := by
  intro h; cases h <;> simp_all [Forest.items]

theorem isPath_missing {i} {r : Forest α} {p} : IsPath (.missing i r) p ↔ IsPath r p := by
  constructor
  · intro h
    cases h with
    | top h => exact .top (by simpa [Forest.items] using h)
    | step h h' => exact .step (by simpa [Forest.items] using h) h'
  · intro h
    cases h with
    | top h => exact .top (by simp [Forest.items, h])
    | step h h' => exact .step (by simp only [Forest.items, List.mem_cons]; exact Or.inr h) h'

theorem isPath_node {i s} {sub r : Forest α} {p} :
    IsPath (.node i s sub r) p ↔ (sub = .nil ∧ p = [(i, s)]) ∨ (∃ q, IsPath sub q ∧ p = (i, s) :: q) ∨ IsPath r p := by
  constructor
  · intro h
    cases h with
    | top h =>
      simp only [Forest.items, List.mem_cons, Prod.mk.injEq, Option.some.injEq] at h
      rcases h with ⟨rfl, rfl, rfl⟩ | h
      · exact Or.inl ⟨rfl, rfl⟩
      · exact Or.inr (Or.inr (.top h))
    | step h h' =>
      simp only [Forest.items, List.mem_cons, Prod.mk.injEq, Option.some.injEq] at h
      rcases h with ⟨rfl, rfl, rfl⟩ | h
      · exact Or.inr (Or.inl ⟨_, h', rfl⟩)
      · exact Or.inr (Or.inr (.step h h'))
  · rintro (⟨rfl, rfl⟩ | ⟨q, h, rfl⟩ | h)
    · exact .top (by simp [Forest.items])
    · exact .step (by simp [Forest.items]) h
    · cases h with
      | top h => exact .top (by simp only [Forest.items, List.mem_cons]; exact Or.inr h)
      | step h h' => exact .step (by simp only [Forest.items, List.mem_cons]; exact Or.inr h) h'

theorem isCut_nil {p} : ¬ IsCut (Forest.nil : Forest α) p := by
  intro h; cases h <;> simp_all [Forest.items]

theorem isCut_missing {i} {r : Forest α} {p} : IsCut (.missing i r) p ↔ p = [] ∨ IsCut r p := by
  constructor
  · intro h
    cases h with
    | here h => exact Or.inl rfl
    | step h h' => exact Or.inr (.step (by simpa [Forest.items] using h) h')
  · rintro (rfl | h)
    · exact .here (i := i) (by simp [Forest.items])
    · cases h with
      | here h => exact .here (by simp only [Forest.items, List.mem_cons]; exact Or.inr h)
      | step h h' => exact .step (by simp only [Forest.items, List.mem_cons]; exact Or.inr h) h'

theorem isCut_node {i s} {sub r : Forest α} {p} :
    IsCut (.node i s sub r) p ↔ (∃ q, IsCut sub q ∧ p = (i, s) :: q) ∨ IsCut r p := by
  constructor
  · intro h
    cases h with
    | here h =>
      simp only [Forest.items, List.mem_cons, Prod.mk.injEq, reduceCtorEq, and_false, false_or] at h
      exact Or.inr (.here h)
    | step h h' =>
      simp only [Forest.items, List.mem_cons, Prod.mk.injEq, Option.some.injEq] at h
      rcases h with ⟨rfl, rfl, rfl⟩ | h
      · exact Or.inl ⟨_, h', rfl⟩
      · exact Or.inr (.step h h')
  · rintro (⟨q, h, rfl⟩ | h)
    · exact .step (by simp [Forest.items]) h
    · cases h with
      | here h => exact .here (by simp only [Forest.items, List.mem_cons]; exact Or.inr h)
      | step h h' => exact .step (by simp only [Forest.items, List.mem_cons]; exact Or.inr h) h'

/-- All paths of a tree in the order of the hints. -/
def paths : Forest α → List (List (String × α))
  | .nil => []
  | .missing _ r => paths r
  | .node i s .nil r => [(i, s)] :: paths r
  | .node i s sub r => (paths sub).map ((i, s) :: ·) ++ paths r

theorem mem_paths (f : Forest α) (p) : p ∈ paths f ↔ IsPath f p := by
  fun_induction paths f generalizing p with
  | case1 => simp [not_isPath_nil]
  | case2 i r ih => rw [isPath_missing, ih]
  | case3 i s r ih => simp [isPath_node, ih, not_isPath_nil]
  | case4 i s sub r hs ih1 ih2 =>
    rw [isPath_node, List.mem_append, List.mem_map, ih2]
    constructor
    · rintro (⟨q, h, rfl⟩ | h)
      · exact Or.inr (Or.inl ⟨q, (ih1 q).1 h, rfl⟩)
      · exact Or.inr (Or.inr h)
    · rintro (⟨h, -⟩ | ⟨q, h, rfl⟩ | h)
      · exact absurd h hs
      · exact Or.inl ⟨q, (ih1 q).2 h, rfl⟩
      · exact Or.inr h

theorem path_head_mem {f : Forest α} {p} (h : IsPath f p) : ∃ i s q b, p = (i, s) :: q ∧ (i, b) ∈ f.items := by
  cases h with
  | top h => exact ⟨_, _, _, _, rfl, h⟩
  | step h _ => exact ⟨_, _, _, _, rfl, h⟩

theorem Before.cons_missing {i} {r : Forest α} {p q} (h : Before r p q) : Before (.missing i r) p q := by
  cases h with
  | here h => exact .here (pre := (i, none) :: _) (by rw [Forest.items, h]; rfl)
  | deeper h h' => exact .deeper (by simp only [Forest.items, List.mem_cons]; exact Or.inr h) h'

theorem Before.cons_node {i s} {sub r : Forest α} {p q} (h : Before r p q) : Before (.node i s sub r) p q := by
  cases h with
  | here h => exact .here (pre := (i, some (s, sub)) :: _) (by rw [Forest.items, h]; rfl)
  | deeper h h' => exact .deeper (by simp only [Forest.items, List.mem_cons]; exact Or.inr h) h'

theorem paths_before (f : Forest α) : (paths f).Pairwise (Before f) := by
  have key : ∀ i s (sub r : Forest α) p q, IsPath r q → Before (.node i s sub r) ((i, s) :: p) q := by
    intro i s sub r p q h
    obtain ⟨j, t, q', b, rfl, hm⟩ := path_head_mem h
    obtain ⟨mid, post, hm⟩ := List.append_of_mem hm
    exact .here (pre := []) (mid := mid) (post := post) (b := some (s, sub)) (c := b) (by simp [Forest.items, hm])
  fun_induction paths f with
  | case1 => exact .nil
  | case2 i r ih => exact ih.imp fun h => h.cons_missing
  | case3 i s r ih =>
    refine List.pairwise_cons.2 ⟨fun q hq => key _ _ _ _ _ _ ((mem_paths _ _).1 hq), ih.imp fun h => h.cons_node⟩
  | case4 i s sub r hs ih1 ih2 =>
    rw [List.pairwise_append]
    refine ⟨?_, ih2.imp fun h => h.cons_node, ?_⟩
    · rw [List.pairwise_map]
      exact ih1.imp fun h => .deeper (by simp [Forest.items]) h
    · intro p hp q hq
      obtain ⟨p', -, rfl⟩ := List.mem_map.1 hp
      exact key _ _ _ _ _ _ ((mem_paths _ _).1 hq)

theorem isPath_ne_of_head {f : Forest α} {i s p q} (hi : i ∉ f.keys) (h : IsPath f q) : (i, s) :: p ≠ q := by
  obtain ⟨j, t, q', b, rfl, hm⟩ := path_head_mem h
  intro e
  simp only [List.cons.injEq, Prod.mk.injEq] at e
  exact hi (e.1.1 ▸ List.mem_map.2 ⟨_, hm, rfl⟩)

theorem paths_nodup (f : Forest α) (hw : f.Wf) : (paths f).Nodup := by
  fun_induction paths f with
  | case1 => exact .nil
  | case2 i r ih => exact ih hw.2
  | case3 i s r ih =>
    refine List.nodup_cons.2 ⟨fun h => isPath_ne_of_head hw.1 ((mem_paths _ _).1 h) rfl, ih hw.2.2⟩
  | case4 i s sub r hs ih1 ih2 =>
    rw [List.nodup_append]
    refine ⟨?_, ih2 hw.2.2, ?_⟩
    · have := ih1 hw.2.1
      simp only [List.Nodup, List.pairwise_map] at this ⊢
      exact this.imp fun h => by simpa using h
    · intro p hp q hq
      obtain ⟨p', -, rfl⟩ := List.mem_map.1 hp
      exact isPath_ne_of_head hw.1 ((mem_paths _ _).1 hq)

theorem tree2chains_paths (f : Forest α) (hc : f.Complete) : tree2chains f = (paths f).map chainOf := by
  fun_induction tree2chains f with
  | case1 => rfl
  | case2 i r ih => exact absurd hc (by simp [Forest.Complete])
  | case3 i s r ih => simp [paths, ih hc.2, chainOf]
  | case4 i s sub r hs ih1 ih2 =>
    rw [paths.eq_4 _ _ _ _ hs, List.map_append, ih1 hc.1, ih2 hc.2, List.map_map, List.map_map]
    congr 1
    apply List.map_congr_left
    intro p _
    simp [chainOf]

/-- C28: the chains of a tree in which no branch failed are those of its paths, one for each path, in the order of the
authority hints, each with the topmost statement first. -/
theorem C28_chains_are_paths (f : Forest α) (hw : f.Wf) (hc : f.Complete) :
    ∃ ps : List (List (String × α)),
      ps.Nodup ∧ (∀ p, p ∈ ps ↔ IsPath f p) ∧ ps.Pairwise (Before f) ∧ tree2chains f = ps.map chainOf :=
  ⟨paths f, paths_nodup f hw, mem_paths f, paths_before f, tree2chains_paths f hc⟩

theorem tree2chains_mem (f : Forest α) (c : List α) :
    c ∈ tree2chains f ↔ ∃ p, (IsPath f p ∨ IsCut f p) ∧ c = chainOf p := by
  fun_induction tree2chains f generalizing c with
  | case1 => simp [not_isPath_nil, isCut_nil]
  | case2 i r ih =>
    rw [List.mem_cons, ih]
    simp only [isPath_missing, isCut_missing]
    constructor
    · rintro (rfl | ⟨p, h, rfl⟩)
      · exact ⟨[], Or.inr (Or.inl rfl), rfl⟩
      · exact ⟨p, h.imp id Or.inr, rfl⟩
    · rintro ⟨p, h | rfl | h, rfl⟩
      · exact Or.inr ⟨p, Or.inl h, rfl⟩
      · exact Or.inl rfl
      · exact Or.inr ⟨p, Or.inr h, rfl⟩
  | case3 i s r ih =>
    rw [List.mem_cons, ih]
    simp only [isPath_node, isCut_node, not_isPath_nil, isCut_nil]
    constructor
    · rintro (rfl | ⟨p, h, rfl⟩)
      · exact ⟨[(i, s)], Or.inl (Or.inl ⟨trivial, rfl⟩), rfl⟩
      · exact ⟨p, h.imp (fun h => Or.inr (Or.inr h)) Or.inr, rfl⟩
    · rintro ⟨p, (⟨-, rfl⟩ | ⟨q, h, -⟩ | h) | ⟨q, h, -⟩ | h, rfl⟩
      · exact Or.inl rfl
      · exact absurd h not_false
      · exact Or.inr ⟨p, Or.inl h, rfl⟩
      · exact absurd h not_false
      · exact Or.inr ⟨p, Or.inr h, rfl⟩
  | case4 i s sub r hs ih1 ih2 =>
    rw [List.mem_append, List.mem_map, ih2]
    simp only [isPath_node, isCut_node]
    constructor
    · rintro (⟨d, h, rfl⟩ | ⟨p, h, rfl⟩)
      · obtain ⟨p, h', rfl⟩ := (ih1 d).1 h
        exact ⟨(i, s) :: p, h'.imp (fun h => Or.inr (Or.inl ⟨p, h, rfl⟩)) (fun h => Or.inl ⟨p, h, rfl⟩), by simp [chainOf]⟩
      · exact ⟨p, h.imp (fun h => Or.inr (Or.inr h)) Or.inr, rfl⟩
    · rintro ⟨p, (⟨h, -⟩ | ⟨q, h, rfl⟩ | h) | ⟨q, h, rfl⟩ | h, rfl⟩
      · exact absurd h hs
      · exact Or.inl ⟨_, (ih1 _).2 ⟨q, Or.inl h, rfl⟩, by simp [chainOf]⟩
      · exact Or.inr ⟨p, Or.inl h, rfl⟩
      · exact Or.inl ⟨_, (ih1 _).2 ⟨q, Or.inr h, rfl⟩, by simp [chainOf]⟩
      · exact Or.inr ⟨p, Or.inr h, rfl⟩

/-- C29 in full: every chain of a tree is that of a complete path; failed branches add none. -/
def C29_full : Prop :=
  ∀ f : Forest String, f.Wf → ∀ c ∈ tree2chains f, ∃ p, IsPath f p ∧ c = chainOf p

/-- C29 does not hold: below an authority whose own superior could not be reached the cut-off chain is kept, and an
unreachable direct superior gives the empty chain. -/
theorem C29_failed_branch_violation : ¬ C29_full := by
  intro h
  have := h (.node "https://im" "im about leaf" (.missing "https://ta" .nil) .nil)
    ⟨by simp [Forest.keys, Forest.items], ⟨by simp [Forest.keys, Forest.items], trivial⟩, trivial⟩ ["im about leaf"] (by decide)
  obtain ⟨p, hp, -⟩ := this
  simp only [isPath_node, isPath_missing, not_isPath_nil] at hp
  simp at hp

theorem C29_empty_chain_violation : ¬ C29_full := by
  intro h
  have := h (.missing "https://ta" .nil) ⟨by simp [Forest.keys, Forest.items], trivial⟩ [] (by decide)
  obtain ⟨p, hp, -⟩ := this
  exact not_isPath_nil (isPath_missing.1 hp)

/-- C29 as far as it holds: failed branches do not suppress the chains of the complete paths, and every other chain ends just
below an authority whose branch failed. Missing: those other chains should not be there. -/
theorem C29_complete_paths_partial (f : Forest α) (c : List α) :
    c ∈ tree2chains f ↔ ∃ p, (IsPath f p ∨ IsCut f p) ∧ c = chainOf p := tree2chains_mem f c

/-- C29 as far as it holds: when no branch failed every chain is that of a complete path. -/
theorem C29_no_failure_partial (f : Forest α) (hc : f.Complete) (c : List α) (h : c ∈ tree2chains f) :
    ∃ p, IsPath f p ∧ c = chainOf p := by
  rw [tree2chains_paths f hc] at h
  obtain ⟨p, hp, rfl⟩ := List.mem_map.1 h
  exact ⟨p, (mem_paths f p).1 hp, rfl⟩

/-! A tree with two anchors above two intermediates. -/
def exTree : Forest String :=
  .node "im1" "im1>leaf" (.node "ta1" "ta1>im1" .nil (.node "ta2" "ta2>im1" .nil .nil))
    (.node "im2" "im2>leaf" (.node "ta1" "ta1>im2" .nil .nil) .nil)
example : tree2chains exTree = [["ta1>im1", "im1>leaf"], ["ta2>im1", "im1>leaf"], ["ta1>im2", "im2>leaf"]] := by decide
example : exTree.Wf ∧ exTree.Complete := by simp [exTree, Forest.Wf, Forest.Complete, Forest.keys, Forest.items]
example : IsCut (.node "im" "im>leaf" (.missing "ta" .nil) .nil) [("im", "im>leaf")] :=
  .step (sub := .missing "ta" .nil) (by decide) (.here (i := "ta") (by decide))

end Fed.Collect
