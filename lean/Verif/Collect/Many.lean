import Verif.Collect.Asked
import Verif.Collect.Transparency
/-
C231: the number of trust chains that are collected (`collect_trust_chains` and `tree2chains`, /repo/src/fedservice/entity/function/__init__.py 42-62).
-/
namespace Fed.Collect
open Fed

/-- C231: the number of the trust chains that are collected for an entity is bounded by the square of the number of the entities in reach, as the number of questions is (C230). -/
def C231_full : Prop :=
  ∀ (C : Crypto) (P : Params) (W : World) (fuel : Nat) (st : State) (entity stopAt : String) (es : List String) (f : Forest Jws) (ec : Jws),
    Around W st entity (· ∈ es) → (collect C P W fuel st entity stopAt).1 = .ok (f, ec) → (tree2chains f).length ≤ (es.length + 1) * (es.length + 1)

/-! ### What bounds the number of chains -/

theorem tree2chains_node {α : Type} (i : String) (s : α) (sub r : Forest α) (h : sub ≠ .nil) : tree2chains (.node i s sub r) = (tree2chains sub).map (· ++ [s]) ++ tree2chains r := by
  cases sub with
  | nil => exact absurd rfl h
  | missing _ _ => rfl
  | node _ _ _ _ => rfl

theorem tree2chains_ne_nil {α : Type} : ∀ (f : Forest α), f ≠ .nil → tree2chains f ≠ []
  | .nil, h => absurd rfl h
  | .missing _ _, _ => by simp [tree2chains]
  | .node i s sub r, _ => by
    by_cases hs : sub = .nil
    · subst hs; simp [tree2chains]
    · rw [tree2chains_node i s sub r hs]
      have := tree2chains_ne_nil sub hs
      simp [this]

/-- The chains through an authority. -/
def chainsThrough {α : Type} : Option (α × Forest α) → List (List α)
  | none => [[]]
  | some (s, .nil) => [[s]]
  | some (s, sub) => (tree2chains sub).map (· ++ [s])

theorem tree2chains_items {α : Type} : ∀ f : Forest α, tree2chains f = f.items.flatMap fun x => chainsThrough x.2
  | .nil => rfl
  | .missing _ r => by simp [tree2chains, Forest.items, chainsThrough, tree2chains_items r]
  | .node i s sub r => by
    by_cases hs : sub = .nil
    · subst hs; simp [tree2chains, Forest.items, chainsThrough, tree2chains_items r]
    · rw [tree2chains_node i s sub r hs, tree2chains_items r]
      simp only [Forest.items, List.flatMap_cons]
      congr 1
      cases sub with
      | nil => exact absurd rfl hs
      | missing _ _ => rfl
      | node _ _ _ _ => rfl

theorem flatMap_length_le {α β : Type} (g : α → List β) (B : Nat) : ∀ l : List α, (∀ x ∈ l, (g x).length ≤ B) → (l.flatMap g).length ≤ l.length * B
  | [], _ => by simp
  | x :: l, h => by
    have h1 := flatMap_length_le g B l fun y hy => h y (by simp [hy])
    have h2 := h x (by simp)
    simp only [List.flatMap_cons, List.length_append, List.length_cons, Nat.add_mul]
    omega

theorem dedup_length_le {α : Type} [DecidableEq α] : ∀ l : List α, (dedup l).length ≤ l.length
  | [] => by simp [dedup]
  | x :: l => by
    have h1 := dedup_length_le l
    have h2 := List.length_filter_le (· ≠ x) (dedup l)
    simp only [dedup, List.length_cons]
    omega

theorem faithful_count {src : String → String → Jws → Prop} {cfg : String → Jws → Prop} {gone : String → String → Prop} {stopAt : String} {b : Nat} (hb : 1 ≤ b) (hcfg : ∀ a j, cfg a j → ∀ hs, j.payload.hints = some hs → hs.length ≤ b)
    {e : String} {c : Payload} {f : Forest Jws} (h : Faithful src cfg gone stopAt e c f) : (∀ hs, c.hints = some hs → hs.length ≤ b) → ∀ d, (∀ ch ∈ tree2chains f, ch.length ≤ d) → (tree2chains f).length ≤ b ^ (d + 1) := by
  induction h with
  | noHints => intro _ d _; simp [tree2chains]
  | stopped => intro _ d _; simp [tree2chains]
  | @hints e c hs f conf hh _ hk _ _ hc _ ih =>
    intro hl d hd
    have hlen : f.items.length ≤ b := by
      have h1 : f.items.length = (dedup hs).length := by rw [← hk]; simp [Forest.keys]
      have h2 := dedup_length_le hs
      have h3 := hl hs hh
      omega
    rw [tree2chains_items] at hd ⊢
    have h1 : (f.items.flatMap fun x => chainsThrough x.2).length ≤ f.items.length * b ^ d := by
      refine flatMap_length_le _ _ _ fun x hx => ?_
      obtain ⟨a, o⟩ := x
      have hd' : ∀ ch ∈ chainsThrough o, ch.length ≤ d := fun ch hch => hd ch (List.mem_flatMap.2 ⟨(a, o), hx, hch⟩)
      have hone : 1 ≤ b ^ d := Nat.one_le_pow _ _ hb
      rcases o with _ | ⟨s, sub⟩
      · exact hone
      · by_cases hs' : sub = .nil
        · subst hs'; exact hone
        · have heq : chainsThrough (some (s, sub)) = (tree2chains sub).map (· ++ [s]) := by
            cases sub with
            | nil => exact absurd rfl hs'
            | missing _ _ => rfl
            | node _ _ _ _ => rfl
          simp only [heq] at hd' ⊢
          rw [List.length_map]
          obtain ⟨ch, hch⟩ := List.exists_mem_of_ne_nil _ (tree2chains_ne_nil sub hs')
          have hpos := hd' _ (List.mem_map.2 ⟨ch, hch, rfl⟩)
          simp only [List.length_append, List.length_cons, List.length_nil] at hpos
          obtain ⟨d', rfl⟩ : ∃ d', d = d' + 1 := ⟨d - 1, by omega⟩
          refine ih a s sub hx (hcfg a _ (hc a s sub hx)) d' fun ch' hch' => ?_
          have := hd' _ (List.mem_map.2 ⟨ch', hch', rfl⟩)
          simp only [List.length_append, List.length_cons, List.length_nil] at this
          omega
    calc _ ≤ f.items.length * b ^ d := h1
      _ ≤ b * b ^ d := Nat.mul_le_mul_right _ hlen
      _ = b ^ (d + 1) := by rw [Nat.pow_succ, Nat.mul_comm]

/-- What does bound the number of chains: with no more than `b` authorities named by anybody, and no chain of more than `d` statements, there are no more than `b ^ (d + 1)` (the chains that end at an authority without a statement count as well). Whatever was remembered. Partial: this is not a bound by the number of entities. -/
theorem C231_width_partial (C : Crypto) (P : Params) (W : World) (fuel : Nat) (st : State) (entity stopAt : String) (b d : Nat) (hb : 1 ≤ b)
    (hp : ∀ a j, W.config a = .ok (some j) → ∀ hs, j.payload.hints = some hs → hs.length ≤ b) (hr : ∀ a c, st.config.get? a = some c → ∀ hs, c.jws.payload.hints = some hs → hs.length ≤ b)
    (f : Forest Jws) (ec : Jws) (h : (collect C P W fuel st entity stopAt).1 = .ok (f, ec)) (hd : ∀ ch ∈ tree2chains f, ch.length ≤ d) : (tree2chains f).length ≤ b ^ (d + 1) := by
  have hcf : ∀ a j, ConfigFrom C W st a j → ∀ hs, j.payload.hints = some hs → hs.length ≤ b := by
    rintro a j (h | ⟨h, -⟩)
    · exact hr a ⟨j⟩ h
    · exact hp a j h
  obtain ⟨h1, h2⟩ := collect_faithful.2 f ec h
  exact faithful_count hb (fun a j hj => hcf a j hj.1) h2 (hcf entity ec h1) d hd

/-- With one authority for each there is one chain at most. -/
theorem C231_single_partial (C : Crypto) (P : Params) (W : World) (fuel : Nat) (st : State) (entity stopAt : String)
    (hp : ∀ a j, W.config a = .ok (some j) → ∀ hs, j.payload.hints = some hs → hs.length ≤ 1) (hr : ∀ a c, st.config.get? a = some c → ∀ hs, c.jws.payload.hints = some hs → hs.length ≤ 1)
    (f : Forest Jws) (ec : Jws) (h : (collect C P W fuel st entity stopAt).1 = .ok (f, ec)) : (tree2chains f).length ≤ 1 := by
  have hmax : ∀ l : List (List Jws), ∃ d, ∀ ch ∈ l, ch.length ≤ d := by
    intro l
    induction l with
    | nil => exact ⟨0, by simp⟩
    | cons x l ih =>
      obtain ⟨d, hd⟩ := ih
      refine ⟨d + x.length, fun ch hch => ?_⟩
      rcases List.mem_cons.1 hch with rfl | hch
      · omega
      · have := hd ch hch; omega
  obtain ⟨d, hd⟩ := hmax (tree2chains f)
  simpa using C231_width_partial C P W fuel st entity stopAt 1 d (by omega) hp hr f ec h hd

/-! ### A ladder -/

namespace Ladder
open Ex31

/-- `aaa…` and `bbb…`. -/
def rung (c : Char) (k : Nat) : String := String.ofList (List.replicate k c)

theorem rung_length (c : Char) (k : Nat) : (rung c k).length = k := by simp [rung]

/-- With `n` steps: whoever is below the top names both of the next rung. -/
def hints (n : Nat) (s : String) : Option (List String) := if s.length ≤ n then some [rung 'a' (s.length + 1), rung 'b' (s.length + 1)] else none

def fed (n : Nat) : Federation := ⟨(world (hints n)).config, (world (hints n)).fetch⟩

theorem rung_plain {c : Char} (hc : c ≠ '!') (k : Nat) : Plain (rung c k) := by
  intro h
  simp only [rung, String.toList_ofList, List.mem_replicate] at h
  exact hc h.2.symm

theorem dated (n : Nat) : (fed n).Dated := by
  intro k j h
  simp only [fed, world, Except.ok.injEq, Option.some.injEq] at h
  subst h; exact ⟨10000, rfl⟩

theorem plainHints (n : Nat) : (fed n).PlainHints := by
  intro k j hs h hh
  simp only [fed, world, Except.ok.injEq, Option.some.injEq] at h
  subst h
  simp only [conf, hints] at hh
  split at hh
  · cases hh
    intro a ha
    simp only [List.mem_cons, List.not_mem_nil, or_false] at ha
    rcases ha with rfl | rfl
    · exact rung_plain (by decide) _
    · exact rung_plain (by decide) _
  · cases hh

/-- The tree above an entity, `d` steps below the top. -/
def tower : (d k : Nat) → String → Forest Jws
  | 0, _, _ => .nil
  | d + 1, k, s => .node (rung 'a' (k + 1)) (about (rung 'a' (k + 1)) s) (tower d (k + 1) (rung 'a' (k + 1)))
      (.node (rung 'b' (k + 1)) (about (rung 'b' (k + 1)) s) (tower d (k + 1) (rung 'b' (k + 1))) .nil)

theorem tower_succ_ne (d k : Nat) (s : String) : tower (d + 1) k s ≠ .nil := by simp [tower]

theorem tower_count : ∀ (d k : Nat) (s : String), (tree2chains (tower (d + 1) k s)).length = 2 ^ (d + 1)
  | 0, _, _ => rfl
  | d + 1, k, s => by
    rw [tower, tree2chains_node _ _ _ _ (tower_succ_ne _ _ _), tree2chains_node _ _ _ _ (tower_succ_ne _ _ _)]
    simp only [List.length_append, List.length_map, tower_count d, tree2chains, List.length_nil]
    rw [Nat.pow_succ 2 (d + 1)]
    omega

theorem published (n : Nat) (s : String) : publishedConfig C (fed n) 0 s = some (conf s (hints n s)) := by
  rw [publishedConfig_iff]
  refine ⟨rfl, ?_⟩
  simp [selfVerify, conf, C, Crypto.current, notExpired]

theorem statement (n : Nat) (a e : String) : publishedStatement C (fed n) 0 a e = some (some (about a e)) := by
  unfold publishedStatement
  rw [published]
  rfl

theorem rung_ne {s : String} {k : Nat} (h : s.length = k) (c : Char) : s ≠ rung c (k + 1) := by
  intro e
  have := rung_length c (k + 1)
  rw [← e] at this
  omega

theorem rungs_ne (k : Nat) : rung 'a' (k + 1) ≠ rung 'b' (k + 1) := by
  intro e
  have := congrArg String.toList e
  simp [rung, List.replicate_succ] at this

theorem tree (n : Nat) : ∀ (d k : Nat) (s : String), k + d = n + 1 → s.length = k → 1 ≤ k → idealTree C P (fed n) 0 "" (d + 1) s (conf s (hints n s)).payload = some (tower d k s)
  | 0, k, s, hkd, hs, _ => by
    have : hints n s = none := by unfold hints; rw [if_neg (by omega)]
    unfold idealTree
    simp only [conf, this]
    rfl
  | d + 1, k, s, hkd, hs, hk => by
    have hh : hints n s = some [rung 'a' (k + 1), rung 'b' (k + 1)] := by unfold hints; rw [if_pos (by omega), hs]
    have hne : s ≠ "" := fun e => by rw [e] at hs; simp at hs; omega
    have hb : ∀ c, idealBranch C P (fed n) 0 (idealTree C P (fed n) 0 "" (d + 1)) s (rung c (k + 1)) = some (some (about (rung c (k + 1)) s, tower d (k + 1) (rung c (k + 1)))) := by
      intro c
      unfold idealBranch
      rw [if_neg (fun h => rung_ne hs c h.1), statement, published]
      simp only
      rw [if_pos (by rfl), tree n d (k + 1) (rung c (k + 1)) (by omega) (rung_length _ _) (by omega)]
      rfl
    rw [idealTree]
    simp only [conf, hh]
    rw [if_neg hne]
    simp only [idealHints, hb, Forest.set, if_neg (rungs_ne k)]
    rfl

/-- The entities above the first. -/
def members (n : Nat) : List String := (List.range n).flatMap fun k => [rung 'a' (k + 2), rung 'b' (k + 2)]

theorem members_length (n : Nat) : (members n).length = 2 * n := by
  unfold members
  induction n with
  | zero => rfl
  | succ n ih => rw [List.range_succ, List.flatMap_append, List.length_append, ih]; simp; omega

theorem around (n : Nat) : Around ((fed n).at 0) {} "a" (· ∈ members n) where
  start := by decide
  plain a ha := by
    obtain ⟨k, -, hk⟩ := List.mem_flatMap.1 ha
    simp only [List.mem_cons, List.not_mem_nil, or_false] at hk
    rcases hk with rfl | rfl
    · exact rung_plain (by decide) _
    · exact rung_plain (by decide) _
  published a ha j hj hs hh h hm := by
    have hpos : 1 ≤ a.length := by
      rcases ha with rfl | ha
      · decide
      · obtain ⟨k, -, hk⟩ := List.mem_flatMap.1 ha
        simp only [List.mem_cons, List.not_mem_nil, or_false] at hk
        rcases hk with rfl | rfl <;> rw [rung_length] <;> omega
    simp only [Federation.at, fed, world, Except.ok.injEq, Option.some.injEq] at hj
    subst hj
    simp only [conf, hints] at hh
    split at hh
    · cases hh
      refine List.mem_flatMap.2 ⟨a.length - 1, List.mem_range.2 (by omega), ?_⟩
      rw [show a.length - 1 + 2 = a.length + 1 by omega]
      exact hm
    · cases hh
  remembered _ _ _ h := by cases h

theorem collected (n : Nat) : ∃ ec, (collect C P ((fed n).at 0) (n + 1) {} "a" "").1 = .ok (tower n 1 "a", ec) := by
  have h := (collect_ideal (Coherent.empty C P (fed n) 0) (dated n) (plainHints n) (n + 1) "a" "" (by decide)).2
  unfold idealCollect at h
  rw [published] at h
  simp only at h
  rw [tree n n 1 "a" (by omega) (by decide) (by omega)] at h
  refine ⟨conf "a" (hints n "a"), ?_⟩
  cases hc : (collect C P ((fed n).at 0) (n + 1) {} "a" "").1 with
  | error e => rw [hc] at h; cases h
  | ok v => rw [hc] at h; cases h; rfl

end Ladder

/-- C231 does not hold: for every `n` there is a federation with `2 n` entities above the one in question, without cycles, in which `2 ^ n` trust chains are collected (with no more than `(2 n + 1)²` questions, C230). -/
theorem C231_doubling_violation : (¬ C231_full) ∧ ∀ n, 1 ≤ n → ∃ (W : World) (es : List String) (f : Forest Jws) (ec : Jws), es.length = 2 * n ∧ Around W {} "a" (· ∈ es) ∧
    (collect Ex31.C Ex31.P W (n + 1) {} "a" "").1 = .ok (f, ec) ∧ (tree2chains f).length = 2 ^ n := by
  have hall : ∀ n, 1 ≤ n → ∃ (W : World) (es : List String) (f : Forest Jws) (ec : Jws), es.length = 2 * n ∧ Around W {} "a" (· ∈ es) ∧
      (collect Ex31.C Ex31.P W (n + 1) {} "a" "").1 = .ok (f, ec) ∧ (tree2chains f).length = 2 ^ n := by
    intro n hn
    obtain ⟨ec, h⟩ := Ladder.collected n
    refine ⟨_, Ladder.members n, _, ec, Ladder.members_length n, Ladder.around n, h, ?_⟩
    obtain ⟨d, rfl⟩ : ∃ d, n = d + 1 := ⟨n - 1, by omega⟩
    exact Ladder.tower_count d 1 "a"
  refine ⟨fun h => ?_, hall⟩
  obtain ⟨W, es, f, ec, h1, h2, h3, h4⟩ := hall 10 (by omega)
  have := h Ex31.C Ex31.P W 11 {} "a" "" es f ec h2 h3
  rw [h1, h4] at this
  omega

/-! The cases of it: in the example with `im1` and `im2` there are two chains of two statements. -/
example : (tree2chains ((collect Ex31.C Ex31.P (Ex31.world Ex31.good) 10 {} "leaf" "").1.toOption.get (by decide +kernel)).1).map List.length = [2, 2] := by decide +kernel
example : ∀ a j, (Ex31.world Ex31.good).config a = .ok (some j) → ∀ hs, j.payload.hints = some hs → hs.length ≤ 2 := by
  intro a j h hs hh
  simp only [Ex31.world, Except.ok.injEq, Option.some.injEq] at h
  subst h
  simp only [Ex31.conf, Ex31.good] at hh
  split at hh <;> simp only [Option.some.injEq, reduceCtorEq] at hh <;> subst hh <;> decide

/-- One authority for each: `leaf` below `im` below `ta`. -/
def Ladder.line : String → Option (List String)
  | "leaf" => some ["im"]
  | "im" => some ["ta"]
  | _ => none
example (fuel : Nat) (f : Forest Jws) (ec : Jws) (h : (collect Ex31.C Ex31.P (Ex31.world Ladder.line) fuel {} "leaf" "").1 = .ok (f, ec)) : (tree2chains f).length ≤ 1 :=
  C231_single_partial _ _ _ fuel {} "leaf" "" (by
    intro a j h hs hh
    simp only [Ex31.world, Except.ok.injEq, Option.some.injEq] at h
    subst h
    simp only [Ex31.conf, Ladder.line] at hh
    split at hh <;> simp only [Option.some.injEq, reduceCtorEq] at hh <;> subst hh <;> decide) (by intro a c h; cases h) f ec h
example : (collect Ex31.C Ex31.P (Ex31.world Ladder.line) 10 {} "leaf" "").1.toOption.isSome = true := by decide +kernel

end Fed.Collect
