import Verif.Discover.Trawl
/-
Properties C99 and C100: walking down a federation.
-/
namespace Fed.Discover
open Fed

/-- A federation: who is directly below whom and which entity types an entity has. -/
structure Federation where
  below : String → String → Prop
  has : String → String → Prop

/-- `e` is `top` or somewhere below it. -/
inductive Federation.Under (F : Federation) (top : String) : String → Prop
  | here : F.Under top top
  | next {e e'} : F.Under top e → F.below e e' → F.Under top e'

/-- The answers are those of the federation: configurations tell name and entity types, entities with subordinates have a list endpoint, and it lists the subordinates of a type and the subordinates
that have subordinates themselves. Nothing is said about entities that do not answer. -/
structure Honest (F : Federation) (N : Net) : Prop where
  config : ∀ {a e p}, lookUp N a e = .ok p → p.sub = e ∧ ∀ t, Dict.has p.md t = true ↔ F.has e t
  endpoint : ∀ {a e p fe}, lookUp N a e = .ok p → p.md.get? "federation_entity" = some fe → (∃ e', F.below e e') → Dict.has fe "federation_list_endpoint" = true
  typed : ∀ {e t o}, N.list e (some t) false = .ok o → ∀ e', e' ∈ o.getD [] ↔ F.below e e' ∧ F.has e' t
  intermediate : ∀ {e o}, N.list e none true = .ok o → ∀ e', e' ∈ o.getD [] ↔ F.below e e' ∧ ∃ e'', F.below e' e''

theorem gather_mem {f : String → Except PyErr (List String)} {es out : List String} (h : gather f es = .ok out) :
    (∀ e ∈ es, ∃ ids, f e = .ok ids) ∧ ∀ x, x ∈ out ↔ ∃ e ∈ es, ∃ ids, f e = .ok ids ∧ x ∈ ids := by
  induction es generalizing out with
  | nil => simp only [gather, Except.ok.injEq] at h; subst h; simp
  | cons e es ih =>
    simp only [gather] at h
    cases hf : f e with
    | error err => rw [hf] at h; cases h
    | ok ids =>
      rw [hf] at h
      cases hg : gather f es with
      | error err => simp only [hg, ok_bind, error_bind, reduceCtorEq] at h
      | ok rest =>
        simp only [hg, ok_bind, except_pure, Except.ok.injEq] at h
        subst h
        obtain ⟨i1, i2⟩ := ih hg
        refine ⟨fun x hx => ?_, fun x => ?_⟩
        · rcases List.mem_cons.1 hx with rfl | hx
          · exact ⟨ids, hf⟩
          · exact i1 x hx
        · simp [List.mem_append, i2, hf]

/-- What one step of the walk gives. -/
theorem trawl_succ {N : Net} {type : String} {n : Nat} {a e : String} {out : List String} (h : trawl N type (n + 1) a e = .ok out) :
    ∃ ec fe, lookUp N a e = .ok ec ∧ ec.md.get? "federation_entity" = some fe ∧
      ((Dict.has fe "federation_list_endpoint" = false ∧ out = if Dict.has ec.md type then [ec.sub] else []) ∨
       ∃ added ints down, N.list e (some type) false = .ok added ∧ N.list e none true = .ok ints ∧ gather (trawl N type n e) (ints.getD []) = .ok down ∧
        out = (if Dict.has ec.md type then [ec.sub] else []) ++ added.getD [] ++ down) := by
  rw [trawl] at h
  cases h1 : lookUp N a e with
  | error err => rw [h1] at h; cases h
  | ok ec =>
    rw [h1] at h
    simp only [ok_bind] at h
    cases h2 : ec.metadata with
    | none => rw [h2] at h; cases h
    | some md =>
      rw [h2] at h
      simp only [except_pure, ok_bind] at h
      have hmd : ec.md = md := by simp [Payload.md, h2]
      unfold Dict.get at h
      cases h3 : Dict.get? md "federation_entity" with
      | none => rw [h3] at h; cases h
      | some fe =>
        rw [h3] at h
        simp only [ok_bind] at h
        refine ⟨ec, fe, rfl, by rw [hmd]; exact h3, ?_⟩
        rw [hmd]
        cases h4 : Dict.has fe "federation_list_endpoint" with
        | false =>
          rw [h4] at h
          simp only [Bool.not_false, if_true, Except.ok.injEq] at h
          exact Or.inl ⟨rfl, h.symm⟩
        | true =>
          rw [h4] at h
          simp only [Bool.not_true, Bool.false_eq_true, if_false] at h
          cases h5 : N.list e (some type) false with
          | error err => rw [h5] at h; cases h
          | ok added =>
            rw [h5] at h
            simp only [ok_bind] at h
            cases h6 : N.list e none true with
            | error err => rw [h6] at h; cases h
            | ok ints =>
              rw [h6] at h
              simp only [ok_bind] at h
              cases h7 : gather (trawl N type n e) (ints.getD []) with
              | error err => rw [h7] at h; cases h
              | ok down =>
                rw [h7] at h
                simp only [ok_bind, Except.ok.injEq] at h
                exact Or.inr ⟨added, ints, down, rfl, rfl, h7, h.symm⟩

theorem Federation.Under.head {F : Federation} {a b e : String} (hb : F.below a b) (h : F.Under b e) : F.Under a e := by
  induction h with
  | here => exact .next .here hb
  | next _ h2 ih => exact .next ih h2

theorem Federation.Under.cases_head {F : Federation} {a e : String} (h : F.Under a e) : e = a ∨ ∃ b, F.below a b ∧ F.Under b e := by
  induction h with
  | here => exact Or.inl rfl
  | next h1 h2 ih =>
    rcases ih with rfl | ⟨b, h3, h4⟩
    · exact Or.inr ⟨_, h2, .here⟩
    · exact Or.inr ⟨b, h3, .next h4 h2⟩

/-! ## C99 -/

/-- C99: in a federation whose members answer truthfully, the entities found below a subordinate are exactly those of the wanted type among itself and everything below it. -/
theorem C99_exactly (F : Federation) (N : Net) (hh : Honest F N) (type : String) (fuel : Nat) (superior subordinate : String) (out : List String)
    (h : trawl N type fuel superior subordinate = .ok out) (e : String) : e ∈ out ↔ F.Under subordinate e ∧ F.has e type := by
  induction fuel generalizing superior subordinate out with
  | zero => rw [trawl] at h; cases h
  | succ n ih =>
    obtain ⟨ec, fe, h1, h2, h3⟩ := trawl_succ h
    clear h
    obtain ⟨c1, c2⟩ := hh.config h1
    have own : e ∈ (if Dict.has ec.md type then [ec.sub] else []) ↔ e = subordinate ∧ F.has e type := by
      split
      · next ht => rw [List.mem_singleton, c1]; exact ⟨fun h => ⟨h, by rw [h]; exact (c2 type).1 ht⟩, fun h => h.1⟩
      · next ht =>
        simp only [List.not_mem_nil, false_iff]
        rintro ⟨rfl, h⟩
        exact ht ((c2 type).2 h)
    rcases h3 with ⟨h3, rfl⟩ | ⟨added, ints, down, h4, h5, h6, rfl⟩
    · rw [own]
      constructor
      · rintro ⟨rfl, h⟩; exact ⟨.here, h⟩
      · rintro ⟨hu, h⟩
        rcases hu.cases_head with rfl | ⟨b, hb, -⟩
        · exact ⟨rfl, h⟩
        · rw [hh.endpoint h1 h2 ⟨b, hb⟩] at h3; cases h3
    · obtain ⟨g1, g2⟩ := gather_mem h6
      rw [List.mem_append, List.mem_append, own, hh.typed h4, g2]
      constructor
      · rintro ((⟨rfl, h⟩ | ⟨hb, ht⟩) | ⟨i, hi, ids, h7, h8⟩)
        · exact ⟨.here, h⟩
        · exact ⟨.next .here hb, ht⟩
        · obtain ⟨u, ht⟩ := (ih _ _ _ h7).1 h8
          exact ⟨u.head ((hh.intermediate h5 i).1 hi).1, ht⟩
      · rintro ⟨hu, ht⟩
        rcases hu.cases_head with rfl | ⟨b, hb, hu'⟩
        · exact Or.inl (Or.inl ⟨rfl, ht⟩)
        · rcases hu'.cases_head with rfl | ⟨b', hb', hu''⟩
          · exact Or.inl (Or.inr ⟨hb, ht⟩)
          · have hi : b ∈ ints.getD [] := (hh.intermediate h5 b).2 ⟨hb, b', hb'⟩
            obtain ⟨ids, h7⟩ := g1 b hi
            exact Or.inr ⟨b, hi, ids, h7, (ih _ _ _ h7).2 ⟨hu', ht⟩⟩

namespace Ex
def fe (list : Bool) : String × Policy.Metadata := ("federation_entity", if list then [("federation_list_endpoint", .str "list")] else [])
def conf (e : String) (list : Bool) (types : List String) : Payload :=
  { iss := e, sub := e, jwks := some [1], metadata := some (fe list :: types.map fun t => (t, [])) }
/-- The federation given by the subordinates and the entity types of each entity, and the answers in it. -/
def fedOf (subs types : String → List String) : Federation where
  below a b := b ∈ subs a
  has e t := t = "federation_entity" ∨ t ∈ types e
def netOf (subs types : String → List String) : Net where
  cached _ := none
  statement a e := .ok { iss := a, sub := e, jwks := some [1] }
  configuration e := .ok (conf e true (types e))
  list e t _ := match t with
    | some t => .ok (some ((subs e).filter fun x => decide (t = "federation_entity" ∨ t ∈ types x)))
    | none => .ok (some ((subs e).filter fun x => !(subs x).isEmpty))

theorem get?_types (types : List String) (t : String) : Dict.get? (types.map fun t => (t, ([] : Policy.Metadata))) t = if t ∈ types then some [] else none := by
  induction types with
  | nil => simp
  | cons x xs ih =>
    rw [List.map_cons, Dict.get?_cons, ih]
    by_cases h : x = t
    · simp [h]
    · simp [h, Ne.symm h]

/-- Such answers are truthful. -/
theorem honest (subs types : String → List String) : Honest (fedOf subs types) (netOf subs types) where
  config {a e p} h := by
    cases h
    refine ⟨rfl, fun t => ?_⟩
    show Dict.has (fe true :: (types e).map fun t => (t, [])) t = true ↔ _
    rw [Dict.has, fe, Dict.get?_cons, get?_types]
    by_cases h1 : t = "federation_entity"
    · subst h1; simp [fedOf]
    · rw [if_neg (Ne.symm h1)]
      by_cases h2 : t ∈ types e <;> simp [fedOf, h1, h2]
  endpoint {a e p f} h hf _ := by
    cases h
    have : Dict.get? (fe true :: (types e).map fun t => (t, [])) "federation_entity" = some f := hf
    rw [fe, Dict.get?_cons, if_pos rfl] at this
    cases this
    decide
  typed {e t o} h e' := by
    cases h
    simp [fedOf]
  intermediate {e o} h e' := by
    cases h
    simp [fedOf]
    intro _
    cases subs e' <;> simp

/-- `im` has `im2` and `rp1` below it, and `im2` has `op` and `rp2`. -/
def subs : String → List String
  | "im" => ["im2", "rp1"]
  | "im2" => ["op", "rp2"]
  | _ => []
def types : String → List String
  | "im2" | "rp1" | "rp2" => ["rp"]
  | "op" => ["op"]
  | _ => []
def N : Net := netOf subs types
end Ex

example : trawl Ex.N "rp" 5 "ta" "im" = .ok ["im2", "rp1", "im2", "rp2"] ∧ trawl Ex.N "op" 5 "ta" "im" = .ok ["op"] := by decide

/-! ## C100 -/

/-- C100 in full: the walk comes to an end, whatever the entities answer. -/
def C100_full : Prop := ∀ (N : Net) (type superior subordinate : String), ∃ fuel, trawl N type fuel superior subordinate ≠ .error .outOfFuel

namespace Ex
/-- An intermediate that lists itself among its intermediates. -/
def loop : Net where
  cached _ := none
  statement a e := .ok { iss := a, sub := e, jwks := some [1] }
  configuration e := .ok (conf e true [])
  list _ _ i := .ok (some (if i then ["im"] else []))
end Ex

/-- C100 does not hold: an intermediate that lists itself keeps the walk going for ever. -/
theorem C100_loop_violation : ¬ C100_full := by
  intro h
  obtain ⟨n, hn⟩ := h Ex.loop "rp" "ta" "im"
  have key : ∀ n a, trawl Ex.loop "rp" n a "im" = .error .outOfFuel := by
    intro n
    induction n with
    | zero => intro a; rfl
    | succ n ih =>
      intro a
      have h1 : lookUp Ex.loop a "im" = .ok (Ex.conf "im" true []) := rfl
      rw [trawl, h1]
      simp only [ok_bind]
      have h2 : gather (trawl Ex.loop "rp" n "im") ["im"] = .error .outOfFuel := by
        simp only [gather, ih "im", error_bind]
      show (gather (trawl Ex.loop "rp" n "im") ["im"] >>= fun below => (pure ([] ++ [] ++ below) : Except PyErr (List String))) = _
      rw [h2]
      rfl
  exact hn (key n "ta")

theorem gather_fuel {f : String → Except PyErr (List String)} {es : List String} (h : ∀ e ∈ es, f e ≠ .error .outOfFuel) : gather f es ≠ .error .outOfFuel := by
  induction es with
  | nil => simp [gather]
  | cons e es ih =>
    simp only [gather]
    cases hf : f e with
    | error err =>
      have := h e (by simp)
      rw [hf] at this
      simpa [error_bind] using this
    | ok ids =>
      simp only [ok_bind]
      have := ih (fun x hx => h x (by simp [hx]))
      cases hg : gather f es with
      | error err => rw [hg] at this; simpa [error_bind] using this
      | ok rest => simp [ok_bind, except_pure]

/-- The answers themselves are final. -/
def Answers (N : Net) : Prop :=
  (∀ a e, N.statement a e ≠ .error .outOfFuel) ∧ (∀ e, N.configuration e ≠ .error .outOfFuel) ∧ ∀ e t i, N.list e t i ≠ .error .outOfFuel

/-- C100 as far as it holds: if there is a bound on how deep intermediates can be listed below an entity, the walk below it comes to an end. Missing: intermediates that list one another in a circle. -/
theorem C100_ranked_partial (N : Net) (hN : Answers N) (rank : String → Nat) (hr : ∀ e o i, N.list e none true = .ok o → i ∈ o.getD [] → rank i < rank e)
    (type superior subordinate : String) (fuel : Nat) (hf : rank subordinate < fuel) : trawl N type fuel superior subordinate ≠ .error .outOfFuel := by
  obtain ⟨n1, n2, n3⟩ := hN
  induction fuel generalizing superior subordinate with
  | zero => omega
  | succ n ih =>
    rw [trawl]
    have hl : lookUp N superior subordinate ≠ .error .outOfFuel := by
      unfold lookUp
      split
      · simp
      · simp
      · cases hs : N.statement superior subordinate with
        | error err => have := n1 superior subordinate; rw [hs] at this; simpa [error_bind] using this
        | ok es =>
          simp only [ok_bind]
          split
          · simp
          · simpa [except_pure, ok_bind] using n2 subordinate
    cases h1 : lookUp N superior subordinate with
    | error err => rw [h1] at hl; simpa [error_bind] using hl
    | ok ec =>
      simp only [ok_bind]
      cases h2 : ec.metadata with
      | none => simp [except_throw, error_bind]
      | some md =>
        simp only [except_pure, ok_bind]
        unfold Dict.get
        cases h3 : Dict.get? md "federation_entity" with
        | none => simp [except_throw, error_bind]
        | some fe =>
          simp only [ok_bind]
          split
          · simp
          · cases h5 : N.list subordinate (some type) false with
            | error err => have := n3 subordinate (some type) false; rw [h5] at this; simpa [error_bind] using this
            | ok added =>
              simp only [ok_bind]
              cases h6 : N.list subordinate none true with
              | error err => have := n3 subordinate none true; rw [h6] at this; simpa [error_bind] using this
              | ok ints =>
                simp only [ok_bind]
                have hg := gather_fuel (f := trawl N type n subordinate) (es := ints.getD [])
                  (fun i hi => ih subordinate i (by have := hr _ _ _ h6 hi; omega))
                cases h7 : gather (trawl N type n subordinate) (ints.getD []) with
                | error err => rw [h7] at hg; simpa [error_bind] using hg
                | ok down => simp [ok_bind]

example : ∃ rank : String → Nat, ∀ e o i, Ex.N.list e none true = .ok o → i ∈ o.getD [] → rank i < rank e := by
  refine ⟨fun e => if e = "im" then 2 else if e = "im2" then 1 else 0, fun e o i h hi => ?_⟩
  have hb := (((Ex.honest Ex.subs Ex.types).intermediate h i).1 hi).1
  simp only [Ex.fedOf] at hb
  unfold Ex.subs at hb
  split at hb
  · rcases List.mem_cons.1 hb with rfl | hb
    · decide
    · rw [List.mem_singleton.1 hb]; decide
  · rcases List.mem_cons.1 hb with rfl | hb
    · decide
    · rw [List.mem_singleton.1 hb]; decide
  · cases hb

end Fed.Discover
