import Verif.Policy.Names
/-
Properties C240 and C241: an authority that permits less, or demands more, lets nobody else in. What is resolved is what `TrustChainPolicy._policy` of /repo/src/fedservice/entity/function/policy.py (358-371) makes of the statements (modelled in
`Policy/Combine` and `Policy/Operators`).
-/
namespace Fed.Policy
open Fed

/-- The same value, or a list with fewer members. The members of the longer list can be members of a Python set: they are texts, numbers and the like. -/
def Fewer (v' v : Val) : Prop := v' = v ∨ ∃ xs' xs, v' = .arr xs' ∧ v = .arr xs ∧ (∀ x ∈ xs', x ∈ xs) ∧ ∀ x ∈ xs, x.hashable = true

/-- An operand that is the same, or permits less, or, where that is allowed (`more`), demands more. -/
def Permits (more : Bool) (n : String) (v' v : Val) : Prop := v' = v ∨ ((n = "one_of" ∨ n = "subset_of") ∧ Fewer v' v) ∨ (more = true ∧ n = "superset_of" ∧ Fewer v v')

/-- Two dictionaries with the same keys, whose values are related. -/
def Akin {α : Type} (R : String → α → α → Prop) : Dict α → Dict α → Prop
  | [], [] => True
  | p :: d, q :: e => p.1 = q.1 ∧ R p.1 p.2 q.2 ∧ Akin R d e
  | _, _ => False

/-- Policies of which the first permit less and, for the claims `more`, may demand more. -/
abbrev LessPolicy (more : String → Bool) : MetadataPolicy → MetadataPolicy → Prop := Akin fun c => Akin (Permits (more c))

/-- A statement that says the same as another one, but permits less: in the lists that `one_of` and `subset_of` have, values may be missing; and for the claims `more` the lists of `superset_of` may have more values. -/
structure Narrows (more : String → Bool) (es' es : PStatement) : Prop where
  metadata : es'.metadata = es.metadata
  policy : Akin (fun _ => LessPolicy more) es'.policy es.policy

/-- The same for the statements of a chain. -/
def AllNarrow (more : String → Bool) : List PStatement → List PStatement → Prop
  | [], [] => True
  | a :: as, b :: bs => Narrows more a b ∧ AllNarrow more as bs
  | _, _ => False

/-- Policies that demand something of a claim. -/
def Asks (mp : MetadataPolicy) (c : String) : Prop := ∃ cp, (c, cp) ∈ mp ∧ (cp.get? "superset_of").isSome = true

/-! ### Related dictionaries -/

section
variable {α : Type} {R : String → α → α → Prop}

theorem alike_get? : ∀ {d e : Dict α}, Akin R d e → ∀ k, (d.get? k = none ∧ e.get? k = none) ∨ ∃ a b, d.get? k = some a ∧ e.get? k = some b ∧ R k a b
  | [], [], _, k => Or.inl ⟨rfl, rfl⟩
  | p :: d, q :: e, h, k => by
      rw [Dict.get?_cons, Dict.get?_cons, ← h.1]
      by_cases hk : p.1 = k
      · rw [if_pos hk, if_pos hk]
        exact Or.inr ⟨_, _, rfl, rfl, hk ▸ h.2.1⟩
      · rw [if_neg hk, if_neg hk]
        exact alike_get? h.2.2 k
  | [], _ :: _, h, _ => h.elim
  | _ :: _, [], h, _ => h.elim

theorem alike_keys : ∀ {d e : Dict α}, Akin R d e → d.keys = e.keys
  | [], [], _ => rfl
  | p :: d, q :: e, h => by
      simp only [Dict.keys, List.map_cons]
      rw [h.1]
      congr 1
      exact alike_keys h.2.2
  | [], _ :: _, h => h.elim
  | _ :: _, [], h => h.elim

theorem alike_has {d e : Dict α} (h : Akin R d e) (k : String) : d.has k = e.has k := by
  unfold Dict.has
  rcases alike_get? h k with ⟨h1, h2⟩ | ⟨a, b, h1, h2, _⟩ <;> rw [h1, h2]
  rfl

theorem alike_isEmpty {d e : Dict α} (h : Akin R d e) : d.isEmpty = e.isEmpty := by
  cases d <;> cases e <;> first | rfl | exact h.elim

theorem alike_set : ∀ {d e : Dict α}, Akin R d e → ∀ {k a b}, R k a b → Akin R (d.set k a) (e.set k b)
  | [], [], _, k, a, b, hab => ⟨rfl, hab, trivial⟩
  | p :: d, q :: e, h, k, a, b, hab => by
      simp only [Dict.set, ← h.1]
      by_cases hk : p.1 = k
      · rw [if_pos hk, if_pos hk]
        exact ⟨rfl, hk ▸ hab, h.2.2⟩
      · rw [if_neg hk, if_neg hk]
        exact ⟨rfl, h.2.1, alike_set h.2.2 hab⟩
  | [], _ :: _, h, _, _, _, _ => h.elim
  | _ :: _, [], h, _, _, _, _ => h.elim

theorem alike_append : ∀ {d e d' e' : Dict α}, Akin R d e → Akin R d' e' → Akin R (d ++ d') (e ++ e')
  | [], [], _, _, _, h' => h'
  | p :: d, q :: e, _, _, h, h' => ⟨h.1, h.2.1, alike_append h.2.2 h'⟩
  | [], _ :: _, _, _, h, _ => h.elim
  | _ :: _, [], _, _, h, _ => h.elim

theorem alike_filter (q : String → Bool) : ∀ {d e : Dict α}, Akin R d e → Akin R (d.filter fun p => q p.1) (e.filter fun p => q p.1)
  | [], [], _ => trivial
  | a :: d, b :: e, h => by
      simp only [List.filter_cons, ← h.1]
      split
      · exact ⟨h.1, h.2.1, alike_filter q h.2.2⟩
      · exact alike_filter q h.2.2
  | [], _ :: _, h => h.elim
  | _ :: _, [], h => h.elim

theorem alike_refl (hR : ∀ k a, R k a a) : ∀ d : Dict α, Akin R d d
  | [] => trivial
  | p :: d => ⟨rfl, hR _ _, alike_refl hR d⟩
end

theorem fewer_refl (v : Val) : Fewer v v := Or.inl rfl
theorem permits_refl (q : Bool) (n : String) (v : Val) : Permits q n v v := Or.inl rfl
theorem permits_fewer {q : Bool} {n : String} {v' v : Val} (h : Permits q n v' v) (hn : n ≠ "superset_of") : Fewer v' v := by
  rcases h with rfl | ⟨_, h⟩ | ⟨_, h, _⟩
  · exact Or.inl rfl
  · exact h
  · exact absurd h hn
theorem permits_more {q : Bool} {n : String} {v' v : Val} (h : Permits q n v' v) (h1 : n ≠ "one_of") (h2 : n ≠ "subset_of") : Fewer v v' := by
  rcases h with rfl | ⟨h3 | h3, _⟩ | ⟨_, _, h⟩
  · exact Or.inl rfl
  · exact absurd h3 h1
  · exact absurd h3 h2
  · exact h
theorem permits_eq {q : Bool} {n : String} {v' v : Val} (h : Permits q n v' v) (h1 : n ≠ "one_of") (h2 : n ≠ "subset_of") (h0 : n ≠ "superset_of") : v' = v := by
  rcases h with rfl | ⟨h3 | h3, _⟩ | ⟨_, h3, _⟩
  · rfl
  · exact absurd h3 h1
  · exact absurd h3 h2
  · exact absurd h3 h0

/-! ### Combining -/

theorem set_ok {xs ys : List Val} (h : mkSet xs = .ok ys) : ys = xs ∧ ∀ x ∈ xs, x.hashable = true := by
  unfold mkSet at h
  split at h
  · next hh => cases h; exact ⟨rfl, by simpa using hh⟩
  · cases h

theorem set_of {xs : List Val} (h : ∀ x ∈ xs, x.hashable = true) : mkSet xs = .ok xs := by
  unfold mkSet
  rw [if_pos (by simpa using h)]

theorem set_hashable {v : Val} {xs : List Val} (h : pySet v = .ok xs) : ∀ x ∈ xs, x.hashable = true := by
  unfold pySet at h
  cases h1 : pyIter v with
  | error e => rw [h1] at h; cases h
  | ok ys =>
    rw [h1, ok_bind] at h
    obtain ⟨rfl, h2⟩ := set_ok h
    exact h2

theorem pySet_fewer {v' v : Val} (h : Fewer v' v) {xs' : List Val} (h1 : pySet v' = .ok xs') : ∃ xs, pySet v = .ok xs ∧ ∀ x ∈ xs', x ∈ xs := by
  rcases h with rfl | ⟨ys', ys, rfl, rfl, h2, h3⟩
  · exact ⟨xs', h1, fun _ h => h⟩
  · have h4 : mkSet ys' = .ok xs' := h1
    obtain ⟨rfl, _⟩ := set_ok h4
    exact ⟨ys, set_of h3, h2⟩

theorem pySet_more {v' v : Val} (h : Fewer v v') {xs' : List Val} (h1 : pySet v' = .ok xs') : ∃ xs, pySet v = .ok xs ∧ ∀ x ∈ xs, x ∈ xs' := by
  rcases h with rfl | ⟨ys, ys', rfl, rfl, h2, h3⟩
  · exact ⟨xs', h1, fun _ h => h⟩
  · have h4 : mkSet ys' = .ok xs' := h1
    obtain ⟨rfl, _⟩ := set_ok h4
    exact ⟨ys, set_of (fun x hx => h3 x (h2 x hx)), h2⟩

theorem setOrSingleton_fewer {v' v : Val} (h : Fewer v' v) {xs' : List Val} (h1 : setOrSingleton v' = .ok xs') : ∃ xs, setOrSingleton v = .ok xs ∧ ∀ x ∈ xs', x ∈ xs := by
  rcases h with rfl | ⟨ys', ys, rfl, rfl, h2, h3⟩
  · exact ⟨xs', h1, fun _ h => h⟩
  · have h4 : mkSet ys' = .ok xs' := h1
    obtain ⟨rfl, _⟩ := set_ok h4
    exact ⟨ys, set_of h3, h2⟩

theorem setOrSingleton_hashable {v : Val} {xs : List Val} (h : setOrSingleton v = .ok xs) : ∀ x ∈ xs, x.hashable = true := by
  cases v with
  | arr ys => obtain ⟨rfl, h2⟩ := set_ok (show mkSet ys = .ok xs from h); exact h2
  | _ => obtain ⟨rfl, h2⟩ := set_ok (show mkSet [_] = .ok xs from h); exact h2

theorem combineInter_fewer (E : SetEnum Val) {a' a b' b v' : Val} (ha : Fewer a' a) (hb : Fewer b' b) (h : combineInter E a' b' = .ok v') :
    ∃ v, combineInter E a b = .ok v ∧ Fewer v' v ∧ (v'.truthy = true → v.truthy = true) := by
  unfold combineInter at h ⊢
  cases h1 : pySet a' with
  | error e => rw [h1] at h; cases h
  | ok x' =>
    cases h2 : pySet b' with
    | error e => rw [h1, ok_bind, h2] at h; cases h
    | ok y' =>
      rw [h1, ok_bind, h2, ok_bind] at h
      cases h
      obtain ⟨x, h3, h4⟩ := pySet_fewer ha h1
      obtain ⟨y, h5, h6⟩ := pySet_fewer hb h2
      have hsub : ∀ z ∈ E.enum (inter x' y'), z ∈ E.enum (inter x y) := by
        intro z hz
        rw [E.mem_enum] at hz ⊢
        simp only [inter, List.mem_filter, decide_eq_true_eq] at hz ⊢
        exact ⟨h4 z hz.1, h6 z hz.2⟩
      refine ⟨.arr (E.enum (inter x y)), by rw [h3, ok_bind, h5]; rfl, Or.inr ⟨_, _, rfl, rfl, hsub, fun z hz => ?_⟩, fun ht => ?_⟩
      · rw [E.mem_enum] at hz
        exact set_hashable h3 z (List.mem_filter.1 hz).1
      · cases hl : E.enum (inter x' y') with
        | nil => rw [hl] at ht; cases ht
        | cons z zs =>
          have := hsub z (by rw [hl]; exact List.mem_cons_self ..)
          cases hl2 : E.enum (inter x y) with
          | nil => rw [hl2] at this; cases this
          | cons _ _ => rfl

section
variable (E : SetEnum Val) (K : SetEnum String) {q : Bool} {more : String → Bool}

theorem doPolicy_fewer {a' a b' b : ClaimPolicy} (ha : Akin (Permits q) a' a) (hb : Akin (Permits q) b' b) (hone : q = true → a'.get? "superset_of" = none ∨ b'.get? "superset_of" = none) {n : String} {v' : Val} (h : doPolicy E a' b' n = .ok v') :
    ∃ v, doPolicy E a b n = .ok v ∧ Permits q n v' v := by
  by_cases hn : n = "one_of" ∨ n = "subset_of"
  · have hs : ∀ x y, doPolicy E x y n = doSubOneSuperAdd E x y n := by
      intro x y
      unfold doPolicy
      rw [if_pos (by rcases hn with rfl | rfl <;> simp)]
    have hna : n ≠ "add" := by rcases hn with rfl | rfl <;> decide
    have hns : n ≠ "superset_of" := by rcases hn with rfl | rfl <;> decide
    rw [hs] at h
    rw [hs]
    unfold doSubOneSuperAdd at h ⊢
    rcases alike_get? ha n with ⟨h1, h2⟩ | ⟨x', x, h1, h2, hx⟩
    · rcases alike_get? hb n with ⟨h3, h4⟩ | ⟨y', y, h3, h4, hy⟩
      · rw [h1, h3] at h
        rw [h2, h4]
        cases h
        exact ⟨_, rfl, permits_refl _ _ _⟩
      · rw [h1, h3] at h
        rw [h2, h4]
        cases h
        exact ⟨_, rfl, hy⟩
    · rcases alike_get? hb n with ⟨h3, h4⟩ | ⟨y', y, h3, h4, hy⟩
      · rw [h1, h3] at h
        rw [h2, h4]
        cases h
        exact ⟨_, rfl, hx⟩
      · rw [h1, h3] at h
        rw [h2, h4]
        simp only [op2func, if_neg hna] at h ⊢
        cases h5 : combineInter E x' y' with
        | error e => rw [h5] at h; cases h
        | ok r' =>
          rw [h5, ok_bind] at h
          obtain ⟨r, h6, h7, h8⟩ := combineInter_fewer E (permits_fewer hx hns) (permits_fewer hy hns) h5
          split at h
          · next ht =>
            cases h
            exact ⟨r, by rw [h6, ok_bind, if_pos (h8 ht)]; rfl, Or.inr (Or.inl ⟨hn, h7⟩)⟩
          · cases h
  by_cases hd : q = true ∧ n = "superset_of"
  · obtain ⟨hq, rfl⟩ := hd
    have hs : ∀ x y, doPolicy E x y "superset_of" = doSubOneSuperAdd E x y "superset_of" := fun x y => rfl
    rw [hs] at h
    rw [hs]
    unfold doSubOneSuperAdd at h ⊢
    rcases alike_get? ha "superset_of" with ⟨h1, h2⟩ | ⟨x', x, h1, h2, hx⟩
    · rcases alike_get? hb "superset_of" with ⟨h3, h4⟩ | ⟨y', y, h3, h4, hy⟩
      · rw [h1, h3] at h
        rw [h2, h4]
        cases h
        exact ⟨_, rfl, permits_refl _ _ _⟩
      · rw [h1, h3] at h
        rw [h2, h4]
        cases h
        exact ⟨_, rfl, hy⟩
    · rcases alike_get? hb "superset_of" with ⟨h3, h4⟩ | ⟨y', y, h3, h4, hy⟩
      · rw [h1, h3] at h
        rw [h2, h4]
        cases h
        exact ⟨_, rfl, hx⟩
      · rcases hone hq with e | e
        · rw [h1] at e; cases e
        · rw [h3] at e; cases e
  · have g : ∀ {x' x : ClaimPolicy}, Akin (Permits q) x' x → x'.get? n = x.get? n := by
      intro x' x hx
      rcases alike_get? hx n with ⟨h1, h2⟩ | ⟨p, q, h1, h2, hp⟩
      · rw [h1, h2]
      · rcases hp with rfl | ⟨hp, _⟩ | ⟨hp1, hp2, _⟩
        · rw [h1, h2]
        · exact absurd hp hn
        · exact absurd ⟨hp1, hp2⟩ hd
    refine ⟨v', ?_, permits_refl _ _ _⟩
    rw [← h]
    unfold doPolicy doSubOneSuperAdd doValue doDefault doEssential
    rw [g ha, g hb]

theorem buildRule_fewer {a' a b' b : ClaimPolicy} (ha : Akin (Permits q) a' a) (hb : Akin (Permits q) b' b) (hone : q = true → a'.get? "superset_of" = none ∨ b'.get? "superset_of" = none) : ∀ {ns : List String} {r' : ClaimPolicy}, buildRule E a' b' ns = .ok r' →
    ∃ r, buildRule E a b ns = .ok r ∧ Akin (Permits q) r' r
  | [], r', h => by cases h; exact ⟨[], rfl, trivial⟩
  | n :: ns, r', h => by
      unfold buildRule at h ⊢
      cases h1 : doPolicy E a' b' n with
      | error e => rw [h1] at h; cases h
      | ok v' =>
        cases h2 : buildRule E a' b' ns with
        | error e => rw [h1, ok_bind, h2] at h; cases h
        | ok rest' =>
          rw [h1, ok_bind, h2] at h
          cases h
          obtain ⟨v, h3, h4⟩ := doPolicy_fewer E ha hb hone h1
          obtain ⟨rest, h5, h6⟩ := buildRule_fewer ha hb hone h2
          exact ⟨(n, v) :: rest, by rw [h3, ok_bind, h5]; rfl, rfl, h4, h6⟩

theorem demandSubset_fewer {a' a b' b : Val} (ha : Fewer a a') (hb : Fewer b' b) (h : demandSubset a' b' = .ok ()) : demandSubset a b = .ok () := by
  unfold demandSubset at h ⊢
  cases h1 : pySet a' with
  | error e => rw [h1] at h; cases h
  | ok x' =>
    cases h2 : pySet b' with
    | error e => rw [h1, ok_bind, h2] at h; cases h
    | ok y' =>
      rw [h1, ok_bind, h2, ok_bind] at h
      obtain ⟨y, h3, h4⟩ := pySet_fewer hb h2
      obtain ⟨x, h5, h6⟩ := pySet_more ha h1
      rw [h5, ok_bind, h3, ok_bind]
      split at h
      · next he =>
        rw [if_pos]
        · rfl
        · simp only [diff, List.isEmpty_iff, List.filter_eq_nil_iff, decide_eq_true_eq, Decidable.not_not] at he ⊢
          exact fun z hz => h4 z (he z (h6 z hz))
      · cases h

theorem consistency_fewer {r' r : ClaimPolicy} (hr : Akin (Permits q) r' r) {ns : List String} (h : consistency ns r' = .ok ()) : consistency ns r = .ok () := by
  have same : ∀ n, n ≠ "one_of" → n ≠ "subset_of" → n ≠ "superset_of" → r'.get n = r.get n := by
    intro n h1 h2 h0
    unfold Dict.get
    rcases alike_get? hr n with ⟨h3, h4⟩ | ⟨p, q, h3, h4, hp⟩
    · rw [h3, h4]
    · rw [h3, h4, permits_eq hp h1 h2 h0]
  have less : ∀ n v', n ≠ "superset_of" → r'.get n = .ok v' → ∃ v, r.get n = .ok v ∧ Fewer v' v := by
    intro n v' h0 hv
    unfold Dict.get at hv ⊢
    rcases alike_get? hr n with ⟨h3, h4⟩ | ⟨p, q, h3, h4, hp⟩
    · rw [h3] at hv; cases hv
    · rw [h3] at hv; cases hv; rw [h4]; exact ⟨q, rfl, permits_fewer hp h0⟩
  have most : ∀ n v', n ≠ "one_of" → n ≠ "subset_of" → r'.get n = .ok v' → ∃ v, r.get n = .ok v ∧ Fewer v v' := by
    intro n v' h1 h2 hv
    unfold Dict.get at hv ⊢
    rcases alike_get? hr n with ⟨h3, h4⟩ | ⟨p, q, h3, h4, hp⟩
    · rw [h3] at hv; cases hv
    · rw [h3] at hv; cases hv; rw [h4]; exact ⟨q, rfl, permits_more hp h1 h2⟩
  have two : ∀ n k, n ≠ "one_of" → n ≠ "subset_of" → k ≠ "superset_of" → (do demandSubset (← r'.get n) (← r'.get k) : Except PyErr Unit) = .ok () →
      (do demandSubset (← r.get n) (← r.get k) : Except PyErr Unit) = .ok () := by
    intro n k h1 h2 h0 h
    cases h3 : r'.get n with
    | error e => rw [h3] at h; cases h
    | ok x' =>
      cases h4 : r'.get k with
      | error e => rw [h3, ok_bind, h4] at h; cases h
      | ok y' =>
        rw [h3, ok_bind, h4, ok_bind] at h
        obtain ⟨x, h7, h8⟩ := most n x' h1 h2 h3
        obtain ⟨y, h5, h6⟩ := less k y' h0 h4
        rw [h7, ok_bind, h5, ok_bind]
        exact demandSubset_fewer h8 h6 h
  unfold consistency at h ⊢
  split at h
  · next hc => rw [if_pos hc]; exact two _ _ (by decide) (by decide) (by decide) h
  · next hc =>
    rw [if_neg hc]
    split at h
    · next hc =>
      rw [if_pos hc]
      cases h1 : r'.get "superset_of" with
      | error e => rw [h1] at h; cases h
      | ok x =>
        cases h2 : r'.get "subset_of" with
        | error e => rw [h1, ok_bind, h2] at h; cases h
        | ok y' =>
          rw [h1, ok_bind, h2, ok_bind] at h
          obtain ⟨y, h3, h4⟩ := less _ y' (by decide) h2
          obtain ⟨z, h8, h9⟩ := most _ x (by decide) (by decide) h1
          cases h5 : demandSubset x y' with
          | error e => rw [h5] at h; cases h
          | ok u =>
            rw [h5, ok_bind] at h
            rw [← same "default" (by decide) (by decide) (by decide), h8, ok_bind, h3, ok_bind, demandSubset_fewer h9 h4 h5, ok_bind]
            cases h6 : r'.get "default" with
            | error e => rw [h6] at h; cases h
            | ok d =>
              rw [h6, ok_bind, ok_bind] at h
              rw [ok_bind, ok_bind]
              cases h7 : demandSubset d y' with
              | error e => rw [h7] at h; cases h
              | ok u =>
                rw [h7, ok_bind, ok_bind, ok_bind] at h
                rw [demandSubset_fewer (fewer_refl _) h4 h7, ok_bind, ok_bind, ok_bind]
                exact demandSubset_fewer h9 (fewer_refl _) h
    · next hc =>
      rw [if_neg hc]
      split at h
      · next hc => rw [if_pos hc]; exact two _ _ (by decide) (by decide) (by decide) h
      · next hc =>
        rw [if_neg hc]
        split at h
        · next hc => rw [if_pos hc]; exact two _ _ (by decide) (by decide) (by decide) h
        · next hc =>
          rw [if_neg hc]
          split at h
          · next hc =>
            rw [if_pos hc]
            rw [← same "default" (by decide) (by decide) (by decide)]
            cases h1 : r'.get "default" with
            | error e => rw [h1] at h; cases h
            | ok d =>
              rw [h1, ok_bind] at h
              rw [ok_bind]
              split at h
              · next hd =>
                rw [if_pos hd]
                cases h2 : r'.get "one_of" with
                | error e => rw [h2] at h; cases h
                | ok y' =>
                  rw [h2, ok_bind] at h
                  obtain ⟨y, h3, h4⟩ := less _ y' (by decide) h2
                  rw [h3, ok_bind]
                  exact demandSubset_fewer (fewer_refl _) h4 h
              · next hd =>
                rw [if_neg hd]
                cases h0 : mkSet [d] with
                | error e => rw [h0] at h; cases h
                | ok x =>
                  cases h2 : r'.get "one_of" with
                  | error e => rw [h0, ok_bind, h2] at h; cases h
                  | ok y' =>
                    rw [h0, ok_bind, h2, ok_bind] at h
                    obtain ⟨y, h3, h4⟩ := less _ y' (by decide) h2
                    cases h5 : pySet y' with
                    | error e => rw [h5] at h; cases h
                    | ok z' =>
                      obtain ⟨z, h6, h7⟩ := pySet_fewer h4 h5
                      rw [h5, ok_bind] at h
                      rw [ok_bind, h3, ok_bind, h6, ok_bind]
                      split at h
                      · next he =>
                        rw [if_pos]
                        · rfl
                        · simp only [diff, List.isEmpty_iff, List.filter_eq_nil_iff, decide_eq_true_eq, Decidable.not_not] at he ⊢
                          exact fun w hw => h7 w (he w hw)
                      · cases h
          · next hc =>
            rw [if_neg hc]
            split at h
            · next hc => rw [if_pos hc]; exact two _ _ (by decide) (by decide) (by decide) h
            · next hc =>
              rw [if_neg hc]
              split at h
              · next hc => rw [if_pos hc]; exact two _ _ (by decide) (by decide) (by decide) h
              · next hc => rw [if_neg hc]; rfl

theorem combineClaimPolicy_fewer {a' a b' b r' : ClaimPolicy} (ha : Akin (Permits q) a' a) (hb : Akin (Permits q) b' b) (hone : q = true → a'.get? "superset_of" = none ∨ b'.get? "superset_of" = none) (h : combineClaimPolicy E K a' b' = .ok r') :
    ∃ r, combineClaimPolicy E K a b = .ok r ∧ Akin (Permits q) r' r := by
  have same : ∀ {x' x : ClaimPolicy} n, Akin (Permits q) x' x → n ≠ "one_of" → n ≠ "subset_of" → n ≠ "superset_of" → x'.get? n = x.get? n := by
    intro x' x n hx h1 h2 h0
    rcases alike_get? hx n with ⟨h3, h4⟩ | ⟨p, q, h3, h4, hp⟩
    · rw [h3, h4]
    · rw [h3, h4, permits_eq hp h1 h2 h0]
  unfold combineClaimPolicy at h ⊢
  rw [same "value" ha (by decide) (by decide) (by decide)] at h
  cases hv : a.get? "value" with
  | some x =>
    rw [hv] at h
    simp only at h ⊢
    have hrec : recognised b' = recognised b := by
      unfold recognised
      congr 1
      funext n
      exact alike_has hb n
    unfold combineFixed at h ⊢
    simp only [hrec, same "essential" hb (by decide) (by decide) (by decide), same "value" hb (by decide) (by decide) (by decide)] at h
    simp only
    split at h
    · next hc => rw [if_pos hc]; cases h; exact ⟨a, rfl, ha⟩
    · next hc =>
      rw [if_neg hc]
      split at h
      · split at h
        · next hl => rw [if_pos hl]; cases h; exact ⟨_, rfl, alike_refl (permits_refl _) _⟩
        · cases h
      · split at h
        · split at h
          · cases h
          · next hy => rw [if_neg hy]; cases h; exact ⟨a, rfl, ha⟩
        · cases h
  | none =>
    rw [hv] at h
    simp only at h ⊢
    have hcomb : combPolicy a' b' = combPolicy a b := by
      unfold combPolicy
      congr 1
      funext n
      rw [alike_has ha n, alike_has hb n]
    have hclash : essentialClash a' b' = essentialClash a b := by
      unfold essentialClash
      rw [same "essential" ha (by decide) (by decide) (by decide), same "essential" hb (by decide) (by decide) (by decide)]
    unfold combineFree at h ⊢
    simp only [hcomb, hclash] at h
    simp only
    split at h
    · cases h
    · next h1 =>
      rw [if_neg h1]
      split at h
      · cases h
      · next h2 =>
        rw [if_neg h2]
        cases h3 : buildRule E a' b' (K.enum (combPolicy a b)) with
        | error e => rw [h3] at h; cases h
        | ok rl' =>
          rw [h3, ok_bind] at h
          obtain ⟨rl, h4, h5⟩ := buildRule_fewer E ha hb hone h3
          cases h6 : consistency (combPolicy a b) rl' with
          | error e => rw [h6] at h; cases h
          | ok u =>
            rw [h6] at h
            cases h
            exact ⟨rl, by rw [h4, ok_bind, consistency_fewer h5 h6]; rfl, h5⟩

/-- Where more may be demanded, only one side demands. -/
def OneAsks (more : String → Bool) (a b : MetadataPolicy) : Prop := ∀ c, more c = true → ¬ (Asks a c ∧ Asks b c)

theorem combineClaims_fewer {a' a b' b : MetadataPolicy} (ha : LessPolicy more a' a) (hb : LessPolicy more b' b) (hone : OneAsks more a' b') : ∀ {cs : List String} {r' : MetadataPolicy}, combineClaims E K a' b' cs = .ok r' →
    ∃ r, combineClaims E K a b cs = .ok r ∧ LessPolicy more r' r
  | [], r', h => by cases h; exact ⟨[], rfl, trivial⟩
  | c :: cs, r', h => by
      unfold combineClaims Dict.get at h ⊢
      rcases alike_get? ha c with ⟨h1, h2⟩ | ⟨x', x, h1, h2, hx⟩
      · rw [h1] at h; cases h
      · rcases alike_get? hb c with ⟨h3, h4⟩ | ⟨y', y, h3, h4, hy⟩
        · rw [h1, h3] at h; cases h
        · rw [h1, h3] at h
          rw [h2, h4]
          simp only [ok_bind] at h ⊢
          cases h5 : combineClaimPolicy E K x' y' with
          | error e => rw [h5] at h; cases h
          | ok p' =>
            rw [h5, ok_bind] at h
            obtain ⟨p, h6, h7⟩ := combineClaimPolicy_fewer E K hx hy (fun hm => by
              cases h6 : x'.get? "superset_of" with
              | none => exact Or.inl rfl
              | some u =>
                cases h7 : y'.get? "superset_of" with
                | none => exact Or.inr rfl
                | some w => exact absurd ⟨⟨x', Dict.get?_mem h1, by rw [h6]; rfl⟩, ⟨y', Dict.get?_mem h3, by rw [h7]; rfl⟩⟩ (hone c hm)) h5
            cases h8 : combineClaims E K a' b' cs with
            | error e => rw [h8] at h; cases h
            | ok rest' =>
              rw [h8] at h
              cases h
              obtain ⟨rest, h9, h10⟩ := combineClaims_fewer ha hb hone h8
              exact ⟨(c, p) :: rest, by rw [h6, ok_bind, h9]; rfl, rfl, h7, h10⟩

/-- Rules of which the first permits less. -/
def LessRule (more : String → Bool) (r' r : Rule) : Prop := r'.metadata = r.metadata ∧ LessPolicy more r'.policy r.policy

theorem demands_combined {a b : MetadataPolicy} {c : String} : ∀ {cs : List String} {r : MetadataPolicy}, combineClaims E K a b cs = .ok r → Asks r c → Asks a c ∨ Asks b c
  | [], r, h, hd => by
      cases h
      obtain ⟨cp, h1, _⟩ := hd
      cases h1
  | k :: cs, r, h, hd => by
      unfold combineClaims Dict.get at h
      cases h1 : a.get? k with
      | none => rw [h1] at h; cases h
      | some x =>
        cases h2 : b.get? k with
        | none => rw [h1, h2] at h; cases h
        | some y =>
          rw [h1, h2] at h
          simp only [ok_bind] at h
          cases h3 : combineClaimPolicy E K x y with
          | error e => rw [h3] at h; cases h
          | ok p =>
            cases h4 : combineClaims E K a b cs with
            | error e => rw [h3, ok_bind, h4] at h; cases h
            | ok rest =>
              rw [h3, ok_bind, h4] at h
              cases h
              obtain ⟨cp, h5, h6⟩ := hd
              rcases List.mem_cons.1 h5 with h5 | h5
              · cases h5
                have : (x.get? "superset_of").isSome = true ∨ (y.get? "superset_of").isSome = true := by
                  unfold combineClaimPolicy at h3
                  split at h3
                  · next v hv =>
                    rcases (combineFixed_ok hv h3).2 with ⟨rfl, _⟩ | ⟨e, rfl, _, _⟩
                    · exact Or.inl h6
                    · simp [Dict.get?] at h6
                  · by_cases hn : "superset_of" ∈ combPolicy x y
                    · exact (mem_combPolicy.1 hn).2
                    · rw [(combineFree_ok h3).2.2.2.2 _ hn] at h6
                      cases h6
                exact this.imp (fun h => ⟨x, Dict.get?_mem h1, h⟩) (fun h => ⟨y, Dict.get?_mem h2, h⟩)
              · exact demands_combined h4 ⟨cp, h5, h6⟩

theorem demands_combine {a b r : Rule} {c : String} (h : combine E K a b = .ok r) (hd : Asks r.policy c) : Asks a.policy c ∨ Asks b.policy c := by
  unfold combine at h
  cases h1 : combineMetadata a.metadata b.metadata with
  | error e => rw [h1] at h; cases h
  | ok md =>
    rw [h1, ok_bind] at h
    simp only at h
    split at h
    · cases h; exact Or.inl hd
    · cases h2 : combineClaims E K a.policy b.policy (K.enum (a.policy.keys.filter fun c => decide (c ∈ b.policy.keys))) with
      | error e => rw [h2] at h; cases h
      | ok both =>
        rw [h2] at h
        cases h
        obtain ⟨cp, h3, h4⟩ := hd
        simp only [List.mem_append] at h3
        rcases h3 with (h3 | h3) | h3
        · exact demands_combined E K h2 ⟨cp, h3, h4⟩
        · exact Or.inl ⟨cp, (List.mem_filter.1 h3).1, h4⟩
        · exact Or.inr ⟨cp, (List.mem_filter.1 h3).1, h4⟩

theorem combine_fewer {a' a b' b r' : Rule} (ha : LessRule more a' a) (hb : LessRule more b' b) (hone : OneAsks more a'.policy b'.policy) (h : combine E K a' b' = .ok r') :
    ∃ r, combine E K a b = .ok r ∧ LessRule more r' r := by
  obtain ⟨ha1, ha2⟩ := ha
  obtain ⟨hb1, hb2⟩ := hb
  unfold combine at h ⊢
  rw [ha1, hb1] at h
  cases h1 : combineMetadata a.metadata b.metadata with
  | error e => rw [h1] at h; cases h
  | ok md =>
    rw [h1, ok_bind] at h
    simp only [alike_isEmpty hb2, alike_keys ha2, alike_keys hb2] at h
    simp only [ok_bind]
    split at h
    · next he => rw [if_pos he]; cases h; exact ⟨_, rfl, rfl, ha2⟩
    · next he =>
      rw [if_neg he]
      cases h2 : combineClaims E K a'.policy b'.policy (K.enum (a.policy.keys.filter fun c => decide (c ∈ b.policy.keys))) with
      | error e => rw [h2] at h; cases h
      | ok both' =>
        rw [h2] at h
        cases h
        obtain ⟨both, h3, h4⟩ := combineClaims_fewer E K ha2 hb2 hone h2
        refine ⟨⟨_, both ++ (a.policy.filter fun p => decide (p.1 ∉ b.policy.keys)) ++ b.policy.filter fun p => decide (p.1 ∉ a.policy.keys)⟩, by rw [h3]; rfl, rfl, alike_append (alike_append h4 (alike_filter (fun k => decide (k ∉ b.policy.keys)) ha2)) (alike_filter (fun k => decide (k ∉ a.policy.keys)) hb2)⟩

theorem narrows_rule {es' es : PStatement} (h : Narrows more es' es) (t : String) : LessRule more (es'.rule t) (es.rule t) := by
  unfold PStatement.rule
  refine ⟨by rw [h.metadata], ?_⟩
  simp only
  rcases alike_get? h.policy t with ⟨h1, h2⟩ | ⟨p, q, h1, h2, hp⟩
  · rw [h1, h2]; trivial
  · rw [h1, h2]; exact hp

theorem gatherRest_fewer (t : String) : ∀ {chain' chain : List PStatement} {r' r R' : Rule}, AllNarrow more chain' chain → LessRule more r' r → (r'.policy :: chain'.map fun es => (es.rule t).policy).Pairwise (OneAsks more) →
    gatherRest E K t chain' r' = .ok R' → ∃ R, gatherRest E K t chain r = .ok R ∧ LessRule more R' R
  | [], [], r', r, R', _, hr, _, h => by cases h; exact ⟨r, rfl, hr⟩
  | es' :: chain', es :: chain, r', r, R', hc, hr, ho, h => by
      have hes := narrows_rule hc.1 t
      rw [List.map_cons, List.pairwise_cons, List.pairwise_cons] at ho
      obtain ⟨o1, o2, o3⟩ := ho
      unfold gatherRest at h ⊢
      simp only at h ⊢
      have hempty : (es'.rule t = ⟨[], []⟩) ↔ (es.rule t = ⟨[], []⟩) := by
        obtain ⟨h1, h2⟩ := hes
        have h3 := alike_isEmpty h2
        rw [Bool.eq_iff_iff, List.isEmpty_iff, List.isEmpty_iff] at h3
        generalize es'.rule t = x at h1 h3
        generalize es.rule t = y at h1 h3
        obtain ⟨xm, xp⟩ := x
        obtain ⟨ym, yp⟩ := y
        simp only at h1 h3
        simp [h1, h3]
      simp only [hempty, hes.1, alike_keys hes.2] at h
      split at h
      · next he => rw [if_pos he]; exact gatherRest_fewer t hc.2 hr (List.pairwise_cons.2 ⟨fun x hx => o1 x (List.mem_cons_of_mem _ hx), o3⟩) h
      · next he =>
        rw [if_neg he]
        split at h
        · cases h
        · next hk =>
          rw [if_neg hk]
          cases h1 : combine E K r' (es'.rule t) with
          | error e => rw [h1] at h; cases h
          | ok q' =>
            rw [h1, ok_bind] at h
            obtain ⟨q, h2, h3⟩ := combine_fewer E K hr hes (o1 _ (List.mem_cons_self ..)) h1
            rw [h2, ok_bind]
            exact gatherRest_fewer t hc.2 h3 (List.pairwise_cons.2 ⟨fun x hx c hm hd =>
              (demands_combine E K h1 hd.1).elim (fun e => o1 x (List.mem_cons_of_mem _ hx) c hm ⟨e, hd.2⟩) (fun e => o2 x hx c hm ⟨e, hd.2⟩), o3⟩) h
  | [], _ :: _, _, _, _, hc, _, _, _ => hc.elim
  | _ :: _, [], _, _, _, hc, _, _, _ => hc.elim

/-! ### Applying -/

/-- Metadata with the same claims, of which the first has fewer values. -/
abbrev LessMetadata : Metadata → Metadata → Prop := Akin fun _ => Fewer

theorem callOp_fewer {c : String} {md' md : Metadata} {cp' cp : ClaimPolicy} {op : Op} {o' o : Val} {r' : Metadata × Option String} (hcp : Akin (Permits q) cp' cp) (hmd : LessMetadata md' md)
    (ho : Permits q op.name o' o) (h : callOp E op c md' cp' o' = .ok r') : ∃ r, callOp E op c md cp o = .ok r ∧ LessMetadata r'.1 r.1 ∧ r'.2 = r.2 := by
  cases op with
  | value =>
    have := permits_eq ho (by decide) (by decide) (by decide)
    subst this
    cases h
    exact ⟨_, rfl, alike_set hmd (fewer_refl _), rfl⟩
  | add =>
    have := permits_eq ho (by decide) (by decide) (by decide)
    subst this
    simp only [callOp, callAdd] at h ⊢
    rcases alike_get? hmd c with ⟨h1, h2⟩ | ⟨v', v, h1, h2, hv⟩
    · rw [h1] at h
      rw [h2]
      cases h
      exact ⟨_, rfl, alike_set hmd (fewer_refl _), rfl⟩
    · rw [h1] at h
      rw [h2]
      simp only [Policy.union] at h ⊢
      cases h3 : setOrSingleton v' with
      | error e => simp [h3] at h
      | ok x' =>
        cases h4 : setOrSingleton o' with
        | error e => simp [h3, h4] at h
        | ok y =>
          obtain ⟨x, h5, h6⟩ := setOrSingleton_fewer hv h3
          simp only [h3, h4, ok_bind, except_pure, Except.ok.injEq] at h
          subst h
          simp only [h5, ok_bind, except_pure]
          refine ⟨_, rfl, alike_set hmd (Or.inr ⟨_, _, rfl, rfl, fun z hz => ?_, fun z hz => ?_⟩), rfl⟩
          · rw [E.mem_enum, List.mem_append] at hz ⊢
            exact hz.imp (h6 z) id
          · rw [E.mem_enum, List.mem_append] at hz
            exact hz.elim (setOrSingleton_hashable h5 z) (setOrSingleton_hashable h4 z)
  | default =>
    have := permits_eq ho (by decide) (by decide) (by decide)
    subst this
    simp only [callOp, callDefault] at h ⊢
    rcases alike_get? hmd c with ⟨h1, h2⟩ | ⟨v', v, h1, h2, hv⟩
    · rw [h1] at h
      rw [h2]
      cases h
      exact ⟨_, rfl, alike_set hmd (fewer_refl _), rfl⟩
    · rw [h1] at h
      rw [h2]
      cases h
      exact ⟨_, rfl, hmd, rfl⟩
  | oneOf =>
    simp only [callOp, callOneOf] at h ⊢
    rcases alike_get? hmd c with ⟨h1, h2⟩ | ⟨v', v, h1, h2, hv⟩
    · rw [h1] at h
      rw [h2]
      cases h
      exact ⟨_, rfl, hmd, rfl⟩
    · rw [h1] at h
      rw [h2]
      rcases hv with rfl | ⟨xs', xs, rfl, rfl, _, _⟩
      · simp only at h ⊢
        split at h
        · next hl => rw [if_pos hl]; cases h; exact ⟨_, rfl, hmd, rfl⟩
        · next hl =>
          rw [if_neg hl]
          cases h3 : pyIn v' o' with
          | error e => rw [h3] at h; cases h
          | ok b =>
            rw [h3, ok_bind] at h
            cases b with
            | false => cases h
            | true =>
              cases h
              have : pyIn v' o = .ok true := by
                rcases permits_fewer ho (by decide) with rfl | ⟨ys', ys, rfl, rfl, h4, _⟩
                · exact h3
                · simp only [pyIn, Except.ok.injEq, decide_eq_true_eq] at h3 ⊢
                  exact h4 _ h3
              rw [this]
              exact ⟨_, rfl, hmd, rfl⟩
      · cases h
        exact ⟨_, rfl, hmd, rfl⟩
  | subsetOf =>
    simp only [callOp, callSubsetOf] at h ⊢
    rcases alike_get? hmd c with ⟨h1, h2⟩ | ⟨v', v, h1, h2, hv⟩
    · rw [h1] at h
      rw [h2]
      cases h
      exact ⟨_, rfl, hmd, rfl⟩
    · rw [h1] at h
      rw [h2]
      have lists : ∀ xs' xs : List Val, Fewer (.arr xs') (.arr xs) →
          (do let a ← pySet o'; let b ← mkSet xs'; let r := E.enum (inter a b); if r.isEmpty then throw PyErr.policyError else pure (md'.set c (.arr r), none) : Except PyErr (Metadata × Option String)) = .ok r' →
          ∃ r, (do let a ← pySet o; let b ← mkSet xs; let r := E.enum (inter a b); if r.isEmpty then throw PyErr.policyError else pure (md.set c (.arr r), none) : Except PyErr (Metadata × Option String)) = .ok r ∧
            LessMetadata r'.1 r.1 ∧ r'.2 = r.2 := by
        intro xs' xs hx h
        cases h3 : pySet o' with
        | error e => simp [h3] at h
        | ok a' =>
          cases h4 : mkSet xs' with
          | error e => simp [h3, h4] at h
          | ok b' =>
            obtain ⟨a, h5, h6⟩ := pySet_fewer (permits_fewer ho (by decide)) h3
            obtain ⟨b, h7, h8⟩ := pySet_fewer hx (show pySet (.arr xs') = .ok b' from h4)
            have h7' : mkSet xs = .ok b := h7
            simp only [h3, h4, ok_bind] at h
            split at h
            · cases h
            · next hne =>
              cases h
              have hsub : ∀ z ∈ E.enum (inter a' b'), z ∈ E.enum (inter a b) := by
                intro z hz
                rw [E.mem_enum] at hz ⊢
                simp only [inter, List.mem_filter, decide_eq_true_eq] at hz ⊢
                exact ⟨h6 z hz.1, h8 z hz.2⟩
              have hne' : ¬ (E.enum (inter a b)).isEmpty = true := by
                intro he
                rw [List.isEmpty_iff] at he
                rw [he] at hsub
                apply hne
                rw [List.isEmpty_iff]
                cases hl : E.enum (inter a' b') with
                | nil => rfl
                | cons z zs =>
                  have := hsub z (by rw [hl]; exact List.mem_cons_self ..)
                  cases this
              simp only [h5, h7', ok_bind]
              rw [if_neg hne']
              refine ⟨_, rfl, alike_set hmd (Or.inr ⟨_, _, rfl, rfl, hsub, fun z hz => ?_⟩), rfl⟩
              rw [E.mem_enum] at hz
              exact set_hashable h5 z (List.mem_filter.1 hz).1
      rcases hv with rfl | ⟨xs', xs, rfl, rfl, h3, h4⟩
      · cases v' with
        | arr xs => exact lists xs xs (fewer_refl _) h
        | _ =>
          simp only [alike_keys hcp] at h
          simp only
          split at h
          · next hh =>
            rw [if_pos hh]
            split at h
            · next hk =>
              rw [if_pos hk]
              split at h
              · next ht =>
                rw [if_pos ht]
                first
                  | (simp [pyIter] at h; done)
                  | (cases h; exact ⟨_, rfl, alike_set hmd (fewer_refl _), rfl⟩)
              · cases h
            · cases h
          · cases h
      · exact lists xs' xs (Or.inr ⟨_, _, rfl, rfl, h3, h4⟩) h
  | supersetOf =>
    simp only [callOp, callSupersetOf] at h ⊢
    rcases alike_get? hmd c with ⟨h1, h2⟩ | ⟨v', v, h1, h2, hv⟩
    · rw [h1] at h
      rw [h2]
      cases h
      exact ⟨_, rfl, hmd, rfl⟩
    · rw [h1] at h
      rw [h2]
      simp only at h ⊢
      cases h3 : pySet o' with
      | error e => simp [h3] at h
      | ok a' =>
        cases h4 : pySet v' with
        | error e => simp [h3, h4] at h
        | ok b' =>
          obtain ⟨b, h5, h6⟩ := pySet_fewer hv h4
          obtain ⟨a, h7, h8⟩ := pySet_more (permits_more ho (by decide) (by decide)) h3
          simp only [h3, h4, ok_bind] at h
          simp only [h7, h5, ok_bind]
          split at h
          · next he =>
            cases h
            rw [if_pos]
            · exact ⟨_, rfl, hmd, rfl⟩
            · simp only [diff, List.isEmpty_iff, List.filter_eq_nil_iff, decide_eq_true_eq, Decidable.not_not] at he ⊢
              exact fun w hw => h6 w (he w (h8 w hw))
          · cases h
  | essential =>
    have := permits_eq ho (by decide) (by decide) (by decide)
    subst this
    simp only [callOp, callEssential] at h ⊢
    rcases alike_get? hmd c with ⟨h1, h2⟩ | ⟨v', v, h1, h2, hv⟩
    · rw [h1] at h
      rw [h2]
      simp only at h ⊢
      split at h
      · cases h
      · next he => rw [if_neg he]; cases h; exact ⟨_, rfl, hmd, rfl⟩
    · rw [h1] at h
      rw [h2]
      cases h
      exact ⟨_, rfl, hmd, rfl⟩

theorem opLoop_fewer (ops : List Op) {c : String} {cp' cp : ClaimPolicy} (hcp : Akin (Permits q) cp' cp) : ∀ {fuel i : Nat} {md' md m' : Metadata}, LessMetadata md' md →
    opLoop E ops c cp' fuel i md' = some (.ok m') → ∃ m, opLoop E ops c cp fuel i md = some (.ok m) ∧ LessMetadata m' m
  | 0, _, _, _, _, _, h => by cases h
  | fuel + 1, i, md', md, m', hmd, h => by
      unfold opLoop at h ⊢
      cases ho : ops[i]? with
      | none => rw [ho] at h; cases h
      | some op =>
        rw [ho] at h
        simp only at h ⊢
        rcases alike_get? hcp op.name with ⟨h1, h2⟩ | ⟨o', o, h1, h2, hoo⟩
        · rw [h1] at h
          rw [h2]
          simp only at h ⊢
          split at h
          · next hi => rw [if_pos hi]; cases h; exact ⟨md, rfl, hmd⟩
          · next hi => rw [if_neg hi]; exact opLoop_fewer ops hcp hmd h
        · rw [h1] at h
          rw [h2]
          simp only at h ⊢
          cases h3 : callOp E op c md' cp' o' with
          | error e => rw [h3] at h; cases h
          | ok r' =>
            obtain ⟨r, h4, h5, h6⟩ := callOp_fewer E hcp hmd hoo h3
            rw [h3] at h
            rw [h4]
            obtain ⟨m1', n'⟩ := r'
            obtain ⟨m1, n⟩ := r
            simp only at h5 h6 h ⊢
            subst h6
            cases n' with
            | none =>
              simp only at h ⊢
              split at h
              · next hi => rw [if_pos hi]; cases h; exact ⟨m1, rfl, h5⟩
              · next hi => rw [if_neg hi]; exact opLoop_fewer ops hcp h5 h
            | some k =>
              simp only at h ⊢
              cases hp : opPlace k ops i 0 with
              | none => rw [hp] at h; cases h
              | some j =>
                rw [hp] at h
                exact opLoop_fewer ops hcp h5 h

theorem applyClaims_fewer {mp' mp : MetadataPolicy} (hmp : LessPolicy more mp' mp) : ∀ {cs : List String} {md' md m' : Metadata}, LessMetadata md' md → applyClaims E mp' cs md' = .ok m' →
    ∃ m, applyClaims E mp cs md = .ok m ∧ LessMetadata m' m
  | [], md', md, m', hmd, h => by cases h; exact ⟨md, rfl, hmd⟩
  | c :: cs, md', md, m', hmd, h => by
      unfold applyClaims Dict.get at h ⊢
      rcases alike_get? hmp c with ⟨h1, h2⟩ | ⟨cp', cp, h1, h2, hcp⟩
      · rw [h1] at h; cases h
      · rw [h1] at h
        rw [h2]
        simp only [ok_bind, applyClaim] at h ⊢
        cases h3 : opLoop E evaluationSequence c cp' 8 0 md' with
        | none => rw [h3] at h; cases h
        | some q =>
          cases q with
          | error e => rw [h3] at h; cases h
          | ok m1' =>
            obtain ⟨m1, h4, h5⟩ := opLoop_fewer E evaluationSequence hcp hmd h3
            rw [h3] at h
            rw [h4]
            exact applyClaims_fewer hmp h5 h

end

/-! ### C240 and C241 -/

/-- An entity is resolved, with the same claims, each of which has the value it has in `m'`, or is a list with at least the values it has there. -/
def ResolvedBefore (E : SetEnum Val) (K : SetEnum String) (sups : List PStatement) (leaf : PStatement) (t : String) (m' : Metadata) : Prop :=
  ∃ m, policyFor E K sups leaf t = .ok (some m) ∧ ∀ c, (m'.get? c = none ∧ m.get? c = none) ∨
    ∃ v' v, m'.get? c = some v' ∧ m.get? c = some v ∧ (v' = v ∨ ∃ xs' xs, v' = .arr xs' ∧ v = .arr xs ∧ ∀ x ∈ xs', x ∈ xs)

/-- C241 in full: when authorities permit less (`one_of`, `subset_of`) or demand more (`superset_of`), and say the same as before otherwise, then an entity that is resolved would have been resolved before. -/
def C241_full : Prop :=
  ∀ (E E' : SetEnum Val) (K K' : SetEnum String) (sups sups' : List PStatement) (leaf : PStatement) (t : String) (m' : Metadata) (more : String → Bool), AllNarrow more sups' sups →
    policyFor E' K' sups' leaf t = .ok (some m') → ResolvedBefore E K sups leaf t m'

/-- C241 where of a claim of which more is demanded only one authority demands anything. What is missing: several authorities that demand something of the same claim, where C241 is false, see `C241_superset_violation`. -/
theorem C241_demanded_partial (E E' : SetEnum Val) (K K' : SetEnum String) (sups sups' : List PStatement) (leaf : PStatement) (t : String) (m' : Metadata) (more : String → Bool) (hs : AllNarrow more sups' sups)
    (hone : sups'.Pairwise fun a b => ∀ c, more c = true → ¬ (Asks (a.rule t).policy c ∧ Asks (b.rule t).policy c))
    (h : policyFor E' K' sups' leaf t = .ok (some m')) : ResolvedBefore E K sups leaf t m' := by
  have first : ∃ m, policyFor E' K' sups leaf t = .ok (some m) ∧ LessMetadata m' m := by
    obtain ⟨R', md, hg, hm, ha⟩ := policyFor_inv h
    have hR : ∃ R, gatherPolicies E' K' sups t = .ok R ∧ LessRule more R' R := by
      cases sups' with
      | nil => cases hg
      | cons es' rest' =>
        cases sups with
        | nil => exact hs.elim
        | cons es rest =>
          refine gatherRest_fewer E' K' t hs.2 (narrows_rule hs.1 t) ?_ hg
          have := List.Pairwise.map (S := OneAsks more) (fun es : PStatement => (es.rule t).policy) (fun a b h => h) hone
          rw [List.map_cons] at this
          exact this
    obtain ⟨R, h1, h2, h3⟩ := hR
    have hA : ∃ m, applyPolicy E' K' md R = .ok m ∧ LessMetadata m' m := by
      unfold applyPolicy applyMetadataPolicy at ha ⊢
      simp only [h2, alike_isEmpty h3, alike_keys h3] at ha
      simp only
      split at ha
      · next he => rw [if_pos he]; cases ha; exact ⟨_, rfl, alike_refl (fun _ => fewer_refl) _⟩
      · next he => rw [if_neg he]; exact applyClaims_fewer E' h3 (alike_refl (fun _ => fewer_refl) _) ha
    obtain ⟨m, h4, h5⟩ := hA
    refine ⟨m, ?_, h5⟩
    unfold policyFor
    rw [h1, ok_bind, hm]
    simp only [h4, ok_bind, except_pure]
  obtain ⟨m1, h1, h2⟩ := first
  obtain ⟨m, h3, h4⟩ := C21_resolution_hash_order_irrelevant E' E K' K _ _ _ _ h1
  refine ⟨m, h3, fun c => ?_⟩
  rcases alike_get? h2 c with ⟨h5, h6⟩ | ⟨v', v, h5, h6, hv⟩
  · have := h4 c
    rw [h6] at this
    left
    refine ⟨h5, ?_⟩
    cases hg : m.get? c with
    | none => rfl
    | some w => rw [hg] at this; cases this
  · right
    have := h4 c
    rw [h6] at this
    rcases optSetEq_cases this with heq | ⟨xs, ys, e1, e2, hxy⟩
    · refine ⟨v', v, h5, heq.symm, ?_⟩
      rcases hv with rfl | ⟨xs', xs, e1, e2, h7, _⟩
      · exact Or.inl rfl
      · exact Or.inr ⟨xs', xs, e1, e2, h7⟩
    · cases e1
      refine ⟨v', .arr ys, h5, e2, Or.inr ?_⟩
      rcases hv with rfl | ⟨xs', xs2, e3, e4, h7, _⟩
      · exact ⟨xs, ys, rfl, rfl, fun x hx => (hxy x).1 hx⟩
      · cases e4
        exact ⟨xs', ys, e3, rfl, fun x hx => (hxy x).1 (h7 x hx)⟩

/-- C240: when authorities take values out of the lists their policies permit, and say nothing else than before, then an entity that is resolved would have been resolved before, with the same claims; and each claim has the value it had, or
is a list with no value that was not in it. The two processes may have their sets in different orders. -/
theorem C240_narrowed (E E' : SetEnum Val) (K K' : SetEnum String) (sups sups' : List PStatement) (leaf : PStatement) (t : String) (m' : Metadata) (hs : AllNarrow (fun _ => false) sups' sups)
    (h : policyFor E' K' sups' leaf t = .ok (some m')) :
    ∃ m, policyFor E K sups leaf t = .ok (some m) ∧ ∀ c, (m'.get? c = none ∧ m.get? c = none) ∨
      ∃ v' v, m'.get? c = some v' ∧ m.get? c = some v ∧ (v' = v ∨ ∃ xs' xs, v' = .arr xs' ∧ v = .arr xs ∧ ∀ x ∈ xs', x ∈ xs) :=
  C241_demanded_partial E E' K K' sups sups' leaf t m' _ hs (List.pairwise_iff_forall_sublist.2 fun _ _ hm => by cases hm) h

namespace Ex240
open Ex Ex238

def im240 : PStatement := ⟨[("op", [("city", s "y")])], [("op", [("alg", [("one_of", strs ["y"])]), ("scopes", [("subset_of", strs ["b"])])])]⟩

theorem fewerStrs {xs' xs : List String} (h : ∀ x ∈ xs', x ∈ xs) : Fewer (strs xs') (strs xs) := by
  refine Or.inr ⟨_, _, rfl, rfl, fun v hv => ?_, fun v hv => ?_⟩
  · obtain ⟨x, h1, rfl⟩ := List.mem_map.1 hv
    exact List.mem_map.2 ⟨x, h x h1, rfl⟩
  · obtain ⟨x, _, rfl⟩ := List.mem_map.1 hv
    rfl

theorem narrows240 : AllNarrow (fun _ => false) [ta238, im240] [ta238, im238] :=
  ⟨⟨rfl, alike_refl (fun _ => alike_refl fun _ => alike_refl (permits_refl _)) _⟩,
    ⟨rfl, ⟨rfl, ⟨rfl, ⟨rfl, Or.inr (Or.inl ⟨Or.inl rfl, fewerStrs (by decide)⟩), trivial⟩, rfl, ⟨rfl, Or.inr (Or.inl ⟨Or.inr rfl, fewerStrs (by decide)⟩), trivial⟩, trivial⟩, trivial⟩⟩, trivial⟩

/-- The intermediate permits one scope less; what it still resolves has one scope less. -/
example : ∃ m, policyFor E K [ta238, im238] lf238 "op" = .ok (some m) ∧ ∀ c,
    (Dict.get? ([("org", s "A"), ("city", s "y"), ("scopes", strs ["b"]), ("alg", s "y")] : Metadata) c = none ∧ m.get? c = none) ∨
      ∃ v' v, Dict.get? ([("org", s "A"), ("city", s "y"), ("scopes", strs ["b"]), ("alg", s "y")] : Metadata) c = some v' ∧ m.get? c = some v ∧
        (v' = v ∨ ∃ xs' xs, v' = .arr xs' ∧ v = .arr xs ∧ ∀ x ∈ xs', x ∈ xs) :=
  C240_narrowed E SetEnum.reversed K SetEnum.reversed _ _ lf238 "op" _ narrows240 (by decide +kernel)

def ta241 (xs : List String) : PStatement := ⟨[], [("op", [("scopes", [("superset_of", strs xs)])])]⟩
def im241 : PStatement := ⟨[], [("op", [("scopes", [("subset_of", strs ["a", "b", "c"])])])]⟩
def lf241 : PStatement := ⟨[("op", [("scopes", strs ["a", "b", "d"])])], []⟩

/-- The trust anchor demands one scope more. -/
example : ResolvedBefore E K [ta241 ["a"], im241] lf241 "op" [("scopes", strs ["a", "b"])] :=
  C241_demanded_partial E E K K _ [ta241 ["a", "b"], im241] lf241 "op" _ (fun _ => true)
    ⟨⟨rfl, ⟨rfl, ⟨rfl, ⟨rfl, Or.inr (Or.inr ⟨rfl, rfl, fewerStrs (by decide)⟩), trivial⟩, trivial⟩, trivial⟩⟩, ⟨rfl, alike_refl (fun _ => alike_refl fun _ => alike_refl (permits_refl _)) _⟩, trivial⟩
    (List.pairwise_cons.2 ⟨fun b hb c _ hd => by
      rw [List.mem_singleton] at hb
      subst hb
      obtain ⟨cp, h1, h2⟩ := hd.2
      have h1 : (c, cp) ∈ ([("scopes", [("subset_of", strs ["a", "b", "c"])])] : MetadataPolicy) := h1
      rw [List.mem_singleton] at h1
      cases h1
      revert h2
      decide +kernel, List.pairwise_cons.2 ⟨fun b hb => (by cases hb), List.Pairwise.nil⟩⟩) (by decide +kernel)
end Ex240

/-- C241 fails where two authorities demand something of the same claim: what is demanded is what both demand, and where that is nothing, nobody is let in. An authority that demands more can make it something. -/
theorem C241_superset_violation : ¬ C241_full := by
  intro h
  obtain ⟨m, h1, _⟩ := h Ex.E Ex.E Ex.K Ex.K [Ex240.ta241 ["a"], Ex240.ta241 ["b"]] [Ex240.ta241 ["a"], Ex240.ta241 ["a", "b"]] Ex240.lf241 "op" [("scopes", Ex.strs ["a", "b", "d"])] (fun _ => true)
    ⟨⟨rfl, alike_refl (fun _ => alike_refl fun _ => alike_refl (permits_refl _)) _⟩, ⟨rfl, ⟨rfl, ⟨rfl, ⟨rfl, Or.inr (Or.inr ⟨rfl, rfl, Ex240.fewerStrs (by decide)⟩), trivial⟩, trivial⟩, trivial⟩⟩, trivial⟩ (by decide +kernel)
  have : policyFor Ex.E Ex.K [Ex240.ta241 ["a"], Ex240.ta241 ["b"]] Ex240.lf241 "op" = .error .policyError := by decide +kernel
  rw [this] at h1
  cases h1

end Fed.Policy
