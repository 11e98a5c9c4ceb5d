import Verif.Chains.Props
import Verif.Collect.Passing
import Verif.Policy.Compatible
import Verif.Constraints.Complete
/-
Property C109: the members of a well-run federation are resolved.
-/
namespace Fed.Chains
open Fed Verify

/-- What the members of a federation publish: configurations, statements of authorities about subordinates, and keys. -/
structure Directory where
  cfg : String → Jws
  about : (authority subordinate : String) → Jws
  keys : String → List Key

/-- The entities `S` of a federation publish what the directory says, properly signed and not about to expire; the keys of the directory, with which they sign, are among those that they and
their authorities publish; the authorities an entity names are members too and above it in rank; those that
name none are anchors whose keys are in the jar. -/
structure WellRun (L : Lib) (P : Collect.Params) (F : Collect.Federation) (now : Int) (stopAt : String) (jar : KeyJar) (D : Directory) (S : String → Prop) (rank : String → Nat) : Prop where
  config : ∀ e, S e → F.config e = .ok (some (D.cfg e))
  self : ∀ e, S e → (D.cfg e).payload.iss = e ∧ ∃ ks, (D.cfg e).payload.jwks = some ks ∧ ∀ k ∈ D.keys e, k ∈ ks
  selfSigned : ∀ e, S e → ∃ k ∈ D.keys e, L.usable (D.cfg e) k = true ∧ L.verifies (D.cfg e) k = true
  current : ∀ e, S e → L.current now (D.cfg e) = true
  fresh : ∀ e, S e → ∃ x, (D.cfg e).payload.exp = some x ∧ now < x - P.delta
  notStop : ∀ e hs, S e → (D.cfg e).payload.hints = some hs → e ≠ stopAt
  hints : ∀ e hs, S e → (D.cfg e).payload.hints = some hs → hs ≠ [] ∧ ∀ a ∈ hs, S a ∧ rank a < rank e
  served : ∀ e hs a, S e → (D.cfg e).payload.hints = some hs → a ∈ hs → ∃ fe ep, (D.cfg a).payload.md.get? "federation_entity" = some fe ∧
    fe.get? "federation_fetch_endpoint" = some ep ∧ ep.truthy = true ∧ F.fetch ep a e = .ok (some (D.about a e))
  stated : ∀ e hs a, S e → (D.cfg e).payload.hints = some hs → a ∈ hs → (D.about a e).payload.iss = a ∧ (D.about a e).payload.sub = e ∧
    (∃ ks, (D.about a e).payload.jwks = some ks ∧ ∀ k ∈ D.keys e, k ∈ ks) ∧ ∃ x, (D.about a e).payload.exp = some x
  signed : ∀ e hs a, S e → (D.cfg e).payload.hints = some hs → a ∈ hs → ∃ k ∈ D.keys a, L.usable (D.about a e) k = true ∧ L.verifies (D.about a e) k = true
  anchors : ∀ e, S e → (D.cfg e).payload.hints = none → Dict.has jar e = true ∧ ∀ k ∈ D.keys e, k ∈ jar.keysOf e

theorem WellRun.inForce {L : Lib} {P : Collect.Params} {F : Collect.Federation} {now : Int} {stopAt : String} {jar : KeyJar} {D : Directory} {S : String → Prop} {rank : String → Nat} (w : WellRun L P F now stopAt jar D S rank)
    {e : String} (he : S e) : ∀ j x, F.config e = .ok (some j) → j.payload.exp = some x → L.toCrypto.current now j = true ∨ x + P.delta ≤ now := by
  intro j x hj _
  rw [w.config e he] at hj
  cases hj
  exact Or.inl (w.current e he)

/-- A way up from an entity over authorities it names to one that names none. -/
inductive Up (D : Directory) : String → List String → Prop
  | top {e hs a} : (D.cfg e).payload.hints = some hs → a ∈ hs → (D.cfg a).payload.hints = none → Up D e [a]
  | step {e hs a p} : (D.cfg e).payload.hints = some hs → a ∈ hs → Up D a p → Up D e (a :: p)

/-- The statements along a way up, the anchor's first. -/
def stmtsOf (D : Directory) : String → List String → List Jws
  | _, [] => []
  | e, a :: p => stmtsOf D a p ++ [D.about a e]

/-- The same, as a path of the tree. -/
def labelled (D : Directory) : String → List String → List (String × Jws)
  | _, [] => []
  | e, a :: p => (a, D.about a e) :: labelled D a p

theorem chainOf_labelled (D : Directory) : ∀ (p : List String) (e : String), Collect.chainOf (labelled D e p) = stmtsOf D e p
  | [], _ => rfl
  | a :: p, e => by
    have ih := chainOf_labelled D p a
    simp only [Collect.chainOf, labelled, stmtsOf, List.map_cons, List.reverse_cons] at ih ⊢
    rw [ih]

theorem snoc_split {α : Type} {xs pre post : List α} {y b : α} (h : xs ++ [y] = pre ++ b :: post) :
    (post = [] ∧ b = y ∧ pre = xs) ∨ ∃ post', post = post' ++ [y] ∧ xs = pre ++ b :: post' := by
  rcases List.eq_nil_or_concat post with rfl | ⟨post', z, rfl⟩
  · left
    have h' := List.append_inj' h rfl
    simp only [List.cons.injEq, and_true] at h'
    exact ⟨rfl, h'.2.symm, h'.1.symm⟩
  · right
    have : xs ++ [y] = (pre ++ b :: post') ++ [z] := by rw [h]; simp
    have h' := List.append_inj' this rfl
    simp only [List.cons.injEq, and_true] at h'
    exact ⟨post', by simp [h'.2], h'.1⟩

section
variable {L : Lib} {P : Collect.Params} {F : Collect.Federation} {now : Int} {stopAt : String} {jar : KeyJar} {D : Directory} {S : String → Prop} {rank : String → Nat}

theorem WellRun.published (w : WellRun L P F now stopAt jar D S rank) {e : String} (he : S e) : Collect.publishedConfig L.toCrypto F now e = some (D.cfg e) := by
  rw [Collect.publishedConfig_iff]
  refine ⟨w.config e he, ?_⟩
  obtain ⟨k, h1, h2, h3⟩ := w.selfSigned e he
  obtain ⟨-, ks, h4, h5⟩ := w.self e he
  have : (ks.filter (L.usable (D.cfg e))).any (L.verifies (D.cfg e)) = true := by
    rw [List.any_eq_true]
    exact ⟨k, List.mem_filter.2 ⟨h5 k h1, h2⟩, h3⟩
  simp only [selfVerify, h4, this, w.current e he, Bool.and_self, if_true]

theorem WellRun.statement (w : WellRun L P F now stopAt jar D S rank) {e a : String} {hs : List String} (he : S e) (hh : (D.cfg e).payload.hints = some hs) (ha : a ∈ hs) :
    Collect.publishedStatement L.toCrypto F now a e = some (some (D.about a e)) := by
  have hsa := ((w.hints e hs he hh).2 a ha).1
  obtain ⟨fe, ep, h1, h2, h3, h4⟩ := w.served e hs a he hh ha
  obtain ⟨-, -, -, x, h5⟩ := w.stated e hs a he hh ha
  simp [Collect.publishedStatement, w.published hsa, Collect.getFetchEndpoint, h1, h2, Collect.usableEndpoint, h3, h4, h5]

/-- The tree got from hints whose branches are all found. -/
theorem idealHints_items {ib : String → Option Collect.Branch} {b : String → Collect.Branch} : ∀ {hs : List String} {acc : Collect.Forest Jws},
    (∀ a ∈ hs, ib a = some (b a)) → (∀ x ∈ acc.items, x.2 = b x.1) →
    ∃ f, Collect.idealHints ib hs acc = some f ∧ (∀ x ∈ f.items, x.2 = b x.1) ∧ ∀ a, a ∈ f.keys ↔ a ∈ hs ∨ a ∈ acc.keys
  | [], acc, _, h => ⟨acc, rfl, h, by simp⟩
  | a :: hs, acc, hb, h => by
    simp only [Collect.idealHints, hb a (by simp)]
    obtain ⟨f, h1, h2, h3⟩ := idealHints_items (hs := hs) (acc := acc.set a (b a)) (fun x hx => hb x (by simp [hx])) (by
      intro x hx
      rcases Collect.Forest.items_set_mem hx with rfl | hx
      · rfl
      · exact h x hx)
    refine ⟨f, h1, h2, fun x => ?_⟩
    rw [h3, Collect.Forest.keys_set]
    by_cases ha : a ∈ acc.keys
    · rw [if_pos ha]
      simp only [List.mem_cons]
      constructor
      · rintro (h | h)
        · exact Or.inl (Or.inr h)
        · exact Or.inr h
      · rintro ((rfl | h) | h)
        · exact Or.inr ha
        · exact Or.inl h
        · exact Or.inr h
    · rw [if_neg ha]
      simp only [List.mem_cons, List.mem_append, List.not_mem_nil, or_false]
      constructor
      · rintro (h | h | h)
        · exact Or.inl (Or.inr h)
        · exact Or.inr h
        · exact Or.inl (Or.inl h)
      · rintro ((h | h) | h)
        · exact Or.inr (Or.inr h)
        · exact Or.inl h
        · exact Or.inr (Or.inl h)

theorem complete_iff {α : Type} : ∀ (f : Collect.Forest α), f.Complete ↔ ∀ x ∈ f.items, ∃ s sub, x.2 = some (s, sub) ∧ sub.Complete
  | .nil => by simp [Collect.Forest.Complete, Collect.Forest.items]
  | .missing i r => by
    simp only [Collect.Forest.Complete, Collect.Forest.items, false_iff]
    intro h
    obtain ⟨s, sub, h1, -⟩ := h (i, none) (by simp)
    cases h1
  | .node i s sub r => by
    simp only [Collect.Forest.Complete, Collect.Forest.items, List.mem_cons, forall_eq_or_imp]
    rw [complete_iff r]
    constructor
    · rintro ⟨h1, h2⟩
      exact ⟨⟨s, sub, rfl, h1⟩, h2⟩
    · rintro ⟨⟨s', sub', h0, h1⟩, h2⟩
      cases h0
      exact ⟨h1, h2⟩

/-- The tree above a member. -/
theorem WellRun.tree (w : WellRun L P F now stopAt jar D S rank) : ∀ (n : Nat) (e : String), S e → rank e < n →
    ∃ f, Collect.idealTree L.toCrypto P F now stopAt n e (D.cfg e).payload = some f ∧ f.Complete ∧ ((D.cfg e).payload.hints = none → f = .nil) ∧
      ((D.cfg e).payload.hints ≠ none → f ≠ .nil) ∧ ∀ q, Collect.IsPath f q ↔ ∃ p, Up D e p ∧ q = labelled D e p
  | 0, _, _, h => absurd h (by omega)
  | n + 1, e, he, hr => by
    cases hh : (D.cfg e).payload.hints with
    | none =>
      refine ⟨.nil, by simp [Collect.idealTree, hh], trivial, fun _ => rfl, fun h => absurd rfl h, fun q => ?_⟩
      constructor
      · intro h; exact absurd h Collect.not_isPath_nil
      · rintro ⟨p, hp, -⟩
        cases hp with
        | top h => rw [hh] at h; cases h
        | step h => rw [hh] at h; cases h
    | some hs =>
      obtain ⟨hne, hmem⟩ := w.hints e hs he hh
      have ih : ∀ a, a ∈ hs → ∃ f, Collect.idealTree L.toCrypto P F now stopAt n a (D.cfg a).payload = some f ∧ f.Complete ∧ ((D.cfg a).payload.hints = none → f = .nil) ∧
          ((D.cfg a).payload.hints ≠ none → f ≠ .nil) ∧ ∀ q, Collect.IsPath f q ↔ ∃ p, Up D a p ∧ q = labelled D a p :=
        fun a ha => w.tree n a (hmem a ha).1 (by have := (hmem a ha).2; omega)
      let sub : String → Collect.Forest Jws := fun a => (Collect.idealTree L.toCrypto P F now stopAt n a (D.cfg a).payload).getD .nil
      have hsub : ∀ a ∈ hs, Collect.idealTree L.toCrypto P F now stopAt n a (D.cfg a).payload = some (sub a) ∧ (sub a).Complete ∧ ((D.cfg a).payload.hints = none → sub a = .nil) ∧
          ((D.cfg a).payload.hints ≠ none → sub a ≠ .nil) ∧ ∀ q, Collect.IsPath (sub a) q ↔ ∃ p, Up D a p ∧ q = labelled D a p := by
        intro a ha
        obtain ⟨f, h1, h2⟩ := ih a ha
        have : sub a = f := by simp [sub, h1]
        rw [this]
        exact ⟨h1, h2⟩
      have hb : ∀ a ∈ hs, Collect.idealBranch L.toCrypto P F now (Collect.idealTree L.toCrypto P F now stopAt n) e a = some (some (D.about a e, sub a)) := by
        intro a ha
        obtain ⟨hsa, hra⟩ := hmem a ha
        have hea : e ≠ a := by rintro rfl; omega
        obtain ⟨x, hx, hf⟩ := w.fresh a hsa
        have hfr : Collect.freshAt P now (D.cfg a) = true := by rw [Collect.freshAt_of hx]; simpa using hf
        simp [Collect.idealBranch, hea, w.statement he hh ha, w.published hsa, hfr, (hsub a ha).1]
      obtain ⟨f, h1, h2, h3⟩ := idealHints_items (b := fun a => some (D.about a e, sub a)) (acc := .nil) hb (by simp [Collect.Forest.items])
      have hiss : (D.cfg e).payload.iss ≠ stopAt := by rw [(w.self e he).1]; exact w.notStop e hs he hh
      have hit : ∀ a v, (a, v) ∈ f.items ↔ a ∈ hs ∧ v = some (D.about a e, sub a) := by
        intro a v
        constructor
        · intro h
          have ha : a ∈ f.keys := List.mem_map.2 ⟨_, h, rfl⟩
          rw [h3] at ha
          exact ⟨ha.elim id (by simp [Collect.Forest.keys, Collect.Forest.items]), h2 _ h⟩
        · rintro ⟨ha, rfl⟩
          have := (h3 a).2 (Or.inl ha)
          obtain ⟨⟨a', v'⟩, h4, h5⟩ := List.mem_map.1 this
          simp only at h5
          subst h5
          have := h2 _ h4
          simp only at this
          rw [← this]
          exact h4
      refine ⟨f, by simp [Collect.idealTree, hh, hiss, h1], ?_, fun h => by simp at h, fun _ => ?_, fun q => ?_⟩
      · rw [complete_iff]
        rintro ⟨a, v⟩ hx
        obtain ⟨ha, rfl⟩ := (hit a v).1 hx
        exact ⟨_, _, rfl, (hsub a ha).2.1⟩
      · rintro rfl
        cases hs with
        | nil => exact hne rfl
        | cons a hs =>
          have := (hit a _).2 ⟨by simp, rfl⟩
          simp [Collect.Forest.items] at this
      · constructor
        · intro h
          cases h with
          | top h =>
            obtain ⟨ha, hv⟩ := (hit _ _).1 h
            simp only [Option.some.injEq, Prod.mk.injEq] at hv
            obtain ⟨rfl, hv⟩ := hv
            have : (D.cfg _).payload.hints = none := Classical.byContradiction fun hc => (hsub _ ha).2.2.2.1 hc hv.symm
            exact ⟨_, .top hh ha this, rfl⟩
          | step h h' =>
            obtain ⟨ha, hv⟩ := (hit _ _).1 h
            simp only [Option.some.injEq, Prod.mk.injEq] at hv
            obtain ⟨rfl, rfl⟩ := hv
            obtain ⟨p, hp, rfl⟩ := ((hsub _ ha).2.2.2.2 _).1 h'
            exact ⟨_, .step hh ha hp, rfl⟩
        · rintro ⟨p, hp, rfl⟩
          cases hp with
          | top h ha hn =>
            rw [hh] at h
            cases h
            refine .top ((hit _ _).2 ⟨ha, ?_⟩)
            rw [(hsub _ ha).2.2.1 hn]
          | step h ha hp =>
            rw [hh] at h
            cases h
            exact .step ((hit _ _).2 ⟨ha, rfl⟩) (((hsub _ ha).2.2.2.2 _).2 ⟨_, hp, rfl⟩)

theorem stmtsOf_ne_nil {e : String} {p : List String} (h : Up D e p) : stmtsOf D e p ≠ [] := by
  cases h <;> simp [stmtsOf]

/-- Every statement on the way up is a member's about a member that names it. -/
theorem WellRun.mem_stmtsOf (w : WellRun L P F now stopAt jar D S rank) {e : String} {p : List String} (h : Up D e p) (he : S e) :
    ∀ s ∈ stmtsOf D e p, ∃ a b hs, S b ∧ (D.cfg b).payload.hints = some hs ∧ a ∈ hs ∧ s = D.about a b := by
  induction h with
  | top hh ha hn =>
    intro s hs
    simp only [stmtsOf, List.nil_append, List.mem_singleton] at hs
    exact ⟨_, _, _, he, hh, ha, hs⟩
  | step hh ha _ ih =>
    intro s hs
    simp only [stmtsOf, List.mem_append, List.mem_singleton] at hs
    rcases hs with hs | hs
    · exact ih ((w.hints _ _ he hh).2 _ ha).1 s hs
    · exact ⟨_, _, _, he, hh, ha, hs⟩

/-- The last of the statements is about the entity and lists its keys. -/
theorem WellRun.last_stmt (w : WellRun L P F now stopAt jar D S rank) {e : String} {p : List String} (h : Up D e p) (he : S e) :
    ∃ s ∈ stmtsOf D e p, s.payload.sub = e ∧ ∃ ks, s.payload.jwks = some ks ∧ ∀ k ∈ D.keys e, k ∈ ks := by
  cases h with
  | top hh ha _ =>
    obtain ⟨-, h2, h3, -⟩ := w.stated _ _ _ he hh ha
    exact ⟨_, by simp [stmtsOf], h2, h3⟩
  | step hh ha _ =>
    obtain ⟨-, h2, h3, -⟩ := w.stated _ _ _ he hh ha
    exact ⟨_, by simp [stmtsOf], h2, h3⟩

/-- The statements are signed from above. -/
theorem WellRun.signedFrom (w : WellRun L P F now stopAt jar D S rank) {e : String} {p : List String} (h : Up D e p) (he : S e) :
    ∀ pre b post, stmtsOf D e p = pre ++ b :: post → ∃ k, L.usable b k = true ∧ L.verifies b k = true ∧
      (k ∈ jar.keysOf b.payload.iss ∨ ∃ a ∈ pre, a.payload.sub = b.payload.iss ∧ ∃ ks, a.payload.jwks = some ks ∧ k ∈ ks) := by
  induction h with
  | @top e hs a hh ha hn =>
    intro pre b post hs
    rcases snoc_split (xs := []) hs with ⟨-, rfl, -⟩ | ⟨post', -, h⟩
    · obtain ⟨k, h1, h2, h3⟩ := w.signed _ _ _ he hh ha
      refine ⟨k, h2, h3, Or.inl ?_⟩
      rw [(w.stated _ _ _ he hh ha).1]
      exact (w.anchors a ((w.hints _ _ he hh).2 _ ha).1 hn).2 k h1
    · simp at h
  | @step e hs a p hh ha hup ih =>
    intro pre b post hs
    have hsa := ((w.hints _ _ he hh).2 _ ha).1
    rcases snoc_split hs with ⟨-, rfl, rfl⟩ | ⟨post', -, h⟩
    · obtain ⟨k, h1, h2, h3⟩ := w.signed _ _ _ he hh ha
      obtain ⟨s, h4, h5, ks, h6, h7⟩ := w.last_stmt hup hsa
      refine ⟨k, h2, h3, Or.inr ⟨s, h4, ?_, _, h6, h7 k h1⟩⟩
      rw [(w.stated _ _ _ he hh ha).1, h5]
    · exact ih hsa pre b post' h

/-- The first statement is an anchor's. -/
theorem WellRun.first (w : WellRun L P F now stopAt jar D S rank) {e : String} {p : List String} (h : Up D e p) (he : S e) :
    ∃ j js, stmtsOf D e p = j :: js ∧ Dict.has jar j.payload.iss = true ∧ p.getLast? = some j.payload.iss := by
  induction h with
  | @top e hs a hh ha hn =>
    refine ⟨_, _, rfl, ?_, ?_⟩ <;> rw [(w.stated _ _ _ he hh ha).1]
    · exact (w.anchors a ((w.hints _ _ he hh).2 _ ha).1 hn).1
    · rfl
  | @step e hs a p hh ha hup ih =>
    obtain ⟨j, js, h1, h2, h3⟩ := ih ((w.hints _ _ he hh).2 _ ha).1
    refine ⟨j, js ++ [D.about a e], by simp [stmtsOf, h1], h2, ?_⟩
    cases p with
    | nil => simp at h3
    | cons x p => rw [List.getLast?_cons_cons]; exact h3

theorem exists_up (w : WellRun L P F now stopAt jar D S rank) : ∀ (n : Nat) (e : String), S e → rank e < n → (D.cfg e).payload.hints ≠ none → ∃ p, Up D e p
  | 0, _, _, h, _ => absurd h (by omega)
  | n + 1, e, he, hr, hne => by
    cases hh : (D.cfg e).payload.hints with
    | none => exact absurd hh hne
    | some hs =>
      obtain ⟨h1, h2⟩ := w.hints e hs he hh
      cases hs with
      | nil => exact absurd rfl h1
      | cons a hs =>
        by_cases hn : (D.cfg a).payload.hints = none
        · exact ⟨_, .top hh (by simp) hn⟩
        · obtain ⟨hsa, hra⟩ := h2 a (by simp)
          obtain ⟨p, hp⟩ := exists_up w n a hsa (by omega) hn
          exact ⟨_, .step hh (by simp) hp⟩
end

/-- The statements above the entity, and their constraints, are such that the entity may be where it is (see C108). -/
structure WithinConstraints (sups : List Payload) (leaf : Payload) : Prop where
  urls : ∀ p ∈ sups, Constraints.UrlNames (toC p)
  leafUrl : Constraints.UrlNames (toC leaf)
  both : ∀ p ∈ sups, ∀ n, (toC p).naming = some n → n.permitted ≠ none ∧ n.excluded ≠ none
  keeps : Constraints.KeepsAll (sups.map toC) (toC leaf)
  narrowing : Constraints.Narrowing (sups.map toC)

theorem WithinConstraints.meets {sups : List Payload} {leaf : Payload} (h : WithinConstraints sups leaf) : Verify.meets sups leaf = .ok true := by
  unfold Verify.meets
  refine Constraints.C108_accepted_partial _ _ ?_ h.leafUrl ?_ h.keeps h.narrowing
  · intro st hst
    obtain ⟨p, hp, rfl⟩ := List.mem_map.1 hst
    exact h.urls p hp
  · intro st hst
    obtain ⟨p, hp, rfl⟩ := List.mem_map.1 hst
    exact h.both p hp

/-- What an entity declares satisfies the policies of a statement, for every entity type it has metadata for (see C107). -/
def SatisfiedBy (want : String → String → Policy.Want) (M : String → Policy.Metadata) (leaf s : Payload) : Prop :=
  ∀ t md, leaf.md.get? t = some md → Policy.RuleOk (want t) (M t) ((toP s).rule t) ∧ (∀ c ∈ ((toP s).rule t).policy.keys, c ∉ ((toP s).rule t).metadata.keys) ∧
    ∀ c ∈ ((toP s).rule t).policy.keys, match want t c with
      | .list xs _ _ _ => md.get? c = some (.arr xs)
      | .one v _ => md.get? c = some v

/-- The metadata of a chain is what the leaf declared, lists compared as sets for claims that have a policy. -/
def AsDeclared (want : String → String → Policy.Want) (sups : List Payload) (leaf : Payload) (result : Dict Val) : Prop :=
  ∀ t md, leaf.md.get? t = some md → ∃ m, result.get? t = some (.obj m) ∧
    (∀ s ∈ sups, ∀ c ∈ ((toP s).rule t).policy.keys, (want t c).is (Dict.get? m c)) ∧
    ∀ c v, md.get? c = some v → (∀ s ∈ sups, c ∉ ((toP s).rule t).policy.keys) → Dict.get? m c = some v

theorem policyForTypes_all {E : SetEnum Val} {K : SetEnum String} {sups : List Policy.PStatement} {leaf : Policy.PStatement} {Q : String → Policy.Metadata → Prop} : ∀ {ts : List String},
    (∀ t ∈ ts, ∃ m, Policy.policyFor E K sups leaf t = .ok (some m) ∧ Q t m) →
    ∃ r, Policy.policyForTypes E K sups leaf ts = .ok r ∧ ∀ t ∈ ts, ∃ m, r.get? t = some (some m) ∧ Q t m
  | [], _ => ⟨[], rfl, by simp⟩
  | t :: ts, h => by
    obtain ⟨m, h1, h2⟩ := h t (by simp)
    obtain ⟨r, h3, h4⟩ := policyForTypes_all (ts := ts) fun x hx => h x (by simp [hx])
    refine ⟨(t, some m) :: r, by simp [Policy.policyForTypes, h1, h3], fun x hx => ?_⟩
    by_cases hxt : t = x
    · subst hxt
      exact ⟨m, by rw [Dict.get?_cons, if_pos rfl], h2⟩
    · rw [Dict.get?_cons, if_neg hxt]
      exact h4 x (by simpa [Ne.symm hxt] using hx)

theorem get?_mdVal (r : Dict (Option Policy.Metadata)) (t : String) : Dict.get? (r.map fun p => (p.1, mdVal p.2)) t = (r.get? t).map mdVal := by
  induction r with
  | nil => rfl
  | cons p r ih =>
    rw [List.map_cons, Dict.get?_cons, Dict.get?_cons, ih]
    split <;> rfl

theorem applyToChain_satisfied (E : SetEnum Val) (K : SetEnum String) (tc : TrustChain) (sups : List Payload) (leaf : Payload) (want : String → String → Policy.Want) (M : String → Policy.Metadata)
    (hv : tc.verified = sups ++ [leaf]) (hne : sups ≠ []) (hmd : leaf.metadata ≠ none) (hs : ∀ s ∈ sups, SatisfiedBy want M leaf s) :
    ∃ tc', applyToChain E K tc = .ok tc' ∧ tc'.chain = tc.chain ∧ tc'.anchor = tc.anchor ∧ tc'.verified = tc.verified ∧ AsDeclared want sups leaf tc'.metadata := by
  cases hm : leaf.metadata with
  | none => exact absurd hm hmd
  | some mds =>
    have key : ∀ t ∈ leaf.md.keys, ∃ m, Policy.policyFor E K (sups.map toP) (toP leaf) t = .ok (some m) ∧ ∀ md, leaf.md.get? t = some md →
        (∀ s ∈ sups, ∀ c ∈ ((toP s).rule t).policy.keys, (want t c).is (Dict.get? m c)) ∧
        ∀ c v, md.get? c = some v → (∀ s ∈ sups, c ∉ ((toP s).rule t).policy.keys) → Dict.get? m c = some v := by
      intro t ht
      obtain ⟨md, hmdt⟩ := (Dict.mem_keys_iff_exists _ _).1 ht
      obtain ⟨m, h1, h2, h3⟩ := Policy.C107_chain_partial E K (sups.map toP) (toP leaf) t md (M t) (want t) (by simpa using hne) hmdt
        (by
          intro es hes
          obtain ⟨s, hs', rfl⟩ := List.mem_map.1 hes
          exact ⟨(hs s hs' t md hmdt).1, (hs s hs' t md hmdt).2.1⟩)
        (by
          intro es hes
          obtain ⟨s, hs', rfl⟩ := List.mem_map.1 hes
          exact (hs s hs' t md hmdt).2.2)
      refine ⟨m, h1, fun md' hmd' => ?_⟩
      rw [hmdt] at hmd'
      cases hmd'
      refine ⟨fun s hs' c hc => h2 (toP s) (List.mem_map.2 ⟨s, hs', rfl⟩) c hc, fun c v hcv hno => h3 c v hcv fun es hes => ?_⟩
      obtain ⟨s, hs', rfl⟩ := List.mem_map.1 hes
      exact hno s hs'
    obtain ⟨r, h1, h2⟩ := policyForTypes_all key
    have hlen : 1 < tc.verified.length := by
      rw [hv]
      cases sups with
      | nil => exact absurd rfl hne
      | cons s sups => simp
    refine ⟨_, applyToChain_ok.2 ⟨leaf, mds, by rw [hv]; simp, hm, Or.inl ⟨hlen, r, ?_, rfl⟩⟩, rfl, rfl, rfl, ?_⟩
    · rw [hv, List.dropLast_concat]
      exact h1
    · intro t md ht
      obtain ⟨m, h3, h4⟩ := h2 t ((Dict.mem_keys_iff_exists _ _).2 ⟨md, ht⟩)
      refine ⟨m, ?_, h4 md ht⟩
      rw [get?_mdVal, h3]
      rfl

theorem verifyChains_all {L : Lib} {Q : List Doc → TrustChain → Prop} : ∀ {cs : List (List Doc)} {jar : KeyJar},
    (∀ c ∈ cs, ∃ tc, (verifyChain L jar c).1 = .ok (some tc) ∧ Q c tc) →
    ∃ tcs, (verifyChains L cs jar).1 = .ok tcs ∧ (∀ c ∈ cs, ∃ tc ∈ tcs, Q c tc) ∧ ∀ tc ∈ tcs, ∃ c ∈ cs, Q c tc
  | [], jar, _ => ⟨[], rfl, by simp, by simp⟩
  | c :: cs, jar, h => by
    obtain ⟨tc, h1, h2⟩ := h c (by simp)
    have hk := verifyChain_keeps L jar c
    obtain ⟨tcs, h3, h4, h5⟩ := verifyChains_all (cs := cs) (jar := (verifyChain L jar c).2) fun c' hc' => by
      obtain ⟨tc', h6, h7⟩ := h c' (by simp [hc'])
      exact ⟨tc', verifyChain_mono (fun e k => (hk e).1 k) (fun e => (hk e).2) h6, h7⟩
    refine ⟨tc :: tcs, ?_, ?_, ?_⟩
    · rw [verifyChains]
      generalize verifyChain L jar c = r at h1 h3
      obtain ⟨r1, jar1⟩ := r
      simp only at h1
      subst h1
      simp only at h3 ⊢
      generalize verifyChains L cs jar1 = r at h3
      obtain ⟨r1, jar2⟩ := r
      simp only at h3
      subst h3
      rfl
    · intro c' hc'
      rcases List.mem_cons.1 hc' with rfl | hc'
      · exact ⟨tc, by simp, h2⟩
      · obtain ⟨tc', h6, h7⟩ := h4 c' hc'
        exact ⟨tc', by simp [h6], h7⟩
    · intro tc' htc'
      rcases List.mem_cons.1 htc' with rfl | htc'
      · exact ⟨c, by simp, h2⟩
      · obtain ⟨c', h6, h7⟩ := h5 tc' htc'
        exact ⟨c', by simp [h6], h7⟩

theorem applyPolicies_all {E : SetEnum Val} {K : SetEnum String} {Q : TrustChain → TrustChain → Prop} : ∀ {tcs : List TrustChain},
    (∀ tc ∈ tcs, ∃ tc', applyToChain E K tc = .ok tc' ∧ Q tc tc') →
    ∃ out, applyPolicies E K tcs = .ok out ∧ (∀ tc ∈ tcs, ∃ tc' ∈ out, Q tc tc') ∧ ∀ tc' ∈ out, ∃ tc ∈ tcs, Q tc tc'
  | [], _ => ⟨[], rfl, by simp, by simp⟩
  | tc :: tcs, h => by
    obtain ⟨t, h1, h2⟩ := h tc (by simp)
    obtain ⟨out, h3, h4, h5⟩ := applyPolicies_all (tcs := tcs) fun x hx => h x (by simp [hx])
    refine ⟨t :: out, by simp [applyPolicies, h1, h3], ?_, ?_⟩
    · intro x hx
      rcases List.mem_cons.1 hx with rfl | hx
      · exact ⟨t, by simp, h2⟩
      · obtain ⟨y, h6, h7⟩ := h4 x hx
        exact ⟨y, by simp [h6], h7⟩
    · intro y hy
      rcases List.mem_cons.1 hy with rfl | hy
      · exact ⟨tc, by simp, h2⟩
      · obtain ⟨x, h6, h7⟩ := h5 y hy
        exact ⟨x, by simp [h6], h7⟩

/-- What is returned for an entity: one chain for each way up, with the metadata declared. -/
structure Resolved (D : Directory) (want : String → String → Policy.Want) (entity : String) (p : List String) (tc : TrustChain) : Prop where
  chain : tc.chain = (stmtsOf D entity p ++ [D.cfg entity]).map some
  anchor : p.getLast? = some tc.anchor
  metadata : AsDeclared want ((stmtsOf D entity p).map (·.payload)) (D.cfg entity).payload tc.metadata

/-- The same with another statement of the entity about itself at the end of the chain. -/
structure ResolvedAs (D : Directory) (want : String → String → Policy.Want) (j : Jws) (entity : String) (p : List String) (tc : TrustChain) : Prop where
  chain : tc.chain = (stmtsOf D entity p ++ [j]).map some
  verified : tc.verified = (stmtsOf D entity p).map (·.payload) ++ [j.payload]
  anchor : p.getLast? = some tc.anchor
  metadata : AsDeclared want ((stmtsOf D entity p).map (·.payload)) j.payload tc.metadata

/-- The chains of the tree of an entity, each with `j` at the end, are the statements along the ways up from it. -/
theorem mem_docs {D : Directory} {entity : String} {j : Jws} {f : Collect.Forest Jws} (h2 : f.Complete) (h3 : ∀ q, Collect.IsPath f q ↔ ∃ p, Up D entity p ∧ q = labelled D entity p) (c : List Doc) :
    c ∈ docs f j ↔ ∃ p, Up D entity p ∧ c = (stmtsOf D entity p ++ [j]).map some := by
  unfold docs
  rw [Collect.tree2chains_paths f h2, List.map_map, List.mem_map]
  constructor
  · rintro ⟨q, hq, rfl⟩
    obtain ⟨p, hp, rfl⟩ := (h3 q).1 ((Collect.mem_paths f q).1 hq)
    exact ⟨p, hp, by simp [chainOf_labelled]⟩
  · rintro ⟨p, hp, rfl⟩
    exact ⟨labelled D entity p, (Collect.mem_paths f _).2 ((h3 _).2 ⟨p, hp, rfl⟩), by simp [chainOf_labelled]⟩

/-- Each of these chains is accepted, if `j` is signed by the entity. -/
theorem WellRun.accepted (V : Env) (F : Collect.Federation) (jar : KeyJar) (now : Int) (stopAt entity : String) (D : Directory) (S : String → Prop) (rank : String → Nat)
    (j : Jws) (w : WellRun V.L V.P F now stopAt jar D S rank) (he : S entity) (hiss : j.payload.iss = entity) (hjwks : j.payload.jwks ≠ none) (hexp : ∃ x, j.payload.exp = some x)
    (hsigned : ∃ k ∈ D.keys entity, V.L.usable j k = true ∧ V.L.verifies j k = true)
    (hcon : ∀ p, Up D entity p → WithinConstraints ((stmtsOf D entity p).map (·.payload)) j.payload) (p : List String) (hp : Up D entity p) :
    ∃ tc, (verifyChain V.L jar ((stmtsOf D entity p ++ [j]).map some)).1 = .ok (some tc) ∧ tc.chain = (stmtsOf D entity p ++ [j]).map some ∧ p.getLast? = some tc.anchor ∧
      tc.verified = (stmtsOf D entity p).map (·.payload) ++ [j.payload] := by
  obtain ⟨j0, js, hj, hhas, hlast⟩ := w.first hp he
  have all : stmtsOf D entity p ++ [j] = j0 :: (js ++ [j]) := by rw [hj]; rfl
  have hsig : ∀ pre b post, j0 :: (js ++ [j]) = pre ++ b :: post → ∃ k, V.L.usable b k = true ∧ V.L.verifies b k = true ∧
      (k ∈ jar.keysOf b.payload.iss ∨ ∃ a ∈ pre, a.payload.sub = b.payload.iss ∧ ∃ ks, a.payload.jwks = some ks ∧ k ∈ ks) := by
    intro pre b post hs
    rw [← all] at hs
    rcases snoc_split hs with ⟨-, rfl, rfl⟩ | ⟨post', -, hs'⟩
    · obtain ⟨k, k1, k2, k3⟩ := hsigned
      obtain ⟨s, k4, k5, ks, k6, k7⟩ := w.last_stmt hp he
      exact ⟨k, k2, k3, Or.inr ⟨s, k4, by rw [k5, hiss], _, k6, k7 k k1⟩⟩
    · exact w.signedFrom hp he pre b post' hs'
  have each : ∀ b ∈ stmtsOf D entity p ++ [j], b.payload.jwks ≠ none ∧ ∃ x, b.payload.exp = some x := by
    intro b hb
    rcases List.mem_append.1 hb with hb | hb
    · obtain ⟨a, e', hs, k1, k2, k3, rfl⟩ := w.mem_stmtsOf hp he b hb
      obtain ⟨-, -, ⟨ks, k4, -⟩, k5⟩ := w.stated _ _ _ k1 k2 k3
      exact ⟨by rw [k4]; simp, k5⟩
    · simp only [List.mem_singleton] at hb
      subst hb
      exact ⟨hjwks, hexp⟩
  obtain ⟨tc, t1, t2, t3, t4⟩ := verifyChain_accepts V.L jar j0 (js ++ [j]) hhas hsig
    (by
      intro pre b post hs hn
      exact absurd hn (each b (by rw [all, hs]; simp)).1)
    (by intro b hb; exact (each b (by rw [all]; exact hb)).2)
    (by
      intro leaf hl
      rw [← all] at hl ⊢
      simp only [List.map_append, List.map_cons, List.map_nil, List.getLast?_append, List.getLast?_singleton, Option.some_or, Option.some.injEq] at hl
      subst hl
      rw [List.map_append, List.map_cons, List.map_nil, List.dropLast_concat]
      exact (hcon p hp).meets)
  refine ⟨tc, by rw [all]; exact t1, by rw [t4, all], by rw [t2]; exact hlast, ?_⟩
  rw [t3, ← all]
  simp

/-- The chains from the tree of an entity of a well-run federation are accepted with any statement at the end that is signed by the entity. -/
theorem WellRun.judged (V : Env) (F : Collect.Federation) (jar : KeyJar) (now : Int) (stopAt entity : String) (D : Directory) (S : String → Prop) (rank : String → Nat)
    (want : String → String → Policy.Want) (M : String → Policy.Metadata) (j : Jws) (f : Collect.Forest Jws) (h2 : f.Complete) (h3 : ∀ q, Collect.IsPath f q ↔ ∃ p, Up D entity p ∧ q = labelled D entity p)
    (w : WellRun V.L V.P F now stopAt jar D S rank) (he : S entity) (hiss : j.payload.iss = entity) (hjwks : j.payload.jwks ≠ none) (hexp : ∃ x, j.payload.exp = some x)
    (hsigned : ∃ k ∈ D.keys entity, V.L.usable j k = true ∧ V.L.verifies j k = true)
    (hhints : (D.cfg entity).payload.hints ≠ none) (hmd : j.payload.metadata ≠ none)
    (hcon : ∀ p, Up D entity p → WithinConstraints ((stmtsOf D entity p).map (·.payload)) j.payload)
    (hpol : ∀ p, Up D entity p → ∀ s ∈ stmtsOf D entity p, SatisfiedBy want M j.payload s.payload) :
    ∃ tcs out, (verifyChains V.L ((Collect.tree2chains f).map fun c => c.map some ++ [some j]) jar).1 = .ok tcs ∧ applyPolicies V.E V.K tcs = .ok out ∧ out ≠ [] ∧
      (∀ p, Up D entity p → ∃ tc ∈ out, ResolvedAs D want j entity p tc) ∧ ∀ tc ∈ out, ∃ p, Up D entity p ∧ ResolvedAs D want j entity p tc := by
  have hdocs : ∀ c, c ∈ docs f j ↔ ∃ p, Up D entity p ∧ c = (stmtsOf D entity p ++ [j]).map some := mem_docs h2 h3
  obtain ⟨tcs, h4, h5, h6⟩ := verifyChains_all (L := V.L) (jar := jar) (cs := docs f j)
    (Q := fun c tc => ∃ p, Up D entity p ∧ c = (stmtsOf D entity p ++ [j]).map some ∧ tc.chain = c ∧ p.getLast? = some tc.anchor ∧
      tc.verified = (stmtsOf D entity p).map (·.payload) ++ [j.payload]) (by
    intro c hc
    obtain ⟨p, hp, rfl⟩ := (hdocs c).1 hc
    obtain ⟨tc, t1, t2, t3, t4⟩ := w.accepted V F jar now stopAt entity D S rank j he hiss hjwks hexp hsigned hcon p hp
    exact ⟨tc, t1, p, hp, rfl, t2, t3, t4⟩)
  obtain ⟨out, h7, h8, h9⟩ := applyPolicies_all (E := V.E) (K := V.K) (tcs := tcs) (Q := fun _ tc' => ∃ p, Up D entity p ∧ ResolvedAs D want j entity p tc') (by
    intro tc htc
    obtain ⟨c, hc, p, hp, rfl, q1, q2, q3⟩ := h6 tc htc
    obtain ⟨tc', a1, a2, a3, a4, a5⟩ := applyToChain_satisfied V.E V.K tc ((stmtsOf D entity p).map (·.payload)) j.payload want M q3 (by simpa using stmtsOf_ne_nil hp) hmd (by
      intro s hs
      obtain ⟨s', hs', rfl⟩ := List.mem_map.1 hs
      exact hpol p hp s' hs')
    exact ⟨tc', a1, p, hp, by rw [a2, q1], by rw [a4, q3], by rw [a3]; exact q2, a5⟩)
  have hall : ∀ p, Up D entity p → ∃ tc ∈ out, ResolvedAs D want j entity p tc := by
    intro p hp
    obtain ⟨tc, htc, p', hp', e1, q1, q2, q3⟩ := h5 _ ((hdocs _).2 ⟨p, hp, rfl⟩)
    obtain ⟨tc', a1, a2, a3, a4, a5⟩ := applyToChain_satisfied V.E V.K tc ((stmtsOf D entity p').map (·.payload)) j.payload want M q3 (by simpa using stmtsOf_ne_nil hp') hmd (by
      intro s hs
      obtain ⟨s', hs', rfl⟩ := List.mem_map.1 hs
      exact hpol p' hp' s' hs')
    obtain ⟨t, ht, hta⟩ := (applyPolicies_mem h7).2 tc htc
    rw [a1] at hta
    cases hta
    have e2 : stmtsOf D entity p = stmtsOf D entity p' := by
      have := (List.map_inj_right (f := some) (by intro x y h; exact Option.some.inj h)).1 e1
      exact List.append_cancel_right this
    have hl : p.getLast? = p'.getLast? := by
      obtain ⟨j1, js, k1, -, k2⟩ := w.first hp he
      obtain ⟨j', js', k3, -, k4⟩ := w.first hp' he
      rw [e2, k3] at k1
      cases k1
      rw [k2, k4]
    exact ⟨tc', ht, by rw [a2, q1], by rw [a4, q3, e2], by rw [a3, hl]; exact q2, by rw [e2]; exact a5⟩
  refine ⟨tcs, out, h4, h7, ?_, hall, ?_⟩
  · obtain ⟨p, hp⟩ := exists_up w _ entity he (Nat.lt_succ_self _) hhints
    obtain ⟨tc, htc, -⟩ := hall p hp
    intro hc
    rw [hc] at htc
    cases htc
  · intro tc htc
    obtain ⟨-, -, hq⟩ := h9 tc htc
    exact hq

/-- An entity of a well-run federation is resolved when its collection gives what the federation publishes. -/
theorem WellRun.resolved (V : Env) (F : Collect.Federation) (st : State) (now : Int) (stopAt entity : String) (D : Directory) (S : String → Prop) (rank : String → Nat)
    (want : String → String → Policy.Want) (M : String → Policy.Metadata)
    (hi : (Collect.collect V.L.toCrypto V.P V.W V.fuel st.coll entity stopAt).1.toOption = Collect.idealCollect V.L.toCrypto V.P F now V.fuel entity stopAt)
    (w : WellRun V.L V.P F now stopAt st.jar D S rank) (he : S entity) (hfuel : rank entity < V.fuel)
    (hhints : (D.cfg entity).payload.hints ≠ none) (hmd : (D.cfg entity).payload.metadata ≠ none)
    (hcon : ∀ p, Up D entity p → WithinConstraints ((stmtsOf D entity p).map (·.payload)) (D.cfg entity).payload)
    (hpol : ∀ p, Up D entity p → ∀ s ∈ stmtsOf D entity p, SatisfiedBy want M (D.cfg entity).payload s.payload) :
    ∃ out, (getVerified V st entity stopAt).1 = .ok out ∧ out ≠ [] ∧ (∀ p, Up D entity p → ∃ tc ∈ out, Resolved D want entity p tc) ∧
      ∀ tc ∈ out, ∃ p, Up D entity p ∧ Resolved D want entity p tc := by
  obtain ⟨f, h1, h2, -, -, h3⟩ := w.tree V.fuel entity he hfuel
  have hcoll : (Collect.collect V.L.toCrypto V.P V.W V.fuel st.coll entity stopAt).1 = .ok (f, D.cfg entity) := by
    simp only [Collect.idealCollect, w.published he, h1, Option.map_some] at hi
    revert hi
    cases (Collect.collect V.L.toCrypto V.P V.W V.fuel st.coll entity stopAt).1 with
    | error e => intro h; simp [Except.toOption] at h
    | ok x => intro h; simp only [Except.toOption, Option.some.injEq] at h; rw [h]
  obtain ⟨x, hx, -⟩ := w.fresh entity he
  obtain ⟨tcs, out, h4, h7, h8, h9, h10⟩ := w.judged V F st.jar now stopAt entity D S rank want M (D.cfg entity) f h2 h3 he (w.self entity he).1 (by obtain ⟨-, ks, h, -⟩ := w.self entity he; rw [h]; simp) ⟨x, hx⟩
    (w.selfSigned entity he) hhints hmd hcon hpol
  have hres : ∀ {p tc}, ResolvedAs D want (D.cfg entity) entity p tc → Resolved D want entity p tc := fun r => ⟨r.chain, r.anchor, r.metadata⟩
  refine ⟨out, ?_, h8, fun p hp => (h9 p hp).imp fun tc h => ⟨h.1, hres h.2⟩, fun tc htc => (h10 tc htc).imp fun p h => ⟨h.1, hres h.2⟩⟩
  unfold getVerified
  generalize Collect.collect V.L.toCrypto V.P V.W V.fuel st.coll entity stopAt = r at hcoll
  obtain ⟨r1, coll⟩ := r
  simp only at hcoll
  subst hcoll
  simp only
  generalize verifyChains V.L ((Collect.tree2chains f).map fun c => c.map some ++ [some (D.cfg entity)]) st.jar = r at h4
  obtain ⟨r1, jar1⟩ := r
  simp only at h4
  subst h4
  simp only [h7]

/-- C109: in a well-run federation, whatever was collected before, an entity with authorities above it is resolved: there is a chain for each way up to an anchor, all with the metadata the
entity declares, and no other chain, provided that what it declares satisfies the policies and the constraints along these ways. Missing: federations of which only a part is well-run, for
which it is false (C67, C71), and policies and constraints that allow what is declared but are not of the kinds C107 and C108 cover, for which it is false too (their violations). -/
theorem C109_resolved_partial (V : Env) (F : Collect.Federation) (st : State) (now : Int) (h : List Collect.FRun) (stopAt entity : String) (D : Directory) (S : String → Prop) (rank : String → Nat)
    (want : String → String → Policy.Want) (M : String → Policy.Metadata)
    (hW : V.W = F.at now) (hd : F.Dated) (hpl : F.PlainHints) (hl : F.Steady V.L.toCrypto V.P now)
    (hst : st.coll = Collect.runAll V.L.toCrypto V.P (h.map (Collect.FRun.run F))) (ho : h.Pairwise fun a b => a.time ≤ b.time) (ht : ∀ r ∈ h, r.time ≤ now) (hp : ∀ r ∈ h, Collect.Plain r.entity)
    (w : WellRun V.L V.P F now stopAt st.jar D S rank) (he : S entity) (hpe : Collect.Plain entity) (hfuel : rank entity < V.fuel)
    (hhints : (D.cfg entity).payload.hints ≠ none) (hmd : (D.cfg entity).payload.metadata ≠ none)
    (hcon : ∀ p, Up D entity p → WithinConstraints ((stmtsOf D entity p).map (·.payload)) (D.cfg entity).payload)
    (hpol : ∀ p, Up D entity p → ∀ s ∈ stmtsOf D entity p, SatisfiedBy want M (D.cfg entity).payload s.payload) :
    ∃ out, (getVerified V st entity stopAt).1 = .ok out ∧ out ≠ [] ∧ (∀ p, Up D entity p → ∃ tc ∈ out, Resolved D want entity p tc) ∧
      ∀ tc ∈ out, ∃ p, Up D entity p ∧ Resolved D want entity p tc := by
  refine w.resolved V F st now stopAt entity D S rank want M ?_ he hfuel hhints hmd hcon hpol
  rw [hW, hst]
  exact (Collect.collect_aging (Collect.runAll_aging (C := V.L.toCrypto) (P := V.P) hd hpl h now hl ho ht hp) hd hpl V.fuel entity stopAt hpe).2 (w.inForce he)

/-- So the metadata handed out for it, and the chains kept, are those of one of the ways up. -/
theorem C109_metadata_partial (V : Env) (F : Collect.Federation) (st : State) (now : Int) (h : List Collect.FRun) (entity : String) (D : Directory) (S : String → Prop) (rank : String → Nat)
    (want : String → String → Policy.Want) (M : String → Policy.Metadata)
    (hW : V.W = F.at now) (hd : F.Dated) (hpl : F.PlainHints) (hl : F.Steady V.L.toCrypto V.P now)
    (hst : st.coll = Collect.runAll V.L.toCrypto V.P (h.map (Collect.FRun.run F))) (ho : h.Pairwise fun a b => a.time ≤ b.time) (ht : ∀ r ∈ h, r.time ≤ now) (hp : ∀ r ∈ h, Collect.Plain r.entity)
    (w : WellRun V.L V.P F now "" st.jar D S rank) (he : S entity) (hpe : Collect.Plain entity) (hfuel : rank entity < V.fuel)
    (hhints : (D.cfg entity).payload.hints ≠ none) (hmd : (D.cfg entity).payload.metadata ≠ none)
    (hcon : ∀ p, Up D entity p → WithinConstraints ((stmtsOf D entity p).map (·.payload)) (D.cfg entity).payload)
    (hpol : ∀ p, Up D entity p → ∀ s ∈ stmtsOf D entity p, SatisfiedBy want M (D.cfg entity).payload s.payload)
    (hnew : st.store.get? entity = none) :
    ∃ md st' p, getVerifiedMetadata V st entity = (.ok (some md), st') ∧ Up D entity p ∧ AsDeclared want ((stmtsOf D entity p).map (·.payload)) (D.cfg entity).payload md ∧
      ∃ tcs, st'.store.get? entity = some tcs ∧ ∀ tc ∈ tcs, ∃ p, Up D entity p ∧ Resolved D want entity p tc := by
  obtain ⟨out, h1, h2, -, h3⟩ := C109_resolved_partial V F st now h "" entity D S rank want M hW hd hpl hl hst ho ht hp w he hpe hfuel hhints hmd hcon hpol
  cases out with
  | nil => exact absurd rfl h2
  | cons tc out =>
    obtain ⟨p, hp, hr⟩ := h3 tc (by simp)
    refine ⟨tc.metadata, { (getVerified V st entity).2 with store := (getVerified V st entity).2.store.set entity (tc :: out) }, p, ?_, hp, hr.metadata, tc :: out, Dict.get?_set_self .., h3⟩
    unfold getVerifiedMetadata getTrustChains
    rw [hnew]
    simp only
    generalize getVerified V st entity = r at h1 ⊢
    obtain ⟨r1, st1⟩ := r
    simp only at h1
    subst h1
    rfl

/-! ### An example

`leaf` is below `im` and `im2`, both below `ta`, which allows a path of one intermediate and a set of scopes.
-/
namespace Ex
def hints109 : String → Option (List String)
  | "https://leaf" => some ["https://im", "https://im2"]
  | "https://im" => some ["https://ta"]
  | "https://im2" => some ["https://ta"]
  | _ => none
def pol109 : Dict Policy.MetadataPolicy := [("openid_relying_party", [("scopes", [("subset_of", .arr [.str "openid", .str "email", .str "phone"])])])]
def D109 : Directory where
  cfg e := conf e (hints109 e) (if e = "https://leaf" then rp (.arr [.str "email", .str "openid"]) else fe true)
  about a e := { about a e (if a = "https://ta" then pol109 else []) with
    payload := { (about a e (if a = "https://ta" then pol109 else [])).payload with constraints := if a = "https://ta" then some ⟨some 1, none⟩ else none } }
  keys e := [keyOf e]
def S109 (e : String) : Prop := e ∈ ["https://leaf", "https://im", "https://im2", "https://ta"]
def F109 : Collect.Federation where
  config e := if e ∈ ["https://leaf", "https://im", "https://im2", "https://ta"] then .ok (some (D109.cfg e)) else .error .missingPage
  fetch _ a e := .ok (some (D109.about a e))
def rank109 : String → Nat
  | "https://leaf" => 2
  | "https://im" => 1
  | "https://im2" => 1
  | _ => 0
def want109 (_ _ : String) : Policy.Want := .list [.str "email", .str "openid"] [] [] false

theorem hints109_some {e : String} {hs : List String} (h : hints109 e = some hs) :
    (e = "https://leaf" ∧ hs = ["https://im", "https://im2"]) ∨ (e = "https://im" ∧ hs = ["https://ta"]) ∨ e = "https://im2" ∧ hs = ["https://ta"] := by
  unfold hints109 at h
  split at h <;> simp_all

theorem up109 {p : List String} (h : Up D109 "https://leaf" p) : p = ["https://im", "https://ta"] ∨ p = ["https://im2", "https://ta"] := by
  have hta : ∀ p, ¬ Up D109 "https://ta" p := by
    intro p h
    cases h with
    | top hh => exact nomatch hh
    | step hh => exact nomatch hh
  have him : ∀ x, x ∈ ["https://im", "https://im2"] → ∀ p, Up D109 x p → p = ["https://ta"] := by
    intro x hx p h
    have hs : ∀ hs, hints109 x = some hs → hs = ["https://ta"] := by
      intro hs hh
      simp only [List.mem_cons, List.not_mem_nil, or_false] at hx
      rcases hx with rfl | rfl <;> · cases hh; rfl
    cases h with
    | top hh ha _ =>
      have := hs _ hh
      subst this
      simp only [List.mem_singleton] at ha
      rw [ha]
    | step hh ha hp =>
      have := hs _ hh
      subst this
      simp only [List.mem_singleton] at ha
      subst ha
      exact absurd hp (hta _)
  cases h with
  | top hh ha hn =>
    have : _ = ["https://im", "https://im2"] := (Option.some.inj hh).symm
    subst this
    simp only [List.mem_cons, List.not_mem_nil, or_false] at ha
    rcases ha with rfl | rfl <;> exact absurd hn (by decide)
  | step hh ha hp =>
    have : _ = ["https://im", "https://im2"] := (Option.some.inj hh).symm
    subst this
    have := him _ ha _ hp
    subst this
    simp only [List.mem_cons, List.not_mem_nil, or_false] at ha
    rcases ha with rfl | rfl <;> simp

theorem wellRun109 : WellRun L { anchors := ["https://ta"] } F109 0 "" [("https://ta", [1])] D109 S109 rank109 where
  config e he := by unfold S109 at he; simp only [F109, if_pos he]
  self e _ := ⟨rfl, _, rfl, fun _ h => h⟩
  selfSigned e _ := ⟨keyOf e, by simp [D109], rfl, by simp [L, D109, conf]⟩
  current e _ := by simp [L, notExpired, D109, conf]
  fresh e _ := ⟨10000, rfl, by decide⟩
  notStop e hs he _ := by rintro rfl; revert he; unfold S109; decide
  hints e hs _ hh := by
    rcases hints109_some hh with ⟨rfl, rfl⟩ | ⟨rfl, rfl⟩ | ⟨rfl, rfl⟩ <;> refine ⟨by simp, ?_⟩ <;> unfold S109 <;> decide
  served e hs a _ hh ha := by
    refine ⟨[("federation_fetch_endpoint", .str "fetch")], .str "fetch", ?_, by decide, by decide, rfl⟩
    rcases hints109_some hh with ⟨rfl, rfl⟩ | ⟨rfl, rfl⟩ | ⟨rfl, rfl⟩ <;> revert a <;> decide
  stated e hs a _ hh ha := ⟨rfl, rfl, ⟨_, rfl, fun _ h => h⟩, _, rfl⟩
  signed e hs a _ hh ha := ⟨keyOf a, by simp [D109], rfl, by simp [L, D109, about]⟩
  anchors e he hn := by
    unfold S109 at he
    simp only [List.mem_cons, List.not_mem_nil, or_false] at he
    rcases he with rfl | rfl | rfl | rfl
    · exact absurd hn (by decide)
    · exact absurd hn (by decide)
    · exact absurd hn (by decide)
    · decide
end Ex

theorem Ex.within109 : ∀ p, Up Ex.D109 "https://leaf" p → WithinConstraints ((stmtsOf Ex.D109 "https://leaf" p).map (·.payload)) (Ex.D109.cfg "https://leaf").payload := by
  have hu : ∀ s : String, (Constraints.labelsOf s).isSome = true → Constraints.IsUrl s := fun s hs => Constraints.isUrl_iff.2 (Option.isSome_iff_exists.1 hs)
  intro p hp
  have nil : ∀ a e, (toC (Ex.D109.about a e).payload).permitted = [] ∧ (toC (Ex.D109.about a e).payload).excluded = [] ∧ (toC (Ex.D109.about a e).payload).naming = none := by
    intro a e
    by_cases h : a = "https://ta" <;> simp [Ex.D109, toC, Constraints.CStatement.permitted, Constraints.CStatement.excluded, Constraints.CStatement.naming, h]
  have mem : ∀ s ∈ stmtsOf Ex.D109 "https://leaf" p, ∃ a e, s = Ex.D109.about a e ∧ Constraints.IsUrl e := by
    intro s hs
    rcases Ex.up109 hp with rfl | rfl <;> simp only [stmtsOf, List.nil_append, List.cons_append, List.mem_cons, List.not_mem_nil, or_false] at hs <;>
      rcases hs with rfl | rfl <;> exact ⟨_, _, rfl, hu _ (by decide +kernel)⟩
  have keeps : ∀ s sts, (∀ st ∈ sts, ∃ a e, st = toC (Ex.D109.about a e).payload) → Constraints.Keeps s sts := by
    intro s sts h st hst
    obtain ⟨a, e, rfl⟩ := h st hst
    simp [(nil a e).1, (nil a e).2.1]
  have memC : ∀ st ∈ ((stmtsOf Ex.D109 "https://leaf" p).map (·.payload)).map toC, ∃ a e, st = toC (Ex.D109.about a e).payload := by
    intro st hst
    simp only [List.map_map, List.mem_map] at hst
    obtain ⟨s, hs, rfl⟩ := hst
    obtain ⟨a, e, rfl, -⟩ := mem s hs
    exact ⟨a, e, rfl⟩
  refine ⟨?_, ⟨hu _ (by decide +kernel), fun x hx => (by cases hx), fun x hx => (by cases hx)⟩, ?_, ⟨?_, ?_, ?_⟩, ?_⟩
  · intro q hq
    obtain ⟨s, hs, rfl⟩ := List.mem_map.1 hq
    obtain ⟨a, e, rfl, he⟩ := mem s hs
    exact ⟨he, by simp [(nil a e).1], by simp [(nil a e).2.1]⟩
  · intro q hq n hn
    obtain ⟨s, hs, rfl⟩ := List.mem_map.1 hq
    obtain ⟨a, e, rfl, he⟩ := mem s hs
    rw [(nil a e).2.2] at hn
    cases hn
  · intro pre st post c m hs hc hm
    have hlen : post.length ≤ 1 := by
      have := congrArg List.length hs
      rcases Ex.up109 hp with rfl | rfl <;> simp [stmtsOf] at this <;> omega
    obtain ⟨a, e, rfl⟩ := memC st (by rw [hs]; simp)
    simp only [Ex.D109, toC] at hc
    split at hc
    · cases hc; cases hm; omega
    · cases hc
  · intro pre st post hs
    exact keeps _ _ fun st' hst' => memC st' (by rw [hs]; simp only [List.mem_append, List.mem_cons, List.not_mem_nil, or_false] at hst' ⊢; exact hst'.elim Or.inl fun h => Or.inr (Or.inl h))
  · exact keeps _ _ memC
  · unfold Constraints.Narrowing
    refine List.pairwise_of_forall_mem_list ?_
    intro st hst st' hst' o ho
    obtain ⟨a, e, rfl⟩ := memC st hst
    rw [(nil a e).1] at ho
    cases ho

theorem Ex.satisfied109 : ∀ p, Up Ex.D109 "https://leaf" p → ∀ s ∈ stmtsOf Ex.D109 "https://leaf" p, SatisfiedBy Ex.want109 (fun _ => []) (Ex.D109.cfg "https://leaf").payload s.payload := by
  intro p hp s hs t md ht
  have ht : t = "openid_relying_party" ∧ md = [("scopes", .arr [.str "email", .str "openid"])] := by
    change Dict.get? [("openid_relying_party", _)] t = some md at ht
    rw [Dict.get?_cons] at ht
    split at ht
    · next h => exact ⟨h.symm, (Option.some.inj ht).symm⟩
    · cases ht
  obtain ⟨rfl, rfl⟩ := ht
  have hs : ∃ a e, s = Ex.D109.about a e := by
    rcases Ex.up109 hp with rfl | rfl <;> simp only [stmtsOf, List.nil_append, List.cons_append, List.mem_cons, List.not_mem_nil, or_false] at hs <;>
      rcases hs with rfl | rfl <;> exact ⟨_, _, rfl⟩
  obtain ⟨a, e, rfl⟩ := hs
  have hm : ((toP (Ex.D109.about a e).payload).rule "openid_relying_party").metadata = [] := rfl
  have hp : ((toP (Ex.D109.about a e).payload).rule "openid_relying_party").policy = if a = "https://ta" then [("scopes", [("subset_of", .arr [.str "openid", .str "email", .str "phone"])])] else [] := by
    by_cases h : a = "https://ta" <;> simp [Ex.D109, Ex.about, toP, Policy.PStatement.rule, h, Ex.pol109, Dict.get?]
  refine ⟨⟨?_, ?_⟩, ?_, ?_⟩
  · intro c cp hc
    rw [hp] at hc
    split at hc
    · rw [Dict.get?_cons] at hc
      split at hc
      · cases hc
        refine ⟨by simp, by decide, by decide, ⟨rfl, rfl, ?_, ?_, ?_, ?_, ?_⟩, ?_, ?_⟩ <;> simp [Dict.get?, Val.hashable]
      · cases hc
    · cases hc
  · intro c v hc
    rw [hm] at hc
    cases hc
  · intro c _ hc
    rw [hm] at hc
    cases hc
  · intro c hc
    rw [hp] at hc
    split at hc
    · simp only [Dict.keys, List.map_cons, List.map_nil, List.mem_singleton] at hc
      subst hc
      rfl
    · cases hc

/-- The hypotheses of C109 are met, with two ways up, and the theorem applies. -/
example : ∃ out, (getVerified (Ex.env (Ex.F109.at 0)) Ex.st "https://leaf").1 = .ok out ∧ out ≠ [] ∧
    (∀ p, Up Ex.D109 "https://leaf" p → ∃ tc ∈ out, Resolved Ex.D109 Ex.want109 "https://leaf" p tc) ∧
    ∀ tc ∈ out, ∃ p, Up Ex.D109 "https://leaf" p ∧ Resolved Ex.D109 Ex.want109 "https://leaf" p tc := by
  refine C109_resolved_partial (Ex.env (Ex.F109.at 0)) Ex.F109 Ex.st 0 [] "" "https://leaf" Ex.D109 Ex.S109 Ex.rank109 Ex.want109 (fun _ => []) rfl ?_ ?_ ?_ rfl (by simp) (by simp) (by simp)
    Ex.wellRun109 (by unfold Ex.S109; decide) (by decide) (by decide) (by decide) (by decide) Ex.within109 Ex.satisfied109
  · intro k j h
    simp only [Ex.F109] at h
    split at h
    · cases h; exact ⟨_, rfl⟩
    · cases h
  · intro k j hs h hh
    simp only [Ex.F109] at h
    split at h
    · cases h
      rcases Ex.hints109_some hh with ⟨rfl, rfl⟩ | ⟨rfl, rfl⟩ | ⟨rfl, rfl⟩ <;> decide
    · cases h
  · intro k j h t t' _ hn _
    simp only [Ex.F109] at h
    split at h
    · cases h
      simp only [Ex.env, Ex.L, notExpired, Ex.D109, Ex.conf, decide_eq_true_eq]
      omega
    · cases h

end Fed.Chains
