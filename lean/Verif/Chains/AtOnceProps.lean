import Verif.Chains.AtOnce
/-
Property C212: resolving several entities at the same time.
-/
namespace Fed.Chains.AtOnce
open Fed Fed.Verify Prog

/-! ### Threads taking turns -/

/-- The process: what is shared and what each thread has left to do. -/
structure Sys (α : Type) where
  shared : State
  left : Nat → Prog α

/-- The next access of a thread; one that has its result stays as it is. -/
def Prog.step {α : Type} : Prog α → State → Prog α × State
  | .ret a, s => (.ret a, s)
  | .act f k, s => (k s, f s)

/-- Thread `i` gets a turn. -/
def turn {α : Type} (y : Sys α) (i : Nat) : Sys α :=
  { shared := ((y.left i).step y.shared).2, left := fun k => if k = i then ((y.left i).step y.shared).1 else y.left k }

/-- All the turns of a schedule. -/
def turns {α : Type} (y : Sys α) (ts : List Nat) : Sys α := ts.foldl turn y

theorem turns_append {α : Type} (y : Sys α) (ts ts' : List Nat) : turns y (ts ++ ts') = turns (turns y ts) ts' := List.foldl_append

/-- A thread that gets no turn stays as it is. -/
theorem left_of_not_mem {α : Type} {i : Nat} : ∀ {ts : List Nat} {y : Sys α}, i ∉ ts → (turns y ts).left i = y.left i
  | [], _, _ => rfl
  | t :: ts, y, h => by
    simp only [List.mem_cons, not_or] at h
    show (turns (turn y t) ts).left i = _
    rw [left_of_not_mem h.2]
    simp [turn, h.1]

/-- A thread that has its result keeps it. -/
theorem left_ret {α : Type} {i : Nat} {a : α} : ∀ {ts : List Nat} {y : Sys α}, y.left i = .ret a → (turns y ts).left i = .ret a
  | [], _, h => h
  | t :: ts, y, h => by
    refine left_ret (ts := ts) (y := turn y t) ?_
    simp only [turn]
    split
    · rename_i e; subst e; rw [h]; rfl
    · exact h

/-- From now on, whatever others do to what is shared as long as they keep to `I` and `G`, this work keeps to them too, and ends with `Q`. -/
def Safe {α : Type} (I : State → Prop) (G : State → State → Prop) (Q : α → State → Prop) : Prog α → State → Prop
  | .ret a, s => Q a s
  | .act f k, s => ∀ s', G s s' → I s' → I (f s') ∧ G s' (f s') ∧ Safe I G Q (k s') (f s')

section
variable {α β : Type} {I : State → Prop} {G : State → State → Prop} (hr : ∀ s, G s s) (ht : ∀ {a b c}, G a b → G b c → G a c)

include ht in
theorem Safe.mono {Q : α → State → Prop} (hq : ∀ a s s', G s s' → Q a s → Q a s') {s s' : State} (hg : G s s') : ∀ {p : Prog α}, Safe I G Q p s → Safe I G Q p s'
  | .ret _, h => hq _ _ _ hg h
  | .act _ _, h => fun s'' hg' hi => h s'' (ht hg hg') hi

theorem Safe.imp {Q Q' : α → State → Prop} (h : ∀ a s, Q a s → Q' a s) : ∀ {p : Prog α} {s : State}, Safe I G Q p s → Safe I G Q' p s
  | .ret _, _, hp => h _ _ hp
  | .act _ k, _, hp => fun s' hg hi => ⟨(hp s' hg hi).1, (hp s' hg hi).2.1, Safe.imp h (p := k s') (hp s' hg hi).2.2⟩

include hr ht in
theorem Safe.bind {Q' : α → State → Prop} {Q : β → State → Prop} {g : α → Prog β} : ∀ {p : Prog α} {s : State}, Safe I G Q' p s → I s →
    (∀ a s', G s s' → I s' → Q' a s' → Safe I G Q (g a) s') → Safe I G Q (p.bind g) s
  | .ret _, s, hp, hi, hg => hg _ s (hr s) hi hp
  | .act f k, s, hp, _, hg => fun s' h1 h2 => by
    obtain ⟨h3, h4, h5⟩ := hp s' h1 h2
    exact ⟨h3, h4, Safe.bind (p := k s') h5 h3 fun a s'' h6 h7 h8 => hg a s'' (ht h1 (ht h4 h6)) h7 h8⟩

include hr ht in
theorem Safe.andThen {Q' : Except PyErr α → State → Prop} {Q : Except PyErr β → State → Prop} {p : Prog (Except PyErr α)} {g : α → Prog (Except PyErr β)} {s : State}
    (hp : Safe I G Q' p s) (hi : I s) (he : ∀ e s', G s s' → I s' → Q' (.error e) s' → Q (.error e) s')
    (ho : ∀ a s', G s s' → I s' → Q' (.ok a) s' → Safe I G Q (g a) s') : Safe I G Q (p.andThen g) s := by
  refine Safe.bind hr ht hp hi fun r s' h1 h2 h3 => ?_
  cases r with
  | error e => exact he e s' h1 h2 h3
  | ok a => exact ho a s' h1 h2 h3

include hr ht in
/-- What stays true once it is true may be added. -/
theorem Safe.keep {Q : α → State → Prop} {R : State → Prop} (hR : ∀ s s', G s s' → R s → R s') : ∀ {p : Prog α} {s : State}, R s → Safe I G Q p s →
    Safe I G (fun a s => Q a s ∧ R s) p s
  | .ret _, _, h, hp => ⟨hp, h⟩
  | .act f k, s, h, hp => fun s' hg hi => by
    obtain ⟨h1, h2, h3⟩ := hp s' hg hi
    exact ⟨h1, h2, Safe.keep hR (p := k s') (hR _ _ (ht hg h2) h) h3⟩

include hr ht in
/-- Threads each of which is safe are so together, in whatever order they get their turns. -/
theorem Safe.turns {Q : Nat → α → State → Prop} (hq : ∀ i a s s', G s s' → Q i a s → Q i a s') : ∀ {ts : List Nat} {y : Sys α}, I y.shared →
    (∀ i, Safe I G (Q i) (y.left i) y.shared) →
    I (turns y ts).shared ∧ G y.shared (turns y ts).shared ∧ ∀ i, Safe I G (Q i) ((AtOnce.turns y ts).left i) (AtOnce.turns y ts).shared
  | [], y, hi, hs => ⟨hi, hr _, hs⟩
  | t :: ts, y, hi, hs => by
    have key : I (turn y t).shared ∧ G y.shared (turn y t).shared ∧ Safe I G (Q t) ((y.left t).step y.shared).1 (turn y t).shared := by
      have := hs t
      simp only [turn]
      revert this
      cases y.left t with
      | ret a => intro h; exact ⟨hi, hr _, h⟩
      | act f k => intro h; exact h _ (hr _) hi
    obtain ⟨h1, h2, h3⟩ := key
    obtain ⟨h4, h5, h6⟩ := Safe.turns hq (ts := ts) (y := turn y t) h1 fun i => by
      by_cases h : i = t
      · subst h; simpa [turn] using h3
      · have : (turn y t).left i = y.left i := by simp [turn, h]
        rw [this]
        exact Safe.mono (I := I) (G := G) ht (hq i) h2 (hs i)
    exact ⟨h4, ht h2 h5, h6⟩
end

/-! ### What is kept -/

/-- Nothing is taken away. -/
structure Later (s s' : State) : Prop where
  config : ∀ k, s.coll.config.get? k ≠ none → s'.coll.config.get? k ≠ none
  es : ∀ k, s.coll.es.get? k ≠ none → s'.coll.es.get? k ≠ none
  jar : Threads.Grows s.jar s'.jar

theorem Later.refl (s : State) : Later s s := ⟨fun _ h => h, fun _ h => h, Threads.Grows.refl _⟩
theorem Later.trans {a b c : State} (h : Later a b) (h' : Later b c) : Later a c :=
  ⟨fun k hk => h'.config k (h.config k hk), fun k hk => h'.es k (h.es k hk), h.jar.trans h'.jar⟩

/-- The caches hold nothing about the members of the federation but what they publish, the key jar holds the keys it held in the beginning, and what is stored for a member is good. -/
structure Kept (D : Directory) (S : String → Prop) (jar : KeyJar) (good : String → List TrustChain → Prop) (s : State) : Prop where
  config : ∀ e c, S e → s.coll.config.get? e = some c → c = ⟨D.cfg e⟩
  es : ∀ e hs a v, S e → (D.cfg e).payload.hints = some hs → a ∈ hs → s.coll.es.get? (Collect.cacheKey a e) = some v → v = .stmt (D.about a e) ∧ s.coll.config.get? a ≠ none
  time : ∀ e hs a v, S e → (D.cfg e).payload.hints = some hs → a ∈ hs → s.coll.es.get? (Collect.timeKey a e) = some v → ∃ x, (D.about a e).payload.exp = some x ∧ v = .time x
  jar : Threads.Grows jar s.jar
  store : ∀ e tcs, S e → s.store.get? e = some tcs → good e tcs

/-- The statement of `a` about `b` is on a way up from `e`. -/
inductive Above (D : Directory) : String → String → String → Prop
  | here {e hs a} : (D.cfg e).payload.hints = some hs → a ∈ hs → Above D e a e
  | up {e hs c a b} : (D.cfg e).payload.hints = some hs → c ∈ hs → Above D c a b → Above D e a b

/-- The times at which the statements on the ways up from `e` expire are all there. -/
def Complete (D : Directory) (e : String) (s : State) : Prop := ∀ a b, Above D e a b → s.coll.es.get? (Collect.timeKey a b) ≠ none

theorem Complete.mono {D : Directory} {e : String} {s s' : State} (h : Later s s') (hc : Complete D e s) : Complete D e s' :=
  fun a b hab => h.es _ (hc a b hab)

section
variable {L : Lib} {P : Collect.Params} {F : Collect.Federation} {now : Int} {stopAt : String} {jar : KeyJar} {D : Directory} {S : String → Prop} {rank : String → Nat}
  {good : String → List TrustChain → Prop}

theorem Kept.setConfig {s : State} (h : Kept D S jar good s) (a : String) : Kept D S jar good (onConfig (fun d => d.set a ⟨D.cfg a⟩) s) where
  config e c he hc := by
    simp only [onConfig, Dict.get?_set] at hc
    split at hc
    · rename_i e'; subst e'; cases hc; rfl
    · exact h.config e c he hc
  es e hs b v he hh hb hv := by
    obtain ⟨h1, h2⟩ := h.es e hs b v he hh hb hv
    refine ⟨h1, ?_⟩
    simp only [onConfig, Dict.get?_set]
    split
    · simp
    · exact h2
  time := h.time
  jar := h.jar
  store := h.store

theorem later_setConfig (s : State) (a : String) (c : Collect.Config) : Later s (onConfig (fun d => d.set a c) s) where
  config k hk := by
    simp only [onConfig, Dict.get?_set]
    split
    · simp
    · exact hk
  es _ h := h
  jar := Threads.Grows.refl _

theorem later_setEs (s : State) (k : String) (v : Collect.ESVal) : Later s (onEs (fun d => d.set k v) s) where
  config _ h := h
  es q hq := by
    simp only [onEs, Dict.get?_set]
    split
    · simp
    · exact hq
  jar := Threads.Grows.refl _

theorem Kept.setStmt {s : State} (h : Kept D S jar good s) {a e : String} (ha : Collect.Plain a) (he : Collect.Plain e) (hc : s.coll.config.get? a ≠ none) :
    Kept D S jar good (onEs (fun d => d.set (Collect.cacheKey a e) (.stmt (D.about a e))) s) where
  config := h.config
  es e' hs a' v he' hh ha' hv := by
    simp only [onEs, Dict.get?_set] at hv
    split at hv
    · rename_i hk
      obtain ⟨rfl, rfl⟩ := Collect.cacheKey_inj ha he hk
      cases hv
      exact ⟨rfl, hc⟩
    · exact h.es e' hs a' v he' hh ha' hv
  time e' hs a' v he' hh ha' hv := by
    simp only [onEs, Dict.get?_set] at hv
    split at hv
    · rename_i hk; exact absurd hk (Collect.not_plain_cacheKey_timeKey ha he)
    · exact h.time e' hs a' v he' hh ha' hv
  jar := h.jar
  store := h.store

theorem Kept.setTime {s : State} (h : Kept D S jar good s) {a e : String} (ha : Collect.Plain a) (he : Collect.Plain e) {x : Int} (hx : (D.about a e).payload.exp = some x) :
    Kept D S jar good (onEs (fun d => d.set (Collect.timeKey a e) (.time x)) s) where
  config := h.config
  es e' hs a' v he' hh ha' hv := by
    simp only [onEs, Dict.get?_set] at hv
    split at hv
    · rename_i hk; exact absurd hk (Collect.not_plain_timeKey_cacheKey ha he)
    · exact h.es e' hs a' v he' hh ha' hv
  time e' hs a' v he' hh ha' hv := by
    simp only [onEs, Dict.get?_set] at hv
    split at hv
    · rename_i hk
      obtain ⟨rfl, rfl⟩ := Collect.timeKey_inj ha he hk
      cases hv
      exact ⟨x, hx, rfl⟩
    · exact h.time e' hs a' v he' hh ha' hv
  jar := h.jar
  store := h.store

/-! ### Each step of a resolution -/

local notation "SafeK" => Safe (Kept D S jar good) Later

theorem subscript_safe (w : WellRun L P F now stopAt jar D S rank) {a : String} (ha : S a) (s : State) :
    SafeK (fun r s' => (r = .ok none ∧ s.coll.config.get? a = none) ∨ (r = .ok (some ⟨D.cfg a⟩) ∧ s'.coll.config.get? a ≠ none)) (subscriptP P.delta now a) s := by
  intro s' hl hk
  refine ⟨hk, Later.refl _, ?_⟩
  simp only [id]
  cases hc : s'.coll.config.get? a with
  | none =>
    refine Or.inl ⟨rfl, ?_⟩
    cases h : s.coll.config.get? a with
    | none => rfl
    | some c => exact absurd hc (hl.config a (by rw [h]; simp))
  | some c =>
    have := hk.config a c ha hc
    subst this
    obtain ⟨x, hx, hn⟩ := w.fresh a ha
    simp only [hx, if_pos hn]
    exact Or.inr ⟨rfl, by rw [hc]; simp⟩

/-- The configuration of an authority and the fetch endpoint in it. -/
theorem refresh_safe (w : WellRun L P F now stopAt jar D S rank) {a : String} (ha : S a) {ep : Val} (hep : Collect.getFetchEndpoint (D.cfg a).payload = .ok (some ep)) (s : State) :
    SafeK (fun r s' => r = .ok (some ep) ∧ s'.coll.config.get? a ≠ none) (refreshP L.toCrypto (F.at now) a) s := by
  obtain ⟨h1, h2⟩ := Collect.publishedConfig_iff.1 (w.published ha)
  simp only [refreshP, Collect.Federation.at, h1, h2, hep]
  intro s' _ hk
  exact ⟨hk.setConfig a, later_setConfig _ _ _, rfl, by simp [onConfig, Dict.get?_set_self]⟩

theorem fetchEndpoint_safe (w : WellRun L P F now stopAt jar D S rank) {a : String} (ha : S a) {ep : Val} (hep : Collect.getFetchEndpoint (D.cfg a).payload = .ok (some ep))
    (htr : ep.truthy = true) (s : State) (hs : Kept D S jar good s) :
    SafeK (fun r s' => r = .ok (some ep) ∧ s'.coll.config.get? a ≠ none) (fetchEndpointP L.toCrypto P (F.at now) a) s := by
  refine Safe.andThen Later.refl Later.trans (subscript_safe w ha s) hs ?_ ?_
  · rintro e s' - - (⟨h, -⟩ | ⟨h, -⟩) <;> cases h
  · rintro o s' hl hk (⟨h, -⟩ | ⟨h, h'⟩)
    · cases h
      exact refresh_safe w ha hep s'
    · cases h
      simp only [hep, Collect.usableEndpoint, htr, if_true]
      exact ⟨rfl, h'⟩

theorem fetchStatement_safe (w : WellRun L P F now stopAt jar D S rank) (hpl : ∀ e, S e → Collect.Plain e) {e a : String} {hs : List String} (he : S e)
    (hh : (D.cfg e).payload.hints = some hs) (ha : a ∈ hs) (s : State) (hk : Kept D S jar good s) :
    SafeK (fun r s' => r = .ok (some (D.about a e)) ∧ s'.coll.es.get? (Collect.timeKey a e) ≠ none ∧ s'.coll.config.get? a ≠ none) (fetchStatementP L.toCrypto P (F.at now) e a) s := by
  have hsa := ((w.hints e hs he hh).2 a ha).1
  obtain ⟨fe, ep, h1, h2, h3, h4⟩ := w.served e hs a he hh ha
  obtain ⟨-, -, -, x, hx⟩ := w.stated e hs a he hh ha
  have hep : Collect.getFetchEndpoint (D.cfg a).payload = .ok (some ep) := by simp [Collect.getFetchEndpoint, h1, h2]
  refine Safe.andThen Later.refl Later.trans (fetchEndpoint_safe w hsa hep h3 s hk) hk ?_ ?_
  · rintro e s' - - ⟨h, -⟩; cases h
  · rintro o s1 - - ⟨h, hc⟩
    cases h
    simp only [Collect.usableEndpoint, h3, if_true, Collect.Federation.at, h4]
    intro s2 hl hk2
    have hc2 := hl.config a hc
    refine ⟨hk2.setStmt (hpl a hsa) (hpl e he) hc2, later_setEs _ _ _, ?_⟩
    simp only [hx]
    intro s3 hl3 hk3
    refine ⟨hk3.setTime (hpl a hsa) (hpl e he) hx, later_setEs _ _ _, rfl, ?_, ?_⟩
    · simp [onEs, Dict.get?_set_self]
    · exact hl3.config a hc2

/-- A statement: the one that is published, or TypeError when the time it expires is not there yet. -/
theorem getStatement_safe (w : WellRun L P F now stopAt jar D S rank) (hpl : ∀ e, S e → Collect.Plain e)
    (hold : ∀ e hs a x, S e → (D.cfg e).payload.hints = some hs → a ∈ hs → (D.about a e).payload.exp = some x → now ≤ x - P.delta)
    {e a : String} {hs : List String} (he : S e) (hh : (D.cfg e).payload.hints = some hs) (ha : a ∈ hs) (s : State) :
    SafeK (fun r s' => (r = .ok (some (D.about a e)) ∧ s'.coll.es.get? (Collect.timeKey a e) ≠ none ∧ s'.coll.config.get? a ≠ none) ∨ (r = .error .typeError ∧ s.coll.es.get? (Collect.timeKey a e) = none))
      (getStatementP L.toCrypto P (F.at now) e a) s := by
  intro s1 hl1 hk1
  refine ⟨hk1, Later.refl _, ?_⟩
  simp only [id]
  cases hc : s1.coll.es.get? (Collect.cacheKey a e) with
  | none => exact (fetchStatement_safe w hpl he hh ha s1 hk1).imp fun _ _ h => Or.inl h
  | some v =>
    obtain ⟨rfl, hcfg⟩ := hk1.es e hs a v he hh ha hc
    simp only
    intro s2 hl2 hk2
    refine ⟨hk2, Later.refl _, ?_⟩
    simp only [id]
    cases ht : s2.coll.es.get? (Collect.timeKey a e) with
    | none =>
      refine Or.inr ⟨rfl, ?_⟩
      cases h0 : s.coll.es.get? (Collect.timeKey a e) with
      | none => rfl
      | some v => exact absurd ht ((hl1.trans hl2).es _ (by rw [h0]; simp))
    | some v =>
      obtain ⟨x, hx, rfl⟩ := hk2.time e hs a v he hh ha ht
      have hn : ¬ (F.at now).now > x - P.delta := by
        have := hold e hs a x he hh ha hx
        simp only [Collect.Federation.at]
        omega
      simp only [if_neg hn]
      exact Or.inl ⟨rfl, by rw [ht]; simp, hl2.config a hcfg⟩

theorem overHints_safe {bp : String → Prog (Except PyErr Collect.Branch)} {ib : String → Option Collect.Branch} {b : String → Collect.Branch} {A : String → State → Prop} {B : Prop} {s0 : State}
    (hA : ∀ a s s', Later s s' → A a s → A a s') : ∀ {hs : List String} {acc f : Collect.Forest Jws},
    (∀ a ∈ hs, ib a = some (b a)) →
    (∀ a ∈ hs, ∀ s, Later s0 s → Kept D S jar good s → SafeK (fun r s' => (r = .ok (b a) ∧ A a s') ∨ (r = .error .typeError ∧ B)) (bp a) s) →
    Collect.idealHints ib hs acc = some f → ∀ s, Later s0 s → Kept D S jar good s →
    SafeK (fun r s' => (r = .ok f ∧ ∀ a ∈ hs, A a s') ∨ (r = .error .typeError ∧ B)) (overHintsP bp hs acc) s
  | [], acc, f, _, _, hf, s, _, _ => by
    simp only [Collect.idealHints, Option.some.injEq] at hf
    subst hf
    exact Or.inl ⟨rfl, by simp⟩
  | a :: as, acc, f, hi, hb, hf, s, hl, hk => by
    rw [Collect.idealHints, hi a (by simp)] at hf
    refine Safe.andThen Later.refl Later.trans (hb a (by simp) s hl hk) hk ?_ ?_
    · rintro e s' - - (⟨h, -⟩ | ⟨h, h'⟩)
      · cases h
      · cases h; exact Or.inr ⟨rfl, h'⟩
    · rintro x s' hl' hk' (⟨h, h'⟩ | ⟨h, -⟩)
      · cases h
        have := overHints_safe hA (hs := as) (fun a ha => hi a (by simp [ha])) (fun a ha => hb a (by simp [ha])) hf s' (hl.trans hl') hk'
        refine (this.keep Later.refl Later.trans (hA a) h').imp ?_
        rintro r s'' ⟨⟨h1, h2⟩ | h1, h3⟩
        · refine Or.inl ⟨h1, fun c hc => ?_⟩
          rcases List.mem_cons.1 hc with rfl | hc
          · exact h3
          · exact h2 c hc
        · exact Or.inr h1
      · cases h

/-- The tree of an entity: the one the federation publishes, or TypeError. -/
theorem collectTree_safe (w : WellRun L P F now stopAt jar D S rank) (hpl : ∀ e, S e → Collect.Plain e)
    (hold : ∀ e hs a x, S e → (D.cfg e).payload.hints = some hs → a ∈ hs → (D.about a e).payload.exp = some x → now ≤ x - P.delta) :
    ∀ (n : Nat) (e : String) (f : Collect.Forest Jws), S e → rank e < n → Collect.idealTree L.toCrypto P F now stopAt n e (D.cfg e).payload = some f → ∀ s, Kept D S jar good s →
    SafeK (fun r s' => (r = .ok f ∧ Complete D e s') ∨ (r = .error .typeError ∧ ¬ Complete D e s))
      (collectTreeP L.toCrypto P (F.at now) stopAt n e (some (D.cfg e).payload)) s
  | 0, _, _, _, h, _, _, _ => absurd h (by omega)
  | n + 1, e, f, he, hr, hf, s, hk => by
    rw [Collect.idealTree] at hf
    rw [collectTreeP]
    cases hh : (D.cfg e).payload.hints with
    | none =>
      rw [hh] at hf
      simp only [Option.some.injEq] at hf
      subst hf
      refine Or.inl ⟨rfl, fun a b h => ?_⟩
      cases h with
      | here h => rw [hh] at h; cases h
      | up h => rw [hh] at h; cases h
    | some hs =>
      obtain ⟨-, hmem⟩ := w.hints e hs he hh
      have hiss : (D.cfg e).payload.iss ≠ stopAt := by rw [(w.self e he).1]; exact w.notStop e hs he hh
      simp only [hh, if_neg hiss] at hf ⊢
      have ih : ∀ a, ∃ g, a ∈ hs → Collect.idealTree L.toCrypto P F now stopAt n a (D.cfg a).payload = some g := by
        intro a
        by_cases ha : a ∈ hs
        · obtain ⟨g, hg, -⟩ := w.tree n a (hmem a ha).1 (by have := (hmem a ha).2; omega)
          exact ⟨g, fun _ => hg⟩
        · exact ⟨.nil, fun h => absurd h ha⟩
      obtain ⟨sub, hsub⟩ := Classical.axiomOfChoice ih
      have hea : ∀ a ∈ hs, e ≠ a := by rintro a ha rfl; have := (hmem e ha).2; omega
      have hb : ∀ a ∈ hs, Collect.idealBranch L.toCrypto P F now (Collect.idealTree L.toCrypto P F now stopAt n) e a = some (some (D.about a e, sub a)) := by
        intro a ha
        obtain ⟨x, hx, hn⟩ := w.fresh a (hmem a ha).1
        have hfr : Collect.freshAt P now (D.cfg a) = true := by rw [Collect.freshAt_of hx]; simpa using hn
        simp [Collect.idealBranch, hea a ha, w.statement he hh ha, w.published (hmem a ha).1, hfr, hsub a ha]
      refine (overHints_safe (A := fun a s => s.coll.es.get? (Collect.timeKey a e) ≠ none ∧ Complete D a s) (B := ¬ Complete D e s)
        (fun a s s' hl h => ⟨hl.es _ h.1, h.2.mono hl⟩) hb ?_ hf s (Later.refl s) hk).imp ?_
      · intro a ha s0 hl0 hk0
        have hsa := (hmem a ha).1
        rw [collectBranchP, if_neg fun h => hea a ha h.1]
        refine Safe.andThen Later.refl Later.trans (getStatement_safe w hpl hold he hh ha s0) hk0 ?_ ?_
        · rintro x s' - - (⟨h, -⟩ | ⟨h, h'⟩)
          · cases h
          · cases h; exact Or.inr ⟨rfl, fun hall => hl0.es _ (hall _ _ (.here hh ha)) h'⟩
        · rintro o s1 hl1 hk1 (⟨h, h1, h2⟩ | ⟨h, -⟩)
          · cases h
            refine Safe.andThen Later.refl Later.trans ((subscript_safe w hsa s1).keep Later.refl Later.trans (R := fun s => s.coll.es.get? (Collect.timeKey a e) ≠ none) (fun s s' hl h => hl.es _ h) h1) hk1 ?_ ?_
            · rintro x s' - - ⟨⟨h, -⟩ | ⟨h, -⟩, -⟩ <;> cases h
            · rintro c s2 hl2 hk2 ⟨⟨h, h3⟩ | ⟨h, -⟩, h4⟩
              · exact absurd h3 h2
              · cases h
                refine Safe.andThen Later.refl Later.trans ((collectTree_safe w hpl hold n a (sub a) hsa (by have := (hmem a ha).2; omega) (hsub a ha) s2 hk2).keep
                  Later.refl Later.trans (R := fun s => s.coll.es.get? (Collect.timeKey a e) ≠ none) (fun s s' hl h => hl.es _ h) h4) hk2 ?_ ?_
                · rintro x s' - - ⟨⟨h, -⟩ | ⟨h, h'⟩, -⟩
                  · cases h
                  · cases h; exact Or.inr ⟨rfl, fun hall => h' fun c b hcb => (hl0.trans (hl1.trans hl2)).es _ (hall c b (.up hh ha hcb))⟩
                · rintro g s3 - - ⟨⟨h, h5⟩ | ⟨h, -⟩, h6⟩
                  · cases h
                    exact Or.inl ⟨rfl, h6, h5⟩
                  · cases h
          · cases h
      · rintro r s' (⟨h, h'⟩ | h)
        · refine Or.inl ⟨h, fun a b hab => ?_⟩
          cases hab with
          | here h1 h2 => rw [hh] at h1; cases h1; exact (h' a h2).1
          | up h1 h2 h3 => rw [hh] at h1; cases h1; exact (h' _ h2).2 a b h3
        · exact Or.inr h

theorem collect_safe (w : WellRun L P F now stopAt jar D S rank) (hd : 0 ≤ P.delta) (hpl : ∀ e, S e → Collect.Plain e)
    (hold : ∀ e hs a x, S e → (D.cfg e).payload.hints = some hs → a ∈ hs → (D.about a e).payload.exp = some x → now ≤ x - P.delta)
    (n : Nat) (e : String) (f : Collect.Forest Jws) (he : S e) (hr : rank e < n) (hf : Collect.idealTree L.toCrypto P F now stopAt n e (D.cfg e).payload = some f) (s : State) :
    SafeK (fun r s' => (r = .ok (f, D.cfg e) ∧ Complete D e s') ∨ (r = .error .typeError ∧ ¬ Complete D e s))
      (collectP L.toCrypto P (F.at now) n e stopAt) s := by
  have rest : ∀ s0, Later s s0 → Kept D S jar good s0 → SafeK (fun r s' => (r = .ok (f, D.cfg e) ∧ Complete D e s') ∨ (r = .error .typeError ∧ ¬ Complete D e s))
      ((collectTreeP L.toCrypto P (F.at now) stopAt n e (some (D.cfg e).payload)).andThen fun f => .ret (.ok (f, D.cfg e))) s0 := by
    intro s0 hl hk
    refine Safe.andThen Later.refl Later.trans (collectTree_safe w hpl hold n e f he hr hf s0 hk) hk ?_ ?_
    · rintro x s' - - (⟨h, -⟩ | ⟨h, h'⟩)
      · cases h
      · cases h; exact Or.inr ⟨rfl, fun hc => h' (hc.mono hl)⟩
    · rintro g s' - - (⟨h, h'⟩ | ⟨h, -⟩)
      · cases h; exact Or.inl ⟨rfl, h'⟩
      · cases h
  intro s1 hl1 hk1
  refine ⟨hk1, Later.refl _, ?_⟩
  simp only [id]
  obtain ⟨h1, h2⟩ := Collect.publishedConfig_iff.1 (w.published he)
  cases hc : s1.coll.config.get? e with
  | none =>
    simp only [Collect.Federation.at, h1, h2]
    intro s2 hl2 hk2
    exact ⟨hk2.setConfig e, later_setConfig _ _ _, rest _ (hl1.trans (hl2.trans (later_setConfig _ _ _))) (hk2.setConfig e)⟩
  | some c =>
    have := hk1.config e c he hc
    subst this
    obtain ⟨x, hx, hn⟩ := w.fresh e he
    have ho : ¬ now ≥ x + P.delta := by omega
    simp only [Collect.tooOld, hx, Collect.Federation.at, ho, decide_false]
    exact rest s1 hl1 hk1

theorem Kept.setJar {s : State} (h : Kept D S jar good s) (j : KeyJar) (hj : Threads.Grows s.jar j) : Kept D S jar good (onJar (fun _ => j) s) :=
  ⟨h.config, h.es, h.time, h.jar.trans hj, h.store⟩

theorem verifyFrom_safe {chain : List Doc} {tc : TrustChain} (hc : (verifyChain L jar chain).1 = .ok (some tc)) : ∀ (n : Nat) (pc : Threads.Pc) (s : State),
    Threads.need chain pc ≤ n → Threads.Inv L s.jar chain pc → (∀ r, pc = .done r → r = .ok (some tc)) →
    SafeK (fun r _ => r = .ok (some tc)) (verifyFrom L chain n pc) s := by
  have next : ∀ (n : Nat) (pc : Threads.Pc) (s : State), (∀ pc' s', Threads.need chain pc' ≤ n → Threads.Inv L s'.jar chain pc' → (∀ r, pc' = .done r → r = .ok (some tc)) →
      SafeK (fun r _ => r = .ok (some tc)) (verifyFrom L chain n pc') s') →
      Threads.need chain pc ≤ n + 1 → Threads.Inv L s.jar chain pc → (∀ r, pc = .done r → r = .ok (some tc)) →
      SafeK (fun r _ => r = .ok (some tc)) (.act (onJar fun jar => (Threads.access L chain jar pc).2) fun s => verifyFrom L chain n (Threads.access L chain s.jar pc).1) s := by
    intro n pc s ih hn hi hd s' hl hk
    have hi' := hi.mono hl.jar
    have hg := Threads.access_grows L chain s'.jar pc
    refine ⟨hk.setJar _ hg, ⟨fun _ h => h, fun _ h => h, hg⟩, ih _ _ ?_ (Threads.access_inv hi') (Threads.access_safe hk.jar hc hi' hd)⟩
    have := Threads.access_need L chain s'.jar pc
    omega
  intro n
  induction n with
  | zero =>
    intro pc s hn _ hd
    obtain ⟨r, rfl⟩ := Threads.need_zero (Nat.le_zero.1 hn)
    exact hd r rfl
  | succ n ih =>
    intro pc s hn hi hd
    cases pc with
    | done r => exact hd r rfl
    | start => exact next n _ s ih hn hi hd
    | loop _ _ => exact next n _ s ih hn hi hd
    | compare _ _ _ _ => exact next n _ s ih hn hi hd
    | add _ _ _ _ => exact next n _ s ih hn hi hd

theorem verifyChains_grown : ∀ {cs : List (List Doc)} {jar jar' : KeyJar}, (∀ c ∈ cs, ∃ tc, (verifyChain L jar c).1 = .ok (some tc)) → Threads.Grows jar jar' →
    (verifyChains L cs jar').1 = (verifyChains L cs jar).1
  | [], _, _, _, _ => rfl
  | c :: cs, jar, jar', h, hg => by
    obtain ⟨tc, h1⟩ := h c (by simp)
    have h1' := verifyChain_mono hg.1 hg.2 h1
    have k := verifyChain_keeps L jar c
    have k' := verifyChain_keeps L jar' c
    have g : Threads.Grows jar (verifyChain L jar c).2 := ⟨fun e k' => (k e).1 k', fun e => (k e).2⟩
    have g' : Threads.Grows jar' (verifyChain L jar' c).2 := ⟨fun e k => (k' e).1 k, fun e => (k' e).2⟩
    have e1 := verifyChains_grown (cs := cs) (fun c hc => h c (by simp [hc])) g
    have e2 := verifyChains_grown (cs := cs) (fun c hc => h c (by simp [hc])) (hg.trans g')
    rw [← e1] at e2
    rw [verifyChains, verifyChains]
    generalize verifyChain L jar c = r at h1 e2
    generalize verifyChain L jar' c = r' at h1' e2
    obtain ⟨r1, j1⟩ := r
    obtain ⟨r1', j1'⟩ := r'
    simp only at h1 h1' e2
    subst h1 h1'
    simp only
    generalize verifyChains L cs j1 = q at e2
    generalize verifyChains L cs j1' = q' at e2
    obtain ⟨q1, _⟩ := q
    obtain ⟨q1', _⟩ := q'
    simp only at e2
    subst e2
    cases q1' <;> rfl

theorem verifyChains_safe : ∀ {cs : List (List Doc)}, (∀ c ∈ cs, ∃ tc, (verifyChain L jar c).1 = .ok (some tc)) → ∀ s, Kept D S jar good s →
    SafeK (fun r _ => r = (verifyChains L cs jar).1) (verifyChainsP L cs) s
  | [], _, _, _ => rfl
  | c :: cs, h, s, hk => by
    obtain ⟨tc, h1⟩ := h c (by simp)
    have k := verifyChain_keeps L jar c
    have e1 := verifyChains_grown (cs := cs) (fun c hc => h c (by simp [hc])) (show Threads.Grows jar (verifyChain L jar c).2 from ⟨fun e k' => (k e).1 k', fun e => (k e).2⟩)
    have hv : (verifyChains L (c :: cs) jar).1 = match (verifyChains L cs jar).1 with | .error e => .error e | .ok tcs => .ok (tc :: tcs) := by
      rw [verifyChains]
      generalize verifyChain L jar c = r at h1 e1
      obtain ⟨r1, j1⟩ := r
      simp only at h1 e1
      subst h1
      rw [← e1]
      simp only
      generalize verifyChains L cs j1 = q
      obtain ⟨q1, _⟩ := q
      cases q1 <;> rfl
    refine Safe.andThen Later.refl Later.trans (verifyFrom_safe h1 _ .start s (Nat.le_refl _) trivial (by intro r h; cases h)) hk ?_ ?_
    · rintro x s' - - h'; cases h'
    · rintro o s' - hk' h'
      cases h'
      refine Safe.andThen Later.refl Later.trans (verifyChains_safe (cs := cs) (fun c hc => h c (by simp [hc])) s' hk') hk' ?_ ?_
      · rintro x s' - - h'
        rw [hv, ← h']
      · rintro tcs s' - - h'
        show _ = _
        rw [hv, ← h']
        rfl

/-- The work of one thread: it ends with the chains that are good, or with TypeError. -/
theorem getVerified_safe (V : Env) (w : WellRun V.L V.P F now stopAt jar D S rank) (hW : V.W = F.at now) (hd : 0 ≤ V.P.delta) (hpl : ∀ e, S e → Collect.Plain e)
    (hold : ∀ e hs a x, S e → (D.cfg e).payload.hints = some hs → a ∈ hs → (D.about a e).payload.exp = some x → now ≤ x - V.P.delta)
    {e : String} {f : Collect.Forest Jws} {tcs out : List TrustChain} (he : S e) (hr : rank e < V.fuel) (hf : Collect.idealTree V.L.toCrypto V.P F now stopAt V.fuel e (D.cfg e).payload = some f)
    (hacc : ∀ c ∈ docs f (D.cfg e), ∃ tc, (verifyChain V.L jar c).1 = .ok (some tc)) (hv : (verifyChains V.L (docs f (D.cfg e)) jar).1 = .ok tcs)
    (ha : applyPolicies V.E V.K tcs = .ok out) (s : State) (hk : Kept D S jar good s) :
    SafeK (fun r s' => (r = .ok out ∧ Complete D e s') ∨ (r = .error .typeError ∧ ¬ Complete D e s)) (getVerifiedP V e stopAt) s := by
  unfold getVerifiedP
  rw [hW]
  refine Safe.andThen Later.refl Later.trans (collect_safe w hd hpl hold V.fuel e f he hr hf s) hk ?_ ?_
  · rintro x s' - - (⟨h, -⟩ | ⟨h, h'⟩)
    · cases h
    · cases h; exact Or.inr ⟨rfl, h'⟩
  · rintro x s1 - hk1 (⟨h, h1⟩ | ⟨h, -⟩)
    · cases h
      refine Safe.andThen Later.refl Later.trans ((verifyChains_safe (cs := docs f (D.cfg e)) hacc s1 hk1).keep Later.refl Later.trans (R := Complete D e) (fun _ _ hl h => h.mono hl) h1) hk1 ?_ ?_
      · rintro x s' - - ⟨h, -⟩
        rw [hv] at h
        cases h
      · rintro x s' - - ⟨h, h'⟩
        rw [hv] at h
        cases h
        exact Or.inl ⟨ha, h'⟩
    · cases h

theorem getTrustChains_safe (V : Env) (w : WellRun V.L V.P F now "" jar D S rank) (hW : V.W = F.at now) (hd : 0 ≤ V.P.delta) (hpl : ∀ e, S e → Collect.Plain e)
    (hold : ∀ e hs a x, S e → (D.cfg e).payload.hints = some hs → a ∈ hs → (D.about a e).payload.exp = some x → now ≤ x - V.P.delta)
    {e : String} {f : Collect.Forest Jws} {tcs out : List TrustChain} (he : S e) (hr : rank e < V.fuel) (hf : Collect.idealTree V.L.toCrypto V.P F now "" V.fuel e (D.cfg e).payload = some f)
    (hacc : ∀ c ∈ docs f (D.cfg e), ∃ tc, (verifyChain V.L jar c).1 = .ok (some tc)) (hv : (verifyChains V.L (docs f (D.cfg e)) jar).1 = .ok tcs)
    (ha : applyPolicies V.E V.K tcs = .ok out) (hne : out ≠ []) (hg : good e out) (s : State) :
    SafeK (fun r _ => (∃ tcs, r = .ok tcs ∧ good e tcs) ∨ (r = .error .typeError ∧ ¬ Complete D e s)) (getTrustChainsP V e) s := by
  intro s1 hl1 hk1
  refine ⟨hk1, Later.refl _, ?_⟩
  simp only [id]
  cases hs : s1.store.get? e with
  | some tcs => exact Or.inl ⟨tcs, rfl, hk1.store e tcs he hs⟩
  | none =>
    refine Safe.andThen Later.refl Later.trans (getVerified_safe V w hW hd hpl hold he hr hf hacc hv ha s1 hk1) hk1 ?_ ?_
    · rintro x s' - - (⟨h, -⟩ | ⟨h, h'⟩)
      · cases h
      · cases h; exact Or.inr ⟨rfl, fun hc => h' (hc.mono hl1)⟩
    · rintro x s' - - (⟨h, -⟩ | ⟨h, -⟩)
      · cases h
        cases out with
        | nil => exact absurd rfl hne
        | cons tc out =>
          simp only
          intro s2 _ hk2
          refine ⟨⟨hk2.config, hk2.es, hk2.time, hk2.jar, ?_⟩, ⟨fun _ h => h, fun _ h => h, Threads.Grows.refl _⟩, Or.inl ⟨_, rfl, hg⟩⟩
          intro e' tcs' he' h'
          simp only [Dict.get?_set] at h'
          split at h'
          · rename_i hh; subst hh; cases h'; exact hg
          · exact hk2.store e' tcs' he' h'
      · cases h

end

/-! ### C212 -/

/-- Federation entities resolving `entity i` at time `now i`, for any number of `i`, at the same time. The federation is well-run at all these times; what the entities to resolve declare satisfies
the constraints and policies above them (as in C109); no statement is about to expire. -/
structure Setting (V : Env) (F : Collect.Federation) (jar : KeyJar) (D : Directory) (S : String → Prop) (rank : String → Nat) (want : String → String → Policy.Want) (M : String → Policy.Metadata)
    (now : Nat → Int) (entity : Nat → String) : Prop where
  delta : 0 ≤ V.P.delta
  plain : ∀ e, S e → Collect.Plain e
  run : ∀ i, WellRun V.L V.P F (now i) "" jar D S rank
  hold : ∀ i e hs a x, S e → (D.cfg e).payload.hints = some hs → a ∈ hs → (D.about a e).payload.exp = some x → now i ≤ x - V.P.delta
  member : ∀ i, S (entity i)
  depth : ∀ i, rank (entity i) < V.fuel
  hints : ∀ i, (D.cfg (entity i)).payload.hints ≠ none
  metadata : ∀ i, (D.cfg (entity i)).payload.metadata ≠ none
  within : ∀ i p, Up D (entity i) p → WithinConstraints ((stmtsOf D (entity i) p).map (·.payload)) (D.cfg (entity i)).payload
  satisfied : ∀ i p, Up D (entity i) p → ∀ s ∈ stmtsOf D (entity i) p, SatisfiedBy want M (D.cfg (entity i)).payload s.payload

/-- What C109 says a resolution gives: chains for all the ways up, and no others, with the metadata declared. -/
def Good (D : Directory) (want : String → String → Policy.Want) (e : String) (tcs : List TrustChain) : Prop :=
  tcs ≠ [] ∧ (∀ p, Up D e p → ∃ tc ∈ tcs, Resolved D want e p tc) ∧ ∀ tc ∈ tcs, ∃ p, Up D e p ∧ Resolved D want e p tc

/-- The same at another time. -/
def at_ (V : Env) (F : Collect.Federation) (t : Int) : Env := { V with W := F.at t }

/-- Threads that call `get_trust_chains`. -/
def resolving (V : Env) (F : Collect.Federation) (now : Nat → Int) (entity : Nat → String) (s : State) : Sys (Except PyErr (List TrustChain)) :=
  ⟨s, fun i => getTrustChainsP (at_ V F (now i)) (entity i)⟩

/-- Threads that call `get_verified_trust_chains`. -/
def verifying (V : Env) (F : Collect.Federation) (now : Nat → Int) (entity : Nat → String) (s : State) : Sys (Except PyErr (List TrustChain)) :=
  ⟨s, fun i => getVerifiedP (at_ V F (now i)) (entity i)⟩

section
variable {V : Env} {F : Collect.Federation} {jar : KeyJar} {D : Directory} {S : String → Prop} {rank : String → Nat} {want : String → String → Policy.Want} {M : String → Policy.Metadata}
  {now : Nat → Int} {entity : Nat → String}

/-- Everything needed of the entity of thread `i`. -/
theorem Setting.judged (h : Setting V F jar D S rank want M now entity) (i : Nat) :
    ∃ f tcs out, Collect.idealTree V.L.toCrypto V.P F (now i) "" V.fuel (entity i) (D.cfg (entity i)).payload = some f ∧
      (∀ c ∈ docs f (D.cfg (entity i)), ∃ tc, (verifyChain V.L jar c).1 = .ok (some tc)) ∧ (verifyChains V.L (docs f (D.cfg (entity i))) jar).1 = .ok tcs ∧
      applyPolicies V.E V.K tcs = .ok out ∧ Good D want (entity i) out := by
  have w := h.run i
  have he := h.member i
  obtain ⟨f, h1, h2, -, -, h3⟩ := w.tree V.fuel (entity i) he (h.depth i)
  obtain ⟨x, hx, -⟩ := w.fresh _ he
  have hj : (D.cfg (entity i)).payload.jwks ≠ none := by obtain ⟨-, ks, k, -⟩ := w.self _ he; rw [k]; simp
  obtain ⟨tcs, out, h4, h7, h8, h9, h10⟩ := w.judged V F jar (now i) "" (entity i) D S rank want M (D.cfg (entity i)) f h2 h3 he (w.self _ he).1 hj ⟨x, hx⟩
    (w.selfSigned _ he) (h.hints i) (h.metadata i) (h.within i) (h.satisfied i)
  have hres : ∀ {p tc}, ResolvedAs D want (D.cfg (entity i)) (entity i) p tc → Resolved D want (entity i) p tc := fun r => ⟨r.chain, r.anchor, r.metadata⟩
  refine ⟨f, tcs, out, h1, ?_, h4, h7, h8, fun p hp => (h9 p hp).imp fun tc h => ⟨h.1, hres h.2⟩, fun tc htc => (h10 tc htc).imp fun p h => ⟨h.1, hres h.2⟩⟩
  intro c hc
  obtain ⟨p, hp, rfl⟩ := (mem_docs h2 h3 c).1 hc
  obtain ⟨tc, t, -⟩ := w.accepted V F jar (now i) "" (entity i) D S rank (D.cfg (entity i)) he (w.self _ he).1 hj ⟨x, hx⟩ (w.selfSigned _ he) (h.within i) p hp
  exact ⟨tc, t⟩

/-- What thread `i` comes to when it begins with `s`, the same whatever `s` is. -/
theorem Setting.verify (h : Setting V F jar D S rank want M now entity) (i : Nat) : ∃ out, Good D want (entity i) out ∧ ∀ good s, Kept D S jar good s →
    Safe (Kept D S jar good) Later (fun r s' => (r = .ok out ∧ Complete D (entity i) s') ∨ (r = .error .typeError ∧ ¬ Complete D (entity i) s))
      (getVerifiedP (at_ V F (now i)) (entity i)) s := by
  obtain ⟨f, tcs, out, h1, h2, h3, h4, h5⟩ := h.judged i
  exact ⟨out, h5, fun good s hk => getVerified_safe (at_ V F (now i)) (h.run i) rfl h.delta h.plain (h.hold i) (h.member i) (h.depth i) h1 h2 h3 h4 s hk⟩

theorem Safe.of_run {α : Type} {I : State → Prop} {G : State → State → Prop} {Q : α → State → Prop} (hr : ∀ s, G s s) : ∀ {p : Prog α} {s : State}, I s → Safe I G Q p s →
    Q (p.run s).1 (p.run s).2
  | .ret _, _, _, h => h
  | .act f k, s, hi, h => Safe.of_run hr (p := k s) (s := f s) (h s (hr s) hi).1 (h s (hr s) hi).2.2

end

/-- C212 in full: in a well-run federation, any number of entities can be resolved at the same time: each of the threads ends with the chains of its entity. -/
def C212_full : Prop :=
  ∀ (V : Env) (F : Collect.Federation) (jar : KeyJar) (D : Directory) (S : String → Prop) (rank : String → Nat) (want : String → String → Policy.Want) (M : String → Policy.Metadata)
    (now : Nat → Int) (entity : Nat → String), Setting V F jar D S rank want M now entity → ∀ (ts : List Nat) (i : Nat) (r : Except PyErr (List TrustChain)),
    (turns (resolving V F now entity { jar := jar }) ts).left i = .ret r → ∃ tcs, r = .ok tcs ∧ Good D want (entity i) tcs

/-- C212, what holds: whatever the order of turns, a thread ends with the chains of its entity or with TypeError; with TypeError only if, when it all began, one of the statements above its entity
had not been collected. Missing: that it does not end with TypeError (`C212_violation`), and statements that are about to expire and are removed from the cache. -/
theorem C212_resolved_partial (V : Env) (F : Collect.Federation) (D : Directory) (S : String → Prop) (rank : String → Nat) (want : String → String → Policy.Want) (M : String → Policy.Metadata)
    (now : Nat → Int) (entity : Nat → String) (s : State) (h : Setting V F s.jar D S rank want M now entity) (hs : Kept D S s.jar (Good D want) s) (ts : List Nat) (i : Nat)
    (r : Except PyErr (List TrustChain)) (hr : (turns (resolving V F now entity s) ts).left i = .ret r) :
    (∃ tcs, r = .ok tcs ∧ Good D want (entity i) tcs) ∨ (r = .error .typeError ∧ ¬ Complete D (entity i) s) := by
  obtain ⟨-, -, h3⟩ := Safe.turns (I := Kept D S s.jar (Good D want)) (G := Later) Later.refl Later.trans (y := resolving V F now entity s) (ts := ts)
    (Q := fun i (r : Except PyErr (List TrustChain)) _ => (∃ tcs, r = .ok tcs ∧ Good D want (entity i) tcs) ∨ (r = .error .typeError ∧ ¬ Complete D (entity i) s)) (fun _ _ _ _ _ h => h) hs fun k => by
    obtain ⟨f, tcs, out, h1, h2, h3, h4, h5⟩ := h.judged k
    exact getTrustChains_safe (at_ V F (now k)) (h.run k) rfl h.delta h.plain (h.hold k) (h.member k) (h.depth k) h1 h2 h3 h4 h5.1 h5 s
  have := h3 i
  rw [hr] at this
  exact this

/-- Without the chains stored, in the same way; and the chains are those it would have got if it had been alone. -/
theorem C212_verified_partial (V : Env) (F : Collect.Federation) (D : Directory) (S : String → Prop) (rank : String → Nat) (want : String → String → Policy.Want) (M : String → Policy.Metadata)
    (now : Nat → Int) (entity : Nat → String) (s : State) (h : Setting V F s.jar D S rank want M now entity) (hs : Kept D S s.jar (Good D want) s) (ts : List Nat) (i : Nat)
    (r : Except PyErr (List TrustChain)) (hr : (turns (verifying V F now entity s) ts).left i = .ret r) :
    ((∃ tcs, r = .ok tcs ∧ Good D want (entity i) tcs) ∨ (r = .error .typeError ∧ ¬ Complete D (entity i) s)) ∧
    ∀ tcs, (getVerified (at_ V F (now i)) s (entity i)).1 = .ok tcs → r = .ok tcs ∨ r = .error .typeError := by
  have hv := fun k => h.verify k
  obtain ⟨out, hv⟩ := Classical.axiomOfChoice hv
  obtain ⟨-, -, h3⟩ := Safe.turns (I := Kept D S s.jar (Good D want)) (G := Later) Later.refl Later.trans (y := verifying V F now entity s) (ts := ts)
    (Q := fun i (r : Except PyErr (List TrustChain)) s' => (r = .ok (out i) ∧ Complete D (entity i) s') ∨ (r = .error .typeError ∧ ¬ Complete D (entity i) s)) (fun _ _ _ _ hl h => h.imp (fun h => ⟨h.1, h.2.mono hl⟩) id) hs
    fun k => (hv k).2 _ s hs
  have h4 := h3 i
  rw [hr] at h4
  change (_ ∧ _) ∨ _ at h4
  refine ⟨h4.imp (fun h => ⟨_, h.1, (hv i).1⟩) id, fun tcs htcs => ?_⟩
  have h5 := ((hv i).2 _ s hs).of_run Later.refl hs
  rw [getVerifiedP_run, htcs] at h5
  rcases h5 with ⟨h5, -⟩ | ⟨h5, -⟩
  · cases h5
    exact h4.imp (·.1) (·.1)
  · cases h5

/-- Once an entity has been resolved with success, it is resolved with success by any thread that begins later, whatever other threads do. -/
theorem C212_again_partial (V : Env) (F : Collect.Federation) (D : Directory) (S : String → Prop) (rank : String → Nat) (want : String → String → Policy.Want) (M : String → Policy.Metadata)
    (now : Nat → Int) (entity : Nat → String) (s : State) (h : Setting V F s.jar D S rank want M now entity) (hs : Kept D S s.jar (Good D want) s) (ts ts' : List Nat) (i j : Nat)
    (tcs : List TrustChain) (hi : (turns (verifying V F now entity s) ts).left i = .ret (.ok tcs)) (hj : j ∉ ts) (he : entity j = entity i)
    (r : Except PyErr (List TrustChain)) (hr : (turns (verifying V F now entity s) (ts ++ ts')).left j = .ret r) :
    ∃ tcs, r = .ok tcs ∧ Good D want (entity j) tcs := by
  have hv := fun k => h.verify k
  obtain ⟨out, hv⟩ := Classical.axiomOfChoice hv
  obtain ⟨h1, -, h3⟩ := Safe.turns (I := Kept D S s.jar (Good D want)) (G := Later) Later.refl Later.trans (y := verifying V F now entity s) (ts := ts)
    (Q := fun i (r : Except PyErr (List TrustChain)) s' => (r = .ok (out i) ∧ Complete D (entity i) s') ∨ (r = .error .typeError ∧ ¬ Complete D (entity i) s)) (fun _ _ _ _ hl h => h.imp (fun h => ⟨h.1, h.2.mono hl⟩) id) hs
    fun k => (hv k).2 _ s hs
  have hc : Complete D (entity j) (turns (verifying V F now entity s) ts).shared := by
    have := h3 i
    rw [hi] at this
    rcases this with ⟨-, h⟩ | ⟨h, -⟩
    · rw [he]; exact h
    · cases h
  rw [turns_append] at hr
  generalize hy : turns (verifying V F now entity s) ts = y at *
  have hl : y.left j = getVerifiedP (at_ V F (now j)) (entity j) := by rw [← hy, left_of_not_mem hj]; rfl
  obtain ⟨-, -, h5⟩ := Safe.turns (I := Kept D S s.jar (Good D want)) (G := Later) Later.refl Later.trans (y := y) (ts := ts')
    (Q := fun k (r : Except PyErr (List TrustChain)) s' => ((r = .ok (out k) ∧ Complete D (entity k) s') ∨ (r = .error .typeError ∧ ¬ Complete D (entity k) s)) ∧ (k = j → r = .ok (out k)))
    (fun _ _ _ _ hl h => ⟨h.1.imp (fun h => ⟨h.1, h.2.mono hl⟩) id, h.2⟩) h1 fun k => by
    by_cases hk : k = j
    · subst hk
      rw [hl]
      refine ((hv k).2 _ y.shared h1).imp ?_
      rintro r s' (h | ⟨-, h⟩)
      · exact ⟨Or.inl h, fun _ => h.1⟩
      · exact absurd hc h
    · exact (h3 k).imp fun r s' h => ⟨h, fun h => absurd h hk⟩
  have := h5 j
  rw [hr] at this
  exact ⟨_, this.2 rfl, (hv j).1⟩

/-- And each thread ends, if it gets its turns, in whatever federation. -/
theorem C212_ends {α : Type} (y : Sys α) (sched : Nat → Nat) (i : Nat) (h : ∀ n, ∃ m, n ≤ m ∧ sched m = i) :
    ∃ n a, (turns y ((List.range n).map sched)).left i = .ret a := by
  suffices ∀ (p : Prog α) (n : Nat), (turns y ((List.range n).map sched)).left i = p → ∃ n a, (turns y ((List.range n).map sched)).left i = .ret a from this _ 0 rfl
  have succ : ∀ n, turns y ((List.range (n + 1)).map sched) = turn (turns y ((List.range n).map sched)) (sched n) := by
    intro n
    rw [List.range_succ, List.map_append, turns_append]
    rfl
  intro p
  induction p with
  | ret a => exact fun n hn => ⟨n, a, hn⟩
  | act f k ih =>
    intro n hn
    obtain ⟨m, hm, hi⟩ := h n
    -- the first turn of `i` from `n` on
    have first : ∀ d n, (turns y ((List.range n).map sched)).left i = .act f k → sched (n + d) = i →
        ∃ m s, (turns y ((List.range m).map sched)).left i = k s := by
      intro d
      induction d with
      | zero =>
        intro n hn hs
        refine ⟨n + 1, (turns y ((List.range n).map sched)).shared, ?_⟩
        rw [succ]
        simp only [turn, Nat.add_zero] at hs ⊢
        rw [hs]
        simp [hn, Prog.step]
      | succ d ihd =>
        intro n hn hs
        by_cases hi' : sched n = i
        · refine ⟨n + 1, (turns y ((List.range n).map sched)).shared, ?_⟩
          rw [succ, hi']
          simp [turn, hn, Prog.step]
        · refine ihd (n + 1) ?_ (by rw [← hs]; congr 1; omega)
          rw [succ]
          simp only [turn]
          rw [if_neg (fun h => hi' h.symm), hn]
    obtain ⟨m', s', h'⟩ := first (m - n) n hn (by rw [← hi]; congr 1; omega)
    exact ih s' m' h'

/-- When nothing has been collected nor stored. -/
theorem Kept.empty (D : Directory) (S : String → Prop) (jar : KeyJar) (good : String → List TrustChain → Prop) : Kept D S jar good { jar := jar } where
  config _ _ _ h := by cases h
  es _ _ _ _ _ _ _ h := by cases h
  time _ _ _ _ _ _ _ h := by cases h
  jar := Threads.Grows.refl _
  store _ _ _ h := by cases h

namespace Ex
/-- All threads resolve the entity of the example of C109. -/
theorem setting : Setting (Chains.Ex.env (Chains.Ex.F109.at 0)) Chains.Ex.F109 [("https://ta", [1])] Chains.Ex.D109 Chains.Ex.S109 Chains.Ex.rank109 Chains.Ex.want109 (fun _ => []) (fun _ => 0)
    (fun _ => "https://leaf") where
  delta := by decide
  plain e he := by
    unfold Chains.Ex.S109 at he
    simp only [List.mem_cons, List.not_mem_nil, or_false] at he
    rcases he with rfl | rfl | rfl | rfl <;> decide
  run _ := Chains.Ex.wellRun109
  hold _ e hs a x _ _ _ hx := by
    have : x = 10000 := (Option.some.inj hx).symm
    subst this
    decide
  member _ := by unfold Chains.Ex.S109; decide
  depth _ := by decide
  hints _ := by decide
  metadata _ := by decide
  within _ := Chains.Ex.within109
  satisfied _ := Chains.Ex.satisfied109

/-- The exception a thread ended with. -/
def failed {α : Type} : Prog (Except PyErr α) → Option PyErr
  | .ret (.error e) => some e
  | _ => none

theorem failed_some {α : Type} {p : Prog (Except PyErr α)} {e : PyErr} (h : failed p = some e) : p = .ret (.error e) := by
  cases p with
  | act f k => cases h
  | ret r =>
    cases r with
    | ok a => cases h
    | error e' => cases h; rfl

/-- The number of chains a thread ended with. -/
def found {α : Type} : Prog (Except PyErr (List α)) → Option Nat
  | .ret (.ok l) => some l.length
  | _ => none

def two : Sys (Except PyErr (List TrustChain)) :=
  resolving (Chains.Ex.env (Chains.Ex.F109.at 0)) Chains.Ex.F109 (fun _ => 0) (fun _ => "https://leaf") { jar := [("https://ta", [1])] }
end Ex

/-- C212 does not hold: when one thread has stored a statement, but not yet the time it expires, another that looks for the statement ends with TypeError. -/
theorem C212_violation : ¬ C212_full := by
  intro h
  have hf : Ex.failed ((turns Ex.two [0, 0, 0, 0, 0, 0, 0, 1, 1, 1, 1]).left 1) = some .typeError := by decide +kernel
  obtain ⟨tcs, h1, -⟩ := h _ _ _ _ _ _ _ _ _ _ Ex.setting [0, 0, 0, 0, 0, 0, 0, 1, 1, 1, 1] 1 _ (Ex.failed_some hf)
  cases h1

/-- The hypotheses of the theorems are met, both threads can end with success, and so does one that begins later. -/
example : (∃ ts, Ex.found ((turns Ex.two ts).left 0) = some 2 ∧ Ex.found ((turns Ex.two ts).left 1) = some 2) ∧
    ∀ ts i r, (turns Ex.two ts).left i = .ret r →
      (∃ tcs, r = .ok tcs ∧ Good Chains.Ex.D109 Chains.Ex.want109 "https://leaf" tcs) ∨ (r = .error .typeError ∧ ¬ Complete Chains.Ex.D109 "https://leaf" { jar := [("https://ta", [1])] }) := by
  refine ⟨⟨List.replicate 9 0 ++ (List.replicate 100 [1, 0]).flatten, by decide +kernel⟩, fun ts i r h => ?_⟩
  exact C212_resolved_partial _ _ _ _ _ _ _ _ _ _ Ex.setting (Kept.empty _ _ _ _) ts i r h

end Fed.Chains.AtOnce
