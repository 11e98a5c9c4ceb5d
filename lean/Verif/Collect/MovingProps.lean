import Verif.Collect.Moving
import Verif.Collect.Transparency
/-
C218: time passes while trust chains are collected.
-/
namespace Fed.Collect.Moving
open Fed Fed.Collect

/-- The clock never goes back. -/
def Onward (V : Course) : Prop := ∀ i j, i ≤ j → (V i).now ≤ (V j).now

/-- Two documents that say the same, up to when they expire; the second one expires no sooner. -/
def Renewed (d d' : Doc) : Prop :=
  match d, d' with
  | none, none => True
  | some j, some j' => { j'.payload with exp := j.payload.exp } = j.payload ∧ (∀ x, j.payload.exp = some x → ∃ x', j'.payload.exp = some x' ∧ x ≤ x')
  | _, _ => False

/-- Later answers are those of before, or renewals of them. -/
def Maintained (V : Course) : Prop :=
  ∀ i j, i ≤ j → (∀ a d, (V i).config a = .ok d → ∃ d', (V j).config a = .ok d' ∧ Renewed d d') ∧
    (∀ ep a e d, (V i).fetch ep a e = .ok d → ∃ d', (V j).fetch ep a e = .ok d' ∧ Renewed d d')

/-- C218 in full: collecting the trust chains of an entity does not fail because time passes meanwhile. If it would succeed were the clock to stand still at any of the moments the collector looks, it succeeds. -/
def C218_full : Prop :=
  ∀ (C : Crypto) (P : Params) (V : Course) (fuel : Nat) (st : State) (entity stopAt : String), Onward V → Maintained V →
    (∀ i, ∃ r, (Collect.collect C P (V i) fuel st entity stopAt).1 = .ok r) → ∃ r, (collect C P V fuel ⟨st, 0⟩ entity stopAt).1 = .ok r

/-! ### Nothing becomes too old meanwhile -/

/-- Between `t0` and `t1` a document that expires at `x` is neither dropped from a cache (`allowed_delta` before it expires) nor becomes too old (`allowed_delta` after it expired). -/
def Clear (delta t0 t1 x : Int) : Prop := (t1 < x - delta ∨ x - delta < t0) ∧ (t1 < x + delta ∨ x + delta < t0)

/-- Nothing a federation publishes becomes stale between `t0` and `t1`. -/
structure Quiet (C : Crypto) (P : Params) (F : Federation) (t0 t1 : Int) : Prop where
  config : ∀ a j, F.config a = .ok (some j) → (∀ x, j.payload.exp = some x → Clear P.delta t0 t1 x) ∧
    ∀ t t', t0 ≤ t → t ≤ t1 → t0 ≤ t' → t' ≤ t1 → C.current t j = C.current t' j
  fetch : ∀ ep a e j, F.fetch ep a e = .ok (some j) → ∀ x, j.payload.exp = some x → Clear P.delta t0 t1 x

/-- Nothing that is cached becomes stale between `t0` and `t1`. -/
structure Calm (P : Params) (t0 t1 : Int) (st : State) : Prop where
  config : ∀ k c x, st.config.get? k = some c → c.jws.payload.exp = some x → Clear P.delta t0 t1 x
  es : ∀ k x, st.es.get? k = some (.time x) → Clear P.delta t0 t1 x

/-- The collector looks at an unchanging federation, between `t0` and `t1`. -/
def Through (F : Federation) (t0 t1 : Int) (V : Course) : Prop := ∀ i, ∃ t, t0 ≤ t ∧ t ≤ t1 ∧ V i = F.at t

section
variable {C : Crypto} {P : Params} {F : Federation} {t0 t1 t : Int} {V : Course}

theorem subscript_same {t t' : Int} {st : State} (h : Calm P t0 t1 st) (ht : t0 ≤ t ∧ t ≤ t1) (ht' : t0 ≤ t' ∧ t' ≤ t1) (k : String) :
    subscript P.delta t st.config k = subscript P.delta t' st.config k := by
  unfold subscript
  cases hg : st.config.get? k with
  | none => rfl
  | some c =>
    simp only [CacheVal.dictExp]
    cases hx : c.jws.payload.exp with
    | none => rfl
    | some x =>
      simp only
      have hc := (h.config k c x hg hx).1
      by_cases h1 : t < x - P.delta
      · have h2 : t' < x - P.delta := by rcases hc with hc | hc <;> omega
        rw [if_pos h1, if_pos h2]
      · have h2 : ¬ t' < x - P.delta := by rcases hc with hc | hc <;> omega
        rw [if_neg h1, if_neg h2]

theorem Calm.subscript {st : State} (h : Calm P t0 t1 st) (t : Int) (k : String) : Calm P t0 t1 { st with config := (Collect.subscript P.delta t st.config k).2 } := by
  constructor
  · intro k' c x hg hx
    refine h.config k' c x ?_ hx
    revert hg
    unfold Collect.subscript
    cases hk : st.config.get? k with
    | none => exact id
    | some c0 =>
      simp only [CacheVal.dictExp]
      cases c0.jws.payload.exp with
      | none => exact id
      | some y =>
        simp only
        by_cases h1 : t < y - P.delta
        · rw [if_pos h1]; exact id
        · rw [if_neg h1]
          simp only [get?_drop]
          by_cases hkk : k = k'
          · rw [if_pos hkk]; intro h; cases h
          · rw [if_neg hkk]; exact id
  · exact h.es

theorem Calm.set {st : State} (h : Calm P t0 t1 st) (k : String) (j : Jws) (hj : ∀ x, j.payload.exp = some x → Clear P.delta t0 t1 x) :
    Calm P t0 t1 { st with config := st.config.set k ⟨j⟩ } := by
  constructor
  · intro k' c x hg hx
    simp only [Dict.get?_set] at hg
    by_cases hkk : k = k'
    · rw [if_pos hkk] at hg; cases hg; exact hj x hx
    · rw [if_neg hkk] at hg; exact h.config k' c x hg hx
  · exact h.es

/-- What the collector does while time passes is what it does at one moment. -/
def Agree (P : Params) (t0 t1 : Int) {α : Type} (x : Except PyErr α × Seen) (y : Except PyErr α × State) : Prop :=
  x.1 = y.1 ∧ x.2.st = y.2 ∧ Calm P t0 t1 y.2

theorem selfVerify_same (hq : Quiet C P F t0 t1) {a : String} {j : Jws} (hc : F.config a = .ok (some j)) {t t' : Int} (ht : t0 ≤ t ∧ t ≤ t1) (ht' : t0 ≤ t' ∧ t' ≤ t1) :
    selfVerify C t j = selfVerify C t' j := by
  unfold selfVerify
  rw [(hq.config a j hc).2 t t' ht.1 ht.2 ht'.1 ht'.2]

theorem refresh_agree (hq : Quiet C P F t0 t1) (hV : Through F t0 t1 V) (ht : t0 ≤ t ∧ t ≤ t1) {s : Seen} (hs : Calm P t0 t1 s.st) (a : String) :
    Agree P t0 t1 (refresh C V s a) (refreshConfig C (F.at t) s.st a) := by
  obtain ⟨u, hu, hu', hVu⟩ := hV s.n
  obtain ⟨v, hv, hv', hVv⟩ := hV (s.n + 1)
  unfold refresh refreshConfig
  rw [hVu, hVv]
  simp only [Federation.at]
  cases hc : F.config a with
  | error e => exact ⟨rfl, rfl, hs⟩
  | ok d =>
    cases d with
    | none => exact ⟨rfl, rfl, hs⟩
    | some j =>
      simp only
      rw [selfVerify_same hq hc ⟨hv, hv'⟩ ht]
      cases selfVerify C t j with
      | error e => exact ⟨rfl, rfl, hs⟩
      | ok p =>
        simp only
        cases getFetchEndpoint p with
        | error e => exact ⟨rfl, rfl, hs⟩
        | ok ep => exact ⟨rfl, rfl, hs.set a j (hq.config a j hc).1⟩

theorem look_eq (hV : Through F t0 t1 V) (ht : t0 ≤ t ∧ t ≤ t1) {s : Seen} (hs : Calm P t0 t1 s.st) (k : String) :
    look P V s k = ((subscript P.delta t s.st.config k).1, ⟨{ s.st with config := (subscript P.delta t s.st.config k).2 }, s.n + 1⟩) := by
  obtain ⟨u, hu, hu', hVu⟩ := hV s.n
  unfold look
  rw [hVu]
  simp only [Federation.at]
  rw [subscript_same hs ⟨hu, hu'⟩ ht k]

theorem endpoint_agree (hq : Quiet C P F t0 t1) (hV : Through F t0 t1 V) (ht : t0 ≤ t ∧ t ≤ t1) {s : Seen} (hs : Calm P t0 t1 s.st) (a : String) :
    Agree P t0 t1 (endpoint C P V s a) (fetchEndpoint C P (F.at t) s.st a) := by
  unfold endpoint fetchEndpoint
  rw [look_eq hV ht hs a]
  simp only [Federation.at]
  have hs' := hs.subscript t a
  revert hs'
  generalize subscript P.delta t s.st.config a = r
  obtain ⟨r, db⟩ := r
  intro hs'
  simp only at hs'
  cases r with
  | error e => exact ⟨rfl, rfl, hs'⟩
  | ok o =>
    cases o with
    | none => exact refresh_agree hq hV ht (s := ⟨_, _⟩) hs' a
    | some c =>
      simp only
      cases getFetchEndpoint c.jws.payload with
      | error e => exact ⟨rfl, rfl, hs'⟩
      | ok ep =>
        simp only
        cases usableEndpoint ep with
        | none => exact refresh_agree hq hV ht (s := ⟨_, _⟩) hs' a
        | some _ => exact ⟨rfl, rfl, hs'⟩

theorem fetchStatement_agree (hq : Quiet C P F t0 t1) (hV : Through F t0 t1 V) (ht : t0 ≤ t ∧ t ≤ t1) {s : Seen} (hs : Calm P t0 t1 s.st) (e a : String) :
    Agree P t0 t1 (fetchStatement C P V s e a) (Collect.fetchStatement C P (F.at t) s.st e a) := by
  unfold fetchStatement Collect.fetchStatement
  have h := endpoint_agree hq hV ht hs a
  revert h
  generalize endpoint C P V s a = x
  generalize fetchEndpoint C P (F.at t) s.st a = y
  obtain ⟨x1, s1⟩ := x
  obtain ⟨y1, st1⟩ := y
  rintro ⟨h1, h2, hs1⟩
  simp only at h1 h2 hs1
  subst h1 h2
  cases x1 with
  | error e => exact ⟨rfl, rfl, hs1⟩
  | ok ep =>
    simp only
    cases usableEndpoint ep with
    | none => exact ⟨rfl, rfl, hs1⟩
    | some ep =>
      obtain ⟨u, hu, hu', hVu⟩ := hV s1.n
      simp only
      rw [hVu]
      simp only [Federation.at]
      cases hf : F.fetch ep a e with
      | error e => exact ⟨rfl, rfl, hs1⟩
      | ok d =>
        cases d with
        | none => exact ⟨rfl, rfl, hs1⟩
        | some j =>
          simp only
          cases hx : j.payload.exp with
          | none =>
            refine ⟨rfl, rfl, hs1.config, ?_⟩
            intro k x hg
            simp only [Dict.get?_set] at hg
            by_cases hk : cacheKey a e = k
            · rw [if_pos hk] at hg; cases hg
            · rw [if_neg hk] at hg; exact hs1.es k x hg
          | some y =>
            refine ⟨rfl, rfl, hs1.config, ?_⟩
            intro k x hg
            simp only [Dict.get?_set] at hg
            by_cases hk' : timeKey a e = k
            · rw [if_pos hk'] at hg; cases hg; exact hq.fetch ep a e j hf _ hx
            rw [if_neg hk'] at hg
            by_cases hk : cacheKey a e = k
            · rw [if_pos hk] at hg; cases hg
            · rw [if_neg hk] at hg; exact hs1.es k x hg

theorem getStatement_agree (hq : Quiet C P F t0 t1) (hV : Through F t0 t1 V) (ht : t0 ≤ t ∧ t ≤ t1) {s : Seen} (hs : Calm P t0 t1 s.st) (e a : String) :
    Agree P t0 t1 (getStatement C P V s e a) (Collect.getStatement C P (F.at t) s.st e a) := by
  unfold getStatement Collect.getStatement
  cases s.st.es.get? (cacheKey a e) with
  | none => exact fetchStatement_agree hq hV ht hs e a
  | some v =>
    cases v with
    | time _ => exact ⟨rfl, rfl, hs⟩
    | stmt j =>
      simp only
      cases hx : s.st.es.get? (timeKey a e) with
      | none => exact ⟨rfl, rfl, hs⟩
      | some v =>
        cases v with
        | stmt _ => exact ⟨rfl, rfl, hs⟩
        | time x =>
          obtain ⟨u, hu, hu', hVu⟩ := hV s.n
          simp only
          rw [hVu]
          have hc := (hs.es _ x hx).1
          have e1 : (F.at u).now = u := rfl
          have e2 : (F.at t).now = t := rfl
          by_cases h1 : (F.at u).now > x - P.delta
          · have h2 : (F.at t).now > x - P.delta := by rcases hc with hc | hc <;> omega
            rw [if_pos h1, if_pos h2]
            refine fetchStatement_agree hq hV ht (s := ⟨{ s.st with es := drop (drop s.st.es (cacheKey a e)) (timeKey a e) }, s.n + 1⟩) ⟨hs.config, ?_⟩ e a
            intro k y hg
            simp only [get?_drop] at hg
            by_cases hk' : timeKey a e = k
            · rw [if_pos hk'] at hg; cases hg
            rw [if_neg hk'] at hg
            by_cases hk : cacheKey a e = k
            · rw [if_pos hk] at hg; cases hg
            · rw [if_neg hk] at hg; exact hs.es k y hg
          · have h2 : ¬ (F.at t).now > x - P.delta := by rcases hc with hc | hc <;> omega
            rw [if_neg h1, if_neg h2]
            exact ⟨rfl, rfl, hs⟩

theorem branch_agree (hq : Quiet C P F t0 t1) (hV : Through F t0 t1 V) (ht : t0 ≤ t ∧ t ≤ t1)
    {tree : Seen → String → Option Payload → Except PyErr (Forest Jws) × Seen} {tree' : State → String → Option Payload → Except PyErr (Forest Jws) × State}
    (htree : ∀ s a p, Calm P t0 t1 s.st → Agree P t0 t1 (tree s a p) (tree' s.st a p)) (e : String) {s : Seen} (hs : Calm P t0 t1 s.st) (a : String) :
    Agree P t0 t1 (collectBranch C P V tree e s a) (Collect.collectBranch C P (F.at t) tree' e s.st a) := by
  unfold collectBranch Collect.collectBranch
  by_cases ha : e = a ∧ e ∈ P.anchors
  · rw [if_pos ha, if_pos ha]; exact ⟨rfl, rfl, hs⟩
  rw [if_neg ha, if_neg ha]
  have h := getStatement_agree hq hV ht hs e a
  revert h
  generalize getStatement C P V s e a = x
  generalize Collect.getStatement C P (F.at t) s.st e a = y
  obtain ⟨x1, s1⟩ := x
  obtain ⟨y1, st1⟩ := y
  rintro ⟨h1, h2, hs1⟩
  simp only at h1 h2 hs1
  subst h1 h2
  cases x1 with
  | error e => exact ⟨rfl, rfl, hs1⟩
  | ok o =>
    cases o with
    | none => exact ⟨rfl, rfl, hs1⟩
    | some j =>
      simp only
      rw [look_eq hV ht hs1 a]
      simp only [Federation.at]
      have hs' := hs1.subscript t a
      revert hs'
      generalize subscript P.delta t s1.st.config a = r
      obtain ⟨r, db⟩ := r
      intro hs'
      simp only at hs'
      cases r with
      | error e => exact ⟨rfl, rfl, hs'⟩
      | ok c =>
        simp only
        have h := htree ⟨{ s1.st with config := db }, s1.n + 1⟩ a (c.map (·.jws.payload)) hs'
        revert h
        generalize tree ⟨{ s1.st with config := db }, s1.n + 1⟩ a (c.map (·.jws.payload)) = x
        simp only
        generalize tree' { s1.st with config := db } a (c.map (·.jws.payload)) = y
        obtain ⟨x1, s2⟩ := x
        obtain ⟨y1, st2⟩ := y
        rintro ⟨h1, h2, hs2⟩
        simp only at h1 h2 hs2
        subst h1 h2
        cases x1 with
        | error e => exact ⟨rfl, rfl, hs2⟩
        | ok f => exact ⟨rfl, rfl, hs2⟩

theorem overHints_agree {b : Seen → String → Except PyErr Branch × Seen} {b' : State → String → Except PyErr Branch × State}
    (hb : ∀ s a, Calm P t0 t1 s.st → Agree P t0 t1 (b s a) (b' s.st a)) : ∀ (hs : List String) (acc : Forest Jws) (s : Seen), Calm P t0 t1 s.st →
    Agree P t0 t1 (overHints b hs acc s) (Collect.overHints b' hs acc s.st) := by
  intro l
  induction l with
  | nil => intro acc s hs; exact ⟨rfl, rfl, hs⟩
  | cons a as ih =>
    intro acc s hs
    unfold overHints Collect.overHints
    have h := hb s a hs
    revert h
    generalize b s a = x
    generalize b' s.st a = y
    obtain ⟨x1, s1⟩ := x
    obtain ⟨y1, st1⟩ := y
    rintro ⟨h1, h2, hs1⟩
    simp only at h1 h2 hs1
    subst h1 h2
    cases x1 with
    | error e => exact ⟨rfl, rfl, hs1⟩
    | ok o => exact ih _ _ hs1

theorem tree_agree (hq : Quiet C P F t0 t1) (hV : Through F t0 t1 V) (ht : t0 ≤ t ∧ t ≤ t1) (stopAt : String) : ∀ (fuel : Nat) (s : Seen) (e : String) (p : Option Payload), Calm P t0 t1 s.st →
    Agree P t0 t1 (collectTree C P V stopAt fuel s e p) (Collect.collectTree C P (F.at t) stopAt fuel s.st e p) := by
  intro fuel
  induction fuel with
  | zero => intro s e p hs; exact ⟨rfl, rfl, hs⟩
  | succ n ih =>
    intro s e p hs
    cases p with
    | none => exact ⟨rfl, rfl, hs⟩
    | some p =>
      unfold collectTree Collect.collectTree
      cases p.hints with
      | none => exact ⟨rfl, rfl, hs⟩
      | some l =>
        simp only
        by_cases hi : p.iss = stopAt
        · rw [if_pos hi, if_pos hi]; exact ⟨rfl, rfl, hs⟩
        · rw [if_neg hi, if_neg hi]
          exact overHints_agree (fun s a hs => branch_agree hq hV ht ih e hs a) l .nil s hs

theorem collect_agree (hq : Quiet C P F t0 t1) (hV : Through F t0 t1 V) (ht : t0 ≤ t ∧ t ≤ t1) (fuel : Nat) {s : Seen} (hs : Calm P t0 t1 s.st) (entity stopAt : String) :
    Agree P t0 t1 (collect C P V fuel s entity stopAt) (Collect.collect C P (F.at t) fuel s.st entity stopAt) := by
  have hto : ∀ c, s.st.config.get? entity = some c → tooOld P (V s.n) c = tooOld P (F.at t) c := by
    intro c hg
    obtain ⟨u, hu, hu', hVu⟩ := hV s.n
    unfold tooOld
    rw [hVu]
    simp only [Federation.at]
    cases hx : c.jws.payload.exp with
    | none => rfl
    | some x =>
      have hc := (hs.config _ c x hg hx).2
      simp only
      congr 1
      by_cases h1 : u ≥ x + P.delta
      · have h2 : t ≥ x + P.delta := by rcases hc with hc | hc <;> omega
        simp [h1, h2]
      · have h2 : ¬ t ≥ x + P.delta := by rcases hc with hc | hc <;> omega
        simp [h1, h2]
  have hfetch : Agree P t0 t1
      (match (V (s.n + 1)).config entity with
        | .error e => (.error e.toPy, ⟨s.st, s.n + 2⟩)
        | .ok none => (.error .valueError, ⟨s.st, s.n + 2⟩)
        | .ok (some j) =>
          match selfVerify C (V (s.n + 2)).now j with
          | .error e => (.error e, ⟨s.st, s.n + 3⟩)
          | .ok p =>
            match collectTree C P V stopAt fuel ⟨{ s.st with config := s.st.config.set entity ⟨j⟩ }, s.n + 3⟩ entity (some p) with
            | (.error e, s) => (.error e, s)
            | (.ok f, s) => (.ok (f, j), s) : Except PyErr (Forest Jws × Jws) × Seen)
      (match (F.at t).config entity with
        | .error e => (.error e.toPy, s.st)
        | .ok none => (.error .valueError, s.st)
        | .ok (some j) =>
          match selfVerify C (F.at t).now j with
          | .error e => (.error e, s.st)
          | .ok p =>
            match Collect.collectTree C P (F.at t) stopAt fuel { s.st with config := s.st.config.set entity ⟨j⟩ } entity (some p) with
            | (.error e, st) => (.error e, st)
            | (.ok f, st) => (.ok (f, j), st)) := by
    obtain ⟨u, hu, hu', hVu⟩ := hV (s.n + 1)
    obtain ⟨v, hv, hv', hVv⟩ := hV (s.n + 2)
    rw [hVu, hVv]
    have e1 : (F.at u).config = F.config := rfl
    have e2 : (F.at t).config = F.config := rfl
    have e3 : (F.at v).now = v := rfl
    have e4 : (F.at t).now = t := rfl
    rw [e1, e2, e3, e4]
    cases hc : F.config entity with
    | error e => exact ⟨rfl, rfl, hs⟩
    | ok d =>
      cases d with
      | none => exact ⟨rfl, rfl, hs⟩
      | some j =>
        simp only
        rw [selfVerify_same hq hc ⟨hv, hv'⟩ ht]
        cases selfVerify C t j with
        | error e => exact ⟨rfl, rfl, hs⟩
        | ok p =>
          simp only
          have h := tree_agree hq hV ht stopAt fuel ⟨{ s.st with config := s.st.config.set entity ⟨j⟩ }, s.n + 3⟩ entity (some p) (hs.set entity j (hq.config entity j hc).1)
          revert h
          generalize collectTree C P V stopAt fuel ⟨{ s.st with config := s.st.config.set entity ⟨j⟩ }, s.n + 3⟩ entity (some p) = x
          simp only
          generalize Collect.collectTree C P (F.at t) stopAt fuel { s.st with config := s.st.config.set entity ⟨j⟩ } entity (some p) = y
          obtain ⟨x1, s2⟩ := x
          obtain ⟨y1, st2⟩ := y
          rintro ⟨h1, h2, hs2⟩
          simp only at h1 h2 hs2
          subst h1 h2
          cases x1 with
          | error e => exact ⟨rfl, rfl, hs2⟩
          | ok f => exact ⟨rfl, rfl, hs2⟩
  unfold collect Collect.collect
  cases hg : s.st.config.get? entity with
  | none => exact hfetch
  | some c =>
    simp only
    rw [hto c hg]
    cases tooOld P (F.at t) c with
    | error e => exact ⟨rfl, rfl, hs⟩
    | ok b =>
      cases b with
      | true => exact hfetch
      | false =>
        simp only
        have h := tree_agree hq hV ht stopAt fuel ⟨s.st, s.n + 1⟩ entity (some c.jws.payload) hs
        revert h
        generalize collectTree C P V stopAt fuel ⟨s.st, s.n + 1⟩ entity (some c.jws.payload) = x
        simp only
        generalize Collect.collectTree C P (F.at t) stopAt fuel s.st entity (some c.jws.payload) = y
        obtain ⟨x1, s2⟩ := x
        obtain ⟨y1, st2⟩ := y
        rintro ⟨h1, h2, hs2⟩
        simp only at h1 h2 hs2
        subst h1 h2
        cases x1 with
        | error e => exact ⟨rfl, rfl, hs2⟩
        | ok f => exact ⟨rfl, rfl, hs2⟩

end

/-! ### Documents are renewed meanwhile -/

/-- A statement without when it expires, and without what it is signed with. -/
def said (j : Jws) : Payload := { j.payload with exp := none }

/-- The tree with each statement replaced. -/
def mapForest {α β : Type} (g : α → β) : Forest α → Forest β
  | .nil => .nil
  | .missing a r => .missing a (mapForest g r)
  | .node a s sub r => .node a (g s) (mapForest g sub) (mapForest g r)

theorem mapForest_set {α β : Type} (g : α → β) (i : String) (b : Option (α × Forest α)) : ∀ f : Forest α,
    mapForest g (f.set i b) = (mapForest g f).set i (b.map fun p => (g p.1, mapForest g p.2)) := by
  intro f
  induction f with
  | nil => cases b <;> rfl
  | missing j r ih =>
    simp only [Forest.set, mapForest]
    by_cases h : j = i
    · rw [if_pos h, if_pos h]; cases b <;> rfl
    · rw [if_neg h, if_neg h, ← ih]; rfl
  | node j t sub r _ ih =>
    simp only [Forest.set, mapForest]
    by_cases h : j = i
    · rw [if_pos h, if_pos h]; cases b <;> rfl
    · rw [if_neg h, if_neg h, ← ih]; rfl

/-- `j` stays fresh up to `t1`. -/
def Lasts (P : Params) (t1 : Int) (j : Jws) : Prop := ∃ x, j.payload.exp = some x ∧ t1 < x - P.delta

/-- What is published at the beginning stays fresh up to `t1`, and configurations that are renewed verify as those they replace did. -/
structure Tended (C : Crypto) (P : Params) (V : Course) (t1 : Int) : Prop where
  config : ∀ a j, (V 0).config a = .ok (some j) → Lasts P t1 j
  fetch : ∀ ep a e j, (V 0).fetch ep a e = .ok (some j) → Lasts P t1 j
  signed : ∀ a j i k j', (V 0).config a = .ok (some j) → selfVerify C (V 0).now j = .ok j.payload → i ≤ k → (V i).config a = .ok (some j') → selfVerify C (V k).now j' = .ok j'.payload

section
variable {C : Crypto} {P : Params} {t0 t1 : Int} {V : Course}

/-- Two entries of a cache: the same, and not becoming stale, or saying the same, and both lasting. -/
def Kin (P : Params) (t0 t1 : Int) (j j' : Jws) : Prop :=
  (j = j' ∧ ∀ x, j.payload.exp = some x → Clear P.delta t0 t1 x) ∨ (said j = said j' ∧ Lasts P t1 j ∧ Lasts P t1 j')

def KinTime (P : Params) (t0 t1 x x' : Int) : Prop := (x = x' ∧ Clear P.delta t0 t1 x) ∨ (t1 < x - P.delta ∧ t1 < x' - P.delta)

inductive KinES (P : Params) (t0 t1 : Int) : Option ESVal → Option ESVal → Prop
  | none : KinES P t0 t1 none none
  | stmt {j j' : Jws} : said j = said j' → KinES P t0 t1 (some (.stmt j)) (some (.stmt j'))
  | time {x x' : Int} : KinTime P t0 t1 x x' → KinES P t0 t1 (some (.time x)) (some (.time x'))

inductive KinConf (P : Params) (t0 t1 : Int) : Option Config → Option Config → Prop
  | none : KinConf P t0 t1 none none
  | some {c c' : Config} : Kin P t0 t1 c.jws c'.jws → KinConf P t0 t1 (some c) (some c')

/-- The caches of two collectors, entry by entry. -/
structure KinState (P : Params) (t0 t1 : Int) (st st' : State) : Prop where
  config : ∀ k, KinConf P t0 t1 (st.config.get? k) (st'.config.get? k)
  es : ∀ k, KinES P t0 t1 (st.es.get? k) (st'.es.get? k)

theorem Calm.kin {st : State} (h : Calm P t0 t1 st) : KinState P t0 t1 st st := by
  constructor
  · intro k
    cases hg : st.config.get? k with
    | none => exact .none
    | some c => exact .some (.inl ⟨rfl, fun x hx => h.config k c x hg hx⟩)
  · intro k
    cases hg : st.es.get? k with
    | none => exact .none
    | some v =>
      cases v with
      | stmt j => exact .stmt rfl
      | time x => exact .time (.inl ⟨rfl, h.es k x hg⟩)

theorem Kin.said {j j' : Jws} (h : Kin P t0 t1 j j') : said j = said j' := by
  rcases h with ⟨rfl, _⟩ | h
  · rfl
  · exact h.1

theorem said_hints {j j' : Jws} (h : said j = said j') : j.payload.hints = j'.payload.hints := by
  have h' := congrArg Payload.hints h
  exact h'
theorem said_iss {j j' : Jws} (h : said j = said j') : j.payload.iss = j'.payload.iss := by
  have h' := congrArg Payload.iss h
  exact h'
theorem said_endpoint {j j' : Jws} (h : said j = said j') : getFetchEndpoint j.payload = getFetchEndpoint j'.payload := by
  have h' : j.payload.metadata = j'.payload.metadata := by
    have h' := congrArg Payload.metadata h
    exact h'
  unfold getFetchEndpoint Payload.md
  rw [h']

theorem said_of_renewed {j j' : Jws} (h : { j'.payload with exp := j.payload.exp } = j.payload) : said j = said j' := by
  unfold said
  rw [← h]

/-- The second collector does what the first one does, if the first one does not fail. -/
def Follows (P : Params) (t0 t1 : Int) {α β : Type} (rel : α → β → Prop) (x : Except PyErr α × State) (y : Except PyErr β × Seen) : Prop :=
  ∀ r, x.1 = .ok r → ∃ r', y.1 = .ok r' ∧ rel r r' ∧ KinState P t0 t1 x.2 y.2.st

/-- Both subscripts find kindred entries, or none. -/
theorem subscript_kin {t t' : Int} {st st' : State} (h : KinState P t0 t1 st st') (ht : t0 ≤ t ∧ t ≤ t1) (ht' : t0 ≤ t' ∧ t' ≤ t1) (k : String) (o : Option Config)
    (ho : (subscript P.delta t st.config k).1 = .ok o) :
    ∃ o', (subscript P.delta t' st'.config k).1 = .ok o' ∧ KinConf P t0 t1 o o' ∧
      KinState P t0 t1 { st with config := (subscript P.delta t st.config k).2 } { st' with config := (subscript P.delta t' st'.config k).2 } := by
  have hk := h.config k
  unfold subscript at ho ⊢
  revert ho hk
  cases hg : st.config.get? k with
  | none =>
    intro ho hk
    cases hg' : st'.config.get? k with
    | some c' => rw [hg'] at hk; cases hk
    | none => cases ho; exact ⟨none, rfl, .none, h⟩
  | some c =>
    intro ho hk
    cases hg' : st'.config.get? k with
    | none => rw [hg'] at hk; cases hk
    | some c' =>
      rw [hg'] at hk
      have hk : Kin P t0 t1 c.jws c'.jws := by cases hk; assumption
      simp only [CacheVal.dictExp] at ho ⊢
      cases hx : c.jws.payload.exp with
      | none => rw [hx] at ho; cases ho
      | some x =>
        have key : ∃ x', c'.jws.payload.exp = some x' ∧ (t < x - P.delta ↔ t' < x' - P.delta) := by
          rcases hk with ⟨h1, h2⟩ | ⟨_, ⟨y, hy, h1⟩, ⟨x', hx', h2⟩⟩
          · refine ⟨x, h1 ▸ hx, ?_⟩
            rcases (h2 x hx).1 with hc | hc <;> omega
          · rw [hx] at hy; cases hy
            exact ⟨x', hx', by omega⟩
        obtain ⟨x', hx', hiff⟩ := key
        rw [hx] at ho
        rw [hx']
        simp only at ho ⊢
        by_cases h1 : t < x - P.delta
        · rw [if_pos h1] at ho ⊢
          rw [if_pos (hiff.1 h1)]
          cases ho
          exact ⟨some c', rfl, .some hk, h⟩
        · rw [if_neg h1] at ho ⊢
          rw [if_neg (fun h2 => h1 (hiff.2 h2))]
          cases ho
          refine ⟨none, rfl, .none, ?_, h.es⟩
          intro k'
          simp only [get?_drop]
          by_cases hkk : k = k'
          · rw [if_pos hkk, if_pos hkk]; exact .none
          · rw [if_neg hkk, if_neg hkk]; exact h.config k'

/-- The collector looks between `t0` and `t1`. -/
def Between (t0 t1 : Int) (V : Course) : Prop := ∀ i, t0 ≤ (V i).now ∧ (V i).now ≤ t1

theorem KinState.set {st st' : State} (h : KinState P t0 t1 st st') (k : String) {j j' : Jws} (hj : Kin P t0 t1 j j') :
    KinState P t0 t1 { st with config := st.config.set k ⟨j⟩ } { st' with config := st'.config.set k ⟨j'⟩ } := by
  refine ⟨?_, h.es⟩
  intro k'
  simp only [Dict.get?_set]
  by_cases hkk : k = k'
  · rw [if_pos hkk, if_pos hkk]; exact .some hj
  · rw [if_neg hkk, if_neg hkk]; exact h.config k'

theorem selfVerify_payload {C : Crypto} {t : Int} {j : Jws} {p : Payload} (h : selfVerify C t j = .ok p) : p = j.payload := by
  unfold selfVerify at h
  cases hk : j.payload.jwks with
  | none => rw [hk] at h; cases h
  | some ks =>
    rw [hk] at h
    simp only at h
    split at h
    · cases h; rfl
    · cases h

/-- A configuration that verified at the beginning is found later, as it was or renewed, and verifies. -/
theorem config_follows (hm : Maintained V) (hT : Tended C P V t1) {a : String} {j : Jws} {p : Payload} (hc : (V 0).config a = .ok (some j)) (hv : selfVerify C (V 0).now j = .ok p) (i k : Nat) (hik : i ≤ k) :
    ∃ j', (V i).config a = .ok (some j') ∧ selfVerify C (V k).now j' = .ok j'.payload ∧ said j = said j' ∧ Lasts P t1 j ∧ Lasts P t1 j' := by
  obtain ⟨d', hd', hr⟩ := (hm 0 i (Nat.zero_le i)).1 a _ hc
  cases d' with
  | none => exact hr.elim
  | some j' =>
    have hp := selfVerify_payload hv
    subst hp
    refine ⟨j', hd', hT.signed a j i k j' hc hv hik hd', said_of_renewed hr.1, hT.config a j hc, ?_⟩
    obtain ⟨x, hx, hl⟩ := hT.config a j hc
    obtain ⟨x', hx', hle⟩ := hr.2 x hx
    exact ⟨x', hx', by omega⟩

theorem refresh_follows (hm : Maintained V) (hT : Tended C P V t1) {st : State} {s : Seen} (hs : KinState P t0 t1 st s.st) (a : String) :
    Follows P t0 t1 Eq (refreshConfig C (V 0) st a) (refresh C V s a) := by
  intro r hr
  unfold refreshConfig at hr ⊢
  unfold refresh
  cases hc : (V 0).config a with
  | error e => rw [hc] at hr; cases hr
  | ok d =>
    cases d with
    | none => rw [hc] at hr; cases hr
    | some j =>
      rw [hc] at hr
      simp only at hr ⊢
      cases hv : selfVerify C (V 0).now j with
      | error e => rw [hv] at hr; cases hr
      | ok p =>
        rw [hv] at hr
        simp only at hr ⊢
        obtain ⟨j', hc', hv', hsd, hl, hl'⟩ := config_follows hm hT hc hv s.n (s.n + 1) (Nat.le_succ _)
        rw [hc']
        simp only
        rw [hv']
        simp only
        have hp := selfVerify_payload hv
        subst hp
        rw [← said_endpoint hsd]
        cases he : getFetchEndpoint j.payload with
        | error e => rw [he] at hr; cases hr
        | ok ep =>
          rw [he] at hr
          cases hr
          exact ⟨_, rfl, rfl, hs.set a (.inr ⟨hsd, hl, hl'⟩)⟩

theorem endpoint_follows (hb : Between t0 t1 V) (hm : Maintained V) (hT : Tended C P V t1) {st : State} {s : Seen} (hs : KinState P t0 t1 st s.st) (a : String) :
    Follows P t0 t1 Eq (fetchEndpoint C P (V 0) st a) (endpoint C P V s a) := by
  intro r hr
  unfold fetchEndpoint at hr ⊢
  unfold endpoint look
  have hk := subscript_kin hs (hb 0) (hb s.n) a
  revert hr hk
  generalize subscript P.delta (V 0).now st.config a = x
  generalize subscript P.delta (V s.n).now s.st.config a = y
  obtain ⟨x, db⟩ := x
  obtain ⟨y, db'⟩ := y
  intro hr hk
  cases x with
  | error e => cases hr
  | ok o =>
    obtain ⟨o', ho', hoo, hs'⟩ := hk o rfl
    simp only at ho' hs'
    subst ho'
    cases hoo with
    | none => exact refresh_follows hm hT (s := ⟨{ s.st with config := db' }, s.n + 1⟩) hs' a r hr
    | @some c c' hcc =>
      simp only at hr ⊢
      rw [← said_endpoint hcc.said]
      cases he : getFetchEndpoint c.jws.payload with
      | error e => rw [he] at hr; cases hr
      | ok ep =>
        rw [he] at hr
        simp only at hr ⊢
        cases hu : usableEndpoint ep with
        | none =>
          rw [hu] at hr
          exact refresh_follows hm hT (s := ⟨{ s.st with config := db' }, s.n + 1⟩) hs' a r hr
        | some _ =>
          rw [hu] at hr
          cases hr
          exact ⟨_, rfl, rfl, hs'⟩

/-- Two answers of `_get_entity_statement`. -/
inductive SameSaid : Option Jws → Option Jws → Prop
  | none : SameSaid none none
  | some {j j' : Jws} : said j = said j' → SameSaid (some j) (some j')

theorem fetchStatement_follows (hb : Between t0 t1 V) (hm : Maintained V) (hT : Tended C P V t1) {st : State} {s : Seen} (hs : KinState P t0 t1 st s.st) (e a : String) :
    Follows P t0 t1 SameSaid (Collect.fetchStatement C P (V 0) st e a) (fetchStatement C P V s e a) := by
  intro r hr
  unfold Collect.fetchStatement at hr ⊢
  unfold fetchStatement
  have h := endpoint_follows hb hm hT hs a
  revert h hr
  generalize fetchEndpoint C P (V 0) st a = x
  generalize endpoint C P V s a = y
  obtain ⟨x1, st1⟩ := x
  obtain ⟨y1, s1⟩ := y
  intro hr h
  cases x1 with
  | error e => cases hr
  | ok ep =>
    obtain ⟨ep', h1, rfl, hs1⟩ := h ep rfl
    simp only at h1 hs1
    subst h1
    simp only at hr ⊢
    cases hu : usableEndpoint ep with
    | none => rw [hu] at hr; cases hr; exact ⟨_, rfl, .none, hs1⟩
    | some w =>
      rw [hu] at hr
      simp only at hr ⊢
      cases hf : (V 0).fetch w a e with
      | error e => rw [hf] at hr; cases hr
      | ok d =>
        cases d with
        | none => rw [hf] at hr; cases hr
        | some j =>
          rw [hf] at hr
          simp only at hr ⊢
          obtain ⟨d', hd', hren⟩ := (hm 0 s1.n (Nat.zero_le _)).2 w a e _ hf
          rw [hd']
          cases d' with
          | none => exact hren.elim
          | some j' =>
            obtain ⟨x, hx, hl⟩ := hT.fetch w a e j hf
            obtain ⟨x', hx', hle⟩ := hren.2 x hx
            simp only
            rw [hx] at hr ⊢
            rw [hx']
            cases hr
            have hsd := said_of_renewed hren.1
            refine ⟨_, rfl, .some hsd, hs1.config, ?_⟩
            intro k
            simp only [Dict.get?_set]
            by_cases hk' : timeKey a e = k
            · rw [if_pos hk', if_pos hk']; exact .time (.inr ⟨hl, by omega⟩)
            rw [if_neg hk', if_neg hk']
            by_cases hk : cacheKey a e = k
            · rw [if_pos hk, if_pos hk]; exact .stmt hsd
            · rw [if_neg hk, if_neg hk]; exact hs1.es k

theorem getStatement_follows (hb : Between t0 t1 V) (hm : Maintained V) (hT : Tended C P V t1) {st : State} {s : Seen} (hs : KinState P t0 t1 st s.st) (e a : String) :
    Follows P t0 t1 SameSaid (Collect.getStatement C P (V 0) st e a) (getStatement C P V s e a) := by
  intro r hr
  unfold Collect.getStatement at hr ⊢
  unfold getStatement
  have h1 := hs.es (cacheKey a e)
  have h2 := hs.es (timeKey a e)
  revert hr h1
  generalize st.es.get? (cacheKey a e) = v
  generalize s.st.es.get? (cacheKey a e) = v'
  intro hr h1
  cases h1 with
  | none => exact fetchStatement_follows hb hm hT hs e a r hr
  | time _ => cases hr
  | @stmt j j' hj =>
    simp only at hr ⊢
    revert hr h2
    generalize st.es.get? (timeKey a e) = v
    generalize s.st.es.get? (timeKey a e) = v'
    intro h2 hr
    cases h2 with
    | none => cases hr
    | stmt _ => cases hr
    | @time x x' hx =>
      simp only at hr ⊢
      have hb0 := hb 0
      have hbn := hb s.n
      have hiff : (V 0).now > x - P.delta ↔ (V s.n).now > x' - P.delta := by
        rcases hx with ⟨rfl, hc | hc, _⟩ | hx <;> omega
      by_cases h3 : (V 0).now > x - P.delta
      · rw [if_pos h3] at hr ⊢
        rw [if_pos (hiff.1 h3)]
        refine fetchStatement_follows hb hm hT (st := { st with es := drop (drop st.es (cacheKey a e)) (timeKey a e) }) (s := ⟨{ s.st with es := drop (drop s.st.es (cacheKey a e)) (timeKey a e) }, s.n + 1⟩) ⟨hs.config, ?_⟩ e a r hr
        intro k
        simp only [get?_drop]
        by_cases hk' : timeKey a e = k
        · rw [if_pos hk', if_pos hk']; exact .none
        rw [if_neg hk', if_neg hk']
        by_cases hk : cacheKey a e = k
        · rw [if_pos hk, if_pos hk]; exact .none
        · rw [if_neg hk, if_neg hk]; exact hs.es k
      · rw [if_neg h3] at hr ⊢
        rw [if_neg (fun h => h3 (hiff.2 h))]
        cases hr
        exact ⟨_, rfl, .some hj, hs⟩

/-- Two branches of the tree. -/
def SameBranch (b b' : Branch) : Prop := (b.map fun p => (said p.1, mapForest said p.2)) = b'.map fun p => (said p.1, mapForest said p.2)

/-- Two trees. -/
def SameTree (f f' : Forest Jws) : Prop := mapForest said f = mapForest said f'

/-- Two configurations `collect_tree` is given. -/
inductive SameConf : Option Payload → Option Payload → Prop
  | none : SameConf none none
  | some {j j' : Jws} : said j = said j' → SameConf (some j.payload) (some j'.payload)

theorem branch_follows (hb : Between t0 t1 V) (hm : Maintained V) (hT : Tended C P V t1)
    {tree : State → String → Option Payload → Except PyErr (Forest Jws) × State} {tree' : Seen → String → Option Payload → Except PyErr (Forest Jws) × Seen}
    (htree : ∀ st s a p p', KinState P t0 t1 st s.st → SameConf p p' → Follows P t0 t1 SameTree (tree st a p) (tree' s a p')) (e : String) {st : State} {s : Seen} (hs : KinState P t0 t1 st s.st) (a : String) :
    Follows P t0 t1 SameBranch (Collect.collectBranch C P (V 0) tree e st a) (collectBranch C P V tree' e s a) := by
  intro r hr
  unfold Collect.collectBranch at hr ⊢
  unfold collectBranch
  by_cases ha : e = a ∧ e ∈ P.anchors
  · rw [if_pos ha] at hr ⊢; rw [if_pos ha]; cases hr; exact ⟨_, rfl, rfl, hs⟩
  rw [if_neg ha] at hr ⊢
  rw [if_neg ha]
  have h := getStatement_follows hb hm hT hs e a
  revert h hr
  generalize Collect.getStatement C P (V 0) st e a = x
  generalize getStatement C P V s e a = y
  obtain ⟨x1, st1⟩ := x
  obtain ⟨y1, s1⟩ := y
  intro hr h
  cases x1 with
  | error e => cases hr
  | ok o =>
    obtain ⟨o', h1, h2, hs1⟩ := h o rfl
    simp only at h1 hs1
    subst h1
    cases h2 with
    | none => cases hr; exact ⟨_, rfl, rfl, hs1⟩
    | @some j j' hj =>
      simp only at hr ⊢
      unfold look
      have hk := subscript_kin hs1 (hb 0) (hb s1.n) a
      revert hr hk
      generalize subscript P.delta (V 0).now st1.config a = x
      generalize subscript P.delta (V s1.n).now s1.st.config a = y
      obtain ⟨x, db⟩ := x
      obtain ⟨y, db'⟩ := y
      intro hr hk
      cases x with
      | error e => cases hr
      | ok o =>
        obtain ⟨o', ho', hoo, hs'⟩ := hk o rfl
        simp only at ho' hs'
        subst ho'
        have hcf : SameConf (o.map (·.jws.payload)) (o'.map (·.jws.payload)) := by
          cases hoo with
          | none => exact .none
          | some hcc => exact .some hcc.said
        simp only at hr ⊢
        have h := htree { st1 with config := db } ⟨{ s1.st with config := db' }, s1.n + 1⟩ a _ _ hs' hcf
        revert h hr
        generalize tree { st1 with config := db } a (o.map (·.jws.payload)) = x
        generalize tree' ⟨{ s1.st with config := db' }, s1.n + 1⟩ a (o'.map (·.jws.payload)) = y
        obtain ⟨x1, st2⟩ := x
        obtain ⟨y1, s2⟩ := y
        intro hr h
        cases x1 with
        | error e => cases hr
        | ok f =>
          obtain ⟨f', h1, h2, hs2⟩ := h f rfl
          simp only at h1 hs2
          subst h1
          cases hr
          refine ⟨_, rfl, ?_, hs2⟩
          unfold SameBranch
          simp only [Option.map]
          rw [hj, h2]

theorem overHints_follows {b : State → String → Except PyErr Branch × State} {b' : Seen → String → Except PyErr Branch × Seen}
    (hb : ∀ st s a, KinState P t0 t1 st s.st → Follows P t0 t1 SameBranch (b st a) (b' s a)) : ∀ (l : List String) (acc acc' : Forest Jws) (st : State) (s : Seen), KinState P t0 t1 st s.st → SameTree acc acc' →
    Follows P t0 t1 SameTree (Collect.overHints b l acc st) (overHints b' l acc' s) := by
  intro l
  induction l with
  | nil => intro acc acc' st s hs ha r hr; cases hr; exact ⟨_, rfl, ha, hs⟩
  | cons a as ih =>
    intro acc acc' st s hs hacc r hr
    unfold Collect.overHints at hr ⊢
    unfold overHints
    have h := hb st s a hs
    revert h hr
    generalize b st a = x
    generalize b' s a = y
    obtain ⟨x1, st1⟩ := x
    obtain ⟨y1, s1⟩ := y
    intro hr h
    cases x1 with
    | error e => cases hr
    | ok o =>
      obtain ⟨o', h1, h2, hs1⟩ := h o rfl
      simp only at h1 hs1
      subst h1
      refine ih _ _ _ _ hs1 ?_ r hr
      unfold SameTree
      rw [mapForest_set, mapForest_set, hacc, h2]

theorem tree_follows (hb : Between t0 t1 V) (hm : Maintained V) (hT : Tended C P V t1) (stopAt : String) : ∀ (fuel : Nat) (st : State) (s : Seen) (e : String) (p p' : Option Payload), KinState P t0 t1 st s.st →
    SameConf p p' → Follows P t0 t1 SameTree (Collect.collectTree C P (V 0) stopAt fuel st e p) (collectTree C P V stopAt fuel s e p') := by
  intro fuel
  induction fuel with
  | zero => intro st s e p p' hs hp r hr; cases hr
  | succ n ih =>
    intro st s e p p' hs hp r hr
    cases hp with
    | none => cases hr
    | @some j j' hj =>
      unfold Collect.collectTree at hr ⊢
      unfold collectTree
      rw [← said_hints hj, ← said_iss hj]
      cases hh : j.payload.hints with
      | none => rw [hh] at hr; cases hr; exact ⟨_, rfl, rfl, hs⟩
      | some l =>
        rw [hh] at hr
        simp only at hr ⊢
        by_cases hi : j.payload.iss = stopAt
        · rw [if_pos hi] at hr ⊢; rw [if_pos hi]; cases hr; exact ⟨_, rfl, rfl, hs⟩
        · rw [if_neg hi] at hr ⊢; rw [if_neg hi]
          exact overHints_follows (fun st s a hs => branch_follows hb hm hT (fun st s a p p' => ih st s a p p') e hs a) l .nil .nil st s hs rfl r hr

theorem collect_follows (hb : Between t0 t1 V) (hm : Maintained V) (hT : Tended C P V t1) (fuel : Nat) {st : State} {s : Seen} (hs : Calm P t0 t1 s.st) (hst : st = s.st) (entity stopAt : String) :
    Follows P t0 t1 (fun r r' => SameTree r.1 r'.1 ∧ said r.2 = said r'.2) (Collect.collect C P (V 0) fuel st entity stopAt) (collect C P V fuel s entity stopAt) := by
  subst hst
  intro r hr
  have hto : ∀ c, s.st.config.get? entity = some c → tooOld P (V s.n) c = tooOld P (V 0) c := by
    intro c hg
    have hb0 := hb 0
    have hbn := hb s.n
    unfold tooOld
    cases hx : c.jws.payload.exp with
    | none => rfl
    | some x =>
      have hc := (hs.config _ c x hg hx).2
      simp only
      congr 1
      by_cases h1 : (V s.n).now ≥ x + P.delta
      · have h2 : (V 0).now ≥ x + P.delta := by rcases hc with hc | hc <;> omega
        simp [h1, h2]
      · have h2 : ¬ (V 0).now ≥ x + P.delta := by rcases hc with hc | hc <;> omega
        simp [h1, h2]
  have hfetch : Follows P t0 t1 (fun r r' => SameTree r.1 r'.1 ∧ said r.2 = said r'.2)
      (match (V 0).config entity with
        | .error e => (.error e.toPy, s.st)
        | .ok none => (.error .valueError, s.st)
        | .ok (some j) =>
          match selfVerify C (V 0).now j with
          | .error e => (.error e, s.st)
          | .ok p =>
            match Collect.collectTree C P (V 0) stopAt fuel { s.st with config := s.st.config.set entity ⟨j⟩ } entity (some p) with
            | (.error e, st) => (.error e, st)
            | (.ok f, st) => (.ok (f, j), st))
      (match (V (s.n + 1)).config entity with
        | .error e => (.error e.toPy, ⟨s.st, s.n + 2⟩)
        | .ok none => (.error .valueError, ⟨s.st, s.n + 2⟩)
        | .ok (some j) =>
          match selfVerify C (V (s.n + 2)).now j with
          | .error e => (.error e, ⟨s.st, s.n + 3⟩)
          | .ok p =>
            match collectTree C P V stopAt fuel ⟨{ s.st with config := s.st.config.set entity ⟨j⟩ }, s.n + 3⟩ entity (some p) with
            | (.error e, s) => (.error e, s)
            | (.ok f, s) => (.ok (f, j), s) : Except PyErr (Forest Jws × Jws) × Seen) := by
    intro r hr
    cases hc : (V 0).config entity with
    | error e => rw [hc] at hr; cases hr
    | ok d =>
      cases d with
      | none => rw [hc] at hr; cases hr
      | some j =>
        rw [hc] at hr
        simp only at hr ⊢
        cases hv : selfVerify C (V 0).now j with
        | error e => rw [hv] at hr; cases hr
        | ok p =>
          rw [hv] at hr
          simp only at hr ⊢
          obtain ⟨j', hc', hv', hsd, hl, hl'⟩ := config_follows hm hT hc hv (s.n + 1) (s.n + 2) (Nat.le_succ _)
          rw [hc']
          simp only
          rw [hv']
          simp only
          have hp := selfVerify_payload hv
          subst hp
          have h := tree_follows hb hm hT stopAt fuel { s.st with config := s.st.config.set entity ⟨j⟩ } ⟨{ s.st with config := s.st.config.set entity ⟨j'⟩ }, s.n + 3⟩ entity
            (some j.payload) (some j'.payload) (hs.kin.set entity (.inr ⟨hsd, hl, hl'⟩)) (.some hsd)
          revert h hr
          generalize collectTree C P V stopAt fuel ⟨{ s.st with config := s.st.config.set entity ⟨j'⟩ }, s.n + 3⟩ entity (some j'.payload) = y
          generalize Collect.collectTree C P (V 0) stopAt fuel { s.st with config := s.st.config.set entity ⟨j⟩ } entity (some j.payload) = x
          obtain ⟨x1, st2⟩ := x
          obtain ⟨y1, s2⟩ := y
          intro hr h
          cases x1 with
          | error e => cases hr
          | ok f =>
            obtain ⟨f', h1, h2, hs2⟩ := h f rfl
            simp only at h1 hs2
            subst h1
            cases hr
            exact ⟨_, rfl, ⟨h2, hsd⟩, hs2⟩
  revert r hr
  show Follows P t0 t1 _ _ _
  unfold collect Collect.collect
  cases hg : s.st.config.get? entity with
  | none => exact hfetch
  | some c =>
    simp only
    rw [hto c hg]
    cases tooOld P (V 0) c with
    | error e => intro r hr; cases hr
    | ok b =>
      cases b with
      | true => exact hfetch
      | false =>
        intro r hr
        simp only at hr ⊢
        have h := tree_follows hb hm hT stopAt fuel s.st ⟨s.st, s.n + 1⟩ entity (some c.jws.payload) (some c.jws.payload) hs.kin (.some rfl)
        revert h hr
        generalize collectTree C P V stopAt fuel ⟨s.st, s.n + 1⟩ entity (some c.jws.payload) = y
        generalize Collect.collectTree C P (V 0) stopAt fuel s.st entity (some c.jws.payload) = x
        obtain ⟨x1, st2⟩ := x
        obtain ⟨y1, s2⟩ := y
        intro hr h
        cases x1 with
        | error e => cases hr
        | ok f =>
          obtain ⟨f', h1, h2, hs2⟩ := h f rfl
          simp only at h1 hs2
          subst h1
          cases hr
          exact ⟨_, rfl, ⟨h2, rfl⟩, hs2⟩

end

/-! ### The theorems -/

/-- C218, when what is published does not change and nothing that is published or cached becomes stale between the first and the last look: it makes no difference that time passes. The result (and the error, if there is one)
and the caches afterwards are those of a collection at any one moment of the time it takes. -/
theorem C218_still_partial {C : Crypto} {P : Params} {F : Federation} {t0 t1 t : Int} {V : Course} (hq : Quiet C P F t0 t1) (hV : Through F t0 t1 V) (ht : t0 ≤ t) (ht' : t ≤ t1) (fuel : Nat) {st : State}
    (hs : Calm P t0 t1 st) (entity stopAt : String) :
    (collect C P V fuel ⟨st, 0⟩ entity stopAt).1 = (Collect.collect C P (F.at t) fuel st entity stopAt).1 ∧
      (collect C P V fuel ⟨st, 0⟩ entity stopAt).2.st = (Collect.collect C P (F.at t) fuel st entity stopAt).2 :=
  have h := collect_agree hq hV ⟨ht, ht'⟩ fuel (s := ⟨st, 0⟩) hs entity stopAt
  ⟨h.1, h.2.1⟩

/-- C218, when documents are renewed meanwhile: if what is published at the beginning stays fresh to the end, and nothing that is cached becomes stale meanwhile, then an entity whose trust chains could be collected
at the beginning has them collected, and they say what they would have said: the same authorities, and the same statements up to their expiry times and signatures. -/
theorem C218_renewed_partial {C : Crypto} {P : Params} {t0 t1 : Int} {V : Course} (hb : ∀ i, t0 ≤ (V i).now ∧ (V i).now ≤ t1) (hm : Maintained V) (hT : Tended C P V t1) (fuel : Nat) {st : State}
    (hs : Calm P t0 t1 st) (entity stopAt : String) (f : Forest Jws) (ec : Jws) (h : (Collect.collect C P (V 0) fuel st entity stopAt).1 = .ok (f, ec)) :
    ∃ f' ec', (collect C P V fuel ⟨st, 0⟩ entity stopAt).1 = .ok (f', ec') ∧ mapForest said f' = mapForest said f ∧ said ec' = said ec := by
  obtain ⟨⟨f', ec'⟩, h1, ⟨h2, h3⟩, _⟩ := collect_follows hb hm hT fuel (s := ⟨st, 0⟩) hs rfl entity stopAt (f, ec) h
  exact ⟨f', ec', h1, h2.symm, h3.symm⟩

/-! ### Cases -/

namespace Ex218
open Ex31
/-- Documents that expire at `x`; `x'` for the configuration of the trust anchor. -/
def conf (x x' : Int) (k : String) : Jws :=
  ⟨{ iss := k, sub := k, exp := some (if k = "ta" then x' else x), jwks := some [1], hints := if k = "ta" then none else some ["ta"], metadata := some [("federation_entity", [("federation_fetch_endpoint", .str "fetch")])] }, 1⟩
def world (x x' t : Int) : World where
  now := t
  config k := .ok (some (conf x x' k))
  fetch _ a e := .ok (some ⟨{ iss := a, sub := e, exp := some x }, 2⟩)
/-- Until the eighth look it is 99 o'clock, and the trust anchor's configuration expires at 400; after that it is 100 o'clock, and it has been renewed. -/
def V : Course := fun i => if i < 7 then world 10000 400 99 else world 10000 4000 100

theorem onward : Onward V := by
  intro i j hij
  unfold V
  by_cases hi : i < 7
  · rw [if_pos hi]
    by_cases hj : j < 7
    · rw [if_pos hj]; exact Int.le_refl _
    · rw [if_neg hj]; decide
  · rw [if_neg hi, if_neg (by omega)]; exact Int.le_refl _

theorem renewed (x y y' : Int) (h : y ≤ y') (k : String) : Renewed (some (conf x y k)) (some (conf x y' k)) := by
  refine ⟨rfl, ?_⟩
  intro z hz
  simp only [conf, Option.some.injEq] at hz ⊢
  by_cases hk : k = "ta"
  · rw [if_pos hk] at hz ⊢; exact ⟨_, rfl, by omega⟩
  · rw [if_neg hk] at hz ⊢; exact ⟨_, rfl, by omega⟩

theorem maintained (n : Nat) (x y y' t t' : Int) (h : y ≤ y') : Maintained (fun i => if i < n then world x y t else world x y' t') := by
  intro i j hij
  have hf : ∀ d : Jws, Renewed (some d) (some d) := fun d => ⟨rfl, fun z hz => ⟨z, hz, Int.le_refl _⟩⟩
  simp only
  by_cases hi : i < n
  · rw [if_pos hi]
    by_cases hj : j < n
    · rw [if_pos hj]
      exact ⟨fun a d hd => ⟨d, hd, by simp only [world, Except.ok.injEq] at hd; subst hd; exact hf _⟩,
        fun ep a e d hd => ⟨d, hd, by simp only [world, Except.ok.injEq] at hd; subst hd; exact hf _⟩⟩
    · rw [if_neg hj]
      exact ⟨fun a d hd => ⟨_, rfl, by simp only [world, Except.ok.injEq] at hd; subst hd; exact renewed x y y' h a⟩,
        fun ep a e d hd => ⟨d, hd, by simp only [world, Except.ok.injEq] at hd; subst hd; exact hf _⟩⟩
  · rw [if_neg hi, if_neg (by omega)]
    exact ⟨fun a d hd => ⟨d, hd, by simp only [world, Except.ok.injEq] at hd; subst hd; exact hf _⟩,
      fun ep a e d hd => ⟨d, hd, by simp only [world, Except.ok.injEq] at hd; subst hd; exact hf _⟩⟩
end Ex218

/-- C218 does not hold: the configuration of the trust anchor is fetched just before it is `allowed_delta` from expiring, and a moment later, when the statement has been fetched, it is taken out of the cache and found missing,
which is a TypeError. A moment sooner, or a moment later, when it has been renewed, the trust chains are collected. -/
theorem C218_violation : ¬ C218_full := by
  intro h
  have h1 : ∀ i, ∃ r, (Collect.collect Ex31.C Ex31.P (Ex218.V i) 10 {} "leaf" "").1 = .ok r := by
    intro i
    unfold Ex218.V
    by_cases hi : i < 7
    · rw [if_pos hi]
      exact ⟨_, (by decide +kernel : (Collect.collect Ex31.C Ex31.P (Ex218.world 10000 400 99) 10 {} "leaf" "").1 =
        .ok (.node "ta" ⟨{ iss := "ta", sub := "leaf", exp := some 10000 }, 2⟩ .nil .nil, Ex218.conf 10000 400 "leaf"))⟩
    · rw [if_neg hi]
      exact ⟨_, (by decide +kernel : (Collect.collect Ex31.C Ex31.P (Ex218.world 10000 4000 100) 10 {} "leaf" "").1 =
        .ok (.node "ta" ⟨{ iss := "ta", sub := "leaf", exp := some 10000 }, 2⟩ .nil .nil, Ex218.conf 10000 4000 "leaf"))⟩
  obtain ⟨r, hr⟩ := h Ex31.C Ex31.P Ex218.V 10 {} "leaf" "" Ex218.onward (Ex218.maintained 7 10000 400 4000 99 100 (by decide)) h1
  have h2 : (collect Ex31.C Ex31.P Ex218.V 10 ⟨{}, 0⟩ "leaf" "").1 = .error .typeError := by decide +kernel
  rw [h2] at hr
  cases hr

namespace Ex218
open Ex31
/-- The trust anchor renews its configuration at the fifth look, long before the one it replaces expires. -/
def W : Course := fun i => if i < 4 then world 10000 5000 99 else world 10000 6000 100
example : ∀ i, 99 ≤ (W i).now ∧ (W i).now ≤ 100 := by
  intro i
  unfold W
  by_cases hi : i < 4
  · rw [if_pos hi]; decide
  · rw [if_neg hi]; decide
example : Maintained W := maintained 4 10000 5000 6000 99 100 (by decide)
theorem verified (x t : Int) (k : String) (hx : 1000 < x) (ht : t ≤ 100) : selfVerify Ex31.C t (conf 10000 x k) = .ok (conf 10000 x k).payload := by
  have h : Ex31.C.current t (conf 10000 x k) = true := by
    simp only [Ex31.C, notExpired, conf, decide_eq_true_eq]
    by_cases hk : k = "ta"
    · rw [if_pos hk]; omega
    · rw [if_neg hk]; omega
  unfold selfVerify
  rw [h]
  rfl
example : Tended Ex31.C Ex31.P W 100 := by
  constructor
  · intro a j h
    have h : (Except.ok (some (conf 10000 5000 a)) : Except NetErr Doc) = .ok (some j) := h
    simp only [Except.ok.injEq, Option.some.injEq] at h
    subst h
    refine ⟨if a = "ta" then 5000 else 10000, rfl, ?_⟩
    by_cases hk : a = "ta"
    · rw [if_pos hk]; decide
    · rw [if_neg hk]; decide
  · intro ep a e j h
    have h : (Except.ok (some ⟨{ iss := a, sub := e, exp := some 10000 }, 2⟩) : Except NetErr Doc) = .ok (some j) := h
    simp only [Except.ok.injEq, Option.some.injEq] at h
    subst h
    exact ⟨10000, rfl, by decide⟩
  · intro a j i k j' _ _ hik h
    have hn : (W k).now ≤ 100 := by
      unfold W
      by_cases hi : k < 4
      · rw [if_pos hi]; decide
      · rw [if_neg hi]; decide
    revert h
    unfold W at *
    by_cases hi : i < 4
    · rw [if_pos hi]
      intro h
      simp only [world, Except.ok.injEq, Option.some.injEq] at h
      subst h
      exact verified 5000 _ a (by decide) hn
    · rw [if_neg hi]
      intro h
      simp only [world, Except.ok.injEq, Option.some.injEq] at h
      subst h
      exact verified 6000 _ a (by decide) hn
example : Calm Ex31.P 99 100 {} := ⟨fun k c x h => (by cases h), fun k x h => (by cases h)⟩
example : (Collect.collect Ex31.C Ex31.P (W 0) 10 {} "leaf" "").1 = .ok (.node "ta" ⟨{ iss := "ta", sub := "leaf", exp := some 10000 }, 2⟩ .nil .nil, conf 10000 5000 "leaf") := by decide +kernel
/-- An unchanging federation, looked at from 99 to 100 o'clock. -/
def F : Federation := ⟨(world 10000 5000 0).config, (world 10000 5000 0).fetch⟩
def U : Course := fun i => if i < 4 then F.at 99 else F.at 100
example : Through F 99 100 U := by
  intro i
  unfold U
  by_cases hi : i < 4
  · rw [if_pos hi]; exact ⟨99, by decide, by decide, rfl⟩
  · rw [if_neg hi]; exact ⟨100, by decide, by decide, rfl⟩
example : Quiet Ex31.C Ex31.P F 99 100 := by
  constructor
  · intro a j h
    have h : (Except.ok (some (conf 10000 5000 a)) : Except NetErr Doc) = .ok (some j) := h
    simp only [Except.ok.injEq, Option.some.injEq] at h
    subst h
    constructor
    · intro x hx
      simp only [conf, Option.some.injEq] at hx
      subst hx
      by_cases hk : a = "ta"
      · rw [if_pos hk]; exact ⟨.inl (by decide), .inl (by decide)⟩
      · rw [if_neg hk]; exact ⟨.inl (by decide), .inl (by decide)⟩
    · intro t t' _ h1 _ h2
      simp only [Ex31.C, notExpired, conf]
      by_cases hk : a = "ta"
      · rw [if_pos hk]
        have e1 : t < 5000 + 15 := by omega
        have e2 : t' < 5000 + 15 := by omega
        simp only [e1, e2]
      · rw [if_neg hk]
        have e1 : t < 10000 + 15 := by omega
        have e2 : t' < 10000 + 15 := by omega
        simp only [e1, e2]
  · intro ep a e j h x hx
    have h : (Except.ok (some ⟨{ iss := a, sub := e, exp := some 10000 }, 2⟩) : Except NetErr Doc) = .ok (some j) := h
    simp only [Except.ok.injEq, Option.some.injEq] at h
    subst h
    simp only [Option.some.injEq] at hx
    subst hx
    exact ⟨.inl (by decide), .inl (by decide)⟩
end Ex218

end Fed.Collect.Moving
