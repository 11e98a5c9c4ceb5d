import Verif.Collect.HistoryProps
/-
Properties C70–C72: what caching does to a collection; faulty authorities; expired configurations.
-/
namespace Fed.Collect
open Fed

/-- A federation whose members always publish the same documents. -/
structure Federation where
  config : String → Except NetErr Doc
  fetch : (endpoint : Val) → (authority entity : String) → Except NetErr Doc

/-- The federation at a time. -/
def Federation.at (F : Federation) (t : Int) : World := ⟨t, F.config, F.fetch⟩

/-! ### Collecting without any cache -/

/-- The configuration an entity publishes, if it is properly self-signed. -/
def publishedConfig (C : Crypto) (F : Federation) (now : Int) (a : String) : Option Jws :=
  match F.config a with
  | .ok (some j) => if selfVerify C now j = .ok j.payload then some j else none
  | _ => none

/-- What `a` has to say about `e`: `none` when asking fails, `some none` when `a` has no fetch endpoint. -/
def publishedStatement (C : Crypto) (F : Federation) (now : Int) (a e : String) : Option (Option Jws) :=
  match publishedConfig C F now a with
  | none => none
  | some j0 =>
    match getFetchEndpoint j0.payload with
    | .error _ => none
    | .ok ep =>
      match usableEndpoint ep with
      | none => some none
      | some v =>
        match F.fetch v a e with
        | .ok (some j) => if j.payload.exp.isSome then some (some j) else none
        | _ => none

/-- Is the configuration valid for longer than the allowed delta? -/
def freshAt (P : Params) (now : Int) (j : Jws) : Bool :=
  match j.payload.exp with
  | some x => decide (now < x - P.delta)
  | none => false

/-- The branches for a list of hints, each worked out by `branch`; fails if one of them fails. -/
def idealHints (branch : String → Option Branch) : List String → Forest Jws → Option (Forest Jws)
  | [], acc => some acc
  | a :: as, acc =>
    match branch a with
    | none => none
    | some b => idealHints branch as (acc.set a b)

/-- The branch of `a` above `e`. -/
def idealBranch (C : Crypto) (P : Params) (F : Federation) (now : Int) (tree : String → Payload → Option (Forest Jws))
    (e a : String) : Option Branch :=
  if e = a ∧ e ∈ P.anchors then some none
  else
    match publishedStatement C F now a e with
    | none => none
    | some none => some none
    | some (some s) =>
      match publishedConfig C F now a with
      | none => none
      | some j => if freshAt P now j then (tree a j.payload).map fun f => some (s, f) else none

/-- The tree above `e` as the federation publishes it, to a depth of `fuel`; `none` when the collection fails. -/
def idealTree (C : Crypto) (P : Params) (F : Federation) (now : Int) (stopAt : String) :
    (fuel : Nat) → String → Payload → Option (Forest Jws)
  | 0, _, _ => none
  | n + 1, e, p =>
    match p.hints with
    | none => some .nil
    | some hs =>
      if p.iss = stopAt then some .nil
      else idealHints (idealBranch C P F now (idealTree C P F now stopAt n) e) hs .nil

/-- Collection of an entity without any cache. -/
def idealCollect (C : Crypto) (P : Params) (F : Federation) (now : Int) (fuel : Nat) (entity stopAt : String) :
    Option (Forest Jws × Jws) :=
  match publishedConfig C F now entity with
  | none => none
  | some j => (idealTree C P F now stopAt fuel entity j.payload).map fun f => (f, j)

/-! ### Coherent caches -/

theorem publishedConfig_iff {C F t a j} : publishedConfig C F t a = some j ↔ F.config a = .ok (some j) ∧ selfVerify C t j = .ok j.payload := by
  unfold publishedConfig
  split
  · rename_i j' h
    rw [h]
    split
    · rename_i h'
      constructor
      · intro e; cases e; exact ⟨rfl, h'⟩
      · rintro ⟨e, -⟩; cases e; rfl
    · rename_i h'
      constructor
      · intro e; cases e
      · rintro ⟨e, h2⟩; cases e; exact absurd h2 h'
  · rename_i h
    constructor
    · intro e; cases e
    · rintro ⟨e, -⟩; exact absurd e (h j)

/-- The caches agree with what the federation publishes, at time `t`. -/
structure Coherent (C : Crypto) (P : Params) (F : Federation) (t : Int) (st : State) : Prop where
  config : ∀ k c, st.config.get? k = some c → publishedConfig C F t k = some c.jws
  stmt : ∀ a e, Plain a → Plain e → ∀ v, st.es.get? (cacheKey a e) = some v → ∃ j j0 ep w, v = .stmt j ∧
    publishedConfig C F t a = some j0 ∧ getFetchEndpoint j0.payload = .ok ep ∧ usableEndpoint ep = some w ∧
    F.fetch w a e = .ok (some j) ∧ st.es.get? (timeKey a e) = j.payload.exp.map .time ∧
    (st.config.get? a = some ⟨j0⟩ ∨ freshAt P t j0 = false)
  both : ∀ a e, Plain a → Plain e → st.es.get? (cacheKey a e) = none → st.es.get? (timeKey a e) = none

theorem freshAt_mono {P : Params} {t t' : Int} (h : t ≤ t') {j : Jws} (hf : freshAt P t j = false) : freshAt P t' j = false := by
  unfold freshAt at *
  split
  · rename_i x hx
    simp only [hx, decide_eq_false_iff_not] at hf ⊢
    omega
  · rfl

/-- Up to `now`, what has been current stays current: no published configuration expires. -/
def Federation.Lasting (F : Federation) (C : Crypto) (now : Int) : Prop :=
  ∀ k j, F.config k = .ok (some j) → ∀ t t', t ≤ t' → t' ≤ now → C.current t j = true → C.current t' j = true

theorem Federation.Lasting.publishedConfig {F : Federation} {C now t t' a j} (hl : F.Lasting C now) (ht : t ≤ t') (hn : t' ≤ now)
    (h : publishedConfig C F t a = some j) : publishedConfig C F t' a = some j := by
  rw [publishedConfig_iff] at h ⊢
  refine ⟨h.1, ?_⟩
  have := hl a j h.1 t t' ht hn
  have h2 := h.2
  unfold selfVerify at h2 ⊢
  split at h2
  · cases h2
  · split at h2
    · rename_i hc
      rw [Bool.and_eq_true] at hc
      rw [if_pos (by rw [Bool.and_eq_true]; exact ⟨hc.1, this hc.2⟩)]
    · cases h2

theorem Coherent.later {C P F t t' now st} (h : Coherent C P F t st) (hl : F.Lasting C now) (ht : t ≤ t') (hn : t' ≤ now) :
    Coherent C P F t' st := by
  refine ⟨fun k c hc => hl.publishedConfig ht hn (h.config k c hc), fun a e ha he v hv => ?_, h.both⟩
  obtain ⟨j, j0, ep, w, h1, h2, h3, h4, h5, h6, h7⟩ := h.stmt a e ha he v hv
  exact ⟨j, j0, ep, w, h1, hl.publishedConfig ht hn h2, h3, h4, h5, h6, h7.imp id (freshAt_mono ht)⟩

theorem Coherent.empty (C P F t) : Coherent C P F t {} := ⟨by simp, by simp, by simp⟩

theorem Coherent.setConfig {C P F t st} (h : Coherent C P F t st) {k : String} {j : Jws} (hj : publishedConfig C F t k = some j) :
    Coherent C P F t { st with config := st.config.set k ⟨j⟩ } := by
  refine ⟨fun q c hq => ?_, fun a e ha he v hv => ?_, h.both⟩
  · rw [Dict.get?_set] at hq
    split at hq
    · rename_i e; subst e; cases hq; exact hj
    · exact h.config q c hq
  · obtain ⟨j', j0, ep, w, h1, h2, h3, h4, h5, h6, h7⟩ := h.stmt a e ha he v hv
    refine ⟨j', j0, ep, w, h1, h2, h3, h4, h5, h6, ?_⟩
    rcases h7 with h7 | h7
    · left
      rw [Dict.get?_set]
      split
      · rename_i e; subst e; rw [hj] at h2; cases h2; rfl
      · exact h7
    · exact Or.inr h7

theorem Coherent.dropConfig {C P F t st} (h : Coherent C P F t st) {k : String}
    (hj : ∀ j, publishedConfig C F t k = some j → freshAt P t j = false) :
    Coherent C P F t { st with config := drop st.config k } := by
  refine ⟨fun q c hq => ?_, fun a e ha he v hv => ?_, h.both⟩
  · rw [get?_drop] at hq
    split at hq
    · cases hq
    · exact h.config q c hq
  · obtain ⟨j', j0, ep, w, h1, h2, h3, h4, h5, h6, h7⟩ := h.stmt a e ha he v hv
    refine ⟨j', j0, ep, w, h1, h2, h3, h4, h5, h6, ?_⟩
    by_cases hk : k = a
    · subst hk; exact Or.inr (hj _ h2)
    · rcases h7 with h7 | h7
      · left; rw [get?_drop, if_neg hk]; exact h7
      · exact Or.inr h7

theorem Coherent.without {C P F t st} (h : Coherent C P F t st) (a e : String) (ha : Plain a) (he : Plain e) :
    Coherent C P F t (st.without a e) := by
  have other : ∀ a' e', Plain a' → Plain e' → ¬ (a = a' ∧ e = e') →
      (st.without a e).es.get? (cacheKey a' e') = st.es.get? (cacheKey a' e') ∧
      (st.without a e).es.get? (timeKey a' e') = st.es.get? (timeKey a' e') := by
    intro a' e' ha' he' hne
    simp only [State.without, get?_drop]
    rw [if_neg (fun h => not_plain_timeKey_cacheKey ha he h), if_neg (fun h => hne (cacheKey_inj ha he h)),
      if_neg (fun h => hne (timeKey_inj ha he h)), if_neg (fun h => not_plain_cacheKey_timeKey ha he h)]
    exact ⟨rfl, rfl⟩
  have same1 : (st.without a e).es.get? (cacheKey a e) = none := by
    simp only [State.without, get?_drop]; split <;> simp
  have same2 : (st.without a e).es.get? (timeKey a e) = none := by simp [State.without, get?_drop]
  refine ⟨h.config, fun a' e' ha' he' v hv => ?_, fun a' e' ha' he' hv => ?_⟩
  · by_cases hp : a = a' ∧ e = e'
    · obtain ⟨rfl, rfl⟩ := hp; rw [same1] at hv; cases hv
    · obtain ⟨o1, o2⟩ := other a' e' ha' he' hp
      rw [o1] at hv
      obtain ⟨j', j0, ep, w, h1, h2, h3, h4, h5, h6, h7⟩ := h.stmt a' e' ha' he' v hv
      exact ⟨j', j0, ep, w, h1, h2, h3, h4, h5, by rw [o2]; exact h6, h7⟩
  · by_cases hp : a = a' ∧ e = e'
    · obtain ⟨rfl, rfl⟩ := hp; exact same2
    · obtain ⟨o1, o2⟩ := other a' e' ha' he' hp
      rw [o1] at hv; rw [o2]; exact h.both a' e' ha' he' hv

/-- All published configurations have an expiry. -/
def Federation.Dated (F : Federation) : Prop := ∀ k j, F.config k = .ok (some j) → ∃ x, j.payload.exp = some x

/-- All published hints are free of exclamation marks. -/
def Federation.PlainHints (F : Federation) : Prop :=
  ∀ k j hs, F.config k = .ok (some j) → j.payload.hints = some hs → ∀ a ∈ hs, Plain a

theorem freshAt_of {P : Params} {t x : Int} {j : Jws} (hx : j.payload.exp = some x) : freshAt P t j = decide (t < x - P.delta) := by
  simp [freshAt, hx]

/-- The lookup in coherent caches. -/
theorem Coherent.subscript {C P F t st} (h : Coherent C P F t st) (hd : F.Dated) (a : String) :
    (∃ j, st.config.get? a = some ⟨j⟩ ∧ publishedConfig C F t a = some j ∧ freshAt P t j = true ∧
      Collect.subscript P.delta t st.config a = (.ok (some ⟨j⟩), st.config)) ∨
    (∃ db, Collect.subscript P.delta t st.config a = (.ok none, db) ∧ Coherent C P F t { st with config := db } ∧
      (st.config.get? a = none ∨ ∃ j, publishedConfig C F t a = some j ∧ freshAt P t j = false)) := by
  rcases subscript_config P.delta t st.config a with ⟨c, e, h1, h2, h3, h4⟩ | ⟨c, e, h1, h2, h3, h4⟩ | ⟨c, h1, h2, h4⟩ | ⟨h1, h4⟩
  · left
    exact ⟨c.jws, h1, h.config _ _ h1, by rw [freshAt_of h2]; simpa using h3, h4⟩
  · right
    have hp := h.config _ _ h1
    have hf : freshAt P t c.jws = false := by rw [freshAt_of h2]; simpa using h3
    exact ⟨_, h4, h.dropConfig fun j hj => by rw [hp] at hj; cases hj; exact hf, Or.inr ⟨_, hp, hf⟩⟩
  · obtain ⟨x, hx⟩ := hd a c.jws (publishedConfig_iff.1 (h.config _ _ h1)).1
    rw [hx] at h2; cases h2
  · right
    exact ⟨_, h4, h, Or.inl h1⟩

theorem refreshConfig_ideal {C P F t st} (h : Coherent C P F t st) (a : String) :
    Coherent C P F t (refreshConfig C (F.at t) st a).2 ∧ (refreshConfig C (F.at t) st a).2.es = st.es ∧
    ((∃ j ep, publishedConfig C F t a = some j ∧ getFetchEndpoint j.payload = .ok ep ∧
        (refreshConfig C (F.at t) st a).1 = .ok ep ∧ (refreshConfig C (F.at t) st a).2.config.get? a = some ⟨j⟩) ∨
     ((∃ x, (refreshConfig C (F.at t) st a).1 = .error x) ∧
        ∀ j, publishedConfig C F t a = some j → ∃ x, getFetchEndpoint j.payload = .error x)) := by
  unfold refreshConfig
  have hc : (F.at t).config a = F.config a := rfl
  rw [hc]
  split
  · rename_i e he
    refine ⟨h, rfl, Or.inr ⟨⟨_, rfl⟩, fun j hj => ?_⟩⟩
    rw [publishedConfig_iff, he] at hj; cases hj.1
  · rename_i he
    refine ⟨h, rfl, Or.inr ⟨⟨_, rfl⟩, fun j hj => ?_⟩⟩
    rw [publishedConfig_iff, he] at hj; cases hj.1
  · rename_i j hj
    split
    · rename_i x hx
      refine ⟨h, rfl, Or.inr ⟨⟨_, rfl⟩, fun j' hj' => ?_⟩⟩
      rw [publishedConfig_iff, hj] at hj'
      obtain ⟨e, h2⟩ := hj'
      cases e
      rw [show selfVerify C t j = .error x from hx] at h2; cases h2
    · rename_i p hp
      have := selfVerify_payload hp
      subst this
      have hpub : publishedConfig C F t a = some j := publishedConfig_iff.2 ⟨hj, hp⟩
      split
      · rename_i x hx
        refine ⟨h, rfl, Or.inr ⟨⟨_, rfl⟩, fun j' hj' => ?_⟩⟩
        rw [hpub] at hj'; cases hj'; exact ⟨_, hx⟩
      · rename_i ep hep
        exact ⟨h.setConfig hpub, rfl, Or.inl ⟨j, ep, hpub, hep, rfl, by simp⟩⟩

theorem fetchEndpoint_ideal {C P F t st} (h : Coherent C P F t st) (hd : F.Dated) (a : String) :
    Coherent C P F t (fetchEndpoint C P (F.at t) st a).2 ∧ (fetchEndpoint C P (F.at t) st a).2.es = st.es ∧
    ((∃ j ep, publishedConfig C F t a = some j ∧ getFetchEndpoint j.payload = .ok ep ∧
        (fetchEndpoint C P (F.at t) st a).1 = .ok ep ∧ (fetchEndpoint C P (F.at t) st a).2.config.get? a = some ⟨j⟩) ∨
     ((∃ x, (fetchEndpoint C P (F.at t) st a).1 = .error x) ∧
        ∀ j, publishedConfig C F t a = some j → ∃ x, getFetchEndpoint j.payload = .error x)) := by
  unfold fetchEndpoint
  have hnow : (F.at t).now = t := rfl
  rw [hnow]
  rcases h.subscript hd a with ⟨j, h1, h2, h3, h4⟩ | ⟨db, h4, h5, h6⟩
  · rw [h4]
    simp only
    split
    · rename_i x hx
      exact ⟨h, rfl, Or.inr ⟨⟨_, rfl⟩, fun j' hj' => by rw [h2] at hj'; cases hj'; exact ⟨_, hx⟩⟩⟩
    · rename_i ep hep
      split
      · exact ⟨h, rfl, Or.inl ⟨j, ep, h2, hep, rfl, h1⟩⟩
      · exact refreshConfig_ideal h a
  · rw [h4]
    exact refreshConfig_ideal h5 a

/-- Fetching a statement gives what is published, and leaves coherent caches. -/
theorem fetchStatement_ideal {C P F t st} (h : Coherent C P F t st) (hd : F.Dated) (e a : String) (he : Plain e) (ha : Plain a)
    (hnone : st.es.get? (cacheKey a e) = none) :
    Coherent C P F t (fetchStatement C P (F.at t) st e a).2 ∧
    (fetchStatement C P (F.at t) st e a).1.toOption = publishedStatement C F t a e ∧
    ∀ s, (fetchStatement C P (F.at t) st e a).1 = .ok (some s) →
      ∃ j, publishedConfig C F t a = some j ∧ (fetchStatement C P (F.at t) st e a).2.config.get? a = some ⟨j⟩ := by
  unfold fetchStatement
  have hE := fetchEndpoint_ideal h hd a
  generalize fetchEndpoint C P (F.at t) st a = r at hE
  obtain ⟨r1, st1⟩ := r
  obtain ⟨hC, hes, hE⟩ := hE
  simp only at hC hes hE
  have hnone1 : st1.es.get? (cacheKey a e) = none := by rw [hes]; exact hnone
  rcases hE with ⟨j, ep, hj, hep, rfl, hcf⟩ | ⟨⟨x, rfl⟩, hx⟩
  · unfold publishedStatement
    simp only [hj, hep]
    cases hu : usableEndpoint ep with
    | none => exact ⟨hC, rfl, by simp⟩
    | some w =>
      simp only
      have hf : (F.at t).fetch w a e = F.fetch w a e := rfl
      rw [hf]
      cases hfe : F.fetch w a e with
      | error x => exact ⟨hC, rfl, by simp⟩
      | ok d =>
        cases d with
        | none => exact ⟨hC, rfl, by simp⟩
        | some s =>
          simp only
          have other : ∀ (v1 v2 : ESVal) a' e', Plain a' → Plain e' → ¬ (a = a' ∧ e = e') →
              Dict.get? (Dict.set st1.es (cacheKey a e) v1) (cacheKey a' e') = st1.es.get? (cacheKey a' e') ∧
              Dict.get? (Dict.set st1.es (cacheKey a e) v1) (timeKey a' e') = st1.es.get? (timeKey a' e') ∧
              Dict.get? (Dict.set (Dict.set st1.es (cacheKey a e) v1) (timeKey a e) v2) (cacheKey a' e') = st1.es.get? (cacheKey a' e') ∧
              Dict.get? (Dict.set (Dict.set st1.es (cacheKey a e) v1) (timeKey a e) v2) (timeKey a' e') = st1.es.get? (timeKey a' e') := by
            intro v1 v2 a' e' ha' he' hne
            rw [Dict.get?_set_ne _ v2 (fun h => not_plain_timeKey_cacheKey ha he h), Dict.get?_set_ne _ v2 (fun h => hne (timeKey_inj ha he h)),
              Dict.get?_set_ne _ v1 (fun h => hne (cacheKey_inj ha he h)), Dict.get?_set_ne _ v1 (fun h => not_plain_cacheKey_timeKey ha he h)]
            exact ⟨rfl, rfl, rfl, rfl⟩
          cases hx : s.payload.exp with
          | none =>
            refine ⟨⟨hC.config, fun a' e' ha' he' v hv => ?_, fun a' e' ha' he' hv => ?_⟩, by simp [Except.toOption], by simp⟩
            · by_cases hp : a = a' ∧ e = e'
              · obtain ⟨rfl, rfl⟩ := hp
                rw [Dict.get?_set_self] at hv
                cases hv
                refine ⟨s, j, ep, w, rfl, hj, hep, hu, hfe, ?_, Or.inl hcf⟩
                rw [Dict.get?_set_ne _ _ (cacheKey_ne_timeKey _ _), hx]
                exact hC.both a e ha he hnone1
              · obtain ⟨o1, o2, -⟩ := other (.stmt s) (.time 0) a' e' ha' he' hp
                simp only [o1, o2] at hv ⊢
                exact hC.stmt a' e' ha' he' v hv
            · by_cases hp : a = a' ∧ e = e'
              · obtain ⟨rfl, rfl⟩ := hp
                rw [Dict.get?_set_self] at hv; cases hv
              · obtain ⟨o1, o2, -⟩ := other (.stmt s) (.time 0) a' e' ha' he' hp
                simp only [o1, o2] at hv ⊢
                exact hC.both a' e' ha' he' hv
          | some x =>
            refine ⟨⟨hC.config, fun a' e' ha' he' v hv => ?_, fun a' e' ha' he' hv => ?_⟩, by simp [Except.toOption], fun s' hs' => ⟨j, rfl, hcf⟩⟩
            · by_cases hp : a = a' ∧ e = e'
              · obtain ⟨rfl, rfl⟩ := hp
                rw [Dict.get?_set_ne _ _ (cacheKey_ne_timeKey _ _).symm, Dict.get?_set_self] at hv
                cases hv
                refine ⟨s, j, ep, w, rfl, hj, hep, hu, hfe, ?_, Or.inl hcf⟩
                rw [Dict.get?_set_self, hx]; rfl
              · obtain ⟨-, -, o1, o2⟩ := other (.stmt s) (.time x) a' e' ha' he' hp
                simp only [o1, o2] at hv ⊢
                exact hC.stmt a' e' ha' he' v hv
            · by_cases hp : a = a' ∧ e = e'
              · obtain ⟨rfl, rfl⟩ := hp
                rw [Dict.get?_set_ne _ _ (cacheKey_ne_timeKey _ _).symm, Dict.get?_set_self] at hv; cases hv
              · obtain ⟨-, -, o1, o2⟩ := other (.stmt s) (.time x) a' e' ha' he' hp
                simp only [o1, o2] at hv ⊢
                exact hC.both a' e' ha' he' hv
  · refine ⟨hC, ?_, by simp⟩
    unfold publishedStatement
    cases hj : publishedConfig C F t a with
    | none => rfl
    | some j => obtain ⟨y, hy⟩ := hx j hj; simp [hy, Except.toOption]

/-- So does looking one up in coherent caches. -/
theorem getStatement_ideal {C P F t st} (h : Coherent C P F t st) (hd : F.Dated) (e a : String) (he : Plain e) (ha : Plain a) :
    Coherent C P F t (getStatement C P (F.at t) st e a).2 ∧
    (getStatement C P (F.at t) st e a).1.toOption = publishedStatement C F t a e ∧
    ∀ s, (getStatement C P (F.at t) st e a).1 = .ok (some s) →
      ∃ j, publishedConfig C F t a = some j ∧
        ((getStatement C P (F.at t) st e a).2.config.get? a = some ⟨j⟩ ∨ freshAt P t j = false) := by
  have fetched : ∀ st, Coherent C P F t st → st.es.get? (cacheKey a e) = none →
      Coherent C P F t (fetchStatement C P (F.at t) st e a).2 ∧
      (fetchStatement C P (F.at t) st e a).1.toOption = publishedStatement C F t a e ∧
      ∀ s, (fetchStatement C P (F.at t) st e a).1 = .ok (some s) →
        ∃ j, publishedConfig C F t a = some j ∧
          ((fetchStatement C P (F.at t) st e a).2.config.get? a = some ⟨j⟩ ∨ freshAt P t j = false) := by
    intro st h hn
    obtain ⟨h1, h2, h3⟩ := fetchStatement_ideal h hd e a he ha hn
    exact ⟨h1, h2, fun s hs => by obtain ⟨j, h4, h5⟩ := h3 s hs; exact ⟨j, h4, Or.inl h5⟩⟩
  unfold getStatement
  split
  · rename_i hn; exact fetched st h hn
  · rename_i x hv
    obtain ⟨j, j0, ep, w, h1, -⟩ := h.stmt a e ha he _ hv
    cases h1
  · rename_i j' hv
    obtain ⟨j, j0, ep, w, h1, h2, h3, h4, h5, h6, h7⟩ := h.stmt a e ha he _ hv
    cases h1
    have hpub : publishedStatement C F t a e = if j'.payload.exp.isSome then some (some j') else none := by
      simp [publishedStatement, h2, h3, h4, h5]
    rw [h6]
    cases hx : j'.payload.exp with
    | none =>
      rw [hpub, hx]
      exact ⟨h, rfl, by simp⟩
    | some x =>
      simp only [Option.map]
      split
      · exact fetched _ (h.without a e ha he) (by simp only [get?_drop]; split <;> simp)
      · rw [hpub, hx]
        exact ⟨h, rfl, fun s hs => ⟨j0, h2, h7⟩⟩

theorem overHints_ideal {I : State → Prop} {branch : State → String → Except PyErr Branch × State} {ib : String → Option Branch} :
    ∀ hs acc st, I st → (∀ st a, a ∈ hs → I st → I (branch st a).2 ∧ (branch st a).1.toOption = ib a) →
      I (overHints branch hs acc st).2 ∧ (overHints branch hs acc st).1.toOption = idealHints ib hs acc
  | [], acc, st, hI, _ => ⟨hI, rfl⟩
  | a :: hs, acc, st, hI, hb => by
      have := hb st a (by simp) hI
      unfold overHints idealHints
      generalize branch st a = r at this
      obtain ⟨r1, st1⟩ := r
      cases r1 with
      | error x =>
        refine ⟨this.1, ?_⟩
        rw [← this.2]; rfl
      | ok b =>
        rw [← this.2]
        exact overHints_ideal hs _ _ this.1 fun st x hx => hb st x (by simp [hx])

theorem collectTree_ideal {C P F t} (hd : F.Dated) (hpl : F.PlainHints) (stopAt : String) :
    ∀ n st e p, Coherent C P F t st → Plain e → (∀ hs, p.hints = some hs → ∀ a ∈ hs, Plain a) →
      Coherent C P F t (collectTree C P (F.at t) stopAt n st e (some p)).2 ∧
      (collectTree C P (F.at t) stopAt n st e (some p)).1.toOption = idealTree C P F t stopAt n e p
  | 0, st, e, p, h, _, _ => ⟨h, rfl⟩
  | n + 1, st, e, p, h, he, hp => by
      unfold collectTree idealTree
      cases hh : p.hints with
      | none => exact ⟨h, rfl⟩
      | some hs =>
        simp only
        by_cases hst : p.iss = stopAt
        · simp only [hst, if_true]; exact ⟨h, rfl⟩
        · simp only [hst, if_false]
          refine overHints_ideal hs _ _ h fun st a hmem hI => ?_
          have ha := hp hs hh a hmem
          unfold collectBranch idealBranch
          by_cases hc : e = a ∧ e ∈ P.anchors
          · rw [if_pos hc, if_pos hc]; exact ⟨hI, rfl⟩
          · rw [if_neg hc, if_neg hc]
            have hS := getStatement_ideal hI hd e a he ha
            generalize getStatement C P (F.at t) st e a = r at hS
            obtain ⟨r1, st1⟩ := r
            obtain ⟨hC, hT, hcf⟩ := hS
            simp only at hC hT hcf
            rw [← hT]
            cases r1 with
            | error x => exact ⟨hC, rfl⟩
            | ok o =>
              cases o with
              | none => exact ⟨hC, rfl⟩
              | some s =>
                obtain ⟨j, hj, hcf⟩ := hcf s rfl
                simp only [Except.toOption, hj]
                have hnow : (F.at t).now = t := rfl
                rw [hnow]
                rcases hC.subscript hd a with ⟨j', h1, h2, h3, h4⟩ | ⟨db, h4, h5, h6⟩
                · rw [hj] at h2; cases h2
                  rw [h4]
                  simp only [h3, if_true, Option.map]
                  have ih := collectTree_ideal hd hpl stopAt n st1 a j.payload hC ha
                    (fun hs' hh' => hpl a j hs' (publishedConfig_iff.1 hj).1 hh')
                  have : ({ st1 with config := st1.config } : State) = st1 := rfl
                  rw [this]
                  generalize collectTree C P (F.at t) stopAt n st1 a (some j.payload) = r at ih
                  obtain ⟨r1, st2⟩ := r
                  obtain ⟨i1, i2⟩ := ih
                  cases r1 with
                  | error x => exact ⟨i1, by rw [← i2]; rfl⟩
                  | ok f => exact ⟨i1, by rw [← i2]; rfl⟩
                · have hff : freshAt P t j = false := by
                    rcases h6 with h6 | ⟨j', h6, h7⟩
                    · rcases hcf with hcf | hcf
                      · rw [h6] at hcf; cases hcf
                      · exact hcf
                    · rw [hj] at h6; cases h6; exact h7
                  rw [h4]
                  simp only [hff, Option.map]
                  cases n with
                  | zero => exact ⟨h5, rfl⟩
                  | succ n => exact ⟨h5, rfl⟩

theorem collect_ideal {C P F t st} (h : Coherent C P F t st) (hd : F.Dated) (hpl : F.PlainHints) (n : Nat) (entity stopAt : String)
    (he : Plain entity) :
    Coherent C P F t (collect C P (F.at t) n st entity stopAt).2 ∧
    (collect C P (F.at t) n st entity stopAt).1.toOption = idealCollect C P F t n entity stopAt := by
  have fin : ∀ st j, Coherent C P F t st → publishedConfig C F t entity = some j →
      Coherent C P F t (match collectTree C P (F.at t) stopAt n st entity (some j.payload) with
        | (Except.error e, st) => ((Except.error e : Except PyErr (Forest Jws × Jws)), st)
        | (Except.ok f, st) => (Except.ok (f, j), st)).2 ∧
      (match collectTree C P (F.at t) stopAt n st entity (some j.payload) with
        | (Except.error e, st) => ((Except.error e : Except PyErr (Forest Jws × Jws)), st)
        | (Except.ok f, st) => (Except.ok (f, j), st)).1.toOption = idealCollect C P F t n entity stopAt := by
    intro st j hC hj
    have := collectTree_ideal hd hpl stopAt n st entity j.payload hC he
      (fun hs hh => hpl entity j hs (publishedConfig_iff.1 hj).1 hh)
    unfold idealCollect
    rw [hj]
    generalize collectTree C P (F.at t) stopAt n st entity (some j.payload) = r at this
    obtain ⟨r1, st2⟩ := r
    obtain ⟨i1, i2⟩ := this
    cases r1 with
    | error x => exact ⟨i1, by simp only at i2 ⊢; rw [← i2]; rfl⟩
    | ok f => exact ⟨i1, by simp only at i2 ⊢; rw [← i2]; rfl⟩
  unfold collect
  simp only
  split
  · rename_i x hx
    exfalso
    split at hx
    · cases hx
    · rename_i c hc
      obtain ⟨y, hy⟩ := hd entity c.jws (publishedConfig_iff.1 (h.config _ _ hc)).1
      simp only [tooOld, hy] at hx
      split at hx
      · rename_i h; cases h
      · cases hx
      · cases hx
  · rename_i c hc
    have hcfg : st.config.get? entity = some c := by
      split at hc
      · cases hc
      · rename_i c' hc'
        split at hc <;> cases hc
        exact hc'
    exact fin st c.jws h (h.config _ _ hcfg)
  · have hcfg : (F.at t).config entity = F.config entity := rfl
    rw [hcfg]
    split
    · rename_i x hx
      refine ⟨h, ?_⟩
      have : publishedConfig C F t entity = none := by unfold publishedConfig; rw [hx]
      simp [idealCollect, this, Except.toOption]
    · rename_i hx
      refine ⟨h, ?_⟩
      have : publishedConfig C F t entity = none := by unfold publishedConfig; rw [hx]
      simp [idealCollect, this, Except.toOption]
    · rename_i j hj
      split
      · rename_i x hx
        refine ⟨h, ?_⟩
        have : publishedConfig C F t entity = none := by
          unfold publishedConfig
          rw [hj]
          simp [show selfVerify C t j = .error x from hx]
        simp [idealCollect, this, Except.toOption]
      · rename_i p hp
        have := selfVerify_payload hp
        subst this
        have hpub : publishedConfig C F t entity = some j := publishedConfig_iff.2 ⟨hj, hp⟩
        exact fin _ j (h.setConfig hpub) hpub

/-! ## C70 -/

/-- One collection in a federation: when, how deep, of what, up to where. -/
structure FRun where
  time : Int
  fuel : Nat
  entity : String
  stopAt : String

def FRun.run (F : Federation) (r : FRun) : Run := ⟨F.at r.time, r.fuel, r.entity, r.stopAt⟩

theorem runAll_coherent {C P F} (hd : F.Dated) (hpl : F.PlainHints) (h : List FRun) (t : Int) (hl : F.Lasting C t)
    (ho : h.Pairwise fun a b => a.time ≤ b.time) (ht : ∀ r ∈ h, r.time ≤ t) (hp : ∀ r ∈ h, Plain r.entity) :
    Coherent C P F t (runAll C P (h.map (FRun.run F))) := by
  have : ∀ (h : List FRun) st t0, Coherent C P F t0 st → (h.Pairwise fun a b => a.time ≤ b.time) → (∀ r ∈ h, r.time ≤ t) →
      (∀ r ∈ h, t0 ≤ r.time) → t0 ≤ t → (∀ r ∈ h, Plain r.entity) →
      Coherent C P F t ((h.map (FRun.run F)).foldl (fun st r => (collect C P r.world r.fuel st r.entity r.stopAt).2) st) := by
    intro h
    induction h with
    | nil => intro st t0 hc _ _ _ h0 _; exact hc.later hl h0 (Int.le_refl _)
    | cons r h ih =>
      intro st t0 hc ho ht h1 h0 hp
      rw [List.pairwise_cons] at ho
      refine ih _ r.time ?_ ho.2 (fun x hx => ht x (by simp [hx])) ho.1 (ht r (by simp)) (fun x hx => hp x (by simp [hx]))
      exact (collect_ideal (hc.later hl (h1 r (by simp)) (ht r (by simp))) hd hpl _ _ _ (hp r (by simp))).1
  cases h with
  | nil => exact Coherent.empty _ _ _ _
  | cons r h =>
    refine this (r :: h) {} r.time (Coherent.empty _ _ _ _) ho ht ?_ (ht r (by simp)) hp
    intro x hx
    rcases List.mem_cons.1 hx with rfl | hx
    · exact Int.le_refl _
    · exact (List.pairwise_cons.1 ho).1 x hx

/-- C70 in full: a collection that succeeds with empty caches also succeeds with the caches left by any
history of earlier collections in which the same documents were published. (The documents of each authority may have been
issued anew in the meantime, with a later expiry, as long as nothing else in them changed.) -/
def C70_full : Prop :=
  ∀ (C : Crypto) (P : Params) (h : List Run) (W : World) (fuel : Nat) (entity stopAt : String) (f : Forest Jws) (ec : Jws),
    (∀ r ∈ h, r.world.now ≤ W.now) →
    (∀ r ∈ h, ∀ k j, r.world.config k = .ok (some j) → ∃ j', W.config k = .ok (some j') ∧
      ({ j.payload with exp := none } : Payload) = { j'.payload with exp := none }) →
    (∀ r ∈ h, ∀ ep a e, r.world.fetch ep a e = W.fetch ep a e) →
    (collect C P W fuel {} entity stopAt).1 = .ok (f, ec) →
    ∃ f' ec', (collect C P W fuel (runAll C P h) entity stopAt).1 = .ok (f', ec')

namespace Ex70
open Ex31
/-- Configurations are issued on request and live for an hour; statements live for long. -/
def conf' (t : Int) (k : String) : Jws :=
  ⟨{ iss := k, sub := k, exp := some (t + 3600), jwks := some [1], hints := good k, metadata := some (fe (some "fetch")) }, 1⟩
def W (t : Int) : World where
  now := t
  config k := .ok (some (conf' t k))
  fetch _ a e := .ok (some ⟨{ iss := a, sub := e, exp := some 1000000 }, 2⟩)
end Ex70

/-- C70 does not hold: when the configuration of an authority has expired and a statement it made has not, collection fails
(with a TypeError), although it would succeed with empty caches. -/
theorem C70_expired_configuration_violation : ¬ C70_full := by
  intro h
  have hok : ∃ f ec, (collect Ex31.C Ex31.P (Ex70.W 7200) 10 {} "leaf" "").1 = .ok (f, ec) :=
    ⟨_, _, (by decide +kernel : (collect Ex31.C Ex31.P (Ex70.W 7200) 10 {} "leaf" "").1 = .ok
      (.node "im1" ⟨{ iss := "im1", sub := "leaf", exp := some 1000000 }, 2⟩
        (.node "ta" ⟨{ iss := "ta", sub := "im1", exp := some 1000000 }, 2⟩ .nil .nil)
      (.node "im2" ⟨{ iss := "im2", sub := "leaf", exp := some 1000000 }, 2⟩
        (.node "ta" ⟨{ iss := "ta", sub := "im2", exp := some 1000000 }, 2⟩ .nil .nil) .nil), Ex70.conf' 7200 "leaf"))⟩
  obtain ⟨f, ec, hok⟩ := hok
  obtain ⟨f', ec', h'⟩ := h Ex31.C Ex31.P [⟨Ex70.W 0, 10, "leaf", ""⟩] (Ex70.W 7200) 10 "leaf" "" f ec (by simp; decide)
    (by intro r hr k j hj
        simp only [List.mem_singleton] at hr
        subst hr
        simp only [Ex70.W, Except.ok.injEq, Option.some.injEq] at hj
        subst hj
        exact ⟨_, rfl, rfl⟩) (by simp [Ex70.W]) hok
  have : (collect Ex31.C Ex31.P (Ex70.W 7200) 10 (runAll Ex31.C Ex31.P [⟨Ex70.W 0, 10, "leaf", ""⟩]) "leaf" "").1 =
      .error .typeError := by decide +kernel
  rw [this] at h'
  cases h'

/-- C70 in a federation that publishes the same documents all the time: after any history of collections, at times that do not go
backwards and before any configuration expires, a collection gives what it gives with empty caches. Missing: documents that are issued
anew. -/
theorem C70_static_federation_partial (C : Crypto) (P : Params) (F : Federation) (hd : F.Dated) (hpl : F.PlainHints)
    (h : List FRun) (ho : h.Pairwise fun a b => a.time ≤ b.time) (now : Int) (ht : ∀ r ∈ h, r.time ≤ now)
    (hl : F.Lasting C now) (hp : ∀ r ∈ h, Plain r.entity) (fuel : Nat) (entity stopAt : String) (he : Plain entity) :
    (collect C P (F.at now) fuel (runAll C P (h.map (FRun.run F))) entity stopAt).1.toOption =
    (collect C P (F.at now) fuel {} entity stopAt).1.toOption := by
  rw [(collect_ideal (runAll_coherent hd hpl h now hl ho ht hp) hd hpl fuel entity stopAt he).2,
    (collect_ideal (Coherent.empty C P F now) hd hpl fuel entity stopAt he).2]

/-- C70: and that is what the federation publishes. -/
theorem C70_static_federation_published_partial (C : Crypto) (P : Params) (F : Federation) (hd : F.Dated) (hpl : F.PlainHints)
    (h : List FRun) (ho : h.Pairwise fun a b => a.time ≤ b.time) (now : Int) (ht : ∀ r ∈ h, r.time ≤ now)
    (hl : F.Lasting C now) (hp : ∀ r ∈ h, Plain r.entity) (fuel : Nat) (entity stopAt : String) (he : Plain entity) :
    (collect C P (F.at now) fuel (runAll C P (h.map (FRun.run F))) entity stopAt).1.toOption =
    idealCollect C P F now fuel entity stopAt :=
  (collect_ideal (runAll_coherent hd hpl h now hl ho ht hp) hd hpl fuel entity stopAt he).2

namespace Ex70
def F : Federation := ⟨(Ex31.world Ex31.good).config, (Ex31.world Ex31.good).fetch⟩
example : F.Dated := by
  intro k j h
  simp only [F, Ex31.world, Except.ok.injEq, Option.some.injEq] at h
  subst h; exact ⟨10000, rfl⟩
example : F.PlainHints := by
  intro k j hs h hh
  simp only [F, Ex31.world, Except.ok.injEq, Option.some.injEq] at h
  subst h
  simp only [Ex31.conf, Ex31.good] at hh
  split at hh <;> simp only [Option.some.injEq, reduceCtorEq] at hh <;> subst hh <;> decide
example : F.Lasting Ex31.C 10014 := by
  intro k j h t t' _ hn _
  simp only [F, Ex31.world, Except.ok.injEq, Option.some.injEq] at h
  subst h
  simp only [Ex31.C, notExpired, Ex31.conf, decide_eq_true_eq]
  omega
example : (idealCollect Ex31.C Ex31.P F 100 10 "leaf" "").isSome = true := by decide +kernel
end Ex70

/-! ## C71 -/

/-- C71 in full: if collecting through authority `a` alone succeeds, collecting through `a` and others succeeds too. -/
def C71_full : Prop :=
  ∀ (C : Crypto) (P : Params) (W : World) (fuel : Nat) (entity stopAt : String) (p : Payload) (hs : List String) (a : String)
    (f : Forest Jws), a ∈ hs → p.hints = some hs →
    (collectTree C P W stopAt fuel {} entity (some { p with hints := some [a] })).1 = .ok f →
    ∃ f', (collectTree C P W stopAt fuel {} entity (some p)).1 = .ok f'

/-- C71 does not hold: an authority whose configuration can not be fetched fails the whole collection. -/
theorem C71_unreachable_violation : ¬ C71_full := by
  intro h
  let W : World := { Ex31.world Ex31.good with config := fun k => if k = "down" then .error .connectionError else (Ex31.world Ex31.good).config k }
  obtain ⟨f', h'⟩ := h Ex31.C Ex31.P W 10 "leaf" "" (Ex31.conf "leaf" (some ["ta", "down"])).payload ["ta", "down"] "ta"
    (.node "ta" (Ex31.about "ta" "leaf") .nil .nil) (by decide) rfl (by decide +kernel)
  have : (collectTree Ex31.C Ex31.P W "" 10 {} "leaf" (some (Ex31.conf "leaf" (some ["ta", "down"])).payload)).1 =
      .error .connectionError := by decide +kernel
  rw [this] at h'
  cases h'

theorem idealHints_some {ib : String → Option Branch} : ∀ {hs : List String} {acc : Forest Jws},
    (∃ f, idealHints ib hs acc = some f) ↔ ∀ a ∈ hs, (ib a).isSome = true
  | [], acc => by simp [idealHints]
  | a :: hs, acc => by
      unfold idealHints
      cases hb : ib a with
      | none => simp [hb]
      | some b =>
        simp only [List.mem_cons, forall_eq_or_imp, hb, Option.isSome_some, true_and]
        exact idealHints_some

/-- C71 as far as it holds: collection through several authorities succeeds iff it succeeds through each alone; and an authority
whose configuration is in order but names no fetch endpoint is no failure. Missing: every other failure of one authority
is a failure of all. -/
theorem C71_all_or_nothing_partial (C : Crypto) (P : Params) (F : Federation) (hd : F.Dated) (hpl : F.PlainHints) (now : Int)
    (n : Nat) (entity stopAt : String) (he : Plain entity) (p : Payload) (hs : List String) (hh : p.hints = some hs)
    (hpa : ∀ a ∈ hs, Plain a) (hne : p.iss ≠ stopAt) :
    ((∃ f, (collectTree C P (F.at now) stopAt (n + 1) {} entity (some p)).1 = .ok f) ↔
      ∀ a ∈ hs, ∃ f, (collectTree C P (F.at now) stopAt (n + 1) {} entity (some { p with hints := some [a] })).1 = .ok f) ∧
    ∀ a j fe, a ∈ hs → F.config a = .ok (some j) → selfVerify C now j = .ok j.payload →
      j.payload.md.get? "federation_entity" = some fe → fe.get? "federation_fetch_endpoint" = none →
      (collectTree C P (F.at now) stopAt (n + 1) {} entity (some { p with hints := some [a] })).1 = .ok (.missing a .nil) := by
  have tr : ∀ {α} {x : Except PyErr α} {f}, x = .ok f ↔ x.toOption = some f := by
    intro α x f; cases x <;> simp [Except.toOption]
  have one : ∀ a ∈ hs, (collectTree C P (F.at now) stopAt (n + 1) {} entity (some { p with hints := some [a] })).1.toOption =
      idealHints (idealBranch C P F now (idealTree C P F now stopAt n) entity) [a] .nil := by
    intro a ha
    rw [(collectTree_ideal hd hpl stopAt (n + 1) {} entity _ (Coherent.empty C P F now) he (by
      intro hs' h; simp only [Option.some.injEq] at h; subst h; simpa using hpa a ha)).2]
    simp [idealTree, hne]
  constructor
  · have all : (collectTree C P (F.at now) stopAt (n + 1) {} entity (some p)).1.toOption =
        idealHints (idealBranch C P F now (idealTree C P F now stopAt n) entity) hs .nil := by
      rw [(collectTree_ideal hd hpl stopAt (n + 1) {} entity p (Coherent.empty C P F now) he (by
        intro hs' h; rw [hh] at h; cases h; exact hpa)).2]
      simp [idealTree, hne, hh]
    have ex : ∀ {α} {x : Except PyErr α}, (∃ f, x = .ok f) ↔ ∃ f, x.toOption = some f :=
      fun {_ _} => exists_congr fun _ => tr
    rw [ex, all, idealHints_some]
    constructor
    · intro h a ha
      rw [ex, one a ha, idealHints_some]; simpa using h a ha
    · intro h a ha
      have := h a ha
      rw [ex, one a ha, idealHints_some] at this
      simpa using this
  · intro a j fe ha hj hv hfe hep
    have hpub : publishedConfig C F now a = some j := publishedConfig_iff.2 ⟨hj, hv⟩
    have hst : publishedStatement C F now a entity = some none := by
      simp [publishedStatement, hpub, getFetchEndpoint, hfe, hep, usableEndpoint]
    rw [tr, one a ha]
    have : idealBranch C P F now (idealTree C P F now stopAt n) entity a = some none := by
      unfold idealBranch; rw [hst]; split <;> rfl
    simp only [idealHints, this]
    rfl

namespace Ex71
/-- An authority without a fetch endpoint beside a good one. -/
def F : Federation where
  config k := .ok (some (if k = "mute" then
    ⟨{ iss := k, sub := k, exp := some 10000, jwks := some [1], metadata := some [("federation_entity", [])] }, 1⟩
    else Ex31.conf k (Ex31.good k)))
  fetch := (Ex31.world Ex31.good).fetch
example : (collectTree Ex31.C Ex31.P (F.at 100) "" 10 {} "leaf" (some (Ex31.conf "leaf" (some ["mute", "ta"])).payload)).1 =
    .ok (.missing "mute" (.node "ta" (Ex31.about "ta" "leaf") .nil .nil)) := by decide +kernel
end Ex71

/-! ## C72 -/

/-- C72 in full: a collection does not start from an expired entity configuration. -/
def C72_full : Prop :=
  ∀ (C : Crypto) (P : Params) (W : World) (fuel : Nat) (st : State) (entity stopAt : String) (f : Forest Jws) (ec : Jws) (x : Int),
    (collect C P W fuel st entity stopAt).1 = .ok (f, ec) → ec.payload.exp = some x → W.now ≤ x

/-- C72 does not hold: a cached configuration is used for the allowed delta after it expired, -/
theorem C72_cached_violation : ¬ C72_full := by
  intro h
  have := h Ex31.C { anchors := [] } { Ex31.world Ex31.good with now := 10299 } 3
    { config := [("x", ⟨Ex31.conf "x" none⟩)] } "x" "" .nil (Ex31.conf "x" none) 10000 (by decide +kernel) rfl
  exact absurd this (by decide)

/-- and one that is fetched is used while the allowed skew has not passed. -/
theorem C72_fetched_violation : ¬ C72_full := by
  intro h
  have := h Ex31.C { anchors := [] } { Ex31.world Ex31.good with now := 10014 } 3 {} "x" "" .nil (Ex31.conf "x" none) 10000
    (by decide +kernel) rfl
  exact absurd this (by decide)

/-- C72 as far as it holds: a cached configuration is used only until the allowed delta after it expired; otherwise the
configuration is the one just fetched, self-signed and not out of date. Missing: a configuration is used when it has expired by less
than the allowed delta (or, just fetched, by less than the skew cryptojwt allows). -/
theorem C72_start_partial (C : Crypto) (P : Params) (W : World) (fuel : Nat) (st : State) (entity stopAt : String)
    (f : Forest Jws) (ec : Jws) (h : (collect C P W fuel st entity stopAt).1 = .ok (f, ec)) :
    (∃ x, st.config.get? entity = some ⟨ec⟩ ∧ ec.payload.exp = some x ∧ W.now < x + P.delta) ∨
    (W.config entity = .ok (some ec) ∧ selfVerify C W.now ec = .ok ec.payload ∧ C.current W.now ec = true) := by
  unfold collect at h
  simp only at h
  split at h
  · cases h
  · rename_i c hc
    left
    generalize collectTree C P W stopAt fuel st entity (some c.jws.payload) = r at h
    obtain ⟨r1, st1⟩ := r
    cases r1 with
    | error x => cases h
    | ok f =>
      cases h
      split at hc
      · cases hc
      · rename_i c' hc'
        split at hc
        · cases hc
        · cases hc
        · rename_i ht
          cases hc
          unfold tooOld at ht
          split at ht
          · cases ht
          · rename_i x hx
            simp only [ge_iff_le, Except.ok.injEq, decide_eq_false_iff_not] at ht
            exact ⟨x, hc', hx, by omega⟩
  · right
    split at h
    · cases h
    · cases h
    · rename_i j hj
      split at h
      · cases h
      · rename_i p hp
        have := selfVerify_payload hp
        subst this
        generalize collectTree C P W stopAt fuel _ entity (some j.payload) = r at h
        obtain ⟨r1, st1⟩ := r
        cases r1 with
        | error x => cases h
        | ok f => cases h; exact ⟨hj, hp, selfVerify_current hp⟩

end Fed.Collect
