import Verif.Collect.CollectorProps
/-
Properties C33, C70, C71, C72: the collector over histories of collections.
-/
namespace Fed.Collect
open Fed

/-- One collection: the rest of the federation at that time, the depth followed, the entity and where to stop. -/
structure Run where
  world : World
  fuel : Nat
  entity : String
  stopAt : String

/-- The caches after a history of collections, each in a world of its own, from empty caches. -/
def runAll (C : Crypto) (P : Params) (h : List Run) : State :=
  h.foldl (fun st r => (collect C P r.world r.fuel st r.entity r.stopAt).2) {}

/-! ### What every step keeps, a collection keeps -/

/-- A property of the caches that each primitive step keeps. -/
structure Kept (C : Crypto) (P : Params) (W : World) (I : State → Prop) : Prop where
  statement : ∀ st e a, I st → I (getStatement C P W st e a).2
  lookup : ∀ st k, I st → I { st with config := (subscript P.delta W.now st.config k).2 }
  store : ∀ st k j, W.config k = .ok (some j) → selfVerify C W.now j = .ok j.payload → I st →
    I { st with config := st.config.set k ⟨j⟩ }

theorem overHints_keeps {branch : State → String → Except PyErr Branch × State} {I : State → Prop}
    (hb : ∀ st a, I st → I (branch st a).2) : ∀ hs acc st, I st → I (overHints branch hs acc st).2
  | [], _, _, h => h
  | a :: hs, acc, st, h => by
      have := hb st a h
      unfold overHints
      generalize branch st a = r at this
      obtain ⟨r1, st1⟩ := r
      cases r1 with
      | error x => exact this
      | ok b => exact overHints_keeps hb hs _ _ this

theorem Kept.collectTree {C P W I} (h : Kept C P W I) (stopAt : String) :
    ∀ n st e c, I st → I (collectTree C P W stopAt n st e c).2
  | 0, _, _, _, hI => hI
  | n + 1, st, e, none, hI => hI
  | n + 1, st, e, some p, hI => by
      unfold Collect.collectTree
      split
      · exact hI
      · split
        · exact hI
        · refine overHints_keeps (fun st a hI => ?_) _ _ _ hI
          unfold collectBranch
          split
          · exact hI
          · have h1 := h.statement st e a hI
            generalize getStatement C P W st e a = r at h1
            obtain ⟨r1, st1⟩ := r
            cases r1 with
            | error x => exact h1
            | ok o =>
              cases o with
              | none => exact h1
              | some s =>
                simp only
                have h2 := h.lookup st1 a h1
                generalize subscript P.delta W.now st1.config a = r at h2
                obtain ⟨r1, db⟩ := r
                cases r1 with
                | error x => exact h2
                | ok c =>
                  simp only
                  have h3 := h.collectTree stopAt n { st1 with config := db } a (c.map (·.jws.payload)) h2
                  generalize Collect.collectTree C P W stopAt n { st1 with config := db } a (c.map (·.jws.payload)) = r at h3
                  obtain ⟨r1, st2⟩ := r
                  cases r1 <;> exact h3

theorem Kept.collect {C P W I} (h : Kept C P W I) (n : Nat) (st : State) (e stopAt : String) (hI : I st) :
    I (collect C P W n st e stopAt).2 := by
  unfold Collect.collect
  simp only
  split
  · exact hI
  · rename_i c _
    have := h.collectTree stopAt n st e (some c.jws.payload) hI
    generalize Collect.collectTree C P W stopAt n st e (some c.jws.payload) = r at this
    obtain ⟨r1, st1⟩ := r
    cases r1 <;> exact this
  · split
    · exact hI
    · exact hI
    · rename_i j hj
      split
      · exact hI
      · rename_i p hp
        have hp' := selfVerify_payload hp
        subst hp'
        have := h.collectTree stopAt n _ e (some j.payload) (h.store st e j hj hp hI)
        generalize Collect.collectTree C P W stopAt n _ e (some j.payload) = r at this
        obtain ⟨r1, st1⟩ := r
        cases r1 <;> exact this

/-- Only the entity statement cache is touched by fetching a statement, apart from the configuration cache. -/
theorem fetchEndpoint_es (C : Crypto) (P : Params) (W : World) (st : State) (a : String) :
    (fetchEndpoint C P W st a).2.es = st.es := by
  have refr : ∀ st' : State, (refreshConfig C W st' a).2.es = st'.es := by
    intro st'
    unfold refreshConfig
    split
    · rfl
    · rfl
    · split
      · rfl
      · split <;> rfl
  unfold fetchEndpoint
  rcases subscript_config P.delta W.now st.config a with ⟨c, e, h1, h2, h3, h4⟩ | ⟨c, e, h1, h2, h3, h4⟩ | ⟨c, h1, h2, h4⟩ | ⟨h1, h4⟩
  · rw [h4]
    simp only
    split
    · rfl
    · split
      · rfl
      · rw [refr]
  · rw [h4]; simp only [refr]
  · rw [h4]
  · rw [h4]; simp only [refr]

/-- What fetching a statement does to the statement cache. -/
theorem fetchStatement_es (C : Crypto) (P : Params) (W : World) (st : State) (e a : String) :
    ((fetchStatement C P W st e a).2.es = st.es ∧ ∀ j, (fetchStatement C P W st e a).1 ≠ .ok (some j)) ∨
    (∃ ep j, W.fetch ep a e = .ok (some j) ∧ j.payload.exp = none ∧ (∃ x, (fetchStatement C P W st e a).1 = .error x) ∧
      (fetchStatement C P W st e a).2.es = st.es.set (cacheKey a e) (.stmt j)) ∨
    (∃ ep j x, W.fetch ep a e = .ok (some j) ∧ j.payload.exp = some x ∧ (fetchStatement C P W st e a).1 = .ok (some j) ∧
      (fetchStatement C P W st e a).2.es = (st.es.set (cacheKey a e) (.stmt j)).set (timeKey a e) (.time x)) := by
  unfold fetchStatement
  have h1 := fetchEndpoint_es C P W st a
  generalize fetchEndpoint C P W st a = r at h1
  obtain ⟨r1, st1⟩ := r
  simp only at h1
  cases r1 with
  | error x => exact Or.inl ⟨h1, by simp⟩
  | ok ep =>
    simp only
    split
    · exact Or.inl ⟨h1, by simp⟩
    · rename_i v hv
      split
      · exact Or.inl ⟨h1, by simp⟩
      · exact Or.inl ⟨h1, by simp⟩
      · rename_i j hj
        split
        · rename_i he
          exact Or.inr (Or.inl ⟨v, j, hj, he, ⟨_, rfl⟩, by simp only [h1]⟩)
        · rename_i x he
          exact Or.inr (Or.inr ⟨v, j, x, hj, he, rfl, by simp only [h1]⟩)

/-! ## C33 -/

/-- C33: a statement that is returned either was cached with an expiry that is at least the allowed delta away, and nothing
changes; or it has just been fetched, and is cached with its own expiry. -/
theorem C33_only_fresh_served (C : Crypto) (P : Params) (W : World) (st st' : State) (entity authority : String) (s : Jws)
    (h : getStatement C P W st entity authority = (.ok (some s), st')) :
    (∃ x, st.es.get? (cacheKey authority entity) = some (.stmt s) ∧ st.es.get? (timeKey authority entity) = some (.time x) ∧
      W.now ≤ x - P.delta ∧ st' = st) ∨
    (∃ ep x, W.fetch ep authority entity = .ok (some s) ∧ s.payload.exp = some x ∧
      st'.es.get? (cacheKey authority entity) = some (.stmt s) ∧ st'.es.get? (timeKey authority entity) = some (.time x)) := by
  have fetched : ∀ st0, fetchStatement C P W st0 entity authority = (.ok (some s), st') →
      (∃ ep x, W.fetch ep authority entity = .ok (some s) ∧ s.payload.exp = some x ∧
      st'.es.get? (cacheKey authority entity) = some (.stmt s) ∧ st'.es.get? (timeKey authority entity) = some (.time x)) := by
    intro st0 hf
    rcases fetchStatement_es C P W st0 entity authority with h1 | ⟨ep, j, h1, h2, ⟨x, h3⟩, h4⟩ | ⟨ep, j, x, h1, h2, h3, h4⟩
    · rw [hf] at h1; exact absurd rfl (h1.2 s)
    · rw [hf] at h3; cases h3
    · rw [hf] at h3 h4
      simp only [Except.ok.injEq, Option.some.injEq] at h3
      subst h3
      simp only at h4
      refine ⟨ep, x, h1, h2, ?_, ?_⟩
      · rw [h4, Dict.get?_set_ne _ _ (cacheKey_ne_timeKey _ _).symm, Dict.get?_set_self]
      · rw [h4, Dict.get?_set_self]
  unfold getStatement at h
  split at h
  · exact Or.inr (fetched _ h)
  · cases h
  · rename_i j hj
    split at h
    · rename_i x hx
      split at h
      · exact Or.inr (fetched _ h)
      · rename_i hf
        cases h
        exact Or.inl ⟨x, hj, hx, by omega, rfl⟩
    · cases h

/-- The caches without the two entries of a pair. -/
def State.without (st : State) (authority entity : String) : State :=
  { st with es := drop (drop st.es (cacheKey authority entity)) (timeKey authority entity) }

/-- C33: a cached statement that is too old is not used: its two entries are dropped and all goes on as if they had never been
there. -/
theorem C33_stale_dropped (C : Crypto) (P : Params) (W : World) (st : State) (entity authority : String) (s : Jws) (x : Int)
    (h1 : st.es.get? (cacheKey authority entity) = some (.stmt s))
    (h2 : st.es.get? (timeKey authority entity) = some (.time x)) (hold : W.now > x - P.delta) :
    (st.without authority entity).es.get? (cacheKey authority entity) = none ∧
    (st.without authority entity).es.get? (timeKey authority entity) = none ∧
    getStatement C P W st entity authority = getStatement C P W (st.without authority entity) entity authority := by
  have e1 : (st.without authority entity).es.get? (cacheKey authority entity) = none := by
    simp only [State.without, get?_drop]
    split
    · rfl
    · simp
  have e2 : (st.without authority entity).es.get? (timeKey authority entity) = none := by
    simp [State.without, get?_drop]
  refine ⟨e1, e2, ?_⟩
  have : getStatement C P W (st.without authority entity) entity authority =
      fetchStatement C P W (st.without authority entity) entity authority := by
    unfold getStatement; rw [e1]
  rw [this]
  unfold getStatement
  rw [h1]
  simp only [h2]
  rw [if_pos hold]
  rfl

/-- For a pair of plain identifiers: an expiry is only there with a statement, and it is that statement's own. -/
structure Timed (st : State) : Prop where
  own : ∀ a e, Plain a → Plain e → ∀ j x, st.es.get? (cacheKey a e) = some (.stmt j) →
    st.es.get? (timeKey a e) = some (.time x) → j.payload.exp = some x
  both : ∀ a e, Plain a → Plain e → st.es.get? (cacheKey a e) = none → st.es.get? (timeKey a e) = none

theorem Timed.without {st : State} (h : Timed st) (a e : String) : Timed (st.without a e) := by
  constructor
  · intro a' e' ha he j x h1 h2
    simp only [State.without, get?_drop] at h1 h2
    refine h.own a' e' ha he j x ?_ ?_
    · split at h1
      · cases h1
      · split at h1
        · cases h1
        · exact h1
    · split at h2
      · cases h2
      · split at h2
        · cases h2
        · exact h2
  · intro a' e' ha he h1
    simp only [State.without, get?_drop] at h1 ⊢
    by_cases hp : timeKey a e = timeKey a' e'
    · simp [hp]
    · have hne : timeKey a e ≠ cacheKey a' e' := fun h => not_plain_cacheKey_timeKey ha he h.symm
      simp only [hne, hp, if_false] at h1 ⊢
      by_cases hc : cacheKey a e = cacheKey a' e'
      · obtain ⟨rfl, rfl⟩ := cacheKey_inj ha he hc.symm
        exact absurd rfl hp
      · simp only [hc, if_false] at h1
        split
        · rfl
        · exact h.both a' e' ha he h1

theorem Timed.fetchStatement {C P W} {st : State} (h : Timed st) (e a : String) (hnone : st.es.get? (timeKey a e) = none ∨ ¬ (Plain a ∧ Plain e)) :
    Timed (fetchStatement C P W st e a).2 := by
  rcases fetchStatement_es C P W st e a with ⟨h1, -⟩ | ⟨ep, j, h1, h2, -, h4⟩ | ⟨ep, j, x, h1, h2, h3, h4⟩
  · exact ⟨by rw [h1]; exact h.own, by rw [h1]; exact h.both⟩
  · constructor
    · intro a' e' ha he j' x h5 h6
      rw [h4, Dict.get?_set] at h5 h6
      have hne : cacheKey a e ≠ timeKey a' e' := fun h => not_plain_timeKey_cacheKey ha he h.symm
      rw [if_neg hne] at h6
      by_cases hc : cacheKey a e = cacheKey a' e'
      · obtain ⟨rfl, rfl⟩ := cacheKey_inj ha he hc.symm
        rcases hnone with hn | hn
        · rw [hn] at h6; cases h6
        · exact absurd ⟨ha, he⟩ hn
      · rw [if_neg hc] at h5; exact h.own a' e' ha he j' x h5 h6
    · intro a' e' ha he h5
      rw [h4, Dict.get?_set] at h5 ⊢
      have hne : cacheKey a e ≠ timeKey a' e' := fun h => not_plain_timeKey_cacheKey ha he h.symm
      rw [if_neg hne]
      split at h5
      · cases h5
      · exact h.both a' e' ha he h5
  · constructor
    · intro a' e' ha he j' x' h5 h6
      rw [h4, Dict.get?_set, Dict.get?_set] at h5 h6
      have hne1 : cacheKey a e ≠ timeKey a' e' := fun h => not_plain_timeKey_cacheKey ha he h.symm
      have hne2 : timeKey a e ≠ cacheKey a' e' := fun h => not_plain_cacheKey_timeKey ha he h.symm
      rw [if_neg hne1] at h6
      rw [if_neg hne2] at h5
      by_cases hc : cacheKey a e = cacheKey a' e'
      · obtain ⟨rfl, rfl⟩ := cacheKey_inj ha he hc.symm
        simp only [if_true, Option.some.injEq, ESVal.stmt.injEq, ESVal.time.injEq] at h5 h6
        rw [← h5, ← h6, h2]
      · rw [if_neg hc] at h5
        by_cases ht : timeKey a e = timeKey a' e'
        · obtain ⟨rfl, rfl⟩ := timeKey_inj ha he ht.symm
          exact absurd rfl hc
        · rw [if_neg ht] at h6
          exact h.own a' e' ha he j' x' h5 h6
    · intro a' e' ha he h5
      rw [h4, Dict.get?_set, Dict.get?_set] at h5 ⊢
      have hne1 : cacheKey a e ≠ timeKey a' e' := fun h => not_plain_timeKey_cacheKey ha he h.symm
      have hne2 : timeKey a e ≠ cacheKey a' e' := fun h => not_plain_cacheKey_timeKey ha he h.symm
      rw [if_neg hne1]
      rw [if_neg hne2] at h5
      split at h5
      · cases h5
      · rename_i hc
        by_cases ht : timeKey a e = timeKey a' e'
        · obtain ⟨rfl, rfl⟩ := timeKey_inj ha he ht.symm
          exact absurd rfl hc
        · rw [if_neg ht]; exact h.both a' e' ha he h5

theorem timed_kept (C : Crypto) (P : Params) (W : World) : Kept C P W Timed where
  statement st e a h := by
    unfold getStatement
    split
    · rename_i hn
      refine h.fetchStatement e a ?_
      by_cases hp : Plain a ∧ Plain e
      · exact Or.inl (h.both a e hp.1 hp.2 hn)
      · exact Or.inr hp
    · exact h
    · split
      · split
        · refine (h.without a e).fetchStatement e a (Or.inl ?_)
          simp [State.without, get?_drop]
        · exact h
      · exact h
  lookup st k h := ⟨h.own, h.both⟩
  store st k j _ _ h := ⟨h.own, h.both⟩

theorem runAll_kept {C P} {I : State → Prop} (h0 : I {}) (hk : ∀ W, Kept C P W I) (h : List Run) : I (runAll C P h) := by
  have : ∀ (h : List Run) st, I st → I (h.foldl (fun st r => (collect C P r.world r.fuel st r.entity r.stopAt).2) st) := by
    intro h
    induction h with
    | nil => intro st hI; exact hI
    | cons r h ih => intro st hI; exact ih _ ((hk r.world).collect _ _ _ _ hI)
  exact this h {} h0

/-- C33 over histories: after any history of collections a cached statement (for identifiers without exclamation mark) is used
only if the expiry the statement itself states is at least the allowed delta away. -/
theorem C33_history (C : Crypto) (P : Params) (h : List Run) (W : World) (entity authority : String) (he : Plain entity)
    (ha : Plain authority) (s : Jws) (st' : State)
    (hs : getStatement C P W (runAll C P h) entity authority = (.ok (some s), st')) :
    ∃ x, s.payload.exp = some x ∧ (W.now ≤ x - P.delta ∨ ∃ ep, W.fetch ep authority entity = .ok (some s)) := by
  have hT : Timed (runAll C P h) := runAll_kept ⟨by simp, by simp⟩ (timed_kept C P) h
  rcases C33_only_fresh_served C P W _ st' entity authority s hs with ⟨x, h1, h2, h3, -⟩ | ⟨ep, x, h1, h2, -⟩
  · exact ⟨x, hT.own _ _ ha he s x h1 h2, Or.inl h3⟩
  · exact ⟨x, h2, Or.inr ⟨ep, h1⟩⟩

namespace Ex33
open Ex31
/-- The same federation at another time. -/
def at_ (t : Int) : World := { world good with now := t }
def hist : List Run := [⟨at_ 0, 10, "leaf", ""⟩]
example : getStatement C P (at_ 9700) (runAll C P hist) "leaf" "im1" = (.ok (some (about "im1" "leaf")), runAll C P hist) := by
  decide +kernel
example : (runAll C P hist).es.get? (cacheKey "im1" "leaf") = some (.stmt (about "im1" "leaf")) ∧
    (runAll C P hist).es.get? (timeKey "im1" "leaf") = some (.time 10000) ∧ (at_ 9701).now > 10000 - P.delta := by
  decide +kernel
end Ex33

end Fed.Collect
