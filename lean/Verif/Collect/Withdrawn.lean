import Verif.Collect.HistoryProps
/-
An authority that has stopped making statements about an entity: what the collector does once the statements it had made have timed out.
-/
namespace Fed.Collect
open Fed

/-- The statements about `e` that the authority `a` gives in this world expire at `last` or before. -/
def GivenUntil (W : World) (a e : String) (last : Int) : Prop :=
  ∀ ep j x, W.fetch ep a e = .ok (some j) → j.payload.exp = some x → x ≤ last

/-- The authority `a` gives no statement about `e`. -/
def Withheld (W : World) (a e : String) : Prop := ∀ ep j, W.fetch ep a e ≠ .ok (some j)

/-- The expiry noted in the cache for the pair is `last` or before. -/
def NotedUntil (a e : String) (last : Int) (st : State) : Prop := ∀ x, st.es.get? (timeKey a e) = some (.time x) → x ≤ last

theorem NotedUntil.of_es {a e : String} {last : Int} {st st' : State} (h : NotedUntil a e last st) (he : st'.es = st.es) :
    NotedUntil a e last st' := by
  intro x hx; rw [he] at hx; exact h x hx

theorem NotedUntil.drop {a e : String} {last : Int} {st : State} (h : NotedUntil a e last st) (k : String) :
    NotedUntil a e last { st with es := drop st.es k } := by
  intro x hx
  simp only [get?_drop] at hx
  by_cases hk : k = timeKey a e
  · rw [if_pos hk] at hx; cases hx
  · rw [if_neg hk] at hx; exact h x hx

theorem NotedUntil.fetchStatement {C : Crypto} {P : Params} {W : World} {a e : String} {last : Int} (ha : Plain a) (he : Plain e)
    (hW : GivenUntil W a e last) {st : State} (h : NotedUntil a e last st) (e' a' : String) :
    NotedUntil a e last (Collect.fetchStatement C P W st e' a').2 := by
  have hk := C34_plain_partial a e ha he a' e'
  rcases fetchStatement_es C P W st e' a' with ⟨h1, -⟩ | ⟨ep, j, -, -, -, h1⟩ | ⟨ep, j, x, h1, h2, -, h3⟩
  · exact h.of_es h1
  · intro x hx
    rw [h1, Dict.get?_set_ne _ _ (fun hc => hk.2.2.2 hc.symm)] at hx
    exact h x hx
  · intro y hy
    rw [h3] at hy
    by_cases hp : timeKey a' e' = timeKey a e
    · obtain ⟨rfl, rfl⟩ := hk.2.1 hp.symm
      rw [Dict.get?_set_self] at hy
      cases hy
      exact hW ep j x h1 h2
    · rw [Dict.get?_set_ne _ _ hp, Dict.get?_set_ne _ _ (fun hc => hk.2.2.2 hc.symm)] at hy
      exact h y hy

theorem NotedUntil.kept {C : Crypto} {P : Params} {W : World} {a e : String} {last : Int} (ha : Plain a) (he : Plain e)
    (hW : GivenUntil W a e last) : Kept C P W (NotedUntil a e last) := by
  refine ⟨fun st e' a' h => ?_, fun st k h => h.of_es rfl, fun st k j _ _ h => h.of_es rfl⟩
  unfold getStatement
  split
  · exact h.fetchStatement ha he hW e' a'
  · exact h
  · split
    · split
      · exact ((h.drop (cacheKey a' e')).drop (timeKey a' e')).fetchStatement ha he hW e' a'
      · exact h
    · exact h

/-- Once what was noted has timed out, a pair without statement gets none. -/
theorem getStatement_withheld {C : Crypto} {P : Params} {W : World} {a e : String} {last : Int} (hw : Withheld W a e)
    (hn : W.now > last - P.delta) {st : State} (h : NotedUntil a e last st) (s : Jws) :
    (getStatement C P W st e a).1 ≠ .ok (some s) := by
  intro hs
  rcases C33_only_fresh_served C P W st (getStatement C P W st e a).2 e a s (Prod.ext hs rfl) with
    ⟨x, -, h2, h3, -⟩ | ⟨ep, x, h1, -⟩
  · have := h x h2; omega
  · exact hw ep s h1

/-- In the tree above `entity` there is no statement by `a` about `e`. -/
inductive Without (a e : String) : String → Forest Jws → Prop
  | mk {entity f} : (∀ i s sub, (i, some (s, sub)) ∈ f.items → ¬ (i = a ∧ entity = e)) →
      (∀ i s sub, (i, some (s, sub)) ∈ f.items → Without a e i sub) → Without a e entity f

theorem collectTree_without {C : Crypto} {P : Params} {W : World} {a e : String} {last : Int} (ha : Plain a) (he : Plain e)
    (hw : Withheld W a e) (hn : W.now > last - P.delta) (stopAt : String) : ∀ n st entity c f, NotedUntil a e last st →
      (collectTree C P W stopAt n st entity c).1 = .ok f → Without a e entity f
  | 0, _, _, _, _, _, hf => by cases hf
  | _ + 1, _, _, none, _, _, hf => by cases hf
  | n + 1, st, entity, some p, f, h, hf => by
      have hG : GivenUntil W a e last := fun ep j x hj => absurd hj (hw ep j)
      unfold collectTree at hf
      split at hf
      · cases hf; exact .mk (fun i s sub hi => by simp [Forest.items] at hi) (fun i s sub hi => by simp [Forest.items] at hi)
      · split at hf
        · cases hf; exact .mk (fun i s sub hi => by simp [Forest.items] at hi) (fun i s sub hi => by simp [Forest.items] at hi)
        · rename_i hs _ _
          have hb := overHints_inv (branch := collectBranch C P W (collectTree C P W stopAt n) entity) (NotedUntil a e last)
            (fun i b => ∀ s sub, b = some (s, sub) → ¬ (i = a ∧ entity = e) ∧ Without a e i sub) (by
              intro st i hI
              unfold collectBranch
              split
              · exact ⟨hI, fun b hb => by cases hb; intro s sub h; cases h⟩
              · have h1 := (NotedUntil.kept (C := C) (P := P) ha he hG).statement st entity i hI
                have h2 : ∀ s, (getStatement C P W st entity i).1 = .ok (some s) → ¬ (i = a ∧ entity = e) := by
                  rintro s hs ⟨rfl, rfl⟩
                  exact getStatement_withheld hw hn hI s hs
                generalize getStatement C P W st entity i = r at h1 h2
                obtain ⟨r1, st1⟩ := r
                cases r1 with
                | error x => exact ⟨h1, by simp⟩
                | ok o =>
                  cases o with
                  | none => exact ⟨h1, fun b hb => by cases hb; intro s sub h; cases h⟩
                  | some s =>
                    simp only at h1 h2 ⊢
                    have h2 := h2 s rfl
                    generalize subscript P.delta W.now st1.config i = r
                    obtain ⟨r1, db⟩ := r
                    have h3 : NotedUntil a e last { st1 with config := db } := h1.of_es rfl
                    cases r1 with
                    | error x => exact ⟨h3, by simp⟩
                    | ok c =>
                      simp only
                      have h4 := (NotedUntil.kept (C := C) (P := P) ha he hG).collectTree stopAt n { st1 with config := db } i
                        (c.map (·.jws.payload)) h3
                      have h5 := fun f => collectTree_without (C := C) ha he hw hn stopAt n { st1 with config := db } i
                        (c.map (·.jws.payload)) f h3
                      generalize collectTree C P W stopAt n { st1 with config := db } i (c.map (·.jws.payload)) = r at h4 h5
                      obtain ⟨r1, st2⟩ := r
                      cases r1 with
                      | error x => exact ⟨h4, by simp⟩
                      | ok f' =>
                        refine ⟨h4, fun b hb => ?_⟩
                        cases hb
                        intro s' sub' heq
                        cases heq
                        exact ⟨h2, h5 f' rfl⟩)
            hs .nil st h (by simp [Forest.keys, Forest.items]) (by simp [Forest.items])
          exact .mk (fun i s sub hi => ((hb.2 f hf).2 i _ hi s sub rfl).1) (fun i s sub hi => ((hb.2 f hf).2 i _ hi s sub rfl).2)

theorem collect_without {C : Crypto} {P : Params} {W : World} {a e : String} {last : Int} (ha : Plain a) (he : Plain e)
    (hw : Withheld W a e) (hn : W.now > last - P.delta) {n : Nat} {st : State} {entity stopAt : String} {f : Forest Jws} {ec : Jws}
    (h : NotedUntil a e last st) (hc : (collect C P W n st entity stopAt).1 = .ok (f, ec)) : Without a e entity f := by
  have key : ∀ st' c, NotedUntil a e last st' → ∀ f' ec',
      (match collectTree C P W stopAt n st' entity c with
        | (.error e, st) => ((.error e : Except PyErr (Forest Jws × Jws)), st)
        | (.ok f, st) => (.ok (f, ec'), st)).1 = .ok f' → Without a e entity f'.1 := by
    intro st' c hst f' ec' hf
    have := fun f => collectTree_without (C := C) ha he hw hn stopAt n st' entity c f hst
    generalize collectTree C P W stopAt n st' entity c = r at hf this
    obtain ⟨r1, st2⟩ := r
    cases r1 with
    | error x => cases hf
    | ok f0 => cases hf; exact this f0 rfl
  unfold collect at hc
  simp only at hc
  split at hc
  · cases hc
  · rename_i c _
    exact key st _ h (f, ec) c.jws hc
  · split at hc
    · cases hc
    · cases hc
    · rename_i j _
      split at hc
      · cases hc
      · rename_i p _
        exact key { st with config := st.config.set entity ⟨j⟩ } _ (h.of_es rfl) (f, ec) j hc

end Fed.Collect
