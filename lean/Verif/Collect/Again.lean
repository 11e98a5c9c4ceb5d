import Verif.Collect.HistoryProps
import Verif.Collect.Separate
/-
Collecting a second time: while nothing that was collected is about to expire, the federation need not be there any more.
-/
namespace Fed.Collect
open Fed

/-- The configuration names a fetch endpoint that can be used. -/
def HasFetch (j : Jws) : Prop := ∃ v, j.payload.md.get? "federation_entity" = some v ∧ ∃ ep, v.get? "federation_fetch_endpoint" = some ep ∧ ep.truthy = true

/-- The configuration is, at `t`, not about to expire. -/
def LastsPast (P : Params) (t : Int) (j : Jws) : Prop := ∀ x, j.payload.exp = some x → t < x - P.delta

/-- `A` holds the authorities above an entity, and nothing that concerns them is about to expire at `t`: not their configurations, be they published or
remembered, and not the statements they make or that are remembered. -/
structure Lasting (P : Params) (W : World) (t : Int) (A : String → Prop) (st : State) : Prop where
  later : W.now ≤ t
  plain : ∀ a, A a → Plain a
  found : ∀ a j, A a → W.config a = .ok (some j) → HintsIn A j.payload ∧ LastsPast P t j
  cached : ∀ a c, A a → st.config.get? a = some c → HintsIn A c.jws.payload ∧ LastsPast P t c.jws
  served : ∀ ep a e s x, A a → W.fetch ep a e = .ok (some s) → s.payload.exp = some x → t ≤ x - P.delta
  noted : ∀ a e x, A a → st.es.get? (timeKey a e) = some (.time x) → t ≤ x - P.delta

/-- All authorities in `A` name a fetch endpoint in the configurations that are published and in those that are remembered. -/
structure AllFetch (W : World) (A : String → Prop) (st : State) : Prop where
  found : ∀ a j, A a → W.config a = .ok (some j) → HasFetch j
  cached : ∀ a c, A a → st.config.get? a = some c → HasFetch c.jws

/-- What stays in the caches: pairs of a statement and its expiry, and the configurations. -/
structure Stays (A : String → Prop) (st st' : State) : Prop where
  es : ∀ a e s x, A a → Plain e → st.es.get? (cacheKey a e) = some (.stmt s) → st.es.get? (timeKey a e) = some (.time x) →
    st'.es.get? (cacheKey a e) = some (.stmt s) ∧ st'.es.get? (timeKey a e) = some (.time x)
  config : ∀ a c, A a → st.config.get? a = some c → st'.config.get? a = some c
  others : ∀ a, ¬ A a → st'.config.get? a = st.config.get? a

theorem Stays.refl (A : String → Prop) (st : State) : Stays A st st := ⟨fun _ _ _ _ _ _ h1 h2 => ⟨h1, h2⟩, fun _ _ _ h => h, fun _ _ => rfl⟩

theorem Stays.trans {A : String → Prop} {a b c : State} (h1 : Stays A a b) (h2 : Stays A b c) : Stays A a c :=
  ⟨fun x e s t hx he hs ht => let h := h1.es x e s t hx he hs ht; h2.es x e s t hx he h.1 h.2, fun x c hx h => h2.config x c hx (h1.config x c hx h),
    fun x hx => (h2.others x hx).trans (h1.others x hx)⟩

section
variable {C : Crypto} {P : Params} {W W' : World} {t : Int} {A : String → Prop}

theorem hasFetch_endpoint {j : Jws} (h : HasFetch j) : ∃ ep, getFetchEndpoint j.payload = .ok (some ep) ∧ usableEndpoint (some ep) = some ep := by
  obtain ⟨v, h1, ep, h2, h3⟩ := h
  refine ⟨ep, ?_, ?_⟩
  · unfold getFetchEndpoint; rw [h1]; simp only; rw [h2]
  · simp [usableEndpoint, h3]

/-- The state the lemmas are about. -/
def Good (P : Params) (W : World) (t : Int) (A : String → Prop) (st : State) : Prop := Lasting P W t A st ∧ AllFetch W A st

theorem subscript_good {st : State} (h : Good P W t A st) {a : String} (ha : A a) :
    (∃ c, st.config.get? a = some c ∧ (subscript P.delta W.now st.config a = (.ok (some c), st.config)) ∧
      ∀ t', t' ≤ t → ∀ db : Dict Config, db.get? a = some c → subscript P.delta t' db a = (.ok (some c), db)) ∨
    (∃ c, st.config.get? a = some c ∧ subscript P.delta W.now st.config a = (.error .keyError, st.config)) ∨
    (st.config.get? a = none ∧ subscript P.delta W.now st.config a = (.ok none, st.config)) := by
  rcases subscript_config P.delta W.now st.config a with ⟨c, e, h1, h2, h3, h4⟩ | ⟨c, e, h1, h2, h3, h4⟩ | ⟨c, h1, h2, h4⟩ | ⟨h1, h4⟩
  · refine .inl ⟨c, h1, h4, fun t' ht db hdb => ?_⟩
    have hl := (h.1.cached a c ha h1).2 e h2
    rcases subscript_config P.delta t' db a with ⟨c', e', k1, k2, k3, k4⟩ | ⟨c', e', k1, k2, k3, k4⟩ | ⟨c', k1, k2, k4⟩ | ⟨k1, k4⟩
    · rw [hdb] at k1; cases k1; exact k4
    · rw [hdb] at k1; cases k1
      rw [h2] at k2; cases k2
      exact absurd (by omega) k3
    · rw [hdb] at k1; cases k1; rw [h2] at k2; cases k2
    · rw [hdb] at k1; cases k1
  · have hl := (h.1.cached a c ha h1).2 e h2
    have := h.1.later
    exact absurd (by omega) h3
  · exact .inr (.inl ⟨c, h1, h4⟩)
  · exact .inr (.inr ⟨h1, h4⟩)

theorem Good.setConfig {st : State} (h : Good P W t A st) {k : String} {j : Jws} (hj : W.config k = .ok (some j)) :
    Good P W t A { st with config := st.config.set k ⟨j⟩ } := by
  refine ⟨⟨h.1.later, h.1.plain, h.1.found, fun a c ha hc => ?_, h.1.served, h.1.noted⟩, h.2.found, fun a c ha hc => ?_⟩
  · simp only [Dict.get?_set] at hc
    split at hc
    · rename_i heq
      subst heq
      cases hc
      exact h.1.found _ _ ha hj
    · exact h.1.cached a c ha hc
  · simp only [Dict.get?_set] at hc
    split at hc
    · rename_i heq
      subst heq
      cases hc
      exact h.2.found _ _ ha hj
    · exact h.2.cached a c ha hc

theorem fetchEndpoint_again {st : State} (h : Good P W t A st) {a : String} (ha : A a) :
    Good P W t A (fetchEndpoint C P W st a).2 ∧ Stays A st (fetchEndpoint C P W st a).2 ∧ (fetchEndpoint C P W st a).2.es = st.es ∧
      ∀ ep, (fetchEndpoint C P W st a).1 = .ok ep → ∃ v, ep = some v ∧ usableEndpoint ep = some v := by
  unfold fetchEndpoint
  rcases subscript_good h ha with ⟨c, h1, h2, -⟩ | ⟨c, h1, h2⟩ | ⟨h1, h2⟩
  · rw [h2]
    simp only
    obtain ⟨ep, e1, e2⟩ := hasFetch_endpoint (h.2.cached a c ha h1)
    rw [e1]
    simp only [e2]
    exact ⟨h, .refl _ _, trivial, fun ep' he => by cases he; exact ⟨ep, rfl, e2⟩⟩
  · rw [h2]
    exact ⟨h, .refl _ _, rfl, fun ep he => by cases he⟩
  · rw [h2]
    simp only
    unfold refreshConfig
    cases hw : W.config a with
    | error x => exact ⟨h, .refl _ _, rfl, fun ep he => by cases he⟩
    | ok d =>
      cases d with
      | none => exact ⟨h, .refl _ _, rfl, fun ep he => by cases he⟩
      | some j =>
        simp only
        cases hv : selfVerify C W.now j with
        | error x => exact ⟨h, .refl _ _, rfl, fun ep he => by cases he⟩
        | ok p =>
          have hp := selfVerify_payload hv
          subst hp
          simp only
          obtain ⟨ep, e1, e2⟩ := hasFetch_endpoint (h.2.found a j ha hw)
          rw [e1]
          simp only
          refine ⟨h.setConfig hw, ⟨fun _ _ _ _ _ _ k1 k2 => ⟨k1, k2⟩, fun b c hb hc => ?_, fun b hb => ?_⟩, trivial, fun ep' he => by cases he; exact ⟨ep, rfl, e2⟩⟩
          · simp only
            rw [Dict.get?_set_ne _ _ (by rintro rfl; rw [h1] at hc; cases hc)]
            exact hc
          · simp only
            rw [Dict.get?_set_ne _ _ (by rintro rfl; exact hb ha)]

theorem Good.setEs {st : State} (h : Good P W t A st) {a e : String} {s : Jws} (x : Option Int) (hs : x = s.payload.exp)
    (hw : ∀ y, x = some y → t ≤ y - P.delta) (ha : A a) :
    Good P W t A { st with es := match x with | none => st.es.set (cacheKey a e) (.stmt s) | some x => (st.es.set (cacheKey a e) (.stmt s)).set (timeKey a e) (.time x) } := by
  refine ⟨⟨h.1.later, h.1.plain, h.1.found, h.1.cached, h.1.served, fun b e' y hb hy => ?_⟩, h.2.found, h.2.cached⟩
  cases x with
  | none =>
    simp only [Dict.get?_set] at hy
    split at hy
    · cases hy
    · exact h.1.noted b e' y hb hy
  | some x =>
    simp only [Dict.get?_set] at hy
    split at hy
    · cases hy; exact hw _ rfl
    · split at hy
      · cases hy
      · exact h.1.noted b e' y hb hy

theorem fetchStatement_again {st : State} (h : Good P W t A st) {e a : String} (ha : A a) (he : Plain e) (hno : st.es.get? (cacheKey a e) = none) :
    Good P W t A (fetchStatement C P W st e a).2 ∧ Stays A st (fetchStatement C P W st e a).2 ∧ (fetchStatement C P W st e a).1 ≠ .ok none ∧
      ∀ s, (fetchStatement C P W st e a).1 = .ok (some s) → ∃ x, (fetchStatement C P W st e a).2.es.get? (cacheKey a e) = some (.stmt s) ∧
        (fetchStatement C P W st e a).2.es.get? (timeKey a e) = some (.time x) ∧ t ≤ x - P.delta := by
  unfold fetchStatement
  obtain ⟨g1, g2, g3, g4⟩ := fetchEndpoint_again (C := C) h ha
  generalize fetchEndpoint C P W st a = r at g1 g2 g3 g4
  obtain ⟨r1, st1⟩ := r
  simp only at g1 g2 g3 g4
  have hpa := h.1.plain a ha
  rw [← g3] at hno
  cases r1 with
  | error x => exact ⟨g1, g2, (fun hc => by cases hc), fun s hs => by cases hs⟩
  | ok ep =>
    obtain ⟨v, -, hv⟩ := g4 ep rfl
    simp only
    rw [hv]
    simp only
    cases hf : W.fetch v a e with
    | error x => exact ⟨g1, g2, (fun hc => by cases hc), fun s hs => by cases hs⟩
    | ok d =>
      cases d with
      | none => exact ⟨g1, g2, (fun hc => by cases hc), fun s hs => by cases hs⟩
      | some s =>
        have hk := C34_plain_partial a e hpa he
        simp only
        cases hx : s.payload.exp with
        | none =>
          refine ⟨g1.setEs none hx.symm (fun y hy => by cases hy) ha, g2.trans ⟨fun b e' s' x hb he' k1 k2 => ?_, fun _ _ _ k => k, fun _ _ => rfl⟩, (fun hc => by cases hc), fun s hs => by cases hs⟩
          have hk' := C34_plain_partial b e' (h.1.plain b hb) he' a e
          simp only [Dict.get?_set]
          rw [if_neg, if_neg]
          · exact ⟨k1, k2⟩
          · exact fun hc => hk'.2.2.2 hc.symm
          · intro hc
            rw [hc] at hno
            rw [hno] at k1; cases k1
        | some x =>
          refine ⟨g1.setEs (some x) hx.symm (fun y hy => by cases hy; exact h.1.served _ _ _ _ _ ha hf hx) ha, g2.trans ⟨fun b e' s' y hb he' k1 k2 => ?_, fun _ _ _ k => k, fun _ _ => rfl⟩,
            (fun hc => by cases hc), fun s' hs => ?_⟩
          · have hk' := C34_plain_partial b e' (h.1.plain b hb) he' a e
            have hne : cacheKey a e ≠ cacheKey b e' := by
              intro hc
              rw [hc] at hno
              rw [hno] at k1; cases k1
            have hne' : timeKey a e ≠ timeKey b e' := by
              intro hc
              obtain ⟨rfl, rfl⟩ := hk'.2.1 hc.symm
              exact hne rfl
            simp only [Dict.get?_set]
            rw [if_neg, if_neg hne, if_neg hne', if_neg]
            · exact ⟨k1, k2⟩
            · exact fun hc => hk'.2.2.2 hc.symm
            · exact fun hc => hk'.2.2.1 hc.symm
          · cases hs
            refine ⟨x, ?_, ?_, h.1.served _ _ _ _ _ ha hf hx⟩
            · simp only
              rw [Dict.get?_set_ne _ _ (fun hc => (hk a e).2.2.1 hc.symm), Dict.get?_set_self]
            · simp only
              rw [Dict.get?_set_self]

theorem getStatement_again {st : State} (h : Good P W t A st) {e a : String} (ha : A a) (he : Plain e) :
    Good P W t A (getStatement C P W st e a).2 ∧ Stays A st (getStatement C P W st e a).2 ∧ (getStatement C P W st e a).1 ≠ .ok none ∧
      ∀ s, (getStatement C P W st e a).1 = .ok (some s) → ∃ x, (getStatement C P W st e a).2.es.get? (cacheKey a e) = some (.stmt s) ∧
        (getStatement C P W st e a).2.es.get? (timeKey a e) = some (.time x) ∧ t ≤ x - P.delta := by
  unfold getStatement
  split
  · rename_i hn; exact fetchStatement_again h ha he hn
  · exact ⟨h, .refl _ _, (fun hc => by cases hc), fun s hs => by cases hs⟩
  · rename_i j hj
    split
    · rename_i x hx
      have hl := h.1.noted a e x ha hx
      have := h.1.later
      rw [if_neg (by omega)]
      exact ⟨h, .refl _ _, (fun hc => by cases hc), fun s hs => by cases hs; exact ⟨x, hj, hx, hl⟩⟩
    · exact ⟨h, .refl _ _, (fun hc => by cases hc), fun s hs => by cases hs⟩

/-- What a call leaves behind is enough to make it again. -/
def Repeats {α : Type} (P : Params) (W : World) (t : Int) (A : String → Prop) (st : State) (r : Except PyErr α × State) (again : State → Except PyErr α × State) : Prop :=
  Good P W t A r.2 ∧ Stays A st r.2 ∧ ∀ x, r.1 = .ok x → ∀ st2, Stays A r.2 st2 → again st2 = (.ok x, st2)

theorem overHints_again {branch branch' : State → String → Except PyErr Branch × State}
    (hb : ∀ st a, A a → Good P W t A st → Repeats P W t A st (branch st a) (fun st2 => branch' st2 a)) :
    ∀ hs acc st, (∀ a ∈ hs, A a) → Good P W t A st → Repeats P W t A st (overHints branch hs acc st) (fun st2 => overHints branch' hs acc st2)
  | [], acc, st, _, h => ⟨h, .refl _ _, fun x hx st2 _ => by simp only [overHints, Except.ok.injEq] at hx ⊢; rw [hx]⟩
  | a :: hs, acc, st, hA, h => by
      have h1 := hb st a (hA a (by simp)) h
      unfold overHints
      generalize branch st a = r at h1
      obtain ⟨r1, st1⟩ := r
      obtain ⟨g1, g2, g3⟩ := h1
      cases r1 with
      | error x => exact ⟨g1, g2, fun x hx => by cases hx⟩
      | ok b =>
        simp only at g1 g2 g3 ⊢
        obtain ⟨k1, k2, k3⟩ := overHints_again hb hs (acc.set a b) st1 (fun x hx => hA x (by simp [hx])) g1
        refine ⟨k1, g2.trans k2, fun f hf st2 hst2 => ?_⟩
        simp only [g3 b rfl st2 (k2.trans hst2)]
        exact k3 f hf st2 hst2

theorem collectTree_again (hnow : W'.now = t) (stopAt : String) : ∀ n st e p, Plain e → (∀ q, p = some q → HintsIn A q) → Good P W t A st →
    Repeats P W t A st (collectTree C P W stopAt n st e p) (fun st2 => collectTree C P W' stopAt n st2 e p)
  | 0, st, e, p, _, _, h => ⟨h, .refl _ _, fun x hx => by cases hx⟩
  | n + 1, st, e, none, _, _, h => ⟨h, .refl _ _, fun x hx => by cases hx⟩
  | n + 1, st, e, some p, he, hp, h => by
      unfold collectTree
      split
      · exact ⟨h, .refl _ _, fun x hx st2 _ => by cases hx; rfl⟩
      · rename_i hs hh
        split
        · exact ⟨h, .refl _ _, fun x hx st2 _ => by cases hx; rfl⟩
        · refine overHints_again (fun st a ha h => ?_) hs .nil st (hp p rfl hs hh) h
          unfold collectBranch
          split
          · exact ⟨h, .refl _ _, fun x hx st2 _ => by cases hx; rfl⟩
          · obtain ⟨g1, g2, g3, g4⟩ := getStatement_again (C := C) h ha he
            generalize getStatement C P W st e a = r at g1 g2 g3 g4
            obtain ⟨r1, st1⟩ := r
            simp only at g1 g2 g3 g4
            rcases r1 with x | _ | s
            · exact ⟨g1, g2, fun x hx => by cases hx⟩
            · exact absurd rfl g3
            · obtain ⟨x, e1, e2, e3⟩ := g4 s rfl
              simp only
              rcases subscript_good g1 ha with ⟨c, h1, h2, h3⟩ | ⟨c, h1, h2⟩ | ⟨h1, h2⟩
              · rw [h2]
                simp only [Option.map]
                obtain ⟨k1, k2, k3⟩ := collectTree_again hnow stopAt n st1 a (some c.jws.payload) (h.1.plain a ha)
                  (fun q hq => by cases hq; exact (g1.1.cached a c ha h1).1) g1
                generalize collectTree C P W stopAt n st1 a (some c.jws.payload) = r2 at k1 k2 k3
                obtain ⟨r3, st3⟩ := r2
                simp only at k1 k2 k3
                cases r3 with
                | error x => exact ⟨k1, g2.trans k2, fun x hx => by cases hx⟩
                | ok f =>
                  refine ⟨k1, g2.trans k2, fun b hb st2 hst2 => ?_⟩
                  cases hb
                  have hs1 := (k2.trans hst2).es a e s x ha he e1 e2
                  have hs2 := (k2.trans hst2).config a c ha h1
                  have hg : getStatement C P W' st2 e a = (.ok (some s), st2) := by
                    unfold getStatement
                    rw [hs1.1]
                    simp only
                    rw [hs1.2]
                    simp only
                    rw [if_neg (by omega)]
                  simp only [hg]
                  rw [h3 W'.now (by omega) _ hs2]
                  simp only
                  rw [k3 f rfl st2 hst2]
              · rw [h2]
                exact ⟨g1, g2, fun x hx => by cases hx⟩
              · rw [h2]
                simp only [Option.map]
                have : collectTree C P W stopAt n st1 a none = (.error (if n = 0 then .outOfFuel else .typeError), st1) := by cases n <;> rfl
                rw [this]
                exact ⟨g1, g2, fun x hx => by cases hx⟩

end

/-- C208 in full: what has been collected can be collected again, whatever has become of the rest of the federation, as long as nothing of it is about to expire. -/
def C208_full : Prop :=
  ∀ (C : Crypto) (P : Params) (W W' : World) (A : String → Prop) (n : Nat) (st st1 : State) (entity stopAt : String) (f : Forest Jws) (ec : Jws),
    Lasting P W W'.now A st → Plain entity → HintsIn A ec.payload → LastsPast P W'.now ec → 0 ≤ P.delta →
    collect C P W n st entity stopAt = (.ok (f, ec), st1) → collect C P W' n st1 entity stopAt = (.ok (f, ec), st1)

/-- C208: it can if all authorities above the entity name a fetch endpoint. -/
theorem C208_again_partial (C : Crypto) (P : Params) (W W' : World) (A : String → Prop) (n : Nat) (st st1 : State) (entity stopAt : String) (f : Forest Jws) (ec : Jws)
    (hl : Lasting P W W'.now A st) (hf : AllFetch W A st) (he : Plain entity) (hh : HintsIn A ec.payload) (hx : LastsPast P W'.now ec) (hd : 0 ≤ P.delta)
    (hexp : ∃ y, ec.payload.exp = some y) (h : collect C P W n st entity stopAt = (.ok (f, ec), st1)) : collect C P W' n st1 entity stopAt = (.ok (f, ec), st1) := by
  have main : ∀ st0 : State, Good P W W'.now A st0 → st0.config.get? entity = some ⟨ec⟩ →
      collectTree C P W stopAt n st0 entity (some ec.payload) = (.ok f, st1) → collect C P W' n st1 entity stopAt = (.ok (f, ec), st1) := by
    intro st0 hg hc ht
    obtain ⟨k1, k2, k3⟩ := collectTree_again (C := C) (W' := W') rfl stopAt n st0 entity (some ec.payload) he (fun q hq => by cases hq; exact hh) hg
    rw [ht] at k1 k2 k3
    simp only at k1 k2 k3
    have hc1 : st1.config.get? entity = some ⟨ec⟩ := by
      by_cases hA : A entity
      · exact k2.config _ _ hA hc
      · rw [k2.others _ hA]; exact hc
    obtain ⟨y, hy⟩ := hexp
    have hto : tooOld P W' ⟨ec⟩ = .ok false := by
      unfold tooOld
      rw [hy]
      have := hx y hy
      simp only [Except.ok.injEq, decide_eq_false_iff_not]
      omega
    unfold collect
    simp only [hc1, hto]
    rw [k3 f rfl st1 (.refl _ _)]
  have fetched : ∀ d, W.config entity = d →
      (match d with
        | .error e => (.error e.toPy, st)
        | .ok none => (.error .valueError, st)
        | .ok (some j) =>
          match selfVerify C W.now j with
          | .error e => (.error e, st)
          | .ok p =>
            match collectTree C P W stopAt n { st with config := st.config.set entity ⟨j⟩ } entity (some p) with
            | (.error e, st) => (.error e, st)
            | (.ok f, st) => (.ok (f, j), st)) = ((.ok (f, ec), st1) : Except PyErr (Forest Jws × Jws) × State) →
      collect C P W' n st1 entity stopAt = (.ok (f, ec), st1) := by
    intro d hd' h
    split at h
    · cases h
    · cases h
    · rename_i j
      split at h
      · cases h
      · rename_i p hp
        have hpp := selfVerify_payload hp
        subst hpp
        split at h
        · cases h
        · rename_i f' st' ht
          simp only [Prod.mk.injEq, Except.ok.injEq] at h
          obtain ⟨⟨rfl, rfl⟩, rfl⟩ := h
          exact main _ (Good.setConfig ⟨hl, hf⟩ hd') (by simp [Dict.get?_set_self]) ht
  unfold collect at h
  cases hc : st.config.get? entity with
  | none =>
    rw [hc] at h
    exact fetched _ rfl h
  | some c =>
    rw [hc] at h
    simp only at h
    cases hto : tooOld P W c with
    | error e => rw [hto] at h; cases h
    | ok b =>
      rw [hto] at h
      cases b with
      | true => exact fetched _ rfl h
      | false =>
        simp only at h
        split at h
        · cases h
        · rename_i f' st' ht
          simp only [Prod.mk.injEq, Except.ok.injEq] at h
          obtain ⟨⟨rfl, rfl⟩, rfl⟩ := h
          exact main st ⟨hl, hf⟩ hc ht

/-! The cases: a leaf below two intermediates and a trust anchor; and, below the trust anchor, one of the two names no fetch endpoint. -/
namespace Ex208
open Ex31
/-- The authorities. -/
def A (a : String) : Prop := a = "im1" ∨ a = "im2" ∨ a = "ta"
/-- Everything is gone. -/
def nobody (t : Int) : World := { now := t, config := fun _ => .error .connectionError, fetch := fun _ _ _ => .error .connectionError }
/-- `im1` names no fetch endpoint. -/
def mute (k : String) : Jws := if k = "im1" then ⟨{ (conf k (good k)).payload with metadata := some (fe none) }, 1⟩ else conf k (good k)
def partlyMute : World := { world good with config := fun k => .ok (some (mute k)) }
/-- The leaf says nothing about when its configuration expires. -/
def forever : World := { world good with config := fun k => .ok (some (if k = "leaf" then ⟨{ (conf k (good k)).payload with exp := none }, 1⟩ else conf k (good k))) }
/-- What is collected the first time, and what is remembered then. -/
def first (W : World) : Option (Forest Jws × Jws) := (collect C P W 10 {} "leaf" "").1.toOption
def after (W : World) : State := (collect C P W 10 {} "leaf" "").2
end Ex208

theorem Ex208.plain {a : String} (h : Ex208.A a) : Plain a := by
  rcases h with rfl | rfl | rfl <;> decide +kernel

theorem Ex208.lasting (W : World) (conf' : String → Jws) (hnow : W.now = 0) (hW : W.config = fun k => .ok (some (conf' k))) (hf : W.fetch = (Ex31.world Ex31.good).fetch)
    (hc : ∀ a, Ex208.A a → (conf' a).payload.exp = some 10000 ∧ (conf' a).payload.hints = Ex31.good a) : Lasting Ex31.P W 9600 Ex208.A {} := by
  refine ⟨by rw [hnow]; decide, fun a => Ex208.plain, fun a j ha hj => ?_, fun a c _ h => by simp [Dict.get?] at h, fun ep a e s x ha hs hx => ?_, fun a e x _ h => by simp [Dict.get?] at h⟩
  · rw [hW] at hj
    cases hj
    obtain ⟨h1, h2⟩ := hc a ha
    refine ⟨fun hs hh b hb => ?_, fun x hx => ?_⟩
    · rw [h2] at hh
      rcases ha with rfl | rfl | rfl
      · cases hh; simp only [List.mem_cons, List.not_mem_nil, or_false] at hb; exact .inr (.inr hb)
      · cases hh; simp only [List.mem_cons, List.not_mem_nil, or_false] at hb; exact .inr (.inr hb)
      · cases hh
    · rw [h1] at hx; cases hx; decide
  · rw [hf] at hs
    cases hs
    cases hx
    decide

/-- The hypotheses of `C208_again_partial` hold for the leaf, and it is collected again from nowhere. -/
example : Lasting Ex31.P (Ex31.world Ex31.good) 9600 Ex208.A {} ∧ AllFetch (Ex31.world Ex31.good) Ex208.A {} :=
  ⟨Ex208.lasting _ (fun k => Ex31.conf k (Ex31.good k)) rfl rfl rfl (fun _ _ => ⟨rfl, rfl⟩),
    ⟨fun a j _ hj => by cases hj; exact ⟨_, rfl, _, rfl, rfl⟩, fun a c _ h => by simp [Dict.get?] at h⟩⟩
example : (Ex208.first (Ex31.world Ex31.good)).isSome = true ∧
    collect Ex31.C Ex31.P (Ex208.nobody 9600) 10 (Ex208.after (Ex31.world Ex31.good)) "leaf" "" =
      (.ok ((Ex208.first (Ex31.world Ex31.good)).getD (.nil, Ex31.conf "x" none)), Ex208.after (Ex31.world Ex31.good)) := by decide +kernel
/-- Without what is remembered it is not. -/
example : (collect Ex31.C Ex31.P (Ex208.nobody 9600) 10 {} "leaf" "").1 = .error .connectionError := by decide +kernel
/-- Nor is it when it is about to expire. -/
example : (collect Ex31.C Ex31.P (Ex208.nobody 9701) 10 (Ex208.after (Ex31.world Ex31.good)) "leaf" "").1 = .error .connectionError := by decide +kernel

/-- C208 fails: of an authority without a fetch endpoint the configuration is asked for anew each time, although it is remembered, and when it cannot be had the whole collection fails. -/
theorem C208_no_fetch_endpoint_violation : ¬ C208_full := by
  intro h
  have h1 := h Ex31.C Ex31.P Ex208.partlyMute (Ex208.nobody 9600) Ex208.A 10 {} (Ex208.after Ex208.partlyMute) "leaf" ""
    (.missing "im1" (.node "im2" (Ex31.about "im2" "leaf") (.node "ta" (Ex31.about "ta" "im2") .nil .nil) .nil)) (Ex31.conf "leaf" (Ex31.good "leaf"))
    (Ex208.lasting _ Ex208.mute rfl rfl rfl (fun a ha => by rcases ha with rfl | rfl | rfl <;> exact ⟨rfl, rfl⟩)) (by decide +kernel)
    (fun hs hh b hb => by cases hh; simp only [List.mem_cons, List.not_mem_nil, or_false] at hb; exact hb.imp id .inl) (fun x hx => by cases hx; decide) (by decide) (by decide +kernel)
  revert h1
  decide +kernel

/-- C208 fails: an entity whose configuration has no `exp` is collected once and, while it is remembered, never again, with or without the federation. -/
theorem C208_no_expiry_violation : ¬ C208_full := by
  intro h
  have h1 := h Ex31.C Ex31.P Ex208.forever { Ex208.forever with now := 9600 } Ex208.A 10 {} (Ex208.after Ex208.forever) "leaf" ""
    (.node "im1" (Ex31.about "im1" "leaf") (.node "ta" (Ex31.about "ta" "im1") .nil .nil) (.node "im2" (Ex31.about "im2" "leaf") (.node "ta" (Ex31.about "ta" "im2") .nil .nil) .nil))
    ⟨{ (Ex31.conf "leaf" (Ex31.good "leaf")).payload with exp := none }, 1⟩
    (Ex208.lasting _ _ rfl rfl rfl (fun a ha => by rcases ha with rfl | rfl | rfl <;> exact ⟨rfl, rfl⟩)) (by decide +kernel)
    (fun hs hh b hb => by cases hh; simp only [List.mem_cons, List.not_mem_nil, or_false] at hb; exact hb.imp id .inl) (fun x hx => by cases hx) (by decide) (by decide +kernel)
  revert h1
  decide +kernel

end Fed.Collect
