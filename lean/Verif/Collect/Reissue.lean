import Verif.Collect.Transparency
/-
Collecting in a federation whose members issue their documents anew, with other dates, each time they are asked.
-/
namespace Fed.Collect
open Fed

/-- What may be found during a period: the members, the configurations each of them may publish, the statements each authority may make, and who has whom as authority. -/
structure Period where
  S : String → Prop
  Cfg : String → Jws → Prop
  About : (authority entity : String) → Jws → Prop
  Rel : (authority entity : String) → Prop

/-- At time `t` everything that may be found is properly signed and not about to expire; who is named as authority has a fetch endpoint. -/
structure Period.Sound (Q : Period) (C : Crypto) (P : Params) (t : Int) : Prop where
  plain : ∀ k, Q.S k → Plain k
  verify : ∀ k j, Q.S k → Q.Cfg k j → selfVerify C t j = .ok j.payload
  fresh : ∀ k j, Q.S k → Q.Cfg k j → ∃ x, j.payload.exp = some x ∧ t < x - P.delta ∧ t < x + P.delta
  hints : ∀ k j hs, Q.S k → Q.Cfg k j → j.payload.hints = some hs → ∀ a ∈ hs, Q.S a ∧ Q.Rel a k
  endpoint : ∀ a e j, Q.Rel a e → Q.Cfg a j → ∃ ep v, getFetchEndpoint j.payload = .ok ep ∧ usableEndpoint ep = some v
  dated : ∀ a e s, Q.Rel a e → Q.About a e s → ∃ x, s.payload.exp = some x ∧ t ≤ x - P.delta

/-- A world where nothing else is found. -/
structure Period.Serves (Q : Period) (W : World) : Prop where
  config : ∀ k j, W.config k = .ok (some j) → Q.S k ∧ Q.Cfg k j
  fetch : ∀ a e j ep v s, Q.Rel a e → Q.Cfg a j → getFetchEndpoint j.payload = .ok ep → usableEndpoint ep = some v → W.fetch v a e = .ok (some s) → Q.About a e s

/-- Caches that hold only what was found during the period. -/
structure Past (Q : Period) (st : State) : Prop where
  config : ∀ k c, st.config.get? k = some c → Q.S k ∧ Q.Cfg k c.jws
  stmt : ∀ a e, Plain a → Plain e → ∀ v, st.es.get? (cacheKey a e) = some v → ∃ j, v = .stmt j ∧ Q.Rel a e ∧ Q.About a e j ∧
    st.es.get? (timeKey a e) = j.payload.exp.map .time ∧ ∃ c, st.config.get? a = some c
  both : ∀ a e, Plain a → Plain e → st.es.get? (cacheKey a e) = none → st.es.get? (timeKey a e) = none

theorem Past.empty (Q : Period) : Past Q {} := ⟨by simp, by simp, by simp⟩

/-- Two worlds that agree on what is not in the caches. -/
structure Agree (W1 W2 : World) (st : State) : Prop where
  now : W1.now = W2.now
  config : ∀ k, st.config.get? k = none → W1.config k = W2.config k
  fetch : ∀ a e, st.es.get? (cacheKey a e) = none → ∀ ep, W1.fetch ep a e = W2.fetch ep a e

theorem Past.setConfig {Q : Period} {st : State} (h : Past Q st) {k : String} {j : Jws} (hS : Q.S k) (hj : Q.Cfg k j) :
    Past Q { st with config := st.config.set k ⟨j⟩ } := by
  refine ⟨fun q c hq => ?_, fun a e ha he v hv => ?_, h.both⟩
  · rw [Dict.get?_set] at hq
    split at hq
    · rename_i e; subst e; cases hq; exact ⟨hS, hj⟩
    · exact h.config q c hq
  · obtain ⟨s, h1, h2, h3, h4, c, h5⟩ := h.stmt a e ha he v hv
    refine ⟨s, h1, h2, h3, h4, ?_⟩
    by_cases hk : k = a
    · subst hk; exact ⟨_, Dict.get?_set_self _ _ _⟩
    · exact ⟨c, by rw [Dict.get?_set_ne _ _ hk]; exact h5⟩

theorem Agree.setConfig {W1 W2 : World} {st : State} (h : Agree W1 W2 st) (k : String) (c : Config) : Agree W1 W2 { st with config := st.config.set k c } := by
  refine ⟨h.now, fun q hq => h.config q ?_, h.fetch⟩
  rw [Dict.get?_set] at hq
  split at hq
  · cases hq
  · exact hq

theorem Past.subscript {Q : Period} {C P t st} (h : Past Q st) (hs : Q.Sound C P t) (a : String) :
    (∃ c, st.config.get? a = some c ∧ subscript P.delta t st.config a = (.ok (some c), st.config)) ∨
    (st.config.get? a = none ∧ subscript P.delta t st.config a = (.ok none, st.config)) := by
  rcases subscript_config P.delta t st.config a with ⟨c, e, h1, h2, h3, h4⟩ | ⟨c, e, h1, h2, h3, h4⟩ | ⟨c, h1, h2, h4⟩ | ⟨h1, h4⟩
  · exact Or.inl ⟨c, h1, h4⟩
  · obtain ⟨x, hx, hx', -⟩ := hs.fresh a c.jws (h.config _ _ h1).1 (h.config _ _ h1).2
    rw [h2] at hx; cases hx; exact absurd hx' h3
  · obtain ⟨x, hx, -⟩ := hs.fresh a c.jws (h.config _ _ h1).1 (h.config _ _ h1).2
    rw [h2] at hx; cases hx
  · exact Or.inr ⟨h1, h4⟩

section
variable {Q : Period} {C : Crypto} {P : Params} {W1 W2 : World} {st : State}

theorem refreshConfig_past (hs : Q.Sound C P W1.now) (hw : Q.Serves W1) (h : Past Q st) (ha : Agree W1 W2 st) (a : String) (hn : st.config.get? a = none) :
    refreshConfig C W1 st a = refreshConfig C W2 st a ∧ Past Q (refreshConfig C W1 st a).2 ∧ Agree W1 W2 (refreshConfig C W1 st a).2 ∧
    (refreshConfig C W1 st a).2.es = st.es ∧
    ∀ ep, (refreshConfig C W1 st a).1 = .ok ep → ∃ c, (refreshConfig C W1 st a).2.config.get? a = some c ∧ getFetchEndpoint c.jws.payload = .ok ep := by
  unfold refreshConfig
  rw [← ha.config a hn, ← ha.now]
  refine ⟨rfl, ?_⟩
  split
  · exact ⟨h, ha, rfl, nofun⟩
  · exact ⟨h, ha, rfl, nofun⟩
  · rename_i j hj
    obtain ⟨hS, hC⟩ := hw.config a j hj
    rw [hs.verify a j hS hC]
    simp only
    split
    · exact ⟨h, ha, rfl, nofun⟩
    · rename_i ep hep
      refine ⟨h.setConfig hS hC, ha.setConfig _ _, rfl, ?_⟩
      intro ep' e
      cases e
      exact ⟨_, Dict.get?_set_self _ _ _, hep⟩

theorem fetchEndpoint_past (hs : Q.Sound C P W1.now) (hw : Q.Serves W1) (h : Past Q st) (ha : Agree W1 W2 st) (a e : String) (hr : Q.Rel a e) :
    fetchEndpoint C P W1 st a = fetchEndpoint C P W2 st a ∧ Past Q (fetchEndpoint C P W1 st a).2 ∧ Agree W1 W2 (fetchEndpoint C P W1 st a).2 ∧
    (fetchEndpoint C P W1 st a).2.es = st.es ∧
    ∀ ep, (fetchEndpoint C P W1 st a).1 = .ok ep → ∃ c, (fetchEndpoint C P W1 st a).2.config.get? a = some c ∧ getFetchEndpoint c.jws.payload = .ok ep := by
  unfold fetchEndpoint
  rw [← ha.now]
  rcases h.subscript hs a with ⟨c, h1, h2⟩ | ⟨h1, h2⟩
  · rw [h2]
    obtain ⟨ep, v, h3, h4⟩ := hs.endpoint a e c.jws hr (h.config _ _ h1).2
    simp only [h3, h4]
    refine ⟨trivial, h, ha, trivial, ?_⟩
    intro ep' e'
    cases e'
    exact ⟨c, h1, h3⟩
  · rw [h2]
    exact refreshConfig_past hs hw h ha a h1

theorem fetchStatement_past (hs : Q.Sound C P W1.now) (hw : Q.Serves W1) (h : Past Q st) (ha : Agree W1 W2 st) (e a : String) (hr : Q.Rel a e) (he : Plain e) (hpa : Plain a)
    (hnone : st.es.get? (cacheKey a e) = none) :
    fetchStatement C P W1 st e a = fetchStatement C P W2 st e a ∧ Past Q (fetchStatement C P W1 st e a).2 ∧ Agree W1 W2 (fetchStatement C P W1 st e a).2 := by
  unfold fetchStatement
  have hE := fetchEndpoint_past hs hw h ha a e hr
  rw [← hE.1]
  replace hE := hE.2
  generalize fetchEndpoint C P W1 st a = r at hE ⊢
  obtain ⟨r1, st1⟩ := r
  obtain ⟨hP, hA, hes, hE⟩ := hE
  simp only at hP hA hes hE
  cases r1 with
  | error x => exact ⟨rfl, hP, hA⟩
  | ok ep =>
    obtain ⟨c, hc, hep⟩ := hE ep rfl
    cases hu : usableEndpoint ep with
    | none => exact ⟨by simp only [hu], by simpa only [hu] using hP, by simpa only [hu] using hA⟩
    | some v =>
      have hnone1 : st1.es.get? (cacheKey a e) = none := by rw [hes]; exact hnone
      simp only [hu]
      rw [← hA.fetch a e hnone1 v]
      refine ⟨rfl, ?_⟩
      cases hf : W1.fetch v a e with
      | error x => exact ⟨hP, hA⟩
      | ok d =>
        cases d with
        | none => exact ⟨hP, hA⟩
        | some s =>
          have hab := hw.fetch a e c.jws ep v s hr (hP.config _ _ hc).2 hep hu hf
          obtain ⟨x, hx, -⟩ := hs.dated a e s hr hab
          simp only [hx]
          constructor
          · refine ⟨hP.config, ?_, ?_⟩
            · intro a' e' ha' he' w hw'
              by_cases hp : a = a' ∧ e = e'
              · obtain ⟨rfl, rfl⟩ := hp
                rw [Dict.get?_set_ne _ _ (fun h => not_plain_timeKey_cacheKey hpa he h), Dict.get?_set_self] at hw'
                cases hw'
                exact ⟨s, rfl, hr, hab, by rw [Dict.get?_set_self, hx]; rfl, c, hc⟩
              · rw [Dict.get?_set_ne _ _ (fun h => not_plain_timeKey_cacheKey hpa he h), Dict.get?_set_ne _ _ (fun h => hp (cacheKey_inj hpa he h))] at hw'
                rw [Dict.get?_set_ne _ _ (fun h => hp (timeKey_inj hpa he h)), Dict.get?_set_ne _ _ (fun h => not_plain_cacheKey_timeKey hpa he h)]
                exact hP.stmt a' e' ha' he' w hw'
            · intro a' e' ha' he' hw'
              by_cases hp : a = a' ∧ e = e'
              · obtain ⟨rfl, rfl⟩ := hp
                rw [Dict.get?_set_ne _ _ (fun h => not_plain_timeKey_cacheKey hpa he h), Dict.get?_set_self] at hw'
                cases hw'
              · rw [Dict.get?_set_ne _ _ (fun h => not_plain_timeKey_cacheKey hpa he h), Dict.get?_set_ne _ _ (fun h => hp (cacheKey_inj hpa he h))] at hw'
                rw [Dict.get?_set_ne _ _ (fun h => hp (timeKey_inj hpa he h)), Dict.get?_set_ne _ _ (fun h => not_plain_cacheKey_timeKey hpa he h)]
                exact hP.both a' e' ha' he' hw'
          · refine ⟨hA.now, hA.config, fun a' e' hn => hA.fetch a' e' ?_⟩
            simp only [Dict.get?_set] at hn
            split at hn
            · cases hn
            · split at hn
              · cases hn
              · exact hn

theorem getStatement_past (hs : Q.Sound C P W1.now) (hw : Q.Serves W1) (h : Past Q st) (ha : Agree W1 W2 st) (e a : String) (hr : Q.Rel a e) (he : Plain e) (hpa : Plain a) :
    getStatement C P W1 st e a = getStatement C P W2 st e a ∧ Past Q (getStatement C P W1 st e a).2 ∧ Agree W1 W2 (getStatement C P W1 st e a).2 := by
  unfold getStatement
  cases hv : st.es.get? (cacheKey a e) with
  | none => exact fetchStatement_past hs hw h ha e a hr he hpa hv
  | some v =>
    obtain ⟨j, rfl, -, h2, h3, -⟩ := h.stmt a e hpa he v hv
    obtain ⟨x, hx, hf⟩ := hs.dated a e j hr h2
    simp only [h3, hx, Option.map_some, ← ha.now]
    rw [if_neg (by omega), if_neg (by omega)]
    exact ⟨rfl, h, ha⟩

theorem overHints_past {b1 b2 : State → String → Except PyErr Branch × State} : ∀ (hs : List String) (acc : Forest Jws) (st : State), Past Q st → Agree W1 W2 st →
    (∀ a ∈ hs, ∀ st, Past Q st → Agree W1 W2 st → b1 st a = b2 st a ∧ Past Q (b1 st a).2 ∧ Agree W1 W2 (b1 st a).2) →
    overHints b1 hs acc st = overHints b2 hs acc st ∧ Past Q (overHints b1 hs acc st).2 ∧ Agree W1 W2 (overHints b1 hs acc st).2
  | [], _, _, h, ha, _ => ⟨rfl, h, ha⟩
  | a :: as, acc, st, h, ha, hb => by
    unfold overHints
    have h1 := hb a (by simp) st h ha
    rw [← h1.1]
    replace h1 := h1.2
    generalize b1 st a = r at h1 ⊢
    obtain ⟨r1, st1⟩ := r
    cases r1 with
    | error x => exact ⟨rfl, h1⟩
    | ok b => exact overHints_past as _ st1 h1.1 h1.2 fun a' h' => hb a' (List.mem_cons_of_mem _ h')

theorem collectTree_past (hs : Q.Sound C P W1.now) (hw : Q.Serves W1) (stopAt : String) : ∀ (n : Nat) (st : State) (e : String) (p : Option Payload), Past Q st → Agree W1 W2 st → Plain e →
    (∀ q hs a, p = some q → q.hints = some hs → a ∈ hs → Q.S a ∧ Q.Rel a e) →
    collectTree C P W1 stopAt n st e p = collectTree C P W2 stopAt n st e p ∧ Past Q (collectTree C P W1 stopAt n st e p).2 ∧ Agree W1 W2 (collectTree C P W1 stopAt n st e p).2
  | 0, _, _, _, h, ha, _, _ => ⟨rfl, h, ha⟩
  | n + 1, _, _, none, h, ha, _, _ => ⟨rfl, h, ha⟩
  | n + 1, st, e, some cfg, h, ha, he, hh => by
    unfold collectTree
    cases hc : cfg.hints with
    | none => exact ⟨rfl, h, ha⟩
    | some hs' =>
      simp only
      by_cases hstop : cfg.iss = stopAt
      · rw [if_pos hstop, if_pos hstop]; exact ⟨rfl, h, ha⟩
      · rw [if_neg hstop, if_neg hstop]
        refine overHints_past hs' .nil st h ha fun a hmem st h ha => ?_
        obtain ⟨hS, hr⟩ := hh cfg hs' a rfl hc hmem
        unfold collectBranch
        by_cases hself : e = a ∧ e ∈ P.anchors
        · rw [if_pos hself, if_pos hself]; exact ⟨rfl, h, ha⟩
        · rw [if_neg hself, if_neg hself]
          have h1 := getStatement_past hs hw h ha e a hr he (hs.plain a hS)
          rw [← h1.1]
          replace h1 := h1.2
          generalize getStatement C P W1 st e a = r at h1 ⊢
          obtain ⟨r1, st1⟩ := r
          obtain ⟨hP, hA⟩ := h1
          simp only at hP hA
          cases r1 with
          | error x => exact ⟨rfl, hP, hA⟩
          | ok o =>
            cases o with
            | none => exact ⟨rfl, hP, hA⟩
            | some s =>
              simp only [← hA.now]
              rcases hP.subscript hs a with ⟨c, k1, k2⟩ | ⟨k1, k2⟩
              · rw [k2]
                have ih := collectTree_past hs hw stopAt n st1 a (some c.jws.payload) hP hA (hs.plain a hS) (by
                  intro q hs2 a2 hq hq2 hm
                  cases hq
                  exact hs.hints a c.jws hs2 hS (hP.config _ _ k1).2 hq2 a2 hm)
                simp only [Option.map_some]
                rw [← ih.1]
                replace ih := ih.2
                generalize collectTree C P W1 stopAt n st1 a (some c.jws.payload) = r at ih ⊢
                obtain ⟨r1, st2⟩ := r
                cases r1 with
                | error x => exact ⟨rfl, ih⟩
                | ok f => exact ⟨rfl, ih⟩
              · rw [k2]
                have ih := collectTree_past hs hw stopAt n st1 a none hP hA (hs.plain a hS) (by intro q hs2 a2 hq; cases hq)
                simp only [Option.map_none]
                rw [← ih.1]
                replace ih := ih.2
                generalize collectTree C P W1 stopAt n st1 a none = r at ih ⊢
                obtain ⟨r1, st2⟩ := r
                cases r1 with
                | error x => exact ⟨rfl, ih⟩
                | ok f => exact ⟨rfl, ih⟩

/-- A collection from such caches sees no difference between worlds that agree on what is not in the caches, and the caches afterwards are such caches again. -/
theorem collect_past (hs : Q.Sound C P W1.now) (hw : Q.Serves W1) (h : Past Q st) (ha : Agree W1 W2 st) (fuel : Nat) (entity stopAt : String) :
    collect C P W1 fuel st entity stopAt = collect C P W2 fuel st entity stopAt ∧ Past Q (collect C P W1 fuel st entity stopAt).2 := by
  unfold collect
  cases hc : st.config.get? entity with
  | some c =>
    obtain ⟨hS, hC⟩ := h.config _ _ hc
    obtain ⟨x, hx, -, hlate⟩ := hs.fresh _ _ hS hC
    have t1 : tooOld P W1 c = .ok false := by unfold tooOld; rw [hx]; simp only [Except.ok.injEq, decide_eq_false_iff_not]; omega
    have t2 : tooOld P W2 c = .ok false := by unfold tooOld; rw [hx, ← ha.now]; simp only [Except.ok.injEq, decide_eq_false_iff_not]; omega
    simp only [t1, t2]
    have ih := collectTree_past hs hw stopAt fuel st entity (some c.jws.payload) h ha (hs.plain _ hS) (by
      intro q hs2 a2 hq hq2 hm
      cases hq
      exact hs.hints entity c.jws hs2 hS hC hq2 a2 hm)
    rw [← ih.1]
    replace ih := ih.2
    generalize collectTree C P W1 stopAt fuel st entity (some c.jws.payload) = r at ih ⊢
    obtain ⟨r1, st2⟩ := r
    cases r1 with
    | error x => exact ⟨rfl, ih.1⟩
    | ok f => exact ⟨rfl, ih.1⟩
  | none =>
    simp only
    rw [← ha.config entity hc, ← ha.now]
    cases hj : W1.config entity with
    | error x => exact ⟨rfl, h⟩
    | ok d =>
      cases d with
      | none => exact ⟨rfl, h⟩
      | some j =>
        obtain ⟨hS, hC⟩ := hw.config _ _ hj
        simp only [hs.verify _ _ hS hC]
        have ih := collectTree_past hs hw stopAt fuel { st with config := st.config.set entity ⟨j⟩ } entity (some j.payload) (h.setConfig hS hC) (ha.setConfig _ _) (hs.plain _ hS) (by
          intro q hs2 a2 hq hq2 hm
          cases hq
          exact hs.hints entity j hs2 hS hC hq2 a2 hm)
        rw [← ih.1]
        replace ih := ih.2
        generalize collectTree C P W1 stopAt fuel { st with config := st.config.set entity ⟨j⟩ } entity (some j.payload) = r at ih ⊢
        obtain ⟨r1, st2⟩ := r
        cases r1 with
        | error x => exact ⟨rfl, ih.1⟩
        | ok f => exact ⟨rfl, ih.1⟩
end

/-! ### The federation as the caches show it -/

/-- A federation that always publishes what is in the caches, and what is found in the world for the rest. -/
def view (W : World) (st : State) : Federation where
  config k := match st.config.get? k with
    | some c => .ok (some c.jws)
    | none => W.config k
  fetch ep a e := match st.es.get? (cacheKey a e) with
    | some (.stmt j) => .ok (some j)
    | some (.time _) => .error .failedRetrieval
    | none => W.fetch ep a e

theorem view_agree (W : World) (st : State) : Agree W ((view W st).at W.now) st :=
  ⟨rfl, fun k hk => by simp [view, Federation.at, hk], fun a e hk ep => by simp [view, Federation.at, hk]⟩

section
variable {Q : Period} {C : Crypto} {P : Params} {W : World} {st : State}

theorem Past.view_config (h : Past Q st) (hw : Q.Serves W) {k : String} {j : Jws} (hj : (view W st).config k = .ok (some j)) : Q.S k ∧ Q.Cfg k j := by
  unfold view at hj
  simp only at hj
  cases hc : st.config.get? k with
  | some c => rw [hc] at hj; cases hj; exact h.config _ _ hc
  | none => rw [hc] at hj; exact hw.config _ _ hj

theorem Past.view_dated (h : Past Q st) (hs : Q.Sound C P W.now) (hw : Q.Serves W) : (view W st).Dated := by
  intro k j hj
  obtain ⟨h1, h2⟩ := h.view_config hw hj
  obtain ⟨x, hx, -⟩ := hs.fresh _ _ h1 h2
  exact ⟨x, hx⟩

theorem Past.view_plainHints (h : Past Q st) (hs : Q.Sound C P W.now) (hw : Q.Serves W) : (view W st).PlainHints := by
  intro k j hs' hj hh a ha
  obtain ⟨h1, h2⟩ := h.view_config hw hj
  exact hs.plain a (hs.hints _ _ _ h1 h2 hh a ha).1

theorem Past.view_coherent (h : Past Q st) (hs : Q.Sound C P W.now) : Coherent C P (view W st) W.now st := by
  have hpub : ∀ k c, st.config.get? k = some c → publishedConfig C (view W st) W.now k = some c.jws := by
    intro k c hc
    obtain ⟨h1, h2⟩ := h.config _ _ hc
    rw [publishedConfig_iff]
    exact ⟨by simp [view, hc], hs.verify _ _ h1 h2⟩
  refine ⟨hpub, ?_, h.both⟩
  intro a e ha he v hv
  obtain ⟨j, rfl, h2, h3, h4, c, h5⟩ := h.stmt a e ha he v hv
  obtain ⟨ep, w, h6, h7⟩ := hs.endpoint a e c.jws h2 (h.config _ _ h5).2
  exact ⟨j, c.jws, ep, w, rfl, hpub _ _ h5, h6, h7, by simp [view, hv], h4, Or.inl h5⟩

/-- A collection gives what the federation, as the caches show it, publishes. -/
theorem Past.collect_ideal (h : Past Q st) (hs : Q.Sound C P W.now) (hw : Q.Serves W) (fuel : Nat) (entity stopAt : String) (hp : Plain entity) :
    (collect C P W fuel st entity stopAt).1.toOption = idealCollect C P (view W st) W.now fuel entity stopAt := by
  rw [(collect_past hs hw h (view_agree W st) fuel entity stopAt).1]
  exact (Collect.collect_ideal (h.view_coherent hs) (h.view_dated hs hw) (h.view_plainHints hs hw) fuel entity stopAt hp).2
end

/-- The caches after a history of collections during the period. -/
theorem runAll_past {Q : Period} {C : Crypto} {P : Params} (h : List Run) (hr : ∀ r ∈ h, Q.Sound C P r.world.now ∧ Q.Serves r.world) : Past Q (runAll C P h) := by
  unfold runAll
  suffices ∀ st, Past Q st → Past Q (h.foldl (fun st r => (collect C P r.world r.fuel st r.entity r.stopAt).2) st) from this _ (.empty Q)
  induction h with
  | nil => exact fun st hst => hst
  | cons r h ih =>
    intro st hst
    rw [List.foldl_cons]
    obtain ⟨h1, h2⟩ := hr r (by simp)
    exact ih (fun r' h' => hr r' (List.mem_cons_of_mem _ h')) _ (collect_past h1 h2 hst (view_agree _ st) r.fuel r.entity r.stopAt).2

end Fed.Collect
