import Verif.Collect.Transparency

/-!
# Caches while time passes

Verif/Collect/Transparency.lean shows what collections give in a federation that does not change, as long as no configuration that has been cached expires. Here configurations may expire, and the caches may have expired
configurations and statements in them. The functions of the code that are concerned are those of Verif/Collect/Collector.lean.
-/

namespace Fed.Collect
open Fed

/-- Up to `now`, a configuration that has been accepted is accepted for as long as it is valid for longer than the allowed delta. -/
def Federation.Steady (F : Federation) (C : Crypto) (P : Params) (now : Int) : Prop :=
  ∀ k j, F.config k = .ok (some j) → ∀ t t', t ≤ t' → t' ≤ now → C.current t j = true → freshAt P t' j = true → C.current t' j = true

theorem Federation.Lasting.steady {F : Federation} {C : Crypto} {now : Int} (h : F.Lasting C now) (P : Params) : F.Steady C P now := fun k j hj t t' h1 h2 h3 _ => h k j hj t t' h1 h2 h3

/-- It is so with the check of the expiry time that the JWT library makes. -/
theorem Federation.steady_notExpired {C : Crypto} (hC : ∀ t j, C.current t j = notExpired t j) {P : Params} (hP : 0 ≤ P.delta) (F : Federation) (now : Int) : F.Steady C P now := by
  intro k j _ t t' _ _ _ hf
  rw [hC]
  unfold freshAt at hf
  unfold notExpired
  split at hf
  · rename_i x hx
    rw [hx]
    simp only [decide_eq_true_eq] at hf ⊢
    omega
  · cases hf

/-- The caches agree with what the federation publishes, at time `t`, apart from configurations that are not valid for longer than the allowed delta. -/
structure Aging (C : Crypto) (P : Params) (F : Federation) (t : Int) (st : State) : Prop where
  config : ∀ k c, st.config.get? k = some c → publishedConfig C F t k = some c.jws ∨ ((∃ t0, publishedConfig C F t0 k = some c.jws) ∧ freshAt P t c.jws = false)
  stmt : ∀ a e, Plain a → Plain e → ∀ v, st.es.get? (cacheKey a e) = some v → ∃ j j0 ep w, v = .stmt j ∧
    F.config a = .ok (some j0) ∧ getFetchEndpoint j0.payload = .ok ep ∧ usableEndpoint ep = some w ∧
    F.fetch w a e = .ok (some j) ∧ st.es.get? (timeKey a e) = j.payload.exp.map .time ∧
    ((publishedConfig C F t a = some j0 ∧ st.config.get? a = some ⟨j0⟩) ∨ freshAt P t j0 = false)
  both : ∀ a e, Plain a → Plain e → st.es.get? (cacheKey a e) = none → st.es.get? (timeKey a e) = none

theorem Aging.from {C P F t st} (h : Aging C P F t st) {k : String} {c : Config} (hk : st.config.get? k = some c) : F.config k = .ok (some c.jws) := by
  rcases h.config k c hk with h1 | h1
  · exact (publishedConfig_iff.1 h1).1
  · obtain ⟨t0, h1⟩ := h1.1; exact (publishedConfig_iff.1 h1).1

theorem Coherent.aging {C P F t st} (h : Coherent C P F t st) : Aging C P F t st := by
  refine ⟨fun k c hk => Or.inl (h.config k c hk), fun a e ha he v hv => ?_, h.both⟩
  obtain ⟨j, j0, ep, w, h1, h2, h3, h4, h5, h6, h7⟩ := h.stmt a e ha he v hv
  exact ⟨j, j0, ep, w, h1, (publishedConfig_iff.1 h2).1, h3, h4, h5, h6, h7.imp (fun x => ⟨h2, x⟩) id⟩

theorem Federation.Steady.publishedConfig {F : Federation} {C P now t t' a j} (hl : F.Steady C P now) (ht : t ≤ t') (hn : t' ≤ now)
    (h : publishedConfig C F t a = some j) (hf : freshAt P t' j = true) : publishedConfig C F t' a = some j := by
  rw [publishedConfig_iff] at h ⊢
  refine ⟨h.1, ?_⟩
  have := fun hc => hl a j h.1 t t' ht hn hc hf
  have h2 := h.2
  unfold selfVerify at h2 ⊢
  split at h2
  · cases h2
  · split at h2
    · rename_i hc
      rw [Bool.and_eq_true] at hc
      rw [if_pos (by rw [Bool.and_eq_true]; exact ⟨hc.1, this hc.2⟩)]
    · cases h2

theorem Aging.later {C P F t t' now st} (h : Aging C P F t st) (hl : F.Steady C P now) (ht : t ≤ t') (hn : t' ≤ now) :
    Aging C P F t' st := by
  refine ⟨fun k c hc => ?_, fun a e ha he v hv => ?_, h.both⟩
  · rcases h.config k c hc with h1 | ⟨h1, h2⟩
    · cases hf : freshAt P t' c.jws with
      | true => exact Or.inl (hl.publishedConfig ht hn h1 hf)
      | false => exact Or.inr ⟨⟨t, h1⟩, rfl⟩
    · exact Or.inr ⟨h1, freshAt_mono ht h2⟩
  · obtain ⟨j, j0, ep, w, h1, h2, h3, h4, h5, h6, h7⟩ := h.stmt a e ha he v hv
    refine ⟨j, j0, ep, w, h1, h2, h3, h4, h5, h6, ?_⟩
    rcases h7 with ⟨h7, h8⟩ | h7
    · cases hf : freshAt P t' j0 with
      | true => exact Or.inl ⟨hl.publishedConfig ht hn h7 hf, h8⟩
      | false => exact Or.inr rfl
    · exact Or.inr (freshAt_mono ht h7)

theorem Aging.empty (C P F t) : Aging C P F t {} := (Coherent.empty C P F t).aging

theorem Aging.setConfig {C P F t st} (h : Aging C P F t st) {k : String} {j : Jws} (hj : publishedConfig C F t k = some j) :
    Aging C P F t { st with config := st.config.set k ⟨j⟩ } := by
  refine ⟨fun q c hq => ?_, fun a e ha he v hv => ?_, h.both⟩
  · rw [Dict.get?_set] at hq
    split at hq
    · rename_i e; subst e; cases hq; exact Or.inl hj
    · exact h.config q c hq
  · obtain ⟨j', j0, ep, w, h1, h2, h3, h4, h5, h6, h7⟩ := h.stmt a e ha he v hv
    refine ⟨j', j0, ep, w, h1, h2, h3, h4, h5, h6, ?_⟩
    rcases h7 with ⟨h7, h8⟩ | h7
    · left
      refine ⟨h7, ?_⟩
      rw [Dict.get?_set]
      split
      · rename_i e; subst e; rw [hj] at h7; cases h7; rfl
      · exact h8
    · exact Or.inr h7

theorem Aging.dropConfig {C P F t st} (h : Aging C P F t st) {k : String}
    (hj : ∀ j, F.config k = .ok (some j) → freshAt P t j = false) :
    Aging C P F t { st with config := drop st.config k } := by
  refine ⟨fun q c hq => ?_, fun a e ha he v hv => ?_, h.both⟩
  · rw [get?_drop] at hq
    split at hq
    · cases hq
    · exact h.config q c hq
  · obtain ⟨j', j0, ep, w, h1, h2, h3, h4, h5, h6, h7⟩ := h.stmt a e ha he v hv
    refine ⟨j', j0, ep, w, h1, h2, h3, h4, h5, h6, ?_⟩
    by_cases hk : k = a
    · subst hk; exact Or.inr (hj _ h2)
    · rcases h7 with ⟨h7, h8⟩ | h7
      · left; rw [get?_drop, if_neg hk]; exact ⟨h7, h8⟩
      · exact Or.inr h7

theorem Aging.without {C P F t st} (h : Aging C P F t st) (a e : String) (ha : Plain a) (he : Plain e) :
    Aging C P F t (st.without a e) := by
  have other : ∀ a' e', Plain a' → Plain e' → ¬ (a = a' ∧ e = e') →
      (st.without a e).es.get? (cacheKey a' e') = st.es.get? (cacheKey a' e') ∧
      (st.without a e).es.get? (timeKey a' e') = st.es.get? (timeKey a' e') := by
    intro a' e' ha' he' hne
    simp only [State.without, get?_drop]
    rw [if_neg (fun h => not_plain_timeKey_cacheKey ha he h), if_neg (fun h => hne (cacheKey_inj ha he h)),
      if_neg (fun h => hne (timeKey_inj ha he h)), if_neg (fun h => not_plain_cacheKey_timeKey ha he h)]
    exact ⟨rfl, rfl⟩
  have same1 : (st.without a e).es.get? (cacheKey a e) = none := by
    simp only [State.without, get?_drop]; split <;> simp
  have same2 : (st.without a e).es.get? (timeKey a e) = none := by simp [State.without, get?_drop]
  refine ⟨h.config, fun a' e' ha' he' v hv => ?_, fun a' e' ha' he' hv => ?_⟩
  · by_cases hp : a = a' ∧ e = e'
    · obtain ⟨rfl, rfl⟩ := hp; rw [same1] at hv; cases hv
    · obtain ⟨o1, o2⟩ := other a' e' ha' he' hp
      rw [o1] at hv
      obtain ⟨j', j0, ep, w, h1, h2, h3, h4, h5, h6, h7⟩ := h.stmt a' e' ha' he' v hv
      exact ⟨j', j0, ep, w, h1, h2, h3, h4, h5, by rw [o2]; exact h6, h7⟩
  · by_cases hp : a = a' ∧ e = e'
    · obtain ⟨rfl, rfl⟩ := hp; exact same2
    · obtain ⟨o1, o2⟩ := other a' e' ha' he' hp
      rw [o1] at hv; rw [o2]; exact h.both a' e' ha' he' hv

/-- The lookup in such caches. -/
theorem Aging.subscript {C P F t st} (h : Aging C P F t st) (hd : F.Dated) (a : String) :
    (∃ j, st.config.get? a = some ⟨j⟩ ∧ publishedConfig C F t a = some j ∧ freshAt P t j = true ∧
      Collect.subscript P.delta t st.config a = (.ok (some ⟨j⟩), st.config)) ∨
    (∃ db, Collect.subscript P.delta t st.config a = (.ok none, db) ∧ Aging C P F t { st with config := db } ∧
      (st.config.get? a = none ∨ ∃ j, F.config a = .ok (some j) ∧ freshAt P t j = false)) := by
  rcases subscript_config P.delta t st.config a with ⟨c, e, h1, h2, h3, h4⟩ | ⟨c, e, h1, h2, h3, h4⟩ | ⟨c, h1, h2, h4⟩ | ⟨h1, h4⟩
  · left
    have hf : freshAt P t c.jws = true := by rw [freshAt_of h2]; simpa using h3
    rcases h.config _ _ h1 with hp | ⟨-, hp⟩
    · exact ⟨c.jws, h1, hp, hf, h4⟩
    · rw [hf] at hp; cases hp
  · right
    have hp := h.from h1
    have hf : freshAt P t c.jws = false := by rw [freshAt_of h2]; simpa using h3
    exact ⟨_, h4, h.dropConfig fun j hj => by rw [hp] at hj; cases hj; exact hf, Or.inr ⟨_, hp, hf⟩⟩
  · obtain ⟨x, hx⟩ := hd a c.jws (h.from h1)
    rw [hx] at h2; cases h2
  · right
    exact ⟨_, h4, h, Or.inl h1⟩

theorem refreshConfig_aging {C P F t st} (h : Aging C P F t st) (a : String) :
    Aging C P F t (refreshConfig C (F.at t) st a).2 ∧ (refreshConfig C (F.at t) st a).2.es = st.es ∧
    ((∃ j ep, publishedConfig C F t a = some j ∧ getFetchEndpoint j.payload = .ok ep ∧
        (refreshConfig C (F.at t) st a).1 = .ok ep ∧ (refreshConfig C (F.at t) st a).2.config.get? a = some ⟨j⟩) ∨
     ((∃ x, (refreshConfig C (F.at t) st a).1 = .error x) ∧
        ∀ j, publishedConfig C F t a = some j → ∃ x, getFetchEndpoint j.payload = .error x)) := by
  unfold refreshConfig
  have hc : (F.at t).config a = F.config a := rfl
  rw [hc]
  split
  · rename_i e he
    refine ⟨h, rfl, Or.inr ⟨⟨_, rfl⟩, fun j hj => ?_⟩⟩
    rw [publishedConfig_iff, he] at hj; cases hj.1
  · rename_i he
    refine ⟨h, rfl, Or.inr ⟨⟨_, rfl⟩, fun j hj => ?_⟩⟩
    rw [publishedConfig_iff, he] at hj; cases hj.1
  · rename_i j hj
    split
    · rename_i x hx
      refine ⟨h, rfl, Or.inr ⟨⟨_, rfl⟩, fun j' hj' => ?_⟩⟩
      rw [publishedConfig_iff, hj] at hj'
      obtain ⟨e, h2⟩ := hj'
      cases e
      rw [show selfVerify C t j = .error x from hx] at h2; cases h2
    · rename_i p hp
      have := selfVerify_payload hp
      subst this
      have hpub : publishedConfig C F t a = some j := publishedConfig_iff.2 ⟨hj, hp⟩
      split
      · rename_i x hx
        refine ⟨h, rfl, Or.inr ⟨⟨_, rfl⟩, fun j' hj' => ?_⟩⟩
        rw [hpub] at hj'; cases hj'; exact ⟨_, hx⟩
      · rename_i ep hep
        exact ⟨h.setConfig hpub, rfl, Or.inl ⟨j, ep, hpub, hep, rfl, by simp⟩⟩

theorem fetchEndpoint_aging {C P F t st} (h : Aging C P F t st) (hd : F.Dated) (a : String) :
    Aging C P F t (fetchEndpoint C P (F.at t) st a).2 ∧ (fetchEndpoint C P (F.at t) st a).2.es = st.es ∧
    ((∃ j ep, publishedConfig C F t a = some j ∧ getFetchEndpoint j.payload = .ok ep ∧
        (fetchEndpoint C P (F.at t) st a).1 = .ok ep ∧ (fetchEndpoint C P (F.at t) st a).2.config.get? a = some ⟨j⟩) ∨
     ((∃ x, (fetchEndpoint C P (F.at t) st a).1 = .error x) ∧
        ∀ j, publishedConfig C F t a = some j → ∃ x, getFetchEndpoint j.payload = .error x)) := by
  unfold fetchEndpoint
  have hnow : (F.at t).now = t := rfl
  rw [hnow]
  rcases h.subscript hd a with ⟨j, h1, h2, h3, h4⟩ | ⟨db, h4, h5, h6⟩
  · rw [h4]
    simp only
    split
    · rename_i x hx
      exact ⟨h, rfl, Or.inr ⟨⟨_, rfl⟩, fun j' hj' => by rw [h2] at hj'; cases hj'; exact ⟨_, hx⟩⟩⟩
    · rename_i ep hep
      split
      · exact ⟨h, rfl, Or.inl ⟨j, ep, h2, hep, rfl, h1⟩⟩
      · exact refreshConfig_aging h a
  · rw [h4]
    exact refreshConfig_aging h5 a

/-- Fetching a statement gives what is published, and keeps the caches so. -/
theorem fetchStatement_aging {C P F t st} (h : Aging C P F t st) (hd : F.Dated) (e a : String) (he : Plain e) (ha : Plain a)
    (hnone : st.es.get? (cacheKey a e) = none) :
    Aging C P F t (fetchStatement C P (F.at t) st e a).2 ∧
    (fetchStatement C P (F.at t) st e a).1.toOption = publishedStatement C F t a e ∧
    ∀ s, (fetchStatement C P (F.at t) st e a).1 = .ok (some s) →
      ∃ j, publishedConfig C F t a = some j ∧ (fetchStatement C P (F.at t) st e a).2.config.get? a = some ⟨j⟩ := by
  unfold fetchStatement
  have hE := fetchEndpoint_aging h hd a
  generalize fetchEndpoint C P (F.at t) st a = r at hE
  obtain ⟨r1, st1⟩ := r
  obtain ⟨hC, hes, hE⟩ := hE
  simp only at hC hes hE
  have hnone1 : st1.es.get? (cacheKey a e) = none := by rw [hes]; exact hnone
  rcases hE with ⟨j, ep, hj, hep, rfl, hcf⟩ | ⟨⟨x, rfl⟩, hx⟩
  · unfold publishedStatement
    simp only [hj, hep]
    cases hu : usableEndpoint ep with
    | none => exact ⟨hC, rfl, by simp⟩
    | some w =>
      simp only
      have hf : (F.at t).fetch w a e = F.fetch w a e := rfl
      rw [hf]
      cases hfe : F.fetch w a e with
      | error x => exact ⟨hC, rfl, by simp⟩
      | ok d =>
        cases d with
        | none => exact ⟨hC, rfl, by simp⟩
        | some s =>
          simp only
          have other : ∀ (v1 v2 : ESVal) a' e', Plain a' → Plain e' → ¬ (a = a' ∧ e = e') →
              Dict.get? (Dict.set st1.es (cacheKey a e) v1) (cacheKey a' e') = st1.es.get? (cacheKey a' e') ∧
              Dict.get? (Dict.set st1.es (cacheKey a e) v1) (timeKey a' e') = st1.es.get? (timeKey a' e') ∧
              Dict.get? (Dict.set (Dict.set st1.es (cacheKey a e) v1) (timeKey a e) v2) (cacheKey a' e') = st1.es.get? (cacheKey a' e') ∧
              Dict.get? (Dict.set (Dict.set st1.es (cacheKey a e) v1) (timeKey a e) v2) (timeKey a' e') = st1.es.get? (timeKey a' e') := by
            intro v1 v2 a' e' ha' he' hne
            rw [Dict.get?_set_ne _ v2 (fun h => not_plain_timeKey_cacheKey ha he h), Dict.get?_set_ne _ v2 (fun h => hne (timeKey_inj ha he h)),
              Dict.get?_set_ne _ v1 (fun h => hne (cacheKey_inj ha he h)), Dict.get?_set_ne _ v1 (fun h => not_plain_cacheKey_timeKey ha he h)]
            exact ⟨rfl, rfl, rfl, rfl⟩
          cases hx : s.payload.exp with
          | none =>
            refine ⟨⟨hC.config, fun a' e' ha' he' v hv => ?_, fun a' e' ha' he' hv => ?_⟩, by simp [Except.toOption], by simp⟩
            · by_cases hp : a = a' ∧ e = e'
              · obtain ⟨rfl, rfl⟩ := hp
                rw [Dict.get?_set_self] at hv
                cases hv
                refine ⟨s, j, ep, w, rfl, (publishedConfig_iff.1 hj).1, hep, hu, hfe, ?_, Or.inl ⟨hj, hcf⟩⟩
                rw [Dict.get?_set_ne _ _ (cacheKey_ne_timeKey _ _), hx]
                exact hC.both a e ha he hnone1
              · obtain ⟨o1, o2, -⟩ := other (.stmt s) (.time 0) a' e' ha' he' hp
                simp only [o1, o2] at hv ⊢
                exact hC.stmt a' e' ha' he' v hv
            · by_cases hp : a = a' ∧ e = e'
              · obtain ⟨rfl, rfl⟩ := hp
                rw [Dict.get?_set_self] at hv; cases hv
              · obtain ⟨o1, o2, -⟩ := other (.stmt s) (.time 0) a' e' ha' he' hp
                simp only [o1, o2] at hv ⊢
                exact hC.both a' e' ha' he' hv
          | some x =>
            refine ⟨⟨hC.config, fun a' e' ha' he' v hv => ?_, fun a' e' ha' he' hv => ?_⟩, by simp [Except.toOption], fun s' hs' => ⟨j, rfl, hcf⟩⟩
            · by_cases hp : a = a' ∧ e = e'
              · obtain ⟨rfl, rfl⟩ := hp
                rw [Dict.get?_set_ne _ _ (cacheKey_ne_timeKey _ _).symm, Dict.get?_set_self] at hv
                cases hv
                refine ⟨s, j, ep, w, rfl, (publishedConfig_iff.1 hj).1, hep, hu, hfe, ?_, Or.inl ⟨hj, hcf⟩⟩
                rw [Dict.get?_set_self, hx]; rfl
              · obtain ⟨-, -, o1, o2⟩ := other (.stmt s) (.time x) a' e' ha' he' hp
                simp only [o1, o2] at hv ⊢
                exact hC.stmt a' e' ha' he' v hv
            · by_cases hp : a = a' ∧ e = e'
              · obtain ⟨rfl, rfl⟩ := hp
                rw [Dict.get?_set_ne _ _ (cacheKey_ne_timeKey _ _).symm, Dict.get?_set_self] at hv; cases hv
              · obtain ⟨-, -, o1, o2⟩ := other (.stmt s) (.time x) a' e' ha' he' hp
                simp only [o1, o2] at hv ⊢
                exact hC.both a' e' ha' he' hv
  · refine ⟨hC, ?_, by simp⟩
    unfold publishedStatement
    cases hj : publishedConfig C F t a with
    | none => rfl
    | some j => obtain ⟨y, hy⟩ := hx j hj; simp [hy, Except.toOption]

/-- Looking one up in the caches gives what is published too, unless the configuration of the authority is about to expire. -/
theorem getStatement_aging {C P F t st} (h : Aging C P F t st) (hd : F.Dated) (e a : String) (he : Plain e) (ha : Plain a) :
    Aging C P F t (getStatement C P (F.at t) st e a).2 ∧
    (((getStatement C P (F.at t) st e a).1.toOption = publishedStatement C F t a e ∧
      ∀ s, (getStatement C P (F.at t) st e a).1 = .ok (some s) →
        ∃ j, publishedConfig C F t a = some j ∧
          ((getStatement C P (F.at t) st e a).2.config.get? a = some ⟨j⟩ ∨ freshAt P t j = false)) ∨
     ((∃ s, (getStatement C P (F.at t) st e a).1 = .ok (some s)) ∧ publishedStatement C F t a e ≠ some none ∧ ∃ j, F.config a = .ok (some j) ∧ freshAt P t j = false)) := by
  have fetched : ∀ st, Aging C P F t st → st.es.get? (cacheKey a e) = none →
      Aging C P F t (fetchStatement C P (F.at t) st e a).2 ∧
      (((fetchStatement C P (F.at t) st e a).1.toOption = publishedStatement C F t a e ∧
        ∀ s, (fetchStatement C P (F.at t) st e a).1 = .ok (some s) →
          ∃ j, publishedConfig C F t a = some j ∧
            ((fetchStatement C P (F.at t) st e a).2.config.get? a = some ⟨j⟩ ∨ freshAt P t j = false)) ∨
       ((∃ s, (fetchStatement C P (F.at t) st e a).1 = .ok (some s)) ∧ publishedStatement C F t a e ≠ some none ∧ ∃ j, F.config a = .ok (some j) ∧ freshAt P t j = false)) := by
    intro st h hn
    obtain ⟨h1, h2, h3⟩ := fetchStatement_aging h hd e a he ha hn
    exact ⟨h1, Or.inl ⟨h2, fun s hs => by obtain ⟨j, h4, h5⟩ := h3 s hs; exact ⟨j, h4, Or.inl h5⟩⟩⟩
  unfold getStatement
  split
  · rename_i hn; exact fetched st h hn
  · rename_i x hv
    obtain ⟨j, j0, ep, w, h1, -⟩ := h.stmt a e ha he _ hv
    cases h1
  · rename_i j' hv
    obtain ⟨j, j0, ep, w, h1, h2, h3, h4, h5, h6, h7⟩ := h.stmt a e ha he _ hv
    cases h1
    have hpub : publishedStatement C F t a e = if (publishedConfig C F t a).isSome ∧ j'.payload.exp.isSome then some (some j') else none := by
      unfold publishedStatement
      cases hp : publishedConfig C F t a with
      | none => simp
      | some j1 =>
        have : j1 = j0 := by
          have := (publishedConfig_iff.1 hp).1
          rw [h2] at this
          cases this; rfl
        subst this
        simp [h3, h4, h5]
    rw [h6]
    cases hx : j'.payload.exp with
    | none =>
      rw [hpub, hx]
      exact ⟨h, Or.inl ⟨by simp [Except.toOption], by simp⟩⟩
    | some x =>
      simp only [Option.map]
      split
      · exact fetched _ (h.without a e ha he) (by simp only [get?_drop]; split <;> simp)
      · rcases h7 with ⟨h7, h8⟩ | h7
        · refine ⟨h, Or.inl ⟨?_, fun s hs => ⟨j0, h7, Or.inl h8⟩⟩⟩
          rw [hpub, hx, h7]; rfl
        · refine ⟨h, Or.inr ⟨⟨_, rfl⟩, ?_, j0, h2, h7⟩⟩
          rw [hpub]
          split
          · intro h; cases h
          · intro h; cases h

theorem collectTree_aging {C P F t} (hd : F.Dated) (hpl : F.PlainHints) (stopAt : String) :
    ∀ n st e p, Aging C P F t st → Plain e → (∀ hs, p.hints = some hs → ∀ a ∈ hs, Plain a) →
      Aging C P F t (collectTree C P (F.at t) stopAt n st e (some p)).2 ∧
      (collectTree C P (F.at t) stopAt n st e (some p)).1.toOption = idealTree C P F t stopAt n e p
  | 0, st, e, p, h, _, _ => ⟨h, rfl⟩
  | n + 1, st, e, p, h, he, hp => by
      unfold collectTree idealTree
      cases hh : p.hints with
      | none => exact ⟨h, rfl⟩
      | some hs =>
        simp only
        by_cases hst : p.iss = stopAt
        · simp only [hst, if_true]; exact ⟨h, rfl⟩
        · simp only [hst, if_false]
          refine overHints_ideal hs _ _ h fun st a hmem hI => ?_
          have ha := hp hs hh a hmem
          unfold collectBranch idealBranch
          by_cases hc : e = a ∧ e ∈ P.anchors
          · rw [if_pos hc, if_pos hc]; exact ⟨hI, rfl⟩
          · rw [if_neg hc, if_neg hc]
            have hS := getStatement_aging hI hd e a he ha
            generalize getStatement C P (F.at t) st e a = r at hS
            obtain ⟨r1, st1⟩ := r
            obtain ⟨hC, hS⟩ := hS
            simp only at hC hS
            have hnow : (F.at t).now = t := rfl
            rcases hS with ⟨hT, hcf⟩ | ⟨⟨s, hs1⟩, hne, j, hj, hff⟩
            · rw [← hT]
              cases r1 with
              | error x => exact ⟨hC, rfl⟩
              | ok o =>
                cases o with
                | none => exact ⟨hC, rfl⟩
                | some s =>
                  obtain ⟨j, hj, hcf⟩ := hcf s rfl
                  simp only [Except.toOption, hj]
                  rw [hnow]
                  rcases hC.subscript hd a with ⟨j', h1, h2, h3, h4⟩ | ⟨db, h4, h5, h6⟩
                  · rw [hj] at h2; cases h2
                    rw [h4]
                    simp only [h3, if_true, Option.map]
                    have ih := collectTree_aging hd hpl stopAt n st1 a j.payload hC ha
                      (fun hs' hh' => hpl a j hs' (publishedConfig_iff.1 hj).1 hh')
                    have : ({ st1 with config := st1.config } : State) = st1 := rfl
                    rw [this]
                    generalize collectTree C P (F.at t) stopAt n st1 a (some j.payload) = r at ih
                    obtain ⟨r1, st2⟩ := r
                    obtain ⟨i1, i2⟩ := ih
                    cases r1 with
                    | error x => exact ⟨i1, by rw [← i2]; rfl⟩
                    | ok f => exact ⟨i1, by rw [← i2]; rfl⟩
                  · have hff : freshAt P t j = false := by
                      rcases h6 with h6 | ⟨j', h6, h7⟩
                      · rcases hcf with hcf | hcf
                        · rw [h6] at hcf; cases hcf
                        · exact hcf
                      · rw [(publishedConfig_iff.1 hj).1] at h6; cases h6; exact h7
                    rw [h4]
                    simp only [hff, Option.map]
                    cases n with
                    | zero => exact ⟨h5, rfl⟩
                    | succ n => exact ⟨h5, rfl⟩
            · subst hs1
              have hnone : (match publishedStatement C F t a e with
                  | none => none
                  | some none => some none
                  | some (some s) =>
                    match publishedConfig C F t a with
                    | none => none
                    | some j => if freshAt P t j then (idealTree C P F t stopAt n a j.payload).map fun f => some (s, f) else none : Option Branch) = none := by
                cases hps : publishedStatement C F t a e with
                | none => rfl
                | some o =>
                  cases o with
                  | none => exact absurd hps hne
                  | some s' =>
                    simp only
                    cases hpc : publishedConfig C F t a with
                    | none => rfl
                    | some j' =>
                      have := (publishedConfig_iff.1 hpc).1
                      rw [hj] at this
                      cases this
                      simp [hff]
              refine And.imp id (fun hn => Eq.trans hn hnone.symm) ?_
              rw [hnow]
              rcases hC.subscript hd a with ⟨j', h1, h2, h3, h4⟩ | ⟨db, h4, h5, h6⟩
              · have := (publishedConfig_iff.1 h2).1
                rw [hj] at this
                cases this
                rw [hff] at h3; cases h3
              · simp only
                rw [h4]
                cases n with
                | zero => exact ⟨h5, rfl⟩
                | succ n => exact ⟨h5, rfl⟩

theorem collect_aging {C P F t st} (h : Aging C P F t st) (hd : F.Dated) (hpl : F.PlainHints) (n : Nat) (entity stopAt : String)
    (he : Plain entity) :
    Aging C P F t (collect C P (F.at t) n st entity stopAt).2 ∧
    ((∀ j x, F.config entity = .ok (some j) → j.payload.exp = some x → C.current t j = true ∨ x + P.delta ≤ t) →
      (collect C P (F.at t) n st entity stopAt).1.toOption = idealCollect C P F t n entity stopAt) := by
  have fin : ∀ st j, Aging C P F t st → F.config entity = .ok (some j) →
      Aging C P F t (match collectTree C P (F.at t) stopAt n st entity (some j.payload) with
        | (Except.error e, st) => ((Except.error e : Except PyErr (Forest Jws × Jws)), st)
        | (Except.ok f, st) => (Except.ok (f, j), st)).2 ∧
      (publishedConfig C F t entity = some j → (match collectTree C P (F.at t) stopAt n st entity (some j.payload) with
        | (Except.error e, st) => ((Except.error e : Except PyErr (Forest Jws × Jws)), st)
        | (Except.ok f, st) => (Except.ok (f, j), st)).1.toOption = idealCollect C P F t n entity stopAt) := by
    intro st j hC hj0
    have := collectTree_aging hd hpl stopAt n st entity j.payload hC he
      (fun hs hh => hpl entity j hs hj0 hh)
    refine ⟨?_, fun hj => ?_⟩
    · generalize collectTree C P (F.at t) stopAt n st entity (some j.payload) = r at this
      obtain ⟨r1, st2⟩ := r
      obtain ⟨i1, i2⟩ := this
      cases r1 <;> exact i1
    · unfold idealCollect
      rw [hj]
      generalize collectTree C P (F.at t) stopAt n st entity (some j.payload) = r at this
      obtain ⟨r1, st2⟩ := r
      obtain ⟨i1, i2⟩ := this
      cases r1 with
      | error x => simp only at i2 ⊢; rw [← i2]; rfl
      | ok f => simp only at i2 ⊢; rw [← i2]; rfl
  unfold collect
  simp only
  split
  · rename_i x hx
    exfalso
    split at hx
    · cases hx
    · rename_i c hc
      obtain ⟨y, hy⟩ := hd entity c.jws (h.from hc)
      simp only [tooOld, hy] at hx
      split at hx
      · rename_i h; cases h
      · cases hx
      · cases hx
  · rename_i c hc
    obtain ⟨hcfg, hnot⟩ : st.config.get? entity = some c ∧ tooOld P (F.at t) c = .ok false := by
      split at hc
      · cases hc
      · rename_i c' hc'
        split at hc <;> cases hc
        exact ⟨hc', by assumption⟩
    have hf := fin st c.jws h (h.from hcfg)
    refine ⟨hf.1, fun hs => hf.2 ?_⟩
    rcases h.config _ _ hcfg with h1 | ⟨⟨t0, h1⟩, -⟩
    · exact h1
    · obtain ⟨x, hx⟩ := hd entity c.jws (h.from hcfg)
      rcases hs c.jws x (h.from hcfg) hx with h2 | h2
      · rw [publishedConfig_iff] at h1 ⊢
        refine ⟨h1.1, ?_⟩
        have h3 := h1.2
        unfold selfVerify at h3 ⊢
        split at h3
        · cases h3
        · split at h3
          · rename_i hk
            rw [Bool.and_eq_true] at hk
            rw [if_pos (by rw [Bool.and_eq_true]; exact ⟨hk.1, h2⟩)]
          · cases h3
      · simp only [tooOld, hx, Except.ok.injEq, decide_eq_false_iff_not] at hnot
        exact absurd h2 hnot
  · have hcfg : (F.at t).config entity = F.config entity := rfl
    rw [hcfg]
    split
    · rename_i x hx
      refine ⟨h, fun _ => ?_⟩
      have : publishedConfig C F t entity = none := by unfold publishedConfig; rw [hx]
      simp [idealCollect, this, Except.toOption]
    · rename_i hx
      refine ⟨h, fun _ => ?_⟩
      have : publishedConfig C F t entity = none := by unfold publishedConfig; rw [hx]
      simp [idealCollect, this, Except.toOption]
    · rename_i j hj
      split
      · rename_i x hx
        refine ⟨h, fun _ => ?_⟩
        have : publishedConfig C F t entity = none := by
          unfold publishedConfig
          rw [hj]
          simp [show selfVerify C t j = .error x from hx]
        simp [idealCollect, this, Except.toOption]
      · rename_i p hp
        have := selfVerify_payload hp
        subst this
        have hpub : publishedConfig C F t entity = some j := publishedConfig_iff.2 ⟨hj, hp⟩
        exact ⟨(fin _ j (h.setConfig hpub) hj).1, fun _ => (fin _ j (h.setConfig hpub) hj).2 hpub⟩

/-- All published configurations are current. -/
def Federation.InForce (F : Federation) (C : Crypto) (now : Int) : Prop := ∀ k j, F.config k = .ok (some j) → C.current now j = true

/-- No published configuration that is not accepted any more has expired less than the allowed delta ago. -/
def Federation.Clear (F : Federation) (C : Crypto) (P : Params) (now : Int) : Prop :=
  ∀ k j x, F.config k = .ok (some j) → j.payload.exp = some x → C.current now j = true ∨ x + P.delta ≤ now

theorem Federation.InForce.clear {F : Federation} {C : Crypto} {now : Int} (h : F.InForce C now) (P : Params) : F.Clear C P now := fun k j _ hj _ => Or.inl (h k j hj)

theorem runAll_aging {C P F} (hd : F.Dated) (hpl : F.PlainHints) (h : List FRun) (t : Int) (hl : F.Steady C P t)
    (ho : h.Pairwise fun a b => a.time ≤ b.time) (ht : ∀ r ∈ h, r.time ≤ t) (hp : ∀ r ∈ h, Plain r.entity) :
    Aging C P F t (runAll C P (h.map (FRun.run F))) := by
  have : ∀ (h : List FRun) st t0, Aging C P F t0 st → (h.Pairwise fun a b => a.time ≤ b.time) → (∀ r ∈ h, r.time ≤ t) →
      (∀ r ∈ h, t0 ≤ r.time) → t0 ≤ t → (∀ r ∈ h, Plain r.entity) →
      Aging C P F t ((h.map (FRun.run F)).foldl (fun st r => (collect C P r.world r.fuel st r.entity r.stopAt).2) st) := by
    intro h
    induction h with
    | nil => intro st t0 hc _ _ _ h0 _; exact hc.later hl h0 (Int.le_refl _)
    | cons r h ih =>
      intro st t0 hc ho ht h1 h0 hp
      rw [List.pairwise_cons] at ho
      refine ih _ r.time ?_ ho.2 (fun x hx => ht x (by simp [hx])) ho.1 (ht r (by simp)) (fun x hx => hp x (by simp [hx]))
      exact (collect_aging (hc.later hl (h1 r (by simp)) (ht r (by simp))) hd hpl _ _ _ (hp r (by simp))).1
  cases h with
  | nil => exact Aging.empty _ _ _ _
  | cons r h =>
    refine this (r :: h) {} r.time (Aging.empty _ _ _ _) ho ht ?_ (ht r (by simp)) hp
    intro x hx
    rcases List.mem_cons.1 hx with rfl | hx
    · exact Int.le_refl _
    · exact (List.pairwise_cons.1 ho).1 x hx

/-! ## C70 -/

/-- C70 in a federation that publishes the same documents all the time, which may expire: after any history of collections, at times that do not go backwards, a collection gives what it gives with empty caches and what
the federation publishes, unless the configuration of the entity itself has expired less than the allowed delta ago. Missing: documents that are issued anew. -/
theorem C70_passing_partial (C : Crypto) (P : Params) (F : Federation) (hd : F.Dated) (hpl : F.PlainHints) (h : List FRun) (ho : h.Pairwise fun a b => a.time ≤ b.time) (now : Int) (ht : ∀ r ∈ h, r.time ≤ now)
    (hl : F.Steady C P now) (hp : ∀ r ∈ h, Plain r.entity) (fuel : Nat) (entity stopAt : String) (he : Plain entity)
    (hs : ∀ j x, F.config entity = .ok (some j) → j.payload.exp = some x → C.current now j = true ∨ x + P.delta ≤ now) :
    (collect C P (F.at now) fuel (runAll C P (h.map (FRun.run F))) entity stopAt).1.toOption = (collect C P (F.at now) fuel {} entity stopAt).1.toOption ∧
    (collect C P (F.at now) fuel {} entity stopAt).1.toOption = idealCollect C P F now fuel entity stopAt := by
  have h1 := (collect_aging (runAll_aging hd hpl h now hl ho ht hp) hd hpl fuel entity stopAt he).2 hs
  have h2 := (collect_aging (Aging.empty C P F now) hd hpl fuel entity stopAt he).2 hs
  exact ⟨h1.trans h2.symm, h2⟩

namespace Ex70
/-- The case of it: the documents of the federation expire at 10000, nothing is collected at 9800 from a process that has collected `leaf` at 100 nor from one that has not, and both collect it at 9600. -/
example (t : Int) (ht : 100 ≤ t ∧ t < 10015) : (collect Ex31.C Ex31.P (F.at t) 10 (runAll Ex31.C Ex31.P ([(⟨100, 10, "leaf", ""⟩ : FRun)].map (FRun.run F))) "leaf" "").1.toOption = (collect Ex31.C Ex31.P (F.at t) 10 {} "leaf" "").1.toOption :=
  (C70_passing_partial Ex31.C Ex31.P F
    (by intro k j h; simp only [F, Ex31.world, Except.ok.injEq, Option.some.injEq] at h; subst h; exact ⟨10000, rfl⟩)
    (by intro k j hs h hh
        simp only [F, Ex31.world, Except.ok.injEq, Option.some.injEq] at h
        subst h
        simp only [Ex31.conf, Ex31.good] at hh
        split at hh <;> simp only [Option.some.injEq, reduceCtorEq] at hh <;> subst hh <;> decide)
    [⟨100, 10, "leaf", ""⟩] (List.pairwise_singleton _ _) t (by intro r hr; cases List.mem_singleton.1 hr; exact ht.1) (Federation.steady_notExpired (fun _ _ => rfl) (by decide) _ _)
    (by intro r hr; cases List.mem_singleton.1 hr; decide) 10 "leaf" "" (by decide)
    (by intro j x h hx
        simp only [F, Ex31.world, Except.ok.injEq, Option.some.injEq] at h
        subst h
        cases hx
        left
        show decide (t < 10000 + 15) = true
        simpa using ht.2)).1
example : (collect Ex31.C Ex31.P (F.at 9600) 10 {} "leaf" "").1.toOption.isSome = true ∧ (collect Ex31.C Ex31.P (F.at 9800) 10 {} "leaf" "").1.toOption.isSome = false := by decide +kernel
end Ex70

end Fed.Collect
