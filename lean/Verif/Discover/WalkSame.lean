import Verif.Discover.WalkKeys
import Verif.Collect.Transparency
import Verif.Chains.AtOnceProps
/-
C217: asking around does not disturb what is resolved.
-/
namespace Fed.Discover.Walk
open Fed Fed.Collect Fed.Collect.Mixed Fed.Verify Fed.Chains

/-! ### As long as the answers in the cache are fresh, the collector works as if it had found them itself. -/

/-- The configuration cache, without the difference between what was found and what was answered. -/
def er (cache : Cache) : Dict Config := cache.map fun p => (p.1, ⟨p.2.jws⟩)

def erase (st : Caches) : Collect.State := ⟨er st.cache, st.es⟩

theorem get?_er (cache : Cache) (q : String) : (er cache).get? q = (cache.get? q).map fun v => (⟨v.jws⟩ : Config) := by
  induction cache with
  | nil => rfl
  | cons p cache ih =>
    obtain ⟨k, v⟩ := p
    show Dict.get? ((k, (⟨v.jws⟩ : Config)) :: er cache) q = _
    rw [Dict.get?_cons, Dict.get?_cons, ih]
    split <;> rfl

theorem er_set (cache : Cache) (q : String) (v : Entry) : er (cache.set q v) = (er cache).set q ⟨v.jws⟩ := by
  induction cache with
  | nil => rfl
  | cons p cache ih =>
    obtain ⟨k, u⟩ := p
    show er (Dict.set ((k, u) :: cache) q v) = Dict.set ((k, (⟨u.jws⟩ : Config)) :: er cache) q ⟨v.jws⟩
    unfold Dict.set
    by_cases h : k = q
    · simp [h, er]
    · simp only [h, if_false]
      show (k, (⟨u.jws⟩ : Config)) :: er (Dict.set cache q v) = _
      rw [ih]

theorem er_drop (cache : Cache) (q : String) : er (drop cache q) = drop (er cache) q := by
  unfold er drop
  rw [List.filter_map]
  rfl

/-- The answers in the cache are not about to expire. -/
def Fresh (P : Params) (now : Int) (cache : Cache) : Prop := ∀ q j, cache.get? q = some (.answered j) → freshAt P now j = true

theorem freshAt_exp {P : Params} {now : Int} {j : Jws} (h : freshAt P now j = true) : ∃ x, j.payload.exp = some x ∧ now < x - P.delta := by
  unfold freshAt at h
  split at h
  · rename_i x hx
    exact ⟨x, hx, by simpa using h⟩
  · cases h

theorem subscript_er {P : Params} {now : Int} {cache : Cache} (hf : Fresh P now cache) (q : String) :
    subscript P.delta now (er cache) q = ((subscript P.delta now cache q).1.map (Option.map fun v => (⟨v.jws⟩ : Config)), er (subscript P.delta now cache q).2) := by
  unfold subscript
  rw [get?_er]
  cases hg : cache.get? q with
  | none => rfl
  | some v =>
    cases v with
    | fetched j =>
      simp only [Option.map_some, CacheVal.dictExp, Entry.jws]
      cases j.payload.exp with
      | none => rfl
      | some x =>
        simp only
        split
        · rfl
        · rw [er_drop]; rfl
    | answered j =>
      obtain ⟨x, hx, hlt⟩ := freshAt_exp (hf q j hg)
      simp only [Option.map_some, CacheVal.dictExp, Entry.jws, hx]
      rw [if_pos hlt]
      rfl

theorem Fresh.subscript {P : Params} {now : Int} {cache : Cache} (hf : Fresh P now cache) (delta now' : Int) (k : String) : Fresh P now (Collect.subscript delta now' cache k).2 :=
  fun q j hq => hf q j (sub_mono delta now' cache k q _ hq)

theorem refresh_er (C : Crypto) (W : World) (cache : Cache) (es : Dict ESVal) (a : String) :
    refreshConfig C W ⟨er cache, es⟩ a = ((refresh C W cache a).1, ⟨er (refresh C W cache a).2, es⟩) := by
  unfold refreshConfig refresh
  rcases W.config a with err | _ | j
  · rfl
  · rfl
  · simp only
    cases selfVerify C W.now j with
    | error err => rfl
    | ok p =>
      simp only
      cases getFetchEndpoint p with
      | error err => rfl
      | ok ep =>
        simp only [er_set]
        rfl

theorem endpoint_er {C : Crypto} {P : Params} {W : World} {cache : Cache} (hf : Fresh P W.now cache) (es : Dict ESVal) (a : String) :
    fetchEndpoint C P W ⟨er cache, es⟩ a = ((endpoint C P W cache a).1, ⟨er (endpoint C P W cache a).2, es⟩) := by
  unfold fetchEndpoint endpoint
  simp only [subscript_er hf a]
  generalize subscript P.delta W.now cache a = r
  obtain ⟨r, db⟩ := r
  rcases r with err | _ | v
  · rfl
  · exact refresh_er C W db es a
  · simp only [Except.map, Option.map_some]
    cases getFetchEndpoint v.jws.payload with
    | error err => rfl
    | ok ep =>
      simp only
      cases usableEndpoint ep with
      | none => exact refresh_er C W db es a
      | some _ => rfl

theorem Fresh.endpoint {C : Crypto} {P : Params} {W : World} {cache : Cache} {now : Int} (hf : Fresh P now cache) (a : String) : Fresh P now (Mixed.endpoint C P W cache a).2 := by
  intro q j hq
  rcases endpoint_get _ _ _ _ _ _ _ hq with h | ⟨-, j', -, h⟩
  · exact hf q j h
  · cases h

section
variable {S : Setup} {W : World}

theorem fetchStatement_er {st : Caches} (hf : Fresh S.P W.now st.cache) (e a : String) :
    Collect.fetchStatement S.L.toCrypto S.P W (erase st) e a = ((fetchStatement S W st e a).1, erase (fetchStatement S W st e a).2) ∧ Fresh S.P W.now (fetchStatement S W st e a).2.cache := by
  have h1 := endpoint_er (C := S.L.toCrypto) hf st.es a
  have h2 := hf.endpoint (C := S.L.toCrypto) (W := W) a
  unfold Collect.fetchStatement fetchStatement erase
  rw [h1]
  generalize endpoint S.L.toCrypto S.P W st.cache a = r at h2 ⊢
  obtain ⟨r, db⟩ := r
  simp only at h2
  cases r with
  | error err => exact ⟨rfl, h2⟩
  | ok ep =>
    simp only
    cases usableEndpoint ep with
    | none => exact ⟨rfl, h2⟩
    | some v =>
      simp only
      rcases W.fetch v a e with err | _ | j
      · exact ⟨rfl, h2⟩
      · exact ⟨rfl, h2⟩
      · simp only
        cases j.payload.exp with
        | none => exact ⟨rfl, h2⟩
        | some x => exact ⟨rfl, h2⟩

theorem getStatement_er {st : Caches} (hf : Fresh S.P W.now st.cache) (e a : String) :
    Collect.getStatement S.L.toCrypto S.P W (erase st) e a = ((getStatement S W st e a).1, erase (getStatement S W st e a).2) ∧ Fresh S.P W.now (getStatement S W st e a).2.cache := by
  unfold Collect.getStatement getStatement
  have he : (erase st).es = st.es := rfl
  rw [he]
  rcases hg : st.es.get? (cacheKey a e) with _ | v
  · exact fetchStatement_er hf e a
  · cases v with
    | time x => exact ⟨rfl, hf⟩
    | stmt j =>
      simp only
      rcases ht : st.es.get? (timeKey a e) with _ | v
      · exact ⟨rfl, hf⟩
      · cases v with
        | stmt j' => exact ⟨rfl, hf⟩
        | time x =>
          simp only
          by_cases hn : W.now > x - S.P.delta
          · rw [if_pos hn, if_pos hn]
            exact fetchStatement_er (st := { st with es := drop (drop st.es (cacheKey a e)) (timeKey a e) }) hf e a
          · rw [if_neg hn, if_neg hn]
            exact ⟨rfl, hf⟩

theorem overHints_er {bm : Caches → String → Except PyErr Branch × Caches} {bp : Collect.State → String → Except PyErr Branch × Collect.State}
    (hb : ∀ st a, Fresh S.P W.now st.cache → bp (erase st) a = ((bm st a).1, erase (bm st a).2) ∧ Fresh S.P W.now (bm st a).2.cache) :
    ∀ (hs : List String) (acc : Forest Jws) (st : Caches), Fresh S.P W.now st.cache →
      Collect.overHints bp hs acc (erase st) = ((overHints bm hs acc st).1, erase (overHints bm hs acc st).2) ∧ Fresh S.P W.now (overHints bm hs acc st).2.cache
  | [], acc, st, hf => ⟨rfl, hf⟩
  | a :: hs, acc, st, hf => by
    obtain ⟨h1, h2⟩ := hb st a hf
    unfold Collect.overHints overHints
    rw [h1]
    generalize bm st a = r at h2 ⊢
    obtain ⟨r, st1⟩ := r
    cases r with
    | error err => exact ⟨rfl, h2⟩
    | ok b => exact overHints_er hb hs _ st1 h2

theorem collectTree_er (stopAt : String) : ∀ (n : Nat) (st : Caches) (e : String) (p : Option Payload), Fresh S.P W.now st.cache →
    Collect.collectTree S.L.toCrypto S.P W stopAt n (erase st) e p = ((collectTree S W stopAt n st e p).1, erase (collectTree S W stopAt n st e p).2) ∧
    Fresh S.P W.now (collectTree S W stopAt n st e p).2.cache
  | 0, st, e, p, hf => ⟨rfl, hf⟩
  | n + 1, st, e, none, hf => ⟨rfl, hf⟩
  | n + 1, st, e, some cfg, hf => by
    unfold Collect.collectTree collectTree
    rcases cfg.hints with _ | hs
    · exact ⟨rfl, hf⟩
    · simp only
      by_cases hst : cfg.iss = stopAt
      · rw [if_pos hst, if_pos hst]
        exact ⟨rfl, hf⟩
      · rw [if_neg hst, if_neg hst]
        refine overHints_er ?_ hs .nil st hf
        intro st a hf
        unfold Collect.collectBranch collectBranch
        by_cases hea : e = a ∧ e ∈ S.P.anchors
        · rw [if_pos hea, if_pos hea]
          exact ⟨rfl, hf⟩
        · rw [if_neg hea, if_neg hea]
          obtain ⟨h1, h2⟩ := getStatement_er (S := S) hf e a
          rw [h1]
          generalize getStatement S W st e a = r at h2 ⊢
          obtain ⟨r, st1⟩ := r
          simp only at h2
          rcases r with err | _ | j
          · exact ⟨rfl, h2⟩
          · exact ⟨rfl, h2⟩
          · simp only
            have h3 := subscript_er h2 a
            have h4 := h2.subscript S.P.delta W.now a
            have he : (erase st1).config = er st1.cache := rfl
            rw [he, h3]
            generalize subscript S.P.delta W.now st1.cache a = r at h4 ⊢
            obtain ⟨r, db⟩ := r
            simp only at h4
            rcases r with err | c
            · exact ⟨rfl, h4⟩
            · simp only [Except.map]
              obtain ⟨h5, h6⟩ := collectTree_er stopAt n { st1 with cache := db } a (c.map (·.jws.payload)) h4
              have hc : Option.map (fun c : Config => c.jws.payload) (Option.map (fun v : Entry => (⟨v.jws⟩ : Config)) c) = c.map (·.jws.payload) := by
                cases c <;> rfl
              rw [hc]
              have he : ({ erase st1 with config := er db } : Collect.State) = erase { st1 with cache := db } := rfl
              rw [he, h5]
              generalize collectTree S W stopAt n { st1 with cache := db } a (c.map (·.jws.payload)) = r at h6 ⊢
              obtain ⟨r, st2⟩ := r
              cases r with
              | error err => exact ⟨rfl, h6⟩
              | ok f => exact ⟨rfl, h6⟩

/-- As long as the answers in the cache are fresh, the collector does what it does with a cache of configurations it has found itself. -/
theorem collect_er {st : Caches} (hf : Fresh S.P W.now st.cache) (e stopAt : String) (ha : S.attr = true) :
    Collect.collect S.L.toCrypto S.P W S.fuel (erase st) e stopAt = ((collect S W st e stopAt).1, erase (collect S W st e stopAt).2) := by
  have hs : ∀ c, signed S c = .ok c.jws := by
    intro c
    cases c with
    | fetched j => rfl
    | answered j => simp [signed, ha, Entry.jws]
  have fin : ∀ st j, Fresh S.P W.now st.cache → (match Collect.collectTree S.L.toCrypto S.P W stopAt S.fuel (erase st) e (some j.payload) with
        | (.error e, st) => ((.error e : Except PyErr (Forest Jws × Jws)), st)
        | (.ok f, st) => (.ok (f, j), st)) =
      ((match collectTree S W stopAt S.fuel st e (some j.payload) with
        | (.error e, st) => ((.error e : Except PyErr (Forest Jws × Jws)), st)
        | (.ok f, st) => (.ok (f, j), st)).1,
       erase (match collectTree S W stopAt S.fuel st e (some j.payload) with
        | (.error e, st) => ((.error e : Except PyErr (Forest Jws × Jws)), st)
        | (.ok f, st) => (.ok (f, j), st)).2) := by
    intro st j hf
    rw [(collectTree_er stopAt S.fuel st e (some j.payload) hf).1]
    generalize collectTree S W stopAt S.fuel st e (some j.payload) = r
    obtain ⟨r, st1⟩ := r
    cases r <;> rfl
  have found : (match W.config e with
      | .error x => ((.error x.toPy : Except PyErr (Forest Jws × Jws)), erase st)
      | .ok none => (.error .valueError, erase st)
      | .ok (some j) =>
        match selfVerify S.L.toCrypto W.now j with
        | .error x => (.error x, erase st)
        | .ok p =>
          match Collect.collectTree S.L.toCrypto S.P W stopAt S.fuel { erase st with config := (erase st).config.set e ⟨j⟩ } e (some p) with
          | (.error x, st) => (.error x, st)
          | (.ok f, st) => (.ok (f, j), st)) =
      ((match W.config e with
      | .error x => ((.error x.toPy : Except PyErr (Forest Jws × Jws)), st)
      | .ok none => (.error .valueError, st)
      | .ok (some j) =>
        match selfVerify S.L.toCrypto W.now j with
        | .error x => (.error x, st)
        | .ok p =>
          match collectTree S W stopAt S.fuel { st with cache := st.cache.set e (.fetched j) } e (some p) with
          | (.error x, st) => (.error x, st)
          | (.ok f, st) => (.ok (f, j), st)).1,
       erase (match W.config e with
      | .error x => ((.error x.toPy : Except PyErr (Forest Jws × Jws)), st)
      | .ok none => (.error .valueError, st)
      | .ok (some j) =>
        match selfVerify S.L.toCrypto W.now j with
        | .error x => (.error x, st)
        | .ok p =>
          match collectTree S W stopAt S.fuel { st with cache := st.cache.set e (.fetched j) } e (some p) with
          | (.error x, st) => (.error x, st)
          | (.ok f, st) => (.ok (f, j), st)).2) := by
    rcases W.config e with x | _ | j
    · rfl
    · rfl
    · simp only
      cases hv : selfVerify S.L.toCrypto W.now j with
      | error x => rfl
      | ok p =>
        have hp : p = j.payload := by
          unfold selfVerify at hv
          split at hv
          · cases hv
          · split at hv
            · exact (Except.ok.inj hv).symm
            · cases hv
        subst hp
        have he : ({ erase st with config := (erase st).config.set e ⟨j⟩ } : Collect.State) = erase { st with cache := st.cache.set e (.fetched j) } := by
          show Collect.State.mk _ _ = Collect.State.mk _ _
          rw [er_set]
          rfl
        simp only
        rw [he]
        refine fin { st with cache := st.cache.set e (.fetched j) } j ?_
        intro q j' hq
        simp only [Dict.get?_set] at hq
        split at hq
        · cases hq
        · exact hf q j' hq
  unfold Collect.collect collect
  have he : (erase st).config.get? e = (st.cache.get? e).map fun v => (⟨v.jws⟩ : Config) := get?_er _ _
  rw [he]
  cases st.cache.get? e with
  | none => exact found
  | some c =>
    simp only [Option.map_some, hs]
    rcases tooOld S.P W ⟨c.jws⟩ with x | b
    · rfl
    · cases b with
      | true => exact found
      | false => exact fin st c.jws hf

/-! ### Documents that are what they should be -/

/-- From `t0` to `now`, what is published at the well-known location of an entity is its configuration: in its name, signed with a key in it, not about to expire; and its hints are free of exclamation
marks. -/
structure Candid (S : Setup) (F : Federation) (t0 now : Int) : Prop where
  own : ∀ e j, F.config e = .ok (some j) → j.payload.iss = e
  signed : ∀ e j, F.config e = .ok (some j) → ∀ t, t0 ≤ t → t ≤ now → selfVerify S.L.toCrypto t j = .ok j.payload
  fresh : ∀ e j, F.config e = .ok (some j) → freshAt S.P now j = true
  hints : F.PlainHints

namespace Candid
variable {F : Federation} {t0 now : Int}

theorem dated (h : Candid S F t0 now) : F.Dated := fun k j hj => let ⟨x, hx, _⟩ := freshAt_exp (h.fresh k j hj); ⟨x, hx⟩

theorem freshAt (h : Candid S F t0 now) {t : Int} (ht : t ≤ now) {e : String} {j : Jws} (hj : F.config e = .ok (some j)) : Collect.freshAt S.P t j = true := by
  cases hf : Collect.freshAt S.P t j with
  | true => rfl
  | false => exact absurd (h.fresh e j hj) (by rw [freshAt_mono ht hf]; decide)

theorem published (h : Candid S F t0 now) {t : Int} (h0 : t0 ≤ t) (ht : t ≤ now) {e : String} {j : Jws} (hj : F.config e = .ok (some j)) :
    publishedConfig S.L.toCrypto F t e = some j := publishedConfig_iff.2 ⟨hj, h.signed e j hj t h0 ht⟩

theorem later (h : Candid S F t0 now) {t t' : Int} (h0 : t0 ≤ t) (ht : t ≤ t') (hn : t' ≤ now) {st : Collect.State} (hc : Coherent S.L.toCrypto S.P F t st) :
    Coherent S.L.toCrypto S.P F t' st := by
  have up : ∀ {k j}, publishedConfig S.L.toCrypto F t k = some j → publishedConfig S.L.toCrypto F t' k = some j :=
    fun hk => h.published (Int.le_trans h0 ht) hn (publishedConfig_iff.1 hk).1
  refine ⟨fun k c hk => up (hc.config k c hk), fun a e ha he v hv => ?_, hc.both⟩
  obtain ⟨j, j0, ep, w, h1, h2, h3, h4, h5, h6, h7⟩ := hc.stmt a e ha he v hv
  exact ⟨j, j0, ep, w, h1, up h2, h3, h4, h5, h6, h7.imp id (freshAt_mono ht)⟩

theorem freshCache (h : Candid S F t0 now) {t t' : Int} (ht : t' ≤ now) {st : Caches} (hc : Coherent S.L.toCrypto S.P F t (erase st)) : Fresh S.P t' st.cache := by
  intro q j hq
  refine h.freshAt (e := q) ht (publishedConfig_iff.1 (hc.config q ⟨j⟩ ?_)).1
  show (er st.cache).get? q = _
  rw [get?_er, hq]
  rfl
end Candid

/-! ### What is done leaves the caches coherent, and the key jar with all it had -/

variable {F : Federation} {t0 now : Int}

/-- What the entity keeps agrees with what is published, and the keys are still there. -/
structure Sound (S : Setup) (F : Federation) (jar : KeyJar) (t : Int) (st : Ent) : Prop where
  coherent : Coherent S.L.toCrypto S.P F t (erase ⟨st.cache, st.es⟩)
  jar : Threads.Grows jar st.jar

theorem verifyChains_grows (L : Lib) : ∀ (cs : List (List Doc)) (jar : KeyJar), Threads.Grows jar (verifyChains L cs jar).2
  | [], jar => .refl jar
  | c :: cs, jar => by
    have hk := verifyChain_keeps L jar c
    have h1 : Threads.Grows jar (verifyChain L jar c).2 := ⟨fun e k h => (hk e).1 k h, fun e => (hk e).2⟩
    unfold verifyChains
    generalize verifyChain L jar c = r at h1
    obtain ⟨r, j1⟩ := r
    have h2 := verifyChains_grows L cs j1
    rcases r with x | _ | tc
    · exact h1
    all_goals
      simp only
      generalize verifyChains L cs j1 = q at h2 ⊢
      obtain ⟨q, j2⟩ := q
      cases q <;> exact h1.trans h2

theorem getVerified_sound (hC : Candid S F t0 now) (ha : S.attr = true) {t : Int} (ht : t ≤ now) {jar : KeyJar} {st : Ent} (h : Sound S F jar t st) (e stopAt : String) (he : Plain e) :
    Sound S F jar t (getVerified S (F.at t) st e stopAt).2 := by
  have h1 := collect_er (S := S) (W := F.at t) (st := ⟨st.cache, st.es⟩) (hC.freshCache ht h.coherent) e stopAt ha
  have h2 := (collect_ideal h.coherent hC.dated hC.hints S.fuel e stopAt he).1
  rw [h1] at h2
  unfold getVerified
  generalize collect S (F.at t) ⟨st.cache, st.es⟩ e stopAt = r at h2
  obtain ⟨r, c⟩ := r
  rcases r with x | ⟨f, ec⟩
  · exact ⟨h2, h.jar⟩
  · simp only
    have h3 := verifyChains_grows S.L ((tree2chains f).map fun c => c.map some ++ [some ec]) st.jar
    generalize verifyChains S.L ((tree2chains f).map fun c => c.map some ++ [some ec]) st.jar = r at h3 ⊢
    obtain ⟨r, j⟩ := r
    cases r with
    | error x => exact ⟨h2, h.jar.trans h3⟩
    | ok tcs =>
      simp only
      cases applyPolicies S.E S.K tcs with
      | error x => exact ⟨h2, h.jar.trans h3⟩
      | ok tcs => exact ⟨h2, h.jar.trans h3⟩

/-- The federation, as it is at some time, is what is asked; the client is sent the documents that are published, if any, and the names on lists are free of exclamation marks. -/
structure Same (F : Federation) (w : Web) : Prop where
  world : w.W = F.at w.W.now
  config : ∀ e d, w.config e = .ok d → F.config e = .ok d
  list : ∀ url type l, w.list url type true = .ok (some l) → ∀ e ∈ l, Plain e

variable {w : Web} {jar : KeyJar}

theorem askConfiguration_sound (hC : Candid S F t0 now) (h0 : t0 ≤ w.W.now) (ht : w.W.now ≤ now) (hw : Same F w) {st : Ent} (h : Sound S F jar w.W.now st) (e : String) :
    Sound S F jar w.W.now (askConfiguration S w st e).2 := by
  unfold askConfiguration
  cases hg : w.config e with
  | error x => exact h
  | ok d =>
    simp only
    cases hp : parsed S w.W.now st.jar d with
    | error x => exact h
    | ok j =>
      have hd : d = some j := by
        unfold parsed at hp
        split at hp
        · cases hp
        · simp only at hp
          split at hp
          · split at hp
            · cases hp; rfl
            · cases hp
          · split at hp
            · cases hp; rfl
            · cases hp
      subst hd
      have hj := hw.config e _ hg
      have hi := hC.own e j hj
      refine ⟨?_, h.jar⟩
      have := h.coherent.setConfig (hC.published h0 ht hj)
      show Coherent S.L.toCrypto S.P F w.W.now ⟨er (answered st.cache j), st.es⟩
      unfold answered
      rw [er_set, hi]
      exact this

theorem subscript_sound (hC : Candid S F t0 now) (ht : w.W.now ≤ now) {st : Ent} (h : Sound S F jar w.W.now st) (k : String) :
    Sound S F jar w.W.now { st with cache := (subscript S.P.delta w.W.now st.cache k).2 } := by
  have h1 := subscript_er (hC.freshCache ht h.coherent) k
  refine ⟨?_, h.jar⟩
  show Coherent S.L.toCrypto S.P F w.W.now ⟨er (subscript S.P.delta w.W.now st.cache k).2, st.es⟩
  rcases h.coherent.subscript hC.dated k with ⟨j, -, -, -, h4⟩ | ⟨db, h4, h5, -⟩
  · have h4' : subscript S.P.delta w.W.now (er st.cache) k = (.ok (some ⟨j⟩), er st.cache) := h4
    rw [h1] at h4'
    rw [(Prod.mk.inj h4').2]
    exact h.coherent
  · have h4' : subscript S.P.delta w.W.now (er st.cache) k = (.ok none, db) := h4
    rw [h1] at h4'
    rw [(Prod.mk.inj h4').2]
    exact h5

theorem askStatement_sound (hC : Candid S F t0 now) (h0 : t0 ≤ w.W.now) (ht : w.W.now ≤ now) (hw : Same F w) {st : Ent} (h : Sound S F jar w.W.now st) (a e : String) :
    Sound S F jar w.W.now (askStatement S w st a e).2 := by
  have fin : ∀ r : Except PyErr Payload × Ent, Sound S F jar w.W.now r.2 → Sound S F jar w.W.now (match r with
    | (.error e, st) => ((.error e : Except PyErr Payload), st)
    | (.ok ec, st) =>
      match getFetchEndpoint ec with
      | .error e => (.error e, st)
      | .ok none => (.error .keyError, st)
      | .ok (some ep) =>
        if ep.truthy then
          match w.fetch ep a e with
          | .error e => (.error e, st)
          | .ok d =>
            match parsed S w.W.now st.jar d with
            | .error e => (.error e, st)
            | .ok j => (.ok j.payload, st)
        else (.error .attributeError, st)).2 := by
    rintro ⟨r, st⟩ hr
    cases r with
    | error x => exact hr
    | ok ec =>
      simp only
      rcases getFetchEndpoint ec with x | _ | ep
      · exact hr
      · exact hr
      · simp only
        split
        · cases w.fetch ep a e with
          | error x => exact hr
          | ok d =>
            simp only
            cases parsed S w.W.now st.jar d <;> exact hr
        · exact hr
  unfold askStatement
  refine fin _ ?_
  split
  · have h1 := subscript_sound hC ht h a
    generalize subscript S.P.delta w.W.now st.cache a = r at h1 ⊢
    obtain ⟨r, db⟩ := r
    rcases r with x | _ | c <;> exact h1
  · exact askConfiguration_sound hC h0 ht hw h a

theorem verifiedEndpoint_sound (hC : Candid S F t0 now) (ha : S.attr = true) (ht : w.W.now ≤ now) (hw : Same F w) {st : Ent} (h : Sound S F jar w.W.now st) (e name : String) (he : Plain e) :
    Sound S F jar w.W.now (verifiedEndpoint S w st e name).2 := by
  unfold verifiedEndpoint
  split
  · split
    · exact h
    · split
      · exact h
      · split <;> exact h
  · have h1 := getVerified_sound hC ha ht h e "" he
    rw [← hw.world] at h1
    generalize getVerified S w.W st e "" = r at h1 ⊢
    obtain ⟨r, st1⟩ := r
    cases r with
    | error x => exact h1
    | ok tcs =>
      simp only
      cases pickTrustChain S.priority tcs with
      | error x => exact h1
      | ok tc =>
        simp only
        split <;> exact h1

theorem askList_sound (hC : Candid S F t0 now) (ha : S.attr = true) (ht : w.W.now ≤ now) (hw : Same F w) {st : Ent} (h : Sound S F jar w.W.now st) (e : String) (type : Option String)
    (i : Bool) (he : Plain e) : Sound S F jar w.W.now (askList S w st e type i).2 ∧ (i = true → ∀ l, (askList S w st e type i).1 = .ok (some l) → ∀ x ∈ l, Plain x) := by
  have h1 := verifiedEndpoint_sound hC ha ht hw h e "federation_list_endpoint" he
  unfold askList
  generalize verifiedEndpoint S w st e "federation_list_endpoint" = r at h1 ⊢
  obtain ⟨r, st1⟩ := r
  cases r with
  | error x => exact ⟨h1, fun _ l hl => by cases hl⟩
  | ok v =>
    refine ⟨h1, ?_⟩
    rintro rfl l hl
    exact hw.list _ _ l hl

theorem importKeys_grows (jar : KeyJar) (sub : String) (ks : List Key) : Threads.Grows jar (importKeys jar sub ks) := by
  refine ⟨fun e k hk => ?_, fun e he => ?_⟩
  · unfold importKeys
    unfold KeyJar.keysOf at hk ⊢
    rw [Dict.get?_set]
    split
    · rename_i h
      subst h
      simp [hk]
    · exact hk
  · unfold importKeys Dict.has at *
    rw [Dict.get?_set]
    split
    · rfl
    · exact he

theorem lookUp_sound (hC : Candid S F t0 now) (h0 : t0 ≤ w.W.now) (ht : w.W.now ≤ now) (hw : Same F w) {st : Ent} (h : Sound S F jar w.W.now st) (a e : String) :
    Sound S F jar w.W.now (lookUp S w st a e).2 := by
  unfold lookUp
  split
  · have h1 := subscript_sound hC ht h e
    generalize subscript S.P.delta w.W.now st.cache e = r at h1 ⊢
    obtain ⟨r, db⟩ := r
    rcases r with x | _ | c <;> exact h1
  · have h1 := askStatement_sound hC h0 ht hw h a e
    generalize askStatement S w st a e = r at h1 ⊢
    obtain ⟨r, st1⟩ := r
    cases r with
    | error x => exact h1
    | ok es =>
      simp only
      cases es.jwks with
      | none => exact h1
      | some ks =>
        exact askConfiguration_sound hC h0 ht hw (st := { st1 with jar := importKeys st1.jar es.sub ks }) ⟨h1.coherent, h1.jar.trans (importKeys_grows _ _ _)⟩ e

theorem gather_sound {P : Ent → Prop} {f : Ent → String → Except PyErr (List String) × Ent} : ∀ (es : List String) (st : Ent), (∀ st e, e ∈ es → P st → P (f st e).2) → P st → P (gather f es st).2
  | [], st, _, h => h
  | e :: es, st, hf, h => by
    have h1 := hf st e (by simp) h
    unfold gather
    generalize f st e = r at h1
    obtain ⟨r, st1⟩ := r
    cases r with
    | error x => exact h1
    | ok ids =>
      have h2 := gather_sound es st1 (fun st e he => hf st e (by simp [he])) h1
      simp only
      generalize gather f es st1 = r at h2
      obtain ⟨r, st2⟩ := r
      cases r <;> exact h2

theorem trawl_sound (hC : Candid S F t0 now) (ha : S.attr = true) (h0 : t0 ≤ w.W.now) (ht : w.W.now ≤ now) (hw : Same F w) (type : String) : ∀ (n : Nat) (st : Ent) (a e : String),
    Plain e → Sound S F jar w.W.now st → Sound S F jar w.W.now (trawl S w type n st a e).2
  | 0, st, a, e, _, h => h
  | n + 1, st, a, e, he, h => by
    have h1 := lookUp_sound hC h0 ht hw h a e
    unfold trawl
    generalize lookUp S w st a e = r at h1
    obtain ⟨r, st1⟩ := r
    cases r with
    | error x => exact h1
    | ok ec =>
      simp only
      cases ec.metadata with
      | none => exact h1
      | some md =>
        simp only
        cases Dict.get? md "federation_entity" with
        | none => exact h1
        | some fe =>
          simp only
          cases Dict.has fe "federation_list_endpoint" with
          | false => exact h1
          | true =>
            rw [if_pos rfl]
            have h2 := (askList_sound hC ha ht hw h1 e (some type) false he).1
            generalize askList S w st1 e (some type) false = r at h2 ⊢
            obtain ⟨r, st2⟩ := r
            cases r with
            | error x => exact h2
            | ok added =>
              simp only
              obtain ⟨h3, h3'⟩ := askList_sound hC ha ht hw h2 e none true he
              generalize askList S w st2 e none true = r at h3 h3' ⊢
              obtain ⟨r, st3⟩ := r
              cases r with
              | error x => exact h3
              | ok ims =>
                simp only
                have h4 := gather_sound (P := Sound S F jar w.W.now) (f := fun st x => trawl S w type n st e x) (ims.getD []) st3
                  (fun st x hx hst => trawl_sound hC ha h0 ht hw type n st e x (by
                    cases ims with
                    | none => cases hx
                    | some l => exact h3' rfl l rfl x hx) hst) h3
                generalize gather (fun st x => trawl S w type n st e x) (ims.getD []) st3 = r at h4 ⊢
                obtain ⟨r, st4⟩ := r
                cases r <;> exact h4

/-! ## C217 -/

/-- The entity that is resolved or walked down from has a name free of exclamation marks. -/
def Event.Plain : Event → Prop
  | .resolve _ e _ => Collect.Plain e
  | .walk _ _ _ _ e => Collect.Plain e
  | _ => True

/-- What happens between two points in time, in a federation that publishes the same documents all the time. -/
def During (F : Federation) (now : Int) : Int → List Event → Prop
  | t, [] => t ≤ now
  | t, ev :: h => t ≤ ev.web.W.now ∧ Same F ev.web ∧ ev.Plain ∧ During F now ev.web.W.now h

theorem During.le : ∀ {h : List Event} {t : Int}, During F now t h → t ≤ now
  | [], _, hd => hd
  | _ :: _, _, hd => Int.le_trans hd.1 (During.le hd.2.2.2)

theorem apply_sound (hC : Candid S F t0 now) (ha : S.attr = true) {ev : Event} (h0 : t0 ≤ ev.web.W.now) (ht : ev.web.W.now ≤ now) (hw : Same F ev.web) (hp : ev.Plain) {st : Ent}
    (h : Sound S F jar ev.web.W.now st) : Sound S F jar ev.web.W.now (ev.apply S st) := by
  cases ev with
  | resolve w e stop =>
    have := getVerified_sound hC ha ht h e stop hp
    rw [← hw.world] at this
    exact this
  | walk w type n a e => exact trawl_sound hC ha h0 ht hw type n st a e hp h
  | configuration w e => exact askConfiguration_sound hC h0 ht hw h e
  | statement w a e => exact askStatement_sound hC h0 ht hw h a e

theorem after_sound (hC : Candid S F t0 now) (ha : S.attr = true) : ∀ {h : List Event} {t : Int} {st : Ent}, t0 ≤ t → During F now t h → Sound S F jar t st → Sound S F jar now (after S st h)
  | [], t, st, h0, hd, hs => ⟨hC.later h0 hd (Int.le_refl _) hs.coherent, hs.jar⟩
  | ev :: h, t, st, h0, hd, hs => by
    obtain ⟨h1, h2, h3, h4⟩ := hd
    have hn := During.le h4
    exact after_sound (h := h) hC ha (Int.le_trans h0 h1) h4 (apply_sound hC ha (Int.le_trans h0 h1) hn h2 h3 ⟨hC.later h0 h1 hn hs.coherent, hs.jar⟩)

/-- All trust chains that are collected for the entity first thing are accepted with the keys the entity starts with. -/
def Accepted (S : Setup) (W : World) (jar : KeyJar) (e stopAt : String) : Prop :=
  ∃ f ec, (collect S W {} e stopAt).1 = .ok (f, ec) ∧ ∀ c ∈ tree2chains f, ∃ tc, (verifyChain S.L jar (c.map some ++ [some ec])).1 = .ok (some tc)

/-- C217 in full: in a federation that publishes the same documents all the time, an entity that is resolved first thing, all its trust chains being accepted, is resolved to the same after whatever
has been asked for, walked down and resolved. -/
def C217_full : Prop :=
  ∀ (S : Setup) (F : Federation) (jar : KeyJar) (t0 now : Int) (h : List Event) (e stopAt : String), S.attr = true → Plain e → During F now t0 h → Accepted S (F.at now) jar e stopAt →
    (getVerified S (F.at now) (after S { jar := jar } h) e stopAt).1 = (getVerified S (F.at now) { jar := jar } e stopAt).1

/-- C217, for what is collected: if everybody publishes proper configurations of their own, then after whatever was done the same trust chains are collected for an entity as first thing, if any. -/
theorem C217_collected_partial (S : Setup) (F : Federation) (jar : KeyJar) (t0 now : Int) (h : List Event) (e stopAt : String) (ha : S.attr = true) (hC : Candid S F t0 now) (he : Plain e)
    (hd : During F now t0 h) :
    (collect S (F.at now) ⟨(after S { jar := jar } h).cache, (after S { jar := jar } h).es⟩ e stopAt).1.toOption = (collect S (F.at now) {} e stopAt).1.toOption := by
  have hs : Sound S F jar now (after S { jar := jar } h) := after_sound hC ha (Int.le_refl t0) hd ⟨Coherent.empty _ _ _ _, .refl jar⟩
  have key : ∀ st : Caches, Coherent S.L.toCrypto S.P F now (erase st) → (collect S (F.at now) st e stopAt).1.toOption = idealCollect S.L.toCrypto S.P F now S.fuel e stopAt := by
    intro st hst
    have h1 := collect_er (S := S) (W := F.at now) (hC.freshCache (Int.le_refl now) hst) e stopAt ha
    have h2 := (collect_ideal hst hC.dated hC.hints S.fuel e stopAt he).2
    rw [h1] at h2
    exact h2
  rw [key _ hs.coherent, key {} (Coherent.empty _ _ _ _)]

/-- C217, in full if everybody publishes proper configurations of their own. -/
theorem C217_same_partial (S : Setup) (F : Federation) (jar : KeyJar) (t0 now : Int) (h : List Event) (e stopAt : String) (ha : S.attr = true) (hC : Candid S F t0 now) (he : Plain e)
    (hd : During F now t0 h) (hr : Accepted S (F.at now) jar e stopAt) :
    (getVerified S (F.at now) (after S { jar := jar } h) e stopAt).1 = (getVerified S (F.at now) { jar := jar } e stopAt).1 := by
  have hs : Sound S F jar now (after S { jar := jar } h) := after_sound hC ha (Int.le_refl t0) hd ⟨Coherent.empty _ _ _ _, .refl jar⟩
  have hc := C217_collected_partial S F jar t0 now h e stopAt ha hC he hd
  obtain ⟨f, ec, h1, h2⟩ := hr
  unfold getVerified
  generalize after S { jar := jar } h = st at hs hc ⊢
  have h1' : (collect S (F.at now) ⟨st.cache, st.es⟩ e stopAt).1 = .ok (f, ec) := by
    rw [h1] at hc
    cases hq : (collect S (F.at now) ⟨st.cache, st.es⟩ e stopAt).1 with
    | error x => rw [hq] at hc; cases hc
    | ok v => rw [hq] at hc; cases hc; rfl
  have hv := Chains.AtOnce.verifyChains_grown (L := S.L) (cs := (tree2chains f).map fun c => c.map some ++ [some ec]) (jar := jar) (jar' := st.jar) (by
    intro c hc
    obtain ⟨c', hc', rfl⟩ := List.mem_map.1 hc
    exact h2 c' hc') hs.jar
  generalize collect S (F.at now) ⟨st.cache, st.es⟩ e stopAt = r at h1' ⊢
  obtain ⟨r, c⟩ := r
  simp only at h1'
  subst h1'
  simp only
  generalize collect S (F.at now) {} e stopAt = r at h1 ⊢
  obtain ⟨r, c'⟩ := r
  simp only at h1
  subst h1
  simp only
  generalize verifyChains S.L ((tree2chains f).map fun c => c.map some ++ [some ec]) st.jar = q at hv ⊢
  generalize verifyChains S.L ((tree2chains f).map fun c => c.map some ++ [some ec]) jar = q' at hv ⊢
  obtain ⟨q, j1⟩ := q
  obtain ⟨q', j2⟩ := q'
  simp only at hv
  subst hv
  cases q with
  | error x => rfl
  | ok tcs =>
    simp only
    cases applyPolicies S.E S.K tcs <;> rfl

end

namespace Ex217
open Ex216 (S jar conf fe rp about)

/-- `im2` is a proper intermediate below the trust anchor, and `rp` below `im2`; at the well-known location of `im` is `d`. -/
def docs (d : Jws) : List (String × Jws) :=
  [("https://ta", conf "https://ta" 1 none (fe "https://ta")), ("https://im", d), ("https://im2", conf "https://im2" 4 (some ["https://ta"]) (fe "https://im2")),
   ("https://rp", conf "https://rp" 3 (some ["https://im2"]) rp)]
def told : List ((String × String) × Jws) :=
  [(("https://ta", "https://im"), about "https://ta" "https://im" 1 2), (("https://ta", "https://im2"), about "https://ta" "https://im2" 1 4),
   (("https://im2", "https://rp"), about "https://im2" "https://rp" 4 3)]
def lists : List ((String × Bool) × List String) := [(("https://im2/list", true), []), (("https://im2/list", false), ["https://rp"])]
def F (d : Jws) : Federation where
  config e := .ok (((docs d).find? (·.1 = e)).map (·.2))
  fetch _ a e := .ok ((told.find? (·.1 = (a, e))).map (·.2))
def w (d : Jws) : Web := Ex216.web (docs d) told lists

theorem same (d : Jws) : Same (F d) (w d) := by
  refine ⟨rfl, fun e d h => congrArg Except.ok (Except.ok.inj h), fun url type l h => ?_⟩
  have h : (lists.find? (·.1 = (url, true))).map (·.2) = some l := Except.ok.inj h
  obtain ⟨p, hp, rfl⟩ := Option.map_eq_some_iff.1 h
  have : ∀ p ∈ lists, ∀ e ∈ p.2, Plain e := by decide
  exact this p (List.mem_of_find?_eq_some hp)

/-- The statement of the trust anchor about `im`. -/
def misplaced : Jws := about "https://ta" "https://im" 1 2
def proper : Jws := conf "https://im" 2 (some ["https://ta"]) (fe "https://im")

theorem accepted (d : Jws) (hd : (collect S ((F d).at 0) {} "https://rp" "").1.toOption.map (fun p => (tree2chains p.1, p.2)) =
      some ([[about "https://ta" "https://im2" 1 4, about "https://im2" "https://rp" 4 3]], conf "https://rp" 3 (some ["https://im2"]) rp)) :
    Accepted S ((F d).at 0) jar "https://rp" "" := by
  cases hq : (collect S ((F d).at 0) {} "https://rp" "").1 with
  | error x => rw [hq] at hd; cases hd
  | ok p =>
    obtain ⟨f, ec⟩ := p
    rw [hq] at hd
    have h1 : tree2chains f = [[about "https://ta" "https://im2" 1 4, about "https://im2" "https://rp" 4 3]] := (Prod.mk.inj (Option.some.inj hd)).1
    have h2 : ec = conf "https://rp" 3 (some ["https://im2"]) rp := (Prod.mk.inj (Option.some.inj hd)).2
    refine ⟨f, ec, hq, ?_⟩
    rw [h1, h2]
    intro c hc
    rw [List.mem_singleton] at hc
    subst hc
    have : (verifyChain S.L jar ([about "https://ta" "https://im2" 1 4, about "https://im2" "https://rp" 4 3].map some ++ [some (conf "https://rp" 3 (some ["https://im2"]) rp)])).1.toOption.join.isSome = true := by
      decide +kernel
    generalize (verifyChain S.L jar ([about "https://ta" "https://im2" 1 4, about "https://im2" "https://rp" 4 3].map some ++ [some (conf "https://rp" 3 (some ["https://im2"]) rp)])).1 = r at this ⊢
    rcases r with x | _ | tc
    · cases this
    · cases this
    · exact ⟨tc, rfl⟩
end Ex217

/-- C217 does not hold: where an intermediate publishes the statement of the trust anchor about itself in place of its configuration, asking for its configuration makes the collector take the statement
for the configuration of the trust anchor; entities below other intermediates are not resolved any more. -/
theorem C217_violation : ¬ C217_full := by
  intro h
  have h1 := h Ex216.S (Ex217.F Ex217.misplaced) Ex216.jar 0 0 [.configuration (Ex217.w Ex217.misplaced) "https://im"] "https://rp" "" rfl (by decide)
    ⟨by decide, Ex217.same _, trivial, Int.le_refl 0⟩ (Ex217.accepted _ (by decide +kernel))
  have h2 : (getVerified Ex216.S ((Ex217.F Ex217.misplaced).at 0) (after Ex216.S { jar := Ex216.jar } [.configuration (Ex217.w Ex217.misplaced) "https://im"]) "https://rp" "").1.toOption.isSome = false := by
    decide +kernel
  have h3 : (getVerified Ex216.S ((Ex217.F Ex217.misplaced).at 0) { jar := Ex216.jar } "https://rp" "").1.toOption.isSome = true := by decide +kernel
  rw [h1, h3] at h2
  cases h2

namespace Ex217
open Ex216 (S jar conf fe rp about)

theorem candid : Candid S (F proper) 0 50 := by
  have key : ∀ p ∈ docs proper, p.2.payload.iss = p.1 ∧ freshAt S.P 50 p.2 = true ∧ selfVerify S.L.toCrypto 0 p.2 = .ok p.2.payload ∧ ∀ hs, p.2.payload.hints = some hs → ∀ a ∈ hs, Plain a := by
    intro p hp
    simp only [docs, List.mem_cons, List.not_mem_nil, or_false] at hp
    rcases hp with rfl | rfl | rfl | rfl
    all_goals
      refine ⟨rfl, by decide +kernel, rfl, ?_⟩
      intro hs h
      first
        | (cases h; done)
        | (cases h; decide)
  have get : ∀ e j, (F proper).config e = .ok (some j) → (e, j) ∈ docs proper := by
    intro e j h
    have h : ((docs proper).find? (·.1 = e)).map (·.2) = some j := Except.ok.inj h
    obtain ⟨p, hp, rfl⟩ := Option.map_eq_some_iff.1 h
    have h1 := List.mem_of_find?_eq_some hp
    have h2 : p.1 = e := by simpa using List.find?_some hp
    subst h2
    exact h1
  refine ⟨fun e j h => (key _ (get e j h)).1, fun e j h t _ _ => ?_, fun e j h => (key _ (get e j h)).2.1, fun e j hs h h' => (key _ (get e j h)).2.2.2 hs h'⟩
  exact (key _ (get e j h)).2.2.1

/-- A walk below `im2`, and requests, before the resolution. -/
def h : List Event := [.walk (w proper) "openid_relying_party" 5 "https://ta" "https://im2", .configuration (w proper) "https://im", .statement (w proper) "https://im2" "https://rp",
  .resolve (w proper) "https://im" ""]

example : Candid S (F proper) 0 50 ∧ During (F proper) 50 0 h ∧ (after S { jar := jar } h).cache.keys = ["https://ta", "https://im2", "https://im"] := by
  refine ⟨candid, ?_, by decide +kernel⟩
  refine ⟨by decide, same _, by show Collect.Plain _; decide, by decide, same _, trivial, by decide, same _, trivial, by decide, same _, by show Collect.Plain _; decide, (by decide : (0 : Int) ≤ 50)⟩
example : Accepted S ((F proper).at 0) jar "https://rp" "" := accepted _ (by decide +kernel)
example : (getVerified S ((F proper).at 0) (after S { jar := jar } h) "https://rp" "").1.toOption.map (fun tcs => tcs.map fun tc => (tc.anchor, tc.metadata)) =
    some [("https://ta", [("openid_relying_party", .obj [("scopes", .str "admin")])])] := by decide +kernel
end Ex217

end Fed.Discover.Walk
