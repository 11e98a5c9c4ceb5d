import Verif.Discover.Walk
import Verif.Collect.MixedProps
import Verif.Verifier.Props
import Verif.Chains.Lemmas
/-
C216: nobody but the trust anchors decides which keys are held for a trust anchor.
-/
namespace Fed.Discover.Walk
open Fed Fed.Collect Fed.Collect.Mixed Fed.Verify Fed.Chains

/-- `j` is among what the federation offers: published as a configuration, or the answer of a fetch endpoint, to the collector or to the client. -/
def Offered (w : Web) (j : Jws) : Prop :=
  (∃ e, w.W.config e = .ok (some j)) ∨ (∃ ep a e, w.W.fetch ep a e = .ok (some j)) ∨ (∃ e, w.config e = .ok (some j)) ∨ (∃ ep a e, w.fetch ep a e = .ok (some j))

/-- `k` was a key of `e` at the start, or is listed for `e` in one of the documents, signed with a key of its issuer that was come by in the same way. -/
inductive Came (L : Lib) (jar : KeyJar) (D : Jws → Prop) : String → Key → Prop
  | start {e k} : k ∈ jar.keysOf e → Came L jar D e k
  | declared {j k' ks k} : D j → Came L jar D j.payload.iss k' → L.usable j k' = true → L.verifies j k' = true → j.payload.jwks = some ks → k ∈ ks → Came L jar D j.payload.sub k

/-- Likewise, but the issuers are trust anchors all the way. -/
inductive Anchored (L : Lib) (anchors : List String) (jar : KeyJar) (D : Jws → Prop) : String → Key → Prop
  | start {e k} : k ∈ jar.keysOf e → Anchored L anchors jar D e k
  | declared {j k' ks k} : D j → j.payload.iss ∈ anchors → Anchored L anchors jar D j.payload.iss k' → L.usable j k' = true → L.verifies j k' = true →
      j.payload.jwks = some ks → k ∈ ks → Anchored L anchors jar D j.payload.sub k

/-! ### Lemmas -/

def AllIn (D : Jws → Prop) : Forest Jws → Prop
  | .nil => True
  | .missing _ r => AllIn D r
  | .node _ s sub r => D s ∧ AllIn D sub ∧ AllIn D r

theorem AllIn.set {D : Jws → Prop} : ∀ {f : Forest Jws} {i : String} {b : Branch}, AllIn D f → (∀ s sub, b = some (s, sub) → D s ∧ AllIn D sub) → AllIn D (f.set i b) := by
  intro f i b
  induction f with
  | nil =>
    intro _ hb
    rcases b with _ | ⟨s, sub⟩
    · trivial
    · exact ⟨(hb s sub rfl).1, (hb s sub rfl).2, trivial⟩
  | missing j r ih =>
    intro h hb
    unfold Forest.set
    split
    · rcases b with _ | ⟨s, sub⟩
      · exact h
      · exact ⟨(hb s sub rfl).1, (hb s sub rfl).2, h⟩
    · exact ih h hb
  | node j t sub' r _ ih =>
    intro h hb
    unfold Forest.set
    split
    · rcases b with _ | ⟨s, sub⟩
      · exact h.2.2
      · exact ⟨(hb s sub rfl).1, (hb s sub rfl).2, h.2.2⟩
    · exact ⟨h.1, h.2.1, ih h.2.2 hb⟩

theorem AllIn.chains {D : Jws → Prop} : ∀ {f : Forest Jws}, AllIn D f → ∀ c ∈ tree2chains f, ∀ j ∈ c, D j := by
  intro f
  fun_induction tree2chains f with
  | case1 => intro _ c hc; cases hc
  | case2 i r ih =>
    intro h c hc
    rcases List.mem_cons.1 hc with rfl | hc
    · intro j hj; cases hj
    · exact ih h c hc
  | case3 i s r ih =>
    intro h c hc
    rcases List.mem_cons.1 hc with rfl | hc
    · intro j hj
      rw [List.mem_singleton] at hj
      subst hj
      exact h.1
    · exact ih h.2.2 c hc
  | case4 i s sub r _ ih1 ih2 =>
    intro h c hc
    rcases List.mem_append.1 hc with hc | hc
    · obtain ⟨c', hc', rfl⟩ := List.mem_map.1 hc
      intro j hj
      rcases List.mem_append.1 hj with hj | hj
      · exact ih1 h.2.1 c' hc' j hj
      · rw [List.mem_singleton] at hj
        subst hj
        exact h.1
    · exact ih2 h.2.2 c hc

/-- The documents in the caches are among `D`. -/
structure Kept (D : Jws → Prop) (st : Caches) : Prop where
  cache : ∀ q v, st.cache.get? q = some v → D v.jws
  es : ∀ q j, st.es.get? q = some (.stmt j) → D j

section
variable {S : Setup} {W : World} {D : Jws → Prop}

/-- What the collector finds is among `D`. -/
structure Finds (D : Jws → Prop) (W : World) : Prop where
  config : ∀ e j, W.config e = .ok (some j) → D j
  fetch : ∀ ep a e j, W.fetch ep a e = .ok (some j) → D j

theorem cache_sub {cache : Cache} (h : ∀ q v, cache.get? q = some v → D v.jws) (delta now : Int) (k : String) :
    ∀ q v, (subscript delta now cache k).2.get? q = some v → D v.jws := fun q v hv => h q v (sub_mono delta now cache k q v hv)

theorem cache_endpoint {cache : Cache} (hW : Finds D W) (h : ∀ q v, cache.get? q = some v → D v.jws) (a : String) :
    ∀ q v, (endpoint S.L.toCrypto S.P W cache a).2.get? q = some v → D v.jws := by
  intro q v hv
  rcases endpoint_get _ _ _ _ _ _ _ hv with h1 | ⟨-, j, hj, rfl⟩
  · exact h q v h1
  · exact hW.config _ _ hj.1

theorem fetchStatement_kept (hW : Finds D W) {st : Caches} (h : Kept D st) (e a : String) :
    Kept D (fetchStatement S W st e a).2 ∧ ∀ j, (fetchStatement S W st e a).1 = .ok (some j) → D j := by
  have hc := cache_endpoint (S := S) hW h.cache a
  unfold fetchStatement
  generalize endpoint S.L.toCrypto S.P W st.cache a = r at hc ⊢
  obtain ⟨r, db⟩ := r
  simp only at hc
  cases r with
  | error e => exact ⟨⟨hc, h.es⟩, fun j hj => by cases hj⟩
  | ok ep =>
    simp only
    cases usableEndpoint ep with
    | none => exact ⟨⟨hc, h.es⟩, fun j hj => by cases hj⟩
    | some v =>
      simp only
      have hf := hW.fetch v a e
      cases hd : W.fetch v a e with
      | error e => exact ⟨⟨hc, h.es⟩, fun j hj => by cases hj⟩
      | ok d =>
        cases d with
        | none => exact ⟨⟨hc, h.es⟩, fun j hj => by cases hj⟩
        | some j =>
          have hj := hf j hd
          have hset : ∀ q j', (st.es.set (cacheKey a e) (.stmt j)).get? q = some (.stmt j') → D j' := by
            intro q j' hq
            by_cases hqe : cacheKey a e = q
            · rw [hqe, Dict.get?_set_self] at hq
              cases hq
              exact hj
            · rw [Dict.get?_set_ne _ _ hqe] at hq
              exact h.es q j' hq
          simp only
          cases j.payload.exp with
          | none => exact ⟨⟨hc, hset⟩, fun j hj => by cases hj⟩
          | some x =>
            refine ⟨⟨hc, ?_⟩, fun j' hj' => by cases hj'; exact hj⟩
            intro q j' hq
            by_cases hqe : timeKey a e = q
            · simp only [hqe, Dict.get?_set_self] at hq
              cases hq
            · simp only [Dict.get?_set_ne _ _ hqe] at hq
              exact hset q j' hq

theorem getStatement_kept (hW : Finds D W) {st : Caches} (h : Kept D st) (e a : String) :
    Kept D (getStatement S W st e a).2 ∧ ∀ j, (getStatement S W st e a).1 = .ok (some j) → D j := by
  unfold getStatement
  split
  · exact fetchStatement_kept hW h e a
  · exact ⟨h, fun j hj => by cases hj⟩
  · rename_i j hj
    split
    · split
      · refine fetchStatement_kept (st := { st with es := drop (drop st.es (cacheKey a e)) (timeKey a e) }) hW ⟨h.cache, ?_⟩ e a
        intro q j' hq
        simp only [get?_drop] at hq
        split at hq
        · cases hq
        · split at hq
          · cases hq
          · exact h.es q j' hq
      · exact ⟨h, fun j' hj' => by cases hj'; exact h.es _ _ hj⟩
    · exact ⟨h, fun j hj => by cases hj⟩

theorem overHints_kept {branch : Caches → String → Except PyErr Branch × Caches}
    (hb : ∀ st a, Kept D st → Kept D (branch st a).2 ∧ ∀ s sub, (branch st a).1 = .ok (some (s, sub)) → D s ∧ AllIn D sub) :
    ∀ (hs : List String) (acc : Forest Jws) (st : Caches), Kept D st → AllIn D acc →
      Kept D (overHints branch hs acc st).2 ∧ ∀ f, (overHints branch hs acc st).1 = .ok f → AllIn D f
  | [], acc, st, h, ha => ⟨h, fun f hf => by cases hf; exact ha⟩
  | a :: hs, acc, st, h, ha => by
    obtain ⟨h1, h2⟩ := hb st a h
    unfold overHints
    generalize branch st a = r at h1 h2 ⊢
    obtain ⟨r, st'⟩ := r
    cases r with
    | error e => exact ⟨h1, fun f hf => by cases hf⟩
    | ok b => exact overHints_kept hb hs _ _ h1 (ha.set fun s sub hs => h2 s sub (by rw [hs]))

theorem collectTree_kept (hW : Finds D W) (stopAt : String) : ∀ (n : Nat) (st : Caches) (e : String) (p : Option Payload), Kept D st →
    Kept D (collectTree S W stopAt n st e p).2 ∧ ∀ f, (collectTree S W stopAt n st e p).1 = .ok f → AllIn D f
  | 0, st, e, p, h => ⟨h, fun f hf => by cases hf⟩
  | n + 1, st, e, none, h => ⟨h, fun f hf => by cases hf⟩
  | n + 1, st, e, some cfg, h => by
    unfold collectTree
    split
    · exact ⟨h, fun f hf => by cases hf; trivial⟩
    · split
      · exact ⟨h, fun f hf => by cases hf; trivial⟩
      · refine overHints_kept ?_ _ _ _ h trivial
        intro st a h
        unfold collectBranch
        split
        · exact ⟨h, fun s sub hs => by cases hs⟩
        · obtain ⟨h1, h2⟩ := getStatement_kept (S := S) hW h e a
          generalize getStatement S W st e a = r at h1 h2 ⊢
          obtain ⟨r, st1⟩ := r
          simp only at h1 h2
          cases r with
          | error e => exact ⟨h1, fun s sub hs => by cases hs⟩
          | ok o =>
            cases o with
            | none => exact ⟨h1, fun s sub hs => by cases hs⟩
            | some j =>
              have hj := h2 j rfl
              have hc := cache_sub h1.cache S.P.delta W.now a
              simp only
              generalize subscript S.P.delta W.now st1.cache a = r at hc ⊢
              obtain ⟨r, db⟩ := r
              simp only at hc
              cases r with
              | error e => exact ⟨⟨hc, h1.es⟩, fun s sub hs => by cases hs⟩
              | ok c =>
                obtain ⟨h3, h4⟩ := collectTree_kept hW stopAt n { st1 with cache := db } a (c.map (·.jws.payload)) ⟨hc, h1.es⟩
                simp only
                generalize collectTree S W stopAt n { st1 with cache := db } a (c.map (·.jws.payload)) = r at h3 h4 ⊢
                obtain ⟨r, st2⟩ := r
                cases r with
                | error e => exact ⟨h3, fun s sub hs => by cases hs⟩
                | ok f => exact ⟨h3, fun s sub hs => by cases hs; exact ⟨hj, h4 f rfl⟩⟩

theorem collect_kept (hW : Finds D W) {st : Caches} (h : Kept D st) (e stopAt : String) :
    Kept D (collect S W st e stopAt).2 ∧ ∀ f ec, (collect S W st e stopAt).1 = .ok (f, ec) → AllIn D f ∧ D ec := by
  have rest : ∀ (st : Caches) (j : Jws) (p : Payload), Kept D st → D j →
      Kept D (match collectTree S W stopAt S.fuel st e (some p) with | (.error e, st) => ((.error e, st) : Except PyErr (Forest Jws × Jws) × Caches) | (.ok f, st) => (.ok (f, j), st)).2 ∧
      ∀ f ec, (match collectTree S W stopAt S.fuel st e (some p) with | (.error e, st) => ((.error e, st) : Except PyErr (Forest Jws × Jws) × Caches) | (.ok f, st) => (.ok (f, j), st)).1 = .ok (f, ec) →
        AllIn D f ∧ D ec := by
    intro st j p h hj
    obtain ⟨h1, h2⟩ := collectTree_kept (S := S) hW stopAt S.fuel st e (some p) h
    generalize collectTree S W stopAt S.fuel st e (some p) = r at h1 h2 ⊢
    obtain ⟨r, st1⟩ := r
    cases r with
    | error e => exact ⟨h1, fun f ec hf => by cases hf⟩
    | ok f => exact ⟨h1, fun f' ec hf => by cases hf; exact ⟨h2 f rfl, hj⟩⟩
  have fresh : Kept D (match W.config e with
      | .error e => ((.error e.toPy, st) : Except PyErr (Forest Jws × Jws) × Caches)
      | .ok none => (.error .valueError, st)
      | .ok (some j) =>
        match selfVerify S.L.toCrypto W.now j with
        | .error e => (.error e, st)
        | .ok p =>
          match collectTree S W stopAt S.fuel { st with cache := st.cache.set e (.fetched j) } e (some p) with
          | (.error e, st) => (.error e, st)
          | (.ok f, st) => (.ok (f, j), st)).2 ∧
      ∀ f ec, (match W.config e with
      | .error e => ((.error e.toPy, st) : Except PyErr (Forest Jws × Jws) × Caches)
      | .ok none => (.error .valueError, st)
      | .ok (some j) =>
        match selfVerify S.L.toCrypto W.now j with
        | .error e => (.error e, st)
        | .ok p =>
          match collectTree S W stopAt S.fuel { st with cache := st.cache.set e (.fetched j) } e (some p) with
          | (.error e, st) => (.error e, st)
          | (.ok f, st) => (.ok (f, j), st)).1 = .ok (f, ec) → AllIn D f ∧ D ec := by
    have hcf := hW.config e
    generalize W.config e = d at hcf
    rcases d with err | d
    · exact ⟨h, fun f ec hf => by cases hf⟩
    · rcases d with _ | j
      · exact ⟨h, fun f ec hf => by cases hf⟩
      · have hj := hcf j rfl
        simp only
        cases selfVerify S.L.toCrypto W.now j with
        | error err => exact ⟨h, fun f ec hf => by cases hf⟩
        | ok p =>
          refine rest _ j p ⟨?_, h.es⟩ hj
          intro q v hq
          by_cases hqe : e = q
          · simp only [hqe, Dict.get?_set_self] at hq
            cases hq
            exact hj
          · simp only [Dict.get?_set_ne _ _ hqe] at hq
            exact h.cache q v hq
  unfold collect
  simp only
  cases hg : st.cache.get? e with
  | none => exact fresh
  | some c =>
    have hD := h.cache e c hg
    simp only
    cases tooOld S.P W ⟨c.jws⟩ with
    | error err => exact ⟨h, fun f ec hf => by cases hf⟩
    | ok b =>
      cases b with
      | true => exact fresh
      | false =>
        cases hs : signed S c with
        | error err => exact ⟨h, fun f ec hf => by cases hf⟩
        | ok j =>
          have : D j := by
            unfold signed at hs
            split at hs
            · cases hs; exact hD
            · split at hs
              · cases hs; exact hD
              · cases hs
          exact rest st j c.jws.payload h this

/-- What is kept goes back to `D`. -/
structure Good (L : Lib) (jar0 : KeyJar) (D : Jws → Prop) (st : Ent) : Prop where
  cache : ∀ q v, st.cache.get? q = some v → D v.jws
  es : ∀ q j, st.es.get? q = some (.stmt j) → D j
  keys : ∀ e k, k ∈ st.jar.keysOf e → Came L jar0 D e k

theorem verifyChain_came {L : Lib} {jar0 jar : KeyJar} {c : List Doc} (hc : ∀ j, some j ∈ c → D j) (hk : ∀ e k, k ∈ jar.keysOf e → Came L jar0 D e k) :
    ∀ e k, k ∈ (verifyChain L jar c).2.keysOf e → Came L jar0 D e k := by
  rw [verifyChain_jar]
  rcases verifyTrustChain_jar (L := L) (jar := jar) (chain := c) with h | h <;> rw [h]
  · exact hk
  · exact (verifyLoop_origin (K := Came L jar0 D) (H := fun _ => True) c jar []
      (fun j k' hj hkn hu hv => ⟨trivial, fun ks k hks hk' => .declared (hc j hj) hkn hu hv hks hk'⟩) hk (fun _ _ => trivial)).1

theorem verifyChains_came {L : Lib} {jar0 : KeyJar} : ∀ {cs : List (List Doc)} {jar : KeyJar}, (∀ c ∈ cs, ∀ j, some j ∈ c → D j) → (∀ e k, k ∈ jar.keysOf e → Came L jar0 D e k) →
    ∀ e k, k ∈ (verifyChains L cs jar).2.keysOf e → Came L jar0 D e k
  | [], jar, _, hk => hk
  | c :: cs, jar, hc, hk => by
    have h1 := verifyChain_came (hc c (by simp)) hk
    unfold verifyChains
    generalize verifyChain L jar c = r at h1 ⊢
    obtain ⟨r, jar1⟩ := r
    cases r with
    | error e => exact h1
    | ok o =>
      have h2 := verifyChains_came (cs := cs) (jar := jar1) (fun c h => hc c (by simp [h])) h1
      simp only
      generalize verifyChains L cs jar1 = r at h2 ⊢
      obtain ⟨r, jar2⟩ := r
      cases r with
      | error e => exact h2
      | ok tcs => exact h2

variable {jar0 : KeyJar} {w : Web}

theorem getVerified_good (hW : Finds D W) {st : Ent} (h : Good S.L jar0 D st) (e stopAt : String) : Good S.L jar0 D (getVerified S W st e stopAt).2 := by
  obtain ⟨h1, h2⟩ := collect_kept (S := S) hW (st := ⟨st.cache, st.es⟩) ⟨h.cache, h.es⟩ e stopAt
  unfold getVerified
  generalize collect S W ⟨st.cache, st.es⟩ e stopAt = r at h1 h2 ⊢
  obtain ⟨r, c⟩ := r
  simp only at h1 h2
  rcases r with err | ⟨f, ec⟩
  · exact ⟨h1.cache, h1.es, h.keys⟩
  · obtain ⟨hf, hec⟩ := h2 f ec rfl
    have hk := verifyChains_came (L := S.L) (jar0 := jar0) (D := D) (cs := (tree2chains f).map fun c => c.map some ++ [some ec]) (jar := st.jar) (by
      intro c hc j hj
      obtain ⟨c', hc', rfl⟩ := List.mem_map.1 hc
      rcases List.mem_append.1 hj with hj | hj
      · obtain ⟨j', hj', he⟩ := List.mem_map.1 hj
        cases he
        exact hf.chains c' hc' _ hj'
      · rw [List.mem_singleton] at hj
        cases hj
        exact hec) h.keys
    simp only
    generalize verifyChains S.L ((tree2chains f).map fun c => c.map some ++ [some ec]) st.jar = r at hk ⊢
    obtain ⟨r, jar⟩ := r
    cases r with
    | error err => exact ⟨h1.cache, h1.es, hk⟩
    | ok tcs =>
      simp only
      cases applyPolicies S.E S.K tcs with
      | error err => exact ⟨h1.cache, h1.es, hk⟩
      | ok tcs => exact ⟨h1.cache, h1.es, hk⟩

/-- An answer that is taken is signed with a key held for its issuer. -/
theorem parsed_ok (hn : ∀ j, S.noKeys j = false) {now : Int} {jar : KeyJar} {d : Doc} {j : Jws} (h : parsed S now jar d = .ok j) :
    d = some j ∧ ∃ k ∈ jar.keysOf j.payload.iss, S.L.usable j k = true ∧ S.L.verifies j k = true := by
  unfold parsed at h
  split at h
  · cases h
  · rename_i j'
    simp only [hn] at h
    by_cases he : (verifyKeys S.L jar j').isEmpty = true
    · rw [if_pos he] at h
      cases h
    · rw [if_neg he] at h
      by_cases hv : ((verifyKeys S.L jar j').any (S.L.verifies j') && S.L.current now j') = true
      · rw [if_pos hv] at h
        cases h
        rw [Bool.and_eq_true, List.any_eq_true] at hv
        obtain ⟨⟨k, hk, hkv⟩, -⟩ := hv
        rw [verifyKeys, List.mem_filter] at hk
        exact ⟨rfl, k, hk.1, hk.2, hkv⟩
      · rw [if_neg hv] at h
        cases h

theorem Offered.finds (w : Web) (hD : ∀ j, Offered w j → D j) : Finds D w.W where
  config e j h := hD j (.inl ⟨e, h⟩)
  fetch ep a e j h := hD j (.inr (.inl ⟨ep, a, e, h⟩))

theorem Good.subscript {st : Ent} (h : Good S.L jar0 D st) (delta now : Int) (k : String) : Good S.L jar0 D { st with cache := (Collect.subscript delta now st.cache k).2 } :=
  ⟨cache_sub h.cache delta now k, h.es, h.keys⟩

theorem askConfiguration_good (hn : ∀ j, S.noKeys j = false) (hD : ∀ j, Offered w j → D j) {st : Ent} (h : Good S.L jar0 D st) (e : String) :
    Good S.L jar0 D (askConfiguration S w st e).2 := by
  unfold askConfiguration
  cases hc : w.config e with
  | error err => exact h
  | ok d =>
    simp only
    cases hp : parsed S w.W.now st.jar d with
    | error err => exact h
    | ok j =>
      obtain ⟨rfl, -⟩ := parsed_ok hn hp
      refine ⟨?_, h.es, h.keys⟩
      intro q v hq
      simp only [answered] at hq
      by_cases hqe : j.payload.iss = q
      · rw [hqe, Dict.get?_set_self] at hq
        cases hq
        exact hD j (.inr (.inr (.inl ⟨e, hc⟩)))
      · rw [Dict.get?_set_ne _ _ hqe] at hq
        exact h.cache q v hq

theorem askStatement_good (hn : ∀ j, S.noKeys j = false) (hD : ∀ j, Offered w j → D j) {st : Ent} (h : Good S.L jar0 D st) (a e : String) :
    Good S.L jar0 D (askStatement S w st a e).2 ∧
    ∀ p, (askStatement S w st a e).1 = .ok p → ∃ j k, j.payload = p ∧ D j ∧ Came S.L jar0 D j.payload.iss k ∧ S.L.usable j k = true ∧ S.L.verifies j k = true := by
  unfold askStatement
  simp only
  have hr : Good S.L jar0 D (if Dict.has st.cache a = true then
      match Collect.subscript S.P.delta w.W.now st.cache a with
      | (.error e, db) => ((.error e, { st with cache := db }) : Except PyErr Payload × Ent)
      | (.ok none, db) => (.error .typeError, { st with cache := db })
      | (.ok (some c), db) => (.ok c.jws.payload, { st with cache := db })
    else askConfiguration S w st a).2 := by
    split
    · have := h.subscript S.P.delta w.W.now a
      generalize Collect.subscript S.P.delta w.W.now st.cache a = r at this
      obtain ⟨r, db⟩ := r
      rcases r with err | _ | c
      · exact this
      · exact this
      · exact this
    · exact askConfiguration_good hn hD h a
  generalize (if Dict.has st.cache a = true then
      match Collect.subscript S.P.delta w.W.now st.cache a with
      | (.error e, db) => ((.error e, { st with cache := db }) : Except PyErr Payload × Ent)
      | (.ok none, db) => (.error .typeError, { st with cache := db })
      | (.ok (some c), db) => (.ok c.jws.payload, { st with cache := db })
    else askConfiguration S w st a) = r at hr ⊢
  obtain ⟨r, st1⟩ := r
  simp only at hr
  cases r with
  | error err => exact ⟨hr, fun p hp => by cases hp⟩
  | ok ec =>
    simp only
    cases getFetchEndpoint ec with
    | error err => exact ⟨hr, fun p hp => by cases hp⟩
    | ok o =>
      cases o with
      | none => exact ⟨hr, fun p hp => by cases hp⟩
      | some ep =>
        simp only
        by_cases ht : ep.truthy = true
        · rw [if_pos ht]
          cases hf : w.fetch ep a e with
          | error err => exact ⟨hr, fun p hp => by cases hp⟩
          | ok d =>
            simp only
            cases hp : parsed S w.W.now st1.jar d with
            | error err => exact ⟨hr, fun p hp => by cases hp⟩
            | ok j =>
              obtain ⟨rfl, k, hk, hu, hv⟩ := parsed_ok hn hp
              exact ⟨hr, fun p hp => by cases hp; exact ⟨j, k, rfl, hD j (.inr (.inr (.inr ⟨ep, a, e, hf⟩))), hr.keys _ _ hk, hu, hv⟩⟩
        · rw [if_neg ht]
          exact ⟨hr, fun p hp => by cases hp⟩

theorem mem_importKeys (jar : KeyJar) (sub : String) (ks : List Key) (e : String) (k : Key) :
    k ∈ (importKeys jar sub ks).keysOf e ↔ k ∈ jar.keysOf e ∨ (e = sub ∧ k ∈ ks) := by
  unfold importKeys
  by_cases h : e = sub
  · subst h
    simp [KeyJar.keysOf, Dict.get?_set_self]
  · have : (Dict.set jar sub (jar.keysOf sub ++ ks)).get? e = jar.get? e := Dict.get?_set_ne _ _ (Ne.symm h)
    simp only [KeyJar.keysOf] at this ⊢
    rw [this]
    simp [h]

theorem lookUp_good (hn : ∀ j, S.noKeys j = false) (hD : ∀ j, Offered w j → D j) {st : Ent} (h : Good S.L jar0 D st) (a e : String) :
    Good S.L jar0 D (lookUp S w st a e).2 := by
  unfold lookUp
  split
  · have := h.subscript S.P.delta w.W.now e
    generalize Collect.subscript S.P.delta w.W.now st.cache e = r at this
    obtain ⟨r, db⟩ := r
    rcases r with err | _ | c
    · exact this
    · exact this
    · exact this
  · obtain ⟨h1, h2⟩ := askStatement_good hn hD h a e
    generalize askStatement S w st a e = r at h1 h2 ⊢
    obtain ⟨r, st1⟩ := r
    simp only at h1 h2
    cases r with
    | error err => exact h1
    | ok es =>
      simp only
      cases hj : es.jwks with
      | none => exact h1
      | some ks =>
        refine askConfiguration_good hn hD ?_ e
        refine ⟨h1.cache, h1.es, ?_⟩
        intro q k hk
        simp only [mem_importKeys] at hk
        rcases hk with hk | ⟨rfl, hk⟩
        · exact h1.keys q k hk
        · obtain ⟨j, k', rfl, hjD, hc, hu, hv⟩ := h2 es rfl
          exact .declared hjD hc hu hv hj hk

theorem verifiedEndpoint_good (hD : ∀ j, Offered w j → D j) {st : Ent} (h : Good S.L jar0 D st) (e name : String) :
    Good S.L jar0 D (verifiedEndpoint S w st e name).2 := by
  unfold verifiedEndpoint
  split
  · split
    · exact h
    · split
      · exact h
      · split
        · exact h
        · exact h
  · have h1 := getVerified_good (S := S) (Offered.finds w hD) h e ""
    generalize getVerified S w.W st e "" = r at h1 ⊢
    obtain ⟨r, st1⟩ := r
    simp only at h1
    cases r with
    | error err => exact h1
    | ok tcs =>
      simp only
      split
      · exact h1
      · split
        · exact h1
        · exact h1
        · exact h1

theorem askList_good (hD : ∀ j, Offered w j → D j) {st : Ent} (h : Good S.L jar0 D st) (e : String) (type : Option String) (i : Bool) :
    Good S.L jar0 D (askList S w st e type i).2 := by
  have h1 := verifiedEndpoint_good (S := S) hD h e "federation_list_endpoint"
  unfold askList
  generalize verifiedEndpoint S w st e "federation_list_endpoint" = r at h1 ⊢
  obtain ⟨r, st1⟩ := r
  cases r with
  | error err => exact h1
  | ok v => exact h1

theorem gather_good {f : Ent → String → Except PyErr (List String) × Ent} (hf : ∀ st e, Good S.L jar0 D st → Good S.L jar0 D (f st e).2) :
    ∀ (es : List String) (st : Ent), Good S.L jar0 D st → Good S.L jar0 D (gather f es st).2
  | [], _, h => h
  | e :: es, st, h => by
    have h1 := hf st e h
    unfold gather
    generalize f st e = r at h1 ⊢
    obtain ⟨r, st1⟩ := r
    cases r with
    | error err => exact h1
    | ok ids =>
      have h2 := gather_good hf es st1 h1
      simp only
      generalize gather f es st1 = r at h2 ⊢
      obtain ⟨r, st2⟩ := r
      cases r with
      | error err => exact h2
      | ok rest => exact h2

theorem trawl_good (hn : ∀ j, S.noKeys j = false) (hD : ∀ j, Offered w j → D j) (type : String) : ∀ (n : Nat) (st : Ent) (a e : String), Good S.L jar0 D st →
    Good S.L jar0 D (trawl S w type n st a e).2
  | 0, _, _, _, h => h
  | n + 1, st, a, e, h => by
    have h1 := lookUp_good hn hD h a e
    unfold trawl
    generalize lookUp S w st a e = r at h1 ⊢
    obtain ⟨r, st1⟩ := r
    simp only at h1
    cases r with
    | error err => exact h1
    | ok ec =>
      simp only
      cases ec.metadata with
      | none => exact h1
      | some md =>
        simp only
        cases Dict.get? md "federation_entity" with
        | none => exact h1
        | some fe =>
          simp only
          split
          · have h2 := askList_good (S := S) hD h1 e (some type) false
            generalize askList S w st1 e (some type) false = r at h2 ⊢
            obtain ⟨r, st2⟩ := r
            simp only at h2
            cases r with
            | error err => exact h2
            | ok added =>
              have h3 := askList_good (S := S) hD h2 e none true
              simp only
              generalize askList S w st2 e none true = r at h3 ⊢
              obtain ⟨r, st3⟩ := r
              simp only at h3
              cases r with
              | error err => exact h3
              | ok ims =>
                have h4 := gather_good (S := S) (f := fun st x => trawl S w type n st e x) (fun st x hs => trawl_good hn hD type n st e x hs) (ims.getD []) st3 h3
                simp only
                generalize gather (fun st x => trawl S w type n st e x) (ims.getD []) st3 = r at h4 ⊢
                obtain ⟨r, st4⟩ := r
                cases r with
                | error err => exact h4
                | ok below => exact h4
          · exact h1

theorem after_good (hn : ∀ j, S.noKeys j = false) : ∀ (h : List Event) (st : Ent), (∀ ev ∈ h, ∀ j, Offered ev.web j → D j) → Good S.L jar0 D st → Good S.L jar0 D (after S st h)
  | [], _, _, hg => hg
  | ev :: h, st, hD, hg => by
    refine after_good hn h _ (fun ev' hev => hD ev' (by simp [hev])) ?_
    have hD' := hD ev (by simp)
    cases ev with
    | resolve w e stop => exact getVerified_good (Offered.finds w hD') hg e stop
    | walk w type n a e => exact trawl_good hn hD' type n st a e hg
    | configuration w e => exact askConfiguration_good hn hD' hg e
    | statement w a e => exact (askStatement_good hn hD' hg a e).1

/-! ## C216 -/

/-- `j` is offered while one of the things in the history is done. -/
def Heard (h : List Event) (j : Jws) : Prop := ∃ ev ∈ h, Offered ev.web j

/-- C216: every key held for an entity was there at the start or is listed for it in a document that was offered and is signed with a key of its issuer that was come by in the same way. -/
theorem C216_came (S : Setup) (hn : ∀ j, S.noKeys j = false) (jar : KeyJar) (h : List Event) (e : String) (k : Key) (hk : k ∈ (after S { jar := jar } h).jar.keysOf e) :
    Came S.L jar (Heard h) e k :=
  (after_good hn h { jar := jar } (fun ev hev j hj => ⟨ev, hev, hj⟩) ⟨fun q v hq => by simp at hq, fun q j hq => by simp at hq, fun _ _ hk => .start hk⟩).keys e k hk

theorem after_start (S : Setup) (hn : ∀ j, S.noKeys j = false) (jar : KeyJar) (h : List Event) : Good S.L jar (Heard h) (after S { jar := jar } h) :=
  after_good hn h { jar := jar } (fun ev hev j hj => ⟨ev, hev, hj⟩) ⟨fun q v hq => by simp at hq, fun q j hq => by simp at hq, fun _ _ hk => .start hk⟩

/-- C216 in full: after any history, each key held for a trust anchor was configured for it, or is listed for it in a statement of a trust anchor, signed with such a key. -/
def C216_full : Prop :=
  ∀ (S : Setup) (jar : KeyJar) (h : List Event), (∀ j, S.noKeys j = false) → ∀ a ∈ S.P.anchors, ∀ k ∈ (after S { jar := jar } h).jar.keysOf a, Anchored S.L S.P.anchors jar (Heard h) a k

/-- C216 for entities that do nothing but walk down the federation. -/
def C216_walk_full : Prop :=
  ∀ (S : Setup) (jar : KeyJar) (h : List Event), (∀ j, S.noKeys j = false) → (∀ ev ∈ h, ∃ w type n a e, ev = .walk w type n a e) →
    ∀ a ∈ S.P.anchors, ∀ k ∈ (after S { jar := jar } h).jar.keysOf a, Anchored S.L S.P.anchors jar (Heard h) a k

/-- The chain starts with a statement in the name of its anchor, signed with a key that is anchored. -/
def SpokenFor (S : Setup) (jar : KeyJar) (D : Jws → Prop) (tc : TrustChain) : Prop :=
  ∃ j rest k, tc.chain = some j :: rest ∧ j.payload.iss = tc.anchor ∧ Anchored S.L S.P.anchors jar D tc.anchor k ∧ S.L.usable j k = true ∧ S.L.verifies j k = true

/-- C216, what it is for, in full: a trust chain that is returned with a trust anchor as its anchor starts with a statement signed with a key of the trust anchor. -/
def C216_chain_full : Prop :=
  ∀ (S : Setup) (jar : KeyJar) (h : List Event) (w : Web) (e stopAt : String) (tcs : List TrustChain) (tc : TrustChain), (∀ j, S.noKeys j = false) →
    (getVerified S w.W (after S { jar := jar } h) e stopAt).1 = .ok tcs → tc ∈ tcs → tc.anchor ∈ S.P.anchors → SpokenFor S jar (Heard (h ++ [.resolve w e stopAt])) tc

/-- Nobody but trust anchors signs statements about trust anchors, as far as their signatures can be verified. -/
def Mannered (S : Setup) (jar : KeyJar) (D : Jws → Prop) : Prop :=
  ∀ j k, D j → j.payload.sub ∈ S.P.anchors → Came S.L jar D j.payload.iss k → S.L.usable j k = true → S.L.verifies j k = true → j.payload.iss ∈ S.P.anchors

theorem Came.anchored {S : Setup} {jar : KeyJar} {D : Jws → Prop} (hm : Mannered S jar D) {e : String} {k : Key} (h : Came S.L jar D e k) (he : e ∈ S.P.anchors) :
    Anchored S.L S.P.anchors jar D e k := by
  induction h with
  | start h => exact .start h
  | declared hD hk hu hv hj hks ih =>
    have hi := hm _ _ hD he hk hu hv
    exact .declared hD hi (ih hi) hu hv hj hks

/-- C216 as far as it holds: if nobody but trust anchors signs statements about trust anchors, the keys held for these are theirs. Missing: what others say about trust anchors is taken as well. -/
theorem C216_keys_partial (S : Setup) (hn : ∀ j, S.noKeys j = false) (jar : KeyJar) (h : List Event) (hm : Mannered S jar (Heard h)) (a : String) (ha : a ∈ S.P.anchors) (k : Key)
    (hk : k ∈ (after S { jar := jar } h).jar.keysOf a) : Anchored S.L S.P.anchors jar (Heard h) a k :=
  (C216_came S hn jar h a k hk).anchored hm ha

theorem runAll_came {L : Lib} {jar0 : KeyJar} : ∀ {cs : List (List Doc)} {jar : KeyJar}, (∀ c ∈ cs, ∀ j, some j ∈ c → D j) → (∀ e k, k ∈ jar.keysOf e → Came L jar0 D e k) →
    ∀ e k, k ∈ (runAll L jar cs).keysOf e → Came L jar0 D e k
  | [], _, _, hk => hk
  | c :: cs, jar, hc, hk => runAll_came (cs := cs) (fun c h => hc c (by simp [h])) (verifyChain_came (hc c (by simp)) hk)

theorem getVerified_spoken (hW : Finds D W) {st : Ent} (h : Good S.L jar0 D st) (e stopAt : String) (tcs : List TrustChain) (tc : TrustChain)
    (hr : (getVerified S W st e stopAt).1 = .ok tcs) (ht : tc ∈ tcs) :
    ∃ j rest k, tc.chain = some j :: rest ∧ j.payload.iss = tc.anchor ∧ Came S.L jar0 D tc.anchor k ∧ S.L.usable j k = true ∧ S.L.verifies j k = true := by
  obtain ⟨-, h2⟩ := collect_kept (S := S) hW (st := ⟨st.cache, st.es⟩) ⟨h.cache, h.es⟩ e stopAt
  unfold getVerified at hr
  generalize collect S W ⟨st.cache, st.es⟩ e stopAt = r at hr h2
  obtain ⟨r, c⟩ := r
  rcases r with err | ⟨f, ec⟩
  · cases hr
  · obtain ⟨hf, hec⟩ := h2 f ec rfl
    have hdocs : ∀ c ∈ (tree2chains f).map (fun c => c.map some ++ [some ec]), ∀ j, some j ∈ c → D j := by
      intro c hc j hj
      obtain ⟨c', hc', rfl⟩ := List.mem_map.1 hc
      rcases List.mem_append.1 hj with hj | hj
      · obtain ⟨j', hj', he⟩ := List.mem_map.1 hj
        cases he
        exact hf.chains c' hc' _ hj'
      · rw [List.mem_singleton] at hj
        cases hj
        exact hec
    have hv := fun l => verifyChains_mem (L := S.L) (cs := (tree2chains f).map fun c => c.map some ++ [some ec]) (jar := st.jar) (tcs := l)
    simp only at hr
    generalize (tree2chains f).map (fun c => c.map some ++ [some ec]) = cs at hr hv hdocs
    generalize verifyChains S.L cs st.jar = r at hr hv
    obtain ⟨r, jar⟩ := r
    cases r with
    | error err => cases hr
    | ok tcs0 =>
      simp only at hr
      cases hp : applyPolicies S.E S.K tcs0 with
      | error err => rw [hp] at hr; cases hr
      | ok tcs1 =>
        rw [hp] at hr
        cases hr
        obtain ⟨tc0, ht0, hap⟩ := (applyPolicies_mem hp).1 tc ht
        obtain ⟨pre, c, post, rfl, hc⟩ := (hv _ rfl tc0).1 ht0
        have hkeys := runAll_came (L := S.L) (jar0 := jar0) (D := D) (cs := pre) (jar := st.jar) (fun c hc => hdocs c (by simp [hc])) h.keys
        obtain ⟨p, ps, x, h1, -, rfl⟩ := verifyChain_ok.1 hc
        obtain ⟨⟨j, ds, rfl, -⟩, h5, h6, -⟩ := verifyTrustChain_ok.1 h1
        have hst : statements (some j :: ds) = [] ++ j :: statements ds := rfl
        obtain ⟨⟨k, hu, hvk, hk | ⟨_, hk, -⟩⟩, -⟩ := h6 [] j (statements ds) hst
        · have hpj : p = j.payload := by
            rw [hst] at h5
            simpa using (List.cons.inj h5).1
          obtain ⟨leaf, md, -, -, ⟨-, m, -, rfl⟩ | ⟨-, m, -, rfl⟩⟩ := applyToChain_ok.1 hap
          · exact ⟨j, ds, k, rfl, by rw [hpj], by rw [hpj]; exact hkeys _ _ hk, hu, hvk⟩
          · exact ⟨j, ds, k, rfl, by rw [hpj], by rw [hpj]; exact hkeys _ _ hk, hu, hvk⟩
        · cases hk

theorem Good.imp {L : Lib} {jar : KeyJar} {D D' : Jws → Prop} (hD : ∀ j, D j → D' j) {st : Ent} (h : Good L jar D st) : Good L jar D' st where
  cache q v hq := hD _ (h.cache q v hq)
  es q j hq := hD _ (h.es q j hq)
  keys e k hk := by
    have := h.keys e k hk
    clear hk
    induction this with
    | start h => exact .start h
    | declared hd _ hu hv hj hks ih => exact .declared (hD _ hd) ih hu hv hj hks

/-- C216 as far as it holds, for trust chains. Missing: the same as above. -/
theorem C216_chain_partial (S : Setup) (hn : ∀ j, S.noKeys j = false) (jar : KeyJar) (h : List Event) (w : Web) (e stopAt : String) (tcs : List TrustChain) (tc : TrustChain)
    (hm : Mannered S jar (Heard (h ++ [.resolve w e stopAt]))) (hr : (getVerified S w.W (after S { jar := jar } h) e stopAt).1 = .ok tcs) (ht : tc ∈ tcs) (ha : tc.anchor ∈ S.P.anchors) :
    SpokenFor S jar (Heard (h ++ [.resolve w e stopAt])) tc := by
  have hg := (after_start S hn jar h).imp (D' := Heard (h ++ [.resolve w e stopAt])) (fun j ⟨ev, hev, hj⟩ => ⟨ev, by simp [hev], hj⟩)
  have hW : Finds (Heard (h ++ [.resolve w e stopAt])) w.W := Offered.finds w fun j hj => ⟨.resolve w e stopAt, by simp, hj⟩
  obtain ⟨j, rest, k, h1, h2, h3, h4, h5⟩ := getVerified_spoken hW hg e stopAt tcs tc hr ht
  exact ⟨j, rest, k, h1, h2, h3.anchored hm ha, h4, h5⟩

end

namespace Ex216
def L : Lib := { usable := fun _ _ => true, verifies := fun j k => decide (j.sig = k), current := fun _ _ => true, unknownRaises := true }
def S : Setup where
  L := L
  P := { anchors := ["https://ta"] }
  fuel := 10
  E := SetEnum.insertion
  K := SetEnum.insertion
  noKeys _ := false
  attr := true
  priority := []
  text := fun | some (.str s) => s | _ => "None"
/-- The keys the entity starts with: that of its trust anchor. -/
def jar : KeyJar := [("https://ta", [1])]
/-- What entities publish (`confs`), what authorities answer about others (`told`), and what they list. -/
def web (confs : List (String × Jws)) (told : List ((String × String) × Jws)) (lists : List ((String × Bool) × List String)) : Web where
  W := { now := 0
         config := fun e => .ok ((confs.find? (·.1 = e)).map (·.2))
         fetch := fun _ a e => .ok ((told.find? (·.1 = (a, e))).map (·.2)) }
  config e := .ok ((confs.find? (·.1 = e)).map (·.2))
  fetch _ a e := .ok ((told.find? (·.1 = (a, e))).map (·.2))
  list url _ i := .ok ((lists.find? (·.1 = (url, i))).map (·.2))

theorem offered_web {confs told lists} {j : Jws} (h : Offered (web confs told lists) j) : j ∈ confs.map (·.2) ++ told.map (·.2) := by
  have hc : ∀ e, (confs.find? (·.1 = e)).map (·.2) = some j → j ∈ confs.map (·.2) ++ told.map (·.2) := by
    intro e he
    obtain ⟨x, hx, rfl⟩ := Option.map_eq_some_iff.1 he
    exact List.mem_append_left _ (List.mem_map.2 ⟨x, List.mem_of_find?_eq_some hx, rfl⟩)
  have hf : ∀ a e, (told.find? (·.1 = (a, e))).map (·.2) = some j → j ∈ confs.map (·.2) ++ told.map (·.2) := by
    intro a e he
    obtain ⟨x, hx, rfl⟩ := Option.map_eq_some_iff.1 he
    exact List.mem_append_right _ (List.mem_map.2 ⟨x, List.mem_of_find?_eq_some hx, rfl⟩)
  rcases h with ⟨e, h⟩ | ⟨_, a, e, h⟩ | ⟨e, h⟩ | ⟨_, a, e, h⟩
  · exact hc e (Except.ok.inj h)
  · exact hf a e (Except.ok.inj h)
  · exact hc e (Except.ok.inj h)
  · exact hf a e (Except.ok.inj h)

def conf (e : String) (k : Key) (hints : Option (List String)) (md : Dict Policy.Metadata) : Jws :=
  ⟨{ iss := e, sub := e, exp := some 100000, jwks := some [k], hints := hints, metadata := some md }, k⟩
def fe (e : String) : Dict Policy.Metadata := [("federation_entity", [("federation_fetch_endpoint", .str (e ++ "/fetch")), ("federation_list_endpoint", .str (e ++ "/list"))])]
def rp : Dict Policy.Metadata := [("openid_relying_party", [("scopes", .str "admin")])]
/-- A statement, signed with `by_`. -/
def about (a e : String) (by_ k : Key) (pol : Dict Policy.MetadataPolicy := []) : Jws := ⟨{ iss := a, sub := e, exp := some 100000, jwks := some [k], policy := pol }, by_⟩
/-- The policy of the trust anchor: no scope but `openid`. -/
def pol : Dict Policy.MetadataPolicy := [("openid_relying_party", [("scopes", [("value", .str "openid")])])]

def confs : List (String × Jws) :=
  [("https://ta", conf "https://ta" 1 none (fe "https://ta")), ("https://im", conf "https://im" 2 (some ["https://ta"]) (fe "https://im")),
   ("https://rp", conf "https://rp" 3 (some ["https://im"]) rp),
   ("https://x", conf "https://x" 5 none (fe "https://x")), ("https://evil", conf "https://evil" 4 (some ["https://x"]) rp)]
/-- The intermediate `im` answers questions about `rp` and `im2` with a statement about the trust anchor, listing its own key; `x` answers with a statement in the name of the trust anchor, signed with
the key of `im`. -/
def told : List ((String × String) × Jws) :=
  [(("https://ta", "https://im"), about "https://ta" "https://im" 1 2 pol), (("https://im", "https://rp"), about "https://im" "https://ta" 2 2),
   (("https://im", "https://im2"), about "https://im" "https://ta" 2 2), (("https://x", "https://evil"), about "https://ta" "https://evil" 2 4)]
def w : Web := web confs told [(("https://im/list", false), []), (("https://im/list", true), ["https://im2"])]

/-- All that is anchored for the trust anchor is its own key. -/
theorem only {h : List Event} (hh : ∀ ev ∈ h, ev.web = w) {e : String} {k : Key} (ha : Anchored L ["https://ta"] jar (Heard h) e k) (he : e = "https://ta") : k = 1 := by
  induction ha with
  | start hk =>
    subst he
    have hk : _ ∈ [1] := hk
    simpa using hk
  | @declared j k' ks k hD hi _ _ hv hj hks ih =>
    obtain ⟨ev, hev, ho⟩ := hD
    rw [hh ev hev] at ho
    have hj1 : j.sig = 1 := by
      have := ih (by simpa using hi)
      subst this
      simpa [L] using hv
    have key : ∀ j ∈ confs.map (·.2) ++ told.map (·.2), j.sig = 1 → j.payload.sub = "https://ta" → j.payload.jwks = some [1] := by decide +kernel
    have := key j (offered_web ho) hj1 he
    rw [this] at hj
    cases hj
    simpa using hks
end Ex216

/-- C216 does not hold: an intermediate that is asked about a subordinate may answer with a statement about the trust anchor, and the keys in it are taken as keys of the trust anchor, although the
resolution fails. -/
theorem C216_resolve_violation : ¬ C216_full := by
  intro h
  have hk : 2 ∈ (after Ex216.S { jar := Ex216.jar } [.resolve Ex216.w "https://rp" ""]).jar.keysOf "https://ta" := by decide +kernel
  have := Ex216.only (h := [.resolve Ex216.w "https://rp" ""]) (fun ev hev => by rw [List.mem_singleton] at hev; subst hev; rfl)
    (h Ex216.S Ex216.jar _ (fun _ => rfl) "https://ta" (by decide) 2 hk) rfl
  cases this

/-- C216 does not hold for walks either: so does a statement an intermediate answers with during a walk. -/
theorem C216_walk_violation : ¬ C216_walk_full := by
  intro h
  have hk : 2 ∈ (after Ex216.S { jar := Ex216.jar } [.walk Ex216.w "openid_relying_party" 5 "https://ta" "https://im"]).jar.keysOf "https://ta" := by decide +kernel
  have := Ex216.only (h := [.walk Ex216.w "openid_relying_party" 5 "https://ta" "https://im"]) (fun ev hev => by rw [List.mem_singleton] at hev; subst hev; rfl)
    (h Ex216.S Ex216.jar _ (fun _ => rfl) (fun ev hev => by rw [List.mem_singleton] at hev; exact ⟨_, _, _, _, _, hev⟩) "https://ta" (by decide) 2 hk) rfl
  cases this

/-- The chain that the intermediate can make up then, with the trust anchor as its anchor and without the policy of the trust anchor. -/
def Ex216.forged : TrustChain where
  anchor := "https://ta"
  issPath := ["https://evil", "https://ta"]
  exp := 100000
  verified := [(about "https://ta" "https://evil" 2 4).payload, (conf "https://evil" 4 (some ["https://x"]) rp).payload]
  chain := [some (about "https://ta" "https://evil" 2 4), some (conf "https://evil" 4 (some ["https://x"]) rp)]
  metadata := [("openid_relying_party", .obj [("scopes", .str "admin")])]

/-- C216 does not hold for trust chains: from then on the intermediate speaks for the trust anchor, past its policies and constraints. -/
theorem C216_chain_violation : ¬ C216_chain_full := by
  intro h
  have hr : (getVerified Ex216.S Ex216.w.W (after Ex216.S { jar := Ex216.jar } [.resolve Ex216.w "https://rp" ""]) "https://evil" "").1 = .ok [Ex216.forged] := by decide +kernel
  obtain ⟨j, rest, k, h1, -, h3, -, h5⟩ := h Ex216.S Ex216.jar [.resolve Ex216.w "https://rp" ""] Ex216.w "https://evil" "" _ Ex216.forged (fun _ => rfl) hr (by simp) (by decide)
  have := Ex216.only (h := [.resolve Ex216.w "https://rp" "", .resolve Ex216.w "https://evil" ""])
    (fun ev hev => by
      rcases List.mem_cons.1 hev with rfl | hev
      · rfl
      · rw [List.mem_singleton] at hev; subst hev; rfl) h3 rfl
  subst this
  have hj : j = Ex216.about "https://ta" "https://evil" 2 4 := by
    have := (List.cons.inj h1).1
    exact (Option.some.inj this).symm
  subst hj
  cases h5

namespace Ex216
/-- A federation whose members keep to what they are asked for. -/
def told' : List ((String × String) × Jws) :=
  [(("https://ta", "https://im"), about "https://ta" "https://im" 1 2 pol), (("https://im", "https://rp"), about "https://im" "https://rp" 2 3)]
def w' : Web := web confs told' [(("https://im/list", false), ["https://rp"]), (("https://im/list", true), [])]
def h' : List Event := [.walk w' "openid_relying_party" 5 "https://ta" "https://im", .configuration w' "https://im"]
example : Mannered S jar (Heard (h' ++ [.resolve w' "https://rp" ""])) := by
  intro j k ⟨ev, hev, ho⟩ hs _ _ _
  have hw : ev.web = w' := by
    simp only [h', List.cons_append, List.nil_append, List.mem_cons, List.not_mem_nil, or_false] at hev
    rcases hev with rfl | rfl | rfl <;> rfl
  rw [hw] at ho
  have key : ∀ j ∈ confs.map (·.2) ++ told'.map (·.2), j.payload.sub ∈ ["https://ta"] → j.payload.iss ∈ ["https://ta"] := by decide +kernel
  exact key j (offered_web ho) hs
example : (getVerified S w'.W (after S { jar := jar } h') "https://rp" "").1.toOption.map (·.map fun tc => (tc.anchor, tc.metadata)) =
    some [("https://ta", [("openid_relying_party", .obj [("scopes", .str "openid")])])] := by decide +kernel
example : (trawl S w' "openid_relying_party" 5 { jar := jar } "https://ta" "https://im").1 = .ok ["https://rp"] := by decide +kernel
end Ex216

end Fed.Discover.Walk
