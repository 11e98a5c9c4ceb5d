import Verif.Collect.Keys
import Verif.Collect.CacheProps
import Verif.Collect.TreeProps
/-
Lemmas about the collector: what the caches hold during a collection, and the shape of the collected tree.
-/
namespace Fed.Collect
open Fed

/-! ### dictionaries and trees -/

theorem Forest.items_set_mem {α} {f : Forest α} {i : String} {b : Option (α × Forest α)} {x : String × Option (α × Forest α)}
    (h : x ∈ (f.set i b).items) : x = (i, b) ∨ x ∈ f.items := by
  induction f with
  | nil => rcases b with _ | ⟨s, sub⟩ <;> simpa [Forest.set, Forest.items] using h
  | missing j r ih =>
    simp only [Forest.set] at h
    split at h
    · rcases b with _ | ⟨s, sub⟩ <;> simp only [Forest.items, List.mem_cons] at h ⊢
      · exact h.imp id Or.inr
      · exact h.imp id Or.inr
    · simp only [Forest.items, List.mem_cons] at h ⊢
      rcases h with h | h
      · exact Or.inr (Or.inl h)
      · exact (ih h).imp id Or.inr
  | node j t sub' r ih1 ih =>
    simp only [Forest.set] at h
    split at h
    · rcases b with _ | ⟨s, sub⟩ <;> simp only [Forest.items, List.mem_cons] at h ⊢
      · exact h.imp id Or.inr
      · exact h.imp id Or.inr
    · simp only [Forest.items, List.mem_cons] at h ⊢
      rcases h with h | h
      · exact Or.inr (Or.inl h)
      · exact (ih h).imp id Or.inr

theorem Forest.keys_set {α} (f : Forest α) (i : String) (b : Option (α × Forest α)) :
    (f.set i b).keys = if i ∈ f.keys then f.keys else f.keys ++ [i] := by
  induction f with
  | nil => rcases b with _ | ⟨s, sub⟩ <;> simp [Forest.set, Forest.keys, Forest.items]
  | missing j r ih =>
    simp only [Forest.keys] at ih
    simp only [Forest.set]
    by_cases h : j = i
    · subst h; rcases b with _ | ⟨s, sub⟩ <;> simp [Forest.keys, Forest.items]
    · simp only [h, if_false, Forest.keys, Forest.items, List.map_cons, ih, List.mem_cons, Ne.symm h, false_or]
      by_cases hm : i ∈ List.map (fun x => x.fst) r.items <;> simp [hm]
  | node j t sub' r ih1 ih =>
    simp only [Forest.keys] at ih
    simp only [Forest.set]
    by_cases h : j = i
    · subst h; rcases b with _ | ⟨s, sub⟩ <;> simp [Forest.keys, Forest.items]
    · simp only [h, if_false, Forest.keys, Forest.items, List.map_cons, ih, List.mem_cons, Ne.symm h, false_or]
      by_cases hm : i ∈ List.map (fun x => x.fst) r.items <;> simp [hm]

theorem dedup_append_mem {α} [DecidableEq α] {l r : List α} {a : α} (h : a ∈ l) : dedup (l ++ a :: r) = dedup (l ++ r) := by
  induction l with
  | nil => simp at h
  | cons x l ih =>
    simp only [List.cons_append, dedup]
    by_cases hx : a ∈ l
    · rw [ih hx]
    · have : a = x := by simpa [hx] using h
      subst this
      congr 1
      clear ih h
      induction l with
      | nil =>
        simp only [List.nil_append, dedup, ne_eq, not_true_eq_false, decide_false, Bool.false_eq_true,
          not_false_eq_true, List.filter_cons_of_neg, List.filter_filter, Bool.and_self]
      | cons y l ih =>
        simp only [List.mem_cons, not_or] at hx
        simp only [List.cons_append, dedup]
        rw [List.filter_cons_of_pos (by simpa using Ne.symm hx.1), List.filter_cons_of_pos (by simpa using Ne.symm hx.1)]
        congr 1
        have := congrArg (List.filter fun z => z ≠ y) (ih hx.2)
        simp only [List.filter_filter] at this ⊢
        simp only [Bool.and_comm] at this ⊢
        exact this

theorem dedup_of_nodup {α} [DecidableEq α] {l : List α} (h : l.Nodup) : dedup l = l := by
  induction l with
  | nil => rfl
  | cons a l ih =>
    rw [List.nodup_cons] at h
    rw [dedup, ih h.2]
    congr 1
    rw [List.filter_eq_self]
    intro x hx
    simp only [decide_eq_true_eq, ne_eq]
    rintro rfl; exact h.1 hx

/-! ### one lookup in the configuration cache -/

theorem subscript_cases {β} [CacheVal β] (delta now : Int) (db : Dict β) (k : String) :
    (∃ v, db.get? k = some v ∧ CacheVal.dictExp v = none ∧ subscript delta now db k = (.ok (some v), db)) ∨
    (∃ v e, db.get? k = some v ∧ CacheVal.dictExp v = some (some e) ∧ now < e - delta ∧
      subscript delta now db k = (.ok (some v), db)) ∨
    (∃ v e, db.get? k = some v ∧ CacheVal.dictExp v = some (some e) ∧ ¬ now < e - delta ∧
      subscript delta now db k = (.ok none, drop db k)) ∨
    (∃ v, db.get? k = some v ∧ CacheVal.dictExp v = some none ∧ subscript delta now db k = (.error .keyError, db)) ∨
    (db.get? k = none ∧ subscript delta now db k = (.ok none, db)) := by
  unfold subscript
  cases hv : db.get? k with
  | none => simp
  | some v =>
    cases hd : CacheVal.dictExp v with
    | none => left; exact ⟨v, rfl, hd, by simp [hd]⟩
    | some o =>
      cases o with
      | none => right; right; right; left; exact ⟨v, rfl, hd, by simp [hd]⟩
      | some e =>
        by_cases h : now < e - delta
        · right; left; exact ⟨v, e, rfl, hd, h, by simp [hd, h]⟩
        · right; right; left; exact ⟨v, e, rfl, hd, h, by simp [hd, h]⟩

/-- The lookup in a configuration cache, by cases. -/
theorem subscript_config (delta now : Int) (db : Dict Config) (k : String) :
    (∃ c e, db.get? k = some c ∧ c.jws.payload.exp = some e ∧ now < e - delta ∧
      subscript delta now db k = (.ok (some c), db)) ∨
    (∃ c e, db.get? k = some c ∧ c.jws.payload.exp = some e ∧ ¬ now < e - delta ∧
      subscript delta now db k = (.ok none, drop db k)) ∨
    (∃ c, db.get? k = some c ∧ c.jws.payload.exp = none ∧ subscript delta now db k = (.error .keyError, db)) ∨
    (db.get? k = none ∧ subscript delta now db k = (.ok none, db)) := by
  have := subscript_cases delta now db k
  simpa [CacheVal.dictExp] using this

/-! ### where configurations and statements come from -/

/-- The entity configuration of `a` is the one that was cached at the start, or the one found now, self-signed. -/
def ConfigFrom (C : Crypto) (W : World) (st0 : State) (a : String) (j : Jws) : Prop :=
  st0.config.get? a = some ⟨j⟩ ∨ (W.config a = .ok (some j) ∧ selfVerify C W.now j = .ok j.payload)

/-- The fetch endpoint named in the configuration of `a` answered with `s` when asked about `e`. -/
def Fetched (C : Crypto) (W : World) (st0 : State) (a e : String) (s : Jws) : Prop :=
  ∃ j fe ep, ConfigFrom C W st0 a j ∧ j.payload.md.get? "federation_entity" = some fe ∧
    fe.get? "federation_fetch_endpoint" = some ep ∧ W.fetch ep a e = .ok (some s)

/-- What the caches hold in the course of a collection that started with the caches `st0`. -/
structure Inv (C : Crypto) (W : World) (st0 st : State) : Prop where
  config : ∀ k c, st.config.get? k = some c → ConfigFrom C W st0 k c.jws
  es : ∀ k j, st.es.get? k = some (.stmt j) →
    st0.es.get? k = some (.stmt j) ∨ ∃ a e, k = cacheKey a e ∧ Fetched C W st0 a e j

theorem Inv.refl (C : Crypto) (W : World) (st : State) : Inv C W st st :=
  ⟨fun _ _ h => Or.inl h, fun _ _ h => Or.inl h⟩

theorem Inv.drop_config {C W st0 st} (h : Inv C W st0 st) (k : String) :
    Inv C W st0 { st with config := drop st.config k } := by
  refine ⟨fun q c hq => ?_, h.es⟩
  rw [get?_drop] at hq
  split at hq
  · cases hq
  · exact h.config q c hq

theorem Inv.drop_es {C W st0 st} (h : Inv C W st0 st) (k : String) : Inv C W st0 { st with es := drop st.es k } := by
  refine ⟨h.config, fun q c hq => ?_⟩
  rw [get?_drop] at hq
  split at hq
  · cases hq
  · exact h.es q c hq

theorem Inv.subscript {C W st0 st} (h : Inv C W st0 st) (delta now : Int) (k : String) :
    Inv C W st0 { st with config := (Collect.subscript delta now st.config k).2 } := by
  rcases subscript_config delta now st.config k with ⟨c, e, h1, h2, h3, h4⟩ | ⟨c, e, h1, h2, h3, h4⟩ | ⟨c, h1, h2, h4⟩ | ⟨h1, h4⟩
  · rw [h4]; exact h
  · rw [h4]; exact h.drop_config k
  · rw [h4]; exact h
  · rw [h4]; exact h

theorem selfVerify_payload {C : Crypto} {now : Int} {j : Jws} {p : Payload} (h : selfVerify C now j = .ok p) : p = j.payload := by
  unfold selfVerify at h
  split at h
  · cases h
  · split at h
    · cases h; rfl
    · cases h

theorem selfVerify_current {C : Crypto} {now : Int} {j : Jws} {p : Payload} (h : selfVerify C now j = .ok p) : C.current now j = true := by
  unfold selfVerify at h
  split at h
  · cases h
  · split at h
    · rename_i hc
      rw [Bool.and_eq_true] at hc
      exact hc.2
    · cases h

theorem Inv.refreshConfig {C W st0 st} (h : Inv C W st0 st) (a : String) :
    Inv C W st0 (Collect.refreshConfig C W st a).2 ∧
    ∀ ep, (Collect.refreshConfig C W st a).1 = .ok ep →
      ∃ j, W.config a = .ok (some j) ∧ selfVerify C W.now j = .ok j.payload ∧ getFetchEndpoint j.payload = .ok ep := by
  unfold Collect.refreshConfig
  split
  · exact ⟨h, by simp⟩
  · exact ⟨h, by simp⟩
  · rename_i j hj
    split
    · exact ⟨h, by simp⟩
    · rename_i p hp
      have := selfVerify_payload hp
      subst this
      split
      · exact ⟨h, by simp⟩
      · rename_i ep he
        refine ⟨⟨fun q c hq => ?_, h.es⟩, fun ep' h' => ⟨j, hj, hp, by cases h'; exact he⟩⟩
        rw [Dict.get?_set] at hq
        split at hq
        · cases hq; rename_i e; subst e; exact Or.inr ⟨hj, hp⟩
        · exact h.config q c hq

theorem Inv.fetchEndpoint {C W st0 st} (h : Inv C W st0 st) (P : Params) (a : String) :
    Inv C W st0 (Collect.fetchEndpoint C P W st a).2 ∧
    ∀ ep, (Collect.fetchEndpoint C P W st a).1 = .ok ep →
      ∃ j, ConfigFrom C W st0 a j ∧ getFetchEndpoint j.payload = .ok ep := by
  have refr : ∀ st', Inv C W st0 st' → Inv C W st0 (Collect.refreshConfig C W st' a).2 ∧
      ∀ ep, (Collect.refreshConfig C W st' a).1 = .ok ep → ∃ j, ConfigFrom C W st0 a j ∧ getFetchEndpoint j.payload = .ok ep := by
    intro st' h'
    refine ⟨(h'.refreshConfig a).1, fun ep he => ?_⟩
    obtain ⟨j, h1, h2, h3⟩ := (h'.refreshConfig a).2 ep he
    exact ⟨j, Or.inr ⟨h1, h2⟩, h3⟩
  unfold Collect.fetchEndpoint
  rcases subscript_config P.delta W.now st.config a with ⟨c, e, h1, h2, h3, h4⟩ | ⟨c, e, h1, h2, h3, h4⟩ | ⟨c, h1, h2, h4⟩ | ⟨h1, h4⟩
  · rw [h4]
    simp only
    split
    · exact ⟨h, by simp⟩
    · rename_i ep he
      split
      · exact ⟨h, fun ep' h' => ⟨c.jws, h.config _ _ h1, by cases h'; exact he⟩⟩
      · exact refr _ h
  · rw [h4]; exact refr _ (h.drop_config a)
  · rw [h4]; exact ⟨h, by simp⟩
  · rw [h4]; exact refr _ h

theorem usableEndpoint_some {ep : Option Val} {v : Val} (h : usableEndpoint ep = some v) : ep = some v ∧ v.truthy = true := by
  unfold usableEndpoint at h
  split at h
  · split at h
    · cases h; exact ⟨rfl, by assumption⟩
    · cases h
  · cases h

theorem getFetchEndpoint_some {p : Payload} {v : Val} (h : getFetchEndpoint p = .ok (some v)) :
    ∃ fe, p.md.get? "federation_entity" = some fe ∧ fe.get? "federation_fetch_endpoint" = some v := by
  unfold getFetchEndpoint at h
  split at h
  · cases h
  · rename_i fe hf; exact ⟨fe, hf, by simpa using h⟩

/-- The authority has a configuration without a fetch endpoint. -/
def NoEndpoint (C : Crypto) (W : World) (st0 : State) (a : String) : Prop :=
  ∃ j ep, ConfigFrom C W st0 a j ∧ getFetchEndpoint j.payload = .ok ep ∧ usableEndpoint ep = none

theorem Inv.fetchStatement {C W st0 st} (h : Inv C W st0 st) (P : Params) (e a : String) :
    Inv C W st0 (Collect.fetchStatement C P W st e a).2 ∧
    (∀ s, (Collect.fetchStatement C P W st e a).1 = .ok (some s) → Fetched C W st0 a e s) ∧
    ((Collect.fetchStatement C P W st e a).1 = .ok none → NoEndpoint C W st0 a) := by
  unfold Collect.fetchStatement
  have hE := h.fetchEndpoint P a
  generalize hr : Collect.fetchEndpoint C P W st a = r at hE
  obtain ⟨r1, st1⟩ := r
  cases r1 with
  | error x => exact ⟨hE.1, by simp, by simp⟩
  | ok ep =>
    simp only
    obtain ⟨j0, hj0, hep⟩ := hE.2 ep rfl
    split
    · exact ⟨hE.1, by simp, fun _ => ⟨j0, ep, hj0, hep, by assumption⟩⟩
    · rename_i v hv
      obtain ⟨rfl, -⟩ := usableEndpoint_some hv
      obtain ⟨fe, hfe, hv'⟩ := getFetchEndpoint_some hep
      split
      · exact ⟨hE.1, by simp, by simp⟩
      · exact ⟨hE.1, by simp, by simp⟩
      · rename_i j hj
        have hF : Fetched C W st0 a e j := ⟨j0, fe, v, hj0, hfe, hv', hj⟩
        have hI : Inv C W st0 { st1 with es := st1.es.set (cacheKey a e) (.stmt j) } := by
          refine ⟨hE.1.config, fun q c hq => ?_⟩
          rw [Dict.get?_set] at hq
          split at hq
          · rename_i hk; cases hq; subst hk; exact Or.inr ⟨a, e, rfl, hF⟩
          · exact hE.1.es q c hq
        split
        · exact ⟨hI, by simp, by simp⟩
        · refine ⟨⟨hI.config, fun q c hq => ?_⟩, fun s hs => by cases hs; exact hF, by simp⟩
          rw [Dict.get?_set] at hq
          split at hq
          · cases hq
          · exact hI.es q c hq

/-- A statement by `a` about `e` that was in the cache at the start or was fetched, if need be for another pair with the same
cache key. -/
def CachedOrFetched (C : Crypto) (W : World) (st0 : State) (a e : String) (s : Jws) : Prop :=
  st0.es.get? (cacheKey a e) = some (.stmt s) ∨ ∃ a' e', cacheKey a e = cacheKey a' e' ∧ Fetched C W st0 a' e' s

theorem Inv.getStatement {C W st0 st} (h : Inv C W st0 st) (P : Params) (e a : String) :
    Inv C W st0 (Collect.getStatement C P W st e a).2 ∧
    (∀ s, (Collect.getStatement C P W st e a).1 = .ok (some s) → CachedOrFetched C W st0 a e s) ∧
    ((Collect.getStatement C P W st e a).1 = .ok none → NoEndpoint C W st0 a) := by
  unfold Collect.getStatement
  split
  · have := h.fetchStatement P e a
    exact ⟨this.1, fun s hs => Or.inr ⟨a, e, rfl, this.2.1 s hs⟩, this.2.2⟩
  · exact ⟨h, by simp, by simp⟩
  · rename_i j hj
    split
    · split
      · have := ((h.drop_es (cacheKey a e)).drop_es (timeKey a e)).fetchStatement P e a
        exact ⟨this.1, fun s hs => Or.inr ⟨a, e, rfl, this.2.1 s hs⟩, this.2.2⟩
      · refine ⟨h, fun s hs => ?_, by simp⟩
        cases hs
        exact h.es _ _ hj
    · exact ⟨h, by simp, by simp⟩

/-! ### the tree -/

/-- The tree of superiors of entity `e` with configuration `c`, as it should be. `src a e s`: `s` is a statement by `a` about `e`.
`cfg a j`: `j` is a configuration of `a`. `gone e a`: there is no statement by `a` about `e`. -/
inductive Faithful (src : String → String → Jws → Prop) (cfg : String → Jws → Prop) (gone : String → String → Prop)
    (stopAt : String) : String → Payload → Forest Jws → Prop
  | noHints {e c} : c.hints = none → Faithful src cfg gone stopAt e c .nil
  | stopped {e c} : c.iss = stopAt → Faithful src cfg gone stopAt e c .nil
  | hints {e c hs f} (conf : String → Forest Jws → Jws) : c.hints = some hs → c.iss ≠ stopAt → f.keys = dedup hs →
      (∀ a, (a, none) ∈ f.items → gone e a) →
      (∀ a s sub, (a, some (s, sub)) ∈ f.items → src a e s) →
      (∀ a s sub, (a, some (s, sub)) ∈ f.items → cfg a (conf a sub)) →
      (∀ a s sub, (a, some (s, sub)) ∈ f.items → Faithful src cfg gone stopAt a (conf a sub).payload sub) →
      Faithful src cfg gone stopAt e c f

/-- What the loop over the hints keeps. -/
theorem overHints_inv {branch : State → String → Except PyErr Branch × State} (I : State → Prop) (Q : String → Branch → Prop)
    (hb : ∀ st a, I st → I (branch st a).2 ∧ ∀ b, (branch st a).1 = .ok b → Q a b) :
    ∀ hs acc st, I st → acc.keys.Nodup → (∀ a b, (a, b) ∈ acc.items → Q a b) →
      I (overHints branch hs acc st).2 ∧
      ∀ f, (overHints branch hs acc st).1 = .ok f →
        f.keys = dedup (acc.keys ++ hs) ∧ ∀ a b, (a, b) ∈ f.items → Q a b
  | [], acc, st, hI, hn, hq => by
      refine ⟨hI, fun f hf => ?_⟩
      simp only [overHints, Except.ok.injEq] at hf
      subst hf
      exact ⟨by rw [List.append_nil, dedup_of_nodup hn], hq⟩
  | a :: hs, acc, st, hI, hn, hq => by
      have := hb st a hI
      unfold overHints
      generalize hr : branch st a = r at this
      obtain ⟨r1, st1⟩ := r
      cases r1 with
      | error x => exact ⟨this.1, by simp⟩
      | ok b =>
        simp only
        have hn' : (acc.set a b).keys.Nodup := by
          rw [Forest.keys_set]
          split
          · exact hn
          · rename_i h
            rw [List.nodup_append]
            exact ⟨hn, by simp, fun x hx y hy => by simp at hy; subst hy; rintro rfl; exact h hx⟩
        have ih := overHints_inv I Q hb hs (acc.set a b) st1 this.1 hn' (fun x y hxy => by
          rcases Forest.items_set_mem hxy with h | h
          · cases h; exact this.2 b rfl
          · exact hq x y h)
        refine ⟨ih.1, fun f hf => ⟨?_, (ih.2 f hf).2⟩⟩
        rw [(ih.2 f hf).1, Forest.keys_set]
        split
        · rw [dedup_append_mem (by assumption)]
        · rw [List.append_assoc]; rfl

/-- No statement by `a` about `e`: `a` is `e` itself, a trust anchor, or `a` has no fetch endpoint. -/
def Gone (C : Crypto) (P : Params) (W : World) (st0 : State) (e a : String) : Prop :=
  (e = a ∧ e ∈ P.anchors) ∨ NoEndpoint C W st0 a

/-- A configuration of `a` that is still valid for longer than the allowed delta. -/
def FreshConfig (C : Crypto) (P : Params) (W : World) (st0 : State) (a : String) (j : Jws) : Prop :=
  ConfigFrom C W st0 a j ∧ ∃ e, j.payload.exp = some e ∧ W.now < e - P.delta

theorem collectTree_faithful (C : Crypto) (P : Params) (W : World) (stopAt : String) (st0 : State) :
    ∀ n st e c, Inv C W st0 st →
      Inv C W st0 (collectTree C P W stopAt n st e c).2 ∧
      ∀ f, (collectTree C P W stopAt n st e c).1 = .ok f → ∃ p, c = some p ∧
        Faithful (CachedOrFetched C W st0) (FreshConfig C P W st0) (Gone C P W st0) stopAt e p f
  | 0, st, e, c, h => by simp [collectTree, h]
  | n + 1, st, e, none, h => by simp [collectTree, h]
  | n + 1, st, e, some p, h => by
      unfold collectTree
      split
      · rename_i hh
        exact ⟨h, fun f hf => ⟨p, rfl, by cases hf; exact .noHints hh⟩⟩
      · rename_i hs hh
        split
        · rename_i hst
          exact ⟨h, fun f hf => ⟨p, rfl, by cases hf; exact .stopped hst⟩⟩
        · rename_i hst
          have hb := overHints_inv (branch := collectBranch C P W (collectTree C P W stopAt n) e) (Inv C W st0)
            (fun a b => match b with
              | none => Gone C P W st0 e a
              | some (s, sub) => CachedOrFetched C W st0 a e s ∧ ∃ j, FreshConfig C P W st0 a j ∧
                  Faithful (CachedOrFetched C W st0) (FreshConfig C P W st0) (Gone C P W st0) stopAt a j.payload sub)
            (by
              intro st a hI
              unfold collectBranch
              split
              · rename_i hc
                exact ⟨hI, fun b hb => by cases hb; exact Or.inl hc⟩
              · have hS := hI.getStatement P e a
                generalize hr : getStatement C P W st e a = r at hS
                obtain ⟨r1, st1⟩ := r
                cases r1 with
                | error x => exact ⟨hS.1, by simp⟩
                | ok o =>
                  cases o with
                  | none => exact ⟨hS.1, fun b hb => by cases hb; exact Or.inr (hS.2.2 rfl)⟩
                  | some s =>
                    simp only
                    have hsrc := hS.2.1 s rfl
                    have hIs := hS.1
                    rcases subscript_config P.delta W.now st1.config a with
                      ⟨c, x, h1, h2, h3, h4⟩ | ⟨c, x, h1, h2, h3, h4⟩ | ⟨c, h1, h2, h4⟩ | ⟨h1, h4⟩
                    · rw [h4]
                      simp only
                      have ih := collectTree_faithful C P W stopAt st0 n st1 a (some c.jws.payload) hIs
                      show Inv C W st0 (match collectTree C P W stopAt n st1 a (some c.jws.payload) with
                        | (Except.error e, st) => (Except.error e, st)
                        | (Except.ok f, st) => ((Except.ok (some (s, f)) : Except PyErr Branch), st)).2 ∧ _
                      simp only [Option.map]
                      generalize hr2 : collectTree C P W stopAt n st1 a (some c.jws.payload) = r2 at ih
                      obtain ⟨r3, st2⟩ := r2
                      cases r3 with
                      | error x => exact ⟨ih.1, by simp⟩
                      | ok f =>
                        refine ⟨ih.1, fun b hb => ?_⟩
                        cases hb
                        obtain ⟨p', hp', hF⟩ := ih.2 f rfl
                        cases hp'
                        exact ⟨hsrc, c.jws, ⟨hIs.config _ _ h1, x, h2, h3⟩, hF⟩
                    · rw [h4]
                      simp only [Option.map]
                      have ih := collectTree_faithful C P W stopAt st0 n { st1 with config := drop st1.config a } a none (hIs.drop_config a)
                      generalize hr2 : collectTree C P W stopAt n { st1 with config := drop st1.config a } a none = r2 at ih
                      obtain ⟨r3, st2⟩ := r2
                      cases r3 with
                      | error x => exact ⟨ih.1, by simp⟩
                      | ok f =>
                        obtain ⟨p', hp', -⟩ := ih.2 f rfl
                        cases hp'
                    · rw [h4]; exact ⟨hIs, by simp⟩
                    · rw [h4]
                      simp only [Option.map]
                      have ih := collectTree_faithful C P W stopAt st0 n st1 a none hIs
                      generalize hr2 : collectTree C P W stopAt n st1 a none = r2 at ih
                      obtain ⟨r3, st2⟩ := r2
                      cases r3 with
                      | error x => exact ⟨ih.1, by simp⟩
                      | ok f =>
                        obtain ⟨p', hp', -⟩ := ih.2 f rfl
                        cases hp')
            hs .nil st h (by simp [Forest.keys, Forest.items]) (by simp [Forest.items])
          refine ⟨hb.1, fun f hf => ⟨p, rfl, ?_⟩⟩
          obtain ⟨hk, hQ⟩ := hb.2 f hf
          have hex : ∀ a sub, ∃ j : Jws, (∃ s, (a, some (s, sub)) ∈ f.items) → FreshConfig C P W st0 a j ∧
              Faithful (CachedOrFetched C W st0) (FreshConfig C P W st0) (Gone C P W st0) stopAt a j.payload sub := by
            intro a sub
            by_cases hx : ∃ s, (a, some (s, sub)) ∈ f.items
            · obtain ⟨s, hs⟩ := hx
              obtain ⟨-, j, h1, h2⟩ := hQ a _ hs
              exact ⟨j, fun _ => ⟨h1, h2⟩⟩
            · exact ⟨⟨{ iss := "", sub := "" }, 0⟩, fun h => absurd h hx⟩
          refine .hints (fun a sub => Classical.choose (hex a sub)) hh hst (by simpa [Forest.keys, Forest.items] using hk)
            (fun a ha => hQ a _ ha) (fun a s sub ha => (hQ a _ ha).1)
            (fun a s sub ha => (Classical.choose_spec (hex a sub) ⟨s, ha⟩).1)
            (fun a s sub ha => (Classical.choose_spec (hex a sub) ⟨s, ha⟩).2)

theorem wf_of_keys {α} (f : Forest α) (hk : f.keys.Nodup) (hs : ∀ a s sub, (a, some (s, sub)) ∈ f.items → sub.Wf) : f.Wf := by
  induction f with
  | nil => trivial
  | missing i r ih =>
    simp only [Forest.keys, Forest.items, List.map_cons, List.nodup_cons] at hk
    exact ⟨hk.1, ih hk.2 fun a s sub h => hs a s sub (by simp [Forest.items, h])⟩
  | node i s sub r _ ih =>
    simp only [Forest.keys, Forest.items, List.map_cons, List.nodup_cons] at hk
    exact ⟨hk.1, hs i s sub (by simp [Forest.items]), ih hk.2 fun a s' sub' h => hs a s' sub' (by simp [Forest.items, h])⟩

/-- A faithful tree is a proper dictionary at every level. -/
theorem Faithful.wf {src cfg gone stopAt e c f} (h : Faithful src cfg gone stopAt e c f) : f.Wf := by
  induction h with
  | noHints => trivial
  | stopped => trivial
  | hints conf _ _ hk _ _ _ _ ih => exact wf_of_keys _ (hk ▸ nodup_dedup _) ih

end Fed.Collect
