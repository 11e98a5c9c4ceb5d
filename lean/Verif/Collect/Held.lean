import Verif.Collect.CollectorLemmas
/-
What the caches hold after a collection: the statements of the tree that was collected. Used for what the resolve endpoint gives out.
-/
namespace Fed.Collect
open Fed

/-- Nothing in the statement cache is about to expire. -/
def Timely (P : Params) (W : World) (st : State) : Prop := ∀ k t, st.es.get? k = some (.time t) → ¬ W.now > t - P.delta

/-- Nothing that is served is about to expire. -/
def ServedTimely (P : Params) (W : World) : Prop := ∀ ep a e s t, W.fetch ep a e = .ok (some s) → s.payload.exp = some t → ¬ W.now > t - P.delta

/-- Statements cached under a pair of plain identifiers stay, and so does the configuration `ec` of `leaf`. -/
def Grow (leaf : String) (ec : Jws) (st st' : State) : Prop :=
  (∀ a e v, Plain a → Plain e → st.es.get? (cacheKey a e) = some v → st'.es.get? (cacheKey a e) = some v) ∧
  (st.config.get? leaf = some ⟨ec⟩ → st'.config.get? leaf = some ⟨ec⟩)

theorem Grow.refl {leaf ec} (st : State) : Grow leaf ec st st := ⟨fun _ _ _ _ _ h => h, id⟩

theorem Grow.trans {leaf ec} {a b c : State} (h1 : Grow leaf ec a b) (h2 : Grow leaf ec b c) : Grow leaf ec a c :=
  ⟨fun x e v hx he h => h2.1 x e v hx he (h1.1 x e v hx he h), fun h => h2.2 (h1.2 h)⟩

variable {C : Crypto} {P : Params} {W : World} {leaf : String} {ec : Jws}

/-- The lookup of a configuration does not touch one that is still fresh. -/
theorem subscript_grow (hf : ∀ x, ec.payload.exp = some x → W.now < x - P.delta) (st : State) (a : String) :
    Grow leaf ec st { st with config := (subscript P.delta W.now st.config a).2 } := by
  refine ⟨fun _ _ _ _ _ h => h, fun h => ?_⟩
  rcases subscript_config P.delta W.now st.config a with ⟨c, e, h1, h2, h3, h4⟩ | ⟨c, e, h1, h2, h3, h4⟩ | ⟨c, h1, h2, h4⟩ | ⟨h1, h4⟩
  · rw [h4]; exact h
  · rw [h4]
    simp only
    rw [get?_drop]
    split
    · rename_i heq
      subst heq
      rw [h] at h1
      cases h1
      exact absurd (hf e h2) h3
    · exact h
  · rw [h4]; exact h
  · rw [h4]; exact h

theorem refreshConfig_grow (hp : ∀ j, W.config leaf = .ok (some j) → selfVerify C W.now j = .ok j.payload → j = ec) (st : State) (a : String) :
    Grow leaf ec st (refreshConfig C W st a).2 ∧ (refreshConfig C W st a).2.es = st.es := by
  unfold refreshConfig
  split
  · exact ⟨.refl _, rfl⟩
  · exact ⟨.refl _, rfl⟩
  · rename_i j hj
    split
    · exact ⟨.refl _, rfl⟩
    · rename_i q hq
      have hq' := selfVerify_payload hq
      subst hq'
      split
      · exact ⟨.refl _, rfl⟩
      · refine ⟨⟨fun _ _ _ _ _ h => h, fun h => ?_⟩, rfl⟩
        simp only
        rw [Dict.get?_set]
        split
        · rename_i heq
          subst heq
          rw [hp j hj hq]
        · exact h

theorem fetchEndpoint_grow (hf : ∀ x, ec.payload.exp = some x → W.now < x - P.delta) (hp : ∀ j, W.config leaf = .ok (some j) → selfVerify C W.now j = .ok j.payload → j = ec)
    (st : State) (a : String) : Grow leaf ec st (fetchEndpoint C P W st a).2 ∧ (fetchEndpoint C P W st a).2.es = st.es := by
  have hs := subscript_grow (leaf := leaf) (P := P) hf st a
  unfold fetchEndpoint
  generalize subscript P.delta W.now st.config a = r at hs
  obtain ⟨r1, db⟩ := r
  rcases r1 with x | _ | c
  · exact ⟨hs, rfl⟩
  · have := refreshConfig_grow (C := C) hp { st with config := db } a
    exact ⟨hs.trans this.1, this.2⟩
  · simp only
    split
    · exact ⟨hs, rfl⟩
    · split
      · exact ⟨hs, rfl⟩
      · have := refreshConfig_grow (C := C) hp { st with config := db } a
        exact ⟨hs.trans this.1, this.2⟩

theorem fetchStatement_grow (hf : ∀ x, ec.payload.exp = some x → W.now < x - P.delta) (hp : ∀ j, W.config leaf = .ok (some j) → selfVerify C W.now j = .ok j.payload → j = ec)
    (hw : ServedTimely P W) (st : State) (e a : String) (ht : Timely P W st) (hno : Plain a → Plain e → st.es.get? (cacheKey a e) = none) :
    Grow leaf ec st (fetchStatement C P W st e a).2 ∧ Timely P W (fetchStatement C P W st e a).2 ∧
      ∀ s, (fetchStatement C P W st e a).1 = .ok (some s) → (fetchStatement C P W st e a).2.es.get? (cacheKey a e) = some (.stmt s) := by
  unfold fetchStatement
  have hg := fetchEndpoint_grow (C := C) (P := P) hf hp st a
  generalize fetchEndpoint C P W st a = r at hg
  obtain ⟨r1, st1⟩ := r
  obtain ⟨hg, hes⟩ := hg
  simp only at hes
  have ht1 : Timely P W st1 := by unfold Timely; rw [hes]; exact ht
  cases r1 with
  | error x => exact ⟨hg, ht1, by simp⟩
  | ok ep =>
    simp only
    have set_grow : ∀ v, Grow leaf ec st { st1 with es := st1.es.set (cacheKey a e) v } := by
      intro v
      refine ⟨fun a' e' v' ha he h' => ?_, hg.2⟩
      simp only
      rw [Dict.get?_set]
      split
      · rename_i heq
        obtain ⟨rfl, rfl⟩ := cacheKey_inj ha he heq.symm
        rw [hno ha he] at h'; cases h'
      · exact hg.1 _ _ _ ha he h'
    split
    · exact ⟨hg, ht1, by simp⟩
    · split
      · exact ⟨hg, ht1, by simp⟩
      · exact ⟨hg, ht1, by simp⟩
      · rename_i v hv j hj
        split
        · refine ⟨set_grow _, ?_, by simp⟩
          intro k t hk
          simp only at hk
          rw [Dict.get?_set] at hk
          split at hk
          · cases hk
          · exact ht1 k t hk
        · rename_i t hexp
          refine ⟨?_, ?_, ?_⟩
          · refine ⟨fun a' e' v' ha he h' => ?_, hg.2⟩
            simp only
            rw [Dict.get?_set, if_neg (fun heq => not_plain_cacheKey_timeKey ha he heq.symm)]
            exact (set_grow (.stmt j)).1 a' e' v' ha he h'
          · intro k t' hk
            simp only at hk
            rw [Dict.get?_set] at hk
            split at hk
            · cases hk; exact hw _ _ _ _ _ hj hexp
            · rw [Dict.get?_set] at hk
              split at hk
              · cases hk
              · exact ht1 k t' hk
          · intro s hs
            cases hs
            simp only
            rw [Dict.get?_set, if_neg (fun heq => cacheKey_ne_timeKey a e heq.symm), Dict.get?_set_self]

theorem getStatement_grow (hf : ∀ x, ec.payload.exp = some x → W.now < x - P.delta) (hp : ∀ j, W.config leaf = .ok (some j) → selfVerify C W.now j = .ok j.payload → j = ec)
    (hw : ServedTimely P W) (st : State) (e a : String) (ht : Timely P W st) :
    Grow leaf ec st (getStatement C P W st e a).2 ∧ Timely P W (getStatement C P W st e a).2 ∧
      ∀ s, (getStatement C P W st e a).1 = .ok (some s) → (getStatement C P W st e a).2.es.get? (cacheKey a e) = some (.stmt s) := by
  unfold getStatement
  split
  · rename_i h; exact fetchStatement_grow hf hp hw st e a ht (fun _ _ => h)
  · exact ⟨.refl _, ht, by simp⟩
  · rename_i j hj
    split
    · rename_i t htm
      rw [if_neg (ht _ _ htm)]
      exact ⟨.refl _, ht, fun s hs => by cases hs; exact hj⟩
    · exact ⟨.refl _, ht, by simp⟩

/-- The statement cache holds the statements of the tree, each under its issuer and subject as they appear in the tree. -/
inductive Held (st : State) : String → Forest Jws → Prop
  | mk {e f} : (∀ a s sub, (a, some (s, sub)) ∈ f.items → st.es.get? (cacheKey a e) = some (.stmt s)) →
      (∀ a s sub, (a, some (s, sub)) ∈ f.items → Held st a sub) → Held st e f

/-- The identifiers in the tree are plain. -/
inductive PlainTree : String → Forest Jws → Prop
  | mk {e f} : Plain e → (∀ a s sub, (a, some (s, sub)) ∈ f.items → PlainTree a sub) → PlainTree e f

/-- As `Held`, but only if the identifiers are plain. -/
def HeldIf (st : State) (e : String) (f : Forest Jws) : Prop := PlainTree e f → Held st e f

theorem PlainTree.plain {e f} (h : PlainTree e f) : Plain e := by cases h; assumption

theorem Held.mono {st st' : State} (hg : Grow leaf ec st st') {e f} (h : Held st e f) (hp : PlainTree e f) : Held st' e f := by
  induction h with
  | mk h1 h2 ih =>
    cases hp with
    | mk p1 p2 =>
      exact .mk (fun a s sub hm => hg.1 _ _ _ (p2 a s sub hm).plain p1 (h1 a s sub hm)) (fun a s sub hm => ih a s sub hm (p2 a s sub hm))

theorem overHints_held {branch : State → String → Except PyErr Branch × State} (I : State → Prop) (R : State → State → Prop)
    (Q : State → String → Branch → Prop) (hR : ∀ a, R a a) (hT : ∀ a b c, R a b → R b c → R a c)
    (hm : ∀ st st' a b, R st st' → Q st a b → Q st' a b)
    (hb : ∀ st a, I st → I (branch st a).2 ∧ R st (branch st a).2 ∧ ∀ b, (branch st a).1 = .ok b → Q (branch st a).2 a b) :
    ∀ hs acc st, I st → (∀ a b, (a, b) ∈ acc.items → Q st a b) →
      I (overHints branch hs acc st).2 ∧ R st (overHints branch hs acc st).2 ∧
      ∀ f, (overHints branch hs acc st).1 = .ok f → ∀ a b, (a, b) ∈ f.items → Q (overHints branch hs acc st).2 a b
  | [], acc, st, hI, hq => ⟨hI, hR _, fun f hf => by simp only [overHints, Except.ok.injEq] at hf; subst hf; exact hq⟩
  | a :: hs, acc, st, hI, hq => by
      have := hb st a hI
      unfold overHints
      generalize hr : branch st a = r at this
      obtain ⟨r1, st1⟩ := r
      cases r1 with
      | error x => exact ⟨this.1, this.2.1, by simp⟩
      | ok b =>
        simp only
        have ih := overHints_held I R Q hR hT hm hb hs (acc.set a b) st1 this.1 (fun x y hxy => by
          rcases Forest.items_set_mem hxy with h | h
          · cases h; exact this.2.2 b rfl
          · exact hm _ _ _ _ this.2.1 (hq x y h))
        exact ⟨ih.1, hT _ _ _ this.2.1 ih.2.1, ih.2.2⟩

theorem collectTree_held (hf : ∀ x, ec.payload.exp = some x → W.now < x - P.delta) (hp : ∀ j, W.config leaf = .ok (some j) → selfVerify C W.now j = .ok j.payload → j = ec)
    (hw : ServedTimely P W) (stopAt : String) : ∀ n st e c, Timely P W st →
      Grow leaf ec st (collectTree C P W stopAt n st e c).2 ∧ Timely P W (collectTree C P W stopAt n st e c).2 ∧
      ∀ f, (collectTree C P W stopAt n st e c).1 = .ok f → HeldIf (collectTree C P W stopAt n st e c).2 e f
  | 0, st, e, c, h => by simp [collectTree, h, Grow.refl]
  | n + 1, st, e, none, h => by simp [collectTree, h, Grow.refl]
  | n + 1, st, e, some p, h => by
      have hnil : ∀ st' f, (.ok .nil : Except PyErr (Forest Jws)) = .ok f → HeldIf st' e f := by
        intro st' f hf'
        cases hf'
        exact fun _ => .mk (by simp [Forest.items]) (by simp [Forest.items])
      unfold collectTree
      split
      · exact ⟨.refl _, h, hnil _⟩
      · rename_i hs hh
        split
        · exact ⟨.refl _, h, hnil _⟩
        · have := overHints_held (branch := collectBranch C P W (collectTree C P W stopAt n) e) (Timely P W) (Grow leaf ec)
            (fun st a b => match b with
              | none => True
              | some (s, sub) => (Plain a → Plain e → st.es.get? (cacheKey a e) = some (.stmt s)) ∧ HeldIf st a sub)
            Grow.refl (fun _ _ _ => Grow.trans)
            (by
              intro st st' a b hg hq
              rcases b with _ | ⟨s, sub⟩
              · trivial
              · exact ⟨fun ha he => hg.1 _ _ _ ha he (hq.1 ha he), fun hpl => (hq.2 hpl).mono hg hpl⟩)
            (by
              intro st a hI
              unfold collectBranch
              split
              · exact ⟨hI, .refl _, fun b hb => by cases hb; trivial⟩
              · have hS := getStatement_grow (C := C) hf hp hw st e a hI
                generalize getStatement C P W st e a = r at hS
                obtain ⟨r1, st1⟩ := r
                obtain ⟨hg1, ht1, hs1⟩ := hS
                rcases r1 with x | _ | s
                · exact ⟨ht1, hg1, by simp⟩
                · exact ⟨ht1, hg1, fun b hb => by cases hb; trivial⟩
                · simp only
                  have hsub := subscript_grow (leaf := leaf) (P := P) hf st1 a
                  have hs1 := hs1 s rfl
                  simp only at hs1
                  generalize subscript P.delta W.now st1.config a = r2 at hsub
                  obtain ⟨r2, db⟩ := r2
                  have ht2 : Timely P W { st1 with config := db } := ht1
                  cases r2 with
                  | error x => exact ⟨ht2, hg1.trans hsub, by simp⟩
                  | ok c =>
                    simp only
                    have ih := collectTree_held hf hp hw stopAt n { st1 with config := db } a (c.map (·.jws.payload)) ht2
                    generalize collectTree C P W stopAt n { st1 with config := db } a (c.map (·.jws.payload)) = r3 at ih
                    obtain ⟨r3, st3⟩ := r3
                    cases r3 with
                    | error x => exact ⟨ih.2.1, (hg1.trans hsub).trans ih.1, by simp⟩
                    | ok f =>
                      refine ⟨ih.2.1, (hg1.trans hsub).trans ih.1, fun b hb => ?_⟩
                      cases hb
                      exact ⟨fun ha he => ih.1.1 _ _ _ ha he hs1, ih.2.2 f rfl⟩)
            hs .nil st h (by simp [Forest.items])
          refine ⟨this.2.1, this.1, fun f hf' hpl => ?_⟩
          have hq := this.2.2 f hf'
          cases hpl with
          | mk p1 p2 =>
            exact .mk (fun a s sub hm => (hq a _ hm).1 (p2 a s sub hm).plain p1) (fun a s sub hm => (hq a _ hm).2 (p2 a s sub hm))

/-- After a collection the statements of the tree are in the statement cache and the configuration it started from is in the configuration
cache, provided none of this was about to expire and the configuration cached, if any, is the one published. -/
theorem collect_held (n : Nat) (st : State) (stopAt : String) (f : Forest Jws)
    (h : (collect C P W n st leaf stopAt).1 = .ok (f, ec)) (hf : ∀ x, ec.payload.exp = some x → W.now < x - P.delta)
    (hp : ∀ j, W.config leaf = .ok (some j) → selfVerify C W.now j = .ok j.payload → j = ec) (hw : ServedTimely P W) (ht : Timely P W st) :
    HeldIf (collect C P W n st leaf stopAt).2 leaf f ∧ (collect C P W n st leaf stopAt).2.config.get? leaf = some ⟨ec⟩ := by
  have fetched : ∀ (r : Except PyErr (Forest Jws × Jws) × State),
      (match W.config leaf with
        | .error e => (.error e.toPy, st)
        | .ok none => (.error .valueError, st)
        | .ok (some j) =>
          match selfVerify C W.now j with
          | .error e => (.error e, st)
          | .ok p =>
            match collectTree C P W stopAt n { st with config := st.config.set leaf ⟨j⟩ } leaf (some p) with
            | (.error e, st) => (.error e, st)
            | (.ok f, st) => (.ok (f, j), st)) = r → r.1 = .ok (f, ec) → HeldIf r.2 leaf f ∧ r.2.config.get? leaf = some ⟨ec⟩ := by
    intro r hr h
    split at hr
    · subst hr; cases h
    · subst hr; cases h
    · rename_i j hj
      split at hr
      · subst hr; cases h
      · rename_i p hp'
        have ih := collectTree_held (C := C) (P := P) (leaf := leaf) (ec := ec) hf hp hw stopAt n { st with config := st.config.set leaf ⟨j⟩ } leaf (some p) ht
        have hpp := selfVerify_payload hp'
        subst hpp
        have hje := hp j hj hp'
        subst hje
        generalize collectTree C P W stopAt n { st with config := st.config.set leaf ⟨j⟩ } leaf (some j.payload) = r3 at ih hr
        obtain ⟨r3, st3⟩ := r3
        cases r3 with
        | error x => subst hr; cases h
        | ok f' =>
          subst hr
          simp only [Except.ok.injEq, Prod.mk.injEq, and_true] at h
          subst h
          exact ⟨ih.2.2 _ rfl, ih.1.2 (by simp [Dict.get?_set_self])⟩
  unfold collect at h ⊢
  cases hc : st.config.get? leaf with
  | none =>
    rw [hc] at h
    exact fetched _ rfl h
  | some c =>
    rw [hc] at h
    simp only at h ⊢
    cases hto : tooOld P W c with
    | error e => rw [hto] at h; cases h
    | ok b =>
      rw [hto] at h
      cases b with
      | true => exact fetched _ rfl h
      | false =>
        simp only at h ⊢
        have hce : ∀ f', (collectTree C P W stopAt n st leaf (some c.jws.payload)).1 = .ok f' → c.jws = ec := by
          intro f' hf'
          generalize collectTree C P W stopAt n st leaf (some c.jws.payload) = r at h hf'
          obtain ⟨r1, st1⟩ := r
          simp only at hf'
          subst hf'
          simp only [Except.ok.injEq, Prod.mk.injEq] at h
          exact h.2
        have ih := collectTree_held (C := C) (P := P) (leaf := leaf) (ec := ec) hf hp hw stopAt n st leaf (some c.jws.payload) ht
        generalize collectTree C P W stopAt n st leaf (some c.jws.payload) = r3 at ih h hce
        obtain ⟨r3, st3⟩ := r3
        cases r3 with
        | error x => cases h
        | ok f' =>
          simp only [Except.ok.injEq, Prod.mk.injEq] at h ⊢
          obtain ⟨rfl, hje⟩ := h
          refine ⟨ih.2.2 _ rfl, ih.1.2 ?_⟩
          rw [hc, ← hje]

end Fed.Collect
