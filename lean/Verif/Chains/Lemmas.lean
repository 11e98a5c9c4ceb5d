import Verif.Chains.Model
import Verif.Verifier.Props
import Verif.Collect.CollectorProps
/-
Lemmas about stored chains and about the whole way from an entity identifier to verified chains.
-/
namespace Fed.Chains
open Fed Verify

/-! ### chains2dict -/

theorem keys_set_nodup {β} (d : Dict β) (k : String) (v : β) (h : (Dict.keys d).Nodup) : (Dict.keys (d.set k v)).Nodup := by
  induction d with
  | nil => simp [Dict.set, Dict.keys]
  | cons p d ih =>
    obtain ⟨q, w⟩ := p
    simp only [Dict.keys, List.map_cons, List.nodup_cons] at h
    simp only [Dict.set]
    split
    · rename_i hq
      simp only [Dict.keys, List.map_cons, List.nodup_cons]
      subst hq; exact h
    · rename_i hq
      simp only [Dict.keys, List.map_cons, List.nodup_cons]
      refine ⟨?_, ih h.2⟩
      intro hm
      have : q ∈ Dict.keys (Dict.set d k v) := hm
      rw [Dict.mem_keys_iff, Dict.get?_set] at this
      split at this
      · rename_i e; exact hq e.symm
      · exact h.1 ((Dict.mem_keys_iff _ _).2 this)

theorem chains2dictLoop_nodup : ∀ (tcs : List TrustChain) (res : Dict TrustChain), (Dict.keys res).Nodup →
    (Dict.keys (chains2dictLoop tcs res)).Nodup
  | [], _, h => h
  | tc :: tcs, res, h => by
      unfold chains2dictLoop
      split
      · split
        · exact chains2dictLoop_nodup tcs _ (keys_set_nodup _ _ _ h)
        · exact chains2dictLoop_nodup tcs _ h
      · exact chains2dictLoop_nodup tcs _ (keys_set_nodup _ _ _ h)

/-- `tc` is, among the members of the list for which `q` holds, the first of least length. -/
def FirstShortest (q : TrustChain → Prop) (tcs : List TrustChain) (tc : TrustChain) : Prop :=
  ∃ pre post, tcs = pre ++ tc :: post ∧ q tc ∧ (∀ x ∈ pre, q x → tc.verified.length < x.verified.length) ∧
    ∀ x ∈ post, q x → tc.verified.length ≤ x.verified.length

theorem firstShortest_cons {q : TrustChain → Prop} {x : TrustChain} {tcs : List TrustChain} {tc : TrustChain} :
    FirstShortest q (x :: tcs) tc ↔
      (tc = x ∧ q x ∧ ∀ y ∈ tcs, q y → x.verified.length ≤ y.verified.length) ∨
      (FirstShortest q tcs tc ∧ (q x → tc.verified.length < x.verified.length)) := by
  constructor
  · rintro ⟨pre, post, h1, h2, h3, h4⟩
    cases pre with
    | nil => simp only [List.nil_append, List.cons.injEq] at h1; obtain ⟨rfl, rfl⟩ := h1; exact Or.inl ⟨rfl, h2, h4⟩
    | cons y pre =>
      simp only [List.cons_append, List.cons.injEq] at h1
      obtain ⟨rfl, rfl⟩ := h1
      exact Or.inr ⟨⟨pre, post, rfl, h2, fun z hz => h3 z (by simp [hz]), h4⟩, h3 x (by simp)⟩
  · rintro (⟨rfl, h1, h2⟩ | ⟨⟨pre, post, rfl, h2, h3, h4⟩, h5⟩)
    · exact ⟨[], tcs, rfl, h1, by simp, h2⟩
    · refine ⟨x :: pre, post, rfl, h2, fun z hz => ?_, h4⟩
      rcases List.mem_cons.1 hz with rfl | hz
      · exact h5
      · exact h3 z hz

theorem FirstShortest.unique {q : TrustChain → Prop} : ∀ {tcs : List TrustChain} {a b : TrustChain},
    FirstShortest q tcs a → FirstShortest q tcs b → a = b
  | [], _, _, ⟨pre, post, h, _⟩, _ => by simp at h
  | x :: tcs, a, b, ha, hb => by
      rw [firstShortest_cons] at ha hb
      rcases ha with ⟨rfl, h1, h2⟩ | ⟨h1, h2⟩ <;> rcases hb with ⟨rfl, h3, h4⟩ | ⟨h3, h4⟩
      · rfl
      · obtain ⟨pre, post, rfl, hq, -⟩ := h3
        have := h2 b (by simp) hq
        have := h4 h1
        omega
      · obtain ⟨pre, post, rfl, hq, -⟩ := h1
        have := h4 a (by simp) hq
        have := h2 h3
        omega
      · exact FirstShortest.unique h1 h3

theorem FirstShortest.mem {q : TrustChain → Prop} {tcs : List TrustChain} {tc : TrustChain} (h : FirstShortest q tcs tc) :
    tc ∈ tcs ∧ q tc := by
  obtain ⟨pre, post, rfl, h, -⟩ := h
  exact ⟨by simp, h⟩

theorem exists_firstShortest {q : TrustChain → Prop} : ∀ {tcs : List TrustChain}, (∃ x ∈ tcs, q x) → ∃ tc, FirstShortest q tcs tc
  | [], ⟨_, h, _⟩ => by simp at h
  | x :: tcs, h => by
      by_cases ht : ∃ y ∈ tcs, q y
      · obtain ⟨tc, htc⟩ := exists_firstShortest ht
        by_cases hx : q x ∧ x.verified.length ≤ tc.verified.length
        · refine ⟨x, firstShortest_cons.2 (Or.inl ⟨rfl, hx.1, fun y hy hq => ?_⟩)⟩
          obtain ⟨pre, post, rfl, h1, h2, h3⟩ := htc
          rcases List.mem_append.1 hy with hy | hy
          · have := h2 y hy hq; omega
          · rcases List.mem_cons.1 hy with rfl | hy
            · exact hx.2
            · have := h3 y hy hq; omega
        · exact ⟨tc, firstShortest_cons.2 (Or.inr ⟨htc, fun hq => by
            apply Classical.byContradiction; intro hc; exact hx ⟨hq, by omega⟩⟩)⟩
      · obtain ⟨y, hy, hq⟩ := h
        rcases List.mem_cons.1 hy with rfl | hy
        · exact ⟨y, firstShortest_cons.2 (Or.inl ⟨rfl, hq, fun z hz hqz => absurd ⟨z, hz, hqz⟩ ht⟩)⟩
        · exact absurd ⟨y, hy, hq⟩ ht

theorem chains2dictLoop_get : ∀ (tcs : List TrustChain) (res : Dict TrustChain) (a : String) (tc : TrustChain),
    (∀ k v, res.get? k = some v → v.anchor = k) →
    ((chains2dictLoop tcs res).get? a = some tc ↔
      match res.get? a with
      | none => FirstShortest (fun x => x.anchor = a) tcs tc
      | some old => FirstShortest (fun x => x.anchor = a) (old :: tcs) tc)
  | [], res, a, tc, hr => by
      simp only [chains2dictLoop]
      cases h : res.get? a with
      | none => simp only [reduceCtorEq, false_iff]; rintro ⟨pre, post, h, -⟩; simp at h
      | some old =>
        simp only [firstShortest_cons, Option.some.injEq]
        constructor
        · rintro rfl; exact Or.inl ⟨rfl, hr _ _ h, by simp⟩
        · rintro (⟨rfl, -⟩ | ⟨⟨pre, post, h, -⟩, -⟩)
          · rfl
          · simp at h
  | x :: tcs, res, a, tc, hr => by
      have hset : ∀ k v, (res.set x.anchor x).get? k = some v → v.anchor = k := by
        intro k v h
        rw [Dict.get?_set] at h
        split at h
        · cases h; assumption
        · exact hr k v h
      have skip : x.anchor ≠ a → ∀ l : List TrustChain, FirstShortest (fun y => y.anchor = a) (x :: l) tc ↔ FirstShortest (fun y => y.anchor = a) l tc := by
        intro hx l
        rw [firstShortest_cons]
        simp [hx]
      unfold chains2dictLoop
      by_cases hxa : x.anchor = a
      · cases h : res.get? x.anchor with
        | none =>
          simp only
          rw [chains2dictLoop_get tcs _ a tc hset, Dict.get?_set, if_pos hxa, ← hxa, h]
        | some old =>
          have hold := hr _ _ h
          simp only
          rw [← hxa, h]
          simp only
          split
          · rename_i hlt
            rw [chains2dictLoop_get tcs _ _ tc hset, Dict.get?_set, if_pos rfl]
            simp only
            rw [firstShortest_cons (x := old)]
            constructor
            · intro hf
              refine Or.inr ⟨hf, fun _ => ?_⟩
              rw [firstShortest_cons] at hf
              rcases hf with ⟨rfl, -⟩ | ⟨-, h2⟩
              · exact hlt
              · have := h2 rfl; omega
            · rintro (⟨rfl, -, h2⟩ | ⟨h1, -⟩)
              · have := h2 x (by simp) rfl; omega
              · exact h1
          · rename_i hge
            rw [chains2dictLoop_get tcs _ _ tc hr, h]
            simp only
            rw [firstShortest_cons, firstShortest_cons, firstShortest_cons]
            constructor
            · rintro (⟨rfl, h1, h2⟩ | ⟨h1, h2⟩)
              · refine Or.inl ⟨rfl, h1, fun y hy hq => ?_⟩
                rcases List.mem_cons.1 hy with rfl | hy
                · omega
                · exact h2 y hy hq
              · have := h2 hold
                exact Or.inr ⟨Or.inr ⟨h1, fun _ => by omega⟩, h2⟩
            · rintro (⟨rfl, h1, h2⟩ | ⟨⟨rfl, -, h2⟩ | ⟨h1, -⟩, h3⟩)
              · exact Or.inl ⟨rfl, h1, fun y hy => h2 y (by simp [hy])⟩
              · have := h3 hold; omega
              · exact Or.inr ⟨h1, h3⟩
      · have hgo : ∀ res' : Dict TrustChain, (∀ k v, res'.get? k = some v → v.anchor = k) → res'.get? a = res.get? a →
            ((chains2dictLoop tcs res').get? a = some tc ↔
              match res.get? a with
              | none => FirstShortest (fun x => x.anchor = a) (x :: tcs) tc
              | some old => FirstShortest (fun x => x.anchor = a) (old :: x :: tcs) tc) := by
          intro res' h1 h2
          rw [chains2dictLoop_get tcs res' a tc h1, h2]
          cases h3 : res.get? a with
          | none => simp only; rw [skip hxa]
          | some old =>
            simp only
            rw [firstShortest_cons, firstShortest_cons (x := old), skip hxa]
            have : (∀ y ∈ x :: tcs, y.anchor = a → old.verified.length ≤ y.verified.length) ↔
                ∀ y ∈ tcs, y.anchor = a → old.verified.length ≤ y.verified.length := by
              simp [hxa]
            rw [this]
        have hne : (res.set x.anchor x).get? a = res.get? a := by rw [Dict.get?_set, if_neg hxa]
        split
        · split
          · exact hgo _ hset hne
          · exact hgo _ hr rfl
        · exact hgo _ hset hne

theorem chains2dict_get (tcs : List TrustChain) (a : String) (tc : TrustChain) :
    (chains2dict tcs).get? a = some tc ↔ FirstShortest (fun x => x.anchor = a) tcs tc := by
  have := chains2dictLoop_get tcs [] a tc (by simp)
  simpa [chains2dict] using this

/-! ### the whole way -/

theorem verifyChains_jar {L : Lib} : ∀ {cs : List (List Doc)} {jar : KeyJar} {tcs : List TrustChain},
    (verifyChains L cs jar).1 = .ok tcs → (verifyChains L cs jar).2 = runAll L jar cs
  | [], jar, tcs, _ => rfl
  | c :: cs, jar, tcs, h => by
      unfold verifyChains at h ⊢
      generalize hr : verifyChain L jar c = r at h
      obtain ⟨r1, j1⟩ := r
      cases r1 with
      | error e => cases h
      | ok o =>
        simp only at h ⊢
        have ih := fun l => verifyChains_jar (L := L) (cs := cs) (jar := j1) (tcs := l)
        generalize hr2 : verifyChains L cs j1 = r2 at h ih
        obtain ⟨r2, j2⟩ := r2
        cases r2 with
        | error e => cases h
        | ok l =>
          simp only at ih ⊢
          rw [ih _ rfl]
          simp [runAll, hr]

/-- The outcome of verifying chains one after the other: each comes from one of the chains, verified with the keys known by then. -/
theorem verifyChains_mem {L : Lib} : ∀ {cs : List (List Doc)} {jar : KeyJar} {tcs : List TrustChain},
    (verifyChains L cs jar).1 = .ok tcs → ∀ tc, tc ∈ tcs ↔
      ∃ pre c post, cs = pre ++ c :: post ∧ (verifyChain L (runAll L jar pre) c).1 = .ok (some tc)
  | [], jar, tcs, h, tc => by
      simp only [verifyChains, Except.ok.injEq] at h
      subst h
      simp
  | c :: cs, jar, tcs, h, tc => by
      unfold verifyChains at h
      generalize hr : verifyChain L jar c = r at h
      obtain ⟨r1, j1⟩ := r
      cases r1 with
      | error e => cases h
      | ok o =>
        simp only at h
        have ih := fun l => verifyChains_mem (L := L) (cs := cs) (jar := j1) (tcs := l)
        generalize hr2 : verifyChains L cs j1 = r2 at h ih
        obtain ⟨r2, j2⟩ := r2
        cases r2 with
        | error e => cases h
        | ok l =>
          simp only [Except.ok.injEq] at h
          subst h
          have ih := ih _ rfl tc
          rw [List.mem_append, ih]
          have hj1 : (verifyChain L jar c).2 = j1 := by rw [hr]
          constructor
          · rintro (h | ⟨pre, c', post, rfl, h⟩)
            · refine ⟨[], c, cs, rfl, ?_⟩
              simp only [runAll, List.foldl_nil, hr]
              cases o with
              | none => simp at h
              | some t => simp at h; subst h; rfl
            · refine ⟨c :: pre, c', post, rfl, ?_⟩
              simpa [runAll, hj1] using h
          · rintro ⟨pre, c', post, h1, h2⟩
            cases pre with
            | nil =>
              simp only [List.nil_append, List.cons.injEq] at h1
              obtain ⟨rfl, rfl⟩ := h1
              simp only [runAll, List.foldl_nil, hr, Except.ok.injEq] at h2
              subst h2
              simp
            | cons c0 pre =>
              simp only [List.cons_append, List.cons.injEq] at h1
              obtain ⟨rfl, rfl⟩ := h1
              right
              refine ⟨pre, c', post, rfl, ?_⟩
              simpa [runAll, hj1] using h2

/-- Applying the policies changes the metadata only. -/
theorem applyToChain_ok {E : SetEnum Val} {K : SetEnum String} {tc tc' : TrustChain} :
    applyToChain E K tc = .ok tc' ↔ ∃ leaf md, tc.verified.getLast? = some leaf ∧ leaf.metadata = some md ∧
      ((1 < tc.verified.length ∧ ∃ m, Policy.callPolicy E K (tc.verified.dropLast.map toP) (toP leaf) none = .ok m ∧
          tc' = { tc with metadata := m.map fun p => (p.1, mdVal p.2) }) ∨
        (tc.verified.length ≤ 1 ∧ ∃ m, md.get? "" = some m ∧ tc' = { tc with metadata := m })) := by
  unfold applyToChain
  cases h1 : tc.verified.getLast? with
  | none => simp
  | some leaf =>
    simp only
    cases h2 : leaf.metadata with
    | none =>
      simp only [reduceCtorEq, false_iff]
      rintro ⟨l, md, hl, hm, -⟩
      cases hl; rw [h2] at hm; cases hm
    | some md =>
      simp only
      have e2 : ∀ q : Payload → Dict Policy.Metadata → Prop,
          (∃ l m, some leaf = some l ∧ l.metadata = some m ∧ q l m) ↔ q leaf md := by
        intro q
        constructor
        · rintro ⟨l, m, hl, hm, hq⟩
          cases hl; rw [h2] at hm; cases hm; exact hq
        · intro hq; exact ⟨leaf, md, rfl, h2, hq⟩
      rw [e2 fun l md => _]
      by_cases h3 : 1 < tc.verified.length
      · rw [if_pos h3]
        have h4 : ¬ tc.verified.length ≤ 1 := by omega
        simp only [h3, true_and, h4, false_and, or_false]
        cases h5 : Policy.callPolicy E K (tc.verified.dropLast.map toP) (toP leaf) none with
        | error e => simp
        | ok m => simp only [ok_bind, except_pure, Except.ok.injEq, exists_eq_left', eq_comm]
      · rw [if_neg h3]
        have h4 : tc.verified.length ≤ 1 := by omega
        simp only [h3, false_and, h4, true_and, false_or]
        cases h5 : md.get? "" with
        | none => simp
        | some m => simp only [Except.ok.injEq, Option.some.injEq, exists_eq_left', eq_comm]

theorem applyPolicies_mem {E : SetEnum Val} {K : SetEnum String} : ∀ {tcs out : List TrustChain},
    applyPolicies E K tcs = .ok out → (∀ t ∈ out, ∃ tc ∈ tcs, applyToChain E K tc = .ok t) ∧
      ∀ tc ∈ tcs, ∃ t ∈ out, applyToChain E K tc = .ok t
  | [], out, h => by simp only [applyPolicies, Except.ok.injEq] at h; subst h; simp
  | tc :: tcs, out, h => by
      unfold applyPolicies at h
      cases h1 : applyToChain E K tc with
      | error e => rw [h1] at h; cases h
      | ok t =>
        rw [h1] at h
        simp only [ok_bind] at h
        cases h2 : applyPolicies E K tcs with
        | error e => rw [h2] at h; cases h
        | ok l =>
          rw [h2] at h
          simp only [ok_bind, except_pure, Except.ok.injEq] at h
          subst h
          obtain ⟨i1, i2⟩ := applyPolicies_mem h2
          constructor
          · intro x hx
            rcases List.mem_cons.1 hx with rfl | hx
            · exact ⟨tc, by simp, h1⟩
            · obtain ⟨y, hy, hyx⟩ := i1 x hx
              exact ⟨y, by simp [hy], hyx⟩
          · intro x hx
            rcases List.mem_cons.1 hx with rfl | hx
            · exact ⟨t, by simp, h1⟩
            · obtain ⟨y, hy, hyx⟩ := i2 x hx
              exact ⟨y, by simp [hy], hyx⟩

theorem applyPolicies_error {E : SetEnum Val} {K : SetEnum String} : ∀ {tcs : List TrustChain} {tc : TrustChain},
    tc ∈ tcs → (∀ t, applyToChain E K tc ≠ .ok t) → ∃ e, applyPolicies E K tcs = .error e := by
  intro tcs tc h hn
  cases h1 : applyPolicies E K tcs with
  | error e => exact ⟨e, rfl⟩
  | ok out =>
    obtain ⟨t, -, ht⟩ := (applyPolicies_mem h1).2 tc h
    exact absurd ht (hn t)

/-- The documents that are verified for one entity. -/
def docs (f : Collect.Forest Jws) (ec : Jws) : List (List Doc) := (Collect.tree2chains f).map fun c => c.map some ++ [some ec]

/-- What it takes for the resolution of an entity to succeed. -/
theorem getVerified_ok {V : Env} {st : State} {entity stopAt : String} {out : List TrustChain}
    (h : (getVerified V st entity stopAt).1 = .ok out) :
    ∃ f ec tcs, (Collect.collect V.L.toCrypto V.P V.W V.fuel st.coll entity stopAt).1 = .ok (f, ec) ∧
      (verifyChains V.L (docs f ec) st.jar).1 = .ok tcs ∧ applyPolicies V.E V.K tcs = .ok out ∧
      (getVerified V st entity stopAt).2.jar = runAll V.L st.jar (docs f ec) ∧
      (getVerified V st entity stopAt).2.coll = (Collect.collect V.L.toCrypto V.P V.W V.fuel st.coll entity stopAt).2 ∧
      (getVerified V st entity stopAt).2.store = st.store := by
  unfold getVerified at h ⊢
  generalize Collect.collect V.L.toCrypto V.P V.W V.fuel st.coll entity stopAt = r at h ⊢
  obtain ⟨r1, coll⟩ := r
  rcases r1 with e | ⟨f, ec⟩
  · cases h
  · simp only at h ⊢
    have hj := fun l => verifyChains_jar (L := V.L) (cs := docs f ec) (jar := st.jar) (tcs := l)
    refine ⟨f, ec, ?_⟩
    simp only [docs] at hj h ⊢
    generalize verifyChains V.L _ st.jar = r at h hj ⊢
    obtain ⟨r1, jar⟩ := r
    cases r1 with
    | error e => cases h
    | ok tcs =>
      simp only at h hj ⊢
      have hj := hj _ rfl
      cases ha : applyPolicies V.E V.K tcs with
      | error e => rw [ha] at h; cases h
      | ok l =>
        rw [ha] at h
        simp only [Except.ok.injEq] at h
        subst h
        exact ⟨tcs, trivial, rfl, ha, by simpa [ha] using hj, by simp, by simp⟩

end Fed.Chains
