import Verif.Chains.Props
import Verif.TrustMarks.Verify
import Verif.TrustMarks.StoreProps
/-
Properties of the verification of trust marks: C52, C81-C83.
-/
namespace Fed.TrustMarks
open Fed Verify

/-! ### where metadata and keys come from -/

theorem collectMetadata_ok {V : Chains.Env} {st : Chains.State} {e : String} {md : Dict Policy.Metadata}
    (h : (collectMetadata V st e).1 = .ok md) :
    (∃ j, Collect.ConfigFrom V.L.toCrypto V.W st.coll e j ∧ j.payload.metadata = some md ∧
      ∃ x, j.payload.exp = some x ∧ V.W.now < x - V.P.delta) ∧
    ∃ h, (collectMetadata V st e).2.jar = runAll V.L st.jar h := by
  unfold collectMetadata at h ⊢
  have hf := (Collect.collect_faithful (C := V.L.toCrypto) (P := V.P) (W := V.W) (fuel := V.fuel) (st := st.coll) (entity := e) (stopAt := "")).1
  generalize Collect.collect V.L.toCrypto V.P V.W V.fuel st.coll e "" = r at h hf ⊢
  obtain ⟨r1, coll⟩ := r
  cases r1 with
  | error x => cases h
  | ok p =>
    simp only at h hf ⊢
    have hj := fun l => Chains.verifyChains_jar (L := V.L) (cs := (Collect.tree2chains p.1).map fun c => c.map some) (jar := st.jar) (tcs := l)
    generalize Chains.verifyChains V.L ((Collect.tree2chains p.1).map fun c => c.map some) st.jar = r at h hj ⊢
    obtain ⟨r1, jar⟩ := r
    cases r1 with
    | error x => cases h
    | ok l =>
      simp only at h hj ⊢
      have hj := hj l rfl
      rcases Collect.subscript_config V.P.delta V.W.now coll.config e with ⟨c, x, h1, h2, h3, h4⟩ | ⟨c, x, h1, h2, h3, h4⟩ | ⟨c, h1, h2, h4⟩ | ⟨h1, h4⟩
      · rw [h4] at h ⊢
        simp only [ecMetadata] at h ⊢
        refine ⟨⟨c.jws, hf.config _ _ h1, ?_, x, h2, h3⟩, _, hj⟩
        cases hm : c.jws.payload.metadata with
        | none => rw [hm] at h; cases h
        | some m => rw [hm] at h; cases h; rfl
      · rw [h4] at h; cases h
      · rw [h4] at h; cases h
      · rw [h4] at h; cases h

theorem getMetadata_ok {V : Chains.Env} {st : Chains.State} {e : String} {md : Dict Policy.Metadata}
    (h : (getMetadata V st e).1 = .ok md) :
    (∃ j, Collect.ConfigFrom V.L.toCrypto V.W st.coll e j ∧ j.payload.metadata = some md ∧
      ∃ x, j.payload.exp = some x ∧ V.W.now < x - V.P.delta) ∧
    ∃ h, (getMetadata V st e).2.jar = runAll V.L st.jar h := by
  unfold getMetadata at h ⊢
  by_cases hc : Dict.has st.coll.config e = true
  · rw [if_pos hc] at h ⊢
    rcases Collect.subscript_config V.P.delta V.W.now st.coll.config e with ⟨c, x, h1, h2, h3, h4⟩ | ⟨c, x, h1, h2, h3, h4⟩ | ⟨c, h1, h2, h4⟩ | ⟨h1, h4⟩
    · rw [h4] at h ⊢
      simp only at h ⊢
      split at h
      · rename_i hx
        rw [if_pos hx]
        exact collectMetadata_ok h
      · rename_i hx
        rw [if_neg hx]
        simp only [ecMetadata] at h ⊢
        refine ⟨⟨c.jws, Or.inl h1, ?_, x, h2, h3⟩, [], rfl⟩
        cases hm : c.jws.payload.metadata with
        | none => rw [hm] at h; cases h
        | some m => rw [hm] at h; cases h; rfl
    · rw [h4] at h; cases h
    · rw [h4] at h; cases h
    · rw [h4] at h; cases h
  · rw [if_neg hc] at h ⊢
    exact collectMetadata_ok h

theorem checkDelegation_ok {T : TmLib} {V : Chains.Env} {st : Chains.State} {anchor id : String} {p : TmPayload}
    (h : (checkDelegation T V st anchor id p).1 = .ok ()) :
    (p.delegation = none ∧ (checkDelegation T V st anchor id p).2 = st) ∨
    ∃ d md b, p.delegation = some d ∧ (getMetadata V st anchor).1 = .ok md ∧ judgeDelegation T md id d = .ok b ∧
      (checkDelegation T V st anchor id p).2 = (getMetadata V st anchor).2 := by
  unfold checkDelegation verifyDelegation at *
  cases hd : p.delegation with
  | none => left; exact ⟨rfl, rfl⟩
  | some d =>
    right
    rw [hd] at h
    simp only at h ⊢
    generalize getMetadata V st anchor = r at h ⊢
    obtain ⟨r1, st1⟩ := r
    cases r1 with
    | error e => cases h
    | ok md =>
      simp only at h ⊢
      cases hj : judgeDelegation T md id d with
      | error e => rw [hj] at h; cases h
      | ok b => exact ⟨d, md, b, rfl, rfl, hj, rfl⟩

/-- The signature check, once it has accepted. -/
theorem verifyTmSignature_ok {T : TmLib} {V : Chains.Env} {st : Chains.State} {t : Tm} {iss : String} {tcs : List TrustChain} {p : TmPayload}
    (h : (verifyTmSignature T V st t iss tcs).1 = .ok (some p)) :
    p = t.payload ∧ (T.noKeys t = true ∨ ∃ k, T.usable t k = true ∧ T.verifies t k = true ∧
      (k ∈ st.jar.keysOf iss ∨ ∃ tc ∈ tcs, ∃ leaf ks, tc.verified.getLast? = some leaf ∧ tc.issPath.head? = some iss ∧
        leaf.jwks = some ks ∧ k ∈ ks)) := by
  have hs : ∀ {keys : List Key}, checkSignature T t keys = some p →
      p = t.payload ∧ ((keys = [] ∧ T.noKeys t = true) ∨ ∃ k ∈ keys, T.verifies t k = true) := by
    intro keys hk
    unfold checkSignature at hk
    cases keys with
    | nil => simp at hk; exact ⟨hk.2.symm, Or.inl ⟨rfl, hk.1⟩⟩
    | cons k ks =>
      simp only [List.isEmpty_cons, Bool.false_eq_true, if_false] at hk
      split at hk
      · rename_i ha
        cases hk
        exact ⟨rfl, Or.inr (by simpa using ha)⟩
      · cases hk
  have hm : ∀ {jar : KeyJar} {k}, k ∈ tmKeys T jar t iss → T.usable t k = true ∧ k ∈ jar.keysOf iss := by
    intro jar k hk
    have := List.mem_filter.1 hk
    exact ⟨this.2, this.1⟩
  unfold verifyTmSignature at h
  simp only at h
  split at h
  · have hap : ∀ out, Chains.applyPolicies V.E V.K tcs = .ok out → ∀ tc ∈ out, ∃ tc0 ∈ tcs, tc.verified = tc0.verified ∧ tc.issPath = tc0.issPath := by
      intro out ho tc htc
      obtain ⟨tc0, hm, ha⟩ := (Chains.applyPolicies_mem ho).1 tc htc
      refine ⟨tc0, hm, ?_⟩
      obtain ⟨_, _, _, _, ⟨_, _, _, rfl⟩ | ⟨_, _, _, rfl⟩⟩ := Chains.applyToChain_ok.1 ha <;> exact ⟨rfl, rfl⟩
    cases ho : Chains.applyPolicies V.E V.K tcs with
    | error e => rw [ho] at h; cases h
    | ok out =>
      rw [ho] at h
      cases out with
      | nil => cases h
      | cons tc rest =>
        obtain ⟨tc0, htc0, e1, e2⟩ := hap _ ho tc (by simp)
        simp only at h
        split at h
        · rename_i leaf e es hl hp
          split at h
          · cases h
          · rename_i ks hks
            simp only [Except.ok.injEq] at h
            obtain ⟨r1, r2⟩ := hs h
            refine ⟨r1, ?_⟩
            rcases r2 with ⟨_, r2⟩ | ⟨k, hk, hv⟩
            · exact Or.inl r2
            · obtain ⟨hu, hk⟩ := hm hk
              refine Or.inr ⟨k, hu, hv, ?_⟩
              rw [keysOf_set] at hk
              split at hk
              · rename_i he
                rcases List.mem_append.1 hk with hk | hk
                · left; rw [← he]; exact hk
                · right
                  refine ⟨tc0, htc0, leaf, ks, by rw [← e1]; exact hl, ?_, hks, hk⟩
                  rw [← e2, hp]; simp [he]
              · exact Or.inl hk
        · cases h
  · simp only [Except.ok.injEq] at h
    obtain ⟨r1, r2⟩ := hs h
    refine ⟨r1, ?_⟩
    rcases r2 with ⟨_, r2⟩ | ⟨k, hk, hv⟩
    · exact Or.inl r2
    · obtain ⟨hu, hk⟩ := hm hk
      exact Or.inr ⟨k, hu, hv, Or.inl hk⟩

/-- What it takes for the verifier to accept. -/
theorem verifyMark_ok {T : TmLib} {V : Chains.Env} {st : Chains.State} {doc : Option Tm} {anchor : String} {cs : Bool} {ei : String} {p : TmPayload}
    (h : (verifyMark T V st doc anchor cs ei).1 = .ok (some p)) :
    ∃ t iss sub id tcs, doc = some t ∧ t.payload.verify = .ok (iss, sub, id) ∧ isExpired V.W.now t.payload.exp = false ∧
      (checkDelegation T V st anchor id t.payload).1 = .ok () ∧
      (Chains.getVerified V (checkDelegation T V st anchor id t.payload).2 iss).1 = .ok tcs ∧
      (∃ tc ∈ tcs, tc.anchor = anchor) ∧
      (verifyTmSignature T V (Chains.getVerified V (checkDelegation T V st anchor id t.payload).2 iss).2 t iss tcs).1 = .ok (some p) := by
  unfold verifyMark at h
  cases doc with
  | none => cases h
  | some t =>
    simp only at h
    cases hv : t.payload.verify with
    | error e => rw [hv] at h; cases h
    | ok q =>
      obtain ⟨iss, sub, id⟩ := q
      rw [hv] at h
      simp only at h
      split at h
      · cases h
      · rename_i hx
        refine ⟨t, iss, sub, id, ?_⟩
        generalize checkDelegation T V st anchor id t.payload = r at h ⊢
        obtain ⟨r1, st1⟩ := r
        cases r1 with
        | error e => cases h
        | ok u =>
          simp only at h ⊢
          generalize Chains.getVerified V st1 iss = r at h ⊢
          obtain ⟨r1, st2⟩ := r
          cases r1 with
          | error e => cases h
          | ok tcs =>
            simp only at h ⊢
            split at h
            · cases h
            · split at h
              · rename_i hm
                obtain ⟨tc, h1, h2⟩ := List.mem_map.1 hm
                exact ⟨tcs, by simp, hv, by simpa using hx, by simp, by simp, ⟨tc, h1, h2⟩, h⟩
              · cases h

/-- Known keys of known keys are known. -/
theorem known_trans {L : Lib} {jar jar' : KeyJar} {h h' : List (List Doc)} (hj : ∀ e k, k ∈ jar'.keysOf e → Known L jar h e k)
    {e : String} {k : Key} (hk : Known L jar' h' e k) : Known L jar (h ++ h') e k := by
  have mono : ∀ {e k}, Known L jar h e k → Known L jar (h ++ h') e k := by
    intro e k hk
    induction hk with
    | start h => exact .start h
    | declared hc hj _ hu hv hks hk ih => exact .declared (List.mem_append_left _ hc) hj ih hu hv hks hk
  induction hk with
  | start h => exact mono (hj _ _ h)
  | declared hc hj _ hu hv hks hk ih => exact .declared (List.mem_append_right _ hc) hj ih hu hv hks hk

theorem runAll_known (L : Lib) (jar : KeyJar) (h : List (List Doc)) (e : String) (k : Key) (hk : k ∈ (runAll L jar h).keysOf e) :
    Known L jar h e k :=
  (runAll_origin L jar h h jar (fun _ h => h) (fun _ _ h => .start h) (fun _ h => Or.inl h)).1 e k hk

/-! ## C52 -/

/-- The delegation of a trust mark is good: it is signed by the owner of the trust mark id, according to the metadata of the anchor. -/
def GoodDelegation (T : TmLib) (md : Dict Policy.Metadata) (id : String) (d : Option Delegation) : Prop :=
  ∃ fe owners info ks d0, md.get? "federation_entity" = some fe ∧ fe.get? "trust_mark_owners" = some (.obj owners) ∧
    Dict.get? owners id = some info ∧ (∃ js, item info "jwks" = .ok js ∧ T.jwks js = .ok ks) ∧ d = some d0 ∧
    item info "sub" = .ok (.str d0.iss) ∧ ∃ k ∈ ks, T.verifiesD d0 k = true

/-- What acceptance of a trust mark means, apart from the delegation. -/
structure Accepted (T : TmLib) (V : Chains.Env) (st : Chains.State) (t : Tm) (anchor : String) : Prop where
  /-- The required claims are there. -/
  claims : ∃ iss sub id iat, t.payload.iss = some iss ∧ t.payload.sub = some sub ∧ t.payload.id = some id ∧ t.payload.iat = some iat
  /-- It has not expired. -/
  live : ∀ e, t.payload.exp = some e → V.W.now ≤ e
  /-- The issuer has a chain to the anchor, and the mark is signed with a key that the chains verified on the way give the issuer, or that
  the issuer lists itself at the end of such a chain. -/
  chain : ∃ (st' : Chains.State) (h : List (List Doc)) (iss : String) (tcs : List TrustChain) (tc : TrustChain),
    (t.payload.delegation = none → st' = st) ∧ st'.jar = runAll V.L st.jar h ∧
    t.payload.iss = some iss ∧ (Chains.getVerified V st' iss).1 = .ok tcs ∧ tc ∈ tcs ∧ tc.anchor = anchor ∧
    ∃ k, T.verifies t k = true ∧ ((∃ h, Known V.L st.jar h iss k) ∨ ∃ tc ∈ tcs, ∃ leaf ks,
      tc.verified.getLast? = some leaf ∧ leaf.iss = iss ∧ leaf.jwks = some ks ∧ k ∈ ks)

/-- C52 in full. `noKeys`: cryptojwt accepts no token without a key. -/
def C52_full : Prop :=
  ∀ (T : TmLib) (V : Chains.Env) (st : Chains.State) (t : Tm) (anchor : String) (p : TmPayload), (∀ t, T.noKeys t = false) →
    (∀ d, T.noKeysD d = false) → (verifyMark T V st (some t) anchor).1 = .ok (some p) →
    p = t.payload ∧ Accepted T V st t anchor ∧
      ∀ d, t.payload.delegation = some d → ∃ md id, (getMetadata V st anchor).1 = .ok md ∧ t.payload.id = some id ∧ GoodDelegation T md id d

theorem issPath_of_getVerified {V : Chains.Env} {st : Chains.State} {e : String} {tcs : List TrustChain}
    (h : (Chains.getVerified V st e).1 = .ok tcs) : ∀ tc ∈ tcs, tc.issPath = (tc.verified.map (·.iss)).reverse := by
  intro tc ht
  obtain ⟨f, ec, tcs0, h1, h2, h3, -⟩ := Chains.getVerified_ok h
  obtain ⟨tc0, hm, ha⟩ := (Chains.applyPolicies_mem h3).1 tc ht
  have same : tc.issPath = tc0.issPath ∧ tc.verified = tc0.verified := by
    obtain ⟨_, _, _, _, ⟨_, _, _, rfl⟩ | ⟨_, _, _, rfl⟩⟩ := Chains.applyToChain_ok.1 ha <;> exact ⟨rfl, rfl⟩
  obtain ⟨pre, c, post, hd, hv⟩ := (Chains.verifyChains_mem h2 tc0).1 hm
  obtain ⟨-, d2, d3, -⟩ := C42_describes_chain _ _ _ _ hv
  rw [same.1, same.2, d3, d2]
  simp [Function.comp_def]

/-- C52 as far as it holds for every delegation. Missing: a delegation that is not verified is only logged, unless it is the delegation's
signature that fails: see `C52_delegation_partial`. -/
theorem C52_accepted_partial (T : TmLib) (V : Chains.Env) (st : Chains.State) (doc : Option Tm) (anchor : String) (cs : Bool) (ei : String)
    (p : TmPayload) (hk : ∀ t, T.noKeys t = false) (h : (verifyMark T V st doc anchor cs ei).1 = .ok (some p)) :
    ∃ t, doc = some t ∧ p = t.payload ∧ Accepted T V st t anchor := by
  obtain ⟨t, iss, sub, id, tcs, rfl, h1, h2, h3, h4, ⟨tc, h5, h6⟩, h7⟩ := verifyMark_ok h
  have hcl : t.payload.iss = some iss ∧ t.payload.sub = some sub ∧ t.payload.id = some id ∧ ∃ iat, t.payload.iat = some iat := by
    unfold TmPayload.verify at h1
    split at h1
    · rename_i a b c d; cases h1; exact ⟨a, b, c, _, d⟩
    · cases h1
  obtain ⟨r1, r2⟩ := verifyTmSignature_ok h7
  rw [hk] at r2
  obtain ⟨k, -, hv, hk⟩ := r2.resolve_left (by simp)
  refine ⟨t, rfl, r1, ⟨iss, sub, id, hcl.2.2.2.choose, hcl.1, hcl.2.1, hcl.2.2.1, hcl.2.2.2.choose_spec⟩, ?_, ?_⟩
  · intro e he
    rw [he] at h2
    simpa [isExpired] using h2
  · have hst : (t.payload.delegation = none → (checkDelegation T V st anchor id t.payload).2 = st) ∧
        ∃ h, (checkDelegation T V st anchor id t.payload).2.jar = runAll V.L st.jar h := by
      rcases checkDelegation_ok h3 with ⟨_, e⟩ | ⟨d, md, b, hd, hg, -, e⟩
      · exact ⟨fun _ => e, [], by rw [e]; rfl⟩
      · refine ⟨fun hn => (by rw [hn] at hd; cases hd), ?_⟩
        rw [e]
        exact (getMetadata_ok hg).2
    obtain ⟨hst1, h', hst2⟩ := hst
    refine ⟨_, h', iss, tcs, tc, hst1, hst2, hcl.1, h4, h5, h6, k, hv, ?_⟩
    rcases hk with hk | ⟨tc', ht', leaf, ks, e1, e2, e3, e4⟩
    · left
      obtain ⟨f, ec, -, -, -, -, hj, -⟩ := Chains.getVerified_ok h4
      rw [hj] at hk
      have := runAll_known _ _ _ _ _ hk
      rw [hst2] at this
      exact ⟨_, known_trans (fun e k hk => runAll_known _ _ _ _ _ hk) this⟩
    · right
      refine ⟨tc', ht', leaf, ks, e1, ?_, e3, e4⟩
      rw [issPath_of_getVerified h4 tc' ht'] at e2
      simpa [e1] using e2

theorem judgeDelegation_ok {T : TmLib} {md : Dict Policy.Metadata} {id : String} {d : Option Delegation} {b : Bool}
    (hk : ∀ d, T.noKeysD d = false) (h : judgeDelegation T md id d = .ok b) :
    (b = true → GoodDelegation T md id d) ∧
    (b = false → ∃ fe issuers, md.get? "federation_entity" = some fe ∧ fe.get? "trust_mark_issuers" = some issuers ∧
      (pyIn (.str id) issuers = .ok false ∨ ∃ owners, fe.get? "trust_mark_owners" = some owners ∧ pyIn (.str id) owners = .ok false)) := by
  unfold judgeDelegation at h
  unfold Dict.get at h
  cases h1 : md.get? "federation_entity" with
  | none => simp [h1] at h
  | some fe =>
    simp only [h1, ok_bind] at h
    cases h2 : fe.get? "trust_mark_issuers" with
    | none => simp [h2] at h
    | some issuers =>
      simp only [h2, ok_bind] at h
      cases h3 : pyIn (.str id) issuers with
      | error e => simp [h3] at h
      | ok b1 =>
        simp only [h3, ok_bind] at h
        cases b1 with
        | false =>
          simp only [Bool.not_false, if_true, except_pure, Except.ok.injEq] at h
          subst h
          exact ⟨by simp, fun _ => ⟨fe, issuers, rfl, h2, Or.inl h3⟩⟩
        | true =>
          simp only [Bool.not_true, Bool.false_eq_true, if_false] at h
          cases h4 : fe.get? "trust_mark_owners" with
          | none => simp [h4] at h
          | some owners =>
            simp only [h4, ok_bind] at h
            cases h5 : pyIn (.str id) owners with
            | error e => simp [h5] at h
            | ok b2 =>
              simp only [h5, ok_bind] at h
              cases b2 with
              | false =>
                simp only [Bool.not_false, if_true, except_pure, Except.ok.injEq] at h
                subst h
                exact ⟨by simp, fun _ => ⟨fe, issuers, rfl, h2, Or.inr ⟨owners, h4, h5⟩⟩⟩
              | true =>
                simp only [Bool.not_true, Bool.false_eq_true, if_false] at h
                cases owners with
                | obj kvs =>
                  have hi : item (.obj kvs) id = Dict.get kvs id := rfl
                  rw [hi] at h
                  unfold Dict.get at h
                  cases h6 : Dict.get? kvs id with
                  | none => simp [h6] at h
                  | some info =>
                    simp only [h6, ok_bind] at h
                    cases h7 : item info "jwks" with
                    | error e => simp [h7] at h
                    | ok js =>
                      simp only [h7, ok_bind] at h
                      cases h8 : T.jwks js with
                      | error e => simp [h8] at h
                      | ok ks =>
                        simp only [h8, ok_bind] at h
                        cases h9 : item info "sub" with
                        | error e => simp [h9] at h
                        | ok sub =>
                          simp only [h9, ok_bind] at h
                          cases d with
                          | none => simp at h
                          | some d =>
                            simp only [hk] at h
                            by_cases hs : sub = .str d.iss
                            · rw [if_pos hs] at h
                              split at h
                              · simp at h
                              · split at h
                                · rename_i ha
                                  simp only [except_pure, Except.ok.injEq] at h
                                  subst h
                                  obtain ⟨k, hkm, hkv⟩ := List.any_eq_true.1 ha
                                  exact ⟨fun _ => ⟨fe, kvs, info, ks, d, h1, h4, h6, ⟨js, h7, h8⟩, rfl, by rw [h9, hs], k, (List.mem_filter.1 hkm).1, hkv⟩,
                                    by simp⟩
                                · simp at h
                            · rw [if_neg hs] at h
                              simp at h
                | _ => simp [item] at h

/-- C52 for the delegation, as far as it holds: a delegation is looked at with the metadata of the anchor, and if that lists the trust mark
id under issuers and owners, the mark is only accepted with a good delegation. Missing: when the id is not listed there. -/
theorem C52_delegation_partial (T : TmLib) (V : Chains.Env) (st : Chains.State) (t : Tm) (anchor : String) (cs : Bool) (ei : String)
    (p : TmPayload) (d : Option Delegation) (hk : ∀ d, T.noKeysD d = false) (hd : t.payload.delegation = some d)
    (h : (verifyMark T V st (some t) anchor cs ei).1 = .ok (some p)) :
    ∃ md fe issuers id, (getMetadata V st anchor).1 = .ok md ∧ md.get? "federation_entity" = some fe ∧
      fe.get? "trust_mark_issuers" = some issuers ∧ t.payload.id = some id ∧
      (pyIn (.str id) issuers = .ok true → (∀ owners, fe.get? "trust_mark_owners" = some owners → pyIn (.str id) owners = .ok true) →
        GoodDelegation T md id d) := by
  obtain ⟨t', iss, sub, id, tcs, e, h1, h2, h3, -⟩ := verifyMark_ok h
  cases e
  have hid : t.payload.id = some id := by
    unfold TmPayload.verify at h1
    split at h1
    · rename_i a b c d; cases h1; exact c
    · cases h1
  rcases checkDelegation_ok h3 with ⟨hn, -⟩ | ⟨d', md, b, hd', hg, hj, -⟩
  · rw [hn] at hd; cases hd
  · rw [hd] at hd'
    cases hd'
    obtain ⟨j1, j2⟩ := judgeDelegation_ok hk hj
    cases b with
    | true =>
      unfold judgeDelegation Dict.get at hj
      cases h1 : md.get? "federation_entity" with
      | none => simp [h1] at hj
      | some fe =>
        simp only [h1, ok_bind] at hj
        cases h2 : fe.get? "trust_mark_issuers" with
        | none => simp [h2] at hj
        | some issuers => exact ⟨md, fe, issuers, id, hg, h1, h2, hid, fun _ _ => j1 rfl⟩
    | false =>
      obtain ⟨fe, issuers, h1, h2, h3⟩ := j2 rfl
      refine ⟨md, fe, issuers, id, hg, h1, h2, hid, fun h4 h5 => ?_⟩
      rcases h3 with h3 | ⟨owners, h6, h7⟩
      · rw [h3] at h4; cases h4
      · have := h5 owners h6
        rw [h7] at this; cases this

/-- The other direction: a mark without delegation that has the claims, has not expired and is signed with a key held for its issuer
after the issuer's chains have been verified, one of them to the anchor, is accepted. -/
theorem C52_good_mark_accepted (T : TmLib) (V : Chains.Env) (st : Chains.State) (t : Tm) (anchor iss sub id : String) (iat : Int)
    (h1 : t.payload.iss = some iss) (h2 : t.payload.sub = some sub) (h3 : t.payload.id = some id) (h4 : t.payload.iat = some iat)
    (h5 : ∀ e, t.payload.exp = some e → V.W.now ≤ e) (h6 : t.payload.delegation = none) (tcs : List TrustChain)
    (h7 : (Chains.getVerified V st iss).1 = .ok tcs) (tc : TrustChain) (h8 : tc ∈ tcs) (h9 : tc.anchor = anchor) (k : Key)
    (h10 : k ∈ (Chains.getVerified V st iss).2.jar.keysOf iss) (h11 : T.usable t k = true) (h12 : T.verifies t k = true) :
    (verifyMark T V st (some t) anchor).1 = .ok (some t.payload) := by
  unfold verifyMark
  have hv : t.payload.verify = .ok (iss, sub, id) := by simp [TmPayload.verify, h1, h2, h3, h4]
  have hx : isExpired V.W.now t.payload.exp = false := by
    cases he : t.payload.exp with
    | none => rfl
    | some e => simpa [isExpired] using h5 e he
  simp only [hv, hx, checkDelegation, h6]
  generalize Chains.getVerified V st iss = r at h7 h10 ⊢
  obtain ⟨r1, st1⟩ := r
  simp only at h7 h10
  subst h7
  have hne : tcs.isEmpty = false := by cases tcs with | nil => cases h8 | cons _ _ => rfl
  have hm : anchor ∈ tcs.map (·.anchor) := List.mem_map.2 ⟨tc, h8, h9⟩
  have hkm : k ∈ tmKeys T st1.jar t iss := List.mem_filter.2 ⟨h10, h11⟩
  have hke : (tmKeys T st1.jar t iss).isEmpty = false := by
    cases hl : tmKeys T st1.jar t iss with
    | nil => rw [hl] at hkm; cases hkm
    | cons _ _ => rfl
  simp only [hne, Bool.false_eq_true, if_false, if_pos hm, verifyTmSignature, hke, checkSignature,
    if_pos (List.any_eq_true.2 ⟨k, hkm, h12⟩)]

/-! ### an example: the leaf of the example federation issues trust marks -/
namespace Ex
def T : TmLib where
  usable _ _ := true
  verifies t k := decide (t.sig = k)
  usableD _ _ := true
  verifiesD d k := decide (d.sig = k)
  noKeys _ := false
  noKeysD _ := false
  jwks v := match v with | .int n => .ok [n.toNat] | _ => .error .typeError
/-- A mark signed by the leaf. -/
def mark (id : String) (d : Option (Option Delegation) := none) (exp : Option Int := some 100) : Tm :=
  ⟨{ iss := some "https://leaf", sub := some "https://rp", id := some id, iat := some 1, exp := exp, delegation := d }, 3⟩
/-- The federation entity metadata of the trust anchor: `https://owner` with key 7 owns the mark `tm`. -/
def taMd : Dict Policy.Metadata := [("federation_entity", [("federation_fetch_endpoint", .str "fetch"),
  ("trust_mark_issuers", .obj [("tm", .arr [.str "https://leaf"])]),
  ("trust_mark_owners", .obj [("tm", .obj [("sub", .str "https://owner"), ("jwks", .int 7)])])])]
def W : Collect.World where
  now := 5
  config
    | "https://ta" => .ok (some (Chains.Ex.conf "https://ta" none taMd))
    | e => (Chains.Ex.W 5).config e
  fetch := (Chains.Ex.W 5).fetch
def V : Chains.Env := Chains.Ex.env W
def st : Chains.State := Chains.Ex.st
end Ex

example : (verifyMark Ex.T Ex.V Ex.st (some (Ex.mark "tm")) "https://ta").1 = .ok (some (Ex.mark "tm").payload) := by decide +kernel
example : (verifyMark Ex.T Ex.V Ex.st (some (Ex.mark "tm" (some (some ⟨"https://owner", 7⟩)))) "https://ta").1 =
    .ok (some (Ex.mark "tm" (some (some ⟨"https://owner", 7⟩))).payload) := by decide +kernel
example : (verifyMark Ex.T Ex.V Ex.st (some (Ex.mark "tm" (some (some ⟨"https://owner", 8⟩)))) "https://ta").1 =
    .error .badSignature := by decide +kernel
example : (verifyMark Ex.T Ex.V Ex.st (some { Ex.mark "tm" with sig := 4 }) "https://ta").1 = .ok none := by decide +kernel
example : (verifyMark Ex.T Ex.V Ex.st (some (Ex.mark "tm" none (some 3))) "https://ta").1 = .ok none := by decide +kernel

/-- A delegation for a trust mark id the anchor does not know is accepted, whoever signed it. -/
theorem C52_delegation_violation : ¬ C52_full := by
  intro h
  obtain ⟨-, -, hd⟩ := h Ex.T Ex.V Ex.st (Ex.mark "other" (some (some ⟨"https://evil", 66⟩))) "https://ta"
    (Ex.mark "other" (some (some ⟨"https://evil", 66⟩))).payload (fun _ => rfl) (fun _ => rfl) (by decide +kernel)
  obtain ⟨md, id, h1, h2, fe, owners, info, ks, d0, h3, h4, h5, -⟩ := hd _ rfl
  have e : (getMetadata Ex.V Ex.st "https://ta").1 = .ok Ex.taMd := by decide +kernel
  rw [e] at h1
  cases h1
  cases h2
  have e2 : Dict.get? Ex.taMd "federation_entity" = some [("federation_fetch_endpoint", .str "fetch"),
    ("trust_mark_issuers", .obj [("tm", .arr [.str "https://leaf"])]),
    ("trust_mark_owners", .obj [("tm", .obj [("sub", .str "https://owner"), ("jwks", .int 7)])])] := by decide +kernel
  rw [e2] at h3
  cases h3
  have e3 : some (Val.obj [("tm", .obj [("sub", .str "https://owner"), ("jwks", .int 7)])]) = some (Val.obj owners) := by
    rw [← h4]; decide +kernel
  cases e3
  revert h5
  simp [Dict.get?_cons]

/-! ## C81 -/

/-- C81 in full: a mark that is accepted when it is verified for a given entity is about that entity. -/
def C81_full : Prop :=
  ∀ (T : TmLib) (V : Chains.Env) (st : Chains.State) (doc : Option Tm) (anchor : String) (cs : Bool) (entity : String) (p : TmPayload),
    entity ≠ "" → (verifyMark T V st doc anchor cs entity).1 = .ok (some p) → p.sub = some entity

/-- The mark of one entity is accepted for another. -/
theorem C81_other_subject_violation : ¬ C81_full := by
  intro h
  have := h Ex.T Ex.V Ex.st (some (Ex.mark "tm")) "https://ta" true "https://mallory" (Ex.mark "tm").payload (by decide) (by decide +kernel)
  revert this
  decide +kernel

/-- C81 as far as it holds: the subject in the result is the one the issuer signed, and there is one; so a caller that compares it with
the entity at hand is safe. Missing: the verifier does not compare. -/
theorem C81_signed_subject_partial (T : TmLib) (V : Chains.Env) (st : Chains.State) (t : Tm) (anchor : String) (cs : Bool) (entity : String)
    (p : TmPayload) (h : (verifyMark T V st (some t) anchor cs entity).1 = .ok (some p)) :
    ∃ sub, p.sub = some sub ∧ t.payload.sub = some sub := by
  obtain ⟨t', iss, sub, id, tcs, e, h1, -, -, -, -, h7⟩ := verifyMark_ok h
  cases e
  rw [(verifyTmSignature_ok h7).1]
  unfold TmPayload.verify at h1
  split at h1
  · rename_i b _ _; exact ⟨_, b, b⟩
  · cases h1

/-- C81 for `TrustMark.verify` of the message class: given an entity, it accepts only marks about that entity; given a time
of expiry, only until then. Missing: the mark's own expiry is not looked at. -/
theorem C81_message_partial (p : TmPayload) (now : Int) (entity : Option String) (exp : Int) :
    p.verifyFor now entity exp = .ok () ↔
      (p.iss ≠ none ∧ p.sub ≠ none ∧ p.id ≠ none ∧ p.iat ≠ none) ∧ (∀ e, entity = some e → p.sub = some e) ∧ (exp ≠ 0 → now ≤ exp) := by
  have hv : p.verify = match p.iss, p.sub, p.id, p.iat with
      | some iss, some sub, some id, some _ => .ok (iss, sub, id)
      | _, _, _, _ => .error .missingAttribute := rfl
  unfold TmPayload.verifyFor
  cases hi : p.iss <;> cases hs : p.sub <;> cases hd : p.id <;> cases ha : p.iat <;> simp only [hi, hs, hd, ha] at hv <;>
    rw [hv] <;> simp only [reduceCtorEq, ne_eq, not_true_eq_false, not_false_eq_true, false_and, and_false, true_and, and_self]
  rename_i iss sub id iat
  have hexp : (if ¬exp = 0 ∧ now > exp then Except.error PyErr.expired else Except.ok ()) = Except.ok () ↔ (¬exp = 0 → now ≤ exp) := by
    split
    · rename_i h; simp only [reduceCtorEq, false_iff]; omega
    · rename_i h; simp only [true_iff]; omega
  cases entity with
  | none => simp
  | some e =>
    by_cases he : e = sub
    · subst he; simp
    · have : ¬ sub = e := fun h => he h.symm
      simp [he, this]

/-! ## C82 -/

/-- The status endpoint that this metadata of the issuer names said that the mark is active. -/
def SaidActive (O : StatusOracle) (md : Dict Val) (sub id : String) : Prop :=
  ∃ fe ep resp, md.get? "federation_entity" = some (.obj fe) ∧ Dict.get? fe "federation_trust_mark_status_endpoint" = some ep ∧ O ep sub id = .ok resp ∧ (resp.get? "active" = some (.bool true) ∨ resp.get? "active" = some (.int 1))

/-- C82 in full: `verify_trust_mark` gives the mark if the verifier accepts it for an anchor its issuer has a chain to and, when
asked to check, the issuer says it is active; a mark the verifier does not accept gives `None`. -/
def C82_full : Prop :=
  ∀ (T : TmLib) (V : Chains.Env) (O : StatusOracle) (st : Chains.State) (t : Tm) (check : Bool) (iss : String) (tc : TrustChain)
    (rest : List TrustChain), t.payload.iss = some iss → (Chains.getTrustChains V st iss).1 = .ok (tc :: rest) →
    (verifyMark T V (Chains.getTrustChains V st iss).2 (some t) tc.anchor).1 = .ok none →
    (verifyTrustMark T V O st (some t) check).1 = .ok none

/-- With the check a mark that is not accepted raises TypeError. -/
theorem C82_check_violation : ¬ C82_full := by
  intro h
  have := h Ex.T Ex.V (fun _ _ _ => .ok []) Ex.st { Ex.mark "tm" with sig := 4 } true "https://leaf" Chains.Ex.leafChain [] rfl
    (by decide +kernel) (by decide +kernel)
  revert this
  decide +kernel

/-- C82 as far as it holds: what is returned was accepted by the verifier for the anchor of a chain of its issuer and, if asked for,
confirmed by the issuer. -/
theorem C82_returned_partial (T : TmLib) (V : Chains.Env) (O : StatusOracle) (st : Chains.State) (doc : Option Tm) (check : Bool)
    (p : TmPayload) (h : (verifyTrustMark T V O st doc check).1 = .ok (some p)) :
    ∃ t iss tc rest, doc = some t ∧ t.payload.iss = some iss ∧ (Chains.getTrustChains V st iss).1 = .ok (tc :: rest) ∧
      (verifyMark T V (Chains.getTrustChains V st iss).2 (some t) tc.anchor).1 = .ok (some p) ∧
      (check = true → ∃ sub id, p.sub = some sub ∧ p.id = some id ∧ SaidActive O tc.metadata sub id) := by
  unfold verifyTrustMark at h
  cases doc with
  | none => cases h
  | some t =>
    simp only at h
    cases hi : t.payload.iss with
    | none => rw [hi] at h; cases h
    | some iss =>
      rw [hi] at h
      simp only at h
      refine ⟨t, iss, ?_⟩
      generalize Chains.getTrustChains V st iss = r at h ⊢
      obtain ⟨r1, st1⟩ := r
      rcases r1 with e | l
      · cases h
      · cases l with
        | nil => cases h
        | cons tc rest =>
          simp only at h ⊢
          refine ⟨tc, rest, by simp, hi, rfl, ?_⟩
          generalize verifyMark T V st1 (some t) tc.anchor = r at h ⊢
          obtain ⟨r1, st2⟩ := r
          cases r1 with
          | error e => cases h
          | ok o =>
            simp only at h ⊢
            cases check with
            | false => simp only [Bool.false_eq_true, if_false, Except.ok.injEq] at h; subst h; simp
            | true =>
              simp only [if_true] at h
              unfold askIssuer at h
              cases o with
              | none => cases h
              | some q =>
                simp only at h
                split at h
                · rename_i sub id hs hd
                  cases h1 : Dict.get tc.metadata "federation_entity" with
                  | error e => simp [h1] at h
                  | ok fe =>
                    simp only [h1, ok_bind] at h
                    cases h2 : item fe "federation_trust_mark_status_endpoint" with
                    | error e => simp [h2] at h
                    | ok ep =>
                      simp only [h2, ok_bind] at h
                      cases h3 : O ep sub id with
                      | error e => simp [h3] at h
                      | ok resp =>
                        simp only [h3, ok_bind, except_pure, Except.ok.injEq] at h
                        split at h
                        · rename_i ha
                          cases h
                          refine ⟨rfl, fun _ => ⟨sub, id, hs, hd, ?_⟩⟩
                          obtain ⟨kvs, rfl, h4⟩ : ∃ kvs, fe = .obj kvs ∧ Dict.get? kvs "federation_trust_mark_status_endpoint" = some ep := by
                            cases fe with
                            | obj kvs =>
                              refine ⟨kvs, rfl, ?_⟩
                              simp only [item, Dict.get] at h2
                              split at h2
                              · rename_i v hv; cases h2; exact hv
                              · cases h2
                            | _ => cases h2
                          have h1 : tc.metadata.get? "federation_entity" = some (.obj kvs) := by
                            simp only [Dict.get] at h1
                            split at h1
                            · rename_i v hv; cases h1; exact hv
                            · cases h1
                          refine ⟨kvs, ep, resp, h1, h4, h3, ?_⟩
                          unfold saysActive at ha
                          split at ha
                          · rename_i v hv; rw [hv]; simpa using ha
                          · cases ha
                        · cases h
                · cases h

/-- And without the check, what the verifier says is what is returned. -/
theorem C82_unchecked_partial (T : TmLib) (V : Chains.Env) (O : StatusOracle) (st : Chains.State) (t : Tm) (iss : String) (tc : TrustChain)
    (rest : List TrustChain) (h1 : t.payload.iss = some iss) (h2 : (Chains.getTrustChains V st iss).1 = .ok (tc :: rest)) :
    (verifyTrustMark T V O st (some t) false).1 = (verifyMark T V (Chains.getTrustChains V st iss).2 (some t) tc.anchor).1 := by
  unfold verifyTrustMark
  simp only [h1]
  generalize Chains.getTrustChains V st iss = r at h2 ⊢
  obtain ⟨r1, st1⟩ := r
  simp only at h2
  subst h2
  simp only
  generalize verifyMark T V st1 (some t) tc.anchor = r
  obtain ⟨r1, st2⟩ := r
  cases r1 <;> rfl

/-! ## C83 -/

/-- C83 in full: the metadata of the anchor that a delegation is judged with is signed with a key held for the anchor. -/
def C83_full : Prop :=
  ∀ (V : Chains.Env) (jar : KeyJar) (anchor : String) (md : Dict Policy.Metadata),
    (getMetadata V { jar := jar } anchor).1 = .ok md →
    ∃ j k, V.W.config anchor = .ok (some j) ∧ j.payload.metadata = some md ∧ k ∈ jar.keysOf anchor ∧ V.L.verifies j k = true

/-- What is published in the name of the anchor counts, whatever key it is signed with. -/
theorem C83_forged_violation : ¬ C83_full := by
  intro h
  let forged : Jws := ⟨{ iss := "https://ta", sub := "https://ta", exp := some 10000, jwks := some [66], metadata := some Ex.taMd }, 66⟩
  let W : Collect.World := { Ex.W with config := fun _ => .ok (some forged) }
  obtain ⟨j, k, h1, h2, h3, h4⟩ := h (Chains.Ex.env W) [("https://ta", [1])] "https://ta" Ex.taMd (by decide +kernel)
  cases h1
  have : k = 1 := by simpa [KeyJar.keysOf, Dict.get?_cons] using h3
  subst this
  revert h4
  decide +kernel

/-- C83 as far as it holds: the metadata comes from the configuration cached under the anchor's name or published now and self-signed,
and that configuration has not expired. Missing: that the keys are the anchor's. -/
theorem C83_self_signed_partial (V : Chains.Env) (st : Chains.State) (anchor : String) (md : Dict Policy.Metadata)
    (h : (getMetadata V st anchor).1 = .ok md) :
    ∃ j x, j.payload.metadata = some md ∧ j.payload.exp = some x ∧ V.W.now < x - V.P.delta ∧ (Dict.get? st.coll.config anchor = some ⟨j⟩ ∨
      (V.W.config anchor = .ok (some j) ∧ ∃ ks k, j.payload.jwks = some ks ∧ k ∈ ks ∧ V.L.verifies j k = true)) := by
  obtain ⟨⟨j, h1, h2, x, h4, h5⟩, -⟩ := getMetadata_ok h
  refine ⟨j, x, h2, h4, h5, ?_⟩
  rcases h1 with h1 | ⟨h1, h3⟩
  · exact Or.inl h1
  · right
    refine ⟨h1, ?_⟩
    unfold selfVerify at h3
    split at h3
    · cases h3
    · rename_i ks hks
      split at h3
      · rename_i ha
        obtain ⟨k, hk1, hk2⟩ := List.any_eq_true.1 (Bool.and_eq_true _ _ ▸ ha).1
        exact ⟨ks, k, hks, (List.mem_filter.1 hk1).1, hk2⟩
      · cases h3

end Fed.TrustMarks
