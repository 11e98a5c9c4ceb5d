import Verif.Client.Taken
/-
Property C184: explicit registration of an OAuth client with an authorization server, both of this software.
-/
namespace Fed.Client
open Fed Verify Chains Server.Context Server.Roles

/-! ## The request and the response -/

/-- What the OAuth request says. -/
theorem registrationRequest_says {files : Dict Val} {c : Ctx} {now : Int} {parts : Dict Server.Roles.Part} {client : Option Server.Roles.Client} {p : Dict Val}
    (h : registrationRequest files c now parts client = .ok p) (hl : c.defaultLifetime ≠ 0) :
    p.get? "iss" = some (.str c.entityId) ∧ p.get? "sub" = some (.str c.entityId) ∧ p.get? "jwks" = some c.ownKeys ∧ p.get? "exp" = some (.int (now + c.defaultLifetime)) ∧
    p.get? "metadata" = (some (Val.obj (comboGet client parts))).filter Val.truthy ∧ p.get? "constraints" = none ∧
    ∀ hints, getHints files c = .ok hints → hints.truthy = true → p.get? "authority_hints" = some hints := by
  unfold registrationRequest at h
  cases hmd : comboMetadata client parts with
  | error e => rw [hmd] at h; cases h
  | ok md =>
  rw [hmd] at h
  simp only at h
  rw [comboMetadata_ok hmd] at h
  cases hg : getHints files c with
  | error e => rw [hg] at h; cases h
  | ok hints =>
    rw [hg] at h
    simp only at h
    have hmarks : ∃ ms marks, ctxStatement files c now c.entityId c.entityId ([("metadata", Val.obj (comboGet client parts)), ("authority_hints", hints)] ++ ms) = .ok p ∧
        getMarks files c = .ok marks ∧ (ms = [] ∨ ms = [("trust_marks", marks)]) := by
      by_cases hgv : c.marks.given = true
      · rw [if_pos hgv] at h
        cases hm : getMarks files c with
        | error e => rw [hm] at h; cases h
        | ok marks =>
          rw [hm] at h
          exact ⟨_, marks, h, rfl, .inr rfl⟩
      · rw [if_neg hgv] at h
        cases hm : getMarks files c with
        | ok marks => exact ⟨[], marks, h, rfl, .inl rfl⟩
        | error e =>
          exfalso
          simp only at h
          unfold ctxStatement markArgs at h
          have hk : ((keyArgs ([("metadata", Val.obj (comboGet client parts)), ("authority_hints", hints)] ++ [])).get? "trust_marks") = none := by
            rw [get?_keyArgs_other _ _ (by decide) (by decide)]
            simp [Dict.get?]
          simp only [hk, hm] at h
          simp [Val.truthy] at h
    obtain ⟨ms, marks, h, hmk, hms⟩ := hmarks
    have s := ctxStatement_says h hints marks (fun _ => hmk) (fun hn => by simp [Dict.get?] at hn)
    have hnone : ∀ k ∈ ["include_jwks", "lifetime", "jwks", "keys", "constraints"], Dict.get? ([("metadata", Val.obj (comboGet client parts)), ("authority_hints", hints)] ++ ms) k = none := by
      intro k hk
      simp only [List.mem_cons, List.not_mem_nil, or_false] at hk
      rcases hms with rfl | rfl <;> rcases hk with rfl | rfl | rfl | rfl | rfl <;> simp [Dict.get?]
    refine ⟨s.issuer, s.subject, ?_, s.lifetimeDefault (hnone _ (by simp)) hl, ?_, ?_, ?_⟩
    · rw [s.keys (hnone _ (by simp)), keysAsked, hnone "jwks" (by simp), hnone "keys" (by simp)]
      rfl
    · rw [s.named "metadata" (by simp)]
      simp [Dict.get?]
    · rw [s.named "constraints" (by simp), hnone "constraints" (by simp)]
      rfl
    · intro hints' he ht
      cases he
      exact s.hintsGiven hints (by simp [Dict.get?]) ht

/-- What the response to an OAuth client says. -/
theorem oauthResponse_says {files : Dict Val} {c : Ctx} {now : Int} {client anchor : String} {md : Val} {p : Dict Val} (h : registrationResponse files c now false client anchor md = .ok p)
    (hl : c.defaultLifetime ≠ 0) :
    p.get? "iss" = some (.str c.entityId) ∧ p.get? "sub" = some (.str client) ∧ p.get? "jwks" = some c.ownKeys ∧ p.get? "exp" = some (.int (now + c.defaultLifetime)) ∧
    p.get? "metadata" = (some md).filter Val.truthy ∧ p.get? "trust_anchor_id" = some (.str anchor) := by
  obtain ⟨h1, h2, -, h4, h5, h6, h7, -⟩ := C150_response_partial files c now false client anchor md p hl h
  exact ⟨h1, h2, h7, h6, h5, h4⟩

theorem oauthResponse_total {files : Dict Val} {c : Ctx} {now : Int} {client anchor : String} {md : Val} (hm : ∃ marks, getMarks files c = .ok marks) :
    ∃ p, registrationResponse files c now false client anchor md = .ok p := by
  obtain ⟨marks, hm⟩ := hm
  unfold registrationResponse
  simp only [Bool.false_eq_true, if_false]
  refine ctxStatement_total hm ?_
  intro k hk
  simp only [List.mem_cons, List.not_mem_nil, or_false] at hk
  rcases hk with rfl | rfl | rfl | rfl <;> simp [Dict.get?]

/-! ## The server -/

theorem idealTree_congr {C : Crypto} {P : Collect.Params} {F : Collect.Federation} {now : Int} {stopAt e : String} {p q : Payload} (h1 : p.hints = q.hints) (h2 : p.iss = q.iss) :
    ∀ n, Collect.idealTree C P F now stopAt n e p = Collect.idealTree C P F now stopAt n e q
  | 0 => rfl
  | n + 1 => by unfold Collect.idealTree; rw [h1, h2]

/-- The chains found for a request of a member of a well-run federation are those of its ways up, with the request at their end. -/
theorem wellRun_signed (V : Chains.Env) (F : Collect.Federation) (fed : Chains.State) (now : Int) (entity : String) (D : Directory) (S : String → Prop) (rank : String → Nat)
    (want : String → String → Policy.Want) (M : String → Policy.Metadata) (j : Jws)
    (hW : V.W = F.at now) (hd : F.Dated) (hpl : F.PlainHints) (hc : Collect.Aging V.L.toCrypto V.P F now fed.coll)
    (w : WellRun V.L V.P F now "" fed.jar D S rank) (he : S entity) (hpe : Collect.Plain entity) (hfuel : rank entity < V.fuel)
    (hself : selfVerify V.L.toCrypto V.W.now j = .ok j.payload) (hiss : j.payload.iss = entity) (hjwks : j.payload.jwks ≠ none) (hexp : ∃ x, j.payload.exp = some x)
    (hsigned : ∃ k ∈ D.keys entity, V.L.usable j k = true ∧ V.L.verifies j k = true)
    (hsame : j.payload.hints = (D.cfg entity).payload.hints) (hhints : (D.cfg entity).payload.hints ≠ none) (hmd : j.payload.metadata ≠ none)
    (hcon : ∀ p, Up D entity p → WithinConstraints ((stmtsOf D entity p).map (·.payload)) j.payload)
    (hpol : ∀ p, Up D entity p → ∀ s ∈ stmtsOf D entity p, SatisfiedBy want M j.payload s.payload) :
    ∃ out, (Registration.chainsForSigned V fed entity j).1 = .ok out ∧ out ≠ [] ∧ (∀ p, Up D entity p → ∃ tc ∈ out, ResolvedAs D want j entity p tc) ∧
      ∀ tc ∈ out, ∃ p, Up D entity p ∧ ResolvedAs D want j entity p tc := by
  obtain ⟨f, h1, h2, -, -, h3⟩ := w.tree V.fuel entity he hfuel
  obtain ⟨-, hi⟩ := Collect.collectTree_aging hd hpl "" V.fuel fed.coll entity j.payload hc hpe (by
    intro hs hh a ha
    rw [hsame] at hh
    exact hpl entity _ hs (w.config entity he) hh a ha)
  rw [idealTree_congr hsame (by rw [hiss, (w.self entity he).1]), h1, ← hW] at hi
  have hcoll : (Collect.collectTree V.L.toCrypto V.P V.W "" V.fuel fed.coll entity (some j.payload)).1 = .ok f := by
    revert hi
    cases (Collect.collectTree V.L.toCrypto V.P V.W "" V.fuel fed.coll entity (some j.payload)).1 with
    | error e => intro h; simp [Except.toOption] at h
    | ok x => intro h; simp only [Except.toOption, Option.some.injEq] at h; rw [h]
  obtain ⟨tcs, out, v1, v2, v3, v4, v5⟩ := WellRun.judged V F fed.jar now "" entity D S rank want M j f h2 h3 w he hiss hjwks hexp hsigned hhints hmd hcon hpol
  refine ⟨out, ?_, v3, v4, v5⟩
  unfold Registration.chainsForSigned
  rw [hself]
  simp only
  generalize Collect.collectTree V.L.toCrypto V.P V.W "" V.fuel fed.coll entity (some j.payload) = r at hcoll
  obtain ⟨r1, coll⟩ := r
  simp only at hcoll
  subst hcoll
  simp only
  generalize verifyChains V.L ((Collect.tree2chains f).map fun c => c.map some ++ [some j]) fed.jar = r at v1
  obtain ⟨r1, jar1⟩ := r
  simp only at v1
  subst v1
  exact v2

/-- The type of the client is found in a request with metadata for it and, at most, for federation entities and trust mark issuers. -/
theorem opponentType_oauth (K : SetEnum String) (md : Dict Policy.Metadata) (m : Policy.Metadata) (hrp : md.get? "oauth_client" = some m)
    (ht : ∀ t ∈ Dict.keys md, t = "federation_entity" ∨ t = "trust_mark_issuer" ∨ t = "oauth_client") :
    Registration.opponentType K md ["federation_entity", "trust_mark_issuer"] = .ok "oauth_client" := by
  have hmem : "oauth_client" ∈ Dict.keys md := (Dict.mem_keys_iff_exists _ _).2 ⟨m, hrp⟩
  unfold Registration.opponentType
  have hin : "oauth_client" ∈ K.enum ((Dict.keys md).filter fun t => t ∉ ["federation_entity", "trust_mark_issuer"]) := by
    rw [K.mem_enum, List.mem_filter]
    exact ⟨hmem, by decide⟩
  cases he : K.enum ((Dict.keys md).filter fun t => t ∉ ["federation_entity", "trust_mark_issuer"]) with
  | nil => rw [he] at hin; cases hin
  | cons t ts =>
    have : t ∈ (Dict.keys md).filter fun t => t ∉ ["federation_entity", "trust_mark_issuer"] := by rw [← K.mem_enum, he]; simp
    rw [List.mem_filter] at this
    simp only [decide_eq_true_eq, List.mem_cons, List.not_mem_nil, or_false, not_or] at this
    rcases ht t this.1 with e | e | e
    · exact absurd e this.2.1
    · exact absurd e this.2.2
    · rw [e]

/-- What the server puts in its response for a client it registered with the metadata `asked` and for which the registration gave `args`. -/
def grantedOauth (asked args : Dict Val) : Dict Val := Registration.responseMetadata ["application_type", "jwks", "redirect_uris"] asked args

/-- The server answers a request of a client for whom there are chains and whom it registers. -/
theorem explicitOauth2_answers (V : Chains.Env) (R : Registration.RegEnv) (priority : List String) (st : Registration.AppState) (j : Jws) (md : Dict Policy.Metadata) (m : Dict Val)
    (out : List TrustChain) (hself : selfVerify V.L.toCrypto V.W.now j = .ok j.payload) (hmd : j.payload.metadata = some md) (hrp : md.get? "oauth_client" = some m)
    (ht : ∀ t ∈ Dict.keys md, t = "federation_entity" ∨ t = "trust_mark_issuer" ∨ t = "oauth_client")
    (hv : (Registration.chainsForSigned V st.fed j.payload.sub j).1 = .ok out) (hne : out ≠ []) :
    ∃ tc ∈ out, ∀ asked client args, tc.metadata.get? "oauth_client" = some (.obj asked) → (Registration.setup R st.srv asked true true []).1 = .ok (client, args) →
      (Registration.explicitOauth2 V R priority st (some j)).1 = .ok (some (client, ⟨j.payload.iss, j.payload.iss, tc.anchor, "oauth_client", grantedOauth asked args⟩)) ∧
      (Registration.explicitOauth2 V R priority st (some j)).2.srv = (Registration.setup R st.srv asked true true []).2 := by
  have hpick : ∃ tc, pickTrustChain priority out = .ok tc := by
    unfold pickTrustChain
    split
    · exact absurd rfl hne
    · exact ⟨_, rfl⟩
    · split <;> exact ⟨_, rfl⟩
  obtain ⟨tc, hpick⟩ := hpick
  refine ⟨tc, Registration.pick_mem hpick, fun asked client args ha hs => ?_⟩
  unfold Registration.explicitOauth2
  simp only [hself, hmd, opponentType_oauth V.K md m hrp ht]
  generalize Registration.chainsForSigned V st.fed j.payload.sub j = r at hv ⊢
  obtain ⟨r1, fed⟩ := r
  simp only at hv
  subst hv
  simp only [hpick, ha]
  generalize Registration.setup R st.srv asked true true [] = r at hs ⊢
  obtain ⟨r1, srv⟩ := r
  simp only at hs
  subst hs
  exact ⟨rfl, rfl⟩

/-! ## The client -/

theorem applyPolicies_length {E : SetEnum Val} {K : SetEnum String} : ∀ {tcs out : List TrustChain}, applyPolicies E K tcs = .ok out → out.length = tcs.length
  | [], out, h => by cases h; rfl
  | tc :: tcs, out, h => by
    unfold applyPolicies at h
    cases h1 : applyToChain E K tc with
    | error e => rw [h1] at h; cases h
    | ok tc' =>
      rw [h1, ok_bind] at h
      cases h2 : applyPolicies E K tcs with
      | error e => rw [h2] at h; cases h
      | ok rest =>
        rw [h2, ok_bind] at h
        cases h
        simp [applyPolicies_length h2]

/-- The chain of its own of a client with one way up. -/
theorem wellRun_own (V : Chains.Env) (F : Collect.Federation) (fed : Chains.State) (now : Int) (entity : String) (D : Directory) (S : String → Prop) (rank : String → Nat) (p0 : List String)
    (want : String → String → Policy.Want) (M : String → Policy.Metadata)
    (hW : V.W = F.at now) (hd : F.Dated) (hpl : F.PlainHints) (hc : Collect.Aging V.L.toCrypto V.P F now fed.coll)
    (w : WellRun V.L V.P F now "" fed.jar D S rank) (he : S entity) (hpe : Collect.Plain entity) (hfuel : rank entity < V.fuel) (hup : Up D entity p0) (hone : ∀ p, Up D entity p → p = p0)
    (hhints : (D.cfg entity).payload.hints ≠ none) (hmd : (D.cfg entity).payload.metadata ≠ none)
    (hcon : WithinConstraints ((stmtsOf D entity p0).map (·.payload)) (D.cfg entity).payload)
    (hpol : ∀ s ∈ stmtsOf D entity p0, SatisfiedBy want M (D.cfg entity).payload s.payload) :
    ∃ tc coll' jar', getVerified V fed entity = (.ok [tc], { fed with coll := coll', jar := jar' }) ∧ ResolvedAs D want (D.cfg entity) entity p0 tc := by
  obtain ⟨f, h1, h2, -, -, h3⟩ := w.tree V.fuel entity he hfuel
  obtain ⟨-, hi⟩ := Collect.collect_aging hc hd hpl V.fuel entity "" hpe
  replace hi := hi (w.inForce he)
  rw [← hW] at hi
  have hcoll : (Collect.collect V.L.toCrypto V.P V.W V.fuel fed.coll entity "").1 = .ok (f, D.cfg entity) := by
    simp only [Collect.idealCollect, w.published he, h1, Option.map_some] at hi
    revert hi
    cases (Collect.collect V.L.toCrypto V.P V.W V.fuel fed.coll entity "").1 with
    | error e => intro h; simp [Except.toOption] at h
    | ok x => intro h; simp only [Except.toOption, Option.some.injEq] at h; rw [h]
  have hwf := (Collect.C31_tree_faithful_partial _ _ _ _ _ _ _ _ _ hcoll).2.1
  obtain ⟨tcs, out, v1, v2, v3, -, v5⟩ := WellRun.judged V F fed.jar now "" entity D S rank want M (D.cfg entity) f h2 h3 w he (w.self entity he).1 (by obtain ⟨-, ks, h, -⟩ := w.self entity he; rw [h]; simp)
    (by obtain ⟨x, hx, -⟩ := w.fresh entity he; exact ⟨x, hx⟩) (w.selfSigned entity he) hhints hmd (fun p hp => by rw [hone p hp]; exact hcon) (fun p hp => by rw [hone p hp]; exact hpol)
  have hlen : out.length ≤ 1 := by
    rw [applyPolicies_length v2]
    rw [tree_one h2 h3 hwf hup hone, List.map_singleton] at v1
    unfold verifyChains at v1
    generalize verifyChain V.L fed.jar _ = r at v1
    obtain ⟨r1, jar1⟩ := r
    cases r1 with
    | error e => cases v1
    | ok o =>
      simp only [verifyChains, List.append_nil, Except.ok.injEq] at v1
      subst v1
      cases o <;> simp
  have hout : ∃ tc, out = [tc] := by
    cases out with
    | nil => exact absurd rfl v3
    | cons tc rest =>
      cases rest with
      | nil => exact ⟨tc, rfl⟩
      | cons _ _ => simp at hlen
  obtain ⟨tc, rfl⟩ := hout
  obtain ⟨p, hp, hr⟩ := v5 tc (by simp)
  rw [hone p hp] at hr
  refine ⟨tc, (Collect.collect V.L.toCrypto V.P V.W V.fuel fed.coll entity "").2, (verifyChains V.L ((Collect.tree2chains f).map fun c => c.map some ++ [some (D.cfg entity)]) fed.jar).2, ?_, hr⟩
  unfold getVerified
  generalize Collect.collect V.L.toCrypto V.P V.W V.fuel fed.coll entity "" = r at hcoll
  obtain ⟨r1, coll⟩ := r
  simp only at hcoll
  subst hcoll
  simp only
  generalize verifyChains V.L ((Collect.tree2chains f).map fun c => c.map some ++ [some (D.cfg entity)]) fed.jar = r at v1
  obtain ⟨r1, jar1⟩ := r
  simp only at v1
  subst v1
  simp only [v2]

/-- A client with one way up takes the response of an authorization server of the same well-run federation, whatever was collected before, if what the response says satisfies the policies above the client;
and has then what the response says. -/
theorem wellRun_takes_oauth (V : Env) (F : Collect.Federation) (st : State) (now : Int) (op anchor : String) (j : Jws) (D : Directory) (S : String → Prop) (rank : String → Nat) (p0 : List String)
    (want : String → String → Policy.Want) (M : String → Policy.Metadata)
    (hm : V.metadataVerifier = none) (hW : V.W = F.at now) (hd : F.Dated) (hpl : F.PlainHints) (hc : Collect.Aging V.L.toCrypto V.P F now st.fed.coll)
    (w : WellRun V.L V.P F now anchor st.fed.jar D S rank) (w0 : WellRun V.L V.P F now "" st.fed.jar D S rank)
    (ho : S op) (hpo : Collect.Plain op) (hfo : rank op < V.fuel) (hho : (D.cfg op).payload.hints ≠ none) (hjo : Judged D op)
    (he : S V.me) (hpe : Collect.Plain V.me) (hfe : rank V.me < V.fuel) (hup : Up D V.me p0) (hone : ∀ p, Up D V.me p → p = p0)
    (hhints : (D.cfg V.me).payload.hints ≠ none) (hmd0 : (D.cfg V.me).payload.metadata ≠ none)
    (ha : Answer V now D op anchor j) (hmd : ∃ t, j.payload.md.get? t ≠ none)
    (hcon : WithinConstraints ((stmtsOf D V.me p0).map (·.payload)) (D.cfg V.me).payload)
    (hpol : ∀ s ∈ stmtsOf D V.me p0, SatisfiedBy want M (D.cfg V.me).payload s.payload)
    (hpolr : ∀ s ∈ stmtsOf D V.me p0, SatisfiedBy want M j.payload s.payload) :
    ∃ got st', parseResponse .oauth2 V st (some j) = (.ok (.obj got), st') ∧ st'.registered = some (.obj got) ∧
      AsDeclared want ((stmtsOf D V.me p0).map (·.payload)) j.payload got ∧
      ∀ t, j.payload.md.get? t = none → ∃ own, AsDeclared want ((stmtsOf D V.me p0).map (·.payload)) (D.cfg V.me).payload own ∧ Dict.get? got t = Dict.get? own t := by
  obtain ⟨hself, coll, jar1, hsv, c2, v2, -⟩ := wellRun_knows V F st now op anchor j D S rank hW hd hpl hc w ho hpo hfo hho hjo ha
  obtain ⟨tc, coll', jar', t1, t2⟩ := wellRun_own V.toEnv F { st.fed with coll := coll, jar := jar1 } now V.me D S rank p0 want M hW hd hpl c2 (wellRun_has w0 v2) he hpe hfe hup hone hhints hmd0 hcon hpol
  obtain ⟨t, ht⟩ := hmd
  cases hjm : j.payload.metadata with
  | none => rw [Payload.md, hjm] at ht; exact absurd rfl ht
  | some mds =>
    have hmds : j.payload.md = mds := by simp [Payload.md, hjm]
    have hwm : (withMetadata tc mds).verified = (stmtsOf D V.me p0).map (·.payload) ++ [{ (D.cfg V.me).payload with metadata := some mds }] := by
      simp [withMetadata, t2.verified]
    have hpol' : ∀ s ∈ (stmtsOf D V.me p0).map (·.payload), SatisfiedBy want M { (D.cfg V.me).payload with metadata := some mds } s := by
      intro s hs
      obtain ⟨s', hs', rfl⟩ := List.mem_map.1 hs
      intro t md h
      refine hpolr s' hs' t md ?_
      rw [hmds]
      exact h
    obtain ⟨tc', a1, -, -, -, a5⟩ := applyToChain_satisfied V.E V.K (withMetadata tc mds) _ _ want M hwm (by simpa using stmtsOf_ne_nil hup) (by simp) hpol'
    have hlen : tc.verified.length > 1 := by
      rw [t2.verified]
      have := stmtsOf_ne_nil hup
      cases hq : stmtsOf D V.me p0 with
      | nil => exact absurd hq this
      | cons _ _ => simp
    have hre : reapply V.E V.K tc mds = .ok { tc' with metadata := Dict.update tc.metadata tc'.metadata } := by
      unfold reapply
      rw [a1]
      simp only [hlen, if_true]
    have hdecl : AsDeclared want ((stmtsOf D V.me p0).map (·.payload)) j.payload (Dict.update tc.metadata tc'.metadata) := by
      intro t md h
      rw [hmds] at h
      obtain ⟨m, m1, m2⟩ := a5 t md h
      exact ⟨m, by rw [Dict.get?_update, m1]; rfl, m2⟩
    have hother : ∀ t, mds.get? t = none → Dict.get? tc'.metadata t = none := by
      intro t hn
      obtain ⟨leaf', md, g1, g2, ⟨-, m, g3, rfl⟩ | ⟨g3, -⟩⟩ := Chains.applyToChain_ok.1 a1
      · rw [hwm] at g1
        have hleaf : leaf' = { (D.cfg V.me).payload with metadata := some mds } := by simpa using g1.symm
        subst hleaf
        have := policyForTypes_none (t := t) g3 (by
          show t ∉ Dict.keys (some mds |>.getD [])
          rw [Option.getD_some]
          exact (Dict.get?_eq_none_iff _ _).1 hn)
        show Dict.get? (m.map fun p => (p.1, mdVal p.2)) t = none
        rw [Chains.get?_map_val, this]; rfl
      · rw [hwm] at g3
        have := stmtsOf_ne_nil hup
        cases hq : stmtsOf D V.me p0 with
        | nil => exact absurd hq this
        | cons _ _ => rw [hq] at g3; simp at g3
    have hfin : finishOauth2 V { st with fed := { st.fed with coll := coll, jar := jar1 } } j =
        (.ok (.obj (Dict.update tc.metadata tc'.metadata)), ⟨{ st.fed with coll := coll', jar := jar' }, some (.obj (Dict.update tc.metadata tc'.metadata))⟩) := by
      unfold finishOauth2
      simp only [t1, hjm]
      cases mds with
      | nil => rw [hmds] at ht; exact absurd rfl ht
      | cons x mds =>
        simp only [hre]
    refine ⟨Dict.update tc.metadata tc'.metadata, ⟨{ st.fed with coll := coll', jar := jar' }, some (.obj (Dict.update tc.metadata tc'.metadata))⟩, ?_, rfl, hdecl, ?_⟩
    · unfold parseResponse parseFederation
      simp only [hself, ha.names, hm, ha.iss, hsv, hfin]
      rw [if_neg (fun h => h ha.trusted)]
      have : (Val.obj (Dict.update tc.metadata tc'.metadata)).truthy = true := by
        cases hmt : Dict.get? j.payload.md t with
        | none => exact absurd hmt ht
        | some md =>
          obtain ⟨m, m1, -⟩ := hdecl t md hmt
          generalize Dict.update tc.metadata tc'.metadata = u at m1
          cases u with
          | nil => cases m1
          | cons _ _ => rfl
      simp only [this, if_true]
    · intro t hn
      rw [hmds] at hn
      refine ⟨tc.metadata, t2.metadata, ?_⟩
      rw [Dict.get?_update, hother t hn]
      rfl

/-! ## C184 -/

/-- C184 in full, the client's part: in a well-run federation a client takes what an authorization server answers, if what it says satisfies the policies above the client. -/
def C184_full : Prop :=
  ∀ (V : Env) (F : Collect.Federation) (st : State) (now : Int) (op anchor : String) (j : Jws) (D : Directory) (S : String → Prop) (rank : String → Nat) (md : Policy.Metadata)
    (want : String → String → Policy.Want) (M : String → Policy.Metadata),
    V.metadataVerifier = none → V.W = F.at now → F.Dated → F.PlainHints → Collect.Aging V.L.toCrypto V.P F now st.fed.coll → WellRun V.L V.P F now anchor st.fed.jar D S rank →
    WellRun V.L V.P F now "" st.fed.jar D S rank →
    S op → Collect.Plain op → rank op < V.fuel → (D.cfg op).payload.hints ≠ none → Judged D op →
    S V.me → Collect.Plain V.me → rank V.me < V.fuel → (D.cfg V.me).payload.hints ≠ none → (D.cfg V.me).payload.metadata ≠ none →
    Answer V now D op anchor j → j.payload.md.get? "oauth_client" = some md → md ≠ [] →
    (∀ p, Up D V.me p → WithinConstraints ((stmtsOf D V.me p).map (·.payload)) (D.cfg V.me).payload) →
    (∀ p, Up D V.me p → ∀ s ∈ stmtsOf D V.me p, SatisfiedBy want M (D.cfg V.me).payload s.payload) →
    (∀ p, Up D V.me p → ∀ s ∈ stmtsOf D V.me p, SatisfiedBy want M j.payload s.payload) →
    ∃ m, (parseResponse .oauth2 V st (some j)).1 = .ok (.obj m)

/-- C184, the client's part, for a client with one way up: it takes the response, whatever was collected before, keeps what the response says, and its own metadata for the types the response does not
mention. Missing: clients with several ways up, for which it is false. -/
theorem C184_taken_partial (V : Env) (F : Collect.Federation) (st : State) (now : Int) (op anchor : String) (j : Jws) (D : Directory) (S : String → Prop) (rank : String → Nat) (p0 : List String)
    (md : Policy.Metadata) (want : String → String → Policy.Want) (M : String → Policy.Metadata)
    (hm : V.metadataVerifier = none) (hW : V.W = F.at now) (hd : F.Dated) (hpl : F.PlainHints) (hc : Collect.Aging V.L.toCrypto V.P F now st.fed.coll)
    (w : WellRun V.L V.P F now anchor st.fed.jar D S rank) (w0 : WellRun V.L V.P F now "" st.fed.jar D S rank)
    (ho : S op) (hpo : Collect.Plain op) (hfo : rank op < V.fuel) (hho : (D.cfg op).payload.hints ≠ none) (hjo : Judged D op)
    (he : S V.me) (hpe : Collect.Plain V.me) (hfe : rank V.me < V.fuel) (hup : Up D V.me p0) (hone : ∀ p, Up D V.me p → p = p0)
    (hhints : (D.cfg V.me).payload.hints ≠ none) (hmd0 : (D.cfg V.me).payload.metadata ≠ none)
    (ha : Answer V now D op anchor j) (hmd : j.payload.md.get? "oauth_client" = some md)
    (hcon : WithinConstraints ((stmtsOf D V.me p0).map (·.payload)) (D.cfg V.me).payload)
    (hpol : ∀ s ∈ stmtsOf D V.me p0, SatisfiedBy want M (D.cfg V.me).payload s.payload)
    (hpolr : ∀ s ∈ stmtsOf D V.me p0, SatisfiedBy want M j.payload s.payload) :
    ∃ got mine st', parseResponse .oauth2 V st (some j) = (.ok (.obj got), st') ∧ st'.registered = some (.obj got) ∧ Dict.get? got "oauth_client" = some (.obj mine) ∧
      (∀ s ∈ stmtsOf D V.me p0, ∀ c ∈ ((toP s.payload).rule "oauth_client").policy.keys, (want "oauth_client" c).is (Dict.get? mine c)) ∧
      (∀ c v, md.get? c = some v → (∀ s ∈ stmtsOf D V.me p0, c ∉ ((toP s.payload).rule "oauth_client").policy.keys) → Dict.get? mine c = some v) ∧
      ∀ t own, (D.cfg V.me).payload.md.get? t = some own → j.payload.md.get? t = none → ∃ all, Dict.get? got t = some (.obj all) ∧
        ∀ c v, own.get? c = some v → (∀ s ∈ stmtsOf D V.me p0, c ∉ ((toP s.payload).rule t).policy.keys) → Dict.get? all c = some v := by
  obtain ⟨got, st', g1, g2, g3, g4⟩ := wellRun_takes_oauth V F st now op anchor j D S rank p0 want M hm hW hd hpl hc w w0 ho hpo hfo hho hjo he hpe hfe hup hone hhints hmd0 ha ⟨_, by rw [hmd]; simp⟩
    hcon hpol hpolr
  obtain ⟨mine, m1, m2, m3⟩ := g3 _ _ hmd
  refine ⟨got, mine, st', g1, g2, m1, fun s hs => m2 s.payload (List.mem_map.2 ⟨s, hs, rfl⟩), fun c v hc hn => m3 c v hc fun s hs => ?_, fun t own ht hn => ?_⟩
  · obtain ⟨s', hs', rfl⟩ := List.mem_map.1 hs
    exact hn s' hs'
  · obtain ⟨all, a1, a2⟩ := g4 t hn
    obtain ⟨x, x1, -, x3⟩ := a1 t own ht
    refine ⟨x, by rw [a2, x1], fun c v hc hno => x3 c v hc fun s hs => ?_⟩
    obtain ⟨s', hs', rfl⟩ := List.mem_map.1 hs
    exact hno s' hs'

/-- The set-up of a registration: the client `V.me` and the authorization server `op` are members of a federation of this software (see C133); the client has one way up, to `anchor`, which it trusts; the
contexts of the two are those of the members; the client is a part of its combination, besides which there are at most the federation entity and a trust mark issuer. -/
structure OauthParties (V : Env) (st : State) (Vp : Chains.Env) (stp : Registration.AppState) (J : Jose) (member : String → Option Member) (host : Val → Option String) (issued asked answered now : Int)
    (h hp : List Collect.FRun) (op anchor : String) (p0 : List String) (rank : String → Nat) (mc mo : Member) (filesc fileso : Dict Val) (cc co : Ctx) (named : Option Server.Roles.Client)
    (parts : Dict Server.Roles.Part) (m : Dict Val) : Prop where
  client : Running V.toEnv J member host issued now st.fed h anchor rank
  server : Running Vp J member host issued answered stp.fed hp "" rank
  verifier : V.metadataVerifier = none
  memberc : member V.me = some mc
  membero : member op = some mo
  hintsc : strs mc.authority.hints ≠ []
  hintso : strs mo.authority.hints ≠ []
  fuel : rank V.me < V.fuel ∧ rank op < V.fuel ∧ rank V.me < Vp.fuel
  metadata : mc.authority.metadata.truthy = true
  up : Up (directory J member issued) V.me p0
  one : ∀ p, Up (directory J member issued) V.me p → p = p0
  top : p0.getLast? = some anchor
  trusted : anchor ∈ V.P.anchors
  ctxc : cc.entityId = V.me ∧ cc.ownKeys = mc.authority.ownKeys ∧ cc.defaultLifetime ≠ 0 ∧ answered < asked + cc.defaultLifetime
  ctxo : co.entityId = op ∧ co.ownKeys = mo.authority.ownKeys ∧ co.defaultLifetime ≠ 0 ∧ now < answered + co.defaultLifetime
  hints : getHints filesc cc = .ok mc.authority.hints
  found : ∃ marks, getMarks fileso co = .ok marks
  part : (objs (.obj (comboGet named parts))).get? "oauth_client" = some m
  parts : ∀ t ∈ Dict.keys (objs (.obj (comboGet named parts))), t = "federation_entity" ∨ t = "trust_mark_issuer" ∨ t = "oauth_client"

/-- C184: a client and an authorization server of a federation of this software. The server works out what the client asks for by the policies above it; if it registers the client with that, it answers,
and the client takes the answer and keeps what the server says, if that is within the policies above the client. Missing: clients with several ways up to an anchor (false). -/
theorem C184_registered_partial (V : Env) (st : State) (Vp : Chains.Env) (stp : Registration.AppState) (J : Jose) (member : String → Option Member) (host : Val → Option String)
    (issued asked answered now : Int) (h hp : List Collect.FRun) (op anchor : String) (p0 : List String) (rank : String → Nat) (mc mo : Member) (filesc fileso : Dict Val) (cc co : Ctx)
    (client : Option Server.Roles.Client) (parts : Dict Server.Roles.Part) (m req : Dict Val) (R : Registration.RegEnv) (priority : List String)
    (want : String → String → Policy.Want) (M : String → Policy.Metadata)
    (P : OauthParties V st Vp stp J member host issued asked answered now h hp op anchor p0 rank mc mo filesc fileso cc co client parts m)
    (hreq : registrationRequest filesc cc asked parts client = .ok req) (hjo : Judged (directory J member issued) op)
    (hcon : WithinConstraints ((stmtsOf (directory J member issued) V.me p0).map (·.payload)) ((directory J member issued).cfg V.me).payload)
    (hpol : ∀ s ∈ stmtsOf (directory J member issued) V.me p0, SatisfiedBy want M ((directory J member issued).cfg V.me).payload s.payload)
    (hpolq : ∀ s ∈ stmtsOf (directory J member issued) V.me p0, SatisfiedBy want M { metadata := some (objs (.obj (comboGet client parts))), iss := V.me, sub := V.me } s.payload) :
    ∃ reg, (∀ s ∈ stmtsOf (directory J member issued) V.me p0, ∀ c ∈ ((toP s.payload).rule "oauth_client").policy.keys, (want "oauth_client" c).is (Dict.get? reg c)) ∧
      (∀ c v, m.get? c = some v → (∀ s ∈ stmtsOf (directory J member issued) V.me p0, c ∉ ((toP s.payload).rule "oauth_client").policy.keys) → Dict.get? reg c = some v) ∧
      ∀ id args, (Registration.setup R stp.srv reg true true []).1 = .ok (id, args) →
        (∀ s ∈ stmtsOf (directory J member issued) V.me p0, SatisfiedBy want M { metadata := some [("oauth_client", grantedOauth reg args)], iss := op, sub := V.me } s.payload) →
        ∃ stp' resp got mine st', Registration.explicitOauth2 Vp R priority stp (some (token J V.me req)) =
            (.ok (some (id, ⟨V.me, V.me, anchor, "oauth_client", grantedOauth reg args⟩)), stp') ∧
          stp'.srv = (Registration.setup R stp.srv reg true true []).2 ∧
          registrationResponse fileso co answered false V.me anchor (.obj [("oauth_client", .obj (grantedOauth reg args))]) = .ok resp ∧
          parseResponse .oauth2 V st (some (token J op resp)) = (.ok (.obj got), st') ∧ st'.registered = some (.obj got) ∧ Dict.get? got "oauth_client" = some (.obj mine) ∧
          ∀ c v, (grantedOauth reg args).get? c = some v →
            (∀ s ∈ stmtsOf (directory J member issued) V.me p0, c ∉ ((toP s.payload).rule "oauth_client").policy.keys) → Dict.get? mine c = some v := by
  obtain ⟨hc1, hc2, hc3, hc4⟩ := P.ctxc
  obtain ⟨ho1, ho2, ho3, ho4⟩ := P.ctxo
  obtain ⟨f1, f2, f3⟩ := P.fuel
  have hcfg := (P.client.kept.cfg (issued := issued) P.memberc).2
  have hidc := P.client.kept.id V.me mc P.memberc
  have hido := P.client.kept.id op mo P.membero
  have hread := P.client.kept.read (issued := issued) P.memberc
  rw [if_neg P.hintsc] at hread
  have hht : mc.authority.hints.truthy = true := (hints_read (P.client.kept.hints V.me mc P.memberc)).2 P.hintsc
  -- the request
  obtain ⟨r1, r2, r3, r4, r5, r6, r7⟩ := registrationRequest_says hreq hc3
  rw [hc1] at r1 r2
  rw [hc2] at r3
  have r7 := r7 _ P.hints hht
  have hcombo : (Val.obj (comboGet client parts)).truthy = true := by
    show (!(comboGet client parts).isEmpty) = true
    cases hc : comboGet client parts with
    | nil => have := P.part; rw [hc] at this; cases this
    | cons _ _ => rfl
  have hreqp : (token J V.me req).payload.iss = V.me ∧ (token J V.me req).payload.sub = V.me ∧ (token J V.me req).payload.jwks = some (J.keys mc.authority.ownKeys) ∧
      (token J V.me req).payload.metadata = some (objs (.obj (comboGet client parts))) ∧ (token J V.me req).payload.exp = some (asked + cc.defaultLifetime) ∧
      (token J V.me req).payload.constraints = none ∧ (token J V.me req).payload.hints = some (strs mc.authority.hints) := by
    refine ⟨?_, ?_, ?_, ?_, ?_, ?_, ?_⟩ <;> simp [token, decode, r1, r2, r3, r4, r5, r6, r7, asStr, asInt, hcombo, Option.filter]
  obtain ⟨q1, q2, q3, q4, q5, q6, q7⟩ := hreqp
  have hnowp : Vp.W.now = answered := by rw [P.server.world]; rfl
  have hsigns := P.server.kept.signs V.me mc req P.memberc
  have hselfp : selfVerify Vp.L.toCrypto Vp.W.now (token J V.me req) = .ok (token J V.me req).payload := by
    obtain ⟨k, k1, k2, k3⟩ := hsigns
    have : ((J.keys mc.authority.ownKeys).filter (Vp.L.usable (token J V.me req))).any (Vp.L.verifies (token J V.me req)) = true := by
      rw [List.any_eq_true]
      exact ⟨k, List.mem_filter.2 ⟨k1, k2⟩, k3⟩
    simp only [selfVerify, q3, this, hnowp, P.server.kept.time _ _ answered q5 hc4, Bool.and_self, if_true]
  -- the chains the server finds
  have ws := P.server.kept.wellRun (issued := issued) Vp.P answered "" P.server.fresh P.server.stop
  have hdk : ∀ e me, member e = some me → (directory J member issued).keys e = J.keys me.authority.ownKeys := by
    intro e me h
    simp [directory, h]
  obtain ⟨out, o1, o2, -, o4⟩ := wellRun_signed Vp (Chains.world J member host issued) stp.fed answered V.me (directory J member issued) (fun e => ∃ m, member e = some m) rank want M (token J V.me req)
    P.server.world P.server.kept.dated P.server.kept.plainHints
    (by rw [P.server.coll]; exact Collect.runAll_aging (C := Vp.L.toCrypto) (P := Vp.P) P.server.kept.dated P.server.kept.plainHints hp answered ((P.server.kept.lasting P.server.fresh.2).steady _) P.server.order P.server.past P.server.plain)
    ws ⟨mc, P.memberc⟩ hidc.2.2 f3 hselfp q1 (by rw [q3]; simp) ⟨_, q5⟩ (by rw [hdk _ _ P.memberc]; exact hsigns) (by rw [q7, hread]) (by rw [hread]; simp) (by rw [q4]; simp)
    (fun p hp => by rw [P.one p hp]; exact WithinConstraints.leaf hcon (by simp only [toC, q2, q6, hcfg.constraints, hcfg.sub, hidc.1]))
    (fun p hp => by
      rw [P.one p hp]
      intro s hs t md hmd
      refine hpolq s hs t md ?_
      simpa [Payload.md, q4] using hmd)
  obtain ⟨tc, t1, t2⟩ := explicitOauth2_answers Vp R priority stp (token J V.me req) _ m out hselfp q4 P.part P.parts (by rw [q2]; exact o1) o2
  obtain ⟨p, hp1, hr⟩ := o4 tc t1
  have hanchor : tc.anchor = anchor := by
    have := hr.anchor
    rw [P.one p hp1, P.top] at this
    exact (Option.some.inj this).symm
  rw [P.one p hp1] at hr
  obtain ⟨reg, e1, e2, e3⟩ := hr.metadata "oauth_client" m (by simp only [Payload.md, q4]; exact P.part)
  refine ⟨reg, fun s hs => e2 s.payload (List.mem_map.2 ⟨s, hs, rfl⟩), fun c v hc hn => e3 c v hc fun s hs => ?_, fun id args hset hpolr => ?_⟩
  · obtain ⟨s', hs', rfl⟩ := List.mem_map.1 hs
    exact hn s' hs'
  obtain ⟨t3, t4⟩ := t2 reg id args e1 hset
  rw [q1, hanchor] at t3
  -- the response
  obtain ⟨resp, hresp⟩ := oauthResponse_total (now := answered) (client := V.me) (anchor := anchor) (md := .obj [("oauth_client", .obj (grantedOauth reg args))]) P.found
  obtain ⟨s1, s2, s3, s4, s5, s6⟩ := oauthResponse_says hresp ho3
  rw [ho1] at s1
  rw [ho2] at s3
  have hfilter : (some (Val.obj [("oauth_client", .obj (grantedOauth reg args))])).filter Val.truthy = some (Val.obj [("oauth_client", .obj (grantedOauth reg args))]) := rfl
  rw [hfilter] at s5
  have hrespp : (token J op resp).payload.iss = op ∧ (token J op resp).payload.jwks = some (J.keys mo.authority.ownKeys) ∧
      (token J op resp).payload.metadata = some [("oauth_client", grantedOauth reg args)] ∧ (token J op resp).payload.exp = some (answered + co.defaultLifetime) ∧
      (token J op resp).payload.trustAnchor = some anchor := by
    refine ⟨?_, ?_, ?_, ?_, ?_⟩ <;> simp [token, decode, s1, s3, s4, s5, s6, asStr, asInt, objs]
  obtain ⟨u1, u3, u4, u5, u6⟩ := hrespp
  have w := P.client.kept.wellRun (issued := issued) V.P now anchor P.client.fresh P.client.stop
  have w0 := P.client.kept.wellRun (issued := issued) V.P now "" P.client.fresh (fun m hm => absurd rfl (P.client.kept.id "" m hm).2.1)
  have hans : Answer V now (directory J member issued) op anchor (token J op resp) := by
    refine ⟨u1, by rw [hdk _ _ P.membero]; exact u3, ?_, P.client.kept.time _ _ now u5 ho4, ⟨_, u5⟩, u6, P.trusted⟩
    rw [hdk _ _ P.membero]
    exact P.client.kept.signs op mo resp P.membero
  have hmdr : (token J op resp).payload.md = [("oauth_client", grantedOauth reg args)] := by simp [Payload.md, u4]
  obtain ⟨got, mine, st', g1, g2, g3, -, g5, -⟩ := C184_taken_partial V (Chains.world J member host issued) st now op anchor (token J op resp) (directory J member issued) (fun e => ∃ m, member e = some m)
    rank p0 (grantedOauth reg args) want M P.verifier P.client.world P.client.kept.dated P.client.kept.plainHints
    (by rw [P.client.coll]; exact Collect.runAll_aging (C := V.L.toCrypto) (P := V.P) P.client.kept.dated P.client.kept.plainHints h now ((P.client.kept.lasting P.client.fresh.2).steady _) P.client.order P.client.past P.client.plain)
    w w0 ⟨mo, P.membero⟩ hido.2.2 f2 (by rw [P.client.kept.read P.membero, if_neg P.hintso]; simp) hjo ⟨mc, P.memberc⟩ hidc.2.2 f1 P.up P.one (by rw [hread]; simp)
    (by rw [hcfg.metadata, if_pos P.metadata]; simp) hans (by rw [hmdr, Dict.get?_cons, if_pos rfl]) hcon hpol
    (by
      intro s hs t md hmd
      rw [hmdr] at hmd
      exact hpolr s hs t md hmd)
  exact ⟨_, resp, got, mine, st', Prod.ext t3 rfl, t4, hresp, g1, g2, g3, g5⟩

/-- C184 where authorities register only keys: the server registers the client with all it asks for, if at all, and the client then has all the server says, so the client id and the secret of the
registration. -/
theorem C184_keys_partial (V : Env) (st : State) (Vp : Chains.Env) (stp : Registration.AppState) (J : Jose) (member : String → Option Member) (host : Val → Option String)
    (issued asked answered now : Int) (h hp : List Collect.FRun) (op anchor : String) (p0 : List String) (rank : String → Nat) (mc mo : Member) (filesc fileso : Dict Val) (cc co : Ctx)
    (client : Option Server.Roles.Client) (parts : Dict Server.Roles.Part) (m req : Dict Val) (R : Registration.RegEnv) (priority : List String)
    (P : OauthParties V st Vp stp J member host issued asked answered now h hp op anchor p0 rank mc mo filesc fileso cc co client parts m)
    (hreq : registrationRequest filesc cc asked parts client = .ok req) (hurl : ∀ e m, member e = some m → Constraints.IsUrl e)
    (honly : ∀ e m a ma reg, member e = some m → a ∈ strs m.authority.hints → member a = some ma → ma.authority.subordinate.get? e = some reg → OnlyKeys ma.authority e reg) :
    ∃ reg, (∀ c v, m.get? c = some v → Dict.get? reg c = some v) ∧
      ∀ id args, (Registration.setup R stp.srv reg true true []).1 = .ok (id, args) →
        ∃ stp' resp got mine st', Registration.explicitOauth2 Vp R priority stp (some (token J V.me req)) =
            (.ok (some (id, ⟨V.me, V.me, anchor, "oauth_client", grantedOauth reg args⟩)), stp') ∧
          stp'.srv = (Registration.setup R stp.srv reg true true []).2 ∧
          registrationResponse fileso co answered false V.me anchor (.obj [("oauth_client", .obj (grantedOauth reg args))]) = .ok resp ∧
          parseResponse .oauth2 V st (some (token J op resp)) = (.ok (.obj got), st') ∧ st'.registered = some (.obj got) ∧ Dict.get? got "oauth_client" = some (.obj mine) ∧
          ∀ c v, (grantedOauth reg args).get? c = some v → Dict.get? mine c = some v := by
  obtain ⟨k1, -, k3⟩ := keys_only V.L J member host st.fed.jar issued now V.P anchor V.me mc rank P.client.kept P.client.fresh P.client.stop P.memberc hurl honly
  obtain ⟨o1, -, -⟩ := keys_only V.L J member host st.fed.jar issued now V.P anchor op mo rank P.client.kept P.client.fresh P.client.stop P.membero hurl honly
  obtain ⟨reg, -, g2, g3⟩ := C184_registered_partial V st Vp stp J member host issued asked answered now h hp op anchor p0 rank mc mo filesc fileso cc co client parts m req
    R priority (fun _ _ => .one .null .null) (fun _ => []) P hreq
    (fun p hp s hs => ⟨(o1 p hp).urls _ (List.mem_map.2 ⟨s, hs, rfl⟩), (o1 p hp).both _ (List.mem_map.2 ⟨s, hs, rfl⟩)⟩)
    (k1 p0 P.up) (fun s hs => satisfied_bare (k3 p0 P.up s hs)) (fun s hs => satisfied_bare (k3 p0 P.up s hs))
  have hno : ∀ c : String, ∀ s ∈ stmtsOf (directory J member issued) V.me p0, c ∉ ((toP s.payload).rule "oauth_client").policy.keys := by
    intro c s hs
    rw [(k3 p0 P.up s hs _).1]
    simp [Dict.keys]
  refine ⟨reg, fun c v hc => g2 c v hc (hno c), fun id args hset => ?_⟩
  obtain ⟨stp', resp, got, mine, st', x1, x2, x3, x4, x5, x6, x7⟩ := g3 id args hset (fun s hs => satisfied_bare (k3 p0 P.up s hs))
  exact ⟨stp', resp, got, mine, st', x1, x2, x3, x4, x5, x6, fun c v hc => x7 c v hc (hno c)⟩

/-! ### A registration

`leaf` registers with `im`, which is its authority as well; both are below `ta`. -/
namespace Ex
def asked184 : Dict Val := [("redirect_uris", .arr [.str "https://rp/cb"]), ("scope", .str "openid")]
def parts184 : Dict Server.Roles.Part := [("federation_entity", .federation []), ("oauth_client", .client ⟨true, fun t => [(t, .obj asked184)]⟩)]

theorem parties184 : OauthParties V178 { fed := Chains.Ex.st } Vp178 stp178 Chains.Ex.J (Chains.Ex.member133 []) Chains.Ex.host133 0 100 110 120 [] [] "https://im" "https://ta"
    ["https://im", "https://ta"] Chains.Ex.rank109 Chains.Ex.mLeaf Chains.Ex.mIm [] [] cc178 co178 none parts184 asked184 where
  client := parties178.client
  server := parties178.provider
  verifier := rfl
  memberc := rfl
  membero := rfl
  hintsc := by decide
  hintso := by decide
  fuel := by decide
  metadata := rfl
  up := parties178.up
  one := parties178.one
  top := rfl
  trusted := by decide
  ctxc := parties178.ctxc
  ctxo := parties178.ctxo
  hints := rfl
  found := ⟨_, rfl⟩
  part := by decide +kernel
  parts := by decide +kernel
end Ex

/-- The hypotheses of C184 are met; the server registers the client as "c0", and the client has this id and the secret afterwards. -/
example : ∃ req resp, registrationRequest [] Ex.cc178 100 Ex.parts184 none = .ok req ∧
    (∃ reg, (∀ c v, Ex.asked184.get? c = some v → Dict.get? reg c = some v) ∧ ∀ id args, (Registration.setup Registration.Ex.R Ex.stp178.srv reg true true []).1 = .ok (id, args) →
      ∃ stp', Registration.explicitOauth2 Ex.Vp178 Registration.Ex.R [] Ex.stp178 (some (token Chains.Ex.J "https://leaf" req)) =
        (.ok (some (id, ⟨"https://leaf", "https://leaf", "https://ta", "oauth_client", grantedOauth reg args⟩)), stp')) ∧
    (Registration.explicitOauth2 Ex.Vp178 Registration.Ex.R [] Ex.stp178 (some (token Chains.Ex.J "https://leaf" req))).1 =
      .ok (some ("c0", ⟨"https://leaf", "https://leaf", "https://ta", "oauth_client", [("scope", .str "openid"), ("client_secret", .str "secret of c0"), ("client_id", .str "c0")]⟩)) ∧
    registrationResponse [] Ex.co178 110 false "https://leaf" "https://ta" (.obj [("oauth_client", .obj [("scope", .str "openid"), ("client_secret", .str "secret of c0"), ("client_id", .str "c0")])]) = .ok resp ∧
    (match parseResponse .oauth2 Ex.V178 { fed := Chains.Ex.st } (some (token Chains.Ex.J "https://im" resp)) with
      | (.ok (.obj got), _) => (match Dict.get? got "oauth_client" with | some (.obj mine) => (Dict.get? mine "client_id", Dict.get? mine "client_secret") | _ => (none, none))
      | _ => (none, none)) = (some (.str "c0"), some (.str "secret of c0")) := by
  obtain ⟨req, hreq⟩ : ∃ req, registrationRequest [] Ex.cc178 100 Ex.parts184 none = .ok req := ⟨_, rfl⟩
  obtain ⟨reg, r1, r2⟩ := C184_keys_partial Ex.V178 { fed := Chains.Ex.st } Ex.Vp178 Ex.stp178 Chains.Ex.J (Chains.Ex.member133 []) Chains.Ex.host133 0 100 110 120 [] []
    "https://im" "https://ta" ["https://im", "https://ta"] Chains.Ex.rank109 Chains.Ex.mLeaf Chains.Ex.mIm [] [] Ex.cc178 Ex.co178 none Ex.parts184 Ex.asked184 req
    Registration.Ex.R [] Ex.parties184 hreq Chains.Ex.url133 Chains.Ex.onlyKeys133
  refine ⟨req, _, hreq, ⟨reg, r1, fun id args hs => ?_⟩, ?_, rfl, ?_⟩
  · obtain ⟨stp', -, -, -, -, x, -⟩ := r2 id args hs
    exact ⟨stp', x⟩
  · cases hreq
    decide +kernel
  · decide +kernel

/-! ### Several ways up -/
namespace Ex
def said184 : Jws := ⟨{ iss := "https://im", sub := "https://leaf", exp := some 10000, jwks := some [2], trustAnchor := some "https://ta", metadata := some [("oauth_client", [("client_id", .str "c")])] }, 2⟩

theorem wellRun184 : WellRun Chains.Ex.L { anchors := ["https://ta"] } F178 0 "" [("https://ta", [1])] D178 Chains.Ex.S109 Chains.Ex.rank109 :=
  { wellRun178 with notStop := Chains.Ex.wellRun109.notStop }
end Ex

/-- C184 does not hold: a client with two authorities, both below the anchor, takes no response. -/
theorem C184_two_ways_violation : ¬ C184_full := by
  intro h
  obtain ⟨m, hm⟩ := h Ex.V178b Ex.F178 { fed := Chains.Ex.st } 0 "https://im" "https://ta" Ex.said184 Ex.D178 Chains.Ex.S109 Chains.Ex.rank109 [("client_id", .str "c")]
    (fun _ _ => .one .null .null) (fun _ => []) rfl rfl Ex.dated178.1 Ex.dated178.2 (Collect.Aging.empty _ _ _ _) Ex.wellRun178 Ex.wellRun184 (by unfold Chains.Ex.S109; decide) (by decide) (by decide)
    (by decide) Ex.judged178 (by show Chains.Ex.S109 "https://leaf"; unfold Chains.Ex.S109; decide) (by decide) (by decide) (by decide) (by decide)
    ⟨rfl, rfl, ⟨2, by decide, rfl, rfl⟩, by decide, ⟨_, rfl⟩, rfl, by decide⟩ rfl (by decide)
    (fun p hp => Ex.within178 rfl rfl hp) (fun p hp => Ex.satisfied178 _ hp) (fun p hp => Ex.satisfied178 _ hp)
  have : (parseResponse .oauth2 Ex.V178b { fed := Chains.Ex.st } (some Ex.said184)).1 = .error .systemError := by decide +kernel
  rw [this] at hm
  cases hm
end Fed.Client
