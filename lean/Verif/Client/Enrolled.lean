import Verif.Client.Welcomed
import Verif.Chains.Upheld
import Verif.Server.RolesProps
/-
Properties C178 and C179: explicit registration of an OpenID client with a provider, both of this software.
-/
namespace Fed.Client
open Fed Verify Chains Server.Context Server.Roles

/-! ## The request -/

/-- `if _context.trust_marks: kwargs["trust_marks"] = _context.trust_marks` (/repo/src/fedservice/appclient/oidc/registration.py 70-71): what the context was given, as it is; a function cannot be written
as JSON. -/
def rawMarks : Source → Option (Dict Val)
  | .nothing => some []
  | .value v => some (if v.truthy then [("trust_marks", v)] else [])
  | .file n => some (if n = "" then [] else [("trust_marks", .str n)])
  | .call _ => none

/-- `create_entity_statement` of the OpenID registration (appclient/oidc/registration.py 49-85): the configuration the client sends. The metadata is what the combination gives when no client is named
(60). -/
def oidcRequest (files : Dict Val) (c : Ctx) (now : Int) (parts : Dict Part) : Except PyErr (Dict Val) :=
  match comboMetadata none parts with
  | .error e => .error e
  | .ok md =>
    match getHints files c with
    | .error e => .error e
    | .ok hints =>
      match rawMarks c.marks with
      | none => .error .typeError
      | some marks => ctxStatement files c now c.entityId c.entityId ([("metadata", .obj md), ("authority_hints", hints)] ++ marks)

/-- A statement is made of arguments that do not repeat others, if the trust marks can be found. -/
theorem ctxStatement_total {files : Dict Val} {c : Ctx} {now : Int} {iss sub : String} {kwargs : Dict Val} {marks : Val} (hm : getMarks files c = .ok marks)
    (hk : ∀ k ∈ ["iss", "sub", "key_jar", "lifetime"], kwargs.get? k = none) : ∃ p, ctxStatement files c now iss sub kwargs = .ok p := by
  have hka : ∀ k ∈ ["iss", "sub", "key_jar"], (keyArgs kwargs).get? k = none := by
    intro k h
    rw [get?_keyArgs_other _ _ (by rintro rfl; simp at h) (by rintro rfl; simp at h)]
    exact hk k (by simp at h ⊢; rcases h with h | h | h <;> simp [h])
  have hma : ∃ kw, markArgs files c (keyArgs kwargs) = .ok kw ∧ ∀ k ∈ ["iss", "sub", "key_jar"], kw.get? k = none := by
    unfold markArgs
    split
    · exact ⟨_, rfl, hka⟩
    · rw [hm]
      refine ⟨_, rfl, ?_⟩
      split
      · intro k h
        rw [Dict.get?_set, if_neg (by rintro rfl; simp at h)]
        exact hka k h
      · exact hka
  obtain ⟨kw, h1, h2⟩ := hma
  unfold ctxStatement
  simp only [h1]
  have hl : lifetimeArg c kwargs = .int c.defaultLifetime := by simp [lifetimeArg, hk "lifetime" (by simp), Val.truthy]
  rw [hl]
  generalize (if ((kwargs.get? "authority_hints").getD .null).truthy = true then (none, (kwargs.get? "authority_hints").getD .null) else rawHints c.hints) = fh
  have hno : ∀ k ∈ ["iss", "sub", "key_jar"], Dict.has ((kw.set "authority_hints" fh.2).set "lifetime" (.int c.defaultLifetime)) k = false := by
    intro k h
    rw [Bool.eq_false_iff, ne_eq, Dict.has_iff, Dict.mem_keys_iff, Dict.get?_set, if_neg (by rintro rfl; simp at h), Dict.get?_set, if_neg (by rintro rfl; simp at h), h2 k h]
    simp
  unfold Server.createStatement
  rw [hno "iss" (by simp), hno "sub" (by simp), hno "key_jar" (by simp)]
  have : Server.param ((kw.set "authority_hints" fh.2).set "lifetime" (.int c.defaultLifetime)) "lifetime" (.int 86400) = .int c.defaultLifetime := by
    unfold Server.param
    rw [Dict.get?_set_self]
    rfl
  rw [this]
  exact ⟨_, rfl⟩

/-- What the request says. -/
theorem oidcRequest_says {files : Dict Val} {c : Ctx} {now : Int} {parts : Dict Part} {p : Dict Val} (h : oidcRequest files c now parts = .ok p) (hl : c.defaultLifetime ≠ 0) :
    p.get? "iss" = some (.str c.entityId) ∧ p.get? "sub" = some (.str c.entityId) ∧ p.get? "jwks" = some c.ownKeys ∧ p.get? "exp" = some (.int (now + c.defaultLifetime)) ∧
    p.get? "metadata" = (some (Val.obj (comboGet none parts))).filter Val.truthy := by
  unfold oidcRequest at h
  cases hmd : comboMetadata none parts with
  | error e => rw [hmd] at h; cases h
  | ok md =>
  rw [hmd] at h
  simp only at h
  rw [comboMetadata_ok hmd] at h
  cases hg : getHints files c with
  | error e => rw [hg] at h; cases h
  | ok hints =>
    rw [hg] at h
    simp only at h
    cases hr : rawMarks c.marks with
    | none => rw [hr] at h; cases h
    | some ms =>
      rw [hr] at h
      simp only at h
      have hms : ms = [] ∨ ∃ v, ms = [("trust_marks", v)] ∧ v.truthy = true := by
        unfold rawMarks at hr
        split at hr
        · cases hr; exact .inl rfl
        · cases hr
          split
          · exact .inr ⟨_, rfl, by assumption⟩
          · exact .inl rfl
        · cases hr
          split
          · exact .inl rfl
          · rename_i n hn
            exact .inr ⟨_, rfl, by simp [Val.truthy, hn]⟩
        · cases hr
      have hmk : ∃ marks, ((Dict.get? ([("metadata", Val.obj (comboGet none parts)), ("authority_hints", hints)] ++ ms) "trust_marks").getD .null).truthy = false → getMarks files c = .ok marks := by
        rcases hms with rfl | ⟨v, rfl, hv⟩
        · cases hgm : getMarks files c with
          | ok marks => exact ⟨marks, fun _ => rfl⟩
          | error e =>
            exfalso
            unfold ctxStatement markArgs at h
            have hk : ((keyArgs ([("metadata", Val.obj (comboGet none parts)), ("authority_hints", hints)] ++ [])).get? "trust_marks") = none := by
              rw [get?_keyArgs_other _ _ (by decide) (by decide)]
              simp [Dict.get?]
            simp only [hk, hgm] at h
            simp [Val.truthy] at h
        · exact ⟨.null, fun hf => by simp [Dict.get?, hv] at hf⟩
      obtain ⟨marks, hmk⟩ := hmk
      have s := ctxStatement_says h hints marks hmk (fun hn => by simp [Dict.get?] at hn)
      have hnone : ∀ k ∈ ["include_jwks", "lifetime", "jwks", "keys"], Dict.get? ([("metadata", Val.obj (comboGet none parts)), ("authority_hints", hints)] ++ ms) k = none := by
        intro k hk
        simp only [List.mem_cons, List.not_mem_nil, or_false] at hk
        rcases hms with rfl | ⟨v, rfl, -⟩ <;> rcases hk with rfl | rfl | rfl | rfl <;> simp [Dict.get?]
      refine ⟨s.issuer, s.subject, ?_, s.lifetimeDefault (hnone _ (by simp)) hl, ?_⟩
      · rw [s.keys (hnone _ (by simp)), keysAsked, hnone "jwks" (by simp), hnone "keys" (by simp)]
        rfl
      · rw [s.named "metadata" (by simp)]
        simp [Dict.get?]

/-- What the response says. -/
theorem response_says {files : Dict Val} {c : Ctx} {now : Int} {client anchor : String} {md : Val} {p : Dict Val} (h : registrationResponse files c now true client anchor md = .ok p)
    (hl : c.defaultLifetime ≠ 0) :
    p.get? "iss" = some (.str c.entityId) ∧ p.get? "sub" = some (.str client) ∧ p.get? "jwks" = some c.ownKeys ∧ p.get? "exp" = some (.int (now + c.defaultLifetime)) ∧
    p.get? "metadata" = (some md).filter Val.truthy ∧ p.get? "trust_anchor_id" = some (.str anchor) ∧ p.get? "constraints" = none := by
  obtain ⟨h1, h2, -, h4, h5, h6, h7, marks, h8, -⟩ := C150_response_partial files c now true client anchor md p hl h
  refine ⟨h1, h2, h7, h6, h5, h4, ?_⟩
  unfold registrationResponse at h
  simp only [if_true] at h
  cases hg : getHints files c with
  | error e => rw [hg] at h; cases h
  | ok hints =>
    rw [hg] at h
    simp only at h
    have s := ctxStatement_says h hints marks (fun _ => h8) (fun hn => by simp [Dict.get?] at hn)
    rw [s.named "constraints" (by simp)]
    simp [Dict.get?]

theorem response_total {files : Dict Val} {c : Ctx} {now : Int} {client anchor : String} {md : Val} (hh : ∃ hints, getHints files c = .ok hints) (hm : ∃ marks, getMarks files c = .ok marks) :
    ∃ p, registrationResponse files c now true client anchor md = .ok p := by
  obtain ⟨hints, hh⟩ := hh
  obtain ⟨marks, hm⟩ := hm
  unfold registrationResponse
  simp only [if_true, hh]
  refine ctxStatement_total hm ?_
  intro k hk
  simp only [List.mem_cons, List.not_mem_nil, or_false] at hk
  rcases hk with rfl | rfl | rfl | rfl <;> simp [Dict.get?]

/-! ## The provider -/

/-- The type of the client is found in a request with metadata for it and, at most, for a federation entity. -/
theorem opponentType_rp (K : SetEnum String) (md : Dict Policy.Metadata) (m : Policy.Metadata) (hrp : md.get? "openid_relying_party" = some m)
    (ht : ∀ t ∈ Dict.keys md, t = "federation_entity" ∨ t = "openid_relying_party") :
    Registration.opponentType K md (if (Dict.keys md).length = 1 then [] else ["federation_entity"]) = .ok "openid_relying_party" := by
  have hmem : "openid_relying_party" ∈ Dict.keys md := (Dict.mem_keys_iff_exists _ _).2 ⟨m, hrp⟩
  have hone : ∀ but, (∀ t ∈ but, t = "federation_entity") → (∀ t ∈ Dict.keys md, t ∉ but → t = "openid_relying_party") → Registration.opponentType K md but = .ok "openid_relying_party" := by
    intro but hb hall
    unfold Registration.opponentType
    have hin : "openid_relying_party" ∈ K.enum ((Dict.keys md).filter fun t => t ∉ but) := by
      rw [K.mem_enum, List.mem_filter]
      refine ⟨hmem, ?_⟩
      simp only [decide_eq_true_eq]
      intro h
      exact absurd (hb _ h) (by decide)
    cases he : K.enum ((Dict.keys md).filter fun t => t ∉ but) with
    | nil => rw [he] at hin; cases hin
    | cons t ts =>
      have : t ∈ (Dict.keys md).filter fun t => t ∉ but := by rw [← K.mem_enum, he]; simp
      rw [List.mem_filter] at this
      simp only [decide_eq_true_eq] at this
      rw [hall t this.1 this.2]
  split
  · rename_i h1
    refine hone [] (by simp) fun t htm _ => ?_
    cases hk : Dict.keys md with
    | nil => rw [hk] at hmem; cases hmem
    | cons a as =>
      rw [hk] at h1 hmem htm
      cases as with
      | nil =>
        simp only [List.mem_singleton] at hmem htm
        rw [htm, hmem]
      | cons b bs => simp at h1
  · exact hone _ (by simp) fun t htm hnb => (ht t htm).resolve_left fun e => hnb (by simp [e])

/-- The provider answers a request of a client for whom there are chains and whom it registers. -/
theorem explicitOidc_answers (V : Chains.Env) (register : Registration.Server → Dict Val → Option (Dict Val) × Registration.Server) (priority : List String) (st : Registration.AppState) (j : Jws)
    (md : Dict Policy.Metadata) (m args : Dict Val) (out : List TrustChain) (hself : selfVerify V.L.toCrypto V.W.now j = .ok j.payload) (hmd : j.payload.metadata = some md)
    (hrp : md.get? "openid_relying_party" = some m) (ht : ∀ t ∈ Dict.keys md, t = "federation_entity" ∨ t = "openid_relying_party")
    (hv : (getVerified V st.fed j.payload.sub).1 = .ok out) (hne : out ≠ []) (hreg : (register st.srv (Dict.set m "client_id" (.str j.payload.sub))).1 = some args) :
    ∃ tc ∈ out, (Registration.explicitOidc V register priority st (some j)).1 = .ok (some ⟨j.payload.iss, j.payload.iss, tc.anchor, "openid_relying_party",
        Registration.responseMetadata ["application_type", "redirect_uris"] ((Dict.set m "client_id" (.str j.payload.sub)).filter fun x => x.1 ∉ ["jwks", "jwks_uri", "signed_jwks_uri"]) args⟩) ∧
      (Registration.explicitOidc V register priority st (some j)).2.srv = (register st.srv (Dict.set m "client_id" (.str j.payload.sub))).2 := by
  have hpick : ∃ tc, pickTrustChain priority out = .ok tc := by
    unfold pickTrustChain
    split
    · exact absurd rfl hne
    · exact ⟨_, rfl⟩
    · split <;> exact ⟨_, rfl⟩
  obtain ⟨tc, hpick⟩ := hpick
  refine ⟨tc, Registration.pick_mem hpick, ?_⟩
  unfold Registration.explicitOidc
  simp only [hself, hmd, opponentType_rp V.K md m hrp ht]
  generalize getVerified V st.fed j.payload.sub = r at hv ⊢
  obtain ⟨r1, fed⟩ := r
  simp only at hv
  subst hv
  cases out with
  | nil => exact absurd rfl hne
  | cons tc0 tcs =>
    simp only [hpick, hrp]
    generalize register st.srv (Dict.set m "client_id" (.str j.payload.sub)) = r at hreg ⊢
    obtain ⟨r1, srv⟩ := r
    simp only at hreg
    subst hreg
    exact ⟨rfl, rfl⟩

/-! ## C178 -/

theorem WithinConstraints.leaf {sups : List Payload} {leaf leaf' : Payload} (h : WithinConstraints sups leaf) (he : toC leaf = toC leaf') : WithinConstraints sups leaf' :=
  ⟨h.urls, he ▸ h.leafUrl, h.both, he ▸ h.keeps, h.narrowing⟩

/-- C178 in full, the client's part: in a well-run federation a client takes what a provider answers, if what it says satisfies the policies and constraints above the client. -/
def C178_full : Prop :=
  ∀ (V : Env) (F : Collect.Federation) (st : State) (now : Int) (op anchor : String) (j : Jws) (D : Directory) (S : String → Prop) (rank : String → Nat) (md : Policy.Metadata)
    (want : String → String → Policy.Want) (M : String → Policy.Metadata),
    V.metadataVerifier = none → V.W = F.at now → F.Dated → F.PlainHints → Collect.Aging V.L.toCrypto V.P F now st.fed.coll → WellRun V.L V.P F now anchor st.fed.jar D S rank →
    S op → Collect.Plain op → rank op < V.fuel → (D.cfg op).payload.hints ≠ none → Judged D op →
    S V.me → Collect.Plain V.me → rank V.me < V.fuel → (D.cfg V.me).payload.hints ≠ none →
    Answer V now D op anchor j → j.payload.md.get? "openid_relying_party" = some md → md ≠ [] →
    (∀ p, Up D V.me p → WithinConstraints ((stmtsOf D V.me p).map (·.payload)) j.payload) →
    (∀ p, Up D V.me p → ∀ s ∈ stmtsOf D V.me p, SatisfiedBy want M j.payload s.payload) →
    ∃ m, (parseResponse .oidc V st (some j)).1 = .ok (.obj m)

/-- C178, the client's part, for a client with one way up: it takes the response, whatever was collected before, and keeps what the response says. Missing: clients with several ways up, for which it is
false. -/
theorem C178_taken_partial (V : Env) (F : Collect.Federation) (st : State) (now : Int) (op anchor : String) (j : Jws) (D : Directory) (S : String → Prop) (rank : String → Nat) (p0 : List String)
    (md : Policy.Metadata) (want : String → String → Policy.Want) (M : String → Policy.Metadata)
    (hm : V.metadataVerifier = none) (hW : V.W = F.at now) (hd : F.Dated) (hpl : F.PlainHints) (hc : Collect.Aging V.L.toCrypto V.P F now st.fed.coll)
    (w : WellRun V.L V.P F now anchor st.fed.jar D S rank)
    (ho : S op) (hpo : Collect.Plain op) (hfo : rank op < V.fuel) (hho : (D.cfg op).payload.hints ≠ none) (hjo : Judged D op)
    (he : S V.me) (hpe : Collect.Plain V.me) (hfe : rank V.me < V.fuel) (hup : Up D V.me p0) (hone : ∀ p, Up D V.me p → p = p0)
    (ha : Answer V now D op anchor j) (hmd : j.payload.md.get? "openid_relying_party" = some md) (hne : md ≠ [])
    (hcon : WithinConstraints ((stmtsOf D V.me p0).map (·.payload)) j.payload)
    (hpol : ∀ s ∈ stmtsOf D V.me p0, SatisfiedBy want M j.payload s.payload) :
    ∃ m st', parseResponse .oidc V st (some j) = (.ok (.obj m), st') ∧ st'.registered = some (.obj m) ∧
      (∀ s ∈ stmtsOf D V.me p0, ∀ c ∈ ((toP s.payload).rule "openid_relying_party").policy.keys, (want "openid_relying_party" c).is (Dict.get? m c)) ∧
      ∀ c v, md.get? c = some v → (∀ s ∈ stmtsOf D V.me p0, c ∉ ((toP s.payload).rule "openid_relying_party").policy.keys) → Dict.get? m c = some v := by
  obtain ⟨m, st', h1, h2, h3, h4, -⟩ := wellRun_takes V F st now op anchor j D S rank p0 md want M hm hW hd hpl hc w ho hpo hfo hho hjo he hpe hfe hup hone ha hmd hne hcon hpol
  exact ⟨m, st', h1, h2, h3, h4⟩

/-- The set-up of a registration: the client `V.me` and the provider `op` are members of a federation of this software (see C133); the client has one way up, to `anchor`, which it trusts; the contexts of
the two are those of the members; the client is a part of its combination, besides which there is at most the federation entity. -/
structure Parties (V : Env) (st : State) (Vp : Chains.Env) (stp : Registration.AppState) (J : Jose) (member : String → Option Member) (host : Val → Option String) (issued asked answered now : Int)
    (h hp : List Collect.FRun) (op anchor : String) (p0 : List String) (rank : String → Nat) (mc mo : Member) (fileso : Dict Val) (cc co : Ctx) (parts : Dict Part) (m : Dict Val) : Prop where
  client : Running V.toEnv J member host issued now st.fed h anchor rank
  provider : Running Vp J member host issued answered stp.fed hp "" rank
  verifier : V.metadataVerifier = none
  memberc : member V.me = some mc
  membero : member op = some mo
  hintsc : strs mc.authority.hints ≠ []
  hintso : strs mo.authority.hints ≠ []
  fuel : rank V.me < V.fuel ∧ rank op < V.fuel ∧ rank V.me < Vp.fuel
  metadata : mc.authority.metadata.truthy = true
  up : Up (directory J member issued) V.me p0
  one : ∀ p, Up (directory J member issued) V.me p → p = p0
  top : p0.getLast? = some anchor
  trusted : anchor ∈ V.P.anchors
  ctxc : cc.entityId = V.me ∧ cc.ownKeys = mc.authority.ownKeys ∧ cc.defaultLifetime ≠ 0 ∧ answered < asked + cc.defaultLifetime
  ctxo : co.entityId = op ∧ co.ownKeys = mo.authority.ownKeys ∧ co.defaultLifetime ≠ 0 ∧ now < answered + co.defaultLifetime
  found : (∃ hints, getHints fileso co = .ok hints) ∧ ∃ marks, getMarks fileso co = .ok marks
  part : (objs (.obj (comboGet none parts))).get? "openid_relying_party" = some m
  parts : ∀ t ∈ Dict.keys (objs (.obj (comboGet none parts))), t = "federation_entity" ∨ t = "openid_relying_party"

/-- What the provider puts in its response for a client that asked with metadata `m` and for which the registration gave `args`. -/
def granted (me : String) (m args : Dict Val) : Dict Val :=
  Registration.responseMetadata ["application_type", "redirect_uris"] ((Dict.set m "client_id" (.str me)).filter fun x => x.1 ∉ ["jwks", "jwks_uri", "signed_jwks_uri"]) args

/-- C178: a client and a provider of a federation of this software. The request of the client is answered by the provider, once it has registered the client, and the client takes the answer and keeps what
the provider says, if that is within the policies and constraints above the client. Missing: clients with several ways up to an anchor (false), clients made by a handler (see C179), the registration
itself, which is not part of this software. -/
theorem C178_registered_partial (V : Env) (st : State) (Vp : Chains.Env) (stp : Registration.AppState) (J : Jose) (member : String → Option Member) (host : Val → Option String)
    (issued asked answered now : Int) (h hp : List Collect.FRun) (op anchor : String) (p0 : List String) (rank : String → Nat) (mc mo : Member) (filesc fileso : Dict Val) (cc co : Ctx)
    (parts : Dict Part) (m req args : Dict Val) (register : Registration.Server → Dict Val → Option (Dict Val) × Registration.Server) (priority : List String)
    (want : String → String → Policy.Want) (M : String → Policy.Metadata)
    (P : Parties V st Vp stp J member host issued asked answered now h hp op anchor p0 rank mc mo fileso cc co parts m)
    (hreq : oidcRequest filesc cc asked parts = .ok req) (hreg : (register stp.srv (Dict.set m "client_id" (.str V.me))).1 = some args)
    (hne : granted V.me m args ≠ []) (hjo : Judged (directory J member issued) op)
    (hcon : WithinConstraints ((stmtsOf (directory J member issued) V.me p0).map (·.payload)) ((directory J member issued).cfg V.me).payload)
    (hpol : ∀ s ∈ stmtsOf (directory J member issued) V.me p0, SatisfiedBy want M ((directory J member issued).cfg V.me).payload s.payload)
    (hpolr : ∀ s ∈ stmtsOf (directory J member issued) V.me p0, SatisfiedBy want M { metadata := some [("openid_relying_party", granted V.me m args)], iss := op, sub := V.me } s.payload) :
    ∃ stp' resp got st', Registration.explicitOidc Vp register priority stp (some (token J V.me req)) =
        (.ok (some ⟨V.me, V.me, anchor, "openid_relying_party", granted V.me m args⟩), stp') ∧
      stp'.srv = (register stp.srv (Dict.set m "client_id" (.str V.me))).2 ∧
      registrationResponse fileso co answered true V.me anchor (.obj [("openid_relying_party", .obj (granted V.me m args))]) = .ok resp ∧
      parseResponse .oidc V st (some (token J op resp)) = (.ok (.obj got), st') ∧ st'.registered = some (.obj got) ∧
      ∀ c v, (granted V.me m args).get? c = some v →
        (∀ s ∈ stmtsOf (directory J member issued) V.me p0, c ∉ ((toP s.payload).rule "openid_relying_party").policy.keys) → Dict.get? got c = some v := by
  obtain ⟨hc1, hc2, hc3, hc4⟩ := P.ctxc
  obtain ⟨ho1, ho2, ho3, ho4⟩ := P.ctxo
  obtain ⟨f1, f2, f3⟩ := P.fuel
  -- the request
  obtain ⟨r1, r2, r3, r4, r5⟩ := oidcRequest_says hreq hc3
  rw [hc1] at r1 r2
  rw [hc2] at r3
  have hcombo : (Val.obj (comboGet none parts)).truthy = true := by
    show (!(comboGet none parts).isEmpty) = true
    cases hc : comboGet none parts with
    | nil => have := P.part; rw [hc] at this; cases this
    | cons _ _ => rfl
  have hreqp : (token J V.me req).payload.iss = V.me ∧ (token J V.me req).payload.sub = V.me ∧ (token J V.me req).payload.jwks = some (J.keys mc.authority.ownKeys) ∧
      (token J V.me req).payload.metadata = some (objs (.obj (comboGet none parts))) ∧ (token J V.me req).payload.exp = some (asked + cc.defaultLifetime) := by
    refine ⟨?_, ?_, ?_, ?_, ?_⟩ <;> simp [token, decode, r1, r2, r3, r4, r5, asStr, asInt, hcombo, Option.filter]
  obtain ⟨q1, q2, q3, q4, q5⟩ := hreqp
  have hnowp : Vp.W.now = answered := by rw [P.provider.world]; rfl
  have hselfp : selfVerify Vp.L.toCrypto Vp.W.now (token J V.me req) = .ok (token J V.me req).payload := by
    obtain ⟨k, k1, k2, k3⟩ := P.provider.kept.signs V.me mc req P.memberc
    have : ((J.keys mc.authority.ownKeys).filter (Vp.L.usable (token J V.me req))).any (Vp.L.verifies (token J V.me req)) = true := by
      rw [List.any_eq_true]
      exact ⟨k, List.mem_filter.2 ⟨k1, k2⟩, k3⟩
    simp only [selfVerify, q3, this, hnowp, P.provider.kept.time _ _ answered q5 hc4, Bool.and_self, if_true]
  -- the chains the provider finds
  obtain ⟨out, o1, o2, -, o4⟩ := C133_resolved_partial Vp J member host issued answered stp.fed hp "" V.me mc rank want M P.provider.kept P.provider.world P.provider.coll P.provider.order P.provider.past
    P.provider.plain P.provider.fresh P.provider.stop P.memberc f3 P.hintsc P.metadata (fun p hp => by rw [P.one p hp]; exact hcon) (fun p hp => by rw [P.one p hp]; exact hpol)
  obtain ⟨tc, t1, t2, t3⟩ := explicitOidc_answers Vp register priority stp (token J V.me req) _ m args out hselfp q4 P.part P.parts (by rw [q2]; exact o1) o2 (by rw [q2]; exact hreg)
  have hanchor : tc.anchor = anchor := by
    obtain ⟨p, hp, hr⟩ := o4 tc t1
    have := hr.anchor
    rw [P.one p hp, P.top] at this
    exact (Option.some.inj this).symm
  rw [q1, q2, hanchor] at t2
  rw [q2] at t3
  -- the response
  obtain ⟨resp, hresp⟩ := response_total (now := answered) (client := V.me) (anchor := anchor) (md := .obj [("openid_relying_party", .obj (granted V.me m args))]) P.found.1 P.found.2
  obtain ⟨s1, s2, s3, s4, s5, s6, s7⟩ := response_says hresp ho3
  rw [ho1] at s1
  rw [ho2] at s3
  have hfilter : (some (Val.obj [("openid_relying_party", .obj (granted V.me m args))])).filter Val.truthy = some (Val.obj [("openid_relying_party", .obj (granted V.me m args))]) := rfl
  rw [hfilter] at s5
  have hrespp : (token J op resp).payload.iss = op ∧ (token J op resp).payload.sub = V.me ∧ (token J op resp).payload.jwks = some (J.keys mo.authority.ownKeys) ∧
      (token J op resp).payload.metadata = some [("openid_relying_party", granted V.me m args)] ∧ (token J op resp).payload.exp = some (answered + co.defaultLifetime) ∧
      (token J op resp).payload.trustAnchor = some anchor ∧ (token J op resp).payload.constraints = none := by
    refine ⟨?_, ?_, ?_, ?_, ?_, ?_, ?_⟩ <;> simp [token, decode, s1, s2, s3, s4, s5, s6, s7, asStr, asInt, objs]
  obtain ⟨u1, u2, u3, u4, u5, u6, u7⟩ := hrespp
  have w := P.client.kept.wellRun (issued := issued) V.P now anchor P.client.fresh P.client.stop
  have hdk : (directory J member issued).keys op = J.keys mo.authority.ownKeys := by simp [directory, P.membero]
  have hcfg := (P.client.kept.cfg (issued := issued) P.memberc).2
  have hidc := P.client.kept.id V.me mc P.memberc
  have hido := P.client.kept.id op mo P.membero
  have hans : Answer V now (directory J member issued) op anchor (token J op resp) := by
    refine ⟨u1, by rw [hdk]; exact u3, ?_, P.client.kept.time _ _ now u5 ho4, ⟨_, u5⟩, u6, P.trusted⟩
    rw [hdk]
    exact P.client.kept.signs op mo resp P.membero
  have hmdr : (token J op resp).payload.md = [("openid_relying_party", granted V.me m args)] := by simp [Payload.md, u4]
  obtain ⟨got, st', g1, g2, -, g4, -⟩ := wellRun_takes V (Chains.world J member host issued) st now op anchor (token J op resp) (directory J member issued) (fun e => ∃ m, member e = some m) rank p0
    (granted V.me m args) want M P.verifier P.client.world P.client.kept.dated P.client.kept.plainHints
    (by rw [P.client.coll]; exact Collect.runAll_aging (C := V.L.toCrypto) (P := V.P) P.client.kept.dated P.client.kept.plainHints h now ((P.client.kept.lasting P.client.fresh.2).steady _) P.client.order P.client.past P.client.plain)
    w ⟨mo, P.membero⟩ hido.2.2 f2 (by rw [P.client.kept.read P.membero, if_neg P.hintso]; simp) hjo ⟨mc, P.memberc⟩ hidc.2.2 f1 P.up P.one hans (by rw [hmdr, Dict.get?_cons, if_pos rfl]) hne
    (WithinConstraints.leaf hcon (by simp only [toC, u2, u7, hcfg.constraints, hcfg.sub, hidc.1]))
    (by
      intro s hs t md hmd
      rw [hmdr] at hmd
      exact hpolr s hs t md hmd)
  exact ⟨_, resp, got, st', Prod.ext t2 rfl, t3, hresp, g1, g2, g4⟩

/-- `keys_only` for other metadata of the member than it declares. -/
theorem satisfied_bare {want : String → String → Policy.Want} {M : String → Policy.Metadata} {leaf s : Payload} (h : ∀ t, ((toP s).rule t).policy = [] ∧ ((toP s).rule t).metadata = []) :
    SatisfiedBy want M leaf s := by
  intro t md _
  obtain ⟨r1, r2⟩ := h t
  rw [r1, r2]
  refine ⟨⟨?_, ?_⟩, ?_, ?_⟩
  · intro c cp hc; rw [r1] at hc; cases hc
  · intro c v hc; rw [r2] at hc; cases hc
  · intro c hc; cases hc
  · intro c hc; cases hc

/-- C178 where authorities register only keys: the client then has all the provider says. -/
theorem C178_keys_partial (V : Env) (st : State) (Vp : Chains.Env) (stp : Registration.AppState) (J : Jose) (member : String → Option Member) (host : Val → Option String)
    (issued asked answered now : Int) (h hp : List Collect.FRun) (op anchor : String) (p0 : List String) (rank : String → Nat) (mc mo : Member) (filesc fileso : Dict Val) (cc co : Ctx)
    (parts : Dict Part) (m req args : Dict Val) (register : Registration.Server → Dict Val → Option (Dict Val) × Registration.Server) (priority : List String)
    (P : Parties V st Vp stp J member host issued asked answered now h hp op anchor p0 rank mc mo fileso cc co parts m)
    (hreq : oidcRequest filesc cc asked parts = .ok req) (hreg : (register stp.srv (Dict.set m "client_id" (.str V.me))).1 = some args)
    (hne : granted V.me m args ≠ []) (hurl : ∀ e m, member e = some m → Constraints.IsUrl e)
    (honly : ∀ e m a ma reg, member e = some m → a ∈ strs m.authority.hints → member a = some ma → ma.authority.subordinate.get? e = some reg → OnlyKeys ma.authority e reg) :
    ∃ stp' resp got st', Registration.explicitOidc Vp register priority stp (some (token J V.me req)) =
        (.ok (some ⟨V.me, V.me, anchor, "openid_relying_party", granted V.me m args⟩), stp') ∧
      stp'.srv = (register stp.srv (Dict.set m "client_id" (.str V.me))).2 ∧
      registrationResponse fileso co answered true V.me anchor (.obj [("openid_relying_party", .obj (granted V.me m args))]) = .ok resp ∧
      parseResponse .oidc V st (some (token J op resp)) = (.ok (.obj got), st') ∧ st'.registered = some (.obj got) ∧
      ∀ c v, (granted V.me m args).get? c = some v → Dict.get? got c = some v := by
  obtain ⟨k1, -, k3⟩ := keys_only V.L J member host st.fed.jar issued now V.P anchor V.me mc rank P.client.kept P.client.fresh P.client.stop P.memberc hurl honly
  obtain ⟨o1, -, -⟩ := keys_only V.L J member host st.fed.jar issued now V.P anchor op mo rank P.client.kept P.client.fresh P.client.stop P.membero hurl honly
  obtain ⟨stp', resp, got, st', g1, g2, g3, g4, g5, g6⟩ := C178_registered_partial V st Vp stp J member host issued asked answered now h hp op anchor p0 rank mc mo filesc fileso cc co parts m req args
    register priority (fun _ _ => .one .null .null) (fun _ => []) P hreq hreg hne
    (fun p hp s hs => ⟨(o1 p hp).urls _ (List.mem_map.2 ⟨s, hs, rfl⟩), (o1 p hp).both _ (List.mem_map.2 ⟨s, hs, rfl⟩)⟩)
    (k1 p0 P.up) (fun s hs => satisfied_bare (k3 p0 P.up s hs)) (fun s hs => satisfied_bare (k3 p0 P.up s hs))
  refine ⟨stp', resp, got, st', g1, g2, g3, g4, g5, fun c v hc => g6 c v hc fun s hs => ?_⟩
  rw [(k3 p0 P.up s hs _).1]
  simp [Dict.keys]

/-! ### A registration

`leaf` registers with `im`, which is its authority as well; both are below `ta`. -/
namespace Ex
def V178 : Env := { Chains.Ex.env ((Chains.world Chains.Ex.J (Chains.Ex.member133 []) Chains.Ex.host133 0).at 120) with me := "https://leaf" }
def Vp178 : Chains.Env := Chains.Ex.env ((Chains.world Chains.Ex.J (Chains.Ex.member133 []) Chains.Ex.host133 0).at 110)
def stp178 : Registration.AppState := { fed := Chains.Ex.st, srv := {} }
def cc178 : Ctx := { entityId := "https://leaf", ownKeys := .int 3, hints := .value (.arr [.str "https://im"]) }
def co178 : Ctx := { entityId := "https://im", ownKeys := .int 2, hints := .value (.arr [.str "https://ta"]) }
def asked178 : Dict Val := [("redirect_uris", .arr [.str "https://leaf/cb"]), ("scopes", .arr [.str "openid"])]
def parts178 : Dict Part := [("federation_entity", .federation []), ("openid_relying_party", .client ⟨false, fun t => [(t, .obj asked178)]⟩)]
/-- A registration that records the request under its client id and gives a secret. -/
def register178 (s : Registration.Server) (req : Dict Val) : Option (Dict Val) × Registration.Server := (some (Dict.set req "client_secret" (.str "s")), s)

theorem running178 (now : Int) (stopAt : String) (hn : now < 80000) (hs : stopAt = "" ∨ stopAt = "https://ta") :
    Running (Chains.Ex.env ((Chains.world Chains.Ex.J (Chains.Ex.member133 []) Chains.Ex.host133 0).at now)) Chains.Ex.J (Chains.Ex.member133 []) Chains.Ex.host133 0 now Chains.Ex.st [] stopAt
      Chains.Ex.rank109 where
  kept := Chains.Ex.wellKept133 [] (.inl rfl)
  world := rfl
  coll := rfl
  order := by simp
  past := by simp
  plain := by simp
  fresh := by simp [Chains.Ex.env]; omega
  stop := by
    rcases hs with rfl | rfl
    · exact .none rfl
    · intro m hm
      cases hm
      rfl

theorem parties178 : Parties V178 { fed := Chains.Ex.st } Vp178 stp178 Chains.Ex.J (Chains.Ex.member133 []) Chains.Ex.host133 0 100 110 120 [] [] "https://im" "https://ta" ["https://im", "https://ta"]
    Chains.Ex.rank109 Chains.Ex.mLeaf Chains.Ex.mIm [] cc178 co178 parts178 asked178 where
  client := running178 120 "https://ta" (by decide) (.inr rfl)
  provider := running178 110 "" (by decide) (.inl rfl)
  verifier := rfl
  memberc := rfl
  membero := rfl
  hintsc := by decide
  hintso := by decide
  fuel := by decide
  metadata := rfl
  up := by
    have w := Chains.Ex.wellKept133 [] (.inl rfl)
    exact .step (hs := ["https://im"]) (w.read (e := "https://leaf") (m := Chains.Ex.mLeaf) rfl) (by simp)
      (.top (hs := ["https://ta"]) (w.read (e := "https://im") (m := Chains.Ex.mIm) rfl) (by simp) (w.read (e := "https://ta") (m := Chains.Ex.mTa []) rfl))
  one p hp := Chains.Ex.up133 (.inl rfl) hp
  top := rfl
  trusted := by decide
  ctxc := ⟨rfl, rfl, by decide, by decide⟩
  ctxo := ⟨rfl, rfl, by decide, by decide⟩
  found := ⟨⟨_, rfl⟩, _, rfl⟩
  part := by decide +kernel
  parts := by decide +kernel
end Ex

example : ∃ req stp' resp got st', oidcRequest [] Ex.cc178 100 Ex.parts178 = .ok req ∧
    Registration.explicitOidc Ex.Vp178 Ex.register178 [] Ex.stp178 (some (token Chains.Ex.J "https://leaf" req)) =
      (.ok (some ⟨"https://leaf", "https://leaf", "https://ta", "openid_relying_party", [("scopes", .arr [.str "openid"]), ("client_id", .str "https://leaf"), ("client_secret", .str "s")]⟩), stp') ∧
    registrationResponse [] Ex.co178 110 true "https://leaf" "https://ta"
      (.obj [("openid_relying_party", .obj [("scopes", .arr [.str "openid"]), ("client_id", .str "https://leaf"), ("client_secret", .str "s")])]) = .ok resp ∧
    parseResponse .oidc Ex.V178 { fed := Chains.Ex.st } (some (token Chains.Ex.J "https://im" resp)) = (.ok (.obj got), st') ∧ Dict.get? got "client_secret" = some (.str "s") := by
  obtain ⟨req, hreq⟩ : ∃ req, oidcRequest [] Ex.cc178 100 Ex.parts178 = .ok req := ⟨_, rfl⟩
  have hg : granted "https://leaf" Ex.asked178 (Dict.set (Dict.set Ex.asked178 "client_id" (.str "https://leaf")) "client_secret" (.str "s")) =
      [("scopes", .arr [.str "openid"]), ("client_id", .str "https://leaf"), ("client_secret", .str "s")] := by decide +kernel
  obtain ⟨stp', resp, got, st', g1, -, g3, g4, -, g6⟩ := C178_keys_partial Ex.V178 { fed := Chains.Ex.st } Ex.Vp178 Ex.stp178 Chains.Ex.J (Chains.Ex.member133 []) Chains.Ex.host133 0 100 110 120 [] []
    "https://im" "https://ta" ["https://im", "https://ta"] Chains.Ex.rank109 Chains.Ex.mLeaf Chains.Ex.mIm [] [] Ex.cc178 Ex.co178 Ex.parts178 Ex.asked178 req
    (Dict.set (Dict.set Ex.asked178 "client_id" (.str "https://leaf")) "client_secret" (.str "s")) Ex.register178 [] Ex.parties178 hreq rfl (by decide +kernel) Chains.Ex.url133 Chains.Ex.onlyKeys133
  have hme : Ex.V178.me = "https://leaf" := rfl
  rw [hme, hg] at g1 g3 g6
  exact ⟨req, stp', resp, got, st', hreq, g1, g3, g4, g6 _ _ (by decide +kernel)⟩

/-! ### Several ways up -/
namespace Ex
/-- As in the example of C109, without policies and constraints. -/
def D178 : Directory := { Chains.Ex.D109 with about := fun a e => Chains.Ex.about a e }
def F178 : Collect.Federation := { Chains.Ex.F109 with fetch := fun _ a e => .ok (some (D178.about a e)) }
def V178b : Env := { Chains.Ex.env (F178.at 0) with me := "https://leaf" }
def said178 : Jws := ⟨{ iss := "https://im", sub := "https://leaf", exp := some 10000, jwks := some [2], trustAnchor := some "https://ta", metadata := some [("openid_relying_party", [("client_id", .str "c")])] }, 2⟩

theorem up178 {e : String} {p : List String} (h : Up D178 e p) : Up Chains.Ex.D109 e p := by
  induction h with
  | top h1 h2 h3 => exact .top h1 h2 h3
  | step h1 h2 _ ih => exact .step h1 h2 ih

theorem wellRun178 : WellRun Chains.Ex.L { anchors := ["https://ta"] } F178 0 "https://ta" [("https://ta", [1])] D178 Chains.Ex.S109 Chains.Ex.rank109 where
  config := Chains.Ex.wellRun109.config
  self := Chains.Ex.wellRun109.self
  selfSigned := Chains.Ex.wellRun109.selfSigned
  current := Chains.Ex.wellRun109.current
  fresh := Chains.Ex.wellRun109.fresh
  notStop e hs _ hh := by
    rintro rfl
    cases hh
  hints := Chains.Ex.wellRun109.hints
  served e hs a he hh ha := by
    obtain ⟨fe, ep, h1, h2, h3, -⟩ := Chains.Ex.wellRun109.served e hs a he hh ha
    exact ⟨fe, ep, h1, h2, h3, rfl⟩
  stated e hs a _ hh ha := ⟨rfl, rfl, ⟨_, rfl, fun _ h => h⟩, _, rfl⟩
  signed e hs a _ hh ha := ⟨Chains.Ex.keyOf a, by simp [D178, Chains.Ex.D109], rfl, by simp [Chains.Ex.L, D178, Chains.Ex.about]⟩
  anchors := Chains.Ex.wellRun109.anchors

theorem dated178 : F178.Dated ∧ F178.PlainHints := by
  constructor
  · intro e j h
    simp only [F178, Chains.Ex.F109] at h
    split at h
    · cases h; exact ⟨_, rfl⟩
    · cases h
  · intro e j hs h hh
    simp only [F178, Chains.Ex.F109] at h
    split at h
    · cases h
      rcases Chains.Ex.hints109_some hh with ⟨rfl, rfl⟩ | ⟨rfl, rfl⟩ | ⟨rfl, rfl⟩ <;> decide
    · cases h
end Ex

namespace Ex
theorem url178 (s : String) (hs : (Constraints.labelsOf s).isSome = true) : Constraints.IsUrl s := Constraints.isUrl_iff.2 (Option.isSome_iff_exists.1 hs)

/-- The statements say nothing but keys. -/
theorem bare178 {e : String} {p : List String} (he : e ∈ ["https://leaf", "https://im", "https://im2"]) (hp : Up D178 e p) : ∀ s ∈ stmtsOf D178 e p,
    s.payload.constraints = none ∧ s.payload.metadata = none ∧ s.payload.policy = [] ∧ Constraints.IsUrl s.payload.sub := by
  intro s hs
  have hse : Chains.Ex.S109 e := by
    simp only [List.mem_cons, List.not_mem_nil, or_false] at he
    unfold Chains.Ex.S109
    rcases he with rfl | rfl | rfl <;> decide
  obtain ⟨a, e', hs', h1, h2, h3, rfl⟩ := wellRun178.mem_stmtsOf hp hse s hs
  refine ⟨rfl, rfl, rfl, ?_⟩
  show Constraints.IsUrl e'
  unfold Chains.Ex.S109 at h1
  simp only [List.mem_cons, List.not_mem_nil, or_false] at h1
  rcases h1 with rfl | rfl | rfl | rfl <;> exact url178 _ (by decide +kernel)

theorem lists178 (c : Constraints.CStatement) (hc : c.constraints = none) : c.permitted = [] ∧ c.excluded = [] ∧ c.naming = none := by
  simp [Constraints.CStatement.permitted, Constraints.CStatement.excluded, Constraints.CStatement.naming, hc]

theorem judged178 : Judged D178 "https://im" := by
  intro p hp s hs
  obtain ⟨b1, -, -, b4⟩ := bare178 (by simp) hp s hs
  obtain ⟨l1, l2, l3⟩ := lists178 (toC s.payload) b1
  refine ⟨⟨b4, by simp [l1], by simp [l2]⟩, fun n hn => ?_⟩
  rw [l3] at hn
  cases hn

theorem within178 {leaf : Payload} (hsub : leaf.sub = "https://leaf") (hcon : leaf.constraints = none) {p : List String} (hp : Up D178 "https://leaf" p) :
    WithinConstraints ((stmtsOf D178 "https://leaf" p).map (·.payload)) leaf := by
  have keeps : ∀ s sts, (∀ st ∈ sts, (st : Constraints.CStatement).constraints = none) → Constraints.Keeps s sts := by
    intro s sts hst st hm
    obtain ⟨l1, l2, -⟩ := lists178 st (hst st hm)
    simp [l1, l2]
  have hb := bare178 (by simp) hp
  have allC : ∀ st ∈ ((stmtsOf D178 "https://leaf" p).map (·.payload)).map toC, st.constraints = none := by
    intro st hst
    obtain ⟨q, hq, rfl⟩ := List.mem_map.1 hst
    obtain ⟨s, hs, rfl⟩ := List.mem_map.1 hq
    exact (hb s hs).1
  obtain ⟨l1, l2, -⟩ := lists178 (toC leaf) hcon
  refine ⟨?_, ⟨by show Constraints.IsUrl leaf.sub; rw [hsub]; exact url178 _ (by decide +kernel), by simp [l1], by simp [l2]⟩, ?_, ⟨?_, ?_, ?_⟩, ?_⟩
  · intro q hq
    obtain ⟨s, hs, rfl⟩ := List.mem_map.1 hq
    obtain ⟨b1, -, -, b4⟩ := hb s hs
    obtain ⟨l1, l2, -⟩ := lists178 (toC s.payload) b1
    exact ⟨b4, by simp [l1], by simp [l2]⟩
  · intro q hq n hn
    obtain ⟨s, hs, rfl⟩ := List.mem_map.1 hq
    rw [(lists178 (toC s.payload) (hb s hs).1).2.2] at hn
    cases hn
  · intro pre st post c mm hs hc
    have : st.constraints = none := allC st (by show st ∈ List.map toC _; rw [hs]; simp)
    rw [this] at hc
    cases hc
  · intro pre st post hs
    refine keeps _ _ fun st' hst' => allC st' ?_
    show st' ∈ List.map toC _
    rw [hs]
    simp only [List.mem_append, List.mem_cons, List.not_mem_nil, or_false] at hst' ⊢
    exact hst'.elim Or.inl fun h => Or.inr (Or.inl h)
  · exact keeps _ _ allC
  · unfold Constraints.Narrowing
    refine List.pairwise_of_forall_mem_list ?_
    intro st hst st' _ o ho
    rw [(lists178 _ (allC st hst)).1] at ho
    cases ho

theorem satisfied178 (leaf : Payload) {p : List String} (hp : Up D178 "https://leaf" p) : ∀ s ∈ stmtsOf D178 "https://leaf" p, SatisfiedBy (fun _ _ => .one .null .null) (fun _ => []) leaf s.payload :=
  fun s hs => satisfied_bare fun t => by
    obtain ⟨-, b2, b3, -⟩ := bare178 (by simp) hp s hs
    simp [toP, Policy.PStatement.rule, Payload.md, b2, b3]
end Ex

/-- C178 does not hold: a client with two authorities, both below the anchor, takes no response. -/
theorem C178_two_ways_violation : ¬ C178_full := by
  intro h
  obtain ⟨m, hm⟩ := h Ex.V178b Ex.F178 { fed := Chains.Ex.st } 0 "https://im" "https://ta" Ex.said178 Ex.D178 Chains.Ex.S109 Chains.Ex.rank109 [("client_id", .str "c")]
    (fun _ _ => .one .null .null) (fun _ => []) rfl rfl Ex.dated178.1 Ex.dated178.2 (Collect.Aging.empty _ _ _ _) Ex.wellRun178 (by unfold Chains.Ex.S109; decide) (by decide) (by decide) (by decide)
    Ex.judged178 (by show Chains.Ex.S109 "https://leaf"; unfold Chains.Ex.S109; decide) (by decide) (by decide) (by decide)
    ⟨rfl, rfl, ⟨2, by decide, rfl, rfl⟩, by decide, ⟨_, rfl⟩, rfl, by decide⟩ rfl (by decide)
    (fun p hp => Ex.within178 rfl rfl hp) (fun p hp => Ex.satisfied178 _ hp)
  have : (parseResponse .oidc Ex.V178b { fed := Chains.Ex.st } (some Ex.said178)).1 = .error .systemError := by decide +kernel
  rw [this] at hm
  cases hm

/-! ## C179 -/

/-- A client of a combination: one of its parts, or one made by a handler among them. -/
def ClientOf (parts : Dict Part) (c : Server.Roles.Client) : Prop := ("openid_relying_party", Part.client c) ∈ parts ∨ ("openid_relying_party", Part.handler) ∈ parts

/-- C179 in full: the request has the metadata of the client that registers and the trust marks of the entity. -/
def C179_full : Prop := ∀ (files : Dict Val) (x : Ctx) (now : Int) (parts : Dict Part) (c : Server.Roles.Client) (md0 p : Dict Val), Regular parts → ClientOf parts c →
  c.metadata "openid_relying_party" = [("openid_relying_party", .obj md0)] → oidcRequest files x now parts = .ok p →
  ∃ md, p.get? "metadata" = some (.obj md) ∧ Dict.get? md "openid_relying_party" = some (.obj md0)

def C179_marks_full : Prop := ∀ (files : Dict Val) (x : Ctx) (now : Int) (parts : Dict Part) (p : Dict Val) (v : Val), Regular parts → oidcRequest files x now parts = .ok p →
  getMarks files x = .ok v → v.truthy = true → p.get? "trust_marks" = some v

/-- Nothing is said for the clients of a handler. -/
theorem comboGet_handler {parts : Dict Part} (hr : Regular parts) (q : String) (hh : ∀ p, (q, p) ∈ parts → p = .handler ∨ p = .other) : (comboGet none parts).get? q = none := by
  unfold comboGet
  rw [comboLoop_silent none q parts []]
  · rfl
  · rintro ⟨t, p⟩ hx
    by_cases e : q = t
    · subst e
      rcases hh p hx with rfl | rfl <;> rfl
    · exact partGet_own hr hx q e

/-- C179 for a client that is a part of the combination: the request is about the entity, in its name, with its keys, and has the metadata of the client. Missing: clients made by a handler, trust marks
that are in a file or come from a function (false). -/
theorem C179_part_partial (files : Dict Val) (x : Ctx) (now : Int) (parts : Dict Part) (c : Server.Roles.Client) (md0 p : Dict Val) (hr : Regular parts)
    (hc : ("openid_relying_party", Part.client c) ∈ parts) (hmd : c.metadata "openid_relying_party" = [("openid_relying_party", .obj md0)]) (hl : x.defaultLifetime ≠ 0)
    (h : oidcRequest files x now parts = .ok p) :
    p.get? "iss" = some (.str x.entityId) ∧ p.get? "sub" = some (.str x.entityId) ∧ p.get? "jwks" = some x.ownKeys ∧ p.get? "exp" = some (.int (now + x.defaultLifetime)) ∧
    ∃ md, p.get? "metadata" = some (.obj md) ∧ Dict.get? md "openid_relying_party" = some (.obj md0) ∧
      (∀ t part, (t, part) ∈ parts → part.plays → part ≠ .handler → ∃ v, Dict.get? md t = some v ∧ Stated t part v) ∧ ∀ t v, Dict.get? md t = some v → ∃ part, (t, part) ∈ parts := by
  obtain ⟨h1, h2, h3, h4, h5⟩ := oidcRequest_says h hl
  have one : ∀ t part, (t, part) ∈ parts → part.plays → part ≠ .handler → ∃ v, (comboGet none parts).get? t = some v ∧ Stated t part v := by
    intro t part hm hp hh
    obtain ⟨v, v1, v2⟩ := partGet_stated hr hm hp hh
    exact ⟨v, comboLoop_one none t v parts [] t part hr.distinct hm v1 fun y hy hne => partGet_own hr hy t (Ne.symm hne), v2⟩
  obtain ⟨v, v1, v2⟩ := one _ _ hc trivial (by simp)
  have hv : v = .obj md0 := by
    cases v2 with
    | client _ _ said => rw [hmd] at said; simpa [Dict.get?] using said.symm
  subst hv
  have ht : (Val.obj (comboGet none parts)).truthy = true := by
    show (!(comboGet none parts).isEmpty) = true
    cases e : comboGet none parts with
    | nil => rw [e] at v1; cases v1
    | cons _ _ => rfl
  refine ⟨h1, h2, h3, h4, comboGet none parts, by rw [h5]; simp [Option.filter, ht], v1, one, ?_⟩
  intro t v hv
  apply Classical.byContradiction
  intro hn
  rw [comboGet_handler hr t fun p hp => absurd ⟨p, hp⟩ hn] at hv
  cases hv

/-- Trust marks given as they are. -/
theorem C179_marks_partial (files : Dict Val) (x : Ctx) (now : Int) (parts : Dict Part) (p : Dict Val) (v : Val) (h : oidcRequest files x now parts = .ok p) (hm : x.marks = .value v)
    (hv : v.truthy = true) : p.get? "trust_marks" = some v := by
  unfold oidcRequest at h
  cases hmd : comboMetadata none parts with
  | error e => rw [hmd] at h; cases h
  | ok md =>
  rw [hmd] at h
  simp only at h
  cases hg : getHints files x with
  | error e => rw [hg] at h; cases h
  | ok hints =>
    rw [hg, hm] at h
    simp only [rawMarks, hv, if_true] at h
    have s := ctxStatement_says h hints v (fun hf => by simp [Dict.get?, hv] at hf) (fun hn => by simp [Dict.get?] at hn)
    exact s.marksGiven v (by simp [Dict.get?]) hv

theorem policyForTypes_none {E : SetEnum Val} {K : SetEnum String} {sups : List Policy.PStatement} {leaf : Policy.PStatement} {t : String} :
    ∀ {ts : List String} {m : Dict (Option Policy.Metadata)}, Policy.policyForTypes E K sups leaf ts = .ok m → t ∉ ts → m.get? t = none
  | [], m, h, _ => by cases h; rfl
  | t0 :: ts, m, h, ht => by
      unfold Policy.policyForTypes at h
      cases h1 : Policy.policyFor E K sups leaf t0 with
      | error e => rw [h1] at h; cases h
      | ok r =>
        rw [h1] at h
        simp only [ok_bind] at h
        cases h2 : Policy.policyForTypes E K sups leaf ts with
        | error e => rw [h2] at h; cases h
        | ok m' =>
          rw [h2] at h
          cases h
          simp only [List.mem_cons, not_or] at ht
          rw [Dict.get?_cons, if_neg (Ne.symm ht.1)]
          exact policyForTypes_none h2 ht.2

theorem objs_none {q : String} : ∀ {d : Dict Val}, d.get? q = none → (objs (.obj d)).get? q = none
  | [], _ => rfl
  | (k, v) :: d, h => by
    rw [Dict.get?_cons] at h
    split at h
    · cases h
    · rename_i hk
      have ih := objs_none h
      cases v with
      | obj m => show Dict.get? ((k, m) :: objs (.obj d)) q = none; rw [Dict.get?_cons, if_neg hk]; exact ih
      | _ => exact ih

/-- A response without metadata for an OpenID client is not taken. -/
theorem parse_no_rp {V : Env} {st : State} {j : Jws} {v : Val} (hm : V.metadataVerifier = none) (h1 : j.payload.md.get? "openid_relying_party" = none) (h2 : j.payload.md.get? "" = none) :
    (parseResponse .oidc V st (some j)).1 ≠ .ok v := by
  intro h
  obtain ⟨j', anchor, fed, e1, -, -, -, g2, g3⟩ := parse_ok hm h
  simp only [Option.some.injEq] at e1
  subst e1
  obtain ⟨tc0, tc, h6, h7, h8⟩ := finishOidc_ok g3
  obtain ⟨pre, c, post, hcs, hv⟩ := (Chains.verifyChains_mem h6 tc0).1 (by simp)
  have hm' : c ∈ (waysUp V.toEnv fed.coll V.me anchor).map fun c => c.map some ++ [some j] := by rw [hcs]; simp
  obtain ⟨c0, hc0, rfl⟩ := List.mem_map.1 hm'
  obtain ⟨-, d2, -, -⟩ := C42_describes_chain _ _ _ _ hv
  have hver : tc0.verified = c0.map (·.payload) ++ [j.payload] := by
    rw [d2]
    simp [statements, List.filterMap_map, List.filterMap_append]
  obtain ⟨leaf, md, e1, e2, ⟨e3, m, e4, rfl⟩ | ⟨e3, m, e4, rfl⟩⟩ := Chains.applyToChain_ok.1 h7
  · rw [hver] at e1
    simp only [List.getLast?_append, List.getLast?_singleton, Option.some_or, Option.some.injEq] at e1
    subst e1
    rw [hver, List.dropLast_concat] at e4
    unfold Policy.callPolicy at e4
    have hno : "openid_relying_party" ∉ Dict.keys (toP j.payload).metadata := by
      rw [Dict.mem_keys_iff]; simp [toP, h1]
    have := policyForTypes_none e4 hno
    simp only at h8
    rw [get?_map_val, this] at h8
    cases h8
  · rw [hver] at e1
    simp only [List.getLast?_append, List.getLast?_singleton, Option.some_or, Option.some.injEq] at e1
    subst e1
    simp only [Payload.md, e2, Option.getD_some] at h2
    rw [e4] at h2
    cases h2

/-- C179 and what it leads to: the client made by a handler, in a combination without another OpenID client, cannot register with a provider of this software. Whatever the provider answers to the request, and
whatever the client and provider know, the client does not take the answer. -/
theorem C179_handler_never (V : Env) (st : State) (Vp : Chains.Env) (stp stp' : Registration.AppState) (J J' : Jose) (me op : String) (filesc fileso : Dict Val) (cc co : Ctx) (asked answered : Int)
    (parts : Dict Part) (req resp : Dict Val) (register : Registration.Server → Dict Val → Option (Dict Val) × Registration.Server) (priority : List String) (r : Registration.RegResponse) (v : Val)
    (hm : V.metadataVerifier = none) (hr : Regular parts) (hh : ∀ p, ("openid_relying_party", p) ∈ parts → p = .handler ∨ p = .other)
    (hl : cc.defaultLifetime ≠ 0) (hl' : co.defaultLifetime ≠ 0)
    (hreq : oidcRequest filesc cc asked parts = .ok req)
    (hans : Registration.explicitOidc Vp register priority stp (some (token J me req)) = (.ok (some r), stp'))
    (hresp : registrationResponse fileso co answered true r.sub r.trustAnchor (.obj [(r.entityType, .obj r.metadata)]) = .ok resp) :
    (parseResponse .oidc V st (some (token J' op resp))).1 ≠ .ok v := by
  obtain ⟨-, -, -, -, q5⟩ := oidcRequest_says hreq hl
  obtain ⟨-, -, m, args, g1, -⟩ := Registration.explicitOidc_some (h := by rw [hans])
  have hmd : (token J me req).payload.md = objs (.obj (comboGet none parts)) ∨ (token J me req).payload.md = [] := by
    by_cases ht : (Val.obj (comboGet none parts)).truthy = true
    · left
      simp [Payload.md, token, decode, q5, Option.filter, ht]
    · right
      simp [Payload.md, token, decode, q5, Option.filter, ht]
  have hget : (objs (.obj (comboGet none parts))).get? r.entityType = some m := by
    rcases hmd with e | e <;> rw [e] at g1
    · exact g1
    · cases g1
  have key : ∀ q, (∀ p, (q, p) ∈ parts → p = .handler ∨ p = .other) → r.entityType ≠ q := by
    rintro q hq rfl
    rw [objs_none (comboGet_handler hr _ hq)] at hget
    cases hget
  have h1 := key _ hh
  have h2 := key "" fun p hp => absurd rfl (hr.named _ hp)
  obtain ⟨-, -, -, -, s5, -⟩ := response_says hresp hl'
  have hrm : (token J' op resp).payload.md = [(r.entityType, r.metadata)] := by
    have : (some (Val.obj [(r.entityType, .obj r.metadata)])).filter Val.truthy = some (Val.obj [(r.entityType, .obj r.metadata)]) := rfl
    rw [this] at s5
    simp [Payload.md, token, decode, s5, objs]
  refine parse_no_rp hm ?_ ?_ <;> rw [hrm] <;> simp [Dict.get?, h1, h2]


namespace Ex
def handler179 : Dict Part := [("federation_entity", .federation [("contacts", .str "ops")]), ("openid_relying_party", .handler)]
theorem regular179 : Regular handler179 := ⟨by decide, by decide, by intro t c h; simp [handler179] at h⟩
end Ex

/-- C179 does not hold: nothing is said about the clients of a handler. -/
theorem C179_handler_violation : ¬ C179_full := by
  intro h
  obtain ⟨p, hp⟩ : ∃ p, oidcRequest [] Ex.cc178 100 Ex.handler179 = .ok p := ⟨_, rfl⟩
  obtain ⟨md, h1, h2⟩ := h [] Ex.cc178 100 Ex.handler179 ⟨false, fun t => [(t, .obj Ex.asked178)]⟩ Ex.asked178 p Ex.regular179 (.inr (by simp [Ex.handler179])) rfl hp
  obtain ⟨-, -, -, -, h5⟩ := oidcRequest_says hp (by decide)
  rw [h5] at h1
  simp only [Option.filter] at h1
  split at h1
  · cases h1
    revert h2
    decide +kernel
  · cases h1

/-- Nor for trust marks kept in a file: the name of the file is sent. -/
theorem C179_marks_violation : ¬ C179_marks_full := by
  intro h
  obtain ⟨p, hp⟩ : ∃ p, oidcRequest [("marks.json", .arr [.str "mark"])] { Ex.cc178 with marks := .file "marks.json" } 100 Ex.handler179 = .ok p := ⟨_, rfl⟩
  have h1 := h _ _ _ _ _ _ Ex.regular179 hp rfl rfl
  have h2 : (oidcRequest [("marks.json", .arr [.str "mark"])] { Ex.cc178 with marks := .file "marks.json" } 100 Ex.handler179).toOption.bind (fun p => Dict.get? p "trust_marks") = some (.str "marks.json") := by
    decide +kernel
  rw [hp] at h2
  simp only [Except.toOption, Option.bind_some, h1] at h2
  revert h2
  decide +kernel

example : ∃ p md, oidcRequest [] Ex.cc178 100 Ex.parts178 = .ok p ∧ p.get? "metadata" = some (.obj md) ∧ Dict.get? md "openid_relying_party" = some (.obj Ex.asked178) := by
  obtain ⟨p, hp⟩ : ∃ p, oidcRequest [] Ex.cc178 100 Ex.parts178 = .ok p := ⟨_, rfl⟩
  obtain ⟨-, -, -, -, md, h1, h2, -⟩ := C179_part_partial [] Ex.cc178 100 Ex.parts178 ⟨false, fun t => [(t, .obj Ex.asked178)]⟩ Ex.asked178 p
    ⟨by decide, by decide, by intro t c h; simp [Ex.parts178] at h; obtain ⟨rfl, rfl⟩ := h; exact ⟨_, rfl⟩⟩ (by simp [Ex.parts178]) rfl (by decide) hp
  exact ⟨p, md, hp, h1, h2⟩

example : ∃ p, oidcRequest [] { Ex.cc178 with marks := .value (.arr [.str "mark"]) } 100 Ex.handler179 = .ok p ∧ p.get? "trust_marks" = some (.arr [.str "mark"]) := by
  obtain ⟨p, hp⟩ : ∃ p, oidcRequest [] { Ex.cc178 with marks := .value (.arr [.str "mark"]) } 100 Ex.handler179 = .ok p := ⟨_, rfl⟩
  exact ⟨p, hp, C179_marks_partial _ _ _ _ _ _ hp rfl rfl⟩

/-- The provider registers the client as a federation entity, and answers; the client does not take it. -/
example : ∃ req r stp' resp, oidcRequest [] Ex.cc178 100 Ex.handler179 = .ok req ∧
    Registration.explicitOidc Ex.Vp178 Ex.register178 [] Ex.stp178 (some (token Chains.Ex.J "https://leaf" req)) = (.ok (some r), stp') ∧ r.entityType = "federation_entity" ∧
    registrationResponse [] Ex.co178 110 true r.sub r.trustAnchor (.obj [(r.entityType, .obj r.metadata)]) = .ok resp ∧
    ∀ v, (parseResponse .oidc Ex.V178 { fed := Chains.Ex.st } (some (token Chains.Ex.J "https://im" resp))).1 ≠ .ok v := by
  obtain ⟨req, hreq⟩ : ∃ req, oidcRequest [] Ex.cc178 100 Ex.handler179 = .ok req := ⟨_, rfl⟩
  have h1 : (oidcRequest [] Ex.cc178 100 Ex.handler179).toOption.bind (fun req => ((Registration.explicitOidc Ex.Vp178 Ex.register178 [] Ex.stp178 (some (token Chains.Ex.J "https://leaf" req))).1.toOption.getD
      none).map (·.entityType)) = some "federation_entity" := by decide +kernel
  rw [hreq] at h1
  simp only [Except.toOption, Option.bind_some] at h1
  rcases hx : Registration.explicitOidc Ex.Vp178 Ex.register178 [] Ex.stp178 (some (token Chains.Ex.J "https://leaf" req)) with ⟨o, stp'⟩
  rw [hx] at h1
  simp only at h1
  cases o with
  | error e => cases h1
  | ok o =>
    cases o with
    | none => cases h1
    | some r =>
      obtain ⟨resp, hresp⟩ := response_total (files := []) (c := Ex.co178) (now := 110) (client := r.sub) (anchor := r.trustAnchor) (md := .obj [(r.entityType, .obj r.metadata)]) ⟨_, rfl⟩ ⟨_, rfl⟩
      exact ⟨req, r, stp', resp, hreq, hx, by simpa using h1, hresp, fun v => C179_handler_never Ex.V178 { fed := Chains.Ex.st } Ex.Vp178 Ex.stp178 stp' Chains.Ex.J Chains.Ex.J "https://leaf" "https://im" [] []
        Ex.cc178 Ex.co178 100 110 Ex.handler179 req resp Ex.register178 [] r v rfl Ex.regular179 (by intro p hp; simp [Ex.handler179] at hp; exact .inl hp) (by decide) (by decide) hreq hx hresp⟩

/-! ## C180 -/

/-- C180 in full: what a client learns from taking a response are keys that authorities of the entities state for them. -/
def C180_full : Prop := ∀ (V : Env) (st st' : State) (j : Jws) (anchor : String) (v : Val), V.metadataVerifier = none → j.payload.trustAnchor = some anchor →
  parseResponse .oidc V st (some j) = (.ok v, st') → ∀ e k, k ∈ st'.fed.jar.keysOf e → k ∈ st.fed.jar.keysOf e ∨
    ∃ c ∈ providerWays V st j anchor ++ ownWays V st j anchor anchor, ∃ s ∈ c, s.payload.sub = e ∧ ∃ ks, s.payload.jwks = some ks ∧ k ∈ ks

/-- The key jar after a response was taken. -/
theorem taken_jar {V : Env} {st st' : State} {j : Jws} {anchor : String} {v : Val} (hm : V.metadataVerifier = none) (hj : j.payload.trustAnchor = some anchor)
    (h : parseResponse .oidc V st (some j) = (.ok v, st')) : st'.fed.jar = runAll V.L st.fed.jar (allDocs V st j anchor) ∧ ownWays V st j anchor anchor ≠ [] := by
  obtain ⟨j', anchor', fed, e1, hs, h1, ht, h2, h3⟩ := parse_ok hm (by rw [h])
  simp only [Option.some.injEq] at e1
  subst e1
  rw [hj] at h1
  cases h1
  obtain ⟨-, -, h5⟩ := signatureVerifies_true h2
  have hp : parseResponse .oidc V st (some j) = finishOidc V { st with fed := fed } j anchor := by
    simp only at h3
    unfold parseResponse parseFederation at h ⊢
    simp only [hs, hj, hm, h2, if_neg (fun x : anchor ∉ V.P.anchors => x ht)] at h ⊢
    generalize finishOidc V { st with fed := fed } j anchor = r at h h3 ⊢
    obtain ⟨r1, r2⟩ := r
    simp only at h3
    subst h3
    simp only at h ⊢
    split
    · rfl
    · rename_i hf
      simp [hf] at h
  rw [hp] at h
  unfold finishOidc at h
  cases hc : collectChains V.toEnv fed V.me anchor with
  | mk r fed1 =>
    simp only [hc] at h
    cases r with
    | error e => cases h
    | ok cs =>
      obtain ⟨rfl, g2⟩ := collectChains_ok hc
      simp only at h
      have hf : fed1.jar = fed.jar := by rw [g2]
      rw [hf] at h
      cases hv : verifyChains V.L ((waysUp V.toEnv fed.coll V.me anchor).map fun c => c.map some ++ [some j]) fed.jar with
      | mk r jar =>
        rw [hv] at h
        cases r with
        | error e => cases h
        | ok tcs =>
          simp only at h
          have hjar : jar = runAll V.L fed.jar ((waysUp V.toEnv fed.coll V.me anchor).map fun c => c.map some ++ [some j]) := by
            have := verifyChains_jar (L := V.L) (tcs := tcs) (by rw [hv])
            rw [hv] at this
            exact this
          have hst : st'.fed.jar = jar ∧ tcs ≠ [] := by
            unfold judgeOidc at h
            split at h
            · split at h
              · cases h
              · split at h
                · cases h
                · cases h; exact ⟨rfl, by simp⟩
            · cases h
          have hown : waysUp V.toEnv fed.coll V.me anchor = ownWays V st j anchor anchor := by
            rw [h5]; rfl
          rw [hown] at hjar hv
          refine ⟨?_, ?_⟩
          · rw [hst.1, hjar, h5]
            unfold allDocs providerWays runAll
            rw [List.foldl_append]
          · intro he
            rw [he] at hv
            cases hv
            exact hst.2 rfl

/-- C180: keys learnt for other entities than the subject of the response are stated for them by an authority above the provider or the client. Missing: the subject of the response, which is the client
itself (false). -/
theorem C180_others_partial (V : Env) (st st' : State) (j : Jws) (anchor : String) (v : Val) (hm : V.metadataVerifier = none) (hj : j.payload.trustAnchor = some anchor)
    (h : parseResponse .oidc V st (some j) = (.ok v, st')) (e : String) (k : Key) (hk : k ∈ st'.fed.jar.keysOf e) :
    k ∈ st.fed.jar.keysOf e ∨ (∃ c ∈ providerWays V st j anchor ++ ownWays V st j anchor anchor, ∃ s ∈ c, s.payload.sub = e ∧ ∃ ks, s.payload.jwks = some ks ∧ k ∈ ks) ∨
      e = j.payload.sub ∧ ∃ ks, j.payload.jwks = some ks ∧ k ∈ ks := by
  rw [(taken_jar hm hj h).1] at hk
  have := C38_only_vouched_keys _ _ _ _ _ hk
  cases this with
  | start h => exact .inl h
  | @declared c s k' ks _ hc hs _ _ _ hks hkk =>
    right
    unfold allDocs at hc
    rcases List.mem_append.1 hc with hc | hc
    · obtain ⟨c0, hc0, rfl⟩ := List.mem_map.1 hc
      obtain ⟨s', hs', e1⟩ := List.mem_map.1 hs
      cases e1
      exact .inl ⟨c0, List.mem_append_left _ hc0, s, hs', rfl, ks, hks, hkk⟩
    · obtain ⟨c0, hc0, rfl⟩ := List.mem_map.1 hc
      rcases List.mem_append.1 hs with hs | hs
      · obtain ⟨s', hs', e1⟩ := List.mem_map.1 hs
        cases e1
        exact .inl ⟨c0, List.mem_append_right _ hc0, s, hs', rfl, ks, hks, hkk⟩
      · simp only [List.mem_singleton, Option.some.injEq] at hs
        subst hs
        exact .inr ⟨rfl, ks, hks, hkk⟩

/-- And whenever a response is taken, the keys in it, which are those of the provider, are held as keys of its subject, which is the client. -/
theorem C180_mixed (V : Env) (st st' : State) (j : Jws) (anchor : String) (v : Val) (hm : V.metadataVerifier = none) (hj : j.payload.trustAnchor = some anchor)
    (h : parseResponse .oidc V st (some j) = (.ok v, st')) (ks : List Key) (hks : j.payload.jwks = some ks) : ∀ k ∈ ks, k ∈ st'.fed.jar.keysOf j.payload.sub := by
  obtain ⟨j', anchor', fed, e1, hs, h1, ht, h2, h3⟩ := parse_ok hm (by rw [h])
  simp only [Option.some.injEq] at e1
  subst e1
  rw [hj] at h1
  cases h1
  obtain ⟨-, -, h5⟩ := signatureVerifies_true h2
  obtain ⟨tc0, tc, h6, -, -⟩ := finishOidc_ok h3
  obtain ⟨pre, c, post, hcs, hv⟩ := (Chains.verifyChains_mem h6 tc0).1 (by simp)
  have hm' : c ∈ (waysUp V.toEnv fed.coll V.me anchor).map fun c => c.map some ++ [some j] := by rw [hcs]; simp
  obtain ⟨c0, hc0, rfl⟩ := List.mem_map.1 hm'
  obtain ⟨-, d2, -, -⟩ := C42_describes_chain _ _ _ _ hv
  intro k hk
  have hheld := C38_declared_keys_held _ _ _ _ hv j.payload (by rw [d2]; simp [statements, List.filterMap_map, List.filterMap_append]) ks hks k hk
  rw [(taken_jar hm hj h).1]
  have hown : ownWays V st j anchor anchor = waysUp V.toEnv fed.coll V.me anchor := by rw [h5]; rfl
  have hsplit : runAll V.L st.fed.jar (allDocs V st j anchor) = runAll V.L (verifyChain V.L (runAll V.L fed.jar pre) (c0.map some ++ [some j])).2 post := by
    unfold allDocs
    rw [hown, hcs, h5]
    unfold providerWays runAll
    rw [List.foldl_append, List.foldl_append, List.foldl_cons]
  rw [hsplit]
  exact C38_no_key_lost _ _ _ _ _ hheld

/-- C180 does not hold: in the example the client has the provider's key for itself. -/
theorem C180_violation : ¬ C180_full := by
  intro h
  have hx : (parseResponse .oidc Ex.V Ex.st (some (Ex.resp "https://op" 9 Ex.md))).1 = .ok (.obj Ex.out) := by decide +kernel
  rcases hp : parseResponse .oidc Ex.V Ex.st (some (Ex.resp "https://op" 9 Ex.md)) with ⟨r, st'⟩
  rw [hp] at hx
  simp only at hx
  subst hx
  have hk := C180_mixed _ _ _ _ "https://ta" _ rfl rfl hp [9] rfl 9 (by simp)
  rcases h _ _ _ _ "https://ta" _ rfl rfl hp _ _ hk with h1 | ⟨c, hc, s, hs, h1, ks, h2, h3⟩
  · revert h1; decide +kernel
  · have key : ((providerWays Ex.V Ex.st (Ex.resp "https://op" 9 Ex.md) "https://ta" ++ ownWays Ex.V Ex.st (Ex.resp "https://op" 9 Ex.md) "https://ta" "https://ta").all fun c => c.all fun s =>
        s.payload.sub != "https://leaf" || !((s.payload.jwks).getD []).contains 9) = true := by decide +kernel
    have := List.all_eq_true.1 (List.all_eq_true.1 key c hc) s hs
    have h1' : s.payload.sub = "https://leaf" := h1
    rw [h2, h1'] at this
    simp [h3] at this

end Fed.Client
