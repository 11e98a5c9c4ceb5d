import Verif.Registration.Explicit
import Verif.Registration.AutomaticProps
/-
Properties C66, C97 and C98: explicit registration.
-/
namespace Fed.Registration
open Fed

/-- Every statement of a chain that is accepted among others is signed with a key that goes back to those known at the start. -/
theorem signed_from_known {L : Verify.Lib} {jar : Verify.KeyJar} {cs pre post : List (List Doc)} {c : List Doc} {tc : Verify.TrustChain}
    (hcs : cs = pre ++ c :: post) (hv : (Verify.verifyChain L (Verify.runAll L jar pre) c).1 = .ok (some tc)) (j : Jws) (hj : some j ∈ c) :
    ∃ k, Verify.Known L jar cs j.payload.iss k ∧ L.usable j k = true ∧ L.verifies j k = true := by
  have ho := (Verify.runAll_origin L jar cs pre jar (fun c' hc' => by rw [hcs]; simp [hc']) (fun _ _ h => .start h) (fun _ h => Or.inl h)).1
  have key : ∀ n (l : List Jws) (j : Jws) (r : List Jws), l.length = n → Verify.statements c = l ++ j :: r →
      ∃ k, Verify.Known L jar cs j.payload.iss k ∧ L.usable j k = true ∧ L.verifies j k = true := by
    intro n
    induction n using Nat.strongRecOn with
    | _ n ih =>
      intro l j r hl hs
      obtain ⟨k, hu, hve, hk | ⟨j', hj'm, hsub, ks, hks, hkk⟩⟩ := Verify.C37_keys_from_above _ _ _ _ hv l j r hs
      · exact ⟨k, ho _ _ hk, hu, hve⟩
      · obtain ⟨l1, l2, rfl⟩ := List.append_of_mem hj'm
        obtain ⟨k', hk', hu', hv'⟩ := ih l1.length (by rw [← hl]; simp) l1 j' (l2 ++ j :: r) rfl (by rw [hs]; simp)
        refine ⟨k, ?_, hu, hve⟩
        rw [← hsub]
        have hjc : some j' ∈ c := by
          have : j' ∈ Verify.statements c := by rw [hs]; simp
          simpa [Verify.statements] using this
        exact .declared (by rw [hcs]; simp) hjc hk' hu' hv' hks hkk
  have hj' : j ∈ Verify.statements c := by simp only [Verify.statements, List.mem_filterMap]; exact ⟨some j, hj, rfl⟩
  obtain ⟨l, r, hs⟩ := List.append_of_mem hj'
  exact key _ l j r rfl hs

theorem selfVerify_payload {C : Crypto} {now : Int} {j : Jws} {p : Payload} (h : selfVerify C now j = .ok p) : p = j.payload := by
  unfold selfVerify at h
  split at h
  · cases h
  · split at h
    · simpa using h.symm
    · cases h

/-- The statements that may vouch for the signed request `j`, as found by following the authority hints in it: each chain with `j` as the last. -/
def requestDocs (V : Chains.Env) (fed : Chains.State) (j : Jws) : List (List Doc) :=
  match (Collect.collectTree V.L.toCrypto V.P V.W "" V.fuel fed.coll j.payload.sub (some j.payload)).1 with
  | .ok f => (Collect.tree2chains f).map fun c => c.map some ++ [some j]
  | .error _ => []

/-- `tc` is a chain for the signed request `j`: statements found by following the authority hints of `j`, and `j` itself as the last, all verified, with the policies applied. -/
def RequestChain (V : Chains.Env) (fed : Chains.State) (j : Jws) (tc : Verify.TrustChain) : Prop :=
  ∃ (c : List Jws) (pre : List (List Doc)) (tc0 : Verify.TrustChain), c.map some ++ [some j] ∈ requestDocs V fed j ∧
    (Verify.verifyChain V.L (Verify.runAll V.L fed.jar pre) (c.map some ++ [some j])).1 = .ok (some tc0) ∧ Chains.applyToChain V.E V.K tc0 = .ok tc ∧
    tc.verified = c.map (·.payload) ++ [j.payload] ∧
    ∀ j' ∈ c ++ [j], ∃ k, Verify.Known V.L fed.jar (requestDocs V fed j) j'.payload.iss k ∧ V.L.usable j' k = true ∧ V.L.verifies j' k = true

theorem chainsForSigned_ok {V : Chains.Env} {fed : Chains.State} {j : Jws} {out : List Verify.TrustChain}
    (h : (chainsForSigned V fed j.payload.sub j).1 = .ok out) : ∀ tc ∈ out, RequestChain V fed j tc := by
  intro tc ht
  unfold chainsForSigned at h
  cases hs : selfVerify V.L.toCrypto V.W.now j with
  | error e => rw [hs] at h; cases h
  | ok p =>
    have hp := selfVerify_payload hs
    subst hp
    rw [hs] at h
    simp only at h
    cases hc : Collect.collectTree V.L.toCrypto V.P V.W "" V.fuel fed.coll j.payload.sub (some j.payload) with
    | mk r coll =>
      rw [hc] at h
      cases r with
      | error e => cases h
      | ok f =>
        have hdocs : requestDocs V fed j = (Collect.tree2chains f).map fun c => c.map some ++ [some j] := by unfold requestDocs; rw [hc]
        simp only at h
        rw [← hdocs] at h
        cases hv : Chains.verifyChains V.L (requestDocs V fed j) fed.jar with
        | mk r jar =>
          rw [hv] at h
          cases r with
          | error e => cases h
          | ok tcs =>
            simp only at h
            obtain ⟨tc0, hm, ha⟩ := (Chains.applyPolicies_mem h).1 tc ht
            obtain ⟨pre, d, post, hd, hvc⟩ := (Chains.verifyChains_mem (by rw [hv]) tc0).1 hm
            have hdm : d ∈ requestDocs V fed j := by rw [hd]; simp
            rw [hdocs] at hdm
            obtain ⟨c, hc', rfl⟩ := List.mem_map.1 hdm
            rw [← hdocs] at hdm
            obtain ⟨d1, d2, -, -⟩ := Verify.C42_describes_chain _ _ _ _ hvc
            have same : tc.verified = tc0.verified := by
              obtain ⟨_, _, _, _, ⟨_, _, _, rfl⟩ | ⟨_, _, _, rfl⟩⟩ := Chains.applyToChain_ok.1 ha <;> rfl
            refine ⟨c, pre, tc0, hdm, hvc, ha, ?_, fun j' hj' => signed_from_known hd hvc j' (by simpa using hj')⟩
            rw [same, d2]
            simp [Verify.statements, List.filterMap_map, List.filterMap_append]

theorem pick_mem {priority : List String} {tcs : List Verify.TrustChain} {tc : Verify.TrustChain} (h : Chains.pickTrustChain priority tcs = .ok tc) : tc ∈ tcs := by
  have hne : tcs ≠ [] := by rintro rfl; unfold Chains.pickTrustChain at h; revert h; cases priority <;> simp [Chains.pickByPriority]
  obtain ⟨tc', h1, h2, -⟩ := Chains.C46_fresh_partial priority tcs hne
  rw [h] at h1
  cases h1
  exact h2

theorem opponentType_mem {K : SetEnum String} {md : Dict Policy.Metadata} {but : List String} {t : String} (h : opponentType K md but = .ok t) :
    t ∈ Dict.keys md ∧ t ∉ but := by
  unfold opponentType at h
  cases hk : K.enum ((Dict.keys md).filter fun t => t ∉ but) with
  | nil => rw [hk] at h; cases h
  | cons x xs =>
    rw [hk] at h
    simp only [Except.ok.injEq] at h
    subst h
    have : x ∈ K.enum ((Dict.keys md).filter fun t => t ∉ but) := by rw [hk]; simp
    rw [K.mem_enum] at this
    simpa using this

/-- What it takes to be registered at the oauth2 endpoint. -/
theorem explicitOauth2_some {V : Chains.Env} {R : RegEnv} {priority : List String} {st : AppState} {request : Doc} {client : String} {resp : RegResponse}
    (h : (explicitOauth2 V R priority st request).1 = .ok (some (client, resp))) :
    ∃ j md tc req args, request = some j ∧ selfVerify V.L.toCrypto V.W.now j = .ok j.payload ∧ j.payload.metadata = some md ∧ resp.entityType ∈ Dict.keys md ∧
      resp.entityType ∉ ["federation_entity", "trust_mark_issuer"] ∧ RequestChain V st.fed j tc ∧ tc.metadata.get? resp.entityType = some (.obj req) ∧
      (setup R st.srv req true true []).1 = .ok (client, args) ∧ (explicitOauth2 V R priority st request).2.srv = (setup R st.srv req true true []).2 ∧
      resp = ⟨j.payload.iss, j.payload.iss, tc.anchor, resp.entityType, responseMetadata ["application_type", "jwks", "redirect_uris"] req args⟩ := by
  unfold explicitOauth2 at h ⊢
  cases request with
  | none => cases h
  | some j =>
    simp only at h ⊢
    cases hs : selfVerify V.L.toCrypto V.W.now j with
    | error e => rw [hs] at h; cases h
    | ok p =>
      have hp := selfVerify_payload hs
      subst hp
      rw [hs] at h
      simp only at h ⊢
      cases hm : j.payload.metadata with
      | none => rw [hm] at h; cases h
      | some md =>
        rw [hm] at h
        simp only at h ⊢
        cases ht : opponentType V.K md ["federation_entity", "trust_mark_issuer"] with
        | error e => rw [ht] at h; cases h
        | ok t =>
          rw [ht] at h
          simp only at h ⊢
          have hcs := @chainsForSigned_ok V st.fed j
          generalize chainsForSigned V st.fed j.payload.sub j = r at h hcs ⊢
          obtain ⟨r, fed⟩ := r
          cases r with
          | error e => cases h
          | ok tcs =>
            simp only at h ⊢
            cases hpk : Chains.pickTrustChain priority tcs with
            | error e => rw [hpk] at h; cases h
            | ok tc =>
              rw [hpk] at h
              simp only at h ⊢
              cases hg : tc.metadata.get? t with
              | none => rw [hg] at h; cases h
              | some v =>
                rw [hg] at h
                cases v with
                | obj req =>
                  simp only at h ⊢
                  cases hset : setup R st.srv req true true [] with
                  | mk r srv =>
                    rw [hset] at h
                    cases r with
                    | error e => cases h
                    | ok x =>
                      obtain ⟨c, args⟩ := x
                      simp only [Except.ok.injEq, Option.some.injEq, Prod.mk.injEq] at h
                      obtain ⟨rfl, rfl⟩ := h
                      obtain ⟨h1, h2⟩ := opponentType_mem ht
                      exact ⟨j, md, tc, req, args, rfl, hs, hm, h1, h2, hcs rfl tc (pick_mem hpk), hg, by rw [hset], by simp only [hset], rfl⟩
                | _ => cases h

/-! ## C66 -/

/-- C66 in full, for the OpenID endpoint: what is registered is the resolved metadata of a chain of the entity. -/
def C66_full : Prop :=
  ∀ (V : Chains.Env) (register : Server → Dict Val → Option (Dict Val) × Server) (priority : List String) (st : AppState) (j : Jws) (resp : RegResponse),
    (explicitOidc V register priority st (some j)).1 = .ok (some resp) →
    ∃ out tc md, (Chains.getVerified V st.fed j.payload.sub).1 = .ok out ∧ tc ∈ out ∧ tc.metadata.get? resp.entityType = some (.obj md) ∧
      (explicitOidc V register priority st (some j)).2.srv = (register st.srv (Dict.set md "client_id" (.str j.payload.sub))).2

namespace Ex
/-- A registration that takes everything as it is. -/
def takeAll (S : Server) (r : Dict Val) : Option (Dict Val) × Server :=
  (some r, { S with cdb := S.cdb.set (match Dict.get? r "client_id" with | some (.str c) => c | _ => "") r })
end Ex

/-- C66 does not hold: the OpenID endpoint registers what the request says. Here the client gets the scopes `admin`, although the policy of the anchor allows but `openid`. -/
theorem C66_unpoliced_violation : ¬ C66_full := by
  intro h
  let j := Chains.Ex.conf "https://leaf" (some ["https://im"]) (Chains.Ex.rp (.str "admin"))
  let st : AppState := ⟨Chains.Ex.st, {}⟩
  let resp : RegResponse := ⟨"https://leaf", "https://leaf", "https://ta", "openid_relying_party", [("scopes", .str "admin"), ("client_id", .str "https://leaf")]⟩
  have h0 : (explicitOidc (Chains.Ex.env (Chains.Ex.W 0)) Ex.takeAll [] st (some j)).1 = .ok (some resp) := by decide +kernel
  obtain ⟨out, tc, md, h1, h2, h3, h4⟩ := h _ Ex.takeAll [] st j resp h0
  have h5 : (Chains.getVerified (Chains.Ex.env (Chains.Ex.W 0)) st.fed j.payload.sub).1 = .ok [Chains.Ex.leafChain] := Chains.Ex.leaf_resolved
  rw [h5] at h1
  simp only [Except.ok.injEq] at h1
  subst h1
  simp only [List.mem_singleton] at h2
  subst h2
  have h6 : md = [("scopes", .str "openid")] := by
    have : Chains.Ex.leafChain.metadata.get? resp.entityType = some (.obj [("scopes", .str "openid")]) := by decide
    rw [this] at h3
    cases h3
    rfl
  subst h6
  have h7 := congrArg (fun S : Server => Dict.get? S.cdb "https://leaf") h4
  exact absurd h7 (by decide +kernel)

/-- C66 for the oauth2 endpoint: the client information kept is, claim by claim (but for those with a check of their own and those the server makes up), the metadata, after policies, of a verified
chain that ends with the request, as far as the server goes along with it. In particular a value that the policy of any superior in the chain fixes is the value in that metadata. Missing: the OpenID
endpoint. -/
theorem C66_oauth2_partial (V : Chains.Env) (R : RegEnv) (priority : List String) (st : AppState) (request : Doc) (client : String) (resp : RegResponse)
    (h : (explicitOauth2 V R priority st request).1 = .ok (some (client, resp))) :
    ∃ j tc sups md req info, request = some j ∧ RequestChain V st.fed j tc ∧ tc.verified = sups ++ [j.payload] ∧ tc.metadata.get? resp.entityType = some (.obj md) ∧
      Considered R md true req ∧ (explicitOauth2 V R priority st request).2.srv.cdb.get? client = some info ∧
      (∀ k, k ∉ special → k ∉ serverNames → info.get? k = req.get? k) ∧
      (∀ sup ∈ sups, ∀ mp c p x, sup.policy.get? resp.entityType = some mp → mp.get? c = some p → p.get? "value" = some x → Dict.get? md c = some x) := by
  obtain ⟨j, md, tc, req, args, h1, -, h2, h3, -, h4, h5, h6, h7, -⟩ := explicitOauth2_some h
  obtain ⟨req', info, h8, h9, h10, -⟩ := C94_kept R st.srv req true true [] client args h6
  have h4' := h4
  obtain ⟨c, -, tc0, -, -, h12, h11, -⟩ := h4'
  refine ⟨j, tc, c.map (·.payload), req, req', info, h1, h4, h11, h5, h8, by rw [h7]; exact h9, fun k hk hs => ?_, ?_⟩
  · rcases h10 k hk with h0 | ⟨-, h0⟩
    · exact h0
    · exact absurd h0 hs
  · intro sup hsup mp cl p x e1 e2 e3
    rw [Dict.mem_keys_iff_exists] at h3
    obtain ⟨m0, hm0⟩ := h3
    obtain ⟨m, e4, e5⟩ := Chains.applyToChain_fixed h12 _ _ h11 sup hsup resp.entityType cl m0 (by simp [Payload.md, h2, hm0]) mp p x e1 e2 e3
    rw [h5] at e4
    cases e4
    exact e5

/-- What it takes to be registered at the OpenID endpoint. -/
theorem explicitOidc_some {V : Chains.Env} {register : Server → Dict Val → Option (Dict Val) × Server} {priority : List String} {st : AppState} {j : Jws}
    {resp : RegResponse} (h : (explicitOidc V register priority st (some j)).1 = .ok (some resp)) :
    selfVerify V.L.toCrypto V.W.now j = .ok j.payload ∧
    (∃ out tc, (Chains.getVerified V st.fed j.payload.sub).1 = .ok out ∧ tc ∈ out ∧ resp.trustAnchor = tc.anchor) ∧
    ∃ m args, j.payload.md.get? resp.entityType = some m ∧ (register st.srv (Dict.set m "client_id" (.str j.payload.sub))).1 = some args ∧
      (explicitOidc V register priority st (some j)).2.srv = (register st.srv (Dict.set m "client_id" (.str j.payload.sub))).2 ∧
      resp.sub = j.payload.iss ∧ resp.aud = j.payload.iss ∧
      resp.metadata = responseMetadata ["application_type", "redirect_uris"]
        ((Dict.set m "client_id" (.str j.payload.sub)).filter fun x => x.1 ∉ ["jwks", "jwks_uri", "signed_jwks_uri"]) args := by
  unfold explicitOidc at h ⊢
  simp only at h ⊢
  cases hs : selfVerify V.L.toCrypto V.W.now j with
  | error e => rw [hs] at h; cases h
  | ok p =>
    have hp := selfVerify_payload hs
    subst hp
    rw [hs] at h
    simp only at h ⊢
    cases hm : j.payload.metadata with
    | none => rw [hm] at h; cases h
    | some md =>
      rw [hm] at h
      simp only at h ⊢
      generalize opponentType V.K md (if (Dict.keys md).length = 1 then [] else ["federation_entity"]) = ot at h ⊢
      cases ot with
      | error e => cases h
      | ok t =>
        simp only at h ⊢
        generalize Chains.getVerified V st.fed j.payload.sub = r at h ⊢
        obtain ⟨r, fed⟩ := r
        cases r with
        | error e => cases h
        | ok out =>
          cases out with
          | nil => cases h
          | cons tc0 tcs =>
            simp only at h ⊢
            cases hpk : Chains.pickTrustChain priority (tc0 :: tcs) with
            | error e => rw [hpk] at h; cases h
            | ok tc =>
              rw [hpk] at h
              simp only at h ⊢
              cases hg : md.get? t with
              | none => rw [hg] at h; cases h
              | some m =>
                rw [hg] at h
                simp only at h ⊢
                cases hr : register st.srv (Dict.set m "client_id" (.str j.payload.sub)) with
                | mk o srv =>
                  rw [hr] at h
                  cases o with
                  | none => cases h
                  | some args =>
                    simp only [Except.ok.injEq, Option.some.injEq] at h
                    subst h
                    exact ⟨trivial, ⟨_, tc, rfl, pick_mem hpk, rfl⟩, m, args, by simp [Payload.md, hm, hg], by rw [hr], by simp only [hr], rfl, rfl, rfl⟩

/-- The OpenID endpoint registers, under the subject of the request, exactly what the request says, if there is any verified chain for the subject. -/
theorem C66_oidc_partial (V : Chains.Env) (register : Server → Dict Val → Option (Dict Val) × Server) (priority : List String) (st : AppState) (j : Jws)
    (resp : RegResponse) (h : (explicitOidc V register priority st (some j)).1 = .ok (some resp)) :
    selfVerify V.L.toCrypto V.W.now j = .ok j.payload ∧ (∃ out, (Chains.getVerified V st.fed j.payload.sub).1 = .ok out ∧ out ≠ []) ∧
    ∃ m, j.payload.md.get? resp.entityType = some m ∧
      (explicitOidc V register priority st (some j)).2.srv = (register st.srv (Dict.set m "client_id" (.str j.payload.sub))).2 := by
  obtain ⟨h1, ⟨out, tc, h2, h3, -⟩, m, args, h4, -, h5, -⟩ := explicitOidc_some h
  exact ⟨h1, ⟨out, h2, by rintro rfl; cases h3⟩, m, h4, h5⟩

namespace Ex
/-- A signed registration request of `leaf`. -/
def signed : Jws := Chains.Ex.conf "https://leaf" (some ["https://ta"]) (client "https://rp/cb")
end Ex

example : ((explicitOauth2 Ex.V Ex.R [] Ex.app (some Ex.signed)).1.toOption.map fun o => o.map fun x => (x.1, x.2.sub, x.2.trustAnchor, x.2.entityType)) =
    some (some ("c0", "https://leaf", "https://ta", "oauth_client")) := by decide +kernel

/-! ## C97 -/

/-- The key that signed the request is one that somebody else lists for the entity in a chain that was verified for it. -/
def SignedByEntity (V : Chains.Env) (j : Jws) (verified : List Payload) : Prop :=
  ∃ sup ∈ verified, sup.sub = j.payload.sub ∧ ∃ ks k, sup.jwks = some ks ∧ k ∈ ks ∧ V.L.verifies j k = true

/-- C97 in full for the OpenID endpoint: only the entity itself can register itself. -/
def C97_oidc_full : Prop :=
  ∀ (V : Chains.Env) (register : Server → Dict Val → Option (Dict Val) × Server) (priority : List String) (st : AppState) (j : Jws) (resp : RegResponse),
    (explicitOidc V register priority st (some j)).1 = .ok (some resp) →
    ∃ out tc, (Chains.getVerified V st.fed j.payload.sub).1 = .ok out ∧ tc ∈ out ∧ SignedByEntity V j tc.verified

/-- C97 in full for the oauth2 endpoint. -/
def C97_oauth2_full : Prop :=
  ∀ (V : Chains.Env) (R : RegEnv) (priority : List String) (st : AppState) (j : Jws) (client : String) (resp : RegResponse),
    (explicitOauth2 V R priority st (some j)).1 = .ok (some (client, resp)) →
    ∃ out tc sups, (chainsForSigned V st.fed j.payload.sub j).1 = .ok out ∧ tc ∈ out ∧ tc.verified = sups ++ [j.payload] ∧ SignedByEntity V j sups

/-- C97 does not hold at the OpenID endpoint: anyone can register a client in the name of `leaf`, with metadata of their choice, by a request signed with a key that only the request itself lists. -/
theorem C97_anyone_violation : ¬ C97_oidc_full := by
  intro h
  let j : Jws := ⟨{ iss := "https://leaf", sub := "https://leaf", exp := some 10000, jwks := some [66], metadata := some (Chains.Ex.rp (.str "evil")) }, 66⟩
  let st : AppState := ⟨Chains.Ex.st, {}⟩
  have h0 : (explicitOidc (Chains.Ex.env (Chains.Ex.W 0)) Ex.takeAll [] st (some j)).1 = .ok (some
      ⟨"https://leaf", "https://leaf", "https://ta", "openid_relying_party", [("scopes", .str "evil"), ("client_id", .str "https://leaf")]⟩) := by decide +kernel
  obtain ⟨out, tc, h1, h2, sup, h3, -, ks, k, h4, h5, h6⟩ := h _ Ex.takeAll [] st j _ h0
  have h7 : (Chains.getVerified (Chains.Ex.env (Chains.Ex.W 0)) st.fed j.payload.sub).1 = .ok [Chains.Ex.leafChain] := Chains.Ex.leaf_resolved
  rw [h7] at h1
  simp only [Except.ok.injEq] at h1
  subst h1
  simp only [List.mem_singleton] at h2
  subst h2
  have h8 : ∀ sup ∈ Chains.Ex.leafChain.verified, ∀ ks, sup.jwks = some ks → 66 ∉ ks := by
    intro sup hs ks hk
    have : sup.jwks.all (fun ks => decide (66 ∉ ks)) = true := by
      have hall : Chains.Ex.leafChain.verified.all (fun sup => sup.jwks.all fun ks => decide (66 ∉ ks)) = true := by decide
      exact List.all_eq_true.1 hall sup hs
    rw [hk] at this
    simpa using this
  have h9 : k = 66 := by
    have : decide ((66 : Nat) = k) = true := h6
    simpa using (of_decide_eq_true this).symm
  subst h9
  exact h8 sup h3 ks h4 h5

/-- Nor at the oauth2 endpoint: an entity whose keys are known already can register in the name of `leaf`. -/
theorem C97_member_violation : ¬ C97_oauth2_full := by
  intro h
  let j : Jws := ⟨{ iss := "https://other", sub := "https://leaf", exp := some 10000, jwks := some [9], hints := some ["https://ta"], metadata := some (Ex.client "https://rp/cb") }, 9⟩
  let st : AppState := ⟨{ jar := [("https://ta", [1]), ("https://other", [9])] }, {}⟩
  have h0 : ((explicitOauth2 Ex.V Ex.R [] st (some j)).1.toOption.map fun o => o.isSome) = some true := by decide +kernel
  cases hr : (explicitOauth2 Ex.V Ex.R [] st (some j)).1 with
  | error e => rw [hr] at h0; simp [Except.toOption] at h0
  | ok o =>
    rw [hr] at h0
    simp only [Except.toOption, Option.map_some, Option.some.injEq] at h0
    obtain ⟨⟨c, resp⟩, rfl⟩ := Option.isSome_iff_exists.1 h0
    obtain ⟨out, tc, sups, h1, h1', h2, sup, h3, -, ks, k, h4, h5, h6⟩ := h _ _ _ st j c resp hr
    have hk9 : k = 9 := by
      have : decide ((9 : Nat) = k) = true := h6
      exact (of_decide_eq_true this).symm
    subst hk9
    have h7 : ((chainsForSigned Ex.V st.fed j.payload.sub j).1.toOption.map fun out => out.all fun tc =>
        tc.verified.dropLast.all fun sup => sup.jwks.all fun ks => decide (9 ∉ ks)) = some true := by decide +kernel
    rw [h1] at h7
    simp only [Except.toOption, Option.map_some, Option.some.injEq, List.all_eq_true] at h7
    have h8 := h7 tc h1' sup (by rw [h2]; simpa using h3)
    rw [h4] at h8
    simp [h5] at h8

/-- A key known for the issuer of a request is one known before, or one listed in another statement; if it verifies the request, a key with that property verifies it. -/
theorem known_by_others {V : Chains.Env} {fed : Chains.State} {j : Jws} {k : Key} (hk : Verify.Known V.L fed.jar (requestDocs V fed j) j.payload.iss k)
    (hu : V.L.usable j k = true) (hv : V.L.verifies j k = true) :
    ∃ k, V.L.usable j k = true ∧ V.L.verifies j k = true ∧ (k ∈ Verify.KeyJar.keysOf fed.jar j.payload.iss ∨
      ∃ (c : List Jws) (j' : Jws) (ks : List Key) (k' : Key), c.map some ++ [some j] ∈ requestDocs V fed j ∧ j' ∈ c ∧ j'.payload.sub = j.payload.iss ∧ j'.payload.jwks = some ks ∧ k ∈ ks ∧
        Verify.Known V.L fed.jar (requestDocs V fed j) j'.payload.iss k' ∧ V.L.usable j' k' = true ∧ V.L.verifies j' k' = true) := by
  have docs : ∀ d ∈ requestDocs V fed j, ∃ c : List Jws, d = c.map some ++ [some j] := by
    intro d hd
    unfold requestDocs at hd
    split at hd
    · obtain ⟨c, -, rfl⟩ := List.mem_map.1 hd
      exact ⟨c, rfl⟩
    · cases hd
  generalize he : j.payload.iss = e at hk
  induction hk with
  | @start e k h => subst he; exact ⟨k, hu, hv, Or.inl h⟩
  | @declared d j' k' ks k hd hj' hk' hu' hv' hks hkk ih =>
    obtain ⟨c, rfl⟩ := docs d hd
    by_cases hjj : j' = j
    · subst hjj
      rw [← he]
      exact ih hu' hv' rfl
    · have hjc : j' ∈ c := by
        simp only [List.mem_append, List.mem_map, Option.some.injEq, List.mem_singleton] at hj'
        rcases hj' with ⟨x, hx, rfl⟩ | h
        · exact hx
        · exact absurd h hjj
      exact ⟨k, hu, hv, Or.inr ⟨c, j', ks, k', hd, hjc, rfl, hks, hkk, hk', hu', hv'⟩⟩

/-- C97 as far as it holds, at the oauth2 endpoint: the request is signed with a key of its issuer that was known before, or that another statement, verified, lists for it; so if the issuer names
itself as the subject, and was not known before, it is the entity's own. Missing: issuers known before that name another entity, and the OpenID endpoint. -/
theorem C97_oauth2_partial (V : Chains.Env) (R : RegEnv) (priority : List String) (st : AppState) (j : Jws) (client : String) (resp : RegResponse)
    (h : (explicitOauth2 V R priority st (some j)).1 = .ok (some (client, resp))) :
    ∃ k, V.L.usable j k = true ∧ V.L.verifies j k = true ∧ (k ∈ Verify.KeyJar.keysOf st.fed.jar j.payload.iss ∨
      ∃ (c : List Jws) (j' : Jws) (ks : List Key) (k' : Key), c.map some ++ [some j] ∈ requestDocs V st.fed j ∧ j' ∈ c ∧ j'.payload.sub = j.payload.iss ∧ j'.payload.jwks = some ks ∧ k ∈ ks ∧
        Verify.Known V.L st.fed.jar (requestDocs V st.fed j) j'.payload.iss k' ∧ V.L.usable j' k' = true ∧ V.L.verifies j' k' = true) := by
  obtain ⟨j0, md, tc, req, args, h1, -, -, -, -, h4, -⟩ := explicitOauth2_some h
  cases h1
  obtain ⟨c, -, -, -, -, -, -, h5⟩ := h4
  obtain ⟨k, h6, h7, h8⟩ := h5 j (by simp)
  exact known_by_others h6 h7 h8

/-! ## C98 -/

/-- The anchor is the issuer of the first statement. -/
theorem anchor_heads {E : SetEnum Val} {K : SetEnum String} {L : Verify.Lib} {jar : Verify.KeyJar} {c : List Doc} {tc0 tc : Verify.TrustChain}
    (ha : Chains.applyToChain E K tc0 = .ok tc) (hv : (Verify.verifyChain L jar c).1 = .ok (some tc0)) :
    ∃ p, tc.verified.head? = some p ∧ tc.anchor = p.iss := by
  obtain ⟨-, d2, d3, d4⟩ := Verify.C42_describes_chain _ _ _ _ hv
  have same : tc.verified = tc0.verified ∧ tc.anchor = tc0.anchor := by
    obtain ⟨_, _, _, _, ⟨_, _, _, rfl⟩ | ⟨_, _, _, rfl⟩⟩ := Chains.applyToChain_ok.1 ha <;> exact ⟨rfl, rfl⟩
  cases hs : Verify.statements c with
  | nil => rw [d3, hs] at d4; cases d4
  | cons x xs =>
    refine ⟨x.payload, by rw [same.1, d2, hs]; rfl, ?_⟩
    rw [d3, hs] at d4
    simp only [List.map_cons, List.reverse_cons, List.getLast?_append, List.getLast?_singleton, Option.some_or, Option.some.injEq] at d4
    rw [same.2, d4]

/-- C98, the oauth2 endpoint: the response to an explicit registration names the issuer of the request as its subject and its audience, and as trust anchor the issuer of the first statement of a chain verified for the
request. -/
theorem C98_response (V : Chains.Env) (R : RegEnv) (priority : List String) (st : AppState) (j : Jws) (client : String) (resp : RegResponse)
    (h : (explicitOauth2 V R priority st (some j)).1 = .ok (some (client, resp))) :
    resp.sub = j.payload.iss ∧ resp.aud = j.payload.iss ∧
    (∃ tc p, RequestChain V st.fed j tc ∧ tc.verified.head? = some p ∧ resp.trustAnchor = p.iss) ∧
    (∀ md, j.payload.metadata = some md → resp.entityType ∈ Dict.keys md) ∧
    resp.metadata.get? "jwks" = none ∧ (∃ info, (explicitOauth2 V R priority st (some j)).2.srv.cdb.get? client = some info) := by
  obtain ⟨j0, md, tc, req, args, h1, -, h2, h3, -, h4, h5, h6, h7, h8⟩ := explicitOauth2_some h
  cases h1
  obtain ⟨req', info, -, h9, -⟩ := C94_kept R st.srv req true true [] client args h6
  refine ⟨by rw [h8], by rw [h8], ?_, ?_, ?_, ⟨info, by rw [h7]; exact h9⟩⟩
  · have h4' := h4
    obtain ⟨c, pre, tc0, -, hv, ha, hver, -⟩ := h4'
    obtain ⟨p, g1, g2⟩ := anchor_heads ha hv
    exact ⟨tc, p, h4, g1, by rw [h8, g2]⟩
  · intro md' hmd'
    rw [h2] at hmd'
    cases hmd'
    exact h3
  · rw [h8]
    have := get?_filterKeys (Dict.update req args) (fun k => decide (k ∉ ["application_type", "jwks", "redirect_uris"])) "jwks"
    simpa [responseMetadata] using this

/-- C98, the OpenID endpoint. -/
theorem C98_response_oidc (V : Chains.Env) (register : Server → Dict Val → Option (Dict Val) × Server) (priority : List String) (st : AppState) (j : Jws)
    (resp : RegResponse) (h : (explicitOidc V register priority st (some j)).1 = .ok (some resp)) :
    resp.sub = j.payload.iss ∧ resp.aud = j.payload.iss ∧
    (∃ out tc p, (Chains.getVerified V st.fed j.payload.sub).1 = .ok out ∧ tc ∈ out ∧ tc.verified.head? = some p ∧ resp.trustAnchor = p.iss) ∧
    (∀ md, j.payload.metadata = some md → resp.entityType ∈ Dict.keys md) ∧
    ∃ m args, j.payload.md.get? resp.entityType = some m ∧ (register st.srv (Dict.set m "client_id" (.str j.payload.sub))).1 = some args ∧
      (args.get? "jwks" = none → resp.metadata.get? "jwks" = none) := by
  obtain ⟨-, ⟨out, tc, h1, h2, h3⟩, m, args, h4, h5, -, h6, h7, h8⟩ := explicitOidc_some h
  refine ⟨h6, h7, ?_, ?_, m, args, h4, h5, ?_⟩
  · obtain ⟨f, ec, tcs, -, g1, g2, -⟩ := Chains.getVerified_ok h1
    obtain ⟨tc0, hm, ha⟩ := (Chains.applyPolicies_mem g2).1 tc h2
    obtain ⟨pre, c, post, -, hv⟩ := (Chains.verifyChains_mem g1 tc0).1 hm
    obtain ⟨p, g3, g4⟩ := anchor_heads ha hv
    exact ⟨out, tc, p, h1, h2, g3, by rw [h3, g4]⟩
  · intro md hmd
    rw [Dict.mem_keys_iff_exists]
    simp only [Payload.md, hmd, Option.getD_some] at h4
    exact ⟨m, h4⟩
  · intro ha
    rw [h8]
    have g1 := get?_filterKeys (Dict.set m "client_id" (.str j.payload.sub)) (fun k => decide (k ∉ ["jwks", "jwks_uri", "signed_jwks_uri"])) "jwks"
    have g2 := fun d => get?_filterKeys (Dict.update d args) (fun k => decide (k ∉ ["application_type", "redirect_uris"])) "jwks"
    rw [if_neg (by decide)] at g1
    simp only [responseMetadata]
    rw [g2, if_pos (by decide), Dict.get?_update, ha, g1]
    rfl

example : ((explicitOidc Ex.V (fun S r => (some (r.filter fun p => p.1 = "client_id"), S)) [] Ex.app (some Ex.signed)).1.toOption.map fun o =>
    o.map fun x => (x.sub, x.trustAnchor, x.entityType)) = some (some ("https://leaf", "https://ta", "oauth_client")) := by decide +kernel

end Fed.Registration
