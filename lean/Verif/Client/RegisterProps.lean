import Verif.Client.Register
import Verif.Registration.ExplicitProps
import Verif.Chains.Enforced
/-
Properties C112-C114: what a client makes of the response to an explicit registration.
-/
namespace Fed.Client
open Fed Verify

/-! ## Vocabulary -/

/-- The ways up from an entity that a collection finds: for each the statements, topmost first. -/
def waysUp (V : Chains.Env) (coll : Collect.State) (entity stopAt : String) : List (List Jws) :=
  match (Collect.collect V.L.toCrypto V.P V.W V.fuel coll entity stopAt).1 with
  | .ok (f, _) => Collect.tree2chains f
  | .error _ => []

/-- The ways up from the issuer of the response. -/
def providerWays (V : Env) (st : State) (j : Jws) (anchor : String) : List (List Jws) := waysUp V.toEnv st.fed.coll j.payload.iss anchor

/-- The ways up from the client itself, collected after those. -/
def ownWays (V : Env) (st : State) (j : Jws) (anchor stopAt : String) : List (List Jws) :=
  waysUp V.toEnv (Collect.collect V.L.toCrypto V.P V.W V.fuel st.fed.coll j.payload.iss anchor).2 V.me stopAt

/-- All the documents that are looked at, in the order in which they are verified. -/
def allDocs (V : Env) (st : State) (j : Jws) (anchor : String) : List (List Doc) :=
  (providerWays V st j anchor).map (·.map some) ++ (ownWays V st j anchor anchor).map fun c => c.map some ++ [some j]

/-- The response is signed with a key of its issuer that was known before, or that is listed in a collected statement whose own signature goes back to such keys. -/
def SignedByIssuer (V : Env) (st : State) (j : Jws) : Prop :=
  ∃ anchor k, j.payload.trustAnchor = some anchor ∧ Known V.L st.fed.jar (allDocs V st j anchor) j.payload.iss k ∧ V.L.usable j k = true ∧ V.L.verifies j k = true

/-! ## Helpers -/

theorem collectChains_ok {V : Chains.Env} {fed fed' : Chains.State} {entity stopAt : String} {cs : List (List Jws)} (h : collectChains V fed entity stopAt = (.ok cs, fed')) :
    cs = waysUp V fed.coll entity stopAt ∧ fed' = { fed with coll := (Collect.collect V.L.toCrypto V.P V.W V.fuel fed.coll entity stopAt).2 } := by
  unfold collectChains at h
  unfold waysUp
  generalize Collect.collect V.L.toCrypto V.P V.W V.fuel fed.coll entity stopAt = r at h ⊢
  obtain ⟨r, coll⟩ := r
  cases r with
  | error e => cases h
  | ok x =>
    simp only [Prod.mk.injEq, Except.ok.injEq] at h
    exact ⟨h.1.symm, h.2.symm⟩

theorem signatureVerifies_true {V : Chains.Env} {fed fed' : Chains.State} {entity anchor : String} (h : signatureVerifies V fed entity anchor = (.ok true, fed')) :
    waysUp V fed.coll entity anchor ≠ [] ∧ (∃ tcs, (Chains.verifyChains V.L ((waysUp V fed.coll entity anchor).map (·.map some)) fed.jar).1 = .ok tcs) ∧
    fed' = { fed with coll := (Collect.collect V.L.toCrypto V.P V.W V.fuel fed.coll entity anchor).2, jar := runAll V.L fed.jar ((waysUp V fed.coll entity anchor).map (·.map some)) } := by
  unfold signatureVerifies at h
  cases hc : collectChains V fed entity anchor with
  | mk r fed1 =>
    rw [hc] at h
    cases r with
    | error e => cases h
    | ok cs =>
      obtain ⟨h1, h2⟩ := collectChains_ok hc
      rw [← h1]
      cases cs with
      | nil => simp at h
      | cons c cs =>
        simp only at h
        have hj := @Chains.verifyChains_jar V.L ((c :: cs).map (·.map some)) fed1.jar
        have hf : fed1.jar = fed.jar := by rw [h2]
        rw [hf] at h hj
        generalize Chains.verifyChains V.L ((c :: cs).map (·.map some)) fed.jar = r at h hj ⊢
        obtain ⟨r, jar⟩ := r
        cases r with
        | error e => cases h
        | ok tcs =>
          simp only [Prod.mk.injEq, true_and] at h
          have := hj rfl
          simp only at this
          refine ⟨by simp, ⟨tcs, rfl⟩, ?_⟩
          rw [← h, this, h2]

/-- What it takes for a response to be accepted, before the client's own chains are looked at. -/
theorem parse_ok {kind : Kind} {V : Env} {st : State} {response : Doc} {v : Val} (hm : V.metadataVerifier = none) (h : (parseResponse kind V st response).1 = .ok v) :
    ∃ j anchor fed, response = some j ∧ selfVerify V.L.toCrypto V.W.now j = .ok j.payload ∧ j.payload.trustAnchor = some anchor ∧ anchor ∈ V.P.anchors ∧
      signatureVerifies V.toEnv st.fed j.payload.iss anchor = (.ok true, fed) ∧
      (match kind with | .oidc => finishOidc V { st with fed := fed } j anchor | .oauth2 => finishOauth2 V { st with fed := fed } j).1 = .ok v := by
  unfold parseResponse parseFederation at h
  cases response with
  | none => cases h
  | some j =>
    simp only at h
    cases hs : selfVerify V.L.toCrypto V.W.now j with
    | error e => rw [hs] at h; cases h
    | ok p =>
      have hp := Registration.selfVerify_payload hs
      subst hp
      rw [hs] at h
      simp only at h
      cases ht : j.payload.trustAnchor with
      | none => rw [ht] at h; cases h
      | some anchor =>
        rw [ht] at h
        simp only [hm] at h
        by_cases ha : anchor ∈ V.P.anchors
        · rw [if_neg (by simpa using ha)] at h
          cases hv : signatureVerifies V.toEnv st.fed j.payload.iss anchor with
          | mk r fed =>
            rw [hv] at h
            cases r with
            | error e => cases h
            | ok b =>
              cases b with
              | false => cases h
              | true =>
                simp only at h
                refine ⟨j, anchor, fed, rfl, hs, ht, ha, hv, ?_⟩
                cases kind with
                | oidc =>
                  simp only at h ⊢
                  generalize finishOidc V { st with fed := fed } j anchor = r at h ⊢
                  obtain ⟨r, st'⟩ := r
                  cases r with
                  | error e => cases h
                  | ok w =>
                    simp only at h ⊢
                    split at h
                    · exact h
                    · cases h
                | oauth2 =>
                  simp only at h ⊢
                  generalize finishOauth2 V { st with fed := fed } j = r at h ⊢
                  obtain ⟨r, st'⟩ := r
                  cases r with
                  | error e => cases h
                  | ok w =>
                    simp only at h ⊢
                    split at h
                    · exact h
                    · cases h
        · rw [if_pos (by simpa using ha)] at h; cases h

theorem finishOidc_ok {V : Env} {st : State} {j : Jws} {anchor : String} {v : Val} (h : (finishOidc V st j anchor).1 = .ok v) :
    ∃ tc0 tc, (Chains.verifyChains V.L ((waysUp V.toEnv st.fed.coll V.me anchor).map fun c => c.map some ++ [some j]) st.fed.jar).1 = .ok [tc0] ∧
      Chains.applyToChain V.E V.K tc0 = .ok tc ∧ tc.metadata.get? "openid_relying_party" = some v := by
  unfold finishOidc at h
  cases hc : collectChains V.toEnv st.fed V.me anchor with
  | mk r fed =>
    rw [hc] at h
    cases r with
    | error e => cases h
    | ok cs =>
      obtain ⟨rfl, h2⟩ := collectChains_ok hc
      have hf : fed.jar = st.fed.jar := by rw [h2]
      simp only [hf] at h
      generalize Chains.verifyChains V.L ((waysUp V.toEnv st.fed.coll V.me anchor).map fun c => c.map some ++ [some j]) st.fed.jar = r at h ⊢
      obtain ⟨r, jar⟩ := r
      cases r with
      | error e => cases h
      | ok tcs =>
        simp only at h
        unfold judgeOidc at h
        split at h
        · rename_i tc0
          cases ha : Chains.applyToChain V.E V.K tc0 with
          | error e => rw [ha] at h; cases h
          | ok tc =>
            rw [ha] at h
            simp only at h
            cases hg : tc.metadata.get? "openid_relying_party" with
            | none => rw [hg] at h; cases h
            | some w =>
              rw [hg] at h
              simp only [Except.ok.injEq] at h
              subst h
              exact ⟨tc0, tc, rfl, ha, hg⟩
        · cases h

theorem finishOauth2_ok {V : Env} {st : State} {j : Jws} {v : Val} (h : (finishOauth2 V st j).1 = .ok v) :
    ∃ tc tc', (Chains.getVerified V.toEnv st.fed V.me).1 = .ok [tc] ∧ v = .obj tc'.metadata ∧
      ((j.payload.md = [] ∧ tc' = tc) ∨ (j.payload.md ≠ [] ∧ reapply V.E V.K tc j.payload.md = .ok tc')) := by
  unfold finishOauth2 at h
  generalize Chains.getVerified V.toEnv st.fed V.me = r at h ⊢
  obtain ⟨r, fed⟩ := r
  cases r with
  | error e => cases h
  | ok tcs =>
    match tcs with
    | [] => cases h
    | [tc] =>
      simp only at h ⊢
      unfold Payload.md
      cases hm : j.payload.metadata with
      | none => rw [hm] at h; simp only [Except.ok.injEq] at h; exact ⟨tc, tc, rfl, h.symm, Or.inl ⟨by simp, rfl⟩⟩
      | some md =>
        rw [hm] at h
        cases md with
        | nil => simp only [Except.ok.injEq] at h; exact ⟨tc, tc, rfl, h.symm, Or.inl ⟨by simp, rfl⟩⟩
        | cons x md =>
          simp only at h
          cases ha : reapply V.E V.K tc (x :: md) with
          | error e => rw [ha] at h; cases h
          | ok tc' =>
            rw [ha] at h
            simp only [Except.ok.injEq] at h
            exact ⟨tc, tc', rfl, h.symm, Or.inr ⟨by simp, ha⟩⟩
    | _ :: _ :: _ => cases h

/-! ## C112 -/

/-- C112 in full: what a client takes as the response of the provider `asked` was issued by that provider, to the client, and signed with a key vouched for it. -/
def C112_full (kind : Kind) : Prop :=
  ∀ (V : Env) (st : State) (asked : String) (j : Jws) (v : Val), V.metadataVerifier = none → (parseResponse kind V st (some j)).1 = .ok v →
    j.payload.iss = asked ∧ j.payload.sub = V.me ∧ j.payload.aud = some V.me ∧ SignedByIssuer V st j

namespace Ex
/-- `https://op` is a provider below `ta`; `https://leaf` the client, below `im`. -/
def W : Collect.World where
  now := 0
  config
    | "https://op" => .ok (some (Chains.Ex.conf "https://op" (some ["https://ta"]) [("openid_provider", [])]))
    | e => (Chains.Ex.W 0).config e
  fetch := (Chains.Ex.W 0).fetch
def V : Env := { Chains.Ex.env W with me := "https://leaf" }
def st : State := { fed := Chains.Ex.st }
/-- A response of `iss`, signed with `k`, which is also the key it carries. -/
def resp (iss : String) (k : Key) (md : Dict Policy.Metadata) : Jws :=
  ⟨{ iss := iss, sub := "https://leaf", aud := some "https://leaf", exp := some 10000, jwks := some [k], metadata := some md, trustAnchor := some "https://ta" }, k⟩
def md : Dict Policy.Metadata := [("openid_relying_party", [("client_id", .str "c"), ("scopes", .str "admin")])]
/-- What is left of it after the policy of `ta`. -/
def out : Dict Val := [("client_id", .str "c"), ("scopes", .str "openid")]
end Ex

/-- The response of the provider is taken, as far as the policies go along; and one that the provider did not sign is refused, by the OpenID client. -/
example : (parseResponse .oidc Ex.V Ex.st (some (Ex.resp "https://op" 9 Ex.md))).1 = .ok (.obj Ex.out) := by decide +kernel
example : (parseResponse .oidc Ex.V Ex.st (some (Ex.resp "https://op" 666 Ex.md))).1 = .error .badSignature := by decide +kernel

/-- C112 does not hold for the OpenID client: any other member of the federation may answer instead of the provider that was asked. -/
theorem C112_other_provider_violation : ¬ C112_full .oidc := by
  intro h
  have := (h Ex.V Ex.st "https://op" (Ex.resp "https://im" 2 Ex.md) (.obj Ex.out) rfl (by decide +kernel)).1
  exact absurd this (by decide)

/-- C112 does not hold for the OAuth client: anybody may answer in the name of the provider, with a key of their own. -/
theorem C112_forged_violation : ¬ ∀ (V : Env) (st : State) (j : Jws) (v : Val), V.metadataVerifier = none → (parseResponse .oauth2 V st (some j)).1 = .ok v →
    SignedByIssuer V st j := by
  intro h
  obtain ⟨anchor, k, h1, h2, -, h3⟩ := h Ex.V Ex.st (Ex.resp "https://op" 666 Ex.md) (.obj [("openid_relying_party", .obj Ex.out)]) rfl (by decide +kernel)
  have h4 : anchor = "https://ta" := by simpa [Ex.resp] using h1.symm
  have h5 : 666 = k := by simpa [Ex.V, Chains.Ex.env, Chains.Ex.L, Ex.resp] using h3
  subst h4 h5
  have key : ((allDocs Ex.V Ex.st (Ex.resp "https://op" 666 Ex.md) "https://ta").all fun c => c.all fun d => match d with
      | some j => j.sig == 666 || !((j.payload.jwks).getD []).contains 666
      | none => true) = true := by decide +kernel
  have hk : ∀ e k, Known Ex.V.L Ex.st.fed.jar (allDocs Ex.V Ex.st (Ex.resp "https://op" 666 Ex.md) "https://ta") e k → k ≠ 666 := by
    intro e k hk
    induction hk with
    | start h =>
      rintro rfl
      rename_i e
      have h' : 666 ∈ KeyJar.keysOf [("https://ta", [1])] e := h
      unfold KeyJar.keysOf at h'
      rw [Dict.get?_cons] at h'
      split at h'
      · simp at h'
      · simp [Dict.get?_nil] at h'
    | @declared c j k' ks k hc hj _ hu hv hks hk ih =>
      rintro rfl
      have := List.all_eq_true.1 (List.all_eq_true.1 key _ hc) _ hj
      simp only [hks, Option.getD_some, Bool.or_eq_true, beq_iff_eq, Bool.not_eq_true', List.contains_eq_mem, decide_eq_false_iff_not] at this
      rcases this with h0 | h0
      · exact ih (by
          have : j.sig = k' := by simpa [Ex.V, Chains.Ex.env, Chains.Ex.L] using hv
          rw [← this, h0])
      · exact h0 hk
  exact hk _ _ h2 rfl

/-- C112 for the OpenID client: the response is signed with a key vouched for the issuer it names. Missing: that this is who was asked, and that the response is meant for the client. -/
theorem C112_oidc_partial (V : Env) (st : State) (j : Jws) (v : Val) (hm : V.metadataVerifier = none) (h : (parseResponse .oidc V st (some j)).1 = .ok v) :
    SignedByIssuer V st j := by
  obtain ⟨j', anchor, fed, e1, -, h1, -, h2, h3⟩ := parse_ok hm h
  simp only [Option.some.injEq] at e1
  subst e1
  obtain ⟨h4, -, h5⟩ := signatureVerifies_true h2
  obtain ⟨tc0, tc, h6, -, -⟩ := finishOidc_ok h3
  subst h5
  simp only at h6
  obtain ⟨pre, c, post, hcs, hv⟩ := (Chains.verifyChains_mem h6 tc0).1 (by simp)
  have hm' : c ∈ (waysUp V.toEnv (Collect.collect V.L.toCrypto V.P V.W V.fuel st.fed.coll j.payload.iss anchor).2 V.me anchor).map fun c => c.map some ++ [some j] := by
    rw [hcs]; simp
  obtain ⟨c0, -, rfl⟩ := List.mem_map.1 hm'
  have hrun : runAll V.L (runAll V.L st.fed.jar ((waysUp V.toEnv st.fed.coll j.payload.iss anchor).map (·.map some))) pre =
      runAll V.L st.fed.jar ((waysUp V.toEnv st.fed.coll j.payload.iss anchor).map (·.map some) ++ pre) := by
    unfold runAll; rw [List.foldl_append]
  rw [hrun] at hv
  obtain ⟨k, hk⟩ := Registration.signed_from_known (cs := allDocs V st j anchor) (post := post) (by
    unfold allDocs ownWays providerWays; rw [hcs]; simp) hv j (by simp)
  exact ⟨anchor, k, h1, hk⟩

/-- C112 for both clients: the response is signed with a key it carries itself, names a trust anchor the client trusts, and its issuer has a way up. -/
theorem C112_named_partial (kind : Kind) (V : Env) (st : State) (response : Doc) (v : Val) (hm : V.metadataVerifier = none) (h : (parseResponse kind V st response).1 = .ok v) :
    ∃ j anchor k ks, response = some j ∧ j.payload.trustAnchor = some anchor ∧ anchor ∈ V.P.anchors ∧ providerWays V st j anchor ≠ [] ∧
      j.payload.jwks = some ks ∧ k ∈ ks ∧ V.L.verifies j k = true := by
  obtain ⟨j, anchor, fed, h1, h2, h3, h4, h5, -⟩ := parse_ok hm h
  obtain ⟨h6, -, -⟩ := signatureVerifies_true h5
  unfold selfVerify at h2
  cases hk : j.payload.jwks with
  | none => rw [hk] at h2; cases h2
  | some ks =>
    rw [hk] at h2
    simp only at h2
    split at h2
    · rename_i hany
      rw [Bool.and_eq_true, List.any_eq_true] at hany
      obtain ⟨⟨k, hk1, hk2⟩, -⟩ := hany
      exact ⟨j, anchor, k, ks, h1, h3, h4, h6, hk, (List.mem_filter.1 hk1).1, hk2⟩
    · cases h2

/-! ## C113 -/

theorem withMetadata_verified {tc : TrustChain} {sups : List Payload} {leaf : Payload} (h : tc.verified = sups ++ [leaf]) (md : Dict Policy.Metadata) :
    (withMetadata tc md).verified = sups ++ [{ leaf with metadata := some md }] := by
  unfold withMetadata
  rw [h, List.getLast?_concat]
  simp

/-- C113 for the OpenID client: the metadata that is taken over has gone through the policies of a verified chain of statements up from the client (each signed with a key that goes back to known ones):
a value any of them fixes is the value there. -/
theorem C113_oidc_fixed (V : Env) (st : State) (j : Jws) (v : Val) (hm : V.metadataVerifier = none) (h : (parseResponse .oidc V st (some j)).1 = .ok v) :
    ∃ anchor, j.payload.trustAnchor = some anchor ∧ ∃ c ∈ ownWays V st j anchor anchor,
      (∀ s ∈ c, ∃ k, Known V.L st.fed.jar (allDocs V st j anchor) s.payload.iss k ∧ V.L.verifies s k = true) ∧
      ∀ md, j.payload.md.get? "openid_relying_party" = some md → ∀ s ∈ c, ∀ mp cl p x, s.payload.policy.get? "openid_relying_party" = some mp → mp.get? cl = some p →
        p.get? "value" = some x → ∃ m, v = .obj m ∧ Dict.get? m cl = some x := by
  obtain ⟨j', anchor, fed, e1, -, h1, -, h2, h3⟩ := parse_ok hm h
  simp only [Option.some.injEq] at e1
  subst e1
  obtain ⟨h4, -, h5⟩ := signatureVerifies_true h2
  obtain ⟨tc0, tc, h6, h7, h8⟩ := finishOidc_ok h3
  subst h5
  simp only at h6
  obtain ⟨pre, c, post, hcs, hv⟩ := (Chains.verifyChains_mem h6 tc0).1 (by simp)
  have hm' : c ∈ (ownWays V st j anchor anchor).map fun c => c.map some ++ [some j] := by
    unfold ownWays; rw [hcs]; simp
  obtain ⟨c0, hc0, rfl⟩ := List.mem_map.1 hm'
  have hrun : runAll V.L (runAll V.L st.fed.jar ((waysUp V.toEnv st.fed.coll j.payload.iss anchor).map (·.map some))) pre =
      runAll V.L st.fed.jar ((waysUp V.toEnv st.fed.coll j.payload.iss anchor).map (·.map some) ++ pre) := by
    unfold runAll; rw [List.foldl_append]
  rw [hrun] at hv
  have hsigned := fun s hs => Registration.signed_from_known (cs := allDocs V st j anchor) (post := post) (by
    unfold allDocs ownWays providerWays; rw [hcs]; simp) hv s hs
  obtain ⟨-, d2, -, -⟩ := C42_describes_chain _ _ _ _ hv
  have hver : tc.verified = c0.map (·.payload) ++ [j.payload] := by
    have : tc.verified = tc0.verified := by
      obtain ⟨_, _, _, _, ⟨_, _, _, rfl⟩ | ⟨_, _, _, rfl⟩⟩ := Chains.applyToChain_ok.1 h7 <;> rfl
    rw [this, d2]
    simp [statements, List.filterMap_map, List.filterMap_append]
  refine ⟨anchor, h1, c0, hc0, fun s hs => ?_, fun md hmd s hs mp cl p x h9 h10 h11 => ?_⟩
  · obtain ⟨k, h9, -, h10⟩ := hsigned s (by simp [hs])
    exact ⟨k, h9, h10⟩
  · obtain ⟨m', h12, h13⟩ := Chains.applyToChain_fixed h7 _ _ hver s.payload (List.mem_map.2 ⟨s, hs, rfl⟩) _ cl md hmd mp p x h9 h10 h11
    rw [h8] at h12
    cases h12
    exact ⟨m', rfl, h13⟩

theorem reapply_ok {E : SetEnum Val} {K : SetEnum String} {tc tc' : TrustChain} {md : Dict Policy.Metadata} (h : reapply E K tc md = .ok tc') :
    ∃ tc1, Chains.applyToChain E K (withMetadata tc md) = .ok tc1 ∧
      tc' = { tc1 with metadata := if tc.verified.length > 1 then Dict.update tc.metadata tc1.metadata else tc1.metadata } := by
  unfold reapply at h
  cases ha : Chains.applyToChain E K (withMetadata tc md) with
  | error e => rw [ha] at h; cases h
  | ok tc1 =>
    rw [ha] at h
    simp only [Except.ok.injEq] at h
    exact ⟨tc1, rfl, h.symm⟩

/-- C113 for the OAuth client: what is taken over has gone through the policies of the one verified chain of the client: a value any superior on it fixes is the value there,
for the types in the response, or, if it has no metadata, in the client's own configuration. -/
theorem C113_oauth2_fixed (V : Env) (st : State) (j : Jws) (v : Val) (hm : V.metadataVerifier = none) (h : (parseResponse .oauth2 V st (some j)).1 = .ok v) :
    ∃ fed tc anchor, fed.jar = runAll V.L st.fed.jar ((providerWays V st j anchor).map (·.map some)) ∧ (Chains.getVerified V.toEnv fed V.me).1 = .ok [tc] ∧ Chains.Provenance V.toEnv fed V.me tc ∧
      ∀ sups leaf, tc.verified = sups ++ [leaf] → ∀ s ∈ sups, ∀ t md mp cl p x, (if j.payload.md = [] then leaf.md else j.payload.md).get? t = some md →
        s.policy.get? t = some mp → mp.get? cl = some p → p.get? "value" = some x →
        ∃ all m, v = .obj all ∧ Dict.get? all t = some (.obj m) ∧ Dict.get? m cl = some x := by
  obtain ⟨j', anchor, fed, e1, -, h1, -, h2, h3⟩ := parse_ok hm h
  simp only [Option.some.injEq] at e1
  subst e1
  obtain ⟨tc, tc', h4, rfl, h5⟩ := finishOauth2_ok h3
  refine ⟨fed, tc, anchor, by rw [(signatureVerifies_true h2).2.2]; rfl, h4, Chains.C76_provenance _ _ _ _ h4 tc (List.mem_singleton.2 rfl), fun sups leaf hver s hs t md mp cl p x g1 g2 g3 g4 => ?_⟩
  rcases h5 with ⟨h5, rfl⟩ | ⟨h5, h6⟩
  · rw [if_pos h5] at g1
    obtain ⟨_, _, _, _, h7, -⟩ := Chains.getVerified_made h4 (List.mem_singleton.2 rfl)
    obtain ⟨m, g5, g6⟩ := Chains.applyToChain_fixed h7 _ _ hver s hs t cl md g1 mp p x g2 g3 g4
    exact ⟨_, m, rfl, g5, g6⟩
  · rw [if_neg h5] at g1
    obtain ⟨tc1, h6', rfl⟩ := reapply_ok h6
    clear h6
    have h6 := h6'
    have hv' : tc1.verified = sups ++ [{ leaf with metadata := some j.payload.md }] := by
      rw [← withMetadata_verified hver]
      obtain ⟨_, _, _, _, ⟨_, _, _, rfl⟩ | ⟨_, _, _, rfl⟩⟩ := Chains.applyToChain_ok.1 h6 <;> rfl
    obtain ⟨m, g5, g6⟩ := Chains.applyToChain_fixed h6 _ _ hv' s hs t cl md (by simpa [Payload.md] using g1) mp p x g2 g3 g4
    refine ⟨_, m, rfl, ?_, g6⟩
    show Dict.get? (if tc.verified.length > 1 then Dict.update tc.metadata tc1.metadata else tc1.metadata) t = _
    by_cases hl : tc.verified.length > 1
    · rw [if_pos hl, Dict.get?_update, g5]; rfl
    · rw [if_neg hl]; exact g5

/-- `ta` fixes `scopes`: what the response has there is replaced, for both clients; the OAuth client without metadata in the response takes the metadata of its own configuration. -/
example : (parseResponse .oauth2 Ex.V Ex.st (some (Ex.resp "https://op" 9 Ex.md))).1 = .ok (.obj [("openid_relying_party", .obj Ex.out)]) ∧
    (parseResponse .oauth2 Ex.V Ex.st (some (Ex.resp "https://op" 9 []))).1.isOk = true := by decide +kernel

/-! ## C114 -/

/-- C114 in full: what is taken over follows the policies of a chain of the client up to the trust anchor named in the response. -/
def C114_full (kind : Kind) : Prop :=
  ∀ (V : Env) (st : State) (j : Jws) (v : Val), V.metadataVerifier = none → (parseResponse kind V st (some j)).1 = .ok v →
    ∃ anchor, j.payload.trustAnchor = some anchor ∧ ∃ c ∈ ownWays V st j anchor anchor, c.head?.map (·.payload.iss) = some anchor

/-- And more than one such chain is no reason to refuse a response that checks out on one of them. -/
def C114_several_full (kind : Kind) : Prop :=
  ∀ (V : Env) (st : State) (j : Jws) (anchor : String) (tcs : List TrustChain) (tc : TrustChain), V.metadataVerifier = none → j.payload.trustAnchor = some anchor →
    (Chains.verifyChains V.L (allDocs V st j anchor) st.fed.jar).1 = .ok tcs → tc ∈ tcs → tc.verified.getLast? = some j.payload → (parseResponse kind V st (some j)).1 ≠ .error .systemError

namespace Ex
/-- `https://leaf` is below `https://ta2` only, the provider below `https://ta`; the client trusts both. -/
def W2 : Collect.World where
  now := 0
  config
    | "https://ta2" => .ok (some (Chains.Ex.conf "https://ta2" none (Chains.Ex.fe true)))
    | "https://leaf" => .ok (some (Chains.Ex.conf "https://leaf" (some ["https://ta2"]) (Chains.Ex.rp (.str "admin"))))
    | e => W.config e
  fetch := W.fetch
def V2 : Env := { V with W := W2, P := { anchors := ["https://ta", "https://ta2"] } }
def st2 : State := { fed := { jar := [("https://ta", [1]), ("https://ta2", [9])] } }
/-- `https://leaf` is below `im` and `im2`, both below `ta`. -/
def W3 : Collect.World where
  now := 0
  config
    | "https://im2" => .ok (some (Chains.Ex.conf "https://im2" (some ["https://ta"]) (Chains.Ex.fe true)))
    | "https://leaf" => .ok (some (Chains.Ex.conf "https://leaf" (some ["https://im", "https://im2"]) (Chains.Ex.rp (.str "admin"))))
    | e => W.config e
  fetch := W.fetch
def V3 : Env := { V with W := W3 }
/-- The chain through `im` with the response at its end. -/
def tc3 : TrustChain where
  anchor := "https://ta"
  issPath := ["https://op", "https://im", "https://ta"]
  exp := 10000
  verified := [(Chains.Ex.about "https://ta" "https://im" Chains.Ex.taPolicy).payload, (Chains.Ex.about "https://im" "https://leaf").payload, (resp "https://op" 9 md).payload]
  chain := [some (Chains.Ex.about "https://ta" "https://im" Chains.Ex.taPolicy), some (Chains.Ex.about "https://im" "https://leaf"), some (resp "https://op" 9 md)]
end Ex

/-- C114 does not hold: a chain to another trust anchor is used as well. -/
theorem C114_other_anchor_violation (kind : Kind) : ¬ C114_full kind := by
  intro h
  have hr : ∃ v, (parseResponse kind Ex.V2 Ex.st2 (some (Ex.resp "https://op" 9 Ex.md))).1 = .ok v := by
    cases kind
    · exact ⟨.obj [("client_id", .str "c"), ("scopes", .str "admin")], by decide +kernel⟩
    · exact ⟨.obj [("openid_relying_party", .obj [("client_id", .str "c"), ("scopes", .str "admin")])], by decide +kernel⟩
  obtain ⟨v, hr⟩ := hr
  obtain ⟨anchor, h1, h2⟩ := h _ _ _ _ rfl hr
  have h4 : "https://ta" = anchor := by simpa [Ex.resp] using h1
  subst h4
  exact absurd h2 (by decide +kernel)

/-- C114 does not hold: with two chains, the response is refused with a SystemError. -/
theorem C114_several_violation (kind : Kind) : ¬ C114_several_full kind := by
  intro h
  have hv : ((Chains.verifyChains Ex.V3.L (allDocs Ex.V3 Ex.st (Ex.resp "https://op" 9 Ex.md) "https://ta") Ex.st.fed.jar).1.toOption.getD []).contains Ex.tc3 = true := by decide +kernel
  generalize hr : (Chains.verifyChains Ex.V3.L (allDocs Ex.V3 Ex.st (Ex.resp "https://op" 9 Ex.md) "https://ta") Ex.st.fed.jar).1 = r at hv
  cases r with
  | error e => simp [Except.toOption] at hv
  | ok tcs =>
    refine h Ex.V3 Ex.st (Ex.resp "https://op" 9 Ex.md) "https://ta" tcs Ex.tc3 rfl rfl hr (by simpa [Except.toOption] using hv) rfl ?_
    cases kind <;> decide +kernel

/-- C114 as far as it holds: exactly one of the client's ways up, with the response at its end, verifies, and it is the one whose policies are applied. Missing: that it leads to the trust
anchor named in the response, and that the response is not refused when there are several. -/
theorem C114_one_partial (V : Env) (st : State) (j : Jws) (v : Val) (hm : V.metadataVerifier = none) (h : (parseResponse .oidc V st (some j)).1 = .ok v) :
    ∃ anchor tc0 tc, j.payload.trustAnchor = some anchor ∧ tc0.verified.getLast? = some j.payload ∧ tc0.verified.dropLast ∈ (ownWays V st j anchor anchor).map (·.map (·.payload)) ∧
      (Chains.verifyChains V.L ((ownWays V st j anchor anchor).map fun c => c.map some ++ [some j]) (runAll V.L st.fed.jar ((providerWays V st j anchor).map (·.map some)))).1 = .ok [tc0] ∧
      Chains.applyToChain V.E V.K tc0 = .ok tc ∧ tc.metadata.get? "openid_relying_party" = some v := by
  obtain ⟨j', anchor, fed, e1, -, h1, -, h2, h3⟩ := parse_ok hm h
  simp only [Option.some.injEq] at e1
  subst e1
  obtain ⟨h4, -, h5⟩ := signatureVerifies_true h2
  obtain ⟨tc0, tc, h6, h7, h8⟩ := finishOidc_ok h3
  rw [h5] at h6
  obtain ⟨pre, c, post, hcs, hv⟩ := (Chains.verifyChains_mem h6 tc0).1 (by simp)
  have hm' : c ∈ (ownWays V st j anchor anchor).map fun c => c.map some ++ [some j] := by
    unfold ownWays; rw [hcs]; simp
  obtain ⟨c0, hc0, rfl⟩ := List.mem_map.1 hm'
  obtain ⟨-, d2, -, -⟩ := C42_describes_chain _ _ _ _ hv
  have hver : tc0.verified = c0.map (·.payload) ++ [j.payload] := by
    rw [d2]
    simp [statements, List.filterMap_map, List.filterMap_append]
  exact ⟨anchor, tc0, tc, h1, by rw [hver]; simp, by rw [hver, List.dropLast_concat]; exact List.mem_map.2 ⟨c0, hc0, rfl⟩, h6, h7, h8⟩

/-! ## C155 -/

/-- C155 in full: an accepted response is what the client keeps as its registration, and after one that is refused it keeps what it had. -/
def C155_full (kind : Kind) : Prop :=
  ∀ (V : Env) (st : State) (response : Doc), V.metadataVerifier = none →
    (∀ v, (parseResponse kind V st response).1 = .ok v → (parseResponse kind V st response).2.registered = some v) ∧
    (∀ e, (parseResponse kind V st response).1 = .error e → (parseResponse kind V st response).2.registered = st.registered)

theorem judgeOidc_kept (V : Env) (st : State) (tcs : List TrustChain) :
    (∃ v, judgeOidc V st tcs = (.ok v, { st with registered := some v })) ∨ (∃ e, judgeOidc V st tcs = (.error e, st)) := by
  unfold judgeOidc
  split
  · split
    · exact Or.inr ⟨_, rfl⟩
    · split
      · exact Or.inr ⟨_, rfl⟩
      · exact Or.inl ⟨_, rfl⟩
  · exact Or.inr ⟨_, rfl⟩

theorem finishOidc_kept (V : Env) (st : State) (j : Jws) (anchor : String) :
    (∃ v st', finishOidc V st j anchor = (.ok v, st') ∧ st'.registered = some v) ∨ (∃ e st', finishOidc V st j anchor = (.error e, st') ∧ st'.registered = st.registered) := by
  unfold finishOidc
  split
  · exact Or.inr ⟨_, _, rfl, rfl⟩
  · split
    · exact Or.inr ⟨_, _, rfl, rfl⟩
    · rename_i tcs jar _
      rcases judgeOidc_kept V _ tcs with ⟨v, h⟩ | ⟨e, h⟩
      · exact Or.inl ⟨v, _, h, rfl⟩
      · exact Or.inr ⟨e, _, h, rfl⟩

theorem finishOauth2_kept (V : Env) (st : State) (j : Jws) :
    (∃ v st', finishOauth2 V st j = (.ok v, st') ∧ st'.registered = some v) ∨ (∃ e st', finishOauth2 V st j = (.error e, st') ∧ st'.registered = st.registered) := by
  unfold finishOauth2
  split
  · exact Or.inr ⟨_, _, rfl, rfl⟩
  · split
    · exact Or.inl ⟨_, _, rfl, rfl⟩
    · exact Or.inl ⟨_, _, rfl, rfl⟩
    · split
      · exact Or.inr ⟨_, _, rfl, rfl⟩
      · exact Or.inl ⟨_, _, rfl, rfl⟩
  · exact Or.inr ⟨_, _, rfl, rfl⟩

/-- What `parse_response` leaves: an accepted response, something empty, or what there was. -/
theorem parse_kept (kind : Kind) (V : Env) (st : State) (response : Doc) (hm : V.metadataVerifier = none) :
    (∃ v st', parseResponse kind V st response = (.ok v, st') ∧ st'.registered = some v) ∨
    (∃ v st', parseResponse kind V st response = (.error .responseError, st') ∧ st'.registered = some v ∧ v.truthy = false) ∨
    (∃ e st', parseResponse kind V st response = (.error e, st') ∧ st'.registered = st.registered) := by
  unfold parseResponse parseFederation
  cases response with
  | none => exact Or.inr (Or.inr ⟨_, _, rfl, rfl⟩)
  | some j =>
    simp only
    cases selfVerify V.L.toCrypto V.W.now j with
    | error e => exact Or.inr (Or.inr ⟨_, _, rfl, rfl⟩)
    | ok p =>
      simp only
      cases p.trustAnchor with
      | none => exact Or.inr (Or.inr ⟨_, _, rfl, rfl⟩)
      | some anchor =>
        simp only [hm]
        by_cases ha : anchor ∉ V.P.anchors
        · rw [if_pos ha]; exact Or.inr (Or.inr ⟨_, _, rfl, rfl⟩)
        · rw [if_neg ha]
          generalize signatureVerifies V.toEnv st.fed p.iss anchor = r
          obtain ⟨r, fed⟩ := r
          match r with
          | .error e => exact Or.inr (Or.inr ⟨_, _, rfl, rfl⟩)
          | .ok false => exact Or.inr (Or.inr ⟨_, _, rfl, rfl⟩)
          | .ok true =>
            cases kind with
            | oidc =>
              rcases finishOidc_kept V { st with fed := fed } j anchor with ⟨v, st', h1, h⟩ | ⟨e, st', h1, h⟩
              · simp only [h1]
                cases hv : v.truthy with
                | true => exact Or.inl ⟨v, st', by simp, h⟩
                | false => exact Or.inr (Or.inl ⟨v, st', by simp, h, hv⟩)
              · simp only [h1]
                exact Or.inr (Or.inr ⟨e, st', rfl, h⟩)
            | oauth2 =>
              rcases finishOauth2_kept V { st with fed := fed } j with ⟨v, st', h1, h⟩ | ⟨e, st', h1, h⟩
              · simp only [h1]
                cases hv : v.truthy with
                | true => exact Or.inl ⟨v, st', by simp, h⟩
                | false => exact Or.inr (Or.inl ⟨v, st', by simp, h, hv⟩)
              · simp only [h1]
                exact Or.inr (Or.inr ⟨e, st', rfl, h⟩)

/-- C155, accepted responses: what `parse_response` returns is what is kept. -/
theorem C155_kept_partial (kind : Kind) (V : Env) (st : State) (response : Doc) (v : Val) (hm : V.metadataVerifier = none) (h : (parseResponse kind V st response).1 = .ok v) :
    (parseResponse kind V st response).2.registered = some v := by
  rcases parse_kept kind V st response hm with ⟨w, st', h1, h2⟩ | ⟨w, st', h1, h2, -⟩ | ⟨e, st', h1, h2⟩
  · rw [h1] at h ⊢; cases h; exact h2
  · rw [h1] at h; cases h
  · rw [h1] at h; cases h

/-- C155, refused responses: what was kept stays, unless what the policies leave of the response is empty. -/
theorem C155_refused_partial (kind : Kind) (V : Env) (st : State) (response : Doc) (e : PyErr) (hm : V.metadataVerifier = none) (h : (parseResponse kind V st response).1 = .error e) :
    (parseResponse kind V st response).2.registered = st.registered ∨
      (e = .responseError ∧ ∃ v, (parseResponse kind V st response).2.registered = some v ∧ v.truthy = false) := by
  rcases parse_kept kind V st response hm with ⟨w, st', h1, h2⟩ | ⟨w, st', h1, h2, h3⟩ | ⟨e', st', h1, h2⟩
  · rw [h1] at h; cases h
  · rw [h1] at h ⊢; cases h; exact Or.inr ⟨rfl, w, h2, h3⟩
  · rw [h1]; exact Or.inl h2

namespace Ex
/-- The same federation, without policies. -/
def V4 : Env := { V with W := { W with fetch := fun _ a e => .ok (some (Chains.Ex.about a e)) } }
end Ex

/-- Accepted and kept; and refused, with what there was still there. -/
example : (parseResponse .oidc Ex.V { Ex.st with registered := some (.str "c") } (some (Ex.resp "https://op" 9 Ex.md))).2.registered = some (.obj Ex.out) ∧
    (parseResponse .oidc Ex.V { Ex.st with registered := some (.str "c") } (some (Ex.resp "https://op" 666 Ex.md))).2.registered = some (.str "c") := by decide +kernel

/-- C155 does not hold: a response without anything in it for the client is refused, and the client has forgotten the registration it had. -/
theorem C155_forgotten_violation : ¬ C155_full .oidc := by
  intro h
  have := (h Ex.V4 { Ex.st with registered := some (.str "c") } (some (Ex.resp "https://op" 9 [("openid_relying_party", [])])) rfl).2 .responseError (by decide +kernel)
  exact absurd this (by decide +kernel)

/-- With a `metadata_verifier` its answer is the outcome, whatever the chains: it is returned, unless it is empty (then the response is refused), and nothing is recorded here. -/
theorem C155_verifier_partial (kind : Kind) (V : Env) (st : State) (j : Jws) (p : Payload) (anchor : String) (f : Jws → Val) (hm : V.metadataVerifier = some f)
    (hs : selfVerify V.L.toCrypto V.W.now j = .ok p) (ht : p.trustAnchor = some anchor) (ha : anchor ∈ V.P.anchors) :
    parseResponse kind V st (some j) = (if (f j).truthy then .ok (f j) else .error .responseError, st) := by
  unfold parseResponse parseFederation
  simp only [hs, ht, hm]
  rw [if_neg (by simpa using ha)]
  cases hv : (f j).truthy <;> simp [hv]

/-- Such an entity: the answer of the verifier is what is returned. -/
example : (parseResponse .oidc { Ex.V with metadataVerifier := some fun _ => .str "m" } Ex.st (some (Ex.resp "https://op" 9 Ex.md))).1 = .ok (.str "m") := by decide +kernel

end Fed.Client
