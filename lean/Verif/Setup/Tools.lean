import Verif.Setup.Tree
import Verif.Client.MarkEndpoint
import Verif.Client.RequestsProps
/-
Model of the small scripts that show what is in a federation: /repo/script/get_entity_configuration.py, get_subordinate_statement.py, get_trust_chains.py, list_subordinates.py, get_trust_mark_status.py,
and /repo/example/display_entity.py. Property C200: they show what they say they show.
-/
namespace Fed.Setup.Tools
open Fed Fed.Verify Fed.Chains

/-! ### The scripts -/

/-- What the collector gets, or the exception (/repo/src/fedservice/entity/function/trust_chain_collector.py 95-125). What is no signed JWT: ValueError (29-33). -/
def received : Except Collect.NetErr Doc → Except PyErr Jws
  | .error e => .error e.toPy
  | .ok none => .error .valueError
  | .ok (some j) => .ok j

/-- get_entity_configuration.py 34-46: what is printed as "Entity Configuration for e". -/
def configuration (C : Crypto) (W : Collect.World) (e : String) : Except PyErr Payload := do
  let j ← received (W.config e)
  selfVerify C W.now j

/-- `c["metadata"]["federation_entity"]["federation_fetch_endpoint"]` (get_subordinate_statement.py 42). -/
def fetchEndpointOf (c : Payload) : Except PyErr Val := do
  let fe ← federationEntity c
  Dict.get fe "federation_fetch_endpoint"

/-- get_subordinate_statement.py 36-55: what is printed as "Subordinate Statement about e from superior". -/
def statement (C : Crypto) (W : Collect.World) (superior e : String) : Except PyErr Payload := do
  let c ← configuration C W superior
  let ep ← fetchEndpointOf c
  let j ← received (W.fetch ep superior e)
  pure j.payload

/-- The line above a printed statement (get_trust_chains.py 70-73). -/
inductive Heading
  | configuration (e : String)
  | statement (about «from» : String)
deriving DecidableEq, Repr

/-- get_trust_chains.py 70-73. -/
def headingOf (p : Payload) : Heading := if p.iss = p.sub then .configuration p.iss else .statement p.sub p.iss

/-- A printed chain: the anchor it is said to end in, and the statements under their headings (get_trust_chains.py 67-75). -/
structure Printed where
  anchor : String
  nodes : List (Heading × Payload)
deriving DecidableEq, Repr

/-- get_trust_chains.py 67-75. -/
def printed (tc : TrustChain) : Printed := ⟨tc.anchor, tc.verified.reverse.map fun p => (headingOf p, p)⟩

/-- get_trust_chains.py 59-75. Collecting, verifying and applying the policies are the steps of `get_verified_trust_chains`; with no chains there is nothing to verify. Simplification: that "No chains" is
printed is left out. -/
def chains (V : Env) (st : State) (e : String) : Except PyErr (List Printed) :=
  (getVerified V st e).1.map (List.map printed)

/-- What the script sends to the endpoint it found, if it found one (list_subordinates.py 37-41). Simplification: an endpoint that is no text, or was not found, is not used. -/
def askList (V : Env) (ask : String → Except PyErr (Dict Val)) (text : Val → String) (st : State) (e : String) : Except PyErr Client.Requests.Get :=
  match (entityEndpoint V ask st e "federation_entity" "federation_list_endpoint").1 with
  | .error x => .error x
  | .ok (.str ep) => if ep = "" then .error .unsupported else .ok (Client.Requests.listRequest text ep [])
  | .ok _ => .error .unsupported

/-- What the script sends (get_trust_mark_status.py 39-49). An endpoint that was not found is the empty text, and nothing is sent. Simplification: an endpoint that is no text is not used. -/
def askStatus (V : Env) (ask : String → Except PyErr (Dict Val)) (text : Val → String) (st : State) (issuer id sub : String) : Except PyErr Client.Requests.Get :=
  match (entityEndpoint V ask st issuer "federation_entity" "federation_trust_mark_status_endpoint").1 with
  | .error x => .error x
  | .ok (.str ep) => Client.Requests.statusRequest text (fun _ => none) (some [("trust_mark_id", .str id), ("sub", .str sub)]) "" ep
  | .ok _ => .error .unsupported

/-- `_key_jar.get_jwt_verify_keys` and `verify_compact` (display_entity.py 22-26, 40-43) with a key jar that has the keys `ks` of `owner` and no others: keys are looked up under the issuer the token names.
Expiry is not looked at. -/
def verifyWith (C : Crypto) (owner : String) (ks : List Key) (j : Jws) : Except PyErr Payload :=
  if j.payload.iss = owner ∧ (ks.filter (C.usable j)).any (C.verifies j) = true then .ok j.payload else .error .badSignature

/-- The keys a statement gives; KeyError without (display_entity.py 24, 41). -/
def keysIn (p : Payload) : Except PyErr (List Key) :=
  match p.jwks with
  | none => .error .keyError
  | some ks => .ok ks

/-- A member of the metadata as a federation entity that is given and true (display_entity.py 58-63); no metadata: KeyError. -/
def endpointIn (p : Payload) (name : String) : Except PyErr (Option Val) :=
  match p.metadata with
  | none => .error .keyError
  | some md => .ok (((md.get? "federation_entity").bind fun fe => fe.get? name).filter Val.truthy)

/-- The statements about those listed, one after the other (display_entity.py 68-70). -/
def subordinates (C : Crypto) (W : Collect.World) (ep : Val) (e : String) (ks : List Key) : List String → Except PyErr (List (String × Payload))
  | [] => .ok []
  | s :: ss => do
    let j ← received (W.fetch ep e s)
    let p ← verifyWith C e ks j
    let rest ← subordinates C W ep e ks ss
    pure ((s, p) :: rest)

/-- What display_entity.py prints: the configuration, and the statements with the entity each is said to be for. -/
structure Display where
  configuration : Payload
  statements : List (String × Payload)
deriving DecidableEq, Repr

/-- display_entity.py 14-27 and 52-70. `list`: what a list endpoint answers. Simplifications: an answer that is no JWS is a ValueError (AttributeError in Python); what was printed before an exception is not kept. -/
def display (C : Crypto) (W : Collect.World) (list : Val → Except PyErr (List String)) (e : String) : Except PyErr Display := do
  let j ← received (W.config e)
  let ks ← keysIn j.payload
  let c ← verifyWith C e ks j
  let le ← endpointIn c "federation_list_endpoint"
  let fe ← endpointIn c "federation_fetch_endpoint"
  match le, fe with
  | some le, some fe => do
    let ss ← list le
    let ps ← subordinates C W fe e ks ss
    pure ⟨c, ps⟩
  | _, _ => pure ⟨c, []⟩

/-! ### In any federation -/

/-- Signed with one of these keys. -/
def SignedWith (C : Crypto) (ks : List Key) (j : Jws) : Prop := ∃ k ∈ ks, C.usable j k = true ∧ C.verifies j k = true

/-- C200 for get_entity_configuration.py, in full: what is shown as the configuration of an entity is issued by it, about it, and signed with a key in it. -/
def C200_configuration_full : Prop :=
  ∀ (C : Crypto) (W : Collect.World) (e : String) (p : Payload), configuration C W e = .ok p → p.iss = e ∧ p.sub = e ∧ ∃ j ks, j.payload = p ∧ p.jwks = some ks ∧ SignedWith C ks j

/-- C200 for get_subordinate_statement.py, in full: what is shown as the statement of a superior about an entity is issued by the superior, about the entity, and signed with a key the superior publishes. -/
def C200_statement_full : Prop :=
  ∀ (C : Crypto) (W : Collect.World) (a e : String) (p : Payload), statement C W a e = .ok p → p.iss = a ∧ p.sub = e ∧
    ∃ j c ks, j.payload = p ∧ configuration C W a = .ok c ∧ c.jwks = some ks ∧ SignedWith C ks j

/-- C200 for display_entity.py, in full: the configuration is issued by the entity about itself; what is shown as the statement for a subordinate is issued by the entity, about the subordinate; all of it is
signed with a key in the configuration. -/
def C200_display_full : Prop :=
  ∀ (C : Crypto) (W : Collect.World) (list : Val → Except PyErr (List String)) (e : String) (d : Display), display C W list e = .ok d →
    (d.configuration.iss = e ∧ d.configuration.sub = e) ∧ (∀ s p, (s, p) ∈ d.statements → p.iss = e ∧ p.sub = s) ∧
    ∃ ks, d.configuration.jwks = some ks ∧ ∀ p, (p = d.configuration ∨ ∃ s, (s, p) ∈ d.statements) → ∃ j, j.payload = p ∧ SignedWith C ks j

namespace Ex
/-- Signatures are the number of the key. -/
def C : Crypto := ⟨fun _ _ => true, fun j k => j.sig = k, notExpired⟩
def feMd : Dict Policy.Metadata := [("federation_entity", [("federation_fetch_endpoint", .str "https://ta/fetch"), ("federation_list_endpoint", .str "https://ta/list")])]
def ta : Jws := ⟨{ iss := "https://ta", sub := "https://ta", exp := some 1000, jwks := some [1], metadata := some feMd }, 1⟩
/-- A mirror that serves the configuration of `https://ta` as its own; and, at `https://ta`, a fetch endpoint that answers with whatever is given. -/
def W (d : Doc) : Collect.World where
  now := 0
  config e := if e = "https://ta" ∨ e = "https://mirror" then .ok (some ta) else .error .missingPage
  fetch _ _ _ := .ok d
def forged : Jws := ⟨{ iss := "https://ta", sub := "https://leaf", exp := some 1000, jwks := some [66] }, 66⟩
def other : Jws := ⟨{ iss := "https://ta", sub := "https://other", exp := some 1000, jwks := some [3] }, 1⟩
def about (s : String) : Jws := ⟨{ iss := "https://ta", sub := s, exp := some 1000, jwks := some [3] }, 1⟩
end Ex

/-- C200 does not hold of get_entity_configuration.py: nothing compares the configuration with the entity asked for. A site that serves the configuration of somebody else is shown to have that one. -/
theorem C200_configuration_violation : ¬ C200_configuration_full := by
  intro h
  have h1 : configuration Ex.C (Ex.W none) "https://mirror" = .ok Ex.ta.payload := by decide +kernel
  exact absurd (h _ _ _ _ h1).1 (by decide)

/-- C200 does not hold of get_subordinate_statement.py, which says so itself ("Don't try to verify the signatures"): a statement signed by anybody is shown as the superior's. -/
theorem C200_statement_violation : ¬ C200_statement_full := by
  intro h
  obtain ⟨-, -, j, c, ks, h2, h3, h4, k, h5, -, h6⟩ := h (C := ⟨fun _ _ => true, fun j k => decide (j.payload ≠ Ex.forged.payload ∧ j.sig = k), notExpired⟩)
    (Ex.W (some Ex.forged)) "https://ta" "https://leaf" Ex.forged.payload (by decide +kernel)
  simp [h2] at h6

/-- C200 does not hold of display_entity.py: the statement is verified but its subject is not compared. A statement about one entity is shown as the statement for another. -/
theorem C200_display_violation : ¬ C200_display_full := by
  intro h
  have h1 : display Ex.C (Ex.W (some Ex.other)) (fun _ => .ok ["https://leaf"]) "https://ta" = .ok ⟨Ex.ta.payload, [("https://leaf", Ex.other.payload)]⟩ := by decide +kernel
  exact absurd ((h _ _ _ _ _ h1).2.1 "https://leaf" Ex.other.payload (by simp)).2 (by decide)

theorem received_ok {r : Except Collect.NetErr Doc} {j : Jws} (h : received r = .ok j) : r = .ok (some j) := by
  unfold received at h
  split at h
  · cases h
  · cases h
  · cases h; rfl

/-- C200 for get_entity_configuration.py: what is shown is the payload of the document found at the place of the entity's configuration, signed with a key it contains and in force. Missing, and false:
that it is about the entity. -/
theorem C200_configuration_partial (C : Crypto) (W : Collect.World) (e : String) (p : Payload) (h : configuration C W e = .ok p) :
    ∃ j ks, W.config e = .ok (some j) ∧ j.payload = p ∧ p.jwks = some ks ∧ SignedWith C ks j ∧ C.current W.now j = true := by
  unfold configuration at h
  cases h1 : received (W.config e) with
  | error x => rw [h1] at h; cases h
  | ok j =>
    rw [h1, ok_bind] at h
    unfold selfVerify at h
    split at h
    · cases h
    · rename_i ks hk
      split at h
      · rename_i hv
        cases h
        rw [Bool.and_eq_true, List.any_eq_true] at hv
        obtain ⟨⟨k, hk1, hk2⟩, hc⟩ := hv
        obtain ⟨hk3, hk4⟩ := List.mem_filter.1 hk1
        exact ⟨j, ks, received_ok h1, rfl, hk, ⟨k, hk3, hk4, hk2⟩, hc⟩
      · cases h

/-- C200 for get_subordinate_statement.py: what is shown is the payload of what was answered at the fetch endpoint in the verified configuration found for the superior, when asked in the superior's name about the
entity. Missing, and false: that it is the superior's statement, about the entity. -/
theorem C200_statement_partial (C : Crypto) (W : Collect.World) (a e : String) (p : Payload) (h : statement C W a e = .ok p) :
    ∃ c md fe ep j, configuration C W a = .ok c ∧ c.metadata = some md ∧ Dict.get? md "federation_entity" = some fe ∧ fe.get? "federation_fetch_endpoint" = some ep ∧
      W.fetch ep a e = .ok (some j) ∧ j.payload = p := by
  unfold statement at h
  cases h1 : configuration C W a with
  | error x => rw [h1] at h; cases h
  | ok c =>
    rw [h1, ok_bind] at h
    cases h2 : fetchEndpointOf c with
    | error x => rw [h2] at h; cases h
    | ok ep =>
      rw [h2, ok_bind] at h
      cases h3 : received (W.fetch ep a e) with
      | error x => rw [h3] at h; cases h
      | ok j =>
        rw [h3, ok_bind] at h
        cases h
        unfold fetchEndpointOf at h2
        cases h4 : federationEntity c with
        | error x => rw [h4] at h2; cases h2
        | ok fe =>
          rw [h4, ok_bind] at h2
          unfold federationEntity at h4
          split at h4
          · cases h4
          · rename_i md hmd
            unfold Dict.get at h2 h4
            split at h4
            · rename_i fe' hfe
              cases h4
              split at h2
              · rename_i ep' hep
                cases h2
                exact ⟨c, md, fe, ep, j, rfl, hmd, hfe, hep, received_ok h3, rfl⟩
              · cases h2
            · cases h4

theorem verifyWith_ok {C : Crypto} {owner : String} {ks : List Key} {j : Jws} {p : Payload} (h : verifyWith C owner ks j = .ok p) : j.payload = p ∧ p.iss = owner ∧ SignedWith C ks j := by
  unfold verifyWith at h
  split at h
  · rename_i hv
    cases h
    obtain ⟨h1, h2⟩ := hv
    obtain ⟨k, hk1, hk2⟩ := List.any_eq_true.1 h2
    obtain ⟨hk3, hk4⟩ := List.mem_filter.1 hk1
    exact ⟨rfl, h1, k, hk3, hk4, hk2⟩
  · cases h

theorem subordinates_ok {C : Crypto} {W : Collect.World} {ep : Val} {e : String} {ks : List Key} : ∀ {ss : List String} {ps : List (String × Payload)}, subordinates C W ep e ks ss = .ok ps →
    ps.map (·.1) = ss ∧ ∀ s p, (s, p) ∈ ps → ∃ j, W.fetch ep e s = .ok (some j) ∧ j.payload = p ∧ p.iss = e ∧ SignedWith C ks j
  | [], ps, h => by cases h; exact ⟨rfl, by simp⟩
  | s :: ss, ps, h => by
    unfold subordinates at h
    cases h1 : received (W.fetch ep e s) with
    | error x => rw [h1] at h; cases h
    | ok j =>
      rw [h1, ok_bind] at h
      cases h2 : verifyWith C e ks j with
      | error x => rw [h2] at h; cases h
      | ok p =>
        rw [h2, ok_bind] at h
        cases h3 : subordinates C W ep e ks ss with
        | error x => rw [h3] at h; cases h
        | ok rest =>
          rw [h3, ok_bind] at h
          cases h
          obtain ⟨i1, i2⟩ := subordinates_ok h3
          refine ⟨by simp [i1], ?_⟩
          intro s' p' hm
          rcases List.mem_cons.1 hm with hm | hm
          · cases hm
            obtain ⟨k1, k2, k3⟩ := verifyWith_ok h2
            exact ⟨j, received_ok h1, k1, k2, k3⟩
          · exact i2 s' p' hm

/-- C200 for display_entity.py: the configuration is the one found for the entity and issued by it; the statements are, one for each subordinate listed at the endpoint it names and in that order, what its fetch endpoint
answered about that subordinate, issued by the entity; all of it is signed with keys in the configuration. Missing, and false: that a statement is about the subordinate it is shown for. -/
theorem C200_display_partial (C : Crypto) (W : Collect.World) (list : Val → Except PyErr (List String)) (e : String) (d : Display) (h : display C W list e = .ok d) :
    ∃ j ks, W.config e = .ok (some j) ∧ j.payload = d.configuration ∧ d.configuration.iss = e ∧ d.configuration.jwks = some ks ∧ SignedWith C ks j ∧
      (d.statements = [] ∨ ∃ fe lep ep ss, Dict.get? d.configuration.md "federation_entity" = some fe ∧ fe.get? "federation_list_endpoint" = some lep ∧ fe.get? "federation_fetch_endpoint" = some ep ∧
        list lep = .ok ss ∧ d.statements.map (·.1) = ss ∧
        ∀ s p, (s, p) ∈ d.statements → ∃ j', W.fetch ep e s = .ok (some j') ∧ j'.payload = p ∧ p.iss = e ∧ SignedWith C ks j') := by
  unfold display at h
  cases h1 : received (W.config e) with
  | error x => rw [h1] at h; cases h
  | ok j =>
    rw [h1, ok_bind] at h
    cases h2 : keysIn j.payload with
    | error x => rw [h2] at h; cases h
    | ok ks =>
      rw [h2, ok_bind] at h
      have hks : j.payload.jwks = some ks := by
        unfold keysIn at h2
        split at h2
        · cases h2
        · rename_i ks' hk; cases h2; exact hk
      cases h3 : verifyWith C e ks j with
      | error x => rw [h3] at h; cases h
      | ok c =>
        rw [h3, ok_bind] at h
        obtain ⟨k1, k2, k3⟩ := verifyWith_ok h3
        subst k1
        cases h4 : endpointIn j.payload "federation_list_endpoint" with
        | error x => rw [h4] at h; cases h
        | ok le =>
          rw [h4, ok_bind] at h
          cases h5 : endpointIn j.payload "federation_fetch_endpoint" with
          | error x => rw [h5] at h; cases h
          | ok fe =>
            rw [h5, ok_bind] at h
            have none_case : d = ⟨j.payload, []⟩ → _ := fun hd => (⟨j, ks, received_ok h1, by rw [hd], by rw [hd]; exact k2, by rw [hd]; exact hks, k3, .inl (by rw [hd])⟩ :
              ∃ j ks, W.config e = .ok (some j) ∧ j.payload = d.configuration ∧ d.configuration.iss = e ∧ d.configuration.jwks = some ks ∧ SignedWith C ks j ∧
                (d.statements = [] ∨ ∃ fe lep ep ss, Dict.get? d.configuration.md "federation_entity" = some fe ∧ fe.get? "federation_list_endpoint" = some lep ∧ fe.get? "federation_fetch_endpoint" = some ep ∧
                  list lep = .ok ss ∧ d.statements.map (·.1) = ss ∧
                  ∀ s p, (s, p) ∈ d.statements → ∃ j', W.fetch ep e s = .ok (some j') ∧ j'.payload = p ∧ p.iss = e ∧ SignedWith C ks j'))
            cases le with
            | none => cases h; exact none_case rfl
            | some le =>
              cases fe with
              | none => cases h; exact none_case rfl
              | some ep =>
                simp only at h
                cases h6 : list le with
                | error x => rw [h6] at h; cases h
                | ok ss =>
                  rw [h6, ok_bind] at h
                  cases h7 : subordinates C W ep e ks ss with
                  | error x => rw [h7] at h; cases h
                  | ok ps =>
                    rw [h7, ok_bind] at h
                    cases h
                    obtain ⟨i1, i2⟩ := subordinates_ok h7
                    have hmd : ∃ md, j.payload.metadata = some md := by
                      unfold endpointIn at h4
                      split at h4
                      · cases h4
                      · rename_i md hm; exact ⟨md, hm⟩
                    obtain ⟨md, hmd⟩ := hmd
                    simp only [endpointIn, hmd, Except.ok.injEq, Option.filter_eq_some_iff, Option.bind_eq_some_iff] at h4 h5
                    obtain ⟨⟨fe, e1, e2⟩, -⟩ := h4
                    obtain ⟨⟨fe', e3, e4⟩, -⟩ := h5
                    rw [e1] at e3
                    cases e3
                    exact ⟨j, ks, received_ok h1, rfl, k2, hks, k3, .inr ⟨fe, le, ep, ss, by simpa [Payload.md, hmd] using e1, e2, e4, h6, i1, i2⟩⟩

/-- The first statement of a returned chain is issued by its anchor. -/
theorem anchor_first (V : Env) (st : State) (e : String) (out : List TrustChain) (h : (getVerified V st e).1 = .ok out) (tc : TrustChain) (ht : tc ∈ out) :
    ∃ p ps, tc.verified = p :: ps ∧ p.iss = tc.anchor := by
  obtain ⟨f, ec, tcs, -, h2, h3, -⟩ := getVerified_ok h
  obtain ⟨tc0, hm, ha⟩ := (applyPolicies_mem h3).1 tc ht
  have same : tc.verified = tc0.verified ∧ tc.anchor = tc0.anchor := by
    obtain ⟨_, _, _, _, ⟨_, _, _, rfl⟩ | ⟨_, _, _, rfl⟩⟩ := applyToChain_ok.1 ha <;> exact ⟨rfl, rfl⟩
  obtain ⟨pre, c, post, -, hv⟩ := (verifyChains_mem h2 tc0).1 hm
  obtain ⟨-, d2, -, -⟩ := C42_describes_chain _ _ _ _ hv
  obtain ⟨j, rest, k, c1, c2, -⟩ := C35_known_anchor _ _ _ _ hv
  rw [same.1, same.2, d2, c1, c2]
  exact ⟨j.payload, (statements rest).map (·.payload), by simp [statements], rfl⟩

/-- C200 for get_trust_chains.py, in any federation: every chain printed is one verified for the entity, up to the anchor it is said to end in; its statements are printed from the configuration found for the entity up to
a statement issued by the anchor, each under a heading that names its issuer and subject. -/
theorem C200_chains (V : Env) (st : State) (e : String) (out : List Printed) (h : chains V st e = .ok out) (pr : Printed) (hp : pr ∈ out) :
    ∃ tcs tc, (getVerified V st e).1 = .ok tcs ∧ tc ∈ tcs ∧ Provenance V st e tc ∧ pr.anchor = tc.anchor ∧ pr.nodes.map (·.2) = tc.verified.reverse ∧
      (∃ hd ec rest, pr.nodes = (hd, ec.payload) :: rest ∧ Collect.ConfigFrom V.L.toCrypto V.W st.coll e ec) ∧
      (∃ hd p, pr.nodes.getLast? = some (hd, p) ∧ p.iss = pr.anchor) ∧
      ∀ hd p, (hd, p) ∈ pr.nodes → (∀ x, hd = .configuration x → p.iss = x ∧ p.sub = x) ∧ ∀ x y, hd = .statement x y → p.sub = x ∧ p.iss = y ∧ x ≠ y := by
  unfold chains at h
  cases hg : (getVerified V st e).1 with
  | error x => rw [hg] at h; cases h
  | ok tcs =>
    rw [hg] at h
    cases h
    obtain ⟨tc, ht, rfl⟩ := List.mem_map.1 hp
    have pv := C76_provenance V st e tcs hg tc ht
    refine ⟨tcs, tc, rfl, ht, pv, rfl, by simp [printed, Function.comp_def], ?_, ?_, ?_⟩
    · obtain ⟨ec, p, h1, -, -, h2⟩ := pv.path
      refine ⟨headingOf ec.payload, ec, ((p.map (·.2)).map (·.payload)).map fun p => (headingOf p, p), ?_, h1⟩
      simp [printed, h2]
    · have hi := anchor_first V st e tcs hg tc ht
      obtain ⟨p, ps, h1, h2⟩ := hi
      refine ⟨headingOf p, p, ?_, h2⟩
      simp [printed, h1]
    · intro hd p hm
      simp only [printed, List.mem_map] at hm
      obtain ⟨q, -, hq⟩ := hm
      cases hq
      unfold headingOf
      by_cases hs : p.iss = p.sub
      · rw [if_pos hs]
        refine ⟨fun x hx => ?_, fun x y hx => by cases hx⟩
        cases hx
        exact ⟨rfl, hs.symm⟩
      · rw [if_neg hs]
        refine ⟨fun x hx => (by cases hx), fun x y hx => ?_⟩
        cases hx
        exact ⟨rfl, rfl, fun hc => hs hc.symm⟩

/-! ### In a well-run federation -/

/-- C200 in a well-run federation: get_entity_configuration.py shows, for every member, what the member publishes about itself. -/
theorem C200_configuration_well_run {L : Lib} {P : Collect.Params} {F : Collect.Federation} {now : Int} {stopAt : String} {jar : KeyJar} {D : Directory} {S : String → Prop} {rank : String → Nat}
    (w : WellRun L P F now stopAt jar D S rank) {e : String} (he : S e) : configuration L.toCrypto (F.at now) e = .ok (D.cfg e).payload ∧ (D.cfg e).payload.iss = e := by
  refine ⟨?_, (w.self e he).1⟩
  have h1 : (F.at now).config e = .ok (some (D.cfg e)) := w.config e he
  obtain ⟨k, k1, k2, k3⟩ := w.selfSigned e he
  obtain ⟨-, ks, h3, h4⟩ := w.self e he
  have h2 : ((ks.filter (L.usable (D.cfg e))).any (L.verifies (D.cfg e)) && L.current now (D.cfg e)) = true := by
    rw [Bool.and_eq_true, List.any_eq_true]
    exact ⟨⟨k, List.mem_filter.2 ⟨h4 k k1, k2⟩, k3⟩, w.current e he⟩
  unfold configuration
  rw [h1]
  simp only [received, ok_bind, selfVerify, h3]
  exact if_pos h2

/-- C200 in a well-run federation: get_subordinate_statement.py shows, for a member and any authority it names, the statement of that authority about the member, signed with a key the authority publishes. -/
theorem C200_statement_well_run {L : Lib} {P : Collect.Params} {F : Collect.Federation} {now : Int} {stopAt : String} {jar : KeyJar} {D : Directory} {S : String → Prop} {rank : String → Nat}
    (w : WellRun L P F now stopAt jar D S rank) {e a : String} {hs : List String} (he : S e) (hh : (D.cfg e).payload.hints = some hs) (ha : a ∈ hs) :
    statement L.toCrypto (F.at now) a e = .ok (D.about a e).payload ∧ (D.about a e).payload.iss = a ∧ (D.about a e).payload.sub = e ∧
      ∃ ks, (D.cfg a).payload.jwks = some ks ∧ SignedWith L.toCrypto ks (D.about a e) := by
  obtain ⟨i1, i2, -, -⟩ := w.stated e hs a he hh ha
  have hsa := ((w.hints e hs he hh).2 a ha).1
  obtain ⟨k, k1, k2, k3⟩ := w.signed e hs a he hh ha
  obtain ⟨-, ks, h5, h6⟩ := w.self a hsa
  refine ⟨?_, i1, i2, ks, h5, k, h6 k k1, k2, k3⟩
  obtain ⟨fe, ep, f1, f2, -, f4⟩ := w.served e hs a he hh ha
  have hm : ∃ md, (D.cfg a).payload.metadata = some md ∧ Dict.get? md "federation_entity" = some fe := by
    unfold Payload.md at f1
    cases hmd : (D.cfg a).payload.metadata with
    | none => rw [hmd] at f1; cases f1
    | some md => rw [hmd] at f1; exact ⟨md, rfl, f1⟩
  obtain ⟨md, m1, m2⟩ := hm
  have h4 : (F.at now).fetch ep a e = .ok (some (D.about a e)) := f4
  unfold statement
  rw [(C200_configuration_well_run w hsa).1, ok_bind]
  simp only [fetchEndpointOf, federationEntity, m1, Dict.get, m2, ok_bind, f2, h4, received]
  rfl

/-- C200 in a federation whose members run this software: list_subordinates.py asks the list endpoint the entity states, with a question to which the endpoint answers with all entities registered with it. -/
theorem C200_list (V : Env) (J : Jose) (member : String → Option Member) (host : Val → Option String) (issued now : Int) (st : State) (h : List Collect.FRun) (rank : String → Nat)
    (e : String) (m : Member) (text : Val → String) (ep : String) (r : Runs V J member host issued now st h rank) (he : member e = some m) (hmd : m.authority.metadata.truthy = true)
    (hs : States m "federation_entity" "federation_list_endpoint" (.str ep)) (hep : ep ≠ "") :
    ∃ q, askList V (publishedMetadata member) text st e = .ok q ∧ q.target = ep ∧
      ∀ (K : SetEnum String) (W : Server.ListWorld) (ext : Bool), Server.list K W ext m.authority.subordinate (Client.Requests.listAsked q.query) = .ok (.ids m.authority.subordinate.keys) := by
  have h1 := C168_endpoint V J member host issued now st h rank e m _ _ _ r he hmd hs
  refine ⟨Client.Requests.listRequest text ep [], ?_, rfl, fun K W ext => (Client.Requests.C145_all text K W ext _ ep [] (fun k _ v hv => by cases hv)).2⟩
  unfold askList
  rw [h1]
  simp [hep]

/-- C200 in a federation whose members run this software: get_trust_mark_status.py asks the status endpoint the issuer states, with a question to which the issuer answers whether the subject has the mark. -/
theorem C200_status (V : Env) (J : Jose) (member : String → Option Member) (host : Val → Option String) (issued now : Int) (st : State) (h : List Collect.FRun) (rank : String → Nat)
    (issuer : String) (m : Member) (text : Val → String) (ht : Client.Requests.Faithful text) (ep id sub : String) (r : Runs V J member host issued now st h rank) (he : member issuer = some m)
    (hmd : m.authority.metadata.truthy = true) (hs : States m "federation_entity" "federation_trust_mark_status_endpoint" (.str ep)) (hep : ep ≠ "") :
    ∃ q, askStatus V (publishedMetadata member) text st issuer id sub = .ok q ∧ q.target = ep ∧
      ∀ (unpack : String → Except PyErr TrustMarks.Info) (is : TrustMarks.Issuer) (t : Int),
        is.status t (Client.Requests.statusAsked unpack q.query) = is.status t { sub := some sub, trustMarkId := some id } := by
  have h1 := C168_endpoint V J member host issued now st h rank issuer m _ _ _ r he hmd hs
  unfold askStatus
  rw [h1]
  simp only
  refine ⟨⟨ep, Client.Requests.pick text ["sub", "trust_mark_id", "iat"] [("trust_mark_id", .str id), ("sub", .str sub)]⟩, ?_, rfl, ?_⟩
  · simp [Client.Requests.statusRequest, Client.Requests.endpointOf, hep, Dict.get?_cons]
  · intro unpack is t
    simp [Client.Requests.statusAsked, Client.Requests.pick_get, Dict.get?_cons, ht sub, ht id, TrustMarks.Issuer.status, TrustMarks.StatusRequest.askedId]
    by_cases h0 : id = "" <;> simp [h0]

/-! ### Cases -/

example : display Ex.C { Ex.W none with fetch := fun _ _ s => .ok (some (Ex.about s)) } (fun _ => .ok ["https://a", "https://b"]) "https://ta" =
    .ok ⟨Ex.ta.payload, [("https://a", (Ex.about "https://a").payload), ("https://b", (Ex.about "https://b").payload)]⟩ ∧
  display Ex.C (Ex.W none) (fun _ => .ok []) "https://mirror" = .error .badSignature ∧
  display Ex.C (Ex.W (some Ex.forged)) (fun _ => .ok ["https://leaf"]) "https://ta" = .error .badSignature := by decide +kernel
example : statement Ex.C (Ex.W (some (Ex.about "https://leaf"))) "https://ta" "https://leaf" = .ok (Ex.about "https://leaf").payload := by decide +kernel
example : (chains (Chains.Ex.env (Chains.Ex.W 0)) Chains.Ex.st "https://leaf").toOption.map (fun ps => ps.map fun p => (p.anchor, p.nodes.map (·.1))) =
    some [("https://ta", [.configuration "https://leaf", .statement "https://leaf" "https://im", .statement "https://im" "https://ta"])] := by decide +kernel
/-- The federation of C109 is well run, so the scripts show the statements of it. -/
example : statement Chains.Ex.L.toCrypto (Chains.Ex.F109.at 0) "https://im" "https://leaf" = .ok (Chains.Ex.D109.about "https://im" "https://leaf").payload :=
  (C200_statement_well_run Chains.Ex.wellRun109 (hs := ["https://im", "https://im2"]) (by unfold Chains.Ex.S109; decide) (by decide) (by decide)).1
/-- The trust anchor of C168 states both endpoints, and the theorems apply. -/
example : (∃ q, askList Chains.Ex.env168 (publishedMetadata Chains.Ex.member168) Client.Requests.Ex.text Chains.Ex.st "https://ta" = .ok q ∧ q.target = "https://ta/list") ∧
    ∃ q, askStatus Chains.Ex.env168 (publishedMetadata Chains.Ex.member168) Client.Requests.Ex.text Chains.Ex.st "https://ta" "tm" "https://rp" = .ok q ∧ q.target = "https://ta/status" := by
  obtain ⟨q, h1, h2, -⟩ := C200_list Chains.Ex.env168 Chains.Ex.J Chains.Ex.member168 Chains.Ex.host133 0 100 Chains.Ex.st [] Chains.Ex.rank109 "https://ta" Chains.Ex.mTa168 Client.Requests.Ex.text "https://ta/list"
    Chains.Ex.runs168 rfl rfl ⟨_, _, rfl, rfl, rfl⟩ (by decide)
  obtain ⟨q', h1', h2', -⟩ := C200_status Chains.Ex.env168 Chains.Ex.J Chains.Ex.member168 Chains.Ex.host133 0 100 Chains.Ex.st [] Chains.Ex.rank109 "https://ta" Chains.Ex.mTa168 Client.Requests.Ex.text
    Client.Requests.Ex.text_faithful "https://ta/status" "tm" "https://rp" Chains.Ex.runs168 rfl rfl ⟨_, _, rfl, rfl, rfl⟩ (by decide)
  exact ⟨⟨q, h1, h2⟩, q', h1', h2'⟩

end Fed.Setup.Tools
