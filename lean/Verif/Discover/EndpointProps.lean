import Verif.Discover.Endpoint
import Verif.Chains.Props
/-
Properties C101-C103: endpoints and configurations of other entities.
-/
namespace Fed.Discover
open Fed Fed.Verify Fed.Chains

/-! ## C101 -/

/-- The value of an endpoint is stated in what the entity publishes, signed with a key held for `by_`. -/
def Published (V : Env) (jar : KeyJar) (entity by_ name : String) (v : Val) : Prop :=
  ∃ j k fe, V.W.config entity = .ok (some j) ∧ j.payload.iss = by_ ∧ k ∈ jar.keysOf by_ ∧ V.L.usable j k = true ∧ V.L.verifies j k = true ∧
    j.payload.md.get? "federation_entity" = some fe ∧ fe.get? name = some v

/-- C101 in full. (cryptojwt accepts no token without a key.) -/
def C101_full : Prop :=
  ∀ (V : Env) (noKeys : Jws → Bool) (priority : List String) (st : State) (entity name : String) (v : Val), (∀ j, noKeys j = false) →
    (verifiedEndpoint V noKeys priority st entity name).1 = .ok (some v) →
    (entity ∈ V.P.anchors ∧ Published V st.jar entity entity name v) ∨
    (entity ∉ V.P.anchors ∧ ∃ out tc fe, (getVerified V st entity).1 = .ok out ∧ tc ∈ out ∧ tc.metadata.get? "federation_entity" = some (.obj fe) ∧ Dict.get? fe name = some v)

namespace Ex
open _root_.Fed.Chains.Ex (env conf)
/-- Under the name of the trust anchor, the configuration of somebody else is published, whose key is known too. -/
def W : Collect.World where
  now := 0
  config
    | "https://ta" => .ok (some (conf "https://im" none [("federation_entity", [("federation_list_endpoint", .str "evil")])]))
    | _ => .error .missingPage
  fetch _ _ _ := .error .missingPage
def st : State := { jar := [("https://ta", [1]), ("https://im", [2])] }
end Ex

/-- C101 does not hold: for an anchor, the signature is checked with the keys of whoever the document names as its issuer. -/
theorem C101_other_issuer_violation : ¬ C101_full := by
  intro h
  rcases h (Chains.Ex.env Ex.W) (fun _ => false) [] Ex.st "https://ta" "federation_list_endpoint" (.str "evil") (fun _ => rfl) (by decide +kernel) with
    ⟨-, j, k, fe, h1, h2, -⟩ | ⟨h, -⟩
  · have : Ex.W.config "https://ta" = .ok (some j) := h1
    simp only [Ex.W, Except.ok.injEq, Option.some.injEq] at this
    subst this
    exact absurd h2 (by decide)
  · exact h (by decide)

/-- C101 as far as it holds: for an anchor, the endpoint is stated in what it publishes, signed with a key held for the issuer that names; otherwise it is in the metadata of a verified chain for the
entity, after policies. Missing: that the issuer is the anchor. -/
theorem C101_endpoint_partial (V : Env) (noKeys : Jws → Bool) (priority : List String) (st : State) (entity name : String) (v : Val) (hno : ∀ j, noKeys j = false)
    (h : (verifiedEndpoint V noKeys priority st entity name).1 = .ok (some v)) :
    (entity ∈ V.P.anchors ∧ ∃ issuer, Published V st.jar entity issuer name v) ∨
    (entity ∉ V.P.anchors ∧ ∃ out tc fe, (getVerified V st entity).1 = .ok out ∧ tc ∈ out ∧ tc.metadata.get? "federation_entity" = some (.obj fe) ∧ Dict.get? fe name = some v) := by
  unfold verifiedEndpoint at h
  by_cases ha : entity ∈ V.P.anchors
  · refine Or.inl ⟨ha, ?_⟩
    rw [if_pos ha] at h
    unfold anchorStatement at h
    cases hc : V.W.config entity with
    | error e => rw [hc] at h; cases h
    | ok d =>
      cases d with
      | none => rw [hc] at h; cases h
      | some j =>
        rw [hc] at h
        simp only [hno, Bool.false_eq_true, if_false] at h
        by_cases he : (verifyKeys V.L st.jar j).isEmpty
        · rw [if_pos he] at h; cases h
        · rw [if_neg he] at h
          by_cases hv : (verifyKeys V.L st.jar j).any (V.L.verifies j)
          · rw [if_pos hv] at h
            obtain ⟨k, hk, hv⟩ := List.any_eq_true.1 hv
            simp only [verifyKeys, List.mem_filter] at hk
            simp only at h
            cases hm : j.payload.metadata with
            | none => rw [hm] at h; cases h
            | some md =>
              rw [hm] at h
              simp only at h
              cases hfe : Dict.get? md "federation_entity" with
              | none => rw [hfe] at h; cases h
              | some fe =>
                rw [hfe] at h
                simp only [Except.ok.injEq] at h
                exact ⟨_, j, k, fe, hc, rfl, hk.1, hk.2, hv, by simpa [Payload.md, hm] using hfe, h⟩
          · rw [if_neg hv] at h; cases h
  · refine Or.inr ⟨ha, ?_⟩
    rw [if_neg ha] at h
    generalize getVerified V st entity = r at h ⊢
    obtain ⟨r, st'⟩ := r
    cases r with
    | error e => cases h
    | ok out =>
      simp only at h ⊢
      cases hp : pickTrustChain priority out with
      | error e => rw [hp] at h; cases h
      | ok tc =>
        rw [hp] at h
        simp only at h
        have hne : out ≠ [] := by rintro rfl; unfold pickTrustChain at hp; cases hp
        obtain ⟨tc', h1, h2, -⟩ := C46_fresh_partial priority out hne
        rw [hp] at h1
        cases h1
        cases hg : Dict.get? tc.metadata "federation_entity" with
        | none => rw [hg] at h; cases h
        | some x =>
          rw [hg] at h
          cases x with
          | obj fe =>
            simp only [Except.ok.injEq] at h
            exact ⟨out, tc, fe, rfl, h2, hg, h⟩
          | _ => cases h

example : (verifiedEndpoint (Chains.Ex.env (Chains.Ex.W 0)) (fun _ => false) [] Chains.Ex.st "https://ta" "federation_fetch_endpoint").1 = .ok (some (.str "fetch")) ∧
    (verifiedEndpoint (Chains.Ex.env (Chains.Ex.W 0)) (fun _ => false) [] Chains.Ex.st "https://im" "federation_fetch_endpoint").1 = .ok (some (.str "fetch")) ∧
    (verifiedEndpoint (Chains.Ex.env (Chains.Ex.W 0)) (fun _ => false) [] Chains.Ex.st "https://leaf" "federation_fetch_endpoint").1 = .ok none := by decide +kernel

/-! ## C102 -/

/-- C102 in full: a list request goes to the endpoint the caller gives or to one that was found for the entity. -/
def C102_full : Prop :=
  ∀ (text : Option Val → String) (V : Env) (noKeys : Jws → Bool) (priority : List String) (st : State) (endpoint entity url : String),
    (listUrl text V noKeys priority st endpoint entity).1 = .ok url →
    url = endpoint ∨ ∃ v, (verifiedEndpoint V noKeys priority st entity "federation_list_endpoint").1 = .ok (some v) ∧ url = text (some v)

/-- C102 does not hold: for an entity that has no list endpoint, the request is sent to `None`. -/
theorem C102_none_violation : ¬ C102_full := by
  intro h
  rcases h (fun v => if v = none then "None" else "endpoint") (Chains.Ex.env (Chains.Ex.W 0)) (fun _ => false) [] Chains.Ex.st "" "https://leaf" "None" (by decide +kernel) with h | ⟨v, h, -⟩
  · exact absurd h (by decide)
  · have h2 : (verifiedEndpoint (Chains.Ex.env (Chains.Ex.W 0)) (fun _ => false) [] Chains.Ex.st "https://leaf" "federation_list_endpoint").1 = .ok none := by decide +kernel
    rw [h2] at h
    cases h

/-- C102 as far as it holds: if the caller names no endpoint and one was found, it goes there. Missing: when none was found. -/
theorem C102_found_partial (text : Option Val → String) (V : Env) (noKeys : Jws → Bool) (priority : List String) (st : State) (endpoint entity url : String)
    (h : (listUrl text V noKeys priority st endpoint entity).1 = .ok url) :
    (endpoint ≠ "" ∧ url = endpoint) ∨
    (endpoint = "" ∧ ∃ o, (verifiedEndpoint V noKeys priority st entity "federation_list_endpoint").1 = .ok o ∧ url = text o) := by
  unfold listUrl at h
  by_cases he : endpoint = ""
  · rw [if_neg (by simpa using he)] at h
    refine Or.inr ⟨he, ?_⟩
    generalize verifiedEndpoint V noKeys priority st entity "federation_list_endpoint" = r at h ⊢
    obtain ⟨r, st'⟩ := r
    cases r with
    | error e => cases h
    | ok o =>
      simp only [Except.ok.injEq] at h
      exact ⟨o, rfl, h.symm⟩
  · rw [if_pos he] at h
    simp only [Except.ok.injEq] at h
    exact Or.inl ⟨he, h.symm⟩

/-! ## C103 -/

/-- C103 in full: what is taken as the configuration of an entity is what the entity publishes, that is what is at the well-known location below its identifier. -/
def C103_full : Prop :=
  ∀ (parse : String → Parsed) (doc : String → Except Collect.NetErr Doc) (entity : String) (d : Doc),
    doc (tenantWellKnown (parse entity)) = .ok d → entityConfiguration parse doc entity = .ok d

namespace Ex
def parse (e : String) : Parsed := if e = "https://host/tenant" then ⟨"https://host", "/tenant"⟩ else ⟨e, ""⟩
def tenantDoc : Jws := Chains.Ex.conf "https://host/tenant" none []
def hostDoc : Jws := Chains.Ex.conf "https://host" none []
/-- A host that has a configuration itself and one tenant. -/
def doc (host : Bool) (url : String) : Except Collect.NetErr Doc :=
  if url = "https://host/tenant/.well-known/openid-federation" then .ok (some tenantDoc)
  else if url = "https://host/.well-known/openid-federation" ∧ host then .ok (some hostDoc) else .error .missingPage
end Ex

/-- C103 does not hold: for an entity with a path in its identifier, the configuration of the host takes precedence. -/
theorem C103_tenant_violation : ¬ C103_full := by
  intro h
  have := h Ex.parse (Ex.doc true) "https://host/tenant" (some Ex.tenantDoc) (by decide)
  exact absurd this (by decide)

/-- C103 as far as it holds: what is taken is what the entity publishes, if there is no path in its identifier, or if its host publishes no configuration. -/
theorem C103_published_partial (parse : String → Parsed) (doc : String → Except Collect.NetErr Doc) (entity : String)
    (h : (parse entity).path = "" ∨ doc (wellKnown (parse entity)) = .error .missingPage) :
    entityConfiguration parse doc entity = doc (tenantWellKnown (parse entity)) := by
  have same : (parse entity).path = "" → tenantWellKnown (parse entity) = wellKnown (parse entity) := by
    intro h
    simp [tenantWellKnown, wellKnown, h]
  unfold entityConfiguration
  cases hd : doc (wellKnown (parse entity)) with
  | ok d =>
    rcases h with h | h
    · rw [same h, hd]
    · rw [hd] at h; cases h
  | error e =>
    cases e with
    | missingPage =>
      simp only
      by_cases ht : tenantWellKnown (parse entity) = wellKnown (parse entity)
      · rw [if_neg (by simpa using ht), ht, hd]
      · rw [if_pos ht]
    | _ =>
      rcases h with h | h
      · rw [same h, hd]
      · rw [hd] at h; cases h

example : entityConfiguration Ex.parse (Ex.doc false) "https://host/tenant" = .ok (some Ex.tenantDoc) ∧
    entityConfiguration Ex.parse (Ex.doc true) "https://host" = .ok (some Ex.hostDoc) := by decide

end Fed.Discover
