import Verif.Chains.Model
/-
Model of /repo/src/fedservice/entity/function/trust_anchor.py, which finds the endpoints of other entities, of the list request
(/repo/src/fedservice/entity/client/list.py), and of how the configuration of an entity is located
(/repo/src/fedservice/entity/client/entity_configuration.py 24-31, trust_chain_collector.py 127-166).
-/
namespace Fed.Discover
open Fed Fed.Verify Fed.Chains

/-- `get_verified_trust_anchor_statement` (trust_anchor.py 9-15). `noKeys`: what `verify_compact` does with a token when no key is given to it (left open). A document that is no JWS gives `None`,
whose attribute `jwt` raises AttributeError. -/
def anchorStatement (V : Env) (noKeys : Jws → Bool) (jar : KeyJar) (entity : String) : Except PyErr Payload :=
  match V.W.config entity with
  | .error e => .error e.toPy
  | .ok none => .error .attributeError
  | .ok (some j) =>
    let keys := verifyKeys V.L jar j
    if keys.isEmpty then (if noKeys j then .ok j.payload else .error .badSignature)
    else if keys.any (V.L.verifies j) then .ok j.payload else .error .badSignature

/-- `get_verified_endpoint` (trust_anchor.py 18-35). `priority` is the federation entity's `tr_priority`. A `federation_entity` member that is no dictionary has no `get`; `None` raises the same error. -/
def verifiedEndpoint (V : Env) (noKeys : Jws → Bool) (priority : List String) (st : State) (entity name : String) : Except PyErr (Option Val) × State :=
  if entity ∈ V.P.anchors then
    match anchorStatement V noKeys st.jar entity with
    | .error e => (.error e, st)
    | .ok p =>
      match p.metadata with
      | none => (.ok none, st)
      | some md =>
        match Dict.get? md "federation_entity" with
        | none => (.ok none, st)
        | some fe => (.ok (Dict.get? fe name), st)
  else
    match getVerified V st entity with
    | (.error e, st) => (.error e, st)
    | (.ok tcs, st) =>
      match pickTrustChain priority tcs with
      | .error e => (.error e, st)
      | .ok tc =>
        match Dict.get? tc.metadata "federation_entity" with
        | none => (.ok none, st)
        | some (.obj fe) => (.ok (Dict.get? fe name), st)
        | some _ => (.error .attributeError, st)

/-- Where a list request is sent, without the query part (client/list.py 46-58). `text v` is the text of a value in an f-string. -/
def listUrl (text : Option Val → String) (V : Env) (noKeys : Jws → Bool) (priority : List String) (st : State) (endpoint entity : String) : Except PyErr String × State :=
  if endpoint ≠ "" then (.ok endpoint, st)
  else
    match verifiedEndpoint V noKeys priority st entity "federation_list_endpoint" with
    | (.error e, st) => (.error e, st)
    | (.ok v, st) => (.ok (text v), st)

/-- What `urlparse` gives of an entity id: everything before the path, and the path. -/
structure Parsed where
  origin : String
  path : String
deriving DecidableEq, Repr

/-- `construct_well_known_url` (entity_configuration.py 24-26). -/
def wellKnown (p : Parsed) : String := p.origin ++ "/.well-known/openid-federation"

/-- `construct_tenant_well_known_url` (entity_configuration.py 29-31). -/
def tenantWellKnown (p : Parsed) : String := p.origin ++ p.path ++ "/.well-known/openid-federation"

/-- `get_entity_configuration` (trust_chain_collector.py 127-166), over what is found at URLs. -/
def entityConfiguration (parse : String → Parsed) (doc : String → Except Collect.NetErr Doc) (entity : String) : Except Collect.NetErr Doc :=
  match doc (wellKnown (parse entity)) with
  | .error .missingPage =>
    if tenantWellKnown (parse entity) ≠ wellKnown (parse entity) then doc (tenantWellKnown (parse entity)) else .error .missingPage
  | r => r

end Fed.Discover
