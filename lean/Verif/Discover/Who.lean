import Verif.Discover.Trawl
import Verif.TrustMarks.Verify
/-
Model of the who endpoint, /repo/src/fedservice/entity/server/who.py.
-/
namespace Fed.Discover
open Fed Fed.Verify Fed.Chains

/-- The attributes of the endpoint (who.py 24-33), and the id of the entity it belongs to. -/
structure Who where
  entityId : String
  entityType : String
  credentialType : String
  markId : String

/-- `Who.__init__` (who.py 24-33). -/
def whoInit (entityId : String) (entityType credentialType markId : Option String) : Who :=
  let t := entityType.getD "credential_issuer"
  if t = "credential_issuer" then
    ⟨entityId, t, credentialType.getD "PersonIdentificationData", markId.getD "http://dc4eu.example.com/PersonIdentificationData/se"⟩
  else ⟨entityId, t, "", markId.getD ""⟩

/-- `WhoRequest` (/repo/src/fedservice/message.py 588-593). -/
structure WhoRequest where
  entityType : Option String := none
  credentialType : Option String := none
  markId : Option String := none

/-- What `for x in v` goes through. -/
def iter : Val → Except PyErr (List Val)
  | .arr xs => .ok xs
  | .obj kvs => .ok (kvs.map fun p => .str p.1)
  | .str s => .ok (s.toList.map fun c => .str (String.singleton c))
  | _ => .error .typeError

/-- `for cs in …: if credential_type in cs["credential_definition"]["type"]: …; break` (who.py 72-75). -/
def anyCredential (ct : String) : List Val → Except PyErr Bool
  | [] => .ok false
  | cs :: rest => do
    let types ← TrustMarks.item (← TrustMarks.item cs "credential_definition") "type"
    if ← pyIn (.str ct) types then pure true else anyCredential ct rest

/-- Does the resolved metadata offer the credential type (who.py 69-75)? No metadata: `None[…]` raises TypeError. -/
def offersType (ct : String) : Option (Dict Val) → Except PyErr Bool
  | none => .error .typeError
  | some md => do
    let supported ← TrustMarks.item (← Dict.get md "openid_credential_issuer") "credentials_supported"
    anyCredential ct (← iter supported)

/-- The entities that offer the credential type (who.py 66-75). `_srv` is a dictionary keyed by distinct ids: the list of its keys. -/
def offering (V : Env) (ct : String) : List String → State → Except PyErr (List String) × State
  | [], st => (.ok [], st)
  | e :: es, st =>
    match getVerifiedMetadata V st e with
    | (.error err, st) => (.error err, st)
    | (.ok md, st) =>
      match offersType ct md with
      | .error err => (.error err, st)
      | .ok b =>
        match offering V ct es st with
        | (.error err, st) => (.error err, st)
        | (.ok rest, st) => (.ok (if b then e :: rest else rest), st)

/-- What trust mark verification needs, and the `trust_marks` of an entity configuration (`none`: it has none). -/
structure MarkEnv where
  T : TrustMarks.TmLib
  O : TrustMarks.StatusOracle
  marks : Payload → Option (List (Option TrustMarks.Tm))

/-- `for _mark in _ec["trust_marks"]: …` (who.py 91-95): the entity once for each mark with the id. A mark that does not verify is `None`, whose `get` raises AttributeError. -/
def holding (M : MarkEnv) (V : Env) (id entity : String) : List (Option TrustMarks.Tm) → State → Except PyErr (List String) × State
  | [], st => (.ok [], st)
  | m :: ms, st =>
    match TrustMarks.verifyTrustMark M.T V M.O st m true with
    | (.error err, st) => (.error err, st)
    | (.ok none, st) => (.error .attributeError, st)
    | (.ok (some p), st) =>
      match holding M V id entity ms st with
      | (.error err, st) => (.error err, st)
      | (.ok rest, st) => (.ok (if p.id = some id then entity :: rest else rest), st)

/-- The entities with the trust mark (who.py 77-95); `none`: the message that chains could not be collected. -/
def marked (M : MarkEnv) (V : Env) (id : String) : List String → State → Except PyErr (Option (List String)) × State
  | [], st => (.ok (some []), st)
  | e :: es, st =>
    match getTrustChains V st e with
    | (.error err, st) => (.error err, st)
    | (.ok [], st) => (.ok none, st)
    | (.ok (tc :: _), st) =>
      match tc.verified.getLast? with
      | none => (.error .indexError, st)
      | some ec =>
        match holding M V id e ((M.marks ec).getD []) st with
        | (.error err, st) => (.error err, st)
        | (.ok here, st) =>
          match marked M V id es st with
          | (.ok (some rest), st) => (.ok (some (here ++ rest)), st)
          | r => r

/-- The subordinates the walk starts with (who.py 46-59). A list request that gives nothing cannot be iterated over. -/
def startingPoints (N : Net) (V : Env) (W : Who) (anchor : String) : Except PyErr (List String) :=
  if anchor ≠ "" ∧ anchor = W.entityId then do
    match ← N.list W.entityId none false with
    | some l => pure l
    | none => throw .typeError
  else if anchor ≠ "" then
    if anchor ∉ V.P.anchors then .error .noTrustedClaims
    else do
      match ← N.list anchor none false with
      | some l => pure l
      | none => throw .typeError
  else .error .attributeError

/-- `Who.process_request` (who.py 35-98). Simplification: the state of the entity that the list requests and the walk change is not tracked. -/
def who (N : Net) (M : MarkEnv) (V : Env) (W : Who) (st : State) (req : WhoRequest) (anchor : String) : Except PyErr (Option (List String)) × State :=
  match (do gather (trawl N (req.entityType.getD W.entityType) V.fuel W.entityId) (← startingPoints N V W anchor)) with
  | .error err => (.error err, st)
  | .ok servers =>
    let ct := req.credentialType.getD W.credentialType
    match (if ct ≠ "" then offering V ct (V.K.enum servers) st else (.ok [], st)) with
    | (.error err, st) => (.error err, st)
    | (.ok srv, st) =>
      let id := req.markId.getD W.markId
      if id ≠ "" then marked M V id srv st else (.ok (some srv), st)

end Fed.Discover
