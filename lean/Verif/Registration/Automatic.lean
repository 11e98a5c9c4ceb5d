import Verif.Registration.Setup
import Verif.Chains.Model
/-
Model of automatic registration: `do_automatic_registration`, `find_client_keys` and `client_authentication` of
/repo/src/fedservice/appserver/oauth2/authorization.py 48-121, /repo/src/fedservice/appserver/oauth2/pushed_authorization.py 45-114 and
/repo/src/fedservice/appserver/oidc/authorization.py 48-127.
-/
namespace Fed.Registration
open Fed

/-- The three endpoints. -/
inductive Kind
  | oauth2
  | pushed
  | oidc
deriving DecidableEq, Repr

/-- The entity type whose metadata is registered (oauth2/authorization.py 73-75, pushed_authorization.py 62, oidc/authorization.py 74-80). -/
def Kind.leafType : Kind → String
  | .oidc => "openid_relying_party"
  | _ => "oauth_client"

/-- What automatic registration uses. `supported`: the member client_registration_types_supported of the server's metadata; `register`: the non-federation
registration, that is, the client id in the response, if it is no error, and what the server keeps. For the oauth2 endpoints it is `setupRegister` below; for
the oidc endpoint it is idpyoidc's own and left open. -/
structure AutoEnv where
  V : Chains.Env
  supported : Option (List String)
  register : Server → Dict Val → Option String × Server

/-- `step2_process_request`/`process_request` of the oauth2 registration (/repo/src/fedservice/appserver/oauth2/registration.py 388-408, 428-430) and reading the client id from the response
(oauth2/authorization.py 84-87). For the authorization endpoint `newId` is the option new_client_id, by default off; the pushed authorization endpoint always has it on (its own option is always
empty, pushed_authorization.py 38, 70, so that the default of `process_request` is used). -/
def setupRegister (R : RegEnv) (newId : Bool) (S : Server) (request : Dict Val) : Option String × Server :=
  match setup R S request newId true [] with
  | (.error _, S) => (none, S)
  | (.ok (_, resp), S) =>
    match resp.get? "client_id" with
    | some (.str c) => (some c, S)
    | _ => (none, S)

/-- What an authorization server in a federation keeps. -/
structure AppState where
  fed : Chains.State
  srv : Server

/-- The trust chains used for a registration: those handed in with the request (leaf first; oauth2/authorization.py 53-56), else those collected. Simplification: the chain handed in is
a list of documents. -/
def registrationChains (A : AutoEnv) (fed : Chains.State) (entity : String) (provided : List Doc) : Except PyErr (List Verify.TrustChain) × Chains.State :=
  if provided.isEmpty then Chains.getVerified A.V fed entity
  else
    match Chains.verifyChains A.V.L [provided.reverse] fed.jar with
    | (.error e, jar) => (.error e, { fed with jar := jar })
    | (.ok tcs, jar) => (Chains.applyPolicies A.V.E A.V.K tcs, { fed with jar := jar })

/-- `do_automatic_registration` (oauth2/authorization.py 52-87, pushed_authorization.py 45-81, oidc/authorization.py 51-93); `none` = the registration was refused. `get_keys`
(/repo/src/fedservice/entity/utils.py 46-59) does what `import_client_keys` does. Simplifications: making the request message of the metadata succeeds for every
dictionary and changes nothing; `trust_chain_anchor` is not kept. -/
def doAutomatic (A : AutoEnv) (kind : Kind) (st : AppState) (entity : String) (provided : List Doc) : Except PyErr (Option String) × AppState :=
  match registrationChains A st.fed entity provided with
  | (.error e, fed) => (.error e, { st with fed := fed })
  | (.ok [], fed) => (.error .noTrustedChains, { st with fed := fed })
  | (.ok (tc :: tcs), fed) =>
    let fed := if kind = .oidc then { fed with store := fed.store.set entity (tc :: tcs) } else fed
    match tc.metadata.get? kind.leafType with
    | none => (.error .keyError, { st with fed := fed })
    | some (.obj md) =>
      match A.register (importClientKeys md st.srv entity) (Dict.set md "client_id" (.str entity)) with
      | (r, srv) => (.ok r, ⟨fed, srv⟩)
    | some _ => (.error .typeError, { st with fed := fed })

/-- `find_client_keys` (oauth2/authorization.py 48-50, oidc/authorization.py 48-49): idpyoidc asks for it when a request is signed by an unknown issuer. -/
def findClientKeys (A : AutoEnv) (kind : Kind) (st : AppState) (iss : String) : Except PyErr (Option String) × AppState := doAutomatic A kind st iss []

/-- `'automatic' in provider_info.get('client_registration_types_supported')`; only the oidc endpoint has a default. -/
def automaticSupported (kind : Kind) (supported : Option (List String)) : Except PyErr Bool :=
  match supported with
  | some l => .ok (decide ("automatic" ∈ l))
  | none => if kind = .oidc then .ok false else .error .typeError

/-- The client is known and stays as it is. -/
def Settled (kind : Kind) (info : Option (Dict Val)) : Bool :=
  match info with
  | none => false
  | some i => !(decide (kind = .oidc) && i.has "automatic_registered")

/-- Bookkeeping after the registration (oauth2/authorization.py 101-110, oidc/authorization.py 112-121): the client id that stands in the request from now on. The entries under both ids are
one and the same dictionary in Python. -/
def alsoKnownAs (kind : Kind) (cdb : Dict (Dict Val)) (cid rid : String) : Except PyErr Unit × Dict (Dict Val) :=
  if kind = .oidc then
    match cdb.get? rid with
    | none => (.error .keyError, cdb)
    | some info =>
      let info := info.set "automatic_registered" (.bool true)
      if rid = cid then (.ok (), cdb.set rid info)
      else (.ok (), (cdb.set rid (info.set "entity_id" (.str cid))).set cid (info.set "entity_id" (.str cid)))
  else if rid = cid then (.ok (), cdb)
  else
    match cdb.get? rid with
    | none => (.error .keyError, cdb)
    | some info => (.ok (), (cdb.set rid (info.set "entity_id" (.str cid))).set cid (info.set "entity_id" (.str cid)))

/-- `client_authentication` up to the call of idpyoidc's (oauth2/authorization.py 89-121, pushed_authorization.py 83-114, oidc/authorization.py 95-127): `.ok (some c)`: the request goes on to idpyoidc's client authentication
as one from client `c`; `.ok none`: unauthorized_client; `.error`: an exception. -/
def clientAuthentication (A : AutoEnv) (kind : Kind) (st : AppState) (cid : String) (provided : List Doc) : Except PyErr (Option String) × AppState :=
  if Settled kind (st.srv.cdb.get? cid) then (.ok (some cid), st)
  else
    match automaticSupported kind A.supported with
    | .error e => (.error e, st)
    | .ok false => (.ok none, st)
    | .ok true =>
      let st := { st with srv := { st.srv with cdb := st.srv.cdb.filter fun p => p.1 ≠ cid } }
      match doAutomatic A kind st cid provided with
      | (.error e, st) => (.error e, st)
      | (.ok none, st) => (.ok none, st)
      | (.ok (some rid), st) =>
        match alsoKnownAs kind st.srv.cdb cid rid with
        | (.error e, cdb) => (.error e, { st with srv := { st.srv with cdb := cdb } })
        | (.ok (), cdb) => (.ok (some rid), { st with srv := { st.srv with cdb := cdb } })

end Fed.Registration
