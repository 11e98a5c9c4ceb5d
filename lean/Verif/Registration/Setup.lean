import Verif.Registration.Request
/-
Model of the registration proper, /repo/src/fedservice/appserver/oauth2/registration.py: `do_client_registration`, `client_registration_setup`,
`step2_process_request`; and of `import_client_keys`, /repo/src/fedservice/appserver/__init__.py.
-/
namespace Fed.Registration
open Fed

/-- Where keys of a client come from. -/
inductive KeySource
  | url (u : Val)
  | jwks (ks : Val)
  | secret (s : String)
deriving DecidableEq, Repr

/-- What an authorization server keeps: the client database and the keys recorded per client. -/
structure Server where
  cdb : Dict (Dict Val) := []
  keys : Dict (List KeySource) := []
deriving DecidableEq, Repr

/-- Record a source of keys for a client. -/
def Server.addKeys (S : Server) (client : String) (k : KeySource) : Server :=
  { S with keys := S.keys.set client ((S.keys.get? client).getD [] ++ [k]) }

/-- What the registration uses besides the request and the database. Left open (idpyoidc and randomness): `verifyMsg`: does `request.verify()` pass;
`genId`: the client id generator, given the reserved ids; `salt`, `secret`, `now`, `secretExpires` (`client_secret_expiration_time`, 0 for never);
`verifyUrl`: idpyoidc's `verify_url`; `canSign`: does the algorithm need no key of the server's own, or is there one (registration.py 283-291);
`fits`: can the response message be made of the arguments; `comb`: idpyoidc's `comb_uri`; `splitHash`: `uri.split("#")`. -/
structure RegEnv where
  U : Urls
  A : Capabilities
  E : SetEnum Val
  verifyMsg : Dict Val → Bool
  genId : List String → String
  salt : String
  secret : String → String
  now : Int
  secretExpires : Int
  verifyUrl : Val → Val → Bool
  canSign : Val → Bool
  responseParams : List String
  fits : Dict Val → Bool
  comb : Dict Val → Dict Val
  splitHash : String → List String

/-- `import_client_keys` (appserver/__init__.py 40-53): a signed_jwks_uri is not fetched but keeps the other two from being used. Simplification: importing
does not fail. -/
def importClientKeys (info : Dict Val) (S : Server) (client : String) : Server :=
  if ((info.get? "signed_jwks_uri").getD .null).truthy then S
  else if ((info.get? "jwks_uri").getD .null).truthy then S.addKeys client (.url ((info.get? "jwks_uri").getD .null))
  else if ((info.get? "jwks").getD .null).truthy then S.addKeys client (.jwks ((info.get? "jwks").getD .null))
  else S

/-- `for key, val in request.items(): if key not in ignore: _cinfo[key] = val` (registration.py 223-225). -/
def copyClaims (ignore : List String) (request cinfo : Dict Val) : Dict Val :=
  cinfo.update (request.filter fun p => p.1 ∉ ignore)

/-- post_logout_redirect_uri (registration.py 227-235). -/
def postLogout (R : RegEnv) (request cinfo : Dict Val) : Except PyErr (Dict Val) :=
  match request.get? "post_logout_redirect_uri" with
  | none => .ok cinfo
  | some v =>
    if v.truthy then
      match v with
      | .str u => do
        let p ← R.U.parse u
        if p.fragment ≠ "" then .error .valueError
        else do
          let (base, query) ← R.U.split u
          .ok (cinfo.set "post_logout_redirect_uri" (.arr [.str base, query]))
      | _ => .error .typeError
    else .ok cinfo

/-- Verified redirect URIs as a value: a list of pairs. -/
def urisVal (rs : List (String × Val)) : Val := .arr (rs.map fun r => .arr [.str r.1, r.2])

/-- redirect_uris (registration.py 237-242). -/
def redirectUris (R : RegEnv) (request cinfo : Dict Val) : Except PyErr (Dict Val) :=
  if request.has "redirect_uris" then do
    let rs ← verifyRedirectUris R.U request
    .ok (cinfo.set "redirect_uris" (urisVal rs))
  else .ok cinfo

/-- One of the request_uris (registration.py 246-258). -/
def requestUri (R : RegEnv) : Val → Except PyErr Val
  | .str u => do
    let p ← R.U.parse u
    if p.query ≠ "" then .error .valueError
    else if p.fragment ≠ "" then .ok (.arr ((R.splitHash u).map .str))
    else .ok (.arr [.str u, .str ""])
  | _ => .error .typeError

def requestUriLoop (R : RegEnv) : List Val → Except PyErr (List Val)
  | [] => .ok []
  | u :: us => do
    let r ← requestUri R u
    let rs ← requestUriLoop R us
    .ok (r :: rs)

/-- request_uris (registration.py 244-259). -/
def requestUris (R : RegEnv) (request cinfo : Dict Val) : Except PyErr (Dict Val) :=
  match request.get? "request_uris" with
  | none => .ok cinfo
  | some v => do
    let us ← pyIter v
    let rs ← requestUriLoop R us
    .ok (cinfo.set "request_uris" (.arr rs))

/-- policy_uri, logo_uri, tos_uri (registration.py 261-269). Without redirect URIs KeyError. -/
def pageUris (R : RegEnv) (request : Dict Val) : List String → Dict Val → Except PyErr (Dict Val)
  | [], cinfo => .ok cinfo
  | item :: items, cinfo =>
    match request.get? item with
    | none => pageUris R request items cinfo
    | some v => do
      let uris ← cinfo.get "redirect_uris"
      if R.verifyUrl v uris then pageUris R request items (cinfo.set item v) else .error .valueError

/-- The signing algorithms asked for (registration.py 273-293): a claim the server has no key for is dropped. -/
def signingAlgs (R : RegEnv) (request : Dict Val) : List String → Dict Val → Except PyErr (Dict Val)
  | [], cinfo => .ok cinfo
  | item :: items, cinfo =>
    match request.get? item with
    | none => signingAlgs R request items cinfo
    | some v => do
      let claim ← R.A.preferred.get item
      match (R.A.support.get? claim).getD .null with
      | .null => do
        let cinfo ← cinfo.del item
        signingAlgs R request items cinfo
      | sup => do
        let b ← pyIn v sup
        if b && !R.canSign v then do
          let cinfo ← cinfo.del item
          signingAlgs R request items cinfo
        else signingAlgs R request items cinfo

/-- The claims `client_registration_setup` has `do_client_registration` ignore (registration.py 361). -/
def ignored : List String := ["redirect_uris", "policy_uri", "logo_uri", "tos_uri"]

/-- `Registration.do_client_registration` up to the keys (registration.py 216-293): the client information to store. Error messages returned and exceptions raised are not told
apart, as `step2_process_request` turns both into an error response. -/
def clientInfo (R : RegEnv) (request cinfo : Dict Val) : Except PyErr (Dict Val) := do
  let cinfo := copyClaims ignored request cinfo
  let cinfo ← postLogout R request cinfo
  let cinfo ← redirectUris R request cinfo
  let cinfo ← requestUris R request cinfo
  let cinfo ← pageUris R request ["policy_uri", "logo_uri", "tos_uri"] cinfo
  signingAlgs R request ["id_token_signed_response_alg", "userinfo_signed_response_alg"] cinfo

/-- Which id is used, and the request to go on with (registration.py 326-341). -/
def chooseId (R : RegEnv) (cdb : Dict (Dict Val)) (newId : Bool) (reserved : List String) (request : Dict Val) : Except PyErr (String × Dict Val) :=
  if newId then .ok (R.genId (if reserved.isEmpty then cdb.keys else reserved), request.filter fun p => p.1 ≠ "client_id")
  else
    match request.get? "client_id" with
    | some (.str c) => if c = "" then .error .valueError else .ok (c, request)
    | _ => .error .valueError

/-- The client information written before the request is looked at any further (registration.py 343-353). -/
def skeleton (R : RegEnv) (newId setSecret : Bool) (client : String) : Dict Val :=
  let c : Dict Val := [("client_id", .str client), ("client_salt", .str R.salt)]
  let c := if newId then c.set "client_id_issued_at" (.int R.now) else c
  if setSecret then
    let c := c.set "client_secret" (.str (R.secret client))
    if R.secretExpires ≠ 0 then c.set "client_secret_expires_at" (.int R.secretExpires) else c
  else c

/-- `Registration.client_registration_setup` (registration.py 300-386): the response. What was written stays when the request is refused. `rm_blanks` drops empty strings. -/
def setup (R : RegEnv) (S : Server) (request : Dict Val) (newId setSecret : Bool) (reserved : List String) : Except PyErr (String × Dict Val) × Server :=
  if R.verifyMsg request then
    match filterRequest R.A R.E (request.filter fun p => decide (p.2 ≠ .str "")) with
    | .error e => (.error e, S)
    | .ok request =>
      match chooseId R S.cdb newId reserved request with
      | .error e => (.error e, S)
      | .ok (client, request) =>
        let cinfo := skeleton R newId setSecret client
        let S := { S with cdb := S.cdb.set client cinfo }
        match clientInfo R request cinfo with
        | .error e => (.error e, S)
        | .ok cinfo =>
          let S := importClientKeys request S client
          let args := R.comb (cinfo.filter fun p => p.1 ∈ R.responseParams)
          if R.fits args then
            let S := if setSecret && decide (R.secret client ≠ "") then S.addKeys client (.secret (R.secret client)) else S
            (.ok (client, args), { S with cdb := S.cdb.set client cinfo })
          else (.error .valueError, S)
  else (.error .valueError, S)

end Fed.Registration
