import Verif.Client.Register
/-
Model of the client's authorization request: /repo/src/fedservice/appclient/oauth2/authorization.py 14-85 and
/repo/src/fedservice/appclient/oidc/authorization.py 12-64.
-/
namespace Fed.Client
open Fed

/-- What building an authorization request reads. `entityId`: the client's. `clientType`: only read by the oauth2 variant. `endpoints`: `authorization_request_endpoints` of the configuration.
`claim`: `get_metadata_claim` of the client's context, which is idpyoidc's and not in /repo; any function of the claim and the entity types asked for. `methods`: the same for
`request_authentication_methods_supported`, a dictionary from endpoint names to lists of methods. `expiresIn`: `request_object_expires_in`. `required`: the required parameters of the message type. -/
structure AuthEnv where
  entityId : String
  clientType : String
  endpoints : Option (List String)
  claim : String → List String → Except PyErr Val
  methods : List String → Except PyErr (Dict (List String))
  expiresIn : Option Int := none
  required : List String

/-- The part of the client's context that is read and changed. `pushed`: the `apply` flag of the add-on of that name, `none` without the add-on. -/
structure AuthState where
  registered : Option Val := none
  pushed : Option Bool := none
deriving DecidableEq, Repr

/-- The entity types whose metadata is asked for (oauth2/authorization.py 46-51; oidc/authorization.py 44-45). -/
def serverTypes (kind : Kind) (E : AuthEnv) : Except PyErr (List String) :=
  match kind with
  | .oidc => .ok ["openid_provider", "oauth_authorization_server"]
  | .oauth2 =>
    if E.clientType = "oidc" then .ok ["openid_provider"]
    else if E.clientType = "oauth2" then .ok ["oauth_authorization_server"]
    else .error .keyError

/-- `_use_authorization_endpoint` (oauth2/authorization.py 14-28; oidc/authorization.py 12-27). The flag is cleared before the methods are looked at. -/
def useAuthorization (E : AuthEnv) (types : List String) (st : AuthState) (post : Dict Val) (ams : Dict (List String)) : Except PyErr (Option (Dict Val)) × AuthState :=
  let st := { st with pushed := st.pushed.map fun _ => false }
  match ams.get? "authorization_endpoint" with
  | none => (.error .keyError, st)
  | some ms =>
    if "request_object" ∈ ms then
      match E.claim "authorization_endpoint" types with
      | .error e => (.error e, st)
      | .ok recv =>
        (.ok (some (((((post.set "request_param" (.str "request")).set "recv" recv).set "with_jti" (.bool true)).set "lifetime" (.int (E.expiresIn.getD 300))).set "issuer" (.str E.entityId))), st)
    else (.error .otherError, st)

/-- `_use_pushed_authorization_endpoint` (oauth2/authorization.py 30-34; oidc/authorization.py 29-33): returns nothing. -/
def usePushed (st : AuthState) : Except PyErr (Option (Dict Val)) × AuthState :=
  match st.pushed with
  | none => (.error .unsupported, st)
  | some _ => (.ok none, { st with pushed := some true })

/-- The loop over the configured endpoints (oauth2/authorization.py 58-62; oidc/authorization.py 48-53): the first the server supports is used, by a method found by its name. -/
def useFirst (E : AuthEnv) (types : List String) (st : AuthState) (post : Dict Val) (ams : Dict (List String)) : List String → Except PyErr (Option (Dict Val)) × AuthState
  | [] => (.ok (some post), st)
  | ep :: eps =>
    if (ams.get? ep).isSome then
      if ep = "authorization_endpoint" then useAuthorization E types st post ams
      else if ep = "pushed_authorization_endpoint" then usePushed st
      else (.error .attributeError, st)
    else useFirst E types st post ams eps

/-- The client id is put in if there is none (oauth2/authorization.py 69-71). -/
def withClientId (E : AuthEnv) (request : Dict Val) : Dict Val :=
  if ((request.get? "client_id").getD .null).truthy then request else request.set "client_id" (.str E.entityId)

/-- `_automatic_registration` (oauth2/authorization.py 36-73; oidc/authorization.py 35-64): the arguments of the request and the arguments for the steps after, which Python gives as None if `none`. -/
def automaticRegistration (kind : Kind) (E : AuthEnv) (st : AuthState) (request : Dict Val) (post : Option (Dict Val)) : Except PyErr (Dict Val × Option (Dict Val)) × AuthState :=
  match serverTypes kind E with
  | .error e => (.error e, st)
  | .ok types =>
    match E.methods types with
    | .error e => (.error e, st)
    | .ok [] =>
      if (st.registered.getD .null).truthy then (.ok (withClientId E request, some (post.getD [])), st) else (.error .otherError, st)
    | .ok ams =>
      match E.endpoints with
      | none => (.error .typeError, st)
      | some eps =>
        match useFirst E types st (post.getD []) ams eps with
        | (.error e, st) => (.error e, st)
        | (.ok post, st) => (.ok (withClientId E request, post), st)

/-- A step of the comprehension in line 80 of oauth2/authorization.py. -/
def takeOver (request d : Dict Val) (k : String) : Dict Val :=
  match request.get? k with
  | some v => d.set k v
  | none => d

/-- `create_request` of the oauth2 variant (oauth2/authorization.py 75-85). `mk`: `construct_request_parameter` of idpyoidc, not in /repo. KeyError without `service` among the arguments.
The oidc variant leaves this to idpyoidc. -/
def createRequest (E : AuthEnv) (mk : Dict Val → Dict Val → Except PyErr Val) (request post : Dict Val) : Except PyErr (Dict Val) :=
  if post.get? "request_param" = some (.str "request") then
    if (post.get? "service").isNone then .error .keyError
    else
      match mk request (post.filter fun p => p.1 != "service") with
      | .error e => .error e
      | .ok obj => .ok (Dict.set (E.required.foldl (takeOver request) []) "request" obj)
  else .ok request

end Fed.Client
