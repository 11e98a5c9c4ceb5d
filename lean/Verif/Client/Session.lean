import Verif.Py
/-
Model of the steps of an authentication at a provider: /repo/src/fedservice/appclient/stand_alone_client_entity.py 198-318 and 455-709.
-/
namespace Fed.Client.Session
open Fed

/-- `_get_response_type` (198-208): `none` is Python's None. `registered`: the `response_types` in use. -/
def getResponseType (registered : List String) (req : Option (Dict Val)) : Except PyErr (Option Val) :=
  match req with
  | none | some [] =>
    if "code" ∈ registered then .ok (some (.str "code"))
    else
      match registered with
      | [] => .error .indexError
      | t :: _ => .ok (some (.str t))
  | some d =>
    match d.get? "response_type" with
    | none => .ok none
    | some v => .ok (if v.truthy then some v else none)

/-- Insertion into a sorted list. -/
def insertWord (w : String) : List String → List String
  | [] => [w]
  | x :: xs => if w ≤ x then w :: x :: xs else x :: insertWord w xs

/-- `list.sort` on words. -/
def sortWords (ws : List String) : List String := ws.foldr insertWord []

/-- `_get_response_mode` (210-236). A response type is the list of its words, `none` is None. `defaults`: DEFAULT_RESPONSE_MODE of idpyoidc, not in /repo. `requested`: the `response_mode`
of the arguments, if it is there and not empty. -/
def getResponseMode (defaults : List String → Option String) (supported : List String) (responseType : Option (List String)) (requested : Option String) : Except PyErr (Option String) :=
  match requested with
  | some m =>
    if supported ≠ [] ∧ m ∉ supported then .error .valueError
    else
      match responseType.bind defaults with
      | none => .error .keyError
      | some d => .ok (if d = m then none else some m)
  | none =>
    match supported with
    | [] => .ok none
    | s :: _ =>
      match responseType with
      | none => .error .attributeError
      | some ws =>
        match defaults (sortWords ws) with
        | none => .error .keyError
        | some d => .ok (if d ∈ supported then none else some s)

/-- What is kept about sessions (idpyoidc's `Current`, not in /repo): what is stored under each state, and the other keys that lead to a state. -/
structure Current where
  sets : Dict (Dict Val) := []
  bound : Dict String := []
deriving DecidableEq, Repr

/-- What the first step reads of the client: its type, the `scope` in use, `request_args` of its configuration, the issuer of its context. -/
structure Conf where
  oidc : Bool
  scope : Option Val := none
  requestArgs : Dict Val := []
  issuer : String

/-- Lines 273-297: the arguments of the request up to the state. -/
def requestArgs (C : Conf) (redirect : Val) (responseType : Option Val) (mode : Option String) (nonce : String) (req : Option (Dict Val)) : Dict Val :=
  let d : Dict Val := [("redirect_uri", redirect), ("response_type", responseType.getD .null)]
  let d := match mode with | some m => d.set "response_mode" (.str m) | none => d
  let d := if C.oidc then d.set "nonce" (.str nonce) else d
  let d := match C.scope with | some s => if s.truthy then d.set "scope" s else d | none => d
  let d := d.update C.requestArgs
  d.update (req.getD [])

/-- `init_authorization` (238-318) from line 259 on. `redirect`: what idpyoidc's `pick_redirect_uri` gives; KeyError becomes Unsupported, and since the second `except` names a list, every other exception
becomes a TypeError. `nonce`, `state`: the random strings. The URL is built by idpyoidc from these arguments and left out. Simplification: `claims` in the configured arguments are left as they are. -/
def initAuthorization (C : Conf) (redirect : Except PyErr Val) (responseType : Option Val) (mode : Option String) (nonce state : String) (cur : Current) (req : Option (Dict Val)) :
    Except PyErr (Dict Val) × Current :=
  match redirect with
  | .error .keyError => (.error .unsupported, cur)
  | .error _ => (.error .typeError, cur)
  | .ok uri =>
    let args := (requestArgs C uri responseType mode nonce req).set "state" (.str state)
    let bound := if C.oidc then cur.bound.set nonce state else cur.bound
    (.ok args, { sets := cur.sets.set state [("iss", .str C.issuer)], bound := bound })

/-- The issuer a response has to come from (491-494). `info`: the context's `provider_info`. -/
def expectedIssuer (info : Dict Val) (issuer : String) : Val := (info.get? "issuer").getD (.str issuer)

/-- `finalize_auth` (455-503). `parsed`: what idpyoidc's `parse_response` makes of the response. Simplification: only what `cstate` keeps is changed; TypeError for a state that is no string. For an unknown state
idpyoidc's `get_set` may also give nothing instead of raising, which ends in the ValueError instead of the KeyError. -/
def finalizeAuth (info : Dict Val) (issuer : String) (cur : Current) (parsed : Except PyErr (Dict Val)) : Except PyErr (Dict Val) × Current :=
  match parsed with
  | .error e => (.error e, cur)
  | .ok resp =>
    if (resp.get? "error").isSome then (.ok resp, cur)
    else
      match resp.get? "state" with
      | none => (.error .keyError, cur)
      | some (.str s) =>
        match cur.sets.get? s with
        | none => (.error .keyError, cur)
        | some d =>
          if (d.get? "iss").getD .null ≠ expectedIssuer info issuer then (.error .valueError, cur)
          else (.ok resp, { cur with sets := cur.sets.set s (d.update resp) })
      | some _ => (.error .typeError, cur)

/-- Two lists of words that are the same set. -/
def sameSet (a b : List String) : Bool := a.all b.contains && b.all a.contains

/-- `get_access_and_id_token` (505-577) once the response type (as a set of words) is known; `tokens`: what `get_tokens` gives, which raises for an error response. The access token and the ID Token, `none` for None. -/
def getTokens (types : List String) (resp : Dict Val) (collect : Bool) (tokens : Except PyErr (Dict Val)) : Except PyErr (Option Val × Option Val) := do
  let idToken ← if sameSet types ["id_token"] || sameSet types ["id_token", "token"] || sameSet types ["code", "id_token", "token"] then
      match resp.get? "__verified_id_token" with
      | none => .error .keyError
      | some t => .ok (some t)
    else .ok none
  if sameSet types ["token"] || sameSet types ["id_token", "token"] || sameSet types ["code", "token"] || sameSet types ["code", "id_token", "token"] then
    match resp.get? "access_token" with
    | none => .error .keyError
    | some a =>
      if collect then
        match tokens with
        | .error e => .error e
        | .ok t =>
          match t.get? "access_token" with
          | none => .error .keyError
          | some a' => .ok (some a', t.get? "__verified_id_token")
      else .ok (some a, idToken)
  else if sameSet types ["code"] || sameSet types ["code", "id_token"] then
    match tokens with
    | .error e => .error e
    | .ok t =>
      match t.get? "access_token" with
      | none => .error .keyError
      | some a' => .ok (some a', t.get? "__verified_id_token")
  else .ok (none, idToken)

/-- `has_active_authentication` (661-677). Simplification: TypeError for a token without a number as `exp`. -/
def hasActiveAuthentication (now : Int) (stored : Dict Val) : Except PyErr Bool :=
  match stored.get? "__verified_id_token" with
  | none => .ok false
  | some (.obj t) =>
    match Dict.get? t "exp" with
    | none => .error .keyError
    | some (.int exp) => .ok (now < exp)
    | some _ => .error .typeError
  | some _ => .error .typeError

/-- `get_valid_access_token` (679-709): the token and when it expires, 0 for never. Simplification: TypeError for an `__expires_at` that is neither a number nor empty. -/
def getValidAccessToken (now : Int) (stored : Dict Val) : Except PyErr (Val × Int) :=
  match stored.get? "access_token" with
  | none => .error .serviceError
  | some t =>
    match stored.get? "__expires_at" with
    | none => .ok (t, 0)
    | some (.int exp) => if exp = 0 then .ok (t, 0) else if exp > now then .ok (t, exp) else .error .serviceError
    | some v => if v.truthy then .error .typeError else .ok (t, 0)

end Fed.Client.Session
