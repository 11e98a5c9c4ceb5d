import Verif.Client.Session
/-
Model of how an authentication is finished: /repo/src/fedservice/appclient/stand_alone_client_entity.py 340-453 and 579-659, on top of `finalizeAuth` and `getTokens` of Client/Session.
-/
namespace Fed.Client.Session
open Fed

/-- What finishing an authentication uses. `clientId`: the entity id, which is what `get_client_id` gives (appclient/__init__.py 142-143); `secret`: the client secret in use; `hasUserinfo`: the client has
the userinfo service; `schema`, `idTokenClaims`: the members of idpyoidc's OpenIDSchema and IDToken. What the provider answers: `tokens`, given the state and the request; `userinfo`, given the
state and the access token; both raise for error messages (375-376, 435-436). Simplification: what these requests themselves do to what is kept about sessions (idpyoidc) is left out. -/
structure Finish where
  info : Dict Val
  issuer : String
  clientId : String
  secret : Option Val
  hasUserinfo : Bool
  schema : List String
  idTokenClaims : List String
  tokens : String → Dict Val → Except PyErr (Dict Val)
  userinfo : String → Val → Except PyErr (Dict Val)

/-- The arguments of the token request (351-363): code and redirect URI as kept for the session. -/
def tokenRequest (F : Finish) (state : String) (stored : Dict Val) : Except PyErr (Dict Val) :=
  match stored.get? "code" with
  | none => .error .keyError
  | some code =>
    match stored.get? "redirect_uri" with
    | none => .error .keyError
    | some uri => .ok [("code", code), ("state", .str state), ("redirect_uri", uri), ("grant_type", .str "authorization_code"), ("client_id", .str F.clientId),
        ("client_secret", F.secret.getD .null)]

/-- `get_tokens` (340-378). -/
def askTokens (F : Finish) (state : String) (stored : Dict Val) : Except PyErr (Dict Val) :=
  match tokenRequest F state stored with
  | .error e => .error e
  | .ok req => F.tokens state req

/-- The words of a list. -/
def wordsOf : List Val → Except PyErr (List String)
  | [] => .ok []
  | .str s :: xs =>
    match wordsOf xs with
    | .error e => .error e
    | .ok ws => .ok (s :: ws)
  | _ :: _ => .error .typeError

/-- The response type as kept for the session, as a set of words (536-540). `split`: `str.split(" ")`. -/
def responseTypes (split : String → List String) (stored : Dict Val) : Except PyErr (List String) :=
  match stored.get? "response_type" with
  | none => .error .keyError
  | some (.arr xs) => wordsOf xs
  | some (.str s) => .ok (split s)
  | some _ => .error .attributeError

/-- `userinfo_in_id_token` (441-453): the members of the schema and those that are no members of an ID Token. -/
def userinfoInIdToken (F : Finish) (t : Dict Val) : Dict Val :=
  Dict.update (t.filter fun p => p.1 ∈ F.schema) (t.filter fun p => p.1 ∉ F.idTokenClaims)

/-- What the caller gets (652-659), or (600-604) of an error response. -/
inductive Outcome
  | done (userinfo : Dict Val) (state : String) (token : Option Val) (idToken : Option Val) (sessionState : Val) (issuer : String)
  | failed (state error : Val)
deriving DecidableEq, Repr

/-- Where the user information comes from (612-625). An ID Token that is no dictionary is a TypeError. -/
def findUserinfo (F : Finish) (state : String) (a i : Option Val) : Except PyErr (Dict Val) :=
  if F.hasUserinfo && (a.getD .null).truthy then F.userinfo state (a.getD .null)
  else if (i.getD .null).truthy then
    match i with
    | some (.obj t) => .ok (userinfoInIdToken F t)
    | _ => .error .typeError
  else .ok []

/-- Does the provider name sessions in its ID Tokens (629-636)? -/
def sidSupport (info : Dict Val) : Bool :=
  ((match info.get? "backchannel_logout_session_required" with | some v => some v | none => info.get? "frontchannel_logout_session_required").getD (.bool false)).truthy

/-- `cstate.bind_key(key, state)`; TypeError for keys that are no strings (a simplification). -/
def bindKey (key : Val) (state : String) (cur : Current) : Except PyErr Unit × Current :=
  match key with
  | .str k => (.ok (), { cur with bound := cur.bound.set k state })
  | _ => (.error .typeError, cur)

/-- Binding the session id of the ID Token, if there is one (638-644). -/
def bindSid (F : Finish) (i : Option Val) (state : String) (cur : Current) : Except PyErr Unit × Current :=
  match i with
  | some (.obj t) =>
    if sidSupport F.info && (Val.obj t).truthy then
      match Dict.get? t "sid" with
      | none => (.ok (), cur)
      | some k => bindKey k state cur
    else (.ok (), cur)
  | _ => (.ok (), cur)

/-- Binding the subject (646-649). Simplification: an ID Token that is no dictionary is a KeyError here (TypeError). -/
def bindSub (i : Option Val) (userinfo : Dict Val) (state : String) (cur : Current) : Except PyErr Unit × Current :=
  let from_ := if (i.getD .null).truthy then (match i with | some (.obj t) => t | _ => []) else userinfo
  match from_.get? "sub" with
  | none => (.error .keyError, cur)
  | some k => bindKey k state cur

/-- `finalize` (579-659). `parsed`: what idpyoidc makes of the response; `collect`: the behaviour argument `collect_tokens`. -/
def finalize (F : Finish) (split : String → List String) (collect : Bool) (cur : Current) (parsed : Except PyErr (Dict Val)) : Except PyErr Outcome × Current :=
  match finalizeAuth F.info F.issuer cur parsed with
  | (.error e, cur) => (.error e, cur)
  | (.ok resp, cur) =>
    match resp.get? "error" with
    | some err =>
      match resp.get? "state" with
      | none => (.error .keyError, cur)
      | some s => (.ok (.failed s err), cur)
    | none =>
      match resp.get? "state" with
      | some (.str s) =>
        let stored := (cur.sets.get? s).getD []
        match responseTypes split stored with
        | .error e => (.error e, cur)
        | .ok types =>
          match getTokens types resp collect (askTokens F s stored) with
          | .error e => (.error e, cur)
          | .ok (a, i) =>
            match findUserinfo F s a i with
            | .error e => (.error e, cur)
            | .ok ui =>
              match bindSid F i s cur with
              | (.error e, cur) => (.error e, cur)
              | (.ok _, cur) =>
                match bindSub i ui s cur with
                | (.error e, cur) => (.error e, cur)
                | (.ok _, cur) => (.ok (.done ui s a i ((resp.get? "session_state").getD (.str "")) F.issuer), cur)
      | _ => (.error .keyError, cur)

end Fed.Client.Session
