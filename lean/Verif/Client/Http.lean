import Verif.Py
/-
Model of how HTTP responses are handled by clients: /repo/src/fedservice/appclient/__init__.py (ClientEntity) and
/repo/src/fedservice/entity/client/__init__.py (FederationClient, FederationServiceContext).
-/
namespace Fed.Client.Http
open Fed

/-- An HTTP response, as far as it is read. -/
structure Response where
  status : Nat
  contentType : Option String := none
  text : String := ""
deriving DecidableEq, Repr

/-- The service, and what else is idpyoidc's: `parse` is the service's `parse_response` (text, format), for the state of the request; `deser` is `get_deserialization_method`, empty if it knows none
(without content type too, for FederationClient `get_content_type` of it); `successful` the list SUCCESSFUL; `fromJson` and `fromUrl` deserialise a message, `format` is `response_body_type` of the service.
Simplification: FormatError and JSONDecodeError are ValueError, which the latter is. -/
structure Service where
  parse : String → String → Except PyErr (Dict Val)
  deser : Option String → String
  successful : List Nat
  fromJson : String → Except PyErr (Dict Val)
  fromUrl : String → Except PyErr (Dict Val)
  format : String

/-- What a request gives: `{"http_response": …}`, a text, or a message. -/
inductive Answer
  | http (r : Response)
  | text (s : String)
  | msg (d : Dict Val)
deriving DecidableEq, Repr

/-- `sub in text`. -/
def isInfix (sub : List Char) : List Char → Bool
  | [] => sub.isEmpty
  | c :: cs => sub.isPrefixOf (c :: cs) || isInfix sub cs

/-- `"error" in response`: for a text whether it contains the word. -/
def Answer.hasError : Answer → Bool
  | .http _ => false
  | .text s => isInfix "error".toList s.toList
  | .msg d => (d.get? "error").isSome

/-- The format a successful response is parsed in (appclient/__init__.py 326-335; entity/client/__init__.py 430-442). -/
def bodyType (S : Service) (r : Response) (expected : String) : String :=
  if S.deser r.contentType ∈ ["json", "jwt", "urlencoded"] then S.deser r.contentType else expected

/-- `_parse_unsigned_reponse` (appclient/__init__.py 282-290). -/
def parseUnsigned (S : Service) (text fmt : String) : Except PyErr (Dict Val) :=
  if fmt = "json" then S.fromJson text
  else if fmt = "urlencoded" then S.fromUrl text
  else .ok [("error", .str text)]

/-- `_parse_response` (appclient/__init__.py 295-301): every exception is caught. -/
def parseResponse (S : Service) (text fmt : String) : Except PyErr (Dict Val) :=
  match S.parse text fmt with
  | .ok d => .ok d
  | .error _ => parseUnsigned S text fmt

/-- An error response of the client (appclient/__init__.py 350-384; entity/client/__init__.py 456-484). The second handler, for JSONDecodeError, is never reached, as that is a ValueError. -/
def parseError (parse : String → String → Except PyErr (Dict Val)) (r : Response) (fmt expected : String) : Except PyErr Answer :=
  let done (d : Dict Val) : Except PyErr Answer := .ok (.msg (d.set "status_code" (.int r.status)))
  match parse r.text fmt with
  | .ok d => done d
  | .error .valueError =>
    if fmt ≠ expected then
      match parse r.text expected with
      | .ok d => done d
      | .error .valueError => .error .serviceError
      | .error e => .error e
    else .error .serviceError
  | .error e => .error e

/-- `ClientEntity.parse_request_response` (appclient/__init__.py 303-388). For an error the content type itself is handed on as the format. -/
def clientParse (S : Service) (r : Response) (expected : String) : Except PyErr Answer :=
  if r.status ∈ S.successful then (S.parse r.text (bodyType S r expected)).map .msg
  else if r.status ∈ [302, 303] then .ok (.http r)
  else if r.status = 500 then .error .systemError
  else if 400 ≤ r.status ∧ r.status < 500 then
    parseError (parseResponse S) r (if (r.contentType.getD "").isEmpty then "application/json" else r.contentType.getD "") expected
  else .error .serviceError

/-- `ClientEntity.get_response` (appclient/__init__.py 193-234). `r`: what the HTTP client gives. -/
def clientGet (S : Service) (r : Except PyErr Response) (expected : String) : Except PyErr Answer :=
  match r with
  | .error e => .error e
  | .ok r =>
    if 300 ≤ r.status ∧ r.status < 400 then .ok (.http r)
    else if r.status < 300 then
      let expected := if expected.isEmpty then S.format else expected
      if expected = "html" then .ok (.text r.text) else clientParse S r expected
    else clientParse S r expected

/-- `FederationClient.parse_request_response` (entity/client/__init__.py 406-489). -/
def fedParse (S : Service) (r : Response) (expected : String) : Except PyErr Answer :=
  if r.status ∈ S.successful then (S.parse r.text (bodyType S r expected)).map .msg
  else if r.status ∈ [302, 303] then .ok (.http r)
  else if r.status = 500 then .error .valueError
  else if 400 ≤ r.status ∧ r.status < 500 then parseError S.parse r (if (S.deser r.contentType).isEmpty then "json" else S.deser r.contentType) expected
  else .error .serviceError

/-- `FederationClient.get_response` (entity/client/__init__.py 316-363). `service.error_msg` is a ResponseMessage. -/
def fedGet (S : Service) (r : Except PyErr Response) (expected : String) : Except PyErr Answer :=
  match r with
  | .error e => .error e
  | .ok r =>
    if 300 ≤ r.status ∧ r.status < 400 then .ok (.http r)
    else if 400 ≤ r.status then .ok (.msg [("error", .str "System error"), ("error_description", .str r.text)])
    else
      let expected := if expected.isEmpty then S.format else expected
      if expected = "html" then .ok (.text r.text) else fedParse S r expected

/-- The two clients. -/
inductive Kind
  | client | federation
deriving DecidableEq, Repr

/-- `get_response`. -/
def getResponse : Kind → Service → Except PyErr Response → String → Except PyErr Answer
  | .client => clientGet
  | .federation => fedGet

/-- `service_request` (appclient/__init__.py 236-280; entity/client/__init__.py 365-404): the response, and what the service's `update_service_context` is called with. What that does is idpyoidc's or the service's. -/
def serviceRequest (kind : Kind) (S : Service) (r : Except PyErr Response) (expected : String) : Except PyErr Answer × Option Answer :=
  match getResponse kind S r expected with
  | .error e => (.error e, none)
  | .ok a => (.ok a, if a.hasError then none else some a)

/-- The loop of `get_metadata_claim` (entity/client/__init__.py 115-121; 123-127 the same over all types). -/
def findClaim (metadata : Dict (Dict Val)) (claim : String) : List String → Except PyErr Val
  | [] => .error .keyError
  | t :: ts =>
    match (metadata.get? t).bind (·.get? claim) with
    | some v => if v.truthy then .ok v else findClaim metadata claim ts
    | none => findClaim metadata claim ts

/-- `FederationServiceContext.get_metadata_claim` (entity/client/__init__.py 113-127). -/
def getMetadataClaim (metadata : Dict (Dict Val)) (claim : String) (types : List String) : Except PyErr Val :=
  findClaim metadata claim (if types = [] then metadata.keys else types)

end Fed.Client.Http
