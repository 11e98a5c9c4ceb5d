import Verif.Py
/-
Model of the checks on a client registration request, /repo/src/fedservice/appserver/oauth2/registration.py: `verify_redirect_uris`, `match_claim`
and `filter_client_request`.
-/
namespace Fed.Registration
open Fed

/-- What the code reads of a parsed URL (`urllib.parse.urlparse`). -/
structure Url where
  scheme : String
  hostname : Option String
  query : String := ""
  fragment : String := ""
deriving DecidableEq, Repr

/-- URL handling, left open: `urlparse` (which may raise ValueError) and idpyoidc's `split_uri`, giving base and query. -/
structure Urls where
  parse : String → Except PyErr Url
  split : String → Except PyErr (String × Val)

/-- One redirect URI (registration.py 179-212). `native`: `client_type == "native"`. The result is what is recorded for the URI. A value that is no string
makes `urlparse` raise; the model says TypeError. -/
def verifyRedirectUri (U : Urls) (native mustHttps : Bool) (uri : Val) : Except PyErr (String × Val) :=
  match uri with
  | .str u => do
    let p ← U.parse u
    let plain : Except PyErr (String × Val) := do
      let (base, query) ← U.split u
      if query.truthy then .ok (base, query) else .ok (base, .obj [])
    if native then
      if p.scheme ∉ ["http", "https"] then .ok (u, .obj [])
      else if p.scheme = "http" ∧ p.hostname ∈ [some "localhost", some "127.0.0.1"] then plain
      else .error .invalidRedirectUri
    else if mustHttps ∧ p.scheme ≠ "https" then .error .invalidRedirectUri
    else if p.scheme ∉ ["http", "https"] then .error .invalidRedirectUri
    else if p.fragment ≠ "" then .error .invalidRedirectUri
    else plain
  | _ => .error .typeError

/-- The loop over the URIs. -/
def verifyRedirectLoop (U : Urls) (native mustHttps : Bool) : List Val → Except PyErr (List (String × Val))
  | [] => .ok []
  | u :: us => do
    let r ← verifyRedirectUri U native mustHttps u
    let rs ← verifyRedirectLoop U native mustHttps us
    .ok (r :: rs)

/-- `client_type` (registration.py 171). -/
def clientType (request : Dict Val) : Val := (request.get? "application_type").getD (.str "web")

/-- `must_https` (registration.py 173-177). -/
def mustHttps (request : Dict Val) : Bool :=
  decide (clientType request = .str "web") && !decide (request.get? "response_types" = some (.arr [.str "code"]))

/-- `Registration.verify_redirect_uris` (registration.py 168-214). KeyError without redirect URIs. -/
def verifyRedirectUris (U : Urls) (request : Dict Val) : Except PyErr (List (String × Val)) := do
  let uris ← request.get "redirect_uris"
  let uris ← pyIter uris
  verifyRedirectLoop U (decide (clientType request = .str "native")) (mustHttps request) uris

/-- What the server knows about claims: under what name it states its own support (`claims.register2preferred`), what it supports
(`provider_info`) and which claims of a registration response are lists (`registration_response.c_param[claim][0]`). -/
structure Capabilities where
  preferred : Dict String
  support : Dict Val
  isListClaim : Dict Bool

/-- `_context.claims.register2preferred.get(claim, claim)` (registration.py 103). -/
def Capabilities.nameOf (A : Capabilities) (claim : String) : String := (A.preferred.get? claim).getD claim

/-- `Registration.match_claim` (registration.py 99-132); `None` is `Val.null`. `E`: the order of `list(set(…))`. -/
def matchClaim (A : Capabilities) (E : SetEnum Val) (claim : String) (val : Val) : Except PyErr Val :=
  match A.support.get? (A.nameOf claim) with
  | none => .ok val
  | some sup =>
    match A.isListClaim.get? claim with
    | none => .ok .null
    | some isList =>
      if sup.truthy then
        if isList then
          match val with
          | .str _ => do
            let b ← pyIn val sup
            if b then .ok val else .ok .null
          | _ => do
            let s ← pySet sup
            let v ← pySet val
            let both := s.filter fun x => decide (x ∈ v)
            if both.isEmpty then .error .capabilitiesMismatch else .ok (.arr (E.enum both))
        else
          match sup with
          | .arr xs => if val ∈ xs then .ok val else .ok .null
          | _ => if val = sup then .ok val else .ok .null
      else .ok .null

/-- `Registration.filter_client_request` (registration.py 134-147). The request is a dictionary: no claim twice. -/
def filterRequest (A : Capabilities) (E : SetEnum Val) : Dict Val → Except PyErr (Dict Val)
  | [] => .ok []
  | (k, v) :: rest =>
    if A.preferred.has k then do
      let w ← matchClaim A E k v
      let r ← filterRequest A E rest
      if w.truthy then .ok ((k, w) :: r) else .ok r
    else do
      let r ← filterRequest A E rest
      .ok ((k, v) :: r)

end Fed.Registration
