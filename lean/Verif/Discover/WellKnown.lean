import Verif.Discover.Endpoint
/-
Where the configuration of an entity is asked for, on the text of the entity id (/repo/src/fedservice/entity/client/entity_configuration.py 23-30, 51-111), and where an entity of this software
serves it (/repo/src/fedservice/entity/server/__init__.py 48 with /repo/src/fedservice/defaults.py 129-134).
-/
namespace Fed.Discover.WellKnown
open Fed

/-- A character of a scheme (`scheme_chars` of urllib.parse). -/
def schemeChar (c : Char) : Bool := c.isAlphanum || c == '+' || c == '-' || c == '.'

/-- The scheme and the rest, as `urlsplit` finds them: the scheme is put in lower case, and there is none if what comes before the colon is not made like one. -/
def splitScheme (s : List Char) : List Char × List Char :=
  match s.takeWhile (· != ':'), s.dropWhile (· != ':') with
  | c :: cs, _ :: rest => if c.isAlpha && cs.all schemeChar then ((c :: cs).map Char.toLower, rest) else ([], s)
  | _, _ => ([], s)

/-- Not a character that ends the part with the host. -/
def inNetloc (c : Char) : Bool := c != '/' && c != '?' && c != '#'

/-- The host part and the rest, as `urlsplit` finds them. -/
def splitNetloc : List Char → List Char × List Char
  | '/' :: '/' :: rest => (rest.takeWhile inNetloc, rest.dropWhile inNetloc)
  | s => ([], s)

/-- The schemes for which `urlparse` takes parameters off the path (`uses_params` of urllib.parse). -/
def usesParams : List (List Char) :=
  ["", "ftp", "hdl", "prospero", "http", "https", "shttp", "rtsp", "rtsps", "rtspu", "sip", "sips", "mms", "sftp", "tel"].map String.toList

/-- `_splitparams` of urllib.parse: the last segment is cut at its first semicolon. -/
def withoutParams (s : List Char) : List Char :=
  (s.reverse.dropWhile (· != '/')).reverse ++ ((s.reverse.takeWhile (· != '/')).reverse).takeWhile (· != ';')

/-- What follows the host, without fragment, query and parameters. -/
def pathOf (scheme rest : List Char) : List Char :=
  let s := (rest.takeWhile (· != '#')).takeWhile (· != '?')
  if scheme ∈ usesParams then withoutParams s else s

/-- What the code uses of `urlparse`. Simplifications: blanks and control characters, which `urlparse` strips or removes, and the refusal of misplaced brackets in the host are left out. -/
structure Url where
  scheme : List Char
  netloc : List Char
  path : List Char
deriving DecidableEq, Repr

/-- `urlparse(entity_id)` (entity_configuration.py 24, 29). -/
def urlparse (s : List Char) : Url :=
  let a := splitScheme s
  let b := splitNetloc a.2
  ⟨a.1, b.1, pathOf a.1 b.2⟩

/-- `f'{p.scheme}://{p.netloc}'` (entity_configuration.py 25, 30). -/
def Url.origin (u : Url) : List Char := u.scheme ++ "://".toList ++ u.netloc

/-- The parts the addresses are built from (entity_configuration.py 23-30). -/
def parse (entity : String) : Parsed := ⟨String.ofList (urlparse entity.toList).origin, String.ofList (urlparse entity.toList).path⟩

/-- What is left of an entity id when a slash at its end is removed (`build_endpoints` of idpyoidc, called in entity/server/__init__.py 48). -/
def withoutSlash (s : List Char) : List Char := if s.getLast? = some '/' then s.dropLast else s

/-- Where an entity serves its configuration: `f"{issuer}/{path}"` with the path of defaults.py 131 (`build_endpoints` of idpyoidc). -/
def servedAt (entity : String) : String := String.ofList (withoutSlash entity.toList) ++ "/.well-known/openid-federation"

/-- The web in which each of these entities serves its configuration, and nothing else is served. -/
def web (es : List (String × Doc)) (url : String) : Except Collect.NetErr Doc :=
  match es.find? fun e => decide (servedAt e.1 = url) with
  | some e => .ok e.2
  | none => .error .missingPage

/-- Whose configuration is asked for (entity_configuration.py 77-98): the entity named in the arguments, or else in the keywords; if that is empty the entity itself (`root` is its id when it stands alone),
or the first issuer found in the other parts of the combination. -/
inductive Root
  | alone (entityId : String)
  | combo (issuers : List (Option String))
deriving DecidableEq, Repr

/-- `d.get('entity_id', d.get("iss", ""))`. -/
def named (d : Dict String) : String :=
  match d.get? "entity_id" with
  | some e => e
  | none => (d.get? "iss").getD ""

/-- The first non-empty one. -/
def firstIssuer : List (Option String) → String
  | [] => ""
  | some i :: rest => if i ≠ "" then i else firstIssuer rest
  | none :: rest => firstIssuer rest

/-- entity_configuration.py 77-98. -/
def issuerOf (root : Root) (args kwargs : Dict String) : Except PyErr String :=
  let n := if args = [] then named kwargs else named args
  let i := if n ≠ "" then n else match root with | .alone e => e | .combo is => firstIssuer is
  if i ≠ "" then .ok i else .error .attributeError

/-- `EntityConfiguration.get_request_parameters` (entity_configuration.py 51-111): the URL. -/
def configurationUrl (root : Root) (args kwargs : Dict String) (tenant : Bool) : Except PyErr String :=
  match issuerOf root args kwargs with
  | .error e => .error e
  | .ok i => .ok (if tenant then tenantWellKnown (parse i) else wellKnown (parse i))

/-- `get_entity_configuration` (trust_chain_collector.py 127-166) with the URLs as they are asked for: `entityConfiguration` is the same over parsed ids (lemma `lookup_eq`). -/
def lookup (root : Root) (doc : String → Except Collect.NetErr Doc) (entity : String) : Except PyErr Doc :=
  match configurationUrl root [("entity_id", entity)] [] false with
  | .error e => .error e
  | .ok url =>
    match doc url with
    | .error .missingPage =>
      match configurationUrl root [("entity_id", entity)] [] true with
      | .error e => .error e
      | .ok turl => if turl ≠ url then (doc turl).mapError (·.toPy) else .error .missingPage
    | r => r.mapError (·.toPy)

end Fed.Discover.WellKnown
