import Verif.Server.Create
/-
Model of statements made from a directory of files, /repo/src/fedservice/fetch_entity_statement/__init__.py and
/repo/src/fedservice/fetch_entity_statement/fs2.py.
-/
namespace Fed.Server.Publish
open Fed Fed.Server

/-- The files of one issuer about one subject, parsed (fs2.py 35-37, 53-61). `none`: there is no such file. Simplification: files are valid
JSON and do not change while a statement is made. -/
structure Folder where
  jwks : Option (List Val) := none
  metadata : Option Val := none
  policy : Option Val := none
  constraints : Option Val := none
  authority : Option Val := none

/-- The directory: what it has for an issuer about a subject, by the names of the two levels (`os.path.join(self.base_path, sup, sub, …)`,
fs2.py 36 and 57). Simplification: names are single path components. -/
abbrev Dir := String → String → Folder

/-- What is left open: the public part of a key (cryptojwt's `serialize(private=False)`), `urllib.parse.unquote_plus`, and
`urlparse(url).netloc`. -/
structure Lib where
  pub : Val → Val
  unquote : String → String
  netloc : String → String

/-- A `FSFetchEntityStatement` object (__init__.py 8-17, fs2.py 25-33): the issuer, and the key jar, keys by their owner. -/
structure Api where
  iss : String
  jar : Dict (List Val) := []

/-- `make_entity_id` with the pattern `https://{}` (__init__.py 25-26; fs2.py 25, 90, 94). -/
def makeId (name : String) : String := "https://" ++ name

/-- `load_jwks(sup, sub, sub_id)` (fs2.py 35-37), with idpyoidc's `import_jwks_from_file`: keys are added to those of the owner. A missing
file raises FileNotFoundError. -/
def loadJwks (dir : Dir) (jar : Dict (List Val)) (sup sub subId : String) : Except PyErr (Dict (List Val)) :=
  match (dir sup sub).jwks with
  | some ks => .ok (jar.set subId ((jar.get? subId).getD [] ++ ks))
  | none => .error .otherError

/-- `FSFetchEntityStatement(base_path, iss=iss)` (fs2.py 25-33). -/
def makeApi (dir : Dir) (iss : String) : Except PyErr Api :=
  if iss ≠ "" then
    match loadJwks dir [] iss iss (makeId iss) with
    | .ok jar => .ok ⟨iss, jar⟩
    | .error e => .error e
  else .ok ⟨iss, []⟩

/-- `sub.startswith("https%3A%2F%2F")` (fs2.py 45) -/
def encoded (sub : String) : Bool := "https%3A%2F%2F".toList.isPrefixOf sub.toList

/-- `sub.startswith("https")` (__init__.py 32) -/
def startsHttps (sub : String) : Bool := "https".toList.isPrefixOf sub.toList

/-- The keys of the issuer, if they are not there already (fs2.py 40-43). -/
def ownKeys (dir : Dir) (api : Api) (sub : String) : Except PyErr (Dict (List Val)) :=
  if api.jar.has (makeId api.iss) then .ok api.jar else loadJwks dir api.jar api.iss api.iss (makeId sub)

/-- The id of the subject in `gather_info` (fs2.py 45-48). -/
def subId (lib : Lib) (sub : String) : String := if encoded sub then lib.unquote sub else makeId sub

/-- The data in the files (fs2.py 54-63). -/
def fileData (f : Folder) : Dict Val :=
  (f.metadata.map (("metadata", ·))).toList ++ (f.policy.map (("metadata_policy", ·))).toList ++
  (f.constraints.map (("constraints", ·))).toList ++ (f.authority.map (("authority_hints", ·))).toList

/-- `gather_info(sub)` (fs2.py 39-66): the data, and the key jar afterwards. -/
def gatherInfo (lib : Lib) (dir : Dir) (api : Api) (sub : String) : Except PyErr (Dict Val × Dict (List Val)) :=
  match ownKeys dir api sub with
  | .error e => .error e
  | .ok jar =>
    match (if jar.has (subId lib sub) then .ok jar else loadJwks dir jar api.iss sub (subId lib sub)) with
    | .error e => .error e
    | .ok jar => .ok (fileData (dir api.iss sub), jar)

/-- `keyjar.export_jwks(issuer_id=owner)`: the public keys of the owner. For an unknown owner cryptojwt gives no keys. -/
def exportJwks (lib : Lib) (jar : Dict (List Val)) (owner : String) : Val :=
  .obj [("keys", .arr (((jar.get? owner).getD []).map lib.pub))]

/-- A signed statement: its payload, and the keys of which one has been used to sign. -/
structure Made where
  payload : Dict Val
  signers : List Val
deriving DecidableEq

/-- Who the statement is said to be about (__init__.py 32-37). -/
def statedSub (lib : Lib) (sub : String) : String := if startsHttps sub then lib.unquote sub else makeId sub

/-- `FetchEntityStatement.create_entity_statement(sub, **kwargs)` (__init__.py 28-37) with the `create_entity_statement` of
entity_statement/create.py. The statement is signed with a key that the key jar has for the issuer; with none cryptojwt raises. Second
component: the object afterwards. -/
def createFor (lib : Lib) (dir : Dir) (now : Int) (api : Api) (sub : String) (kwargs : Dict Val) : Except PyErr Made × Api :=
  match gatherInfo lib dir api sub with
  | .error e => (.error e, api)
  | .ok (info, jar) =>
    let args := (info.update kwargs).set "jwks" (exportJwks lib jar (makeId sub))
    let iss := makeId api.iss
    match createStatement (exportJwks lib jar "") now iss (statedSub lib sub) none args with
    | .error e => (.error e, { api with jar := jar })
    | .ok p =>
      let signers := (jar.get? iss).getD []
      if signers = [] then (.error .otherError, { api with jar := jar }) else (.ok ⟨p, signers⟩, { api with jar := jar })

/-- A URL as `urlparse` and `parse_qs` give it (fs2.py 98, 102). -/
structure Url where
  netloc : String
  path : String
  sub : List String := []

/-- `_create_entity_configuration(entity_id)` (fs2.py 89-91) -/
def configuration (lib : Lib) (dir : Dir) (now : Int) (name : String) : Except PyErr Made :=
  match makeApi dir name with
  | .error e => .error e
  | .ok api => (createFor lib dir now api name []).1

/-- `_create_entity_statement(entity_id, issuer_id)` (fs2.py 93-95) -/
def statement (lib : Lib) (dir : Dir) (now : Int) (entityId issuerId : String) : Except PyErr Made :=
  match makeApi dir issuerId with
  | .error e => .error e
  | .ok api => (createFor lib dir now api entityId []).1

/-- `FSPublisher.get(url)` (fs2.py 97-106): what is served, always with status 200. A fetch without `sub` raises KeyError. -/
def publish (lib : Lib) (dir : Dir) (now : Int) (url : Url) : Except PyErr Made :=
  if url.path = "/.well-known/openid-federation" then configuration lib dir now url.netloc
  else
    match url.sub with
    | [] => .error .keyError
    | s :: _ => statement lib dir now url.netloc (lib.netloc s)

end Fed.Server.Publish
