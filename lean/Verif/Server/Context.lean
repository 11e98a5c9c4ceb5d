import Verif.Server.Create
/-
Model of the context of a federation entity, /repo/src/fedservice/entity/context.py: where authority hints and trust marks come from, and the
statements made with them; of the entity configuration endpoint, /repo/src/fedservice/entity/server/entity_configuration.py, as far as it reads
the context; of self-signed trust marks, /repo/src/fedservice/trust_mark_entity/entity.py 151-205; and of the statement that answers an explicit registration,
/repo/src/fedservice/appserver/oidc/registration.py 76-83 and /repo/src/fedservice/appserver/oauth2/registration.py 87-93.
-/
namespace Fed.Server.Context
open Fed Fed.Server

/-- The ways to give authority hints, trust marks or trusted roots (context.py 36-44): nothing, the value itself, the name of a file, or
something to call, represented by what it returns. -/
inductive Source
  | nothing
  | value (v : Val)
  | file (name : String)
  | call (result : Val)
deriving DecidableEq

/-- A federation entity, as far as its context goes (context.py 34-66). Simplification: what is in the source named `value` is a list (a dict
for trusted roots), as the types of the parameters say. -/
structure Ctx where
  entityId : String
  ownKeys : Val
  hints : Source := .value (.arr [])
  marks : Source := .value (.arr [])
  roots : Source := .value (.obj [])
  defaultLifetime : Int := 86400
deriving DecidableEq

/-- `json.loads(open(name).read())`: what a file has; opening a missing one raises FileNotFoundError. -/
def readFile (files : Dict Val) (name : String) : Except PyErr Val :=
  match files.get? name with
  | some v => .ok v
  | none => .error .otherError

/-- `get_authority_hints` (context.py 141-150). `None` is neither list, string nor callable. -/
def getHints (files : Dict Val) (c : Ctx) : Except PyErr Val :=
  match c.hints with
  | .value v => .ok v
  | .file n => readFile files n
  | .call v => .ok v
  | .nothing => .error .valueError

/-- `get_trust_marks` (context.py 165-175). -/
def getMarks (files : Dict Val) (c : Ctx) : Except PyErr Val :=
  match c.marks with
  | .nothing => .ok (.arr [])
  | .file n => readFile files n
  | .value v => .ok v
  | .call v => .ok v

/-- `get_trusted_roots` (context.py 152-163). -/
def getRoots (files : Dict Val) (c : Ctx) : Except PyErr Val :=
  match c.roots with
  | .nothing => .ok (.obj [])
  | .file n => readFile files n
  | .value v => .ok v
  | .call v => .ok v

/-- Adding `authority_hints` as the context has them, without looking into files (context.py 117-118): the argument, and for something to call what it returns,
since `create_entity_statement` calls it (entity_statement/create.py 36-40). -/
def rawHints : Source → Option Val × Val
  | .nothing => (none, .null)
  | .value v => (none, v)
  | .file n => (none, .str n)
  | .call v => (some v, .null)

/-- A dict without one key. -/
def without (d : Dict Val) (k : String) : Dict Val := d.filter fun p => p.1 ≠ k

/-- `kwargs["jwks"] = {'keys': kwargs["keys"]}; del kwargs["keys"]` if there are `keys` (context.py 111-113). -/
def wrapKeys (d : Dict Val) : Dict Val :=
  match d.get? "keys" with
  | some ks => (without d "keys").set "jwks" (.obj [("keys", ks)])
  | none => d

/-- The keys to state (context.py 108-113): `jwks` if it is true, else the claim `keys` wrapped, else nothing. -/
def keyArgs (kwargs : Dict Val) : Dict Val :=
  match kwargs.get? "jwks" with
  | some v => if v.truthy then (without kwargs "jwks").set "jwks" v else wrapKeys (without kwargs "jwks")
  | none => wrapKeys (without kwargs "jwks")

/-- The trust marks (context.py 122-126): those given, else those of the entity itself. -/
def markArgs (files : Dict Val) (c : Ctx) (kwargs : Dict Val) : Except PyErr (Dict Val) :=
  if ((kwargs.get? "trust_marks").getD .null).truthy then .ok kwargs
  else
    match getMarks files c with
    | .error e => .error e
    | .ok ms => .ok (if ms.truthy then kwargs.set "trust_marks" ms else kwargs)

/-- The lifetime: the one given unless 0 or missing, else the default one (context.py 119-120). -/
def lifetimeArg (c : Ctx) (kwargs : Dict Val) : Val :=
  let l := (kwargs.get? "lifetime").getD (.int 0)
  if l.truthy then l else .int c.defaultLifetime

/-- `FederationContext.create_entity_statement(iss, sub, **kwargs)` (context.py 106-130), the key jar being the entity's own. -/
def ctxStatement (files : Dict Val) (c : Ctx) (now : Int) (iss sub : String) (kwargs : Dict Val) : Except PyErr (Dict Val) :=
  let given := (kwargs.get? "authority_hints").getD .null
  let (fn, hints) := if given.truthy then (none, given) else rawHints c.hints
  match markArgs files c (keyArgs kwargs) with
  | .error e => .error e
  | .ok kw => createStatement c.ownKeys now iss sub fn ((kw.set "authority_hints" hints).set "lifetime" (lifetimeArg c kwargs))

/-- Is there something in the source (`if _fed_entity.context.trust_marks`, entity_configuration.py 41)? -/
def Source.given : Source → Bool
  | .nothing => false
  | .value v => v.truthy
  | .file n => n != ""
  | .call _ => true

/-- The trust marks as the entity configuration endpoint takes them (entity_configuration.py 41-47): something to call is called, all else is used as
it is. -/
def endpointMarks (c : Ctx) : Dict Val :=
  if c.marks.given then
    match c.marks with
    | .call v => [("trust_marks", v)]
    | .value v => [("trust_marks", v)]
    | .file n => [("trust_marks", .str n)]
    | .nothing => []
  else []

/-- `EntityConfiguration.process_request` (entity_configuration.py 31-57). -/
def configuration (files : Dict Val) (c : Ctx) (now : Int) (metadata : Val) : Except PyErr (Dict Val) :=
  match getHints files c with
  | .error e => .error e
  | .ok hints => createStatement c.ownKeys now c.entityId c.entityId none ([("metadata", metadata), ("authority_hints", hints)] ++ endpointMarks c)

/-- The response to an explicit registration (appserver/oidc/registration.py 76-83): a statement about the client. The OAuth endpoint gives no `authority_hints`
(appserver/oauth2/registration.py 87-93). -/
def registrationResponse (files : Dict Val) (c : Ctx) (now : Int) (oidc : Bool) (client anchor : String) (metadata : Val) : Except PyErr (Dict Val) :=
  let args : Dict Val := [("trust_anchor_id", .str anchor), ("metadata", metadata), ("aud", .str client)]
  if oidc then
    match getHints files c with
    | .error e => .error e
    | .ok hints => ctxStatement files c now c.entityId client (args ++ [("authority_hints", hints)])
  else ctxStatement files c now c.entityId client args

/-! ## Self-signed trust marks -/

/-- An entity with a `SelfSignedTrustMarkEntity` (trust_mark_entity/entity.py 154-170): its context, the specifications of the marks, and the marks issued.
The lifetime is fixed (line 170). A signed mark is represented by its payload. -/
structure Signer where
  ctx : Ctx
  spec : Dict (Dict Val)
  issued : List (Dict Val) := []
deriving DecidableEq

/-- 30 days (trust_mark_entity/entity.py 170). -/
def markLifetime : Int := 86400 * 30

/-- `SelfSignedTrustMarkEntity.__call__(id, **kwargs)` (trust_mark_entity/entity.py 172-205): the mark, and the entity afterwards. A second `id` among the arguments raises
TypeError. A source of trust marks that is not a list has no `append`. -/
def selfSign (s : Signer) (now : Int) (id : String) (kwargs : Dict Val) : Except PyErr (Dict Val) × Signer :=
  if kwargs.has "id" then (.error .typeError, s)
  else
    match s.spec.get? id with
    | none => (.error .valueError, s)
    | some spec =>
      let content := (Dict.update spec [("iat", .int now), ("id", .str id), ("sub", .str s.ctx.entityId), ("exp", .int (now + markLifetime))]).update kwargs
      let s := { s with issued := s.issued ++ [content] }
      match pack now s.ctx.entityId (.int 0) content with
      | .error e => (.error e, s)
      | .ok mark =>
        match s.ctx.marks with
        | .value (.arr ms) => (.ok mark, { s with ctx := { s.ctx with marks := .value (.arr (ms ++ [.obj mark])) } })
        | _ => (.error .attributeError, s)

/-- A history of such calls. -/
def selfSignAll : Signer → List (Int × String × Dict Val) → Signer
  | s, [] => s
  | s, (now, id, kw) :: rs => selfSignAll (selfSign s now id kw).2 rs

end Fed.Server.Context
