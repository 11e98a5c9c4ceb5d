import Verif.Server.Roles
import Verif.Chains.Model
/-
What becomes of the settings of a federation entity: `FederationContext.__init__` (/repo/src/fedservice/entity/context.py 34-98), `FederationEntity.__init__`
(/repo/src/fedservice/entity/__init__.py 33-99), `FederationServiceContext.__init__` (/repo/src/fedservice/entity/client/__init__.py 34-64) and the end of `make_federation_entity` and
`make_federation_combo` (/repo/src/fedservice/utils.py 103-172, 175-282).
-/
namespace Fed.Config.Settings
open Fed Fed.Server Fed.Server.Context

/-- Settings, as arguments or in a configuration. Missing ones are `none`, `0`, or `nothing`. -/
structure Given where
  lifetime : Int := 0
  priority : Option (List String) := none
  marks : Source := .nothing
  roots : Source := .nothing
  hints : Source := .nothing

/-- A `FederationContext`: what statements are made with, and the order of preference among trust anchors. -/
structure Made where
  ctx : Ctx
  priority : List String

/-- `x or config.get(name, default)` (context.py 57-61). -/
def orElse (x y default : Source) : Source := if x.given then x else if y = .nothing then default else y

/-- The keys of the trusted roots (context.py 74). What is no dict has no `keys`. -/
def rootKeys : Val → Except PyErr (List String)
  | .obj d => .ok (Dict.keys d)
  | _ => .error .attributeError

/-- Insertion in order, for `sorted(set(…))`. -/
def insertIn (x : String) : List String → List String
  | [] => [x]
  | y :: ys => if x = y then y :: ys else if x < y then x :: y :: ys else y :: insertIn x ys

def sorted (xs : List String) : List String := xs.foldr insertIn []

/-- `FederationContext.__init__` (context.py 34-98). `lifetime` has the default 86400 for the argument, so that it is 0 only if so given. `trPriority`: `tr_priority` among the further arguments, which is
put in the place of whatever there is (76-84). What the settings say about keys, preferences and client authentication is left out. -/
def initContext (files : Dict Val) (entityId : String) (ownKeys : Val) (arg : Given) (config : Given) (trPriority : Option (List String)) : Except PyErr Made :=
  let ctx : Ctx := {
    entityId := entityId, ownKeys := ownKeys, defaultLifetime := if arg.lifetime ≠ 0 then arg.lifetime else config.lifetime,
    marks := orElse arg.marks config.marks (.value (.arr [])), roots := orElse arg.roots config.roots (.value (.obj [])), hints := orElse arg.hints config.hints (.value (.arr [])) }
  let priority : Except PyErr (List String) := match arg.priority, config.priority with
    | some (x :: xs), _ => .ok (x :: xs)
    | _, some p => .ok p
    | _, none => do
      let r ← getRoots files ctx
      let ks ← rootKeys r
      pure (sorted ks)
  match priority with
  | .error e => .error e
  | .ok p => .ok ⟨ctx, trPriority.getD p⟩

/-- A federation entity: its context, the preferences it was given, and what has been put on its context. -/
structure Entity where
  made : Made
  prefer : Dict Val := []
  attributes : Dict Val := []

/-- `FederationEntity(entity_id=…, authority_hints=…, preference=…, **kwargs)` (entity/__init__.py 33-99): `settings` but for the authority hints are among the `kwargs`, which are not looked at again (76-78). -/
def makeEntity (files : Dict Val) (entityId : String) (ownKeys : Val) (settings : Given) (preference : Dict Val) : Except PyErr Entity :=
  match initContext files entityId ownKeys { lifetime := 86400, hints := settings.hints } {} none with
  | .error e => .error e
  | .ok m => .ok { made := m, prefer := preference }

/-- The context of the client part of a federation entity (entity/client/__init__.py 34-64; made in 163-167): with the configuration of the client, and its arguments `trust_marks` and `priority`. Trusted roots
that are no dict have no `items` (63). -/
def makeClient (files : Dict Val) (entityId : String) (ownKeys : Val) (arg : Given) (config : Given) : Except PyErr Made :=
  match initContext files entityId ownKeys { lifetime := 86400, marks := arg.marks } config arg.priority with
  | .error e => .error e
  | .ok m =>
    match m.ctx.roots with
    | .value (.obj _) => .ok m
    | _ => .error .attributeError

/-- The arguments of `make_federation_combo` (utils.py 175-195) and `make_federation_entity` that matter here. Something with a `class` is represented by what it makes. `parts`: the other roles of the entity. -/
structure Spec where
  entityId : String
  ownKeys : Val
  preference : Dict Val := []
  hints : Source := .nothing
  marks : Source := .nothing
  markIssuers : Val := .null
  markOwner : Val := .null
  parts : Dict Roles.Part := []

/-- `if value: federation_entity.context.name = value` (utils.py 256-266). -/
def putAttr (attrs : Dict Val) (name : String) (v : Val) : Dict Val := if v.truthy then attrs.set name v else attrs

/-- `make_federation_combo` (utils.py 175-282; `make_federation_entity`, 103-172, has no issuers or owners of trust marks). -/
def makeCombo (files : Dict Val) (s : Spec) : Except PyErr Entity :=
  match makeEntity files s.entityId s.ownKeys { hints := s.hints } s.preference with
  | .error e => .error e
  | .ok e => .ok { e with
      made := if s.marks.given then { e.made with ctx := { e.made.ctx with marks := s.marks } } else e.made
      attributes := putAttr (putAttr e.attributes "trust_mark_issuers" s.markIssuers) "trust_mark_owner" s.markOwner }

/-- The claims that are both supported by a federation entity (/repo/src/fedservice/entity/claims.py 90-99) and in its metadata schema (/repo/src/fedservice/message.py 95-118). -/
def claims : List String := ["organization_name", "contacts", "homepage_uri", "trust_mark_owners", "trust_mark_issuers"]

/-- The preferences that are such claims. -/
def preferred (prefer : Dict Val) : Dict Val := prefer.filter fun x => x.1 ∈ claims

/-- The metadata as a federation entity (entity/__init__.py 156-164). Assumed of idpyoidc's `get_server_metadata`: it gives the preferences that are claims of the schema, and the endpoints; nothing else of the
context goes into it. -/
def ownMetadata (e : Entity) (endpoints : Dict Val) : Dict Val := (preferred e.prefer).update endpoints

/-- The configuration that the entity publishes (entity/server/entity_configuration.py 31-57), its other roles being `parts`. -/
def publish (files : Dict Val) (e : Entity) (now : Int) (endpoints : Dict Val) (parts : Dict Roles.Part) : Except PyErr (Dict Val) :=
  Roles.configuration files e.made.ctx now (some (("federation_entity", .federation (ownMetadata e endpoints)) :: parts)) []

end Fed.Config.Settings
