import Verif.Server.Create
/-
Model of the fetch endpoint, /repo/src/fedservice/entity/server/fetch.py, and of the entity configuration endpoint,
/repo/src/fedservice/entity/server/entity_configuration.py.
-/
namespace Fed.Server
open Fed

/-- An entity that acts as an authority: its id, the export of its own keys, its metadata, its authority hints, its subordinates and
policies (/repo/src/fedservice/entity/server/__init__.py 69-81). Simplification: both registries are plain dicts. -/
structure Authority where
  entityId : String
  ownKeys : Val
  metadata : Val := .null
  hints : Val := .null
  subordinate : Dict (Dict Val) := []
  policy : Dict (Dict Val) := []
deriving DecidableEq, Repr

/-- A fetch request. -/
structure FetchRequest where
  iss : Option String := none
  sub : Option String := none
deriving DecidableEq, Repr

/-- `_issuer` (fetch.py 29-31). -/
def FetchRequest.issuer (r : FetchRequest) (A : Authority) : String :=
  match r.iss with
  | some i => if i ≠ "" then i else A.entityId
  | none => A.entityId

/-- The statement about itself (fetch.py 36-43). -/
def ownStatement (A : Authority) (now : Int) : Except PyErr (Dict Val) :=
  createStatement A.ownKeys now A.entityId A.entityId none [("metadata", A.metadata), ("authority_hints", A.hints)]

/-- Policies by entity type (fetch.py 62-72): the metadata and the metadata policy, each by entity type. -/
def typePolicies (policy : Dict (Dict Val)) : List Val → Dict Val → Dict Val → Except PyErr (Dict Val × Dict Val)
  | [], md, mp => .ok (md, mp)
  | t :: ts, md, mp =>
    match t with
    | .str s =>
      match policy.get? s with
      | none => typePolicies policy ts md mp
      | some p =>
        let md := match p.get? "metadata" with | some v => md.set s v | none => md
        let mp := match p.get? "metadata_policy" with | some v => mp.set s v | none => mp
        typePolicies policy ts md mp
    | _ => if t.hashable then typePolicies policy ts md mp else .error .typeError

/-- `{k: v for k, v in _response.items() if k != 'entity_types'}` (fetch.py 61). -/
def dropTypes (r : Dict Val) : Dict Val := r.filter fun p => p.1 ≠ "entity_types"

/-- Adding itself as authority (fetch.py 53-55). -/
def addHints (issuer : String) (r : Dict Val) : Dict Val :=
  if r.has "authority_hints" then r else r.set "authority_hints" (.arr [.str issuer])

/-- The keyword arguments for the statement (fetch.py 57-78), and what the subordinate's entry is afterwards: an entity specific policy is
merged into the entry itself, policies by entity type into a copy. -/
def withPolicies (A : Authority) (sub : String) (r : Dict Val) : Except PyErr (Dict Val) × Dict Val :=
  match A.policy.get? sub with
  | some (p :: ps) => (.ok (r.update (p :: ps)), r.update (p :: ps))
  | _ =>
    match r.get? "entity_types" with
    | none => (.ok r, r)
    | some types =>
      match pyIter types with
      | .error e => (.error e, r)
      | .ok ts =>
        match typePolicies A.policy ts [] [] with
        | .error e => (.error e, r)
        | .ok ([], []) => (.ok (dropTypes r), r)
        | .ok (md, mp) => (.ok (Dict.update (dropTypes r) [("metadata", .obj md), ("metadata_policy", .obj mp)]), r)

/-- `Fetch.process_request` (fetch.py 27-85): the payload of the statement, and the registries afterwards. The request is the dict the
framework makes of the query. -/
def fetch (A : Authority) (now : Int) (req : FetchRequest) : Except PyErr (Dict Val) × Authority :=
  let issuer := req.issuer A
  match req.sub with
  | none => (ownStatement A now, A)
  | some sub =>
    if sub = "" ∨ sub = issuer then (ownStatement A now, A)
    else
      match A.subordinate.get? sub with
      | none => (.error .unknownEntity, A)
      | some [] => (.error .unknownEntity, A)
      | some (x :: xs) =>
        match withPolicies A sub (addHints issuer (x :: xs)) with
        | (.error e, r) => (.error e, { A with subordinate := A.subordinate.set sub r })
        | (.ok kwargs, r) => (createStatement A.ownKeys now issuer sub none kwargs, { A with subordinate := A.subordinate.set sub r })

/-- `EntityConfiguration.process_request` (entity_configuration.py 31-56). `metadata`: that of the combined entity if there is one, else its
own; `trustMarks`: the trust marks of the context, `null` or empty if none (a callable is represented by its result). -/
def entityConfiguration (A : Authority) (now : Int) (trustMarks : Val) : Except PyErr (Dict Val) :=
  createStatement A.ownKeys now A.entityId A.entityId none
    ([("metadata", A.metadata), ("authority_hints", A.hints)] ++ (if trustMarks.truthy then [("trust_marks", trustMarks)] else []))

end Fed.Server
