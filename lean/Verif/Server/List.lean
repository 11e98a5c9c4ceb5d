import Verif.Server.Fetch
/-
Model of the list endpoint, /repo/src/fedservice/entity/server/list.py.
-/
namespace Fed.Server
open Fed

/-- A signed entity configuration as the list endpoint sees it: who claims to have issued it, its payload, header and signature. -/
structure Served where
  iss : String
  payload : Dict Val
  sig : Nat
deriving DecidableEq, Repr

/-- What `collect_subordinates` meets. `config`: the configuration an entity serves (or the exception of fetching it).
`verifies s jwks`: does the signature verify with a key of `jwks`? Both arbitrary. -/
structure ListWorld where
  config : String → Except PyErr Served
  verifies : Served → Val → Bool

/-- The loop of `List.collect_subordinates` (list.py 80-94). One key jar for all subordinates, filled as the loop goes; a token is verified
with the keys the jar has for the issuer the token names. Simplification: the reasons cryptojwt can have to refuse a token are the one
error `badSignature`. -/
def collectLoop (W : ListWorld) : Dict (Dict Val) → Dict (List Val) → Dict (Dict Val) → Except PyErr (Dict (Dict Val))
  | [], _, sub => .ok sub
  | (e, conf) :: rest, jar, sub =>
    match W.config e with
    | .error x => .error x
    | .ok s =>
      match conf.get? "jwks" with
      | none => .error .keyError
      | some ks =>
        let jar := jar.set e (((jar.get? e).getD []) ++ [ks])
        if ((jar.get? s.iss).getD []).any (W.verifies s) then collectLoop W rest jar (sub.set e s.payload)
        else .error .badSignature

/-- `List.collect_subordinates` (list.py 80-94). -/
def collectSubordinates (W : ListWorld) (db : Dict (Dict Val)) : Except PyErr (Dict (Dict Val)) := collectLoop W db [] []

/-- `d[k]` of a value: KeyError, or TypeError if the value is no dict (list.py 45). -/
def member (v : Val) (k : String) : Except PyErr Val :=
  match v with
  | .obj kvs => Dict.get kvs k
  | _ => .error .typeError

/-- `for trust_mark in trust_marks: if trust_mark['id'] == trust_mark_id: matched = True` (list.py 44-46). -/
def anyMark (id : Val) : List Val → Except PyErr Bool
  | [] => .ok false
  | m :: ms => do
    let i ← member m "id"
    let r ← anyMark id ms
    .ok (decide (i = id) || r)

/-- One turn of `List.filter` (list.py 31-49): is the entity with this configuration matched? -/
def filterOne (entityType trustMarkId trustMarked : Val) (conf : Dict Val) : Except PyErr Bool := do
  let m ← if entityType.truthy then do
      let md ← Dict.get conf "metadata"
      pyIn entityType md
    else .ok false
  let m := if trustMarked.truthy then conf.has "trust_marks" else m
  if trustMarkId.truthy then do
    let ms ← pyIter ((conf.get? "trust_marks").getD .null)
    anyMark trustMarkId ms
  else .ok m

/-- The loop of `List.filter` (list.py 24-50). -/
def filterLoop (entityType trustMarkId trustMarked : Val) : Dict (Dict Val) → Except PyErr (List String)
  | [] => .ok []
  | (e, conf) :: rest => do
    let m ← filterOne entityType trustMarkId trustMarked conf
    let r ← filterLoop entityType trustMarkId trustMarked rest
    .ok (if m then e :: r else r)

/-- `self.filter(subordinates=subordinate_conf, **request)` (list.py 24-50, 72): a request that has a member of the name `subordinates` or
`self` raises TypeError. -/
def filterCall (subs : Dict (Dict Val)) (request : Dict Val) : Except PyErr (List String) :=
  if request.has "subordinates" || request.has "self" then .error .typeError
  else filterLoop (param request "entity_type" (.str "")) (param request "trust_mark_id" (.str "")) (param request "trust_marked" .null) subs

/-- `d.get(k)` is there and true. -/
def flag (d : Dict Val) (k : String) : Bool := match d.get? k with | some v => v.truthy | none => false

/-- The loop over the registry (list.py 60-67). -/
def registryLoop (request : Dict Val) : Dict (Dict Val) → Except PyErr (List String)
  | [] => .ok []
  | (e, conf) :: rest =>
    if flag request "intermediate" && flag conf "intermediate" then do
      let r ← registryLoop request rest
      .ok (e :: r)
    else
      match request.get? "entity_type" with
      | none => registryLoop request rest
      | some t => do
        let types ← Dict.get conf "entity_type"
        let m ← pyIn t types
        let r ← registryLoop request rest
        .ok (if m then e :: r else r)

/-- What the endpoint answers: entity ids, or configurations by entity id (the extended form). -/
inductive ListResponse
  | ids (l : List String)
  | confs (d : Dict (Dict Val))
deriving DecidableEq, Repr

/-- `{id: subordinate_conf[id] for id in matched_entity_ids}` (list.py 75-76). -/
def confsOf (subs : Dict (Dict Val)) : List String → Except PyErr (Dict (Dict Val))
  | [] => .ok []
  | e :: es => do
    let c ← Dict.get subs e
    let r ← confsOf subs es
    .ok ((e, c) :: r)

/-- `List.process_request` (list.py 52-78). `K`: the order in which a set of entity ids is listed. The request is the dict the framework makes
of the query. -/
def list (K : SetEnum String) (W : ListWorld) (extended : Bool) (db : Dict (Dict Val)) (request : Dict Val) : Except PyErr ListResponse :=
  if request.all fun p => p.1 ∈ ["client_id", "authenticated"] then .ok (.ids db.keys)
  else do
    let matched ← registryLoop request db
    if request.has "trust_marked" || request.has "trust_mark_id" then do
      let subs ← collectSubordinates W db
      let more ← filterCall subs request
      if extended && !subs.isEmpty then do
        let r ← confsOf subs (K.enum (matched ++ more))
        .ok (.confs r)
      else .ok (.ids (K.enum (matched ++ more)))
    else .ok (.ids (K.enum matched))

end Fed.Server
