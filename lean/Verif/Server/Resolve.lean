import Verif.Server.Create
import Verif.Chains.Model
/-
Model of the resolve endpoint, /repo/src/fedservice/entity/server/resolve.py, and of `get_chain` of the collector,
/repo/src/fedservice/entity/function/trust_chain_collector.py.
-/
namespace Fed.Server
open Fed Fed.Verify Fed.Chains

/-- The resolver: its entity id and the export of its own keys. `compact`: the compact form of a signed JWT. -/
structure Resolver where
  entityId : String
  ownKeys : Val
  compact : Jws → Val

/-- A resolve request. -/
structure ResolveRequest where
  sub : Option String := none
  anchor : Option String := none
  type : Option String := none
deriving DecidableEq, Repr

/-- `self.config_cache[entity]['_jws']` (trust_chain_collector.py 391, 397): `None['_jws']` raises TypeError. -/
def cachedConfig (R : Resolver) (P : Collect.Params) (W : Collect.World) (st : Collect.State) (entity : String) : Except PyErr Val × Collect.State :=
  match Collect.subscript P.delta W.now st.config entity with
  | (.error e, db) => (.error e, { st with config := db })
  | (.ok none, db) => (.error .typeError, { st with config := db })
  | (.ok (some c), db) => (.ok (R.compact c.jws), { st with config := db })

/-- `self.entity_statement_cache[cache_key(authority, entity)]` (trust_chain_collector.py 394): `None` if not cached. -/
def cachedStatement (R : Resolver) (st : Collect.State) (authority entity : String) : Val :=
  match st.es.get? (Collect.cacheKey authority entity) with
  | none => .null
  | some (.stmt j) => R.compact j
  | some (.time e) => .int e

/-- The loop over the issuers (trust_chain_collector.py 393-394). -/
def statementsUp (R : Resolver) (st : Collect.State) : List String → List Val
  | e :: a :: rest => cachedStatement R st a e :: statementsUp R st (a :: rest)
  | _ => []

/-- `TrustChainCollector.get_chain` (trust_chain_collector.py 389-398). -/
def getChain (R : Resolver) (P : Collect.Params) (W : Collect.World) (st : Collect.State) (issPath : List String) (anchor : String) (withTa : Bool) :
    Except PyErr (List Val) × Collect.State :=
  match issPath with
  | [] => (.error .indexError, st)
  | leaf :: rest =>
    match cachedConfig R P W st leaf with
    | (.error e, st) => (.error e, st)
    | (.ok ec, st) =>
      let res := ec :: statementsUp R st (leaf :: rest)
      if withTa then
        match cachedConfig R P W st anchor with
        | (.error e, st) => (.error e, st)
        | (.ok ta, st) => (.ok (res ++ [ta]), st)
      else (.ok res, st)

/-- The metadata the response states (resolve.py 46-49); a chain that is `None` raises AttributeError. -/
def chosenMetadata (chain : Option TrustChain) (type : Option String) : Except PyErr (Dict Val) :=
  match chain with
  | none => .error .attributeError
  | some tc =>
    match type with
    | none => .ok tc.metadata
    | some t => do
      let v ← Dict.get tc.metadata t
      .ok [(t, v)]

/-- `Resolve.process_request` (resolve.py 28-59): the payload of the response and the entity's state afterwards. -/
def resolve (R : Resolver) (V : Env) (st : State) (req : ResolveRequest) (withTa : Bool := false) : Except PyErr (Dict Val) × State :=
  match req.anchor with
  | none => (.error .keyError, st)
  | some anchor =>
    match req.sub with
    | none => (.error .keyError, st)
    | some sub =>
      match getVerified V st sub anchor with
      | (.error e, st) => (.error e, st)
      | (.ok tcs, st) =>
        let chain := tcs.find? fun tc => decide (anchor = tc.anchor)
        match chosenMetadata chain req.type with
        | .error e => (.error e, st)
        | .ok md =>
          match chain with
          | none => (.error .attributeError, st)
          | some tc =>
            match getChain R V.P V.W st.coll tc.issPath anchor withTa with
            | (.error e, coll) => (.error e, { st with coll := coll })
            | (.ok ch, coll) =>
              (createStatement R.ownKeys V.W.now R.entityId sub none [("metadata", .obj md), ("trust_chain", .arr ch)], { st with coll := coll })

end Fed.Server
