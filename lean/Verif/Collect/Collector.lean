import Verif.Statement
import Verif.Collect.Tree
import Verif.Collect.Cache
/-
Model of `TrustChainCollector`, /repo/src/fedservice/entity/function/trust_chain_collector.py.
-/
namespace Fed.Collect
open Fed

/-- What can go wrong fetching a document (`get_document`, trust_chain_collector.py 95-125). -/
inductive NetErr
  | missingPage | connectionError | failedRetrieval
deriving DecidableEq, Repr

def NetErr.toPy : NetErr → PyErr
  | .missingPage => .missingPage
  | .connectionError => .connectionError
  | .failedRetrieval => .failedConfigurationRetrieval

/-- The rest of the federation during one collection: the time, what is found as the entity configuration of an entity
(`get_entity_configuration`, trust_chain_collector.py 127-166, with its retry for tenants) and what a fetch endpoint answers
when `authority` is asked about `entity` (`get_entity_statement`, 209-225). Simplifications: the clock stands still during
one collection (`Collect/Moving` does without that); an empty answer is treated as any other answer that is not a JWS. -/
structure World where
  now : Int
  config : String → Except NetErr Doc
  fetch : (endpoint : Val) → (authority entity : String) → Except NetErr Doc

/-- The configuration of the collector: `allowed_delta` and the ids in `trust_anchors` (trust_chain_collector.py 70-89). -/
structure Params where
  delta : Int := 300
  anchors : List String

/-- Entity configurations are dictionaries with the signed JWT kept as `_jws` (trust_chain_collector.py 204, 371). -/
structure Config where
  jws : Jws
deriving DecidableEq, Repr
instance : CacheVal Config := ⟨fun c => some c.jws.payload.exp⟩

/-- The entity statement cache holds signed JWTs (strings) and expiry times (numbers) (trust_chain_collector.py 296-297). -/
inductive ESVal
  | stmt (j : Jws)
  | time (exp : Int)
deriving DecidableEq, Repr
instance : CacheVal ESVal := ⟨fun _ => none⟩

/-- `config_cache` and `entity_statement_cache` (trust_chain_collector.py 80-81). -/
structure State where
  config : Dict Config := []
  es : Dict ESVal := []
deriving DecidableEq, Repr

/-- `cache_key` (trust_chain_collector.py 60-61). -/
def cacheKey (authority entity : String) : String := authority ++ "!!" ++ entity

/-- `time_key` (trust_chain_collector.py 64-65). -/
def timeKey (authority entity : String) : String := authority ++ "!exp!" ++ entity

/-- `get_endpoint("fetch", config)` (trust_chain_collector.py 55-57). -/
def getFetchEndpoint (p : Payload) : Except PyErr (Option Val) :=
  match p.md.get? "federation_entity" with
  | none => .error .keyError
  | some fe => .ok (fe.get? "federation_fetch_endpoint")

/-- `not endpoint` is false. -/
def usableEndpoint : Option Val → Option Val
  | some v => if v.truthy then some v else none
  | none => none

/-- Fetching, verifying and caching the configuration of an entity (trust_chain_collector.py 195-205). The result is the fetch
endpoint; it is looked up before the cache is updated. -/
def refreshConfig (C : Crypto) (W : World) (st : State) (authority : String) : Except PyErr (Option Val) × State :=
  match W.config authority with
  | .error e => (.error e.toPy, st)
  | .ok none => (.error .valueError, st)
  | .ok (some j) =>
    match selfVerify C W.now j with
    | .error e => (.error e, st)
    | .ok p =>
      match getFetchEndpoint p with
      | .error e => (.error e, st)
      | .ok ep => (.ok ep, { st with config := st.config.set authority ⟨j⟩ })

/-- `get_federation_fetch_endpoint` (trust_chain_collector.py 184-207). -/
def fetchEndpoint (C : Crypto) (P : Params) (W : World) (st : State) (authority : String) :
    Except PyErr (Option Val) × State :=
  match subscript P.delta W.now st.config authority with
  | (.error e, db) => (.error e, { st with config := db })
  | (.ok none, db) => refreshConfig C W { st with config := db } authority
  | (.ok (some c), db) =>
    match getFetchEndpoint c.jws.payload with
    | .error e => (.error e, { st with config := db })
    | .ok ep =>
      match usableEndpoint ep with
      | some _ => (.ok ep, { st with config := db })
      | none => refreshConfig C W { st with config := db } authority

/-- The second half of `_get_entity_statement`: fetch the statement anew (trust_chain_collector.py 282-299). When the statement
has no `exp` it is already cached when the KeyError is raised. -/
def fetchStatement (C : Crypto) (P : Params) (W : World) (st : State) (entity authority : String) :
    Except PyErr (Option Jws) × State :=
  match fetchEndpoint C P W st authority with
  | (.error e, st) => (.error e, st)
  | (.ok ep, st) =>
    match usableEndpoint ep with
    | none => (.ok none, st)
    | some ep =>
      match W.fetch ep authority entity with
      | .error e => (.error e.toPy, st)
      | .ok none => (.error .valueError, st)
      | .ok (some j) =>
        match j.payload.exp with
        | none => (.error .keyError, { st with es := st.es.set (cacheKey authority entity) (.stmt j) })
        | some e =>
          (.ok (some j), { st with es := (st.es.set (cacheKey authority entity) (.stmt j)).set (timeKey authority entity) (.time e) })

/-- `_get_entity_statement` (trust_chain_collector.py 265-299). A cached statement whose expiry is not there, or is not a number,
raises TypeError. Simplification: an expiry time found where a statement is expected (only with identifiers that contain
`!`, see C34) raises TypeError here; the code goes on with the number and fails when it verifies the chain. -/
def getStatement (C : Crypto) (P : Params) (W : World) (st : State) (entity authority : String) :
    Except PyErr (Option Jws) × State :=
  match st.es.get? (cacheKey authority entity) with
  | none => fetchStatement C P W st entity authority
  | some (.time _) => (.error .typeError, st)
  | some (.stmt j) =>
    match st.es.get? (timeKey authority entity) with
    | some (.time e) =>
      if W.now > e - P.delta then
        fetchStatement C P W { st with es := drop (drop st.es (cacheKey authority entity)) (timeKey authority entity) } entity authority
      else (.ok (some j), st)
    | _ => (.error .typeError, st)

/-- What a branch of the tree is: nothing, or a statement with the tree of its issuer. -/
abbrev Branch := Option (Jws × Forest Jws)

/-- The loop of `collect_tree` over the authority hints (trust_chain_collector.py 257-263); `branch` stands for the call of
`collect_branch`. `seen` only leads to a log message and is left out. -/
def overHints (branch : State → String → Except PyErr Branch × State) :
    List String → Forest Jws → State → Except PyErr (Forest Jws) × State
  | [], acc, st => (.ok acc, st)
  | a :: as, acc, st =>
    match branch st a with
    | (.error e, st) => (.error e, st)
    | (.ok b, st) => overHints branch as (acc.set a b) st

/-- `collect_branch` (trust_chain_collector.py 301-341); `tree` stands for the call of `collect_tree` for the authority.
`max_superiors` is not used by the code. -/
def collectBranch (C : Crypto) (P : Params) (W : World)
    (tree : State → String → Option Payload → Except PyErr (Forest Jws) × State) (entity : String) (st : State)
    (authority : String) : Except PyErr Branch × State :=
  if entity = authority ∧ entity ∈ P.anchors then (.ok none, st)
  else
    match getStatement C P W st entity authority with
    | (.error e, st) => (.error e, st)
    | (.ok none, st) => (.ok none, st)
    | (.ok (some j), st) =>
      match subscript P.delta W.now st.config authority with
      | (.error e, db) => (.error e, { st with config := db })
      | (.ok c, db) =>
        match tree { st with config := db } authority (c.map (·.jws.payload)) with
        | (.error e, st) => (.error e, st)
        | (.ok f, st) => (.ok (some (j, f)), st)

/-- `collect_tree` (trust_chain_collector.py 227-263). `None` as configuration (an authority whose configuration is not or no
longer in the cache) raises TypeError. The recursion of the code has no bound; `fuel` is the depth the model follows it to. -/
def collectTree (C : Crypto) (P : Params) (W : World) (stopAt : String) :
    (fuel : Nat) → State → (entity : String) → Option Payload → Except PyErr (Forest Jws) × State
  | 0, st, _, _ => (.error .outOfFuel, st)
  | _ + 1, st, _, none => (.error .typeError, st)
  | n + 1, st, entity, some cfg =>
    match cfg.hints with
    | none => (.ok .nil, st)
    | some hs =>
      if cfg.iss = stopAt then (.ok .nil, st)
      else overHints (collectBranch C P W (collectTree C P W stopAt n) entity) hs .nil st

/-- `too_old` (trust_chain_collector.py 343-348), for a configuration from the cache (which has an `exp`, see
`State` invariants; without it the KeyError is modelled). -/
def tooOld (P : Params) (W : World) (c : Config) : Except PyErr Bool :=
  match c.jws.payload.exp with
  | none => .error .keyError
  | some e => .ok (decide (W.now ≥ e + P.delta))

/-- `TrustChainCollector.__call__` (trust_chain_collector.py 350-376). -/
def collect (C : Crypto) (P : Params) (W : World) (fuel : Nat) (st : State) (entity stopAt : String) :
    Except PyErr (Forest Jws × Jws) × State :=
  let cached : Except PyErr (Option Config) :=
    match st.config.get? entity with
    | none => .ok none
    | some c => match tooOld P W c with | .error e => .error e | .ok true => .ok none | .ok false => .ok (some c)
  match cached with
  | .error e => (.error e, st)
  | .ok (some c) =>
    match collectTree C P W stopAt fuel st entity (some c.jws.payload) with
    | (.error e, st) => (.error e, st)
    | (.ok f, st) => (.ok (f, c.jws), st)
  | .ok none =>
    match W.config entity with
    | .error e => (.error e.toPy, st)
    | .ok none => (.error .valueError, st)
    | .ok (some j) =>
      match selfVerify C W.now j with
      | .error e => (.error e, st)
      | .ok p =>
        match collectTree C P W stopAt fuel { st with config := st.config.set entity ⟨j⟩ } entity (some p) with
        | (.error e, st) => (.error e, st)
        | (.ok f, st) => (.ok (f, j), st)

end Fed.Collect
