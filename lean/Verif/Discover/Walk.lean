import Verif.Collect.Mixed
import Verif.Discover.Endpoint
/-
Model of what asking other entities does to what an entity keeps: the collector (/repo/src/fedservice/entity/function/trust_chain_collector.py) with a configuration cache that the client writes to as
well, requests for configurations, statements and lists (/repo/src/fedservice/entity/client/entity_configuration.py, entity_statement.py, list.py, __init__.py 285-311), and `FederationEntity.trawl`
(/repo/src/fedservice/entity/__init__.py 316-359) with the keys and configurations it leaves behind.
-/
namespace Fed.Discover.Walk
open Fed Fed.Collect Fed.Collect.Mixed Fed.Verify Fed.Chains

/-- The settings of the entity, and what is left open about the libraries. `noKeys`: what is done with an answer when no key is held that could verify it; `attr`: does the message an answer was
parsed into have an attribute `_jws`, the token (trust_chain_collector.py 359)? -/
structure Setup where
  L : Lib
  P : Params
  fuel : Nat
  E : SetEnum Val
  K : SetEnum String
  noKeys : Jws → Bool
  attr : Bool
  priority : List String
  text : Option Val → String

/-- The rest of the federation while one thing is done: what the collector finds (`W`), and the answers to requests of the client: for a configuration at the well-known location of an entity, for a
statement at a fetch endpoint, and for a list at some address, of an entity type and of intermediates. A failed request, also one with an error message as answer, is an error. -/
structure Web where
  W : World
  config : String → Except PyErr Doc
  fetch : (endpoint : Val) → (issuer subject : String) → Except PyErr Doc
  list : (url : String) → (type : Option String) → (intermediate : Bool) → Except PyErr (Option (List String))

/-- What the entity keeps: the two caches of the collector and the key jar. -/
structure Ent where
  cache : Cache := []
  es : Dict ESVal := []
  jar : KeyJar

/-! ### The collector -/

/-- The caches of the collector. -/
structure Caches where
  cache : Cache := []
  es : Dict ESVal := []

/-- The second half of `_get_entity_statement` (trust_chain_collector.py 282-299), as `Collect.fetchStatement`. -/
def fetchStatement (S : Setup) (W : World) (st : Caches) (entity authority : String) : Except PyErr (Option Jws) × Caches :=
  match endpoint S.L.toCrypto S.P W st.cache authority with
  | (.error e, db) => (.error e, { st with cache := db })
  | (.ok ep, db) =>
    match usableEndpoint ep with
    | none => (.ok none, { st with cache := db })
    | some ep =>
      match W.fetch ep authority entity with
      | .error e => (.error e.toPy, { st with cache := db })
      | .ok none => (.error .valueError, { st with cache := db })
      | .ok (some j) =>
        match j.payload.exp with
        | none => (.error .keyError, ⟨db, st.es.set (cacheKey authority entity) (.stmt j)⟩)
        | some e => (.ok (some j), ⟨db, (st.es.set (cacheKey authority entity) (.stmt j)).set (timeKey authority entity) (.time e)⟩)

/-- `_get_entity_statement` (trust_chain_collector.py 265-299), as `Collect.getStatement`. -/
def getStatement (S : Setup) (W : World) (st : Caches) (entity authority : String) : Except PyErr (Option Jws) × Caches :=
  match st.es.get? (cacheKey authority entity) with
  | none => fetchStatement S W st entity authority
  | some (.time _) => (.error .typeError, st)
  | some (.stmt j) =>
    match st.es.get? (timeKey authority entity) with
    | some (.time e) =>
      if W.now > e - S.P.delta then
        fetchStatement S W { st with es := drop (drop st.es (cacheKey authority entity)) (timeKey authority entity) } entity authority
      else (.ok (some j), st)
    | _ => (.error .typeError, st)

/-- The loop of `collect_tree` over the authority hints (trust_chain_collector.py 257-263). -/
def overHints (branch : Caches → String → Except PyErr Branch × Caches) : List String → Forest Jws → Caches → Except PyErr (Forest Jws) × Caches
  | [], acc, st => (.ok acc, st)
  | a :: as, acc, st =>
    match branch st a with
    | (.error e, st) => (.error e, st)
    | (.ok b, st) => overHints branch as (acc.set a b) st

/-- `collect_branch` (trust_chain_collector.py 301-341). -/
def collectBranch (S : Setup) (W : World) (tree : Caches → String → Option Payload → Except PyErr (Forest Jws) × Caches) (entity : String) (st : Caches) (authority : String) :
    Except PyErr Branch × Caches :=
  if entity = authority ∧ entity ∈ S.P.anchors then (.ok none, st)
  else
    match getStatement S W st entity authority with
    | (.error e, st) => (.error e, st)
    | (.ok none, st) => (.ok none, st)
    | (.ok (some j), st) =>
      match subscript S.P.delta W.now st.cache authority with
      | (.error e, db) => (.error e, { st with cache := db })
      | (.ok c, db) =>
        match tree { st with cache := db } authority (c.map (·.jws.payload)) with
        | (.error e, st) => (.error e, st)
        | (.ok f, st) => (.ok (some (j, f)), st)

/-- `collect_tree` (trust_chain_collector.py 227-263). -/
def collectTree (S : Setup) (W : World) (stopAt : String) : (fuel : Nat) → Caches → (entity : String) → Option Payload → Except PyErr (Forest Jws) × Caches
  | 0, st, _, _ => (.error .outOfFuel, st)
  | _ + 1, st, _, none => (.error .typeError, st)
  | n + 1, st, entity, some cfg =>
    match cfg.hints with
    | none => (.ok .nil, st)
    | some hs =>
      if cfg.iss = stopAt then (.ok .nil, st)
      else overHints (collectBranch S W (collectTree S W stopAt n) entity) hs .nil st

/-- The signed configuration of a cached one (trust_chain_collector.py 355-361): `_jws` among its members, or else the attribute. Simplification: an answer has no claim of the name `_jws`. -/
def signed (S : Setup) : Entry → Except PyErr Jws
  | .fetched j => .ok j
  | .answered j => if S.attr then .ok j else .error .attributeError

/-- `TrustChainCollector.__call__` (trust_chain_collector.py 350-376). -/
def collect (S : Setup) (W : World) (st : Caches) (entity stopAt : String) : Except PyErr (Forest Jws × Jws) × Caches :=
  let cached : Except PyErr (Option (Jws × Payload)) :=
    match st.cache.get? entity with
    | none => .ok none
    | some c =>
      match tooOld S.P W ⟨c.jws⟩ with
      | .error e => .error e
      | .ok true => .ok none
      | .ok false => match signed S c with | .error e => .error e | .ok j => .ok (some (j, c.jws.payload))
  match cached with
  | .error e => (.error e, st)
  | .ok (some (j, p)) =>
    match collectTree S W stopAt S.fuel st entity (some p) with
    | (.error e, st) => (.error e, st)
    | (.ok f, st) => (.ok (f, j), st)
  | .ok none =>
    match W.config entity with
    | .error e => (.error e.toPy, st)
    | .ok none => (.error .valueError, st)
    | .ok (some j) =>
      match selfVerify S.L.toCrypto W.now j with
      | .error e => (.error e, st)
      | .ok p =>
        match collectTree S W stopAt S.fuel { st with cache := st.cache.set entity (.fetched j) } entity (some p) with
        | (.error e, st) => (.error e, st)
        | (.ok f, st) => (.ok (f, j), st)

/-- `get_verified_trust_chains` (/repo/src/fedservice/entity/function/__init__.py 154-161 with `collect_trust_chains` 65-98). -/
def getVerified (S : Setup) (W : World) (st : Ent) (entity : String) (stopAt : String := "") : Except PyErr (List TrustChain) × Ent :=
  match collect S W ⟨st.cache, st.es⟩ entity stopAt with
  | (.error e, c) => (.error e, ⟨c.cache, c.es, st.jar⟩)
  | (.ok (f, ec), c) =>
    match verifyChains S.L ((tree2chains f).map fun c => c.map some ++ [some ec]) st.jar with
    | (.error e, jar) => (.error e, ⟨c.cache, c.es, jar⟩)
    | (.ok tcs, jar) =>
      match applyPolicies S.E S.K tcs with
      | .error e => (.error e, ⟨c.cache, c.es, jar⟩)
      | .ok tcs => (.ok tcs, ⟨c.cache, c.es, jar⟩)

/-! ### Requests -/

/-- What an answer is parsed into (idpyoidc's `parse_response` for `jwt` and `jose` bodies): its payload, if it verifies with a key held for the issuer it names. Simplification: an answer that is no
JWS is an error, and so is left out what the message class checks of the claims: neither `EntityStatement.verify` (message.py 422-445) nor the arguments it is given (entity/service.py 11-42) make it
compare issuer or subject with what was asked for; it is assumed that the class it inherits from does not either. -/
def parsed (S : Setup) (now : Int) (jar : KeyJar) : Doc → Except PyErr Jws
  | none => .error .valueError
  | some j =>
    let keys := verifyKeys S.L jar j
    if keys.isEmpty then (if S.noKeys j then .ok j else .error .badSignature)
    else if keys.any (S.L.verifies j) && S.L.current now j then .ok j else .error .badSignature

/-- `do_request("entity_configuration", entity_id=…)` (client/__init__.py 287-312, entity_configuration.py 51-118): the answer is kept under the issuer it names. -/
def askConfiguration (S : Setup) (w : Web) (st : Ent) (entity : String) : Except PyErr Payload × Ent :=
  match w.config entity with
  | .error e => (.error e, st)
  | .ok d =>
    match parsed S w.W.now st.jar d with
    | .error e => (.error e, st)
    | .ok j => (.ok j.payload, { st with cache := answered st.cache j })

/-- `do_request("entity_statement", issuer=…, subject=…)` (entity_statement.py 49-97): the fetch endpoint is in the configuration of the issuer, from the cache or asked for. An entry of the cache that
is about to expire is `None`, whose subscript raises TypeError. -/
def askStatement (S : Setup) (w : Web) (st : Ent) (issuer subject : String) : Except PyErr Payload × Ent :=
  let r : Except PyErr Payload × Ent :=
    if Dict.has st.cache issuer then
      match subscript S.P.delta w.W.now st.cache issuer with
      | (.error e, db) => (.error e, { st with cache := db })
      | (.ok none, db) => (.error .typeError, { st with cache := db })
      | (.ok (some c), db) => (.ok c.jws.payload, { st with cache := db })
    else askConfiguration S w st issuer
  match r with
  | (.error e, st) => (.error e, st)
  | (.ok ec, st) =>
    match getFetchEndpoint ec with
    | .error e => (.error e, st)
    | .ok none => (.error .keyError, st)
    | .ok (some ep) =>
      if ep.truthy then
        match w.fetch ep issuer subject with
        | .error e => (.error e, st)
        | .ok d =>
          match parsed S w.W.now st.jar d with
          | .error e => (.error e, st)
          | .ok j => (.ok j.payload, st)
      else (.error .attributeError, st)

/-- `get_verified_endpoint` (/repo/src/fedservice/entity/function/trust_anchor.py 18-35), as `Discover.verifiedEndpoint`. -/
def verifiedEndpoint (S : Setup) (w : Web) (st : Ent) (entity name : String) : Except PyErr (Option Val) × Ent :=
  if entity ∈ S.P.anchors then
    match anchorStatement ⟨S.L, S.P, w.W, S.fuel, S.E, S.K⟩ S.noKeys st.jar entity with
    | .error e => (.error e, st)
    | .ok p =>
      match p.metadata with
      | none => (.ok none, st)
      | some md =>
        match Dict.get? md "federation_entity" with
        | none => (.ok none, st)
        | some fe => (.ok (Dict.get? fe name), st)
  else
    match getVerified S w.W st entity with
    | (.error e, st) => (.error e, st)
    | (.ok tcs, st) =>
      match pickTrustChain S.priority tcs with
      | .error e => (.error e, st)
      | .ok tc =>
        match Dict.get? tc.metadata "federation_entity" with
        | none => (.ok none, st)
        | some (.obj fe) => (.ok (Dict.get? fe name), st)
        | some _ => (.error .attributeError, st)

/-- `do_request("list", entity_id=…, …)` (list.py 35-58). -/
def askList (S : Setup) (w : Web) (st : Ent) (entity : String) (type : Option String) (intermediate : Bool) : Except PyErr (Option (List String)) × Ent :=
  match verifiedEndpoint S w st entity "federation_list_endpoint" with
  | (.error e, st) => (.error e, st)
  | (.ok v, st) => (w.list (S.text v) type intermediate, st)

/-! ### The walk -/

/-- `import_jwks(keyjar, jwks, sub)`: the keys are added to those of the subject. -/
def importKeys (jar : KeyJar) (sub : String) (ks : List Key) : KeyJar := jar.set sub (jar.keysOf sub ++ ks)

/-- The configuration of a subordinate (entity/__init__.py 317-327, and the subscript in 329): the cached one, or else the superior is asked for its statement, the keys in it are recorded for the
subject it names, and the configuration is asked for. -/
def lookUp (S : Setup) (w : Web) (st : Ent) (superior subordinate : String) : Except PyErr Payload × Ent :=
  if Dict.has st.cache subordinate then
    match subscript S.P.delta w.W.now st.cache subordinate with
    | (.error e, db) => (.error e, { st with cache := db })
    | (.ok none, db) => (.error .typeError, { st with cache := db })
    | (.ok (some c), db) => (.ok c.jws.payload, { st with cache := db })
  else
    match askStatement S w st superior subordinate with
    | (.error e, st) => (.error e, st)
    | (.ok es, st) =>
      match es.jwks with
      | none => (.error .keyError, st)
      | some ks => askConfiguration S w { st with jar := importKeys st.jar es.sub ks } subordinate

/-- `for entity_id in _intermediates: …` (entity/__init__.py 352-356). -/
def gather (f : Ent → String → Except PyErr (List String) × Ent) : List String → Ent → Except PyErr (List String) × Ent
  | [], st => (.ok [], st)
  | e :: es, st =>
    match f st e with
    | (.error err, st) => (.error err, st)
    | (.ok ids, st) =>
      match gather f es st with
      | (.error err, st) => (.error err, st)
      | (.ok rest, st) => (.ok (ids ++ rest), st)

/-- `trawl` (entity/__init__.py 316-359); the first argument bounds the depth of the recursion. -/
def trawl (S : Setup) (w : Web) (type : String) : Nat → Ent → String → String → Except PyErr (List String) × Ent
  | 0, st, _, _ => (.error .outOfFuel, st)
  | fuel + 1, st, superior, subordinate =>
    match lookUp S w st superior subordinate with
    | (.error e, st) => (.error e, st)
    | (.ok ec, st) =>
      match ec.metadata with
      | none => (.error .keyError, st)
      | some md =>
        let own := if Dict.has md type then [ec.sub] else []
        match Dict.get? md "federation_entity" with
        | none => (.error .keyError, st)
        | some fe =>
          if Dict.has fe "federation_list_endpoint" then
            match askList S w st subordinate (some type) false with
            | (.error e, st) => (.error e, st)
            | (.ok added, st) =>
              match askList S w st subordinate none true with
              | (.error e, st) => (.error e, st)
              | (.ok intermediates, st) =>
                match gather (fun st e => trawl S w type fuel st subordinate e) (intermediates.getD []) st with
                | (.error e, st) => (.error e, st)
                | (.ok below, st) => (.ok (own ++ added.getD [] ++ below), st)
          else (.ok own, st)

/-! ### Histories -/

/-- What the entity does: resolve an entity, walk down below one, ask an entity for its configuration, ask an authority for a statement. -/
inductive Event
  | resolve (w : Web) (entity stopAt : String)
  | walk (w : Web) (type : String) (depth : Nat) (superior subordinate : String)
  | configuration (w : Web) (entity : String)
  | statement (w : Web) (issuer subject : String)

def Event.web : Event → Web
  | .resolve w _ _ => w
  | .walk w _ _ _ _ => w
  | .configuration w _ => w
  | .statement w _ _ => w

def Event.apply (S : Setup) (st : Ent) : Event → Ent
  | .resolve w e stop => (getVerified S w.W st e stop).2
  | .walk w type n a e => (trawl S w type n st a e).2
  | .configuration w e => (askConfiguration S w st e).2
  | .statement w a e => (askStatement S w st a e).2

/-- What the entity keeps after a history. -/
def after (S : Setup) (st : Ent) (h : List Event) : Ent := h.foldl (fun st ev => ev.apply S st) st

end Fed.Discover.Walk
