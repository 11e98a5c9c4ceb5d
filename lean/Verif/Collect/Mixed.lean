import Verif.Collect.Collector
/-
Model of the configuration cache of the collector as the client of the same entity uses it too: /repo/src/fedservice/entity/function/trust_chain_collector.py 184-207, 318-330 and
/repo/src/fedservice/entity/client/entity_configuration.py 113-118.
-/
namespace Fed.Collect.Mixed
open Fed Fed.Collect

/-- What is in `config_cache`: a dictionary the collector has verified itself (trust_chain_collector.py 204, 371), or the `EntityStatement` message an answer to the client was parsed into
(entity_configuration.py 116). A message is a mapping, but no `dict`. -/
inductive Entry
  | fetched (j : Jws)
  | answered (j : Jws)
deriving DecidableEq, Repr

def Entry.jws : Entry → Jws
  | .fetched j => j
  | .answered j => j

/-- `isinstance(statement, dict)` (/repo/src/fedservice/entity_statement/cache.py 31). -/
instance : CacheVal Entry where
  dictExp
    | .fetched j => some j.payload.exp
    | .answered _ => none

abbrev Cache := Dict Entry

/-- `EntityConfiguration.post_parse_response` (entity_configuration.py 113-118): the answer is kept under the issuer named in it. -/
def answered (cache : Cache) (j : Jws) : Cache := cache.set j.payload.iss (.answered j)

/-- Fetching, verifying and caching the configuration of an authority (trust_chain_collector.py 195-205). -/
def refresh (C : Crypto) (W : World) (cache : Cache) (authority : String) : Except PyErr (Option Val) × Cache :=
  match W.config authority with
  | .error e => (.error e.toPy, cache)
  | .ok none => (.error .valueError, cache)
  | .ok (some j) =>
    match selfVerify C W.now j with
    | .error e => (.error e, cache)
    | .ok p =>
      match getFetchEndpoint p with
      | .error e => (.error e, cache)
      | .ok ep => (.ok ep, cache.set authority (.fetched j))

/-- `get_federation_fetch_endpoint` (trust_chain_collector.py 184-207). -/
def endpoint (C : Crypto) (P : Params) (W : World) (cache : Cache) (authority : String) : Except PyErr (Option Val) × Cache :=
  match subscript P.delta W.now cache authority with
  | (.error e, db) => (.error e, db)
  | (.ok none, db) => refresh C W db authority
  | (.ok (some c), db) =>
    match getFetchEndpoint c.jws.payload with
    | .error e => (.error e, db)
    | .ok ep =>
      match usableEndpoint ep with
      | some _ => (.ok ep, db)
      | none => refresh C W db authority

/-- The authority hints `collect_branch` goes on with: those of `self.config_cache[authority]` (trust_chain_collector.py 318-330), nothing when there is no entry. -/
def hints (P : Params) (now : Int) (cache : Cache) (authority : String) : Except PyErr (Option (List String)) × Cache :=
  match subscript P.delta now cache authority with
  | (.error e, db) => (.error e, db)
  | (.ok c, db) => (.ok (c.bind fun c => c.jws.payload.hints), db)

/-- What happens to the cache: the client gets an answer to a question for an entity configuration; the collector looks for the fetch endpoint of an authority, or for its authority hints. -/
inductive Event
  | answer (j : Jws)
  | endpoint (W : World) (authority : String)
  | hints (now : Int) (authority : String)

def Event.apply (C : Crypto) (P : Params) (cache : Cache) : Event → Cache
  | .answer j => answered cache j
  | .endpoint W a => (Mixed.endpoint C P W cache a).2
  | .hints now a => (Mixed.hints P now cache a).2

/-- The cache after a history, from the empty cache. -/
def run (C : Crypto) (P : Params) (h : List Event) : Cache := h.foldl (fun c e => e.apply C P c) []

end Fed.Collect.Mixed
