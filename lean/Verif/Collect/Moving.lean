import Verif.Collect.Collector
/-
The collector (/repo/src/fedservice/entity/function/trust_chain_collector.py) while time passes: the functions of `Verif.Collect.Collector`, where the clock, and what others answer, may be different each
time the collector looks.
-/
namespace Fed.Collect.Moving
open Fed Fed.Collect

/-- What the collector sees at each of its looks at the clock or at what others answer. -/
abbrev Course := Nat → World

/-- The caches, and how many looks there have been. -/
structure Seen where
  st : State
  n : Nat := 0

/-- Subscripting the configuration cache (cache.py 25-40): the clock is read for entries that are there (33). -/
def look (P : Params) (V : Course) (s : Seen) (k : String) : Except PyErr (Option Config) × Seen :=
  match subscript P.delta (V s.n).now s.st.config k with
  | (r, db) => (r, ⟨{ s.st with config := db }, s.n + 1⟩)

/-- `Collect.refreshConfig` (trust_chain_collector.py 195-205): the configuration is fetched, and then verified, for which the clock is read. -/
def refresh (C : Crypto) (V : Course) (s : Seen) (authority : String) : Except PyErr (Option Val) × Seen :=
  match (V s.n).config authority with
  | .error e => (.error e.toPy, ⟨s.st, s.n + 1⟩)
  | .ok none => (.error .valueError, ⟨s.st, s.n + 1⟩)
  | .ok (some j) =>
    match selfVerify C (V (s.n + 1)).now j with
    | .error e => (.error e, ⟨s.st, s.n + 2⟩)
    | .ok p =>
      match getFetchEndpoint p with
      | .error e => (.error e, ⟨s.st, s.n + 2⟩)
      | .ok ep => (.ok ep, ⟨{ s.st with config := s.st.config.set authority ⟨j⟩ }, s.n + 2⟩)

/-- `get_federation_fetch_endpoint` (trust_chain_collector.py 184-207), as `Collect.fetchEndpoint`. -/
def endpoint (C : Crypto) (P : Params) (V : Course) (s : Seen) (authority : String) : Except PyErr (Option Val) × Seen :=
  match look P V s authority with
  | (.error e, s) => (.error e, s)
  | (.ok none, s) => refresh C V s authority
  | (.ok (some c), s) =>
    match getFetchEndpoint c.jws.payload with
    | .error e => (.error e, s)
    | .ok ep =>
      match usableEndpoint ep with
      | some _ => (.ok ep, s)
      | none => refresh C V s authority

/-- The second half of `_get_entity_statement` (trust_chain_collector.py 282-299), as `Collect.fetchStatement`. -/
def fetchStatement (C : Crypto) (P : Params) (V : Course) (s : Seen) (entity authority : String) : Except PyErr (Option Jws) × Seen :=
  match endpoint C P V s authority with
  | (.error e, s) => (.error e, s)
  | (.ok ep, s) =>
    match usableEndpoint ep with
    | none => (.ok none, s)
    | some ep =>
      match (V s.n).fetch ep authority entity with
      | .error e => (.error e.toPy, ⟨s.st, s.n + 1⟩)
      | .ok none => (.error .valueError, ⟨s.st, s.n + 1⟩)
      | .ok (some j) =>
        match j.payload.exp with
        | none => (.error .keyError, ⟨{ s.st with es := s.st.es.set (cacheKey authority entity) (.stmt j) }, s.n + 1⟩)
        | some e => (.ok (some j), ⟨{ s.st with es := (s.st.es.set (cacheKey authority entity) (.stmt j)).set (timeKey authority entity) (.time e) }, s.n + 1⟩)

/-- `_get_entity_statement` (trust_chain_collector.py 265-299), as `Collect.getStatement`: the clock is read if a statement is cached (274). -/
def getStatement (C : Crypto) (P : Params) (V : Course) (s : Seen) (entity authority : String) : Except PyErr (Option Jws) × Seen :=
  match s.st.es.get? (cacheKey authority entity) with
  | none => fetchStatement C P V s entity authority
  | some (.time _) => (.error .typeError, ⟨s.st, s.n + 1⟩)
  | some (.stmt j) =>
    match s.st.es.get? (timeKey authority entity) with
    | some (.time e) =>
      if (V s.n).now > e - P.delta then
        fetchStatement C P V ⟨{ s.st with es := drop (drop s.st.es (cacheKey authority entity)) (timeKey authority entity) }, s.n + 1⟩ entity authority
      else (.ok (some j), ⟨s.st, s.n + 1⟩)
    | _ => (.error .typeError, ⟨s.st, s.n + 1⟩)

/-- The loop of `collect_tree` over the authority hints (trust_chain_collector.py 257-263). -/
def overHints (branch : Seen → String → Except PyErr Branch × Seen) : List String → Forest Jws → Seen → Except PyErr (Forest Jws) × Seen
  | [], acc, s => (.ok acc, s)
  | a :: as, acc, s =>
    match branch s a with
    | (.error e, s) => (.error e, s)
    | (.ok b, s) => overHints branch as (acc.set a b) s

/-- `collect_branch` (trust_chain_collector.py 301-341). -/
def collectBranch (C : Crypto) (P : Params) (V : Course) (tree : Seen → String → Option Payload → Except PyErr (Forest Jws) × Seen) (entity : String) (s : Seen) (authority : String) :
    Except PyErr Branch × Seen :=
  if entity = authority ∧ entity ∈ P.anchors then (.ok none, s)
  else
    match getStatement C P V s entity authority with
    | (.error e, s) => (.error e, s)
    | (.ok none, s) => (.ok none, s)
    | (.ok (some j), s) =>
      match look P V s authority with
      | (.error e, s) => (.error e, s)
      | (.ok c, s) =>
        match tree s authority (c.map (·.jws.payload)) with
        | (.error e, s) => (.error e, s)
        | (.ok f, s) => (.ok (some (j, f)), s)

/-- `collect_tree` (trust_chain_collector.py 227-263). -/
def collectTree (C : Crypto) (P : Params) (V : Course) (stopAt : String) : (fuel : Nat) → Seen → (entity : String) → Option Payload → Except PyErr (Forest Jws) × Seen
  | 0, s, _, _ => (.error .outOfFuel, s)
  | _ + 1, s, _, none => (.error .typeError, s)
  | n + 1, s, entity, some cfg =>
    match cfg.hints with
    | none => (.ok .nil, s)
    | some hs =>
      if cfg.iss = stopAt then (.ok .nil, s)
      else overHints (collectBranch C P V (collectTree C P V stopAt n) entity) hs .nil s

/-- `TrustChainCollector.__call__` (trust_chain_collector.py 350-376). -/
def collect (C : Crypto) (P : Params) (V : Course) (fuel : Nat) (s : Seen) (entity stopAt : String) : Except PyErr (Forest Jws × Jws) × Seen :=
  let cached : Except PyErr (Option Config) :=
    match s.st.config.get? entity with
    | none => .ok none
    | some c => match tooOld P (V s.n) c with | .error e => .error e | .ok true => .ok none | .ok false => .ok (some c)
  match cached with
  | .error e => (.error e, ⟨s.st, s.n + 1⟩)
  | .ok (some c) =>
    match collectTree C P V stopAt fuel ⟨s.st, s.n + 1⟩ entity (some c.jws.payload) with
    | (.error e, s) => (.error e, s)
    | (.ok f, s) => (.ok (f, c.jws), s)
  | .ok none =>
    match (V (s.n + 1)).config entity with
    | .error e => (.error e.toPy, ⟨s.st, s.n + 2⟩)
    | .ok none => (.error .valueError, ⟨s.st, s.n + 2⟩)
    | .ok (some j) =>
      match selfVerify C (V (s.n + 2)).now j with
      | .error e => (.error e, ⟨s.st, s.n + 3⟩)
      | .ok p =>
        match collectTree C P V stopAt fuel ⟨{ s.st with config := s.st.config.set entity ⟨j⟩ }, s.n + 3⟩ entity (some p) with
        | (.error e, s) => (.error e, s)
        | (.ok f, s) => (.ok (f, j), s)

end Fed.Collect.Moving
