import Verif.Statement
/-
Model of `FederationEntity.trawl`, /repo/src/fedservice/entity/__init__.py 316-359.
-/
namespace Fed.Discover
open Fed

/-- What the entity finds out while it walks down a federation. `cached e`: the entity is in the configuration cache (`some none`: but the cache gives `None`, because the entry is about to expire);
`statement a e`, `configuration e` and `list e type intermediate`: the answers of `do_request` (/repo/src/fedservice/entity/client/__init__.py 274-299). Simplifications: the answers do not
change while the walk lasts, and configurations that are fetched and cached on the way are what would be fetched again; which keys the answers bring into the key jar is left out here, see `Discover.Walk`. -/
structure Net where
  cached : String → Option (Option Payload)
  statement : String → String → Except PyErr Payload
  configuration : String → Except PyErr Payload
  list : String → Option String → Bool → Except PyErr (Option (List String))

/-- The configuration of a subordinate (entity/__init__.py 317-327, and the subscript in 329, which raises TypeError for `None`). -/
def lookUp (N : Net) (superior subordinate : String) : Except PyErr Payload :=
  match N.cached subordinate with
  | some (some p) => .ok p
  | some none => .error .typeError
  | none => do
    let es ← N.statement superior subordinate
    if es.jwks.isNone then throw .keyError
    N.configuration subordinate

/-- `for entity_id in _intermediates: …` (entity/__init__.py 352-356). -/
def gather (f : String → Except PyErr (List String)) : List String → Except PyErr (List String)
  | [] => .ok []
  | e :: es => do
    let ids ← f e
    let rest ← gather f es
    pure (ids ++ rest)

/-- `trawl` (entity/__init__.py 316-359); `fuel` bounds the depth of the recursion. -/
def trawl (N : Net) (type : String) : Nat → String → String → Except PyErr (List String)
  | 0, _, _ => .error .outOfFuel
  | fuel + 1, superior, subordinate => do
    let ec ← lookUp N superior subordinate
    let md ← match ec.metadata with | some md => pure md | none => throw .keyError
    let own := if Dict.has md type then [ec.sub] else []
    let fe ← Dict.get md "federation_entity"
    if !(Dict.has fe "federation_list_endpoint") then pure own
    else do
      let added ← N.list subordinate (some type) false
      let intermediates ← N.list subordinate none true
      let below ← gather (trawl N type fuel subordinate) (intermediates.getD [])
      pure (own ++ added.getD [] ++ below)

end Fed.Discover
