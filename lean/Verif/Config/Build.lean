import Verif.Py
/-
Which services, functions and endpoints an entity gets, and with which settings: `build_entity_config` (/repo/src/fedservice/utils.py 34-100), the builder
(/repo/src/fedservice/build_entity.py) and the tables in /repo/src/fedservice/defaults.py.
-/
namespace Fed.Config
open Fed

inductive Kind
  | service | function | endpoint
deriving DecidableEq, Repr

/-- Items of one kind with their `kwargs`. Simplification: class and path are left out; every item has `kwargs` (the services for OAuth2 and OpenID Connect, defaults.py 17-46, have none;
settings for those raise KeyError). -/
abbrev Table := Dict (Dict Val)

/-- The items of a kind an entity is to have: by name, or with their specification. Simplification: a list of endpoints with specifications among the names is not modelled. -/
inductive Items
  | names (xs : List String)
  | spec (d : Table)

/-- What is given for one kind: the items (or nothing), `init_kwargs[kind]` and `item_args[kind]`. -/
structure Given where
  items : Option Items := none
  init : Dict (Dict Val) := []
  args : Dict (Dict Val) := []

/-- The names in `FEDERATION_ENTITY_SERVICES` (defaults.py 103-104), `DEFAULT_FEDERATION_ENTITY_FUNCTIONS` (222-223) and those in build_entity.py 72. -/
def defaultNames : Kind → List String
  | .service => ["entity_configuration", "entity_statement", "resolve", "list"]
  | .function => ["trust_chain_collector", "verifier", "policy", "trust_mark_verifier"]
  | .endpoint => ["entity_configuration", "fetch", "list"]

/-- `kwargs[…][key]["kwargs"].update(val)` for the keys of `s` that are among the items (build_entity.py 40-43, 49-52, 74-77, 82-85, 104-107, 112-115): loop over the keys, written as
a map over the items. For services and functions it is done twice, which is the same as once. -/
def settle (sel : String → Bool) (s : Dict (Dict Val)) (T : Table) : Table :=
  T.map fun x => (x.1, if sel x.1 then x.2.update ((s.get? x.1).getD []) else x.2)

/-- The part of a table with these names: the specifications in the table, not copies of them. -/
def pick (D : Table) (xs : List String) : Table := D.filter fun x => decide (x.1 ∈ xs)

/-- `federation_services(*items)` (defaults.py 84-100) passes over names it does not know; `federation_functions` and `federation_endpoints` (170-175, 218-219) raise KeyError. If no
services are left, the builder takes the default ones (build_entity.py 35-38). -/
def chosen (kind : Kind) (D : Table) (xs : List String) : Except PyErr (List String) :=
  match kind with
  | .service => .ok (if xs.filter D.has = [] then defaultNames .service else xs.filter D.has)
  | _ => if xs.all D.has then .ok xs else .error .keyError

/-- `add_services`, `add_functions`, `add_endpoints` (build_entity.py 30-118): the settings used. Only `add_endpoints` looks at `args`. -/
def settings (kind : Kind) (g : Given) (sel : String → Bool) (T : Table) : Table :=
  let T := settle sel g.init T
  match kind with
  | .endpoint => settle sel g.args T
  | _ => T

/-- One round of the loop in `build_entity_config` (utils.py 60-92): the items of that kind (`none`: that part of the configuration is missing), and what the table in defaults.py
is afterwards. `empty`: whether `services == []`. -/
def buildKind (kind : Kind) (g : Given) (empty : Bool) (D : Table) : Except PyErr (Option Table) × Table :=
  let byName (xs : List String) : Except PyErr (Option Table) × Table :=
    match chosen kind D xs with
    | .error e => (.error e, D)
    | .ok xs =>
      let D' := settings kind g (fun n => decide (n ∈ xs)) D
      (.ok (some (pick D' xs)), D')
  match kind, g.items with
  | _, some (.names (x :: xs)) => byName (x :: xs)
  | .function, some (.spec (x :: d)) => byName ((x :: d).map (·.1))
  | _, some (.spec (x :: d)) => (.ok (some (settings kind g (fun _ => true) (x :: d))), D)
  | _, _ => if empty then (.ok none, D) else byName (defaultNames kind)

/-- `services == []`. -/
def noServices : Option Items → Bool
  | some (.names []) => true
  | _ => false

/-- An entity as configured. -/
structure Conf where
  service : Option Table
  function : Option Table
  endpoint : Option Table

def Conf.of (c : Conf) : Kind → Option Table
  | .service => c.service
  | .function => c.function
  | .endpoint => c.endpoint

/-- The tables of the process. -/
structure Tables where
  service : Table
  function : Table
  endpoint : Table

def Tables.of (t : Tables) : Kind → Table
  | .service => t.service
  | .function => t.function
  | .endpoint => t.endpoint

/-- `build_entity_config` (utils.py 34-100). -/
def build (t : Tables) (G : Kind → Given) : Except PyErr Conf × Tables :=
  let empty := noServices (G .service).items
  match buildKind .service (G .service) empty t.service with
  | (.error e, D) => (.error e, { t with service := D })
  | (.ok s, D1) => match buildKind .function (G .function) empty t.function with
    | (.error e, D) => (.error e, { t with service := D1, function := D })
    | (.ok f, D2) => match buildKind .endpoint (G .endpoint) empty t.endpoint with
      | (.error e, D) => (.error e, ⟨D1, D2, D⟩)
      | (.ok p, D3) => (.ok ⟨s, f, p⟩, ⟨D1, D2, D3⟩)

/-- The tables after entities were made. -/
def built (t : Tables) : List (Kind → Given) → Tables
  | [] => t
  | G :: h => built (build t G).2 h

/-- The tables in defaults.py (48-82, 120-165, 190-216), when the process begins. -/
def tables0 : Tables where
  service := ["entity_configuration", "entity_statement", "trust_mark_status", "trust_mark_list", "trust_mark", "resolve", "list", "who"].map (·, [])
  function := [("trust_chain_collector", [("trust_anchors", .obj []), ("allowed_delta", .int 600)]), ("verifier", []), ("policy", []), ("trust_mark_verifier", []), ("metadata_verifier", [])]
  endpoint := ["entity_configuration", "fetch", "list", "resolve", "trust_mark_status", "trust_mark", "trust_mark_list", "who"].map (·, [])

end Fed.Config
