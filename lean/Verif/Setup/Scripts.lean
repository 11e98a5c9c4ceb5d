import Verif.Chains.ServedProps
import Verif.Server.ListProps
import Verif.Config.AnchorsProps
/-
Model of the scripts a federation is set up with, /repo/dc4eu_federation/get_info.py and /repo/dc4eu_federation/add_info.py (those of setup_federation are the same), used as
/repo/dc4eu_federation/command.sh and the READMEs use them, and property C185: a federation set up with them works.
-/
namespace Fed.Setup
open Fed Verify Chains

/-! ### get_info.py -/

/-- What `get_info.py` is asked for: `-t` or `-s`. -/
inductive Wanted
  | trustAnchor
  | subordinate
deriving DecidableEq, Repr

/-- `v.keys()` of a value (get_info.py 36). -/
def memberNames : Val → Except PyErr (List String)
  | .obj kvs => .ok (Dict.keys kvs)
  | _ => .error .attributeError

/-- What is printed for a verified configuration (get_info.py 31-49). -/
def info (w : Wanted) (e : String) (conf : Dict Val) : Except PyErr (Dict Val) :=
  match w with
  | .trustAnchor => do
    let jwks ← Dict.get conf "jwks"
    .ok [(e, jwks)]
  | .subordinate => do
    let md ← Dict.get conf "metadata"
    let types ← memberNames md
    let jwks ← Dict.get conf "jwks"
    let fe ← Server.member md "federation_entity"
    let lists ← pyIn (.str "federation_list_endpoint") fe
    .ok [(e, .obj ([("entity_types", .arr (types.map .str)), ("jwks", jwks)] ++ if lists then [("intermediate", .bool true)] else []))]

/-- `get_info.py` run at time `now` (get_info.py 20-49): the configuration the entity publishes, verified with the keys it lists. Simplification: the entity answers through the endpoint
of this software; what is between the two is not modelled. -/
def getInfo (C : Crypto) (J : Jose) (member : String → Option Member) (now : Int) (w : Wanted) (e : String) : Except PyErr (Dict Val) :=
  match member e with
  | none => .error .missingPage
  | some m =>
    match Server.entityConfiguration m.authority now m.marks with
    | .error _ => .error .failedConfigurationRetrieval
    | .ok d =>
      match selfVerify C now (token J m.authority.entityId d) with
      | .error x => .error x
      | .ok _ => info w e d

/-! ### add_info.py -/

/-- `for key, val in _info.items(): _ab_dict[key] = val` (add_info.py 23-24) for a directory of subordinates. Simplification: only objects are entries of a registry. -/
def addEntries (reg : Dict (Dict Val)) (i : Dict Val) : Dict (Dict Val) :=
  i.foldl (fun r p => match p.2 with
    | .obj d => r.set p.1 d
    | _ => r) reg

/-- The same for a directory of trust anchors. -/
def addAnchors (dir : Dict Val) (i : Dict Val) : Dict Val := i.foldl (fun r p => r.set p.1 p.2) dir

/-! ### Setting up a federation -/

/-- The entities, and the `trust_anchors` directory of each. -/
structure Site where
  member : String → Option Member
  anchors : String → Dict Val := fun _ => []

/-- One step of setting up, at a time: `get_info.py -s e > tmp.json; add_info.py -s tmp.json -t a/subordinates`, or
`get_info.py -t e > tmp.json; add_info.py -s tmp.json -t c/trust_anchors`. -/
inductive Step
  | enrol (a e : String) (time : Int)
  | trust (c e : String) (time : Int)
deriving DecidableEq, Repr

/-- A member with an entry for what was printed. -/
def withEntries (m : Member) (i : Dict Val) : Member := { m with authority := { m.authority with subordinate := addEntries m.authority.subordinate i } }

/-- A step (command.sh). If `get_info.py` fails the file is empty, which `add_info.py` refuses. -/
def step (C : Crypto) (J : Jose) (s : Site) : Step → Site
  | .enrol a e t =>
    match getInfo C J s.member t .subordinate e with
    | .error _ => s
    | .ok i => { s with member := fun x => if x = a then (s.member x).map (withEntries · i) else s.member x }
  | .trust c e t =>
    match getInfo C J s.member t .trustAnchor e with
    | .error _ => s
    | .ok i => { s with anchors := fun x => if x = c then addAnchors (s.anchors x) i else s.anchors x }

/-- All the steps. -/
def setUp (C : Crypto) (J : Jose) (s : Site) (steps : List Step) : Site := steps.foldl (step C J) s

/-- The key jar of an entity when it is started with a directory of trust anchors (/repo/src/fedservice/utils.py 138-145, 230-237). -/
def startJar (J : Jose) (own : KeyJar) (dir : Dict Val) : KeyJar := Config.importAll own (dir.map fun p => (p.1, J.keys p.2))

end Fed.Setup
