import Verif.Verifier.Model
/-
How entities get their trust anchors: `make_federation_entity` (/repo/src/fedservice/utils.py 103-172), the builder
(/repo/src/fedservice/build_entity.py), the default functions (/repo/src/fedservice/defaults.py 190-223), `TrustChainCollector.__init__`
(/repo/src/fedservice/entity/function/trust_chain_collector.py 70-90) and `add_trust_anchor` (same file 378-387 and /repo/src/fedservice/entity/__init__.py 399-408).

What matters here is which dict objects are the same object, so the objects are numbered. Assumed of idpyoidc: `Collection` hands the `kwargs` of a
function over by shallow copies, as `FederationEntity.__init__` does.
-/
namespace Fed.Config
open Fed Verify

/-- Trust anchors: keys per entity. -/
abbrev Anchors := Dict (List Key)

/-- An entity: its id, which dict its `trust_anchors` is, its `allowed_delta`, and its key jar. -/
structure Ent where
  id : String
  anchors : Nat
  delta : Int
  jar : KeyJar
deriving DecidableEq, Repr

/-- The process: the dict objects, which of them is in `FEDERATION_ENTITY_FUNCTIONS["trust_chain_collector"]["kwargs"]["trust_anchors"]`, the `allowed_delta` there
(defaults.py 190-199), and the entities made so far. -/
structure Proc where
  objs : List Anchors := [[]]
  default : Nat := 0
  delta : Int := 600
  ents : List Ent := []
deriving DecidableEq, Repr

/-- The arguments of `make_federation_entity` that matter: the id, the entity's own keys, `init_kwargs["function"]["trust_chain_collector"]` (its `trust_anchors` and
`allowed_delta`) and `trust_anchors` (empty: not given). Simplification: each dict given is an object of its own. -/
structure Spec where
  id : String
  own : List Key
  initAnchors : Option Anchors := none
  initDelta : Option Int := none
  anchors : Anchors := []
deriving DecidableEq, Repr

/-- `import_jwks(keyjar, jwks, id)`. -/
def importJwks (jar : KeyJar) (id : String) (ks : List Key) : KeyJar := jar.set id (jar.keysOf id ++ ks)

/-- The loop over trust anchors (trust_chain_collector.py 88-89, utils.py 147-148). -/
def importAll (jar : KeyJar) : Anchors → KeyJar
  | [] => jar
  | (id, ks) :: as => importAll (importJwks jar id ks) as

/-- `kwargs["functions"][key]["kwargs"].update(val)` (build_entity.py 104-107, 112-115): the dict updated is the one in defaults.py. -/
def Proc.initKwargs (P : Proc) (s : Spec) : Proc :=
  let P := match s.initAnchors with
    | none => P
    | some d => { P with objs := P.objs ++ [d], default := P.objs.length }
  match s.initDelta with
  | none => P
  | some x => { P with delta := x }

/-- `make_federation_entity` (utils.py 103-172). -/
def Proc.make (P : Proc) (s : Spec) : Proc :=
  let P := P.initKwargs s
  let jar := importAll [(s.id, s.own)] (P.objs[P.default]?.getD [])
  if s.anchors = [] then { P with ents := P.ents ++ [⟨s.id, P.default, P.delta, jar⟩] }
  else { P with objs := P.objs ++ [s.anchors], ents := P.ents ++ [⟨s.id, P.objs.length, P.delta, importAll jar s.anchors⟩] }

/-- `add_trust_anchor` of the `i`-th entity. -/
def Proc.add (P : Proc) (i : Nat) (id : String) (ks : List Key) : Proc :=
  match P.ents[i]? with
  | none => P
  | some e => { P with
      objs := P.objs.modify e.anchors (fun d => d.set id ks)
      ents := P.ents.modify i fun e => { e with jar := importJwks e.jar id ks } }

/-- What a program does. -/
inductive Op
  | make (s : Spec)
  | add (i : Nat) (id : String) (ks : List Key)
deriving DecidableEq, Repr

def Proc.step (P : Proc) : Op → Proc
  | .make s => P.make s
  | .add i id ks => P.add i id ks

/-- The process after a program. -/
def run (ops : List Op) : Proc := ops.foldl Proc.step {}

/-- `trust_anchors` of an entity. -/
def Proc.anchorsOf (P : Proc) (e : Ent) : Anchors := P.objs[e.anchors]?.getD []

end Fed.Config
