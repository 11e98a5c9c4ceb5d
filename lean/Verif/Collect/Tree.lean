import Verif.Py
/-
Model of the tree a collection gives and of `tree2chains`, /repo/src/fedservice/entity/function/__init__.py.
-/
namespace Fed.Collect
open Fed

/-- The dictionary `collect_tree` returns (/repo/src/fedservice/entity/function/trust_chain_collector.py 227-263): authority ↦
`None` (`missing`) or a pair of a statement and the dictionary for the authority itself (`node`), in insertion order. -/
inductive Forest (α : Type)
  | nil
  | missing (authority : String) (rest : Forest α)
  | node (authority : String) (statement : α) (sub : Forest α) (rest : Forest α)
deriving DecidableEq, Repr

namespace Forest
variable {α : Type}

/-- `unit.items()` -/
def items : Forest α → List (String × Option (α × Forest α))
  | nil => []
  | missing i r => (i, none) :: items r
  | node i s sub r => (i, some (s, sub)) :: items r

/-- The keys of the dictionary. -/
def keys (f : Forest α) : List String := f.items.map (·.1)

/-- `unit[authority] = branch`: replaces in place, else appends. -/
def set : Forest α → String → Option (α × Forest α) → Forest α
  | nil, i, none => missing i nil
  | nil, i, some (s, sub) => node i s sub nil
  | missing j r, i, b => if j = i then (match b with | none => missing i r | some (s, sub) => node i s sub r) else missing j (set r i b)
  | node j t sub' r, i, b =>
    if j = i then (match b with | none => missing i r | some (s, sub) => node i s sub r) else node j t sub' (set r i b)

end Forest

/-- `tree2chains` (/repo/src/fedservice/entity/function/__init__.py 42-62). -/
def tree2chains {α : Type} : Forest α → List (List α)
  | .nil => []
  | .missing _ r => [] :: tree2chains r
  | .node _ s .nil r => [s] :: tree2chains r
  | .node _ s sub r => (tree2chains sub).map (· ++ [s]) ++ tree2chains r

end Fed.Collect
