import Verif.Py
/-
Model of /repo/src/fedservice/entity_statement/constraints.py.
-/
namespace Fed.Constraints
open Fed

/-- `s.split('.')` of Python, on the characters of the string. -/
def splitDot : List Char → List (List Char)
  | [] => [[]]
  | c :: cs =>
    if c = '.' then [] :: splitDot cs
    else
      match splitDot cs with
      | [] => [[c]]
      | l :: ls => (c :: l) :: ls

/-- `remove_scheme` (constraints.py 30-36). -/
def removeScheme (url : String) : Except PyErr (List Char) :=
  if "https://".toList.isPrefixOf url.toList then .ok (url.toList.drop 8)
  else if "http://".toList.isPrefixOf url.toList then .ok (url.toList.drop 7)
  else .error .valueError

/-- The loop of `more_specific` over `zip(a_part, b_part)` (constraints.py 45-50), labels reversed. -/
def cmpLabels : List (List Char) → List (List Char) → Bool
  | x :: xs, y :: ys => if x ≠ y then decide (y = []) else cmpLabels xs ys
  | _, _ => true

/-- `more_specific` (constraints.py 39-51). -/
def moreSpecific (a b : String) : Except PyErr Bool := do
  let aPart := splitDot (← removeScheme a)
  let bPart := splitDot (← removeScheme b)
  if aPart.length ≥ bPart.length then pure (cmpLabels aPart.reverse bPart.reverse) else pure false

/-- The inner loop of `update_specs` (constraints.py 70-73): the new entries that are more specific than `old`. -/
def refinements (old : String) : List String → Except PyErr (List String)
  | [] => .ok []
  | n :: ns => do
    let b ← moreSpecific n old
    let rest ← refinements old ns
    pure (if b then n :: rest else rest)

/-- `update_specs` (constraints.py 65-77). -/
def updateSpecs (new : List String) : List String → Except PyErr (List String)
  | [] => .ok []
  | o :: os => do
    let r ← refinements o new
    let rest ← updateSpecs new os
    pure ((if r.isEmpty then [o] else r) ++ rest)

/-- The `naming_constraints` member of a statement's constraints; `none` = key absent. -/
structure Naming where
  permitted : Option (List String) := none
  excluded : Option (List String) := none
deriving DecidableEq, Repr

/-- The naming constraints accumulated by `meets_restrictions`; `None` and `[]` are both falsy and not distinguished. -/
structure Acc where
  permitted : List String
  excluded : List String
deriving DecidableEq, Repr

/-- One key of `add_constraints` (constraints.py 81-91): `cur` is `naming_constraints[key]`, `new` is what the statement has
for the key. KeyError when the statement has naming constraints without this key while `cur` is not empty. -/
def addKey (new : Option (List String)) (cur : List String) : Except PyErr (List String) :=
  if cur.isEmpty then
    match new with
    | none => .ok cur
    | some n => if n.isEmpty then .ok cur else .ok n
  else
    match new with
    | none => .error .keyError
    | some n => if n.isEmpty then .ok cur else updateSpecs n cur

/-- `add_constraints` (constraints.py 80-93). -/
def addConstraints (new : Naming) (cur : Acc) : Except PyErr Acc := do
  let p ← addKey new.permitted cur.permitted
  let e ← addKey new.excluded cur.excluded
  pure ⟨p, e⟩

/-- The `constraints` member of an entity statement. -/
structure Constr where
  maxPathLength : Option Int := none
  naming : Option Naming := none
deriving DecidableEq, Repr

/-- `update_naming_constraints` (constraints.py 96-105). -/
def updateNaming (c : Constr) (cur : Acc) : Except PyErr Acc :=
  match c.naming with
  | none => .ok cur
  | some n => addConstraints n cur

/-- `excluded` and `permitted` (constraints.py 108-119) are the same loop. -/
def anyMatch (subject : String) : List String → Except PyErr Bool
  | [] => .ok false
  | e :: es => do if ← moreSpecific subject e then pure true else anyMatch subject es

/-- `calculate_path_length` (constraints.py 10-27). -/
def calculatePathLength (c : Constr) (current : Int) (maxAssigned : Bool) : Int :=
  match c.maxPathLength with
  | none => if maxAssigned then current - 1 else 0
  | some m => if maxAssigned then (if m < current - 1 then m else current - 1) else m

/-- The part of a verified entity statement that constraint checking reads. Simplification: `sub` is always there. -/
structure CStatement where
  sub : String
  constraints : Option Constr := none
deriving DecidableEq, Repr

/-- The tests on one subject (constraints.py 152-160, and again 164-172): true = may pass. -/
def checkNames (sub : String) (acc : Acc) : Except PyErr Bool := do
  let ex ← if acc.excluded.isEmpty then pure false else anyMatch sub acc.excluded
  if ex then pure false
  else if acc.permitted.isEmpty then pure true else anyMatch sub acc.permitted

/-- The loop of `meets_restrictions` over all but the last statement (constraints.py 138-160); `max_assigned` is never
changed. `none` = refused. -/
def restrictLoop : List CStatement → Int → Bool → Acc → Except PyErr (Option Acc)
  | [], _, _, acc => .ok (some acc)
  | st :: rest, cur, assigned, acc =>
    match st.constraints with
    | none => restrictLoop rest cur assigned acc
    | some c =>
      let cur' := calculatePathLength c cur assigned
      if cur' < 0 then .ok none
      else do
        let acc' ← updateNaming c acc
        if ← checkNames st.sub acc' then restrictLoop rest cur' assigned acc' else pure none

/-- `meets_restrictions` (constraints.py 122-174); chain given as the statements above the leaf, trust anchor first, and the
leaf's. (The caller never passes an empty chain.) -/
def meetsRestrictions (sups : List CStatement) (leaf : CStatement) : Except PyErr Bool := do
  match ← restrictLoop sups 0 false ⟨[], []⟩ with
  | none => pure false
  | some acc => checkNames leaf.sub acc

end Fed.Constraints
