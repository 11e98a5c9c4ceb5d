import Verif.Py
/-
Model of /repo/src/fedservice/entity/function/policy_operator.py and of the functions
`op_place`, `apply_metadata_policy` (policy.py 245-291) and `TrustChainPolicy.apply_policy` (policy.py 334-356).
-/
namespace Fed.Policy
open Fed

/-- The operators for one claim: operator name → operand. policy.py: `metadata_policy[claim]`.
Simplification: the JSON value under a claim is taken to be an object. -/
abbrev ClaimPolicy := Dict Val

/-- `metadata_policy` of one entity type: claim name → operators. -/
abbrev MetadataPolicy := Dict ClaimPolicy

/-- Metadata of one entity type: claim name → value. -/
abbrev Metadata := Dict Val

/-- The policy operator classes (policy_operator.py 30-113, table POLICY_OPERATORS 116-124). -/
inductive Op
  | value | add | default | oneOf | subsetOf | supersetOf | essential
deriving DecidableEq, Repr

/-- The class attribute `name` of each operator class. -/
def Op.name : Op → String
  | .value => "value"
  | .add => "add"
  | .default => "default"
  | .oneOf => "one_of"
  | .subsetOf => "subset_of"
  | .supersetOf => "superset_of"
  | .essential => "essential"

/-- `construct_evaluation_sequence` (policy_operator.py 127-128) over `POLICY_APPLICATION_ORDER` (line 3). -/
def evaluationSequence : List Op :=
  [.value, .add, .default, .oneOf, .subsetOf, .supersetOf, .essential]

/-- `union` (policy_operator.py 6-16). -/
def union (val1 val2 : Val) : Except PyErr (List Val) := do
  let base ← setOrSingleton val1
  let ext ← setOrSingleton val2
  pure (base ++ ext)

/-- `set(a).intersection(set(b))` on already built sets. -/
def inter (a b : List Val) : List Val := a.filter fun x => x ∈ b

/-- `a.difference(b)` on already built sets. -/
def diff (a b : List Val) : List Val := a.filter fun x => x ∉ b

/-- `Value.__call__` (policy_operator.py 34-37): overwrite, continue at `essential`. -/
def callValue (claim : String) (md : Metadata) (operand : Val) : Except PyErr (Metadata × Option String) :=
  .ok (md.set claim operand, some "essential")

/-- `OneOf.__call__` (policy_operator.py 44-54). -/
def callOneOf (claim : String) (md : Metadata) (operand : Val) : Except PyErr (Metadata × Option String) :=
  match md.get? claim with
  | none => .ok (md, none)
  | some v =>
    if v.isList then .ok (md, none)
    else do
      if ← pyIn v operand then pure (md, some "essential") else throw .policyError

/-- `Add.__call__` (policy_operator.py 61-65). -/
def callAdd (E : SetEnum Val) (claim : String) (md : Metadata) (operand : Val) :
    Except PyErr (Metadata × Option String) :=
  match md.get? claim with
  | some v => do
    let u ← union v operand
    pure (md.set claim (.arr (E.enum u)), none)
  | none => .ok (md.set claim operand, none)

/-- `Default.__call__` (policy_operator.py 71-73). -/
def callDefault (claim : String) (md : Metadata) (operand : Val) : Except PyErr (Metadata × Option String) :=
  match md.get? claim with
  | some _ => .ok (md, none)
  | none => .ok (md.set claim operand, none)

/-- `SubsetOf.__call__` (policy_operator.py 80-93). For a value that is not a list the code tests membership in
`metadata_policy[claim]`, i.e. among the operator *names* (line 85), and then stores `list(value)` (line 91). -/
def callSubsetOf (E : SetEnum Val) (claim : String) (md : Metadata) (cp : ClaimPolicy) (operand : Val) :
    Except PyErr (Metadata × Option String) :=
  match md.get? claim with
  | none => .ok (md, none)
  | some (.arr xs) => do
    let a ← pySet operand
    let b ← mkSet xs
    let r := E.enum (inter a b)
    if r.isEmpty then throw .policyError else pure (md.set claim (.arr r), none)
  | some v =>
    if v.hashable then
      if cp.keys.any (fun k => decide (Val.str k = v)) then
        if v.truthy then do
          let cs ← pyIter v
          pure (md.set claim (.arr cs), none)
        else throw .policyError
      else throw .policyError
    else throw .typeError

/-- `SupersetOf.__call__` (policy_operator.py 100-103). -/
def callSupersetOf (claim : String) (md : Metadata) (operand : Val) : Except PyErr (Metadata × Option String) :=
  match md.get? claim with
  | none => .ok (md, none)
  | some v => do
    let a ← pySet operand
    let b ← pySet v
    if (diff a b).isEmpty then pure (md, none) else throw .policyError

/-- `Essential.__call__` (policy_operator.py 110-113). `== True` also holds for the integer 1. -/
def callEssential (claim : String) (md : Metadata) (operand : Val) : Except PyErr (Metadata × Option String) :=
  match md.get? claim with
  | some _ => .ok (md, none)
  | none => if operand = .bool true ∨ operand = .int 1 then throw .policyError else .ok (md, none)

/-- Calling operator object `op` (policy.py 269). -/
def callOp (E : SetEnum Val) (op : Op) (claim : String) (md : Metadata) (cp : ClaimPolicy) (operand : Val) :
    Except PyErr (Metadata × Option String) :=
  match op with
  | .value => callValue claim md operand
  | .add => callAdd E claim md operand
  | .default => callDefault claim md operand
  | .oneOf => callOneOf claim md operand
  | .subsetOf => callSubsetOf E claim md cp operand
  | .supersetOf => callSupersetOf claim md operand
  | .essential => callEssential claim md operand

/-- `op_place` (policy.py 245-253): index of the named operator, searching from `index`. The Python loop raises IndexError
only when called with an index past the end, which the caller never does; the model gives `none` then. -/
def opPlace (name : String) : List Op → Nat → Nat → Option Nat
  | [], _, _ => none
  | op :: ops, skip, pos =>
    match skip with
    | k + 1 => opPlace name ops k (pos + 1)
    | 0 => if op.name = name then some pos else opPlace name ops 0 (pos + 1)

/-- The `while True` of `apply_metadata_policy` (policy.py 265-275) for one claim with operators `cp`, at index `i`.
`none`: not finished within `fuel` iterations. -/
def opLoop (E : SetEnum Val) (ops : List Op) (claim : String) (cp : ClaimPolicy) :
    Nat → Nat → Metadata → Option (Except PyErr Metadata)
  | 0, _, _ => none
  | fuel + 1, i, md =>
    match ops[i]? with
    | none => some (.error .indexError)
    | some op =>
      match cp.get? op.name with
      | none => if i + 1 ≥ ops.length then some (.ok md) else opLoop E ops claim cp fuel (i + 1) md
      | some operand =>
        match callOp E op claim md cp operand with
        | .error e => some (.error e)
        | .ok (md', next) =>
          match next with
          | some n =>
            match opPlace n ops i 0 with
            | some j => opLoop E ops claim cp fuel j md'
            | none => some (.error .typeError)   -- `policy_operators[None]`
          | none => if i + 1 ≥ ops.length then some (.ok md') else opLoop E ops claim cp fuel (i + 1) md'

/-- The body of the `for claim in policy_set` loop (policy.py 264-275), run with fuel 8. -/
def applyClaim (E : SetEnum Val) (claim : String) (cp : ClaimPolicy) (md : Metadata) : Except PyErr Metadata :=
  match opLoop E evaluationSequence claim cp 8 0 md with
  | some r => r
  | none => .error .outOfFuel

/-- The `for` loop of `apply_metadata_policy` over a given enumeration of the claims. -/
def applyClaims (E : SetEnum Val) (mp : MetadataPolicy) : List String → Metadata → Except PyErr Metadata
  | [], md => .ok md
  | c :: cs, md => do
    let cp ← mp.get c
    let md' ← applyClaim E c cp md
    applyClaims E mp cs md'

/-- `apply_metadata_policy` (policy.py 255-291). `K` is the order in which the process enumerates `policy_set`. -/
def applyMetadataPolicy (E : SetEnum Val) (K : SetEnum String) (md : Metadata) (mp : MetadataPolicy) :
    Except PyErr Metadata :=
  applyClaims E mp (K.enum mp.keys) md

/-- A dictionary with the keys `metadata` and `metadata_policy` (policy.py 209-215, 308). A missing key is the same as an
empty dict: all uses are `.get(…, {})` followed by a truth test. -/
structure Rule where
  metadata : Metadata
  policy : MetadataPolicy
deriving DecidableEq, Repr

/-- `TrustChainPolicy.apply_policy` (policy.py 334-356). -/
def applyPolicy (E : SetEnum Val) (K : SetEnum String) (metadata : Metadata) (rule : Rule) : Except PyErr Metadata :=
  let md := if rule.metadata.isEmpty then metadata else rule.metadata.update metadata
  if rule.policy.isEmpty then .ok md else applyMetadataPolicy E K md rule.policy

end Fed.Policy
