import Verif.Policy.Operators
/-
Model of the combination of metadata policies along a trust chain: /repo/src/fedservice/entity/function/policy.py,
lines 12-242 and 295-403.
-/
namespace Fed.Policy
open Fed

/-- `combine_subset_of`, `combine_superset_of`, `combine_one_of` (policy.py 12-21): all three are the intersection. -/
def combineInter (E : SetEnum Val) (s1 s2 : Val) : Except PyErr Val := do
  let a ← pySet s1
  let b ← pySet s2
  pure (.arr (E.enum (inter a b)))

/-- `combine_add` (policy.py 24-33). -/
def combineAdd (E : SetEnum Val) (s1 s2 : Val) : Except PyErr Val := do
  let a ← setOrSingleton s1
  let b ← setOrSingleton s2
  pure (.arr (E.enum (a ++ b)))

/-- `POLICY_FUNCTIONS` (policy.py 36). -/
def policyFunctions : List String :=
  ["subset_of", "superset_of", "one_of", "add", "value", "default", "essential"]

/-- `OP2FUNC` (policy.py 38-43). -/
def op2func (E : SetEnum Val) (policy : String) (s1 s2 : Val) : Except PyErr Val :=
  if policy = "add" then combineAdd E s1 s2 else combineInter E s1 s2

/-- `do_sub_one_super_add` (policy.py 46-56). The function returns None when neither side has the operator; the caller
never asks for such an operator. -/
def doSubOneSuperAdd (E : SetEnum Val) (superior child : ClaimPolicy) (policy : String) : Except PyErr Val :=
  match superior.get? policy, child.get? policy with
  | some s, some c => do
    let comb ← op2func E policy s c
    if comb.truthy then pure comb else throw .policyError
  | some s, none => .ok s
  | none, some c => .ok c
  | none, none => .ok .null

/-- `do_value` (policy.py 59-68). -/
def doValue (superior child : ClaimPolicy) (policy : String) : Except PyErr Val :=
  match superior.get? policy, child.get? policy with
  | some s, some c => if s = c then .ok s else throw .policyError
  | some s, none => .ok s
  | none, some c => .ok c
  | none, none => .ok .null

/-- `do_default` (policy.py 71-81). -/
def doDefault (superior child : ClaimPolicy) (policy : String) : Except PyErr Val :=
  match superior.get? policy, child.get? policy with
  | some s, some c => if s = c then .ok s else throw .policyError
  | some s, none => .ok s
  | none, some c => .ok c
  | none, none => .ok .null

/-- `do_essential` (policy.py 84-98). -/
def doEssential (superior child : ClaimPolicy) (policy : String) : Except PyErr Val :=
  match superior.get? policy, child.get? policy with
  | some s, some c => if !s.truthy && c.truthy then .ok (.bool true) else .ok s
  | some s, none => .ok s
  | none, some c => .ok c
  | none, none => .ok .null

/-- `DO_POLICY[policy](superior, child, policy)` (policy.py 101-109). -/
def doPolicy (E : SetEnum Val) (superior child : ClaimPolicy) (policy : String) : Except PyErr Val :=
  if policy = "add" ∨ policy = "superset_of" ∨ policy = "subset_of" ∨ policy = "one_of" then
    doSubOneSuperAdd E superior child policy
  else if policy = "value" then doValue superior child policy
  else if policy = "default" then doDefault superior child policy
  else if policy = "essential" then doEssential superior child policy
  else throw .keyError

/-- `set(policy).intersection(POLICY_FUNCTIONS)` (policy.py 122-123). -/
def recognised (cp : ClaimPolicy) : List String := policyFunctions.filter fun n => cp.has n

/-- The loop `for policy in comb_policy: rule[policy] = …` (policy.py 153-155) over a given enumeration. -/
def buildRule (E : SetEnum Val) (superior child : ClaimPolicy) : List String → Except PyErr ClaimPolicy
  | [] => .ok []
  | p :: ps => do
    let v ← doPolicy E superior child p
    let rest ← buildRule E superior child ps
    pure ((p, v) :: rest)

/-- Python `==` of two sets of strings. -/
def sameSet (a b : List String) : Bool := a.all (fun x => decide (x ∈ b)) && b.all (fun x => decide (x ∈ a))

/-- `set(a).difference(set(b))` is non-empty: PolicyError. `a.issubset(b)` and `b.issuperset(a)` are the same test. -/
def demandSubset (a b : Val) : Except PyErr Unit := do
  let x ← pySet a
  let y ← pySet b
  if (diff x y).isEmpty then pure () else throw .policyError

/-- The consistency checks, which are made only when the operators present are exactly the listed ones
(policy.py 157-187). -/
def consistency (comb : List String) (rule : ClaimPolicy) : Except PyErr Unit :=
  if sameSet comb ["superset_of", "subset_of"] then do
    demandSubset (← rule.get "superset_of") (← rule.get "subset_of")
  else if sameSet comb ["superset_of", "subset_of", "default"] then do
    demandSubset (← rule.get "superset_of") (← rule.get "subset_of")
    demandSubset (← rule.get "default") (← rule.get "subset_of")
    demandSubset (← rule.get "superset_of") (← rule.get "default")
  else if sameSet comb ["subset_of", "default"] then do
    demandSubset (← rule.get "default") (← rule.get "subset_of")
  else if sameSet comb ["superset_of", "default"] then do
    demandSubset (← rule.get "superset_of") (← rule.get "default")
  else if sameSet comb ["one_of", "default"] then do
    let d ← rule.get "default"
    if d.isList then demandSubset d (← rule.get "one_of")
    else do
      let x ← mkSet [d]
      let y ← pySet (← rule.get "one_of")
      if (diff x y).isEmpty then pure () else throw .policyError
  else if sameSet comb ["subset_of", "add"] then do
    demandSubset (← rule.get "add") (← rule.get "subset_of")
  else if sameSet comb ["superset_of", "add"] then do
    demandSubset (← rule.get "superset_of") (← rule.get "add")
  else pure ()

/-- The branch of `combine_claim_policy` taken when the superior fixes the value (policy.py 125-141). -/
def combineFixed (superior child : ClaimPolicy) (x : Val) : Except PyErr ClaimPolicy :=
  let childSet := recognised child
  if childSet.isEmpty then .ok superior
  else
    match child.get? "essential" with
    | some e => if childSet.length = 1 then .ok [("value", x), ("essential", e)] else throw .policyError
    | none =>
      match child.get? "value" with
      | some y => if y ≠ x then throw .policyError else .ok superior
      | none => throw .policyError

/-- The test at policy.py 143-146. -/
def essentialClash (superior child : ClaimPolicy) : Bool :=
  match superior.get? "essential", child.get? "essential" with
  | some s, some c => decide (s ≠ c ∧ c = .bool false)
  | _, _ => false

/-- `superior_set.union(child_set)` (policy.py 148). -/
def combPolicy (superior child : ClaimPolicy) : List String :=
  policyFunctions.filter fun n => superior.has n || child.has n

/-- The other branch (policy.py 142-188). `K` enumerates the set of operator names. -/
def combineFree (E : SetEnum Val) (K : SetEnum String) (superior child : ClaimPolicy) : Except PyErr ClaimPolicy :=
  let comb := combPolicy superior child
  if essentialClash superior child then throw .policyError
  else if "one_of" ∈ comb ∧ ("subset_of" ∈ comb ∨ "superset_of" ∈ comb) then throw .policyError
  else do
    let rule ← buildRule E superior child (K.enum comb)
    consistency comb rule
    pure rule

/-- `combine_claim_policy` (policy.py 112-188). -/
def combineClaimPolicy (E : SetEnum Val) (K : SetEnum String) (superior child : ClaimPolicy) : Except PyErr ClaimPolicy :=
  match superior.get? "value" with
  | some x => combineFixed superior child x
  | none => combineFree E K superior child

/-- The test loop of `combine_metadata` (policy.py 198-201). -/
def metadataClash (superior subordinate : Metadata) : List String → Bool
  | [] => false
  | k :: ks => decide (superior.get? k ≠ subordinate.get? k) || metadataClash superior subordinate ks

/-- `combine_metadata` (policy.py 191-206). The order of the test loop does not matter (one possible exception). -/
def combineMetadata (superior subordinate : Metadata) : Except PyErr Metadata :=
  if subordinate.isEmpty then .ok superior
  else if metadataClash superior subordinate (subordinate.keys.filter fun k => decide (k ∈ superior.keys)) then
    throw .policyError
  else .ok (superior.update subordinate)

/-- The loop over claims that both policies have (policy.py 229-230). -/
def combineClaims (E : SetEnum Val) (K : SetEnum String) (sup sub : MetadataPolicy) :
    List String → Except PyErr MetadataPolicy
  | [] => .ok []
  | c :: cs => do
    let p ← combineClaimPolicy E K (← sup.get c) (← sub.get c)
    let rest ← combineClaims E K sup sub cs
    pure ((c, p) :: rest)

/-- `combine` (policy.py 209-242). Simplification: the dict passed as `superior` is updated in place in Python; the only
caller rebinds its variable to the returned dict. -/
def combine (E : SetEnum Val) (K : SetEnum String) (superior subordinate : Rule) : Except PyErr Rule := do
  let metadata ← combineMetadata superior.metadata subordinate.metadata
  let metadata := if metadata.isEmpty then superior.metadata else metadata
  if subordinate.policy.isEmpty then pure ⟨metadata, superior.policy⟩
  else do
    let both ← combineClaims E K superior.policy subordinate.policy
      (K.enum (superior.policy.keys.filter fun c => decide (c ∈ subordinate.policy.keys)))
    let onlySup := superior.policy.filter fun p => decide (p.1 ∉ subordinate.policy.keys)
    let onlySub := subordinate.policy.filter fun p => decide (p.1 ∉ superior.policy.keys)
    pure ⟨metadata, both ++ onlySup ++ onlySub⟩

/-- The parts of a verified entity statement that policy resolution reads: `metadata` and `metadata_policy`, per entity
type. An absent member and an absent entity type are the same here: both raise KeyError, which is caught. -/
structure PStatement where
  metadata : Dict Metadata
  policy : Dict MetadataPolicy
deriving DecidableEq, Repr

/-- `es[_item][entity_type]` with KeyError giving `{}` (policy.py 308-321). -/
def PStatement.rule (es : PStatement) (entityType : String) : Rule :=
  ⟨(es.metadata.get? entityType).getD [], (es.policy.get? entityType).getD []⟩

/-- The loop of `gather_policies` over `chain[1:]` (policy.py 315-330). -/
def gatherRest (E : SetEnum Val) (K : SetEnum String) (entityType : String) : List PStatement → Rule → Except PyErr Rule
  | [], rule => .ok rule
  | es :: chain, rule => do
    let sub := es.rule entityType
    if sub = ⟨[], []⟩ then gatherRest E K entityType chain rule
    else if sub.policy.keys.any (fun c => decide (c ∈ sub.metadata.keys)) then throw .policyError
    else do
      let rule' ← combine E K rule sub
      gatherRest E K entityType chain rule'

/-- `gather_policies` (policy.py 301-332): chain without the leaf's entity configuration, trust anchor first. The chain is
not empty (the caller has at least two statements and drops the last). -/
def gatherPolicies (E : SetEnum Val) (K : SetEnum String) (chain : List PStatement) (entityType : String) :
    Except PyErr Rule :=
  match chain with
  | [] => .error .indexError
  | es :: rest => gatherRest E K entityType rest (es.rule entityType)

/-- `TrustChainPolicy._policy` (policy.py 358-371): `none` when the leaf has no metadata of that type. -/
def policyFor (E : SetEnum Val) (K : SetEnum String) (superiors : List PStatement) (leaf : PStatement)
    (entityType : String) : Except PyErr (Option Metadata) := do
  let combined ← gatherPolicies E K superiors entityType
  match leaf.metadata.get? entityType with
  | none => pure none
  | some metadata => do
    let md ← applyPolicy E K metadata combined
    pure (some md)

/-- The loop `for _type in … : trust_chain.metadata[_type] = self._policy(…)` (policy.py 382-383). -/
def policyForTypes (E : SetEnum Val) (K : SetEnum String) (superiors : List PStatement) (leaf : PStatement) :
    List String → Except PyErr (Dict (Option Metadata))
  | [] => .ok []
  | t :: ts => do
    let m ← policyFor E K superiors leaf t
    let rest ← policyForTypes E K superiors leaf ts
    pure ((t, m) :: rest)

/-- `TrustChainPolicy.__call__` (policy.py 373-386) on a chain of at least two statements: entity type → metadata. -/
def callPolicy (E : SetEnum Val) (K : SetEnum String) (superiors : List PStatement) (leaf : PStatement)
    (entityType : Option String) : Except PyErr (Dict (Option Metadata)) :=
  match entityType with
  | some t => policyForTypes E K superiors leaf [t]
  | none => policyForTypes E K superiors leaf leaf.metadata.keys

/-- `diff2policy` (policy.py 389-403). -/
def diff2policy (new old : Metadata) : MetadataPolicy :=
  new.filterMap fun p =>
    match old.get? p.1 with
    | some o => if p.2 = o then none else some (p.1, [("value", p.2)])
    | none => if p.1 = "contacts" then some (p.1, [("add", p.2)]) else some (p.1, [("value", p.2)])

end Fed.Policy
