import Verif.Chains.Model
/-
What applying the policies does to the statements of a chain: /repo/src/fedservice/entity/function/policy.py 334-386. `Chains.Model` leaves this
out (`applyToChain` returns new metadata and keeps the statements); here it is modelled.
-/
namespace Fed.Chains
open Fed Verify

/-- `TrustChainPolicy._policy` (policy.py 358-371) together with what it leaves in `verified_chain[-1]['metadata']` (`leaf`). Where the
superiors give metadata, `apply_policy` works on a copy of theirs (345-347); otherwise the operators work on the dictionary of the statement itself
(policy_operator.py 34-113). Simplification: after an exception the chain is dropped by every caller, so the half-done change is not kept. -/
def policyOn (E : SetEnum Val) (K : SetEnum String) (superiors : List Policy.PStatement) (leaf : Dict Policy.Metadata) (entityType : String) :
    Except PyErr (Option Policy.Metadata × Dict Policy.Metadata) := do
  let combined ← Policy.gatherPolicies E K superiors entityType
  match leaf.get? entityType with
  | none => pure (none, leaf)
  | some metadata => do
    let md ← Policy.applyPolicy E K metadata combined
    pure (some md, if combined.metadata.isEmpty then leaf.set entityType md else leaf)

/-- The loop over the entity types (policy.py 382-383). The set of types does not change while it runs: only the dictionaries under them do. -/
def policyOnTypes (E : SetEnum Val) (K : SetEnum String) (superiors : List Policy.PStatement) :
    List String → Dict Policy.Metadata → Except PyErr (Dict (Option Policy.Metadata) × Dict Policy.Metadata)
  | [], leaf => .ok ([], leaf)
  | t :: ts, leaf => do
    let r ← policyOn E K superiors leaf t
    let rest ← policyOnTypes E K superiors ts r.2
    pure ((t, r.1) :: rest.1, rest.2)

/-- `TrustChainPolicy.__call__` without an entity type (policy.py 373-386), on the chain as it is: the last of the verified statements is changed. -/
def applyOnChain (E : SetEnum Val) (K : SetEnum String) (tc : TrustChain) : Except PyErr TrustChain :=
  match tc.verified.getLast? with
  | none => .error .indexError
  | some leaf =>
    match leaf.metadata with
    | none => .error .keyError
    | some md =>
      if tc.verified.length > 1 then do
        let r ← policyOnTypes E K (tc.verified.dropLast.map toP) md.keys md
        pure { tc with metadata := r.1.map fun p => (p.1, mdVal p.2), verified := tc.verified.dropLast ++ [{ leaf with metadata := some r.2 }] }
      else
        match md.get? "" with
        | none => .error .keyError
        | some m => .ok { tc with metadata := m }

end Fed.Chains
