import Verif.Py
/-
Model of how `crit` and `policy_language_crit` are handled, /repo/src/fedservice/message.py.
-/
namespace Fed.Message
open Fed

/-- The claims an entity statement defines (`EntityStatement.c_param`, message.py 401-420). The first seven are those of idpyoidc's `JsonWebToken`. -/
def statementParams : List String :=
  ["iss", "sub", "aud", "exp", "nbf", "iat", "jti", "jwks", "authority_hints", "metadata", "metadata_policy", "constraints", "crit",
   "policy_language_crit", "trust_marks", "trust_anchor_id"]

/-- The operators a claim policy defines (`Policy.c_param`, message.py 320-328). -/
def policyParams : List String := ["subset_of", "one_of", "superset_of", "add", "value", "default", "essential"]

/-- `Message.extra()` (idpyoidc): the members that are not defined. -/
def extra (defined members : List String) : List String := members.filter fun k => decide (k ∉ defined)

/-- The check of the critical extensions: message.py 331-344 (`Policy.verify`) and 425-438 (`EntityStatement.verify`), the same code twice. `crit`:
what is listed as critical, `none` if nothing is; `known`: the extensions the verifier knows, `none` if it names none. -/
def critCheck (extras : List String) (crit known : Option (List String)) : Except PyErr Unit :=
  if extras.isEmpty then .ok ()
  else
    match crit with
    | none => .ok ()
    | some [] => .error .valueError
    | some c =>
      let musts := c.filter fun k => decide (k ∈ extras)
      match known with
      | some (k :: ks) => if musts.all fun m => decide (m ∈ k :: ks) then .ok () else .error .unknownCriticalExtension
      | _ => .error .unknownCriticalExtension

/-- An entity statement as `EntityStatement.verify` looks at it: the names of its claims, what it lists as critical, and of its policy
the operators used per entity type and claim. Simplification: a policy is a dictionary of dictionaries of dictionaries (Python would raise
TypeError or AttributeError otherwise). -/
structure Statement where
  claims : List String
  crit : Option (List String) := none
  policyCrit : Option (List String) := none
  policy : Dict (Dict (List String)) := []
deriving DecidableEq, Repr

/-- What the caller of `verify` says it knows (`known_extensions`, `known_policy_extensions`). -/
structure KnownExt where
  ext : Option (List String) := none
  policyExt : Option (List String) := none
deriving DecidableEq, Repr

/-- `Policy.verify` for a list of claim policies, one after the other (message.py 369-372). -/
def verifyPolicies (crit known : Option (List String)) : List (List String) → Except PyErr Unit
  | [] => .ok ()
  | ops :: rest => do
    critCheck (extra policyParams ops) crit known
    verifyPolicies crit known rest

/-- The claim policies in the order `MetadataPolicy.verify` visits them (message.py 368-372). -/
def claimPolicies (mp : Dict (Dict (List String))) : List (List String) := mp.flatMap fun t => t.2.map (·.2)

/-- `EntityStatement.verify` (message.py 422-445). `base`: the outcome of idpyoidc's `JsonWebToken.verify` (required claims, types, audience). -/
def verifyStatement (base : Except PyErr Unit) (known : KnownExt) (s : Statement) : Except PyErr Unit := do
  base
  critCheck (extra statementParams s.claims) s.crit known.ext
  if s.policy.isEmpty then .ok ()
  else
    match s.policyCrit with
    | none => .ok ()
    | some [] => .ok ()
    | some c => verifyPolicies (some c) known.policyExt (claimPolicies s.policy)

end Fed.Message
