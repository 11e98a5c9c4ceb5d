import Verif.Policy.Combine
import Verif.Constraints.Model
/-
Entity statements, keys and signatures, as far as the modelled code reads them.
Models the data that /repo/src/fedservice/entity_statement/* and /repo/src/fedservice/message.py describe.
-/
namespace Fed

/-- A public key. Two keys are equal iff they are the same key (what `==` of cryptojwt keys compares). -/
abbrev Key := Nat

/-- The payload of an entity statement (`EntityStatement`, /repo/src/fedservice/message.py 361-385). Simplifications: `iss` and
`sub` are always there; an absent `metadata_policy` and an empty one are not distinguished; `jwks` is
the list of its keys; `aud` is a single one. `crit` and `others` (the names of the claims that entity statements do not define) are here only to show that the
verification of chains does not read them; `aud` only to show that clients do not. `trustAnchor` is `trust_anchor_id` of registration responses. Other members no modelled code reads are left out. -/
structure Payload where
  iss : String
  sub : String
  exp : Option Int := none
  jwks : Option (List Key) := none
  hints : Option (List String) := none
  metadata : Option (Dict Policy.Metadata) := none
  policy : Dict Policy.MetadataPolicy := []
  constraints : Option Constraints.Constr := none
  crit : Option (List String) := none
  others : List String := []
  aud : Option String := none
  trustAnchor : Option String := none
deriving DecidableEq, Repr

/-- The metadata per entity type; none for a statement without metadata. -/
def Payload.md (p : Payload) : Dict Policy.Metadata := p.metadata.getD []

/-- A signed JWT: its payload and, as a number, everything else (header and signature). -/
structure Jws where
  payload : Payload
  sig : Nat
deriving DecidableEq, Repr

/-- What is received where a signed JWT is expected: `none` is anything `cryptojwt`'s `factory` does not recognise as a JWS. -/
abbrev Doc := Option Jws

/-- The part of cryptojwt the model leaves open. `usable j k`: would `get_jwt_verify_keys` consider key `k` of the issuer for
the token `j` (key id, key type, use)? `verifies j k`: does the signature of `j` verify with `k`? `current now j`: does
`JWT.unpack` let the claims of `j` about time pass at time `now` (it refuses tokens that have expired; `verify_compact` does not look)?
Every theorem holds for every choice of the three. -/
structure Crypto where
  usable : Jws → Key → Bool
  verifies : Jws → Key → Bool
  current : Int → Jws → Bool

/-- What cryptojwt does about time: `exp` may have passed by no more than the allowed skew (15 seconds, the default). Used in examples
and counterexamples only. -/
def notExpired (now : Int) (j : Jws) : Bool :=
  match j.payload.exp with
  | none => true
  | some x => decide (now < x + 15)

/-- `verify_self_signed_signature` (/repo/src/fedservice/entity/function/trust_chain_collector.py 36-52 and
/repo/src/fedservice/entity/function/__init__.py 23-39): verify with the keys the statement itself lists. The `_jws`
member that is added to the result is modelled by keeping the token (see `Collect.Config`). Simplification: failing
to find a usable key, failing to verify and being refused for the time are the one error `badSignature`. -/
def selfVerify (C : Crypto) (now : Int) (j : Jws) : Except PyErr Payload :=
  match j.payload.jwks with
  | none => .error .keyError
  | some ks => if (ks.filter (C.usable j)).any (C.verifies j) && C.current now j then .ok j.payload else .error .badSignature

/-- `statement["exp"]`. -/
def Payload.getExp (p : Payload) : Except PyErr Int :=
  match p.exp with
  | some e => .ok e
  | none => .error .keyError

end Fed
