import Verif.Chains.Liveness
import Verif.Server.FetchProps
/-
The servers of a federation and what clients of it see: the entity configuration and fetch endpoints of this software, asked by the collector of this software.
-/
namespace Fed.Chains
open Fed Verify

/-! ### Reading the JSON of a statement -/

/-- A JSON list of strings. -/
def strs : Val → List String
  | .arr xs => xs.filterMap fun x => match x with
    | .str s => some s
    | _ => none
  | _ => []

/-- A JSON object of objects. -/
def objs : Val → Dict (Dict Val)
  | .obj d => d.filterMap fun x => match x.2 with
    | .obj m => some (x.1, m)
    | _ => none
  | _ => []

/-- A JSON string. -/
def asStr : Val → Option String
  | .str s => some s
  | _ => none

/-- A JSON number. -/
def asInt : Val → Option Int
  | .int n => some n
  | _ => none

/-- The `constraints` claim. -/
def asConstr : Val → Constraints.Constr
  | .obj d => ⟨(Dict.get? d "max_path_length").bind asInt, (Dict.get? d "naming_constraints").bind fun n => match n with
    | .obj m => some ⟨(Dict.get? m "permitted").map strs, (Dict.get? m "excluded").map strs⟩
    | _ => none⟩
  | _ => {}

/-- How a JWT is made and its keys are read, left open: `keys` reads a `jwks` value, `sig` is the header and signature `signer` puts to a payload. -/
structure Jose where
  keys : Val → List Key
  sig : (signer : String) → Dict Val → Nat

/-- The statement a receiver reads in a payload (`EntityStatement`, /repo/src/fedservice/message.py 361-385, deserialised). Simplifications: as for `Payload`; values that are not of the type
the claim has are read as empty, where deserialisation refuses the statement. -/
def decode (J : Jose) (d : Dict Val) : Payload where
  iss := ((d.get? "iss").bind asStr).getD ""
  sub := ((d.get? "sub").bind asStr).getD ""
  exp := (d.get? "exp").bind asInt
  jwks := (d.get? "jwks").map J.keys
  hints := (d.get? "authority_hints").map strs
  metadata := (d.get? "metadata").map objs
  policy := ((d.get? "metadata_policy").map fun v => (objs v).map fun x => (x.1, objs (.obj x.2))).getD []
  constraints := (d.get? "constraints").map asConstr
  crit := (d.get? "crit").map strs
  aud := (d.get? "aud").bind asStr
  trustAnchor := (d.get? "trust_anchor_id").bind asStr

/-- The signed statement. -/
def token (J : Jose) (signer : String) (d : Dict Val) : Jws := ⟨decode J d, J.sig signer d⟩

/-! ### The members -/

/-- A member of the federation running this software: its registries, its trust marks, and the fetch requests it has answered so far. -/
structure Member where
  authority : Server.Authority
  marks : Val := .null
  requests : List (Int × Server.FetchRequest) := []

/-- What an endpoint answers: a statement or an HTTP error status. -/
def answer (J : Jose) (signer : String) : Except PyErr (Dict Val) → Except Collect.NetErr Doc
  | .ok d => .ok (some (token J signer d))
  | .error _ => .error .failedRetrieval

/-- What the collector finds when the members answer through `EntityConfiguration.process_request` (/repo/src/fedservice/entity/server/entity_configuration.py 31-56) and
`Fetch.process_request` (/repo/src/fedservice/entity/server/fetch.py 27-85), at time `issued`. `host` is who serves an endpoint. The fetch request carries issuer and subject
(`EntityStatement.get_request_parameters`, /repo/src/fedservice/entity/client/entity_statement.py 53-95). Simplification: all statements are issued at the one time. -/
def world (J : Jose) (member : String → Option Member) (host : Val → Option String) (issued : Int) : Collect.Federation where
  config e := match member e with
    | none => .error .missingPage
    | some m => answer J m.authority.entityId (Server.entityConfiguration m.authority issued m.marks)
  fetch ep a e := match (host ep).bind member with
    | none => .error .missingPage
    | some m => answer J m.authority.entityId (Server.fetch (Server.after m.authority m.requests) issued { iss := some a, sub := some e }).1

/-- The registration of entity `e`, a member with keys `ks`, by authority `A`: the entry gives its keys, entity types are a list, nothing in the entry or the policy for the entity gets in the way of
making a statement. -/
structure Registered (J : Jose) (A : Server.Authority) (e : String) (ks : List Key) (reg : Dict Val) : Prop where
  entry : A.subordinate.get? e = some reg
  keys : ∃ v, reg.get? "jwks" = some v ∧ J.keys v = ks
  types : ∀ v, reg.get? "entity_types" = some v → ∃ ts : List String, v = .arr (ts.map .str)
  clean : ∀ k ∈ ["iss", "sub", "key_jar", "lifetime", "include_jwks"], reg.get? k = none ∧ ((A.policy.get? e).getD []).get? k = none
  own : ((A.policy.get? e).getD []).get? "jwks" = none

/-- What the operators of the members have to see to. The JOSE library is one that refuses no token before it expires. -/
structure WellKept (J : Jose) (L : Lib) (member : String → Option Member) (host : Val → Option String) (jar : KeyJar) (rank : String → Nat) : Prop where
  id : ∀ e m, member e = some m → m.authority.entityId = e ∧ e ≠ "" ∧ Collect.Plain e
  /-- signatures verify with the published keys -/
  signs : ∀ e m d, member e = some m → ∃ k ∈ J.keys m.authority.ownKeys, L.usable (token J e d) k = true ∧ L.verifies (token J e d) k = true
  time : ∀ j x t, j.payload.exp = some x → t < x → L.current t j = true
  hints : ∀ e m, member e = some m → m.authority.hints = .null ∨ ∃ hs : List String, m.authority.hints = .arr (hs.map .str)
  /-- the authorities named are members further up, have registered the entity and serve the fetch endpoint they publish -/
  superior : ∀ e m a, member e = some m → a ∈ strs m.authority.hints → ∃ ma reg fe ep, member a = some ma ∧ rank a < rank e ∧
    Registered J ma.authority e (J.keys m.authority.ownKeys) reg ∧
    (objs ma.authority.metadata).get? "federation_entity" = some fe ∧ fe.get? "federation_fetch_endpoint" = some ep ∧ ep.truthy = true ∧ host ep = some a
  /-- the requests answered so far name no foreign issuer -/
  requests : ∀ e m, member e = some m → ∀ r ∈ m.requests, Server.Harmless m.authority r.2
  /-- who names no authority is a trust anchor -/
  anchors : ∀ e m, member e = some m → strs m.authority.hints = [] → Dict.has jar e = true ∧ ∀ k ∈ J.keys m.authority.ownKeys, k ∈ jar.keysOf e

end Fed.Chains
