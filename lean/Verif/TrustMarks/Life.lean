import Verif.Client.Requests
/-
A trust mark from the issuer to whoever verifies it: the status question of `verify_trust_mark` (/repo/src/fedservice/entity/__init__.py 373-386) put by the client of this software to issuers running it.
-/
namespace Fed.TrustMarks
open Fed Client.Requests

/-- What comes back from a status endpoint (/repo/src/fedservice/trust_mark_entity/server/trust_mark_status.py 34-55). Simplification: an exception at the endpoint is one for the client. -/
def statusAnswer : Except PyErr Bool → Except PyErr (Dict Val)
  | .error e => .error e
  | .ok true => .ok [("active", .bool true)]
  | .ok false => .ok [("error", .str "not_found"), ("error_description", .str "No active trust mark matching the query")]

/-- The question `verify_trust_mark` asks (entity/__init__.py 375-383), and the answer of the issuer that serves the address the question goes to. `serving`: which issuer serves an address. -/
def askStatus (text : Val → String) (unverified : String → Option (Dict Val)) (unpack : String → Except PyErr Info) (serving : String → Option Issuer) (now : Int) : StatusOracle := fun ep sub id =>
  match statusRequest text unverified (some [("sub", .str sub), ("id", .str id), ("trust_mark_id", .str id)]) (text ep) "" with
  | .error e => .error e
  | .ok r =>
    match serving r.target with
    | none => .error .connectionError
    | some is => statusAnswer (is.status now (statusAsked unpack r.query))

/-- The token made of what `create_trust_mark` puts together (/repo/src/fedservice/trust_mark_entity/entity.py 65-92): issued and signed in the issuer's name. `sign`: header and signature. -/
def issuedMark (sign : TmPayload → Nat) (iss : String) (m : Info) : Tm :=
  let p : TmPayload := { iss := some iss, sub := some m.sub, id := some m.id, iat := some m.iat, exp := m.exp }
  ⟨p, sign p⟩

end Fed.TrustMarks
