import Verif.Py
/-
Model of `create_entity_statement`, /repo/src/fedservice/entity_statement/create.py.
-/
namespace Fed.Server
open Fed

/-- The named parameters of `create_entity_statement` besides iss, sub and key_jar (create.py 9-11). -/
def namedParams : List String := ["metadata", "metadata_policy", "authority_hints", "lifetime", "aud", "include_jwks", "constraints"]

/-- The value of a parameter with default. -/
def param (kwargs : Dict Val) (name : String) (default : Val) : Val := (kwargs.get? name).getD default

/-- `if value: msg[name] = value` -/
def putIf (msg : Dict Val) (name : String) (v : Val) : Dict Val := if v.truthy then msg.set name v else msg

/-- The extra keyword arguments (`**kwargs`). -/
def extraArgs (kwargs : Dict Val) : Dict Val := kwargs.filter fun p => p.1 ∉ namedParams

/-- The message that is signed (create.py 29-56). `ownKeys`: the issuer's `key_jar.export_jwks()`. A callable given as `authority_hints` is
represented by `hintsFn`, what it returns. -/
def createMsg (ownKeys : Val) (sub : String) (hintsFn : Option Val) (kwargs : Dict Val) : Dict Val :=
  let msg : Dict Val := [("sub", .str sub)]
  let msg := putIf msg "metadata" (param kwargs "metadata" .null)
  let msg := putIf msg "metadata_policy" (param kwargs "metadata_policy" .null)
  let msg := match hintsFn with
    | some v => msg.set "authority_hints" v
    | none => putIf msg "authority_hints" (param kwargs "authority_hints" .null)
  let msg := putIf msg "aud" (param kwargs "aud" (.str ""))
  let msg := putIf msg "constraints" (param kwargs "constraints" .null)
  let msg := msg.update (extraArgs kwargs)
  if (param kwargs "include_jwks" (.bool true)).truthy then
    match (extraArgs kwargs).get? "jwks" with
    | some ks => msg.set "jwks" ks
    | none => msg.set "jwks" ownKeys
  else msg

/-- `JWT(key_jar=key_jar, iss=iss, lifetime=lifetime).pack(payload=msg)` (create.py 58-60). cryptojwt: `iss`, `iat` and, for a lifetime
other than 0, `exp` are written over what the payload has. The signed token is represented by its payload. Simplification: a
lifetime that is not an integer raises TypeError (a boolean would count as a number). -/
def pack (now : Int) (iss : String) (lifetime : Val) (msg : Dict Val) : Except PyErr (Dict Val) :=
  match lifetime with
  | .int l =>
    let msg := (msg.set "iss" (.str iss)).set "iat" (.int now)
    .ok (if l ≠ 0 then msg.set "exp" (.int (now + l)) else msg)
  | .null => .ok ((msg.set "iss" (.str iss)).set "iat" (.int now))
  | _ => .error .typeError

/-- `create_entity_statement(iss, sub, key_jar, **kwargs)` (create.py 9-60): the payload of the statement. Keyword arguments that repeat
iss, sub or key_jar raise TypeError. -/
def createStatement (ownKeys : Val) (now : Int) (iss sub : String) (hintsFn : Option Val) (kwargs : Dict Val) : Except PyErr (Dict Val) :=
  if kwargs.has "iss" || kwargs.has "sub" || kwargs.has "key_jar" then .error .typeError
  else pack now iss (param kwargs "lifetime" (.int 86400)) (createMsg ownKeys sub hintsFn kwargs)

end Fed.Server
