import Verif.Statement
/-
Model of /repo/src/fedservice/entity/function/verifier.py: verification of a trust chain.
-/
namespace Fed.Verify
open Fed

/-- The key jar: the public keys held per entity. -/
abbrev KeyJar := Dict (List Key)

/-- What is left open about cryptojwt. `unknownRaises`: does `KeyJar.get_issuer_keys` raise KeyError for an issuer the jar does
not have, or give an empty list? (verifier.py 82-96 copes with both.) -/
structure Lib extends Crypto where
  unknownRaises : Bool

/-- The keys held for an entity; none for an unknown one. -/
def KeyJar.keysOf (jar : KeyJar) (e : String) : List Key := (Dict.get? jar e).getD []

/-- `_keyjar.get_jwt_verify_keys(_jwt.jwt)` (used at verifier.py 65): the keys of the token's issuer that suit the token. -/
def verifyKeys (L : Lib) (jar : KeyJar) (j : Jws) : List Key := (jar.keysOf j.payload.iss).filter (L.usable j)

/-- `trusted_anchor` (verifier.py 23-41). A document that is no JWS gives `None`, whose attribute `jwt` raises AttributeError.
Simplification: the federation entity's key jar and the one `upstream_get` finds are the same object. -/
def trustedAnchor (jar : KeyJar) : Doc → Except PyErr Bool
  | none => .error .attributeError
  | some j => .ok (Dict.has jar j.payload.iss)

/-- Recording the keys a verified statement lists for its subject (verifier.py 80-96). -/
def addKeys (L : Lib) (jar : KeyJar) (sub : String) (ks : List Key) : KeyJar :=
  match Dict.get? jar sub with
  | none => if L.unknownRaises then jar.set sub ks else if ks.isEmpty then jar else jar.set sub ks
  | some old =>
    let new := ks.filter fun k => decide (k ∉ old)
    if new.isEmpty then jar else jar.set sub (old ++ new)

/-- The loop of `verify_trust_chain` (verifier.py 60-98); `n` = number of statements − 1, `ves` the statements verified so far.
The key jar is returned also when an exception ends the loop: what was added stays. -/
def verifyLoop (L : Lib) (n : Nat) : List Doc → KeyJar → List Payload → Except PyErr (List Payload) × KeyJar
  | [], jar, ves => (.ok ves, jar)
  | none :: ds, jar, ves => verifyLoop L n ds jar ves
  | some j :: ds, jar, ves =>
    let keys := verifyKeys L jar j
    if keys.isEmpty then (.error .missingKey, jar)
    else if keys.any (L.verifies j) then
      match j.payload.jwks with
      | none => if ves.length ≠ n then (.error .valueError, jar) else verifyLoop L n ds jar (ves ++ [j.payload])
      | some ks => verifyLoop L n ds (addKeys L jar j.payload.sub ks) (ves ++ [j.payload])
    else (.error .badSignature, jar)

/-- What constraint checking reads of a statement. -/
def toC (p : Payload) : Constraints.CStatement := ⟨p.sub, p.constraints⟩

/-- `meets_restrictions(ves)` for a non-empty list. -/
def meets (ves : List Payload) (leaf : Payload) : Except PyErr Bool :=
  Constraints.meetsRestrictions (ves.map toC) (toC leaf)

/-- `verify_trust_chain` (verifier.py 43-103). The empty list of statements raises IndexError. -/
def verifyTrustChain (L : Lib) (jar : KeyJar) (chain : List Doc) : Except PyErr (List Payload) × KeyJar :=
  match chain with
  | [] => (.error .indexError, jar)
  | d :: _ =>
    match trustedAnchor jar d with
    | .error e => (.error e, jar)
    | .ok false => (.ok [], jar)
    | .ok true =>
      match verifyLoop L (chain.length - 1) chain jar [] with
      | (.error e, jar') => (.error e, jar')
      | (.ok ves, jar') =>
        match ves.getLast? with
        | none => (.ok [], jar')
        | some leaf =>
          match meets ves.dropLast leaf with
          | .error e => (.error e, jar')
          | .ok b => (.ok (if b then ves else []), jar')

/-- The loop of `trust_chain_expires_at` (verifier.py 105-113). -/
def expiresLoop : List Payload → Int → Except PyErr Int
  | [], e => .ok e
  | p :: ps, e => do
    let x ← p.getExp
    if e ≥ 0 then (if x < e then expiresLoop ps x else expiresLoop ps e) else expiresLoop ps x

/-- `trust_chain_expires_at` (verifier.py 105-113). -/
def expiresAt (ps : List Payload) : Except PyErr Int := expiresLoop ps (-1)

/-- `TrustChain` (/repo/src/fedservice/entity_statement/statement.py 12-92), the members that are used. `metadata` is filled in by
the policies later. -/
structure TrustChain where
  anchor : String
  issPath : List String
  exp : Int
  verified : List Payload
  chain : List Doc
  metadata : Dict Val := []
deriving DecidableEq, Repr

/-- `TrustChainVerifier.__call__` (verifier.py 115-138). -/
def verifyChain (L : Lib) (jar : KeyJar) (chain : List Doc) : Except PyErr (Option TrustChain) × KeyJar :=
  match verifyTrustChain L jar chain with
  | (.error e, jar') => (.error e, jar')
  | (.ok [], jar') => (.ok none, jar')
  | (.ok (p :: ps), jar') =>
    match expiresAt (p :: ps) with
    | .error e => (.error e, jar')
    | .ok x => (.ok (some ⟨p.iss, ((p :: ps).map (·.iss)).reverse, x, p :: ps, chain, []⟩), jar')

/-- `TrustChain.is_expired` (statement.py 76-82). -/
def TrustChain.isExpired (tc : TrustChain) (now : Int) : Bool := decide (tc.exp < now)

end Fed.Verify
