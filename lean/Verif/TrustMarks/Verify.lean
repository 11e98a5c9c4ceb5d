import Verif.Chains.Model
import Verif.TrustMarks.Store
/-
Model of the verification of trust marks, /repo/src/fedservice/entity/function/trust_mark_verifier.py and `verify_trust_mark` of
/repo/src/fedservice/entity/__init__.py.
-/
namespace Fed.TrustMarks
open Fed Verify

/-- A signed delegation: its issuer and, as a number, everything else. -/
structure Delegation where
  iss : String
  sig : Nat
deriving DecidableEq, Repr

/-- The payload of a trust mark (`TrustMark`, /repo/src/fedservice/message.py 448-475). The delegation is a string: a signed JWT or, inner
`none`, anything that is not one. Members no modelled code reads are left out. -/
structure TmPayload where
  iss : Option String := none
  sub : Option String := none
  id : Option String := none
  iat : Option Int := none
  exp : Option Int := none
  delegation : Option (Option Delegation) := none
deriving DecidableEq, Repr

/-- A signed trust mark: the payload and, as a number, everything else. -/
structure Tm where
  payload : TmPayload
  sig : Nat
deriving DecidableEq, Repr

/-- What is left open about cryptojwt: which keys suit a token, with which keys it verifies, whether `verify_compact` accepts a
token when it is given no keys at all, and which keys a JWKS holds. -/
structure TmLib where
  usable : Tm → Key → Bool
  verifies : Tm → Key → Bool
  usableD : Delegation → Key → Bool
  verifiesD : Delegation → Key → Bool
  noKeys : Tm → Bool
  noKeysD : Delegation → Bool
  jwks : Val → Except PyErr (List Key)

/-- `TrustMark.verify()` without arguments (message.py 461-475): the required members are there. Simplification: the types of the
members are right. -/
def TmPayload.verify (p : TmPayload) : Except PyErr (String × String × String) :=
  match p.iss, p.sub, p.id, p.iat with
  | some iss, some sub, some id, some _ => .ok (iss, sub, id)
  | _, _, _, _ => .error .missingAttribute

/-- `TrustMark.verify(entity_id=…, exp=…)` (message.py 461-475). `exp` is a parameter, not the mark's own; 0 stands for not given. -/
def TmPayload.verifyFor (p : TmPayload) (now : Int) (entity : Option String) (exp : Int) : Except PyErr Unit :=
  match p.verify with
  | .error e => .error e
  | .ok (_, sub, _) =>
    if entity ≠ none ∧ entity ≠ some sub then .error .wrongSubject
    else if exp ≠ 0 ∧ now > exp then .error .expired
    else .ok ()

/-- `statement_is_expired` (/repo/src/fedservice/utils.py 26-33). -/
def isExpired (now : Int) (exp : Option Int) : Bool :=
  match exp with
  | some e => decide (e < now)
  | none => false

/-- `v[k]` on a value that should be a dict. -/
def item (v : Val) (k : String) : Except PyErr Val :=
  match v with
  | .obj kvs => Dict.get kvs k
  | _ => .error .typeError

/-- `_ec['metadata']` for what the configuration cache gives (trust_chain_collector.py 182); `None` raises TypeError. -/
def ecMetadata : Option Collect.Config → Except PyErr (Dict Policy.Metadata)
  | none => .error .typeError
  | some c => match c.jws.payload.metadata with | none => .error .keyError | some m => .ok m

/-- The part of `TrustChainCollector.get_metadata` that collects anew (trust_chain_collector.py 175-182). The chains are verified
without the entity's own configuration; whether any is accepted does not matter for the result. -/
def collectMetadata (V : Chains.Env) (st : Chains.State) (entity : String) : Except PyErr (Dict Policy.Metadata) × Chains.State :=
  match Collect.collect V.L.toCrypto V.P V.W V.fuel st.coll entity "" with
  | (.error e, coll) => (.error e, { st with coll := coll })
  | (.ok (f, _), coll) =>
    match Chains.verifyChains V.L ((Collect.tree2chains f).map fun c => c.map some) st.jar with
    | (.error e, jar) => (.error e, { st with coll := coll, jar := jar })
    | (.ok _, jar) =>
      match Collect.subscript V.P.delta V.W.now coll.config entity with
      | (.error e, db) => (.error e, { st with coll := { coll with config := db }, jar := jar })
      | (.ok c, db) => (ecMetadata c, { st with coll := { coll with config := db }, jar := jar })

/-- `TrustChainCollector.get_metadata` (trust_chain_collector.py 168-182). An entry that is there but too old is `None` when it is
looked up, and `"exp" in None` raises TypeError. -/
def getMetadata (V : Chains.Env) (st : Chains.State) (entity : String) : Except PyErr (Dict Policy.Metadata) × Chains.State :=
  if st.coll.config.has entity then
    match Collect.subscript V.P.delta V.W.now st.coll.config entity with
    | (.error e, db) => (.error e, { st with coll := { st.coll with config := db } })
    | (.ok none, db) => (.error .typeError, { st with coll := { st.coll with config := db } })
    | (.ok (some c), db) =>
      if isExpired V.W.now c.jws.payload.exp then collectMetadata V { st with coll := { st.coll with config := db } } entity
      else (ecMetadata (some c), { st with coll := { st.coll with config := db } })
  else collectMetadata V st entity

/-- `verify_delegation` once the metadata of the trust anchor is there (trust_mark_verifier.py 94-104): true, verified; false, `None`. -/
def judgeDelegation (T : TmLib) (md : Dict Policy.Metadata) (id : String) (d : Option Delegation) : Except PyErr Bool := do
  let fe ← Dict.get md "federation_entity"
  let issuers ← Dict.get fe "trust_mark_issuers"
  if !(← pyIn (.str id) issuers) then pure false
  else do
    let owners ← Dict.get fe "trust_mark_owners"
    if !(← pyIn (.str id) owners) then pure false
    else do
      let info ← item owners id
      let ks ← T.jwks (← item info "jwks")
      let sub ← item info "sub"
      match d with
      | none => throw .attributeError
      | some d =>
        let keys := if sub = .str d.iss then ks.filter (T.usableD d) else []
        if keys.isEmpty then (if T.noKeysD d then pure true else throw .badSignature)
        else if keys.any (T.verifiesD d) then pure true else throw .badSignature

/-- `verify_delegation` (trust_mark_verifier.py 88-104). The order differs in one point: in the code `factory` is called before the
owner is looked up, and a delegation that is no JWS fails when its `jwt` is read. -/
def verifyDelegation (T : TmLib) (V : Chains.Env) (st : Chains.State) (anchor id : String) (d : Option Delegation) :
    Except PyErr Bool × Chains.State :=
  match getMetadata V st anchor with
  | (.error e, st) => (.error e, st)
  | (.ok md, st) => (judgeDelegation T md id d, st)

/-- The delegation part of `__call__` (trust_mark_verifier.py 48-52): the result only leads to a log message. -/
def checkDelegation (T : TmLib) (V : Chains.Env) (st : Chains.State) (anchor id : String) (p : TmPayload) :
    Except PyErr Unit × Chains.State :=
  match p.delegation with
  | none => (.ok (), st)
  | some d =>
    match verifyDelegation T V st anchor id d with
    | (.error e, st) => (.error e, st)
    | (.ok _, st) => (.ok (), st)

/-- `verify_compact(trust_mark, keys=keys)` in a `try` (trust_mark_verifier.py 81-86). -/
def checkSignature (T : TmLib) (t : Tm) (keys : List Key) : Option TmPayload :=
  if keys.isEmpty then (if T.noKeys t then some t.payload else none)
  else if keys.any (T.verifies t) then some t.payload else none

/-- The keys of an issuer that suit the trust mark. -/
def tmKeys (T : TmLib) (jar : KeyJar) (t : Tm) (iss : String) : List Key := (jar.keysOf iss).filter (T.usable t)

/-- The signature of the trust mark (trust_mark_verifier.py 66-86), given the chains of its issuer. Simplification: the policies are applied here a second time, in
Python to statements the first application has changed (`Chains.applyOnChain`); `Chains.C11_chain_partial` says when that succeeds as well. -/
def verifyTmSignature (T : TmLib) (V : Chains.Env) (st : Chains.State) (t : Tm) (iss : String) (tcs : List TrustChain) :
    Except PyErr (Option TmPayload) × Chains.State :=
  let keys := tmKeys T st.jar t iss
  if keys.isEmpty then
    match Chains.applyPolicies V.E V.K tcs with
    | .error e => (.error e, st)
    | .ok tcs =>
      match tcs with
      | [] => (.error .indexError, st)
      | tc :: _ =>
        match tc.verified.getLast?, tc.issPath with
        | some leaf, e :: _ =>
          match leaf.jwks with
          | none => (.error .keyError, st)
          | some ks =>
            let jar := Dict.set st.jar e (st.jar.keysOf e ++ ks)
            (.ok (checkSignature T t (tmKeys T jar t iss)), { st with jar := jar })
        | _, _ => (.error .indexError, st)
  else (.ok (checkSignature T t keys), st)

/-- `TrustMarkVerifier.__call__` (trust_mark_verifier.py 25-86). The code does not use its parameters `check_status` and `entity_id`. -/
def verifyMark (T : TmLib) (V : Chains.Env) (st : Chains.State) (doc : Option Tm) (anchor : String) (_checkStatus : Bool := false)
    (_entityId : String := "") : Except PyErr (Option TmPayload) × Chains.State :=
  match doc with
  | none => (.error .attributeError, st)
  | some t =>
    match t.payload.verify with
    | .error e => (.error e, st)
    | .ok (iss, _, id) =>
      if isExpired V.W.now t.payload.exp then (.ok none, st)
      else
        match checkDelegation T V st anchor id t.payload with
        | (.error e, st) => (.error e, st)
        | (.ok (), st) =>
          match Chains.getVerified V st iss with
          | (.error e, st) => (.error e, st)
          | (.ok tcs, st) =>
            if tcs.isEmpty then (.ok none, st)
            else if anchor ∈ tcs.map (·.anchor) then verifyTmSignature T V st t iss tcs
            else (.ok none, st)

/-- What the status endpoint of a trust mark issuer answers: endpoint, subject and id → the members of the answer. -/
abbrev StatusOracle := Val → String → String → Except PyErr (Dict Val)

/-- `resp["active"] == True` (entity/__init__.py 383); `True == 1` in Python. -/
def saysActive (resp : Dict Val) : Bool :=
  match resp.get? "active" with
  | some v => decide (v = .bool true ∨ v = .int 1)
  | none => false

/-- The question to the issuer (entity/__init__.py 373-386). `verified` is `None` when the mark did not verify: subscripting it
raises TypeError. -/
def askIssuer (O : StatusOracle) (tc : TrustChain) (verified : Option TmPayload) : Except PyErr (Option TmPayload) :=
  match verified with
  | none => .error .typeError
  | some p =>
    match p.sub, p.id with
    | some sub, some id => do
      let ep ← item (← Dict.get tc.metadata "federation_entity") "federation_trust_mark_status_endpoint"
      let resp ← O ep sub id
      pure (if saysActive resp then some p else none)
    | _, _ => .error .keyError

/-- `FederationEntity.verify_trust_mark` (entity/__init__.py 361-388). -/
def verifyTrustMark (T : TmLib) (V : Chains.Env) (O : StatusOracle) (st : Chains.State) (doc : Option Tm) (check : Bool) :
    Except PyErr (Option TmPayload) × Chains.State :=
  match doc with
  | none => (.error .attributeError, st)
  | some t =>
    match t.payload.iss with
    | none => (.error .keyError, st)
    | some iss =>
      match Chains.getTrustChains V st iss with
      | (.error e, st) => (.error e, st)
      | (.ok [], st) => (.ok none, st)
      | (.ok (tc :: _), st) =>
        match verifyMark T V st (some t) tc.anchor with
        | (.error e, st) => (.error e, st)
        | (.ok r, st) => if check then (askIssuer O tc r, st) else (.ok r, st)

end Fed.TrustMarks
