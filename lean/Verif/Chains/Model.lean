import Verif.Verifier.Model
import Verif.Collect.Collector
/-
Model of what is done with verified trust chains: /repo/src/fedservice/__init__.py, chains2dict and TrustChain of
/repo/src/fedservice/entity_statement/statement.py, /repo/src/fedservice/entity/function/__init__.py and the trust chain part of
/repo/src/fedservice/entity/__init__.py.
-/
namespace Fed.Chains
open Fed Verify

/-- `chains2dict` (statement.py 95-111), the loop: `res` so far. -/
def chains2dictLoop : List TrustChain → Dict TrustChain → Dict TrustChain
  | [], res => res
  | tc :: tcs, res =>
    match res.get? tc.anchor with
    | some old => if tc.verified.length < old.verified.length then chains2dictLoop tcs (res.set tc.anchor tc) else chains2dictLoop tcs res
    | none => chains2dictLoop tcs (res.set tc.anchor tc)

/-- `chains2dict` (statement.py 95-111). -/
def chains2dict (tcs : List TrustChain) : Dict TrustChain := chains2dictLoop tcs []

/-- The `trust_chain` member of a context: entity → anchor → chain. -/
abbrev Store := Dict (Dict TrustChain)

/-- The loop of `save_trust_chains` (/repo/src/fedservice/__init__.py 14-19). IndexError for a chain without issuers; what was
stored before stays. -/
def saveLoop : List (String × TrustChain) → Store → Except PyErr Unit × Store
  | [], s => (.ok (), s)
  | (ta, tc) :: rest, s =>
    match tc.issPath with
    | [] => (.error .indexError, s)
    | e :: _ =>
      match s.get? e with
      | none => saveLoop rest (s.set e [(ta, tc)])
      | some d => saveLoop rest (s.set e (d.set ta tc))

/-- `save_trust_chains` (/repo/src/fedservice/__init__.py 9-19); a context without `trust_chain` is one with an empty one. -/
def saveTrustChains (s : Store) (tcs : List TrustChain) : Except PyErr Unit × Store := saveLoop (chains2dict tcs) s

/-- `get_trust_chain` with a trust anchor (/repo/src/fedservice/__init__.py 22-28). -/
def getTrustChain (s : Store) (entity anchor : String) : Option TrustChain :=
  match s.get? entity with
  | none => none
  | some d => d.get? anchor

/-- `TrustChain.export_chain` (statement.py 84-92): `list.reverse` works in place on the stored list. -/
def exportChain (tc : TrustChain) : List Payload × TrustChain :=
  (tc.verified.reverse, { tc with verified := tc.verified.reverse })

/-- `for fid in priority: for trust_chain in trust_chains: …` (/repo/src/fedservice/entity/__init__.py 222-225). -/
def pickByPriority (tcs : List TrustChain) : List String → Option TrustChain
  | [] => none
  | fid :: fids =>
    match tcs.find? fun tc => tc.anchor = fid with
    | some tc => some tc
    | none => pickByPriority tcs fids

/-- `pick_trust_chain` (/repo/src/fedservice/entity/__init__.py 209-229). IndexError on an empty list. -/
def pickTrustChain (priority : List String) (tcs : List TrustChain) : Except PyErr TrustChain :=
  match tcs with
  | [] => .error .indexError
  | [tc] => .ok tc
  | tc :: rest =>
    match pickByPriority (tc :: rest) priority with
    | some tc' => .ok tc'
    | none => .ok tc

/-- `pick_from_stored_trust_chains` (/repo/src/fedservice/entity/__init__.py 231-241, and the same again in
/repo/src/fedservice/appclient/stand_alone_client_entity.py 138-148): the inner loop variable shadows the outer one, so the first
stored chain is returned whatever the priority. KeyError for an unknown entity. -/
def pickStored (priority : List String) (s : Store) (entity : String) : Except PyErr TrustChain :=
  match s.get? entity with
  | none => .error .keyError
  | some [] => .error .indexError
  | some [(_, tc)] => .ok tc
  | some ((_, tc) :: _) =>
    match priority with
    | [] => .ok tc
    | _ :: _ => .ok tc

/-- What policy resolution reads of a statement. -/
def toP (p : Payload) : Policy.PStatement := ⟨p.md, p.policy⟩

/-- Metadata as a value; the metadata of an entity type the leaf does not have is `None`. -/
def mdVal : Option Policy.Metadata → Val
  | none => .null
  | some m => .obj m

/-- What one resolution reads: cryptojwt, the collector's parameters, the federation outside, how deep collection is followed and
how sets are enumerated. -/
structure Env where
  L : Lib
  P : Collect.Params
  W : Collect.World
  fuel : Nat
  E : SetEnum Val
  K : SetEnum String

/-- `TrustChainPolicy.__call__` without an entity type (/repo/src/fedservice/entity/function/policy.py 373-386), as `apply_policies`
calls it: a chain of one statement gets the metadata of entity type '' (KeyError if there is none). Simplification:
in Python the leaf's metadata in `verified_chain` may be changed in place; here `verified` stays as it was (`Chains.InPlace` has the change, and that
the metadata is the same). For chains that have no metadata yet; applying policies once more is `Client.reapply`. -/
def applyToChain (E : SetEnum Val) (K : SetEnum String) (tc : TrustChain) : Except PyErr TrustChain :=
  match tc.verified.getLast? with
  | none => .error .indexError
  | some leaf =>
    match leaf.metadata with
    | none => .error .keyError
    | some md =>
      if tc.verified.length > 1 then do
        let m ← Policy.callPolicy E K (tc.verified.dropLast.map toP) (toP leaf) none
        pure { tc with metadata := m.map fun p => (p.1, mdVal p.2) }
      else
        match md.get? "" with
        | none => .error .keyError
        | some m => .ok { tc with metadata := m }

/-- `apply_policies` (/repo/src/fedservice/entity/function/__init__.py 124-138). -/
def applyPolicies (E : SetEnum Val) (K : SetEnum String) : List TrustChain → Except PyErr (List TrustChain)
  | [] => .ok []
  | tc :: tcs => do
    let tc' ← applyToChain E K tc
    let rest ← applyPolicies E K tcs
    pure (tc' :: rest)

/-- `verify_trust_chains` (/repo/src/fedservice/entity/function/__init__.py 101-113); the chains already extended. -/
def verifyChains (L : Lib) : List (List Doc) → KeyJar → Except PyErr (List TrustChain) × KeyJar
  | [], jar => (.ok [], jar)
  | c :: cs, jar =>
    match verifyChain L jar c with
    | (.error e, jar) => (.error e, jar)
    | (.ok o, jar) =>
      match verifyChains L cs jar with
      | (.error e, jar) => (.error e, jar)
      | (.ok tcs, jar) => (.ok (o.toList ++ tcs), jar)

/-- What a federation entity keeps: the collector's caches, the key jar and the `trust_chain` dictionary. -/
structure State where
  coll : Collect.State := {}
  jar : KeyJar
  store : Dict (List TrustChain) := []

/-- `get_verified_trust_chains` (/repo/src/fedservice/entity/function/__init__.py 154-161 with `collect_trust_chains` 65-98). With `stopAt`: the same
steps as the resolve endpoint takes them (/repo/src/fedservice/entity/server/resolve.py 33-38). -/
def getVerified (V : Env) (st : State) (entity : String) (stopAt : String := "") : Except PyErr (List TrustChain) × State :=
  match Collect.collect V.L.toCrypto V.P V.W V.fuel st.coll entity stopAt with
  | (.error e, coll) => (.error e, { st with coll := coll })
  | (.ok (f, ec), coll) =>
    match verifyChains V.L ((Collect.tree2chains f).map fun c => c.map some ++ [some ec]) st.jar with
    | (.error e, jar) => (.error e, { st with coll := coll, jar := jar })
    | (.ok tcs, jar) =>
      match applyPolicies V.E V.K tcs with
      | .error e => (.error e, { st with coll := coll, jar := jar })
      | .ok tcs => (.ok tcs, { st with coll := coll, jar := jar })

/-- `get_trust_chains` (/repo/src/fedservice/entity/__init__.py 268-277). -/
def getTrustChains (V : Env) (st : State) (entity : String) : Except PyErr (List TrustChain) × State :=
  match st.store.get? entity with
  | some tcs => (.ok tcs, st)
  | none =>
    match getVerified V st entity with
    | (.error e, st) => (.error e, st)
    | (.ok [], st) => (.ok [], st)
    | (.ok tcs, st) => (.ok tcs, { st with store := st.store.set entity tcs })

/-- `get_verified_metadata` (/repo/src/fedservice/entity/__init__.py 285-295); `none` = no chain. -/
def getVerifiedMetadata (V : Env) (st : State) (entity : String) : Except PyErr (Option (Dict Val)) × State :=
  match getTrustChains V st entity with
  | (.error e, st) => (.error e, st)
  | (.ok tcs, st) => (.ok (tcs.head?.map (·.metadata)), st)

end Fed.Chains
