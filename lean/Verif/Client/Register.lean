import Verif.Chains.Model
/-
Model of the client's side of explicit registration: /repo/src/fedservice/appclient/oidc/registration.py 90-161 and
/repo/src/fedservice/appclient/oauth2/registration.py 111-184, what is made of the response of a provider.
-/
namespace Fed.Client
open Fed Verify

/-- The two client types. -/
inductive Kind
  | oidc | oauth2
deriving DecidableEq, Repr

/-- What the handling of a response reads. `me`: the client's entity id. `metadataVerifier`: the function of that name, if the entity has it (oidc/registration.py 133-138). -/
structure Env extends Chains.Env where
  me : String
  metadataVerifier : Option (Jws → Val) := none

/-- What is kept: the state of the federation entity and the client context's `registration_response`. -/
structure State where
  fed : Chains.State
  registered : Option Val := none

/-- `collect_trust_chains` without a signed configuration (/repo/src/fedservice/entity/function/__init__.py 65-98): the chains, without the configuration at their end. -/
def collectChains (V : Chains.Env) (fed : Chains.State) (entity stopAt : String) : Except PyErr (List (List Jws)) × Chains.State :=
  match Collect.collect V.L.toCrypto V.P V.W V.fuel fed.coll entity stopAt with
  | (.error e, coll) => (.error e, { fed with coll := coll })
  | (.ok (f, _), coll) => (.ok (Collect.tree2chains f), { fed with coll := coll })

/-- `_signature_verifies` (oidc/registration.py 102-110, the same in oauth2/registration.py 123-131): true whatever the verification of the chains gives, as long as it raises nothing. -/
def signatureVerifies (V : Chains.Env) (fed : Chains.State) (entity anchor : String) : Except PyErr Bool × Chains.State :=
  match collectChains V fed entity anchor with
  | (.error e, fed) => (.error e, fed)
  | (.ok [], fed) => (.ok false, fed)
  | (.ok (c :: cs), fed) =>
    match Chains.verifyChains V.L ((c :: cs).map (·.map some)) fed.jar with
    | (.error e, jar) => (.error e, { fed with jar := jar })
    | (.ok _, jar) => (.ok true, { fed with jar := jar })

/-- The end of the oidc variant, once the chains are verified (oidc/registration.py 150-161). The response is the last statement of the chain, so putting its metadata there (154-155) changes nothing. -/
def judgeOidc (V : Env) (st : State) (tcs : List TrustChain) : Except PyErr Val × State :=
  match tcs with
  | [tc] =>
    match Chains.applyToChain V.E V.K tc with
    | .error e => (.error e, st)
    | .ok tc =>
      match tc.metadata.get? "openid_relying_party" with
      | none => (.error .keyError, st)
      | some v => (.ok v, { st with registered := some v })
  | _ => (.error .systemError, st)

/-- Lines 145-161 of oidc/registration.py: the client's own chain, with the response in the place of its configuration. -/
def finishOidc (V : Env) (st : State) (j : Jws) (anchor : String) : Except PyErr Val × State :=
  match collectChains V.toEnv st.fed V.me anchor with
  | (.error e, fed) => (.error e, { st with fed := fed })
  | (.ok cs, fed) =>
    match Chains.verifyChains V.L (cs.map fun c => c.map some ++ [some j]) fed.jar with
    | (.error e, jar) => (.error e, { st with fed := { fed with jar := jar } })
    | (.ok tcs, jar) => judgeOidc V { st with fed := { fed with jar := jar } } tcs

/-- Putting other metadata into the last statement of a chain (oauth2/registration.py 177). -/
def withMetadata (tc : TrustChain) (md : Dict Policy.Metadata) : TrustChain :=
  match tc.verified.getLast? with
  | none => tc
  | some leaf => { tc with verified := tc.verified.dropLast ++ [{ leaf with metadata := some md }] }

/-- `apply_policies` for a chain that has been through it already (oauth2/registration.py 176-179; policy.py 378-386): the entity types of the other metadata get new metadata, the other types of the
chain keep what they have. -/
def reapply (E : SetEnum Val) (K : SetEnum String) (tc : TrustChain) (md : Dict Policy.Metadata) : Except PyErr TrustChain :=
  match Chains.applyToChain E K (withMetadata tc md) with
  | .error e => .error e
  | .ok tc' => .ok { tc' with metadata := if tc.verified.length > 1 then Dict.update tc.metadata tc'.metadata else tc'.metadata }

/-- Lines 167-184 of oauth2/registration.py: the client's own chain; the response is no part of it, only its metadata, unless it is empty. -/
def finishOauth2 (V : Env) (st : State) (j : Jws) : Except PyErr Val × State :=
  match Chains.getVerified V.toEnv st.fed V.me with
  | (.error e, fed) => (.error e, { st with fed := fed })
  | (.ok [tc], fed) =>
    match j.payload.metadata with
    | none | some [] => (.ok (.obj tc.metadata), ⟨fed, some (.obj tc.metadata)⟩)
    | some md =>
      match reapply V.E V.K tc md with
      | .error e => (.error e, { st with fed := fed })
      | .ok tc => (.ok (.obj tc.metadata), ⟨fed, some (.obj tc.metadata)⟩)
  | (.ok _, fed) => (.error .systemError, { st with fed := fed })

/-- `parse_federation_registration_response` (oidc/registration.py 112-161, oauth2/registration.py 133-184). `none`: Python's `None`. Who was asked is not a parameter. -/
def parseFederation (kind : Kind) (V : Env) (st : State) (response : Doc) : Except PyErr (Option Val) × State :=
  match response with
  | none => (.error .attributeError, st)
  | some j =>
    match selfVerify V.L.toCrypto V.W.now j with
    | .error e => (.error e, st)
    | .ok p =>
      match p.trustAnchor with
      | none => (.error .keyError, st)
      | some anchor =>
        if anchor ∉ V.P.anchors then (.error .valueError, st)
        else
          match V.metadataVerifier with
          | some f => (.ok (if (f j).truthy then some (f j) else none), st)
          | none =>
            match signatureVerifies V.toEnv st.fed p.iss anchor with
            | (.error e, fed) => (.error e, { st with fed := fed })
            | (.ok false, fed) => (.error .signatureFailure, { st with fed := fed })
            | (.ok true, fed) =>
              match (match kind with | .oidc => finishOidc V { st with fed := fed } j anchor | .oauth2 => finishOauth2 V { st with fed := fed } j) with
              | (.error e, st) => (.error e, st)
              | (.ok v, st) => (.ok (some v), st)

/-- `parse_response` (oidc/registration.py 90-97, oauth2/registration.py 111-118): ResponseError for nothing or something empty. -/
def parseResponse (kind : Kind) (V : Env) (st : State) (response : Doc) : Except PyErr Val × State :=
  match parseFederation kind V st response with
  | (.error e, st) => (.error e, st)
  | (.ok none, st) => (.error .responseError, st)
  | (.ok (some v), st) => (if v.truthy then .ok v else .error .responseError, st)

end Fed.Client
