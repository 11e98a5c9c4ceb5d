import Verif.Registration.Automatic
/-
Model of explicit registration: `process_request` of /repo/src/fedservice/appserver/oauth2/registration.py 54-97 and
/repo/src/fedservice/appserver/oidc/registration.py 33-89.
-/
namespace Fed.Registration
open Fed

/-- `collect_trust_chains` with a signed entity configuration, `verify_trust_chains` with it and `apply_policies`, as explicit registration calls them
(/repo/src/fedservice/entity/function/__init__.py 65-98, 101-138; oauth2/registration.py 66-71). -/
def chainsForSigned (V : Chains.Env) (fed : Chains.State) (entity : String) (j : Jws) : Except PyErr (List Verify.TrustChain) × Chains.State :=
  match selfVerify V.L.toCrypto V.W.now j with
  | .error e => (.error e, fed)
  | .ok p =>
    match Collect.collectTree V.L.toCrypto V.P V.W "" V.fuel fed.coll entity (some p) with
    | (.error e, coll) => (.error e, { fed with coll := coll })
    | (.ok f, coll) =>
      match Chains.verifyChains V.L ((Collect.tree2chains f).map fun c => c.map some ++ [some j]) fed.jar with
      | (.error e, jar) => (.error e, { fed with coll := coll, jar := jar })
      | (.ok tcs, jar) => (Chains.applyPolicies V.E V.K tcs, { fed with coll := coll, jar := jar })

/-- What the entity statement that is the response says (oauth2/registration.py 80-92, oidc/registration.py 67-85). -/
structure RegResponse where
  sub : String
  aud : String
  trustAnchor : String
  entityType : String
  metadata : Dict Val
deriving DecidableEq, Repr

/-- The entity types other than those given, in some order; the first is the one `pop()` gives. -/
def opponentType (K : SetEnum String) (md : Dict Policy.Metadata) (but : List String) : Except PyErr String :=
  match K.enum ((Dict.keys md).filter fun t => t ∉ but) with
  | [] => .error .keyError
  | t :: _ => .ok t

/-- The metadata in the response: what was asked for, overridden by the response of the registration, without some claims. -/
def responseMetadata (without : List String) (req resp : Dict Val) : Dict Val := (Dict.update req resp).filter fun p => p.1 ∉ without

/-- `process_request` of the oauth2 registration endpoint (oauth2/registration.py 54-97); `priority` is the federation entity's `tr_priority`; `.ok none` is an error message as response. Called without
further arguments, so a new client id and a secret are made. Simplifications: as in `doAutomatic`; what `create_entity_statement` can refuse is left out. -/
def explicitOauth2 (V : Chains.Env) (R : RegEnv) (priority : List String) (st : AppState) (request : Doc) : Except PyErr (Option (String × RegResponse)) × AppState :=
  match request with
  | none => (.error .attributeError, st)
  | some j =>
    match selfVerify V.L.toCrypto V.W.now j with
    | .error e => (.error e, st)
    | .ok p =>
      match p.metadata with
      | none => (.error .keyError, st)
      | some md =>
        match opponentType V.K md ["federation_entity", "trust_mark_issuer"] with
        | .error e => (.error e, st)
        | .ok t =>
          match chainsForSigned V st.fed p.sub j with
          | (.error e, fed) => (.error e, { st with fed := fed })
          | (.ok tcs, fed) =>
            match Chains.pickTrustChain priority tcs with
            | .error e => (.error e, { st with fed := fed })
            | .ok tc =>
              match tc.metadata.get? t with
              | none => (.error .keyError, { st with fed := fed })
              | some (.obj req) =>
                match setup R st.srv req true true [] with
                | (.error _, srv) => (.ok none, ⟨fed, srv⟩)
                | (.ok (client, resp), srv) =>
                  (.ok (some (client, ⟨p.iss, p.iss, tc.anchor, t, responseMetadata ["application_type", "jwks", "redirect_uris"] req resp⟩)), ⟨fed, srv⟩)
              | some _ => (.error .typeError, { st with fed := fed })

/-- `process_request` of the oidc registration endpoint (oidc/registration.py 33-89). `register` is idpyoidc's registration, without a new client id: the response, if it is no error. The chains are
also saved, which is left out. -/
def explicitOidc (V : Chains.Env) (register : Server → Dict Val → Option (Dict Val) × Server) (priority : List String) (st : AppState) (request : Doc) :
    Except PyErr (Option RegResponse) × AppState :=
  match request with
  | none => (.error .attributeError, st)
  | some j =>
    match selfVerify V.L.toCrypto V.W.now j with
    | .error e => (.error e, st)
    | .ok p =>
      match p.metadata with
      | none => (.error .keyError, st)
      | some md =>
        match opponentType V.K md (if (Dict.keys md).length = 1 then [] else ["federation_entity"]) with
        | .error e => (.error e, st)
        | .ok t =>
          match Chains.getVerified V st.fed p.sub with
          | (.error e, fed) => (.error e, { st with fed := fed })
          | (.ok [], fed) => (.error .noTrustedChains, { st with fed := fed })
          | (.ok (tc0 :: tcs), fed) =>
            match Chains.pickTrustChain priority (tc0 :: tcs) with
            | .error e => (.error e, { st with fed := fed })
            | .ok tc =>
              match md.get? t with
              | none => (.error .keyError, { st with fed := fed })
              | some m =>
                let req := Dict.set m "client_id" (.str p.sub)
                match register st.srv req with
                | (none, srv) => (.ok none, ⟨fed, srv⟩)
                | (some resp, srv) =>
                  (.ok (some ⟨p.iss, p.iss, tc.anchor, t,
                    responseMetadata ["application_type", "redirect_uris"] (req.filter fun x => x.1 ∉ ["jwks", "jwks_uri", "signed_jwks_uri"]) resp⟩), ⟨fed, srv⟩)

end Fed.Registration
