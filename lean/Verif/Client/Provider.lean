import Verif.Client.Register
/-
Model of how a client gets to know a provider and decides how to register:
/repo/src/fedservice/appclient/stand_alone_client_entity.py 52-196.
-/
namespace Fed.Client
open Fed Verify

/-- Where keys are taken from. -/
inductive KeySource
  | uri (v : Val) | jwks (v : Val) | file (v : Val) | pem (v : Val)
deriving DecidableEq, Repr

/-- What getting to know a provider changes: the federation entity, and of the client's context `issuer`, `provider_info`, `trust_chain` and what was loaded into the key jar, in that order.
`anchor`: the federation entity's `trust_chain_anchor`; `byIssuer`: the `trust_chain` of its context; `endpoints`: the `endpoint` of each service, by its `endpoint_name`. -/
structure PState where
  fed : Chains.State
  issuer : String
  info : Dict Val := []
  chains : Chains.Store := []
  imported : List (String × KeySource) := []
  anchor : Option String := none
  byIssuer : Dict TrustChain := []
  endpoints : Dict Val := []

/-- `_import_keys` (52-64): what is loaded. -/
def importKeys (info : Dict Val) (issuer : String) : List (String × KeySource) :=
  match info.get? "jwks_uri" with
  | some u => [(issuer, .uri u)]
  | none =>
    match info.get? "jwks" with
    | some k => [(issuer, .jwks k)]
    | none => []

/-- `_collect_metadata` from line 69 on, with the verified chains. KeyError without `openid_provider` metadata or without `issuer` in it. Simplification: TypeError for every issuer that is no string. -/
def takeMetadata (priority : List String) (st : PState) (tcs : List TrustChain) : Except PyErr (Dict Val) × PState :=
  match Chains.saveTrustChains st.chains tcs with
  | (.error e, s) => (.error e, { st with chains := s })
  | (.ok (), s) =>
    let st := { st with chains := s }
    match Chains.pickTrustChain priority tcs with
    | .error e => (.error e, st)
    | .ok tc =>
      let st := { st with anchor := some tc.anchor }
      match tc.metadata.get? "openid_provider" with
      | none => (.error .keyError, st)
      | some (.obj info) =>
        match Dict.get? info "issuer" with
        | none => (.error .keyError, st)
        | some (.str iss) =>
          (.ok info, { st with byIssuer := st.byIssuer.set iss tc, info := info, imported := st.imported ++ importKeys info iss })
        | some _ => (.error .typeError, st)
      | some _ => (.error .typeError, st)

/-- `_collect_metadata` (66-79). -/
def collectMetadata (V : Chains.Env) (priority : List String) (st : PState) : Except PyErr (Dict Val) × PState :=
  match Chains.getVerified V st.fed st.issuer with
  | (.error e, fed) => (.error e, { st with fed := fed })
  | (.ok [], fed) => (.error .noTrustedChains, { st with fed := fed })
  | (.ok tcs, fed) => takeMetadata priority { st with fed := fed } tcs

/-- Lines 103-113: the endpoints of configured provider info. `names`: the endpoint names of the services. -/
def setEndpoints (names : List String) (info endpoints : Dict Val) : Dict Val :=
  info.foldl (fun d p => if p.1.endsWith "_endpoint" && names.contains p.1 then d.set p.1 p.2 else d) endpoints

/-- Lines 115-129, one kind of keys. Simplification: a specification that is no dictionary counts as an empty one. -/
def configuredKeys (issuer typ : String) (spec : Val) : Except PyErr (List (String × KeySource)) :=
  let d : Dict Val := match spec with | .obj d => d | _ => []
  if typ = "url" then .ok (d.map fun p => (p.1, .uri p.2))
  else if typ = "file" then
    .ok (d.filterMap fun p => if p.1 = "jwks" then some (issuer, .file p.2) else if p.1 = "rsa" then some (issuer, .pem p.2) else none)
  else .error .valueError

/-- Lines 115-129. What was loaded before an error stays. -/
def configuredKeysLoop (issuer : String) : List (String × Val) → List (String × KeySource) → Except PyErr Unit × List (String × KeySource)
  | [], acc => (.ok (), acc)
  | (typ, spec) :: rest, acc =>
    match configuredKeys issuer typ spec with
    | .error e => (.error e, acc)
    | .ok ks => configuredKeysLoop issuer rest (acc ++ ks)

/-- The issuer `do_provider_info` returns (133-136). -/
def issuerOf (st : PState) : Val := (st.info.get? "issuer").getD (.str st.issuer)

/-- `do_provider_info` (81-136). `map_supported_to_preferred` is idpyoidc's and left out. Simplification: TypeError if an issuer alone is configured and is no string. -/
def doProviderInfo (V : Chains.Env) (priority names : List String) (st : PState) : Except PyErr Val × PState :=
  match st.info with
  | [] =>
    match collectMetadata V priority st with
    | (.error e, st) => (.error e, st)
    | (.ok _, st) => (.ok (issuerOf st), st)
  | [("issuer", v)] =>
    match v with
    | .str iss =>
      match collectMetadata V priority { st with issuer := iss } with
      | (.error e, st) => (.error e, st)
      | (.ok _, st) => (.ok (issuerOf st), st)
    | _ => (.error .typeError, st)
  | info =>
    let st := { st with endpoints := setEndpoints names info st.endpoints }
    match info.get? "keys" with
    | some (.obj ks) =>
      match configuredKeysLoop st.issuer ks st.imported with
      | (.error e, im) => (.error e, { st with imported := im })
      | (.ok (), im) => (.ok (issuerOf st), { st with imported := im })
    | _ => (.ok (issuerOf st), st)

/-- What `do_client_registration` does. `mapped`: the client's preferences are taken as registered. -/
inductive Registering
  | nothing | explicit (endpoint : Val) | mapped
deriving DecidableEq, Repr

/-- `do_client_registration` (150-196) up to the sending of a request (C112). `ability`: the client's `client_registration_types`. `endpointName`: that of the registration service, if there is one.
The chain is picked among those stored (138-148). Simplification: TypeError for supported types that are no list. -/
def doClientRegistration (priority ability : List String) (endpointName : Option String) (st : PState) : Except PyErr Registering :=
  match Chains.pickStored priority st.chains st.issuer with
  | .error e => .error e
  | .ok tc =>
    match tc.metadata.get? "openid_provider" with
    | none => .error .keyError
    | some (.obj m) =>
      match Dict.get? m "client_registration_types_supported" with
      | none => .error .keyError
      | some (.arr supported) =>
        let possible := ability.eraseDups.filter fun t => supported.contains (.str t)
        if possible.length = 0 then .error .valueError
        else if possible.length = 1 && possible.contains "automatic" then .ok .nothing
        else
          match endpointName with
          | none => .ok .mapped
          | some n =>
            match st.info.get? n with
            | none => .error .keyError
            | some ep => .ok (.explicit ep)
      | some _ => .error .typeError
    | some _ => .error .typeError

end Fed.Client
