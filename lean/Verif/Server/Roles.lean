import Verif.Server.Context
/-
Model of the metadata an entity with several roles publishes: `FederationCombo` (/repo/src/fedservice/combo/__init__.py), `get_metadata` of its parts
(/repo/src/fedservice/entity/__init__.py 156-164, /repo/src/fedservice/appserver/__init__.py 161-179, /repo/src/fedservice/appclient/__init__.py 145-153), the entity configuration
endpoint (/repo/src/fedservice/entity/server/entity_configuration.py 31-57) and the statement an OAuth client registers with
(/repo/src/fedservice/appclient/oauth2/registration.py 75-109).
-/
namespace Fed.Server.Roles
open Fed Fed.Server

/-- A client (appclient/__init__.py): the type of client, and what idpyoidc's `get_client_metadata` gives for an entity type, any function. -/
structure Client where
  oauth : Bool
  metadata : String → Dict Val

/-- A part of the combined entity.
`federation`: a FederationEntity; `metadata`: what idpyoidc's `get_server_metadata` gives.
`server`: a ServerEntity; `metadata` the same, `name` its class attribute or "oauth_authorization_server" (appserver/__init__.py 84-88), `entityId` that of its context, `schema` the parameters in its
metadata schema.
`client`: a client. `handler`: an RPHandler, which makes a client for each provider it meets.
`marks`: a TrustMarkEntity, whose `get_metadata` takes no entity type (/repo/src/fedservice/trust_mark_entity/entity.py 129-141).
`other`: something without `get_metadata`, for instance a SelfSignedTrustMarkEntity. -/
inductive Part
  | federation (metadata : Dict Val)
  | server (name entityId : String) (schema : List String) (metadata : Dict Val)
  | client (c : Client)
  | handler
  | marks
  | other

/-- `get_metadata` of a client (appclient/__init__.py 145-153). -/
def Client.get (c : Client) (entityType : String) : Dict Val :=
  c.metadata (if entityType = "" then (if c.oauth then "oauth_client" else "openid_relying_party") else entityType)

/-- The loop over "issuer" and "certificate_issuer" in `ServerEntity.get_metadata` (appserver/__init__.py 168-170). -/
def setIssuer (entityId : String) (schema : List String) : List String → Dict Val → Dict Val
  | [], md => md
  | p :: ps, md => setIssuer entityId schema ps (if p ∈ schema then md.set p (.str entityId) else md)

/-- `ServerEntity.get_metadata(entity_type)` (appserver/__init__.py 161-179). -/
def serverGet (name entityId : String) (schema : List String) (metadata : Dict Val) (entityType : String) : Dict Val :=
  [(if entityType = "" then name else entityType, .obj (setIssuer entityId schema ["issuer", "certificate_issuer"] metadata))]

/-- A part that is called with an argument it does not take, so that TypeError is raised. -/
def Part.refuses : Part → Bool
  | .marks => true
  | _ => false

/-- What one part adds (combo/__init__.py 112-118). `client`: the argument of that name. For a part that refuses see `comboMetadata`. -/
def partGet (client : Option Client) (entityType : String) : Part → Dict Val
  | .handler =>
    match client with
    | some c => c.get ""
    | none => []
  | .federation md => [(entityType, .obj md)]
  | .server name entityId schema md => serverGet name entityId schema md entityType
  | .client c => c.get entityType
  | .marks => []
  | .other => []

/-- The loop of `FederationCombo.get_metadata(client)` (combo/__init__.py 110-119), if no part refuses: `res.update` for each part. -/
def comboLoop (client : Option Client) : List (String × Part) → Dict Val → Dict Val
  | [], res => res
  | (t, p) :: ps, res => comboLoop client ps (res.update (partGet client t p))

def comboGet (client : Option Client) (parts : Dict Part) : Dict Val := comboLoop client parts []

/-- `FederationCombo.get_metadata(client)` (combo/__init__.py 110-119). -/
def comboMetadata (client : Option Client) (parts : Dict Part) : Except PyErr (Dict Val) :=
  if parts.any fun x => x.2.refuses then .error .typeError else .ok (comboGet client parts)

/-- The metadata in an entity configuration (entity_configuration.py 36-39): that of the combination if there is one (without naming a client), else that of the federation entity. -/
def published (parts : Option (Dict Part)) (own : Dict Val) : Except PyErr (Dict Val) :=
  match parts with
  | some ps => comboMetadata none ps
  | none => .ok [("federation_entity", .obj own)]

/-- `EntityConfiguration.process_request` (entity_configuration.py 31-57) of such an entity. -/
def configuration (files : Dict Val) (c : Context.Ctx) (now : Int) (parts : Option (Dict Part)) (own : Dict Val) : Except PyErr (Dict Val) :=
  match published parts own with
  | .error e => .error e
  | .ok md => Context.configuration files c now (.obj md)

/-- `create_entity_statement` of the OAuth registration (appclient/oauth2/registration.py 75-109): the configuration the client sends, with the metadata of the client named. `trust_marks` are those of
the context if there are any (97-98). -/
def registrationRequest (files : Dict Val) (c : Context.Ctx) (now : Int) (parts : Dict Part) (client : Option Client) : Except PyErr (Dict Val) :=
  match comboMetadata client parts with
  | .error e => .error e
  | .ok md =>
    match Context.getHints files c with
    | .error e => .error e
    | .ok hints =>
      match (if c.marks.given then (Context.getMarks files c).map fun ms => [("trust_marks", ms)] else .ok []) with
      | .error e => .error e
      | .ok marks =>
        Context.ctxStatement files c now c.entityId c.entityId ([("metadata", Val.obj md), ("authority_hints", hints)] ++ marks)

end Fed.Server.Roles
