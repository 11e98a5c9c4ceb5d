import Verif.Config.ComboProps
/-
C169, C170: what kind of client or server an entity is made as. Model of the beginning of `ClientEntity.__init__` (/repo/src/fedservice/appclient/__init__.py 44-94) and of `ServerEntity.__init__`
(/repo/src/fedservice/appserver/__init__.py 60-132), as far as kind, services, metadata schema, entity id and issuer are decided there.
-/
namespace Fed.Config.Kinds
open Fed

/-- The argument `config`, `{}` if there is none (appclient/__init__.py 59-60, appserver/__init__.py 74-75). Simplification: what is no dictionary counts as none. -/
def configOf (args : Dict Val) : Dict Val :=
  match args.get? "config" with
  | some (.obj c) => c
  | _ => []

/-- An argument, the empty string if it is not given. -/
def arg (args : Dict Val) (k : String) : Val := (args.get? k).getD (.str "")

/-- Python's `a or b`. -/
def orElse (a b : Val) : Val := if a.truthy then a else b

/-- `ENTITY2CLIENT_TYPE` (appclient/__init__.py 35-38). -/
def entity2client : Dict Val := [("openid_relying_party", .str "oidc"), ("oauth_client", .str "oauth2")]

/-- `ENTITY2CLIENT_TYPE.get(entity_type, "")`. -/
def typeOfEntity (et : Val) : Val :=
  match et with
  | .str s => (entity2client.get? s).getD (.str "")
  | _ => .str ""

/-- The kind of client (appclient/__init__.py 62-67); `name` is the class attribute, openid_relying_party. -/
def clientKind (args : Dict Val) : Val :=
  let config := configOf args
  orElse ((config.get? "client_type").getD (arg args "client_type")) (orElse (typeOfEntity ((config.get? "entity_type").getD (arg args "entity_type"))) (.str "oidc"))

/-- The services a client is made with. -/
inductive Services
  | given (v : Val)
  | oidc
  | oauth2
  | none
deriving DecidableEq, Repr

/-- The configuration once what it has as metadata has been put among the rest (appclient/__init__.py 82-84). -/
def merged (config : Dict Val) : Dict Val :=
  match config.get? "metadata" with
  | some (.obj m) => config.update m
  | _ => config

/-- The services (appclient/__init__.py 86-94): those given, else the defaults. The second test is of the argument `client_type`, not of the kind. Where nothing fits it is None, with which
`init_services` fails. -/
def clientServices (args : Dict Val) : Services :=
  let srvs := orElse ((args.get? "services").getD .null) (((merged (configOf args)).get? "services").getD .null)
  if srvs.truthy then .given srvs
  else if clientKind args = .str "oidc" then .oidc
  else if arg args "client_type" = .str "oauth2" then .oauth2
  else .none

/-- The entity id of a client (appclient/__init__.py 69). -/
def clientEntityId (args : Dict Val) : Val :=
  let config := configOf args
  orElse (arg args "entity_id") ((config.get? "entity_id").getD ((config.get? "client_id").getD (.str "")))

/-- How the configuration of a server is given: a dictionary, or ready made for OpenID or OAuth2. -/
inductive Given
  | plain
  | op
  | as
deriving DecidableEq, Repr

/-- The kind of server (appserver/__init__.py 77-82). -/
def serverKind (args : Dict Val) : Val :=
  let t := orElse (arg args "server_type") (((configOf args).get? "server_type").getD (.str ""))
  if t.truthy then t
  else if arg args "entity_type" = .str "oauth_authorization_server" then .str "oauth2"
  else if arg args "entity_type" = .str "openid_provider" then .str "oidc"
  else t

/-- What a server is made as: the name under which it publishes its metadata, the schema of these, its entity id and its issuer, from which the URLs of its endpoints are made. -/
structure Made where
  name : String
  schema : String
  entityId : Val
  issuer : Val
deriving DecidableEq, Repr

/-- The metadata schema and the name (appserver/__init__.py 84-88): for other kinds there is no schema, which is an AttributeError where it is used (129-132). -/
def serverSchema (kind : Val) : Except PyErr (String × String) :=
  if kind = .str "oauth2" then .ok ("oauth_authorization_server", "AuthorizationServerMetadata")
  else if kind = .str "oidc" then .ok ("openid_provider", "OPMetadata")
  else .error .attributeError

/-- Does the configuration fit the kind (appserver/__init__.py 94-105)? A dictionary is made into one that fits. -/
def fits (given : Given) (kind : Val) : Bool :=
  match given with
  | .plain => true
  | .op => kind ≠ .str "oauth2"
  | .as => kind ≠ .str "oidc"

/-- The issuer (appserver/__init__.py 94-96, 109): into a dictionary the argument `entity_id` is put, also if it is empty. -/
def serverIssuer (given : Given) (args : Dict Val) : Val :=
  match given with
  | .plain => arg args "entity_id"
  | _ => ((configOf args).get? "issuer").getD .null

/-- `ServerEntity.__init__` (appserver/__init__.py 60-132) with `ServerUnit.__init__` (/repo/src/fedservice/server.py 44). -/
def server (given : Given) (args : Dict Val) : Except PyErr Made :=
  if fits given (serverKind args) then
    match serverSchema (serverKind args) with
    | .error e => .error e
    | .ok (name, schema) => .ok ⟨name, schema, orElse (arg args "entity_id") (((configOf args).get? "entity_id").getD .null), serverIssuer given args⟩
  else .error .valueError

/-! ## C169 -/

/-- The services that the configuration names: among its metadata, else outside. -/
def configured (config : Dict Val) : Option Val :=
  match config.get? "metadata" with
  | some (.obj m) => (Dict.get? m "services").or (config.get? "services")
  | _ => config.get? "services"

/-- No services are given. -/
def NoServices (args : Dict Val) : Prop := ((args.get? "services").getD .null).truthy = false ∧ ((configured (configOf args)).getD .null).truthy = false

theorem merged_services (config : Dict Val) : (merged config).get? "services" = configured config := by
  unfold merged configured
  cases config.get? "metadata" with
  | none => rfl
  | some v =>
    cases v with
    | obj m => exact Dict.get?_update _ _ _
    | _ => rfl

/-- C169, full: a client without services of its own has the default services of its kind. -/
def C169_full : Prop := ∀ args, NoServices args → (clientKind args = .str "oidc" → clientServices args = .oidc) ∧ (clientKind args = .str "oauth2" → clientServices args = .oauth2)

/-- C169 does not hold: the part `oauth_client` of a combination has no services. -/
theorem C169_combination_violation : ¬ C169_full := by
  intro h
  obtain ⟨ps, after, h1, h2⟩ : ∃ ps after, Combo.federationCombo [("oauth_client", .obj [("class", .str "ClientEntity"), ("kwargs", .obj [("config", .obj [])])])] (.str "https://rp") (.obj [("verify", .bool true)]) = .ok (ps, after) ∧
      ∃ args, ps.get? "oauth_client" = some args ∧ NoServices args ∧ clientKind args = .str "oauth2" ∧ clientServices args = .none :=
    ⟨_, _, rfl, _, rfl, ⟨by decide, by decide⟩, by decide, by decide⟩
  obtain ⟨args, -, h3, h4, h5⟩ := h2
  have h6 := (h args h3).2 h4
  rw [h5] at h6
  cases h6

theorem noServices {args : Dict Val} (h : NoServices args) : (orElse ((args.get? "services").getD .null) (((merged (configOf args)).get? "services").getD .null)).truthy = false := by
  unfold orElse
  split
  · rename_i h1; rw [h.1] at h1; cases h1
  · rw [merged_services]; exact h.2

/-- C169 as far as it holds: for OpenID clients, and for OAuth2 clients exactly if the argument says so; an OAuth2 client never has the services of another kind. Missing: OAuth2 clients by
configuration or entity type. -/
theorem C169_services_partial (args : Dict Val) (h : NoServices args) :
    (clientKind args = .str "oidc" → clientServices args = .oidc) ∧
    (clientKind args = .str "oauth2" → (clientServices args = .oauth2 ↔ args.get? "client_type" = some (.str "oauth2")) ∧ clientServices args ≠ .oidc) := by
  have h1 := noServices h
  have h2 : clientServices args = if clientKind args = .str "oidc" then .oidc else if arg args "client_type" = .str "oauth2" then .oauth2 else .none := by
    unfold clientServices
    simp only [h1, Bool.false_eq_true, if_false]
  refine ⟨fun hk => by rw [h2, if_pos hk], fun hk => ?_⟩
  rw [h2, if_neg (by rw [hk]; decide)]
  have h3 : arg args "client_type" = .str "oauth2" ↔ args.get? "client_type" = some (.str "oauth2") := by
    unfold arg
    cases args.get? "client_type" with
    | none => simp
    | some v => simp
  rw [← h3]
  by_cases ha : arg args "client_type" = .str "oauth2"
  · rw [if_pos ha]; exact ⟨⟨fun _ => ha, fun _ => rfl⟩, nofun⟩
  · rw [if_neg ha]; exact ⟨⟨nofun, fun h => absurd h ha⟩, nofun⟩

/-- Services that are given are used, whatever the kind. -/
theorem C169_given (args : Dict Val) (v : Val) (hv : v.truthy = true) (h : args.get? "services" = some v ∨ ((args.get? "services" = none ∨ args.get? "services" = some .null) ∧ configured (configOf args) = some v)) :
    clientServices args = .given v := by
  have h1 : orElse ((args.get? "services").getD .null) (((merged (configOf args)).get? "services").getD .null) = v := by
    unfold orElse
    rw [merged_services]
    rcases h with h | ⟨h | h, h2⟩
    · rw [h, Option.getD_some, if_pos hv]
    · rw [h, h2]; rfl
    · rw [h, h2]; rfl
  unfold clientServices
  simp only [h1, if_pos hv]

/-- The entity id of a client is the argument, else what the configuration has as entity id, else what it has as client id. -/
theorem C169_entity_id (args : Dict Val) (e : String) (hne : e ≠ "")
    (h : args.get? "entity_id" = some (.str e) ∨ ((args.get? "entity_id" = none ∨ args.get? "entity_id" = some (.str "")) ∧
      ((configOf args).get? "entity_id" = some (.str e) ∨ ((configOf args).get? "entity_id" = none ∧ (configOf args).get? "client_id" = some (.str e))))) :
    clientEntityId args = .str e := by
  have ht : (Val.str e).truthy = true := by simp [Val.truthy, hne]
  have hf : ¬ (Val.str "").truthy = true := by decide
  unfold clientEntityId orElse arg
  rcases h with h | ⟨h | h, h2 | ⟨h2, h3⟩⟩
  · simp only [h, Option.getD_some, if_pos ht]
  · simp only [h, h2, Option.getD_none, Option.getD_some, if_neg hf]
  · simp only [h, h2, h3, Option.getD_none, Option.getD_some, if_neg hf]
  · simp only [h, h2, Option.getD_some, if_neg hf]
  · simp only [h, h2, h3, Option.getD_none, Option.getD_some, if_neg hf]

/-- If nothing is said of either, the client's entity id is the empty string. -/
theorem C169_no_entity_id (args : Dict Val) (h : args.get? "entity_id" = none) (h1 : (configOf args).get? "entity_id" = none) (h2 : (configOf args).get? "client_id" = none) :
    clientEntityId args = .str "" := by
  unfold clientEntityId orElse arg
  simp only [h, h1, h2, Option.getD_none]
  rw [if_neg (by decide)]

example : clientEntityId [("config", .obj [("services", .null)])] = .str "" := by decide
example : clientEntityId [("config", .obj [("client_id", .str "https://rp"), ("services", .null)])] = .str "https://rp" ∧
    clientEntityId [("config", .obj [("client_id", .str "rp1"), ("entity_id", .str "https://rp")])] = .str "https://rp" := by decide

/-- What decides the kind: what is said of the client type, in the configuration before the argument; else the entity type, likewise; else OpenID. -/
theorem C169_kind (args : Dict Val) :
    (∀ t, t ≠ "" → (configOf args).get? "client_type" = some (.str t) → clientKind args = .str t) ∧
    (∀ t, t ≠ "" → (configOf args).get? "client_type" = none → args.get? "client_type" = some (.str t) → clientKind args = .str t) ∧
    ((configOf args).get? "client_type" = none → args.get? "client_type" = none →
      ((((configOf args).get? "entity_type").or (args.get? "entity_type")) = some (.str "oauth_client") → clientKind args = .str "oauth2") ∧
      ((((configOf args).get? "entity_type").or (args.get? "entity_type")) ≠ some (.str "oauth_client") → clientKind args = .str "oidc")) := by
  have ht : ∀ t : String, t ≠ "" → (Val.str t).truthy = true := fun t h => by simp [Val.truthy, h]
  refine ⟨fun t hn h => ?_, fun t hn h1 h2 => ?_, fun h1 h2 => ?_⟩
  · unfold clientKind orElse
    simp only [h, Option.getD_some, if_pos (ht t hn)]
  · unfold clientKind orElse arg
    simp only [h1, h2, Option.getD_none, Option.getD_some, if_pos (ht t hn)]
  · have hk : clientKind args = orElse (typeOfEntity ((((configOf args).get? "entity_type").or (args.get? "entity_type")).getD (.str ""))) (.str "oidc") := by
      unfold clientKind arg
      simp only [h1, h2, Option.getD_none]
      rw [show orElse (Val.str "") = fun b => b from funext fun b => rfl]
      cases (configOf args).get? "entity_type" with
      | none => rfl
      | some v => rfl
    rw [hk]
    refine ⟨fun h => by rw [h]; decide, fun h => ?_⟩
    generalize ((configOf args).get? "entity_type").or (args.get? "entity_type") = o at h ⊢
    have hno : ∀ et : Val, et ≠ .str "oauth_client" → orElse (typeOfEntity et) (.str "oidc") = .str "oidc" := by
      intro et he
      cases et with
      | str s =>
        by_cases hs : s = "openid_relying_party"
        · subst hs; decide
        · have h3 : typeOfEntity (.str s) = .str "" := by
            have hs2 : s ≠ "oauth_client" := fun h => he (by rw [h])
            simp only [typeOfEntity, entity2client, Dict.get?_cons, if_neg (Ne.symm hs), if_neg (Ne.symm hs2), Dict.get?_nil, Option.getD_none]
          rw [h3]; decide
      | _ => rfl
    cases o with
    | none => exact hno _ (by simp)
    | some v => exact hno v (fun hv => h (by rw [hv]))

/-- A part of a combination is of the kind that its name in the configuration says, unless its specification says otherwise; so that `oauth_client` cannot do without services. -/
theorem C169_combination (entityId : Val) (spec kw args : Dict Val) (hk : spec.get? "kwargs" = some (.obj kw)) (h : Combo.partArgs entityId "oauth_client" spec = .ok args)
    (h1 : kw.get? "client_type" = none) (h2 : kw.get? "entity_type" = none) (h3 : (configOf kw).get? "client_type" = none) (h4 : (configOf kw).get? "entity_type" = none) :
    clientKind args = .str "oauth2" ∧ (NoServices args → clientServices args = .none) := by
  unfold Combo.partArgs at h
  rw [hk] at h
  simp only [Except.ok.injEq] at h
  subst h
  have hc : ∀ base : Dict Val, base.get? "config" = none → configOf (Dict.update base kw) = configOf kw := by
    intro base hb
    unfold configOf
    rw [Dict.get?_update, hb, Option.or_none]
  have hc := hc [("entity_id", entityId), ("entity_type", .str "oauth_client")] rfl
  have hct : (Dict.update [("entity_id", entityId), ("entity_type", .str "oauth_client")] kw).get? "client_type" = none := by
    rw [Dict.get?_update, h1]; rfl
  have hkind : clientKind (Dict.update [("entity_id", entityId), ("entity_type", .str "oauth_client")] kw) = .str "oauth2" := by
    refine ((C169_kind _).2.2 (by rw [hc]; exact h3) hct).1 ?_
    rw [hc, h4, Dict.get?_update, h2]; rfl
  refine ⟨hkind, fun hn => ?_⟩
  have h5 := ((C169_services_partial _ hn).2 hkind)
  cases hs : clientServices (Dict.update [("entity_id", entityId), ("entity_type", .str "oauth_client")] kw) with
  | none => rfl
  | oidc => exact absurd hs h5.2
  | oauth2 =>
    have := h5.1.1 hs
    rw [hct] at this; cases this
  | given v =>
    have h6 := noServices hn
    unfold clientServices at hs
    simp only [h6, Bool.false_eq_true, if_false] at hs
    split at hs
    · cases hs
    · split at hs <;> cases hs

/-- A combination with an OpenID client without services. -/
example : ∃ args, Combo.partArgs (.str "https://rp") "openid_relying_party" [("class", .str "ClientEntity"), ("kwargs", .obj [("config", .obj [])])] = .ok args ∧ NoServices args ∧ clientServices args = .oidc :=
  ⟨_, rfl, ⟨by decide, by decide⟩, by decide⟩

/-! ## C170 -/

/-- C170, full: a server whose configuration is a dictionary and whose entity id and kind are given, as arguments or in the configuration, is made as that kind, with the entity id as issuer. -/
def C170_full : Prop := ∀ (args : Dict Val) (e : String) (et : String), e ≠ "" → (args.get? "entity_id" = some (.str e) ∨ (args.get? "entity_id" = none ∧ (configOf args).get? "entity_id" = some (.str e))) →
  args.get? "server_type" = none → (configOf args).get? "server_type" = none →
  (args.get? "entity_type" = some (.str et) ∨ (args.get? "entity_type" = none ∧ (configOf args).get? "entity_type" = some (.str et))) → et ∈ ["oauth_authorization_server", "openid_provider"] →
  ∃ m, server .plain args = .ok m ∧ m.name = et ∧ m.issuer = .str e ∧ m.entityId = .str e

/-- C170 does not hold: an entity id that stands in the configuration is not used as issuer; the issuer is empty, even if one is configured. -/
theorem C170_issuer_violation : ¬ C170_full := by
  intro h
  obtain ⟨m, h1, -, h2, -⟩ := h [("config", .obj [("entity_id", .str "https://op"), ("issuer", .str "https://op")]), ("entity_type", .str "openid_provider")] "https://op" "openid_provider"
    (by decide) (.inr ⟨by decide, by decide⟩) (by decide) (by decide) (.inl (by decide)) (by decide)
  have h3 : server .plain [("config", .obj [("entity_id", .str "https://op"), ("issuer", .str "https://op")]), ("entity_type", .str "openid_provider")] =
      .ok ⟨"openid_provider", "OPMetadata", .str "https://op", .str ""⟩ := by decide
  rw [h3] at h1
  cases h1
  exact absurd h2 (by decide)

/-- Nor is an entity type that stands in the configuration of a server used, as it is for a client. -/
theorem C170_kind_violation : ¬ C170_full := by
  intro h
  obtain ⟨m, h1, -⟩ := h [("config", .obj [("entity_type", .str "oauth_authorization_server")]), ("entity_id", .str "https://as")] "https://as" "oauth_authorization_server"
    (by decide) (.inl (by decide)) (by decide) (by decide) (.inr ⟨by decide, by decide⟩) (by decide)
  have h3 : server .plain [("config", .obj [("entity_type", .str "oauth_authorization_server")]), ("entity_id", .str "https://as")] = .error .attributeError := by decide
  rw [h3] at h1
  cases h1

/-- C170 as far as it holds: if both are given as arguments. The schema is that of the kind. Missing: entity id or entity type in the configuration. -/
theorem C170_arguments_partial (args : Dict Val) (e : String) (et : String) (hne : e ≠ "") (he : args.get? "entity_id" = some (.str e)) (h1 : args.get? "server_type" = none)
    (h2 : (configOf args).get? "server_type" = none) (h3 : args.get? "entity_type" = some (.str et)) (h4 : et ∈ ["oauth_authorization_server", "openid_provider"]) :
    server .plain args = .ok ⟨et, if et = "openid_provider" then "OPMetadata" else "AuthorizationServerMetadata", .str e, .str e⟩ := by
  have ht : (Val.str e).truthy = true := by simp [Val.truthy, hne]
  have hk : serverKind args = if et = "openid_provider" then .str "oidc" else .str "oauth2" := by
    unfold serverKind arg orElse
    rw [h1, h2, h3]
    simp only [List.mem_cons, List.not_mem_nil, or_false] at h4
    rcases h4 with rfl | rfl <;> decide
  unfold server
  rw [hk]
  simp only [fits, if_true, arg, he, Option.getD_some, orElse, if_pos ht, serverIssuer]
  simp only [List.mem_cons, List.not_mem_nil, or_false] at h4
  rcases h4 with rfl | rfl
  · rw [if_neg (by decide), if_neg (by decide)]; rfl
  · rw [if_pos rfl, if_pos rfl]; rfl

/-- So for the parts of a combination: the kind is the name of the part, and the issuer is the entity id of the combination, unless the specification of the part says otherwise. -/
theorem C170_combination (e key : String) (spec kw : Dict Val) (hne : e ≠ "") (hkey : key ∈ ["oauth_authorization_server", "openid_provider"]) (hk : spec.get? "kwargs" = some (.obj kw))
    (h1 : ∀ k ∈ ["entity_id", "entity_type", "server_type"], kw.get? k = none) (h2 : (configOf kw).get? "server_type" = none) :
    ∃ args, Combo.partArgs (.str e) key spec = .ok args ∧ server .plain args = .ok ⟨key, if key = "openid_provider" then "OPMetadata" else "AuthorizationServerMetadata", .str e, .str e⟩ := by
  refine ⟨Dict.update [("entity_id", .str e), ("entity_type", .str key)] kw, by unfold Combo.partArgs; rw [hk], ?_⟩
  refine C170_arguments_partial _ e key hne ?_ ?_ ?_ ?_ hkey
  · rw [Dict.get?_update, h1 _ (by decide)]; rfl
  · rw [Dict.get?_update, h1 _ (by decide)]; rfl
  · have : configOf (Dict.update [("entity_id", .str e), ("entity_type", .str key)] kw) = configOf kw := by
      unfold configOf
      rw [Dict.get?_update]
      have : Dict.get? [("entity_id", Val.str e), ("entity_type", Val.str key)] "config" = none := rfl
      rw [this, Option.or_none]
    rw [this]; exact h2
  · rw [Dict.get?_update, h1 _ (by decide)]; rfl

/-- The kind that is given as argument is that of the server, whatever entity type is given and whatever the configuration says; else the one of the configuration is. -/
theorem C170_server_type (args : Dict Val) (kind name : String) (hk : (kind, name) ∈ [("oauth2", "oauth_authorization_server"), ("oidc", "openid_provider")])
    (h : args.get? "server_type" = some (.str kind) ∨ (args.get? "server_type" = none ∧ (configOf args).get? "server_type" = some (.str kind))) :
    ∃ m, server .plain args = .ok m ∧ m.name = name := by
  have hkind : serverKind args = .str kind := by
    have ht : (Val.str kind).truthy = true := by
      simp only [List.mem_cons, List.not_mem_nil, or_false, Prod.mk.injEq] at hk
      rcases hk with ⟨rfl, -⟩ | ⟨rfl, -⟩ <;> decide
    unfold serverKind arg orElse
    rcases h with h | ⟨h, h'⟩
    · simp only [h, Option.getD_some, if_pos ht]
    · simp only [h, h', Option.getD_some, Option.getD_none, if_neg (show ¬ (Val.str "").truthy = true by decide), if_pos ht]
  unfold server
  rw [hkind]
  simp only [List.mem_cons, List.not_mem_nil, or_false, Prod.mk.injEq] at hk
  rcases hk with ⟨rfl, rfl⟩ | ⟨rfl, rfl⟩
  · exact ⟨_, rfl, rfl⟩
  · exact ⟨_, rfl, rfl⟩

/-- And there is no kind that is taken by itself: a server whose kind is neither given as argument nor in the configuration is not made, unless the entity type given as argument is one of the two. -/
theorem C170_no_default (given : Given) (args : Dict Val) (m : Made) (h1 : ((args.get? "server_type").getD .null).truthy = false)
    (h2 : (((configOf args).get? "server_type").getD .null).truthy = false) (h : server given args = .ok m) : args.get? "entity_type" = some (.str m.name) := by
  have ha : (arg args "server_type").truthy = false := by
    unfold arg
    cases hg : args.get? "server_type" with
    | none => rfl
    | some v => rw [hg] at h1; exact h1
  have hb : ((((configOf args).get? "server_type").getD (.str ""))).truthy = false := by
    cases hg : (configOf args).get? "server_type" with
    | none => rfl
    | some v => rw [hg] at h2; exact h2
  have he : ∀ s, s ≠ "" → arg args "entity_type" = .str s → args.get? "entity_type" = some (.str s) := by
    intro s hs h
    unfold arg at h
    cases hg : args.get? "entity_type" with
    | none => rw [hg] at h; simp only [Option.getD_none, Val.str.injEq] at h; exact absurd h.symm hs
    | some v => rw [hg] at h; simp only [Option.getD_some] at h; rw [h]
  unfold server at h
  by_cases hf : fits given (serverKind args) = true
  · rw [if_pos hf] at h
    have hk : (serverKind args = .str "oauth2" → args.get? "entity_type" = some (.str "oauth_authorization_server")) ∧
        (serverKind args = .str "oidc" → args.get? "entity_type" = some (.str "openid_provider")) := by
      unfold serverKind orElse
      simp only [ha, Bool.false_eq_true, if_false, hb]
      by_cases h3 : arg args "entity_type" = .str "oauth_authorization_server"
      · rw [if_pos h3]
        exact ⟨fun _ => he _ (by decide) h3, fun h => absurd h (by decide)⟩
      · rw [if_neg h3]
        by_cases h4 : arg args "entity_type" = .str "openid_provider"
        · rw [if_pos h4]
          exact ⟨fun h => absurd h (by decide), fun _ => he _ (by decide) h4⟩
        · rw [if_neg h4]
          constructor <;> intro h5 <;> (rw [h5] at hb; exact absurd hb (by decide))
    unfold serverSchema at h
    by_cases h3 : serverKind args = .str "oauth2"
    · rw [if_pos h3] at h
      cases h
      exact hk.1 h3
    · rw [if_neg h3] at h
      by_cases h4 : serverKind args = .str "oidc"
      · rw [if_pos h4] at h
        cases h
        exact hk.2 h4
      · rw [if_neg h4] at h; cases h
  · rw [if_neg hf] at h; cases h

example : (server .plain [("server_type", .str "oauth2"), ("entity_type", .str "openid_provider"), ("config", .obj [("server_type", .str "oidc")])]).map (·.name) = .ok "oauth_authorization_server" := by decide
example : server .plain [("entity_type", .str "openid_provider")] = .ok ⟨"openid_provider", "OPMetadata", .null, .str ""⟩ := by decide

/-- A ready made configuration of the other kind is refused; one of the kind keeps its issuer. -/
theorem C170_ready (given : Given) (args : Dict Val) (m : Made) (hg : given ≠ .plain) (h : server given args = .ok m) :
    (given = .op ↔ m.name = "openid_provider") ∧ m.issuer = ((configOf args).get? "issuer").getD .null := by
  unfold server at h
  by_cases hf : fits given (serverKind args) = true
  · rw [if_pos hf] at h
    cases hs : serverSchema (serverKind args) with
    | error e => rw [hs] at h; cases h
    | ok x =>
      obtain ⟨name, schema⟩ := x
      rw [hs] at h
      simp only [Except.ok.injEq] at h
      subst h
      unfold serverSchema at hs
      cases given with
      | plain => exact absurd rfl hg
      | op =>
        have h1 : serverKind args ≠ .str "oauth2" := by simpa [fits] using hf
        rw [if_neg h1] at hs
        split at hs
        · cases hs; exact ⟨⟨fun _ => rfl, fun _ => rfl⟩, rfl⟩
        · cases hs
      | as =>
        have h1 : serverKind args ≠ .str "oidc" := by simpa [fits] using hf
        split at hs
        · cases hs
          exact ⟨⟨fun h => (nomatch h), fun h => absurd h (by decide : ¬ "oauth_authorization_server" = "openid_provider")⟩, rfl⟩
        · cases hs
  · rw [if_neg hf] at h; cases h

example : server .op [("config", .obj [("issuer", .str "https://op"), ("server_type", .str "oidc")])] = .ok ⟨"openid_provider", "OPMetadata", .null, .str "https://op"⟩ := by decide

end Fed.Config.Kinds
