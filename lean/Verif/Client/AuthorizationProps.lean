import Verif.Client.Authorization
/-
Properties C115-C118: the authorization request of a client that need not be registered.
-/
namespace Fed.Client
open Fed

/-! ## Vocabulary -/

/-- The steps after are told to sign the request in the client's own name. -/
def SignsRequest (E : AuthEnv) (post : Option (Dict Val)) : Prop :=
  ∃ d, post = some d ∧ d.get? "request_param" = some (.str "request") ∧ d.get? "issuer" = some (.str E.entityId)

def Unregistered (st : AuthState) : Prop := ∀ v, st.registered = some v → v.truthy = false

/-- `ep` is the first endpoint in the client's configuration at which the server supports a method. -/
def FirstSupported (E : AuthEnv) (ams : Dict (List String)) (ep : String) : Prop :=
  ∃ pre post, E.endpoints = some (pre ++ ep :: post) ∧ (∀ x ∈ pre, x ∉ Dict.keys ams) ∧ ep ∈ Dict.keys ams

/-! ## Helpers -/

theorem mem_keys_isSome {ams : Dict (List String)} {x : String} : (ams.get? x).isSome = true ↔ x ∈ Dict.keys ams := by
  rw [Dict.mem_keys_iff]

theorem useFirst_split {E : AuthEnv} {types : List String} {st : AuthState} {post : Dict Val} {ams : Dict (List String)} {pre rest : List String} {ep : String}
    (hpre : ∀ x ∈ pre, x ∉ Dict.keys ams) (hep : ep ∈ Dict.keys ams) :
    useFirst E types st post ams (pre ++ ep :: rest) = if ep = "authorization_endpoint" then useAuthorization E types st post ams
      else if ep = "pushed_authorization_endpoint" then usePushed st else (.error .attributeError, st) := by
  induction pre with
  | nil => rw [List.nil_append, useFirst, if_pos (mem_keys_isSome.2 hep)]
  | cons x pre ih =>
    rw [List.cons_append, useFirst, if_neg (by rw [mem_keys_isSome]; exact hpre x (by simp))]
    exact ih fun y hy => hpre y (by simp [hy])

theorem useFirst_none {E : AuthEnv} {types : List String} {st : AuthState} {post : Dict Val} {ams : Dict (List String)} {eps : List String}
    (h : ∀ x ∈ eps, x ∉ Dict.keys ams) : useFirst E types st post ams eps = (.ok (some post), st) := by
  induction eps with
  | nil => rfl
  | cons x eps ih =>
    rw [useFirst, if_neg (by rw [mem_keys_isSome]; exact h x (by simp))]
    exact ih fun y hy => h y (by simp [hy])

theorem first_or_none (ams : Dict (List String)) (eps : List String) :
    (∃ pre ep post, eps = pre ++ ep :: post ∧ (∀ x ∈ pre, x ∉ Dict.keys ams) ∧ ep ∈ Dict.keys ams) ∨ ∀ x ∈ eps, x ∉ Dict.keys ams := by
  induction eps with
  | nil => right; simp
  | cons x eps ih =>
    by_cases hx : x ∈ Dict.keys ams
    · exact Or.inl ⟨[], x, eps, rfl, by simp, hx⟩
    · rcases ih with ⟨pre, ep, post, rfl, h1, h2⟩ | ih
      · exact Or.inl ⟨x :: pre, ep, post, rfl, by simpa [hx] using h1, h2⟩
      · exact Or.inr (by simpa [hx] using ih)

theorem useAuthorization_ok {E : AuthEnv} {types : List String} {st st' : AuthState} {post : Dict Val} {ams : Dict (List String)} {p : Option (Dict Val)}
    (h : useAuthorization E types st post ams = (.ok p, st')) :
    ∃ ms recv, ams.get? "authorization_endpoint" = some ms ∧ "request_object" ∈ ms ∧ E.claim "authorization_endpoint" types = .ok recv ∧ st' = { st with pushed := st.pushed.map fun _ => false } ∧
      p = some (((((post.set "request_param" (.str "request")).set "recv" recv).set "with_jti" (.bool true)).set "lifetime" (.int (E.expiresIn.getD 300))).set "issuer" (.str E.entityId)) := by
  unfold useAuthorization at h
  simp only at h
  split at h
  · cases h
  · rename_i ms hms
    split at h
    · rename_i hin
      split at h
      · cases h
      · rename_i recv hr
        simp only [Prod.mk.injEq, Except.ok.injEq] at h
        exact ⟨ms, recv, hms, hin, hr, h.2.symm, h.1.symm⟩
    · cases h

/-- The cases in which a request is made. -/
theorem automatic_ok {kind : Kind} {E : AuthEnv} {st st' : AuthState} {request r : Dict Val} {post p : Option (Dict Val)}
    (h : automaticRegistration kind E st request post = (.ok (r, p), st')) :
    ∃ types ams, serverTypes kind E = .ok types ∧ E.methods types = .ok ams ∧ r = withClientId E request ∧
      ((ams = [] ∧ (st.registered.getD .null).truthy = true ∧ p = some (post.getD []) ∧ st' = st) ∨
       (ams ≠ [] ∧ ∃ eps, E.endpoints = some eps ∧ useFirst E types st (post.getD []) ams eps = (.ok p, st'))) := by
  unfold automaticRegistration at h
  cases ht : serverTypes kind E with
  | error e => rw [ht] at h; cases h
  | ok types =>
    rw [ht] at h
    simp only at h
    cases hm : E.methods types with
    | error e => rw [hm] at h; cases h
    | ok ams =>
      rw [hm] at h
      cases ams with
      | nil =>
        simp only at h
        split at h
        · rename_i hreg
          simp only [Prod.mk.injEq, Except.ok.injEq] at h
          exact ⟨types, [], rfl, hm, h.1.1.symm, Or.inl ⟨rfl, hreg, h.1.2.symm, h.2.symm⟩⟩
        · cases h
      | cons a ams =>
        simp only at h
        cases he : E.endpoints with
        | none => rw [he] at h; cases h
        | some eps =>
          rw [he] at h
          simp only at h
          generalize hu : useFirst E types st (post.getD []) (a :: ams) eps = u at h
          obtain ⟨u, st1⟩ := u
          cases u with
          | error e => cases h
          | ok p1 =>
            simp only [Prod.mk.injEq, Except.ok.injEq] at h
            refine ⟨types, a :: ams, rfl, hm, h.1.1.symm, Or.inr ⟨by simp, eps, rfl, ?_⟩⟩
            rw [hu, h.1.2, h.2]

/-- The roles the server may be in, the one that counts first: for an OpenID Connect client, provider, else authorization server; for the OAuth client, the one that its own type calls for. -/
inductive ServerRoles : Kind → AuthEnv → List String → Prop
  | oidc (E) : ServerRoles .oidc E ["openid_provider", "oauth_authorization_server"]
  | provider (E) : E.clientType = "oidc" → ServerRoles .oauth2 E ["openid_provider"]
  | server (E) : E.clientType = "oauth2" → ServerRoles .oauth2 E ["oauth_authorization_server"]

theorem serverTypes_roles {kind : Kind} {E : AuthEnv} {types : List String} : serverTypes kind E = .ok types ↔ ServerRoles kind E types := by
  constructor
  · intro h
    cases kind with
    | oidc => cases h; exact .oidc E
    | oauth2 =>
      simp only [serverTypes] at h
      split at h
      · cases h; exact .provider E (by assumption)
      · split at h
        · cases h; exact .server E (by assumption)
        · cases h
  · intro h
    cases h with
    | oidc => rfl
    | provider _ h => simp [serverTypes, h]
    | server _ h => simp [serverTypes, h]

/-! ## C115 -/

/-- C115 in full: a client that is not registered makes no authorization request that is neither signed in its own name nor pushed. -/
def C115_full (kind : Kind) : Prop :=
  ∀ (E : AuthEnv) (st st' : AuthState) (request r : Dict Val) (post p : Option (Dict Val)), Unregistered st →
    automaticRegistration kind E st request post = (.ok (r, p), st') → SignsRequest E p ∨ st'.pushed = some true

namespace Ex
/-- A client configured with the endpoints `eps`, of a server that supports request objects at the authorization endpoint. -/
def AE (eps : List String) : AuthEnv where
  entityId := "https://leaf"
  clientType := "oauth2"
  endpoints := some eps
  claim _ _ := .ok (.str "https://op/authorization")
  methods _ := .ok [("authorization_endpoint", ["request_object"])]
  required := ["response_type", "client_id"]
end Ex

/-- C115 does not hold: if the server supports methods, but none at an endpoint the client is configured to use, the plain request goes out. -/
theorem C115_plain_violation (kind : Kind) : ¬ C115_full kind := by
  intro h
  have := h (Ex.AE ["pushed_authorization_endpoint"]) {} {} [] [("client_id", .str "https://leaf")] none (some []) (fun v hv => by cases hv) (by cases kind <;> decide)
  rcases this with ⟨d, h1, h2, -⟩ | h1
  · cases h1; exact absurd h2 (by decide)
  · cases h1

/-- C115 if the server supports a method at one of the endpoints of the client's configuration. Missing: that it does, in which case nothing stops the plain request. -/
theorem C115_supported_partial (kind : Kind) (E : AuthEnv) (st st' : AuthState) (request r : Dict Val) (post p : Option (Dict Val)) (types eps : List String) (ams : Dict (List String)) (ep : String)
    (ht : ServerRoles kind E types) (hm : E.methods types = .ok ams) (he : E.endpoints = some eps) (hin : ep ∈ eps) (hep : ep ∈ Dict.keys ams)
    (h : automaticRegistration kind E st request post = (.ok (r, p), st')) : SignsRequest E p ∨ st'.pushed = some true := by
  rw [← serverTypes_roles] at ht
  obtain ⟨types', ams', h1, h2, -, h3⟩ := automatic_ok h
  rw [ht] at h1; cases h1
  rw [hm] at h2; cases h2
  rcases h3 with ⟨rfl, -⟩ | ⟨-, eps', h4, h5⟩
  · cases hep
  · rw [he] at h4; cases h4
    rcases first_or_none ams eps with ⟨pre, ep', post', rfl, h6, h7⟩ | h6
    · rw [useFirst_split h6 h7] at h5
      split at h5
      · obtain ⟨_, _, -, -, -, -, rfl⟩ := useAuthorization_ok h5
        exact Or.inl ⟨_, rfl, by simp [Dict.get?_set], by simp⟩
      · split at h5
        · unfold usePushed at h5
          split at h5
          · cases h5
          · simp only [Prod.mk.injEq] at h5
            rw [← h5.2]
            exact Or.inr rfl
        · cases h5
    · exact absurd hep (h6 _ hin)

/-- And if the server supports no methods at all, an unregistered client gets an error, whatever else is configured. -/
theorem C115_unsupported_partial (kind : Kind) (E : AuthEnv) (st : AuthState) (request : Dict Val) (post : Option (Dict Val)) (types : List String) (hu : Unregistered st)
    (ht : ServerRoles kind E types) (hm : E.methods types = .ok []) : (automaticRegistration kind E st request post).1 = .error .otherError := by
  rw [← serverTypes_roles] at ht
  unfold automaticRegistration
  rw [ht]
  simp only [hm]
  rw [if_neg]
  cases hr : st.registered with
  | none => decide
  | some v => simp [hu v hr]

/-- The request is signed; the pushed request is asked for; without methods there is an error. -/
example : (automaticRegistration .oidc (Ex.AE ["authorization_endpoint"]) {} [] none).1 = .ok ([("client_id", .str "https://leaf")],
    some [("request_param", .str "request"), ("recv", .str "https://op/authorization"), ("with_jti", .bool true), ("lifetime", .int 300), ("issuer", .str "https://leaf")]) := by decide
example : Unregistered {} ∧ (automaticRegistration .oauth2 { Ex.AE ["authorization_endpoint"] with methods := fun _ => .ok [] } {} [] none).1 = .error .otherError :=
  ⟨fun _ hv => (nomatch hv), by decide⟩

/-! ## C116 -/

/-- C116: the first endpoint of the client's configuration at which the server supports a method decides how the request is made: at the authorization endpoint it has to support request objects,
and the request is signed in the client's name, for that endpoint, with an identifier and the configured lifetime, and not pushed; at the pushed authorization endpoint it is pushed. -/
theorem C116_first_supported (kind : Kind) (E : AuthEnv) (st st' : AuthState) (request r : Dict Val) (post p : Option (Dict Val)) (types : List String) (ams : Dict (List String)) (ep : String)
    (ht : ServerRoles kind E types) (hm : E.methods types = .ok ams) (hf : FirstSupported E ams ep) (h : automaticRegistration kind E st request post = (.ok (r, p), st')) :
    (ep = "authorization_endpoint" ∧ (∃ ms, ams.get? ep = some ms ∧ "request_object" ∈ ms) ∧ st'.pushed ≠ some true ∧ ∃ d recv, p = some d ∧ E.claim "authorization_endpoint" types = .ok recv ∧
      d.get? "request_param" = some (.str "request") ∧ d.get? "issuer" = some (.str E.entityId) ∧ d.get? "recv" = some recv ∧ d.get? "with_jti" = some (.bool true) ∧
      d.get? "lifetime" = some (.int (E.expiresIn.getD 300))) ∨
    (ep = "pushed_authorization_endpoint" ∧ st'.pushed = some true) := by
  rw [← serverTypes_roles] at ht
  obtain ⟨types', ams', h1, h2, -, h3⟩ := automatic_ok h
  rw [ht] at h1; cases h1
  rw [hm] at h2; cases h2
  obtain ⟨pre, rest, he, h6, h7⟩ := hf
  rcases h3 with ⟨rfl, -⟩ | ⟨-, eps', h4, h5⟩
  · cases h7
  · rw [he] at h4; cases h4
    rw [useFirst_split h6 h7] at h5
    split at h5
    · rename_i hep
      subst hep
      obtain ⟨ms, recv, g1, g2, g3, rfl, rfl⟩ := useAuthorization_ok h5
      refine Or.inl ⟨rfl, ⟨ms, g1, g2⟩, ?_, _, recv, rfl, g3, ?_, ?_, ?_, ?_, ?_⟩ <;> simp [Dict.get?_set]
    · split at h5
      · rename_i hep
        unfold usePushed at h5
        split at h5
        · cases h5
        · simp only [Prod.mk.injEq] at h5
          rw [← h5.2]
          exact Or.inr ⟨hep, rfl⟩
      · cases h5

/-- And it is made: nothing but what C116 asks for is needed. -/
theorem C116_made (kind : Kind) (E : AuthEnv) (st : AuthState) (request : Dict Val) (post : Option (Dict Val)) (types : List String) (ams : Dict (List String)) (ep : String)
    (ht : ServerRoles kind E types) (hm : E.methods types = .ok ams) (hf : FirstSupported E ams ep)
    (hep : (ep = "authorization_endpoint" ∧ (∃ ms, ams.get? ep = some ms ∧ "request_object" ∈ ms) ∧ ∃ recv, E.claim "authorization_endpoint" types = .ok recv) ∨
      (ep = "pushed_authorization_endpoint" ∧ st.pushed ≠ none)) :
    ∃ r p, (automaticRegistration kind E st request post).1 = .ok (r, p) := by
  rw [← serverTypes_roles] at ht
  obtain ⟨pre, rest, he, h6, h7⟩ := hf
  unfold automaticRegistration
  rw [ht]
  simp only [hm]
  cases ams with
  | nil => cases h7
  | cons a ams =>
    simp only [he]
    rw [useFirst_split h6 h7]
    rcases hep with ⟨rfl, ⟨ms, h1, h2⟩, recv, h3⟩ | ⟨rfl, h1⟩
    · rw [if_pos rfl]
      unfold useAuthorization
      simp only [h1, if_pos h2, h3]
      exact ⟨_, _, rfl⟩
    · rw [if_neg (by decide), if_pos rfl]
      unfold usePushed
      cases hp : st.pushed with
      | none => exact absurd hp h1
      | some b => exact ⟨_, _, rfl⟩

example : FirstSupported (Ex.AE ["pushed_authorization_endpoint", "authorization_endpoint"]) [("authorization_endpoint", ["request_object"])] "authorization_endpoint" :=
  ⟨["pushed_authorization_endpoint"], [], rfl, by decide, by decide⟩

/-! ## C117 -/

/-- C117 in full: the arguments given are kept: those of the request up to a client id, the client's entity id, if there is none; those for the steps after up to what signing the request needs. -/
def C117_full (kind : Kind) : Prop :=
  ∀ (E : AuthEnv) (st st' : AuthState) (request r : Dict Val) (post p : Option (Dict Val)), automaticRegistration kind E st request post = (.ok (r, p), st') →
    (∀ k, k ≠ "client_id" → r.get? k = request.get? k) ∧ (∃ c, r.get? "client_id" = some c ∧ (request.get? "client_id" = some c ∨ c = .str E.entityId)) ∧
    ∃ d, p = some d ∧ ∀ k, k ∉ ["request_param", "recv", "with_jti", "lifetime", "issuer"] → d.get? k = (post.getD []).get? k

/-- C117 does not hold: with a pushed request all arguments for the steps after are lost; they get None for a dictionary. -/
theorem C117_pushed_violation (kind : Kind) : ¬ C117_full kind := by
  intro h
  obtain ⟨-, -, d, hd, -⟩ := h { Ex.AE ["pushed_authorization_endpoint"] with methods := fun _ => .ok [("pushed_authorization_endpoint", ["request_object"])] } { pushed := some false }
    { pushed := some true } [] [("client_id", .str "https://leaf")] (some [("service", .null)]) none (by cases kind <;> decide)
  cases hd

/-- C117 for requests that are not pushed; the arguments of the request are kept in all cases. -/
theorem C117_kept_partial (kind : Kind) (E : AuthEnv) (st st' : AuthState) (request r : Dict Val) (post p : Option (Dict Val)) (h : automaticRegistration kind E st request post = (.ok (r, p), st')) :
    (∀ k, k ≠ "client_id" → r.get? k = request.get? k) ∧ (∃ c, r.get? "client_id" = some c ∧ (request.get? "client_id" = some c ∧ c.truthy = true ∨ c = .str E.entityId)) ∧
    ((∀ types ams, ServerRoles kind E types → E.methods types = .ok ams → ¬ FirstSupported E ams "pushed_authorization_endpoint") →
      ∃ d, p = some d ∧ ∀ k, k ∉ ["request_param", "recv", "with_jti", "lifetime", "issuer"] → d.get? k = (post.getD []).get? k) := by
  obtain ⟨types, ams, h1, h2, rfl, h3⟩ := automatic_ok h
  refine ⟨fun k hk => ?_, ?_, fun hp => ?_⟩
  · unfold withClientId
    split
    · rfl
    · rw [Dict.get?_set_ne _ _ (Ne.symm hk)]
  · unfold withClientId
    split
    · rename_i ht
      cases hc : request.get? "client_id" with
      | none => rw [hc] at ht; exact absurd ht (by decide)
      | some c => exact ⟨c, rfl, Or.inl ⟨rfl, by simpa [hc] using ht⟩⟩
    · exact ⟨_, Dict.get?_set_self .., Or.inr rfl⟩
  · rcases h3 with ⟨rfl, -, rfl, rfl⟩ | ⟨-, eps, h4, h5⟩
    · exact ⟨_, rfl, fun _ _ => rfl⟩
    · rcases first_or_none ams eps with ⟨pre, ep', post', rfl, h6, h7⟩ | h6
      · rw [useFirst_split h6 h7] at h5
        split at h5
        · obtain ⟨_, _, -, -, -, -, rfl⟩ := useAuthorization_ok h5
          refine ⟨_, rfl, fun k hk => ?_⟩
          simp only [List.mem_cons, List.not_mem_nil, or_false, not_or] at hk
          simp [Dict.get?_set, eq_comm, hk]
        · split at h5
          · rename_i hep
            subst hep
            exact absurd ⟨pre, post', h4, h6, h7⟩ (hp _ _ (serverTypes_roles.1 h1) h2)
          · cases h5
      · rw [useFirst_none h6] at h5
        simp only [Prod.mk.injEq, Except.ok.injEq] at h5
        exact ⟨_, h5.1.symm, fun _ _ => rfl⟩

/-! ## C118 -/

theorem picked (request : Dict Val) (ks : List String) (d : Dict Val) (k : String) :
    (ks.foldl (takeOver request) d).get? k = if k ∈ ks ∧ (request.get? k).isSome then request.get? k else d.get? k := by
  induction ks generalizing d with
  | nil => simp
  | cons x ks ih =>
    rw [List.foldl_cons, ih]
    unfold takeOver
    by_cases hk : k ∈ ks ∧ (request.get? k).isSome
    · rw [if_pos hk, if_pos ⟨by simp [hk.1], hk.2⟩]
    · rw [if_neg hk]
      cases hx : request.get? x with
      | none =>
        simp only
        rw [if_neg]
        rintro ⟨h1, h2⟩
        rcases List.mem_cons.1 h1 with rfl | h1
        · rw [hx] at h2; cases h2
        · exact hk ⟨h1, h2⟩
      | some v =>
        simp only
        by_cases hkx : k = x
        · subst hkx
          rw [Dict.get?_set_self, if_pos ⟨by simp, by simp [hx]⟩, hx]
        · rw [Dict.get?_set_ne _ _ (Ne.symm hkx), if_neg]
          rintro ⟨h1, h2⟩
          rcases List.mem_cons.1 h1 with h1 | h1
          · exact hkx h1
          · exact hk ⟨h1, h2⟩

/-- C118: a signed request of the OAuth client carries in its request object all arguments, and beside it only those of the required parameters, with the same values. -/
theorem C118_signed (E : AuthEnv) (mk : Dict Val → Dict Val → Except PyErr Val) (request post out : Dict Val) (hr : post.get? "request_param" = some (.str "request"))
    (h : createRequest E mk request post = .ok out) :
    (∃ args, (∀ k, k ≠ "service" → Dict.get? args k = post.get? k) ∧ ∃ obj, mk request args = .ok obj ∧ out.get? "request" = some obj) ∧
    ∀ k v, k ≠ "request" → (out.get? k = some v ↔ k ∈ E.required ∧ request.get? k = some v) := by
  unfold createRequest at h
  rw [if_pos hr] at h
  split at h
  · cases h
  · split at h
    · cases h
    · rename_i obj hobj
      simp only [Except.ok.injEq] at h
      subst h
      refine ⟨⟨_, fun k hk => ?_, obj, hobj, Dict.get?_set_self ..⟩, fun k v hk => ?_⟩
      · have := Dict.get?_filter_ne post "service" k
        rw [if_neg (Ne.symm hk)] at this
        rw [← this]
        congr 2
        funext q
        by_cases hq : q.1 = "service" <;> simp [hq]
      rw [Dict.get?_set_ne _ _ (Ne.symm hk), picked]
      split
      · rename_i hh
        simp [hh.1]
      · rename_i hh
        simp only [Dict.get?_nil]
        constructor
        · intro h; cases h
        · rintro ⟨h1, h2⟩; exact absurd ⟨h1, by simp [h2]⟩ hh

/-- Such a request is made whenever the request object is, provided the arguments name the service; if they do not, the attempt ends in an exception and nothing is sent. -/
theorem C118_signed_iff (E : AuthEnv) (mk : Dict Val → Dict Val → Except PyErr Val) (request post : Dict Val) (hr : post.get? "request_param" = some (.str "request")) :
    (post.get? "service" = none → createRequest E mk request post = .error .keyError) ∧
    ∀ s, post.get? "service" = some s → (∀ args, ∃ obj, mk request args = .ok obj) → ∃ out, createRequest E mk request post = .ok out := by
  unfold createRequest
  rw [if_pos hr]
  refine ⟨fun h => by rw [h]; rfl, fun s h hm => ?_⟩
  rw [h, if_neg (by simp)]
  generalize hargs : post.filter _ = args
  obtain ⟨obj, hobj⟩ := hm args
  rw [hobj]
  exact ⟨_, rfl⟩

/-- Other requests go out as they are. -/
theorem C118_plain (E : AuthEnv) (mk : Dict Val → Dict Val → Except PyErr Val) (request post : Dict Val) (hr : post.get? "request_param" ≠ some (.str "request")) :
    createRequest E mk request post = .ok request := by
  unfold createRequest
  rw [if_neg hr]

example : createRequest (Ex.AE []) (fun r _ => .ok (.obj r)) [("client_id", .str "c"), ("scope", .str "openid")] [("service", .null), ("request_param", .str "request")] =
    .ok [("client_id", .str "c"), ("request", .obj [("client_id", .str "c"), ("scope", .str "openid")])] := by decide

end Fed.Client
