import Verif.Client.AuthorizationProps
/-
Property C177: clients and servers of this software agree on how requests are authenticated.

A server states in its metadata, endpoint by endpoint, how a request of a client it has never met may be authenticated, and a client goes through the endpoints it is configured with and uses the first
of which the server says anything. The server calls the endpoint for pushed requests `pushed_authorization_request_endpoint`, the client looks for a method of its own that is named after the endpoint,
and it has methods for `authorization_endpoint` and `pushed_authorization_endpoint`.
-/
namespace Fed.Client
open Fed

/-! ## What servers state -/

/-- /repo/src/fedservice/entity/claims.py 17-30 (`OPClaims._supports`) and 46-59 (`ASClaims._supports`). -/
def claimsMethods : Dict (List String) :=
  [("authorization_endpoint", ["request_object"]), ("pushed_authorization_request_endpoint", ["request_object", "private_key_jwt"])]

/-- /repo/src/fedservice/appserver/oidc/authorization.py 25-36 and /repo/src/fedservice/appserver/oauth2/authorization.py 25-36 (`Authorization._supports`). -/
def endpointMethods : Dict (List String) :=
  [("authorization_endpoint", ["request_object"]), ("pushed_authorization_request_endpoint", ["private_key_jwt"])]

/-- A server's statement that names endpoints servers of this software have: of those at which authorization requests arrive the names are `authorization_endpoint` (idpyoidc's, not overridden) and
`pushed_authorization_request_endpoint` (/repo/src/fedservice/appserver/oauth2/pushed_authorization.py 24). What is stated at each is open, as configuration may change it. -/
def NamesEndpoints (ams : Dict (List String)) : Prop :=
  ∀ k ∈ Dict.keys ams, k = "authorization_endpoint" ∨ k = "pushed_authorization_request_endpoint"

example : NamesEndpoints claimsMethods ∧ NamesEndpoints endpointMethods := by unfold NamesEndpoints; decide

/-! ## C177 -/

/-- C177: a client that can push requests, that knows where the server's authorization endpoint is, and that is configured with endpoints the server states methods for, makes its request to a server that
states what servers of this software state, and the request is signed or pushed. -/
def C177_full (kind : Kind) (ams : Dict (List String)) : Prop :=
  ∀ (E : AuthEnv) (st : AuthState) (request : Dict Val) (post : Option (Dict Val)) (types eps : List String), ServerRoles kind E types → E.methods types = .ok ams →
    E.endpoints = some eps → eps ≠ [] → (∀ x ∈ eps, x ∈ Dict.keys ams) → st.pushed ≠ none → (∃ recv, E.claim "authorization_endpoint" types = .ok recv) →
    ∃ r p, (automaticRegistration kind E st request post).1 = .ok (r, p) ∧ (SignsRequest E p ∨ (automaticRegistration kind E st request post).2.pushed = some true)

namespace Ex
/-- A client configured with the endpoints `eps`, of a server that states `ams`. -/
def PE (ams : Dict (List String)) (eps : List String) : AuthEnv := { AE eps with methods := fun _ => .ok ams }
end Ex

theorem append_of_mem_first {l : List String} {a : String} (h : a ∈ l) : ∃ s t, l = s ++ a :: t ∧ a ∉ s := by
  induction l with
  | nil => cases h
  | cons x l ih =>
    by_cases hx : a = x
    · exact ⟨[], l, by rw [hx]; rfl, by simp⟩
    · obtain ⟨s, t, h1, h2⟩ := ih (by simpa [hx] using h)
      exact ⟨x :: s, t, by rw [h1]; rfl, by simp [hx, h2]⟩

theorem roles_PE (kind : Kind) (ams : Dict (List String)) (eps : List String) : ∃ types, ServerRoles kind (Ex.PE ams eps) types := by
  cases kind with
  | oidc => exact ⟨_, .oidc _⟩
  | oauth2 => exact ⟨_, .server _ rfl⟩

/-- C177 does not hold, for any statement that says anything of the endpoint for pushed requests: a client configured to use it fails, as it has no method of that name. -/
theorem C177_pushed_violation (kind : Kind) (ams : Dict (List String)) (hin : "pushed_authorization_request_endpoint" ∈ Dict.keys ams) : ¬ C177_full kind ams := by
  intro h
  obtain ⟨types, ht⟩ := roles_PE kind ams ["pushed_authorization_request_endpoint"]
  obtain ⟨r, p, h1, -⟩ := h (Ex.PE ams ["pushed_authorization_request_endpoint"]) { pushed := some false } [] none types _ ht rfl rfl (by simp) (by simpa using hin) (by simp) ⟨_, rfl⟩
  generalize hg : automaticRegistration kind (Ex.PE ams ["pushed_authorization_request_endpoint"]) { pushed := some false } [] none = g at h1
  obtain ⟨g, st'⟩ := g
  simp only at h1
  subst h1
  rcases C116_first_supported kind _ _ _ _ _ _ _ _ ams "pushed_authorization_request_endpoint" ht rfl ⟨[], [], rfl, by simp, hin⟩ hg with ⟨h2, -⟩ | ⟨h2, -⟩ <;> exact absurd h2 (by decide)

example : "pushed_authorization_request_endpoint" ∈ Dict.keys claimsMethods ∧ "pushed_authorization_request_endpoint" ∈ Dict.keys endpointMethods := by decide

/-- And not by any configuration can requests to such a server be pushed: a request that is made is either signed and not pushed, or it goes out as it would have without this step: nothing signed, nothing changed.
The latter happens just if the server states nothing for any endpoint the client is configured with, so also if the endpoint is configured by the name the client has a method for. -/
theorem C177_never_pushed (kind : Kind) (E : AuthEnv) (st st' : AuthState) (request r : Dict Val) (post p : Option (Dict Val)) (types eps : List String) (ams : Dict (List String))
    (ht : ServerRoles kind E types) (hm : E.methods types = .ok ams) (hn : NamesEndpoints ams) (he : E.endpoints = some eps)
    (h : automaticRegistration kind E st request post = (.ok (r, p), st')) :
    (SignsRequest E p ∧ st'.pushed ≠ some true) ∨ (p = some (post.getD []) ∧ st' = st ∧ ∀ x ∈ eps, x ∉ Dict.keys ams) := by
  rcases first_or_none ams eps with ⟨pre, ep, rest, h1, h2, h3⟩ | hnone
  · have hf : FirstSupported E ams ep := ⟨pre, rest, by rw [he, h1], h2, h3⟩
    rcases C116_first_supported kind E st st' request r post p types ams ep ht hm hf h with ⟨-, -, hp, d, recv, hd, -, h4, h5, -⟩ | ⟨h4, -⟩
    · exact Or.inl ⟨⟨d, hd, h4, h5⟩, hp⟩
    · subst h4
      rcases hn _ h3 with h5 | h5 <;> exact absurd h5 (by decide)
  · rw [← serverTypes_roles] at ht
    obtain ⟨types', ams', h1, h2, -, h3⟩ := automatic_ok h
    rw [ht] at h1; cases h1
    rw [hm] at h2; cases h2
    rcases h3 with ⟨-, -, h4, h5⟩ | ⟨-, eps', h4, h5⟩
    · exact Or.inr ⟨h4, h5, hnone⟩
    · rw [he] at h4; cases h4
      rw [useFirst_none hnone] at h5
      cases h5
      exact Or.inr ⟨rfl, rfl, hnone⟩

example : (automaticRegistration .oidc (Ex.PE claimsMethods ["pushed_authorization_endpoint"]) { pushed := some false } [] none).1 = .ok ([("client_id", .str "https://leaf")], some []) ∧
    (automaticRegistration .oidc (Ex.PE claimsMethods ["pushed_authorization_request_endpoint", "authorization_endpoint"]) { pushed := some false } [] none).1 = .error .attributeError := by decide

/-- C177 for clients that name the authorization endpoint first, of the endpoints the server states anything for, if the server states there what servers of this software state. Missing: the
endpoint for pushed requests, for which see above. -/
theorem C177_signed_partial (kind : Kind) (E : AuthEnv) (st : AuthState) (request : Dict Val) (post : Option (Dict Val)) (types pre rest : List String) (ams : Dict (List String))
    (hams : ams = claimsMethods ∨ ams = endpointMethods) (ht : ServerRoles kind E types) (hm : E.methods types = .ok ams)
    (he : E.endpoints = some (pre ++ "authorization_endpoint" :: rest)) (hpre : "pushed_authorization_request_endpoint" ∉ pre) (hc : ∃ recv, E.claim "authorization_endpoint" types = .ok recv) :
    ∃ r p, (automaticRegistration kind E st request post).1 = .ok (r, p) ∧ SignsRequest E p ∧ (automaticRegistration kind E st request post).2.pushed ≠ some true := by
  have hk : Dict.keys ams = ["authorization_endpoint", "pushed_authorization_request_endpoint"] := by rcases hams with rfl | rfl <;> rfl
  have hg : ams.get? "authorization_endpoint" = some ["request_object"] := by rcases hams with rfl | rfl <;> rfl
  have hf : FirstSupported E ams "authorization_endpoint" := by
    by_cases hin : "authorization_endpoint" ∈ pre
    · obtain ⟨a, b, hab, hna⟩ := append_of_mem_first hin
      refine ⟨a, b ++ "authorization_endpoint" :: rest, by rw [he, hab]; simp, ?_, by rw [hk]; simp⟩
      intro x hx
      rw [hk]
      simp only [List.mem_cons, List.not_mem_nil, or_false, not_or]
      refine ⟨fun hx' => hna (hx' ▸ hx), fun hx' => hpre ?_⟩
      subst hx'
      rw [hab]; simp [hx]
    · refine ⟨pre, rest, he, ?_, by rw [hk]; simp⟩
      intro x hx
      rw [hk]
      simp only [List.mem_cons, List.not_mem_nil, or_false, not_or]
      exact ⟨fun hx' => hin (hx' ▸ hx), fun hx' => hpre (hx' ▸ hx)⟩
  obtain ⟨r, p, h⟩ := C116_made kind E st request post types ams "authorization_endpoint" ht hm hf (Or.inl ⟨rfl, ⟨_, hg, by simp⟩, hc⟩)
  refine ⟨r, p, h, ?_⟩
  generalize hx : automaticRegistration kind E st request post = g at h ⊢
  obtain ⟨g, st'⟩ := g
  simp only at h
  subst h
  rcases C116_first_supported kind E st st' request r post p types ams _ ht hm hf hx with ⟨-, -, hp, d, recv, hd, -, h4, h5, -⟩ | ⟨h4, -⟩
  · exact ⟨⟨d, hd, h4, h5⟩, hp⟩
  · exact absurd h4 (by decide)

example : (Ex.PE endpointMethods ["pushed_authorization_endpoint", "authorization_endpoint", "pushed_authorization_request_endpoint"]).endpoints =
    some (["pushed_authorization_endpoint"] ++ "authorization_endpoint" :: ["pushed_authorization_request_endpoint"]) := rfl

end Fed.Client
