import Verif.Client.Finalize
import Verif.Registration.ExplicitProps
/-
C167: the server knows the client that asks for tokens. Both sides: the client id in token requests (/repo/src/fedservice/appclient/stand_alone_client_entity.py 340-378, `get_client_id` of
/repo/src/fedservice/appclient/__init__.py 142-143: the entity id), and the clients kept by a server after a registration.
-/
namespace Fed.Registration
open Fed

/-- The server knows the client a request names. -/
def KnowsSender (srv : Server) (req : Dict Val) : Prop := ∃ c info, req.get? "client_id" = some (.str c) ∧ srv.cdb.get? c = some info

/-- C167, full: after an explicit registration at an OAuth2 server the server knows the client that its token requests name. -/
def C167_full : Prop := ∀ (V : Chains.Env) (R : RegEnv) (priority : List String) (st : AppState) (j : Jws) (client : String) (resp : RegResponse) (F : Client.Session.Finish) (state : String)
    (stored req : Dict Val), (explicitOauth2 V R priority st (some j)).1 = .ok (some (client, resp)) → F.clientId = resp.sub → Client.Session.tokenRequest F state stored = .ok req →
  KnowsSender (explicitOauth2 V R priority st (some j)).2.srv req

namespace Ex
/-- The client of `signed`, with nothing configured but its entity id. -/
def tokenClient : Client.Session.Finish where
  info := []
  issuer := ""
  clientId := "https://leaf"
  secret := none
  hasUserinfo := false
  schema := []
  idTokenClaims := []
  tokens _ _ := .error .serviceError
  userinfo _ _ := .error .serviceError
end Ex

theorem tokenRequest_id {F : Client.Session.Finish} {state : String} {stored req : Dict Val} (h : Client.Session.tokenRequest F state stored = .ok req) :
    req.get? "client_id" = some (.str F.clientId) := by
  unfold Client.Session.tokenRequest at h
  split at h
  · cases h
  · split at h
    · cases h
    · cases h; rfl

/-- C167 does not hold: the server knows the client by the client id it made, the client names its entity id. -/
theorem C167_explicit_violation : ¬ C167_full := by
  intro h
  cases he : (explicitOauth2 Ex.V Ex.R [] Ex.app (some Ex.signed)).1 with
  | error e =>
    have : (explicitOauth2 Ex.V Ex.R [] Ex.app (some Ex.signed)).1.toOption.isSome = true := by decide +kernel
    rw [he] at this; cases this
  | ok o =>
    have h1 : (explicitOauth2 Ex.V Ex.R [] Ex.app (some Ex.signed)).1.toOption.map (fun o => o.map fun x => x.2.sub) = some (some "https://leaf") := by decide +kernel
    rw [he] at h1
    cases o with
    | none => cases h1
    | some x =>
      obtain ⟨client, resp⟩ := x
      have h2 : resp.sub = "https://leaf" := by
        simp only [Except.toOption, Option.map_some, Option.some.injEq] at h1
        exact h1
      obtain ⟨c, info, h3, h4⟩ := h Ex.V Ex.R [] Ex.app Ex.signed client resp Ex.tokenClient "s" [("code", .str "c"), ("redirect_uri", .str "https://rp/cb")] _ he h2.symm rfl
      have h5 := tokenRequest_id (F := Ex.tokenClient) (state := "s") (stored := [("code", .str "c"), ("redirect_uri", .str "https://rp/cb")]) rfl
      rw [h5] at h3
      cases h3
      have h6 : (explicitOauth2 Ex.V Ex.R [] Ex.app (some Ex.signed)).2.srv.cdb.get? "https://leaf" = none := by decide +kernel
      have h7 : (explicitOauth2 Ex.V Ex.R [] Ex.app (some Ex.signed)).2.srv.cdb.get? "https://leaf" = some info := h4
      rw [h6] at h7
      cases h7

/-- C167 as far as it holds: after an automatic registration at an OAuth2 server the server knows the client its token requests name, also if it was given a new client id. Missing: explicit
registrations. -/
theorem C167_automatic_partial (R : RegEnv) (newId : Bool) (V : Chains.Env) (supported : Option (List String)) (kind : Kind) (st : AppState) (cid : String) (provided : List Doc) (c : String)
    (hkind : kind ≠ .oidc) (hid : cid ≠ "") (hk : KeepsId R) (hp : R.A.preferred.get? "client_id" = none) (hnew : st.srv.cdb.get? cid = none)
    (h : (clientAuthentication ⟨V, supported, setupRegister R newId⟩ kind st cid provided).1 = .ok (some c)) (F : Client.Session.Finish) (hF : F.clientId = cid) (state : String)
    (stored req : Dict Val) (hr : Client.Session.tokenRequest F state stored = .ok req) :
    KnowsSender (clientAuthentication ⟨V, supported, setupRegister R newId⟩ kind st cid provided).2.srv req := by
  obtain ⟨-, -, info, -, -, h1, -⟩ := C65_registered_partial R newId V supported kind st cid provided c hkind hid hk hp hnew h
  exact ⟨cid, info, by rw [tokenRequest_id hr, hF], h1⟩

/-- Clients that are known already, and let in as they are, are known afterwards as well. -/
theorem C167_known_partial (A : AutoEnv) (kind : Kind) (st : AppState) (cid : String) (provided : List Doc) (info : Dict Val) (hk : st.srv.cdb.get? cid = some info)
    (ho : kind = .oidc → info.get? "automatic_registered" = none) (F : Client.Session.Finish) (hF : F.clientId = cid) (state : String) (stored req : Dict Val)
    (hr : Client.Session.tokenRequest F state stored = .ok req) : KnowsSender (clientAuthentication A kind st cid provided).2.srv req := by
  rw [C64_known_partial A kind st cid provided info hk ho]
  exact ⟨cid, info, by rw [tokenRequest_id hr, hF], hk⟩

/-- A client that is given the client id "c0". -/
example : (clientAuthentication (Ex.auto ["automatic"] true) .oauth2 Ex.app "https://leaf" []).1 = .ok (some "c0") ∧
    Client.Session.tokenRequest Ex.tokenClient "s" [("code", .str "c"), ("redirect_uri", .str "https://rp/cb")] ≠ .error .keyError := by
  refine ⟨by decide +kernel, ?_⟩
  intro h; cases h

end Fed.Registration
