import Verif.Registration.ExplicitProps
import Verif.Registration.Addresses
/-
C163: what a registration response says about the client secret. Model of `OauthClientInformationResponse.verify` (/repo/src/fedservice/message.py 159-175).
-/
namespace Fed.Registration
open Fed

/-- `OauthClientInformationResponse.verify` (message.py 169-175) as far as the members it requires go: a client id, and with a client secret also when it expires. Simplification: the
other checks of idpyoidc's message class are left out. -/
def verifyInformation (resp : Dict Val) : Except PyErr Unit :=
  match resp.get? "client_id" with
  | none => .error .missingAttribute
  | some _ => if resp.has "client_secret" && !resp.has "client_secret_expires_at" then .error .missingAttribute else .ok ()

/-- Making the response message (`comb_uri`) leaves these members as they are. -/
def KeepsSecret (R : RegEnv) : Prop := ∀ d, ∀ k ∈ ["client_id", "client_secret", "client_secret_expires_at"], (R.comb d).get? k = d.get? k

/-- The response has these members (the `c_param` of the response class, message.py 161-167). -/
def AllParams (R : RegEnv) : Prop := ∀ k ∈ ["client_id", "client_secret", "client_secret_expires_at"], k ∈ R.responseParams

/-- C163, full: the response to a registration passes the check of its own message class. -/
def C163_full : Prop := ∀ (R : RegEnv) (S : Server) (request : Dict Val) (newId setSecret : Bool) (reserved : List String) (client : String) (resp : Dict Val),
  KeepsSecret R → AllParams R → (setup R S request newId setSecret reserved).1 = .ok (client, resp) → verifyInformation resp = .ok ()

/-- C163, second half, in full: the client secret in the response is recorded among the keys of the client. -/
def C163_key_full : Prop := ∀ (R : RegEnv) (S : Server) (request : Dict Val) (newId setSecret : Bool) (reserved : List String) (client : String) (resp : Dict Val) (s : String),
  KeepsSecret R → (setup R S request newId setSecret reserved).1 = .ok (client, resp) → resp.get? "client_secret" = some (.str s) → s ≠ "" →
  KeySource.secret s ∈ (setup R S request newId setSecret reserved).2.keysOf client

namespace Ex
/-- As `R`, with all members of the response class that matter here; secrets expire at `exp`. -/
def RS (exp : Int) : RegEnv := { R with responseParams := ["client_id", "client_secret", "client_secret_expires_at", "redirect_uris"], secretExpires := exp }
theorem keepsSecret (exp : Int) : KeepsSecret (RS exp) := fun _ _ _ => rfl
theorem allParams (exp : Int) : AllParams (RS exp) := fun k hk => by
  show k ∈ ["client_id", "client_secret", "client_secret_expires_at", "redirect_uris"]
  simp only [List.mem_cons, List.not_mem_nil, or_false] at hk ⊢
  rcases hk with h | h | h <;> simp [h]
end Ex

/-- C163 does not hold: a server whose client secrets do not expire (`client_secret_expires` off) says nothing about it. -/
theorem C163_never_expires_violation : ¬ C163_full := by
  intro h
  have := h (Ex.RS 0) Ex.S (Ex.request "web" ["https://rp/cb"]) true true [] "c0"
    [("client_id", .str "c0"), ("client_secret", .str "secret of c0"), ("redirect_uris", .arr [.arr [.str "https://rp/cb", .obj []]])]
    (Ex.keepsSecret 0) (Ex.allParams 0) (by decide +kernel)
  exact absurd this (by decide +kernel)

/-- Nor the second half: a client that brings its own secret gets told that one, and another is recorded. -/
theorem C163_own_secret_violation : ¬ C163_key_full := by
  intro h
  have := h (Ex.RS 1000) Ex.S (("client_secret", .str "mine") :: Ex.request "web" ["https://rp/cb"]) true true [] "c0"
    [("client_id", .str "c0"), ("client_secret", .str "mine"), ("client_secret_expires_at", .int 1000), ("redirect_uris", .arr [.arr [.str "https://rp/cb", .obj []]])] "mine"
    (Ex.keepsSecret 1000) (by decide +kernel) (by decide) (by decide)
  have h2 : (setup (Ex.RS 1000) Ex.S (("client_secret", .str "mine") :: Ex.request "web" ["https://rp/cb"]) true true []).2.keysOf "c0" = [.secret "secret of c0"] := by
    decide +kernel
  rw [h2] at this
  exact absurd this (by decide)

/-- The filter adds no members. -/
theorem filterRequest_absent (A : Capabilities) (E : SetEnum Val) (k : String) :
    ∀ (request out : Dict Val), filterRequest A E request = .ok out → request.get? k = none → out.get? k = none := by
  intro request
  induction request with
  | nil => intro out h _; simp only [filterRequest, Except.ok.injEq] at h; subst h; rfl
  | cons p rest ih =>
    intro out h h0
    obtain ⟨q, v⟩ := p
    rw [Dict.get?_cons] at h0
    have hne : q ≠ k := by rintro rfl; simp at h0
    rw [if_neg hne] at h0
    rw [filterRequest] at h
    split at h
    · cases hm : matchClaim A E q v with
      | error e => rw [hm] at h; simp at h
      | ok w =>
        rw [hm] at h
        simp only [ok_bind] at h
        cases hr : filterRequest A E rest with
        | error e => rw [hr] at h; simp at h
        | ok r =>
          rw [hr] at h
          simp only [ok_bind] at h
          split at h
          · simp only [Except.ok.injEq] at h
            subst h
            rw [Dict.get?_cons, if_neg hne]; exact ih _ hr h0
          · simp only [Except.ok.injEq] at h
            subst h
            exact ih _ hr h0
    · cases hr : filterRequest A E rest with
      | error e => rw [hr] at h; simp at h
      | ok r =>
        rw [hr] at h
        simp only [ok_bind, except_pure, Except.ok.injEq] at h
        subst h
        rw [Dict.get?_cons, if_neg hne]
        exact ih _ hr h0

/-- A member that is not in the request is not in what is registered. -/
theorem considered_absent {R : RegEnv} {request req : Dict Val} {newId : Bool} (h : Considered R request newId req) {k : String} (hk : request.get? k = none) :
    req.get? k = none := by
  obtain ⟨req0, h1, rfl⟩ := h
  have h2 : Dict.get? (request.filter fun p => decide (p.2 ≠ Val.str "")) k = none := by
    rw [Dict.get?_eq_none_iff] at hk ⊢
    intro hm
    apply hk
    unfold Dict.keys at hm ⊢
    rw [List.mem_map] at hm ⊢
    obtain ⟨p, hp, hpk⟩ := hm
    exact ⟨p, (List.mem_filter.1 hp).1, hpk⟩
  have h3 := filterRequest_absent _ _ _ _ _ h1 h2
  cases newId with
  | false => exact h3
  | true =>
    rw [if_pos rfl, Dict.get?_filter_ne]
    split
    · rfl
    · exact h3

/-- What the response says in the members that matter here. -/
theorem response_members {R : RegEnv} {S : Server} {request : Dict Val} {newId setSecret : Bool} {reserved : List String} {client : String} {resp : Dict Val} (hc : KeepsSecret R)
    (h : (setup R S request newId setSecret reserved).1 = .ok (client, resp)) :
    ∃ req, Considered R request newId req ∧ IdFor R S request newId reserved client ∧ ∀ k ∈ ["client_id", "client_secret", "client_secret_expires_at"],
      resp.get? k = if k ∈ R.responseParams then (req.get? k).or ((skeleton R newId setSecret client).get? k) else none := by
  obtain ⟨req, info, h1, h2, h3, -, rfl, -⟩ := setup_done h
  refine ⟨req, h1, h2, fun k hk => ?_⟩
  have hs : k ∉ special := by
    revert k hk
    decide
  rw [hc _ k hk, get?_filterKeys info (fun k => decide (k ∈ R.responseParams)) k]
  by_cases hp : k ∈ R.responseParams
  · rw [if_pos hp, if_pos (by simpa using hp)]
    exact (clientInfo_get? h3).1 k hs
  · rw [if_neg hp, if_neg (by simpa using hp)]

theorem skeleton_expires (R : RegEnv) (n s : Bool) (c : String) :
    (skeleton R n s c).get? "client_secret_expires_at" = if s = true ∧ R.secretExpires ≠ 0 then some (.int R.secretExpires) else none := by
  unfold skeleton
  by_cases h : R.secretExpires = 0 <;> cases n <;> cases s <;> simp [Dict.get?, Dict.set, h]

theorem verifyInformation_ok {resp : Dict Val} :
    verifyInformation resp = .ok () ↔ resp.get? "client_id" ≠ none ∧ (resp.get? "client_secret" ≠ none → resp.get? "client_secret_expires_at" ≠ none) := by
  unfold verifyInformation
  cases h1 : resp.get? "client_id" with
  | none => simp
  | some v =>
    cases h2 : resp.get? "client_secret" <;> cases h3 : resp.get? "client_secret_expires_at" <;> simp [Dict.has, h2, h3]

/-- C163 as far as it holds: if client secrets expire, or no secret is made and the client does not bring one. Missing: secrets that do not expire. -/
theorem C163_partial (R : RegEnv) (S : Server) (request : Dict Val) (newId setSecret : Bool) (reserved : List String) (client : String) (resp : Dict Val)
    (hc : KeepsSecret R) (hp : AllParams R) (h : (setup R S request newId setSecret reserved).1 = .ok (client, resp))
    (he : (setSecret = true ∧ R.secretExpires ≠ 0) ∨ (setSecret = false ∧ request.get? "client_secret" = none)) : verifyInformation resp = .ok () := by
  obtain ⟨req, h1, -, h3⟩ := response_members hc h
  have k1 := h3 "client_id" (by decide)
  have k2 := h3 "client_secret" (by decide)
  have k3 := h3 "client_secret_expires_at" (by decide)
  obtain ⟨s1, -, s3⟩ := skeleton_get? R newId setSecret client
  rw [if_pos (hp _ (by decide)), s1] at k1
  rw [if_pos (hp _ (by decide)), s3] at k2
  rw [if_pos (hp _ (by decide)), skeleton_expires] at k3
  rw [verifyInformation_ok, k1, k2, k3]
  refine ⟨by cases req.get? "client_id" <;> simp, ?_⟩
  rcases he with ⟨rfl, he⟩ | ⟨rfl, he⟩
  · intro _
    rw [if_pos ⟨rfl, he⟩]
    cases req.get? "client_secret_expires_at" <;> simp
  · intro h4
    rw [considered_absent h1 he] at h4
    exact absurd rfl h4

/-- And only then: if client secrets do not expire, no response with a secret passes, unless the client itself says when its secret expires. -/
theorem C163_never_expires (R : RegEnv) (S : Server) (request : Dict Val) (newId : Bool) (reserved : List String) (client : String) (resp : Dict Val)
    (hc : KeepsSecret R) (hp : AllParams R) (h : (setup R S request newId true reserved).1 = .ok (client, resp)) (he : R.secretExpires = 0)
    (hr : request.get? "client_secret_expires_at" = none) : verifyInformation resp = .error .missingAttribute := by
  obtain ⟨req, h1, -, h3⟩ := response_members hc h
  have k1 := h3 "client_id" (by decide)
  have k2 := h3 "client_secret" (by decide)
  have k3 := h3 "client_secret_expires_at" (by decide)
  obtain ⟨s1, -, s3⟩ := skeleton_get? R newId true client
  rw [if_pos (hp _ (by decide)), s1] at k1
  rw [if_pos (hp _ (by decide)), s3] at k2
  rw [if_pos (hp _ (by decide)), skeleton_expires, considered_absent h1 hr, if_neg (by simp [he])] at k3
  unfold verifyInformation Dict.has
  rw [k1, k2, k3]
  cases req.get? "client_id" <;> cases req.get? "client_secret" <;> rfl

/-- The second half as far as it holds: if the client does not bring a secret. The secret is the one the server made, and the response says when it expires as the server has it.
Missing: clients that bring their own. -/
theorem C163_key_partial (R : RegEnv) (S : Server) (request : Dict Val) (newId setSecret : Bool) (reserved : List String) (client : String) (resp : Dict Val) (v : Val)
    (hc : KeepsSecret R) (h : (setup R S request newId setSecret reserved).1 = .ok (client, resp)) (hr : request.get? "client_secret" = none)
    (hs : resp.get? "client_secret" = some v) :
    setSecret = true ∧ v = .str (R.secret client) ∧ (R.secret client ≠ "" → KeySource.secret (R.secret client) ∈ (setup R S request newId setSecret reserved).2.keysOf client) := by
  obtain ⟨req, h1, -, h3⟩ := response_members hc h
  have k2 := h3 "client_secret" (by decide)
  obtain ⟨-, -, s3⟩ := skeleton_get? R newId setSecret client
  rw [considered_absent h1 hr, s3, hs] at k2
  split at k2
  · cases setSecret with
    | false => cases k2
    | true =>
      cases k2
      refine ⟨rfl, rfl, fun hne => ?_⟩
      obtain ⟨_, ks, -, -, h4, -⟩ := C154_added_partial R S request newId true reserved client resp h
      rw [h4, if_pos ⟨rfl, hne⟩]
      simp
  · cases k2

/-- The whole way: what an OAuth2 client gets from explicit registration passes the check, if client secrets expire. -/
theorem C163_explicit_partial (V : Chains.Env) (R : RegEnv) (priority : List String) (st : AppState) (request : Doc) (client : String) (resp : RegResponse)
    (hc : KeepsSecret R) (hp : AllParams R) (he : R.secretExpires ≠ 0) (h : (explicitOauth2 V R priority st request).1 = .ok (some (client, resp))) :
    verifyInformation resp.metadata = .ok () := by
  obtain ⟨j, md, tc, req, args, -, -, -, -, -, -, -, h1, -, h2⟩ := explicitOauth2_some h
  have h3 := C163_partial R st.srv req true true [] client args hc hp h1 (.inl ⟨rfl, he⟩)
  have hm : resp.metadata = responseMetadata ["application_type", "jwks", "redirect_uris"] req args := by rw [h2]
  have hg : ∀ k, k ∉ ["application_type", "jwks", "redirect_uris"] → resp.metadata.get? k = (args.get? k).or (Dict.get? req k) := by
    intro k hk
    rw [hm]
    unfold responseMetadata
    rw [get?_filterKeys (Dict.update req args) (fun k => decide (k ∉ ["application_type", "jwks", "redirect_uris"])) k, if_pos (by simpa using hk), Dict.get?_update]
  obtain ⟨req', -, -, h5⟩ := response_members hc h1
  have k3 := h5 "client_secret_expires_at" (by decide)
  rw [if_pos (hp _ (by decide)), skeleton_expires, if_pos ⟨rfl, he⟩] at k3
  rw [verifyInformation_ok] at h3 ⊢
  rw [hg _ (by decide), hg _ (by decide), hg _ (by decide)]
  refine ⟨?_, fun _ => ?_⟩
  · cases ha : args.get? "client_id" with
    | none => exact absurd ha h3.1
    | some v => simp
  · rw [k3]
    cases req'.get? "client_secret_expires_at" <;> simp

/-- A client whose secret expires, and the same with a server whose secrets do not. -/
example : ((setup (Ex.RS 1000) Ex.S (Ex.request "web" ["https://rp/cb"]) true true []).1.toOption.map fun r => verifyInformation r.2) = some (.ok ()) ∧
    ((setup (Ex.RS 0) Ex.S (Ex.request "web" ["https://rp/cb"]) true true []).1.toOption.map fun r => verifyInformation r.2) = some (.error .missingAttribute) ∧
    ((setup (Ex.RS 0) Ex.S (Ex.request "web" ["https://rp/cb"]) true false []).1.toOption.map fun r => verifyInformation r.2) = some (.ok ()) := by decide +kernel

end Fed.Registration
