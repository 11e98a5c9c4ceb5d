import Verif.Discover.WhoProps
/-
Property C161: the settings of the who endpoint, /repo/src/fedservice/entity/server/who.py 24-33.
-/
namespace Fed.Discover
open Fed Fed.Verify Fed.Chains

/-- The answer to a request that states what is looked for: the entity type, the credential type and the trust mark. Of the endpoint only the entity it belongs to matters. -/
def LooksFor (N : Net) (M : MarkEnv) (V : Env) (W : Who) (st : State) (anchor t c m : String) : Prop :=
  ∀ W' : Who, W'.entityId = W.entityId →
    who N M V W st {} anchor = who N M V W' st { entityType := some t, credentialType := some c, markId := some m } anchor

/-- C161 in full: an endpoint that is asked without any criteria looks for what it was set up to look for. -/
def C161_full : Prop :=
  ∀ (N : Net) (M : MarkEnv) (V : Env) (st : State) (id anchor t c m : String), LooksFor N M V (whoInit id (some t) (some c) (some m)) st anchor t c m

namespace Ex
def wempty : Who := whoInit "https://ta" (some "openid_credential_issuer") (some "Pid") (some "")
def wasked : WhoRequest := { entityType := some "openid_credential_issuer", credentialType := some "Pid", markId := some "" }
end Ex

example : (who Ex.wnet (Ex.wmarks "https://leaf") Ex.wenv Ex.wempty Ex.wst {} "https://ta").1 = .ok (some []) ∧
    (who Ex.wnet (Ex.wmarks "https://leaf") Ex.wenv Ex.wempty Ex.wst Ex.wasked "https://ta").1 = .ok (some ["https://leaf"]) := by decide +kernel

/-- C161 does not hold: the credential type that an endpoint for `openid_credential_issuer` is set up with is dropped, and nothing is ever named. -/
theorem C161_credential_type_violation : ¬ C161_full := by
  intro h
  have := congrArg Prod.fst (h Ex.wnet (Ex.wmarks "https://leaf") Ex.wenv Ex.wst "https://ta" "https://ta" "openid_credential_issuer" "Pid" "" Ex.wempty rfl)
  exact absurd this (by decide +kernel)

/-- What such an endpoint answers, whatever credential type it is set up with: nobody, if it answers with a list at all, unless the request names a credential type. -/
theorem C161_nobody (N : Net) (M : MarkEnv) (V : Env) (st : State) (id anchor t : String) (c m : Option String) (req : WhoRequest) (out : List String) (ht : t ≠ "credential_issuer")
    (hr : req.credentialType = none) (h : (who N M V (whoInit id (some t) c m) st req anchor).1 = .ok (some out)) : out = [] := by
  cases out with
  | nil => rfl
  | cons e es =>
    have h1 := ((who_ok h).1 e (by simp)).1
    rw [hr] at h1
    simp [whoInit, ht] at h1

/-- C161 for the entity type `credential_issuer`, and for the trust mark and the entity type in general. Missing: the credential type for other entity types. -/
theorem C161_partial (N : Net) (M : MarkEnv) (V : Env) (st : State) (id anchor t c m : String) (ht : t = "credential_issuer" ∨ c = "") :
    LooksFor N M V (whoInit id (some t) (some c) (some m)) st anchor t c m := by
  intro W' hW
  have key : ∀ t c, W'.entityId = id →
      who N M V ⟨id, t, c, m⟩ st {} anchor = who N M V W' st { entityType := some t, credentialType := some c, markId := some m } anchor := by
    intro t c hid
    simp only [who, startingPoints, Option.getD_none, Option.getD_some, hid]
  rcases ht with rfl | rfl
  · rw [show whoInit id (some "credential_issuer") (some c) (some m) = ⟨id, "credential_issuer", c, m⟩ from rfl] at hW ⊢
    exact key _ _ hW
  · by_cases ht : t = "credential_issuer"
    · subst ht
      rw [show whoInit id (some "credential_issuer") (some "") (some m) = ⟨id, "credential_issuer", "", m⟩ from rfl] at hW ⊢
      exact key _ _ hW
    · have : whoInit id (some t) (some "") (some m) = ⟨id, t, "", m⟩ := by simp [whoInit, ht]
      rw [this] at hW ⊢
      exact key _ _ hW

/-- Settings that are left out: without any the endpoint looks for entities of type `credential_issuer` that offer `PersonIdentificationData` and have the trust mark of the sandbox; without a trust
mark for another entity type, no trust mark is looked for. -/
theorem C161_defaults (N : Net) (M : MarkEnv) (V : Env) (st : State) (id anchor : String) :
    LooksFor N M V (whoInit id none none none) st anchor "credential_issuer" "PersonIdentificationData" "http://dc4eu.example.com/PersonIdentificationData/se" ∧
      ∀ t c, t ≠ "credential_issuer" → LooksFor N M V (whoInit id (some t) c none) st anchor t "" "" := by
  constructor
  · exact C161_partial N M V st id anchor "credential_issuer" "PersonIdentificationData" "http://dc4eu.example.com/PersonIdentificationData/se" (Or.inl rfl)
  · intro t c ht
    have := C161_partial N M V st id anchor t "" "" (Or.inr rfl)
    have e : ∀ c : Option String, ∀ m, whoInit id (some t) c m = ⟨id, t, "", m.getD ""⟩ := fun c m => by simp [whoInit, ht]
    rw [e] at this ⊢
    exact this

/-- A request that states all the criteria is answered by them, whatever the endpoint was set up with. -/
theorem C161_request_first (N : Net) (M : MarkEnv) (V : Env) (st : State) (anchor t c m : String) (W W' : Who) (h : W.entityId = W'.entityId) :
    who N M V W st { entityType := some t, credentialType := some c, markId := some m } anchor =
      who N M V W' st { entityType := some t, credentialType := some c, markId := some m } anchor := by
  simp only [who, startingPoints, Option.getD_some, h]

example : (who Ex.wnet (Ex.wmarks "https://leaf") Ex.wenv (whoInit "https://ta" (some "other") none none) Ex.wst Ex.wasked "https://ta").1 = .ok (some ["https://leaf"]) := by decide +kernel

end Fed.Discover
