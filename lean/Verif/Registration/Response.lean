import Verif.Registration.AutomaticProps
/-
C162: what an authorization response says about the trust anchor. Model of `extra_response_args` (/repo/src/fedservice/appserver/oidc/authorization.py 132-139,
/repo/src/fedservice/appserver/oauth2/authorization.py 123-130, /repo/src/fedservice/appserver/oauth2/pushed_authorization.py 116-123; the three are the same).
-/
namespace Fed.Registration
open Fed

/-- `extra_response_args`: `client` is the client id of the request (None and the empty string count as none), `fed.store` the trust chains kept by the federation entity. Simplification: a
stored empty list stands for both `{}` and `[]`. -/
def extraResponseArgs (fed : Chains.State) (aresp : Dict Val) (client : Option String) : Dict Val :=
  match client with
  | none => aresp
  | some c =>
    if c = "" then aresp
    else
      match fed.store.get? c with
      | some (tc :: _) => aresp.set "trust_anchor_id" (.str tc.anchor)
      | _ => aresp

/-- An authorization request of client `cid` that is let in, and the response made for it: the client id that stands in the request after `client_authentication`
(oidc/authorization.py 115-116, 127; `_reset_client_id` 44-46), then `extra_response_args`. Simplification: nothing in between changes the trust chains kept. -/
def respond (A : AutoEnv) (kind : Kind) (st : AppState) (cid : String) (provided : List Doc) (aresp : Dict Val) : Option (Dict Val) :=
  match clientAuthentication A kind st cid provided with
  | (.ok (some c), st) => some (extraResponseArgs st.fed aresp (some c))
  | _ => none

/-- The request makes the server register client `cid`: it is unknown, or (OpenID) it was registered automatically before. -/
def Registers (kind : Kind) (st : AppState) (cid : String) : Prop :=
  ∀ info, st.srv.cdb.get? cid = some info → kind = .oidc ∧ info.has "automatic_registered" = true

/-- Client `c` was registered with the metadata that trust chain `tc` gives entity `cid`. -/
def RegisteredThrough (A : AutoEnv) (kind : Kind) (st : AppState) (cid : String) (provided : List Doc) (c : String) (tc : Verify.TrustChain) : Prop :=
  Trusted A st.fed cid provided tc ∧ ∃ md, tc.metadata.get? kind.leafType = some (.obj md) ∧
    (A.register (importClientKeys md { st.srv with cdb := st.srv.cdb.filter fun p => p.1 ≠ cid } cid) (Dict.set md "client_id" (.str cid))).1 = some c

/-- C162, full: the response to a client that the request itself registers names the trust anchor of a trust chain that client was registered through. -/
def C162_full (kind : Kind) : Prop := ∀ (A : AutoEnv) (st : AppState) (cid : String) (provided : List Doc) (aresp resp : Dict Val), cid ≠ "" → Registers kind st cid →
  respond A kind st cid provided aresp = some resp →
  ∃ c tc, RegisteredThrough A kind st cid provided c tc ∧ resp.get? "trust_anchor_id" = some (.str tc.anchor)

/-- The oauth2 endpoints do not keep the trust chains: the response says nothing about the trust anchor. -/
theorem C162_oauth2_violation : ¬ C162_full .oauth2 := by
  intro h
  obtain ⟨c, tc, -, h2⟩ := h (Ex.auto ["automatic"]) Ex.app "https://leaf" [] [] [] (by decide) (fun info h => by cases h) (by decide +kernel)
  cases h2

/-- Nor does the pushed authorization endpoint. -/
theorem C162_pushed_violation : ¬ C162_full .pushed := by
  intro h
  obtain ⟨c, tc, -, h2⟩ := h (Ex.auto ["automatic"] true) Ex.app "https://leaf" [] [] [] (by decide) (fun info h => by cases h) (by decide +kernel)
  cases h2

namespace Ex
open _root_.Fed.Chains.Ex (conf about fe L)
/-- A federation with a trust anchor and an OpenID relying party. -/
def WO : Collect.World where
  now := 0
  config
    | "https://ta" => .ok (some (conf "https://ta" none (fe true)))
    | "https://leaf" => .ok (some (conf "https://leaf" (some ["https://ta"]) [("openid_relying_party", Ex.request "web" ["https://rp/cb"])]))
    | _ => .error .missingPage
  fetch _ a e := .ok (some (about a e))
def autoO (newId : Bool := false) : AutoEnv := ⟨{ V with W := WO }, some ["automatic"], setupRegister R newId⟩
end Ex

/-- At the OpenID endpoint, if clients get new client ids: the trust chains are kept under the entity id, and looked for under the client id. -/
theorem C162_new_id_violation : ¬ C162_full .oidc := by
  intro h
  obtain ⟨c, tc, -, h2⟩ := h (Ex.autoO true) Ex.app "https://leaf" [] [] [] (by decide) (fun info h => by cases h) (by decide +kernel)
  cases h2

/-- What it takes for a client to be registered by its request at the OpenID endpoint, and what is kept. -/
theorem let_in_oidc {A : AutoEnv} {st : AppState} {cid : String} {provided : List Doc} {c : String} (hr : Registers .oidc st cid)
    (h : (clientAuthentication A .oidc st cid provided).1 = .ok (some c)) :
    ∃ tc tcs, RegisteredThrough A .oidc st cid provided c tc ∧ (clientAuthentication A .oidc st cid provided).2.fed.store.get? cid = some (tc :: tcs) := by
  have hns : Settled .oidc (st.srv.cdb.get? cid) = false := by
    cases hc : st.srv.cdb.get? cid with
    | none => rfl
    | some info => simp [Settled, (hr info hc).2]
  unfold clientAuthentication at h ⊢
  rw [hns] at h ⊢
  simp only [Bool.false_eq_true, if_false] at h ⊢
  cases hs : automaticSupported .oidc A.supported with
  | error e => rw [hs] at h; cases h
  | ok b =>
    cases b with
    | false => rw [hs] at h; cases h
    | true =>
      rw [hs] at h
      simp only at h ⊢
      unfold doAutomatic at h ⊢
      cases hc : registrationChains A st.fed cid provided with
      | mk r fed =>
        simp only [hc] at h ⊢
        match r, hc, h with
        | .error e, _, h => cases h
        | .ok [], _, h => cases h
        | .ok (tc :: tcs), hc, h =>
          have ht : Trusted A st.fed cid provided tc := registrationChains_trusted (out := tc :: tcs) (by rw [hc]) tc (List.mem_cons_self ..)
          simp only [if_true] at h ⊢
          cases hm : tc.metadata.get? Kind.oidc.leafType with
          | none => rw [hm] at h; cases h
          | some v =>
            rw [hm] at h
            cases v with
            | obj md =>
              rcases hg : A.register (importClientKeys md { st.srv with cdb := st.srv.cdb.filter fun p => p.1 ≠ cid } cid) (Dict.set md "client_id" (.str cid)) with ⟨g1, srv⟩
              simp only [hg] at h ⊢
              cases g1 with
              | none => cases h
              | some rid =>
                rcases hk : alsoKnownAs .oidc srv.cdb cid rid with ⟨k1, cdb⟩
                simp only [hk] at h ⊢
                cases k1 with
                | error e => cases h
                | ok u =>
                  simp only [Except.ok.injEq, Option.some.injEq] at h
                  subst h
                  exact ⟨tc, tcs, ⟨ht, md, hm, by rw [hg]⟩, Dict.get?_set_self _ _ _⟩
            | _ => cases h

/-- C162 as far as it holds: at the OpenID endpoint, if the client keeps its entity id as client id. The rest of the response stays as it was. Missing: the OAuth2 endpoints, new client ids. -/
theorem C162_oidc_partial (A : AutoEnv) (st : AppState) (cid : String) (provided : List Doc) (aresp resp : Dict Val) (hid : cid ≠ "") (hr : Registers .oidc st cid)
    (hk : (clientAuthentication A .oidc st cid provided).1 = .ok (some cid)) (h : respond A .oidc st cid provided aresp = some resp) :
    ∃ tc, RegisteredThrough A .oidc st cid provided cid tc ∧ resp.get? "trust_anchor_id" = some (.str tc.anchor) ∧ ∀ k, k ≠ "trust_anchor_id" → resp.get? k = aresp.get? k := by
  obtain ⟨tc, tcs, h1, h2⟩ := let_in_oidc hr hk
  unfold respond at h
  generalize clientAuthentication A .oidc st cid provided = r at h hk h2
  obtain ⟨r1, st1⟩ := r
  simp only at hk h2
  subst hk
  simp only [extraResponseArgs, if_neg hid, h2, Option.some.injEq] at h
  subst h
  exact ⟨tc, h1, Dict.get?_set_self _ _ _, fun k hk => Dict.get?_set_ne _ _ (Ne.symm hk)⟩

/-- A client that is let in as it is: the response names the trust anchor of the first of the trust chains kept for it, whatever the endpoint; if none are kept, the response stays as it was. -/
theorem C162_known_partial (A : AutoEnv) (kind : Kind) (st : AppState) (cid : String) (provided : List Doc) (aresp : Dict Val) (info : Dict Val) (hid : cid ≠ "")
    (hk : st.srv.cdb.get? cid = some info) (ho : kind = .oidc → info.get? "automatic_registered" = none) :
    ∃ resp, respond A kind st cid provided aresp = some resp ∧
      (∀ tc tcs, st.fed.store.get? cid = some (tc :: tcs) → resp.get? "trust_anchor_id" = some (.str tc.anchor)) ∧
      ((st.fed.store.get? cid).getD [] = [] → resp = aresp) ∧ ∀ k, k ≠ "trust_anchor_id" → resp.get? k = aresp.get? k := by
  have h1 := C64_known_partial A kind st cid provided info hk ho
  unfold respond
  rw [h1]
  simp only [extraResponseArgs, if_neg hid]
  match hs : st.fed.store.get? cid with
  | none => exact ⟨_, rfl, nofun, fun _ => rfl, fun _ _ => rfl⟩
  | some [] => exact ⟨_, rfl, (fun _ _ h => by cases h), fun _ => rfl, fun _ _ => rfl⟩
  | some (tc :: tcs) =>
    refine ⟨_, rfl, ?_, ?_, fun k hk => Dict.get?_set_ne _ _ (Ne.symm hk)⟩
    · intro tc' tcs' h
      cases h
      exact Dict.get?_set_self _ _ _
    · intro h
      cases h

/-- The response does not make a trust anchor up: what it names stood there before or is the anchor of a trust chain kept for the client named. -/
theorem C162_kept (fed : Chains.State) (aresp : Dict Val) (client : Option String) (v : Val) (h : (extraResponseArgs fed aresp client).get? "trust_anchor_id" = some v) :
    aresp.get? "trust_anchor_id" = some v ∨ ∃ c tc tcs, client = some c ∧ fed.store.get? c = some (tc :: tcs) ∧ v = .str tc.anchor := by
  unfold extraResponseArgs at h
  cases client with
  | none => exact .inl h
  | some c =>
    simp only at h
    by_cases hc : c = ""
    · rw [if_pos hc] at h; exact .inl h
    · rw [if_neg hc] at h
      match hs : fed.store.get? c with
      | none => rw [hs] at h; exact .inl h
      | some [] => rw [hs] at h; exact .inl h
      | some (tc :: tcs) =>
        rw [hs] at h
        simp only [Dict.get?_set_self, Option.some.injEq] at h
        exact .inr ⟨c, tc, tcs, rfl, hs, h.symm⟩

/-- An unknown relying party, one registered automatically before and its answer; an OAuth2 client whose trust chains happen to be kept. -/
example : respond Ex.autoO .oidc Ex.app "https://leaf" [] [("code", .str "c")] = some [("code", .str "c"), ("trust_anchor_id", .str "https://ta")] ∧
    respond Ex.autoO .oidc (Ex.app [("https://leaf", [("automatic_registered", .bool true)])]) "https://leaf" [] [] = some [("trust_anchor_id", .str "https://ta")] ∧
    respond Ex.autoO .oidc (Ex.app [("https://leaf", [])]) "https://leaf" [] [] = some [] ∧
    (respond Ex.autoO .oauth2 ⟨(clientAuthentication Ex.autoO .oidc Ex.app "https://leaf" []).2.fed, { cdb := [("https://leaf", [])] }⟩ "https://leaf" [] []) =
      some [("trust_anchor_id", .str "https://ta")] := by decide +kernel

end Fed.Registration
