import Verif.Registration.Automatic
import Verif.Registration.SetupProps
import Verif.Chains.Props
/-
Properties C64, C65, C95 and C96: automatic registration.
-/
namespace Fed.Registration
open Fed

/-- `tc` is a trust chain that was verified for this registration, with its policies applied: one collected for the client, or the one that came with the request. -/
def Trusted (A : AutoEnv) (fed : Chains.State) (cid : String) (provided : List Doc) (tc : Verify.TrustChain) : Prop :=
  (provided = [] ∧ ∃ out, (Chains.getVerified A.V fed cid).1 = .ok out ∧ tc ∈ out) ∨
  (provided ≠ [] ∧ ∃ tc0, (Verify.verifyChain A.V.L fed.jar provided.reverse).1 = .ok (some tc0) ∧ Chains.applyToChain A.V.E A.V.K tc0 = .ok tc)

theorem registrationChains_trusted {A : AutoEnv} {fed : Chains.State} {cid : String} {provided : List Doc} {out : List Verify.TrustChain}
    (h : (registrationChains A fed cid provided).1 = .ok out) : ∀ tc ∈ out, Trusted A fed cid provided tc := by
  intro tc ht
  unfold registrationChains at h
  split at h
  · rename_i he
    exact .inl ⟨List.isEmpty_iff.1 he, out, h, ht⟩
  · rename_i he
    refine .inr ⟨fun h0 => he (by simp [h0]), ?_⟩
    cases hr : Chains.verifyChains A.V.L [provided.reverse] fed.jar with
    | mk r jar =>
      rw [hr] at h
      cases r with
      | error e => cases h
      | ok tcs =>
        simp only at h
        obtain ⟨tc0, h1, h2⟩ := (Chains.applyPolicies_mem h).1 tc ht
        obtain ⟨pre, c, post, h3, h4⟩ := (Chains.verifyChains_mem (by rw [hr]) tc0).1 h1
        have : pre = [] ∧ c = provided.reverse := by
          cases pre with
          | nil => simp only [List.nil_append, List.cons.injEq] at h3; exact ⟨rfl, h3.1.symm⟩
          | cons a pre =>
            simp only [List.cons_append, List.cons.injEq] at h3
            exact absurd h3.2 (by simp)
        obtain ⟨rfl, rfl⟩ := this
        exact ⟨tc0, h4, h2⟩

/-- What the three outcomes of a registration attempt mean. -/
theorem doAutomatic_cases (A : AutoEnv) (kind : Kind) (st : AppState) (cid : String) (provided : List Doc) :
    (∃ e, (doAutomatic A kind st cid provided).1 = .error e ∧ (doAutomatic A kind st cid provided).2.srv = st.srv) ∨
    ∃ tc md, Trusted A st.fed cid provided tc ∧ tc.metadata.get? kind.leafType = some (.obj md) ∧
      ∃ r, (doAutomatic A kind st cid provided).1 = .ok r ∧
        A.register (importClientKeys md st.srv cid) (Dict.set md "client_id" (.str cid)) = (r, (doAutomatic A kind st cid provided).2.srv) := by
  unfold doAutomatic
  have ht := @registrationChains_trusted A st.fed cid provided
  generalize registrationChains A st.fed cid provided = r at ht ⊢
  obtain ⟨r, fed⟩ := r
  cases r with
  | error e => exact .inl ⟨e, rfl, rfl⟩
  | ok tcs =>
    cases tcs with
    | nil => exact .inl ⟨_, rfl, rfl⟩
    | cons tc tcs =>
      simp only
      cases hm : tc.metadata.get? kind.leafType with
      | none => exact .inl ⟨_, rfl, rfl⟩
      | some v =>
        cases v with
        | obj md =>
          refine .inr ⟨tc, md, ht rfl tc (by simp), hm, ?_⟩
          simp only
          exact ⟨_, rfl, rfl⟩
        | _ => exact .inl ⟨_, rfl, rfl⟩

theorem filter_absent {β} {d : Dict β} {k : String} (h : d.get? k = none) : (d.filter fun p => p.1 ≠ k) = d := by
  rw [List.filter_eq_self]
  intro p hp
  rw [Dict.get?_eq_none_iff] at h
  simp only [ne_eq, decide_not, Bool.not_eq_true', decide_eq_false_iff_not]
  rintro rfl
  exact h (List.mem_map.2 ⟨p, hp, rfl⟩)

/-! ## C64 -/

/-- What can happen at an endpoint before a request comes in: other requests, and keys being looked up for the signature of some token. -/
inductive Event
  | request (A : AutoEnv) (cid : String) (provided : List Doc)
  | keyLookup (A : AutoEnv) (iss : String)

/-- What an endpoint keeps after a history. -/
def runEvents (kind : Kind) (st : AppState) (h : List Event) : AppState :=
  h.foldl (fun st ev => match ev with
    | .request A cid provided => (clientAuthentication A kind st cid provided).2
    | .keyLookup A iss => (findClientKeys A kind st iss).2) st

/-- Automatic registration is not supported. -/
def NotSupported (A : AutoEnv) : Prop := ∀ l, A.supported = some l → "automatic" ∉ l

/-- C64 in full, first half: at a server that does not support automatic registration, and has no clients to begin with, nobody gets past client authentication. -/
def C64_full : Prop :=
  ∀ (kind : Kind) (st : AppState) (h : List Event) (A : AutoEnv) (cid : String) (provided : List Doc) (c : String), st.srv.cdb = [] →
    NotSupported A → (∀ ev ∈ h, match ev with | .request A _ _ => NotSupported A | .keyLookup A _ => NotSupported A) →
    (clientAuthentication A kind (runEvents kind st h) cid provided).1 ≠ .ok (some c)

/-- C64 in full, second half: a known client is not registered again. -/
def C64_again_full : Prop :=
  ∀ (kind : Kind) (A : AutoEnv) (st : AppState) (cid : String) (provided : List Doc), st.srv.cdb.get? cid ≠ none →
    (clientAuthentication A kind st cid provided).2 = st

namespace Ex
open _root_.Fed.Chains.Ex (conf about fe L)
/-- The metadata of an OAuth client with one redirect URI. -/
def client (uri : String) : Dict Policy.Metadata := [("oauth_client", Ex.request "web" [uri])]
/-- A federation with a trust anchor and two clients below it; `bad` has a redirect URI that is refused. -/
def W : Collect.World where
  now := 0
  config
    | "https://ta" => .ok (some (conf "https://ta" none (fe true)))
    | "https://leaf" => .ok (some (conf "https://leaf" (some ["https://ta"]) (client "https://rp/cb")))
    | "https://bad" => .ok (some (conf "https://bad" (some ["https://ta"]) (client "http://rp/cb")))
    | _ => .error .missingPage
  fetch _ a e := .ok (some (about a e))
/-- The chain of `leaf` as it would come with a request. -/
def leafDocs : List Doc := [some (conf "https://leaf" (some ["https://ta"]) (client "https://rp/cb")), some (about "https://ta" "https://leaf")]
def V : Chains.Env := { L := L, P := { anchors := ["https://ta"] }, W := W, fuel := 10, E := SetEnum.insertion, K := SetEnum.insertion }
def auto (supported : List String) (newId : Bool := false) : AutoEnv := ⟨V, some supported, setupRegister R newId⟩
def app (cdb : Dict (Dict Val) := []) : AppState := ⟨{ jar := [("https://ta", [1])] }, { cdb := cdb }⟩
end Ex

/-- C64 does not hold: looking up keys for the signature of a token registers its issuer, whether or not automatic registration is supported. -/
theorem C64_key_lookup_violation : ¬ C64_full := by
  intro h
  refine h .oauth2 Ex.app [.keyLookup (Ex.auto ["explicit"]) "https://leaf"] (Ex.auto ["explicit"]) "https://leaf" [] "https://leaf" rfl ?_ ?_ ?_
  · intro l hl; cases hl; decide
  · intro ev hev
    simp only [List.mem_singleton] at hev
    subst hev
    intro l hl; cases hl; decide
  · decide +kernel

/-- Nor the second half: the OpenID endpoint registers clients that were registered automatically anew at each request. -/
theorem C64_again_violation : ¬ C64_again_full := by
  intro h
  have := h .oidc (Ex.auto ["automatic"]) (Ex.app [("https://leaf", [("automatic_registered", .bool true)])]) "https://leaf" [] (by decide)
  have h2 : ((clientAuthentication (Ex.auto ["automatic"]) .oidc (Ex.app [("https://leaf", [("automatic_registered", .bool true)])]) "https://leaf" []).2.srv.cdb
    = (Ex.app [("https://leaf", [("automatic_registered", .bool true)])]).srv.cdb) := by rw [this]
  exact absurd h2 (by decide +kernel)

/-- C64 as far as it holds: an unknown client gets past only if automatic registration is supported and there is a verified trust chain, for the client or handed in, with metadata of the right
entity type. Missing: clients may be known from a key lookup. -/
theorem C64_unknown_partial (A : AutoEnv) (kind : Kind) (st : AppState) (cid : String) (provided : List Doc) (c : String)
    (hnew : st.srv.cdb.get? cid = none) (h : (clientAuthentication A kind st cid provided).1 = .ok (some c)) :
    (∃ l, A.supported = some l ∧ "automatic" ∈ l) ∧
    ∃ tc md, Trusted A st.fed cid provided tc ∧ tc.metadata.get? kind.leafType = some (.obj md) := by
  unfold clientAuthentication at h
  rw [hnew, if_neg (by simp [Settled])] at h
  cases hs : automaticSupported kind A.supported with
  | error e => rw [hs] at h; cases h
  | ok b =>
    cases b with
    | false => rw [hs] at h; cases h
    | true =>
      rw [hs] at h
      simp only at h
      constructor
      · unfold automaticSupported at hs
        cases hl : A.supported with
        | none => rw [hl] at hs; simp only at hs; split at hs <;> cases hs
        | some l => rw [hl] at hs; exact ⟨l, rfl, by simpa using hs⟩
      · rw [filter_absent hnew] at h
        rcases doAutomatic_cases A kind st cid provided with ⟨e, h1, -⟩ | ⟨tc, md, h1, h2, -⟩
        · generalize doAutomatic A kind st cid provided = r at h h1
          obtain ⟨r, st'⟩ := r
          simp only at h1
          subst h1
          cases h
        · exact ⟨tc, md, h1, h2⟩

/-- C64: at the oauth2 endpoints known clients, and at the OpenID endpoint those known otherwise than by automatic registration, are not registered again, nor does anything else change. -/
theorem C64_known_partial (A : AutoEnv) (kind : Kind) (st : AppState) (cid : String) (provided : List Doc) (info : Dict Val)
    (hk : st.srv.cdb.get? cid = some info) (ho : kind = .oidc → info.get? "automatic_registered" = none) :
    clientAuthentication A kind st cid provided = (.ok (some cid), st) := by
  unfold clientAuthentication
  rw [hk, if_pos]
  unfold Settled
  simp only [Bool.not_eq_true', Bool.and_eq_false_imp, decide_eq_true_eq]
  intro h
  simp [Dict.has, ho h]

example : (clientAuthentication (Ex.auto ["automatic"]) .oauth2 Ex.app "https://leaf" []).1 = .ok (some "https://leaf") ∧
    (clientAuthentication (Ex.auto ["explicit"]) .oauth2 Ex.app "https://leaf" []).1 = .ok none ∧
    (clientAuthentication (Ex.auto ["automatic"]) .oauth2 Ex.app "https://nobody" []).1 = .error .missingPage := by decide +kernel

/-! ## C65 -/

/-- What is registered is the metadata `md`, as far as the server goes along with it: all claims but those with a check of their own (see C61, C94) and those the server makes up. -/
def RegisteredAs (R : RegEnv) (newId : Bool) (cid : String) (md info : Dict Val) : Prop :=
  ∃ req, Considered R (Dict.set md "client_id" (.str cid)) newId req ∧
    (∀ k, k ∉ special → k ∉ serverNames → k ≠ "entity_id" → info.get? k = req.get? k) ∧
    (match req.get? "redirect_uris" with
      | none => info.get? "redirect_uris" = none
      | some _ => ∃ rs, verifyRedirectUris R.U req = .ok rs ∧ info.get? "redirect_uris" = some (urisVal rs))

/-- C65 in full, for the oauth2 endpoints: an unknown client that is let in has been registered with the metadata of a trusted chain about it. -/
def C65_full : Prop :=
  ∀ (R : RegEnv) (newId : Bool) (V : Chains.Env) (supported : Option (List String)) (kind : Kind) (st : AppState) (cid : String) (provided : List Doc) (c : String),
    kind ≠ .oidc → st.srv.cdb.get? cid = none → (clientAuthentication ⟨V, supported, setupRegister R newId⟩ kind st cid provided).1 = .ok (some c) →
    ∃ tc leaf md info, Trusted ⟨V, supported, setupRegister R newId⟩ st.fed cid provided tc ∧ tc.verified.getLast? = some leaf ∧ leaf.sub = cid ∧
      tc.metadata.get? kind.leafType = some (.obj md) ∧
      (clientAuthentication ⟨V, supported, setupRegister R newId⟩ kind st cid provided).2.srv.cdb.get? cid = some info ∧ RegisteredAs R newId cid md info

/-- C65 does not hold: a client that is in no federation at all is let in, and registered, with the chain of another client. -/
theorem C65_foreign_chain_violation : ¬ C65_full := by
  intro h
  obtain ⟨tc, leaf, md, info, h1, h2, h3, -⟩ := h Ex.R false Ex.V (some ["automatic"]) .oauth2 Ex.app "https://victim" Ex.leafDocs "https://victim" (by decide)
    (by decide) (by decide +kernel)
  rcases h1 with ⟨h1, -⟩ | ⟨-, tc0, h1, h4⟩
  · exact absurd h1 (by decide)
  · obtain ⟨l0, md0, h5, -, h6⟩ := Chains.applyToChain_ok.1 h4
    have hv : tc.verified = tc0.verified := by
      rcases h6 with ⟨-, m, -, rfl⟩ | ⟨-, m, -, rfl⟩ <;> rfl
    have h7 : (Verify.verifyChain Ex.V.L (Ex.app).fed.jar Ex.leafDocs.reverse).1.toOption.map (fun o => o.map fun t => t.verified.getLast?.map (·.sub)) =
        some (some (some "https://leaf")) := by decide +kernel
    rw [show (Verify.verifyChain Ex.V.L (Ex.app).fed.jar Ex.leafDocs.reverse).1 = .ok (some tc0) from h1] at h7
    rw [hv] at h2
    simp only [Except.toOption, Option.map_some, h2, Option.some.injEq] at h7
    rw [h7] at h3
    exact absurd h3 (by decide)

theorem filterRequest_first (A : Capabilities) (E : SetEnum Val) (k : String) (hp : A.preferred.get? k = none) :
    ∀ (request out : Dict Val), filterRequest A E request = .ok out → out.get? k = request.get? k := by
  intro request
  induction request with
  | nil => intro out h; simp only [filterRequest, Except.ok.injEq] at h; subst h; rfl
  | cons p rest ih =>
    intro out h
    obtain ⟨q, v⟩ := p
    rw [filterRequest] at h
    rw [Dict.get?_cons]
    split at h
    · rename_i hq
      have hne : q ≠ k := by rintro rfl; simp [Dict.has, hp] at hq
      rw [if_neg hne]
      cases hm : matchClaim A E q v with
      | error e => rw [hm] at h; simp at h
      | ok w =>
        rw [hm] at h
        simp only [ok_bind] at h
        cases hr : filterRequest A E rest with
        | error e => rw [hr] at h; simp at h
        | ok r =>
          rw [hr] at h
          simp only [ok_bind] at h
          split at h
          · simp only [Except.ok.injEq] at h
            subst h
            rw [Dict.get?_cons, if_neg hne]; exact ih _ hr
          · simp only [Except.ok.injEq] at h
            subst h
            exact ih _ hr
    · cases hr : filterRequest A E rest with
      | error e => rw [hr] at h; simp at h
      | ok r =>
        rw [hr] at h
        simp only [ok_bind, except_pure, Except.ok.injEq] at h
        subst h
        rw [Dict.get?_cons, ih _ hr]

theorem get?_rmBlanks {d : Dict Val} {k : String} {v : Val} (h : Dict.get? d k = some v) (hv : v ≠ .str "") :
    Dict.get? (d.filter fun p => decide (p.2 ≠ .str "")) k = some v := by
  induction d with
  | nil => simp at h
  | cons p d ih =>
    rw [Dict.get?_cons] at h
    rw [List.filter_cons]
    by_cases hk : p.1 = k
    · rw [if_pos hk] at h
      simp only [Option.some.injEq] at h
      rw [if_pos (by simpa [h] using hv), Dict.get?_cons, if_pos hk, h]
    · rw [if_neg hk] at h
      split
      · rw [Dict.get?_cons, if_neg hk]; exact ih h
      · exact ih h

/-- The id a client is registered under by the oauth2 registration: its own or a fresh one. -/
theorem idFor_own {R : RegEnv} {S : Server} {md : Dict Val} {cid client : String} (hc : cid ≠ "") (hp : R.A.preferred.get? "client_id" = none)
    (h : IdFor R S (Dict.set md "client_id" (.str cid)) false [] client) : client = cid := by
  obtain ⟨req, h1, h2, -⟩ := h
  rw [filterRequest_first _ _ _ hp _ _ h1, get?_rmBlanks (Dict.get?_set_self _ _ _) (by intro h0; cases h0; exact hc rfl)] at h2
  cases h2
  rfl

theorem setupRegister_some {R : RegEnv} {newId : Bool} {S S' : Server} {request : Dict Val} {c : String}
    (h : setupRegister R newId S request = (some c, S')) :
    ∃ client resp, (setup R S request newId true []).1 = .ok (client, resp) ∧ resp.get? "client_id" = some (.str c) ∧ S' = (setup R S request newId true []).2 := by
  unfold setupRegister at h
  cases hr : setup R S request newId true [] with
  | mk r S1 =>
    rw [hr] at h
    cases r with
    | error e => simp at h
    | ok x =>
      obtain ⟨client, resp⟩ := x
      simp only at h
      cases hg : Dict.get? resp "client_id" with
      | none => rw [hg] at h; simp at h
      | some v =>
        rw [hg] at h
        cases v with
        | str c' =>
          simp only [Prod.mk.injEq, Option.some.injEq] at h
          obtain ⟨rfl, rfl⟩ := h
          exact ⟨client, resp, rfl, hg, rfl⟩
        | _ => simp at h

/-- What it takes for an unknown client to be let in. -/
theorem let_in {A : AutoEnv} {kind : Kind} {st : AppState} {cid : String} {provided : List Doc} {c : String}
    (hnew : st.srv.cdb.get? cid = none) (h : (clientAuthentication A kind st cid provided).1 = .ok (some c)) :
    ∃ tc md srv, Trusted A st.fed cid provided tc ∧ tc.metadata.get? kind.leafType = some (.obj md) ∧
      A.register (importClientKeys md st.srv cid) (Dict.set md "client_id" (.str cid)) = (some c, srv) ∧
      alsoKnownAs kind srv.cdb cid c = (.ok (), (clientAuthentication A kind st cid provided).2.srv.cdb) := by
  unfold clientAuthentication at h ⊢
  rw [hnew, if_neg (by simp [Settled])] at h ⊢
  cases hs : automaticSupported kind A.supported with
  | error e => rw [hs] at h; cases h
  | ok b =>
    cases b with
    | false => rw [hs] at h; cases h
    | true =>
      rw [hs] at h
      simp only at h ⊢
      rw [filter_absent hnew] at h ⊢
      rcases doAutomatic_cases A kind st cid provided with ⟨e, h1, -⟩ | ⟨tc, md, h1, h2, r, h3, h4⟩
      · generalize doAutomatic A kind st cid provided = r at h h1
        obtain ⟨r, st'⟩ := r
        simp only at h1
        subst h1
        cases h
      · generalize doAutomatic A kind st cid provided = q at h h3 h4 ⊢
        obtain ⟨q, st'⟩ := q
        simp only at h3 h4
        subst h3
        cases r with
        | none => cases h
        | some rid =>
          simp only at h ⊢
          cases hx : alsoKnownAs kind st'.srv.cdb cid rid with
          | mk x cdb =>
            rw [hx] at h
            cases x with
            | error e => cases h
            | ok u =>
              simp only [Except.ok.injEq, Option.some.injEq] at h
              subst h
              exact ⟨tc, md, st'.srv, h1, h2, h4, hx⟩

/-- The client publishes, and published as far as cached, its own configuration. -/
def PublishesOwn (A : AutoEnv) (fed : Chains.State) (cid : String) : Prop :=
  (∀ x, fed.coll.config.get? cid = some x → x.jws.payload.sub = cid) ∧ ∀ j, A.V.W.config cid = .ok (some j) → j.payload.sub = cid

theorem trusted_about {A : AutoEnv} {fed : Chains.State} {cid : String} {tc : Verify.TrustChain} (h : Trusted A fed cid [] tc) (hp : PublishesOwn A fed cid)
    (leaf : Payload) (hl : tc.verified.getLast? = some leaf) : leaf.sub = cid := by
  rcases h with ⟨-, out, h5, h6⟩ | ⟨h5, -⟩
  · exact Chains.C78_honest_partial A.V fed cid out h5 tc h6 leaf hl hp.1 hp.2
  · exact absurd rfl h5

/-- C65, all endpoints: whoever is let in as unknown client, the registration was asked, under the client's id, for the metadata of a trusted chain, and agreed. If the chain was collected,
and the client publishes its own configuration, then the chain is about the client. Missing: chains handed in with the request. -/
theorem C65_asked_partial (A : AutoEnv) (kind : Kind) (st : AppState) (cid : String) (provided : List Doc) (c : String)
    (hnew : st.srv.cdb.get? cid = none) (h : (clientAuthentication A kind st cid provided).1 = .ok (some c)) :
    ∃ tc md, Trusted A st.fed cid provided tc ∧ tc.metadata.get? kind.leafType = some (.obj md) ∧
      (A.register (importClientKeys md st.srv cid) (Dict.set md "client_id" (.str cid))).1 = some c ∧
      (provided = [] → PublishesOwn A st.fed cid → ∀ leaf, tc.verified.getLast? = some leaf → leaf.sub = cid) := by
  obtain ⟨tc, md, srv, h1, h2, h3, -⟩ := let_in hnew h
  refine ⟨tc, md, h1, h2, by rw [h3], ?_⟩
  rintro rfl hp leaf hl
  exact trusted_about h1 hp leaf hl

/-- Making the response keeps the client id. -/
def KeepsId (R : RegEnv) : Prop := ∀ d, (R.comb d).get? "client_id" = d.get? "client_id"

/-- The id in the response is the one the client was registered under. -/
theorem response_id {R : RegEnv} {newId : Bool} {S : Server} {request : Dict Val} {client c : String} {resp : Dict Val} (hk : KeepsId R)
    (h : (setup R S request newId true []).1 = .ok (client, resp)) (hr : resp.get? "client_id" = some (.str c)) : c = client := by
  obtain ⟨_, info', -, h4', h5', -⟩ := C93_made_up_partial R S request newId [] client resp h
  obtain ⟨_, info, -, -, -, h4, h5, -⟩ := setup_done h
  rw [h4] at h4'
  cases h4'
  rw [h5, hk, get?_filterKeys info' (fun q => decide (q ∈ R.responseParams)) "client_id"] at hr
  split at hr
  · rw [h5'] at hr
    cases hr
    rfl
  · cases hr

theorem registeredAs_of_setup {R : RegEnv} {newId : Bool} {S : Server} {cid client : String} {md resp : Dict Val}
    (h : (setup R S (Dict.set md "client_id" (.str cid)) newId true []).1 = .ok (client, resp)) :
    ∃ info, (setup R S (Dict.set md "client_id" (.str cid)) newId true []).2.cdb.get? client = some info ∧ RegisteredAs R newId cid md info := by
  obtain ⟨req, info, h1, h2, h3, -, h4, -⟩ := C94_kept R S _ newId true [] client resp h
  refine ⟨info, h2, req, h1, fun k hk hs _ => ?_, h4⟩
  rcases h3 k hk with h0 | ⟨-, h0⟩
  · exact h0
  · exact absurd h0 hs

theorem RegisteredAs.alias {R : RegEnv} {newId : Bool} {cid : String} {md info : Dict Val} (v : Val) (h : RegisteredAs R newId cid md info) :
    RegisteredAs R newId cid md (info.set "entity_id" v) := by
  obtain ⟨req, h1, h2, h3⟩ := h
  refine ⟨req, h1, fun k hk hs he => ?_, ?_⟩
  · rw [Dict.get?_set_ne _ _ (Ne.symm he)]; exact h2 k hk hs he
  · rw [Dict.get?_set_ne _ _ (by decide)]; exact h3

/-- C65 for the oauth2 endpoints as far as it holds: an unknown client that is let in has been registered with the resolved metadata of a trusted chain; if that was collected, and the
client publishes its own configuration, then the chain is about the client. Missing: chains handed in with the request. -/
theorem C65_registered_partial (R : RegEnv) (newId : Bool) (V : Chains.Env) (supported : Option (List String)) (kind : Kind) (st : AppState) (cid : String)
    (provided : List Doc) (c : String) (hkind : kind ≠ .oidc) (hid : cid ≠ "") (hk : KeepsId R) (hp : R.A.preferred.get? "client_id" = none)
    (hnew : st.srv.cdb.get? cid = none) (h : (clientAuthentication ⟨V, supported, setupRegister R newId⟩ kind st cid provided).1 = .ok (some c)) :
    ∃ tc md info, Trusted ⟨V, supported, setupRegister R newId⟩ st.fed cid provided tc ∧ tc.metadata.get? kind.leafType = some (.obj md) ∧
      (clientAuthentication ⟨V, supported, setupRegister R newId⟩ kind st cid provided).2.srv.cdb.get? cid = some info ∧
      (clientAuthentication ⟨V, supported, setupRegister R newId⟩ kind st cid provided).2.srv.cdb.get? c = some info ∧ RegisteredAs R newId cid md info ∧
      (newId = false → c = cid) ∧
      (provided = [] → PublishesOwn ⟨V, supported, setupRegister R newId⟩ st.fed cid → ∀ leaf, tc.verified.getLast? = some leaf → leaf.sub = cid) := by
  obtain ⟨tc, md, srv, h1, h2, h3, h4⟩ := let_in hnew h
  simp only at h3
  obtain ⟨client, resp, h5, h6, h7⟩ := setupRegister_some h3
  have hc := response_id hk h5 h6
  subst hc
  obtain ⟨info, h8, h9⟩ := registeredAs_of_setup h5
  rw [← h7] at h8
  have hown : newId = false → c = cid := by
    rintro rfl
    obtain ⟨_, _, -, h10, -⟩ := setup_done h5
    exact idFor_own hid hp h10
  have hpub : provided = [] → PublishesOwn ⟨V, supported, setupRegister R newId⟩ st.fed cid → ∀ leaf, tc.verified.getLast? = some leaf → leaf.sub = cid := by
    rintro rfl hp leaf hl
    exact trusted_about h1 hp leaf hl
  unfold alsoKnownAs at h4
  rw [if_neg hkind] at h4
  split at h4
  · rename_i he
    subst he
    simp only [Prod.mk.injEq, true_and] at h4
    exact ⟨tc, md, info, h1, h2, by rw [← h4]; exact h8, by rw [← h4]; exact h8, h9, hown, hpub⟩
  · rename_i he
    rw [h8] at h4
    simp only [Prod.mk.injEq, true_and] at h4
    refine ⟨tc, md, info.set "entity_id" (.str cid), h1, h2, ?_, ?_, h9.alias _, hown, hpub⟩
    · rw [← h4, Dict.get?_set_self]
    · rw [← h4, Dict.get?_set_ne _ _ (Ne.symm he), Dict.get?_set_self]

example : KeepsId Ex.R ∧ Ex.R.A.preferred.get? "client_id" = none := ⟨fun _ => rfl, rfl⟩
example : (clientAuthentication (Ex.auto ["automatic"] true) .pushed Ex.app "https://leaf" []).1 = .ok (some "c0") := by decide +kernel

/-! ## C95 -/

/-- The client is treated as unknown: where automatic registration is not supported it is not let in. -/
def TreatedAsUnknown (kind : Kind) (st : AppState) (cid : String) : Prop :=
  ∀ A provided c, NotSupported A → (clientAuthentication A kind st cid provided).1 ≠ .ok (some c)

/-- C95 in full, for the oauth2 endpoints: an unknown client that was not let in is still unknown afterwards. -/
def C95_full : Prop :=
  ∀ (R : RegEnv) (newId : Bool) (V : Chains.Env) (supported : Option (List String)) (kind : Kind) (st : AppState) (cid : String) (provided : List Doc),
    kind ≠ .oidc → TreatedAsUnknown kind st cid →
    (∀ c, (clientAuthentication ⟨V, supported, setupRegister R newId⟩ kind st cid provided).1 ≠ .ok (some c)) →
    TreatedAsUnknown kind (clientAuthentication ⟨V, supported, setupRegister R newId⟩ kind st cid provided).2 cid

theorem treatedAsUnknown_of {kind : Kind} {st : AppState} {cid : String} (h : st.srv.cdb.get? cid = none) : TreatedAsUnknown kind st cid := by
  intro A provided c hn hl
  obtain ⟨⟨l, h1, h2⟩, -⟩ := C64_unknown_partial A kind st cid provided c h hl
  exact hn l h1 h2

/-- C95 does not hold: a client with a redirect URI that is refused is turned away the first time and let in the second time. -/
theorem C95_second_time_violation : ¬ C95_full := by
  intro h
  have := h Ex.R false Ex.V (some ["automatic"]) .oauth2 Ex.app "https://bad" [] (by decide) (treatedAsUnknown_of (by decide)) (by
    have h1 : (clientAuthentication ⟨Ex.V, some ["automatic"], setupRegister Ex.R false⟩ .oauth2 Ex.app "https://bad" []).1 = .ok none := by decide +kernel
    intro c h2
    rw [h1] at h2
    cases h2) (Ex.auto ["explicit"]) [] "https://bad" (by intro l hl; cases hl; decide)
  exact this (by decide +kernel)

/-- All that an unknown client's request that ends in an exception or a refusal may change: what the registration changes. -/
theorem not_let_in {A : AutoEnv} {kind : Kind} {st : AppState} {cid : String} {provided : List Doc}
    (hnew : st.srv.cdb.get? cid = none) (h : ∀ c, (clientAuthentication A kind st cid provided).1 ≠ .ok (some c)) :
    (clientAuthentication A kind st cid provided).2.srv.cdb = st.srv.cdb ∨
    ∃ tc md, Trusted A st.fed cid provided tc ∧ (clientAuthentication A kind st cid provided).2.srv.cdb =
      (A.register (importClientKeys md st.srv cid) (Dict.set md "client_id" (.str cid))).2.cdb := by
  unfold clientAuthentication at h ⊢
  rw [hnew, if_neg (by simp [Settled])] at h ⊢
  cases hs : automaticSupported kind A.supported with
  | error e => exact .inl rfl
  | ok b =>
    cases b with
    | false => exact .inl rfl
    | true =>
      rw [hs] at h
      simp only at h ⊢
      rw [filter_absent hnew] at h ⊢
      rcases doAutomatic_cases A kind st cid provided with ⟨e, h1, h2⟩ | ⟨tc, md, h1, h2, r, h3, h4⟩
      · generalize doAutomatic A kind st cid provided = r at h1 h2
        obtain ⟨r, st'⟩ := r
        simp only at h1 h2
        subst h1
        left
        simp only [h2]
      · right
        refine ⟨tc, md, h1, ?_⟩
        generalize doAutomatic A kind st cid provided = q at h h3 h4
        obtain ⟨q, st'⟩ := q
        simp only at h3 h4
        subst h3
        rw [h4]
        cases r with
        | none => rfl
        | some rid =>
          simp only at h ⊢
          cases hx : alsoKnownAs kind st'.srv.cdb cid rid with
          | mk x cdb =>
            rw [hx] at h
            cases x with
            | ok u => exact absurd rfl (h rid)
            | error e =>
              simp only
              unfold alsoKnownAs at hx
              split at hx
              · cases hg : Dict.get? st'.srv.cdb rid with
                | none => rw [hg] at hx; simp only [Prod.mk.injEq] at hx; exact hx.2.symm
                | some i => rw [hg] at hx; simp only at hx; split at hx <;> simp at hx
              · split at hx
                · simp at hx
                · cases hg : Dict.get? st'.srv.cdb rid with
                  | none => rw [hg] at hx; simp only [Prod.mk.injEq] at hx; exact hx.2.symm
                  | some i => rw [hg] at hx; simp at hx

theorem setupRegister_server (R : RegEnv) (newId : Bool) (S : Server) (request : Dict Val) :
    (setupRegister R newId S request).2 = (setup R S request newId true []).2 := by
  unfold setupRegister
  cases setup R S request newId true [] with
  | mk r S1 =>
    cases r with
    | error e => rfl
    | ok x =>
      simp only
      split <;> rfl

/-- C95 as far as it holds: a client for which no trusted chain is found, or that is to get a new id (as at the pushed authorization endpoint), is still unknown after it was not let in. Missing:
clients with a trusted chain that keep their own id. -/
theorem C95_still_unknown_partial (R : RegEnv) (newId : Bool) (V : Chains.Env) (supported : Option (List String)) (kind : Kind) (st : AppState) (cid : String)
    (provided : List Doc) (hnew : st.srv.cdb.get? cid = none)
    (h : ∀ c, (clientAuthentication ⟨V, supported, setupRegister R newId⟩ kind st cid provided).1 ≠ .ok (some c))
    (hor : (∀ tc, ¬ Trusted ⟨V, supported, setupRegister R newId⟩ st.fed cid provided tc) ∨ (newId = true ∧ ∀ taken, R.genId taken ≠ cid)) :
    TreatedAsUnknown kind (clientAuthentication ⟨V, supported, setupRegister R newId⟩ kind st cid provided).2 cid := by
  refine treatedAsUnknown_of ?_
  rcases not_let_in hnew h with h1 | ⟨tc, md, h1, h2⟩
  · rw [h1]; exact hnew
  · rcases hor with hor | ⟨rfl, hg⟩
    · exact absurd h1 (hor tc)
    · rw [h2, setupRegister_server]
      rcases C63_skeleton_partial R (importClientKeys md st.srv cid) (Dict.set md "client_id" (.str cid)) true true [] with h3 | ⟨client, h3, h4, -⟩
      · rw [h3, importClientKeys_cdb]; exact hnew
      · rw [h4 cid, importClientKeys_cdb]
        · exact hnew
        · rintro rfl
          simp only [IdFor, if_true] at h3
          exact hg _ h3.symm

/-! ## C96 -/

/-- C96 in full: a request that is not let in leaves every registered client as it was. -/
def C96_full : Prop :=
  ∀ (R : RegEnv) (newId : Bool) (V : Chains.Env) (supported : Option (List String)) (kind : Kind) (st : AppState) (cid : String) (provided : List Doc),
    (∀ c, (clientAuthentication ⟨V, supported, setupRegister R newId⟩ kind st cid provided).1 ≠ .ok (some c)) →
    ∀ c info, st.srv.cdb.get? c = some info → (clientAuthentication ⟨V, supported, setupRegister R newId⟩ kind st cid provided).2.srv.cdb.get? c = some info

/-- C96 does not hold: at the OpenID endpoint, anyone can have an automatically registered client removed by sending a request in its name with rubbish for a trust chain. -/
theorem C96_removed_violation : ¬ C96_full := by
  intro h
  have := h Ex.R false Ex.V (some ["automatic"]) .oidc (Ex.app [("https://leaf", [("automatic_registered", .bool true)])]) "https://leaf" [none] (by
    have h1 : (clientAuthentication ⟨Ex.V, some ["automatic"], setupRegister Ex.R false⟩ .oidc (Ex.app [("https://leaf", [("automatic_registered", .bool true)])])
      "https://leaf" [none]).1 = .error .attributeError := by decide +kernel
    intro c h2
    rw [h1] at h2
    cases h2) "https://leaf" _ rfl
  exact absurd this (by decide +kernel)

/-- C96 for the oauth2 endpoints, whether or not the client is let in: if clients keep their id, or new ids are not taken ones, no registered client changes. Missing: the OpenID endpoint. -/
theorem C96_oauth2_partial (R : RegEnv) (newId : Bool) (V : Chains.Env) (supported : Option (List String)) (kind : Kind) (st : AppState) (cid : String)
    (provided : List Doc) (hkind : kind ≠ .oidc) (hid : cid ≠ "") (hk : KeepsId R) (hp : R.A.preferred.get? "client_id" = none)
    (hgen : newId = true → ∀ taken, R.genId taken ∉ taken) (c : String) (info : Dict Val) (hc : st.srv.cdb.get? c = some info) :
    (clientAuthentication ⟨V, supported, setupRegister R newId⟩ kind st cid provided).2.srv.cdb.get? c = some info := by
  cases hnew : st.srv.cdb.get? cid with
  | some i => rw [C64_known_partial _ kind st cid provided i hnew (fun h => absurd h hkind)]; exact hc
  | none =>
    have hne : c ≠ cid := by rintro rfl; rw [hnew] at hc; cases hc
    have key : ∀ (md : Dict Val), (setup R (importClientKeys md st.srv cid) (Dict.set md "client_id" (.str cid)) newId true []).2.cdb.get? c = some info := by
      intro md
      rcases C63_skeleton_partial R (importClientKeys md st.srv cid) (Dict.set md "client_id" (.str cid)) newId true [] with h3 | ⟨client, h3, h4, -⟩
      · rw [h3, importClientKeys_cdb]; exact hc
      · rw [h4 c, importClientKeys_cdb]
        · exact hc
        · rintro rfl
          cases newId with
          | false => exact hne (idFor_own hid hp h3)
          | true =>
            simp only [IdFor, if_true, List.isEmpty_nil, importClientKeys_cdb] at h3
            have := hgen rfl st.srv.cdb.keys
            rw [← h3] at this
            exact this ((Dict.mem_keys_iff _ _).2 (by simp [hc]))
    by_cases hl : ∃ rid, (clientAuthentication ⟨V, supported, setupRegister R newId⟩ kind st cid provided).1 = .ok (some rid)
    · obtain ⟨rid, hl⟩ := hl
      obtain ⟨tc, md, srv, -, -, h3, h4⟩ := let_in hnew hl
      simp only at h3
      obtain ⟨client, resp, h5, h6, h7⟩ := setupRegister_some h3
      have hrc := response_id hk h5 h6
      subst hrc
      have hcr : c ≠ rid := by
        rintro rfl
        obtain ⟨_, _, -, h10, -⟩ := setup_done h5
        cases newId with
        | false => exact hne (idFor_own hid hp h10)
        | true =>
          simp only [IdFor, if_true, List.isEmpty_nil, importClientKeys_cdb] at h10
          have := hgen rfl st.srv.cdb.keys
          rw [← h10] at this
          exact this ((Dict.mem_keys_iff _ _).2 (by simp [hc]))
      unfold alsoKnownAs at h4
      rw [if_neg hkind] at h4
      split at h4
      · simp only [Prod.mk.injEq, true_and] at h4
        rw [← h4, h7]; exact key md
      · cases hg : Dict.get? srv.cdb rid with
        | none => rw [hg] at h4; simp at h4
        | some i =>
          rw [hg] at h4
          simp only [Prod.mk.injEq, true_and] at h4
          rw [← h4, Dict.get?_set_ne _ _ (Ne.symm hne), Dict.get?_set_ne _ _ (Ne.symm hcr), h7]
          exact key md
    · rcases not_let_in hnew (fun rid h => hl ⟨rid, h⟩) with h1 | ⟨tc, md, -, h1⟩
      · rw [h1]; exact hc
      · rw [h1, setupRegister_server]; exact key md

end Fed.Registration
