import Verif.Client.Finalize
import Verif.Client.SessionProps
/-
C165: finishing an authentication gives the caller the tokens. C166: a response does not change what was asked for.
-/
namespace Fed.Client.Session
open Fed

/-! ## C165 -/

/-- C165, full: if the response is accepted, the tokens are obtained, and user information, where it is asked for, is given, then the caller gets these. -/
def C165_full : Prop := ∀ (F : Finish) (split : String → List String) (collect : Bool) (cur cur1 : Current) (parsed : Except PyErr (Dict Val)) (resp stored ui : Dict Val) (s : String)
    (types : List String) (a i : Option Val), finalizeAuth F.info F.issuer cur parsed = (.ok resp, cur1) → resp.get? "error" = none → resp.get? "state" = some (.str s) →
  cur1.sets.get? s = some stored → responseTypes split stored = .ok types → getTokens types resp collect (askTokens F s stored) = .ok (a, i) → findUserinfo F s a i = .ok ui →
  ∃ ss cur2, finalize F split collect cur parsed = (.ok (.done ui s a i ss F.issuer), cur2)

namespace Ex
/-- A client of a provider that issues an access token for the code "c", without ID Token. -/
def fin (userinfo : Bool) : Finish where
  info := [("issuer", .str "https://op")]
  issuer := "https://op"
  clientId := "https://rp"
  secret := none
  hasUserinfo := userinfo
  schema := ["sub", "name"]
  idTokenClaims := ["iss", "sub", "exp"]
  tokens _ req := if req.get? "code" = some (.str "c") then .ok [("access_token", .str "at")] else .error .serviceError
  userinfo _ a := if a = .str "at" then .ok [("sub", .str "diana")] else .error .serviceError
/-- One session, begun with response type code. -/
def cur1 : Current := { sets := [("s", [("iss", .str "https://op"), ("response_type", .str "code"), ("redirect_uri", .str "https://rp/cb")])] }
def code : Dict Val := [("state", .str "s"), ("code", .str "c")]
end Ex

/-- C165 does not hold: a client without the userinfo service that gets no ID Token, as OAuth2 clients are, gets a KeyError instead of its access token. -/
theorem C165_oauth2_violation : ¬ C165_full := by
  intro h
  obtain ⟨ss, cur2, h1⟩ := h (Ex.fin false) (fun s => [s]) false Ex.cur1 _ (.ok Ex.code) Ex.code
    [("iss", .str "https://op"), ("response_type", .str "code"), ("redirect_uri", .str "https://rp/cb"), ("code", .str "c"), ("state", .str "s")] [] "s" ["code"] (some (.str "at")) none
    rfl (by decide) (by decide) (by decide) rfl (by decide +kernel) (by decide +kernel)
  have h2 : (finalize (Ex.fin false) (fun s => [s]) false Ex.cur1 (.ok Ex.code)).1 = .error .keyError := by decide +kernel
  rw [h1] at h2
  cases h2

/-- Whom the tokens are about: the ID Token, if there is one, else the user information. -/
def about (i : Option Val) (ui : Dict Val) : Option Val :=
  match i with
  | some (.obj t) => if (Val.obj t).truthy then Dict.get? t "sub" else ui.get? "sub"
  | some v => if v.truthy then none else ui.get? "sub"
  | none => ui.get? "sub"

theorem bindSub_ok {i : Option Val} {ui : Dict Val} {s k : String} {cur : Current} (h : about i ui = some (.str k)) :
    bindSub i ui s cur = (.ok (), { cur with bound := cur.bound.set k s }) := by
  unfold about at h
  unfold bindSub
  split at h
  · rename_i t
    by_cases ht : (Val.obj t).truthy = true
    · rw [if_pos ht] at h
      simp only [Option.getD_some, ht, if_true, h, bindKey]
    · rw [if_neg ht] at h
      simp only [Option.getD_some, if_neg ht, h, bindKey]
  · rename_i v hv
    by_cases ht : v.truthy = true
    · rw [if_pos ht] at h; cases h
    · rw [if_neg ht] at h
      simp only [Option.getD_some, if_neg ht, h, bindKey]
  · simp only [Option.getD_none, h, bindKey, if_neg (show ¬ Val.null.truthy = true by decide)]

/-- C165 as far as it holds: if the ID Token or, without one, the user information has a subject, and a session id, if there is one, is a string. The subject leads to the session afterwards, and
nothing but the keys that lead to sessions is changed besides what accepting the response changes. Missing: tokens that are about nobody. -/
theorem C165_partial (F : Finish) (split : String → List String) (collect : Bool) (cur cur1 : Current) (parsed : Except PyErr (Dict Val)) (resp stored ui : Dict Val) (s : String)
    (types : List String) (a i : Option Val) (h1 : finalizeAuth F.info F.issuer cur parsed = (.ok resp, cur1)) (h2 : resp.get? "error" = none) (h3 : resp.get? "state" = some (.str s))
    (h4 : cur1.sets.get? s = some stored) (h5 : responseTypes split stored = .ok types) (h6 : getTokens types resp collect (askTokens F s stored) = .ok (a, i))
    (h7 : findUserinfo F s a i = .ok ui) (sub : String) (h8 : about i ui = some (.str sub)) (h9 : ∀ t v, i = some (.obj t) → Dict.get? t "sid" = some v → ∃ k, v = .str k) :
    ∃ ss cur2, finalize F split collect cur parsed = (.ok (.done ui s a i ss F.issuer), cur2) ∧ cur2.bound.get? sub = some s ∧ cur2.sets = cur1.sets := by
  have hsid : ∃ b, bindSid F i s cur1 = (.ok (), { cur1 with bound := b }) := by
    unfold bindSid
    split
    · rename_i t
      by_cases hs : (sidSupport F.info && (Val.obj t).truthy) = true
      · rw [if_pos hs]
        cases hk : Dict.get? t "sid" with
        | none => exact ⟨_, rfl⟩
        | some v =>
          obtain ⟨k, rfl⟩ := h9 t v rfl hk
          exact ⟨_, rfl⟩
      · rw [if_neg hs]; exact ⟨_, rfl⟩
    · exact ⟨_, rfl⟩
  obtain ⟨b, hsid⟩ := hsid
  unfold finalize
  simp only [h1, h2, h3, h4, Option.getD_some, h5, h6, h7, hsid, bindSub_ok h8]
  exact ⟨_, _, rfl, Dict.get?_set_self _ _ _, rfl⟩

/-- What it takes to get an outcome that is no error. -/
theorem finalize_done {F : Finish} {split : String → List String} {collect : Bool} {cur cur2 : Current} {parsed : Except PyErr (Dict Val)} {ui : Dict Val} {s iss : String} {a i : Option Val} {ss : Val}
    (h : finalize F split collect cur parsed = (.ok (.done ui s a i ss iss), cur2)) :
    ∃ resp cur1 types, finalizeAuth F.info F.issuer cur parsed = (.ok resp, cur1) ∧ resp.get? "error" = none ∧ resp.get? "state" = some (.str s) ∧
      responseTypes split ((cur1.sets.get? s).getD []) = .ok types ∧ getTokens types resp collect (askTokens F s ((cur1.sets.get? s).getD [])) = .ok (a, i) ∧
      findUserinfo F s a i = .ok ui ∧ iss = F.issuer ∧ ss = (resp.get? "session_state").getD (.str "") ∧
      ∃ c3 u, bindSid F i s cur1 = (.ok u, c3) ∧ bindSub i ui s c3 = (.ok (), cur2) := by
  unfold finalize at h
  rcases h1 : finalizeAuth F.info F.issuer cur parsed with ⟨r, cur1⟩
  rw [h1] at h
  cases r with
  | error e => simp at h
  | ok resp =>
    simp only at h
    cases h2 : resp.get? "error" with
    | some err =>
      rw [h2] at h
      simp only at h
      cases h3 : resp.get? "state" with
      | none => rw [h3] at h; simp at h
      | some v => rw [h3] at h; simp at h
    | none =>
      rw [h2] at h
      simp only at h
      match h3 : resp.get? "state" with
      | none => rw [h3] at h; simp at h
      | some .null => rw [h3] at h; simp at h
      | some (.bool _) => rw [h3] at h; simp at h
      | some (.int _) => rw [h3] at h; simp at h
      | some (.arr _) => rw [h3] at h; simp at h
      | some (.obj _) => rw [h3] at h; simp at h
      | some (.str s') =>
        rw [h3] at h
        simp only at h
        cases h4 : responseTypes split ((cur1.sets.get? s').getD []) with
        | error e => rw [h4] at h; simp at h
        | ok types =>
          rw [h4] at h
          simp only at h
          cases h5 : getTokens types resp collect (askTokens F s' ((cur1.sets.get? s').getD [])) with
          | error e => rw [h5] at h; simp at h
          | ok ai =>
            obtain ⟨a', i'⟩ := ai
            rw [h5] at h
            simp only at h
            cases h6 : findUserinfo F s' a' i' with
            | error e => rw [h6] at h; simp at h
            | ok ui' =>
              rw [h6] at h
              simp only at h
              rcases h7 : bindSid F i' s' cur1 with ⟨r3, c3⟩
              rw [h7] at h
              cases r3 with
              | error e => simp at h
              | ok u =>
                simp only at h
                rcases h8 : bindSub i' ui' s' c3 with ⟨r4, c4⟩
                rw [h8] at h
                cases r4 with
                | error e => simp at h
                | ok u4 =>
                  simp only [Prod.mk.injEq, Except.ok.injEq, Outcome.done.injEq] at h
                  obtain ⟨⟨rfl, rfl, rfl, rfl, rfl, rfl⟩, rfl⟩ := h
                  exact ⟨resp, cur1, types, rfl, h2, h3, h4, h5, h6, rfl, rfl, c3, u, h7, h8⟩

/-- The other way round: whatever the caller gets belongs to a session that was begun at the provider expected, and the subject leads to it. User information that is not of the ID Token was given
by the provider for the access token the caller gets. -/
theorem C165_belongs (F : Finish) (split : String → List String) (collect : Bool) (cur cur2 : Current) (parsed : Except PyErr (Dict Val)) (ui : Dict Val) (s iss : String) (a i : Option Val) (ss : Val)
    (h : finalize F split collect cur parsed = (.ok (.done ui s a i ss iss), cur2)) :
    (∃ resp d, parsed = .ok resp ∧ resp.get? "state" = some (.str s) ∧ cur.sets.get? s = some d ∧ (d.get? "iss").getD .null = expectedIssuer F.info F.issuer) ∧
    (∃ sub, about i ui = some (.str sub) ∧ cur2.bound.get? sub = some s) ∧
    (F.hasUserinfo = true → (a.getD .null).truthy = true → F.userinfo s (a.getD .null) = .ok ui) := by
  obtain ⟨resp, cur1, types, h1, h2, h3, -, -, h6, -, -, c3, u, -, h8⟩ := finalize_done h
  refine ⟨?_, ?_, ?_⟩
  · obtain ⟨hp, ⟨hr, -⟩ | ⟨s', d, h9, h10, h11, -⟩⟩ := finalize_ok h1
    · rw [h2] at hr; cases hr
    · rw [h3] at h9
      cases h9
      exact ⟨resp, d, hp, h3, h10, h11⟩
  · unfold bindSub at h8
    simp only at h8
    unfold about
    cases i with
    | none =>
      simp only [Option.getD_none, if_neg (show ¬ Val.null.truthy = true by decide)] at h8 ⊢
      cases hs : ui.get? "sub" with
      | none => rw [hs] at h8; simp at h8
      | some v =>
        rw [hs] at h8
        cases v with
        | str k =>
          simp only [bindKey, Prod.mk.injEq, true_and] at h8
          subst h8
          exact ⟨k, rfl, Dict.get?_set_self _ _ _⟩
        | _ => simp [bindKey] at h8
    | some v =>
      by_cases ht : v.truthy = true
      · cases v with
        | obj t =>
          simp only [Option.getD_some, if_pos ht] at h8 ⊢
          cases hs : Dict.get? t "sub" with
          | none => rw [hs] at h8; simp at h8
          | some w =>
            rw [hs] at h8
            cases w with
            | str k =>
              simp only [bindKey, Prod.mk.injEq, true_and] at h8
              subst h8
              exact ⟨k, rfl, Dict.get?_set_self _ _ _⟩
            | _ => simp [bindKey] at h8
        | _ => simp [ht] at h8
      · simp only [Option.getD_some, if_neg ht] at h8
        have hu : (match (some v : Option Val) with
            | some (.obj t) => if (Val.obj t).truthy then Dict.get? t "sub" else ui.get? "sub"
            | some v => if v.truthy then none else ui.get? "sub"
            | none => ui.get? "sub") = ui.get? "sub" := by
          cases v <;> simp only [if_neg ht]
        rw [hu]
        cases hs : ui.get? "sub" with
        | none => rw [hs] at h8; simp at h8
        | some w =>
          rw [hs] at h8
          cases w with
          | str k =>
            simp only [bindKey, Prod.mk.injEq, true_and] at h8
            subst h8
            exact ⟨k, rfl, Dict.get?_set_self _ _ _⟩
          | _ => simp [bindKey] at h8
  · intro hu ha
    unfold findUserinfo at h6
    rw [if_pos (by simp [hu, ha])] at h6
    exact h6

theorem get?_filterKey (d : Dict Val) (f : String → Bool) (k : String) : Dict.get? (d.filter fun p => f p.1) k = if f k = true then d.get? k else none := by
  induction d with
  | nil => cases f k <;> rfl
  | cons p d ih =>
    obtain ⟨q, v⟩ := p
    by_cases hq : f q = true
    · rw [List.filter_cons_of_pos (by exact hq), Dict.get?_cons, Dict.get?_cons, ih]
      by_cases hk : q = k
      · subst hk; simp [hq]
      · simp [hk]
    · rw [List.filter_cons_of_neg (by exact hq), ih, Dict.get?_cons]
      by_cases hk : q = k
      · subst hk; simp [hq]
      · simp [hk]

/-- A client that asks no userinfo endpoint gets as user information what the ID Token says about the user: what the schema has and what does not belong to ID Tokens, with the values of the ID Token,
and nothing else. -/
theorem C165_userinfo (F : Finish) (split : String → List String) (collect : Bool) (cur cur2 : Current) (parsed : Except PyErr (Dict Val)) (ui t : Dict Val) (s iss : String) (a : Option Val) (ss : Val)
    (ht : t ≠ []) (hu : F.hasUserinfo = false ∨ (a.getD .null).truthy = false) (h : finalize F split collect cur parsed = (.ok (.done ui s a (some (.obj t)) ss iss), cur2)) (k : String) :
    ui.get? k = if k ∈ F.schema ∨ k ∉ F.idTokenClaims then t.get? k else none := by
  obtain ⟨resp, cur1, types, -, -, -, -, -, h6, -⟩ := finalize_done h
  unfold findUserinfo at h6
  have h0 : (F.hasUserinfo && (a.getD .null).truthy) = false := by rcases hu with h | h <;> simp [h]
  have h1 : (Val.obj t).truthy = true := by cases t with | nil => exact absurd rfl ht | cons _ _ => rfl
  simp only [h0, Bool.false_eq_true, if_false, Option.getD_some, h1, if_true, Except.ok.injEq] at h6
  subst h6
  unfold userinfoInIdToken
  have e1 := get?_filterKey t (fun q => decide (q ∈ F.schema)) k
  have e2 := get?_filterKey t (fun q => decide (q ∉ F.idTokenClaims)) k
  simp only [decide_eq_true_eq] at e1 e2
  rw [Dict.get?_update, e1, e2]
  by_cases h2 : k ∈ F.idTokenClaims <;> by_cases h3 : k ∈ F.schema <;> cases Dict.get? t k <;> simp [h2, h3]

/-- A client without it, of a provider that says who the user is in the ID Token. -/
example : (finalize { Ex.fin false with tokens := fun _ _ => .ok [("access_token", .str "at"), ("__verified_id_token", .obj [("iss", .str "https://op"), ("sub", .str "diana"), ("mail", .str "d@x")]), ("id_token", .obj [("iss", .str "https://op"), ("sub", .str "diana"), ("mail", .str "d@x")])] } (fun s => [s]) false Ex.cur1 (.ok Ex.code)).1 =
    .ok (.done [("sub", .str "diana"), ("mail", .str "d@x")] "s" (some (.str "at")) (some (.obj [("iss", .str "https://op"), ("sub", .str "diana"), ("mail", .str "d@x")])) (.str "") "https://op") := by decide +kernel
/-- A client with the userinfo service. -/
example : (finalize (Ex.fin true) (fun s => [s]) false Ex.cur1 (.ok Ex.code)).1 = .ok (.done [("sub", .str "diana")] "s" (some (.str "at")) none (.str "") "https://op") := by decide +kernel

/-! ## C166 -/

/-- C166, full: the tokens are got in the way that was asked for. If a session was begun with a response type without `token`, the access token comes from the token endpoint, for the redirect URI
that was asked for. -/
def C166_full : Prop := ∀ (F : Finish) (split : String → List String) (cur cur2 : Current) (parsed : Except PyErr (Dict Val)) (d ui : Dict Val) (s iss : String) (types : List String) (a i : Option Val)
    (ss : Val), cur.sets.get? s = some d → responseTypes split d = .ok types → "code" ∈ types → "token" ∉ types → (∀ w ∈ types, w ∈ ["code", "id_token", "token"]) →
  finalize F split false cur parsed = (.ok (.done ui s a i ss iss), cur2) →
  ∃ req t, F.tokens s req = .ok t ∧ a = t.get? "access_token" ∧ req.get? "redirect_uri" = d.get? "redirect_uri"

/-- C166 does not hold: a response that names a response type changes the session; the access token in it is used. -/
theorem C166_response_type_violation : ¬ C166_full := by
  intro h
  let F : Finish := { Ex.fin true with tokens := fun _ _ => .error .serviceError, userinfo := fun _ _ => .ok [("sub", .str "mallory")] }
  obtain ⟨req, t, h1, -⟩ := h F (fun s => [s]) Ex.cur1 _ (.ok [("state", .str "s"), ("response_type", .str "token"), ("access_token", .str "stolen")])
    [("iss", .str "https://op"), ("response_type", .str "code"), ("redirect_uri", .str "https://rp/cb")] [("sub", .str "mallory")] "s" "https://op" ["code"] (some (.str "stolen")) none (.str "")
    (by decide) rfl (by decide) (by decide) (by decide) (Prod.ext (by decide +kernel) rfl)
  cases h1

/-- Nor for the redirect URI. -/
theorem C166_redirect_violation : ¬ C166_full := by
  intro h
  let F : Finish := { Ex.fin true with tokens := fun _ req => if req.get? "redirect_uri" = some (.str "https://evil/cb") then .ok [("access_token", .str "at")] else .error .serviceError }
  obtain ⟨req, t, h1, -, h2⟩ := h F (fun s => [s]) Ex.cur1 _ (.ok [("state", .str "s"), ("code", .str "c"), ("redirect_uri", .str "https://evil/cb")])
    [("iss", .str "https://op"), ("response_type", .str "code"), ("redirect_uri", .str "https://rp/cb")] [("sub", .str "diana")] "s" "https://op" ["code"] (some (.str "at")) none (.str "")
    (by decide) rfl (by decide) (by decide) (by decide) (Prod.ext (by decide +kernel) rfl)
  have h3 : req.get? "redirect_uri" = some (.str "https://rp/cb") := h2
  have h4 : F.tokens "s" req = .error .serviceError := by
    show (if req.get? "redirect_uri" = some (.str "https://evil/cb") then _ else _) = _
    rw [h3, if_neg (by decide)]
  rw [h4] at h1
  cases h1

/-- C166 as far as it holds: if the response names neither response type nor redirect URI. The request for the tokens has the code of the response. Missing: responses that do. -/
theorem C166_partial (F : Finish) (split : String → List String) (cur cur2 : Current) (resp d ui : Dict Val) (s iss : String) (types : List String) (a i : Option Val) (ss : Val)
    (hd : cur.sets.get? s = some d) (ht : responseTypes split d = .ok types) (hc : "code" ∈ types) (hn : "token" ∉ types) (hw : ∀ w ∈ types, w ∈ ["code", "id_token", "token"])
    (hr : resp.get? "response_type" = none) (hu : resp.get? "redirect_uri" = none) (h : finalize F split false cur (.ok resp) = (.ok (.done ui s a i ss iss), cur2)) :
    ∃ req t, F.tokens s req = .ok t ∧ a = t.get? "access_token" ∧ i = t.get? "__verified_id_token" ∧ req.get? "redirect_uri" = d.get? "redirect_uri" ∧
      req.get? "code" = (resp.get? "code").or (d.get? "code") ∧ req.get? "code" ≠ none := by
  obtain ⟨resp', cur1, types', h1, h2, h3, h4, h5, -⟩ := finalize_done h
  obtain ⟨hp, ⟨he, -⟩ | ⟨s', d', h9, h10, -, h12⟩⟩ := finalize_ok h1
  · rw [h2] at he; cases he
  · cases hp
    rw [h3] at h9
    cases h9
    rw [hd] at h10
    cases h10
    have hst : (cur1.sets.get? s).getD [] = d.update resp := by
      rw [h12]
      simp only [Dict.get?_set_self, Option.getD_some]
    rw [hst] at h4 h5
    have ht' : types' = types := by
      have : responseTypes split (d.update resp) = responseTypes split d := by
        unfold responseTypes
        rw [Dict.get?_update, hr]; rfl
      rw [this, ht] at h4
      cases h4; rfl
    subst ht'
    obtain ⟨t, h6, h7, h8, h9⟩ := C128_collected types' resp false _ a i h5 hw (.inl ⟨hc, hn⟩)
    unfold askTokens at h6
    cases hq : tokenRequest F s (d.update resp) with
    | error e => rw [hq] at h6; cases h6
    | ok req =>
      rw [hq] at h6
      refine ⟨req, t, h6, h7, h9, ?_⟩
      unfold tokenRequest at hq
      cases hco : (d.update resp).get? "code" with
      | none => rw [hco] at hq; cases hq
      | some c =>
        rw [hco] at hq
        simp only at hq
        cases hre : (d.update resp).get? "redirect_uri" with
        | none => rw [hre] at hq; cases hq
        | some u =>
          rw [hre] at hq
          simp only [Except.ok.injEq] at hq
          subst hq
          rw [Dict.get?_update] at hco hre
          rw [hu] at hre
          refine ⟨?_, ?_, nofun⟩
          · have hd' : d.get? "redirect_uri" = some u := by
              cases hx : d.get? "redirect_uri" with
              | none => rw [hx] at hre; cases hre
              | some w => rw [hx] at hre; cases hre; rfl
            rw [hd']; rfl
          · rw [hco]; rfl

theorem bindKey_sets (k : Val) (s : String) (cur : Current) : (bindKey k s cur).2.sets = cur.sets := by
  unfold bindKey; split <;> rfl

theorem bindSid_sets (F : Finish) (i : Option Val) (s : String) (cur : Current) : (bindSid F i s cur).2.sets = cur.sets := by
  unfold bindSid
  split
  · split
    · split
      · rfl
      · exact bindKey_sets _ _ _
    · rfl
  · rfl

theorem bindSub_sets (i : Option Val) (ui : Dict Val) (s : String) (cur : Current) : (bindSub i ui s cur).2.sets = cur.sets := by
  unfold bindSub
  simp only
  generalize Dict.get? _ "sub" = o
  cases o with
  | none => rfl
  | some k => exact bindKey_sets _ _ _

/-- What is kept of sessions is changed by accepting the response only. -/
theorem finalize_sets (F : Finish) (split : String → List String) (collect : Bool) (cur : Current) (parsed : Except PyErr (Dict Val)) :
    (finalize F split collect cur parsed).2.sets = (finalizeAuth F.info F.issuer cur parsed).2.sets := by
  unfold finalize
  generalize finalizeAuth F.info F.issuer cur parsed = r
  obtain ⟨r, c⟩ := r
  cases r with
  | error e => rfl
  | ok resp =>
    simp only
    split
    · split <;> rfl
    · split
      · split
        · rfl
        · split
          · rfl
          · split
            · rfl
            · rename_i s _ _ _ _ _ a i _ _ ui _
              have h1 := bindSid_sets F i s c
              split
              · rename_i h2; rw [h2] at h1; exact h1
              · rename_i c2 h2
                rw [h2] at h1
                have h3 := bindSub_sets i ui s c2
                split
                · rename_i h4; rw [h4] at h3; exact h3.trans h1
                · rename_i h4; rw [h4] at h3; exact h3.trans h1
      · rfl

/-- Other sessions are not touched: what is kept of them, from which response type and redirect URI are read, stays as it is. -/
theorem C166_others (F : Finish) (split : String → List String) (collect : Bool) (cur : Current) (parsed : Except PyErr (Dict Val)) (s : String)
    (hs : ∀ resp, parsed = .ok resp → resp.get? "state" ≠ some (.str s)) : (finalize F split collect cur parsed).2.sets.get? s = cur.sets.get? s := by
  rw [finalize_sets]
  rcases h : finalizeAuth F.info F.issuer cur parsed with ⟨r, c⟩
  cases r with
  | error e => rw [finalize_error h]
  | ok resp =>
    obtain ⟨hp, ⟨-, rfl⟩ | ⟨s', d, h1, -, -, rfl⟩⟩ := finalize_ok h
    · rfl
    · have hne : s' ≠ s := by
        intro he; subst he
        exact hs resp hp h1
      exact Dict.get?_set_ne _ _ hne

/-- A session and another one. -/
example : (finalize (Ex.fin true) (fun s => [s]) false { Ex.cur1 with sets := Ex.cur1.sets ++ [("t", [("iss", .str "https://op")])] } (.ok Ex.code)).2.sets.get? "t" = some [("iss", .str "https://op")] := by
  decide +kernel

end Fed.Client.Session
