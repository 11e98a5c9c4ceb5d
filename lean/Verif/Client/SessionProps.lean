import Verif.Client.Session
/-
Properties C123-C128: the authentication of a user at a provider.
-/
namespace Fed.Client.Session
open Fed

/-! ## C123 -/

/-- C123 in full: the response type of a request is the one asked for or one the client is registered with. -/
def C123_full : Prop :=
  ∀ (registered : List String) (req : Option (Dict Val)) (r : Option Val), getResponseType registered req = .ok r →
    ∃ v, r = some v ∧ ((∃ d, req = some d ∧ d.get? "response_type" = some v) ∨ ∃ t ∈ registered, v = .str t)

/-- C123 does not hold: with any other arguments but no response type, there is none. -/
theorem C123_none_violation : ¬ C123_full := by
  intro h
  obtain ⟨v, hv, -⟩ := h ["code"] (some [("prompt", .str "login")]) none (by decide)
  cases hv

/-- C123 if a response type is among the arguments, or there are none. `code` is preferred. -/
theorem C123_given_partial (registered : List String) (req : Option (Dict Val)) (r : Option Val) (h : getResponseType registered req = .ok r)
    (hreq : req.getD [] = [] ∨ ∃ d v, req = some d ∧ d.get? "response_type" = some v ∧ v.truthy = true) :
    ∃ v, r = some v ∧ ((∃ d, req = some d ∧ d.get? "response_type" = some v) ∨ ∃ t ∈ registered, v = .str t ∧ ("code" ∈ registered → t = "code")) := by
  unfold getResponseType at h
  have hnone : (if "code" ∈ registered then Except.ok (some (Val.str "code")) else match registered with | [] => .error PyErr.indexError | t :: _ => .ok (some (.str t))) = .ok r →
      ∃ v, r = some v ∧ ((∃ d, req = some d ∧ d.get? "response_type" = some v) ∨ ∃ t ∈ registered, v = .str t ∧ ("code" ∈ registered → t = "code")) := by
    intro h
    split at h
    · rename_i hc
      simp only [Except.ok.injEq] at h
      exact ⟨_, h.symm, Or.inr ⟨_, hc, rfl, fun _ => rfl⟩⟩
    · rename_i hc
      split at h
      · cases h
      · rename_i t ts _
        simp only [Except.ok.injEq] at h
        exact ⟨_, h.symm, Or.inr ⟨t, by simp, rfl, fun h' => absurd h' hc⟩⟩
  split at h
  · exact hnone h
  · exact hnone h
  · rename_i d hne
    rcases hreq with hreq | ⟨d', v, hd, h1, h2⟩
    · exact absurd (by simpa using hreq) hne
    · cases hd
      rw [h1] at h
      simp only [h2, if_true, Except.ok.injEq] at h
      exact ⟨v, h.symm, Or.inl ⟨d, rfl, h1⟩⟩

example : getResponseType ["id_token", "code"] none = .ok (some (.str "code")) ∧ getResponseType ["id_token"] (some []) = .ok (some (.str "id_token")) ∧
    getResponseType [] (some [("response_type", .str "token")]) = .ok (some (.str "token")) := by decide

/-! ## C124 -/

/-- C124: if the client supports certain response modes only, the response comes in one of them: the mode asked for, or, if none is asked for, the default for the type or the first supported. -/
theorem C124_supported (defaults : List String → Option String) (supported : List String) (type : Option (List String)) (requested r : Option String) (hs : supported ≠ [])
    (h : getResponseMode defaults supported type requested = .ok r) :
    ∃ m ∈ supported, (∀ q, requested = some q → q = m) ∧
      (r = some m ∨ r = none ∧ ∃ ws, type = some ws ∧ (defaults ws = some m ∨ defaults (sortWords ws) = some m)) := by
  unfold getResponseMode at h
  cases requested with
  | some q =>
    simp only at h
    split at h
    · cases h
    · rename_i hin
      have hq : q ∈ supported := Classical.byContradiction fun hn => hin ⟨hs, hn⟩
      cases type with
      | none => cases h
      | some ws =>
        simp only [Option.bind_some] at h
        split at h
        · cases h
        · rename_i d hd
          simp only [Except.ok.injEq] at h
          refine ⟨q, hq, fun _ h' => by cases h'; rfl, ?_⟩
          by_cases hdq : d = q
          · rw [if_pos hdq] at h
            exact Or.inr ⟨h.symm, ws, rfl, Or.inl (by rw [hd, hdq])⟩
          · rw [if_neg hdq] at h
            exact Or.inl h.symm
  | none =>
    simp only at h
    split at h
    · exact absurd rfl hs
    · rename_i s rest
      split at h
      · cases h
      · rename_i ws
        split at h
        · cases h
        · rename_i d hd
          simp only [Except.ok.injEq] at h
          by_cases hd' : d ∈ s :: rest
          · rw [if_pos hd'] at h
            exact ⟨d, hd', fun _ h' => (nomatch h'), Or.inr ⟨h.symm, ws, rfl, Or.inr hd⟩⟩
          · rw [if_neg hd'] at h
            exact ⟨s, by simp, fun _ h' => (nomatch h'), Or.inl h.symm⟩

/-- A mode that is not supported is refused. -/
theorem C124_refused (defaults : List String → Option String) (supported : List String) (type : Option (List String)) (q : String) (hs : supported ≠ []) (hq : q ∉ supported) :
    getResponseMode defaults supported type (some q) = .error .valueError := by
  unfold getResponseMode
  simp only
  rw [if_pos ⟨hs, hq⟩]

namespace Ex
/-- Some of the defaults. -/
def defaults : List String → Option String
  | ["code"] => some "query"
  | ["id_token", "token"] => some "fragment"
  | _ => none
end Ex

example : getResponseMode Ex.defaults ["form_post", "query"] (some ["code"]) none = .ok none ∧ getResponseMode Ex.defaults ["form_post"] (some ["code"]) none = .ok (some "form_post") ∧
    getResponseMode Ex.defaults ["form_post", "query"] (some ["code"]) (some "form_post") = .ok (some "form_post") := by decide

/-- C125 in full: the order of the words in a response type does not matter. -/
def C125_full : Prop :=
  ∀ (defaults : List String → Option String) (supported ws ws' : List String) (requested : Option String), (∀ l l', defaults l = some l' → sortWords l = l) → ws.Perm ws' →
    getResponseMode defaults supported (some ws) requested = getResponseMode defaults supported (some ws') requested

theorem insertWord_comm (a b : String) (l : List String) : insertWord a (insertWord b l) = insertWord b (insertWord a l) := by
  have anti : ∀ {x y : String}, x ≤ y → y ≤ x → x = y := fun h1 h2 => String.le_antisymm h1 h2
  have total : ∀ (x y : String), ¬ x ≤ y → y ≤ x := fun x y h => (String.le_total x y).resolve_left h
  have trans : ∀ {x y z : String}, x ≤ y → y ≤ z → x ≤ z := fun h1 h2 => String.le_trans h1 h2
  induction l with
  | nil =>
    simp only [insertWord]
    by_cases h1 : a ≤ b
    · by_cases h2 : b ≤ a
      · have := anti h1 h2; subst this; rfl
      · simp [h1, h2]
    · simp [h1, total _ _ h1]
  | cons x l ih =>
    simp only [insertWord]
    by_cases ha : a ≤ x
    · by_cases hb : b ≤ x
      · simp only [ha, hb, if_true, insertWord]
        by_cases h1 : a ≤ b
        · by_cases h2 : b ≤ a
          · have := anti h1 h2; subst this; rfl
          · simp [h1, h2]
        · simp [h1, total _ _ h1]
      · have hxb := total _ _ hb
        have hab : a ≤ b := trans ha hxb
        have hba : ¬ b ≤ a := fun h => hb (trans h ha)
        simp [ha, hb, insertWord, hba]
    · have hxa := total _ _ ha
      by_cases hb : b ≤ x
      · have hab : ¬ a ≤ b := fun h => ha (trans h hb)
        simp [ha, hb, insertWord, hab]
      · simp [ha, hb, insertWord, ih]

theorem sortWords_perm {ws ws' : List String} (h : ws.Perm ws') : sortWords ws = sortWords ws' := by
  unfold sortWords
  induction h with
  | nil => rfl
  | cons x _ ih => simp [ih]
  | swap x y l => simp [insertWord_comm]
  | trans _ _ ih1 ih2 => rw [ih1, ih2]

/-- C125 does not hold: if a mode is asked for, the words have to be sorted. -/
theorem C125_unsorted_violation : ¬ C125_full := by
  intro h
  have := h Ex.defaults [] ["id_token", "token"] ["token", "id_token"] (some "query") (by
    intro l l' hl
    unfold Ex.defaults at hl
    split at hl
    · decide
    · decide
    · cases hl) (List.Perm.swap ..)
  exact absurd this (by decide)

/-- C125 if no mode is asked for. -/
theorem C125_default_partial (defaults : List String → Option String) (supported ws ws' : List String) (h : ws.Perm ws') :
    getResponseMode defaults supported (some ws) none = getResponseMode defaults supported (some ws') none := by
  unfold getResponseMode
  simp only [sortWords_perm h]

/-! ## C126 -/

/-- C126 in full: the arguments given go before those configured, and these before the defaults; the state is the new one; and the nonce sent is the one by which the answer will be recognised. -/
def C126_full : Prop :=
  ∀ (C : Conf) (redirect : Except PyErr Val) (type : Option Val) (mode : Option String) (nonce state : String) (cur cur' : Current) (req : Option (Dict Val)) (args : Dict Val),
    initAuthorization C redirect type mode nonce state cur req = (.ok args, cur') →
    args.get? "state" = some (.str state) ∧ (C.oidc = true → ∃ n, args.get? "nonce" = some (.str n) ∧ cur'.bound.get? n = some state) ∧
    ∀ k v, k ≠ "state" → ((req.getD []).get? k = some v ∨ ((req.getD []).get? k = none ∧ C.requestArgs.get? k = some v)) → args.get? k = some v

theorem init_ok {C : Conf} {redirect : Except PyErr Val} {type : Option Val} {mode : Option String} {nonce state : String} {cur cur' : Current} {req : Option (Dict Val)} {args : Dict Val}
    (h : initAuthorization C redirect type mode nonce state cur req = (.ok args, cur')) :
    ∃ uri, redirect = .ok uri ∧ args = (requestArgs C uri type mode nonce req).set "state" (.str state) ∧
      cur' = { sets := cur.sets.set state [("iss", .str C.issuer)], bound := if C.oidc then cur.bound.set nonce state else cur.bound } := by
  unfold initAuthorization at h
  split at h
  · cases h
  · cases h
  · rename_i uri
    simp only [Prod.mk.injEq, Except.ok.injEq] at h
    exact ⟨uri, rfl, h.1.symm, h.2.symm⟩

/-- C126 does not hold: a nonce among the arguments is sent, but another one is remembered. -/
theorem C126_nonce_violation : ¬ C126_full := by
  intro h
  obtain ⟨-, h2, -⟩ := h { oidc := true, issuer := "https://op" } (.ok (.str "https://leaf/cb")) (some (.str "code")) none "n1" "s1" {} ⟨[("s1", [("iss", .str "https://op")])], [("n1", "s1")]⟩
    (some [("response_type", .str "code"), ("nonce", .str "mine")])
    [("redirect_uri", .str "https://leaf/cb"), ("response_type", .str "code"), ("nonce", .str "mine"), ("state", .str "s1")] (by decide)
  obtain ⟨n, h3, h4⟩ := h2 rfl
  have : n = "mine" := by simpa [Dict.get?_cons] using h3.symm
  subst this
  exact absurd h4 (by decide)

/-- C126 if no nonce is given or configured. -/
theorem C126_partial (C : Conf) (redirect : Except PyErr Val) (type : Option Val) (mode : Option String) (nonce state : String) (cur cur' : Current) (req : Option (Dict Val)) (args : Dict Val)
    (hn1 : (req.getD []).get? "nonce" = none) (hn2 : C.requestArgs.get? "nonce" = none)
    (h : initAuthorization C redirect type mode nonce state cur req = (.ok args, cur')) :
    args.get? "state" = some (.str state) ∧ (C.oidc = true → args.get? "nonce" = some (.str nonce) ∧ cur'.bound.get? nonce = some state) ∧
    (∃ uri, redirect = .ok uri) ∧ (cur'.sets.get? state = some [("iss", .str C.issuer)] ∧ ∀ s, s ≠ state → cur'.sets.get? s = cur.sets.get? s) ∧
    ∀ k v, k ≠ "state" → ((req.getD []).get? k = some v ∨ ((req.getD []).get? k = none ∧ C.requestArgs.get? k = some v)) → args.get? k = some v := by
  obtain ⟨uri, rfl, rfl, rfl⟩ := init_ok h
  refine ⟨Dict.get?_set_self .., fun ho => ⟨?_, ?_⟩, ⟨uri, rfl⟩, ⟨Dict.get?_set_self .., fun s hs => Dict.get?_set_ne _ _ (Ne.symm hs)⟩, fun k v hk hv => ?_⟩
  · rw [Dict.get?_set_ne _ _ (by decide)]
    unfold requestArgs
    simp only [Dict.get?_update, hn1, hn2, Option.none_or, ho, if_true]
    split
    · split
      · rw [Dict.get?_set_ne _ _ (by decide), Dict.get?_set_self]
      · rw [Dict.get?_set_self]
    · rw [Dict.get?_set_self]
  · simp [ho]
  · rw [Dict.get?_set_ne _ _ (Ne.symm hk)]
    unfold requestArgs
    simp only [Dict.get?_update]
    rcases hv with hv | ⟨hv1, hv2⟩
    · rw [hv]; rfl
    · rw [hv1, hv2]; rfl

example : initAuthorization { oidc := true, issuer := "https://op", requestArgs := [("claims", .str "email")] } (.ok (.str "https://leaf/cb")) (some (.str "code")) none "n1" "s1" {} (some [("prompt", .str "login")]) =
    (.ok [("redirect_uri", .str "https://leaf/cb"), ("response_type", .str "code"), ("nonce", .str "n1"), ("claims", .str "email"), ("prompt", .str "login"), ("state", .str "s1")],
      ⟨[("s1", [("iss", .str "https://op")])], [("n1", "s1")]⟩) := by decide

/-! ## C127 -/

/-- The client and its provider: what is used in both steps. -/
structure Client where
  issuer : String
  info : Dict Val

/-- One step of a client. -/
inductive Step
  | init (C : Conf) (redirect : Except PyErr Val) (type : Option Val) (mode : Option String) (nonce state : String) (req : Option (Dict Val))
  | final (parsed : Except PyErr (Dict Val))

/-- A step; the first step is taken with the issuer of the client's context. -/
def Step.run (c : Client) (cur : Current) : Step → Current
  | .init C redirect type mode nonce state req => (initAuthorization { C with issuer := c.issuer } redirect type mode nonce state cur req).2
  | .final parsed => (finalizeAuth c.info c.issuer cur parsed).2

/-- The state after a history. -/
def after (c : Client) (h : List Step) : Current := h.foldl (Step.run c) {}

/-- An authentication with this state was begun. -/
def Begun (h : List Step) (s : String) : Prop := ∃ C uri type mode nonce req, Step.init C (.ok uri) type mode nonce s req ∈ h

/-- C127 in full: whatever happened before, a response that is accepted belongs to an authentication that was begun at the provider it is to come from, and each is finished only once. -/
def C127_full : Prop :=
  ∀ (c : Client) (h : List Step) (parsed : Except PyErr (Dict Val)) (resp : Dict Val) (cur : Current), finalizeAuth c.info c.issuer (after c h) parsed = (.ok resp, cur) → resp.get? "error" = none →
    (∃ s, resp.get? "state" = some (.str s) ∧ Begun h s) ∧ expectedIssuer c.info c.issuer = .str c.issuer ∧ (finalizeAuth c.info c.issuer cur parsed).1.isOk = false

theorem finalize_ok {info : Dict Val} {issuer : String} {cur cur' : Current} {parsed : Except PyErr (Dict Val)} {resp : Dict Val} (h : finalizeAuth info issuer cur parsed = (.ok resp, cur')) :
    parsed = .ok resp ∧ (((resp.get? "error").isSome = true ∧ cur' = cur) ∨
      ∃ s d, resp.get? "state" = some (.str s) ∧ cur.sets.get? s = some d ∧ (d.get? "iss").getD .null = expectedIssuer info issuer ∧ cur' = { cur with sets := cur.sets.set s (d.update resp) }) := by
  unfold finalizeAuth at h
  split at h
  · cases h
  · rename_i resp'
    split at h
    · rename_i he
      simp only [Prod.mk.injEq, Except.ok.injEq] at h
      obtain ⟨rfl, rfl⟩ := h
      exact ⟨rfl, Or.inl ⟨he, rfl⟩⟩
    · split at h
      · cases h
      · rename_i s hs
        split at h
        · cases h
        · rename_i d hd
          split at h
          · cases h
          · rename_i hi
            simp only [Prod.mk.injEq, Except.ok.injEq] at h
            obtain ⟨rfl, rfl⟩ := h
            exact ⟨rfl, Or.inr ⟨s, d, hs, hd, Classical.byContradiction hi, rfl⟩⟩
      · cases h

theorem finalize_error {info : Dict Val} {issuer : String} {cur cur' : Current} {parsed : Except PyErr (Dict Val)} {e : PyErr} (h : finalizeAuth info issuer cur parsed = (.error e, cur')) : cur' = cur := by
  unfold finalizeAuth at h
  split at h
  · simp only [Prod.mk.injEq] at h; exact h.2.symm
  · split at h
    · cases h
    · split at h
      · simp only [Prod.mk.injEq] at h; exact h.2.symm
      · split at h
        · simp only [Prod.mk.injEq] at h; exact h.2.symm
        · split at h
          · simp only [Prod.mk.injEq] at h; exact h.2.symm
          · cases h
      · simp only [Prod.mk.injEq] at h; exact h.2.symm

theorem after_inv (c : Client) (h : List Step) (s : String) (d : Dict Val) (hd : (after c h).sets.get? s = some d) :
    Begun h s ∧ (d.get? "iss" = some (.str c.issuer) ∨ expectedIssuer c.info c.issuer = .str c.issuer) := by
  have hmono : ∀ (h : List Step) x s, Begun h s → Begun (h ++ [x]) s := by
    rintro h x s ⟨C, uri, type, mode, nonce, req, hm⟩
    exact ⟨C, uri, type, mode, nonce, req, by simp [hm]⟩
  have key : ∀ n (h : List Step), h.length = n → ∀ s d, (after c h).sets.get? s = some d →
      Begun h s ∧ (d.get? "iss" = some (.str c.issuer) ∨ expectedIssuer c.info c.issuer = .str c.issuer) := by
    intro n
    induction n with
    | zero =>
      intro h hl s d hd
      have : h = [] := List.eq_nil_of_length_eq_zero hl
      subst this
      cases hd
    | succ n ih =>
      intro h hl s d hd
      obtain ⟨h0, x, rfl⟩ : ∃ h0 x, h = h0 ++ [x] := by
        have hne : h ≠ [] := by rintro rfl; cases hl
        exact ⟨h.dropLast, h.getLast hne, (List.dropLast_concat_getLast hne).symm⟩
      have hl0 : h0.length = n := by simpa using hl
      unfold after at hd
      rw [List.foldl_append] at hd
      simp only [List.foldl_cons, List.foldl_nil] at hd
      change (Step.run c (after c h0) x).sets.get? s = some d at hd
      cases x with
      | init C redirect type mode nonce state req =>
        simp only [Step.run] at hd
        generalize hi : initAuthorization { C with issuer := c.issuer } redirect type mode nonce state (after c h0) req = r at hd
        obtain ⟨r, cur'⟩ := r
        cases r with
        | error e =>
          have : cur' = after c h0 := by
            unfold initAuthorization at hi
            split at hi
            · simp only [Prod.mk.injEq] at hi; exact hi.2.symm
            · simp only [Prod.mk.injEq] at hi; exact hi.2.symm
            · cases hi
          simp only [this] at hd
          obtain ⟨g1, g2⟩ := ih h0 hl0 s d hd
          exact ⟨hmono _ _ _ g1, g2⟩
        | ok args =>
          obtain ⟨uri, rfl, -, rfl⟩ := init_ok hi
          simp only [Dict.get?_set] at hd
          split at hd
          · rename_i hs
            subst hs
            simp only [Option.some.injEq] at hd
            subst hd
            exact ⟨⟨C, uri, type, mode, nonce, req, by simp⟩, Or.inl (by simp [Dict.get?_cons])⟩
          · obtain ⟨g1, g2⟩ := ih h0 hl0 s d hd
            exact ⟨hmono _ _ _ g1, g2⟩
      | final parsed =>
        simp only [Step.run] at hd
        generalize hf : finalizeAuth c.info c.issuer (after c h0) parsed = r at hd
        obtain ⟨r, cur'⟩ := r
        cases r with
        | error e =>
          rw [finalize_error hf] at hd
          obtain ⟨g1, g2⟩ := ih h0 hl0 s d hd
          exact ⟨hmono _ _ _ g1, g2⟩
        | ok resp =>
          obtain ⟨-, ⟨-, rfl⟩ | ⟨s', d', h1, h2, h3, rfl⟩⟩ := finalize_ok hf
          · obtain ⟨g1, g2⟩ := ih h0 hl0 s d hd
            exact ⟨hmono _ _ _ g1, g2⟩
          · simp only [Dict.get?_set] at hd
            obtain ⟨g1, g2⟩ := ih h0 hl0 s' d' h2
            split at hd
            · rename_i hs
              subst hs
              refine ⟨hmono _ _ _ g1, Or.inr ?_⟩
              rcases g2 with g2 | g2
              · rw [g2] at h3; exact h3.symm
              · exact g2
            · obtain ⟨g1, g2⟩ := ih h0 hl0 s d hd
              exact ⟨hmono _ _ _ g1, g2⟩
  exact key _ h rfl s d hd

namespace Ex
def client : Client := ⟨"https://op", []⟩
def begin : Step := .init { oidc := true, issuer := "" } (.ok (.str "https://leaf/cb")) (some (.str "code")) none "n1" "s1" none
def resp : Dict Val := [("state", .str "s1"), ("code", .str "c1")]
end Ex

/-- C127 does not hold: the same response is accepted again. -/
theorem C127_again_violation : ¬ C127_full := by
  intro h
  obtain ⟨-, -, h1⟩ := h Ex.client [Ex.begin] (.ok Ex.resp) Ex.resp (finalizeAuth Ex.client.info Ex.client.issuer (after Ex.client [Ex.begin]) (.ok Ex.resp)).2 (Prod.ext (by decide) rfl) (by decide)
  exact absurd h1 (by decide)

/-- C127 but for the last part: whatever happened before, a response that is accepted and no error belongs to an authentication that was begun at the provider it is to come from. -/
theorem C127_begun_partial (c : Client) (h : List Step) (parsed : Except PyErr (Dict Val)) (resp : Dict Val) (cur : Current)
    (hf : finalizeAuth c.info c.issuer (after c h) parsed = (.ok resp, cur)) (he : resp.get? "error" = none) :
    (∃ s, resp.get? "state" = some (.str s) ∧ Begun h s) ∧ expectedIssuer c.info c.issuer = .str c.issuer := by
  obtain ⟨-, ⟨h1, -⟩ | ⟨s, d, h1, h2, h3, -⟩⟩ := finalize_ok hf
  · rw [he] at h1; cases h1
  · obtain ⟨g1, g2⟩ := after_inv c h s d h2
    refine ⟨⟨s, h1, g1⟩, ?_⟩
    rcases g2 with g2 | g2
    · rw [g2] at h3; exact h3.symm
    · exact g2

/-- Error responses and refused ones change nothing. -/
theorem C127_unchanged_partial (c : Client) (cur cur' : Current) (parsed : Except PyErr (Dict Val)) (r : Except PyErr (Dict Val)) (h : finalizeAuth c.info c.issuer cur parsed = (r, cur'))
    (hr : ∀ resp, r = .ok resp → (resp.get? "error").isSome = true) : cur' = cur := by
  cases r with
  | error e => exact finalize_error h
  | ok resp =>
    have he := hr resp rfl
    unfold finalizeAuth at h
    split at h
    · cases h
    · rename_i resp'
      split at h
      · simp only [Prod.mk.injEq] at h; exact h.2.symm
      · rename_i hne
        split at h
        · cases h
        · split at h
          · cases h
          · split at h
            · cases h
            · simp only [Prod.mk.injEq, Except.ok.injEq] at h
              rw [h.1] at hne; exact absurd he hne
        · cases h

/-! ## C128 -/

/-- C128 in full: an ID Token that came with the authorization response is not lost. -/
def C128_full : Prop :=
  ∀ (types : List String) (resp : Dict Val) (collect : Bool) (tokens : Except PyErr (Dict Val)) (a i : Option Val) (t : Val), getTokens types resp collect tokens = .ok (a, i) →
    "id_token" ∈ types → resp.get? "__verified_id_token" = some t → i ≠ none

/-- C128 does not hold: not if tokens are collected from the token endpoint as well, and not for `code id_token`, if there is no ID Token there. -/
theorem C128_collect_violation : ¬ C128_full := by
  intro h
  exact h ["id_token", "token"] [("__verified_id_token", .str "i"), ("access_token", .str "a")] true (.ok [("access_token", .str "b")]) (some (.str "b")) none (.str "i") (by decide) (by decide) (by decide) rfl
theorem C128_hybrid_violation : ¬ ∀ (types : List String) (resp : Dict Val) (tokens : Except PyErr (Dict Val)) (a i : Option Val) (t : Val), getTokens types resp false tokens = .ok (a, i) →
    "id_token" ∈ types → resp.get? "__verified_id_token" = some t → i ≠ none := by
  intro h
  exact h ["code", "id_token"] [("__verified_id_token", .str "i")] (.ok [("access_token", .str "b")]) (some (.str "b")) none (.str "i") (by decide) (by decide) (by decide) rfl

/-- C128 for the response types without `code`, and for all three, if nothing is collected: the ID Token is the one of the response, and the access token too. -/
theorem C128_front_partial (types : List String) (resp : Dict Val) (tokens : Except PyErr (Dict Val)) (a i : Option Val) (h : getTokens types resp false tokens = .ok (a, i)) (ht : "id_token" ∈ types)
    (hc : "code" ∉ types ∨ "token" ∈ types) (hw : ∀ w ∈ types, w ∈ ["code", "id_token", "token"]) :
    i = resp.get? "__verified_id_token" ∧ i ≠ none ∧ ("token" ∈ types → a = resp.get? "access_token" ∧ a ≠ none) := by
  have s1 : sameSet types ["id_token"] = true ↔ "code" ∉ types ∧ "token" ∉ types := by
    simp only [sameSet, Bool.and_eq_true, List.all_eq_true, List.contains_eq_mem, decide_eq_true_eq, List.mem_singleton]
    constructor
    · rintro ⟨h1, -⟩
      exact ⟨fun h => absurd (h1 _ h) (by decide), fun h => absurd (h1 _ h) (by decide)⟩
    · rintro ⟨h1, h2⟩
      refine ⟨fun w hw' => ?_, by simpa using ht⟩
      have := hw w hw'
      simp only [List.mem_cons, List.not_mem_nil, or_false] at this
      rcases this with rfl | rfl | rfl
      · exact absurd hw' h1
      · rfl
      · exact absurd hw' h2
  have s2 : sameSet types ["id_token", "token"] = true ↔ "code" ∉ types ∧ "token" ∈ types := by
    simp only [sameSet, Bool.and_eq_true, List.all_eq_true, List.contains_eq_mem, decide_eq_true_eq, List.mem_cons, List.not_mem_nil, or_false]
    constructor
    · rintro ⟨h1, h2⟩
      exact ⟨fun h => absurd (h1 _ h) (by decide), h2 _ (Or.inr rfl)⟩
    · rintro ⟨h1, h2⟩
      refine ⟨fun w hw' => ?_, ?_⟩
      · have := hw w hw'
        simp only [List.mem_cons, List.not_mem_nil, or_false] at this
        rcases this with rfl | rfl | rfl
        · exact absurd hw' h1
        · exact Or.inl rfl
        · exact Or.inr rfl
      · rintro w (rfl | rfl) <;> assumption
  have s3 : sameSet types ["code", "id_token", "token"] = true ↔ "code" ∈ types ∧ "token" ∈ types := by
    simp only [sameSet, Bool.and_eq_true, List.all_eq_true, List.contains_eq_mem, decide_eq_true_eq]
    constructor
    · rintro ⟨-, h2⟩
      exact ⟨h2 _ (by simp), h2 _ (by simp)⟩
    · rintro ⟨h1, h2⟩
      refine ⟨hw, ?_⟩
      intro w hw'
      simp only [List.mem_cons, List.not_mem_nil, or_false] at hw'
      rcases hw' with rfl | rfl | rfl <;> assumption
  have hid : (sameSet types ["id_token"] || sameSet types ["id_token", "token"] || sameSet types ["code", "id_token", "token"]) = true := by
    simp only [Bool.or_eq_true, s1, s2, s3]
    by_cases h1 : "code" ∈ types <;> by_cases h2 : "token" ∈ types
    · exact Or.inr ⟨h1, h2⟩
    · rcases hc with hc | hc
      · exact absurd h1 hc
      · exact absurd hc h2
    · exact Or.inl (Or.inr ⟨h1, h2⟩)
    · exact Or.inl (Or.inl ⟨h1, h2⟩)
  unfold getTokens at h
  rw [if_pos hid] at h
  cases hi : resp.get? "__verified_id_token" with
  | none => rw [hi] at h; simp at h
  | some t =>
    rw [hi] at h
    simp only [ok_bind, Bool.false_eq_true, if_false] at h
    by_cases h2 : "token" ∈ types
    · have htok : (sameSet types ["token"] || sameSet types ["id_token", "token"] || sameSet types ["code", "token"] || sameSet types ["code", "id_token", "token"]) = true := by
        simp only [Bool.or_eq_true, s2, s3]
        by_cases h1 : "code" ∈ types
        · exact Or.inr ⟨h1, h2⟩
        · exact Or.inl (Or.inl (Or.inr ⟨h1, h2⟩))
      rw [if_pos htok] at h
      split at h
      · cases h
      · rename_i a' ha
        simp only [Except.ok.injEq, Prod.mk.injEq] at h
        obtain ⟨rfl, rfl⟩ := h
        exact ⟨rfl, by simp, fun _ => ⟨ha.symm, by simp⟩⟩
    · have h1 : "code" ∉ types := hc.resolve_right h2
      have hno : ∀ l : List String, ("token" ∈ l ∨ "code" ∈ l) → ¬ sameSet types l = true := by
        intro l hl hs
        simp only [sameSet, Bool.and_eq_true, List.all_eq_true, List.contains_eq_mem, decide_eq_true_eq] at hs
        rcases hl with hl | hl
        · exact h2 (hs.2 _ hl)
        · exact h1 (hs.2 _ hl)
      rw [if_neg (by simp [hno ["token"] (by decide), hno ["id_token", "token"] (by decide), hno ["code", "token"] (by decide), hno ["code", "id_token", "token"] (by decide)]),
        if_neg (by simp [hno ["code"] (by decide), hno ["code", "id_token"] (by decide)])] at h
      simp only [Except.ok.injEq, Prod.mk.injEq] at h
      obtain ⟨-, rfl⟩ := h
      exact ⟨rfl, by simp, fun h' => absurd h' h2⟩

/-- And if tokens are collected, with an authorization code or because that was asked for, then both are what came from the token endpoint: an access token that came with the authorization
response is not used. -/
theorem C128_collected (types : List String) (resp : Dict Val) (collect : Bool) (tokens : Except PyErr (Dict Val)) (a i : Option Val) (h : getTokens types resp collect tokens = .ok (a, i))
    (hw : ∀ w ∈ types, w ∈ ["code", "id_token", "token"]) (hc : ("code" ∈ types ∧ "token" ∉ types) ∨ ("token" ∈ types ∧ collect = true)) :
    ∃ t, tokens = .ok t ∧ a = t.get? "access_token" ∧ a ≠ none ∧ i = t.get? "__verified_id_token" := by
  revert h
  have same : ∀ l : List String, sameSet types l = true ↔ ∀ w, w ∈ types ↔ w ∈ l := by
    intro l
    simp only [sameSet, Bool.and_eq_true, List.all_eq_true, List.contains_eq_mem, decide_eq_true_eq]
    exact ⟨fun h w => ⟨h.1 w, h.2 w⟩, fun h => ⟨fun w => (h w).1, fun w => (h w).2⟩⟩
  have fin : ∀ r : Except PyErr (Dict Val), (match r with
      | .error e => (.error e : Except PyErr (Option Val × Option Val))
      | .ok t => match t.get? "access_token" with
        | none => .error .keyError
        | some a' => .ok (some a', t.get? "__verified_id_token")) = .ok (a, i) →
      ∃ t, r = .ok t ∧ a = t.get? "access_token" ∧ a ≠ none ∧ i = t.get? "__verified_id_token" := by
    intro r hr
    cases r with
    | error e => cases hr
    | ok t =>
      simp only at hr
      cases ht : t.get? "access_token" with
      | none => rw [ht] at hr; cases hr
      | some a' =>
        rw [ht] at hr
        simp only [Except.ok.injEq, Prod.mk.injEq] at hr
        obtain ⟨rfl, rfl⟩ := hr
        exact ⟨t, rfl, ht.symm, by simp, rfl⟩
  have key : ∀ idt : Option Val, (if sameSet types ["token"] || sameSet types ["id_token", "token"] || sameSet types ["code", "token"] || sameSet types ["code", "id_token", "token"] then
      match resp.get? "access_token" with
      | none => (.error .keyError : Except PyErr (Option Val × Option Val))
      | some a =>
        if collect then
          match tokens with
          | .error e => .error e
          | .ok t =>
            match t.get? "access_token" with
            | none => .error .keyError
            | some a' => .ok (some a', t.get? "__verified_id_token")
        else .ok (some a, idt)
    else if sameSet types ["code"] || sameSet types ["code", "id_token"] then
      match tokens with
      | .error e => .error e
      | .ok t =>
        match t.get? "access_token" with
        | none => .error .keyError
        | some a' => .ok (some a', t.get? "__verified_id_token")
    else .ok (none, idt)) = .ok (a, i) → ∃ t, tokens = .ok t ∧ a = t.get? "access_token" ∧ a ≠ none ∧ i = t.get? "__verified_id_token" := by
    intro idt h
    by_cases htok : "token" ∈ types
    · have hcol : collect = true := by
        rcases hc with ⟨-, h1⟩ | ⟨-, h1⟩
        · exact absurd htok h1
        · exact h1
      have hcond : (sameSet types ["token"] || sameSet types ["id_token", "token"] || sameSet types ["code", "token"] || sameSet types ["code", "id_token", "token"]) = true := by
        simp only [Bool.or_eq_true, same]
        by_cases h1 : "code" ∈ types <;> by_cases h2 : "id_token" ∈ types
        · refine Or.inr fun w => ⟨hw w, fun h => ?_⟩
          simp only [List.mem_cons, List.not_mem_nil, or_false] at h
          rcases h with rfl | rfl | rfl <;> assumption
        · refine Or.inl (Or.inr fun w => ⟨fun h => ?_, fun h => ?_⟩)
          · have := hw w h
            simp only [List.mem_cons, List.not_mem_nil, or_false] at this ⊢
            rcases this with rfl | rfl | rfl
            · exact Or.inl rfl
            · exact absurd h h2
            · exact Or.inr rfl
          · simp only [List.mem_cons, List.not_mem_nil, or_false] at h
            rcases h with rfl | rfl <;> assumption
        · refine Or.inl (Or.inl (Or.inr fun w => ⟨fun h => ?_, fun h => ?_⟩))
          · have := hw w h
            simp only [List.mem_cons, List.not_mem_nil, or_false] at this ⊢
            rcases this with rfl | rfl | rfl
            · exact absurd h h1
            · exact Or.inl rfl
            · exact Or.inr rfl
          · simp only [List.mem_cons, List.not_mem_nil, or_false] at h
            rcases h with rfl | rfl <;> assumption
        · refine Or.inl (Or.inl (Or.inl fun w => ⟨fun h => ?_, fun h => ?_⟩))
          · have := hw w h
            simp only [List.mem_cons, List.not_mem_nil, or_false] at this ⊢
            rcases this with rfl | rfl | rfl
            · exact absurd h h1
            · exact absurd h h2
            · rfl
          · simp only [List.mem_cons, List.not_mem_nil, or_false] at h
            rcases h with rfl; assumption
      rw [if_pos hcond] at h
      split at h
      · cases h
      · rw [if_pos hcol] at h
        exact fin tokens h
    · have hcode : "code" ∈ types := by
        rcases hc with ⟨h1, -⟩ | ⟨h1, -⟩
        · exact h1
        · exact absurd h1 htok
      have hno : ∀ l : List String, "token" ∈ l → ¬ sameSet types l = true := fun l hl hs => htok (((same l).1 hs _).2 hl)
      have hcond : (sameSet types ["code"] || sameSet types ["code", "id_token"]) = true := by
        simp only [Bool.or_eq_true, same]
        by_cases h2 : "id_token" ∈ types
        · refine Or.inr fun w => ⟨fun h => ?_, fun h => ?_⟩
          · have := hw w h
            simp only [List.mem_cons, List.not_mem_nil, or_false] at this ⊢
            rcases this with rfl | rfl | rfl
            · exact Or.inl rfl
            · exact Or.inr rfl
            · exact absurd h htok
          · simp only [List.mem_cons, List.not_mem_nil, or_false] at h
            rcases h with rfl | rfl <;> assumption
        · refine Or.inl fun w => ⟨fun h => ?_, fun h => ?_⟩
          · have := hw w h
            simp only [List.mem_cons, List.not_mem_nil, or_false] at this ⊢
            rcases this with rfl | rfl | rfl
            · rfl
            · exact absurd h h2
            · exact absurd h htok
          · simp only [List.mem_cons, List.not_mem_nil, or_false] at h
            rcases h with rfl; assumption
      rw [if_neg (by simp [hno ["token"] (by decide), hno ["id_token", "token"] (by decide), hno ["code", "token"] (by decide), hno ["code", "id_token", "token"] (by decide)]), if_pos hcond] at h
      exact fin tokens h
  intro h
  unfold getTokens at h
  by_cases hid : (sameSet types ["id_token"] || sameSet types ["id_token", "token"] || sameSet types ["code", "id_token", "token"]) = true
  · rw [if_pos hid] at h
    cases hv : resp.get? "__verified_id_token" with
    | none => rw [hv] at h; simp at h
    | some t =>
      rw [hv] at h
      simp only [ok_bind] at h
      exact key _ h
  · rw [if_neg hid] at h
    simp only [ok_bind] at h
    exact key _ h

example : getTokens ["code", "token"] [("access_token", .str "a")] true (.ok [("access_token", .str "b")]) = .ok (some (.str "b"), none) := by decide

example : getTokens ["token", "id_token"] [("__verified_id_token", .str "i"), ("access_token", .str "a")] false (.error .serviceError) = .ok (some (.str "a"), some (.str "i")) ∧
    getTokens ["code"] [] false (.ok [("access_token", .str "b")]) = .ok (some (.str "b"), none) := by decide

/-! ## C129 -/

/-- C129: an access token that is handed out is the stored one and has not expired: it expires later, or never; and it is handed out if this is so. -/
theorem C129_valid (now : Int) (stored : Dict Val) (t : Val) (exp : Int) :
    getValidAccessToken now stored = .ok (t, exp) ↔ stored.get? "access_token" = some t ∧
      ((exp = 0 ∧ (∀ v, stored.get? "__expires_at" = some v → v.truthy = false)) ∨ (exp ≠ 0 ∧ stored.get? "__expires_at" = some (.int exp) ∧ now < exp)) := by
  unfold getValidAccessToken
  cases ha : stored.get? "access_token" with
  | none => simp
  | some a =>
    simp only [Option.some.injEq]
    cases he : stored.get? "__expires_at" with
    | none =>
      simp only [Except.ok.injEq, Prod.mk.injEq, reduceCtorEq, false_implies, implies_true, and_true, false_and, and_false, or_false]
      constructor
      · rintro ⟨rfl, rfl⟩; exact ⟨rfl, rfl⟩
      · rintro ⟨rfl, rfl⟩; exact ⟨rfl, rfl⟩
    | some v =>
      cases v with
      | int e =>
        simp only [Option.some.injEq, Val.int.injEq]
        by_cases h0 : e = 0
        · subst h0
          simp only [if_true, Except.ok.injEq, Prod.mk.injEq, forall_eq', Val.truthy]
          constructor
          · rintro ⟨rfl, rfl⟩; exact ⟨rfl, Or.inl ⟨rfl, by decide⟩⟩
          · rintro ⟨rfl, ⟨rfl, -⟩ | ⟨h1, h2, -⟩⟩
            · exact ⟨rfl, rfl⟩
            · exact absurd h2.symm h1
        · rw [if_neg h0]
          have hv : (Val.int e).truthy = true := by simp [Val.truthy, h0]
          by_cases hl : e > now
          · rw [if_pos hl]
            simp only [Except.ok.injEq, Prod.mk.injEq, forall_eq', hv]
            constructor
            · rintro ⟨rfl, rfl⟩; exact ⟨rfl, Or.inr ⟨h0, rfl, hl⟩⟩
            · rintro ⟨rfl, ⟨-, h1⟩ | ⟨-, rfl, -⟩⟩
              · cases h1
              · exact ⟨rfl, rfl⟩
          · rw [if_neg hl]
            simp only [reduceCtorEq, forall_eq', hv, false_iff]
            rintro ⟨-, ⟨-, h1⟩ | ⟨-, rfl, h1⟩⟩
            · cases h1
            · exact hl h1
      | _ =>
        simp only [Option.some.injEq, reduceCtorEq, false_and, and_false, or_false, forall_eq']
        split
        · rename_i ht; simp [ht]
        · rename_i ht
          simp only [Except.ok.injEq, Prod.mk.injEq]
          have : ∀ b : Bool, ¬ b = true → b = false := by decide
          simp [this _ ht, eq_comm]

/-- And a user counts as authenticated only as long as the ID Token has not expired. -/
theorem C129_active (now : Int) (stored : Dict Val) :
    hasActiveAuthentication now stored = .ok true ↔ ∃ t exp, stored.get? "__verified_id_token" = some (.obj t) ∧ Dict.get? t "exp" = some (.int exp) ∧ now < exp := by
  unfold hasActiveAuthentication
  split
  · rename_i h; simp [h]
  · rename_i t h
    rw [h]
    split
    · rename_i h1; simp [h1]
    · rename_i e h1
      simp [h1]
    · rename_i v h1 h2
      simp only [reduceCtorEq, Option.some.injEq, Val.obj.injEq, exists_and_left, exists_eq_left', false_iff, not_exists, not_and]
      intro e he
      rw [h2] at he
      exact absurd (Option.some.inj he) (h1 e)
  · rename_i v h1 h2
    simp only [reduceCtorEq, false_iff, not_exists, not_and]
    intro t e ht
    rw [h2] at ht
    exact absurd (Option.some.inj ht) (h1 t)

example : getValidAccessToken 10 [("access_token", .str "a"), ("__expires_at", .int 11)] = .ok (.str "a", 11) ∧
    getValidAccessToken 11 [("access_token", .str "a"), ("__expires_at", .int 11)] = .error .serviceError := by decide

example : hasActiveAuthentication 10 [("__verified_id_token", .obj [("exp", .int 11)])] = .ok true ∧ hasActiveAuthentication 11 [("__verified_id_token", .obj [("exp", .int 11)])] = .ok false := by decide

end Fed.Client.Session
