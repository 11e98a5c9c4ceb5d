import Verif.Client.SessionProps
/-
C173: ending a session. Model of `logout`, `close` and `clear_session`, /repo/src/fedservice/appclient/stand_alone_client_entity.py 711-751, with `get_service`, /repo/src/fedservice/appclient/__init__.py 126-130.
-/
namespace Fed.Client.Session
open Fed

/-- What the service `end_session` makes of a state and request arguments (idpyoidc's `get_request_parameters`, not in /repo). -/
abbrev EndSession := String → Dict Val → Except PyErr (Dict Val)

/-- `logout` (stand_alone_client_entity.py 711-742). `service`: what `get_service("end_session")` gives, None if there is no such service (appclient/__init__.py 126-130); the KeyError that line 732 waits for is
caught there already, and asking None for request parameters is an AttributeError. -/
def logout (service : Option EndSession) (state redirect : String) : Except PyErr (Dict Val) :=
  match service with
  | none => .error .attributeError
  | some srv => srv state (if redirect ≠ "" then [("post_logout_redirect_uri", .str redirect)] else [])

/-- `close` (744-748) -/
def close (service : Option EndSession) (state redirect : String) : Except PyErr (Dict Val) := logout service state redirect

/-- `clear_session` (750-751), with idpyoidc's `remove_state`, which is not in /repo: assumed to remove what is stored under the state and the other keys that lead to it. -/
def clearSession (cur : Current) (state : String) : Current :=
  { sets := cur.sets.filter fun p => p.1 ≠ state, bound := cur.bound.filter fun p => p.2 ≠ state }

/-- `get_valid_access_token(state)` (679-709), with the look up of the session; KeyError for an unknown one. -/
def validToken (now : Int) (cur : Current) (state : String) : Except PyErr (Val × Int) :=
  match cur.sets.get? state with
  | none => .error .keyError
  | some d => getValidAccessToken now d

/-- `has_active_authentication(state)` (661-677), with the look up of the session. -/
def activeIn (now : Int) (cur : Current) (state : String) : Except PyErr Bool :=
  match cur.sets.get? state with
  | none => .error .keyError
  | some d => hasActiveAuthentication now d

/-- What an application does with a client. `keep`: a service stores what it got in the session, such as the tokens (idpyoidc's `cstate.update`, which begins a new session if there is none). -/
inductive Act
  | step (s : Step)
  | keep (state : String) (info : Dict Val)
  | logout (state redirect : String)
  | close (state redirect : String)
  | clear (state : String)

/-- One thing done. `logout` and `close` change nothing about the sessions (711-748). -/
def Act.run (c : Client) (cur : Current) : Act → Current
  | .step s => s.run c cur
  | .keep state info => { cur with sets := cur.sets.set state (((cur.sets.get? state).getD []).update info) }
  | .logout _ _ => cur
  | .close _ _ => cur
  | .clear state => clearSession cur state

/-- The sessions after all of this. -/
def afterAll (c : Client) (cur : Current) (acts : List Act) : Current := acts.foldl (Act.run c) cur

/-- Does this begin a session under the state, or store something in it? -/
def Act.Begins (s : String) : Act → Prop
  | .step (.init _ _ _ _ _ state _) => state = s
  | .keep state _ => state = s
  | _ => False

/-- Is there anything about this session that can be used: a token, an authentication, a response that would be taken for an answer in it? -/
def Over (c : Client) (cur : Current) (s : String) : Prop :=
  (∀ now, (validToken now cur s).isOk = false) ∧ (∀ now, activeIn now cur s ≠ .ok true) ∧
    ∀ resp : Dict Val, resp.get? "error" = none → resp.get? "state" = some (.str s) → (finalizeAuth c.info c.issuer cur (.ok resp)).1.isOk = false

/-- C173, full: a client that has no way to log out says so; a session that was closed or cleared is over until it is begun again. -/
def C173_full : Prop :=
  (∀ state redirect, logout none state redirect = .error .serviceError) ∧
  ∀ (c : Client) (cur : Current) (s redirect : String) (more : List Act), (∀ a ∈ more, ¬ a.Begins s) →
    Over c (afterAll c cur (.close s redirect :: more)) s ∧ Over c (afterAll c cur (.clear s :: more)) s

/-- C173 fails: without a service for it, the error is not the one meant to say so. -/
theorem C173_unknown_violation : ¬ C173_full := fun h => absurd (h.1 "s1" "") (by decide)

/-- C173 fails: after `close` the tokens of the session are still handed out. -/
theorem C173_close_violation : ¬ ∀ (c : Client) (cur : Current) (s redirect : String) (more : List Act), (∀ a ∈ more, ¬ a.Begins s) → Over c (afterAll c cur (.close s redirect :: more)) s := by
  intro h
  have h1 := (h Ex.client { sets := [("s1", [("iss", .str "https://op"), ("access_token", .str "a1")])] } "s1" "" [] (by simp)).1 10
  exact absurd h1 (by decide)

/-- In general: closing a session is without effect on what is handed out, for this session and all others. -/
theorem C173_close_same (c : Client) (cur : Current) (s redirect : String) (more : List Act) : afterAll c cur (.close s redirect :: more) = afterAll c cur more ∧
    afterAll c cur (.logout s redirect :: more) = afterAll c cur more := ⟨rfl, rfl⟩

theorem get?_filter_key {α : Type} (d : Dict α) (s q : String) : Dict.get? (d.filter fun p => p.1 ≠ s) q = if q = s then none else d.get? q := by
  induction d with
  | nil => simp [Dict.get?]
  | cons p d ih =>
    obtain ⟨k, v⟩ := p
    by_cases hk : k = s
    · subst hk
      rw [List.filter_cons_of_neg (by simp), ih, Dict.get?_cons]
      by_cases hq : q = k
      · rw [if_pos hq, if_pos hq]
      · rw [if_neg hq, if_neg hq, if_neg (Ne.symm hq)]
    · rw [List.filter_cons_of_pos (by simp [hk]), Dict.get?_cons, Dict.get?_cons, ih]
      by_cases hq : k = q
      · subst hq
        rw [if_pos rfl, if_neg hk, if_pos rfl]
      · rw [if_neg hq, if_neg hq]

theorem over_of_none {c : Client} {cur : Current} {s : String} (h : cur.sets.get? s = none) : Over c cur s := by
  refine ⟨fun now => ?_, fun now => ?_, fun resp he hs => ?_⟩
  · unfold validToken; rw [h]; rfl
  · unfold activeIn; rw [h]; intro h; cases h
  · unfold finalizeAuth
    simp only [he, hs, h]
    rfl

theorem run_none {c : Client} {cur : Current} {s : String} {a : Act} (h : cur.sets.get? s = none) (ha : ¬ a.Begins s) : (a.run c cur).sets.get? s = none := by
  cases a with
  | step x =>
    cases x with
    | init C redirect type mode nonce state req =>
      have hne : state ≠ s := ha
      simp only [Act.run, Step.run, initAuthorization]
      split
      · exact h
      · exact h
      · simp only; rw [Dict.get?_set_ne _ _ hne]; exact h
    | final parsed =>
      simp only [Act.run, Step.run]
      generalize hf : finalizeAuth c.info c.issuer cur parsed = r
      obtain ⟨r, cur'⟩ := r
      cases r with
      | error e => rw [finalize_error hf]; exact h
      | ok resp =>
        obtain ⟨-, ⟨-, rfl⟩ | ⟨s', d', -, h2, -, rfl⟩⟩ := finalize_ok hf
        · exact h
        · have hne : s' ≠ s := by
            rintro rfl
            rw [h] at h2; cases h2
          simp only; rw [Dict.get?_set_ne _ _ hne]; exact h
  | keep state info =>
    have hne : state ≠ s := ha
    simp only [Act.run]; rw [Dict.get?_set_ne _ _ hne]; exact h
  | logout _ _ => exact h
  | close _ _ => exact h
  | clear state =>
    simp only [Act.run, clearSession]
    rw [get?_filter_key, h]
    split <;> rfl

/-- C173 for `clear_session`: whatever was done before and is done afterwards, the session is over until it is begun again; responses that come in for it do not bring it back. -/
theorem C173_cleared_partial (c : Client) (cur : Current) (s : String) (more : List Act) (hm : ∀ a ∈ more, ¬ a.Begins s) : Over c (afterAll c cur (.clear s :: more)) s := by
  apply over_of_none
  have key : ∀ (more : List Act) (cur : Current), cur.sets.get? s = none → (∀ a ∈ more, ¬ a.Begins s) → (afterAll c cur more).sets.get? s = none := by
    intro more
    induction more with
    | nil => intro cur h _; exact h
    | cons a more ih =>
      intro cur h hm
      exact ih _ (run_none h (hm a (by simp))) fun b hb => hm b (by simp [hb])
  refine key more _ ?_ hm
  simp only [Act.run, clearSession]
  rw [get?_filter_key, if_pos rfl]

/-- And the other sessions are left as they were: the same tokens and the same state of the authentication, and every key that led to another session still does. -/
theorem C173_others_partial (cur : Current) (s s' : String) (hs : s' ≠ s) : (∀ now, validToken now (clearSession cur s) s' = validToken now cur s') ∧
    (∀ now, activeIn now (clearSession cur s) s' = activeIn now cur s') ∧ (∀ k, (k, s') ∈ cur.bound → (k, s') ∈ (clearSession cur s).bound) ∧ ∀ k, (k, s) ∉ (clearSession cur s).bound := by
  have h : (clearSession cur s).sets.get? s' = cur.sets.get? s' := by
    simp only [clearSession]
    rw [get?_filter_key, if_neg hs]
  refine ⟨fun now => ?_, fun now => ?_, fun k hk => ?_, fun k hk => ?_⟩
  · unfold validToken; rw [h]
  · unfold activeIn; rw [h]
  · exact List.mem_filter.2 ⟨hk, by simp [hs]⟩
  · have := (List.mem_filter.1 hk).2
    simp at this

/-- C173 for a client that can log out: the request is the one its service makes for the session, with the address to return to if one is given and otherwise without. -/
theorem C173_request_partial (srv : EndSession) (state redirect : String) :
    (redirect ≠ "" → logout (some srv) state redirect = srv state [("post_logout_redirect_uri", .str redirect)]) ∧ logout (some srv) state "" = srv state [] ∧
      close (some srv) state redirect = logout (some srv) state redirect := by
  refine ⟨fun h => ?_, rfl, rfl⟩
  unfold logout
  simp only
  rw [if_pos h]

namespace Ex
def two : Current := { sets := [("s1", [("iss", .str "https://op"), ("access_token", .str "a1")]), ("s2", [("iss", .str "https://op"), ("access_token", .str "a2")])], bound := [("n1", "s1"), ("n2", "s2")] }
end Ex

/-- Two sessions, one cleared; a late response comes for it. The token of the other is still given, nothing for the one cleared. -/
example : let cur := afterAll Ex.client Ex.two [.clear "s1", .step (.final (.ok Ex.resp))]
    validToken 10 cur "s1" = .error .keyError ∧ validToken 10 cur "s2" = .ok (.str "a2", 0) ∧ cur.bound = [("n2", "s2")] ∧ validToken 10 Ex.two "s1" = .ok (.str "a1", 0) := by decide

example : logout (some fun s d => .ok (Dict.set d "state" (.str s))) "s1" "https://leaf/out" = .ok [("post_logout_redirect_uri", .str "https://leaf/out"), ("state", .str "s1")] := by decide

end Fed.Client.Session
