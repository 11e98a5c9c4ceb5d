import Verif.Client.FinalizeProps
import Verif.Chains.Model
/-
Model of the login at the relying party's front end (/repo/edu_federation/relying_party_explicit/views.py 118-221) and of what the provider's front end does with the login form and the session check
(/repo/edu_federation/openid_provider/views.py 111-153 and 284-306). Properties C190, C191 and C192.
-/
namespace Fed.Web.Login
open Fed Verify Client.Session

/-- The client for one provider. `F`: what finishing a login uses; `parse`: what idpyoidc's `parse_response` makes of the arguments of the callback; `cur`: what is kept about sessions. -/
structure Party where
  F : Finish
  parse : Dict String → Except PyErr (Dict Val)
  cur : Current

/-- idpyoidc's RPHandler: `hash2issuer` and `issuer2rp`. -/
structure Handler where
  hashes : Dict String
  parties : Dict Party

/-- What `trust_chain` of the federation entity's context holds for an entity: a chain (stand_alone_client_entity.py 74), or chains by trust anchor (fedservice/__init__.py 15-19). -/
inductive Held
  | one (tc : TrustChain)
  | byAnchor (d : Dict TrustChain)

/-- What the browser gets. -/
inductive Page
  | unknownHash
  | noClient
  | unknownState
  | serviceError
  | providerError (error : Val)
  | shown (userinfo : Dict Val) (token idToken : Option Val) (path : List String)
  | crash (e : PyErr)
deriving DecidableEq

/-- The status of a page (views.py 124, 129, 163, 173, 216); an exception that reaches Flask is a 500. -/
def Page.status : Page → Nat
  | .unknownHash | .noClient | .unknownState | .providerError _ => 400
  | .serviceError => 403
  | .shown _ _ _ _ => 200
  | .crash _ => 500

/-- The path of the trust chain that is shown (views.py 200-204). The same value is asked for its keys, which a trust chain does not have, and for its `iss_path`, which a dictionary does not have. -/
def trustPath (held : Dict Held) (info : Dict Val) : Except PyErr (List String) :=
  match info.get? "issuer" with
  | some (.str op) =>
    match held.get? op with
    | none => .error .keyError
    | some (.one _) => .error .attributeError
    | some (.byAnchor []) => .error .indexError
    | some (.byAnchor (_ :: _)) => .error .attributeError
  | some _ => .error .typeError
  | none => .error .keyError

/-- What is made of the result of `rp.finalize` (views.py 169-216). -/
def pageOf (held : Dict Held) (info : Dict Val) : Except PyErr Outcome → Page
  | .error .serviceError => .serviceError
  | .error e => .crash e
  | .ok (.failed _ err) => .providerError err
  | .ok (.done ui _ tok idt _ _) =>
    match trustPath held info with
    | .error e => .crash e
    | .ok path => .shown ui tok idt path

/-- `finalize` of the view (views.py 149-216), which is the view at `/authz_cb/<entity_id>` (219-221). The Flask session is left out: nothing reads what is put there. `get_set` of an unknown state: KeyError.
`split`: `str.split(" ")`. -/
def authzCb (split : String → List String) (held : Dict Held) (H : Handler) (hash : String) (args : Dict String) : Page × Handler :=
  match H.hashes.get? hash with
  | none => (.unknownHash, H)
  | some iss =>
    match H.parties.get? iss with
    | none => (.noClient, H)
    | some p =>
      let s := (args.get? "state").getD ""
      if s = "" then (.unknownState, H)
      else
        match ((p.cur.sets.get? s).getD []).get? "iss" with
        | none => (.crash .keyError, H)
        | some _ =>
          let r := finalize p.F split false p.cur (p.parse args)
          (pageOf held p.F.info r.1, { H with parties := H.parties.set iss { p with cur := r.2 } })

/-- The client the callback is for. -/
def Handler.client (H : Handler) (hash : String) : Option Party := (H.hashes.get? hash).bind H.parties.get?

/-- The callback gets to the client `p` with state `s`. -/
def Reaches (H : Handler) (hash : String) (args : Dict String) (p : Party) (s : String) : Prop :=
  H.client hash = some p ∧ args.get? "state" = some s ∧ s ≠ "" ∧ ∃ d v, p.cur.sets.get? s = some d ∧ d.get? "iss" = some v

theorem client_some {H : Handler} {hash : String} {p : Party} (h : H.client hash = some p) : ∃ iss, H.hashes.get? hash = some iss ∧ H.parties.get? iss = some p := by
  unfold Handler.client at h
  cases h1 : H.hashes.get? hash with
  | none => rw [h1] at h; cases h
  | some iss => rw [h1] at h; exact ⟨iss, rfl, h⟩

/-- What happens once the client is reached. -/
theorem authzCb_reaches (split : String → List String) (held : Dict Held) {H : Handler} {hash : String} {args : Dict String} {p : Party} {s : String} (h : Reaches H hash args p s) :
    ∃ iss, H.hashes.get? hash = some iss ∧ H.parties.get? iss = some p ∧
      authzCb split held H hash args = (pageOf held p.F.info (finalize p.F split false p.cur (p.parse args)).1,
        { H with parties := H.parties.set iss { p with cur := (finalize p.F split false p.cur (p.parse args)).2 } }) := by
  obtain ⟨hc, hs, hne, d, v, hd, hv⟩ := h
  obtain ⟨iss, h1, h2⟩ := client_some hc
  refine ⟨iss, h1, h2, ?_⟩
  unfold authzCb
  rw [h1]
  simp only
  rw [h2]
  simp only
  rw [hs]
  simp only [Option.getD_some]
  rw [if_neg hne, hd]
  simp only [Option.getD_some]
  rw [hv]

/-- If the client is not reached, nothing changes, and the page says why. -/
theorem authzCb_not (split : String → List String) (held : Dict Held) (H : Handler) (hash : String) (args : Dict String) (h : ∀ p s, ¬ Reaches H hash args p s) :
    (authzCb split held H hash args).2 = H ∧
      ((authzCb split held H hash args).1 = .unknownHash ∧ H.hashes.get? hash = none ∨
       (authzCb split held H hash args).1 = .noClient ∧ (∃ iss, H.hashes.get? hash = some iss ∧ H.parties.get? iss = none) ∨
       (authzCb split held H hash args).1 = .unknownState ∧ (args.get? "state" = none ∨ args.get? "state" = some "") ∨
       (authzCb split held H hash args).1 = .crash .keyError ∧
         ∃ p s, H.client hash = some p ∧ args.get? "state" = some s ∧ s ≠ "" ∧ ∀ d, p.cur.sets.get? s = some d → d.get? "iss" = none) := by
  unfold authzCb
  cases h1 : H.hashes.get? hash with
  | none => exact ⟨rfl, Or.inl ⟨rfl, rfl⟩⟩
  | some iss =>
    simp only
    cases h2 : H.parties.get? iss with
    | none => exact ⟨rfl, Or.inr (Or.inl ⟨rfl, iss, rfl, h2⟩)⟩
    | some p =>
      have hc : H.client hash = some p := by unfold Handler.client; rw [h1]; exact h2
      simp only
      cases h3 : args.get? "state" with
      | none => exact ⟨rfl, Or.inr (Or.inr (Or.inl ⟨rfl, Or.inl rfl⟩))⟩
      | some s =>
        simp only [Option.getD_some]
        by_cases hne : s = ""
        · subst hne
          exact ⟨rfl, Or.inr (Or.inr (Or.inl ⟨rfl, Or.inr rfl⟩))⟩
        · rw [if_neg hne]
          cases h4 : ((p.cur.sets.get? s).getD []).get? "iss" with
          | none =>
            refine ⟨rfl, Or.inr (Or.inr (Or.inr ⟨rfl, p, s, hc, rfl, hne, ?_⟩))⟩
            intro d hd
            rw [hd] at h4
            exact h4
          | some v =>
            exfalso
            cases h5 : p.cur.sets.get? s with
            | none => rw [h5] at h4; cases h4
            | some d =>
              rw [h5] at h4
              exact h p s ⟨hc, h3, hne, d, v, h5, h4⟩

/-- C190, as intended: somebody whose login succeeded is shown what is known about them. -/
def C190_full : Prop :=
  ∀ (split : String → List String) (held : Dict Held) (H : Handler) (hash : String) (args : Dict String) (p : Party) (s : String) (ui : Dict Val) (st : String) (tok idt : Option Val) (ss : Val) (iss : String),
    Reaches H hash args p s → (finalize p.F split false p.cur (p.parse args)).1 = .ok (.done ui st tok idt ss iss) →
    ∃ path, (authzCb split held H hash args).1 = .shown ui tok idt path

/-- The trust path is never there to be shown. -/
theorem trustPath_error (held : Dict Held) (info : Dict Val) : ∃ e, trustPath held info = .error e := by
  unfold trustPath
  cases info.get? "issuer" with
  | none => exact ⟨_, rfl⟩
  | some v =>
    cases v with
    | str op =>
      simp only
      cases held.get? op with
      | none => exact ⟨_, rfl⟩
      | some x =>
        cases x with
        | one tc => exact ⟨_, rfl⟩
        | byAnchor d =>
          cases d with
          | nil => exact ⟨_, rfl⟩
          | cons a b => exact ⟨_, rfl⟩
    | _ => exact ⟨_, rfl⟩

/-- C190: whatever is configured, whatever chains are held and whatever the provider answers, somebody whose login succeeded gets an internal server error. At the client the login has happened: what is kept
about sessions is as `finalize` left it. -/
theorem C190_never (split : String → List String) (held : Dict Held) (H : Handler) (hash : String) (args : Dict String) (p : Party) (s : String) (ui : Dict Val) (st : String) (tok idt : Option Val) (ss : Val)
    (iss : String) (hr : Reaches H hash args p s) (hf : (finalize p.F split false p.cur (p.parse args)).1 = .ok (.done ui st tok idt ss iss)) :
    (authzCb split held H hash args).1.status = 500 ∧
    ∃ p', (authzCb split held H hash args).2.client hash = some p' ∧ p'.cur = (finalize p.F split false p.cur (p.parse args)).2 := by
  obtain ⟨i, h1, h2, h3⟩ := authzCb_reaches split held hr
  rw [h3]
  refine ⟨?_, { p with cur := (finalize p.F split false p.cur (p.parse args)).2 }, ?_, rfl⟩
  · simp only [hf, pageOf]
    obtain ⟨e, he⟩ := trustPath_error held p.F.info
    rw [he]
    rfl
  · unfold Handler.client
    rw [h1]
    exact Dict.get?_set_self _ _ _

/-- C190: no callback ever ends with a page that says who logged in. -/
theorem C190_no_page (split : String → List String) (held : Dict Held) (H : Handler) (hash : String) (args : Dict String) : (authzCb split held H hash args).1.status ≠ 200 := by
  by_cases h : ∃ p s, Reaches H hash args p s
  · obtain ⟨p, s, hr⟩ := h
    obtain ⟨i, _, _, h3⟩ := authzCb_reaches split held hr
    rw [h3]
    simp only
    generalize finalize p.F split false p.cur (p.parse args) = r
    obtain ⟨r1, r2⟩ := r
    cases r1 with
    | error e => cases e <;> first | (show ¬ (500 = 200); decide) | (show ¬ (403 = 200); decide)
    | ok o =>
      cases o with
      | failed a b => show ¬ (400 = 200); decide
      | done ui st tok idt ss iss =>
        obtain ⟨e, he⟩ := trustPath_error held p.F.info
        simp only [pageOf, he]
        show ¬ (500 = 200)
        decide
  · obtain ⟨_, hp⟩ := authzCb_not split held H hash args (fun p s hr => h ⟨p, s, hr⟩)
    rcases hp with ⟨hp, _⟩ | ⟨hp, _⟩ | ⟨hp, _⟩ | ⟨hp, _⟩ <;> rw [hp] <;> decide

/-- C190, what holds: somebody whose login the provider refused is told the provider's error. -/
theorem C190_refused_partial (split : String → List String) (held : Dict Held) (H : Handler) (hash : String) (args : Dict String) (p : Party) (s : String) (resp : Dict Val) (err st : Val)
    (hr : Reaches H hash args p s) (hp : p.parse args = .ok resp) (he : resp.get? "error" = some err) (hst : resp.get? "state" = some st) :
    authzCb split held H hash args = (.providerError err, { H with parties := (authzCb split held H hash args).2.parties }) ∧
    ∃ p', (authzCb split held H hash args).2.client hash = some p' ∧ p'.cur = p.cur := by
  obtain ⟨i, h1, h2, h3⟩ := authzCb_reaches split held hr
  have hfa : finalizeAuth p.F.info p.F.issuer p.cur (.ok resp) = (.ok resp, p.cur) := by
    unfold finalizeAuth
    simp only [he, Option.isSome_some, if_true]
  have hf : finalize p.F split false p.cur (p.parse args) = (.ok (.failed st err), p.cur) := by
    rw [hp]
    unfold finalize
    rw [hfa]
    simp only [he, hst]
  rw [h3, hf]
  refine ⟨rfl, { p with cur := p.cur }, ?_, rfl⟩
  unfold Handler.client
  rw [h1]
  exact Dict.get?_set_self _ _ _

/-- C190, what holds: a callback that names no session of the client it is addressed to is not acted on: nothing changes at any client, and nobody is taken to have logged in. -/
theorem C190_foreign (split : String → List String) (held : Dict Held) (H : Handler) (hash : String) (args : Dict String) (h : ∀ p s, ¬ Reaches H hash args p s) :
    (authzCb split held H hash args).2 = H ∧ (authzCb split held H hash args).1.status ∈ [400, 500] := by
  obtain ⟨h1, hp⟩ := authzCb_not split held H hash args h
  refine ⟨h1, ?_⟩
  rcases hp with ⟨hp, _⟩ | ⟨hp, _⟩ | ⟨hp, _⟩ | ⟨hp, _⟩ <;> rw [hp] <;> decide

/-- C190, what holds: a callback for one provider changes nothing at the client for any other, and of the sessions at its own client only the one its response names. -/
theorem C190_others (split : String → List String) (held : Dict Held) (H : Handler) (hash iss other : String) (args : Dict String) (hi : H.hashes.get? hash = some iss) (ho : other ≠ iss) :
    (authzCb split held H hash args).2.parties.get? other = H.parties.get? other ∧ (authzCb split held H hash args).2.hashes = H.hashes ∧
    ∀ (p p' : Party) (t : String), H.parties.get? iss = some p → (authzCb split held H hash args).2.parties.get? iss = some p' →
      (∀ resp, p.parse args = .ok resp → resp.get? "state" ≠ some (.str t)) → p'.cur.sets.get? t = p.cur.sets.get? t := by
  by_cases h : ∃ p s, Reaches H hash args p s
  · obtain ⟨p, s, hr⟩ := h
    obtain ⟨i, h1, h2, h3⟩ := authzCb_reaches split held hr
    rw [hi] at h1
    obtain rfl := Option.some.inj h1
    rw [h3]
    refine ⟨Dict.get?_set_ne _ _ (Ne.symm ho), rfl, ?_⟩
    intro q p' t hq hp' hne
    rw [h2] at hq
    obtain rfl := Option.some.inj hq
    simp only [Dict.get?_set_self] at hp'
    obtain rfl := Option.some.inj hp'
    exact C166_others p.F split false p.cur (p.parse args) t hne
  · obtain ⟨h1, _⟩ := authzCb_not split held H hash args (fun p s hr => h ⟨p, s, hr⟩)
    rw [h1]
    refine ⟨rfl, rfl, ?_⟩
    intro p p' t hp hp' _
    rw [hp] at hp'
    obtain rfl := Option.some.inj hp'
    rfl

/-- The session check of the provider's front end (openid_provider/views.py 284-306). `cdb`: the provider's client database; comparing a string with it is never true in Python, whatever it holds. -/
inductive Checked
  | page | error | ok | crash (e : PyErr)
deriving DecidableEq

/-- A string or a dictionary, as far as `!=` goes. -/
inductive Compared
  | str (s : String)
  | dict (d : Dict (Dict Val))
deriving DecidableEq

/-- `check_session_iframe` (284-306). -/
def checkSession (issuer : String) (cdb : Dict (Dict Val)) (args : Dict String) : Checked :=
  match args with
  | [] => .page
  | _ :: _ =>
    match args.get? "origin" with
    | none => .crash .keyError
    | some o =>
      if o ≠ issuer then .error
      else
        match args.get? "client_id" with
        | none => .crash .keyError
        | some c => if Compared.str c ≠ Compared.dict cdb then .error else .ok

/-- C191, as intended: a client the provider knows, asking from the provider's own origin, is told that things are as they were. -/
def C191_full : Prop :=
  ∀ (issuer client : String) (cdb : Dict (Dict Val)) (rec : Dict Val), cdb.get? client = some rec → checkSession issuer cdb [("origin", issuer), ("client_id", client)] = .ok

/-- C191: nobody is ever told so. -/
theorem C191_never (issuer : String) (cdb : Dict (Dict Val)) (args : Dict String) : checkSession issuer cdb args ≠ .ok := by
  unfold checkSession
  cases args with
  | nil => intro h; cases h
  | cons a b =>
    simp only
    cases Dict.get? (a :: b) "origin" with
    | none => intro h; cases h
    | some o =>
      simp only
      by_cases ho : o ≠ issuer
      · rw [if_pos ho]; intro h; cases h
      · rw [if_neg ho]
        cases Dict.get? (a :: b) "client_id" with
        | none => intro h; cases h
        | some c =>
          simp only
          rw [if_pos (by intro h; cases h)]
          intro h; cases h

theorem C191_violation : ¬ C191_full := fun h => C191_never _ _ _ (h "https://op" "https://rp" [("https://rp", [])] [] rfl)

/-- The login form of the provider (openid_provider/views.py 111-138). `authenticate`: `authn_method.verify` on the form, `none` for no user name; `unpack`: `unpack_token`, the request the form was made for with
class reference and time; `create`, `part2`: `create_session` and `authz_part2` of the authorization endpoint (idpyoidc's and C169's). -/
structure Provider (σ ρ α : Type) where
  authenticate : Dict String → Except PyErr (Option String)
  unpack : String → Except PyErr (ρ × String × Int)
  create : σ → ρ → String → String × Int → Except PyErr String × σ
  part2 : σ → ρ → String → Except PyErr α × σ

/-- What the browser gets from the login form. -/
inductive Verified (α : Type)
  | denied
  | failed (e : PyErr)
  | answer (a : α)

/-- `verify` (111-138). A user name that is empty counts as none. Simplification: an exception is the answer, whether FailedAuthentication, for which there is a page (145-146), or another; what is made of the
answer is C188's `doResponse`. -/
def verify {σ ρ α : Type} (P : Provider σ ρ α) (s : σ) (form : Dict String) : Verified α × σ :=
  match P.authenticate form with
  | .error e => (.failed e, s)
  | .ok none => (.denied, s)
  | .ok (some user) =>
    if user = "" then (.denied, s)
    else
      match form.get? "token" with
      | none => (.failed .keyError, s)
      | some t =>
        match P.unpack t with
        | .error e => (.failed e, s)
        | .ok (req, cls) =>
          match P.create s req user cls with
          | (.error e, s) => (.failed e, s)
          | (.ok sid, s) =>
            match P.part2 s req sid with
            | (.error e, s) => (.failed e, s)
            | (.ok a, s) => (.answer a, s)

/-- C192: an answer to an authorization request is given only for a session of the user that was authenticated with this form, for the request in the form's token; and without a user name nothing changes. -/
theorem C192_authenticated {σ ρ α : Type} (P : Provider σ ρ α) (s s' : σ) (form : Dict String) (a : α) (h : verify P s form = (.answer a, s')) :
    ∃ user t req cls sid s1, P.authenticate form = .ok (some user) ∧ user ≠ "" ∧ form.get? "token" = some t ∧ P.unpack t = .ok (req, cls) ∧ P.create s req user cls = (.ok sid, s1) ∧
      P.part2 s1 req sid = (.ok a, s') := by
  unfold verify at h
  cases h1 : P.authenticate form with
  | error e => rw [h1] at h; cases h
  | ok u =>
    cases u with
    | none => rw [h1] at h; cases h
    | some user =>
      rw [h1] at h
      simp only at h
      by_cases hu : user = ""
      · rw [if_pos hu] at h; cases h
      · rw [if_neg hu] at h
        cases h2 : form.get? "token" with
        | none => rw [h2] at h; cases h
        | some t =>
          rw [h2] at h
          simp only at h
          cases h3 : P.unpack t with
          | error e => rw [h3] at h; cases h
          | ok x =>
            obtain ⟨req, cls⟩ := x
            rw [h3] at h
            simp only at h
            generalize h4 : P.create s req user cls = r at h
            obtain ⟨r1, s1⟩ := r
            cases r1 with
            | error e => cases h
            | ok sid =>
              simp only at h
              generalize h5 : P.part2 s1 req sid = r at h
              obtain ⟨r1, s2⟩ := r
              cases r1 with
              | error e => cases h
              | ok b =>
                cases h
                exact ⟨user, t, req, cls, sid, s1, rfl, hu, rfl, h3, h4, h5⟩

/-- C192: who is not authenticated is denied and creates no session. -/
theorem C192_denied {σ ρ α : Type} (P : Provider σ ρ α) (s : σ) (form : Dict String) (h : P.authenticate form = .ok none ∨ P.authenticate form = .ok (some "") ∨ ∃ e, P.authenticate form = .error e) :
    (verify P s form).2 = s ∧ ∀ a, (verify P s form).1 ≠ .answer a := by
  unfold verify
  rcases h with h | h | ⟨e, h⟩ <;> rw [h]
  · exact ⟨rfl, fun a h => by cases h⟩
  · exact ⟨rfl, fun a h => by cases h⟩
  · exact ⟨rfl, fun a h => by cases h⟩

/-! The cases. -/
namespace Ex
def asCode : Finish := { info := [("issuer", .str "https://op")], issuer := "https://op", clientId := "https://rp", secret := none, hasUserinfo := true, schema := [], idTokenClaims := [], tokens := fun _ _ => .ok [("access_token", .str "t")], userinfo := fun _ _ => .ok [("sub", .str "diana")] }
def party : Party := { F := asCode, parse := fun _ => .ok [("state", .str "s"), ("code", .str "c")], cur := { sets := [("s", [("iss", .str "https://op"), ("response_type", .str "code"), ("redirect_uri", .str "https://rp/cb")])] } }
def handler : Handler := { hashes := [("h", "https://op")], parties := [("https://op", party)] }
def args : Dict String := [("state", "s"), ("code", "c")]
end Ex
open Ex

theorem Ex.reaches : Reaches handler "h" args party "s" := ⟨rfl, rfl, by decide, _, _, rfl, rfl⟩

/-- Diana logs in. -/
theorem Ex.done : (finalize party.F (fun s => [s]) false party.cur (party.parse args)).1 = .ok (.done [("sub", .str "diana")] "s" (some (.str "t")) none (.str "") "https://op") := by decide

/-- C190 is false in the code. -/
theorem C190_violation : ¬ C190_full := by
  intro h
  obtain ⟨path, hp⟩ := h (fun s => [s]) [] handler "h" args party "s" _ _ _ _ _ _ Ex.reaches Ex.done
  have := C190_no_page (fun s => [s]) [] handler "h" args
  rw [hp] at this
  exact this rfl

example : (authzCb (fun s => [s]) [("https://op", .byAnchor [])] handler "h" args).1 = .crash .indexError := by decide
example : Reaches { handler with parties := [("https://op", { party with parse := fun _ => .ok [("state", .str "s"), ("error", .str "access_denied")] })] } "h" args
    { party with parse := fun _ => .ok [("state", .str "s"), ("error", .str "access_denied")] } "s" := ⟨rfl, rfl, by decide, _, _, rfl, rfl⟩
example : ∀ p s, ¬ Reaches handler "x" args p s := fun p s h => by cases h.1
example : ∃ (P : Provider Nat String String) (form : Dict String) (a : String) (s' : Nat), verify P 0 form = (.answer a, s') :=
  ⟨{ authenticate := fun f => .ok (f.get? "username"), unpack := fun t => .ok (t, "", 0), create := fun s _ u _ => (.ok u, s + 1), part2 := fun s r sid => (.ok (r ++ sid), s) },
    [("username", "diana"), ("token", "q")], "qdiana", 1, rfl⟩

end Fed.Web.Login
