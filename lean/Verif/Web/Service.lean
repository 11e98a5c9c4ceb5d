import Verif.Server.FetchProps
import Verif.Server.ListProps
import Verif.TrustMarks.StoreProps
import Verif.Discover.WhoProps
import Verif.Registration.ExplicitProps
/-
Model of how the web front ends hand requests to endpoints: `service_endpoint` and `do_response` of /repo/dc4eu_federation/trust_anchor/views.py (the same in /repo/setup_federation/*/views.py,
/repo/edu_federation/trust_anchor/views.py, /repo/edu_federation/trust_mark_issuer/views.py and /repo/example/*/views.py). Property C188: what is asked over HTTP is answered.
-/
namespace Fed.Web
open Fed

/-- A request as Flask has it: `GET` with the arguments of the query; else with data, or, if there are none, with a form. -/
inductive Http
  | get (args : Dict String)
  | post (data : String) (form : Dict String)

/-- What the front end takes out of the request (views.py 78-82, 96-102): arguments, or the data as they are. -/
def Http.content : Http → Dict String ⊕ String
  | .get args => .inl args
  | .post data form => if data ≠ "" then .inr data else .inl form

/-- What `parse_request` gives: a request, or a message with an error in it. -/
inductive Parsed (ρ : Type)
  | request (r : ρ)
  | refused (error : String)

/-- What `process_request` returns: something with keys (a dict, or a message), or anything else. -/
inductive Outcome
  | args (d : Dict Val)
  | other
deriving DecidableEq

/-- What `endpoint.do_response` returns. -/
structure Info where
  response : String
  placement : Option String := none
  headers : List (String × String) := []
deriving DecidableEq

/-- What is sent. `failure`: `{"error": …, "error_description": str(err)}`. -/
inductive Body
  | text (s : String)
  | failure (error : String) (reason : PyErr)
  | refusal (error : String)
deriving DecidableEq

/-- What the browser gets; `crash`: an exception reached Flask (status 500). -/
inductive Answer
  | reply (status : Nat) (body : Body) (headers : List (String × String) := [])
  | redirect (to : String) (headers : List (String × String) := [])
  | crash (e : PyErr)
deriving DecidableEq

/-- An endpoint with state `σ`, and requests `ρ`. `parse`, `render`: idpyoidc's `parse_request` and `do_response` (arguments: the request, the error, the other arguments); `unauthorized`: which exceptions are InvalidClient or UnknownClient. -/
structure Endpoint (σ ρ : Type) where
  placement : String := "body"
  parse : σ → Dict String ⊕ String → Except PyErr (Parsed ρ)
  process : σ → ρ → Except PyErr Outcome × σ
  render : ρ → String → Dict Val → Except PyErr Info
  unauthorized : PyErr → Bool := fun _ => false

/-- A string among the arguments, or the empty one. Simplification: what is no string counts as none. -/
def text (d : Dict Val) (k : String) : String := match d.get? k with | some (.str s) => s | _ => ""

/-- `do_response` (views.py 42-71). Simplification: no cookies. -/
def doResponse {σ ρ : Type} (E : Endpoint σ ρ) (req : ρ) (args : Dict Val) : Answer :=
  let error := text args "error"
  match E.render req error (args.filter fun p => p.1 ≠ "error") with
  | .error e => .crash e
  | .ok info =>
    if info.placement.getD E.placement = "body" then .reply (if error ≠ "" then 400 else 200) (.text info.response) info.headers
    else .redirect info.response info.headers

/-- `service_endpoint` (views.py 74-131). -/
def service {σ ρ : Type} (E : Endpoint σ ρ) (st : σ) (req : Http) : Answer × σ :=
  match E.parse st req.content with
  | .error e =>
    match req with
    | .get _ => (.reply 400 (.failure (if E.unauthorized e then "unauthorized_client" else "invalid_request") e), st)
    | .post _ _ => (.reply 400 (.failure "invalid_request" e), st)
  | .ok (.refused err) => (.reply 400 (.refusal err), st)
  | .ok (.request r) =>
    match E.process st r with
    | (.error e, st) => (.reply 400 (.failure "invalid_request" e), st)
    | (.ok .other, st) => (.crash .typeError, st)
    | (.ok (.args d), st) =>
      if d.has "redirect_location" then (.redirect (text d "redirect_location"), st)
      else if d.has "http_response" then (.reply 200 (.text (text d "http_response")), st)
      else (doResponse E r d, st)

/-! ### Endpoints of this software -/

/-- A claim of a request that is a string. -/
def strArg (r : Dict Val) (k : String) : Option String := match r.get? k with | some (.str s) => some s | _ => none

/-- The fetch endpoint, with the way statements are signed. -/
def fetchEndpoint (sign : Dict Val → String) (now : Int) (parse : Server.Authority → Dict String ⊕ String → Except PyErr (Parsed (Dict Val))) (render : Dict Val → String → Dict Val → Except PyErr Info) : Endpoint Server.Authority (Dict Val) where
  parse := parse
  render := render
  process A r :=
    match Server.fetch A now { iss := strArg r "iss", sub := strArg r "sub" } with
    | (.error e, A) => (.error e, A)
    | (.ok p, A) => (.ok (.args [("response_msg", .str (sign p))]), A)

/-- The list endpoint, with the way answers are written. -/
def listEndpoint (json : Server.ListResponse → String) (K : SetEnum String) (W : Server.ListWorld) (ext : Bool) (parse : Server.Authority → Dict String ⊕ String → Except PyErr (Parsed (Dict Val)))
    (render : Dict Val → String → Dict Val → Except PyErr Info) : Endpoint Server.Authority (Dict Val) where
  parse := parse
  render := render
  process A r :=
    match Server.list K W ext A.subordinate r with
    | .error e => (.error e, A)
    | .ok l => (.ok (.args [("response_msg", .str (json l))]), A)

/-- The trust mark endpoint (/repo/src/fedservice/trust_mark_entity/server/trust_mark.py 36-46), with the way marks are signed. Simplification: a request without trust mark id or subject, which the
verification of the request refuses, raises TypeError. -/
def markEndpoint (sign : TrustMarks.Info → String) (now : Int) (parse : TrustMarks.Issuer → Dict String ⊕ String → Except PyErr (Parsed (Dict Val))) (render : Dict Val → String → Dict Val → Except PyErr Info) : Endpoint TrustMarks.Issuer (Dict Val) where
  parse := parse
  render := render
  process is r :=
    match strArg r "trust_mark_id", strArg r "sub" with
    | some id, some sub =>
      match is.create now id sub with
      | (.error e, is) => (.error e, is)
      | (.ok m, is) => (.ok (.args [("http_response", .str (sign m))]), is)
    | _, _ => (.error .typeError, is)

/-- The trust mark status endpoint, asked with subject and id. -/
def statusEndpoint (now : Int) (unpack : String → Except PyErr TrustMarks.Info) (parse : TrustMarks.Issuer → Dict String ⊕ String → Except PyErr (Parsed (Dict Val))) (render : Dict Val → String → Dict Val → Except PyErr Info) :
    Endpoint TrustMarks.Issuer (Dict Val) where
  parse := parse
  render := render
  process is r :=
    match is.status now { mark := (strArg r "trust_mark").map unpack, sub := strArg r "sub", trustMarkId := strArg r "trust_mark_id", id := strArg r "id" } with
    | .error e => (.error e, is)
    | .ok true => (.ok (.args [("response_args", .obj [("active", .bool true)])]), is)
    | .ok false => (.ok (.args [("error", .str "not_found"), ("error_description", .str "No active trust mark matching the query")]), is)

/-- The who endpoint; the front end passes on no trust anchor (views.py 116). -/
def whoEndpoint (json : List String → Val) (N : Discover.Net) (M : Discover.MarkEnv) (V : Chains.Env) (W : Discover.Who) (parse : Chains.State → Dict String ⊕ String → Except PyErr (Parsed (Dict Val)))
    (render : Dict Val → String → Dict Val → Except PyErr Info) : Endpoint Chains.State (Dict Val) where
  parse := parse
  render := render
  process st r :=
    match Discover.who N M V W st ⟨strArg r "entity_type", strArg r "credential_type", strArg r "trust_mark_id"⟩ "" with
    | (.error e, st) => (.error e, st)
    | (.ok none, st) => (.ok .other, st)
    | (.ok (some l), st) => (.ok (.args [("response_args", .obj [("entities_to_use", json l)])]), st)

/-- The registration endpoint of an OAuth authorization server; its `parse_request` takes what comes (/repo/src/fedservice/appserver/oauth2/registration.py 52-53). `read`: the token in a string; `sign`: the
statement as a signed token; `refusal`: the error in the response of idpyoidc. Simplification: what `verify_self_signed_signature` makes of a dict is an exception of type AttributeError. -/
def registerEndpoint (V : Chains.Env) (R : Registration.RegEnv) (priority : List String) (read : String → Doc) (sign : Registration.RegResponse → String) (refusal : String)
    (render : Dict String ⊕ String → String → Dict Val → Except PyErr Info) : Endpoint Registration.AppState (Dict String ⊕ String) where
  parse _ c := .ok (.request c)
  render := render
  process st c :=
    match c with
    | .inl _ => (.error .attributeError, st)
    | .inr data =>
      match Registration.explicitOauth2 V R priority st (read data) with
      | (.error e, st) => (.error e, st)
      | (.ok none, st) => (.ok (.args [("error", .str refusal)]), st)
      | (.ok (some (_, resp)), st) => (.ok (.args [("response_msg", .str (sign resp)), ("response_code", .int 201)]), st)

/-! ### C188 -/

/-- What idpyoidc is to make of a message that is ready to be sent, and of an error. -/
structure Renders {ρ : Type} (render : ρ → String → Dict Val → Except PyErr Info) : Prop where
  message : ∀ req d s, Dict.get? d "response_msg" = some (.str s) → ∃ hs, render req "" d = .ok { response := s, headers := hs }
  error : ∀ req e d, e ≠ "" → ∃ s hs, render req e d = .ok { response := s, headers := hs }
  other : ∀ req d, ∃ s hs, render req "" d = .ok { response := s, headers := hs }

/-- C188: whatever goes wrong at an endpoint, in parsing or in processing, is told the client, with status 400; a request that cannot be parsed changes nothing. -/
theorem C188_refused {σ ρ : Type} (E : Endpoint σ ρ) (st : σ) (req : Http) :
    (∀ e, E.parse st req.content = .error e → ∃ code, service E st req = (.reply 400 (.failure code e), st) ∧ (code = "invalid_request" ∨ (code = "unauthorized_client" ∧ E.unauthorized e = true))) ∧
    (∀ err, E.parse st req.content = .ok (.refused err) → service E st req = (.reply 400 (.refusal err), st)) ∧
    ∀ r e st', E.parse st req.content = .ok (.request r) → E.process st r = (.error e, st') → service E st req = (.reply 400 (.failure "invalid_request" e), st') := by
  refine ⟨?_, ?_, ?_⟩
  · intro e h
    unfold service
    rw [h]
    cases req with
    | get a =>
      by_cases hu : E.unauthorized e = true
      · exact ⟨"unauthorized_client", by simp [hu], .inr ⟨rfl, hu⟩⟩
      · exact ⟨"invalid_request", by simp [hu], .inl rfl⟩
    | post d f => exact ⟨"invalid_request", rfl, .inl rfl⟩
  · intro err h
    unfold service
    rw [h]
  · intro r e st' h1 h2
    unfold service
    rw [h1]
    simp only [h2]

/-- C188: an answer with status 200 means that the endpoint was asked and did not refuse. -/
theorem C188_success {σ ρ : Type} (E : Endpoint σ ρ) (st st' : σ) (req : Http) (body : Body) (hs : List (String × String)) (h : service E st req = (.reply 200 body hs, st')) :
    ∃ r d, E.parse st req.content = .ok (.request r) ∧ E.process st r = (.ok (.args d), st') ∧ (Dict.has d "http_response" = true ∨ text d "error" = "") := by
  unfold service at h
  split at h
  · split at h <;> (rw [Prod.mk.injEq] at h; cases h.1)
  · rw [Prod.mk.injEq] at h; cases h.1
  · next r hr =>
    split at h
    · rw [Prod.mk.injEq] at h; cases h.1
    · rw [Prod.mk.injEq] at h; cases h.1
    · next d st1 hd =>
      by_cases h1 : Dict.has d "redirect_location" = true
      · rw [if_pos h1, Prod.mk.injEq] at h; cases h.1
      · rw [if_neg h1] at h
        by_cases h2 : Dict.has d "http_response" = true
        · rw [if_pos h2, Prod.mk.injEq] at h
          rw [← h.2]
          exact ⟨r, d, hr, hd, .inl h2⟩
        · rw [if_neg h2, Prod.mk.injEq] at h
          obtain ⟨h3, h4⟩ := h
          subst h4
          refine ⟨r, d, hr, hd, .inr ?_⟩
          unfold doResponse at h3
          simp only at h3
          split at h3
          · cases h3
          · split at h3
            · rw [Answer.reply.injEq] at h3
              by_cases he : text d "error" = ""
              · exact he
              · rw [if_pos he] at h3; cases h3.1
            · cases h3

/-- C188: where an endpoint sends the user somewhere, so does the front end. -/
theorem C188_redirect {σ ρ : Type} (E : Endpoint σ ρ) (st st' : σ) (req : Http) (r : ρ) (d : Dict Val) (location : String) (h1 : E.parse st req.content = .ok (.request r))
    (h2 : E.process st r = (.ok (.args d), st')) (h3 : d.get? "redirect_location" = some (.str location)) : service E st req = (.redirect location, st') := by
  unfold service
  rw [h1]
  simp only [h2]
  rw [if_pos ((Dict.has_iff _ _).2 ((Dict.mem_keys_iff_exists _ _).2 ⟨_, h3⟩))]
  simp only [text, h3]

example : ∃ E : Endpoint Unit Unit, E.parse () (Http.get []).content = .ok (.request ()) ∧ E.process () () = (.ok (.args [("redirect_location", .str "https://op/verify")]), ()) :=
  ⟨{ parse := fun _ _ => .ok (.request ()), process := fun _ _ => (.ok (.args [("redirect_location", .str "https://op/verify")]), ()), render := fun _ _ _ => .error .otherError }, rfl, rfl⟩

/-- The only way not to get an answer. -/
theorem C188_crash {σ ρ : Type} (E : Endpoint σ ρ) (st st' : σ) (req : Http) (e : PyErr) (h : service E st req = (.crash e, st')) :
    ∃ r o, E.parse st req.content = .ok (.request r) ∧ E.process st r = (.ok o, st') ∧ (o = .other ∨ ∃ d, o = .args d ∧ E.render r (text d "error") (d.filter fun p => p.1 ≠ "error") = .error e) := by
  unfold service at h
  split at h
  · split at h <;> (rw [Prod.mk.injEq] at h; cases h.1)
  · rw [Prod.mk.injEq] at h; cases h.1
  · next r hr =>
    split at h
    · rw [Prod.mk.injEq] at h; cases h.1
    · next st1 hd => rw [Prod.mk.injEq] at h; rw [← h.2]; exact ⟨r, _, hr, hd, .inl rfl⟩
    · next d st1 hd =>
      by_cases h1 : Dict.has d "redirect_location" = true
      · rw [if_pos h1, Prod.mk.injEq] at h; cases h.1
      · rw [if_neg h1] at h
        by_cases h2 : Dict.has d "http_response" = true
        · rw [if_pos h2, Prod.mk.injEq] at h; cases h.1
        · rw [if_neg h2, Prod.mk.injEq] at h
          obtain ⟨h3, h4⟩ := h
          subst h4
          refine ⟨r, _, hr, hd, .inr ⟨d, rfl, ?_⟩⟩
          unfold doResponse at h3
          simp only at h3
          split at h3
          · next e' he => cases h3; exact he
          · split at h3 <;> cases h3

/-- An endpoint whose answer is a message ready to be sent. -/
theorem service_message {σ ρ : Type} (E : Endpoint σ ρ) (hR : Renders E.render) (hp : E.placement = "body") (st st' : σ) (req : Http) (r : ρ) (s : String)
    (h1 : E.parse st req.content = .ok (.request r)) (h2 : E.process st r = (.ok (.args [("response_msg", .str s)]), st')) :
    ∃ hs, service E st req = (.reply 200 (.text s) hs, st') := by
  have ht : text [("response_msg", .str s)] "error" = "" := rfl
  obtain ⟨hs, hr⟩ := hR.message r (List.filter (fun p : String × Val => p.1 ≠ "error") [("response_msg", .str s)]) s rfl
  refine ⟨hs, ?_⟩
  unfold service
  rw [h1]
  simp only [h2]
  have n1 : ¬ Dict.has [("response_msg", Val.str s)] "redirect_location" = true := by show ¬ (false = true); decide
  have n2 : ¬ Dict.has [("response_msg", Val.str s)] "http_response" = true := by show ¬ (false = true); decide
  rw [if_neg n1, if_neg n2]
  unfold doResponse
  simp only [ht, hr, hp]
  rfl

/-- C188, the fetch endpoint: over HTTP a client gets the statement the authority makes, signed, with status 200, and the refusal of the authority with status 400. -/
theorem C188_fetch (sign : Dict Val → String) (now : Int) (parse render) (hR : Renders render) (A : Server.Authority) (req : Http) (r : Dict Val) (h : parse A req.content = .ok (.request r)) :
    (∀ p A', Server.fetch A now { iss := strArg r "iss", sub := strArg r "sub" } = (.ok p, A') → ∃ hs, service (fetchEndpoint sign now parse render) A req = (.reply 200 (.text (sign p)) hs, A')) ∧
    ∀ e A', Server.fetch A now { iss := strArg r "iss", sub := strArg r "sub" } = (.error e, A') →
      service (fetchEndpoint sign now parse render) A req = (.reply 400 (.failure "invalid_request" e), A') := by
  refine ⟨fun p A' hf => ?_, fun e A' hf => ?_⟩
  · refine service_message (fetchEndpoint sign now parse render) hR rfl A A' req r (sign p) h ?_
    simp only [fetchEndpoint, hf]
  · exact (C188_refused (fetchEndpoint sign now parse render) A req).2.2 r e A' h (by simp only [fetchEndpoint, hf])

/-- C188, the list endpoint. -/
theorem C188_list (json : Server.ListResponse → String) (K : SetEnum String) (W : Server.ListWorld) (ext : Bool) (parse render) (hR : Renders render) (A : Server.Authority) (req : Http) (r : Dict Val)
    (h : parse A req.content = .ok (.request r)) :
    (∀ l, Server.list K W ext A.subordinate r = .ok l → ∃ hs, service (listEndpoint json K W ext parse render) A req = (.reply 200 (.text (json l)) hs, A)) ∧
    ∀ e, Server.list K W ext A.subordinate r = .error e → service (listEndpoint json K W ext parse render) A req = (.reply 400 (.failure "invalid_request" e), A) := by
  refine ⟨fun l hf => ?_, fun e hf => ?_⟩
  · refine service_message (listEndpoint json K W ext parse render) hR rfl A A req r (json l) h ?_
    simp only [listEndpoint, hf]
  · exact (C188_refused (listEndpoint json K W ext parse render) A req).2.2 r e A h (by simp only [listEndpoint, hf])

/-- C188, the status endpoint: an active mark is confirmed with status 200, one that is not with status 400. -/
theorem C188_status (now : Int) (unpack : String → Except PyErr TrustMarks.Info) (parse render) (hR : Renders render) (is : TrustMarks.Issuer) (req : Http) (r : Dict Val) (b : Bool)
    (h : parse is req.content = .ok (.request r))
    (hb : is.status now { mark := (strArg r "trust_mark").map unpack, sub := strArg r "sub", trustMarkId := strArg r "trust_mark_id", id := strArg r "id" } = .ok b) :
    ∃ body hs, service (statusEndpoint now unpack parse render) is req = (.reply (if b then 200 else 400) body hs, is) := by
  unfold service
  have h' : (statusEndpoint now unpack parse render).parse is req.content = .ok (.request r) := h
  rw [h']
  cases b with
  | true =>
    simp only [statusEndpoint, hb]
    obtain ⟨s, hs, hr⟩ := hR.other r (List.filter (fun p : String × Val => p.1 ≠ "error") [("response_args", .obj [("active", .bool true)])])
    refine ⟨.text s, hs, ?_⟩
    rw [if_neg (by decide), if_neg (by decide)]
    unfold doResponse
    have ht : text [("response_args", .obj [("active", .bool true)])] "error" = "" := rfl
    simp only [ht, hr]
    rfl
  | false =>
    simp only [statusEndpoint, hb]
    obtain ⟨s, hs, hr⟩ := hR.error r "not_found" (List.filter (fun p : String × Val => p.1 ≠ "error") [("error", .str "not_found"), ("error_description", .str "No active trust mark matching the query")]) (by decide)
    refine ⟨.text s, hs, ?_⟩
    rw [if_neg (by decide), if_neg (by decide)]
    unfold doResponse
    have ht : text [("error", .str "not_found"), ("error_description", .str "No active trust mark matching the query")] "error" = "not_found" := rfl
    simp only [ht, hr]
    rfl

/-- C188, the registration endpoint: a client whose statement is accepted gets the response of the server, signed; one whose statement is refused, and one that does not send a statement, is told so. -/
theorem C188_register (V : Chains.Env) (R : Registration.RegEnv) (priority : List String) (read : String → Doc) (sign : Registration.RegResponse → String) (refusal : String) (render) (hR : Renders render)
    (hf : refusal ≠ "") (st : Registration.AppState) (data : String) (form : Dict String) (hd : data ≠ "") :
    (∀ client resp st', Registration.explicitOauth2 V R priority st (read data) = (.ok (some (client, resp)), st') →
      ∃ hs, service (registerEndpoint V R priority read sign refusal render) st (.post data form) = (.reply 200 (.text (sign resp)) hs, st')) ∧
    (∀ st', Registration.explicitOauth2 V R priority st (read data) = (.ok none, st') →
      ∃ body hs, service (registerEndpoint V R priority read sign refusal render) st (.post data form) = (.reply 400 body hs, st')) ∧
    (∀ e st', Registration.explicitOauth2 V R priority st (read data) = (.error e, st') →
      service (registerEndpoint V R priority read sign refusal render) st (.post data form) = (.reply 400 (.failure "invalid_request" e), st')) ∧
    ∀ args, service (registerEndpoint V R priority read sign refusal render) st (.get args) = (.reply 400 (.failure "invalid_request" .attributeError), st) := by
  have hc : (Http.post data form).content = .inr data := if_pos hd
  refine ⟨fun client resp st' h => ?_, fun st' h => ?_, fun e st' h => ?_, fun args => rfl⟩
  · obtain ⟨hs, hr⟩ := hR.message (.inr data) (List.filter (fun p : String × Val => p.1 ≠ "error") [("response_msg", .str (sign resp)), ("response_code", .int 201)]) (sign resp) rfl
    refine ⟨hs, ?_⟩
    unfold service
    rw [hc]
    simp only [registerEndpoint, h]
    have n1 : ¬ Dict.has [("response_msg", Val.str (sign resp)), ("response_code", .int 201)] "redirect_location" = true := by show ¬ (false = true); decide
    have n2 : ¬ Dict.has [("response_msg", Val.str (sign resp)), ("response_code", .int 201)] "http_response" = true := by show ¬ (false = true); decide
    rw [if_neg n1, if_neg n2]
    unfold doResponse
    have ht : text [("response_msg", .str (sign resp)), ("response_code", .int 201)] "error" = "" := rfl
    simp only [ht, hr]
    rfl
  · obtain ⟨s, hs, hr⟩ := hR.error (.inr data) refusal (List.filter (fun p : String × Val => p.1 ≠ "error") [("error", .str refusal)]) hf
    refine ⟨.text s, hs, ?_⟩
    unfold service
    rw [hc]
    simp only [registerEndpoint, h]
    have n1 : ¬ Dict.has [("error", Val.str refusal)] "redirect_location" = true := by show ¬ (false = true); decide
    have n2 : ¬ Dict.has [("error", Val.str refusal)] "http_response" = true := by show ¬ (false = true); decide
    rw [if_neg n1, if_neg n2]
    unfold doResponse
    have ht : text [("error", .str refusal)] "error" = refusal := rfl
    simp only [ht, hr]
    rw [if_pos (show (none : Option String).getD "body" = "body" from rfl), if_pos hf]
  · refine (C188_refused (registerEndpoint V R priority read sign refusal render) st (.post data form)).2.2 (.inr data) e st' ?_ ?_
    · rw [hc]; rfl
    · simp only [registerEndpoint, h]

/-- C188 does not hold for the who endpoint: whatever is asked over HTTP is refused, as no trust anchor is passed on. -/
theorem C188_who_never (json : List String → Val) (N : Discover.Net) (M : Discover.MarkEnv) (V : Chains.Env) (W : Discover.Who) (parse render) (st : Chains.State) (req : Http) (r : Dict Val)
    (h : parse st req.content = .ok (.request r)) :
    service (whoEndpoint json N M V W parse render) st req = (.reply 400 (.failure "invalid_request" .attributeError), st) :=
  (C188_refused (whoEndpoint json N M V W parse render) st req).2.2 r .attributeError st h rfl

namespace Ex
open Discover.Ex
/-- What comes is taken for the one request `r`. -/
def asIs (r : Dict Val) {σ : Type} (_ : σ) (_ : Dict String ⊕ String) : Except PyErr (Parsed (Dict Val)) := .ok (.request r)
/-- The message, or something else. -/
def shows {ρ : Type} (_ : ρ) (e : String) (d : Dict Val) : Except PyErr Info :=
  if e ≠ "" then .ok { response := e } else match d.get? "response_msg" with | some (.str s) => .ok { response := s, headers := [("Content-Type", "application/jose")] } | _ => .ok { response := "{}" }
theorem renders {ρ : Type} : Renders (ρ := ρ) shows where
  message req d s h := ⟨[("Content-Type", "application/jose")], by unfold shows; rw [if_neg (by decide), h]⟩
  error req e d he := ⟨e, [], by unfold shows; rw [if_pos he]⟩
  other req d := by
    unfold shows
    rw [if_neg (by decide)]
    split
    · exact ⟨_, _, rfl⟩
    · exact ⟨_, _, rfl⟩
def sub188 : Dict Val := [("sub", .str "https://leaf")]
def authority188 : Server.Authority := { entityId := "https://ta", ownKeys := .str "TAKEYS", subordinate := [("https://leaf", [("jwks", .int 1)])] }
def issuer188 : TrustMarks.Issuer := ⟨[("tm", { lifetime := some 100 })], .file ⟨[("tm", "f")], []⟩⟩
end Ex

/-- A subordinate is asked for, and an entity nobody knows. -/
example : (∃ p hs, (service (fetchEndpoint (fun _ => "jws") 0 (Ex.asIs Ex.sub188) Ex.shows) Ex.authority188 (.get [("sub", "https://leaf")])).1 = .reply 200 p hs) ∧
    (service (fetchEndpoint (fun _ => "jws") 0 (Ex.asIs [("sub", .str "https://x")]) Ex.shows) Ex.authority188 (.get [("sub", "https://x")])).1 = .reply 400 (.failure "invalid_request" .unknownEntity) :=
  ⟨⟨.text "jws", [("Content-Type", "application/jose")], by decide +kernel⟩, by decide +kernel⟩

/-- The who endpoint could name `leaf`, but is asked in vain. -/
theorem C188_who_violation : ¬ ∀ (json : List String → Val) (N : Discover.Net) (M : Discover.MarkEnv) (V : Chains.Env) (W : Discover.Who) (render : Dict Val → String → Dict Val → Except PyErr Info)
    (st : Chains.State) (q : Discover.WhoRequest) (anchor : String) (l : List String), Renders render → (Discover.who N M V W st q anchor).1 = .ok (some l) →
    ∃ parse req r body hs, parse st req.content = .ok (.request r) ∧ (service (whoEndpoint json N M V W parse render) st req).1 = .reply 200 body hs := by
  intro h
  obtain ⟨parse, req, r, body, hs, h1, h2⟩ := h (fun _ => .null) Discover.Ex.wnet (Discover.Ex.wmarks "https://leaf") Discover.Ex.wenv Discover.Ex.wwho Ex.shows Discover.Ex.wst Discover.Ex.wreq "https://ta"
    ["https://leaf"] Ex.renders (by decide +kernel)
  rw [C188_who_never _ _ _ _ _ _ _ _ _ _ h1] at h2
  cases h2

/-- C188, the trust mark endpoint. -/
theorem C188_mark (sign : TrustMarks.Info → String) (now : Int) (parse render) (is : TrustMarks.Issuer) (req : Http) (r : Dict Val) (id sub : String)
    (h : parse is req.content = .ok (.request r)) (h1 : strArg r "trust_mark_id" = some id) (h2 : strArg r "sub" = some sub) :
    (∀ m is', is.create now id sub = (.ok m, is') → service (markEndpoint sign now parse render) is req = (.reply 200 (.text (sign m)), is')) ∧
    ∀ e is', is.create now id sub = (.error e, is') → service (markEndpoint sign now parse render) is req = (.reply 400 (.failure "invalid_request" e), is') := by
  have h' : (markEndpoint sign now parse render).parse is req.content = .ok (.request r) := h
  refine ⟨fun m is' hc => ?_, fun e is' hc => ?_⟩
  · unfold service
    rw [h']
    simp only [markEndpoint, h1, h2, hc]
    have n1 : ¬ Dict.has [("http_response", Val.str (sign m))] "redirect_location" = true := by show ¬ (false = true); decide
    have n2 : Dict.has [("http_response", Val.str (sign m))] "http_response" = true := rfl
    rw [if_neg n1, if_pos n2]
    rfl
  · exact (C188_refused (markEndpoint sign now parse render) is req).2.2 r e is' h' (by simp only [markEndpoint, h1, h2, hc])

/-! ### C189 -/

/-- Whom a mark is created for does not decide whether it is. -/
theorem create_anybody (is : TrustMarks.Issuer) (now : Int) (id sub sub' : String) :
    (∃ m, (is.create now id sub).1 = .ok m) ↔ ∃ m, (is.create now id sub').1 = .ok m := by
  have key : ∀ sub, (∃ m, (is.create now id sub).1 = .ok m) ↔ (∃ s, is.spec.get? id = some s) ∧
      (match is.issued with | .file db => (∃ f, db.config.get? id = some f) | .simple db => Dict.get? db id = none) := by
    intro sub
    unfold TrustMarks.Issuer.create
    cases hs : is.spec.get? id with
    | none => simp
    | some s =>
      have hid := TrustMarks.content_id s now id sub
      cases hi : is.issued with
      | file db =>
        simp only [TrustMarks.DB.add, TrustMarks.FileDB.add, hid]
        cases hf : db.config.get? id with
        | none => simp
        | some f => simp
      | simple db =>
        simp only [TrustMarks.DB.add, TrustMarks.SimpleDB.add, hid]
        cases hf : Dict.get? db id with
        | none => simp
        | some f => simp
  rw [key, key]

/-- C189, full: an operator can have the endpoint give a mark to some entities and not to others. -/
def C189_full : Prop :=
  ∀ (entitled : String → Bool) (id : String) (now : Int), ∃ is : TrustMarks.Issuer, ∀ sub, (∃ m, (is.create now id sub).1 = .ok m) ↔ entitled sub = true

/-- C189 does not hold. -/
theorem C189_violation : ¬ C189_full := by
  intro h
  obtain ⟨is, h⟩ := h (fun s => s == "https://a") "tm" 0
  have h1 := (h "https://a").2 (by decide)
  have h2 := (h "https://b").1 ((create_anybody is 0 "tm" "https://a" "https://b").1 h1)
  exact absurd h2 (by decide)

/-- C189: what the endpoint gives one, it gives anybody that asks, for whatever subject. -/
theorem C189_anybody (sign : TrustMarks.Info → String) (now : Int) (parse render) (is : TrustMarks.Issuer) (req req' : Http) (r r' : Dict Val) (id sub sub' : String)
    (h : parse is req.content = .ok (.request r)) (h1 : strArg r "trust_mark_id" = some id) (h2 : strArg r "sub" = some sub)
    (h' : parse is req'.content = .ok (.request r')) (h1' : strArg r' "trust_mark_id" = some id) (h2' : strArg r' "sub" = some sub')
    (body : Body) (hs : List (String × String)) (ha : (service (markEndpoint sign now parse render) is req).1 = .reply 200 body hs) :
    ∃ m, (service (markEndpoint sign now parse render) is req').1 = .reply 200 (.text (sign m)) ∧ m.id = id ∧ m.sub = sub' := by
  have k := C188_mark sign now parse render is req r id sub h h1 h2
  have k' := C188_mark sign now parse render is req' r' id sub' h' h1' h2'
  have hm : ∃ m, (is.create now id sub).1 = .ok m := by
    rcases hc : is.create now id sub with ⟨x, is'⟩
    cases x with
    | ok m => exact ⟨m, rfl⟩
    | error e => rw [k.2 e is' hc] at ha; cases ha
  obtain ⟨m, hm⟩ := (create_anybody is now id sub sub').1 hm
  rcases hc : is.create now id sub' with ⟨x, is'⟩
  rw [hc] at hm
  subst hm
  obtain ⟨s, -, e2⟩ := TrustMarks.create_ok hc
  refine ⟨m, by rw [k'.1 m is' hc], ?_⟩
  subst e2
  unfold TrustMarks.Spec.content
  split
  · split <;> exact ⟨rfl, rfl⟩
  · exact ⟨rfl, rfl⟩

theorem createAll_append : ∀ (a b : List (Int × String × String)) (is : TrustMarks.Issuer),
    TrustMarks.createAll is (a ++ b) = ((TrustMarks.createAll is a).1 ++ (TrustMarks.createAll (TrustMarks.createAll is a).2 b).1, (TrustMarks.createAll (TrustMarks.createAll is a).2 b).2)
  | [], b, is => rfl
  | (t, id, sub) :: a, b, is => by
    rcases hc : is.create t id sub with ⟨x, is'⟩
    cases x with
    | error e =>
      have step : ∀ c, TrustMarks.createAll is ((t, id, sub) :: c) = TrustMarks.createAll is' c := by
        intro c
        conv => lhs; unfold TrustMarks.createAll
        rw [hc]
      rw [List.cons_append, step, step]
      exact createAll_append a b is'
    | ok m =>
      have step : ∀ c, TrustMarks.createAll is ((t, id, sub) :: c) = (m :: (TrustMarks.createAll is' c).1, (TrustMarks.createAll is' c).2) := by
        intro c
        conv => lhs; unfold TrustMarks.createAll
        rw [hc]
      rw [List.cons_append, step, step]
      simp only [createAll_append a b is', List.cons_append]

/-- C189: a mark that somebody asked for, for whatever subject, is confirmed by the status endpoint afterwards to whoever asks, as long as the specification lets it be valid. -/
theorem C189_confirmed (sign : TrustMarks.Info → String) (parse parse' render render') (unpack : String → Except PyErr TrustMarks.Info) (hR : Renders render')
    (spec : Dict TrustMarks.Spec) (config : Dict String) (rs : List (Int × String × String)) (t now : Int) (req req' : Http) (r r' : Dict Val) (id sub : String) (s : TrustMarks.Spec)
    (hs : spec.get? id = some s) (h0 : id ≠ "") (ho : TrustMarks.OwnFiles config) (hid : id ∈ config.keys) (ht : (rs ++ [(t, id, sub)]).Pairwise fun a b => a.1 ≤ b.1) (hv : s.Valid t now)
    (h : parse (TrustMarks.createAll ⟨spec, .file ⟨config, []⟩⟩ rs).2 req.content = .ok (.request r)) (h1 : strArg r "trust_mark_id" = some id) (h2 : strArg r "sub" = some sub)
    (h' : ∀ is, parse' is req'.content = .ok (.request r')) (h1' : strArg r' "trust_mark_id" = some id) (h2' : strArg r' "sub" = some sub) (h3' : strArg r' "trust_mark" = none) :
    ∃ m is' body hs, service (markEndpoint sign t parse render) (TrustMarks.createAll ⟨spec, .file ⟨config, []⟩⟩ rs).2 req = (.reply 200 (.text (sign m)), is') ∧ m.id = id ∧ m.sub = sub ∧
      service (statusEndpoint now unpack parse' render') is' req' = (.reply 200 body hs, is') := by
  have hspec : (TrustMarks.createAll ⟨spec, .file ⟨config, []⟩⟩ rs).2 = ⟨spec, .file (TrustMarks.addAll ⟨config, []⟩ (TrustMarks.createAll ⟨spec, .file ⟨config, []⟩⟩ rs).1)⟩ := TrustMarks.createAll_file spec rs _
  obtain ⟨f, hf⟩ := (Dict.mem_keys_iff_exists _ _).1 hid
  have happ := createAll_append rs [(t, id, sub)] ⟨spec, .file ⟨config, []⟩⟩
  obtain ⟨b, b1, b2⟩ := TrustMarks.C53_requests_partial spec config (rs ++ [(t, id, sub)]) now id sub s hs h0 ho hid ht
  rcases hc : (TrustMarks.createAll ⟨spec, .file ⟨config, []⟩⟩ rs).2.create t id sub with ⟨x, is'⟩
  have hx : ∃ m, x = .ok m ∧ m = s.content t id sub := by
    rw [hspec] at hc
    unfold TrustMarks.Issuer.create at hc
    rw [show Dict.get? spec id = some s from hs] at hc
    have hcfg : Dict.get? (TrustMarks.addAll ⟨config, []⟩ (TrustMarks.createAll ⟨spec, .file ⟨config, []⟩⟩ rs).1).config id = some f := by rw [TrustMarks.addAll_config]; exact hf
    simp only [TrustMarks.DB.add, TrustMarks.FileDB.add, TrustMarks.content_id, hcfg] at hc
    rw [Prod.mk.injEq] at hc
    exact ⟨_, hc.1.symm, rfl⟩
  obtain ⟨m, rfl, hm⟩ := hx
  have hnext : (TrustMarks.createAll ⟨spec, .file ⟨config, []⟩⟩ (rs ++ [(t, id, sub)])).2 = is' := by
    rw [happ]
    simp only [TrustMarks.createAll, hc]
  rw [hnext] at b1
  have hb : b = true := b2.2 ⟨t, by simp, hv⟩
  subst hb
  obtain ⟨body, hs', e1⟩ := C188_status now unpack parse' render' hR is' req' r' true (h' is') (by rw [h1', h2', h3']; exact b1)
  refine ⟨m, is', body, hs', (C188_mark sign t parse render _ req r id sub h h1 h2).1 m is' hc, ?_, ?_, e1⟩
  · rw [hm]; exact TrustMarks.content_id ..
  · rw [hm]
    unfold TrustMarks.Spec.content
    split
    · split <;> rfl
    · rfl

/-- Somebody asks for a mark for `x`, and it is confirmed. -/
example :
    (service (markEndpoint (fun m => m.sub) 10 (Ex.asIs [("trust_mark_id", .str "tm"), ("sub", .str "https://x")]) Ex.shows) Ex.issuer188 (.get [])).1 = .reply 200 (.text "https://x") ∧
    (service (statusEndpoint 50 (fun _ => .error .valueError) (Ex.asIs [("trust_mark_id", .str "tm"), ("sub", .str "https://x")]) Ex.shows)
      (service (markEndpoint (fun m => m.sub) 10 (Ex.asIs [("trust_mark_id", .str "tm"), ("sub", .str "https://x")]) Ex.shows) Ex.issuer188 (.get [])).2 (.get [])).1 = .reply 200 (.text "{}") ∧
    (service (statusEndpoint 500 (fun _ => .error .valueError) (Ex.asIs [("trust_mark_id", .str "tm"), ("sub", .str "https://x")]) Ex.shows)
      (service (markEndpoint (fun m => m.sub) 10 (Ex.asIs [("trust_mark_id", .str "tm"), ("sub", .str "https://x")]) Ex.shows) Ex.issuer188 (.get [])).2 (.get [])).1 = .reply 400 (.text "not_found") := by
  decide +kernel

end Fed.Web
