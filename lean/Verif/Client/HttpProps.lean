import Verif.Client.Http
/-
Properties C130-C132: what clients make of HTTP responses.
-/
namespace Fed.Client.Http
open Fed

/-! ## C130 -/

/-- `f` is the format of a body: the one the content type stands for, if that is one of the three known, else the one expected. -/
def FormatOf (S : Service) (r : Response) (exp f : String) : Prop :=
  (S.deser r.contentType = "json" ∨ S.deser r.contentType = "jwt" ∨ S.deser r.contentType = "urlencoded") ∧ f = S.deser r.contentType ∨
  S.deser r.contentType ≠ "json" ∧ S.deser r.contentType ≠ "jwt" ∧ S.deser r.contentType ≠ "urlencoded" ∧ f = exp

/-- The response was a success, and `a` is what is in it: a message parsed in its format, or the text, if HTML is expected. -/
def Good (S : Service) (r : Response) (expected : String) (a : Answer) : Prop :=
  r.status < 300 ∧ let exp := if expected.isEmpty then S.format else expected
    ((exp = "html" ∧ a = .text r.text) ∨ (exp ≠ "html" ∧ r.status ∈ S.successful ∧
      ∃ d f, a = .msg d ∧ FormatOf S r exp f ∧ S.parse r.text f = .ok d))

/-- C130 in full: a client's state is changed only by what was in a successful response. -/
def C130_full (kind : Kind) : Prop :=
  ∀ (S : Service) (r : Response) (expected : String) (a : Answer), (serviceRequest kind S (.ok r) expected).2 = some a → Good S r expected a

namespace Ex
/-- A service that takes any text in any of the formats `fs` for its message. -/
def service (fs : List String) (deser : Option String → String := fun _ => "json") : Service where
  parse t f := if f ∈ fs then .ok [("a", .str t)] else .error .valueError
  deser := deser
  successful := [200, 201]
  fromJson t := .ok [("error", .str t), ("from", .str "json")]
  fromUrl _ := .error .valueError
  format := "json"
end Ex

/-- C130 does not hold: a redirection changes it. -/
theorem C130_redirect_violation (kind : Kind) : ¬ C130_full kind := by
  intro h
  have := (h (Ex.service ["json"]) ⟨307, none, ""⟩ "" (.http ⟨307, none, ""⟩) (by cases kind <;> decide)).1
  exact absurd this (by decide)

/-- C130 does not hold: a response with an error status changes the state of a client of a provider, if its body parses. -/
theorem C130_error_violation : ¬ ∀ (S : Service) (r : Response) (expected : String) (a : Answer), ¬ (300 ≤ r.status ∧ r.status < 400) → (serviceRequest .client S (.ok r) expected).2 = some a → Good S r expected a := by
  intro h
  have := (h (Ex.service ["application/jose"]) ⟨400, some "application/jose", "x"⟩ "" (.msg [("a", .str "x"), ("status_code", .int 400)]) (by decide) (by decide)).1
  exact absurd this (by decide)

theorem bodyType_format (S : Service) (r : Response) (expected : String) : FormatOf S r expected (bodyType S r expected) := by
  unfold bodyType FormatOf
  simp only [List.mem_cons, List.not_mem_nil, or_false]
  split
  · exact .inl ⟨by assumption, rfl⟩
  · rename_i h
    exact .inr ⟨fun e => h (.inl e), fun e => h (.inr (.inl e)), fun e => h (.inr (.inr e)), rfl⟩

theorem service_answer {kind : Kind} {S : Service} {r : Except PyErr Response} {expected : String} {a : Answer} (h : (serviceRequest kind S r expected).2 = some a) :
    getResponse kind S r expected = .ok a ∧ a.hasError = false ∧ (serviceRequest kind S r expected).1 = .ok a := by
  unfold serviceRequest at h ⊢
  split at h
  · cases h
  · rename_i a' ha
    split at h
    · cases h
    · rename_i he
      simp only [Option.some.injEq] at h
      subst h
      exact ⟨ha, by simpa using he, rfl⟩

theorem success_parse {S : Service} {r : Response} {exp : String} {a : Answer} (h : (S.parse r.text (bodyType S r exp)).map Answer.msg = .ok a) :
    ∃ d f, a = .msg d ∧ FormatOf S r exp f ∧ S.parse r.text f = .ok d := by
  cases hp : S.parse r.text (bodyType S r exp) with
  | error e => rw [hp] at h; cases h
  | ok d =>
    rw [hp] at h
    simp only [Except.map, Except.ok.injEq] at h
    exact ⟨d, _, h.symm, bodyType_format S r exp, hp⟩

theorem parseError_ok {parse : String → String → Except PyErr (Dict Val)} {r : Response} {fmt expected : String} {a : Answer} (h : parseError parse r fmt expected = .ok a) :
    ∃ d, a = .msg (d.set "status_code" (.int r.status)) ∧ (parse r.text fmt = .ok d ∨ (parse r.text expected = .ok d ∧ parse r.text fmt = .error .valueError)) := by
  unfold parseError at h
  simp only at h
  split at h
  · rename_i d hd
    simp only [Except.ok.injEq] at h
    exact ⟨d, h.symm, Or.inl hd⟩
  · rename_i h0
    split at h
    · split at h
      · rename_i d hd
        simp only [Except.ok.injEq] at h
        exact ⟨d, h.symm, Or.inr ⟨hd, h0⟩⟩
      · cases h
      · cases h
    · cases h
  · cases h

/-- C130 for federation clients, but for redirections. -/
theorem C130_federation_partial (S : Service) (r : Response) (expected : String) (a : Answer) (hr : ¬ (300 ≤ r.status ∧ r.status < 400))
    (h : (serviceRequest .federation S (.ok r) expected).2 = some a) : Good S r expected a := by
  obtain ⟨h, he, -⟩ := service_answer h
  simp only [getResponse, fedGet] at h
  rw [if_neg hr] at h
  split at h
  · simp only [Except.ok.injEq] at h
    subst h
    cases he
  · rename_i h4
    have h3 : r.status < 300 := by omega
    refine ⟨h3, ?_⟩
    simp only
    generalize (if expected.isEmpty then S.format else expected) = exp at h ⊢
    split at h
    · rename_i hh
      simp only [Except.ok.injEq] at h
      exact Or.inl ⟨hh, h.symm⟩
    · rename_i hh
      refine Or.inr ⟨hh, ?_⟩
      unfold fedParse at h
      split at h
      · rename_i hs
        exact ⟨hs, success_parse h⟩
      · rw [if_neg (by simp only [List.mem_cons, List.not_mem_nil, or_false]; omega), if_neg (by omega), if_neg (by omega)] at h
        cases h

/-- C130 for clients of providers, but for redirections and the status codes from 400 to 499; with these, the body has to parse as a message of the service, in the format named by the content type or in the one expected,
or, if one of these is plain `json` or `urlencoded`, as such. -/
theorem C130_client_partial (S : Service) (hS : ∀ s ∈ S.successful, s < 300) (r : Response) (expected : String) (a : Answer) (hr : ¬ (300 ≤ r.status ∧ r.status < 400))
    (h : (serviceRequest .client S (.ok r) expected).2 = some a) :
    Good S r expected a ∨ (400 ≤ r.status ∧ r.status < 500 ∧ ∃ d f, a = .msg (d.set "status_code" (.int r.status)) ∧
      (S.parse r.text f = .ok d ∨ f = "json" ∧ S.fromJson r.text = .ok d ∨ f = "urlencoded" ∧ S.fromUrl r.text = .ok d) ∧ (some f = r.contentType ∨ f = expected ∨ f = "application/json")) := by
  obtain ⟨h, he, -⟩ := service_answer h
  simp only [getResponse, clientGet] at h
  rw [if_neg hr] at h
  split at h
  · rename_i h3
    refine Or.inl ⟨h3, ?_⟩
    simp only at h ⊢
    generalize (if expected.isEmpty then S.format else expected) = exp at h ⊢
    split at h
    · rename_i hh
      simp only [Except.ok.injEq] at h
      exact Or.inl ⟨hh, h.symm⟩
    · rename_i hh
      refine Or.inr ⟨hh, ?_⟩
      unfold clientParse at h
      split at h
      · rename_i hs
        exact ⟨hs, success_parse h⟩
      · rw [if_neg (by simp only [List.mem_cons, List.not_mem_nil, or_false]; omega), if_neg (by omega), if_neg (by omega)] at h
        cases h
  · rename_i h3
    unfold clientParse at h
    rw [if_neg (fun hs => h3 (hS _ hs)), if_neg (by simp only [List.mem_cons, List.not_mem_nil, or_false]; omega)] at h
    split at h
    · cases h
    · split at h
      · rename_i h4
        refine Or.inr ⟨h4.1, h4.2, ?_⟩
        obtain ⟨d, rfl, hd⟩ := parseError_ok h
        have key : ∀ f, parseResponse S r.text f = .ok d → S.parse r.text f = .ok d ∨ f = "json" ∧ S.fromJson r.text = .ok d ∨ f = "urlencoded" ∧ S.fromUrl r.text = .ok d := by
          intro f hf
          unfold parseResponse at hf
          split at hf
          · rename_i d' hd'
            cases hf
            exact Or.inl hd'
          · unfold parseUnsigned at hf
            split at hf
            · rename_i hj; exact Or.inr (Or.inl ⟨hj, hf⟩)
            · split at hf
              · rename_i hj; exact Or.inr (Or.inr ⟨hj, hf⟩)
              · cases hf
                simp [Answer.hasError, Dict.get?_set_ne _ _ (show "status_code" ≠ "error" by decide), Dict.get?_cons] at he
        rcases hd with hd | ⟨hd, -⟩
        · refine ⟨d, _, rfl, key _ hd, ?_⟩
          split
          · exact Or.inr (Or.inr rfl)
          · rename_i hc
            cases hct : r.contentType with
            | none => rw [hct] at hc; exact absurd rfl hc
            | some c => exact Or.inl rfl
        · exact ⟨d, expected, rfl, key _ hd, Or.inr (Or.inl rfl)⟩
      · cases h

/-- And if the request fails, nothing is changed; nor by anything that contains an error. -/
theorem C130_error_partial (kind : Kind) (S : Service) (r : Except PyErr Response) (expected : String) (a : Answer) (h : (serviceRequest kind S r expected).2 = some a) :
    (serviceRequest kind S r expected).1 = .ok a ∧ ∀ d, a = .msg d → d.get? "error" = none := by
  obtain ⟨-, he, h⟩ := service_answer h
  refine ⟨h, ?_⟩
  rintro d rfl
  simpa [Answer.hasError] using he

example : serviceRequest .client (Ex.service ["json"]) (.ok ⟨200, none, "x"⟩) "" = (.ok (.msg [("a", .str "x")]), some (.msg [("a", .str "x")])) ∧
    serviceRequest .federation (Ex.service ["jose"] fun _ => "") (.ok ⟨201, none, "x"⟩) "jose" = (.ok (.msg [("a", .str "x")]), some (.msg [("a", .str "x")])) ∧
    serviceRequest .federation (Ex.service ["json"]) (.ok ⟨404, none, "x"⟩) "" = (.ok (.msg [("error", .str "System error"), ("error_description", .str "x")]), none) := by decide

/-! ## C131 -/

/-- C131 in full: the error a provider gives in JSON is the one the client gets. -/
def C131_full (kind : Kind) : Prop :=
  ∀ (S : Service) (r : Response) (expected : String) (d : Dict Val) (e : Val), (∀ s ∈ S.successful, s < 300) → 400 ≤ r.status → r.status < 500 → r.contentType = some "application/json" →
    S.fromJson r.text = .ok d → d.get? "error" = some e → (∀ f, ∃ err, S.parse r.text f = .error err) →
    ∃ m, getResponse kind S (.ok r) expected = .ok (.msg m) ∧ m.get? "error" = some e

/-- C131 does not hold: clients of a provider get the whole text as the error, and federation clients get `System error`. -/
theorem C131_text_violation (kind : Kind) : ¬ C131_full kind := by
  intro h
  obtain ⟨m, h1, h2⟩ := h { Ex.service [] with fromJson := fun _ => .ok [("error", .str "invalid_request")] } ⟨400, some "application/json", "{..}"⟩ "" [("error", .str "invalid_request")] (.str "invalid_request")
    (by decide) (by decide) (by decide) rfl rfl (by decide) (fun f => ⟨.valueError, rfl⟩)
  cases kind
  · have : m = [("error", .str "{..}"), ("status_code", .int 400)] := by
      have h3 : getResponse .client { Ex.service [] with fromJson := fun _ => .ok [("error", .str "invalid_request")] } (.ok ⟨400, some "application/json", "{..}"⟩) "" = .ok (.msg [("error", .str "{..}"), ("status_code", .int 400)]) := by decide
      rw [h3] at h1
      cases h1
      rfl
    subst this
    exact absurd h2 (by decide)
  · have : m = [("error", .str "System error"), ("error_description", .str "{..}")] := by
      have h3 : getResponse .federation { Ex.service [] with fromJson := fun _ => .ok [("error", .str "invalid_request")] } (.ok ⟨400, some "application/json", "{..}"⟩) "" = .ok (.msg [("error", .str "System error"), ("error_description", .str "{..}")]) := by decide
      rw [h3] at h1
      cases h1
      rfl
    subst this
    exact absurd h2 (by decide)

/-- C131 as far as it holds: the text of an error is not lost, and the status code is in the answer that a client of a provider gets. -/
theorem C131_client_partial (S : Service) (r : Response) (expected : String) (hS : ∀ s ∈ S.successful, s < 300) (h4 : 400 ≤ r.status) (h5 : r.status < 500)
    (hc : r.contentType ≠ some "json" ∧ r.contentType ≠ some "urlencoded") (hp : ∀ f, ∃ err, S.parse r.text f = .error err) :
    ∃ m, getResponse .client S (.ok r) expected = .ok (.msg m) ∧ m.get? "error" = some (.str r.text) ∧ m.get? "status_code" = some (.int r.status) := by
  have hu : ∀ f, f ≠ "json" → f ≠ "urlencoded" → parseResponse S r.text f = .ok [("error", .str r.text)] := by
    intro f h1 h2
    obtain ⟨err, he⟩ := hp f
    unfold parseResponse
    rw [he]
    simp only [parseUnsigned, h1, h2, if_false]
  refine ⟨[("error", .str r.text), ("status_code", .int r.status)], ?_, rfl, rfl⟩
  simp only [getResponse, clientGet]
  rw [if_neg (by omega), if_neg (by omega)]
  unfold clientParse
  rw [if_neg (fun hs => absurd (hS _ hs) (by omega)), if_neg (by simp only [List.mem_cons, List.not_mem_nil, or_false]; omega), if_neg (by omega), if_pos ⟨h4, h5⟩]
  unfold parseError
  rw [hu]
  · rfl
  · split
    · decide
    · intro h
      cases hct : r.contentType with
      | none => rw [hct] at h; exact absurd h (by decide)
      | some c => rw [hct] at h; exact hc.1 (by rw [hct]; exact congrArg some h)
  · split
    · decide
    · intro h
      cases hct : r.contentType with
      | none => rw [hct] at h; exact absurd h (by decide)
      | some c => rw [hct] at h; exact hc.2 (by rw [hct]; exact congrArg some h)

/-- The same for federation clients, with whatever the services make of it and for all status codes from 400 on. -/
theorem C131_federation_partial (S : Service) (r : Response) (expected : String) (h4 : 400 ≤ r.status) :
    ∃ m, getResponse .federation S (.ok r) expected = .ok (.msg m) ∧ (m.get? "error").isSome = true ∧ m.get? "error_description" = some (.str r.text) := by
  refine ⟨[("error", .str "System error"), ("error_description", .str r.text)], ?_, rfl, rfl⟩
  simp only [getResponse, fedGet]
  rw [if_neg (by omega), if_pos h4]

example : getResponse .client (Ex.service []) (.ok ⟨404, some "text/html", "gone"⟩) "" = .ok (.msg [("error", .str "gone"), ("status_code", .int 404)]) := by decide

/-- `parse_request_response`, of either client. -/
def parseRequestResponse : Kind → Service → Response → String → Except PyErr Answer
  | .client => clientParse
  | .federation => fedParse

/-- What becomes of the bodies of responses that were not successful, when they are parsed: a redirection is given back as it is, and nothing else is; a message is given back for the status codes from 400
to 499 only, with the status code in it; all others are exceptions, of their own kind for 500. -/
theorem C131_statuses (kind : Kind) (S : Service) (r : Response) (expected : String) (hs : r.status ∉ S.successful) :
    (∀ r', parseRequestResponse kind S r expected = .ok (.http r') ↔ (r.status = 302 ∨ r.status = 303) ∧ r' = r) ∧
    (∀ t, parseRequestResponse kind S r expected ≠ .ok (.text t)) ∧
    (∀ m, parseRequestResponse kind S r expected = .ok (.msg m) → 400 ≤ r.status ∧ r.status < 500 ∧ m.get? "status_code" = some (.int r.status)) ∧
    (r.status = 500 → parseRequestResponse kind S r expected = .error (match kind with | .client => .systemError | .federation => .valueError)) ∧
    (parseRequestResponse kind S r expected = .error (match kind with | .client => .systemError | .federation => .valueError) → 400 ≤ r.status ∧ r.status ≤ 500) := by
  have msgs : ∀ parse fmt a, parseError parse r fmt expected = .ok a → ∃ m, a = .msg m ∧ m.get? "status_code" = some (.int r.status) := by
    intro parse fmt a h
    obtain ⟨d, rfl, -⟩ := parseError_ok h
    exact ⟨_, rfl, Dict.get?_set_self _ _ _⟩
  have main : ∀ (fmt : String) (parse : String → String → Except PyErr (Dict Val)) (e5 : PyErr) (x : Except PyErr Answer), e5 ≠ .serviceError →
      x = (if r.status ∈ [302, 303] then .ok (.http r) else if r.status = 500 then .error e5 else if 400 ≤ r.status ∧ r.status < 500 then parseError parse r fmt expected else .error .serviceError) →
      (∀ r', x = .ok (.http r') ↔ (r.status = 302 ∨ r.status = 303) ∧ r' = r) ∧ (∀ t, x ≠ .ok (.text t)) ∧
      (∀ m, x = .ok (.msg m) → 400 ≤ r.status ∧ r.status < 500 ∧ m.get? "status_code" = some (.int r.status)) ∧ (r.status = 500 → x = .error e5) ∧ (x = .error e5 → 400 ≤ r.status ∧ r.status ≤ 500) := by
    intro fmt parse e5 x he hx
    by_cases h1 : r.status ∈ [302, 303]
    · rw [if_pos h1] at hx
      subst hx
      simp only [List.mem_cons, List.not_mem_nil, or_false] at h1
      refine ⟨fun r' => ⟨fun h => by cases h; exact ⟨h1, rfl⟩, fun h => by rw [h.2]⟩, by simp, by simp, fun h => by omega, fun h => by cases h⟩
    · rw [if_neg h1] at hx
      simp only [List.mem_cons, List.not_mem_nil, or_false] at h1
      by_cases h5 : r.status = 500
      · rw [if_pos h5] at hx
        subst hx
        exact ⟨fun r' => ⟨fun h => (by cases h), fun h => absurd h.1 h1⟩, by simp, by simp, fun _ => rfl, fun _ => by omega⟩
      · rw [if_neg h5] at hx
        by_cases h4 : 400 ≤ r.status ∧ r.status < 500
        · rw [if_pos h4] at hx
          have key := msgs parse fmt
          rw [← hx] at key
          refine ⟨fun r' => ⟨fun h => ?_, fun h => absurd h.1 h1⟩, fun t h => ?_, fun m h => ?_, fun h => absurd h h5, fun _ => by omega⟩
          · obtain ⟨m, hm, -⟩ := key _ h; cases hm
          · obtain ⟨m, hm, -⟩ := key _ h; cases hm
          · obtain ⟨m', hm, h'⟩ := key _ h; cases hm; exact ⟨h4.1, h4.2, h'⟩
        · rw [if_neg h4] at hx
          subst hx
          refine ⟨fun r' => ⟨fun h => (by cases h), fun h => absurd h.1 h1⟩, by simp, by simp, fun h => absurd h h5, fun h => ?_⟩
          cases h; exact absurd rfl he
  cases kind
  · refine main (if (r.contentType.getD "").isEmpty then "application/json" else r.contentType.getD "") (parseResponse S) .systemError _ (by decide) ?_
    simp only [parseRequestResponse, clientParse, if_neg hs]
  · refine main (if (S.deser r.contentType).isEmpty then "json" else S.deser r.contentType) S.parse .valueError _ (by decide) ?_
    simp only [parseRequestResponse, fedParse, if_neg hs]

/-- The body of a response with a status code from 400 to 499 is tried in the format the content type names, JSON if it names none, and then in the format that was expected. Federation clients go by the
deserialisation method that belongs to the content type, clients of providers by the content type itself. -/
theorem C131_formats (kind : Kind) (S : Service) (r : Response) (expected : String) (hs : r.status ∉ S.successful) (h4 : 400 ≤ r.status) (h5 : r.status < 500) (f : String) (d : Dict Val)
    (hf : match kind with
      | .client => r.contentType = some f ∧ f ≠ "" ∨ (r.contentType = none ∨ r.contentType = some "") ∧ f = "application/json"
      | .federation => S.deser r.contentType = f ∧ f ≠ "" ∨ S.deser r.contentType = "" ∧ f = "json") :
    (S.parse r.text f = .ok d → parseRequestResponse kind S r expected = .ok (.msg (d.set "status_code" (.int r.status)))) ∧
    (kind = .federation → S.parse r.text f = .error .valueError → S.parse r.text expected = .ok d → parseRequestResponse kind S r expected = .ok (.msg (d.set "status_code" (.int r.status)))) := by
  have h0 : r.status ∉ [302, 303] := by simp only [List.mem_cons, List.not_mem_nil, or_false]; omega
  cases kind
  · refine ⟨fun hp => ?_, fun h => by cases h⟩
    have hfmt : (if (r.contentType.getD "").isEmpty then "application/json" else r.contentType.getD "") = f := by
      rcases hf with ⟨h1, h2⟩ | ⟨h1 | h1, rfl⟩
      · rw [h1, if_neg (by simpa using h2)]
        rfl
      · rw [h1]; rfl
      · rw [h1]; rfl
    simp only [parseRequestResponse, clientParse, if_neg hs, if_neg h0, if_neg (show ¬ r.status = 500 by omega), if_pos (And.intro h4 h5), hfmt, parseError, parseResponse, hp]
  · have hfmt : (if (S.deser r.contentType).isEmpty then "json" else S.deser r.contentType) = f := by
      rcases hf with ⟨h1, h2⟩ | ⟨h1, rfl⟩
      · rw [h1, if_neg (by simpa using h2)]
      · rw [h1]; rfl
    have hg : parseRequestResponse .federation S r expected = parseError S.parse r f expected := by
      simp only [parseRequestResponse, fedParse, if_neg hs, if_neg h0, if_neg (show ¬ r.status = 500 by omega), if_pos (And.intro h4 h5), hfmt]
    rw [hg]
    refine ⟨fun hp => by simp only [parseError, hp], fun _ hp hq => ?_⟩
    have hne : f ≠ expected := by
      rintro rfl
      rw [hp] at hq
      cases hq
    simp only [parseError, hp, if_pos hne, hq]

example : parseRequestResponse .federation (Ex.service ["jwt"]) ⟨400, none, "x"⟩ "jwt" = .ok (.msg [("a", .str "x"), ("status_code", .int 400)]) ∧
    parseRequestResponse .client (Ex.service ["application/json"]) ⟨404, none, "x"⟩ "jwt" = .ok (.msg [("a", .str "x"), ("status_code", .int 404)]) ∧
    parseRequestResponse .client (Ex.service []) ⟨500, none, "x"⟩ "jwt" = .error .systemError := by decide

/-! ## C132 -/

/-- `t` is the first of the types whose metadata has the claim with a value that is not empty, zero or false. -/
def FirstWith (metadata : Dict (Dict Val)) (claim : String) (types : List String) (t : String) (v : Val) : Prop :=
  ∃ pre post d, types = pre ++ t :: post ∧ metadata.get? t = some d ∧ d.get? claim = some v ∧ v.truthy = true ∧
    ∀ t' ∈ pre, ∀ d' v', metadata.get? t' = some d' → d'.get? claim = some v' → v'.truthy = false

/-- C132 in full: a claim is found if, and only if, one of the types asked for has it in its metadata. -/
def C132_full : Prop :=
  ∀ (metadata : Dict (Dict Val)) (claim : String) (types : List String), types ≠ [] →
    ((getMetadataClaim metadata claim types).isOk = true ↔ ∃ t ∈ types, ∃ d v, metadata.get? t = some d ∧ d.get? claim = some v)

/-- C132 does not hold: a claim that is false is not found. -/
theorem C132_false_violation : ¬ C132_full := by
  intro h
  exact absurd ((h [("openid_provider", [("request_parameter_supported", .bool false)])] "request_parameter_supported" ["openid_provider"] (by decide)).2 ⟨"openid_provider", by simp, [("request_parameter_supported", .bool false)], .bool false, rfl, rfl⟩) (by decide)

theorem findClaim_ok {metadata : Dict (Dict Val)} {claim : String} {v : Val} (types : List String) (h : findClaim metadata claim types = .ok v) : ∃ t, FirstWith metadata claim types t v := by
  induction types with
  | nil => cases h
  | cons t ts ih =>
    have hno : (∀ d' v', metadata.get? t = some d' → d'.get? claim = some v' → v'.truthy = false) → findClaim metadata claim ts = .ok v → ∃ t', FirstWith metadata claim (t :: ts) t' v := by
      intro hn hr
      obtain ⟨t', pre, post, d, h1, h2, h3, h4, h5⟩ := ih hr
      refine ⟨t', t :: pre, post, d, by rw [h1]; rfl, h2, h3, h4, ?_⟩
      intro x hx
      simp only [List.mem_cons] at hx
      rcases hx with rfl | hx
      · exact hn
      · exact h5 x hx
    rw [findClaim] at h
    split at h
    · rename_i w hw
      cases hd : metadata.get? t with
      | none => rw [hd] at hw; cases hw
      | some d =>
        rw [hd] at hw
        simp only [Option.bind_some] at hw
        split at h
        · rename_i ht
          cases h
          exact ⟨t, [], ts, d, rfl, hd, hw, ht, fun _ h => (nomatch h)⟩
        · rename_i ht
          refine hno ?_ h
          intro d' v' h1 h2
          rw [hd] at h1; cases h1
          rw [hw] at h2; cases h2
          simpa using ht
    · rename_i hw
      refine hno ?_ h
      intro d' v' h1 h2
      rw [h1] at hw
      simp only [Option.bind_some] at hw
      rw [hw] at h2; cases h2

theorem findClaim_error {metadata : Dict (Dict Val)} {claim : String} {e : PyErr} (types : List String) (h : findClaim metadata claim types = .error e) :
    e = .keyError ∧ ∀ t ∈ types, ∀ d v, metadata.get? t = some d → d.get? claim = some v → v.truthy = false := by
  induction types with
  | nil => rw [findClaim] at h; cases h; exact ⟨rfl, fun _ h => (nomatch h)⟩
  | cons t ts ih =>
    rw [findClaim] at h
    split at h
    · rename_i w hw
      split at h
      · cases h
      · rename_i ht
        obtain ⟨rfl, h1⟩ := ih h
        refine ⟨rfl, ?_⟩
        intro x hx d v hd hv
        simp only [List.mem_cons] at hx
        rcases hx with rfl | hx
        · rw [hd] at hw
          simp only [Option.bind_some] at hw
          rw [hw] at hv; cases hv
          simpa using ht
        · exact h1 x hx d v hd hv
    · rename_i hw
      obtain ⟨rfl, h1⟩ := ih h
      refine ⟨rfl, ?_⟩
      intro x hx d v hd hv
      simp only [List.mem_cons] at hx
      rcases hx with rfl | hx
      · rw [hd] at hw
        simp only [Option.bind_some] at hw
        rw [hw] at hv; cases hv
      · exact h1 x hx d v hd hv

/-- C132 for values that are not false, zero or empty: what is returned is the value of the first type that has one, in the order asked for; and KeyError is raised only if there is none. -/
theorem C132_first_partial (metadata : Dict (Dict Val)) (claim : String) (types : List String) (ht : types ≠ []) :
    (∀ v, getMetadataClaim metadata claim types = .ok v → ∃ t, FirstWith metadata claim types t v) ∧
    (∀ e, getMetadataClaim metadata claim types = .error e → e = .keyError ∧ ∀ t ∈ types, ∀ d v, metadata.get? t = some d → d.get? claim = some v → v.truthy = false) := by
  unfold getMetadataClaim
  rw [if_neg ht]
  exact ⟨fun _ h => findClaim_ok types h, fun _ h => findClaim_error types h⟩

example : getMetadataClaim [("a", [("x", .str "1")]), ("b", [("x", .str "2")])] "x" ["c", "b", "a"] = .ok (.str "2") := by decide

end Fed.Client.Http
