import Verif.Web.Service
/-
Model of how the web front ends set cookies, and of the views for logging out at the OpenID provider, /repo/edu_federation/openid_provider/views.py. Properties C196 and C197.
-/
namespace Fed.Web
open Fed

/-- A cookie as `set_cookie` of a Flask response sets it, with its defaults. -/
structure Cookie where
  name : Val
  value : Val
  expires : Option Val := none
  maxAge : Option Val := none
  path : String := "/"
  secure : Bool := false
  httpOnly : Bool := false
  sameSite : Option Val := none
deriving DecidableEq

/-- `_add_cookie` (/repo/edu_federation/openid_provider/views.py 32-38, and the other front ends). `set_cookie` has no parameter `max-age`: TypeError. -/
def cookieOf (spec : Dict Val) : Except PyErr Cookie :=
  match spec.get? "value", spec.get? "name" with
  | some value, some name => if spec.has "max-age" then .error .typeError else .ok { name := name, value := value, expires := spec.get? "expires", path := "/" }
  | _, _ => .error .keyError

/-- The same for what may be no dict, which can not be asked for `value` (views.py 33): TypeError. -/
def addCookie1 : Val → Except PyErr Cookie
  | .obj spec => cookieOf spec
  | _ => .error .typeError

/-- `_add_cookie` for each. -/
def addCookies : List Val → Except PyErr (List Cookie)
  | [] => .ok []
  | s :: ss => do
    let c ← addCookie1 s
    let cs ← addCookies ss
    pure (c :: cs)

/-- `add_cookie` (views.py 41-46): a list, a dict, or nothing. -/
def addCookie : Val → Except PyErr (List Cookie)
  | .arr specs => addCookies specs
  | .obj spec => addCookies [.obj spec]
  | _ => .ok []

/-- The end of `do_response` (views.py 103-104), for an answer that is otherwise ready: the answer, and the cookies that come with it. -/
def withCookies (a : Answer) (cookie : Option Val) : Answer × List Cookie :=
  match cookie with
  | none => (a, [])
  | some v =>
    match addCookie v with
    | .ok cs => (a, cs)
    | .error e => (.crash e, [])

/-! ### C196: cookies -/

/-- The cookie is what the specification asks for. -/
structure AsAsked (spec : Dict Val) (c : Cookie) : Prop where
  name : spec.get? "name" = some c.name
  value : spec.get? "value" = some c.value
  expires : c.expires = spec.get? "expires"
  maxAge : c.maxAge = spec.get? "max-age"
  secure : c.secure = ((spec.get? "secure").map Val.truthy).getD false
  httpOnly : c.httpOnly = ((spec.get? "httponly").map Val.truthy).getD false
  sameSite : c.sameSite = spec.get? "samesite"

/-- C196, as intended: a cookie that an endpoint asks for, with a name and a value, is set as asked, and the answer is sent as it is. -/
def C196_full : Prop :=
  ∀ (a : Answer) (spec : Dict Val), spec.has "name" = true → spec.has "value" = true →
    ∃ c, withCookies a (some (.obj spec)) = (a, [c]) ∧ AsAsked spec c

/-- C196 is false in the code: what protects a cookie is left out; -/
theorem C196_protection_violation : ¬ C196_full := by
  intro h
  obtain ⟨c, h1, h2⟩ := h (.reply 200 (.text "")) [("name", .str "oidc_op"), ("value", .str "s"), ("secure", .bool true), ("httponly", .bool true)] rfl rfl
  have e : withCookies (.reply 200 (.text "")) (some (.obj [("name", .str "oidc_op"), ("value", .str "s"), ("secure", .bool true), ("httponly", .bool true)])) =
      (.reply 200 (.text ""), [{ name := .str "oidc_op", value := .str "s" }]) := by decide +kernel
  rw [e] at h1
  cases h1
  have := h2.httpOnly
  revert this
  decide

/-- and one that is to last for some time makes the answer fail. -/
theorem C196_age_violation : ¬ C196_full := by
  intro h
  obtain ⟨c, h1, -⟩ := h (.reply 200 (.text "")) [("name", .str "oidc_op"), ("value", .str "s"), ("max-age", .int 3600)] rfl rfl
  have e : withCookies (.reply 200 (.text "")) (some (.obj [("name", .str "oidc_op"), ("value", .str "s"), ("max-age", .int 3600)])) = (.crash .typeError, []) := by decide +kernel
  rw [e] at h1
  cases h1

/-- The members of two lists go together, one by one. -/
inductive Pairs {α β : Type} (R : α → β → Prop) : List α → List β → Prop
  | nil : Pairs R [] []
  | cons {a b as bs} : R a b → Pairs R as bs → Pairs R (a :: as) (b :: bs)

theorem Pairs.length {α β : Type} {R : α → β → Prop} {as : List α} {bs : List β} (h : Pairs R as bs) : bs.length = as.length := by
  induction h with
  | nil => rfl
  | cons _ _ ih => simp [ih]

theorem addCookie1_ok {spec : Dict Val} {c : Cookie} : addCookie1 (.obj spec) = .ok c ↔
    spec.has "max-age" = false ∧ spec.get? "name" = some c.name ∧ spec.get? "value" = some c.value ∧
      c = { name := c.name, value := c.value, expires := spec.get? "expires", path := "/" } := by
  show cookieOf spec = .ok c ↔ _
  unfold cookieOf
  cases hv : spec.get? "value" with
  | none =>
    constructor
    · intro h; cases h
    · rintro ⟨-, -, h, -⟩; cases h
  | some v =>
    cases hn : spec.get? "name" with
    | none =>
      constructor
      · intro h; cases h
      · rintro ⟨-, h, -⟩; cases h
    | some n =>
      simp only
      cases hm : spec.has "max-age" with
      | true =>
        constructor
        · intro h; cases h
        · rintro ⟨h, -⟩; cases h
      | false =>
        constructor
        · intro h; cases h; exact ⟨rfl, rfl, rfl, rfl⟩
        · rintro ⟨-, h1, h2, h3⟩
          cases h1; cases h2
          rw [h3]; rfl

theorem addCookies_ok : ∀ {specs : List Val} {cs : List Cookie}, addCookies specs = .ok cs ↔ Pairs (fun s c => addCookie1 s = .ok c) specs cs
  | [], cs => by
    constructor
    · intro h; cases h; exact .nil
    · intro h; cases h; rfl
  | s :: ss, cs => by
    unfold addCookies
    cases h1 : addCookie1 s with
    | error e =>
      rw [error_bind]
      constructor
      · intro h; cases h
      · intro h; cases h with | cons h _ => rw [h1] at h; cases h
    | ok c =>
      rw [ok_bind]
      cases h2 : addCookies ss with
      | error e =>
        rw [error_bind]
        constructor
        · intro h; cases h
        · intro h; cases h with | cons _ h => rw [addCookies_ok.2 h] at h2; cases h2
      | ok cs' =>
        rw [ok_bind]
        constructor
        · intro h; cases h; exact .cons h1 (addCookies_ok.1 h2)
        · intro h
          cases h with
          | cons h h' =>
            rw [h1] at h; cases h
            rw [addCookies_ok.2 h'] at h2; cases h2; rfl

/-- C196 as far as it holds: the cookies that are set are, one by one, those that were asked for, with the names, values and dates of expiry asked for, for the whole site. Missing: cookies
with an age, for which the answer fails, and everything that protects a cookie, which is never set. -/
theorem C196_set_partial (a : Answer) (specs : List (Dict Val)) (h : ∀ s ∈ specs, s.has "name" = true ∧ s.has "value" = true ∧ s.has "max-age" = false) :
    ∃ cs, withCookies a (some (.arr (specs.map Val.obj))) = (a, cs) ∧ cs.length = specs.length ∧
      Pairs (fun s c => s.get? "name" = some c.name ∧ s.get? "value" = some c.value ∧ c.expires = s.get? "expires" ∧ c.path = "/") specs cs := by
  have key : ∃ cs, addCookies (specs.map Val.obj) = .ok cs ∧ Pairs (fun s c => s.get? "name" = some c.name ∧ s.get? "value" = some c.value ∧ c.expires = s.get? "expires" ∧ c.path = "/") specs cs := by
    induction specs with
    | nil => exact ⟨[], rfl, .nil⟩
    | cons s ss ih =>
      obtain ⟨cs, h1, h2⟩ := ih fun x hx => h x (List.mem_cons_of_mem _ hx)
      obtain ⟨a1, a2, a3⟩ := h s (List.mem_cons_self ..)
      obtain ⟨n, hn⟩ := (Dict.mem_keys_iff_exists _ _).1 ((Dict.has_iff _ _).1 a1)
      obtain ⟨v, hv⟩ := (Dict.mem_keys_iff_exists _ _).1 ((Dict.has_iff _ _).1 a2)
      have hc := addCookie1_ok (c := { name := n, value := v, expires := s.get? "expires", path := "/" }).2 ⟨a3, hn, hv, rfl⟩
      refine ⟨{ name := n, value := v, expires := s.get? "expires", path := "/" } :: cs, ?_, .cons ⟨hn, hv, rfl, rfl⟩ h2⟩
      simp only [List.map_cons, addCookies, hc, ok_bind, h1]
      rfl
  obtain ⟨cs, h1, h2⟩ := key
  exact ⟨cs, by simp [withCookies, addCookie, h1], h2.length, h2⟩

/-- C196: no cookie is ever protected from scripts, from being sent in the clear or along with requests from other sites, whatever was asked for. -/
theorem C196_unprotected (a a' : Answer) (v : Option Val) (cs : List Cookie) (h : withCookies a v = (a', cs)) : ∀ c ∈ cs, c.secure = false ∧ c.httpOnly = false ∧ c.sameSite = none ∧ c.maxAge = none := by
  have one : ∀ s c, addCookie1 s = .ok c → c.secure = false ∧ c.httpOnly = false ∧ c.sameSite = none ∧ c.maxAge = none := by
    intro s c h
    cases s with
    | obj spec => obtain ⟨-, -, -, h⟩ := addCookie1_ok.1 h; rw [h]; exact ⟨rfl, rfl, rfl, rfl⟩
    | _ => cases h
  have many : ∀ specs cs, addCookies specs = .ok cs → ∀ c ∈ cs, c.secure = false ∧ c.httpOnly = false ∧ c.sameSite = none ∧ c.maxAge = none := by
    intro specs cs h
    have := addCookies_ok.1 h
    clear h
    induction this with
    | nil => intro c hc; cases hc
    | cons h _ ih =>
      intro c hc
      rcases List.mem_cons.1 hc with rfl | hc
      · exact one _ _ h
      · exact ih c hc
  unfold withCookies at h
  cases v with
  | none => cases h; intro c hc; cases hc
  | some v =>
    simp only at h
    cases h1 : addCookie v with
    | error e => rw [h1] at h; cases h; intro c hc; cases hc
    | ok cs' =>
      rw [h1] at h
      cases h
      cases v with
      | arr specs => exact many _ _ h1
      | obj spec => exact many _ _ h1
      | _ => cases h1; intro c hc; cases hc

/-- C196: an answer one of whose cookies is to last for some time is not sent, whatever else it is. -/
theorem C196_age_crash (a : Answer) (specs : List (Dict Val)) (s : Dict Val) (hs : s ∈ specs) (hm : s.has "max-age" = true) :
    ∃ e, withCookies a (some (.arr (specs.map Val.obj))) = (.crash e, []) := by
  unfold withCookies addCookie
  simp only
  cases h : addCookies (specs.map Val.obj) with
  | error e => exact ⟨e, rfl⟩
  | ok cs =>
    exfalso
    have := addCookies_ok.1 h
    clear h
    induction specs generalizing cs with
    | nil => cases hs
    | cons x xs ih =>
      cases this with
      | cons h1 h2 =>
        rcases List.mem_cons.1 hs with rfl | hs
        · have := (addCookie1_ok.1 h1).1
          rw [hm] at this; cases this
        · exact ih hs _ h2

/-! ### C197: logging out -/

/-- The session endpoint of idpyoidc as the views for logging out use it. `unpack`: `unpack_signed_jwt`, which verifies; `logout`: `do_verified_logout`, with whether all sessions are to be ended and the content of
the token; `kill`: `kill_cookies`. -/
structure SessionEndpoint (σ : Type) where
  unpack : σ → String → Except PyErr (Dict Val)
  logout : σ → Bool → Dict Val → Except PyErr (List String) × σ
  kill : σ → List Val

/-- What the browser gets. `frames`: `frontchannel_logout.html`, which loads the frames and goes on to an address. -/
inductive LogoutPage
  | badRequest
  | frames (frames : List String) (next : Val)
  | redirect (to : Val)
  | crash (e : PyErr)
deriving DecidableEq

/-- `rp_logout` (/repo/edu_federation/openid_provider/views.py 319-344): the page, the cookies that come with it, and the provider afterwards. A form without `sjwt`: Flask's BadRequest, for which there is a page
(views.py 277-279). -/
def rpLogout {σ : Type} (E : SessionEndpoint σ) (s : σ) (form : Dict String) : LogoutPage × List Cookie × σ :=
  match form.get? "sjwt" with
  | none => (.badRequest, [], s)
  | some sjwt =>
    match E.unpack s sjwt with
    | .error e => (.crash e, [], s)
    | .ok info =>
      if info.has "alla" then (.crash .typeError, [], s)
      else
        match E.logout s (form.has "logout") info with
        | (.error e, s) => (.crash e, [], s)
        | (.ok frames, s) =>
          match info.get? "redirect_uri" with
          | none => (.crash .keyError, [], s)
          | some uri =>
            if frames.isEmpty then
              match addCookies (E.kill s) with
              | .error e => (.crash e, [], s)
              | .ok cs => (.redirect uri, cs, s)
            else (.frames frames uri, [], s)

/-- C197, as intended: somebody who has logged out is sent on, or shown the page that does so, and the provider's cookies are removed. -/
def C197_full : Prop :=
  ∀ (σ : Type) (E : SessionEndpoint σ) (s s' : σ) (form : Dict String) (sjwt : String) (info : Dict Val) (uri : Val) (frames : List String) (specs : List (Dict Val)),
    form.get? "sjwt" = some sjwt → E.unpack s sjwt = .ok info → info.get? "redirect_uri" = some uri → info.has "alla" = false → E.logout s (form.has "logout") info = (.ok frames, s') →
    E.kill s' = specs.map Val.obj → (∀ c ∈ specs, c.has "name" = true ∧ c.has "value" = true ∧ c.has "max-age" = false) →
    (rpLogout E s form).1 = (if frames.isEmpty then .redirect uri else .frames frames uri) ∧
    ∀ c ∈ specs, ∃ k ∈ (rpLogout E s form).2.1, c.get? "name" = some k.name ∧ c.get? "value" = some k.value

namespace Ex
/-- A provider with one client that wants to be told through the browser. -/
def session : SessionEndpoint Nat where
  unpack _ t := if t = "token" then .ok [("sid", .str "1"), ("redirect_uri", .str "https://op/post_logout")] else .error .badSignature
  logout n all _ := (.ok ["<iframe src=\"https://rp/fc_logout\">"], if all then 0 else n - 1)
  kill _ := [.obj [("name", .str "oidc_op"), ("value", .str "")]]
end Ex

/-- C197 is false in the code: if some client is to be told through the browser, no cookie is removed. -/
theorem C197_frames_violation : ¬ C197_full := by
  intro h
  obtain ⟨-, h2⟩ := h Nat Ex.session 3 2 [("sjwt", "token")] "token" [("sid", .str "1"), ("redirect_uri", .str "https://op/post_logout")] (.str "https://op/post_logout") ["<iframe src=\"https://rp/fc_logout\">"]
    [[("name", .str "oidc_op"), ("value", .str "")]] rfl rfl rfl rfl rfl rfl (by decide)
  obtain ⟨k, hk, -⟩ := h2 _ (List.mem_cons_self ..)
  revert hk
  have : (rpLogout Ex.session 3 [("sjwt", "token")]).2.1 = [] := by decide
  rw [this]
  intro hk
  cases hk

/-- C197 as far as it holds: the page is as intended; the cookies are removed if no client is to be told through the browser. Missing: the cookies in the other case. -/
theorem C197_logout_partial {σ : Type} (E : SessionEndpoint σ) (s s' : σ) (form : Dict String) (sjwt : String) (info : Dict Val) (uri : Val) (frames : List String) (specs : List (Dict Val))
    (h1 : form.get? "sjwt" = some sjwt) (h2 : E.unpack s sjwt = .ok info) (h3 : info.get? "redirect_uri" = some uri) (h4 : info.has "alla" = false) (h5 : E.logout s (form.has "logout") info = (.ok frames, s'))
    (h6 : E.kill s' = specs.map Val.obj) (h7 : ∀ c ∈ specs, c.has "name" = true ∧ c.has "value" = true ∧ c.has "max-age" = false) :
    (rpLogout E s form).1 = (if frames.isEmpty then .redirect uri else .frames frames uri) ∧ (rpLogout E s form).2.2 = s' ∧
    (frames = [] → ∀ c ∈ specs, ∃ k ∈ (rpLogout E s form).2.1, c.get? "name" = some k.name ∧ c.get? "value" = some k.value) ∧
    (frames ≠ [] → (rpLogout E s form).2.1 = []) := by
  obtain ⟨cs, c1, -, c3⟩ := C196_set_partial (.reply 200 (.text "")) specs h7
  have hadd : addCookies (specs.map Val.obj) = .ok cs := by
    simp only [withCookies, addCookie] at c1
    cases h : addCookies (specs.map Val.obj) with
    | error e => rw [h] at c1; cases c1
    | ok cs' => rw [h] at c1; cases c1; rfl
  have hrun : rpLogout E s form = if frames.isEmpty then (.redirect uri, cs, s') else (.frames frames uri, [], s') := by
    unfold rpLogout
    simp only [h1, h2, h4, h5, h3, h6, hadd, Bool.false_eq_true, if_false]
  rw [hrun]
  cases frames with
  | nil =>
    refine ⟨rfl, rfl, fun _ c hc => ?_, fun h => absurd rfl h⟩
    have : ∀ {specs : List (Dict Val)} {cs : List Cookie}, Pairs (fun s c => s.get? "name" = some c.name ∧ s.get? "value" = some c.value ∧ c.expires = s.get? "expires" ∧ c.path = "/") specs cs →
        ∀ c ∈ specs, ∃ k ∈ cs, c.get? "name" = some k.name ∧ c.get? "value" = some k.value := by
      intro specs cs h
      induction h with
      | nil => intro c hc; cases hc
      | cons h _ ih =>
        intro c hc
        rcases List.mem_cons.1 hc with rfl | hc
        · exact ⟨_, List.mem_cons_self .., h.1, h.2.1⟩
        · obtain ⟨k, hk, hh⟩ := ih c hc
          exact ⟨k, List.mem_cons_of_mem _ hk, hh⟩
    exact this c3 c hc
  | cons f fs => exact ⟨rfl, rfl, fun h => absurd h (List.cons_ne_nil _ _), fun _ => rfl⟩

/-- C197: nothing is ended without a token that the provider accepts as its own; what is ended is what the token says, and all sessions are ended only if the form says so. The browser is sent nowhere but to the
address in the token. -/
theorem C197_only_token {σ : Type} (E : SessionEndpoint σ) (s : σ) (form : Dict String) :
    ((rpLogout E s form).2.2 = s ∨ ∃ sjwt info, form.get? "sjwt" = some sjwt ∧ E.unpack s sjwt = .ok info ∧ (rpLogout E s form).2.2 = (E.logout s (form.has "logout") info).2) ∧
    ∀ uri, ((rpLogout E s form).1 = .redirect uri ∨ ∃ fs, (rpLogout E s form).1 = .frames fs uri) →
      ∃ sjwt info, form.get? "sjwt" = some sjwt ∧ E.unpack s sjwt = .ok info ∧ info.get? "redirect_uri" = some uri := by
  unfold rpLogout
  cases h1 : form.get? "sjwt" with
  | none => exact ⟨.inl rfl, by rintro uri (h | ⟨_, h⟩) <;> cases h⟩
  | some sjwt =>
    simp only
    cases h2 : E.unpack s sjwt with
    | error e => exact ⟨.inl rfl, by rintro uri (h | ⟨_, h⟩) <;> cases h⟩
    | ok info =>
      simp only
      split
      · exact ⟨.inl rfl, by rintro uri (h | ⟨_, h⟩) <;> cases h⟩
      · rcases hl : E.logout s (form.has "logout") info with ⟨r, s'⟩
        cases r with
        | error e => exact ⟨.inr ⟨sjwt, info, rfl, h2, by rw [hl]⟩, by rintro uri (h | ⟨_, h⟩) <;> cases h⟩
        | ok frames =>
          simp only
          cases h3 : info.get? "redirect_uri" with
          | none => exact ⟨.inr ⟨sjwt, info, rfl, h2, by rw [hl]⟩, by rintro uri (h | ⟨_, h⟩) <;> cases h⟩
          | some u =>
            simp only
            split
            · cases addCookies (E.kill s') with
              | error e => exact ⟨.inr ⟨sjwt, info, rfl, h2, by rw [hl]⟩, by rintro uri (h | ⟨_, h⟩) <;> cases h⟩
              | ok cs => exact ⟨.inr ⟨sjwt, info, rfl, h2, by rw [hl]⟩, by rintro uri (h | ⟨_, h⟩) <;> cases h; exact ⟨sjwt, info, rfl, h2, h3⟩⟩
            · exact ⟨.inr ⟨sjwt, info, rfl, h2, by rw [hl]⟩, by rintro uri (h | ⟨_, h⟩) <;> cases h; exact ⟨sjwt, info, rfl, h2, h3⟩⟩

/-- Logging out everywhere, and only here. -/
example : (rpLogout Ex.session 3 [("sjwt", "token"), ("logout", "yes")]).2.2 = 0 ∧ (rpLogout Ex.session 3 [("sjwt", "token")]).2.2 = 2 ∧ (rpLogout Ex.session 3 [("sjwt", "forged")]).2.2 = 3 := by decide

end Fed.Web
