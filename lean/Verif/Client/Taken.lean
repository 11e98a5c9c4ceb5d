import Verif.Client.Enrolled
import Verif.Client.FinalizeProps
import Verif.Client.Authorization
import Verif.Registration.ExplicitProps
/-
C181: a client uses what it is registered with. Model of `update_service_context` (/repo/src/fedservice/appclient/oauth2/registration.py 202-225), which puts the response of a provider, as
`parse_response` gives it, in its place, and of what the next requests of the client use of it.
-/
namespace Fed.Client
open Fed Verify

/-- What the context of a part keeps of its registration: what is in use (`claims.use`) and the attributes `client_id` and `client_secret`. -/
structure PartCtx where
  use : Dict Val := []
  clientId : Val := .null
  clientSecret : Val := .null
deriving DecidableEq, Repr

/-- A part of a combination; `handler`: it is an RPHandler, which has no context of its own. -/
structure Part where
  handler : Bool := false
  ctx : PartCtx := {}
deriving DecidableEq, Repr

/-- The value kept in use if it counts as true, else what was there (oauth2/registration.py 212-215, 222-224). -/
def usedOr (use : Dict Val) (k : String) (old : Val) : Val := if ((use.get? k).getD .null).truthy then (use.get? k).getD .null else old

/-- One part (oauth2/registration.py 206-224). `reg`: what `map_preferred_to_registered` makes of what the response says for the part, by idpyoidc's `preferred_to_registered`
(/repo/src/fedservice/entity/context.py 132-139). `given`: the context of the client among the behaviour arguments, none if there are none; for handlers all KeyErrors are swallowed. -/
def takePart (reg : String → Val → Except PyErr (Dict Val)) (resp : Dict Val) (given : Option PartCtx) (name : String) (p : Part) : Except PyErr (Part × Option PartCtx) :=
  if p.handler then
    match given, resp.get? name with
    | some c, some v =>
      match reg name v with
      | .error .keyError => .ok (p, given)
      | .error e => .error e
      | .ok use => .ok (p, some ⟨use, usedOr use "client_id" c.clientId, usedOr use "client_secret" c.clientSecret⟩)
    | _, _ => .ok (p, given)
  else
    match resp.get? name with
    | none => .error .keyError
    | some v =>
      match reg name v with
      | .error e => .error e
      | .ok use => .ok ({ p with ctx := { p.ctx with use := use, clientId := usedOr use "client_id" p.ctx.clientId } }, given)

/-- `update_service_context` (oauth2/registration.py 202-225): the parts one after the other; those before an error have been changed. -/
def takeAll (reg : String → Val → Except PyErr (Dict Val)) (resp : Dict Val) : Option PartCtx → List (String × Part) → Except PyErr Unit × List (String × Part) × Option PartCtx
  | given, [] => (.ok (), [], given)
  | given, (name, p) :: ps =>
    match takePart reg resp given name p with
    | .error e => (.error e, (name, p) :: ps, given)
    | .ok (p', given') =>
      match takeAll reg resp given' ps with
      | (r, ps', given'') => (r, (name, p') :: ps', given'')

/-- What the client uses to finish authentications: as client id its entity id (`get_client_id`, /repo/src/fedservice/appclient/__init__.py 142-143), and the secret in use
(/repo/src/fedservice/appclient/stand_alone_client_entity.py 353-361). -/
def finishWith (F : Session.Finish) (entityId : String) (c : PartCtx) : Session.Finish := { F with clientId := entityId, secret := c.use.get? "client_secret" }

/-- What is made of preferences and a response has what the response has. -/
def Follows (reg : String → Val → Except PyErr (Dict Val)) : Prop := ∀ name md, ∃ use, reg name (.obj md) = .ok use ∧ ∀ k v, Dict.get? md k = some v → use.get? k = some v

/-- C181, full: a client that takes a response uses the client id and the secret that the response gives it in its token requests. -/
def C181_full : Prop := ∀ (reg : String → Val → Except PyErr (Dict Val)) (resp md : Dict Val) (given : Option PartCtx) (parts parts' : List (String × Part)) (given' : Option PartCtx) (name : String) (p' : Part)
    (F : Session.Finish) (me c s state : String) (stored req : Dict Val), Follows reg → (parts.map (·.1)).Nodup → (name, p') ∈ parts' → p'.handler = false →
  takeAll reg resp given parts = (.ok (), parts', given') → resp.get? name = some (.obj md) → Dict.get? md "client_id" = some (.str c) → Dict.get? md "client_secret" = some (.str s) →
  Session.tokenRequest (finishWith F me p'.ctx) state stored = .ok req → req.get? "client_id" = some (.str c) ∧ req.get? "client_secret" = some (.str s)

/-- What happens to the parts. -/
theorem takeAll_ok {reg : String → Val → Except PyErr (Dict Val)} {resp : Dict Val} : ∀ {parts : List (String × Part)} {given : Option PartCtx} {parts' : List (String × Part)} {given' : Option PartCtx},
    takeAll reg resp given parts = (.ok (), parts', given') →
    parts'.map (·.1) = parts.map (·.1) ∧
    ∀ name p', (name, p') ∈ parts' → ∃ p, (name, p) ∈ parts ∧ p'.handler = p.handler ∧
      (p.handler = true → p' = p) ∧
      (p.handler = false → ∃ v use, resp.get? name = some v ∧ reg name v = .ok use ∧ p'.ctx = ⟨use, usedOr use "client_id" p.ctx.clientId, p.ctx.clientSecret⟩)
  | [], given, parts', given', h => by
    simp only [takeAll, Prod.mk.injEq, true_and] at h
    obtain ⟨rfl, rfl⟩ := h
    exact ⟨rfl, fun _ _ hm => nomatch hm⟩
  | (name, p) :: ps, given, parts', given', h => by
    unfold takeAll at h
    cases hp : takePart reg resp given name p with
    | error e => rw [hp] at h; simp at h
    | ok x =>
      obtain ⟨q, g⟩ := x
      rw [hp] at h
      rcases hr : takeAll reg resp g ps with ⟨r, ps', g'⟩
      simp only [hr, Prod.mk.injEq] at h
      obtain ⟨rfl, rfl, rfl⟩ := h
      obtain ⟨ih1, ih2⟩ := takeAll_ok hr
      refine ⟨by simp [ih1], fun n p' hm => ?_⟩
      rcases List.mem_cons.1 hm with he | hm
      · cases he
        refine ⟨p, by simp, ?_⟩
        unfold takePart at hp
        by_cases hh : p.handler = true
        · rw [if_pos hh] at hp
          have : q = p := by
            split at hp
            · split at hp
              · cases hp; rfl
              · cases hp
              · cases hp; rfl
            · cases hp; rfl
          subst this
          exact ⟨rfl, fun _ => rfl, fun h => absurd h (by rw [hh]; decide)⟩
        · rw [if_neg hh] at hp
          cases hv : resp.get? name with
          | none => rw [hv] at hp; cases hp
          | some v =>
            rw [hv] at hp
            simp only at hp
            cases hu : reg name v with
            | error e => rw [hu] at hp; cases hp
            | ok use =>
              rw [hu] at hp
              simp only [Except.ok.injEq, Prod.mk.injEq] at hp
              obtain ⟨rfl, -⟩ := hp
              exact ⟨rfl, fun h => absurd h hh, fun _ => ⟨v, use, rfl, hu, rfl⟩⟩
      · obtain ⟨p0, h0, h1⟩ := ih2 n p' hm
        exact ⟨p0, List.mem_cons_of_mem _ h0, h1⟩

/-- Whatever the response says, the token requests carry the entity id as client id. -/
theorem C181_id_never (F : Session.Finish) (me state : String) (c : PartCtx) (stored req : Dict Val) (h : Session.tokenRequest (finishWith F me c) state stored = .ok req) :
    req.get? "client_id" = some (.str me) := by
  unfold Session.tokenRequest at h
  cases h1 : stored.get? "code" with
  | none => rw [h1] at h; cases h
  | some code =>
    rw [h1] at h
    simp only at h
    cases h2 : stored.get? "redirect_uri" with
    | none => rw [h2] at h; cases h
    | some uri =>
      rw [h2] at h
      simp only [Except.ok.injEq] at h
      subst h
      rfl

/-- So do authorization requests for which none is given. -/
theorem C181_authorization (E : AuthEnv) (request : Dict Val) (h : request.get? "client_id" = none) : (withClientId E request).get? "client_id" = some (.str E.entityId) := by
  unfold withClientId
  rw [h, if_neg (by decide)]
  exact Dict.get?_set_self _ _ _

/-- C181 as far as it holds: the secret is the one given, and the client id is where it is the entity id; the context has both. Missing: clients that are given another client id. -/
theorem C181_secret_partial (reg : String → Val → Except PyErr (Dict Val)) (resp md : Dict Val) (given : Option PartCtx) (parts parts' : List (String × Part)) (given' : Option PartCtx)
    (name : String) (p' : Part) (F : Session.Finish) (me c s state : String) (stored req : Dict Val) (hr : Follows reg) (hm : (name, p') ∈ parts') (hh : p'.handler = false)
    (ht : takeAll reg resp given parts = (.ok (), parts', given')) (h1 : resp.get? name = some (.obj md)) (h2 : Dict.get? md "client_id" = some (.str c)) (h3 : Dict.get? md "client_secret" = some (.str s))
    (h4 : Session.tokenRequest (finishWith F me p'.ctx) state stored = .ok req) :
    req.get? "client_secret" = some (.str s) ∧ (req.get? "client_id" = some (.str c) ↔ c = me) ∧ (c ≠ "" → p'.ctx.clientId = .str c) ∧
      ∀ k v, Dict.get? md k = some v → p'.ctx.use.get? k = some v := by
  obtain ⟨-, h5⟩ := takeAll_ok ht
  obtain ⟨p, -, h6, -, h7⟩ := h5 name p' hm
  obtain ⟨v, use, h8, h9, h10⟩ := h7 (by rw [← h6]; exact hh)
  rw [h1] at h8
  cases h8
  obtain ⟨use', h11, h12⟩ := hr name md
  rw [h9] at h11
  cases h11
  refine ⟨?_, ?_, ?_, fun k v hk => by rw [h10]; exact h12 k v hk⟩
  · unfold Session.tokenRequest at h4
    cases g1 : stored.get? "code" with
    | none => rw [g1] at h4; cases h4
    | some code =>
      rw [g1] at h4
      simp only at h4
      cases g2 : stored.get? "redirect_uri" with
      | none => rw [g2] at h4; cases h4
      | some uri =>
        rw [g2] at h4
        simp only [Except.ok.injEq] at h4
        subst h4
        have : p'.ctx.use.get? "client_secret" = some (.str s) := by rw [h10]; exact h12 _ _ h3
        simp only [finishWith, this, Option.getD_some]
        rfl
  · rw [C181_id_never F me state p'.ctx stored req h4]
    simp only [Option.some.injEq, Val.str.injEq]
    exact eq_comm
  · intro hc
    have hu : use.get? "client_id" = some (.str c) := h12 _ _ h2
    have ht : (Val.str c).truthy = true := by simp [Val.truthy, hc]
    rw [h10]
    simp only [usedOr, hu, Option.getD_some, if_pos ht]

/-- When a response is taken: there is an error exactly if it says nothing for a part that is no handler. -/
theorem C181_accepted (reg : String → Val → Except PyErr (Dict Val)) (resp : Dict Val) (hr : Follows reg) (hv : ∀ k v, resp.get? k = some v → ∃ md, v = .obj md) :
    ∀ (parts : List (String × Part)) (given : Option PartCtx),
    ((takeAll reg resp given parts).1 = .ok () ↔ ∀ name p, (name, p) ∈ parts → p.handler = false → resp.get? name ≠ none) ∧
    ((takeAll reg resp given parts).1 = .ok () ∨ (takeAll reg resp given parts).1 = .error .keyError)
  | [], given => by simp [takeAll]
  | (name, p) :: ps, given => by
    have hp : (∃ x, takePart reg resp given name p = .ok x ∧ (p.handler = true ∨ resp.get? name ≠ none)) ∨
        (takePart reg resp given name p = .error .keyError ∧ p.handler = false ∧ resp.get? name = none) := by
      unfold takePart
      cases hh : p.handler with
      | true =>
        rw [if_pos rfl]
        refine .inl ?_
        split
        · rename_i v hg
          obtain ⟨md, rfl⟩ := hv name v hg
          obtain ⟨use, hu, -⟩ := hr name md
          rw [hu]
          exact ⟨_, rfl, .inl rfl⟩
        · exact ⟨_, rfl, .inl rfl⟩
      | false =>
        rw [if_neg (by decide)]
        cases hg : resp.get? name with
        | none => exact .inr ⟨rfl, rfl, rfl⟩
        | some v =>
          obtain ⟨md, rfl⟩ := hv name v hg
          obtain ⟨use, hu, -⟩ := hr name md
          simp only [hu]
          exact .inl ⟨_, rfl, .inr nofun⟩
    unfold takeAll
    rcases hp with ⟨⟨q, g⟩, h1, h2⟩ | ⟨h1, h2, h3⟩
    · obtain ⟨ih1, ih2⟩ := C181_accepted reg resp hr hv ps g
      rw [h1]
      simp only
      refine ⟨⟨fun h n p0 hm => ?_, fun h => ih1.2 fun n p0 hm => h n p0 (List.mem_cons_of_mem _ hm)⟩, ih2⟩
      rcases List.mem_cons.1 hm with he | hm
      · cases he
        intro hf
        rcases h2 with h2 | h2
        · rw [hf] at h2; cases h2
        · exact h2
      · exact ih1.1 h n p0 hm
    · rw [h1]
      simp only
      refine ⟨⟨fun h => by simp at h, fun h => absurd h3 (h name p (by simp) h2)⟩, by simp⟩

/-- The clients of a handler are never changed by a request: the client that `do_client_registration` hands over (stand_alone_client_entity.py 192-194) is lost in `do_request`
(/repo/src/fedservice/appclient/__init__.py 165-188), so there is none here. -/
theorem C181_handler (reg : String → Val → Except PyErr (Dict Val)) (resp : Dict Val) : ∀ (parts : List (String × Part)), (takeAll reg resp none parts).2.2 = none
  | [] => rfl
  | (name, p) :: ps => by
    unfold takeAll
    cases hp : takePart reg resp none name p with
    | error e => rfl
    | ok x =>
      obtain ⟨q, g⟩ := x
      have hg : g = none := by
        unfold takePart at hp
        by_cases hh : p.handler = true
        · rw [if_pos hh] at hp
          simp only [Except.ok.injEq, Prod.mk.injEq] at hp
          exact hp.2.symm
        · rw [if_neg hh] at hp
          split at hp
          · cases hp
          · split at hp
            · cases hp
            · cases hp; rfl
      subst hg
      exact C181_handler reg resp ps

/-- Which types a response that is accepted has: those of the response and those of the metadata of the client itself, so that nothing is missing for the parts that publish metadata. -/
theorem C181_types (V : Env) (st : State) (j : Jws) (v : Val) (hm : V.metadataVerifier = none) (h : (parseResponse .oauth2 V st (some j)).1 = .ok v) :
    ∃ fed tc all, (Chains.getVerified V.toEnv fed V.me).1 = .ok [tc] ∧ Chains.Provenance V.toEnv fed V.me tc ∧ v = .obj all ∧
      (1 < tc.verified.length → ∀ t, (∃ x, Dict.get? tc.metadata t = some x) → j.payload.md.get? t = none → Dict.get? all t = Dict.get? tc.metadata t) ∧
      (1 < tc.verified.length → ∀ t, (∃ x, Dict.get? tc.metadata t = some x) → ∃ x, Dict.get? all t = some x) := by
  obtain ⟨j', anchor, fed, e1, -, h1, -, h2, h3⟩ := parse_ok hm h
  simp only [Option.some.injEq] at e1
  subst e1
  obtain ⟨tc, tc', h4, rfl, h5⟩ := finishOauth2_ok h3
  refine ⟨fed, tc, tc'.metadata, h4, Chains.C76_provenance _ _ _ _ h4 tc (List.mem_singleton.2 rfl), rfl, ?_⟩
  rcases h5 with ⟨-, rfl⟩ | ⟨-, h6⟩
  · exact ⟨fun _ t _ _ => rfl, fun _ t h => h⟩
  · obtain ⟨tc1, h7, rfl⟩ := reapply_ok h6
    refine ⟨fun hl t ht hn => ?_, fun hl t ⟨x, hx⟩ => ?_⟩
    · show Dict.get? (if tc.verified.length > 1 then Dict.update tc.metadata tc1.metadata else tc1.metadata) t = _
      rw [if_pos hl, Dict.get?_update]
      have hnone : Dict.get? tc1.metadata t = none := by
        obtain ⟨leaf, hlast⟩ : ∃ leaf, tc.verified.getLast? = some leaf := by
          cases hg : tc.verified with
          | nil => rw [hg] at hl; exact absurd hl (by decide)
          | cons a as => exact ⟨_, List.getLast?_eq_some_getLast (by simp)⟩
        have hver : tc.verified = tc.verified.dropLast ++ [leaf] := by
          obtain ⟨ys, hys⟩ := List.getLast?_eq_some_iff.1 hlast
          rw [hys, List.dropLast_concat]
        have hw := withMetadata_verified hver j.payload.md
        obtain ⟨leaf', md, g1, g2, ⟨-, m, g3, rfl⟩ | ⟨g3, -⟩⟩ := Chains.applyToChain_ok.1 h7
        · have hleaf : leaf' = { leaf with metadata := some j.payload.md } := by
            rw [hw] at g1
            simpa using g1.symm
          subst hleaf
          have := policyForTypes_none (t := t) g3 (by
            show t ∉ Dict.keys (some j.payload.md |>.getD [])
            rw [Option.getD_some]
            exact (Dict.get?_eq_none_iff _ _).1 hn)
          show Dict.get? (m.map fun p => (p.1, Chains.mdVal p.2)) t = none
          rw [Chains.get?_map_val, this]; rfl
        · rw [hw] at g3
          rw [hver] at hl
          simp at g3 hl
          rw [g3] at hl
          exact absurd hl (by decide)
      rw [hnone]; rfl
    · show ∃ x, Dict.get? (if tc.verified.length > 1 then Dict.update tc.metadata tc1.metadata else tc1.metadata) t = some x
      rw [if_pos hl, Dict.get?_update, hx]
      cases Dict.get? tc1.metadata t with
      | none => exact ⟨x, rfl⟩
      | some y => exact ⟨y, rfl⟩

/-- The response has metadata for one type only; the other one is of the client's own chain. -/
example : ((parseResponse .oauth2 Ex.V Ex.st (some (Ex.resp "https://op" 9 [("oauth_client", [("client_id", .str "c0")])]))).1.toOption.map fun v => match v with | .obj all => Dict.keys all | _ => []) =
    some ["openid_relying_party", "oauth_client"] := by decide +kernel

/-- A provider that this software's OAuth client registers with gives it a client id of its own; if that is not the entity id, the provider does not know the client id of the client's requests. -/
theorem C181_unknown (V : Chains.Env) (R : Registration.RegEnv) (priority : List String) (st : Registration.AppState) (request : Doc) (client me : String) (resp : Registration.RegResponse)
    (h : (Registration.explicitOauth2 V R priority st request).1 = .ok (some (client, resp))) (hnew : ∀ l, R.genId l ≠ me) (hn : st.srv.cdb.get? me = none) :
    client ≠ me ∧ (Registration.explicitOauth2 V R priority st request).2.srv.cdb.get? me = none ∧
    ∀ F state (c : PartCtx) stored req, Session.tokenRequest (finishWith F me c) state stored = .ok req → req.get? "client_id" = some (.str me) := by
  obtain ⟨j, md, tc, req, args, -, -, -, -, -, -, -, h6, h7, -⟩ := Registration.explicitOauth2_some h
  have hc : client ≠ me := by
    obtain ⟨_, _, -, hid, -⟩ := Registration.setup_done h6
    unfold Registration.IdFor at hid
    rw [if_pos rfl] at hid
    rw [hid]
    exact hnew _
  refine ⟨hc, ?_, fun F state c stored req hr => C181_id_never F me state c stored req hr⟩
  rw [h7]
  rcases Registration.C63_skeleton_partial R st.srv req true true [] with h8 | ⟨cl, h8, h9, -⟩
  · rw [h8]; exact hn
  · have : me ≠ cl := by
      unfold Registration.IdFor at h8
      rw [if_pos rfl] at h8
      rw [h8]
      exact (hnew _).symm
    rw [h9 me this]
    exact hn

example : (Registration.explicitOauth2 Registration.Ex.V Registration.Ex.R [] Registration.Ex.app (some Registration.Ex.signed)).1.toOption.map (fun o => o.map (·.1)) = some (some "c0") ∧
    Registration.Ex.app.srv.cdb.get? "https://leaf" = none := by decide +kernel

namespace Ex
/-- What the response says, before what was preferred. -/
def reg181 (_ : String) (v : Val) : Except PyErr (Dict Val) :=
  match v with
  | .obj md => .ok md
  | _ => .error .attributeError
def parts181 : List (String × Part) := [("federation_entity", {}), ("oauth_client", {})]
def resp181 : Dict Val := [("oauth_client", .obj [("client_id", .str "c0"), ("client_secret", .str "s")]), ("federation_entity", .obj [])]
def taken181 : Part := { ctx := ⟨[("client_id", .str "c0"), ("client_secret", .str "s")], .str "c0", .null⟩ }
theorem follows181 : Follows reg181 := fun _ md => ⟨md, rfl, fun _ _ h => h⟩
example : takeAll reg181 resp181 none parts181 = (.ok (), [("federation_entity", {}), ("oauth_client", taken181)], none) := by decide
/-- Without metadata for the federation entity. -/
example : (takeAll reg181 [("oauth_client", .obj [("client_id", .str "c0")])] none parts181).1 = .error .keyError := by decide
end Ex

/-- Parts that are no handlers leave the client of a handler alone. -/
theorem takeAll_given {reg : String → Val → Except PyErr (Dict Val)} {resp : Dict Val} : ∀ {parts : List (String × Part)} {given : Option PartCtx} {parts' : List (String × Part)} {given' : Option PartCtx},
    takeAll reg resp given parts = (.ok (), parts', given') → (∀ x ∈ parts, x.2.handler = false) → given' = given
  | [], given, parts', given', h, _ => by
    simp only [takeAll, Prod.mk.injEq, true_and] at h
    exact h.2.symm
  | (name, p) :: ps, given, parts', given', h, hn => by
    unfold takeAll at h
    cases hp : takePart reg resp given name p with
    | error e => rw [hp] at h; simp at h
    | ok x =>
      obtain ⟨q, g⟩ := x
      rw [hp] at h
      rcases hr : takeAll reg resp g ps with ⟨r, ps', g'⟩
      simp only [hr, Prod.mk.injEq] at h
      obtain ⟨rfl, rfl, rfl⟩ := h
      have hg : g = given := by
        unfold takePart at hp
        rw [if_neg (by rw [hn _ (List.mem_cons_self ..)]; decide)] at hp
        split at hp
        · cases hp
        · split at hp
          · cases hp
          · simp only [Except.ok.injEq, Prod.mk.injEq] at hp; exact hp.2.symm
      rw [takeAll_given hr fun x hx => hn x (List.mem_cons_of_mem _ hx), hg]

/-- C181, for a client that a handler made: its context has, after the response is taken, the client id, the secret and all else the response says. -/
theorem C181_handled_partial (reg : String → Val → Except PyErr (Dict Val)) (resp md : Dict Val) (name : String) (p : Part) (before after : List (String × Part)) (c : PartCtx) (parts' : List (String × Part))
    (given' : Option PartCtx) (id s : String) (hr : Follows reg) (hp : p.handler = true) (hb : ∀ x ∈ before ++ after, x.2.handler = false)
    (h : takeAll reg resp (some c) (before ++ (name, p) :: after) = (.ok (), parts', given')) (h1 : resp.get? name = some (.obj md))
    (h2 : Dict.get? md "client_id" = some (.str id)) (h3 : Dict.get? md "client_secret" = some (.str s)) (hid : id ≠ "") (hs : s ≠ "") :
    ∃ c', given' = some c' ∧ c'.clientId = .str id ∧ c'.clientSecret = .str s ∧ ∀ k v, Dict.get? md k = some v → c'.use.get? k = some v := by
  induction before generalizing parts' with
  | cons x xs ih =>
    obtain ⟨n, q⟩ := x
    have h' := h
    rw [List.cons_append] at h'
    unfold takeAll at h'
    cases hq : takePart reg resp (some c) n q with
    | error e => rw [hq] at h'; simp at h'
    | ok y =>
      obtain ⟨q', g⟩ := y
      rw [hq] at h'
      rcases hr2 : takeAll reg resp g (xs ++ (name, p) :: after) with ⟨r, ps', g'⟩
      simp only [hr2, Prod.mk.injEq] at h'
      obtain ⟨rfl, rfl, rfl⟩ := h'
      have hg : g = some c := by
        unfold takePart at hq
        rw [if_neg (by rw [hb (n, q) (by simp)]; decide)] at hq
        split at hq
        · cases hq
        · split at hq
          · cases hq
          · simp only [Except.ok.injEq, Prod.mk.injEq] at hq; exact hq.2.symm
      subst hg
      exact ih ps' (fun x hx => hb x (by simp only [List.cons_append, List.mem_cons]; exact .inr hx)) hr2
  | nil =>
    rw [List.nil_append] at h
    unfold takeAll at h
    obtain ⟨use, h4, h5⟩ := hr name md
    have ht : takePart reg resp (some c) name p = .ok (p, some ⟨use, .str id, .str s⟩) := by
      unfold takePart
      rw [if_pos hp, h1]
      simp only [h4, usedOr, h5 _ _ h2, h5 _ _ h3]
      have t1 : Val.truthy (.str id) = true := by simp [Val.truthy, hid]
      have t2 : Val.truthy (.str s) = true := by simp [Val.truthy, hs]
      simp [t1, t2]
    rw [ht] at h
    rcases hr2 : takeAll reg resp (some ⟨use, .str id, .str s⟩) after with ⟨r, ps', g'⟩
    simp only [hr2, Prod.mk.injEq] at h
    obtain ⟨rfl, rfl, rfl⟩ := h
    exact ⟨_, takeAll_given hr2 fun x hx => hb x (by simpa using hx), rfl, rfl, h5⟩

example : (takeAll Ex.reg181 Ex.resp181 (some {}) [("federation_entity", {}), ("oauth_client", { handler := true })]).2.2 =
    some ⟨[("client_id", .str "c0"), ("client_secret", .str "s")], .str "c0", .str "s"⟩ := by decide

/-- C181 does not hold: a client that is given the client id "c0" sends its entity id. -/
theorem C181_violation : ¬ C181_full := by
  intro h
  have h1 := h Ex.reg181 Ex.resp181 [("client_id", .str "c0"), ("client_secret", .str "s")] none Ex.parts181 [("federation_entity", {}), ("oauth_client", Ex.taken181)] none "oauth_client" Ex.taken181
    (Session.Ex.fin true) "https://rp" "c0" "s" "state" [("code", .str "x"), ("redirect_uri", .str "https://rp/cb")] _ Ex.follows181 (by decide) (by simp) rfl (by decide) rfl rfl rfl rfl
  exact absurd h1.1 (by decide)

end Fed.Client
