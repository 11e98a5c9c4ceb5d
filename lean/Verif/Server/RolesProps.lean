import Verif.Server.Roles
import Verif.Server.ContextGiven
/-
Property C156: the configuration of an entity with several roles has the metadata of each.
-/
namespace Fed.Server.Roles
open Fed Fed.Server

/-- What a part of the combination is to have in the configuration, under its entity type. -/
inductive Stated (t : String) : Part → Val → Prop
  | federation (md : Dict Val) : Stated t (.federation md) (.obj md)
  | server (name entityId : String) (schema : List String) (md m : Dict Val) (issuer : "issuer" ∈ schema → m.get? "issuer" = some (.str entityId))
      (certificate : "certificate_issuer" ∈ schema → m.get? "certificate_issuer" = some (.str entityId))
      (rest : ∀ k, (k = "issuer" ∨ k = "certificate_issuer" → k ∉ schema) → m.get? k = md.get? k) : Stated t (.server name entityId schema md) (.obj m)
  | client (c : Client) (v : Val) (said : (c.metadata t).get? t = some v) : Stated t (.client c) v

/-- Clients that are asked for their metadata as one entity type give it for that type (idpyoidc's `get_client_metadata`), the types are distinct and not empty. -/
structure Regular (parts : Dict Part) : Prop where
  distinct : (parts.map (·.1)).Nodup
  named : ∀ x ∈ parts, x.1 ≠ ""
  clients : ∀ t c, (t, Part.client c) ∈ parts → ∃ md, c.metadata t = [(t, .obj md)]

/-- Parts that play a role in the federation: all but those without metadata. -/
def Part.plays : Part → Prop
  | .other => False
  | .marks => False
  | _ => True

/-- C156 in full: each role of the entity has its metadata in the configuration; and there is nothing else. -/
def C156_full : Prop := ∀ (files : Dict Val) (c : Context.Ctx) (now : Int) (parts : Dict Part) (own : Dict Val) (p : Dict Val),
  Regular parts → configuration files c now (some parts) own = .ok p →
  ∀ t part, (t, part) ∈ parts → part.plays → ∃ md v, p.get? "metadata" = some (.obj md) ∧ Dict.get? md t = some v

theorem setIssuer_get? (e : String) (schema : List String) (md : Dict Val) (q : String) :
    (setIssuer e schema ["issuer", "certificate_issuer"] md).get? q =
      if (q = "issuer" ∨ q = "certificate_issuer") ∧ q ∈ schema then some (.str e) else md.get? q := by
  simp only [setIssuer]
  by_cases h1 : "issuer" ∈ schema <;> by_cases h2 : "certificate_issuer" ∈ schema <;> simp only [h1, h2, if_true, if_false, Dict.get?_set]
  all_goals
    by_cases g1 : q = "issuer"
    · subst g1; simp_all
    · by_cases g2 : q = "certificate_issuer"
      · subst g2; simp_all
      · simp [g1, g2, Ne.symm g1, Ne.symm g2]

/-- One part, without a client named. -/
theorem partGet_own {parts : Dict Part} (hr : Regular parts) {t : String} {p : Part} (h : (t, p) ∈ parts) (q : String) (hq : q ≠ t) : (partGet none t p).get? q = none := by
  cases p with
  | federation md => simp [partGet, Dict.get?, Ne.symm hq]
  | server n e s md => simp [partGet, serverGet, hr.named _ h, Dict.get?, Ne.symm hq]
  | client c =>
    obtain ⟨md, hm⟩ := hr.clients t c h
    simp [partGet, Client.get, hr.named _ h, hm, Dict.get?, Ne.symm hq]
  | handler => rfl
  | marks => rfl
  | other => rfl

theorem partGet_stated {parts : Dict Part} (hr : Regular parts) {t : String} {p : Part} (h : (t, p) ∈ parts) (hp : p.plays) (hh : p ≠ .handler) :
    ∃ v, (partGet none t p).get? t = some v ∧ Stated t p v := by
  cases p with
  | federation md => exact ⟨_, by simp [partGet, Dict.get?], .federation md⟩
  | server n e s md =>
    refine ⟨_, by simp [partGet, serverGet, hr.named _ h, Dict.get?]; rfl, .server n e s md _ ?_ ?_ ?_⟩
    · intro hs; rw [setIssuer_get?, if_pos ⟨Or.inl rfl, hs⟩]
    · intro hs; rw [setIssuer_get?, if_pos ⟨Or.inr rfl, hs⟩]
    · intro k hk; rw [setIssuer_get?, if_neg fun ⟨a, b⟩ => hk a b]
  | client c =>
    obtain ⟨md, hm⟩ := hr.clients t c h
    refine ⟨.obj md, by simp [partGet, Client.get, hr.named _ h, hm, Dict.get?], .client c _ (by rw [hm]; simp [Dict.get?])⟩
  | handler => exact absurd rfl hh
  | marks => exact absurd hp id
  | other => exact absurd hp id

theorem comboMetadata_ok {client : Option Client} {parts : Dict Part} {md : Dict Val} (h : comboMetadata client parts = .ok md) : md = comboGet client parts := by
  unfold comboMetadata at h
  split at h
  · cases h
  · cases h; rfl

/-- A configuration that is published is one of the metadata of the parts. -/
theorem configuration_combo {files : Dict Val} {c : Context.Ctx} {now : Int} {parts : Dict Part} {own p : Dict Val} (h : configuration files c now (some parts) own = .ok p) :
    Context.configuration files c now (.obj (comboGet none parts)) = .ok p := by
  unfold configuration at h
  simp only [published] at h
  cases hm : comboMetadata none parts with
  | error e => rw [hm] at h; cases h
  | ok md => rw [hm] at h; rw [← comboMetadata_ok hm]; exact h

theorem comboLoop_silent (c : Option Client) (q : String) : ∀ (ps : List (String × Part)) (res : Dict Val), (∀ x ∈ ps, (partGet c x.1 x.2).get? q = none) →
    (comboLoop c ps res).get? q = res.get? q
  | [], res, _ => rfl
  | (t, p) :: ps, res, h => by
      rw [comboLoop, comboLoop_silent c q ps _ fun x hx => h x (by simp [hx]), Dict.get?_update, h (t, p) (by simp)]
      rfl

theorem comboLoop_one (c : Option Client) (q : String) (v : Val) : ∀ (ps : List (String × Part)) (res : Dict Val) (t : String) (p : Part), (ps.map (·.1)).Nodup →
    (t, p) ∈ ps → (partGet c t p).get? q = some v → (∀ x ∈ ps, x.1 ≠ t → (partGet c x.1 x.2).get? q = none) → (comboLoop c ps res).get? q = some v
  | (t', p') :: ps, res, t, p, hn, hm, hv, hs => by
      rw [List.map_cons, List.nodup_cons] at hn
      rw [comboLoop]
      rcases List.mem_cons.1 hm with h | h
      · cases h
        rw [comboLoop_silent c q ps _ fun x hx => hs x (by simp [hx]) fun e => hn.1 (by rw [← e]; exact List.mem_map.2 ⟨x, hx, rfl⟩), Dict.get?_update, hv]
        rfl
      · exact comboLoop_one c q v ps _ t p hn.2 h hv fun x hx => hs x (by simp [hx])

/-- C156 for the roles that are not played through a handler of clients. Missing: those. -/
theorem C156_published_partial (files : Dict Val) (c : Context.Ctx) (now : Int) (parts : Dict Part) (own : Dict Val) (p : Dict Val)
    (hr : Regular parts) (h : configuration files c now (some parts) own = .ok p) (t : String) (part : Part) (hm : (t, part) ∈ parts) (hp : part.plays) (hh : part ≠ .handler) :
    ∃ md v, p.get? "metadata" = some (.obj md) ∧ Dict.get? md t = some v ∧ Stated t part v := by
  obtain ⟨v, h1, h2⟩ := partGet_stated hr hm hp hh
  have h3 : (comboGet none parts).get? t = some v :=
    comboLoop_one none t v parts [] t part hr.distinct hm h1 fun x hx hne => partGet_own hr (t := x.1) (p := x.2) hx t (Ne.symm hne)
  refine ⟨comboGet none parts, v, ?_, h3, h2⟩
  replace h := configuration_combo h
  cases hg : Context.getHints files c with
  | error e => unfold Context.configuration at h; rw [hg] at h; cases h
  | ok hints =>
    obtain ⟨p', h4, -, -, -, -, h5, -⟩ := Context.configuration_ok files c now (.obj (comboGet none parts)) hints hg
    rw [h] at h4; cases h4
    rw [h5]
    have : (Val.obj (comboGet none parts)).truthy = true := by
      show (!(comboGet none parts).isEmpty) = true
      cases hc : comboGet none parts with
      | nil => rw [hc] at h3; cases h3
      | cons _ _ => rfl
    simp only [Option.filter, this, if_true]

/-- C156, the other direction: there is no metadata for a type the entity has no part for. -/
theorem C156_only_partial (files : Dict Val) (c : Context.Ctx) (now : Int) (parts : Dict Part) (own : Dict Val) (p md : Dict Val) (hr : Regular parts)
    (h : configuration files c now (some parts) own = .ok p) (hmd : p.get? "metadata" = some (.obj md)) (t : String) (v : Val) (hv : Dict.get? md t = some v) :
    ∃ part, (t, part) ∈ parts ∧ part ≠ .handler ∧ Stated t part v := by
  replace h := configuration_combo h
  cases hg : Context.getHints files c with
  | error e => unfold Context.configuration at h; rw [hg] at h; cases h
  | ok hints =>
    obtain ⟨p', h4, -, -, -, -, h5, -⟩ := Context.configuration_ok files c now (.obj (comboGet none parts)) hints hg
    rw [h] at h4; cases h4
    rw [h5] at hmd
    obtain ⟨h6, -⟩ := Option.filter_eq_some_iff.1 hmd
    cases h6
    have hv' : (comboGet none parts).get? t = some v := hv
    by_cases hmem : ∃ part, (t, part) ∈ parts ∧ part.plays ∧ part ≠ .handler
    · obtain ⟨part, hm, hp, hh⟩ := hmem
      obtain ⟨w, h1, h2⟩ := partGet_stated hr hm hp hh
      have h3 : (comboGet none parts).get? t = some w :=
        comboLoop_one none t w parts [] t part hr.distinct hm h1 fun x hx hne => partGet_own hr (t := x.1) (p := x.2) hx t (Ne.symm hne)
      rw [h3] at hv'; cases hv'
      exact ⟨part, hm, hh, h2⟩
    · have : (comboGet none parts).get? t = none := by
        unfold comboGet
        rw [comboLoop_silent none t parts []]
        · rfl
        · rintro ⟨t', part⟩ hx
          by_cases e : t = t'
          · subst e
            cases part with
            | handler => rfl
            | marks => rfl
            | other => rfl
            | federation md => exact absurd ⟨_, hx, trivial, nofun⟩ hmem
            | server n e s md => exact absurd ⟨_, hx, trivial, nofun⟩ hmem
            | client c => exact absurd ⟨_, hx, trivial, nofun⟩ hmem
          · exact partGet_own hr hx t e
      rw [this] at hv'; cases hv'

namespace Ex
def rp : Client := ⟨false, fun t => [(t, .obj [("client_name", .str "x")])]⟩
def parts : Dict Part := [("federation_entity", .federation [("contacts", .str "ops")]),
  ("openid_provider", .server "openid_provider" "https://op" ["issuer", "scopes_supported"] [("issuer", .str ""), ("scopes_supported", .arr [.str "openid"])]),
  ("openid_relying_party", .client rp), ("self_signed_trust_mark_entity", .other)]
def withHandler : Dict Part := [("federation_entity", .federation [("contacts", .str "ops")]), ("openid_relying_party", .handler)]
def ctx : Context.Ctx := { entityId := "https://op", ownKeys := .str "k" }
def payload (parts : Dict Part) : Dict Val := match configuration [] ctx 0 (some parts) [] with | .ok p => p | .error _ => []
end Ex

/-- A federation entity that is a provider and a client too. -/
example : Regular Ex.parts := ⟨by decide, by decide, by
  intro t c h
  simp [Ex.parts] at h
  obtain ⟨rfl, rfl⟩ := h
  exact ⟨_, rfl⟩⟩
example : (Ex.payload Ex.parts).get? "metadata" = some (.obj [("federation_entity", .obj [("contacts", .str "ops")]),
    ("openid_provider", .obj [("issuer", .str "https://op"), ("scopes_supported", .arr [.str "openid"])]), ("openid_relying_party", .obj [("client_name", .str "x")])]) := by decide +kernel

/-- C156 does not hold: an entity whose clients are made by a handler publishes nothing about them. -/
theorem C156_handler_violation : ¬ C156_full := by
  intro h
  have hr : Regular Ex.withHandler := ⟨by decide, by decide, by intro t c h; simp [Ex.withHandler] at h⟩
  have hc : configuration [] Ex.ctx 0 (some Ex.withHandler) [] = .ok (Ex.payload Ex.withHandler) := by decide +kernel
  obtain ⟨md, v, h1, h2⟩ := h [] Ex.ctx 0 Ex.withHandler [] _ hr hc "openid_relying_party" .handler (by simp [Ex.withHandler]) trivial
  have h3 : (Ex.payload Ex.withHandler).get? "metadata" = some (.obj [("federation_entity", .obj [("contacts", .str "ops")])]) := by decide +kernel
  rw [h3] at h1; cases h1
  revert h2; decide +revert

/-- C156: an entity that has a trust mark issuer among its parts publishes nothing at all, and no client of it registers. -/
theorem C156_mark_issuer_never (files : Dict Val) (c : Context.Ctx) (now : Int) (parts : Dict Part) (own : Dict Val) (client : Option Client) (t : String) (h : (t, Part.marks) ∈ parts) :
    configuration files c now (some parts) own = .error .typeError ∧ registrationRequest files c now parts client = .error .typeError := by
  have : ∀ cl, comboMetadata cl parts = .error .typeError := fun cl => if_pos (List.any_eq_true.2 ⟨_, h, rfl⟩)
  simp only [configuration, published, registrationRequest, this, and_self]

/-- C156 does not hold in this respect either: a configuration is to be published whenever the hints can be read. -/
theorem C156_mark_issuer_violation : ¬ ∀ (files : Dict Val) (c : Context.Ctx) (now : Int) (parts : Dict Part) (own : Dict Val) (hints : Val), Regular parts → Context.getHints files c = .ok hints →
    ∃ p, configuration files c now (some parts) own = .ok p := by
  intro h
  obtain ⟨p, hp⟩ := h [] Ex.ctx 0 [("trust_mark_entity", .marks)] [] (.arr []) ⟨by decide, by decide, by intro t c h; simp at h⟩ (by decide +kernel)
  rw [(C156_mark_issuer_never [] Ex.ctx 0 [("trust_mark_entity", .marks)] [] none "trust_mark_entity" (by simp)).1] at hp
  cases hp

/-- C156 otherwise: a configuration is published whenever the hints can be read. -/
theorem C156_some (files : Dict Val) (c : Context.Ctx) (now : Int) (parts : Dict Part) (own : Dict Val) (hints : Val) (hm : ∀ x ∈ parts, x.2 ≠ .marks) (hg : Context.getHints files c = .ok hints) :
    ∃ p, configuration files c now (some parts) own = .ok p := by
  have : comboMetadata none parts = .ok (comboGet none parts) := by
    refine if_neg fun h => ?_
    obtain ⟨x, hx, hr⟩ := List.any_eq_true.1 h
    have := hm x hx
    cases hp : x.2 <;> simp_all [Part.refuses]
  obtain ⟨p, h4, -⟩ := Context.configuration_ok files c now (.obj (comboGet none parts)) hints hg
  exact ⟨p, by simp only [configuration, published, this]; exact h4⟩

/-- C156 for the statement with which a client registers: with a handler there, the metadata is that of the client that registers, besides the other roles (which do not include its type). -/
theorem C156_registering_partial (files : Dict Val) (c : Context.Ctx) (now : Int) (parts : Dict Part) (cl : Client) (t0 t : String) (md0 : Dict Val) (p : Dict Val)
    (hr : Regular parts) (h : registrationRequest files c now parts (some cl) = .ok p) (hh : (t0, Part.handler) ∈ parts) (hone : ∀ x ∈ parts, x.2 = .handler → x.1 = t0)
    (ht : t = if cl.oauth then "oauth_client" else "openid_relying_party") (hcl : cl.metadata t = [(t, .obj md0)]) (hfree : ∀ x ∈ parts, x.1 = t → x.2 = .handler ∨ x.2 = .other) :
    p.get? "iss" = some (.str c.entityId) ∧ p.get? "sub" = some (.str c.entityId) ∧
    ∃ md, p.get? "metadata" = some (.obj md) ∧ Dict.get? md t = some (.obj md0) ∧
      ∀ t' part, (t', part) ∈ parts → t' ≠ t → part.plays → part ≠ .handler → ∃ v, Dict.get? md t' = some v ∧ Stated t' part v := by
  have hh' : partGet (some cl) t0 .handler = [(t, .obj md0)] := by
    simp only [partGet, Client.get, if_true, ← ht, hcl]
  have hsame : ∀ x ∈ parts, x.2 ≠ .handler → partGet (some cl) x.1 x.2 = partGet none x.1 x.2 := by
    rintro ⟨a, b⟩ _ hx
    cases b <;> first | rfl | exact absurd rfl hx
  have hx1 : (comboGet (some cl) parts).get? t = some (.obj md0) := by
    refine comboLoop_one _ t _ parts [] t0 .handler hr.distinct hh (by rw [hh']; simp [Dict.get?]) fun x hx hne => ?_
    have hnh : x.2 ≠ .handler := fun e => hne (hone x hx e)
    rw [hsame x hx hnh]
    by_cases e : x.1 = t
    · rcases hfree x hx e with e2 | e2
      · exact absurd e2 hnh
      · rw [e2]; rfl
    · exact partGet_own hr (t := x.1) (p := x.2) hx t (Ne.symm e)
  have hx2 : ∀ t' part, (t', part) ∈ parts → t' ≠ t → part.plays → part ≠ .handler → ∃ v, (comboGet (some cl) parts).get? t' = some v ∧ Stated t' part v := by
    intro t' part hm hne hp hnh
    obtain ⟨v, h1, h2⟩ := partGet_stated hr hm hp hnh
    refine ⟨v, comboLoop_one _ t' v parts [] t' part hr.distinct hm (by rw [hsame _ hm hnh]; exact h1) fun x hx hne' => ?_, h2⟩
    by_cases e : x.2 = .handler
    · rw [e]
      rw [hone x hx e, hh']
      simp [Dict.get?, Ne.symm hne]
    · rw [hsame x hx e]
      exact partGet_own hr (t := x.1) (p := x.2) hx t' (Ne.symm hne')
  suffices p.get? "iss" = some (.str c.entityId) ∧ p.get? "sub" = some (.str c.entityId) ∧ p.get? "metadata" = some (.obj (comboGet (some cl) parts)) from
    ⟨this.1, this.2.1, comboGet (some cl) parts, this.2.2, hx1, hx2⟩
  unfold registrationRequest at h
  cases hmd : comboMetadata (some cl) parts with
  | error e => rw [hmd] at h; cases h
  | ok md =>
  rw [hmd] at h
  simp only at h
  rw [comboMetadata_ok hmd] at h
  cases hg : Context.getHints files c with
  | error e => rw [hg] at h; cases h
  | ok hints =>
    rw [hg] at h
    simp only at h
    split at h
    · cases h
    · rename_i marks hmk
      have hne : (Val.obj (comboGet (some cl) parts)).truthy = true := by
        show (!(comboGet (some cl) parts).isEmpty) = true
        cases hc : comboGet (some cl) parts with
        | nil => rw [hc] at hx1; cases hx1
        | cons _ _ => rfl
      have hgm : ∃ ms, Context.getMarks files c = .ok ms := by
        cases hms : Context.getMarks files c with
        | ok ms => exact ⟨ms, rfl⟩
        | error e =>
          exfalso
          rw [hms] at hmk
          split at hmk
          · cases hmk
          · cases hmk
            have hk : ((Context.keyArgs ([("metadata", Val.obj (comboGet (some cl) parts)), ("authority_hints", hints)] ++ [])).get? "trust_marks") = none := by
              rw [Context.get?_keyArgs_other _ _ (by decide) (by decide)]
              simp [Dict.get?]
            unfold Context.ctxStatement Context.markArgs at h
            simp only [hk, hms] at h
            simp [Val.truthy] at h
      obtain ⟨ms, hms⟩ := hgm
      have := Context.ctxStatement_says h hints ms (fun _ => hms) (fun hn => by simp [Dict.get?] at hn)
      refine ⟨this.issuer, this.subject, ?_⟩
      rw [this.named "metadata" (by simp)]
      simp [Dict.get?, Option.filter, hne]

/-- C156, for an entity that is no combination: its own metadata is published as that of a federation entity, and nothing else is. -/
theorem C156_alone (files : Dict Val) (c : Context.Ctx) (now : Int) (own : Dict Val) (hints : Val) (hg : Context.getHints files c = .ok hints) :
    ∃ p, configuration files c now none own = .ok p ∧ p.get? "metadata" = some (.obj [("federation_entity", .obj own)]) := by
  obtain ⟨p, h4, -, -, -, -, h5, -⟩ := Context.configuration_ok files c now (.obj [("federation_entity", .obj own)]) hints hg
  exact ⟨p, by simp only [configuration, published]; exact h4, by rw [h5]; rfl⟩

example : (match configuration [] Ex.ctx 0 none [("contacts", .str "ops")] with | .ok p => p | .error _ => []).get? "metadata" = some (.obj [("federation_entity", .obj [("contacts", .str "ops")])]) := by
  decide +kernel

/-- The entity with a handler, when one of its clients registers. -/
example : (match registrationRequest [] Ex.ctx 0 Ex.withHandler (some Ex.rp) with | .ok p => p | .error _ => []).get? "metadata" =
    some (.obj [("federation_entity", .obj [("contacts", .str "ops")]), ("openid_relying_party", .obj [("client_name", .str "x")])]) := by decide +kernel

end Fed.Server.Roles
