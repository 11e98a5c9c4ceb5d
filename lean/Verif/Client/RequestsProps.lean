import Verif.Client.Requests
import Verif.Server.FetchProps
import Verif.Server.ListProps
import Verif.TrustMarks.StoreProps
/-
Properties C141, C143-C145: the requests clients make, and what the endpoints of this software answer to them.
-/
namespace Fed.Client.Requests
open Fed

/-- `str` leaves a string as it is. -/
def Faithful (text : Val → String) : Prop := ∀ s, text (.str s) = s

theorem pick_get (text : Val → String) (names : List String) : ∀ (args : Dict Val) (k : String),
    (pick text names args).get? k = if k ∈ names then (args.get? k).map text else none
  | [], k => by simp [pick]
  | (q, v) :: args, k => by
      have ih := pick_get text names args k
      unfold pick at ih ⊢
      by_cases hq : q ∈ names
      · rw [List.filter_cons_of_pos (by simpa using hq), List.map_cons, Dict.get?_cons, Dict.get?_cons]
        by_cases hk : q = k
        · subst hk; simp [hq]
        · simp only [hk, if_false]; exact ih
      · rw [List.filter_cons_of_neg (by simpa using hq), ih, Dict.get?_cons]
        by_cases hk : q = k
        · subst hk; simp [hq]
        · simp only [hk, if_false]

/-! ## C141 -/

/-- C141 in full: a question for the status of a trust mark goes to the endpoint named and carries what it is about. -/
def C141_full : Prop :=
  ∀ (text : Val → String) (unverified : String → Option (Dict Val)) (args : Dict Val) (ep other : String), Faithful text → ep ≠ "" →
    (∀ k ∈ ["trust_mark", "sub", "trust_mark_id"], ∀ v, args.get? k = some v → ∃ s, v = .str s) →
    ∃ r, statusRequest text unverified (some args) ep other = .ok r ∧ r.target = ep ∧ ∀ k ∈ ["trust_mark", "sub", "trust_mark_id"], r.query.get? k = (args.get? k).map text

namespace Ex
def text : Val → String
  | .str s => s
  | .bool true => "True"
  | .bool false => "False"
  | _ => "None"
theorem text_faithful : Faithful text := fun _ => rfl
end Ex

/-- C141 does not hold: a question that gives the trust mark is sent to the entity id its payload names as issuer, unverified, whatever endpoint is given. -/
theorem C141_target_violation : ¬ C141_full := by
  intro h
  obtain ⟨r, h1, h2, -⟩ := h Ex.text (fun _ => some [("iss", .str "https://evil")]) [("trust_mark", .str "a.b.c")] "https://tmi/status" "" Ex.text_faithful (by decide) (by
    intro k hk v hv
    rw [Dict.get?_cons] at hv
    split at hv
    · cases hv; exact ⟨_, rfl⟩
    · cases hv)
  have h3 : statusRequest Ex.text (fun _ => some [("iss", .str "https://evil")]) (some [("trust_mark", .str "a.b.c")]) "https://tmi/status" "" = .ok ⟨"https://evil", [("trust_mark", "a.b.c")]⟩ := by
    decide +kernel
  rw [h3] at h1
  cases h1
  exact absurd h2 (by decide)

/-- C141 for questions that name the subject and the id of the mark, as the entity itself puts them: they go to the endpoint named and an issuer running this software answers exactly that question.
Missing: questions that give the trust mark. -/
theorem C141_question_partial (text : Val → String) (unverified : String → Option (Dict Val)) (unpack : String → Except PyErr TrustMarks.Info) (args : Dict Val) (ep other sub id : String)
    (ht : Faithful text) (hep : ep ≠ "") (hm : args.get? "trust_mark" = none) (hs : args.get? "sub" = some (.str sub)) (hi : args.get? "trust_mark_id" = some (.str id)) :
    ∃ r, statusRequest text unverified (some args) ep other = .ok r ∧ r.target = ep ∧
      (∀ (is : TrustMarks.Issuer) (now : Int), is.status now (statusAsked unpack r.query) = is.status now { sub := some sub, trustMarkId := some id }) ∧
      ∀ k v, r.query.get? k = some v → ∃ w, args.get? k = some w ∧ v = text w := by
  refine ⟨⟨ep, pick text ["sub", "trust_mark_id", "iat"] args⟩, by simp [statusRequest, hm, endpointOf, hep], rfl, ?_, ?_⟩
  · intro is now
    simp [statusAsked, pick_get, hs, hi, ht sub, ht id, TrustMarks.Issuer.status, TrustMarks.StatusRequest.askedId]
    by_cases h0 : id = "" <;> simp [h0]
  · intro k v hk
    rw [pick_get] at hk
    split at hk
    · cases ha : args.get? k with
      | none => rw [ha] at hk; cases hk
      | some w => rw [ha] at hk; cases hk; exact ⟨w, rfl, rfl⟩
    · cases hk

/-- Nowhere to send it: an error, and no request. -/
theorem C141_nowhere (text : Val → String) (unverified : String → Option (Dict Val)) (args : Dict Val) (hm : args.get? "trust_mark" = none) :
    statusRequest text unverified (some args) "" "" = .error .missingAttribute := by
  simp [statusRequest, hm, endpointOf]

/-- The question of `verify_trust_mark` carries no more than subject and id. -/
example : statusRequest Ex.text (fun _ => none) (some [("sub", .str "https://rp"), ("id", .str "tm"), ("trust_mark_id", .str "tm")]) "https://tmi/status" "" =
    .ok ⟨"https://tmi/status", [("sub", "https://rp"), ("trust_mark_id", "tm")]⟩ := by decide +kernel
example : statusRequest Ex.text (fun _ => none) (some [("sub", .str "https://rp")]) "" "" = .error .missingAttribute := by decide +kernel

/-! ## C143 -/

/-- C143 in full: a client asking the trust mark list endpoint of an issuer with an id, and perhaps a subject, is told what the endpoint has to say about these. -/
def C143_full : Prop :=
  ∀ (text : Val → String) (args : Dict Val) (ep : String) (id : String) (sub : Option String) (is : TrustMarks.Issuer) (now : Int), Faithful text → ep ≠ "" →
    args.get? "trust_mark_id" = some (.str id) → args.get? "sub" = sub.map .str →
    ∃ r, markListRequest text (some args) ep "" = .ok r ∧ r.target = ep ∧ markListAnswer is now r.query = is.listing now sub (some id)

/-- C143 does not hold: the subject is not passed on. Asked whether `b` has the mark the client learns that `a` has. -/
theorem C143_subject_violation : ¬ C143_full := by
  intro h
  have h1 := h Ex.text [("trust_mark_id", .str "tm"), ("sub", .str "b")] "https://tmi/list" "tm" (some "b") ⟨[], .simple [("tm", [("a", ⟨"tm", "a", 1, none⟩)])]⟩ 5 Ex.text_faithful (by decide) rfl rfl
  obtain ⟨r, h2, -, h3⟩ := h1
  have h4 : markListRequest Ex.text (some [("trust_mark_id", .str "tm"), ("sub", .str "b")]) "https://tmi/list" "" = .ok ⟨"https://tmi/list", [("trust_mark_id", "tm")]⟩ := by decide +kernel
  rw [h4] at h2
  cases h2
  revert h3
  decide +kernel

/-- C143 without a subject. Missing: questions about one subject. -/
theorem C143_all_partial (text : Val → String) (args : Dict Val) (ep id : String) (is : TrustMarks.Issuer) (now : Int) (ht : Faithful text) (hep : ep ≠ "")
    (hi : args.get? "trust_mark_id" = some (.str id)) :
    ∃ r, markListRequest text (some args) ep "" = .ok r ∧ r.target = ep ∧ markListAnswer is now r.query = is.listing now none (some id) := by
  refine ⟨⟨ep, pick text ["trust_mark_id"] args⟩, by simp [markListRequest, endpointOf, hep], rfl, ?_⟩
  simp [markListAnswer, pick_get, hi, ht id]

/-- And so a client that asks an issuer keeping its marks in files learns exactly who has been given a mark with that id. -/
theorem C143_holders (text : Val → String) (ep id : String) (spec : Dict TrustMarks.Spec) (config : Dict String) (rs : List (Int × String × String)) (now : Int) (ht : Faithful text) (hep : ep ≠ "")
    (ho : TrustMarks.OwnFiles config) (hid : id ∈ config.keys) (hrs : rs.Pairwise fun a b => a.1 ≤ b.1) :
    ∃ r a, markListRequest text (some [("trust_mark_id", .str id)]) ep "" = .ok r ∧ r.target = ep ∧
      markListAnswer (TrustMarks.createAll ⟨spec, .file ⟨config, []⟩⟩ rs).2 now r.query = .ok a ∧
      ∀ s, (∃ l, a = .subjects l ∧ s ∈ l) ↔ ∃ m ∈ (TrustMarks.createAll ⟨spec, .file ⟨config, []⟩⟩ rs).1, m.id = id ∧ m.sub = s := by
  obtain ⟨r, h1, h2, h3⟩ := C143_all_partial text [("trust_mark_id", .str id)] ep id (TrustMarks.createAll ⟨spec, .file ⟨config, []⟩⟩ rs).2 now ht hep rfl
  obtain ⟨⟨a, h4, h5⟩, -⟩ := TrustMarks.C80_list_partial spec config rs now id ho hid hrs
  exact ⟨r, a, h1, h2, by rw [h3, h4], h5⟩

example : markListRequest Ex.text (some [("trust_mark_id", .str "tm")]) "" "https://tmi/list" = .ok ⟨"https://tmi/list", [("trust_mark_id", "tm")]⟩ ∧
    markListAnswer (TrustMarks.createAll ⟨[("tm", {})], .file ⟨[("tm", "f")], []⟩⟩ [(0, "tm", "a"), (1, "tm", "b")]).2 5 [("trust_mark_id", "tm")] = .ok (.subjects ["b", "a"]) := by
  decide +kernel

/-! ## C144 -/

theorem statementQuery_get (issuer subject : String) (hi : issuer ≠ "") :
    (statementQuery issuer subject).get? "iss" = some issuer ∧ (statementQuery issuer subject).get? "sub" = if subject ≠ "" then some subject else none := by
  by_cases hs : subject = ""
  · simp [statementQuery, hi, hs, Dict.get?_cons]
  · simp [statementQuery, hi, hs, Dict.get?_cons]

/-- C144 in full: a client asking an authority for the statement about a subject gets the statement about that subject, or an error. -/
def C144_full : Prop :=
  ∀ (text : Val → String) (P : Collect.Params) (now : Int) (ask : String → Except PyErr (Dict Policy.Metadata)) (cache : Dict Collect.Config) (fetch issuer subject : String)
    (A : Server.Authority) (r : Get) (p : Dict Val), subject ≠ "" → subject ≠ A.entityId → issuer ≠ subject →
    (statementRequest text P now ask cache fetch issuer subject).1 = .ok r → (Server.fetch A now (fetchAsked r.query)).1 = .ok p → p.get? "sub" = some (.str subject)

/-- C144 does not hold: without an issuer the subject is not passed on, and the authority answers with its own configuration. -/
theorem C144_subject_violation : ¬ C144_full := by
  intro h
  have h1 := h Ex.text ⟨0, []⟩ 0 (fun _ => .error .keyError) [] "https://ta/fetch" "" "https://leaf" { entityId := "https://ta", ownKeys := .int 1 } ⟨"https://ta/fetch", []⟩
    [("sub", .str "https://ta"), ("jwks", .int 1), ("iss", .str "https://ta"), ("iat", .int 0), ("exp", .int 86400)] (by decide) (by decide) (by decide) (by decide +kernel) (by decide +kernel)
  revert h1
  decide +kernel

/-- The request when issuer and subject are named. -/
theorem statementRequest_query {text : Val → String} {P : Collect.Params} {now : Int} {ask : String → Except PyErr (Dict Policy.Metadata)} {cache : Dict Collect.Config} {fetch issuer subject : String} {r : Get}
    (h : (statementRequest text P now ask cache fetch issuer subject).1 = .ok r) : r.query = statementQuery issuer subject := by
  unfold statementRequest at h
  split at h
  · cases h; rfl
  · generalize hm : (if cache.has issuer then
        match Collect.subscript P.delta now cache issuer with
        | (.error e, db) => (.error e, db)
        | (.ok c, db) => (TrustMarks.ecMetadata c, db)
      else (ask issuer, cache) : Except PyErr (Dict Policy.Metadata) × Dict Collect.Config) = m at h
    obtain ⟨md, db⟩ := m
    cases md with
    | error e => cases h
    | ok md =>
      simp only at h
      cases hf : fetchEndpoint text md with
      | error e => rw [hf] at h; cases h
      | ok ep => rw [hf] at h; cases h; rfl

/-- C144 for a request that names the authority as issuer. Missing: requests without an issuer. -/
theorem C144_subject_partial (text : Val → String) (P : Collect.Params) (now : Int) (ask : String → Except PyErr (Dict Policy.Metadata)) (cache : Dict Collect.Config) (fetch issuer subject : String)
    (A : Server.Authority) (r : Get) (p : Dict Val) (hi : issuer ≠ "") (hs : subject ≠ "") (hA : subject ≠ A.entityId) (hne : issuer ≠ subject)
    (h : (statementRequest text P now ask cache fetch issuer subject).1 = .ok r) (hp : (Server.fetch A now (fetchAsked r.query)).1 = .ok p) :
    p.get? "sub" = some (.str subject) ∧ ∃ reg, A.subordinate.get? subject = some reg ∧
      ∀ ks, reg.get? "jwks" = some ks → (∀ q, A.policy.get? subject = some q → q.get? "jwks" = none) → p.get? "jwks" = some ks := by
  rw [statementRequest_query h] at hp
  obtain ⟨q1, q2⟩ := statementQuery_get issuer subject hi
  rw [if_pos hs] at q2
  have ha : fetchAsked (statementQuery issuer subject) = { iss := some issuer, sub := some subject } := by simp [fetchAsked, q1, q2]
  rw [ha] at hp
  obtain ⟨reg, h1, -, h3, h4⟩ := Server.C54_partial A now _ subject p rfl hs hA (by intro h; exact hne (Option.some.inj h)) hp
  exact ⟨h3, reg, h1, h4⟩

example : (statementRequest Ex.text ⟨0, []⟩ 5 (fun _ => .ok [("federation_entity", [("federation_fetch_endpoint", .str "https://ta/fetch")])]) [] "" "https://ta" "https://leaf").1 =
    .ok ⟨"https://ta/fetch", [("iss", "https://ta"), ("sub", "https://leaf")]⟩ := by decide +kernel

/-- C144, where the request goes, in full: to the fetch endpoint in the issuer's configuration, cached or not. -/
def C144_target_full : Prop :=
  ∀ (text : Val → String) (P : Collect.Params) (now : Int) (md : Dict Policy.Metadata) (fe : Policy.Metadata) (v : Val) (cache : Dict Collect.Config) (issuer subject : String),
    md.get? "federation_entity" = some fe → fe.get? "federation_fetch_endpoint" = some v → v.truthy = true →
    (∀ c, cache.get? issuer = some c → c.jws.payload.metadata = some md) →
    ∃ r, (statementRequest text P now (fun _ => .ok md) cache "" issuer subject).1 = .ok r ∧ r.target = text v

/-- C144 does not hold: if the cached configuration of the issuer has expired, it is not fetched anew; the request fails with TypeError. -/
theorem C144_expired_violation : ¬ C144_target_full := by
  intro h
  obtain ⟨r, h1, -⟩ := h Ex.text ⟨300, []⟩ 1000 [("federation_entity", [("federation_fetch_endpoint", .str "https://ta/fetch")])] [("federation_fetch_endpoint", .str "https://ta/fetch")]
    (.str "https://ta/fetch") [("https://ta", ⟨⟨{ iss := "https://ta", sub := "https://ta", exp := some 1200, metadata := some [("federation_entity", [("federation_fetch_endpoint", .str "https://ta/fetch")])] }, 1⟩⟩)]
    "https://ta" "https://leaf" rfl rfl rfl (by
      intro c hc
      rw [Dict.get?_cons] at hc
      simp only [if_true, Option.some.injEq] at hc
      subst hc
      rfl)
  revert h1
  exact fun h1 => by
    have : (statementRequest Ex.text ⟨300, []⟩ 1000 (fun _ => .ok [("federation_entity", [("federation_fetch_endpoint", .str "https://ta/fetch")])])
      [("https://ta", ⟨⟨{ iss := "https://ta", sub := "https://ta", exp := some 1200, metadata := some [("federation_entity", [("federation_fetch_endpoint", .str "https://ta/fetch")])] }, 1⟩⟩)]
      "" "https://ta" "https://leaf").1 = .error .typeError := by decide +kernel
    rw [this] at h1
    cases h1

/-- C144, where the request goes: to the fetch endpoint in the issuer's configuration, if that is not in the cache or has not expired there; afterwards the cache is as before. Missing: configurations that
have expired in the cache. -/
theorem C144_target_partial (text : Val → String) (P : Collect.Params) (now : Int) (md : Dict Policy.Metadata) (fe : Policy.Metadata) (v : Val) (cache : Dict Collect.Config) (issuer subject : String)
    (h1 : md.get? "federation_entity" = some fe) (h2 : fe.get? "federation_fetch_endpoint" = some v) (h3 : v.truthy = true)
    (hc : ∀ c, cache.get? issuer = some c → c.jws.payload.metadata = some md ∧ ∃ e, c.jws.payload.exp = some e ∧ now < e - P.delta) :
    ∃ r, statementRequest text P now (fun _ => .ok md) cache "" issuer subject = (.ok r, cache) ∧ r.target = text v := by
  have hf : fetchEndpoint text md = .ok (text v) := by simp [fetchEndpoint, h1, h2, h3]
  refine ⟨⟨text v, statementQuery issuer subject⟩, ?_, rfl⟩
  cases hg : cache.get? issuer with
  | none =>
    have : cache.has issuer = false := by simp [Dict.has, hg]
    simp [statementRequest, this, hf]
  | some c =>
    obtain ⟨m, e, he, hn⟩ := hc c hg
    have hh : cache.has issuer = true := by simp [Dict.has, hg]
    have hsub : Collect.subscript P.delta now cache issuer = (.ok (some c), cache) := by simp [Collect.subscript, hg, Collect.CacheVal.dictExp, he, hn]
    simp [statementRequest, hh, hsub, TrustMarks.ecMetadata, m, hf]

example : (statementRequest Ex.text ⟨300, []⟩ 800 (fun _ => .error .keyError)
      [("https://ta", ⟨⟨{ iss := "https://ta", sub := "https://ta", exp := some 1200, metadata := some [("federation_entity", [("federation_fetch_endpoint", .str "https://ta/fetch")])] }, 1⟩⟩)]
      "" "https://ta" "https://leaf").1 = .ok ⟨"https://ta/fetch", [("iss", "https://ta"), ("sub", "https://leaf")]⟩ := by decide +kernel

/-! ## C145 -/

theorem listAsked_get (q : Dict String) (k : String) : (listAsked q).get? k = (q.get? k).map .str := by
  induction q with
  | nil => rfl
  | cons p q ih =>
    simp only [listAsked, List.map_cons] at ih ⊢
    rw [Dict.get?_cons, Dict.get?_cons]
    split
    · rfl
    · exact ih

theorem listParam_none {text : Val → String} {args : Dict Val} {k : String} (h : ∀ v, args.get? k = some v → v.truthy = false) : listParam text args k = none := by
  unfold listParam
  cases hg : args.get? k with
  | none => rfl
  | some v => simp [h v hg]

/-- C145: asked without criteria, an authority running this software answers with everyone registered. -/
theorem C145_all (text : Val → String) (K : SetEnum String) (W : Server.ListWorld) (ext : Bool) (db : Dict (Dict Val)) (ep : String) (args : Dict Val)
    (h : ∀ k ∈ ["entity_type", "trust_marked", "trust_mark_id", "intermediate"], ∀ v, args.get? k = some v → v.truthy = false) :
    (listRequest text ep args).target = ep ∧ Server.list K W ext db (listAsked (listRequest text ep args).query) = .ok (.ids db.keys) := by
  refine ⟨rfl, Server.C57_all _ _ _ _ _ ?_⟩
  have : listQuery text args = [] := by
    unfold listQuery
    rw [List.filterMap_eq_nil_iff]
    intro k hk
    exact listParam_none (h k hk)
  intro k hk
  simp [listRequest, this, listAsked, Dict.keys] at hk

/-- C145: asked for an entity type, an authority running this software answers with exactly those registered with that type. -/
theorem C145_type (text : Val → String) (ht : Faithful text) (K : SetEnum String) (W : Server.ListWorld) (ext : Bool) (db : Dict (Dict Val)) (ep t : String) (args : Dict Val) (h0 : t ≠ "")
    (h1 : args.get? "entity_type" = some (.str t)) (h2 : ∀ k ∈ ["trust_marked", "trust_mark_id", "intermediate"], ∀ v, args.get? k = some v → v.truthy = false)
    (hdb : ∀ e conf, (e, conf) ∈ db → ∃ ts, conf.get? "entity_type" = some (.arr ts)) :
    (listRequest text ep args).target = ep ∧ ∃ l, Server.list K W ext db (listAsked (listRequest text ep args).query) = .ok (.ids l) ∧ l.Nodup ∧
      ∀ e, e ∈ l ↔ ∃ conf ts, (e, conf) ∈ db ∧ conf.get? "entity_type" = some (.arr ts) ∧ .str t ∈ ts := by
  have hno : ∀ k ∈ ["trust_marked", "trust_mark_id", "intermediate"], listParam text args k = none := fun k hk => listParam_none (h2 k hk)
  have hq : listQuery text args = [("entity_type", t)] := by
    have a := hno "trust_marked" (by simp)
    have b := hno "trust_mark_id" (by simp)
    have c := hno "intermediate" (by simp)
    have d : (Val.str t).truthy = true := by simp [Val.truthy, h0]
    simp only [listQuery, List.filterMap_cons, a, b, c, List.filterMap_nil]
    simp [listParam, h1, d, ht t]
  have hl : listAsked (listRequest text ep args).query = [("entity_type", .str t)] := by simp [listRequest, hq, listAsked]
  rw [hl]
  refine ⟨rfl, Server.C57_type_partial K W ext db _ (.str t) rfl rfl ?_ hdb⟩
  rintro (h | h) <;> simp [Dict.has, Dict.get?_cons] at h

/-- C145: asked for intermediates, with exactly those registered as intermediates. -/
theorem C145_intermediates (text : Val → String) (hb : text (.bool true) ≠ "") (K : SetEnum String) (W : Server.ListWorld) (ext : Bool) (db : Dict (Dict Val)) (ep : String) (args : Dict Val)
    (h1 : args.get? "intermediate" = some (.bool true)) (h2 : ∀ k ∈ ["entity_type", "trust_marked", "trust_mark_id"], ∀ v, args.get? k = some v → v.truthy = false) :
    (listRequest text ep args).target = ep ∧ ∃ l, Server.list K W ext db (listAsked (listRequest text ep args).query) = .ok (.ids l) ∧ l.Nodup ∧
      ∀ e, e ∈ l ↔ ∃ conf, (e, conf) ∈ db ∧ Server.flag conf "intermediate" = true := by
  have hno : ∀ k ∈ ["entity_type", "trust_marked", "trust_mark_id"], listParam text args k = none := fun k hk => listParam_none (h2 k hk)
  have hq : listQuery text args = [("intermediate", text (.bool true))] := by
    have a := hno "entity_type" (by simp)
    have b := hno "trust_marked" (by simp)
    have c := hno "trust_mark_id" (by simp)
    have d : (Val.bool true).truthy = true := rfl
    simp only [listQuery, List.filterMap_cons, a, b, c, List.filterMap_nil]
    simp [listParam, h1, d]
  have hl : listAsked (listRequest text ep args).query = [("intermediate", .str (text (.bool true)))] := by simp [listRequest, hq, listAsked]
  rw [hl]
  refine ⟨rfl, Server.C57_intermediate_partial K W ext db _ rfl ?_ ?_⟩
  · simp [Server.flag, Dict.get?_cons, Val.truthy, hb]
  · rintro (h | h) <;> simp [Dict.has, Dict.get?_cons] at h

example : Server.list SetEnum.insertion ⟨fun _ => .error .connectionError, fun _ _ => false⟩ false
    [("https://a", [("entity_type", .arr [.str "openid_relying_party"])]), ("https://im", [("entity_type", .arr [.str "federation_entity"]), ("intermediate", .bool true)])]
    (listAsked (listRequest Ex.text "https://ta/list" [("intermediate", .bool true)]).query) = .ok (.ids ["https://im"]) ∧
  Server.list SetEnum.insertion ⟨fun _ => .error .connectionError, fun _ _ => false⟩ false
    [("https://a", [("entity_type", .arr [.str "openid_relying_party"])]), ("https://im", [("entity_type", .arr [.str "federation_entity"]), ("intermediate", .bool true)])]
    (listAsked (listRequest Ex.text "https://ta/list" [("entity_type", .str "openid_relying_party")]).query) = .ok (.ids ["https://a"]) := by decide +kernel

end Fed.Client.Requests
