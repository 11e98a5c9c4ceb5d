import Verif.Server.List
import Verif.Server.FetchProps
/-
Properties of the list endpoint: C57, C87, C88.
-/
namespace Fed.Server
open Fed

/-! ## Helpers -/

theorem mem_iff_get? {α} (d : Dict α) (h : d.keys.Nodup) (k : String) (v : α) : (k, v) ∈ d ↔ d.get? k = some v := by
  refine ⟨fun hm => ?_, Dict.get?_mem⟩
  induction d with
  | nil => cases hm
  | cons p d ih =>
    simp only [Dict.keys, List.map_cons, List.nodup_cons] at h
    rw [Dict.get?_cons]
    rcases List.mem_cons.1 hm with rfl | hm
    · rw [if_pos rfl]
    · rw [if_neg]
      · exact ih h.2 hm
      · intro he
        exact h.1 (he ▸ List.mem_map.2 ⟨(k, v), hm, rfl⟩)

theorem keys_set_nodup {α} (d : Dict α) (h : d.keys.Nodup) (k : String) (v : α) : (Dict.set d k v).keys.Nodup := by
  induction d with
  | nil => simp [Dict.set, Dict.keys]
  | cons p d ih =>
    obtain ⟨a, b⟩ := p
    simp only [Dict.keys, List.map_cons, List.nodup_cons] at h
    simp only [Dict.set]
    split
    · simpa [Dict.keys] using h
    · rename_i hak
      simp only [Dict.keys, List.map_cons, List.nodup_cons]
      refine ⟨?_, ih h.2⟩
      have := Dict.mem_keys_iff (Dict.set d k v) a
      intro hm
      rw [show List.map (fun x => x.1) (Dict.set d k v) = Dict.keys (Dict.set d k v) from rfl] at hm
      rw [this, Dict.get?_set_ne _ _ (Ne.symm hak), ← Dict.mem_keys_iff] at hm
      exact h.1 hm

/-- What a subordinate's configuration was verified with: a key set registered for the issuer it names. -/
def SignedBy (W : ListWorld) (db : Dict (Dict Val)) (s : Served) : Prop :=
  ∃ conf ks, (s.iss, conf) ∈ db ∧ conf.get? "jwks" = some ks ∧ W.verifies s ks = true

theorem collectLoop_ok (W : ListWorld) (all : Dict (Dict Val)) : ∀ (db : Dict (Dict Val)) (jar : Dict (List Val)) (sub subs : Dict (Dict Val)),
    (∀ p ∈ db, p ∈ all) → sub.keys.Nodup → (∀ e ks, ks ∈ (jar.get? e).getD [] → ∃ conf, (e, conf) ∈ all ∧ conf.get? "jwks" = some ks) →
    collectLoop W db jar sub = .ok subs →
    subs.keys.Nodup ∧ ∀ e c, (e, c) ∈ subs ↔ (e ∉ db.keys ∧ (e, c) ∈ sub) ∨ (e ∈ db.keys ∧ ∃ s, W.config e = .ok s ∧ s.payload = c ∧ SignedBy W all s) := by
  intro db
  induction db with
  | nil =>
    intro jar sub subs _ hn _ h
    simp only [collectLoop, Except.ok.injEq] at h
    subst h
    exact ⟨hn, fun e c => by simp [Dict.keys]⟩
  | cons p db ih =>
    obtain ⟨e0, conf0⟩ := p
    intro jar sub subs hall hn hjar h
    simp only [collectLoop] at h
    split at h
    · cases h
    · rename_i s hs
      split at h
      · cases h
      · rename_i ks hks
        split at h
        · rename_i hver
          have hjar' : ∀ e ks', ks' ∈ ((Dict.set jar e0 ((Dict.get? jar e0).getD [] ++ [ks])).get? e).getD [] →
              ∃ conf, (e, conf) ∈ all ∧ conf.get? "jwks" = some ks' := by
            intro e ks' hk
            rw [Dict.get?_set] at hk
            split at hk
            · rename_i he
              subst he
              simp only [Option.getD_some, List.mem_append, List.mem_singleton] at hk
              rcases hk with hk | rfl
              · exact hjar _ _ hk
              · exact ⟨conf0, hall _ (List.mem_cons_self ..), hks⟩
            · exact hjar _ _ hk
          have hsig : SignedBy W all s := by
            rw [List.any_eq_true] at hver
            obtain ⟨k', hk1, hk2⟩ := hver
            obtain ⟨conf, c1, c2⟩ := hjar' s.iss k' hk1
            exact ⟨conf, k', c1, c2, hk2⟩
          have hn' := keys_set_nodup sub hn e0 s.payload
          obtain ⟨i1, i2⟩ := ih _ _ _ (fun p hp => hall p (List.mem_cons_of_mem _ hp)) hn' hjar' h
          refine ⟨i1, fun e c => ?_⟩
          rw [i2 e c, mem_iff_get? _ hn', mem_iff_get? _ hn, Dict.get?_set]
          have hk : e ∈ Dict.keys ((e0, conf0) :: db) ↔ e = e0 ∨ e ∈ Dict.keys db := by simp [Dict.keys]
          rw [hk]
          by_cases h1 : e ∈ Dict.keys db
          · simp [h1]
          · by_cases h2 : e0 = e
            · subst h2
              simp only [h1, not_false_eq_true, if_true, Option.some.injEq, true_and, false_and, or_false, true_or, not_true_eq_false, false_or]
              constructor
              · intro he; exact ⟨s, hs, he, hsig⟩
              · rintro ⟨s', hs', hp, -⟩
                rw [hs] at hs'
                cases hs'
                exact hp
            · simp [h1, h2, Ne.symm h2]
        · cases h

theorem collectSubordinates_ok {W : ListWorld} {db subs : Dict (Dict Val)} (h : collectSubordinates W db = .ok subs) :
    subs.keys.Nodup ∧ ∀ e c, (e, c) ∈ subs ↔ e ∈ db.keys ∧ ∃ s, W.config e = .ok s ∧ s.payload = c ∧ SignedBy W db s := by
  obtain ⟨h1, h2⟩ := collectLoop_ok W db db [] [] subs (fun _ h => h) (by simp [Dict.keys]) (by simp) h
  refine ⟨h1, fun e c => ?_⟩
  rw [h2]; simp

theorem filterLoop_mem (t i m : Val) : ∀ (subs : Dict (Dict Val)) (l : List String), filterLoop t i m subs = .ok l →
    ∀ e, e ∈ l ↔ ∃ c, (e, c) ∈ subs ∧ filterOne t i m c = .ok true := by
  intro subs
  induction subs with
  | nil => intro l h; simp only [filterLoop, Except.ok.injEq] at h; subst h; simp
  | cons p subs ih =>
    obtain ⟨e0, c0⟩ := p
    intro l h e
    simp only [filterLoop] at h
    cases h1 : filterOne t i m c0 with
    | error x => rw [h1] at h; cases h
    | ok b =>
      rw [h1] at h
      cases h2 : filterLoop t i m subs with
      | error x => rw [h2] at h; cases h
      | ok r =>
        rw [h2] at h
        simp only [ok_bind, Except.ok.injEq] at h
        have hr := ih r h2 e
        constructor
        · intro he
          rw [← h] at he
          cases b with
          | true =>
            rcases List.mem_cons.1 he with rfl | he
            · exact ⟨c0, List.mem_cons_self .., h1⟩
            · obtain ⟨c, x, y⟩ := hr.1 he; exact ⟨c, List.mem_cons_of_mem _ x, y⟩
          | false => obtain ⟨c, x, y⟩ := hr.1 he; exact ⟨c, List.mem_cons_of_mem _ x, y⟩
        · rintro ⟨c, x, y⟩
          rw [← h]
          rcases List.mem_cons.1 x with hx | hx
          · cases hx
            rw [h1] at y
            cases y
            simp
          · have := hr.2 ⟨c, hx, y⟩
            cases b <;> simp [this]

/-- Does the registration of an entity match one of the criteria that are looked up there? -/
def RegistryMatch (request conf : Dict Val) : Prop :=
  (flag request "intermediate" = true ∧ flag conf "intermediate" = true) ∨
    ∃ t types, request.get? "entity_type" = some t ∧ conf.get? "entity_type" = some types ∧ pyIn t types = .ok true

theorem registryLoop_mem (request : Dict Val) : ∀ (db : Dict (Dict Val)) (l : List String), registryLoop request db = .ok l →
    ∀ e, e ∈ l ↔ ∃ conf, (e, conf) ∈ db ∧ RegistryMatch request conf := by
  intro db
  induction db with
  | nil => intro l h; simp only [registryLoop, Except.ok.injEq] at h; subst h; simp
  | cons p db ih =>
    obtain ⟨e0, c0⟩ := p
    intro l h e
    have step : ∀ (b : Bool) (r : List String), registryLoop request db = .ok r → (b = true ↔ RegistryMatch request c0) →
        (if b then e0 :: r else r) = l → (e ∈ l ↔ ∃ conf, (e, conf) ∈ (e0, c0) :: db ∧ RegistryMatch request conf) := by
      intro b r hr hb hl
      have hr := ih r hr e
      rw [← hl]
      constructor
      · intro he
        cases b with
        | true =>
          rcases List.mem_cons.1 he with rfl | he
          · exact ⟨c0, List.mem_cons_self .., hb.1 rfl⟩
          · obtain ⟨c, x, y⟩ := hr.1 he; exact ⟨c, List.mem_cons_of_mem _ x, y⟩
        | false => obtain ⟨c, x, y⟩ := hr.1 he; exact ⟨c, List.mem_cons_of_mem _ x, y⟩
      · rintro ⟨c, x, y⟩
        rcases List.mem_cons.1 x with hx | hx
        · cases hx
          rw [hb.2 y]; simp
        · have := hr.2 ⟨c, hx, y⟩
          cases b <;> simp [this]
    simp only [registryLoop] at h
    split at h
    · rename_i hi
      rw [Bool.and_eq_true] at hi
      cases hr : registryLoop request db with
      | error x => rw [hr] at h; cases h
      | ok r =>
        rw [hr] at h
        simp only [ok_bind, Except.ok.injEq] at h
        exact step true r hr ⟨fun _ => .inl hi, fun _ => rfl⟩ h
    · rename_i hi
      rw [Bool.and_eq_true] at hi
      split at h
      · rename_i ht
        refine step false l h ⟨by simp, ?_⟩ rfl
        rintro (hm | ⟨t, -, h1, -⟩)
        · exact absurd hm hi
        · rw [ht] at h1; cases h1
      · rename_i t ht
        cases hty : Dict.get c0 "entity_type" with
        | error x => rw [hty] at h; cases h
        | ok types =>
          rw [hty] at h
          simp only [ok_bind] at h
          cases hin : pyIn t types with
          | error x => rw [hin] at h; cases h
          | ok b =>
            rw [hin] at h
            simp only [ok_bind] at h
            cases hr : registryLoop request db with
            | error x => rw [hr] at h; cases h
            | ok r =>
              rw [hr] at h
              simp only [ok_bind, Except.ok.injEq] at h
              have hty' : c0.get? "entity_type" = some types := by
                unfold Dict.get at hty
                split at hty
                · rename_i v hv; cases hty; exact hv
                · cases hty
              refine step b r hr ⟨?_, ?_⟩ h
              · rintro rfl; exact .inr ⟨t, types, ht, hty', hin⟩
              · rintro (hm | ⟨t', ty', h1, h2, h3⟩)
                · exact absurd hm hi
                · rw [hty'] at h2; cases h2; rw [ht] at h1; cases h1; rw [hin] at h3; cases h3; rfl

theorem confsOf_keys (subs : Dict (Dict Val)) : ∀ (es : List String) (d : Dict (Dict Val)), confsOf subs es = .ok d →
    d.keys = es ∧ ∀ e c, (e, c) ∈ d → subs.get? e = some c := by
  intro es
  induction es with
  | nil => intro d h; simp only [confsOf, Except.ok.injEq] at h; subst h; exact ⟨rfl, by simp⟩
  | cons e es ih =>
    intro d h
    simp only [confsOf] at h
    cases h1 : Dict.get subs e with
    | error x => rw [h1] at h; cases h
    | ok c =>
      rw [h1] at h
      cases h2 : confsOf subs es with
      | error x => rw [h2] at h; cases h
      | ok r =>
        rw [h2] at h
        simp only [ok_bind, Except.ok.injEq] at h
        subst h
        obtain ⟨i1, i2⟩ := ih r h2
        refine ⟨by simp only [Dict.keys, List.map_cons]; rw [show List.map (fun x => x.1) r = Dict.keys r from rfl, i1], ?_⟩
        intro e' c' hm
        rcases List.mem_cons.1 hm with hm | hm
        · cases hm
          unfold Dict.get at h1
          split at h1
          · rename_i v hv; cases h1; exact hv
          · cases h1
        · exact i2 e' c' hm

/-! ## C57 -/

/-- The ids an answer names. -/
def ListResponse.named : ListResponse → List String
  | .ids l => l
  | .confs d => d.keys

/-- Does the request ask for trust marks? -/
def AsksMarks (request : Dict Val) : Prop := request.has "trust_marked" = true ∨ request.has "trust_mark_id" = true

/-- An entity satisfies every criterion of the request: `conf` is its registration, `ec` its configuration. -/
def SatisfiesAll (request conf ec : Dict Val) : Prop :=
  (flag request "intermediate" = true → flag conf "intermediate" = true) ∧
  (∀ t, request.get? "entity_type" = some t → ∃ types, conf.get? "entity_type" = some types ∧ pyIn t types = .ok true) ∧
  (flag request "trust_marked" = true → ec.has "trust_marks" = true) ∧
  (∀ i, request.get? "trust_mark_id" = some i → ∃ ms m, ec.get? "trust_marks" = some (.arr ms) ∧ .obj m ∈ ms ∧ Dict.get? m "id" = some i)

/-- C57 in full: an answer names exactly the registered entities that satisfy every criterion of the request. -/
def C57_full : Prop := ∀ (K : SetEnum String) (W : ListWorld) (ext : Bool) (db : Dict (Dict Val)) (request : Dict Val) (r : ListResponse),
  db.keys.Nodup → list K W ext db request = .ok r →
    ∀ e, e ∈ r.named ↔ ∃ conf ec, (e, conf) ∈ db ∧ (∀ s, W.config e = .ok s → s.payload = ec) ∧ SatisfiesAll request conf ec

/-- C57 does not hold: two criteria select the entities that satisfy one or the other. -/
theorem C57_violation : ¬ C57_full := by
  intro h
  have := (h SetEnum.insertion ⟨fun _ => .error .connectionError, fun _ _ => false⟩ false
    [("a", [("intermediate", .bool true), ("entity_type", .arr [.str "federation_entity"])])]
    [("intermediate", .bool true), ("entity_type", .str "openid_provider")] (.ids ["a"]) (by decide) (by decide +kernel) "a").1 (by decide)
  obtain ⟨conf, ec, h1, -, -, h2, -⟩ := this
  simp only [List.mem_singleton, Prod.mk.injEq, true_and] at h1
  subst h1
  obtain ⟨types, h3, h4⟩ := h2 (.str "openid_provider") rfl
  rw [show Dict.get? _ "entity_type" = some (Val.arr [.str "federation_entity"]) from rfl] at h3
  cases h3
  exact absurd h4 (by decide +kernel)

/-- Nor does a request without criteria always list everyone: an unrelated member and the answer is empty. -/
theorem C57_violation_unrelated (K : SetEnum String) (W : ListWorld) (ext : Bool) :
    ∃ (db : Dict (Dict Val)) (r : ListResponse), list K W ext db [("page", .str "1")] = .ok r ∧ "a" ∈ db.keys ∧ "a" ∉ r.named := by
  refine ⟨[("a", [])], .ids (K.enum []), rfl, by simp [Dict.keys], ?_⟩
  simp only [ListResponse.named]
  rw [K.mem_enum]; simp

/-- C57: without criteria everyone is listed. -/
theorem C57_all (K : SetEnum String) (W : ListWorld) (ext : Bool) (db : Dict (Dict Val)) (request : Dict Val)
    (h : ∀ k ∈ request.keys, k = "client_id" ∨ k = "authenticated") : list K W ext db request = .ok (.ids db.keys) := by
  unfold list
  rw [if_pos]
  rw [List.all_eq_true]
  intro p hp
  have := h p.1 (List.mem_map.2 ⟨p, hp, rfl⟩)
  simpa using this

example : list SetEnum.insertion ⟨fun _ => .error .connectionError, fun _ _ => false⟩ true [("a", []), ("b", [])] [("client_id", .str "c")] =
    .ok (.ids ["a", "b"]) := by decide +kernel

/-- C57: what an answer to a request with criteria names, exactly: those whose registration matches on `intermediate` or on the entity
type, and, if the request asks for trust marks, those whose configuration passes the filter. Nobody is named twice. -/
theorem C57_union_partial (K : SetEnum String) (W : ListWorld) (ext : Bool) (db : Dict (Dict Val)) (request : Dict Val) (r : ListResponse)
    (hreq : ¬ ∀ k ∈ request.keys, k = "client_id" ∨ k = "authenticated") (h : list K W ext db request = .ok r) :
    r.named.Nodup ∧ ∀ e, e ∈ r.named ↔ (∃ conf, (e, conf) ∈ db ∧ RegistryMatch request conf) ∨
      (AsksMarks request ∧ e ∈ db.keys ∧ ∃ s, W.config e = .ok s ∧ SignedBy W db s ∧
        filterOne (param request "entity_type" (.str "")) (param request "trust_mark_id" (.str "")) (param request "trust_marked" .null) s.payload = .ok true) := by
  unfold list at h
  rw [if_neg (by
    intro hall
    apply hreq
    rw [List.all_eq_true] at hall
    intro k hk
    obtain ⟨p, hp, rfl⟩ := List.mem_map.1 hk
    simpa using hall p hp)] at h
  cases hm : registryLoop request db with
  | error x => rw [hm] at h; cases h
  | ok matched =>
    rw [hm] at h
    simp only [ok_bind] at h
    have hmem := registryLoop_mem request db matched hm
    by_cases ha : AsksMarks request
    · have ha' : (request.has "trust_marked" || request.has "trust_mark_id") = true := by rw [Bool.or_eq_true]; exact ha
      rw [if_pos ha'] at h
      cases hc : collectSubordinates W db with
      | error x => rw [hc] at h; cases h
      | ok subs =>
        rw [hc] at h
        simp only [ok_bind] at h
        obtain ⟨hnd, hsub⟩ := collectSubordinates_ok hc
        cases hf : filterCall subs request with
        | error x => rw [hf] at h; cases h
        | ok more =>
          rw [hf] at h
          simp only [ok_bind] at h
          have hmore : ∀ e, e ∈ more ↔ e ∈ db.keys ∧ ∃ s, W.config e = .ok s ∧ SignedBy W db s ∧
              filterOne (param request "entity_type" (.str "")) (param request "trust_mark_id" (.str "")) (param request "trust_marked" .null) s.payload = .ok true := by
            intro e
            unfold filterCall at hf
            split at hf
            · cases hf
            · rw [filterLoop_mem _ _ _ _ _ hf e]
              constructor
              · rintro ⟨c, h1, h2⟩
                obtain ⟨h3, s, h4, h5, h6⟩ := (hsub e c).1 h1
                subst h5
                exact ⟨h3, s, h4, h6, h2⟩
              · rintro ⟨h3, s, h4, h6, h2⟩
                exact ⟨s.payload, (hsub _ _).2 ⟨h3, s, h4, rfl, h6⟩, h2⟩
          have hnamed : r.named = K.enum (matched ++ more) := by
            split at h
            · cases hcf : confsOf subs (K.enum (matched ++ more)) with
              | error x => rw [hcf] at h; cases h
              | ok d =>
                rw [hcf] at h
                simp only [ok_bind, Except.ok.injEq] at h
                subst h
                exact (confsOf_keys _ _ _ hcf).1
            · simp only [Except.ok.injEq] at h
              subst h
              rfl
          rw [hnamed]
          refine ⟨K.nodup_enum _, fun e => ?_⟩
          rw [K.mem_enum, List.mem_append, hmem, hmore]
          simp only [ha, true_and]
    · have ha' : ¬ (request.has "trust_marked" || request.has "trust_mark_id") = true := by rw [Bool.or_eq_true]; exact ha
      rw [if_neg ha'] at h
      simp only [Except.ok.injEq] at h
      subst h
      refine ⟨K.nodup_enum _, fun e => ?_⟩
      simp only [ListResponse.named]
      rw [K.mem_enum, hmem]
      simp only [ha, false_and, or_false]

/-- C57: only registered entities are ever listed. -/
theorem C57_registered (K : SetEnum String) (W : ListWorld) (ext : Bool) (db : Dict (Dict Val)) (request : Dict Val) (r : ListResponse)
    (h : list K W ext db request = .ok r) : ∀ e ∈ r.named, e ∈ db.keys := by
  by_cases hreq : ∀ k ∈ request.keys, k = "client_id" ∨ k = "authenticated"
  · rw [C57_all K W ext db request hreq] at h
    cases h
    exact fun _ h => h
  · intro e he
    rcases ((C57_union_partial K W ext db request r hreq h).2 e).1 he with ⟨conf, hm, -⟩ | ⟨-, hm, -⟩
    · exact List.mem_map.2 ⟨(e, conf), hm, rfl⟩
    · exact hm

theorem registryLoop_total (request : Dict Val) (db : Dict (Dict Val))
    (h : ∀ t e conf, request.get? "entity_type" = some t → (e, conf) ∈ db → ∃ ts, conf.get? "entity_type" = some (.arr ts)) :
    ∃ l, registryLoop request db = .ok l := by
  induction db with
  | nil => exact ⟨[], rfl⟩
  | cons p db ih =>
    obtain ⟨e0, c0⟩ := p
    obtain ⟨l, hl⟩ := ih (fun t e conf h1 h2 => h t e conf h1 (List.mem_cons_of_mem _ h2))
    simp only [registryLoop, hl]
    split
    · exact ⟨_, rfl⟩
    · split
      · exact ⟨_, rfl⟩
      · rename_i t ht
        obtain ⟨ts, hts⟩ := h t e0 c0 ht (List.mem_cons_self ..)
        rw [show Dict.get c0 "entity_type" = .ok (.arr ts) by unfold Dict.get; rw [hts]]
        exact ⟨_, rfl⟩

theorem pyIn_arr (t : Val) (ts : List Val) : pyIn t (.arr ts) = .ok true ↔ t ∈ ts := by
  simp [pyIn]

/-- C57, one criterion, the entity type: answered, and exactly those registered with that type. Missing: registrations without `entity_type` (see
C87) and requests with several criteria. -/
theorem C57_type_partial (K : SetEnum String) (W : ListWorld) (ext : Bool) (db : Dict (Dict Val)) (request : Dict Val) (t : Val)
    (ht : request.get? "entity_type" = some t) (hi : flag request "intermediate" = false) (hm : ¬ AsksMarks request)
    (hdb : ∀ e conf, (e, conf) ∈ db → ∃ ts, conf.get? "entity_type" = some (.arr ts)) :
    ∃ l, list K W ext db request = .ok (.ids l) ∧ l.Nodup ∧
      ∀ e, e ∈ l ↔ ∃ conf ts, (e, conf) ∈ db ∧ conf.get? "entity_type" = some (.arr ts) ∧ t ∈ ts := by
  obtain ⟨l, hl⟩ := registryLoop_total request db (fun _ e conf _ h => hdb e conf h)
  have hm' : ¬ (request.has "trust_marked" || request.has "trust_mark_id") = true := by rw [Bool.or_eq_true]; exact hm
  refine ⟨K.enum l, ?_, K.nodup_enum _, fun e => ?_⟩
  · unfold list
    rw [if_neg, hl]
    · simp only [ok_bind]; rw [if_neg hm']
    · intro hall
      rw [List.all_eq_true] at hall
      have := hall _ (Dict.get?_mem ht)
      simp at this
  · rw [K.mem_enum, registryLoop_mem request db l hl]
    constructor
    · rintro ⟨conf, h1, h2⟩
      rcases h2 with ⟨h2, -⟩ | ⟨t', types, h3, h4, h5⟩
      · rw [hi] at h2; cases h2
      · rw [ht] at h3; cases h3
        obtain ⟨ts, hts⟩ := hdb e conf h1
        rw [hts] at h4; cases h4
        exact ⟨conf, ts, h1, hts, (pyIn_arr _ _).1 h5⟩
    · rintro ⟨conf, ts, h1, h2, h3⟩
      exact ⟨conf, h1, .inr ⟨t, _, ht, h2, (pyIn_arr _ _).2 h3⟩⟩

example : list SetEnum.insertion ⟨fun _ => .error .connectionError, fun _ _ => false⟩ false
    [("a", [("entity_type", .arr [.str "op"])]), ("b", [("entity_type", .arr [])]), ("c", [("entity_type", .arr [.str "rp", .str "op"])])]
    [("entity_type", .str "op")] = .ok (.ids ["a", "c"]) := by decide +kernel

/-- C57, one criterion, intermediates. -/
theorem C57_intermediate_partial (K : SetEnum String) (W : ListWorld) (ext : Bool) (db : Dict (Dict Val)) (request : Dict Val)
    (ht : request.get? "entity_type" = none) (hi : flag request "intermediate" = true) (hm : ¬ AsksMarks request) :
    ∃ l, list K W ext db request = .ok (.ids l) ∧ l.Nodup ∧ ∀ e, e ∈ l ↔ ∃ conf, (e, conf) ∈ db ∧ flag conf "intermediate" = true := by
  obtain ⟨l, hl⟩ := registryLoop_total request db (fun t e conf h _ => by rw [ht] at h; cases h)
  have hm' : ¬ (request.has "trust_marked" || request.has "trust_mark_id") = true := by rw [Bool.or_eq_true]; exact hm
  refine ⟨K.enum l, ?_, K.nodup_enum _, fun e => ?_⟩
  · unfold list
    rw [if_neg, hl]
    · simp only [ok_bind]; rw [if_neg hm']
    · intro hall
      rw [List.all_eq_true] at hall
      unfold flag at hi
      split at hi
      · rename_i v hv
        have := hall _ (Dict.get?_mem hv)
        simp at this
      · cases hi
  · rw [K.mem_enum, registryLoop_mem request db l hl]
    constructor
    · rintro ⟨conf, h1, ⟨-, h2⟩ | ⟨t', types, h3, -⟩⟩
      · exact ⟨conf, h1, h2⟩
      · rw [ht] at h3; cases h3
    · rintro ⟨conf, h1, h2⟩
      exact ⟨conf, h1, .inl ⟨hi, h2⟩⟩

example : list SetEnum.insertion ⟨fun _ => .error .connectionError, fun _ _ => false⟩ false
    [("a", [("intermediate", .bool true)]), ("b", [])] [("intermediate", .str "true")] = .ok (.ids ["a"]) := by decide +kernel

/-- C57, one criterion, having trust marks at all: an answer names exactly the registered entities whose configuration has trust marks. -/
theorem C57_marked_partial (K : SetEnum String) (W : ListWorld) (ext : Bool) (db : Dict (Dict Val)) (request : Dict Val) (r : ListResponse)
    (ht : request.get? "entity_type" = none) (hi : flag request "intermediate" = false) (hid : request.get? "trust_mark_id" = none)
    (hm : flag request "trust_marked" = true) (h : list K W ext db request = .ok r) :
    ∀ e, e ∈ r.named ↔ e ∈ db.keys ∧ ∃ s, W.config e = .ok s ∧ SignedBy W db s ∧ s.payload.has "trust_marks" = true := by
  have hv : ∃ v, request.get? "trust_marked" = some v ∧ v.truthy = true := by
    unfold flag at hm
    split at hm
    · rename_i v hv; exact ⟨v, hv, hm⟩
    · cases hm
  obtain ⟨v, hv, hvt⟩ := hv
  have hreq : ¬ ∀ k ∈ request.keys, k = "client_id" ∨ k = "authenticated" := by
    intro hall
    have := hall "trust_marked" ((Dict.mem_keys_iff _ _).2 (by rw [hv]; rfl))
    simp at this
  intro e
  rw [(C57_union_partial K W ext db request r hreq h).2 e]
  have ha : AsksMarks request := .inl (by rw [has_true_get?, hv]; rfl)
  have hf : ∀ c : Dict Val, filterOne (param request "entity_type" (.str "")) (param request "trust_mark_id" (.str "")) (param request "trust_marked" .null) c =
      .ok (c.has "trust_marks") := by
    intro c
    simp [filterOne, param, ht, hid, hv, hvt, show (Val.str "").truthy = false from rfl]
  simp only [hf, ha, true_and, Except.ok.injEq]
  constructor
  · rintro (⟨conf, -, ⟨h1, -⟩ | ⟨t, -, h1, -⟩⟩ | h1)
    · rw [hi] at h1; cases h1
    · rw [ht] at h1; cases h1
    · exact h1
  · exact .inr

/-- A configuration's trust marks are all dicts with an id. -/
def GoodMarks (ec : Dict Val) : Prop := ∃ ms, ec.get? "trust_marks" = some (.arr ms) ∧ ∀ m ∈ ms, ∃ kvs i, m = .obj kvs ∧ Dict.get? kvs "id" = some i

theorem anyMark_good (id : Val) (ms : List Val) (h : ∀ m ∈ ms, ∃ kvs i, m = .obj kvs ∧ Dict.get? kvs "id" = some i) :
    ∃ b, anyMark id ms = .ok b ∧ (b = true ↔ ∃ kvs, .obj kvs ∈ ms ∧ Dict.get? kvs "id" = some id) := by
  induction ms with
  | nil => exact ⟨false, rfl, by simp⟩
  | cons m ms ih =>
    obtain ⟨b, hb, hb'⟩ := ih (fun m hm => h m (List.mem_cons_of_mem _ hm))
    obtain ⟨kvs, i, rfl, hi⟩ := h m (List.mem_cons_self ..)
    refine ⟨decide (i = id) || b, ?_, ?_⟩
    · simp only [anyMark, member, Dict.get, hi, hb, ok_bind]
    · rw [Bool.or_eq_true, decide_eq_true_iff, hb']
      constructor
      · rintro (rfl | ⟨k, h1, h2⟩)
        · exact ⟨kvs, List.mem_cons_self .., hi⟩
        · exact ⟨k, List.mem_cons_of_mem _ h1, h2⟩
      · rintro ⟨k, h1, h2⟩
        rcases List.mem_cons.1 h1 with h1 | h1
        · cases h1; rw [hi] at h2; cases h2; exact .inl rfl
        · exact .inr ⟨k, h1, h2⟩

/-- C57, one criterion, a trust mark: an answer names exactly the registered entities whose configuration has a trust mark of that id. Missing:
trust marks given as signed JWTs rather than as dicts make the request fail. -/
theorem C57_mark_id_partial (K : SetEnum String) (W : ListWorld) (ext : Bool) (db : Dict (Dict Val)) (request : Dict Val) (r : ListResponse) (id : Val)
    (ht : request.get? "entity_type" = none) (hi : flag request "intermediate" = false) (hid : request.get? "trust_mark_id" = some id)
    (hne : id.truthy = true) (hgood : ∀ e s, e ∈ db.keys → W.config e = .ok s → GoodMarks s.payload) (h : list K W ext db request = .ok r) :
    ∀ e, e ∈ r.named ↔ e ∈ db.keys ∧ ∃ s, W.config e = .ok s ∧ SignedBy W db s ∧
      ∃ ms kvs, s.payload.get? "trust_marks" = some (.arr ms) ∧ .obj kvs ∈ ms ∧ Dict.get? kvs "id" = some id := by
  have hreq : ¬ ∀ k ∈ request.keys, k = "client_id" ∨ k = "authenticated" := by
    intro hall
    have := hall "trust_mark_id" ((Dict.mem_keys_iff _ _).2 (by rw [hid]; rfl))
    simp at this
  intro e
  rw [(C57_union_partial K W ext db request r hreq h).2 e]
  have ha : AsksMarks request := .inr (by rw [has_true_get?, hid]; rfl)
  have hf : ∀ c : Dict Val, GoodMarks c → (filterOne (param request "entity_type" (.str "")) (param request "trust_mark_id" (.str ""))
      (param request "trust_marked" .null) c = .ok true ↔ ∃ ms kvs, c.get? "trust_marks" = some (.arr ms) ∧ .obj kvs ∈ ms ∧ Dict.get? kvs "id" = some id) := by
    rintro c ⟨ms, hms, hall⟩
    obtain ⟨b, hb, hb'⟩ := anyMark_good id ms hall
    have : filterOne (param request "entity_type" (.str "")) (param request "trust_mark_id" (.str "")) (param request "trust_marked" .null) c = .ok b := by
      simp [filterOne, param, ht, hid, hne, show (Val.str "").truthy = false from rfl, hms, pyIter, hb]
    rw [this]
    constructor
    · intro hh
      cases hh
      obtain ⟨kvs, h1, h2⟩ := hb'.1 rfl
      exact ⟨ms, kvs, hms, h1, h2⟩
    · rintro ⟨ms', kvs, h0, h1, h2⟩
      rw [hms] at h0
      cases h0
      rw [hb'.2 ⟨kvs, h1, h2⟩]
  simp only [ha, true_and]
  constructor
  · rintro (⟨conf, -, ⟨h1, -⟩ | ⟨t, -, h1, -⟩⟩ | ⟨h1, s, h2, h3, h4⟩)
    · rw [hi] at h1; cases h1
    · rw [ht] at h1; cases h1
    · exact ⟨h1, s, h2, h3, (hf _ (hgood e s h1 h2)).1 h4⟩
  · rintro ⟨h1, s, h2, h3, h4⟩
    exact .inr ⟨h1, s, h2, h3, (hf _ (hgood e s h1 h2)).2 h4⟩

namespace ExL
/-- a and b are registered with keys; a has a trust mark, b an empty list. -/
def W : ListWorld where
  config e := if e = "a" then .ok ⟨"a", [("iss", .str "a"), ("trust_marks", .arr [.obj [("id", .str "m1")]])], 1⟩
    else .ok ⟨e, [("iss", .str e), ("trust_marks", .arr [])], 2⟩
  verifies s k := decide (k = .int s.sig)
def db : Dict (Dict Val) := [("a", [("jwks", .int 1)]), ("b", [("jwks", .int 2)])]
end ExL

example : list SetEnum.insertion ExL.W false ExL.db [("trust_mark_id", .str "m1")] = .ok (.ids ["a"]) ∧
    list SetEnum.insertion ExL.W false ExL.db [("trust_marked", .bool true)] = .ok (.ids ["a", "b"]) := by decide +kernel

example : ∀ e s, e ∈ ExL.db.keys → ExL.W.config e = .ok s → GoodMarks s.payload := by
  intro e s he hs
  simp only [ExL.db, Dict.keys, List.map_cons, List.map_nil, List.mem_cons, List.not_mem_nil, or_false] at he
  rcases he with rfl | rfl
  · cases hs; exact ⟨_, rfl, by simp [Dict.get?_cons]⟩
  · cases hs; exact ⟨_, rfl, by simp⟩

/-! ## C87 -/

/-- C87 in full: on a registry that names the entity types of each subordinate the way the fetch endpoint reads them (`entity_types`), listing by
type is answered with exactly the subordinates of that type. -/
def C87_full : Prop := ∀ (K : SetEnum String) (W : ListWorld) (ext : Bool) (db : Dict (Dict Val)) (t : String),
  (∀ e conf, (e, conf) ∈ db → ∃ ts, conf.get? "entity_types" = some (.arr ts)) →
    ∃ l, list K W ext db [("entity_type", .str t)] = .ok (.ids l) ∧ ∀ e, e ∈ l ↔ ∃ conf ts, (e, conf) ∈ db ∧ conf.get? "entity_types" = some (.arr ts) ∧ .str t ∈ ts

/-- C87 does not hold: the request fails with KeyError. -/
theorem C87_violation : ¬ C87_full := by
  intro h
  obtain ⟨l, hl, -⟩ := h SetEnum.insertion ⟨fun _ => .error .connectionError, fun _ _ => false⟩ false [("a", [("entity_types", .arr [.str "op"])])] "op"
    (by intro e conf hm; simp only [List.mem_singleton, Prod.mk.injEq] at hm; rw [hm.2]; exact ⟨_, rfl⟩)
  exact absurd hl (by
    intro hh
    have : list SetEnum.insertion ⟨fun _ => .error .connectionError, fun _ _ => false⟩ false [("a", [("entity_types", .arr [.str "op"])])] [("entity_type", .str "op")] =
        .error .keyError := by decide +kernel
    rw [this] at hh; cases hh)

/-- C87: it never works: whenever the first subordinate is registered the way the fetch endpoint reads it, listing by type fails. -/
theorem C87_always_fails (K : SetEnum String) (W : ListWorld) (ext : Bool) (e : String) (conf : Dict Val) (rest : Dict (Dict Val)) (t : String)
    (h : conf.get? "entity_type" = none) : list K W ext ((e, conf) :: rest) [("entity_type", .str t)] = .error .keyError := by
  have h1 : registryLoop [("entity_type", .str t)] ((e, conf) :: rest) = .error .keyError := by
    simp only [registryLoop]
    rw [if_neg (by simp [flag, Dict.get?_cons])]
    have : Dict.get? [("entity_type", Val.str t)] "entity_type" = some (.str t) := rfl
    simp only [this, Dict.get, h, error_bind]
  unfold list
  rw [if_neg (by simp), h1]
  rfl

/-- C87, what holds: registries in which each entry has the types under both names, as lists with the same members. -/
theorem C87_partial (K : SetEnum String) (W : ListWorld) (ext : Bool) (db : Dict (Dict Val)) (t : String)
    (hdb : ∀ e conf, (e, conf) ∈ db → ∃ ts, conf.get? "entity_types" = some (.arr ts) ∧ conf.get? "entity_type" = some (.arr ts)) :
    ∃ l, list K W ext db [("entity_type", .str t)] = .ok (.ids l) ∧
      ∀ e, e ∈ l ↔ ∃ conf ts, (e, conf) ∈ db ∧ conf.get? "entity_types" = some (.arr ts) ∧ .str t ∈ ts := by
  obtain ⟨l, h1, -, h2⟩ := C57_type_partial K W ext db [("entity_type", .str t)] (.str t) rfl rfl (by simp [AsksMarks, Dict.has, Dict.get?_cons])
    (fun e conf h => by obtain ⟨ts, -, h⟩ := hdb e conf h; exact ⟨ts, h⟩)
  refine ⟨l, h1, fun e => ?_⟩
  rw [h2 e]
  constructor
  · rintro ⟨conf, ts, a, b, c⟩
    obtain ⟨ts', x, y⟩ := hdb e conf a
    rw [b] at y; cases y
    exact ⟨conf, ts, a, x, c⟩
  · rintro ⟨conf, ts, a, b, c⟩
    obtain ⟨ts', x, y⟩ := hdb e conf a
    rw [b] at x; cases x
    exact ⟨conf, ts, a, y, c⟩

/-! ## C88 -/

/-- C88 in full: a configuration in an extended answer is signed with keys registered for the subordinate it is listed under. -/
def C88_full : Prop := ∀ (K : SetEnum String) (W : ListWorld) (ext : Bool) (db : Dict (Dict Val)) (request : Dict Val) (d : Dict (Dict Val)),
  db.keys.Nodup → list K W ext db request = .ok (.confs d) → ∀ e c, (e, c) ∈ d →
    ∃ s conf ks, W.config e = .ok s ∧ s.payload = c ∧ (e, conf) ∈ db ∧ conf.get? "jwks" = some ks ∧ W.verifies s ks = true

/-- C88 does not hold: what one subordinate signed is accepted as the configuration of another, if the former comes first in the registry. -/
theorem C88_violation : ¬ C88_full := by
  intro h
  obtain ⟨s, conf, ks, h1, -, h3, h4, h5⟩ := h SetEnum.insertion
    ⟨fun _ => .ok ⟨"a", [("iss", .str "a"), ("trust_marks", .arr [])], 1⟩, fun s k => decide (k = .int s.sig)⟩ true
    ExL.db [("trust_marked", .bool true)]
    [("a", [("iss", .str "a"), ("trust_marks", .arr [])]), ("b", [("iss", .str "a"), ("trust_marks", .arr [])])] (by decide) (by decide +kernel) "b"
    [("iss", .str "a"), ("trust_marks", .arr [])] (by simp)
  cases h1
  simp only [ExL.db, List.mem_cons, Prod.mk.injEq, String.reduceEq, false_and, true_and, List.not_mem_nil, or_false, false_or] at h3
  subst h3
  rw [show Dict.get? [("jwks", Val.int 2)] "jwks" = some (.int 2) from rfl] at h4
  cases h4
  exact absurd h5 (by decide)

/-- C88, what holds: it is signed with keys registered for the entity it names as issuer; so if it names the subordinate it is listed under, with
that subordinate's keys. Missing: a configuration that names another subordinate as issuer. -/
theorem C88_partial (K : SetEnum String) (W : ListWorld) (ext : Bool) (db : Dict (Dict Val)) (request : Dict Val) (d : Dict (Dict Val))
    (h : list K W ext db request = .ok (.confs d)) (e : String) (c : Dict Val) (he : (e, c) ∈ d) :
    ∃ s conf ks, W.config e = .ok s ∧ s.payload = c ∧ (s.iss, conf) ∈ db ∧ conf.get? "jwks" = some ks ∧ W.verifies s ks = true := by
  unfold list at h
  split at h
  · cases h
  · cases hm : registryLoop request db with
    | error x => rw [hm] at h; cases h
    | ok matched =>
      rw [hm] at h
      simp only [ok_bind] at h
      split at h
      · cases hc : collectSubordinates W db with
        | error x => rw [hc] at h; cases h
        | ok subs =>
          rw [hc] at h
          simp only [ok_bind] at h
          obtain ⟨hnd, hsub⟩ := collectSubordinates_ok hc
          cases hf : filterCall subs request with
          | error x => rw [hf] at h; cases h
          | ok more =>
            rw [hf] at h
            simp only [ok_bind] at h
            split at h
            · cases hcf : confsOf subs (K.enum (matched ++ more)) with
              | error x => rw [hcf] at h; cases h
              | ok d' =>
                rw [hcf] at h
                simp only [ok_bind, Except.ok.injEq, ListResponse.confs.injEq] at h
                subst h
                have := (confsOf_keys _ _ _ hcf).2 e c he
                obtain ⟨-, s, h1, h2, conf, ks, h3, h4, h5⟩ := (hsub e c).1 (Dict.get?_mem this)
                exact ⟨s, conf, ks, h1, h2, h3, h4, h5⟩
            · cases h
      · cases h

example : ∃ d, list SetEnum.insertion ExL.W true ExL.db [("trust_marked", .bool true)] = .ok (.confs d) ∧ d.keys = ["a", "b"] := ⟨_, rfl, by decide +kernel⟩

end Fed.Server
