import Verif.Setup.Scripts
/-
Property C185: a federation set up with the scripts works.
-/
namespace Fed.Setup
open Fed Verify Chains

/-! ### What the scripts do -/

/-- The registry of an entity. -/
def registry (s : Site) (a : String) : Dict (Dict Val) := match s.member a with
  | some m => m.authority.subordinate
  | none => []

/-- A member with another registry. -/
def setReg (m : Member) (r : Dict (Dict Val)) : Member := { m with authority := { m.authority with subordinate := r } }

theorem info_shape {e : String} {conf i : Dict Val} (h : info .subordinate e conf = .ok i) : ∃ d, i = [(e, .obj d)] := by
  unfold info at h
  simp only at h
  cases h1 : Dict.get conf "metadata" with
  | error x => rw [h1] at h; cases h
  | ok md =>
    rw [h1, ok_bind] at h
    cases h2 : memberNames md with
    | error x => rw [h2] at h; cases h
    | ok ts =>
      rw [h2, ok_bind] at h
      cases h3 : Dict.get conf "jwks" with
      | error x => rw [h3] at h; cases h
      | ok ks =>
        rw [h3, ok_bind] at h
        cases h4 : Server.member md "federation_entity" with
        | error x => rw [h4] at h; cases h
        | ok fe =>
          rw [h4, ok_bind] at h
          cases h5 : pyIn (.str "federation_list_endpoint") fe with
          | error x => rw [h5] at h; cases h
          | ok b =>
            rw [h5, ok_bind] at h
            cases h
            exact ⟨_, rfl⟩

theorem getInfo_shape {C : Crypto} {J : Jose} {member : String → Option Member} {t : Int} {e : String} {i : Dict Val} (h : getInfo C J member t .subordinate e = .ok i) :
    ∃ d, i = [(e, .obj d)] := by
  unfold getInfo at h
  split at h
  · cases h
  · split at h
    · cases h
    · split at h
      · cases h
      · exact info_shape h

theorem anchorInfo_shape {C : Crypto} {J : Jose} {member : String → Option Member} {t : Int} {e : String} {i : Dict Val} (h : getInfo C J member t .trustAnchor e = .ok i) :
    ∃ v, i = [(e, v)] := by
  unfold getInfo at h
  split at h
  · cases h
  · split at h
    · cases h
    · split at h
      · cases h
      · unfold info at h
        simp only at h
        rename_i d _ _ _ _
        cases h1 : Dict.get d "jwks" with
        | error x => rw [h1] at h; cases h
        | ok v => rw [h1, ok_bind] at h; cases h; exact ⟨v, rfl⟩

/-- What the scripts read does not depend on anybody's registry. -/
theorem getInfo_setReg {C : Crypto} {J : Jose} {f g : String → Option Member} (h : ∀ x, ∃ r, g x = (f x).map (setReg · r)) (t : Int) (w : Wanted) (e : String) :
    getInfo C J g t w e = getInfo C J f t w e := by
  obtain ⟨r, hr⟩ := h e
  unfold getInfo
  rw [hr]
  cases f e with
  | none => rfl
  | some m => rfl

theorem setReg_setReg (m : Member) (r r' : Dict (Dict Val)) : setReg (setReg m r) r' = setReg m r' := rfl

theorem step_members (C : Crypto) (J : Jose) (s : Site) (st : Step) (x : String) : ∃ r, (step C J s st).member x = (s.member x).map (setReg · r) := by
  have same : ∃ r, s.member x = (s.member x).map (setReg · r) := by
    cases h : s.member x with
    | none => exact ⟨[], rfl⟩
    | some m => exact ⟨m.authority.subordinate, rfl⟩
  cases st with
  | trust c e t =>
    simp only [step]
    split <;> exact same
  | enrol a e t =>
    simp only [step]
    split
    · exact same
    · rename_i i _
      by_cases hx : x = a
      · simp only [hx, if_true]
        cases h : s.member a with
        | none => exact ⟨[], rfl⟩
        | some m => exact ⟨addEntries m.authority.subordinate i, rfl⟩
      · simp only [hx, if_false]
        exact same

/-- Setting up changes nothing of an entity but its registry. -/
theorem setUp_members (C : Crypto) (J : Jose) : ∀ (steps : List Step) (s : Site) (x : String), ∃ r, (setUp C J s steps).member x = (s.member x).map (setReg · r)
  | [], s, x => by
    cases h : s.member x with
    | none => exact ⟨[], by simp [setUp, h]⟩
    | some m => exact ⟨m.authority.subordinate, by simp [setUp, h, setReg]⟩
  | st :: steps, s, x => by
    obtain ⟨r, h⟩ := setUp_members C J steps (step C J s st) x
    obtain ⟨r', h'⟩ := step_members C J s st x
    refine ⟨r, ?_⟩
    simp only [setUp, List.foldl_cons] at h ⊢
    rw [h, h', Option.map_map]
    rfl

theorem registry_member {s : Site} {a : String} {m : Member} (h : s.member a = some m) : registry s a = m.authority.subordinate := by
  simp [registry, h]

/-- A step enters what is printed for the entity enrolled, and nothing else. -/
theorem registry_step (C : Crypto) (J : Jose) (s : Site) (st : Step) (a : String) (ha : (s.member a).isSome = true) :
    registry (step C J s st) a = registry s a ∨
      ∃ e t d, st = .enrol a e t ∧ getInfo C J s.member t .subordinate e = .ok [(e, .obj d)] ∧ registry (step C J s st) a = (registry s a).set e d := by
  cases st with
  | trust c e t =>
    left
    simp only [step]
    split <;> rfl
  | enrol b e t =>
    simp only [step]
    cases hi : getInfo C J s.member t .subordinate e with
    | error x => exact .inl rfl
    | ok i =>
      obtain ⟨d, rfl⟩ := getInfo_shape hi
      by_cases hb : a = b
      · subst hb
        obtain ⟨m, hm⟩ := Option.isSome_iff_exists.1 ha
        refine .inr ⟨e, t, d, rfl, hi, ?_⟩
        simp only [registry, if_true, hm, Option.map_some, withEntries, addEntries, List.foldl_cons, List.foldl_nil]
      · left
        simp only [registry, hb, if_false]

theorem isSome_step {C : Crypto} {J : Jose} {s : Site} {st : Step} {a : String} (ha : (s.member a).isSome = true) : ((step C J s st).member a).isSome = true := by
  obtain ⟨r, hr⟩ := step_members C J s st a
  rw [hr, Option.isSome_map]
  exact ha

/-- Where the entries of a registry come from. -/
theorem registry_from (C : Crypto) (J : Jose) (a : String) : ∀ (steps : List Step) (s : Site), (s.member a).isSome = true → ∀ e d, (registry (setUp C J s steps) a).get? e = some d →
    ((registry s a).get? e = some d) ∨ ∃ t, .enrol a e t ∈ steps ∧ getInfo C J s.member t .subordinate e = .ok [(e, .obj d)]
  | [], s, _, e, d, h => .inl h
  | st :: steps, s, ha, e, d, h => by
    have same := getInfo_setReg (C := C) (J := J) (step_members C J s st)
    rcases registry_from C J a steps (step C J s st) (isSome_step ha) e d h with h | ⟨t, h1, h2⟩
    · rcases registry_step C J s st a ha with h3 | ⟨e', t, d', rfl, h4, h5⟩
      · rw [h3] at h; exact .inl h
      · rw [h5, Dict.get?_set] at h
        by_cases he : e' = e
        · subst he
          rw [if_pos rfl] at h
          cases h
          exact .inr ⟨t, List.mem_cons_self .., h4⟩
        · rw [if_neg he] at h
          exact .inl h
    · rw [same] at h2
      exact .inr ⟨t, List.mem_cons_of_mem _ h1, h2⟩

/-- An entity for which something is printed, whenever it is asked for, has that as its entry wherever it is enrolled. -/
theorem registry_enrolled (C : Crypto) (J : Jose) (a e : String) (d : Dict Val) : ∀ (steps : List Step) (s : Site), (s.member a).isSome = true →
    (∀ t, getInfo C J s.member t .subordinate e = .ok [(e, .obj d)]) → ((registry s a).get? e = some d ∨ ∃ t, .enrol a e t ∈ steps) →
    (registry (setUp C J s steps) a).get? e = some d
  | [], s, _, _, h => by
    rcases h with h | ⟨t, h⟩
    · exact h
    · cases h
  | st :: steps, s, ha, hi, h => by
    have same := getInfo_setReg (C := C) (J := J) (step_members C J s st)
    refine registry_enrolled C J a e d steps (step C J s st) (isSome_step ha) (fun t => by rw [same]; exact hi t) ?_
    have keeps : (registry s a).get? e = some d → (registry (step C J s st) a).get? e = some d := by
      intro h0
      rcases registry_step C J s st a ha with h3 | ⟨e', t, d', rfl, h4, h5⟩
      · rw [h3]; exact h0
      · rw [h5, Dict.get?_set]
        by_cases he : e' = e
        · subst he
          rw [hi t] at h4
          cases h4
          exact if_pos rfl
        · rw [if_neg he]; exact h0
    rcases h with h | ⟨t, h⟩
    · exact .inl (keeps h)
    · rcases List.mem_cons.1 h with h | h
      · subst h
        left
        obtain ⟨m, hm⟩ := Option.isSome_iff_exists.1 ha
        simp only [step, hi t, registry, if_true, hm, Option.map_some, withEntries, addEntries, List.foldl_cons, List.foldl_nil]
        exact Dict.get?_set_self _ _ _
      · exact .inr ⟨t, h⟩

theorem step_anchors (C : Crypto) (J : Jose) (s : Site) (st : Step) (c : String) :
    (step C J s st).anchors c = s.anchors c ∨
      ∃ e t v, st = .trust c e t ∧ getInfo C J s.member t .trustAnchor e = .ok [(e, v)] ∧ (step C J s st).anchors c = (s.anchors c).set e v := by
  cases st with
  | enrol a e t =>
    left
    simp only [step]
    split <;> rfl
  | trust b e t =>
    simp only [step]
    cases hi : getInfo C J s.member t .trustAnchor e with
    | error x => exact .inl rfl
    | ok i =>
      obtain ⟨v, rfl⟩ := anchorInfo_shape hi
      by_cases hb : c = b
      · subst hb
        exact .inr ⟨e, t, v, rfl, hi, by simp [addAnchors]⟩
      · left
        simp only [hb, if_false]

theorem anchors_trusted (C : Crypto) (J : Jose) (c e : String) (v : Val) : ∀ (steps : List Step) (s : Site),
    (∀ t, getInfo C J s.member t .trustAnchor e = .ok [(e, v)]) → ((s.anchors c).get? e = some v ∨ ∃ t, .trust c e t ∈ steps) → ((setUp C J s steps).anchors c).get? e = some v
  | [], s, _, h => by
    rcases h with h | ⟨t, h⟩
    · exact h
    · cases h
  | st :: steps, s, hi, h => by
    have same := getInfo_setReg (C := C) (J := J) (step_members C J s st)
    refine anchors_trusted C J c e v steps (step C J s st) (fun t => by rw [same]; exact hi t) ?_
    rcases h with h | ⟨t, h⟩
    · left
      rcases step_anchors C J s st c with h3 | ⟨e', t, d', rfl, h4, h5⟩
      · rw [h3]; exact h
      · rw [h5, Dict.get?_set]
        by_cases he : e' = e
        · subst he
          rw [hi t] at h4
          cases h4
          exact if_pos rfl
        · rw [if_neg he]; exact h
    · rcases List.mem_cons.1 h with h | h
      · subst h
        left
        simp only [step, hi t, if_true, addAnchors, List.foldl_cons, List.foldl_nil]
        exact Dict.get?_set_self _ _ _
      · exact .inr ⟨t, h⟩

theorem anchors_from (C : Crypto) (J : Jose) (c : String) : ∀ (steps : List Step) (s : Site) (e : String) (v : Val), ((setUp C J s steps).anchors c).get? e = some v →
    (s.anchors c).get? e = some v ∨ ∃ t, .trust c e t ∈ steps ∧ getInfo C J s.member t .trustAnchor e = .ok [(e, v)]
  | [], s, e, v, h => .inl h
  | st :: steps, s, e, v, h => by
    have same := getInfo_setReg (C := C) (J := J) (step_members C J s st)
    rcases anchors_from C J c steps (step C J s st) e v h with h | ⟨t, h1, h2⟩
    · rcases step_anchors C J s st c with h3 | ⟨e', t, d', rfl, h4, h5⟩
      · rw [h3] at h; exact .inl h
      · rw [h5, Dict.get?_set] at h
        by_cases he : e' = e
        · subst he
          rw [if_pos rfl] at h
          cases h
          exact .inr ⟨t, List.mem_cons_self .., h4⟩
        · rw [if_neg he] at h
          exact .inl h
    · rw [same] at h2
      exact .inr ⟨t, List.mem_cons_of_mem _ h1, h2⟩

/-! ### A federation as its operators plan it -/

/-- The entry of an entity that publishes metadata `md`, `fe` of it as a federation entity: its entity types, its keys, and that it is an intermediate if it publishes a list endpoint. -/
def entryOf (keys : Val) (md fe : Dict Val) : Dict Val :=
  [("entity_types", .arr (md.keys.map .str)), ("jwks", keys)] ++ if fe.has "federation_list_endpoint" then [("intermediate", .bool true)] else []

/-- What the operators have to see to: as in `WellKept`, with the scripts in the place of registering subordinates and configuring trust anchors. -/
structure Planned (J : Jose) (L : Lib) (s : Site) (host : Val → Option String) (rank : String → Nat) (steps : List Step) (client : String) : Prop where
  id : ∀ e m, s.member e = some m → m.authority.entityId = e ∧ e ≠ "" ∧ Collect.Plain e
  signs : ∀ e m d, s.member e = some m → ∃ k ∈ J.keys m.authority.ownKeys, L.usable (token J e d) k = true ∧ L.verifies (token J e d) k = true
  time : ∀ j x t, j.payload.exp = some x → t < x → L.current t j = true
  hints : ∀ e m, s.member e = some m → m.authority.hints = .null ∨ ∃ hs : List String, m.authority.hints = .arr (hs.map .str)
  /-- everybody publishes metadata as a federation entity -/
  metadata : ∀ e m, s.member e = some m → ∃ md fe, m.authority.metadata = .obj md ∧ Dict.get? md "federation_entity" = some (.obj fe)
  /-- nobody is given a policy -/
  policy : ∀ e m, s.member e = some m → m.authority.policy = []
  /-- the authorities named are members further up, serve the fetch endpoint they publish, and the entity has been enrolled with them -/
  superior : ∀ e m a, s.member e = some m → a ∈ strs m.authority.hints → ∃ ma fe ep t, s.member a = some ma ∧ rank a < rank e ∧
    (objs ma.authority.metadata).get? "federation_entity" = some fe ∧ fe.get? "federation_fetch_endpoint" = some ep ∧ ep.truthy = true ∧ host ep = some a ∧
    .enrol a e t ∈ steps
  /-- the requests answered since name no foreign issuer -/
  requests : ∀ e m, s.member e = some m → ∀ r ∈ m.requests, r.2.iss = none ∨ r.2.iss = some "" ∨ r.2.iss = some e
  /-- the client was told to trust who names no authority, before it was started -/
  anchors : ∀ e m, s.member e = some m → strs m.authority.hints = [] → ∃ t, .trust client e t ∈ steps

theorem pyIn_obj (k : String) (d : Dict Val) : pyIn (.str k) (.obj d) = .ok (d.has k) := by
  simp only [pyIn, Val.hashable, if_true]
  congr 1
  rw [Bool.eq_iff_iff, List.any_eq_true, Dict.has_iff, Dict.keys, List.mem_map]
  constructor
  · rintro ⟨p, hp, h⟩
    exact ⟨p, hp, by simpa using h⟩
  · rintro ⟨p, hp, h⟩
    exact ⟨p, hp, by simpa using h⟩

section
variable {J : Jose} {L : Lib} {s : Site} {host : Val → Option String} {rank : String → Nat} {steps : List Step} {client : String}

/-- The scripts find the configuration of everybody. -/
theorem Planned.found (w : Planned J L s host rank steps client) {e : String} {m : Member} (he : s.member e = some m) (t : Int) (x : Wanted) :
    ∃ d, getInfo L.toCrypto J s.member t x e = info x e d ∧ Dict.get? d "jwks" = some m.authority.ownKeys ∧ Dict.get? d "metadata" = (some m.authority.metadata).filter Val.truthy := by
  obtain ⟨d, h0, -, -, h3, h4, -, -, -, h6, -⟩ := Server.C86_configuration m.authority t m.marks
  refine ⟨d, ?_, h3, h4⟩
  obtain ⟨k, k1, k2, k3⟩ := w.signs e m d he
  have hv : selfVerify L.toCrypto t (token J m.authority.entityId d) = .ok (decode J d) := by
    unfold selfVerify
    have hk : (token J m.authority.entityId d).payload.jwks = some (J.keys m.authority.ownKeys) := by simp [token, decode, h3]
    rw [hk]
    simp only
    rw [if_pos]
    · rfl
    · rw [(w.id e m he).1, Bool.and_eq_true, List.any_eq_true]
      refine ⟨⟨k, List.mem_filter.2 ⟨k1, k2⟩, k3⟩, w.time _ (t + 86400) _ ?_ (by omega)⟩
      simp [token, decode, h6, asInt]
  unfold getInfo
  rw [he]
  simp only [h0, hv]

/-- What the scripts print about an entity. -/
theorem Planned.entry (w : Planned J L s host rank steps client) {e : String} {m : Member} (he : s.member e = some m) {md fe : Dict Val} (h1 : m.authority.metadata = .obj md)
    (h2 : Dict.get? md "federation_entity" = some (.obj fe)) (t : Int) :
    getInfo L.toCrypto J s.member t .subordinate e = .ok [(e, .obj (entryOf m.authority.ownKeys md fe))] := by
  obtain ⟨d, g1, g2, g3⟩ := w.found he t .subordinate
  have hmd : md ≠ [] := by rintro rfl; cases h2
  have g4 : Dict.get? d "metadata" = some (.obj md) := by
    rw [g3, h1]
    cases md with
    | nil => exact absurd rfl hmd
    | cons p md => rfl
  rw [g1]
  simp only [info, Dict.get, g4, ok_bind, memberNames, g2, Server.member, h2, pyIn_obj]
  rfl

theorem Planned.anchor (w : Planned J L s host rank steps client) {e : String} {m : Member} (he : s.member e = some m) (t : Int) :
    getInfo L.toCrypto J s.member t .trustAnchor e = .ok [(e, m.authority.ownKeys)] := by
  obtain ⟨d, g1, g2, -⟩ := w.found he t .trustAnchor
  rw [g1]
  simp only [info, Dict.get, g2, ok_bind]

/-- The federation that has been set up. -/
theorem member_setUp {C : Crypto} {e : String} {m : Member} (h : (setUp C J s steps).member e = some m) :
    ∃ m0, s.member e = some m0 ∧ m = setReg m0 (registry (setUp C J s steps) e) := by
  obtain ⟨r, hr⟩ := setUp_members C J steps s e
  rw [registry_member h]
  rw [hr] at h
  cases h0 : s.member e with
  | none => rw [h0] at h; cases h
  | some m0 =>
    rw [h0] at h
    cases h
    exact ⟨m0, rfl, rfl⟩

theorem setUp_member {C : Crypto} {e : String} {m : Member} (h : s.member e = some m) : (setUp C J s steps).member e = some (setReg m (registry (setUp C J s steps) e)) := by
  obtain ⟨r, hr⟩ := setUp_members C J steps s e
  rw [h] at hr
  rw [registry_member hr, hr]
  rfl

/-- C185: whoever is enrolled with an authority has an entry there, for the keys, the entity types and the list endpoint it publishes, in whichever order the steps were taken. -/
theorem C185_entry (w : Planned J L s host rank steps client) (a e : String) (t : Int) (ma m : Member) (md fe : Dict Val) (ha : s.member a = some ma) (he : s.member e = some m)
    (h1 : m.authority.metadata = .obj md) (h2 : Dict.get? md "federation_entity" = some (.obj fe)) (hs : .enrol a e t ∈ steps) :
    ∃ ma' reg, (setUp L.toCrypto J s steps).member a = some ma' ∧ ma'.authority.subordinate.get? e = some reg ∧ reg.get? "jwks" = some m.authority.ownKeys ∧
      reg.get? "entity_types" = some (.arr (md.keys.map .str)) ∧ (reg.get? "intermediate" = some (.bool true) ↔ fe.has "federation_list_endpoint" = true) := by
  refine ⟨_, entryOf m.authority.ownKeys md fe, setUp_member ha, ?_, rfl, rfl, ?_⟩
  · exact registry_enrolled L.toCrypto J a e _ steps s (by rw [ha]; rfl) (w.entry he h1 h2) (.inr ⟨t, hs⟩)
  · unfold entryOf
    by_cases h : fe.has "federation_list_endpoint" = true
    · rw [if_pos h]
      simp [Dict.get?_cons, h]
    · rw [if_neg h]
      simp [Dict.get?_cons, h]

/-- C185: a federation set up with the scripts is one whose operators see to their duties. -/
theorem Planned.wellKept (w : Planned J L s host rank steps client) (own : KeyJar) :
    WellKept J L (setUp L.toCrypto J s steps).member host (startJar J own ((setUp L.toCrypto J s steps).anchors client)) rank where
  id e m h := by
    obtain ⟨m0, h0, rfl⟩ := member_setUp h
    exact w.id e m0 h0
  signs e m d h := by
    obtain ⟨m0, h0, rfl⟩ := member_setUp h
    exact w.signs e m0 d h0
  time := w.time
  hints e m h := by
    obtain ⟨m0, h0, rfl⟩ := member_setUp h
    exact w.hints e m0 h0
  superior e m a h ha := by
    obtain ⟨m0, h0, rfl⟩ := member_setUp h
    obtain ⟨ma, fe, ep, t, k1, k2, k3, k4, k5, k6, k7⟩ := w.superior e m0 a h0 ha
    obtain ⟨md', fe', d1, d2⟩ := w.metadata e m0 h0
    have hpol : ma.authority.policy = [] := w.policy a ma k1
    refine ⟨_, entryOf m0.authority.ownKeys md' fe', fe, ep, setUp_member k1, k2, ⟨?_, ⟨m0.authority.ownKeys, rfl, rfl⟩, ?_, ?_, ?_⟩, k3, k4, k5, k6⟩
    · exact registry_enrolled L.toCrypto J a e _ steps s (by rw [k1]; rfl) (w.entry h0 d1 d2) (.inr ⟨t, k7⟩)
    · intro v hv
      have : some v = some (.arr ((Dict.keys md').map .str)) := hv.symm
      cases this
      exact ⟨_, rfl⟩
    · intro k hk
      refine ⟨?_, by simp [setReg, hpol]⟩
      simp only [List.mem_cons, List.not_mem_nil, or_false] at hk
      unfold entryOf
      rcases hk with rfl | rfl | rfl | rfl | rfl <;> split <;> rfl
    · simp [setReg, hpol]
  requests e m h r hr := by
    obtain ⟨m0, h0, rfl⟩ := member_setUp h
    have hid := (w.id e m0 h0).1
    rcases w.requests e m0 h0 r hr with h | h | h
    · exact .inl h
    · exact .inr (.inl h)
    · refine .inr (.inr (.inl ?_))
      rw [h]
      exact congrArg some hid.symm
  anchors e m h hh := by
    obtain ⟨m0, h0, rfl⟩ := member_setUp h
    obtain ⟨t, ht⟩ := w.anchors e m0 h0 hh
    have := anchors_trusted L.toCrypto J client e m0.authority.ownKeys steps s (w.anchor h0) (.inr ⟨t, ht⟩)
    have hm : (e, J.keys m0.authority.ownKeys) ∈ ((setUp L.toCrypto J s steps).anchors client).map fun p => (p.1, J.keys p.2) :=
      List.mem_map.2 ⟨_, Dict.get?_mem this, rfl⟩
    have hk : ∀ k ∈ J.keys m0.authority.ownKeys, k ∈ (startJar J own ((setUp L.toCrypto J s steps).anchors client)).keysOf e :=
      fun k hk => Config.keysOf_importAll_self hk hm
    refine ⟨?_, hk⟩
    obtain ⟨k, k1, -⟩ := w.signs e m0 [] h0
    have := hk k k1
    unfold KeyJar.keysOf at this
    unfold Dict.has
    cases hg : Dict.get? (startJar J own ((setUp L.toCrypto J s steps).anchors client)) e with
    | none => rw [hg] at this; cases this
    | some l => rfl

/-- The registries of a new federation are empty. -/
def Fresh (s : Site) : Prop := ∀ e m, s.member e = some m → m.authority.subordinate = []

theorem Fresh.registry (hf : Fresh s) (a : String) : registry s a = [] := by
  unfold Setup.registry
  split
  · rename_i m hm; exact hf a m hm
  · rfl

theorem registry_nodup (C : Crypto) (a : String) : ∀ (steps : List Step) (s : Site), (s.member a).isSome = true → (registry s a).keys.Nodup → (registry (setUp C J s steps) a).keys.Nodup
  | [], _, _, h => h
  | st :: steps, s, ha, h => by
    refine registry_nodup C a steps (step C J s st) (isSome_step ha) ?_
    rcases registry_step C J s st a ha with h3 | ⟨e', t, d', rfl, h4, h5⟩
    · rw [h3]; exact h
    · rw [h5]; exact Server.keys_set_nodup _ h _ _

theorem entry_intermediate (keys : Val) (md fe : Dict Val) : Server.flag (entryOf keys md fe) "intermediate" = fe.has "federation_list_endpoint" := by
  unfold entryOf
  cases fe.has "federation_list_endpoint" <;> rfl

/-- The registry of an authority, exactly. -/
theorem Planned.entries (w : Planned J L s host rank steps client) (hf : Fresh s) {a : String} {ma : Member} (ha : s.member a = some ma)
    (hm : ∀ e t, .enrol a e t ∈ steps → ∃ m, s.member e = some m) (e : String) (conf : Dict Val) :
    (e, conf) ∈ registry (setUp L.toCrypto J s steps) a ↔ ∃ t m md fe, .enrol a e t ∈ steps ∧ s.member e = some m ∧ m.authority.metadata = .obj md ∧
      Dict.get? md "federation_entity" = some (.obj fe) ∧ conf = entryOf m.authority.ownKeys md fe := by
  have hs : (s.member a).isSome = true := by rw [ha]; rfl
  have hn := registry_nodup (J := J) L.toCrypto a steps s hs (by rw [hf.registry]; exact List.nodup_nil)
  rw [Server.mem_iff_get? _ hn]
  constructor
  · intro h
    rcases registry_from L.toCrypto J a steps s hs e conf h with h | ⟨t, h1, h2⟩
    · rw [hf.registry] at h; cases h
    · obtain ⟨m, h3⟩ := hm e t h1
      obtain ⟨md, fe, h4, h5⟩ := w.metadata e m h3
      refine ⟨t, m, md, fe, h1, h3, h4, h5, ?_⟩
      rw [w.entry h3 h4 h5] at h2
      cases h2
      rfl
  · rintro ⟨t, m, md, fe, h1, h3, h4, h5, rfl⟩
    exact registry_enrolled L.toCrypto J a e _ steps s hs (w.entry h3 h4 h5) (.inr ⟨t, h1⟩)

/-- C185, listing: an authority lists everybody that was enrolled with it, and asked for intermediates, those that publish a list endpoint. Missing, and false: listing by entity type. -/
theorem C185_listed_partial (w : Planned J L s host rank steps client) (hf : Fresh s) (a : String) (ma : Member) (ha : s.member a = some ma)
    (hm : ∀ e t, .enrol a e t ∈ steps → ∃ m, s.member e = some m) (K : SetEnum String) (W : Server.ListWorld) (ext : Bool) :
    ∃ ma' all inter, (setUp L.toCrypto J s steps).member a = some ma' ∧ Server.list K W ext ma'.authority.subordinate [] = .ok (.ids all) ∧
      Server.list K W ext ma'.authority.subordinate [("intermediate", .bool true)] = .ok (.ids inter) ∧ (∀ e, e ∈ all ↔ ∃ t, .enrol a e t ∈ steps) ∧
      ∀ e, e ∈ inter ↔ ∃ t m md fe, .enrol a e t ∈ steps ∧ s.member e = some m ∧ m.authority.metadata = .obj md ∧ Dict.get? md "federation_entity" = some (.obj fe) ∧
        Dict.has fe "federation_list_endpoint" = true := by
  obtain ⟨inter, i1, -, i3⟩ := Server.C57_intermediate_partial K W ext (registry (setUp L.toCrypto J s steps) a) [("intermediate", .bool true)] rfl rfl
    (by simp [Server.AsksMarks, Dict.has, Dict.get?_cons])
  refine ⟨_, (registry (setUp L.toCrypto J s steps) a).keys, inter, setUp_member ha, ?_, i1, fun e => ?_, fun e => ?_⟩
  · exact Server.C57_all K W ext _ [] (by intro k hk; cases hk)
  · constructor
    · intro h
      obtain ⟨⟨e', conf⟩, h1, rfl⟩ := List.mem_map.1 h
      obtain ⟨t, m, md, fe, h2, -⟩ := (w.entries hf ha hm e' conf).1 h1
      exact ⟨t, h2⟩
    · rintro ⟨t, ht⟩
      obtain ⟨m, h3⟩ := hm e t ht
      obtain ⟨md, fe, h4, h5⟩ := w.metadata e m h3
      exact List.mem_map.2 ⟨_, (w.entries hf ha hm e _).2 ⟨t, m, md, fe, ht, h3, h4, h5, rfl⟩, rfl⟩
  · rw [i3]
    constructor
    · rintro ⟨conf, h1, h2⟩
      obtain ⟨t, m, md, fe, h3, h4, h5, h6, rfl⟩ := (w.entries hf ha hm e conf).1 h1
      rw [entry_intermediate] at h2
      exact ⟨t, m, md, fe, h3, h4, h5, h6, h2⟩
    · rintro ⟨t, m, md, fe, h3, h4, h5, h6, h7⟩
      exact ⟨_, (w.entries hf ha hm e _).2 ⟨t, m, md, fe, h3, h4, h5, h6, rfl⟩, by rw [entry_intermediate]; exact h7⟩

/-- C185, listing by entity type: an authority with which somebody was enrolled never answers. -/
theorem C185_by_type_fails (w : Planned J L s host rank steps client) (hf : Fresh s) (a e : String) (t : Int) (ma m : Member) (ha : s.member a = some ma) (he : s.member e = some m)
    (hs : .enrol a e t ∈ steps) (hm : ∀ e t, .enrol a e t ∈ steps → ∃ m, s.member e = some m) (K : SetEnum String) (W : Server.ListWorld) (ext : Bool) (ty : String) :
    ∃ ma', (setUp L.toCrypto J s steps).member a = some ma' ∧ Server.list K W ext ma'.authority.subordinate [("entity_type", .str ty)] = .error .keyError := by
  refine ⟨_, setUp_member ha, ?_⟩
  show Server.list K W ext (registry (setUp L.toCrypto J s steps) a) _ = _
  obtain ⟨md, fe, h4, h5⟩ := w.metadata e m he
  have hmem := (w.entries hf ha hm e _).2 ⟨t, m, md, fe, hs, he, h4, h5, rfl⟩
  have hall : ∀ p ∈ registry (setUp L.toCrypto J s steps) a, p.2.get? "entity_type" = none := by
    rintro ⟨e', conf⟩ hp
    obtain ⟨_, m', md', fe', -, -, -, -, rfl⟩ := (w.entries hf ha hm e' conf).1 hp
    unfold entryOf
    simp only
    split <;> rfl
  generalize registry (setUp L.toCrypto J s steps) a = db at hmem hall
  cases db with
  | nil => cases hmem
  | cons p rest => exact Server.C87_always_fails K W ext p.1 p.2 rest ty (hall p (List.mem_cons_self ..))

/-- Whoever trusts the anchors of a federation that has been set up resolves its members. -/
theorem Planned.resolves (V : Env) (J : Jose) (s : Site) (steps : List Step) (client : String) (host : Val → Option String) (issued now : Int) (st : State)
    (h : List Collect.FRun) (stopAt entity : String) (m : Member) (rank : String → Nat) (w : Planned J V.L s host rank steps client)
    (wk : WellKept J V.L (setUp V.L.toCrypto J s steps).member host st.jar rank) (hW : V.W = (world J (setUp V.L.toCrypto J s steps).member host issued).at now)
    (hst : st.coll = Collect.runAll V.L.toCrypto V.P (h.map (Collect.FRun.run (world J (setUp V.L.toCrypto J s steps).member host issued))))
    (ho : h.Pairwise fun a b => a.time ≤ b.time) (ht : ∀ r ∈ h, r.time ≤ now) (hp : ∀ r ∈ h, Collect.Plain r.entity)
    (hnow : now < issued + 86400 - V.P.delta ∧ now < issued + 86400) (hstop : Stop s.member stopAt) (he : s.member entity = some m) (hfuel : rank entity < V.fuel)
    (hhints : strs m.authority.hints ≠ []) (hurl : ∀ e m, s.member e = some m → Constraints.IsUrl e) :
    ∃ out, (getVerified V st entity stopAt).1 = .ok out ∧ out ≠ [] ∧
      (∀ p, Up (directory J (setUp V.L.toCrypto J s steps).member issued) entity p → ∃ tc ∈ out,
        tc.chain = (stmtsOf (directory J (setUp V.L.toCrypto J s steps).member issued) entity p ++ [(directory J (setUp V.L.toCrypto J s steps).member issued).cfg entity]).map some ∧
        p.getLast? = some tc.anchor) ∧ ∀ tc ∈ out,
      (∃ p, Up (directory J (setUp V.L.toCrypto J s steps).member issued) entity p ∧
        tc.chain = (stmtsOf (directory J (setUp V.L.toCrypto J s steps).member issued) entity p ++ [(directory J (setUp V.L.toCrypto J s steps).member issued).cfg entity]).map some ∧
        p.getLast? = some tc.anchor) ∧
      (∃ ma, s.member tc.anchor = some ma ∧ strs ma.authority.hints = []) ∧
      ∀ t md, (objs m.authority.metadata).get? t = some md → ∃ got, tc.metadata.get? t = some (.obj got) ∧ ∀ c v, md.get? c = some v → Dict.get? got c = some v := by
  obtain ⟨md, fe, hmd, hfe⟩ := w.metadata entity m he
  have htruthy : m.authority.metadata.truthy = true := by
    rw [hmd]
    cases md with
    | nil => cases hfe
    | cons p md => rfl
  have honly : ∀ e m a ma reg, (setUp V.L.toCrypto J s steps).member e = some m → a ∈ strs m.authority.hints → (setUp V.L.toCrypto J s steps).member a = some ma →
      ma.authority.subordinate.get? e = some reg → OnlyKeys ma.authority e reg := by
    intro e m' a ma' reg hm' ha hma' hreg
    obtain ⟨m0, k1, rfl⟩ := member_setUp hm'
    obtain ⟨ma, k2, rfl⟩ := member_setUp hma'
    obtain ⟨_, _, _, t, h0, -, -, -, -, -, ht⟩ := w.superior e m0 a k1 ha
    obtain ⟨md', fe', d1, d2⟩ := w.metadata e m0 k1
    have hent := registry_enrolled V.L.toCrypto J a e _ steps s (by rw [k2]; rfl) (w.entry k1 d1 d2) (.inr ⟨t, ht⟩)
    have hreg : (registry (setUp V.L.toCrypto J s steps) a).get? e = some reg := hreg
    rw [hent] at hreg
    cases hreg
    have hpol : ma.authority.policy = [] := w.policy a ma k2
    refine ⟨?_, by simp [setReg, hpol], fun _ _ _ _ => by simp [setReg, hpol]⟩
    intro k hk
    simp only [List.mem_cons, List.not_mem_nil, or_false] at hk
    unfold entryOf
    rcases hk with rfl | rfl | rfl <;> split <;> rfl
  obtain ⟨out, h1, h2, h3, h4⟩ := C133_keys_suffice V J (setUp V.L.toCrypto J s steps).member host issued now st h stopAt entity _ rank wk hW hst ho ht hp hnow
    (fun m' hm' => by obtain ⟨m0, k1, rfl⟩ := member_setUp hm'; exact hstop m0 k1) (setUp_member he) hfuel hhints htruthy
    (fun e m' hm' => by obtain ⟨m0, k1, -⟩ := member_setUp hm'; exact hurl e m0 k1) honly
  refine ⟨out, h1, h2, h3, fun tc htc => ?_⟩
  obtain ⟨g1, ⟨ma, g2, g3⟩, g4⟩ := h4 tc htc
  refine ⟨g1, ?_, g4⟩
  obtain ⟨m0, k1, rfl⟩ := member_setUp g2
  exact ⟨m0, k1, g3⟩

/-- C185, resolving: every member that names an authority is resolved by the client, with a chain for each way up to a trust anchor and no other, and with all the metadata it declares. -/
theorem C185_resolved_partial (V : Env) (J : Jose) (s : Site) (steps : List Step) (client : String) (own : KeyJar) (host : Val → Option String) (issued now : Int) (st : State)
    (h : List Collect.FRun) (stopAt entity : String) (m : Member) (rank : String → Nat) (w : Planned J V.L s host rank steps client)
    (hj : st.jar = startJar J own ((setUp V.L.toCrypto J s steps).anchors client)) (hW : V.W = (world J (setUp V.L.toCrypto J s steps).member host issued).at now)
    (hst : st.coll = Collect.runAll V.L.toCrypto V.P (h.map (Collect.FRun.run (world J (setUp V.L.toCrypto J s steps).member host issued))))
    (ho : h.Pairwise fun a b => a.time ≤ b.time) (ht : ∀ r ∈ h, r.time ≤ now) (hp : ∀ r ∈ h, Collect.Plain r.entity)
    (hnow : now < issued + 86400 - V.P.delta ∧ now < issued + 86400) (hstop : Stop s.member stopAt) (he : s.member entity = some m) (hfuel : rank entity < V.fuel)
    (hhints : strs m.authority.hints ≠ []) (hurl : ∀ e m, s.member e = some m → Constraints.IsUrl e) :
    ∃ out, (getVerified V st entity stopAt).1 = .ok out ∧ out ≠ [] ∧
      (∀ p, Up (directory J (setUp V.L.toCrypto J s steps).member issued) entity p → ∃ tc ∈ out,
        tc.chain = (stmtsOf (directory J (setUp V.L.toCrypto J s steps).member issued) entity p ++ [(directory J (setUp V.L.toCrypto J s steps).member issued).cfg entity]).map some ∧
        p.getLast? = some tc.anchor) ∧ ∀ tc ∈ out,
      (∃ p, Up (directory J (setUp V.L.toCrypto J s steps).member issued) entity p ∧
        tc.chain = (stmtsOf (directory J (setUp V.L.toCrypto J s steps).member issued) entity p ++ [(directory J (setUp V.L.toCrypto J s steps).member issued).cfg entity]).map some ∧
        p.getLast? = some tc.anchor) ∧
      (∃ ma, s.member tc.anchor = some ma ∧ strs ma.authority.hints = []) ∧
      ∀ t md, (objs m.authority.metadata).get? t = some md → ∃ got, tc.metadata.get? t = some (.obj got) ∧ ∀ c v, md.get? c = some v → Dict.get? got c = some v := by
  refine w.resolves V J s steps client host issued now st h stopAt entity m rank ?_ hW hst ho ht hp hnow hstop he hfuel hhints hurl
  rw [hj]
  exact w.wellKept own

theorem keysOf_importAll_from {e : String} {k : Key} : ∀ {as : Config.Anchors} {jar : KeyJar}, k ∈ (Config.importAll jar as).keysOf e → k ∈ jar.keysOf e ∨ ∃ ks, (e, ks) ∈ as ∧ k ∈ ks
  | [], _, h => .inl h
  | (a, ks) :: as, jar, h => by
    rw [Config.importAll] at h
    rcases keysOf_importAll_from h with h0 | ⟨ks', h1, h2⟩
    · rw [Config.keysOf_importJwks] at h0
      by_cases hae : a = e
      · subst hae
        rw [if_pos rfl] at h0
        rcases List.mem_append.1 h0 with h0 | h0
        · exact .inl h0
        · exact .inr ⟨ks, List.mem_cons_self .., h0⟩
      · rw [if_neg hae] at h0
        exact .inl h0
    · exact .inr ⟨ks', List.mem_cons_of_mem _ h1, h2⟩

theorem anchors_nodup (C : Crypto) (c : String) : ∀ (steps : List Step) (s : Site), (s.anchors c).keys.Nodup → ((setUp C J s steps).anchors c).keys.Nodup
  | [], _, h => h
  | st :: steps, s, h => by
    refine anchors_nodup C c steps (step C J s st) ?_
    rcases step_anchors C J s st c with h3 | ⟨e', t, d', rfl, h4, h5⟩
    · rw [h3]; exact h
    · rw [h5]; exact Server.keys_set_nodup _ h _ _

/-- C185: an entity started with the directory the scripts filled has, besides its own keys, the keys published by those it was told to trust, and no other. -/
theorem C185_trusted (w : Planned J L s host rank steps client) (c : String) (hc : s.anchors c = []) (hm : ∀ e t, .trust c e t ∈ steps → ∃ m, s.member e = some m) (own : KeyJar) (e : String) (k : Key) :
    k ∈ (startJar J own ((setUp L.toCrypto J s steps).anchors c)).keysOf e ↔
      k ∈ own.keysOf e ∨ ∃ t m, .trust c e t ∈ steps ∧ s.member e = some m ∧ k ∈ J.keys m.authority.ownKeys := by
  constructor
  · intro h
    rcases keysOf_importAll_from h with h | ⟨ks, h1, h2⟩
    · exact .inl h
    · obtain ⟨⟨e', v⟩, h3, h4⟩ := List.mem_map.1 h1
      cases h4
      have hn := anchors_nodup (J := J) L.toCrypto c steps s (by rw [hc]; exact List.nodup_nil)
      rcases anchors_from L.toCrypto J c steps s e' v ((Server.mem_iff_get? _ hn _ _).1 h3) with h5 | ⟨t, h5, h6⟩
      · rw [hc] at h5; cases h5
      · obtain ⟨m, h7⟩ := hm e' t h5
        rw [w.anchor h7] at h6
        cases h6
        exact .inr ⟨t, m, h5, h7, h2⟩
  · rintro (h | ⟨t, m, h1, h2, h3⟩)
    · exact Config.keysOf_importAll_mono h
    · have := anchors_trusted L.toCrypto J c e m.authority.ownKeys steps s (w.anchor h2) (.inr ⟨t, h1⟩)
      exact Config.keysOf_importAll_self h3 (List.mem_map.2 ⟨_, Dict.get?_mem this, rfl⟩)

/-- C185: an entity that publishes no metadata as a federation entity is enrolled nowhere, whatever steps are taken. -/
theorem C185_no_federation_entity (C : Crypto) (J : Jose) (s : Site) (steps : List Step) (hf : Fresh s) (a e : String) (ma m : Member) (ha : s.member a = some ma) (he : s.member e = some m)
    (hm : ∀ md, m.authority.metadata = .obj md → Dict.get? md "federation_entity" = none) : (registry (setUp C J s steps) a).get? e = none := by
  cases h : (registry (setUp C J s steps) a).get? e with
  | none => rfl
  | some d =>
    exfalso
    rcases registry_from C J a steps s (by rw [ha]; rfl) e d h with h | ⟨t, -, h⟩
    · rw [hf.registry] at h; cases h
    · unfold getInfo at h
      rw [he] at h
      simp only at h
      obtain ⟨c, h0, -, -, h3, h4, -⟩ := Server.C86_configuration m.authority t m.marks
      rw [h0] at h
      simp only at h
      split at h
      · cases h
      · unfold info at h
        simp only [Dict.get, h3, h4] at h
        by_cases ht : m.authority.metadata.truthy = true
        · simp only [Option.filter, ht, if_true, ok_bind] at h
          cases hmd : m.authority.metadata with
          | obj md =>
            simp only [hmd, memberNames, ok_bind, Server.member, Dict.get, hm md hmd] at h
            cases h
          | _ => simp only [hmd, memberNames] at h; cases h
        · simp only [Option.filter, ht, Bool.false_eq_true, if_false] at h
          cases h

end

/-- C185 in full: in a federation set up with the scripts a client resolves every member below a trust anchor, and the authorities list by entity type who was enrolled with them. -/
def C185_full : Prop := ∀ (V : Env) (J : Jose) (s : Site) (steps : List Step) (client : String) (own : KeyJar) (host : Val → Option String) (issued now : Int) (st : State) (rank : String → Nat),
  Planned J V.L s host rank steps client → Fresh s → (∀ a e t, .enrol a e t ∈ steps → ∃ m, s.member e = some m) → (∀ e m, s.member e = some m → Constraints.IsUrl e) →
  st.jar = startJar J own ((setUp V.L.toCrypto J s steps).anchors client) → V.W = (world J (setUp V.L.toCrypto J s steps).member host issued).at now → st.coll = {} →
  now < issued + 86400 - V.P.delta ∧ now < issued + 86400 →
  (∀ entity m, s.member entity = some m → rank entity < V.fuel → strs m.authority.hints ≠ [] → ∃ out, (getVerified V st entity "").1 = .ok out ∧ out ≠ [] ∧
    ∀ tc ∈ out, ∃ ma, s.member tc.anchor = some ma ∧ strs ma.authority.hints = []) ∧
  ∀ a ma' K W ext ty, (setUp V.L.toCrypto J s steps).member a = some ma' → ∃ l, Server.list K W ext ma'.authority.subordinate [("entity_type", .str ty)] = .ok (.ids l) ∧
    ∀ e, e ∈ l ↔ ∃ t m md, .enrol a e t ∈ steps ∧ s.member e = some m ∧ m.authority.metadata = .obj md ∧ Dict.has md ty = true

/-! ### An example

`ta` and `im` are authorities, `leaf` is below `im`; the client is told to trust `ta`.
-/
namespace Ex
open Chains.Ex

def serves185 (a : String) : Val := .obj [("federation_entity", .obj [("federation_fetch_endpoint", .str (a ++ "/fetch")), ("federation_list_endpoint", .str (a ++ "/list"))])]
def ta185 : Member := { authority := { entityId := "https://ta", ownKeys := .int 1, metadata := serves185 "https://ta" } }
def im185 : Member where
  authority := { entityId := "https://im", ownKeys := .int 2, metadata := serves185 "https://im", hints := .arr [.str "https://ta"] }
  requests := [(-5, { sub := some "https://leaf" })]
def leaf185 : Member where
  authority := { entityId := "https://leaf", ownKeys := .int 3, hints := .arr [.str "https://im"], metadata := .obj [("federation_entity", .obj [("organization_name", .str "Leaf")]), ("openid_relying_party", .obj [("scopes", .arr [.str "email"])])] }
def member185 : String → Option Member
  | "https://ta" => some ta185
  | "https://im" => some im185
  | "https://leaf" => some leaf185
  | _ => none
def site185 : Site := { member := member185 }
def steps185 : List Step := [.trust "https://c" "https://ta" 1, .enrol "https://ta" "https://im" 2, .enrol "https://im" "https://leaf" 3, .enrol "https://ta" "https://im" 7]

theorem member185_some {e : String} {m : Member} (h : member185 e = some m) :
    (e = "https://ta" ∧ m = ta185) ∨ (e = "https://im" ∧ m = im185) ∨ (e = "https://leaf" ∧ m = leaf185) := by
  unfold member185 at h
  split at h <;> simp_all

theorem planned185 : Planned J L site185 host133 rank109 steps185 "https://c" where
  id e m h := by
    rcases member185_some h with ⟨rfl, rfl⟩ | ⟨rfl, rfl⟩ | ⟨rfl, rfl⟩ <;> exact ⟨rfl, by decide, by decide⟩
  signs e m d h := by
    rcases member185_some h with ⟨rfl, rfl⟩ | ⟨rfl, rfl⟩ | ⟨rfl, rfl⟩
    · exact ⟨1, List.mem_singleton.2 rfl, rfl, rfl⟩
    · exact ⟨2, by decide, rfl, rfl⟩
    · exact ⟨3, by decide, rfl, rfl⟩
  time j x t hx ht := by
    simp only [L, notExpired, hx, decide_eq_true_eq]
    omega
  hints e m h := by
    rcases member185_some h with ⟨rfl, rfl⟩ | ⟨rfl, rfl⟩ | ⟨rfl, rfl⟩
    · exact .inl rfl
    · exact .inr ⟨["https://ta"], rfl⟩
    · exact .inr ⟨["https://im"], rfl⟩
  metadata e m h := by
    rcases member185_some h with ⟨rfl, rfl⟩ | ⟨rfl, rfl⟩ | ⟨rfl, rfl⟩ <;> exact ⟨_, _, rfl, rfl⟩
  policy e m h := by
    rcases member185_some h with ⟨rfl, rfl⟩ | ⟨rfl, rfl⟩ | ⟨rfl, rfl⟩ <;> rfl
  superior e m a h ha := by
    rcases member185_some h with ⟨rfl, rfl⟩ | ⟨rfl, rfl⟩ | ⟨rfl, rfl⟩
    · cases ha
    · have : a = "https://ta" := by simpa [im185, strs] using ha
      subst this
      exact ⟨ta185, _, .str "https://ta/fetch", 2, rfl, by decide, rfl, by decide +kernel, rfl, rfl, by decide⟩
    · have : a = "https://im" := by simpa [leaf185, strs] using ha
      subst this
      exact ⟨im185, _, .str "https://im/fetch", 3, rfl, by decide, rfl, by decide +kernel, rfl, rfl, by decide⟩
  requests e m h r hr := by
    rcases member185_some h with ⟨rfl, rfl⟩ | ⟨rfl, rfl⟩ | ⟨rfl, rfl⟩
    · cases hr
    · simp only [im185, List.mem_singleton] at hr
      subst hr
      exact .inl rfl
    · cases hr
  anchors e m h hh := by
    rcases member185_some h with ⟨rfl, rfl⟩ | ⟨rfl, rfl⟩ | ⟨rfl, rfl⟩
    · exact ⟨1, by decide⟩
    · cases hh
    · cases hh

theorem fresh185 : Fresh site185 := by
  intro e m h
  rcases member185_some h with ⟨rfl, rfl⟩ | ⟨rfl, rfl⟩ | ⟨rfl, rfl⟩ <;> rfl

theorem enrolled185 : ∀ a e t, .enrol a e t ∈ steps185 → ∃ m, site185.member e = some m := by
  intro a e t h
  simp only [steps185, List.mem_cons, List.not_mem_nil, or_false, reduceCtorEq, false_or, Step.enrol.injEq] at h
  rcases h with ⟨-, rfl, -⟩ | ⟨-, rfl, -⟩ | ⟨-, rfl, -⟩
  · exact ⟨im185, rfl⟩
  · exact ⟨leaf185, rfl⟩
  · exact ⟨im185, rfl⟩

theorem url185 : ∀ e m, site185.member e = some m → Constraints.IsUrl e := by
  have hu : ∀ s : String, (Constraints.labelsOf s).isSome = true → Constraints.IsUrl s := fun s hs => Constraints.isUrl_iff.2 (Option.isSome_iff_exists.1 hs)
  intro e m h
  rcases member185_some h with ⟨rfl, rfl⟩ | ⟨rfl, rfl⟩ | ⟨rfl, rfl⟩ <;> exact hu _ (by decide +kernel)

/-- What the scripts put in the registries. -/
example : registry (setUp L.toCrypto J site185 steps185) "https://ta" = [("https://im", [("entity_types", .arr [.str "federation_entity"]), ("jwks", .int 2), ("intermediate", .bool true)])] ∧
    registry (setUp L.toCrypto J site185 steps185) "https://im" = [("https://leaf", [("entity_types", .arr [.str "federation_entity", .str "openid_relying_party"]), ("jwks", .int 3)])] ∧
    startJar J [] ((setUp L.toCrypto J site185 steps185).anchors "https://c") = [("https://ta", [1])] := by
  refine ⟨?_, ?_, ?_⟩ <;> decide +kernel

/-- The leaf is resolved, through `im`, up to `ta`. -/
example : ∃ out, (getVerified (env ((world J (setUp L.toCrypto J site185 steps185).member host133 0).at 100)) st "https://leaf").1 = .ok out ∧ out ≠ [] ∧
    ∀ tc ∈ out, ∃ ma, site185.member tc.anchor = some ma ∧ strs ma.authority.hints = [] := by
  obtain ⟨out, h1, h2, -, h3⟩ := C185_resolved_partial (env ((world J (setUp L.toCrypto J site185 steps185).member host133 0).at 100)) J site185 steps185 "https://c" [] host133 0 100 st []
    "" "https://leaf" leaf185 rank109 planned185 (by decide +kernel) rfl rfl (by simp) (by simp) (by simp) (by decide) (.none rfl) rfl (by decide) (by decide) url185
  exact ⟨out, h1, h2, fun tc htc => (h3 tc htc).2.1⟩

/-- A relying party that publishes metadata as such only is not entered. -/
example : registry (setUp L.toCrypto J { member := fun x => if x = "https://leaf" then some mLeaf else member185 x } steps185) "https://im" = [] := by decide +kernel

example (k : Key) := C185_trusted planned185 "https://c" rfl (fun e t h => by simp only [steps185, List.mem_cons, List.not_mem_nil, or_false, reduceCtorEq, Step.trust.injEq] at h; rw [h.2.1]; exact ⟨ta185, rfl⟩) [] "https://ta" k
example (K : SetEnum String) (W : Server.ListWorld) (ext : Bool) := C185_listed_partial planned185 fresh185 "https://ta" ta185 rfl (enrolled185 "https://ta") K W ext
end Ex

/-- C185 does not hold in full: no authority can list by entity type who was enrolled with it. -/
theorem C185_by_type_violation : ¬ C185_full := by
  intro h
  obtain ⟨ma', h1, h2⟩ := C185_by_type_fails Ex.planned185 Ex.fresh185 "https://im" "https://leaf" 3 Ex.im185 Ex.leaf185 rfl rfl (by decide) (Ex.enrolled185 "https://im") SetEnum.insertion
    ⟨fun _ => .error .connectionError, fun _ _ => false⟩ false "openid_relying_party"
  obtain ⟨-, hl⟩ := h (Chains.Ex.env ((world Chains.Ex.J (setUp Chains.Ex.L.toCrypto Chains.Ex.J Ex.site185 Ex.steps185).member Chains.Ex.host133 0).at 100)) Chains.Ex.J Ex.site185 Ex.steps185
    "https://c" [] Chains.Ex.host133 0 100 Chains.Ex.st Chains.Ex.rank109 Ex.planned185 Ex.fresh185 Ex.enrolled185 Ex.url185 (by decide +kernel) rfl rfl (by decide)
  obtain ⟨l, h3, -⟩ := hl "https://im" ma' SetEnum.insertion ⟨fun _ => .error .connectionError, fun _ _ => false⟩ false "openid_relying_party" h1
  rw [h2] at h3
  cases h3

end Fed.Setup
