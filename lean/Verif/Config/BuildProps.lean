import Verif.Config.Build
/-
Properties C139, C140: the items of an entity and their settings.
-/
namespace Fed.Config
open Fed

/-- The entity has item `n`. -/
def Conf.HasItem (c : Conf) (kind : Kind) (n : String) : Prop := ∃ T, c.of kind = some T ∧ T.has n = true

/-- The value of setting `q` of item `n`. -/
def Conf.setting (c : Conf) (kind : Kind) (n q : String) : Option Val := ((c.of kind).bind (·.get? n)).bind (·.get? q)

/-- The items an entity has when nothing is said. -/
def usualItems : Kind → List String
  | .service => ["entity_configuration", "entity_statement", "resolve", "list"]
  | .function => ["trust_chain_collector", "verifier", "policy", "trust_mark_verifier"]
  | .endpoint => ["entity_configuration", "fetch", "list"]

/-- Which items are asked for: nothing said means the default ones, an empty list means none (utils.py 91). -/
def Asked (kind : Kind) : Option Items → String → Prop
  | none, n => n ∈ usualItems kind
  | some (.names xs), n => n ∈ xs
  | some (.spec d), n => n ∈ d.map (·.1)

/-- The items that come with the library. -/
def offered : Kind → List String
  | .service => ["entity_configuration", "entity_statement", "trust_mark_status", "trust_mark_list", "trust_mark", "resolve", "list", "who"]
  | .function => ["trust_chain_collector", "verifier", "policy", "trust_mark_verifier", "metadata_verifier"]
  | .endpoint => ["entity_configuration", "fetch", "list", "resolve", "trust_mark_status", "trust_mark", "trust_mark_list", "who"]

/-- The tables that come with the library, whatever settings are in them. -/
def Tables.Usual (t : Tables) : Prop := ∀ kind n, (t.of kind).has n = true ↔ n ∈ offered kind

theorem usual0 : tables0.Usual := by
  intro kind n
  rw [Dict.has_iff]
  cases kind <;> exact Iff.rfl

/-! ## C139 -/

/-- C139 in full: an entity has exactly the items asked for. -/
def C139_full : Prop := ∀ (t : Tables) (G : Kind → Given) (c : Conf) (t' : Tables), t.Usual → build t G = (.ok c, t') → ∀ kind n, c.HasItem kind n ↔ Asked kind (G kind).items n

namespace Ex
def only (kind : Kind) (g : Given) : Kind → Given := fun k => if k = kind then g else {}
end Ex

/-- C139 does not hold: an entity made without endpoints has the default ones. -/
theorem C139_none_violation : ¬ C139_full := by
  intro h
  have := (h tables0 (Ex.only .endpoint { items := some (.names []) }) _ _ usual0 rfl .endpoint "fetch").1 ⟨_, rfl, by decide⟩
  simp [Ex.only, Asked] at this

/-- An entity made without services has nothing else either. -/
theorem C139_services_violation : ¬ C139_full := by
  intro h
  obtain ⟨T, hT, -⟩ := (h tables0 (Ex.only .service { items := some (.names []) }) _ _ usual0 rfl .endpoint "fetch").2 (by simp [Ex.only, Asked, usualItems])
  cases hT

/-- Services whose name is not known are passed over, and if none is known the default ones are there. -/
theorem C139_unknown_violation : ¬ C139_full := by
  intro h
  have := (h tables0 (Ex.only .service { items := some (.names ["typo"]) }) _ _ usual0 rfl .service "resolve").1 ⟨_, rfl, by decide⟩
  simp [Ex.only, Asked] at this

theorem get?_map (T : Table) (f : String → Dict Val → Dict Val) (n : String) : Dict.get? (T.map fun x => (x.1, f x.1 x.2)) n = (Dict.get? T n).map (f n) := by
  induction T with
  | nil => rfl
  | cons x T ih =>
    obtain ⟨k, kw⟩ := x
    simp only [List.map_cons, Dict.get?_cons]
    split
    · rename_i h; subst h; rfl
    · exact ih

theorem get?_settle (sel : String → Bool) (s : Dict (Dict Val)) (T : Table) (n : String) :
    Dict.get? (settle sel s T) n = (Dict.get? T n).map fun kw => if sel n then kw.update ((s.get? n).getD []) else kw :=
  get?_map T (fun n kw => if sel n then kw.update ((s.get? n).getD []) else kw) n

theorem has_settle (sel : String → Bool) (s : Dict (Dict Val)) (T : Table) (n : String) : Dict.has (settle sel s T) n = Dict.has T n := by
  unfold Dict.has
  rw [get?_settle]
  cases Dict.get? T n <;> rfl

theorem has_settings (kind : Kind) (g : Given) (sel : String → Bool) (T : Table) (n : String) : Dict.has (settings kind g sel T) n = Dict.has T n := by
  unfold settings
  cases kind <;> simp only [has_settle]

theorem get?_pick (D : Table) (xs : List String) (n : String) : Dict.get? (pick D xs) n = if n ∈ xs then Dict.get? D n else none := by
  induction D with
  | nil => simp [pick, Dict.get?]
  | cons x D ih =>
    obtain ⟨k, kw⟩ := x
    unfold pick at ih ⊢
    rw [List.filter_cons]
    simp only [Dict.get?_cons]
    by_cases hk : k = n
    · subst hk
      by_cases hx : k ∈ xs
      · simp [hx, Dict.get?_cons]
      · simp [hx, ih]
    · by_cases hx : k ∈ xs
      · simp [hx, Dict.get?_cons, hk, ih]
      · simp [hx, hk, ih]

theorem has_pick (D : Table) (xs : List String) (n : String) : Dict.has (pick D xs) n = true ↔ n ∈ xs ∧ Dict.has D n = true := by
  unfold Dict.has
  rw [get?_pick]
  split <;> simp_all

theorem build_ok {t : Tables} {G : Kind → Given} {c : Conf} {t' : Tables} (h : build t G = (.ok c, t')) (kind : Kind) :
    buildKind kind (G kind) (noServices (G .service).items) (t.of kind) = (.ok (c.of kind), t'.of kind) := by
  unfold build at h
  dsimp only at h
  generalize h1 : buildKind .service (G .service) (noServices (G .service).items) t.service = r1 at h
  obtain ⟨r1, D1⟩ := r1
  cases r1 with
  | error e => cases h
  | ok s =>
    dsimp only at h
    generalize h2 : buildKind .function (G .function) (noServices (G .service).items) t.function = r2 at h
    obtain ⟨r2, D2⟩ := r2
    cases r2 with
    | error e => cases h
    | ok f =>
      dsimp only at h
      generalize h3 : buildKind .endpoint (G .endpoint) (noServices (G .service).items) t.endpoint = r3 at h
      obtain ⟨r3, D3⟩ := r3
      cases r3 with
      | error e => cases h
      | ok p =>
        cases h
        cases kind <;> assumption

/-- C139, what holds: names that are all known, or specifications, are what the entity has; and the default items if nothing is said and services are not ruled out. -/
theorem C139_partial (t : Tables) (G : Kind → Given) (c : Conf) (t' : Tables) (ht : t.Usual) (h : build t G = (.ok c, t')) (kind : Kind)
    (hg : match (G kind).items with | none => (∀ xs, (G .service).items = some (.names xs) → xs ≠ []) | some (.names xs) => xs ≠ [] ∧ ∀ n ∈ xs, n ∈ offered kind | some (.spec d) => d ≠ [] ∧ kind ≠ .function)
    (n : String) : c.HasItem kind n ↔ Asked kind (G kind).items n := by
  have hb := build_ok h kind
  have byName : ∀ xs, xs ≠ [] → (∀ n ∈ xs, n ∈ offered kind) → chosen kind (t.of kind) xs = .ok xs := by
    intro xs hne hk
    have hall : ∀ n ∈ xs, Dict.has (t.of kind) n = true := fun n hn => (ht kind n).2 (hk n hn)
    unfold chosen
    split
    · have : xs.filter (Dict.has (t.of .service)) = xs := List.filter_eq_self.2 hall
      rw [this, if_neg hne]
    · rw [if_pos (List.all_eq_true.2 hall)]
  have done : ∀ xs, xs ≠ [] → (∀ n ∈ xs, n ∈ offered kind) → c.of kind = some (pick (settings kind (G kind) (fun n => decide (n ∈ xs)) (t.of kind)) xs) →
      (c.HasItem kind n ↔ n ∈ xs) := by
    intro xs hne hk hc
    unfold Conf.HasItem
    rw [hc]
    constructor
    · rintro ⟨T, hT, hn⟩
      cases hT
      exact ((has_pick _ _ _).1 hn).1
    · intro hn
      exact ⟨_, rfl, (has_pick _ _ _).2 ⟨hn, by rw [has_settings]; exact (ht kind n).2 (hk n hn)⟩⟩
  have hdef : ∀ n ∈ defaultNames kind, n ∈ offered kind := by
    cases kind <;> decide
  have hdef' : defaultNames kind ≠ [] := by cases kind <;> decide
  cases hi : (G kind).items with
  | none =>
    rw [hi] at hg
    have hne : noServices (G .service).items = false := by
      unfold noServices
      split
      · rename_i h0; exact absurd rfl (hg _ h0)
      · rfl
    unfold buildKind at hb
    rw [hi, hne] at hb
    simp only [byName _ hdef' hdef, Bool.false_eq_true, if_false] at hb
    have hu : usualItems kind = defaultNames kind := by cases kind <;> rfl
    unfold Asked
    rw [hu]
    refine done _ hdef' hdef ?_
    cases kind <;> (injection hb with h1 h2; injection h1 with h1; exact h1.symm)
  | some it =>
    rw [hi] at hg
    cases it with
    | names xs =>
      obtain ⟨hne, hk⟩ := hg
      cases xs with
      | nil => exact absurd rfl hne
      | cons x xs =>
        unfold buildKind at hb
        rw [hi] at hb
        simp only [byName _ hne hk] at hb
        refine done _ hne hk ?_
        cases kind <;> (injection hb with h1 h2; injection h1 with h1; exact h1.symm)
    | spec d =>
      obtain ⟨hne, hf⟩ := hg
      cases d with
      | nil => exact absurd rfl hne
      | cons x d =>
        have hc : c.of kind = some (settings kind (G kind) (fun _ => true) (x :: d)) := by
          unfold buildKind at hb
          rw [hi] at hb
          cases kind
          · simp only at hb; injection hb with h1 h2; injection h1 with h1; exact h1.symm
          · exact absurd rfl hf
          · simp only at hb; injection hb with h1 h2; injection h1 with h1; exact h1.symm
        unfold Conf.HasItem
        rw [hc]
        have key : Dict.has (settings kind (G kind) (fun _ => true) (x :: d)) n = true ↔ n ∈ (x :: d).map (·.1) := by
          rw [has_settings, Dict.has_iff]
          rfl
        constructor
        · rintro ⟨T, hT, hn⟩
          cases hT
          exact key.1 hn
        · intro hn
          exact ⟨_, rfl, key.2 hn⟩

example : ∃ c t', build tables0 (Ex.only .endpoint { items := some (.names ["entity_configuration", "resolve"]) }) = (.ok c, t') ∧ c.HasItem .endpoint "resolve" ∧ ¬ c.HasItem .endpoint "fetch" ∧
    c.HasItem .function "policy" := by
  refine ⟨_, _, rfl, ⟨_, rfl, by decide⟩, ?_, ⟨_, rfl, by decide⟩⟩
  rintro ⟨T, hT, hn⟩
  cases hT
  exact absurd hn (by decide)

/-! ## C140 -/

/-- The setting an item is to have: the last one given for it, else its own. -/
def Wanted (own : Table) (g : Given) (n q : String) : Option Val :=
  (((g.args.get? n).bind (·.get? q)).or ((g.init.get? n).bind (·.get? q))).or ((Dict.get? own n).bind (·.get? q))

/-- What the settings of an item are by themselves: those in its specification, or those that come with the library. -/
def ownOf (kind : Kind) : Option Items → Table
  | some (.spec d) => d
  | _ => tables0.of kind

/-- C140 in full: items have the settings given for them and else their own, whatever entities were made before. -/
def C140_full : Prop := ∀ (h : List (Kind → Given)) (G : Kind → Given) (c : Conf) (t' : Tables), build (built tables0 h) G = (.ok c, t') →
  ∀ kind n q, c.HasItem kind n → c.setting kind n q = Wanted (ownOf kind (G kind).items) (G kind) n q

/-- C140 does not hold: settings given for one entity are those of entities made later. Here the fetch endpoint of the second one asks for authentication. -/
theorem C140_leak_violation : ¬ C140_full := by
  intro h
  have := h [Ex.only .endpoint { init := [("fetch", [("client_authn_method", .arr [.str "private_key_jwt"])])] }] (Ex.only .endpoint {}) _ _ rfl .endpoint "fetch" "client_authn_method" ⟨_, rfl, by decide⟩
  have h2 : Wanted (ownOf .endpoint (Ex.only .endpoint {} .endpoint).items) (Ex.only .endpoint {} .endpoint) "fetch" "client_authn_method" = none := by decide +kernel
  rw [h2] at this
  revert this
  decide +kernel

/-- Nor are the settings in `item_args` used for services and functions. -/
theorem C140_args_violation : ¬ C140_full := by
  intro h
  have := h [] (Ex.only .function { args := [("trust_chain_collector", [("allowed_delta", .int 0)])] }) _ _ rfl .function "trust_chain_collector" "allowed_delta" ⟨_, rfl, by decide⟩
  revert this
  decide +kernel

theorem get?_settings (kind : Kind) (g : Given) (sel : String → Bool) (T : Table) (n q : String) :
    (Dict.get? (settings kind g sel T) n).bind (·.get? q) = (Dict.get? T n).bind fun kw => if sel n = true then
      (((if kind = .endpoint then (g.args.get? n).bind (·.get? q) else none).or ((g.init.get? n).bind (·.get? q))).or (kw.get? q)) else kw.get? q := by
  have upd : ∀ (s : Dict (Dict Val)) (kw : Dict Val), (kw.update ((s.get? n).getD [])).get? q = ((s.get? n).bind (·.get? q)).or (kw.get? q) := by
    intro s kw
    rw [Dict.get?_update]
    cases s.get? n <;> rfl
  unfold settings
  cases hT : Dict.get? T n with
  | none => cases kind <;> simp [get?_settle, hT]
  | some kw =>
    cases hs : sel n with
    | false => cases kind <;> simp [get?_settle, hT, hs]
    | true => cases kind <;> simp [get?_settle, hT, hs, upd, Option.or_assoc]

/-- The names under which items of the table are used. -/
theorem buildKind_table {kind : Kind} {g : Given} {empty : Bool} {D D' : Table} {r : Except PyErr (Option Table)} (h : buildKind kind g empty D = (r, D')) :
    D' = D ∨ ∃ xs : List String, D' = settings kind g (fun n => decide (n ∈ xs)) D := by
  have byName : ∀ xs, ((match chosen kind D xs with
      | .error e => (.error e, D)
      | .ok xs => (.ok (some (pick (settings kind g (fun n => decide (n ∈ xs)) D) xs)), settings kind g (fun n => decide (n ∈ xs)) D)) : Except PyErr (Option Table) × Table) = (r, D') →
      D' = D ∨ ∃ xs : List String, D' = settings kind g (fun n => decide (n ∈ xs)) D := by
    intro xs h
    split at h
    · cases h; exact Or.inl rfl
    · cases h; exact Or.inr ⟨_, rfl⟩
  unfold buildKind at h
  dsimp only at h
  split at h
  · exact byName _ h
  · exact byName _ h
  · cases h; exact Or.inl rfl
  · split at h
    · cases h; exact Or.inl rfl
    · exact byName _ h

theorem build_table (t : Tables) (G : Kind → Given) (kind : Kind) : (build t G).2.of kind = t.of kind ∨ ∃ xs : List String, (build t G).2.of kind = settings kind (G kind) (fun n => decide (n ∈ xs)) (t.of kind) := by
  unfold build
  dsimp only
  generalize h1 : buildKind .service (G .service) (noServices (G .service).items) t.service = r1
  obtain ⟨r1, D1⟩ := r1
  have b1 := buildKind_table h1
  cases r1 with
  | error e => cases kind <;> first | exact b1 | exact Or.inl rfl
  | ok s =>
    dsimp only
    generalize h2 : buildKind .function (G .function) (noServices (G .service).items) t.function = r2
    obtain ⟨r2, D2⟩ := r2
    have b2 := buildKind_table h2
    cases r2 with
    | error e => cases kind <;> first | exact b1 | exact b2 | exact Or.inl rfl
    | ok f =>
      dsimp only
      generalize h3 : buildKind .endpoint (G .endpoint) (noServices (G .service).items) t.endpoint = r3
      obtain ⟨r3, D3⟩ := r3
      have b3 := buildKind_table h3
      cases r3 with
      | error e => cases kind <;> first | exact b1 | exact b2 | exact b3
      | ok p => cases kind <;> first | exact b1 | exact b2 | exact b3

/-- No setting `q` is given for item `n`. -/
def Silent (g : Given) (n q : String) : Prop := (g.init.get? n).bind (·.get? q) = none ∧ (g.args.get? n).bind (·.get? q) = none

theorem built_usual : ∀ (h : List (Kind → Given)) (t : Tables), t.Usual → (built t h).Usual
  | [], t, ht => ht
  | G :: h, t, ht => by
    refine built_usual h _ fun kind n => ?_
    rcases build_table t G kind with hb | ⟨xs, hb⟩
    · rw [hb]; exact ht kind n
    · rw [hb, has_settings]; exact ht kind n

theorem built_silent (kind : Kind) (n q : String) : ∀ (h : List (Kind → Given)) (t : Tables), (∀ G ∈ h, Silent (G kind) n q) →
    ((built t h).of kind |>.get? n).bind (·.get? q) = ((t.of kind).get? n).bind (·.get? q)
  | [], t, _ => rfl
  | G :: h, t, hs => by
    rw [built, built_silent kind n q h _ fun G' hG => hs G' (List.mem_cons_of_mem _ hG)]
    obtain ⟨h1, h2⟩ := hs G (List.mem_cons_self)
    rcases build_table t G kind with hb | ⟨xs, hb⟩
    · rw [hb]
    · rw [hb, get?_settings, h1, h2]
      cases Dict.get? (t.of kind) n with
      | none => rfl
      | some kw => simp

/-- The specification an item comes from, if the tables are now `D`. -/
def fromTable (D : Table) : Option Items → Table
  | some (.spec (x :: d)) => x :: d
  | _ => D

theorem buildKind_setting {kind : Kind} {g : Given} {empty : Bool} {D D' : Table} {T : Table} (h : buildKind kind g empty D = (.ok (some T), D')) {n : String} (hn : T.has n = true) (q : String)
    (ha : kind ≠ .endpoint → (g.args.get? n).bind (·.get? q) = none) (hf : kind = .function → ∀ d, g.items ≠ some (.spec d)) :
    (Dict.get? T n).bind (·.get? q) = Wanted (fromTable D g.items) g n q := by
  have args : (if kind = .endpoint then (g.args.get? n).bind (·.get? q) else none) = (g.args.get? n).bind (·.get? q) := by
    by_cases hk : kind = .endpoint
    · rw [if_pos hk]
    · rw [if_neg hk, ha hk]
  have mem : ∀ (E : Table) (sel : String → Bool), sel n = true → Dict.has E n = true → (Dict.get? (settings kind g sel E) n).bind (·.get? q) = Wanted E g n q := by
    intro E sel hs hE
    rw [get?_settings, args]
    unfold Wanted
    unfold Dict.has at hE
    cases hD : Dict.get? E n with
    | none => rw [hD] at hE; cases hE
    | some kw => simp [hs]
  have byName : ∀ xs, ((match chosen kind D xs with
      | .error e => (.error e, D)
      | .ok xs => (.ok (some (pick (settings kind g (fun n => decide (n ∈ xs)) D) xs)), settings kind g (fun n => decide (n ∈ xs)) D)) : Except PyErr (Option Table) × Table) = (.ok (some T), D') →
      (Dict.get? T n).bind (·.get? q) = Wanted D g n q := by
    intro xs h
    split at h
    · cases h
    · rename_i xs' _
      injection h with h1 h2
      injection h1 with h1
      injection h1 with h1
      subst h1
      obtain ⟨h3, h4⟩ := (has_pick _ _ _).1 hn
      rw [has_settings] at h4
      rw [get?_pick, if_pos h3]
      exact mem D _ (decide_eq_true h3) h4
  have dflt : (if empty = true then (.ok none, D) else (match chosen kind D (defaultNames kind) with
      | .error e => (.error e, D)
      | .ok xs => (.ok (some (pick (settings kind g (fun n => decide (n ∈ xs)) D) xs)), settings kind g (fun n => decide (n ∈ xs)) D) : Except PyErr (Option Table) × Table)) = (.ok (some T), D') →
      (Dict.get? T n).bind (·.get? q) = Wanted D g n q := by
    intro h
    split at h
    · cases h
    · exact byName _ h
  have spec : ∀ E : Table, ((.ok (some (settings kind g (fun _ => true) E)), D) : Except PyErr (Option Table) × Table) = (.ok (some T), D') →
      (Dict.get? T n).bind (·.get? q) = Wanted E g n q := by
    intro E h
    injection h with h1 h2
    injection h1 with h1
    injection h1 with h1
    subst h1
    rw [has_settings] at hn
    exact mem E _ rfl hn
  unfold buildKind at h
  dsimp only at h
  cases hi : g.items with
  | none =>
    rw [hi] at h
    cases kind <;> exact dflt h
  | some it =>
    rw [hi] at h
    cases it with
    | names xs =>
      cases xs with
      | nil => cases kind <;> exact dflt h
      | cons x xs => cases kind <;> exact byName _ h
    | spec d =>
      cases d with
      | nil => cases kind <;> exact dflt h
      | cons x d =>
        cases kind with
        | function => exact absurd hi (hf rfl _)
        | service => exact spec _ h
        | endpoint => exact spec _ h

/-- C140, what holds: an endpoint has the settings given for it, and a service or function too if they are not in `item_args`; and if no entity made before had that setting given for
that item, the settings not given are the item's own. -/
theorem C140_partial (h : List (Kind → Given)) (G : Kind → Given) (c : Conf) (t' : Tables) (hb : build (built tables0 h) G = (.ok c, t')) (kind : Kind) (n q : String) (hn : c.HasItem kind n)
    (ha : kind ≠ .endpoint → ((G kind).args.get? n).bind (·.get? q) = none) (hf : kind = .function → ∀ d, (G kind).items ≠ some (.spec d))
    (hd : ∀ d, (G kind).items = some (.spec d) → d ≠ []) (hh : ∀ G' ∈ h, Silent (G' kind) n q) :
    c.setting kind n q = Wanted (ownOf kind (G kind).items) (G kind) n q := by
  obtain ⟨T, hT, hTn⟩ := hn
  have hk := build_ok hb kind
  rw [hT] at hk
  have := buildKind_setting hk hTn q ha hf
  unfold Conf.setting
  rw [hT]
  refine Eq.trans this ?_
  have hs := built_silent kind n q h tables0 hh
  cases hi : (G kind).items with
  | none => unfold Wanted; simp only [fromTable, ownOf, hs]
  | some it =>
    cases it with
    | names xs => unfold Wanted; simp only [fromTable, ownOf, hs]
    | spec d =>
      cases d with
      | nil => exact absurd rfl (hd _ hi)
      | cons x d => rfl

/-- What comes with the library: only the function that collects trust chains has settings of its own, namely no trust anchors and ten minutes of grace. -/
def librarySetting (kind : Kind) (n q : String) : Option Val :=
  if kind = .function ∧ n = "trust_chain_collector" then
    if q = "trust_anchors" then some (.obj []) else if q = "allowed_delta" then some (.int 600) else none
  else none

theorem get?_plain (q n : String) : ∀ l : List String, ((Dict.get? (l.map fun x => (x, ([] : Dict Val))) n).bind fun d => Dict.get? d q) = none
  | [] => rfl
  | x :: l => by
    simp only [List.map_cons]
    rw [Dict.get?_cons]
    by_cases h : x = n
    · rw [if_pos h]; rfl
    · rw [if_neg h]; exact get?_plain q n l

theorem library_own (kind : Kind) (n q : String) : (Dict.get? (tables0.of kind) n).bind (·.get? q) = librarySetting kind n q := by
  unfold librarySetting
  cases kind with
  | service => rw [if_neg (fun h => by cases h.1)]; exact get?_plain q n _
  | endpoint => rw [if_neg (fun h => by cases h.1)]; exact get?_plain q n _
  | function =>
    by_cases h : n = "trust_chain_collector"
    · rw [if_pos ⟨rfl, h⟩, h]
      show Dict.get? [("trust_anchors", Val.obj []), ("allowed_delta", .int 600)] q = _
      rw [Dict.get?_cons, Dict.get?_cons, Dict.get?_nil]
      by_cases h1 : q = "trust_anchors"
      · rw [if_pos h1.symm, if_pos h1]
      · rw [if_neg (Ne.symm h1), if_neg h1]
        by_cases h2 : q = "allowed_delta"
        · rw [if_pos h2.symm, if_pos h2]
        · rw [if_neg (Ne.symm h2), if_neg h2]
    · rw [if_neg (fun hh => h hh.2)]
      show (Dict.get? (("trust_chain_collector", [("trust_anchors", Val.obj []), ("allowed_delta", .int 600)]) :: ["verifier", "policy", "trust_mark_verifier", "metadata_verifier"].map fun x => (x, ([] : Dict Val))) n).bind _ = none
      rw [Dict.get?_cons, if_neg (Ne.symm h)]
      exact get?_plain q n _

/-- C140: an item for which nothing is given, nor was for an entity made before, has what comes with the library. -/
theorem C140_library_partial (h : List (Kind → Given)) (G : Kind → Given) (c : Conf) (t' : Tables) (hb : build (built tables0 h) G = (.ok c, t')) (kind : Kind) (n q : String) (hn : c.HasItem kind n)
    (hg : Silent (G kind) n q) (hi : ∀ d, (G kind).items ≠ some (.spec d)) (hh : ∀ G' ∈ h, Silent (G' kind) n q) : c.setting kind n q = librarySetting kind n q := by
  rw [C140_partial h G c t' hb kind n q hn (fun _ => hg.2) (fun _ => hi) (fun d hd => absurd hd (hi d)) hh]
  unfold Wanted
  rw [hg.1, hg.2, ← library_own]
  unfold ownOf
  split
  · next d hd => exact absurd hd (hi d)
  · rfl

/-- C140, what holds whatever entities were made before: a setting that is given is the one the item has. -/
theorem C140_given_partial (t : Tables) (G : Kind → Given) (c : Conf) (t' : Tables) (hb : build t G = (.ok c, t')) (kind : Kind) (n q : String) (hn : c.HasItem kind n)
    (ha : kind ≠ .endpoint → ((G kind).args.get? n).bind (·.get? q) = none) (hf : kind = .function → ∀ d, (G kind).items ≠ some (.spec d)) (v : Val)
    (hv : (((G kind).args.get? n).bind (·.get? q)).or (((G kind).init.get? n).bind (·.get? q)) = some v) : c.setting kind n q = some v := by
  obtain ⟨T, hT, hTn⟩ := hn
  have hk := build_ok hb kind
  rw [hT] at hk
  unfold Conf.setting
  rw [hT]
  refine Eq.trans (buildKind_setting hk hTn q ha hf) ?_
  unfold Wanted
  rw [hv]
  rfl

namespace Ex
def strict : Kind → Given := only .function { init := [("trust_chain_collector", [("allowed_delta", .int 0)])] }
def resolver : Kind → Given := only .endpoint { items := some (.names ["resolve"]), init := [("resolve", [("path", .str "r")])], args := [("resolve", [("path", .str "resolve")])] }
end Ex

example : ∃ c t', build (built tables0 [Ex.strict]) Ex.resolver = (.ok c, t') ∧ c.setting .endpoint "resolve" "path" = some (.str "resolve") ∧ c.setting .endpoint "resolve" "other" = none := by
  have hb : ∃ c t', build (built tables0 [Ex.strict]) Ex.resolver = (.ok c, t') := ⟨_, _, rfl⟩
  obtain ⟨c, t', hb⟩ := hb
  have hi : c.HasItem .endpoint "resolve" := (C139_partial _ _ _ _ (built_usual _ _ usual0) hb .endpoint (by simp only [Ex.resolver, Ex.only]; exact ⟨by simp, by decide⟩) "resolve").2 (by simp [Ex.resolver, Ex.only, Asked])
  refine ⟨c, t', hb, C140_given_partial _ _ _ _ hb .endpoint "resolve" "path" hi (fun h => absurd rfl h) (fun h => by cases h) _ rfl, ?_⟩
  rw [C140_partial _ _ _ _ hb .endpoint "resolve" "other" hi (fun h => absurd rfl h) (fun h => by cases h) (fun d h => by simp [Ex.resolver, Ex.only] at h)
    (fun G' hG => by simp only [List.mem_singleton] at hG; subst hG; exact ⟨rfl, rfl⟩)]
  rfl

/-- A case of C140_library_partial: an entity with just the usual. -/
example : ∃ c t', build (built tables0 [Ex.resolver]) (Ex.only .endpoint {}) = (.ok c, t') ∧ c.HasItem .function "trust_chain_collector" ∧ Silent (Ex.only .endpoint {} .function) "trust_chain_collector" "allowed_delta" ∧
    c.setting .function "trust_chain_collector" "allowed_delta" = some (.int 600) := ⟨_, _, rfl, ⟨_, rfl, by decide⟩, ⟨rfl, rfl⟩, by decide +kernel⟩

end Fed.Config
