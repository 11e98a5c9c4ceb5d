import Verif.TrustMarks.Store
/-
Properties C48-C51 and C53: the stores of issued trust marks and the status of a mark.
-/
namespace Fed.TrustMarks
open Fed

/-- The mark has not expired. -/
def Live (now : Int) (m : Info) : Prop := ∀ e, m.exp = some e → now ≤ e

/-- The mark is for the subject and, when `iat` is not 0, was issued at that time. -/
def IsFor (sub : String) (iat : Int) (m : Info) : Prop := m.sub = sub ∧ (iat = 0 ∨ m.iat = iat)

/-- Different trust mark ids are kept in different files. -/
def OwnFiles (config : Dict String) : Prop :=
  ∀ i j f, config.get? i = some f → config.get? j = some f → i = j

/-- The store after a history of additions; failed ones change nothing. -/
def addAll (db : FileDB) (ms : List Info) : FileDB := ms.foldl (fun db m => (db.add m).2) db

theorem live_iff (now : Int) (m : Info) : Live now m ↔ ¬ ∃ e, m.exp = some e ∧ now > e := by
  simp only [Live, not_exists, not_and]
  exact ⟨fun h e he => by have := h e he; omega, fun h e he => by have := h e he; omega⟩

instance (now : Int) (m : Info) : Decidable (Live now m) :=
  match h : m.exp with
  | none => isTrue (by simp [Live, h])
  | some e => decidable_of_iff (now ≤ e) (by simp [Live, h])

theorem fmatch_iff (sub : String) (iat : Int) (m : Info) : fmatch sub iat m = true ↔ IsFor sub iat m := by
  unfold fmatch IsFor
  by_cases h : sub = m.sub
  · by_cases hi : iat = 0
    · simp [h, hi]
    · simp [h, hi, eq_comm]
  · simp [h, Ne.symm h]

theorem findLoop_cons (now : Int) (sub : String) (iat : Int) (m : Info) (ms : List Info) :
    findLoop now sub iat (m :: ms) = true ↔ Live now m ∧ (IsFor sub iat m ∨ findLoop now sub iat ms = true) := by
  rw [← fmatch_iff]
  rw [findLoop]
  cases h : m.exp with
  | none => simp [Live, h]
  | some e =>
    by_cases h2 : now > e
    · simp [Live, h, h2]; omega
    · have h3 : now ≤ e := by omega
      simp [Live, h, h2, h3]

/-- The loop succeeds exactly when it meets a suitable mark before any expired one. -/
theorem findLoop_iff (now : Int) (sub : String) (iat : Int) : ∀ l : List Info,
    findLoop now sub iat l = true ↔
      ∃ pre m post, l = pre ++ m :: post ∧ IsFor sub iat m ∧ Live now m ∧ ∀ x ∈ pre, Live now x
  | [] => by simp [findLoop]
  | a :: l => by
      rw [findLoop_cons, findLoop_iff now sub iat l]
      constructor
      · rintro ⟨hl, h | ⟨pre, m, post, rfl, hf, hm, hp⟩⟩
        · exact ⟨[], a, l, rfl, h, hl, by simp⟩
        · exact ⟨a :: pre, m, post, rfl, hf, hm, by
            intro x hx
            rcases List.mem_cons.1 hx with rfl | hx
            · exact hl
            · exact hp x hx⟩
      · rintro ⟨pre, m, post, he, hf, hm, hp⟩
        cases pre with
        | nil =>
          simp only [List.nil_append, List.cons.injEq] at he
          obtain ⟨rfl, rfl⟩ := he
          exact ⟨hm, .inl hf⟩
        | cons b pre =>
          simp only [List.cons_append, List.cons.injEq] at he
          obtain ⟨rfl, rfl⟩ := he
          exact ⟨hp a (by simp), .inr ⟨pre, m, post, rfl, hf, hm, fun x hx => hp x (by simp [hx])⟩⟩

theorem add_config (db : FileDB) (m : Info) : (db.add m).2.config = db.config := by
  unfold FileDB.add; split <;> rfl

theorem addAll_config : ∀ (ms : List Info) (db : FileDB), (addAll db ms).config = db.config
  | [], _ => rfl
  | m :: ms, db => by
      show (addAll (db.add m).2 ms).config = _
      rw [addAll_config ms, add_config]

/-- The lines of the file of an id are the marks with that id, in order. -/
theorem addAll_lines {id f : String} : ∀ (ms : List Info) (db : FileDB), OwnFiles db.config → db.config.get? id = some f →
    (addAll db ms).lines f = db.lines f ++ ms.filter fun m => m.id = id
  | [], db, _, _ => by simp [addAll]
  | m :: ms, db, ho, hf => by
      show (addAll (db.add m).2 ms).lines f = _
      rw [addAll_lines ms _ (by rw [add_config]; exact ho) (by rw [add_config]; exact hf)]
      unfold FileDB.add
      cases hm : db.config.get? m.id with
      | none =>
        have : m.id ≠ id := by rintro h; rw [h, hf] at hm; cases hm
        simp [this]
      | some g =>
        by_cases h : m.id = id
        · rw [h, hf] at hm
          cases hm
          simp [FileDB.lines, h]
        · have hg : g ≠ f := fun hg => h (ho _ _ _ hm (hg ▸ hf))
          simp [FileDB.lines, Dict.get?_set_ne _ _ hg, h]

theorem filter_split {p : Info → Bool} : ∀ (ms a b : List Info) (x : Info), ms.filter p = a ++ x :: b →
    ∃ pre post, ms = pre ++ x :: post ∧ pre.filter p = a ∧ post.filter p = b
  | [], a, b, x, h => by simp at h
  | m :: ms, a, b, x, h => by
      by_cases hm : p m = true
      · rw [List.filter_cons_of_pos hm] at h
        cases a with
        | nil =>
          simp only [List.nil_append, List.cons.injEq] at h
          exact ⟨[], ms, by simp [h.1], by simp, h.2⟩
        | cons y a =>
          simp only [List.cons_append, List.cons.injEq] at h
          obtain ⟨pre, post, h1, h2, h3⟩ := filter_split ms a b x h.2
          exact ⟨m :: pre, post, by simp [h1], by rw [List.filter_cons_of_pos hm, h2, h.1], h3⟩
      · rw [List.filter_cons_of_neg hm] at h
        obtain ⟨pre, post, h1, h2, h3⟩ := filter_split ms a b x h
        exact ⟨m :: pre, post, by simp [h1], by rw [List.filter_cons_of_neg hm, h2], h3⟩

/-! ### C48 -/

/-- C48: a mark is found iff a mark for that id, subject (and issue time) was added and has not expired. -/
def C48_full : Prop :=
  ∀ (config : Dict String) (ms : List Info) (now : Int) (id sub : String) (iat : Int), OwnFiles config → id ∈ config.keys →
    ((addAll ⟨config, []⟩ ms).find now id sub iat = .ok true ↔ ∃ m ∈ ms, m.id = id ∧ IsFor sub iat m ∧ Live now m)

/-- What holds always: a mark is found iff it and every mark for the same id that was added later have not expired.
Missing from C48: an expired mark added later, for any subject, hides it. -/
theorem C48_exact_partial (config : Dict String) (ms : List Info) (now : Int) (id sub : String) (iat : Int)
    (ho : OwnFiles config) (hid : id ∈ config.keys) :
    (addAll ⟨config, []⟩ ms).find now id sub iat = .ok true ↔
      ∃ pre m post, ms = pre ++ m :: post ∧ m.id = id ∧ IsFor sub iat m ∧ Live now m ∧ ∀ x ∈ post, x.id = id → Live now x := by
  obtain ⟨f, hf⟩ := (Dict.mem_keys_iff_exists _ _).1 hid
  unfold FileDB.find
  rw [addAll_config]
  simp only [hf, addAll_lines ms ⟨config, []⟩ ho hf]
  rw [Except.ok.injEq, findLoop_iff]
  simp only [FileDB.lines, Dict.get?_nil, Option.getD_none, List.nil_append]
  constructor
  · rintro ⟨pre, m, post, h, h1, h2, h3⟩
    have h := congrArg List.reverse h
    simp only [List.reverse_reverse, List.reverse_append, List.reverse_cons, List.append_assoc, List.singleton_append] at h
    obtain ⟨a, b, he, _, hb⟩ := filter_split ms _ _ _ h
    refine ⟨a, m, b, he, ?_, h1, h2, ?_⟩
    · have : m ∈ ms.filter fun m => m.id = id := by rw [h]; simp
      simpa using (List.mem_filter.1 this).2
    · intro x hx hxi
      refine h3 x ?_
      have : x ∈ b.filter fun m => m.id = id := by simp [hx, hxi]
      rw [hb] at this
      simpa using this
  · rintro ⟨pre, m, post, rfl, hi, h1, h2, h3⟩
    refine ⟨(post.filter fun m => m.id = id).reverse, m, (pre.filter fun m => m.id = id).reverse, ?_, h1, h2, ?_⟩
    · simp [hi]
    · intro x hx
      simp at hx
      exact h3 x hx.1 hx.2

/-- C48 in full for stores in which marks for one id expire in the order they were added, for example because all have the
same lifetime. -/
theorem C48_same_lifetime_partial (config : Dict String) (ms : List Info) (now : Int) (id sub : String) (iat : Int)
    (ho : OwnFiles config) (hid : id ∈ config.keys)
    (hm : ms.Pairwise fun a b => a.id = id → b.id = id → ∀ t, Live t a → Live t b) :
    (addAll ⟨config, []⟩ ms).find now id sub iat = .ok true ↔ ∃ m ∈ ms, m.id = id ∧ IsFor sub iat m ∧ Live now m := by
  rw [C48_exact_partial config ms now id sub iat ho hid]
  constructor
  · rintro ⟨pre, m, post, rfl, hi, h1, h2, _⟩
    exact ⟨m, by simp, hi, h1, h2⟩
  · rintro ⟨m, hmem, hi, h1, h2⟩
    obtain ⟨pre, post, rfl⟩ := List.append_of_mem hmem
    refine ⟨pre, m, post, rfl, hi, h1, h2, fun x hx hxi => ?_⟩
    have := (List.pairwise_append.1 hm).2.1
    exact (List.pairwise_cons.1 this).1 x hx hi hxi now h2

/-- An expired mark of one subject hides the unexpired mark of another. -/
theorem C48_hidden_violation : ¬ C48_full := by
  intro h
  have := (h [("tm", "f")] [⟨"tm", "a", 1, some 100⟩, ⟨"tm", "b", 2, some 5⟩] 10 "tm" "a" 0
    (by intro i j f hi hj; simp [Dict.get?_cons] at hi hj; rw [← hi.1, ← hj.1]) (by decide)).2
    ⟨⟨"tm", "a", 1, some 100⟩, by simp, rfl, by simp [IsFor], by simp [Live]⟩
  revert this
  decide +kernel

example : OwnFiles [("tm", "f"), ("tm2", "g")] := by
  intro i j f hi hj
  simp only [Dict.get?_cons, Dict.get?_nil] at hi hj
  split at hi <;> split at hj <;> simp_all
  · exact absurd (hj.2.trans hi.symm) (by decide)
  · exact absurd (hi.2.trans hj.symm) (by decide)

example : (addAll ⟨[("tm", "f"), ("tm2", "g")], []⟩ [⟨"tm", "a", 1, some 100⟩, ⟨"tm2", "a", 2, some 5⟩, ⟨"tm", "b", 3, some 101⟩]).find 50 "tm" "a" 1
    = .ok true := by decide +kernel

example : [⟨"tm", "a", 1, some 100⟩, ⟨"tm2", "a", 2, some 5⟩, (⟨"tm", "b", 3, some 101⟩ : Info)].Pairwise
    fun a b => a.id = "tm" → b.id = "tm" → ∀ t, Live t a → Live t b := by
  simp [Live]
  intro t ht; omega

/-! ### C49 -/

theorem listLoop_all : ∀ (l : List Info) (res : List String),
    listLoop "" l res = res ++ (dedup (l.map (·.sub))).filter fun s => s ∉ res
  | [], res => by simp [listLoop, dedup]
  | m :: l, res => by
      unfold listLoop
      by_cases h : m.sub ∈ res
      · rw [if_neg (by simpa using h), listLoop_all l res]
        simp only [List.map_cons, dedup]
        rw [List.filter_cons_of_neg (by simpa using h), List.filter_filter]
        congr 1
        apply List.filter_congr
        intro s _
        by_cases hs : s = m.sub
        · simp [hs, h]
        · simp [hs]
      · rw [if_pos h, if_neg (by simp), listLoop_all l _]
        simp only [List.map_cons, dedup]
        rw [List.filter_cons_of_pos (by simpa using h), List.filter_filter, List.append_assoc]
        congr 1
        simp only [List.singleton_append, List.cons.injEq, true_and]
        apply List.filter_congr
        intro s _
        by_cases hs : s = m.sub <;> simp [hs]

theorem listLoop_one {sub : String} (hs : sub ≠ "") : ∀ (l : List Info) (res : List String),
    (∀ s ∈ res, s = sub) → res.length ≤ 1 →
    listLoop sub l res = if sub ∈ res ∨ sub ∈ l.map (·.sub) then [sub] else []
  | [], res, h, hl => by
      unfold listLoop
      match res, hl with
      | [], _ => simp
      | [s], _ => simp [h s (by simp)]
  | m :: l, res, h, hl => by
      unfold listLoop
      by_cases hm : m.sub ∈ res
      · have := h _ hm
        rw [if_neg (by simpa using hm), listLoop_one hs l res h hl, if_pos (.inl (this ▸ hm)), if_pos (.inl (this ▸ hm))]
      · rw [if_pos hm, if_pos hs]
        by_cases he : m.sub = sub
        · rw [if_pos he]
          have hr : res = [] := by
            match res, hl with
            | [], _ => rfl
            | [s], _ => exact absurd (by simp [h s (by simp), he]) hm
          subst hr
          rw [listLoop_one hs l _ (by simp [he]) (by simp)]
          simp [he]
        · rw [if_neg he, listLoop_one hs l res h hl]
          simp [Ne.symm he]

/-- In `dedup l`, what stands earlier occurs in `l` before any occurrence of what stands later. -/
theorem dedup_order {α} [DecidableEq α] : ∀ l : List α,
    (dedup l).Pairwise fun s t => ∃ pre post, l = pre ++ s :: post ∧ t ∉ pre ∧ t ≠ s
  | [] => by simp [dedup]
  | a :: l => by
      simp only [dedup, List.pairwise_cons]
      refine ⟨fun t ht => ⟨[], l, rfl, by simp, by simpa using (List.mem_filter.1 ht).2⟩, ?_⟩
      have := (dedup_order l).sublist (List.filter_sublist (p := fun x => decide (x ≠ a)))
      refine this.imp_of_mem ?_
      rintro s t _ ht ⟨pre, post, rfl, h1, h2⟩
      refine ⟨a :: pre, post, rfl, ?_, h2⟩
      have : t ≠ a := by simpa using (List.mem_filter.1 ht).2
      simp [this, h1]

/-- `s` got its last mark with that id after every mark of `t` with that id. -/
def Later (ms : List Info) (id s t : String) : Prop :=
  ∃ pre m post, ms = pre ++ m :: post ∧ m.id = id ∧ m.sub = s ∧ ∀ x ∈ m :: post, x.id = id → x.sub ≠ t

/-- C49: the list names exactly the subjects of the marks with the id, each once, the one with the latest mark first; with a
subject given it names just that subject iff there is a mark for it. -/
theorem C49_lists_subjects (config : Dict String) (ms : List Info) (id : String) (ho : OwnFiles config)
    (hid : id ∈ config.keys) :
    let db := addAll ⟨config, []⟩ ms
    (db.list id "").Nodup ∧ (∀ s, s ∈ db.list id "" ↔ ∃ m ∈ ms, m.id = id ∧ m.sub = s) ∧
    (db.list id "").Pairwise (Later ms id) ∧
    ∀ s, s ≠ "" → ((∃ m ∈ ms, m.id = id ∧ m.sub = s) → db.list id s = [s]) ∧
      ((¬ ∃ m ∈ ms, m.id = id ∧ m.sub = s) → db.list id s = []) := by
  obtain ⟨f, hf⟩ := (Dict.mem_keys_iff_exists _ _).1 hid
  have hl : ∀ s, (addAll ⟨config, []⟩ ms).list id s = listLoop s (ms.filter fun m => m.id = id).reverse [] := by
    intro s
    unfold FileDB.list
    rw [addAll_config]
    simp only [hf, addAll_lines ms ⟨config, []⟩ ho hf]
    simp [FileDB.lines]
  have hmem : ∀ s, (∃ m ∈ ms, m.id = id ∧ m.sub = s) ↔ s ∈ (ms.filter fun m => m.id = id).reverse.map (·.sub) := by
    intro s
    simp [and_assoc]
  have hall : (addAll ⟨config, []⟩ ms).list id "" = dedup ((ms.filter fun m => m.id = id).reverse.map (·.sub)) := by
    rw [hl, listLoop_all]
    simp
  refine ⟨?_, ?_, ?_, ?_⟩
  · rw [hall]; exact nodup_dedup _
  · intro s; rw [hall, mem_dedup, hmem]
  · rw [hall]
    refine (dedup_order _).imp ?_
    rintro s t ⟨pre, post, h, h1, h2⟩
    rw [List.map_eq_append_iff] at h
    obtain ⟨l1, l2, h, rfl, h'⟩ := h
    rw [List.map_eq_cons_iff] at h'
    obtain ⟨m, l3, rfl, rfl, rfl⟩ := h'
    have h := congrArg List.reverse h
    simp only [List.reverse_reverse, List.reverse_append, List.reverse_cons, List.append_assoc, List.singleton_append] at h
    obtain ⟨a, b, rfl, ha, hb⟩ := filter_split ms _ _ _ h
    have hm : m ∈ (a ++ m :: b).filter fun m => m.id = id := by rw [h]; simp
    refine ⟨a, m, b, rfl, by simpa using (List.mem_filter.1 hm).2, rfl, ?_⟩
    intro x hx hxi
    rcases List.mem_cons.1 hx with rfl | hx
    · exact Ne.symm h2
    · have : x ∈ b.filter fun m => m.id = id := by simp [hx, hxi]
      rw [hb] at this
      intro he
      exact h1 (List.mem_map.2 ⟨x, by simpa using this, he⟩)
  · intro s hs
    rw [hl, listLoop_one hs _ _ (by simp) (by simp), hmem]
    exact ⟨fun h => if_pos (.inr h), fun h => if_neg (by simpa using h)⟩

example : (addAll ⟨[("tm", "f"), ("tm2", "g")], []⟩ [⟨"tm", "a", 1, some 100⟩, ⟨"tm", "b", 1, none⟩, ⟨"tm2", "c", 2, some 5⟩,
    ⟨"tm", "a", 3, some 101⟩]).list "tm" "" = ["a", "b"] := by decide +kernel

/-! ### C50 -/

theorem loadLoop_ok (info : Dict (List Info)) : ∀ (c : List (String × String)) (db : FileDB),
    (∀ p ∈ c, p.1 ∈ info.keys) → (c.map (·.1)).Nodup → (∀ p ∈ c, ∀ q ∈ c, p.2 = q.2 → p.1 = q.1) →
    ∃ db', loadLoop info c db = (.ok (), db') ∧ db'.config = db.config ∧
      (∀ p ∈ c, db'.lines p.2 = db.lines p.2 ++ (info.get? p.1).getD []) ∧
      (∀ f, (∀ p ∈ c, p.2 ≠ f) → db'.lines f = db.lines f)
  | [], db, _, _, _ => ⟨db, rfl, rfl, by simp, by simp⟩
  | (id, f) :: c, db, h, hn, hi => by
      obtain ⟨ms, hms⟩ := (Dict.mem_keys_iff_exists _ _).1 (h (id, f) (by simp))
      obtain ⟨db', h1, h2, h3, h4⟩ := loadLoop_ok info c { db with files := db.files.set f (db.lines f ++ ms) }
        (fun p hp => h p (by simp [hp])) (List.nodup_cons.1 hn).2
        (fun p hp q hq => hi p (by simp [hp]) q (by simp [hq]))
      have hne : ∀ p ∈ c, p.2 ≠ f := by
        intro p hp he
        have := hi p (by simp [hp]) (id, f) (by simp) he
        exact (List.nodup_cons.1 hn).1 (List.mem_map.2 ⟨p, hp, this⟩)
      refine ⟨db', by rw [loadLoop, hms]; exact h1, h2, ?_, ?_⟩
      · intro p hp
        rcases List.mem_cons.1 hp with rfl | hp
        · rw [h4 f hne, hms]
          simp [FileDB.lines]
        · rw [h3 p hp]
          have := hne p hp
          simp [FileDB.lines, Dict.get?_set_ne _ _ (Ne.symm this)]
      · intro g hg
        rw [h4 g (fun p hp => hg p (by simp [hp]))]
        have := hg (id, f) (by simp)
        simp [FileDB.lines, Dict.get?_set_ne _ _ this]

theorem dump_get (db : FileDB) (id : String) : db.dump.get? id = (db.config.get? id).map db.lines := by
  unfold FileDB.dump
  generalize db.config = c
  induction c with
  | nil => rfl
  | cons p c ih =>
    simp only [List.map_cons, Dict.get?_cons]
    split
    · rfl
    · exact ih

/-- C50: whatever the store holds, loading its dump into an empty store for the same trust mark ids succeeds, and the new store
gives the same answer to every query. -/
theorem C50_dump_load (db : FileDB) (config : Dict String) (ho : OwnFiles config) (hn : config.keys.Nodup)
    (hk : ∀ id, id ∈ config.keys ↔ id ∈ db.config.keys) :
    ∃ db', (⟨config, []⟩ : FileDB).load db.dump = (.ok (), db') ∧
      (∀ now id sub iat, db'.find now id sub iat = db.find now id sub iat) ∧
      (∀ id sub, db'.list id sub = db.list id sub) := by
  have hmem : ∀ {p : String × String}, p ∈ config → config.get? p.1 = some p.2 := by
    clear ho hk
    induction config with
    | nil => simp
    | cons q c ih =>
      intro p hp
      rw [Dict.get?_cons]
      rcases List.mem_cons.1 hp with rfl | hp
      · simp
      · have hn' := List.nodup_cons.1 hn
        have : q.1 ≠ p.1 := fun h => hn'.1 (List.mem_map.2 ⟨p, hp, h.symm⟩)
        rw [if_neg this]
        exact ih hn'.2 hp
  have hk' : ∀ p ∈ config, p.1 ∈ db.config.keys := fun p hp => (hk _).1 (List.mem_map.2 ⟨p, hp, rfl⟩)
  obtain ⟨db', h1, h2, h3, _⟩ := loadLoop_ok db.dump config ⟨config, []⟩
    (by
      intro p hp
      rw [Dict.mem_keys_iff, dump_get]
      have := (Dict.mem_keys_iff _ _).1 (hk' p hp)
      simpa using this)
    hn (fun p hp q hq h => ho p.1 q.1 p.2 (hmem hp) (h ▸ hmem hq))
  have hlines : ∀ id f g, config.get? id = some f → db.config.get? id = some g → db'.lines f = db.lines g := by
    intro id f g hf hg
    have := h3 (id, f) (Dict.get?_mem hf)
    simpa [FileDB.lines, dump_get, hg] using this
  refine ⟨db', h1, ?_, ?_⟩
  · intro now id sub iat
    unfold FileDB.find
    rw [h2]
    show (match Dict.get? config id with | none => _ | some f => _) = _
    cases hf : Dict.get? config id with
    | none =>
      have : Dict.get? db.config id = none := by
        rw [Dict.get?_eq_none_iff, ← hk, ← Dict.get?_eq_none_iff]; exact hf
      rw [this]
    | some f =>
      obtain ⟨g, hg⟩ := (Dict.mem_keys_iff_exists _ _).1 ((hk id).1 ((Dict.mem_keys_iff_exists _ _).2 ⟨f, hf⟩))
      rw [hg]
      show _ = _
      simp only [hlines id f g hf hg]
  · intro id sub
    unfold FileDB.list
    rw [h2]
    show (match Dict.get? config id with | none => _ | some f => _) = _
    cases hf : Dict.get? config id with
    | none =>
      have : Dict.get? db.config id = none := by
        rw [Dict.get?_eq_none_iff, ← hk, ← Dict.get?_eq_none_iff]; exact hf
      rw [this]
    | some f =>
      obtain ⟨g, hg⟩ := (Dict.mem_keys_iff_exists _ _).1 ((hk id).1 ((Dict.mem_keys_iff_exists _ _).2 ⟨f, hf⟩))
      rw [hg]
      show _ = _
      simp only [hlines id f g hf hg]

example : (((⟨[("tm", "f2"), ("tm2", "g2")], []⟩ : FileDB).load (addAll ⟨[("tm", "f"), ("tm2", "g")], []⟩ [⟨"tm", "a", 1, some 100⟩,
    ⟨"tm2", "b", 2, none⟩]).dump).2.find 50 "tm" "a" 0, ((⟨[("tm", "f2"), ("tm2", "g2")], []⟩ : FileDB).load
    (addAll ⟨[("tm", "f"), ("tm2", "g")], []⟩ [⟨"tm", "a", 1, some 100⟩, ⟨"tm2", "b", 2, none⟩]).dump).2.list "tm2" "")
    = (.ok true, ["b"]) := by decide +kernel

/-! ### C51 -/

/-- The in-memory store after a history of additions; failed ones change nothing. -/
def simpleAll (db : SimpleDB) (ms : List Info) : SimpleDB := ms.foldl (fun db m => (SimpleDB.add db m).2) db

/-- C51: the in-memory store accepts every mark and finds exactly the marks added. -/
def C51_full : Prop :=
  (∀ (ms : List Info) (m : Info), (SimpleDB.add (simpleAll [] ms) m).1 = .ok ()) ∧
  ∀ (ms : List Info) (id sub : String) (iat : Int),
    SimpleDB.find (simpleAll [] ms) id sub iat = .ok true ↔ ∃ m ∈ ms, m.id = id ∧ IsFor sub iat m

theorem simpleAll_get (id : String) : ∀ (ms : List Info) (db : SimpleDB),
    Dict.get? (simpleAll db ms) id = (Dict.get? db id).or ((ms.find? fun m => m.id = id).map fun m => [(m.sub, m)])
  | [], db => by simp [simpleAll]
  | m :: ms, db => by
      show Dict.get? (simpleAll (SimpleDB.add db m).2 ms) id = _
      rw [simpleAll_get id ms]
      unfold SimpleDB.add
      cases hm : Dict.get? db m.id with
      | some d =>
        by_cases h : m.id = id
        · rw [h] at hm; simp [hm]
        · simp [h]
      | none =>
        by_cases h : m.id = id
        · rw [h] at hm; simp [hm, h]
        · simp [Dict.get?_set_ne _ _ h, h]

/-- What holds: for each trust mark id the store keeps the first mark only, and it refuses all others; asking for an id without
marks raises KeyError. Missing from C51: every further mark with the same id. -/
theorem C51_first_only_partial (ms : List Info) :
    (∀ m, (SimpleDB.add (simpleAll [] ms) m).1 = .ok () ↔ ∀ x ∈ ms, x.id ≠ m.id) ∧
    (∀ id sub iat, SimpleDB.find (simpleAll [] ms) id sub iat = .ok true ↔
      ∃ pre m post, ms = pre ++ m :: post ∧ (∀ x ∈ pre, x.id ≠ id) ∧ m.id = id ∧ IsFor sub iat m) ∧
    (∀ id sub iat, SimpleDB.find (simpleAll [] ms) id sub iat = .error .keyError ↔ ∀ x ∈ ms, x.id ≠ id) := by
  refine ⟨fun m => ?_, fun id sub iat => ?_, fun id sub iat => ?_⟩
  · unfold SimpleDB.add
    rw [simpleAll_get]
    cases h : ms.find? fun x => x.id = m.id with
    | none =>
      simp only [Dict.get?_nil, Option.map_none, Option.or_none, true_iff]
      simpa using h
    | some x =>
      have h1 := List.mem_of_find?_eq_some h
      have h2 := List.find?_some h
      simp only [Dict.get?_nil, Option.map_some, Option.none_or, reduceCtorEq, false_iff]
      intro h3
      exact h3 x h1 (by simpa using h2)
  · unfold SimpleDB.find
    rw [simpleAll_get]
    cases h : ms.find? fun x => x.id = id with
    | none =>
      simp only [Dict.get?_nil, Option.map_none, Option.or_none, reduceCtorEq, false_iff]
      rintro ⟨pre, m, post, rfl, _, hi, _⟩
      simp at h
      exact h.2.1 hi
    | some m =>
      obtain ⟨hi, pre, post, rfl, hp⟩ := List.find?_eq_some_iff_append.1 h
      simp only [decide_eq_true_eq] at hi
      have hp : ∀ x ∈ pre, x.id ≠ id := by simpa using hp
      have huniq : ∀ pre' m' post', pre ++ m :: post = pre' ++ m' :: post' → (∀ x ∈ pre', x.id ≠ id) → m'.id = id → m' = m := by
        intro pre' m' post' he hp' hi'
        have : (pre' ++ m' :: post').find? (fun x => decide (x.id = id)) = some m' :=
          List.find?_eq_some_iff_append.2 ⟨by simpa using hi', pre', post', rfl, by simpa using hp'⟩
        rw [← he, h] at this
        exact (Option.some.inj this).symm
      simp only [Dict.get?_nil, Option.map_some, Option.none_or, Dict.get?_cons]
      constructor
      · intro hf
        refine ⟨pre, m, post, rfl, hp, hi, ?_⟩
        unfold IsFor
        by_cases hs : m.sub = sub
        · rw [if_pos hs] at hf
          simp only [Except.ok.injEq] at hf
          refine ⟨hs, ?_⟩
          by_cases h0 : iat = 0
          · exact .inl h0
          · rw [if_pos h0] at hf
            exact .inr (by simp at hf; exact hf.symm)
        · rw [if_neg hs] at hf; simp at hf
      · rintro ⟨pre', m', post', he, hp', hi', hs, hiat⟩
        have := huniq pre' m' post' he hp' hi'
        subst this
        rw [if_pos hs]
        rcases hiat with rfl | rfl <;> simp
  · unfold SimpleDB.find
    rw [simpleAll_get]
    cases h : ms.find? fun x => x.id = id with
    | none =>
      simp only [Dict.get?_nil, Option.map_none, Option.or_none, true_iff]
      simpa using h
    | some x =>
      have h1 := List.mem_of_find?_eq_some h
      have h2 := List.find?_some h
      simp only [Dict.get?_nil, Option.map_some, Option.none_or]
      constructor
      · intro h'; split at h' <;> cases h'
      · intro h3; exact absurd (by simpa using h2) (h3 x h1)

/-- C51 in full when no two marks have the same id. -/
theorem C51_distinct_ids_partial (ms : List Info) (hn : (ms.map (·.id)).Nodup) (id sub : String) (iat : Int) :
    SimpleDB.find (simpleAll [] ms) id sub iat = .ok true ↔ ∃ m ∈ ms, m.id = id ∧ IsFor sub iat m := by
  rw [(C51_first_only_partial ms).2.1]
  constructor
  · rintro ⟨pre, m, post, rfl, _, hi, hf⟩
    exact ⟨m, by simp, hi, hf⟩
  · rintro ⟨m, hm, hi, hf⟩
    obtain ⟨pre, post, rfl⟩ := List.append_of_mem hm
    refine ⟨pre, m, post, rfl, fun x hx he => ?_, hi, hf⟩
    rw [List.map_append, List.nodup_append] at hn
    exact hn.2.2 x.id (List.mem_map.2 ⟨x, hx, rfl⟩) m.id (by simp) (he.trans hi.symm)

/-- The second mark with an id raises AttributeError. -/
theorem C51_second_mark_violation : ¬ C51_full := by
  rintro ⟨h, _⟩
  have := h [⟨"tm", "a", 1, none⟩] ⟨"tm", "b", 2, none⟩
  revert this
  decide +kernel

example : SimpleDB.find (simpleAll [] [⟨"tm", "a", 1, none⟩, ⟨"tm2", "a", 2, none⟩, ⟨"tm", "b", 3, none⟩]) "tm2" "a" 2 = .ok true := by
  decide +kernel

/-! ### C53 -/

/-- The issuer after a history of requests for trust marks (time, id, subject), and the marks it issued. -/
def createAll : Issuer → List (Int × String × String) → List Info × Issuer
  | is, [] => ([], is)
  | is, (t, id, sub) :: rs =>
    match is.create t id sub with
    | (.error _, is') => createAll is' rs
    | (.ok m, is') => let r := createAll is' rs; (m :: r.1, r.2)

/-- C53: whatever was issued, the status endpoint answers, and it answers active iff a mark with that id was issued to that
subject and has not expired. -/
def C53_full : Prop :=
  ∀ (is : Issuer) (rs : List (Int × String × String)) (now : Int) (id sub : String), id ≠ "" →
    (is.issued = .simple [] ∨ ∃ config, OwnFiles config ∧ is.issued = .file ⟨config, []⟩) →
    rs.Pairwise (fun a b => a.1 ≤ b.1) →
    ∃ b, (createAll is rs).2.status now { sub := some sub, trustMarkId := some id } = .ok b ∧
      (b = true ↔ ∃ m ∈ (createAll is rs).1, m.id = id ∧ m.sub = sub ∧ Live now m)

theorem createAll_file (spec : Dict Spec) : ∀ (rs : List (Int × String × String)) (db : FileDB),
    (createAll ⟨spec, .file db⟩ rs).2 = ⟨spec, .file (addAll db (createAll ⟨spec, .file db⟩ rs).1)⟩
  | [], db => rfl
  | (t, id, sub) :: rs, db => by
      have hc : Issuer.create ⟨spec, .file db⟩ t id sub = match spec.get? id with
          | none => (.error .valueError, ⟨spec, .file db⟩)
          | some s => match db.add (s.content t id sub) with
            | (.error e, db') => (.error e, ⟨spec, .file db'⟩)
            | (.ok (), db') => (.ok (s.content t id sub), ⟨spec, .file db'⟩) := by
        unfold Issuer.create
        cases h : spec.get? id with
        | none => simp
        | some s =>
          simp only [DB.add]
          generalize db.add (s.content t id sub) = r
          obtain ⟨r1, r2⟩ := r
          cases r1 <;> rfl
      unfold createAll
      rw [hc]
      cases h : spec.get? id with
      | none => exact createAll_file spec rs db
      | some s =>
        simp only []
        cases hr : db.add (s.content t id sub) with
        | mk r1 r2 =>
          cases r1 with
          | error e =>
            have : r2 = db := by
              unfold FileDB.add at hr
              split at hr <;> simp at hr
              exact hr.2.symm
            simp only []
            rw [this]
            exact createAll_file spec rs db
          | ok u =>
            simp only []
            rw [createAll_file spec rs r2]
            show _ = (⟨spec, .file (addAll (db.add (s.content t id sub)).2 _)⟩ : Issuer)
            rw [hr]

theorem create_spec {is i' : Issuer} {t : Int} {id sub : String} {r : Except PyErr Info} (h : is.create t id sub = (r, i')) :
    i'.spec = is.spec := by
  unfold Issuer.create at h
  split at h
  · cases h; rfl
  · split at h <;> cases h <;> rfl

theorem create_ok {is i' : Issuer} {t : Int} {id sub : String} {m : Info} (h : is.create t id sub = (.ok m, i')) :
    ∃ s, is.spec.get? id = some s ∧ m = s.content t id sub := by
  unfold Issuer.create at h
  split at h
  · cases h
  · rename_i s hs
    split at h
    · cases h
    · cases h
      exact ⟨s, hs, rfl⟩

/-- Issued marks are as the specification says. -/
theorem createAll_marks : ∀ (rs : List (Int × String × String)) (is : Issuer), ∀ m ∈ (createAll is rs).1,
    ∃ r ∈ rs, ∃ s, is.spec.get? r.2.1 = some s ∧ m = s.content r.1 r.2.1 r.2.2
  | [], is, m, h => by simp [createAll] at h
  | (t, id, sub) :: rs, is, m, h => by
      unfold createAll at h
      cases hr : is.create t id sub with
      | mk r1 i' =>
        rw [hr] at h
        have ih := createAll_marks rs i' m
        rw [create_spec hr] at ih
        cases r1 with
        | error e =>
          obtain ⟨r, h1, h2⟩ := ih h
          exact ⟨r, by simp [h1], h2⟩
        | ok m' =>
          rcases List.mem_cons.1 h with rfl | h
          · exact ⟨(t, id, sub), by simp, create_ok hr⟩
          · obtain ⟨r, h1, h2⟩ := ih h
            exact ⟨r, by simp [h1], h2⟩

theorem content_id (s : Spec) (t : Int) (id sub : String) : (s.content t id sub).id = id := by
  unfold Spec.content; split <;> (try split) <;> rfl

theorem content_live {s : Spec} {t t' : Int} {id sub sub' : String} (h : t ≤ t') (u : Int)
    (hl : Live u (s.content t id sub)) : Live u (s.content t' id sub') := by
  unfold Spec.content Live at *
  cases hs : s.lifetime with
  | none => simpa [hs] using hl
  | some l =>
    by_cases h0 : l = 0
    · simpa [hs, h0] using hl
    · simp [hs, h0] at hl ⊢
      omega

/-- Marks with the same id expire in the order they were issued. -/
theorem createAll_pairwise : ∀ (rs : List (Int × String × String)) (is : Issuer), rs.Pairwise (fun a b => a.1 ≤ b.1) →
    (createAll is rs).1.Pairwise fun a b => a.id = b.id → ∀ t, Live t a → Live t b
  | [], is, _ => by simp [createAll]
  | (t, id, sub) :: rs, is, h => by
      have h := List.pairwise_cons.1 h
      unfold createAll
      cases hr : is.create t id sub with
      | mk r1 i' =>
        have ih := createAll_pairwise rs i' h.2
        cases r1 with
        | error e => exact ih
        | ok m =>
          refine List.pairwise_cons.2 ⟨fun b hb hi u hl => ?_, ih⟩
          obtain ⟨s, hs, rfl⟩ := create_ok hr
          obtain ⟨v, hv, s', hs', rfl⟩ := createAll_marks rs i' b hb
          rw [content_id, content_id] at hi
          rw [create_spec hr, ← hi, hs] at hs'
          cases hs'
          rw [← hi]
          exact content_live (h.1 v hv) u hl

/-- C53 for an issuer that keeps its marks in files, one for each trust mark id: in full for every id the store is configured
with. Missing from C53: ids it is not configured with, and the in-memory store. -/
theorem C53_file_partial (spec : Dict Spec) (config : Dict String) (rs : List (Int × String × String)) (now : Int)
    (id sub : String) (h0 : id ≠ "") (ho : OwnFiles config) (hid : id ∈ config.keys) (ht : rs.Pairwise fun a b => a.1 ≤ b.1) :
    ∃ b, (createAll ⟨spec, .file ⟨config, []⟩⟩ rs).2.status now { sub := some sub, trustMarkId := some id } = .ok b ∧
      (b = true ↔ ∃ m ∈ (createAll ⟨spec, .file ⟨config, []⟩⟩ rs).1, m.id = id ∧ m.sub = sub ∧ Live now m) := by
  have hm := (createAll_pairwise rs ⟨spec, .file ⟨config, []⟩⟩ ht).imp
    fun {a b} (h : a.id = b.id → ∀ t, Live t a → Live t b) (ha : a.id = id) (hb : b.id = id) => h (ha.trans hb.symm)
  have := C48_same_lifetime_partial config _ now id sub 0 ho hid hm
  obtain ⟨f, hf⟩ := (Dict.mem_keys_iff_exists _ _).1 hid
  have hex : ∃ b, (addAll ⟨config, []⟩ (createAll ⟨spec, .file ⟨config, []⟩⟩ rs).1).find now id sub 0 = .ok b := by
    unfold FileDB.find
    rw [addAll_config]
    simp [hf]
  obtain ⟨b, hb⟩ := hex
  refine ⟨b, ?_, ?_⟩
  · rw [createAll_file]
    simp [Issuer.status, StatusRequest.askedId, h0, Issuer.find, DB.find, hb]
  · rw [hb, Except.ok.injEq] at this
    rw [this]
    simp [IsFor]

/-- When a mark issued at time `t` according to the specification `s` has not yet expired at time `now`: within its lifetime if it has
one other than 0, not after the time of expiry that is specified otherwise. -/
def Spec.Valid (s : Spec) (t now : Int) : Prop :=
  match s.lifetime with
  | some 0 | none => ∀ e, s.exp = some e → now ≤ e
  | some l => now ≤ t + l

/-- A store in files with a file for the id has a mark for every request for that id. -/
theorem createAll_covers (spec : Dict Spec) (config : Dict String) (id sub f : String) (t : Int) (s : Spec) (hid : config.get? id = some f)
    (hs : spec.get? id = some s) : ∀ (rs : List (Int × String × String)) (is : Issuer), is.spec = spec → (∃ fs, is.issued = .file ⟨config, fs⟩) →
    (t, id, sub) ∈ rs → s.content t id sub ∈ (createAll is rs).1
  | [], is, _, _, h => by simp at h
  | (t', id', sub') :: rs, is, h1, ⟨fs, h2⟩, h => by
      have hc : is.create t' id' sub' = match spec.get? id' with
          | none => (.error .valueError, is)
          | some s => match (FileDB.mk config fs).add (s.content t' id' sub') with
            | (.error e, db') => (.error e, { is with issued := .file db' })
            | (.ok (), db') => (.ok (s.content t' id' sub'), { is with issued := .file db' }) := by
        unfold Issuer.create
        rw [h1, h2]
        cases spec.get? id' with
        | none => rfl
        | some s =>
          simp only [DB.add]
          cases (FileDB.mk config fs).add (s.content t' id' sub') with
          | mk a b => cases a <;> rfl
      unfold createAll
      rw [hc]
      cases hs' : spec.get? id' with
      | none =>
        simp only
        rcases List.mem_cons.1 h with h | h
        · cases h; rw [hs] at hs'; cases hs'
        · exact createAll_covers spec config id sub f t s hid hs rs is h1 ⟨fs, h2⟩ h
      | some s' =>
        simp only [FileDB.add, content_id]
        cases hf : Dict.get? config id' with
        | none =>
          simp only
          rcases List.mem_cons.1 h with h | h
          · cases h; rw [hid] at hf; cases hf
          · exact createAll_covers spec config id sub f t s hid hs rs _ h1 ⟨fs, rfl⟩ h
        | some f' =>
          simp only
          rcases List.mem_cons.1 h with h | h
          · cases h
            rw [hs] at hs'
            cases hs'
            exact List.mem_cons_self
          · exact List.mem_cons_of_mem _ (createAll_covers spec config id sub f t s hid hs rs _ h1 ⟨_, rfl⟩ h)

/-- C53 seen from outside, for an issuer that keeps its marks in files: the status is active iff some request for a mark with that id
for that subject was made whose time of expiry, reckoned from the specification, has not passed. Missing from C53: ids without a file, and the
in-memory store. -/
theorem C53_requests_partial (spec : Dict Spec) (config : Dict String) (rs : List (Int × String × String)) (now : Int)
    (id sub : String) (s : Spec) (hs : spec.get? id = some s) (h0 : id ≠ "") (ho : OwnFiles config) (hid : id ∈ config.keys)
    (ht : rs.Pairwise fun a b => a.1 ≤ b.1) :
    ∃ b, (createAll ⟨spec, .file ⟨config, []⟩⟩ rs).2.status now { sub := some sub, trustMarkId := some id } = .ok b ∧
      (b = true ↔ ∃ t, (t, id, sub) ∈ rs ∧ s.Valid t now) := by
  obtain ⟨b, h1, h2⟩ := C53_file_partial spec config rs now id sub h0 ho hid ht
  refine ⟨b, h1, h2.trans ?_⟩
  have hv : ∀ t, Live now (s.content t id sub) ↔ s.Valid t now := by
    intro t
    unfold Spec.content Spec.Valid Live
    cases hl : s.lifetime with
    | none => simp
    | some l =>
      by_cases hz : l = 0
      · subst hz; simp
      · simp only [ne_eq, hz, not_false_eq_true, if_true, Option.some.injEq, forall_eq']
  constructor
  · rintro ⟨m, hm, hi, hsub, hl⟩
    obtain ⟨⟨t, id', sub'⟩, hr, s', hs', rfl⟩ := createAll_marks rs _ m hm
    have e1 : id' = id := by rw [content_id] at hi; exact hi
    have e2 : sub' = sub := by
      rw [← hsub]
      unfold Spec.content
      split
      · split <;> rfl
      · rfl
    subst e1 e2
    have : some s = some s' := hs.symm.trans hs'
    cases this
    exact ⟨t, hr, (hv t).1 hl⟩
  · rintro ⟨t, hr, hl⟩
    obtain ⟨f, hf⟩ := (Dict.mem_keys_iff_exists _ _).1 hid
    refine ⟨s.content t id sub, createAll_covers spec config id sub f t s hf hs rs _ rfl ⟨[], rfl⟩ hr, content_id .., ?_, (hv t).2 hl⟩
    unfold Spec.content
    split
    · split <;> rfl
    · rfl

/-- In-memory store: a mark reported as active was issued. Missing from C53: expiry is not looked at, only the first mark for an id can be
issued, and an id without marks raises KeyError. -/
theorem C53_memory_partial (spec : Dict Spec) (rs : List (Int × String × String)) (now : Int) (id sub : String)
    (h : (createAll ⟨spec, .simple []⟩ rs).2.status now { sub := some sub, trustMarkId := some id } = .ok true) :
    ∃ m ∈ (createAll ⟨spec, .simple []⟩ rs).1, m.id = id ∧ m.sub = sub := by
  have hrun : ∀ (rs : List (Int × String × String)) (db : SimpleDB),
      (createAll ⟨spec, .simple db⟩ rs).2 = ⟨spec, .simple (simpleAll db (createAll ⟨spec, .simple db⟩ rs).1)⟩ := by
    clear h
    intro rs
    induction rs with
    | nil => intro db; rfl
    | cons r rs ih =>
      intro db
      obtain ⟨t, id, sub⟩ := r
      have hc : Issuer.create ⟨spec, .simple db⟩ t id sub = match spec.get? id with
          | none => (.error .valueError, ⟨spec, .simple db⟩)
          | some s => match SimpleDB.add db (s.content t id sub) with
            | (.error e, db') => (.error e, ⟨spec, .simple db'⟩)
            | (.ok (), db') => (.ok (s.content t id sub), ⟨spec, .simple db'⟩) := by
        unfold Issuer.create
        cases h : spec.get? id with
        | none => simp
        | some s =>
          simp only [DB.add]
          generalize SimpleDB.add db (s.content t id sub) = r
          obtain ⟨r1, r2⟩ := r
          cases r1 <;> rfl
      unfold createAll
      rw [hc]
      cases h : spec.get? id with
      | none => exact ih db
      | some s =>
        simp only []
        cases hr : SimpleDB.add db (s.content t id sub) with
        | mk r1 r2 =>
          cases r1 with
          | error e =>
            have : r2 = db := by
              unfold SimpleDB.add at hr
              split at hr <;> simp at hr
              exact hr.2.symm
            simp only []
            rw [this]
            exact ih db
          | ok u =>
            simp only []
            rw [ih r2]
            show _ = (⟨spec, .simple (simpleAll (SimpleDB.add db (s.content t id sub)).2 _)⟩ : Issuer)
            rw [hr]
  rw [hrun] at h
  have hf : SimpleDB.find (simpleAll [] (createAll ⟨spec, .simple []⟩ rs).1) id sub 0 = .ok true := by
    simp only [Issuer.status, StatusRequest.askedId] at h
    by_cases h0 : id = ""
    · simp [h0] at h
    · simpa [h0, Issuer.find, DB.find] using h
  obtain ⟨pre, m, post, he, _, hi, hs, _⟩ := ((C51_first_only_partial _).2.1 id sub 0).1 hf
  exact ⟨m, by rw [he]; simp, hi, hs⟩

/-- Asking the status of a mark with an id the store does not know raises KeyError. -/
theorem C53_unknown_id_violation : ¬ C53_full := by
  intro h
  obtain ⟨b, hb, _⟩ := h ⟨[("tm", {})], .file ⟨[("tm", "f")], []⟩⟩ [] 10 "other" "a" (by decide)
    (.inr ⟨_, by intro i j f hi hj; simp [Dict.get?_cons] at hi hj; rw [← hi.1, ← hj.1], rfl⟩) (by simp)
  cases b <;> revert hb <;> decide +kernel

/-- The in-memory store reports a mark as active for ever. -/
theorem C53_expired_violation : ¬ C53_full := by
  intro h
  obtain ⟨b, hb, hiff⟩ := h ⟨[("tm", { lifetime := some 5 })], .simple []⟩ [(0, "tm", "a")] 10 "tm" "a" (by decide)
    (.inl rfl) (by simp)
  have h1 : b = true := by cases b <;> revert hb <;> decide +kernel
  obtain ⟨m, hm, _, _, hl⟩ := hiff.1 h1
  have : (createAll ⟨[("tm", { lifetime := some 5 })], .simple []⟩ [(0, "tm", "a")]).1 = [⟨"tm", "a", 0, some 5⟩] := by decide +kernel
  rw [this] at hm
  simp at hm
  subst hm
  exact absurd (hl 5 rfl) (by decide)

example : (createAll ⟨[("tm", { lifetime := some 5 }), ("x", {})], .file ⟨[("tm", "f")], []⟩⟩
    [(0, "tm", "a"), (0, "x", "a"), (3, "tm", "b"), (4, "zz", "b")]).2.status 6 { sub := some "b", trustMarkId := some "tm" } = .ok true ∧
  (createAll ⟨[("tm", { lifetime := some 5 }), ("x", {})], .file ⟨[("tm", "f")], []⟩⟩
    [(0, "tm", "a"), (0, "x", "a"), (3, "tm", "b"), (4, "zz", "b")]).2.status 6 { sub := some "a", trustMarkId := some "tm" } = .ok false := by
  decide +kernel

-- the requests of the example above: the mark for b is valid at time 6, the one for a is not
example : (Spec.mk (some 5) none).Valid 3 6 ∧ ¬ (Spec.mk (some 5) none).Valid 0 6 := by
  simp [Spec.Valid]


/-! ### C80 -/

/-- C80 in full: the trust mark list endpoint names exactly the subjects with a mark that has not expired; asked for one subject it
answers with it iff it has such a mark. -/
def C80_full : Prop :=
  ∀ (spec : Dict Spec) (config : Dict String) (rs : List (Int × String × String)) (now : Int) (id : String), OwnFiles config →
    id ∈ config.keys → rs.Pairwise (fun a b => a.1 ≤ b.1) →
    let r := createAll ⟨spec, .file ⟨config, []⟩⟩ rs
    ∃ a, r.2.listing now none (some id) = .ok a ∧
      ∀ s, (∃ l, a = .subjects l ∧ s ∈ l) ↔ ∃ m ∈ r.1, m.id = id ∧ m.sub = s ∧ Live now m

/-- C80 as far as it holds: every subject with an active mark is named, and every subject named has been given a mark; asked for one
subject, exactly the active ones are answered for. Missing: marks that have expired stay in the list. -/
theorem C80_list_partial (spec : Dict Spec) (config : Dict String) (rs : List (Int × String × String)) (now : Int) (id : String)
    (ho : OwnFiles config) (hid : id ∈ config.keys) (ht : rs.Pairwise fun a b => a.1 ≤ b.1) :
    let r := createAll ⟨spec, .file ⟨config, []⟩⟩ rs
    (∃ a, r.2.listing now none (some id) = .ok a ∧ ∀ s, (∃ l, a = .subjects l ∧ s ∈ l) ↔ ∃ m ∈ r.1, m.id = id ∧ m.sub = s) ∧
    ∀ sub, id ≠ "" → ((∃ m ∈ r.1, m.id = id ∧ m.sub = sub ∧ Live now m) → r.2.listing now (some sub) (some id) = .ok (.single sub)) ∧
      ((¬ ∃ m ∈ r.1, m.id = id ∧ m.sub = sub ∧ Live now m) → r.2.listing now (some sub) (some id) = .ok .notFound) := by
  intro r
  constructor
  · have hr : r.2 = ⟨spec, .file (addAll ⟨config, []⟩ r.1)⟩ := createAll_file spec rs _
    obtain ⟨-, hl, -⟩ := C49_lists_subjects config r.1 id ho hid
    rw [hr]
    simp only [Issuer.listing, DB.list]
    generalize (addAll ⟨config, []⟩ r.1).list id "" = l at hl
    cases l with
    | nil => exact ⟨.notFound, rfl, fun s => by rw [← hl s]; simp⟩
    | cons x l =>
      refine ⟨.subjects (x :: l), rfl, fun s => ?_⟩
      rw [← hl s]
      constructor
      · rintro ⟨l', h, hm⟩; cases h; exact hm
      · intro hm; exact ⟨_, rfl, hm⟩
  · intro sub h0
    obtain ⟨b, hb, hiff⟩ := C53_file_partial spec config rs now id sub h0 ho hid ht
    have hf : r.2.find now id sub = .ok b := by
      simpa [Issuer.status, StatusRequest.askedId, h0] using hb
    constructor
    · intro h
      simp only [Issuer.listing, hf, hiff.2 h]
      rfl
    · intro h
      have : b = false := by cases b; rfl; exact absurd (hiff.1 rfl) h
      simp only [Issuer.listing, hf, this]
      rfl

/-- The mark issued at time 0 for 10 seconds is still listed at time 20. -/
theorem C80_expired_violation : ¬ C80_full := by
  intro h
  have ho : OwnFiles [("tm", "f")] := by intro i j f hi hj; simp [Dict.get?_cons] at hi hj; rw [← hi.1, ← hj.1]
  obtain ⟨a, ha, hl⟩ := h [("tm", { lifetime := some 10 })] [("tm", "f")] [(0, "tm", "a")] 20 "tm" ho (by decide) (by simp)
  have : a = .subjects ["a"] := by
    have e : (createAll ⟨[("tm", { lifetime := some 10 })], .file ⟨[("tm", "f")], []⟩⟩ [(0, "tm", "a")]).2.listing 20 none (some "tm") =
      .ok (.subjects ["a"]) := by decide +kernel
    rw [e] at ha; exact (Except.ok.inj ha).symm
  obtain ⟨m, hm, -, -, hlive⟩ := (hl "a").1 ⟨["a"], this, by simp⟩
  have e : (createAll ⟨[("tm", { lifetime := some 10 })], .file ⟨[("tm", "f")], []⟩⟩ [(0, "tm", "a")]).1 = [⟨"tm", "a", 0, some 10⟩] := by
    decide +kernel
  rw [e] at hm
  simp only [List.mem_singleton] at hm
  subst hm
  simp [Live] at hlive

example : (createAll ⟨[("tm", { lifetime := some 10 })], .file ⟨[("tm", "f")], []⟩⟩ [(0, "tm", "a"), (3, "tm", "b"), (4, "tm", "a")]).2.listing 20 none (some "tm") =
    .ok (.subjects ["a", "b"]) := by decide +kernel

end Fed.TrustMarks
