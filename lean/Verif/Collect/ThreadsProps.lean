import Verif.Collect.Threads
/-
Property C198: collections at the same time.
-/
namespace Fed.Collect.Threads
open Fed Fed.Collect

/-- The calls in `s` have not begun. -/
def Start (s : Sys) : Prop := ∀ i, (s.calls i).pc = .look

/-- Each statement in the cache has its expiry time next to it. -/
def Coherent (db : Dict ESVal) : Prop :=
  ∀ a e j, db.get? (cacheKey a e) = some (.stmt j) → ∃ x, j.payload.exp = some x ∧ db.get? (timeKey a e) = some (.time x)

/-- The identifiers of all calls are free of exclamation marks. -/
def AllPlain (s : Sys) : Prop := ∀ i, Plain (s.calls i).authority ∧ Plain (s.calls i).entity

/-- The statements that are received say when they expire. -/
def Dated (ts : List Turn) : Prop := ∀ t ∈ ts, ∀ j, t.answer = .ok (some j) → j.payload.exp ≠ none

/-- C198 in full: whatever other calls do at the same time, a call fails only if its authority could not be asked; and it returns a
statement that was fetched for it, or that was not about to expire when the call was made. -/
def C198_full : Prop :=
  ∀ (delta : Int) (s : Sys) (ts : List Turn), Start s → Coherent s.db → AllPlain s → Dated ts →
    ∀ i r, ((run delta s ts).calls i).pc = .done r →
      (∀ x, r = .error x → ∃ t ∈ ts, t.who = i ∧ t.answer = .error x) ∧
      (∀ j, r = .ok (some j) → (∃ t ∈ ts, t.who = i ∧ t.answer = .ok (some j)) ∨
        ∃ t ∈ ts, t.who = i ∧ ∃ x, j.payload.exp = some x ∧ t.now ≤ x - delta)

/-- The statement of the examples. -/
def stmtAt (exp : Int) : Jws := { payload := { iss := "https://ta", sub := "https://op", exp := some exp }, sig := 0 }

/-- All calls of the examples are for one pair. -/
def demo (db : Dict ESVal) : Sys := { db := db, calls := fun _ => { authority := "https://ta", entity := "https://op" } }

/-- A cache that has a statement with its expiry. -/
def oldDb : Dict ESVal := [("https://ta!!https://op", .stmt (stmtAt 1000)), ("https://ta!exp!https://op", .time 1000)]

/-- The authority answers with a statement that expires at 9000. -/
def got (who : Nat) (now : Int) : Turn := { who := who, now := now, answer := .ok (some (stmtAt 9000)) }

theorem demo_start (db : Dict ESVal) : Start (demo db) := fun _ => rfl

theorem demo_plain (db : Dict ESVal) : AllPlain (demo db) := fun _ =>
  ⟨show Plain "https://ta" by decide +kernel, show Plain "https://op" by decide +kernel⟩

theorem coherent_nil : Coherent [] := by intro a e j h; simp at h

theorem oldDb_coherent : Coherent oldDb := by
  intro a e j h
  have h0 : cacheKey "https://ta" "https://op" = "https://ta!!https://op" := by decide +kernel
  have h1 : timeKey "https://ta" "https://op" = "https://ta!exp!https://op" := by decide +kernel
  unfold oldDb at h
  rw [Dict.get?_cons, Dict.get?_cons] at h
  by_cases hk : "https://ta!!https://op" = cacheKey a e
  · rw [if_pos hk] at h
    simp only [Option.some.injEq, ESVal.stmt.injEq] at h
    subst h
    have := cacheKey_inj (a := "https://ta") (e := "https://op") (by decide +kernel) (by decide +kernel) (h0.trans hk)
    obtain ⟨rfl, rfl⟩ := this
    exact ⟨1000, rfl, by rw [h1]; decide +kernel⟩
  · rw [if_neg hk] at h
    by_cases hk2 : "https://ta!exp!https://op" = cacheKey a e
    · rw [if_pos hk2] at h; simp at h
    · rw [if_neg hk2] at h; simp at h

theorem got_dated {ts : List Turn} (h : ∀ t ∈ ts, t = got t.who t.now) : Dated ts := by
  intro t ht j hj
  rw [h t ht] at hj
  simp only [got, Except.ok.injEq, Option.some.injEq] at hj
  subst hj
  simp [stmtAt]

/-- One call comes in between the two writes of another: it finds the statement and no expiry. -/
theorem C198_between_writes_violation : ¬ C198_full := by
  intro h
  have hrun : ((run 300 (demo []) [got 0 0, got 0 0, got 0 0, got 1 0, got 1 0]).calls 1).pc = .done (.error .typeError) := by
    decide +kernel
  obtain ⟨t, ht, -, ha⟩ := (h 300 (demo []) _ (demo_start _) coherent_nil (demo_plain _) (got_dated (by simp [got])) 1 _ hrun).1
    _ rfl
  simp only [List.mem_cons, List.not_mem_nil, or_false] at ht
  rcases ht with rfl | rfl | rfl | rfl | rfl <;> cases ha

/-- Two calls find that a statement has timed out: the second one to delete it fails. -/
theorem C198_both_delete_violation : ¬ C198_full := by
  intro h
  have hrun : ((run 300 (demo oldDb) [got 0 800, got 0 800, got 1 800, got 1 800, got 0 800, got 1 800]).calls 1).pc =
      .done (.error .keyError) := by
    decide +kernel
  obtain ⟨t, ht, -, ha⟩ := (h 300 (demo oldDb) _ (demo_start _) oldDb_coherent (demo_plain _) (got_dated (by simp [got])) 1 _ hrun).1
    _ rfl
  simp only [List.mem_cons, List.not_mem_nil, or_false] at ht
  rcases ht with rfl | rfl | rfl | rfl | rfl | rfl <;> cases ha

/-- One call finds a statement that has long expired; before it looks at the expiry another call replaces both. It returns the
expired statement. -/
theorem C198_expired_violation : ¬ C198_full := by
  intro h
  have hrun : ((run 300 (demo oldDb) [got 1 2000, got 0 2000, got 0 2000, got 0 2000, got 0 2000, got 0 2000, got 0 2000, got 0 2000,
      got 1 2000]).calls 1).pc = .done (.ok (some (stmtAt 1000))) := by
    decide +kernel
  rcases (h 300 (demo oldDb) _ (demo_start _) oldDb_coherent (demo_plain _) (got_dated (by simp [got])) 1 _ hrun).2 _ rfl with
    ⟨t, ht, -, ha⟩ | ⟨t, ht, -, x, hx, hn⟩
  · simp only [List.mem_cons, List.not_mem_nil, or_false] at ht
    rcases ht with rfl | rfl | rfl | rfl | rfl | rfl | rfl | rfl | rfl <;> revert ha <;> decide +kernel
  · simp only [stmtAt, Option.some.injEq] at hx
    subst hx
    simp only [List.mem_cons, List.not_mem_nil, or_false] at ht
    rcases ht with rfl | rfl | rfl | rfl | rfl | rfl | rfl | rfl | rfl <;> simp [got] at hn

/-! ### What a turn changes -/

theorem turn_pair (delta : Int) (s : Sys) (t : Turn) (i : Nat) :
    ((turn delta s t).calls i).authority = (s.calls i).authority ∧ ((turn delta s t).calls i).entity = (s.calls i).entity := by
  simp only [turn]
  split
  · next h => subst h; exact ⟨rfl, rfl⟩
  · exact ⟨rfl, rfl⟩

theorem run_pair (delta : Int) : ∀ (ts : List Turn) (s : Sys) (i : Nat),
    ((run delta s ts).calls i).authority = (s.calls i).authority ∧ ((run delta s ts).calls i).entity = (s.calls i).entity
  | [], _, _ => ⟨rfl, rfl⟩
  | t :: ts, s, i => by
      have h := run_pair delta ts (turn delta s t) i
      have h' := turn_pair delta s t i
      exact ⟨h.1.trans h'.1, h.2.trans h'.2⟩

theorem turn_self (delta : Int) (s : Sys) (t : Turn) :
    ((turn delta s t).calls t.who).pc = (access delta (s.calls t.who).authority (s.calls t.who).entity t s.db (s.calls t.who).pc).1 := by
  simp [turn]

theorem turn_other (delta : Int) (s : Sys) (t : Turn) {i : Nat} (h : i ≠ t.who) : (turn delta s t).calls i = s.calls i := by
  simp [turn, h]

theorem get?_deleted (db : Dict ESVal) (k q : String) (next : Pc) :
    (deleted db k next).2.get? q = if k = q then none else db.get? q := by
  unfold deleted Dict.del
  by_cases h : db.has k = true
  · rw [if_pos h]; exact Dict.get?_filter_ne db k q
  · rw [if_neg h]
    simp only
    by_cases hq : k = q
    · rw [if_pos hq, ← hq]
      exact (Dict.get?_eq_none_iff db k).2 (fun hm => h ((Dict.has_iff db k).2 hm))
    · rw [if_neg hq]

/-- An access leaves the entries of other pairs alone. -/
theorem access_frame (delta : Int) (a e : String) (t : Turn) (db : Dict ESVal) (pc : Pc) (q : String) (h1 : cacheKey a e ≠ q)
    (h2 : timeKey a e ≠ q) : (access delta a e t db pc).2.get? q = db.get? q := by
  cases pc with
  | look => simp only [access]; split <;> rfl
  | found v => rfl
  | timedOut => simp only [access]; rw [get?_deleted, if_neg h1]
  | timedOut2 => simp only [access]; rw [get?_deleted, if_neg h2]
  | ask => rfl
  | store j => simp only [access]; rw [Dict.get?_set_ne _ _ h1]
  | storeExp j =>
    simp only [access]
    split
    · rfl
    · rw [Dict.get?_set_ne _ _ h2]
  | done r => rfl

theorem deleted_congr {db db' : Dict ESVal} {k : String} (next : Pc) (h : db.get? k = db'.get? k) :
    (deleted db k next).1 = (deleted db' k next).1 := by
  have : db.has k = db'.has k := by
    rw [Bool.eq_iff_iff, Dict.has_iff, Dict.has_iff, Dict.mem_keys_iff_exists, Dict.mem_keys_iff_exists, h]
  unfold deleted Dict.del
  rw [this]
  by_cases hh : db'.has k = true
  · rw [if_pos hh, if_pos hh]
  · rw [if_neg hh, if_neg hh]

/-- An access depends on the two entries of its own pair only, -/
theorem access_congr (delta : Int) (a e : String) (t : Turn) {db db' : Dict ESVal} (pc : Pc)
    (h1 : db.get? (cacheKey a e) = db'.get? (cacheKey a e)) (h2 : db.get? (timeKey a e) = db'.get? (timeKey a e)) :
    (access delta a e t db pc).1 = (access delta a e t db' pc).1 := by
  cases pc with
  | look => simp only [access]; rw [h1]; split <;> rfl
  | found v => simp only [access]; rw [h2]
  | timedOut => exact deleted_congr _ h1
  | timedOut2 => exact deleted_congr _ h2
  | ask => rfl
  | store j => rfl
  | storeExp j => simp only [access]; split <;> rfl
  | done r => rfl

/-- and so does what it leaves in the cache. -/
theorem access_congr_db (delta : Int) (a e : String) (t : Turn) {db db' : Dict ESVal} (pc : Pc) (q : String)
    (h : db.get? q = db'.get? q) : (access delta a e t db pc).2.get? q = (access delta a e t db' pc).2.get? q := by
  cases pc with
  | look =>
    have : ∀ d : Dict ESVal, (access delta a e t d .look).2 = d := fun d => by simp only [access]; split <;> rfl
    rw [this, this, h]
  | found v => exact h
  | timedOut => simp only [access]; rw [get?_deleted, get?_deleted, h]
  | timedOut2 => simp only [access]; rw [get?_deleted, get?_deleted, h]
  | ask => exact h
  | store j => simp only [access]; rw [Dict.get?_set, Dict.get?_set, h]
  | storeExp j =>
    simp only [access]
    split
    · exact h
    · rw [Dict.get?_set, Dict.get?_set, h]
  | done r => exact h

/-! ### Calls for different pairs do not disturb each other -/

theorem apart (delta : Int) (a e : String) (ha : Plain a) (he : Plain e) (i : Nat) : ∀ (ts : List Turn) (s s' : Sys),
    s.calls i = s'.calls i → (s.calls i).authority = a → (s.calls i).entity = e →
    (∀ k, k ≠ i → (∃ t ∈ ts, t.who = k) → ¬ ((s.calls k).authority = a ∧ (s.calls k).entity = e)) →
    s.db.get? (cacheKey a e) = s'.db.get? (cacheKey a e) → s.db.get? (timeKey a e) = s'.db.get? (timeKey a e) →
    (run delta s ts).calls i = (run delta s' (ts.filter fun t => t.who = i)).calls i
  | [], _, _, h, _, _, _, _, _ => h
  | t :: ts, s, s', h, hpa, hpe, ho, h1, h2 => by
      have hpair := turn_pair delta s t i
      by_cases hw : t.who = i
      · subst hw
        simp only [List.filter_cons, decide_true, if_true]
        refine apart delta a e ha he t.who ts _ _ ?_ (hpair.1.trans hpa) (hpair.2.trans hpe) ?_ ?_ ?_
        · simp only [turn, if_true]
          rw [← h, hpa, hpe, access_congr delta a e t _ h1 h2]
        · intro k hk hex
          rw [(turn_pair delta s t k).1, (turn_pair delta s t k).2]
          exact ho k hk (by obtain ⟨u, hu, hw⟩ := hex; exact ⟨u, List.mem_cons_of_mem _ hu, hw⟩)
        · simp only [turn]
          rw [← h]; exact access_congr_db _ _ _ _ _ _ h1
        · simp only [turn]
          rw [← h]; exact access_congr_db _ _ _ _ _ _ h2
      · have hne : i ≠ t.who := fun h => hw h.symm
        have hpair' := ho t.who hw ⟨t, by simp, rfl⟩
        simp only [List.filter_cons, hw, decide_false]
        have hf := C34_plain_partial a e ha he (s.calls t.who).authority (s.calls t.who).entity
        refine apart delta a e ha he i ts _ s' ((turn_other delta s t hne).trans h) (hpair.1.trans hpa) (hpair.2.trans hpe) ?_ ?_ ?_
        · intro k hk hex
          rw [(turn_pair delta s t k).1, (turn_pair delta s t k).2]
          exact ho k hk (by obtain ⟨u, hu, hw⟩ := hex; exact ⟨u, List.mem_cons_of_mem _ hu, hw⟩)
        · rw [← h1]
          refine access_frame _ _ _ _ _ _ _ (fun hc => hpair' ?_) (fun hc => hf.2.2.1 hc.symm)
          obtain ⟨h, h'⟩ := hf.1 hc.symm
          exact ⟨h.symm, h'.symm⟩
        · rw [← h2]
          refine access_frame _ _ _ _ _ _ _ (fun hc => hf.2.2.2 hc.symm) (fun hc => hpair' ?_)
          obtain ⟨h, h'⟩ := hf.2.1 hc.symm
          exact ⟨h.symm, h'.symm⟩

/-- C198 for a call whose pair no other call that gets a turn has: however the turns are dealt, it comes exactly as far, and with the same
result, as if only its own turns had taken place. Missing: calls for the same authority and entity. -/
theorem C198_apart_partial (delta : Int) (s : Sys) (ts : List Turn) (i : Nat)
    (ha : Plain (s.calls i).authority) (he : Plain (s.calls i).entity)
    (ho : ∀ t ∈ ts, t.who ≠ i →
      ¬ ((s.calls t.who).authority = (s.calls i).authority ∧ (s.calls t.who).entity = (s.calls i).entity)) :
    (run delta s ts).calls i = (run delta s (ts.filter fun t => t.who = i)).calls i := by
  refine apart delta _ _ ha he i ts s s rfl rfl rfl ?_ rfl rfl
  rintro k hk ⟨t, ht, rfl⟩
  exact ho t ht hk

/-- Two calls for different entities, turn by turn. -/
def twoCalls : Sys :=
  { db := [], calls := fun i => { authority := "https://ta", entity := if i = 0 then "https://op" else "https://rp" } }

example : ∀ t ∈ [got 0 0, got 1 0, got 0 0, got 1 0, got 0 0, got 1 0, got 0 0, got 1 0], t.who ≠ 0 →
    ¬ ((twoCalls.calls t.who).authority = (twoCalls.calls 0).authority ∧ (twoCalls.calls t.who).entity = (twoCalls.calls 0).entity) := by
  decide +kernel
example : ((run 300 twoCalls [got 0 0, got 1 0, got 0 0, got 1 0, got 0 0, got 1 0, got 0 0, got 1 0]).calls 0).pc =
    .done (.ok (some (stmtAt 9000))) := by decide +kernel

theorem run_replicate (delta : Int) (t : Turn) : ∀ (n : Nat) (s : Sys),
    (((run delta s (List.replicate n t)).calls t.who).pc, (run delta s (List.replicate n t)).db) =
      alone delta (s.calls t.who).authority (s.calls t.who).entity t n ((s.calls t.who).pc, s.db)
  | 0, _ => rfl
  | n + 1, s => by
      have h := run_replicate delta t n (turn delta s t)
      rw [(turn_pair delta s t t.who).1, (turn_pair delta s t t.who).2, turn_self] at h
      exact h

/-- Such a call returns what the whole function returns in the model of a single thread (C31, C70), if the clock and its authority
stand still while it runs; seven turns are enough. -/
theorem C198_sequential (C : Crypto) (P : Params) (W : World) (st : State) (s : Sys) (ts : List Turn) (t : Turn) (hdb : s.db = st.es)
    (hs : Start s) (ha : Plain (s.calls t.who).authority) (he : Plain (s.calls t.who).entity)
    (ho : ∀ u ∈ ts, u.who ≠ t.who →
      ¬ ((s.calls u.who).authority = (s.calls t.who).authority ∧ (s.calls u.who).entity = (s.calls t.who).entity))
    (hown : ts.filter (fun u => u.who = t.who) = List.replicate 7 t) (hn : t.now = W.now)
    (ht : t.answer = answerOf C P W st (s.calls t.who).entity (s.calls t.who).authority) :
    ((run P.delta s ts).calls t.who).pc =
      .done (getStatement C P W st (s.calls t.who).entity (s.calls t.who).authority).1 := by
  rw [C198_apart_partial P.delta s ts t.who ha he ho, hown]
  have h := run_replicate P.delta t 7 s
  rw [hs t.who, hdb, alone_eq C P W st _ _ t hn ht] at h
  exact congrArg Prod.fst h

/-- A world in which nothing can be reached, and a turn of call 0 in it. -/
def deadWorld : World := { now := 900, config := fun _ => .error .connectionError, fetch := fun _ _ _ => .error .connectionError }
def deadTurn : Turn := { who := 0, now := 900, answer := .error .connectionError }
def mixed : List Turn := [deadTurn, got 1 0, deadTurn, deadTurn, got 1 0, deadTurn, deadTurn, got 1 0, deadTurn, got 1 0, deadTurn]

example (C : Crypto) : (mixed.filter fun u => u.who = deadTurn.who).length = 7 ∧
    deadTurn.answer = answerOf C { anchors := [] } deadWorld { es := oldDb } "https://op" "https://ta" := ⟨by decide +kernel, rfl⟩
example : ((run 300 { twoCalls with db := oldDb } mixed).calls 0).pc = .done (.error .connectionError) ∧
    ((run 300 { twoCalls with db := oldDb } mixed).calls 1).pc = .done (.ok (some (stmtAt 9000))) := by decide +kernel

/-! ### Where the statements come from -/

/-- Where a statement for a pair may come from: the cache at the beginning, or the authority when it was asked in one of the turns of a call
for this pair. -/
def Source (s : Sys) (ts : List Turn) (a e : String) (j : Jws) : Prop :=
  s.db.get? (cacheKey a e) = some (.stmt j) ∨
  ∃ t ∈ ts, (s.calls t.who).authority = a ∧ (s.calls t.who).entity = e ∧ t.answer = .ok (some j)

/-- The statement a call holds. -/
def held : Pc → Option Jws
  | .found (.stmt j) => some j
  | .store j => some j
  | .storeExp j => some j
  | .done (.ok (some j)) => some j
  | _ => none

theorem held_compareExp {delta now : Int} {v : ESVal} {x : Option ESVal} {j : Jws} (h : held (compareExp delta now v x) = some j) :
    v = .stmt j := by
  unfold compareExp at h
  split at h
  · next j' x =>
    by_cases hx : now > x - delta
    · rw [if_pos hx] at h; cases h
    · rw [if_neg hx] at h; cases h; rfl
  · cases h

theorem held_received {r : Except PyErr (Option Jws)} {j : Jws} (h : held (received r) = some j) : r = .ok (some j) := by
  unfold received at h
  split at h
  · cases h
  · cases h
  · cases h; rfl

theorem held_deleted {db : Dict ESVal} {k : String} {next : Pc} {j : Jws} (hn : held next = none)
    (h : held (deleted db k next).1 = some j) : False := by
  unfold deleted at h
  cases hd : db.del k with
  | ok d => rw [hd] at h; simp only [hn] at h; cases h
  | error x => rw [hd] at h; cases h

/-- The statement a call holds after an access: it had it before, or it has just been read, or just been received. -/
theorem held_access {delta : Int} {a e : String} {t : Turn} {db : Dict ESVal} {pc : Pc} {j : Jws}
    (h : held (access delta a e t db pc).1 = some j) :
    held pc = some j ∨ db.get? (cacheKey a e) = some (.stmt j) ∨ t.answer = .ok (some j) := by
  cases pc with
  | look =>
    simp only [access] at h
    split at h
    · cases h
    · next v hv =>
      right; left
      cases v with
      | stmt j' => cases h; exact hv
      | time x => cases h
  | found v =>
    left
    rw [held_compareExp h]; rfl
  | timedOut => exact (held_deleted rfl h).elim
  | timedOut2 => exact (held_deleted rfl h).elim
  | ask => exact .inr (.inr (held_received h))
  | store j' => exact .inl h
  | storeExp j' =>
    left
    simp only [access] at h
    split at h
    · cases h
    · exact h
  | done r => exact .inl h

/-- The statement in the cache after an access to the entries of its pair. -/
theorem stored_access {delta : Int} {a e : String} {t : Turn} {db : Dict ESVal} {pc : Pc} {j : Jws}
    (h : (access delta a e t db pc).2.get? (cacheKey a e) = some (.stmt j)) :
    held pc = some j ∨ db.get? (cacheKey a e) = some (.stmt j) := by
  cases pc with
  | look => right; simp only [access] at h; split at h <;> exact h
  | found v => exact .inr h
  | timedOut => simp only [access] at h; rw [get?_deleted, if_pos rfl] at h; cases h
  | timedOut2 =>
    right
    simp only [access] at h
    rw [get?_deleted, if_neg (fun hc => cacheKey_ne_timeKey a e hc.symm)] at h
    exact h
  | ask => exact .inr h
  | store j' => simp only [access] at h; rw [Dict.get?_set_self] at h; cases h; exact .inl rfl
  | storeExp j' =>
    right
    simp only [access] at h
    split at h
    · exact h
    · rw [Dict.get?_set_ne _ _ (fun hc => cacheKey_ne_timeKey a e hc.symm)] at h; exact h
  | done r => exact .inr h

theorem sources (delta : Int) (a e : String) (ha : Plain a) (he : Plain e) (S : Jws → Prop) : ∀ (ts : List Turn) (s : Sys),
    (∀ j, s.db.get? (cacheKey a e) = some (.stmt j) → S j) →
    (∀ i j, (s.calls i).authority = a → (s.calls i).entity = e → held (s.calls i).pc = some j → S j) →
    (∀ t ∈ ts, (s.calls t.who).authority = a → (s.calls t.who).entity = e → ∀ j, t.answer = .ok (some j) → S j) →
    ∀ i j, ((run delta s ts).calls i).authority = a → ((run delta s ts).calls i).entity = e →
      held ((run delta s ts).calls i).pc = some j → S j
  | [], _, _, h2, _ => h2
  | t :: ts, s, h1, h2, h3 => by
      refine sources delta a e ha he S ts (turn delta s t) ?_ ?_ ?_
      · intro j hj
        by_cases hp : (s.calls t.who).authority = a ∧ (s.calls t.who).entity = e
        · simp only [turn] at hj
          rw [hp.1, hp.2] at hj
          rcases stored_access hj with h | h
          · exact h2 _ _ hp.1 hp.2 h
          · exact h1 _ h
        · have hf := C34_plain_partial a e ha he (s.calls t.who).authority (s.calls t.who).entity
          simp only [turn] at hj
          rw [access_frame] at hj
          · exact h1 _ hj
          · intro hc
            obtain ⟨h, h'⟩ := hf.1 hc.symm
            exact hp ⟨h.symm, h'.symm⟩
          · exact fun hc => hf.2.2.1 hc.symm
      · intro i j hia hie hij
        rw [(turn_pair delta s t i).1] at hia
        rw [(turn_pair delta s t i).2] at hie
        by_cases hw : i = t.who
        · subst hw
          rw [turn_self, hia, hie] at hij
          rcases held_access hij with h | h | h
          · exact h2 _ _ hia hie h
          · exact h1 _ h
          · exact h3 t (by simp) hia hie _ h
        · rw [turn_other delta s t hw] at hij
          exact h2 _ _ hia hie hij
      · intro u hu hua hue
        rw [(turn_pair delta s t u.who).1] at hua
        rw [(turn_pair delta s t u.who).2] at hue
        exact h3 u (List.mem_cons_of_mem _ hu) hua hue

/-- C198, whatever the schedule and the cache: the statement a call returns was in the cache for its authority and entity, or was given
by this authority when it was asked about this entity. Missing: that it has not expired meanwhile, see
`C198_expired_violation`. -/
theorem C198_source_partial (delta : Int) (s : Sys) (ts : List Turn) (hs : Start s) (i : Nat)
    (ha : Plain (s.calls i).authority) (he : Plain (s.calls i).entity) (j : Jws)
    (h : ((run delta s ts).calls i).pc = .done (.ok (some j))) :
    Source s ts (s.calls i).authority (s.calls i).entity j := by
  refine sources delta _ _ ha he (Source s ts (s.calls i).authority (s.calls i).entity) ts s ?_ ?_ ?_ i j
    (run_pair delta ts s i).1 (run_pair delta ts s i).2 (by rw [h]; rfl)
  · exact fun j hj => .inl hj
  · intro k j _ _ hk
    rw [hs k] at hk; cases hk
  · exact fun t ht h1 h2 j hj => .inr ⟨t, ht, h1, h2, hj⟩

/-! ### How calls fail -/

/-- The error a call has ended with. -/
def failed : Pc → Option PyErr
  | .done (.error x) => some x
  | _ => none

theorem failed_access {delta : Int} {a e : String} {t : Turn} {db : Dict ESVal} {pc : Pc} {x : PyErr}
    (h : failed (access delta a e t db pc).1 = some x) :
    failed pc = some x ∨ x = .typeError ∨ x = .keyError ∨ t.answer = .error x := by
  have hdel : ∀ (k : String) (next : Pc), failed next = none → failed (deleted db k next).1 = some x → x = .keyError := by
    intro k next hn h
    unfold deleted Dict.del at h
    by_cases hh : db.has k = true
    · rw [if_pos hh] at h; simp only [hn] at h; cases h
    · rw [if_neg hh] at h; cases h; rfl
  cases pc with
  | look => simp only [access] at h; split at h <;> cases h
  | found v =>
    simp only [access] at h
    unfold compareExp at h
    split at h
    · next j y _ =>
      by_cases hy : t.now > y - delta
      · rw [if_pos hy] at h; cases h
      · rw [if_neg hy] at h; cases h
    · cases h; exact .inr (.inl rfl)
  | timedOut => exact .inr (.inr (.inl (hdel _ _ rfl h)))
  | timedOut2 => exact .inr (.inr (.inl (hdel _ _ rfl h)))
  | ask =>
    simp only [access] at h
    unfold received at h
    split at h
    · next y hy => cases h; exact .inr (.inr (.inr hy))
    · cases h
    · cases h
  | store j => cases h
  | storeExp j =>
    simp only [access] at h
    split at h
    · cases h; exact .inr (.inr (.inl rfl))
    · cases h
  | done r => exact .inl h

theorem failures (delta : Int) (i : Nat) (x : PyErr) : ∀ (ts : List Turn) (s : Sys),
    failed ((run delta s ts).calls i).pc = some x →
      failed (s.calls i).pc = some x ∨ x = .typeError ∨ x = .keyError ∨ ∃ t ∈ ts, t.who = i ∧ t.answer = .error x
  | [], _, h => .inl h
  | t :: ts, s, h => by
      rcases failures delta i x ts (turn delta s t) h with h | h | h | ⟨u, hu, h⟩
      · by_cases hw : i = t.who
        · subst hw
          rw [turn_self] at h
          rcases failed_access h with h | h | h | h
          · exact .inl h
          · exact .inr (.inl h)
          · exact .inr (.inr (.inl h))
          · exact .inr (.inr (.inr ⟨t, by simp, rfl, h⟩))
        · rw [turn_other delta s t hw] at h
          exact .inl h
      · exact .inr (.inl h)
      · exact .inr (.inr (.inl h))
      · exact .inr (.inr (.inr ⟨u, List.mem_cons_of_mem _ hu, h⟩))

/-- The two errors of the violations, TypeError and KeyError, are the only ones a call ends with besides those of its own authority.
Missing: that they do not occur. -/
theorem C198_errors_partial (delta : Int) (s : Sys) (ts : List Turn) (hs : Start s) (i : Nat) (x : PyErr)
    (h : ((run delta s ts).calls i).pc = .done (.error x)) :
    x = .typeError ∨ x = .keyError ∨ ∃ t ∈ ts, t.who = i ∧ t.answer = .error x := by
  rcases failures delta i x ts s (by rw [h]; rfl) with h | h
  · rw [hs i] at h; cases h
  · exact h

/-! ### What is in the cache and does not time out -/

/-- The states a call goes through when the statement `j` is in the cache. -/
def Served (j : Jws) (pc : Pc) : Prop := pc = .look ∨ pc = .found (.stmt j) ∨ pc = .done (.ok (some j))

theorem served (delta : Int) (a e : String) (ha : Plain a) (he : Plain e) (j : Jws) (x : Int) : ∀ (ts : List Turn) (s : Sys),
    s.db.get? (cacheKey a e) = some (.stmt j) → s.db.get? (timeKey a e) = some (.time x) →
    (∀ i, (s.calls i).authority = a → (s.calls i).entity = e → Served j (s.calls i).pc) →
    (∀ t ∈ ts, t.now ≤ x - delta) →
    (∀ i, (s.calls i).authority = a → (s.calls i).entity = e → Served j ((run delta s ts).calls i).pc) ∧
      (run delta s ts).db.get? (cacheKey a e) = some (.stmt j)
  | [], _, h1, _, h, _ => ⟨h, h1⟩
  | t :: ts, s, h1, h2, h, hn => by
      have hstep : (s.calls t.who).authority = a → (s.calls t.who).entity = e →
          (access delta a e t s.db (s.calls t.who).pc).2 = s.db ∧ Served j (access delta a e t s.db (s.calls t.who).pc).1 := by
        intro hwa hwe
        have hnow : ¬ t.now > x - delta := by have := hn t (by simp); omega
        rcases h t.who hwa hwe with hp | hp | hp <;> rw [hp]
        · simp [access, h1, Served]
        · simp [access, h2, Served, compareExp, hnow]
        · simp [access, Served]
      have hf := C34_plain_partial a e ha he (s.calls t.who).authority (s.calls t.who).entity
      have hdb : ∀ q, q = cacheKey a e ∨ q = timeKey a e → (turn delta s t).db.get? q = s.db.get? q := by
        intro q hq
        simp only [turn]
        by_cases hp : (s.calls t.who).authority = a ∧ (s.calls t.who).entity = e
        · rw [hp.1, hp.2, (hstep hp.1 hp.2).1]
        · rcases hq with rfl | rfl
          · refine access_frame _ _ _ _ _ _ _ (fun hc => hp ?_) (fun hc => hf.2.2.1 hc.symm)
            obtain ⟨h, h'⟩ := hf.1 hc.symm
            exact ⟨h.symm, h'.symm⟩
          · refine access_frame _ _ _ _ _ _ _ (fun hc => hf.2.2.2 hc.symm) (fun hc => hp ?_)
            obtain ⟨h, h'⟩ := hf.2.1 hc.symm
            exact ⟨h.symm, h'.symm⟩
      have := served delta a e ha he j x ts (turn delta s t) ((hdb _ (.inl rfl)).trans h1) ((hdb _ (.inr rfl)).trans h2) ?_
        (fun u hu => hn u (List.mem_cons_of_mem _ hu))
      · refine ⟨fun i hia hie => this.1 i ((turn_pair delta s t i).1.trans hia) ((turn_pair delta s t i).2.trans hie), this.2⟩
      · intro i hia hie
        rw [(turn_pair delta s t i).1] at hia
        rw [(turn_pair delta s t i).2] at hie
        by_cases hw : i = t.who
        · subst hw
          rw [turn_self, hia, hie]
          exact (hstep hia hie).2
        · rw [turn_other delta s t hw]
          exact h i hia hie

/-- C198 for a statement that is in the cache and is not about to expire during the schedule: all calls for its pair that finish return it,
however many there are and whatever else goes on; and it stays in the cache. Missing: statements that are fetched, or that time out,
while several calls ask for them. -/
theorem C198_cached_partial (delta : Int) (s : Sys) (ts : List Turn) (hs : Start s) (i : Nat)
    (ha : Plain (s.calls i).authority) (he : Plain (s.calls i).entity) (j : Jws) (x : Int)
    (h1 : s.db.get? (cacheKey (s.calls i).authority (s.calls i).entity) = some (.stmt j))
    (h2 : s.db.get? (timeKey (s.calls i).authority (s.calls i).entity) = some (.time x)) (hn : ∀ t ∈ ts, t.now ≤ x - delta) :
    (∀ r, ((run delta s ts).calls i).pc = .done r → r = .ok (some j)) ∧
    (run delta s ts).db.get? (cacheKey (s.calls i).authority (s.calls i).entity) = some (.stmt j) := by
  have := served delta _ _ ha he j x ts s h1 h2 (fun k _ _ => .inl (hs k)) hn
  refine ⟨fun r hr => ?_, this.2⟩
  rcases this.1 i rfl rfl with h | h | h
  · rw [h] at hr; cases hr
  · rw [h] at hr; cases hr
  · rw [h] at hr; cases hr; rfl

example : ((run 300 (demo oldDb) [got 0 5, got 1 5, got 1 6, got 0 6]).calls 0).pc = .done (.ok (some (stmtAt 1000))) ∧
    ((run 300 (demo oldDb) [got 0 5, got 1 5, got 1 6, got 0 6]).calls 1).pc = .done (.ok (some (stmtAt 1000))) := by decide +kernel

end Fed.Collect.Threads
