import Verif.Collect.CollectorLemmas
import Verif.Collect.CacheProps
/-
Several threads looking for the fetch endpoint of an authority. Beside the cache of statements (`Verif/Collect/Threads.lean`) the
threads of the front end share the cache of configurations. `get_federation_fetch_endpoint`,
/repo/src/fedservice/entity/function/trust_chain_collector.py 184-207, and the `__getitem__` of the cache it uses,
/repo/src/fedservice/entity_statement/cache.py 25-40, are cut up into their accesses to that cache; other threads may come in
between any two of them.
-/
namespace Fed.Collect.ConfigThreads
open Fed Fed.Collect

/-- How far a call of `get_federation_fetch_endpoint` has come: about to look for the configuration (cache.py 27); with the
configuration `c` about to look at the clock (33-34); about to delete the configuration (37); about to ask the authority
(trust_chain_collector.py 196-202); about to store the configuration `j`, which states `ep`, (205); done. -/
inductive Pc
  | look
  | found (c : Config)
  | timedOut
  | ask
  | store (j : Jws) (ep : Option Val)
  | done (r : Except PyErr (Option Val))
deriving DecidableEq

/-- A call of `get_federation_fetch_endpoint` (trust_chain_collector.py 184). -/
structure Call where
  authority : String
  pc : Pc := .look
deriving DecidableEq

/-- One access: the call that gets its turn, the time, and what comes of asking the authority for its configuration now: the
configuration once it has been verified with its own keys (trust_chain_collector.py 196-200), or an error. Simplification: fetching
the configuration and verifying it is one step. -/
structure Turn where
  who : Nat
  now : Int
  answer : Except PyErr Jws

/-- With a configuration from the cache (trust_chain_collector.py 188-195). -/
def cached (c : Config) : Pc :=
  match getFetchEndpoint c.jws.payload with
  | .error x => .done (.error x)
  | .ok ep =>
    match usableEndpoint ep with
    | some _ => .done (.ok ep)
    | none => .ask

/-- With the time at hand (cache.py 33-38). -/
def compareExp (delta now : Int) (c : Config) : Pc :=
  match c.jws.payload.exp with
  | none => .done (.error .keyError)
  | some x => if now < x - delta then cached c else .timedOut

/-- With what was received (trust_chain_collector.py 196-202). -/
def received : Except PyErr Jws → Pc
  | .error x => .done (.error x)
  | .ok j =>
    match getFetchEndpoint j.payload with
    | .error x => .done (.error x)
    | .ok ep => .store j ep

/-- After `del self._db[item]` (cache.py 37). -/
def deleted (db : Dict Config) (authority : String) : Pc × Dict Config :=
  match db.del authority with
  | .ok db' => (.ask, db')
  | .error x => (.done (.error x), db)

/-- One access of a call for `authority` to the cache (trust_chain_collector.py 184-207, cache.py 22-40). -/
def access (delta : Int) (authority : String) (t : Turn) (db : Dict Config) : Pc → Pc × Dict Config
  | .look =>
    match db.get? authority with
    | none => (.ask, db)
    | some c => (.found c, db)
  | .found c => (compareExp delta t.now c, db)
  | .timedOut => deleted db authority
  | .ask => (received t.answer, db)
  | .store j ep => (.done (.ok ep), db.set authority ⟨j⟩)
  | .done r => (.done r, db)

/-- The process: the cache and its calls. There is no bound on how many there are; one that gets no turn has not begun. -/
structure Sys where
  db : Dict Config
  calls : Nat → Call

/-- One turn. -/
def turn (delta : Int) (s : Sys) (t : Turn) : Sys :=
  let c := s.calls t.who
  let r := access delta c.authority t s.db c.pc
  { db := r.2, calls := fun i => if i = t.who then { c with pc := r.1 } else s.calls i }

/-- All the turns of a schedule. -/
def run (delta : Int) (s : Sys) (ts : List Turn) : Sys := ts.foldl (turn delta) s

/-! ### The steps together are the function of the sequential model -/

/-- What comes of asking, in the model of the whole function (trust_chain_collector.py 196-200). -/
def answerOf (C : Crypto) (W : World) (authority : String) : Except PyErr Jws :=
  match W.config authority with
  | .error e => .error e.toPy
  | .ok none => .error .valueError
  | .ok (some j) =>
    match selfVerify C W.now j with
    | .error e => .error e
    | .ok _ => .ok j

/-- A call that is not interrupted. -/
def alone (delta : Int) (authority : String) (t : Turn) : Nat → Pc × Dict Config → Pc × Dict Config
  | 0, r => r
  | n + 1, r => alone delta authority t n (access delta authority t r.2 r.1)

theorem alone_done (delta : Int) (a : String) (t : Turn) (r : Except PyErr (Option Val)) : ∀ (n : Nat) (db : Dict Config),
    alone delta a t n (.done r, db) = (.done r, db)
  | 0, _ => rfl
  | n + 1, db => alone_done delta a t r n db

theorem alone_ask (C : Crypto) (W : World) (st : State) (delta : Int) (a : String) (t : Turn) (n : Nat)
    (ht : t.answer = answerOf C W a) :
    alone delta a t (n + 2) (.ask, st.config) = (.done (refreshConfig C W st a).1, (refreshConfig C W st a).2.config) := by
  have h : ∀ r db, alone delta a t (n + 1) (.done r, db) = (.done r, db) := fun r db => alone_done delta a t r _ db
  show alone delta a t (n + 1) (received t.answer, st.config) = _
  rw [ht]
  unfold answerOf refreshConfig
  cases W.config a with
  | error e => exact h _ _
  | ok d =>
    cases d with
    | none => exact h _ _
    | some j =>
      simp only
      cases hv : selfVerify C W.now j with
      | error e => exact h _ _
      | ok p =>
        simp only [received]
        rw [selfVerify_payload hv]
        cases getFetchEndpoint j.payload with
        | error e => exact h _ _
        | ok ep => exact alone_done delta a t _ n _

/-- Five turns of a call that nobody interrupts: the result, and the cache, of the function of the sequential model. -/
theorem alone_eq (C : Crypto) (P : Params) (W : World) (st : State) (a : String) (t : Turn) (hn : t.now = W.now)
    (ht : t.answer = answerOf C W a) :
    alone P.delta a t 5 (.look, st.config) = (.done (fetchEndpoint C P W st a).1, (fetchEndpoint C P W st a).2.config) := by
  show alone P.delta a t 4 (access P.delta a t st.config .look) = _
  unfold fetchEndpoint subscript
  simp only [access]
  cases hg : st.config.get? a with
  | none => exact alone_ask C W st P.delta a t 2 ht
  | some c =>
    simp only [CacheVal.dictExp]
    show alone P.delta a t 3 (compareExp P.delta t.now c, st.config) = _
    unfold compareExp
    cases c.jws.payload.exp with
    | none => exact alone_done _ _ _ _ _ _
    | some x =>
      simp only [hn]
      by_cases hx : W.now < x - P.delta
      · simp only [if_pos hx]
        unfold cached
        cases getFetchEndpoint c.jws.payload with
        | error e => exact alone_done _ _ _ _ _ _
        | ok ep =>
          simp only
          cases usableEndpoint ep with
          | none => exact alone_ask C W st P.delta a t 1 ht
          | some v => exact alone_done _ _ _ _ _ _
      · simp only [if_neg hx]
        have hd : st.config.del a = .ok (drop st.config a) := by
          have : st.config.has a = true := (Dict.has_iff _ _).2 ((Dict.mem_keys_iff_exists _ _).2 ⟨c, hg⟩)
          unfold Dict.del drop
          rw [if_pos this]
        show alone P.delta a t 2 (deleted st.config a) = _
        unfold deleted
        rw [hd]
        exact alone_ask C W { st with config := drop st.config a } P.delta a t 0 ht

/-! ### The property -/

/-- No call has begun. -/
def Start (s : Sys) : Prop := ∀ i, (s.calls i).pc = .look

/-- A configuration as the collector keeps it: it has an expiry time and describes a federation entity. -/
def Kept (j : Jws) : Prop := (∃ x, j.payload.exp = some x) ∧ ∃ ep, getFetchEndpoint j.payload = .ok ep

/-- The configurations in the cache are such. -/
def Sound (db : Dict Config) : Prop := ∀ a c, db.get? a = some c → Kept c.jws

/-- The configurations that are received have an expiry time. -/
def Dated (ts : List Turn) : Prop := ∀ t ∈ ts, ∀ j, t.answer = .ok j → ∃ x, j.payload.exp = some x

/-- Call `i` asked and that was answered with the error `x`, or with a configuration that does not describe a federation entity. -/
def Failed (ts : List Turn) (i : Nat) (x : PyErr) : Prop :=
  ∃ t ∈ ts, t.who = i ∧ (t.answer = .error x ∨ ∃ j, t.answer = .ok j ∧ getFetchEndpoint j.payload = .error x)

/-- Call `i` asked and received the configuration `j`. -/
def Own (ts : List Turn) (i : Nat) (j : Jws) : Prop := ∃ t ∈ ts, t.who = i ∧ t.answer = .ok j

/-- Where a configuration of an authority may come from: the cache at the beginning, or the authority when it was asked in one of
the turns of a call for it. -/
def Source (s : Sys) (ts : List Turn) (a : String) (j : Jws) : Prop :=
  s.db.get? a = some ⟨j⟩ ∨ ∃ t ∈ ts, (s.calls t.who).authority = a ∧ t.answer = .ok j

/-- Call `i` had a turn when the configuration `j` was not about to expire. -/
def Fresh (delta : Int) (ts : List Turn) (i : Nat) (j : Jws) : Prop :=
  ∃ t ∈ ts, t.who = i ∧ ∃ x, j.payload.exp = some x ∧ t.now < x - delta

/-- What call `i` may return: what is stated in a configuration that it has received itself, or in one from another source that was
not about to expire then, and that states an endpoint. -/
def Stated (delta : Int) (s : Sys) (ts : List Turn) (i : Nat) (ep : Option Val) : Prop :=
  ∃ j, getFetchEndpoint j.payload = .ok ep ∧
    (Own ts i j ∨ (Source s ts (s.calls i).authority j ∧ Fresh delta ts i j ∧ (usableEndpoint ep).isSome = true))

/-- C201: whatever calls there are and however the turns are dealt, a call fails only if what it received made it fail, and what it
returns is stated in a configuration of the authority it was called for. -/
def C201_full : Prop := ∀ (delta : Int) (s : Sys) (ts : List Turn), Start s → Sound s.db → Dated ts → ∀ i r,
    ((run delta s ts).calls i).pc = .done r →
    (∀ x, r = .error x → Failed ts i x) ∧ (∀ ep, r = .ok ep → Stated delta s ts i ep)

/-! ### What a turn changes -/

theorem turn_authority (delta : Int) (s : Sys) (t : Turn) (i : Nat) :
    ((turn delta s t).calls i).authority = (s.calls i).authority := by
  simp only [turn]
  split
  · next h => subst h; rfl
  · rfl

theorem run_authority (delta : Int) : ∀ (ts : List Turn) (s : Sys) (i : Nat),
    ((run delta s ts).calls i).authority = (s.calls i).authority
  | [], _, _ => rfl
  | t :: ts, s, i => (run_authority delta ts (turn delta s t) i).trans (turn_authority delta s t i)

theorem turn_self (delta : Int) (s : Sys) (t : Turn) :
    ((turn delta s t).calls t.who).pc = (access delta (s.calls t.who).authority t s.db (s.calls t.who).pc).1 := by
  simp [turn]

theorem turn_other (delta : Int) (s : Sys) (t : Turn) {i : Nat} (h : i ≠ t.who) : (turn delta s t).calls i = s.calls i := by
  simp [turn, h]

theorem get?_deleted (db : Dict Config) (k q : String) : (deleted db k).2.get? q = if k = q then none else db.get? q := by
  unfold deleted Dict.del
  by_cases h : db.has k = true
  · rw [if_pos h]; exact Dict.get?_filter_ne db k q
  · rw [if_neg h]
    simp only
    by_cases hq : k = q
    · rw [if_pos hq, ← hq]
      exact (Dict.get?_eq_none_iff db k).2 (fun hm => h ((Dict.has_iff db k).2 hm))
    · rw [if_neg hq]

/-- What is in the cache after an access. -/
theorem get?_access (delta : Int) (a : String) (t : Turn) (db : Dict Config) (pc : Pc) (q : String) :
    (access delta a t db pc).2.get? q =
      if a = q then (match pc with | .timedOut => none | .store j _ => some ⟨j⟩ | _ => db.get? q) else db.get? q := by
  cases pc with
  | look => simp only [access]; split <;> simp
  | found c => simp [access]
  | timedOut => simp only [access]; exact get?_deleted db a q
  | ask => simp [access]
  | store j ep => simp only [access]; rw [Dict.get?_set]
  | done r => simp [access]

theorem deleted_pc (db : Dict Config) (a : String) :
    (deleted db a).1 = if (db.get? a).isSome = true then .ask else .done (.error .keyError) := by
  have : db.has a = (db.get? a).isSome := by
    rw [Bool.eq_iff_iff, Dict.has_iff, Dict.mem_keys_iff_exists, Option.isSome_iff_exists]
  unfold deleted Dict.del
  rw [this]
  by_cases h : (db.get? a).isSome = true
  · rw [if_pos h, if_pos h]
  · rw [if_neg h, if_neg h]

/-! ### Where results come from -/

/-- What holds of a call at each point. -/
def Ok (S : Jws → Prop) (own fresh : Jws → Prop) (failed : PyErr → Prop) : Pc → Prop
  | .look => True
  | .found c => S c.jws
  | .timedOut => True
  | .ask => True
  | .store j ep => getFetchEndpoint j.payload = .ok ep ∧ own j
  | .done (.ok ep) => ∃ j, getFetchEndpoint j.payload = .ok ep ∧ (own j ∨ (S j ∧ fresh j ∧ (usableEndpoint ep).isSome = true))
  | .done (.error x) => failed x ∨ x = .keyError

theorem ok_access {delta : Int} {a : String} {t : Turn} {db : Dict Config} {pc : Pc} {S own fresh : Jws → Prop} {failed : PyErr → Prop}
    (hS : ∀ j, S j → Kept j) (hdb : ∀ c, db.get? a = some c → S c.jws) (hown : ∀ j, t.answer = .ok j → own j)
    (hfresh : ∀ j x, j.payload.exp = some x → t.now < x - delta → fresh j)
    (hfail : ∀ x, (t.answer = .error x ∨ ∃ j, t.answer = .ok j ∧ getFetchEndpoint j.payload = .error x) → failed x)
    (h : Ok S own fresh failed pc) : Ok S own fresh failed (access delta a t db pc).1 := by
  cases pc with
  | look =>
    simp only [access]
    cases hg : db.get? a with
    | none => trivial
    | some c => exact hdb c hg
  | found c =>
    simp only [access, compareExp]
    obtain ⟨⟨x, hx⟩, ep, hep⟩ := hS _ h
    rw [hx]
    simp only
    by_cases hn : t.now < x - delta
    · rw [if_pos hn]
      unfold cached
      rw [hep]
      simp only
      cases hu : usableEndpoint ep with
      | none => trivial
      | some v => exact ⟨c.jws, hep, .inr ⟨h, hfresh _ x hx hn, by rw [hu]; rfl⟩⟩
    · rw [if_neg hn]; trivial
  | timedOut =>
    simp only [access]
    rw [deleted_pc]
    by_cases hd : (db.get? a).isSome = true
    · rw [if_pos hd]; trivial
    · rw [if_neg hd]; exact .inr rfl
  | ask =>
    simp only [access, received]
    cases ha : t.answer with
    | error x => exact .inl (hfail x (.inl ha))
    | ok j =>
      simp only
      cases he : getFetchEndpoint j.payload with
      | error x => exact .inl (hfail x (.inr ⟨j, ha, he⟩))
      | ok ep => exact ⟨he, hown j ha⟩
  | store j ep => exact ⟨j, h.1, .inl h.2⟩
  | done r => exact h

/-- Sources of configurations that the collector can keep. -/
def From (s : Sys) (ts : List Turn) (a : String) (j : Jws) : Prop := Source s ts a j ∧ Kept j

/-- What holds of the process throughout a run of `T` from `s0`. -/
def Inv (delta : Int) (s0 : Sys) (T : List Turn) (s : Sys) : Prop :=
  (∀ i, (s.calls i).authority = (s0.calls i).authority) ∧
  (∀ a c, s.db.get? a = some c → From s0 T a c.jws) ∧
  (∀ i, Ok (From s0 T (s.calls i).authority) (Own T i) (Fresh delta T i) (Failed T i) (s.calls i).pc)

theorem inv_turn {delta : Int} {s0 s : Sys} {T : List Turn} {t : Turn} (ht : t ∈ T) (hd : Dated T) (h : Inv delta s0 T s) :
    Inv delta s0 T (turn delta s t) := by
  obtain ⟨h1, h2, h3⟩ := h
  refine ⟨fun i => (turn_authority delta s t i).trans (h1 i), ?_, ?_⟩
  · intro a c hc
    simp only [turn] at hc
    rw [get?_access] at hc
    by_cases ha : (s.calls t.who).authority = a
    · rw [if_pos ha] at hc
      have h3 := h3 t.who
      cases hp : (s.calls t.who).pc with
      | store j ep =>
        rw [hp] at hc h3
        simp only [Option.some.injEq] at hc
        subst hc
        obtain ⟨he, u, hu, hw, hj⟩ := h3
        refine ⟨.inr ⟨u, hu, ?_, hj⟩, hd u hu j hj, ep, he⟩
        rw [← h1 u.who, hw]; exact ha
      | timedOut => rw [hp] at hc; cases hc
      | look => rw [hp] at hc; exact h2 a c hc
      | found f => rw [hp] at hc; exact h2 a c hc
      | ask => rw [hp] at hc; exact h2 a c hc
      | done r => rw [hp] at hc; exact h2 a c hc
    · rw [if_neg ha] at hc; exact h2 a c hc
  · intro i
    by_cases hi : i = t.who
    · subst hi
      rw [turn_self, turn_authority]
      exact ok_access (fun _ h => h.2) (fun c hc => h2 _ c hc) (fun j hj => ⟨t, ht, rfl, hj⟩)
        (fun j x hx hn => ⟨t, ht, rfl, x, hx, hn⟩) (fun x hx => ⟨t, ht, rfl, hx⟩) (h3 t.who)
    · rw [turn_other delta s t hi]; exact h3 i

theorem inv_run {delta : Int} {s0 : Sys} {T : List Turn} (hd : Dated T) : ∀ (ts : List Turn) (s : Sys), (∀ t ∈ ts, t ∈ T) →
    Inv delta s0 T s → Inv delta s0 T (run delta s ts)
  | [], _, _, h => h
  | t :: ts, _, hs, h =>
      inv_run hd ts _ (fun u hu => hs u (List.mem_cons_of_mem _ hu)) (inv_turn (hs t (by simp)) hd h)

theorem inv_start {delta : Int} {s : Sys} {T : List Turn} (h : Start s) (hs : Sound s.db) : Inv delta s T s :=
  ⟨fun _ => rfl, fun a c hc => ⟨.inl hc, hs a c hc⟩, fun i => by rw [h i]; trivial⟩

/-- The second half of C201, without exception: a call that succeeds returns what is stated in a configuration of its own authority, which
it received itself or which was not about to expire. Missing: the errors. -/
theorem C201_endpoint_partial (delta : Int) (s : Sys) (ts : List Turn) (hs : Start s) (hdb : Sound s.db) (hd : Dated ts) (i : Nat)
    (ep : Option Val) (h : ((run delta s ts).calls i).pc = .done (.ok ep)) : Stated delta s ts i ep := by
  have hi := inv_run hd ts s (fun _ h => h) (inv_start (delta := delta) hs hdb)
  have := hi.2.2 i
  rw [h, hi.1 i] at this
  obtain ⟨j, hj, ho | ⟨⟨hS, -⟩, hf, hu⟩⟩ := this
  · exact ⟨j, hj, .inl ho⟩
  · exact ⟨j, hj, .inr ⟨hS, hf, hu⟩⟩

/-- What is in the cache afterwards came from its authority, as well; and nothing is kept that cannot be used. -/
theorem C201_cache (delta : Int) (s : Sys) (ts : List Turn) (hs : Start s) (hdb : Sound s.db) (hd : Dated ts) (a : String) (c : Config)
    (h : (run delta s ts).db.get? a = some c) : Source s ts a c.jws ∧ Kept c.jws :=
  (inv_run hd ts s (fun _ h => h) (inv_start (delta := delta) hs hdb)).2.1 a c h

/-! ### Calls that are alone with their authority -/

theorem access_congr (delta : Int) (a : String) (t : Turn) {db db' : Dict Config} (pc : Pc) (h : db.get? a = db'.get? a) :
    (access delta a t db pc).1 = (access delta a t db' pc).1 := by
  cases pc with
  | look => simp only [access]; rw [h]; split <;> rfl
  | timedOut => simp only [access]; rw [deleted_pc, deleted_pc, h]
  | found c => rfl
  | ask => rfl
  | store j ep => rfl
  | done r => rfl

theorem apart (delta : Int) (i : Nat) : ∀ (ts : List Turn) (s s' : Sys), s.calls i = s'.calls i →
    (∀ t ∈ ts, t.who ≠ i → (s.calls t.who).authority ≠ (s.calls i).authority) →
    s.db.get? (s.calls i).authority = s'.db.get? (s.calls i).authority →
    (run delta s ts).calls i = (run delta s' (ts.filter fun t => t.who = i)).calls i
  | [], _, _, h, _, _ => h
  | t :: ts, s, s', h, ho, hg => by
      have hrest : ∀ u ∈ ts, u.who ≠ i → ((turn delta s t).calls u.who).authority ≠ ((turn delta s t).calls i).authority := by
        intro u hu hw
        rw [turn_authority, turn_authority]
        exact ho u (List.mem_cons_of_mem _ hu) hw
      by_cases hw : t.who = i
      · subst hw
        simp only [List.filter_cons, decide_true, if_true]
        refine apart delta t.who ts _ _ ?_ hrest ?_
        · simp only [turn, if_true]
          rw [← h, access_congr delta _ t _ hg]
        · rw [turn_authority]
          simp only [turn]
          rw [← h, get?_access, get?_access, hg]
      · have hne : i ≠ t.who := fun h => hw h.symm
        simp only [List.filter_cons, hw, decide_false]
        refine apart delta i ts _ s' ((turn_other delta s t hne).trans h) hrest ?_
        rw [turn_authority, ← hg]
        simp only [turn]
        rw [get?_access, if_neg (ho t (by simp) hw)]

/-- C201 for a call whose authority no other call that gets a turn has: it comes exactly as far, and with the same result, as if only its
own turns had taken place. Missing: calls for the same authority. -/
theorem C201_apart_partial (delta : Int) (s : Sys) (ts : List Turn) (i : Nat)
    (ho : ∀ t ∈ ts, t.who ≠ i → (s.calls t.who).authority ≠ (s.calls i).authority) :
    (run delta s ts).calls i = (run delta s (ts.filter fun t => t.who = i)).calls i :=
  apart delta i ts s s rfl ho rfl

theorem run_replicate (delta : Int) (t : Turn) : ∀ (n : Nat) (s : Sys),
    (((run delta s (List.replicate n t)).calls t.who).pc, (run delta s (List.replicate n t)).db) =
      alone delta (s.calls t.who).authority t n ((s.calls t.who).pc, s.db)
  | 0, _ => rfl
  | n + 1, s => by
      have h := run_replicate delta t n (turn delta s t)
      rw [turn_authority, turn_self] at h
      exact h

/-- Such a call returns what the whole function returns in the model of a single thread, if the clock and its authority stand still while
it runs; five turns are enough. -/
theorem C201_sequential (C : Crypto) (P : Params) (W : World) (st : State) (s : Sys) (ts : List Turn) (t : Turn) (hdb : s.db = st.config)
    (hs : Start s) (ho : ∀ u ∈ ts, u.who ≠ t.who → (s.calls u.who).authority ≠ (s.calls t.who).authority)
    (hown : ts.filter (fun u => u.who = t.who) = List.replicate 5 t) (hn : t.now = W.now)
    (ht : t.answer = answerOf C W (s.calls t.who).authority) :
    ((run P.delta s ts).calls t.who).pc = .done (fetchEndpoint C P W st (s.calls t.who).authority).1 := by
  rw [C201_apart_partial P.delta s ts t.who ho, hown]
  have h := run_replicate P.delta t 5 s
  rw [hs t.who, hdb, alone_eq C P W st _ t hn ht] at h
  exact congrArg Prod.fst h

/-! ### Errors -/

/-- What holds of call `i` and the cache while nobody else is after the same authority. -/
def Calm (s : Sys) (T : List Turn) (i : Nat) : Prop :=
  match (s.calls i).pc with
  | .found _ => (s.db.get? (s.calls i).authority).isSome = true
  | .timedOut => (s.db.get? (s.calls i).authority).isSome = true
  | .done (.error x) => Failed T i x
  | _ => True

theorem calm_turn {delta : Int} {s0 s : Sys} {T : List Turn} {t : Turn} {i : Nat} (ht : t ∈ T) (h : Inv delta s0 T s)
    (ho : t.who ≠ i → (s.calls t.who).authority ≠ (s.calls i).authority) (hc : Calm s T i) : Calm (turn delta s t) T i := by
  by_cases hi : t.who = i
  · subst hi
    have hpc := turn_self delta s t
    have hdb : (turn delta s t).db = (access delta (s.calls t.who).authority t s.db (s.calls t.who).pc).2 := rfl
    have hok := h.2.2 t.who
    unfold Calm at hc ⊢
    rw [hpc, turn_authority, hdb]
    cases hp : (s.calls t.who).pc with
    | look =>
      simp only [access]
      cases hg : s.db.get? (s.calls t.who).authority with
      | none => trivial
      | some c => simp [hg]
    | found c =>
      rw [hp] at hc hok
      obtain ⟨-, ⟨x, hx⟩, ep, hep⟩ := hok
      simp only [access, compareExp, hx]
      by_cases hn : t.now < x - delta
      · rw [if_pos hn]
        unfold cached
        rw [hep]
        simp only
        cases usableEndpoint ep with
        | none => trivial
        | some v => trivial
      · rw [if_neg hn]; exact hc
    | timedOut =>
      rw [hp] at hc
      simp only [access]
      rw [deleted_pc, if_pos hc]
      trivial
    | ask =>
      simp only [access, received]
      cases ha : t.answer with
      | error x => exact ⟨t, ht, rfl, .inl ha⟩
      | ok j =>
        simp only
        cases he : getFetchEndpoint j.payload with
        | error x => exact ⟨t, ht, rfl, .inr ⟨j, ha, he⟩⟩
        | ok ep => trivial
    | store j ep => trivial
    | done r => rw [hp] at hc; exact hc
  · have hne : i ≠ t.who := fun h => hi h.symm
    unfold Calm at hc ⊢
    rw [turn_other delta s t hne]
    have : (turn delta s t).db.get? (s.calls i).authority = s.db.get? (s.calls i).authority := by
      simp only [turn]
      rw [get?_access, if_neg (ho hi)]
    rw [this]
    exact hc

theorem calm_run {delta : Int} {s0 : Sys} {T : List Turn} (hd : Dated T) (i : Nat) : ∀ (ts : List Turn) (s : Sys), (∀ t ∈ ts, t ∈ T) →
    Inv delta s0 T s → (∀ t ∈ ts, t.who ≠ i → (s.calls t.who).authority ≠ (s.calls i).authority) → Calm s T i →
    Calm (run delta s ts) T i
  | [], _, _, _, _, h => h
  | t :: ts, s, hs, hinv, ho, h => by
      refine calm_run hd i ts _ (fun u hu => hs u (List.mem_cons_of_mem _ hu)) (inv_turn (hs t (by simp)) hd hinv) ?_
        (calm_turn (hs t (by simp)) hinv (ho t (by simp)) h)
      intro u hu hw
      rw [turn_authority, turn_authority]
      exact ho u (List.mem_cons_of_mem _ hu) hw

/-- The first half of C201, with its one exception: a call that fails has failed because of what it received, or with KeyError while
another call for the same authority was under way. -/
theorem C201_error_partial (delta : Int) (s : Sys) (ts : List Turn) (hs : Start s) (hdb : Sound s.db) (hd : Dated ts) (i : Nat)
    (x : PyErr) (h : ((run delta s ts).calls i).pc = .done (.error x)) :
    Failed ts i x ∨ (x = .keyError ∧ ∃ t ∈ ts, t.who ≠ i ∧ (s.calls t.who).authority = (s.calls i).authority) := by
  have h0 := inv_start (delta := delta) (T := ts) hs hdb
  have hi := inv_run hd ts s (fun _ h => h) h0
  by_cases ho : ∀ t ∈ ts, t.who ≠ i → (s.calls t.who).authority ≠ (s.calls i).authority
  · have := calm_run hd i ts s (fun _ h => h) h0 ho (by unfold Calm; rw [hs i]; trivial)
    unfold Calm at this
    rw [h] at this
    exact .inl this
  · have := hi.2.2 i
    rw [h] at this
    rcases this with hf | hk
    · exact .inl hf
    · refine .inr ⟨hk, ?_⟩
      apply Classical.byContradiction
      intro hn
      exact ho fun t ht hw ha => hn ⟨t, ht, hw, ha⟩

/-- None of the configurations of an authority that there are is about to expire at any of the turns. -/
def Lasting (delta : Int) (s : Sys) (ts : List Turn) (a : String) : Prop :=
  ∀ j, Source s ts a j → ∀ x, j.payload.exp = some x → ∀ t ∈ ts, t.now < x - delta

/-- C201 in full for an authority whose configurations last, however many calls there are for it: nothing is deleted, and no call fails
unless what it received made it fail. Missing: configurations that come near their end. -/
theorem C201_lasting_partial (delta : Int) (s : Sys) (ts : List Turn) (hs : Start s) (hdb : Sound s.db) (hd : Dated ts) (i : Nat)
    (hl : Lasting delta s ts (s.calls i).authority) (r : Except PyErr (Option Val))
    (h : ((run delta s ts).calls i).pc = .done r) :
    (∀ x, r = .error x → Failed ts i x) ∧ (∀ ep, r = .ok ep → Stated delta s ts i ep) := by
  refine ⟨?_, fun ep hr => C201_endpoint_partial delta s ts hs hdb hd i ep (by rw [h, hr])⟩
  rintro x rfl
  have key : ∀ (us : List Turn) (q : Sys), (∀ t ∈ us, t ∈ ts) → Inv delta s ts q →
      (q.calls i).pc ≠ .timedOut → (∀ x, (q.calls i).pc = .done (.error x) → Failed ts i x) →
      ∀ x, ((run delta q us).calls i).pc = .done (.error x) → Failed ts i x := by
    intro us
    induction us with
    | nil => intro q _ _ _ h; exact h
    | cons t us ih =>
      intro q hsub hinv hto hf
      have htT := hsub t (by simp)
      refine ih (turn delta q t) (fun u hu => hsub u (List.mem_cons_of_mem _ hu)) (inv_turn htT hd hinv) ?_ ?_
      all_goals
        by_cases hi : i = t.who
        · subst hi
          rw [turn_self]
          have hok := hinv.2.2 t.who
          cases hp : (q.calls t.who).pc with
          | look =>
            simp only [access]
            cases q.db.get? (q.calls t.who).authority <;> simp
          | found c =>
            rw [hp] at hok
            obtain ⟨hsrc, ⟨e, he⟩, ep, hep⟩ := hok
            rw [hinv.1] at hsrc
            simp only [access, compareExp, he]
            rw [if_pos (hl _ hsrc e he t htT)]
            unfold cached
            rw [hep]
            simp only
            cases usableEndpoint ep <;> simp
          | timedOut => exact absurd hp hto
          | ask =>
            simp only [access, received]
            cases ha : t.answer with
            | error y =>
              simp only [ne_eq, reduceCtorEq, not_false_eq_true, Pc.done.injEq, Except.error.injEq]
              try (intro x hx; subst hx; exact ⟨t, htT, rfl, .inl ha⟩)
            | ok j =>
              simp only
              cases hg : getFetchEndpoint j.payload with
              | error y =>
                simp only [ne_eq, reduceCtorEq, not_false_eq_true, Pc.done.injEq, Except.error.injEq]
                try (intro x hx; subst hx; exact ⟨t, htT, rfl, .inr ⟨j, ha, hg⟩⟩)
              | ok ep => simp
          | store j ep => simp [access]
          | done r =>
            first
              | (simp [access]; done)
              | (intro x hx; exact hf x (hp.trans hx))
        · rw [turn_other delta q t hi]
          first
            | exact hto
            | exact hf
  exact key ts s (fun _ h => h) (inv_start hs hdb) (by rw [hs i]; simp) (by intro x hx; rw [hs i] at hx; cases hx) x h

/-! ### What goes wrong, and examples -/

/-- A configuration of a trust anchor that expires at `x`. -/
def confAt (x : Int) : Jws :=
  { payload := { iss := "https://ta", sub := "https://ta", exp := some x, metadata := some [("federation_entity", [("federation_fetch_endpoint", .str "https://ta/fetch")])] }, sig := 0 }

/-- A turn of call `i` at the time `now`; asked now, the authority gives a configuration that lasts until 9000. -/
def got (i : Nat) (now : Int) : Turn := { who := i, now := now, answer := .ok (confAt 9000) }

/-- Calls for the same authority. -/
def demo (db : Dict Config) : Sys := { db := db, calls := fun _ => { authority := "https://ta" } }

/-- A cache with the configuration that expires at `x`. -/
def cacheAt (x : Int) : Dict Config := [("https://ta", ⟨confAt x⟩)]

theorem cacheAt_sound (x : Int) : Sound (cacheAt x) := by
  intro a c h
  unfold cacheAt at h
  rw [Dict.get?_cons] at h
  by_cases ha : "https://ta" = a
  · rw [if_pos ha] at h
    cases h
    exact ⟨⟨x, rfl⟩, _, rfl⟩
  · rw [if_neg ha] at h; simp at h

theorem got_dated {ts : List Turn} (h : ∀ t ∈ ts, t = got t.who t.now) : Dated ts := by
  intro t ht j hj
  rw [h t ht] at hj
  simp only [got, Except.ok.injEq] at hj
  subst hj
  exact ⟨9000, rfl⟩

/-- Two calls find that the configuration is about to expire: the second one to delete it fails, although the authority would have
answered. -/
theorem C201_both_delete_violation : ¬ C201_full := by
  intro h
  have hrun : ((run 300 (demo (cacheAt 1000)) [got 0 800, got 0 800, got 1 800, got 1 800, got 0 800, got 1 800]).calls 1).pc =
      .done (.error .keyError) := by
    decide +kernel
  obtain ⟨t, ht, -, ha | ⟨j, hj, hg⟩⟩ := (h 300 (demo (cacheAt 1000)) _ (fun _ => rfl) (cacheAt_sound 1000) (got_dated (by simp [got])) 1 _ hrun).1
    _ rfl
  · simp only [List.mem_cons, List.not_mem_nil, or_false] at ht
    rcases ht with rfl | rfl | rfl | rfl | rfl | rfl <;> cases ha
  · simp only [List.mem_cons, List.not_mem_nil, or_false] at ht
    rcases ht with rfl | rfl | rfl | rfl | rfl | rfl <;> cases hj <;> cases hg

/-- The same two calls one after the other both succeed, -/
example : ((run 300 (demo (cacheAt 1000)) [got 0 800, got 0 800, got 0 800, got 0 800, got 0 800, got 1 800, got 1 800]).calls 1).pc =
    .done (.ok (some (.str "https://ta/fetch"))) := by decide +kernel
/-- and so does one whose configuration is replaced while it looks at the clock. -/
example : ((run 300 (demo (cacheAt 1000)) [got 1 800, got 0 800, got 0 800, got 0 800, got 0 800, got 0 800, got 1 800, got 1 800, got 1 800,
    got 1 800]).calls 1).pc = .done (.ok (some (.str "https://ta/fetch"))) := by decide +kernel

/-- Two calls, turn by turn, with a configuration that lasts. -/
example : Lasting 300 (demo (cacheAt 1000)) [got 0 600, got 1 600, got 0 600, got 1 600] "https://ta" ∧
    ((run 300 (demo (cacheAt 1000)) [got 0 600, got 1 600, got 0 600, got 1 600]).calls 1).pc =
      .done (.ok (some (.str "https://ta/fetch"))) := by
  refine ⟨?_, by decide +kernel⟩
  have h9 : ∀ t ∈ [got 0 600, got 1 600, got 0 600, got 1 600], t.now = 600 ∧ t.answer = .ok (confAt 9000) := by
    simp [got]
  rintro j (hj | ⟨t, ht, -, hj⟩) x hx u hu
  · rw [(h9 u hu).1]
    have : (demo (cacheAt 1000)).db.get? "https://ta" = some ⟨confAt 1000⟩ := by decide +kernel
    rw [this] at hj
    cases hj
    cases hx
    decide
  · rw [(h9 u hu).1]
    rw [(h9 t ht).2] at hj
    cases hj
    cases hx
    decide

/-- Calls for two authorities; that of call 1 cannot be reached. -/
def twoCalls : Sys := { db := cacheAt 1000, calls := fun i => { authority := if i = 0 then "https://ta" else "https://im" } }
def dead (now : Int) : Turn := { who := 1, now := now, answer := .error .connectionError }

example : ∀ t ∈ [got 0 800, dead 800, got 0 800, dead 800, got 0 800, got 0 800, got 0 800], t.who ≠ 0 →
    (twoCalls.calls t.who).authority ≠ (twoCalls.calls 0).authority := by decide +kernel
example : ((run 300 twoCalls [got 0 800, dead 800, got 0 800, dead 800, got 0 800, got 0 800, got 0 800]).calls 0).pc =
      .done (.ok (some (.str "https://ta/fetch"))) ∧
    ((run 300 twoCalls [got 0 800, dead 800, got 0 800, dead 800, got 0 800, got 0 800, got 0 800]).calls 1).pc =
      .done (.error .connectionError) ∧
    (run 300 twoCalls [got 0 800, dead 800, got 0 800, dead 800, got 0 800, got 0 800, got 0 800]).db.get? "https://ta" =
      some ⟨confAt 9000⟩ := by decide +kernel

end Fed.Collect.ConfigThreads
