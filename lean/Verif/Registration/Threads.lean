import Verif.Registration.Response
/-
C202: several requests of a client at the same time. The front ends hand each request to a thread of its own, and all threads share the
client database. A client that registers automatically is registered anew with each authorization request: `client_authentication` of
the OpenID endpoint, /repo/src/fedservice/appserver/oidc/authorization.py 95-127, is cut up into its accesses to the client database; other
threads may come in between any two of them.
-/
namespace Fed.Registration.Threads
open Fed Fed.Registration

/-- What is kept of a client. -/
abbrev Info := Dict Val

/-- How far a request has come. Of an authorization request (oidc/authorization.py 95-127): about to look for the client (99); about to
delete it (103); about to collect trust chains (106); about to store what is registered (90); about to mark it (114); done. `read`: of another
request, which is about to look for the client, as idpyoidc's token endpoint does. `done`: the request goes on as one of the client (`.ok true`), or is
refused (`.ok false`), or there was an exception. -/
inductive Pc
  | look
  | read
  | delete
  | ask
  | store (info : Info)
  | mark
  | done (r : Except PyErr Bool)
deriving DecidableEq

/-- A request of a client. -/
structure Call where
  client : String
  pc : Pc

/-- One access: the request that gets its turn, and what comes of registering the client now (`do_automatic_registration`, oidc/authorization.py 51-93):
what is to be kept of it, nothing (it is refused), or an exception. Simplification: collecting chains and judging the metadata is one step, and idpyoidc's registration
stores the client with one access, after it; the option new_client_id is off, as it is by default, so that the client is stored under its entity id. -/
structure Turn where
  who : Nat
  answer : Except PyErr (Option Info)

/-- With what is kept of the client (oidc/authorization.py 99-103, 122-126). `auto`: the server supports automatic registration. -/
def looked (auto : Bool) (info : Option Info) : Pc :=
  if Settled .oidc info then .done (.ok true)
  else if auto then (if info.isSome then .delete else .ask)
  else .done (.ok false)

/-- With what came of the registration (oidc/authorization.py 106-112). -/
def registered : Except PyErr (Option Info) → Pc
  | .error x => .done (.error x)
  | .ok none => .done (.ok false)
  | .ok (some info) => .store info

/-- After `del _context.cdb[_cid]` (oidc/authorization.py 103). -/
def deleted (db : Dict Info) (client : String) : Pc × Dict Info :=
  match db.del client with
  | .ok db' => (.ask, db')
  | .error x => (.done (.error x), db)

/-- `_context.cdb[registered_client_id]["automatic_registered"] = True` (oidc/authorization.py 114). -/
def marked (db : Dict Info) (client : String) : Pc × Dict Info :=
  match db.get? client with
  | none => (.done (.error .keyError), db)
  | some info => (.done (.ok true), db.set client (info.set "automatic_registered" (.bool true)))

/-- One access of a request of `client` to the client database (oidc/authorization.py 95-127). -/
def access (auto : Bool) (client : String) (t : Turn) (db : Dict Info) : Pc → Pc × Dict Info
  | .look => (looked auto (db.get? client), db)
  | .read => (.done (.ok (db.get? client).isSome), db)
  | .delete => deleted db client
  | .ask => (registered t.answer, db)
  | .store info => (.mark, db.set client info)
  | .mark => marked db client
  | .done r => (.done r, db)

/-- The process: the client database and the requests. There is no bound on how many there are; one that gets no turn has not begun. -/
structure Sys where
  db : Dict Info
  calls : Nat → Call

/-- One turn. -/
def turn (auto : Bool) (s : Sys) (t : Turn) : Sys :=
  let c := s.calls t.who
  let r := access auto c.client t s.db c.pc
  { db := r.2, calls := fun i => if i = t.who then { c with pc := r.1 } else s.calls i }

/-- All the turns of a schedule. -/
def run (auto : Bool) (s : Sys) (ts : List Turn) : Sys := ts.foldl (turn auto) s

/-! ### The steps together are the function of the sequential model -/

/-- A request that is not interrupted. -/
def alone (auto : Bool) (client : String) (t : Turn) : Nat → Pc × Dict Info → Pc × Dict Info
  | 0, r => r
  | n + 1, r => alone auto client t n (access auto client t r.2 r.1)

theorem alone_done (auto : Bool) (c : String) (t : Turn) (r : Except PyErr Bool) : ∀ (n : Nat) (db : Dict Info),
    alone auto c t n (.done r, db) = (.done r, db)
  | 0, _ => rfl
  | n + 1, db => alone_done auto c t r n db

/-- `do_automatic_registration` comes to `answer`, and if that is a registration it is put into the client database. -/
def Comes (A : AutoEnv) (st : AppState) (c : String) (provided : List Doc) (answer : Except PyErr (Option Info)) : Prop :=
  match answer with
  | .error x => (doAutomatic A .oidc st c provided).1 = .error x ∧ (doAutomatic A .oidc st c provided).2.srv.cdb = st.srv.cdb
  | .ok none => (doAutomatic A .oidc st c provided).1 = .ok none ∧ (doAutomatic A .oidc st c provided).2.srv.cdb = st.srv.cdb
  | .ok (some info) =>
    (doAutomatic A .oidc st c provided).1 = .ok (some c) ∧ (doAutomatic A .oidc st c provided).2.srv.cdb = st.srv.cdb.set c info

/-- What a request comes to, in the terms of the sequential model. -/
def outcome (c : String) : Except PyErr (Option String) → Except PyErr Bool
  | .error x => .error x
  | .ok none => .ok false
  | .ok (some d) => .ok (decide (d = c))

theorem alone_ask (A : AutoEnv) (st : AppState) (c : String) (provided : List Doc) (auto : Bool) (t : Turn) (n : Nat)
    (h : Comes A st c provided t.answer) :
    alone auto c t (n + 3) (.ask, st.srv.cdb) =
      (match (match doAutomatic A .oidc st c provided with
        | (.error e, st) => ((.error e, st) : Except PyErr (Option String) × AppState)
        | (.ok none, st) => (.ok none, st)
        | (.ok (some rid), st) =>
          match alsoKnownAs .oidc st.srv.cdb c rid with
          | (.error e, cdb) => (.error e, { st with srv := { st.srv with cdb := cdb } })
          | (.ok (), cdb) => (.ok (some rid), { st with srv := { st.srv with cdb := cdb } })) with
        | (r, st) => (.done (outcome c r), st.srv.cdb)) := by
  show alone auto c t (n + 2) (registered t.answer, st.srv.cdb) = _
  unfold Comes at h
  generalize doAutomatic A .oidc st c provided = d at h ⊢
  obtain ⟨d1, d2⟩ := d
  cases ha : t.answer with
  | error x =>
    rw [ha] at h
    simp only at h
    rw [h.1]
    simp only [registered, outcome]
    rw [alone_done, h.2]
  | ok o =>
    cases o with
    | none =>
      rw [ha] at h
      simp only at h
      rw [h.1]
      simp only [registered, outcome]
      rw [alone_done, h.2]
    | some info =>
      rw [ha] at h
      simp only at h
      rw [h.1]
      show alone auto c t n (marked (st.srv.cdb.set c info) c) = _
      simp only [marked, alsoKnownAs, h.2, Dict.get?_set_self, if_true]
      rw [alone_done]
      simp [outcome]

/-- Five turns of a request that nobody interrupts: the result, and the client database, of the sequential model. -/
theorem alone_eq (A : AutoEnv) (st : AppState) (c : String) (provided : List Doc) (auto : Bool) (t : Turn)
    (hs : automaticSupported .oidc A.supported = .ok auto)
    (h : Comes A { st with srv := { st.srv with cdb := st.srv.cdb.filter fun p => p.1 ≠ c } } c provided t.answer) :
    alone auto c t 5 (.look, st.srv.cdb) =
      (.done (outcome c (clientAuthentication A .oidc st c provided).1), (clientAuthentication A .oidc st c provided).2.srv.cdb) := by
  show alone auto c t 4 (looked auto (st.srv.cdb.get? c), st.srv.cdb) = _
  unfold clientAuthentication looked
  by_cases hset : Settled .oidc (st.srv.cdb.get? c) = true
  · rw [if_pos hset, if_pos hset, alone_done]
    simp [outcome]
  · rw [if_neg hset, if_neg hset, hs]
    cases auto with
    | false => exact alone_done _ _ _ _ _ _
    | true =>
      simp only [if_true]
      cases hg : st.srv.cdb.get? c with
      | none =>
        have hf : (st.srv.cdb.filter fun p => p.1 ≠ c) = st.srv.cdb := by
          rw [List.filter_eq_self]
          intro p hp
          simp only [ne_eq, decide_not, Bool.not_eq_true', decide_eq_false_iff_not]
          intro hc
          exact (Dict.get?_eq_none_iff _ _).1 hg (by rw [← hc]; exact List.mem_map_of_mem hp)
        have := alone_ask A { st with srv := { st.srv with cdb := st.srv.cdb.filter fun p => p.1 ≠ c } } c provided true t 1 h
        simp only [Option.isSome_none, Bool.false_eq_true, if_false]
        rw [hf] at this
        rw [hf]
        exact this
      | some info =>
        have hd : st.srv.cdb.del c = .ok (st.srv.cdb.filter fun p => p.1 ≠ c) := by
          have : st.srv.cdb.has c = true := (Dict.has_iff _ _).2 ((Dict.mem_keys_iff_exists _ _).2 ⟨info, hg⟩)
          unfold Dict.del
          rw [if_pos this]
        simp only [Option.isSome_some, if_true]
        show alone true c t 3 (deleted st.srv.cdb c) = _
        unfold deleted
        rw [hd]
        exact alone_ask A { st with srv := { st.srv with cdb := st.srv.cdb.filter fun p => p.1 ≠ c } } c provided true t 0 h

/-! ### The property -/

/-- No request has begun. -/
def Start (s : Sys) : Prop := ∀ i, (s.calls i).pc = .look ∨ (s.calls i).pc = .read

/-- Whenever `client` is registered in `ts`, that succeeds. -/
def Welcome (s : Sys) (ts : List Turn) (client : String) : Prop :=
  ∀ t ∈ ts, (s.calls t.who).client = client → ∃ info, t.answer = .ok (some info)

/-- C202: a client that the server knows, and that the server would register again at any time, is let in with every request, and every
other request finds it, whatever is handled at the same time. -/
def C202_full : Prop := ∀ (s : Sys) (ts : List Turn), Start s → ∀ i r, ((run true s ts).calls i).pc = .done r →
    (s.db.get? (s.calls i).client).isSome = true → Welcome s ts (s.calls i).client → r = .ok true

/-! ### What a turn changes -/

theorem turn_client (auto : Bool) (s : Sys) (t : Turn) (i : Nat) : ((turn auto s t).calls i).client = (s.calls i).client := by
  simp only [turn]
  split
  · next h => subst h; rfl
  · rfl

theorem run_client (auto : Bool) : ∀ (ts : List Turn) (s : Sys) (i : Nat), ((run auto s ts).calls i).client = (s.calls i).client
  | [], _, _ => rfl
  | t :: ts, s, i => (run_client auto ts (turn auto s t) i).trans (turn_client auto s t i)

theorem turn_self (auto : Bool) (s : Sys) (t : Turn) :
    ((turn auto s t).calls t.who).pc = (access auto (s.calls t.who).client t s.db (s.calls t.who).pc).1 := by
  simp [turn]

theorem turn_other (auto : Bool) (s : Sys) (t : Turn) {i : Nat} (h : i ≠ t.who) : (turn auto s t).calls i = s.calls i := by
  simp [turn, h]

theorem get?_deleted (db : Dict Info) (k q : String) : (deleted db k).2.get? q = if k = q then none else db.get? q := by
  unfold deleted Dict.del
  by_cases h : db.has k = true
  · rw [if_pos h]; exact Dict.get?_filter_ne db k q
  · rw [if_neg h]
    simp only
    by_cases hq : k = q
    · rw [if_pos hq, ← hq]
      exact (Dict.get?_eq_none_iff db k).2 (fun hm => h ((Dict.has_iff db k).2 hm))
    · rw [if_neg hq]

/-- What is kept of a client after an access to its entry, given what was kept before. -/
def after (pc : Pc) (before : Option Info) : Option Info :=
  match pc with
  | .delete => none
  | .store info => some info
  | .mark => before.map fun info => info.set "automatic_registered" (.bool true)
  | _ => before

theorem get?_access (auto : Bool) (c : String) (t : Turn) (db : Dict Info) (pc : Pc) (q : String) :
    (access auto c t db pc).2.get? q = if c = q then after pc (db.get? q) else db.get? q := by
  cases pc with
  | look => simp [access, after]
  | read => simp [access, after]
  | delete => simp only [access]; exact get?_deleted db c q
  | ask => simp [access, after]
  | store info => simp only [access]; rw [Dict.get?_set]; rfl
  | mark =>
    simp only [access, marked, after]
    cases hg : db.get? c with
    | none =>
      by_cases hq : c = q
      · subst hq; simp [hg]
      · simp [hq]
    | some info =>
      simp only
      rw [Dict.get?_set]
      by_cases hq : c = q
      · subst hq; simp [hg]
      · simp [hq]
  | done r => simp [access, after]

theorem deleted_pc (db : Dict Info) (c : String) :
    (deleted db c).1 = if (db.get? c).isSome = true then .ask else .done (.error .keyError) := by
  have : db.has c = (db.get? c).isSome := by
    rw [Bool.eq_iff_iff, Dict.has_iff, Dict.mem_keys_iff_exists, Option.isSome_iff_exists]
  unfold deleted Dict.del
  rw [this]
  by_cases h : (db.get? c).isSome = true
  · rw [if_pos h, if_pos h]
  · rw [if_neg h, if_neg h]

theorem marked_pc (db : Dict Info) (c : String) :
    (marked db c).1 = if (db.get? c).isSome = true then .done (.ok true) else .done (.error .keyError) := by
  unfold marked
  cases db.get? c with
  | none => simp
  | some info => simp

theorem access_congr (auto : Bool) (c : String) (t : Turn) {db db' : Dict Info} (pc : Pc) (h : db.get? c = db'.get? c) :
    (access auto c t db pc).1 = (access auto c t db' pc).1 := by
  cases pc with
  | look => simp only [access]; rw [h]
  | read => simp only [access]; rw [h]
  | delete => simp only [access]; rw [deleted_pc, deleted_pc, h]
  | ask => rfl
  | store info => rfl
  | mark => simp only [access]; rw [marked_pc, marked_pc, h]
  | done r => rfl

/-! ### Requests of different clients do not disturb each other -/

theorem apart (auto : Bool) (i : Nat) : ∀ (ts : List Turn) (s s' : Sys), s.calls i = s'.calls i →
    (∀ t ∈ ts, t.who ≠ i → (s.calls t.who).client ≠ (s.calls i).client) →
    s.db.get? (s.calls i).client = s'.db.get? (s.calls i).client →
    (run auto s ts).calls i = (run auto s' (ts.filter fun t => t.who = i)).calls i ∧
      (run auto s ts).db.get? (s.calls i).client = (run auto s' (ts.filter fun t => t.who = i)).db.get? (s.calls i).client
  | [], _, _, h, _, hg => ⟨h, hg⟩
  | t :: ts, s, s', h, ho, hg => by
      have hrest : ∀ u ∈ ts, u.who ≠ i → ((turn auto s t).calls u.who).client ≠ ((turn auto s t).calls i).client := by
        intro u hu hw
        rw [turn_client, turn_client]
        exact ho u (List.mem_cons_of_mem _ hu) hw
      by_cases hw : t.who = i
      · subst hw
        simp only [List.filter_cons, decide_true, if_true]
        have := apart auto t.who ts (turn auto s t) (turn auto s' t) (by
          simp only [turn, if_true]
          rw [← h, access_congr auto _ t _ hg]) hrest (by
          rw [turn_client]
          simp only [turn]
          rw [← h, get?_access, get?_access, hg])
        rw [turn_client] at this
        exact this
      · have hne : i ≠ t.who := fun h => hw h.symm
        simp only [List.filter_cons, hw, decide_false]
        have := apart auto i ts (turn auto s t) s' ((turn_other auto s t hne).trans h) hrest (by
          rw [turn_client, ← hg]
          simp only [turn]
          rw [get?_access, if_neg (ho t (by simp) hw)])
        rw [turn_client] at this
        exact this

/-- C202 for a request while no other request of the same client is handled: it comes exactly as far, and with the same result, as if only
its own turns had taken place, and leaves the same behind. Missing: requests of the same client. -/
theorem C202_apart_partial (auto : Bool) (s : Sys) (ts : List Turn) (i : Nat)
    (ho : ∀ t ∈ ts, t.who ≠ i → (s.calls t.who).client ≠ (s.calls i).client) :
    (run auto s ts).calls i = (run auto s (ts.filter fun t => t.who = i)).calls i ∧
      (run auto s ts).db.get? (s.calls i).client = (run auto s (ts.filter fun t => t.who = i)).db.get? (s.calls i).client :=
  apart auto i ts s s rfl ho rfl

theorem run_replicate (auto : Bool) (t : Turn) : ∀ (n : Nat) (s : Sys),
    (((run auto s (List.replicate n t)).calls t.who).pc, (run auto s (List.replicate n t)).db) =
      alone auto (s.calls t.who).client t n ((s.calls t.who).pc, s.db)
  | 0, _ => rfl
  | n + 1, s => by
      have h := run_replicate auto t n (turn auto s t)
      rw [turn_client, turn_self] at h
      exact h

/-- Such an authorization request comes to what it comes to in the sequential model, and leaves the same of its client behind. -/
theorem C202_sequential (A : AutoEnv) (st : AppState) (s : Sys) (ts : List Turn) (t : Turn) (provided : List Doc) (auto : Bool)
    (hdb : s.db = st.srv.cdb) (hl : (s.calls t.who).pc = .look)
    (ho : ∀ u ∈ ts, u.who ≠ t.who → (s.calls u.who).client ≠ (s.calls t.who).client)
    (hown : ts.filter (fun u => u.who = t.who) = List.replicate 5 t) (hs : automaticSupported .oidc A.supported = .ok auto)
    (h : Comes A { st with srv := { st.srv with cdb := st.srv.cdb.filter fun p => p.1 ≠ (s.calls t.who).client } } (s.calls t.who).client provided t.answer) :
    ((run auto s ts).calls t.who).pc =
        .done (outcome (s.calls t.who).client (clientAuthentication A .oidc st (s.calls t.who).client provided).1) ∧
      (run auto s ts).db.get? (s.calls t.who).client =
        (clientAuthentication A .oidc st (s.calls t.who).client provided).2.srv.cdb.get? (s.calls t.who).client := by
  have ha := C202_apart_partial auto s ts t.who ho
  rw [hown] at ha
  have hr := run_replicate auto t 5 s
  rw [hl, hdb, alone_eq A st _ provided auto t hs h] at hr
  rw [ha.1, ha.2]
  have h1 := congrArg Prod.fst hr
  have h2 := congrArg Prod.snd hr
  simp only at h1 h2
  rw [h1, h2]
  exact ⟨rfl, rfl⟩

/-! ### Clients that are not registered automatically -/

/-- Clients that have registered themselves, or were entered by hand, are found by every request and stay as they are, whatever is
handled at the same time, and whether or not they could be registered again. -/
theorem C202_settled_partial (auto : Bool) (s : Sys) (ts : List Turn) (hs : Start s) (c : String) (info : Info)
    (hc : s.db.get? c = some info) (hn : info.has "automatic_registered" = false) :
    (run auto s ts).db.get? c = some info ∧
      ∀ i r, (s.calls i).client = c → ((run auto s ts).calls i).pc = .done r → r = .ok true := by
  have key : ∀ (ts : List Turn) (q : Sys), q.db.get? c = some info →
      (∀ i, (q.calls i).client = c → (q.calls i).pc = .look ∨ (q.calls i).pc = .read ∨ (q.calls i).pc = .done (.ok true)) →
      (run auto q ts).db.get? c = some info ∧ (∀ i, ((run auto q ts).calls i).client = c →
        ((run auto q ts).calls i).pc = .look ∨ ((run auto q ts).calls i).pc = .read ∨ ((run auto q ts).calls i).pc = .done (.ok true)) := by
    intro ts
    induction ts with
    | nil => intro q h1 h2; exact ⟨h1, h2⟩
    | cons t ts ih =>
      intro q h1 h2
      refine ih (turn auto q t) ?_ ?_
      · simp only [turn]
        rw [get?_access]
        by_cases hw : (q.calls t.who).client = c
        · rw [if_pos hw, h1]
          rcases h2 t.who hw with h | h | h <;> rw [h] <;> rfl
        · rw [if_neg hw, h1]
      · intro i hi
        rw [turn_client] at hi
        by_cases hw : i = t.who
        · subst hw
          rw [turn_self]
          rcases h2 t.who hi with h | h | h <;> rw [h]
          · right; right
            simp only [access]
            rw [hi, h1]
            simp [looked, Settled, hn]
          · right; right
            simp only [access]
            rw [hi, h1]
            rfl
          · right; right; rfl
        · rw [turn_other auto q t hw]; exact h2 i hi
  have h := key ts s hc (fun i _ => (hs i).elim .inl (fun h => .inr (.inl h)))
  refine ⟨h.1, fun i r hi hr => ?_⟩
  rcases h.2 i (by rw [run_client]; exact hi) with hp | hp | hp
  · rw [hr] at hp; cases hp
  · rw [hr] at hp; cases hp
  · rw [hr] at hp; cases hp; rfl

/-! ### Clients that are -/

/-- Requests that have deleted their client and not yet put it back. -/
def Between (pc : Pc) : Prop := pc = .ask ∨ ∃ info, pc = .store info

/-- While all registrations of a client succeed it is in the client database, or a request is under way that is about to put it there. -/
theorem present_or_between (c : String) : ∀ (ts : List Turn) (s : Sys), Welcome s ts c →
    ((s.db.get? c).isSome = true ∨ ∃ i, (s.calls i).client = c ∧ Between (s.calls i).pc) →
    ((run true s ts).db.get? c).isSome = true ∨ ∃ i, ((run true s ts).calls i).client = c ∧ Between ((run true s ts).calls i).pc
  | [], _, _, h => h
  | t :: ts, s, hw, h => by
      refine present_or_between c ts (turn true s t) ?_ ?_
      · intro u hu hc
        rw [turn_client] at hc
        exact hw u (List.mem_cons_of_mem _ hu) hc
      · by_cases hc : (s.calls t.who).client = c
        · have hdb : (turn true s t).db.get? c = after (s.calls t.who).pc (s.db.get? c) := by
            simp only [turn]
            rw [get?_access, if_pos hc]
          have hself := turn_self true s t
          rw [hc] at hself
          -- a request for `c` that is between before the turn, and is not the one whose turn it is
          have other : ∀ i, i ≠ t.who → (s.calls i).client = c → Between (s.calls i).pc →
              ∃ i, ((turn true s t).calls i).client = c ∧ Between ((turn true s t).calls i).pc := by
            intro i hi hic hb
            exact ⟨i, by rw [turn_client]; exact hic, by rw [turn_other true s t hi]; exact hb⟩
          have mine : Between ((turn true s t).calls t.who).pc →
              ∃ i, ((turn true s t).calls i).client = c ∧ Between ((turn true s t).calls i).pc :=
            fun hb => ⟨t.who, by rw [turn_client]; exact hc, hb⟩
          cases hp : (s.calls t.who).pc with
          | ask =>
            right
            apply mine
            rw [hself, hp]
            obtain ⟨info, hi⟩ := hw t (by simp) hc
            simp only [access, hi, registered]
            exact .inr ⟨info, rfl⟩
          | store info => left; rw [hdb, hp]; rfl
          | delete =>
            by_cases hg : (s.db.get? c).isSome = true
            · right
              apply mine
              rw [hself, hp]
              simp only [access]
              rw [deleted_pc, if_pos hg]
              exact .inl rfl
            · rcases h with h | ⟨i, hic, hb⟩
              · exact absurd h hg
              · right
                refine other i ?_ hic hb
                rintro rfl
                rw [hp] at hb
                rcases hb with hb | ⟨_, hb⟩ <;> cases hb
          | look =>
            rcases h with h | ⟨i, hic, hb⟩
            · left; rw [hdb, hp]; exact h
            · right
              refine other i ?_ hic hb
              rintro rfl
              rw [hp] at hb
              rcases hb with hb | ⟨_, hb⟩ <;> cases hb
          | read =>
            rcases h with h | ⟨i, hic, hb⟩
            · left; rw [hdb, hp]; exact h
            · right
              refine other i ?_ hic hb
              rintro rfl
              rw [hp] at hb
              rcases hb with hb | ⟨_, hb⟩ <;> cases hb
          | mark =>
            rcases h with h | ⟨i, hic, hb⟩
            · left; rw [hdb, hp]; simpa [after] using h
            · right
              refine other i ?_ hic hb
              rintro rfl
              rw [hp] at hb
              rcases hb with hb | ⟨_, hb⟩ <;> cases hb
          | done r =>
            rcases h with h | ⟨i, hic, hb⟩
            · left; rw [hdb, hp]; exact h
            · right
              refine other i ?_ hic hb
              rintro rfl
              rw [hp] at hb
              rcases hb with hb | ⟨_, hb⟩ <;> cases hb
        · rcases h with h | ⟨i, hic, hb⟩
          · left
            simp only [turn]
            rw [get?_access, if_neg hc]
            exact h
          · right
            have hi : i ≠ t.who := by rintro rfl; exact hc hic
            exact ⟨i, by rw [turn_client]; exact hic, by rw [turn_other true s t hi]; exact hb⟩

/-- C202 for the time when everything is over: once no request of the client is under way, the server knows the client, whatever was handled at
the same time and whichever requests failed. Missing: what happens meanwhile. -/
theorem C202_after_partial (s : Sys) (ts : List Turn) (c : String) (hk : (s.db.get? c).isSome = true) (hw : Welcome s ts c)
    (hq : ∀ i, ((run true s ts).calls i).client = c → ∃ r, ((run true s ts).calls i).pc = .done r ∨ ((run true s ts).calls i).pc = .look ∨
      ((run true s ts).calls i).pc = .read) :
    ((run true s ts).db.get? c).isSome = true := by
  rcases present_or_between c ts s hw (.inl hk) with h | ⟨i, hi, hb⟩
  · exact h
  · exfalso
    obtain ⟨r, h | h | h⟩ := hq i hi <;> rw [h] at hb <;> rcases hb with hb | ⟨_, hb⟩ <;> cases hb

/-- What holds of request `i` throughout, however it is disturbed. -/
def Fate (T : List Turn) (i : Nat) (pc : Pc) : Prop :=
  match pc with
  | .done (.error x) => x = .keyError ∨ ∃ t ∈ T, t.who = i ∧ t.answer = .error x
  | _ => True

theorem fate_access {auto : Bool} {c : String} {t : Turn} {db : Dict Info} {pc : Pc} {T : List Turn} (ht : t ∈ T) (h : Fate T t.who pc) :
    Fate T t.who (access auto c t db pc).1 := by
  cases pc with
  | look =>
    simp only [access, looked]
    split
    · trivial
    · split
      · split <;> trivial
      · trivial
  | read => trivial
  | delete =>
    simp only [access]
    rw [deleted_pc]
    split
    · trivial
    · exact .inl rfl
  | ask =>
    simp only [access]
    cases ha : t.answer with
    | error x => exact .inr ⟨t, ht, rfl, ha⟩
    | ok o => cases o <;> trivial
  | store info => trivial
  | mark =>
    simp only [access]
    rw [marked_pc]
    split
    · trivial
    · exact .inl rfl
  | done r => exact h

/-- What a request may lack when it is done, as far as it is alone with its client: nothing, if the client can be registered. -/
theorem alone_fine {auto : Bool} {c : String} {T : List Turn} (hw : ∀ t ∈ T, ∃ info, t.answer = .ok (some info)) (ha : auto = true) :
    ∀ (ts : List Turn) (pc : Pc) (db : Dict Info), (∀ t ∈ ts, t ∈ T) →
      ((pc = .look ∧ (db.get? c).isSome = true) ∨ (pc = .read ∧ (db.get? c).isSome = true) ∨ (pc = .delete ∧ (db.get? c).isSome = true) ∨ pc = .ask ∨
        (∃ info, pc = .store info) ∨ (pc = .mark ∧ (db.get? c).isSome = true) ∨ pc = .done (.ok true)) →
      ∀ r, (ts.foldl (fun (x : Pc × Dict Info) t => access auto c t x.2 x.1) (pc, db)).1 = .done r → r = .ok true
  | [], pc, db, _, h, r, hr => by
      simp only [List.foldl_nil] at hr
      subst hr
      rcases h with h | h | h | h | ⟨_, h⟩ | h | h
      · cases h.1
      · cases h.1
      · cases h.1
      · cases h
      · cases h
      · cases h.1
      · cases h; rfl
  | t :: ts, pc, db, hsub, h, r, hr => by
      simp only [List.foldl_cons] at hr
      refine alone_fine hw ha ts (access auto c t db pc).1 (access auto c t db pc).2 (fun u hu => hsub u (List.mem_cons_of_mem _ hu)) ?_ r hr
      obtain ⟨info, hi⟩ := hw t (hsub t (by simp))
      have hg := get?_access auto c t db pc c
      rw [if_pos rfl] at hg
      rw [hg]
      rcases h with ⟨rfl, h⟩ | ⟨rfl, h⟩ | ⟨rfl, h⟩ | rfl | ⟨i', rfl⟩ | ⟨rfl, h⟩ | rfl
      · simp only [access, looked, ha, if_true, h]
        by_cases hset : Settled .oidc (db.get? c) = true
        · simp [hset]
        · simp [hset, after, h]
      · simp [access, h]
      · simp only [access]
        rw [deleted_pc, if_pos h]
        simp
      · simp [access, hi, registered]
      · simp [access, after]
      · simp only [access]
        rw [marked_pc, if_pos h]
        simp
      · simp [access]

theorem run_fold (auto : Bool) (i : Nat) : ∀ (ts : List Turn) (s : Sys), (∀ t ∈ ts, t.who = i) →
    (((run auto s ts).calls i).pc, (run auto s ts).db) =
      ts.foldl (fun (x : Pc × Dict Info) t => access auto (s.calls i).client t x.2 x.1) ((s.calls i).pc, s.db)
  | [], _, _ => rfl
  | t :: ts, s, h => by
      have ht := h t (by simp)
      subst ht
      have := run_fold auto t.who ts (turn auto s t) (fun u hu => h u (List.mem_cons_of_mem _ hu))
      rw [turn_client, turn_self] at this
      exact this

/-- C202 in full for a request while no other request of the same client is handled. -/
theorem C202_single_partial (s : Sys) (ts : List Turn) (hs : Start s) (i : Nat) (r : Except PyErr Bool)
    (ho : ∀ t ∈ ts, t.who ≠ i → (s.calls t.who).client ≠ (s.calls i).client)
    (h : ((run true s ts).calls i).pc = .done r) (hk : (s.db.get? (s.calls i).client).isSome = true)
    (hw : Welcome s ts (s.calls i).client) : r = .ok true := by
  rw [(C202_apart_partial true s ts i ho).1] at h
  have hf := run_fold true i (ts.filter fun t => t.who = i) s (by intro t ht; simpa using (List.mem_filter.1 ht).2)
  have h' := congrArg Prod.fst hf
  simp only at h'
  rw [h] at h'
  refine alone_fine (T := ts.filter fun t => t.who = i) ?_ rfl _ _ _ (fun _ h => h) ?_ r h'.symm
  · intro t ht
    obtain ⟨h1, h2⟩ := List.mem_filter.1 ht
    exact hw t h1 (by rw [show t.who = i by simpa using h2])
  · rcases hs i with hl | hl
    · exact .inl ⟨hl, hk⟩
    · exact .inr (.inl ⟨hl, hk⟩)

theorem fate_run (auto : Bool) (T : List Turn) (i : Nat) : ∀ (ts : List Turn) (s : Sys), (∀ t ∈ ts, t ∈ T) → Fate T i (s.calls i).pc →
    Fate T i ((run auto s ts).calls i).pc
  | [], _, _, h => h
  | t :: ts, s, hsub, h => by
      refine fate_run auto T i ts (turn auto s t) (fun u hu => hsub u (List.mem_cons_of_mem _ hu)) ?_
      by_cases hi : i = t.who
      · subst hi
        rw [turn_self]
        exact fate_access (hsub t (by simp)) h
      · rw [turn_other auto s t hi]; exact h

/-- The only exception a request may end with that did not come up when it was registered itself is KeyError. -/
theorem C202_errors_partial (auto : Bool) (s : Sys) (ts : List Turn) (hs : Start s) (i : Nat) (x : PyErr)
    (h : ((run auto s ts).calls i).pc = .done (.error x)) :
    x = .keyError ∨ ∃ t ∈ ts, t.who = i ∧ t.answer = .error x := by
  have := fate_run auto ts i ts s (fun _ h => h) (by rcases hs i with h | h <;> rw [h] <;> trivial)
  rw [h] at this
  exact this

/-! ### What goes wrong, and examples -/

/-- A client that was registered automatically. -/
def rpInfo : Info := [("client_id", .str "https://rp"), ("automatic_registered", .bool true)]
def rpNew : Info := [("client_id", .str "https://rp")]

/-- A turn of request `i`; the registration succeeds. -/
def got (i : Nat) : Turn := { who := i, answer := .ok (some rpNew) }

/-- Requests of one client: those with even numbers for authorization. -/
def demo : Sys := { db := [("https://rp", rpInfo)], calls := fun i => { client := "https://rp", pc := if i % 2 = 0 then .look else .read } }

theorem demo_start : Start demo := by
  intro i
  simp only [demo]
  by_cases h : i % 2 = 0
  · exact .inl (if_pos h)
  · exact .inr (if_neg h)

theorem got_welcome {ts : List Turn} (h : ∀ t ∈ ts, t = got t.who) (c : String) : Welcome demo ts c := by
  intro t ht _
  rw [h t ht]
  exact ⟨_, rfl⟩

/-- Two authorization requests of the client at the same time: the second one to delete what is known of it fails. -/
theorem C202_both_delete_violation : ¬ C202_full := by
  intro h
  have hrun : ((run true demo [got 0, got 2, got 0, got 2]).calls 2).pc = .done (.error .keyError) := by decide +kernel
  cases h demo _ demo_start 2 _ hrun (by decide +kernel) (got_welcome (by simp [got]) _)

/-- A token request of the client while an authorization request of it is handled: the client is unknown. -/
theorem C202_unknown_violation : ¬ C202_full := by
  intro h
  have hrun : ((run true demo [got 0, got 0, got 1]).calls 1).pc = .done (.ok false) := by decide +kernel
  cases h demo _ demo_start 1 _ hrun (by decide +kernel) (got_welcome (by simp [got]) _)

/-- An authorization request is registered, and loses that to another one before it is done. -/
theorem C202_lost_violation : ¬ C202_full := by
  intro h
  have hrun : ((run true demo [got 0, got 2, got 0, got 0, got 0, got 2, got 0]).calls 0).pc = .done (.error .keyError) := by decide +kernel
  cases h demo _ demo_start 0 _ hrun (by decide +kernel) (got_welcome (by simp [got]) _)

/-- One after the other they are all let in, and the client stays known. -/
example : ((run true demo [got 0, got 0, got 0, got 0, got 0, got 1, got 2, got 2, got 2, got 2, got 2]).calls 0).pc = .done (.ok true) ∧
    ((run true demo [got 0, got 0, got 0, got 0, got 0, got 1, got 2, got 2, got 2, got 2, got 2]).calls 1).pc = .done (.ok true) ∧
    ((run true demo [got 0, got 0, got 0, got 0, got 0, got 1, got 2, got 2, got 2, got 2, got 2]).calls 2).pc = .done (.ok true) ∧
    (run true demo [got 0, got 0, got 0, got 0, got 0, got 1, got 2, got 2, got 2, got 2, got 2]).db.get? "https://rp" = some rpInfo := by
  decide +kernel

/-- After the first violation the client is known again. -/
example : (run true demo [got 0, got 2, got 0, got 2, got 0, got 0, got 0]).db.get? "https://rp" = some rpInfo := by decide +kernel
example : ∀ i, ((run true demo [got 0, got 2, got 0, got 2, got 0, got 0, got 0]).calls i).client = "https://rp" →
    ∃ r, ((run true demo [got 0, got 2, got 0, got 2, got 0, got 0, got 0]).calls i).pc = .done r ∨
      ((run true demo [got 0, got 2, got 0, got 2, got 0, got 0, got 0]).calls i).pc = .look ∨
      ((run true demo [got 0, got 2, got 0, got 2, got 0, got 0, got 0]).calls i).pc = .read := by
  intro i _
  by_cases h0 : i = 0
  · subst h0; exact ⟨.ok true, .inl (by decide +kernel)⟩
  · by_cases h2 : i = 2
    · subst h2; exact ⟨.error .keyError, .inl (by decide +kernel)⟩
    · refine ⟨.ok true, .inr ?_⟩
      have : (run true demo [got 0, got 2, got 0, got 2, got 0, got 0, got 0]).calls i = demo.calls i := by
        simp only [run, List.foldl_cons, List.foldl_nil]
        simp [turn_other, got, h0, h2]
      rw [this]
      exact demo_start i

/-- A client that has registered itself, while another is registered automatically. -/
def mixed : Sys := { db := [("https://rp", rpInfo), ("https://ex", [("client_id", .str "https://ex")])], calls := fun i => { client := if i = 0 then "https://rp" else "https://ex", pc := .look } }

example : Start mixed ∧ mixed.db.get? "https://ex" = some [("client_id", .str "https://ex")] ∧
    Dict.has ([("client_id", .str "https://ex")] : Info) "automatic_registered" = false ∧
    ((run true mixed [got 0, got 1, got 0, got 2]).calls 2).pc = .done (.ok true) := by
  refine ⟨fun i => .inl rfl, by decide +kernel, by decide +kernel, by decide +kernel⟩
example : ∀ t ∈ [got 0, got 1, got 0, got 1, got 0, got 0, got 0], t.who ≠ 0 → (mixed.calls t.who).client ≠ (mixed.calls 0).client := by decide +kernel

/-- A server whose registration keeps the metadata as it is, and a federation in which the leaf is resolved. -/
def keeps : AutoEnv := { Ex.autoO with register := fun S request => (some "https://leaf", { S with cdb := S.cdb.set "https://leaf" request }) }

example : automaticSupported .oidc keeps.supported = .ok true ∧
    ∃ info, Comes keeps Ex.app "https://leaf" [] (.ok (some info)) ∧ info.get? "client_id" = some (.str "https://leaf") := by
  refine ⟨by decide +kernel, ((doAutomatic keeps .oidc Ex.app "https://leaf" []).2.srv.cdb.get? "https://leaf").getD [], ⟨?_, ?_⟩, ?_⟩
  · decide +kernel
  · decide +kernel
  · decide +kernel

end Fed.Registration.Threads
