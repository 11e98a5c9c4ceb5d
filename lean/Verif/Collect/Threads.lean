import Verif.Collect.Keys
import Verif.Collect.CacheProps
/-
Several collections at the same time. The web front ends hand each request to a thread of its own (`app.run` of Flask, for example
/repo/edu_federation/entity.py 58), and all threads share the collector with its caches. `_get_entity_statement`,
/repo/src/fedservice/entity/function/trust_chain_collector.py 265-299, is cut up into its accesses to the cache; other threads may
come in between any two of them.
-/
namespace Fed.Collect.Threads
open Fed Fed.Collect

/-- How far a call of `_get_entity_statement` has come (trust_chain_collector.py 265-299): about to look for the statement (268);
with the statement `v` about to look for its expiry (275); about to delete the statement (278), its expiry (279); about to ask
the authority (282-290); about to store the statement `j` (295), its expiry (296); done. -/
inductive Pc
  | look
  | found (v : ESVal)
  | timedOut
  | timedOut2
  | ask
  | store (j : Jws)
  | storeExp (j : Jws)
  | done (r : Except PyErr (Option Jws))
deriving DecidableEq

/-- A call of `_get_entity_statement`. -/
structure Call where
  authority : String
  entity : String
  pc : Pc := .look
deriving DecidableEq

/-- One access: the call that gets its turn, the time, and what the rest of the world answers if it is asked now: the statement,
nothing (the authority has no fetch endpoint, 284), or an error (of the transfer, or of what was received). Simplification: finding the
endpoint and fetching the statement is one step; the cache of configurations that is used with it is not part of this file. -/
structure Turn where
  who : Nat
  now : Int
  answer : Except PyErr (Option Jws)

/-- After `_exp` has been read (trust_chain_collector.py 275-280). Simplification as in `getStatement`: an expiry time found
where a statement is expected raises TypeError. -/
def compareExp (delta now : Int) (v : ESVal) (exp : Option ESVal) : Pc :=
  match v, exp with
  | .stmt j, some (.time x) => if now > x - delta then .timedOut else .done (.ok (some j))
  | _, _ => .done (.error .typeError)

/-- What was received when the authority was asked (trust_chain_collector.py 282-291). -/
def received : Except PyErr (Option Jws) → Pc
  | .error x => .done (.error x)
  | .ok none => .done (.ok none)
  | .ok (some j) => .store j

/-- After `del self.entity_statement_cache[key]` (cache.py 42-43). -/
def deleted (db : Dict ESVal) (key : String) (next : Pc) : Pc × Dict ESVal :=
  match db.del key with
  | .ok db' => (next, db')
  | .error x => (.done (.error x), db)

/-- One access of a call for `authority` and `entity` to the cache (trust_chain_collector.py 265-299). -/
def access (delta : Int) (authority entity : String) (t : Turn) (db : Dict ESVal) : Pc → Pc × Dict ESVal
  | .look =>
    match db.get? (cacheKey authority entity) with
    | none => (.ask, db)
    | some v => (.found v, db)
  | .found v => (compareExp delta t.now v (db.get? (timeKey authority entity)), db)
  | .timedOut => deleted db (cacheKey authority entity) .timedOut2
  | .timedOut2 => deleted db (timeKey authority entity) .ask
  | .ask => (received t.answer, db)
  | .store j => (.storeExp j, db.set (cacheKey authority entity) (.stmt j))
  | .storeExp j =>
    match j.payload.exp with
    | none => (.done (.error .keyError), db)
    | some x => (.done (.ok (some j)), db.set (timeKey authority entity) (.time x))
  | .done r => (.done r, db)

/-- The process: the cache and its calls. There is no bound on how many there are; one that gets no turn has not begun. -/
structure Sys where
  db : Dict ESVal
  calls : Nat → Call

/-- One turn. -/
def turn (delta : Int) (s : Sys) (t : Turn) : Sys :=
  let c := s.calls t.who
  let r := access delta c.authority c.entity t s.db c.pc
  { db := r.2, calls := fun i => if i = t.who then { c with pc := r.1 } else s.calls i }

/-- All the turns of a schedule. -/
def run (delta : Int) (s : Sys) (ts : List Turn) : Sys := ts.foldl (turn delta) s

/-! ### The steps together are the function of the sequential model -/

/-- What the rest of the world answers, in the model of the whole function (trust_chain_collector.py 282-291). -/
def answerOf (C : Crypto) (P : Params) (W : World) (st : State) (entity authority : String) : Except PyErr (Option Jws) :=
  match (fetchEndpoint C P W st authority).1 with
  | .error e => .error e
  | .ok ep =>
    match usableEndpoint ep with
    | none => .ok none
    | some ep =>
      match W.fetch ep authority entity with
      | .error e => .error e.toPy
      | .ok none => .error .valueError
      | .ok (some j) => .ok (some j)

/-- A call that is not interrupted. -/
def alone (delta : Int) (authority entity : String) (t : Turn) : Nat → Pc × Dict ESVal → Pc × Dict ESVal
  | 0, r => r
  | n + 1, r => alone delta authority entity t n (access delta authority entity t r.2 r.1)

theorem alone_done (delta : Int) (a e : String) (t : Turn) (r : Except PyErr (Option Jws)) (db : Dict ESVal) :
    ∀ n, alone delta a e t n (.done r, db) = (.done r, db)
  | 0 => rfl
  | n + 1 => alone_done delta a e t r db n

theorem refreshConfig_es (C : Crypto) (W : World) (st : State) (a : String) : (refreshConfig C W st a).2.es = st.es := by
  unfold refreshConfig
  repeat' split
  all_goals rfl

theorem fetchEndpoint_es (C : Crypto) (P : Params) (W : World) (st : State) (a : String) :
    (fetchEndpoint C P W st a).2.es = st.es := by
  unfold fetchEndpoint
  repeat' split
  all_goals first | rfl | exact refreshConfig_es ..

theorem refreshConfig_indep (C : Crypto) (W : World) (cfg : Dict Config) (es es' : Dict ESVal) (a : String) :
    (refreshConfig C W ⟨cfg, es⟩ a).1 = (refreshConfig C W ⟨cfg, es'⟩ a).1 := by
  unfold refreshConfig
  repeat' split
  all_goals simp_all

theorem fetchEndpoint_indep (C : Crypto) (P : Params) (W : World) (cfg : Dict Config) (es es' : Dict ESVal) (a : String) :
    (fetchEndpoint C P W ⟨cfg, es⟩ a).1 = (fetchEndpoint C P W ⟨cfg, es'⟩ a).1 := by
  unfold fetchEndpoint
  generalize subscript P.delta W.now cfg a = r
  obtain ⟨r, db⟩ := r
  cases r with
  | error e => rfl
  | ok r =>
    cases r with
    | none => exact refreshConfig_indep ..
    | some c =>
      simp only
      cases getFetchEndpoint c.jws.payload with
      | error e => rfl
      | ok ep =>
        simp only
        cases usableEndpoint ep with
        | none => exact refreshConfig_indep ..
        | some x => rfl

theorem alone_ask (C : Crypto) (P : Params) (W : World) (st : State) (e a : String) (t : Turn)
    (ht : t.answer = answerOf C P W st e a) (n : Nat) :
    alone P.delta a e t (n + 3) (.ask, st.es) =
      (.done (fetchStatement C P W st e a).1, (fetchStatement C P W st e a).2.es) := by
  have hes := fetchEndpoint_es C P W st a
  unfold answerOf at ht
  unfold fetchStatement
  generalize fetchEndpoint C P W st a = r at ht hes ⊢
  obtain ⟨r, st1⟩ := r
  simp only at ht hes ⊢
  cases r with
  | error x => simp only at ht; simp [alone, access, ht, received, alone_done, hes]
  | ok ep =>
    simp only at ht ⊢
    cases hu : usableEndpoint ep with
    | none => simp only [hu] at ht; simp [alone, access, ht, received, alone_done, hes]
    | some ep =>
      simp only [hu] at ht ⊢
      cases hf : W.fetch ep a e with
      | error x => simp only [hf] at ht; simp [alone, access, ht, received, alone_done, hes]
      | ok d =>
        cases d with
        | none => simp only [hf] at ht; simp [alone, access, ht, received, alone_done, hes]
        | some j =>
          simp only [hf] at ht ⊢
          cases hx : j.payload.exp with
          | none => simp [alone, access, ht, received, alone_done, hes, hx]
          | some x => simp [alone, access, ht, received, alone_done, hes, hx]

theorem del_there {db : Dict ESVal} {k : String} {v : ESVal} (h : db.get? k = some v) : db.del k = .ok (drop db k) := by
  have : db.has k = true := (Dict.has_iff db k).2 ((Dict.mem_keys_iff_exists _ _).2 ⟨v, h⟩)
  simp [Dict.del, this, drop]

/-- A call that is not interrupted does what the model of the whole function says. -/
theorem alone_eq (C : Crypto) (P : Params) (W : World) (st : State) (e a : String) (t : Turn) (hn : t.now = W.now)
    (ht : t.answer = answerOf C P W st e a) :
    alone P.delta a e t 7 (.look, st.es) = (.done (getStatement C P W st e a).1, (getStatement C P W st e a).2.es) := by
  unfold getStatement
  cases h1 : st.es.get? (cacheKey a e) with
  | none =>
    have : alone P.delta a e t 7 (.look, st.es) = alone P.delta a e t 6 (.ask, st.es) := by
      simp [alone, access, h1]
    rw [this, alone_ask C P W st e a t ht 3]
  | some v =>
    cases v with
    | time x => simp [alone, access, h1, compareExp]
    | stmt j =>
      simp only
      cases h2 : st.es.get? (timeKey a e) with
      | none => simp [alone, access, h1, h2, compareExp]
      | some w =>
        cases w with
        | stmt j' => simp [alone, access, h1, h2, compareExp]
        | time x =>
          simp only
          by_cases hx : W.now > x - P.delta
          · rw [if_pos hx]
            have h3 : (drop st.es (cacheKey a e)).get? (timeKey a e) = some (.time x) := by
              rw [get?_drop, if_neg (cacheKey_ne_timeKey a e), h2]
            have : alone P.delta a e t 7 (.look, st.es) =
                alone P.delta a e t 3 (.ask, drop (drop st.es (cacheKey a e)) (timeKey a e)) := by
              simp only [alone, access, h1, h2, compareExp, hn, if_pos hx, deleted, del_there h1, del_there h3]
            rw [this]
            refine alone_ask C P W { st with es := drop (drop st.es (cacheKey a e)) (timeKey a e) } e a t ?_ 0
            rw [ht]
            unfold answerOf
            rw [fetchEndpoint_indep C P W st.config st.es (drop (drop st.es (cacheKey a e)) (timeKey a e)) a]
          · rw [if_neg hx]
            simp [alone, access, h1, h2, compareExp, hn, hx]

end Fed.Collect.Threads
