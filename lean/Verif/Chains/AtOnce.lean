import Verif.Chains.Liveness
import Verif.Verifier.Threads
import Verif.Collect.Threads
/-
Several threads resolving entities in one process. They share what the federation entity keeps: the caches of the collector, the key
jar and the stored chains. The functions of `Verif.Collect.Collector` and `Verif.Chains.Model` are cut up into their accesses to these;
other threads may come in between any two of them. One access to a Python dictionary is atomic, and so are the methods of the key jar.
-/
namespace Fed.Chains.AtOnce
open Fed Fed.Verify

/-- What is left of the work of a thread: nothing, it has its result; or an access to what is shared, `f` being what the access makes
of it and `k` what is left when the access found what it is given. -/
inductive Prog (α : Type) : Type
  | ret (a : α)
  | act (f : State → State) (k : State → Prog α)

namespace Prog
variable {α β : Type}

/-- One piece of work after another. -/
def bind : Prog α → (α → Prog β) → Prog β
  | .ret a, g => g a
  | .act f k, g => .act f fun s => (k s).bind g

/-- The same when an exception ends it. -/
def andThen (p : Prog (Except PyErr α)) (g : α → Prog (Except PyErr β)) : Prog (Except PyErr β) :=
  p.bind fun r => match r with
    | .error e => .ret (.error e)
    | .ok a => g a

/-- The work done without interruption. -/
def run : Prog α → State → α × State
  | .ret a, s => (a, s)
  | .act f k, s => (k s).run (f s)

/-- Looking at what is shared. -/
def look (k : State → Prog α) : Prog α := .act id k

@[simp] theorem run_ret (a : α) (s : State) : (Prog.ret a).run s = (a, s) := rfl
@[simp] theorem run_act (f : State → State) (k : State → Prog α) (s : State) : (Prog.act f k).run s = (k s).run (f s) := rfl
@[simp] theorem run_look (k : State → Prog α) (s : State) : (look k).run s = (k s).run s := rfl

theorem run_bind (g : α → Prog β) : ∀ (p : Prog α) (s : State), (p.bind g).run s = (g (p.run s).1).run (p.run s).2
  | .ret _, _ => rfl
  | .act f k, s => run_bind g (k s) (f s)

theorem run_andThen (p : Prog (Except PyErr α)) (g : α → Prog (Except PyErr β)) (s : State) :
    (p.andThen g).run s = match p.run s with
      | (.error e, s') => (.error e, s')
      | (.ok a, s') => (g a).run s' := by
  rw [andThen, run_bind]
  obtain ⟨r, s'⟩ := p.run s
  cases r <;> rfl

end Prog
open Prog

/-- The configuration cache changed. -/
def onConfig (g : Dict Collect.Config → Dict Collect.Config) (s : State) : State := { s with coll := { s.coll with config := g s.coll.config } }

/-- The statement cache changed. -/
def onEs (g : Dict Collect.ESVal → Dict Collect.ESVal) (s : State) : State := { s with coll := { s.coll with es := g s.coll.es } }

/-- The key jar changed. -/
def onJar (g : KeyJar → KeyJar) (s : State) : State := { s with jar := g s.jar }

/-- `ESCache.__getitem__` on the configuration cache (cache.py 25-40): the value is read (27); it is deleted in a second access (37), which raises KeyError
when it is not there any more. -/
def subscriptP (delta now : Int) (k : String) : Prog (Except PyErr (Option Collect.Config)) :=
  look fun s =>
    match s.coll.config.get? k with
    | none => .ret (.ok none)
    | some c =>
      match c.jws.payload.exp with
      | none => .ret (.error .keyError)
      | some e =>
        if now < e - delta then .ret (.ok (some c))
        else .act (onConfig fun d => Collect.drop d k) fun s =>
          match s.coll.config.get? k with
          | none => .ret (.error .keyError)
          | some _ => .ret (.ok none)

/-- `Collect.refreshConfig` (trust_chain_collector.py 195-205). -/
def refreshP (C : Crypto) (W : Collect.World) (a : String) : Prog (Except PyErr (Option Val)) :=
  match W.config a with
  | .error e => .ret (.error e.toPy)
  | .ok none => .ret (.error .valueError)
  | .ok (some j) =>
    match selfVerify C W.now j with
    | .error e => .ret (.error e)
    | .ok p =>
      match Collect.getFetchEndpoint p with
      | .error e => .ret (.error e)
      | .ok ep => .act (onConfig fun d => d.set a ⟨j⟩) fun _ => .ret (.ok ep)

/-- `Collect.fetchEndpoint` (trust_chain_collector.py 184-207). -/
def fetchEndpointP (C : Crypto) (P : Collect.Params) (W : Collect.World) (a : String) : Prog (Except PyErr (Option Val)) :=
  (subscriptP P.delta W.now a).andThen fun o =>
    match o with
    | none => refreshP C W a
    | some c =>
      match Collect.getFetchEndpoint c.jws.payload with
      | .error e => .ret (.error e)
      | .ok ep =>
        match Collect.usableEndpoint ep with
        | some _ => .ret (.ok ep)
        | none => refreshP C W a

/-- `Collect.fetchStatement` (trust_chain_collector.py 282-299): the statement is stored in one access and the time it expires in another (296-297). -/
def fetchStatementP (C : Crypto) (P : Collect.Params) (W : Collect.World) (e a : String) : Prog (Except PyErr (Option Jws)) :=
  (fetchEndpointP C P W a).andThen fun ep =>
    match Collect.usableEndpoint ep with
    | none => .ret (.ok none)
    | some ep =>
      match W.fetch ep a e with
      | .error x => .ret (.error x.toPy)
      | .ok none => .ret (.error .valueError)
      | .ok (some j) => .act (onEs fun d => d.set (Collect.cacheKey a e) (.stmt j)) fun _ =>
        match j.payload.exp with
        | none => .ret (.error .keyError)
        | some x => .act (onEs fun d => d.set (Collect.timeKey a e) (.time x)) fun _ => .ret (.ok (some j))

/-- Two deletions, each of which raises KeyError when there is nothing to delete (trust_chain_collector.py 276-277), then `k`. -/
def forgetP {α : Type} (e a : String) (k : Prog (Except PyErr α)) : Prog (Except PyErr α) :=
  .act (onEs fun d => Collect.drop d (Collect.cacheKey a e)) fun s =>
    match s.coll.es.get? (Collect.cacheKey a e) with
    | none => .ret (.error .keyError)
    | some _ => .act (onEs fun d => Collect.drop d (Collect.timeKey a e)) fun s =>
      match s.coll.es.get? (Collect.timeKey a e) with
      | none => .ret (.error .keyError)
      | some _ => k

/-- `Collect.getStatement` (trust_chain_collector.py 265-299): the statement and the time it expires are read in two accesses (272, 275). -/
def getStatementP (C : Crypto) (P : Collect.Params) (W : Collect.World) (e a : String) : Prog (Except PyErr (Option Jws)) :=
  look fun s =>
    match s.coll.es.get? (Collect.cacheKey a e) with
    | none => fetchStatementP C P W e a
    | some (.time _) => .ret (.error .typeError)
    | some (.stmt j) => look fun s =>
      match s.coll.es.get? (Collect.timeKey a e) with
      | some (.time x) => if W.now > x - P.delta then forgetP e a (fetchStatementP C P W e a) else .ret (.ok (some j))
      | _ => .ret (.error .typeError)

/-- `Collect.overHints` (trust_chain_collector.py 257-263). -/
def overHintsP (branch : String → Prog (Except PyErr Collect.Branch)) : List String → Collect.Forest Jws → Prog (Except PyErr (Collect.Forest Jws))
  | [], acc => .ret (.ok acc)
  | a :: as, acc => (branch a).andThen fun b => overHintsP branch as (acc.set a b)

/-- `Collect.collectBranch` (trust_chain_collector.py 301-341). -/
def collectBranchP (C : Crypto) (P : Collect.Params) (W : Collect.World) (tree : String → Option Payload → Prog (Except PyErr (Collect.Forest Jws)))
    (e a : String) : Prog (Except PyErr Collect.Branch) :=
  if e = a ∧ e ∈ P.anchors then .ret (.ok none)
  else (getStatementP C P W e a).andThen fun o =>
    match o with
    | none => .ret (.ok none)
    | some j => (subscriptP P.delta W.now a).andThen fun c => (tree a (c.map (·.jws.payload))).andThen fun f => .ret (.ok (some (j, f)))

/-- `Collect.collectTree` (trust_chain_collector.py 227-263). -/
def collectTreeP (C : Crypto) (P : Collect.Params) (W : Collect.World) (stopAt : String) :
    (fuel : Nat) → String → Option Payload → Prog (Except PyErr (Collect.Forest Jws))
  | 0, _, _ => .ret (.error .outOfFuel)
  | _ + 1, _, none => .ret (.error .typeError)
  | n + 1, e, some cfg =>
    match cfg.hints with
    | none => .ret (.ok .nil)
    | some hs =>
      if cfg.iss = stopAt then .ret (.ok .nil)
      else overHintsP (collectBranchP C P W (collectTreeP C P W stopAt n) e) hs .nil

/-- `Collect.collect` (trust_chain_collector.py 350-376). -/
def collectP (C : Crypto) (P : Collect.Params) (W : Collect.World) (fuel : Nat) (entity stopAt : String) :
    Prog (Except PyErr (Collect.Forest Jws × Jws)) :=
  look fun s =>
    let cached : Except PyErr (Option Collect.Config) :=
      match s.coll.config.get? entity with
      | none => .ok none
      | some c => match Collect.tooOld P W c with | .error e => .error e | .ok true => .ok none | .ok false => .ok (some c)
    match cached with
    | .error e => .ret (.error e)
    | .ok (some c) => (collectTreeP C P W stopAt fuel entity (some c.jws.payload)).andThen fun f => .ret (.ok (f, c.jws))
    | .ok none =>
      match W.config entity with
      | .error e => .ret (.error e.toPy)
      | .ok none => .ret (.error .valueError)
      | .ok (some j) =>
        match selfVerify C W.now j with
        | .error e => .ret (.error e)
        | .ok p => .act (onConfig fun d => d.set entity ⟨j⟩) fun _ =>
          (collectTreeP C P W stopAt fuel entity (some p)).andThen fun f => .ret (.ok (f, j))

/-- The verification of one chain, access by access as in `Verify.Threads` (verifier.py 43-138); `n` turns are enough when it is `need`. -/
def verifyFrom (L : Lib) (chain : List Doc) : (n : Nat) → Threads.Pc → Prog (Except PyErr (Option TrustChain))
  | _, .done r => .ret r
  | 0, _ => .ret (.error .outOfFuel)
  | n + 1, pc => .act (onJar fun jar => (Threads.access L chain jar pc).2) fun s => verifyFrom L chain n (Threads.access L chain s.jar pc).1

/-- `verify_trust_chains` (/repo/src/fedservice/entity/function/__init__.py 101-113). -/
def verifyChainsP (L : Lib) : List (List Doc) → Prog (Except PyErr (List TrustChain))
  | [] => .ret (.ok [])
  | c :: cs => (verifyFrom L c (3 * c.length + 2) .start).andThen fun o => (verifyChainsP L cs).andThen fun tcs => .ret (.ok (o.toList ++ tcs))

/-- `get_verified_trust_chains` (/repo/src/fedservice/entity/function/__init__.py 154-161). -/
def getVerifiedP (V : Env) (entity : String) (stopAt : String := "") : Prog (Except PyErr (List TrustChain)) :=
  (collectP V.L.toCrypto V.P V.W V.fuel entity stopAt).andThen fun x =>
    (verifyChainsP V.L ((Collect.tree2chains x.1).map fun c => c.map some ++ [some x.2])).andThen fun tcs => .ret (applyPolicies V.E V.K tcs)

/-- `get_trust_chains` (/repo/src/fedservice/entity/__init__.py 268-277). -/
def getTrustChainsP (V : Env) (entity : String) : Prog (Except PyErr (List TrustChain)) :=
  look fun s =>
    match s.store.get? entity with
    | some tcs => .ret (.ok tcs)
    | none => (getVerifiedP V entity).andThen fun tcs =>
      match tcs with
      | [] => .ret (.ok [])
      | tc :: tcs => .act (fun s => { s with store := s.store.set entity (tc :: tcs) }) fun _ => .ret (.ok (tc :: tcs))

/-- `get_verified_metadata` (/repo/src/fedservice/entity/__init__.py 285-295). -/
def getVerifiedMetadataP (V : Env) (entity : String) : Prog (Except PyErr (Option (Dict Val))) :=
  (getTrustChainsP V entity).andThen fun tcs => .ret (.ok (tcs.head?.map (·.metadata)))

/-! ### The accesses together are the functions of the sequential model -/

theorem subscriptP_run (delta now : Int) (k : String) (s : State) :
    (subscriptP delta now k).run s = ((Collect.subscript delta now s.coll.config k).1, onConfig (fun _ => (Collect.subscript delta now s.coll.config k).2) s) := by
  simp only [subscriptP, run_look, Collect.subscript]
  cases h : s.coll.config.get? k with
  | none => rfl
  | some c =>
    simp only [Collect.CacheVal.dictExp]
    cases hx : c.jws.payload.exp with
    | none => rfl
    | some e =>
      simp only
      split
      · rfl
      · simp only [run_act, h, run_ret]
        rfl

/-- The state of the collector put back. -/
def withColl (s : State) (c : Collect.State) : State := { s with coll := c }

theorem refreshP_run (C : Crypto) (W : Collect.World) (a : String) (s : State) :
    (refreshP C W a).run s = ((Collect.refreshConfig C W s.coll a).1, withColl s (Collect.refreshConfig C W s.coll a).2) := by
  simp only [refreshP, Collect.refreshConfig]
  rcases W.config a with e | _ | j
  · rfl
  · rfl
  · simp only
    rcases selfVerify C W.now j with e | p
    · rfl
    · simp only
      rcases Collect.getFetchEndpoint p with e | ep <;> rfl

theorem fetchEndpointP_run (C : Crypto) (P : Collect.Params) (W : Collect.World) (a : String) (s : State) :
    (fetchEndpointP C P W a).run s = ((Collect.fetchEndpoint C P W s.coll a).1, withColl s (Collect.fetchEndpoint C P W s.coll a).2) := by
  rw [fetchEndpointP, run_andThen, subscriptP_run, Collect.fetchEndpoint]
  obtain ⟨r, db⟩ := Collect.subscript P.delta W.now s.coll.config a
  cases r with
  | error e => rfl
  | ok o =>
    cases o with
    | none => simp only; rw [refreshP_run]; rfl
    | some c =>
      simp only
      rcases Collect.getFetchEndpoint c.jws.payload with e | ep
      · rfl
      · simp only
        rcases Collect.usableEndpoint ep with _ | v
        · simp only; rw [refreshP_run]; rfl
        · rfl

theorem fetchStatementP_run (C : Crypto) (P : Collect.Params) (W : Collect.World) (e a : String) (s : State) :
    (fetchStatementP C P W e a).run s = ((Collect.fetchStatement C P W s.coll e a).1, withColl s (Collect.fetchStatement C P W s.coll e a).2) := by
  rw [fetchStatementP, run_andThen, fetchEndpointP_run, Collect.fetchStatement]
  obtain ⟨r, st⟩ := Collect.fetchEndpoint C P W s.coll a
  cases r with
  | error e => rfl
  | ok ep =>
    simp only
    rcases Collect.usableEndpoint ep with _ | v
    · rfl
    · simp only
      rcases W.fetch v a e with x | _ | j
      · rfl
      · rfl
      · simp only [run_act]
        rcases j.payload.exp with _ | x <;> rfl

theorem getStatementP_run (C : Crypto) (P : Collect.Params) (W : Collect.World) (e a : String) (s : State) :
    (getStatementP C P W e a).run s = ((Collect.getStatement C P W s.coll e a).1, withColl s (Collect.getStatement C P W s.coll e a).2) := by
  rw [getStatementP, run_look, Collect.getStatement]
  cases h : s.coll.es.get? (Collect.cacheKey a e) with
  | none => exact fetchStatementP_run C P W e a s
  | some v =>
    cases v with
    | time x => rfl
    | stmt j =>
      simp only [run_look]
      cases h' : s.coll.es.get? (Collect.timeKey a e) with
      | none => rfl
      | some v =>
        cases v with
        | stmt _ => rfl
        | time x =>
          simp only
          split
          · have h'' : (onEs (fun d => Collect.drop d (Collect.cacheKey a e)) s).coll.es.get? (Collect.timeKey a e) = some (.time x) := by
              simp only [onEs, Collect.drop]
              rw [Dict.get?_filter_ne, if_neg (Collect.cacheKey_ne_timeKey a e), h']
            simp only [forgetP, run_act, h, h'']
            exact fetchStatementP_run C P W e a _
          · rfl

theorem overHintsP_run (bp : String → Prog (Except PyErr Collect.Branch)) (b : Collect.State → String → Except PyErr Collect.Branch × Collect.State)
    (hb : ∀ a s, (bp a).run s = ((b s.coll a).1, withColl s (b s.coll a).2)) : ∀ (hs : List String) (acc : Collect.Forest Jws) (s : State),
    (overHintsP bp hs acc).run s = ((Collect.overHints b hs acc s.coll).1, withColl s (Collect.overHints b hs acc s.coll).2)
  | [], _, _ => rfl
  | a :: as, acc, s => by
    rw [overHintsP, run_andThen, hb, Collect.overHints]
    obtain ⟨r, st⟩ := b s.coll a
    cases r with
    | error e => rfl
    | ok x => exact overHintsP_run bp b hb as _ _

theorem collectBranchP_run (C : Crypto) (P : Collect.Params) (W : Collect.World) (tp : String → Option Payload → Prog (Except PyErr (Collect.Forest Jws)))
    (t : Collect.State → String → Option Payload → Except PyErr (Collect.Forest Jws) × Collect.State)
    (ht : ∀ a c s, (tp a c).run s = ((t s.coll a c).1, withColl s (t s.coll a c).2)) (e a : String) (s : State) :
    (collectBranchP C P W tp e a).run s = ((Collect.collectBranch C P W t e s.coll a).1, withColl s (Collect.collectBranch C P W t e s.coll a).2) := by
  rw [collectBranchP, Collect.collectBranch]
  split
  · rfl
  · rw [run_andThen, getStatementP_run]
    obtain ⟨r, st⟩ := Collect.getStatement C P W s.coll e a
    cases r with
    | error e => rfl
    | ok o =>
      cases o with
      | none => rfl
      | some j =>
        simp only
        rw [run_andThen, subscriptP_run]
        simp only [withColl]
        obtain ⟨r, db⟩ := Collect.subscript P.delta W.now st.config a
        cases r with
        | error e => rfl
        | ok c =>
          simp only [onConfig]
          rw [run_andThen, ht]
          simp only [withColl]
          generalize Option.map (fun c : Collect.Config => c.jws.payload) c = o
          generalize t { config := db, es := st.es } a o = r
          obtain ⟨r, st'⟩ := r
          cases r <;> rfl

theorem collectTreeP_run (C : Crypto) (P : Collect.Params) (W : Collect.World) (stopAt : String) : ∀ (n : Nat) (e : String) (c : Option Payload) (s : State),
    (collectTreeP C P W stopAt n e c).run s = ((Collect.collectTree C P W stopAt n s.coll e c).1, withColl s (Collect.collectTree C P W stopAt n s.coll e c).2)
  | 0, _, _, _ => rfl
  | _ + 1, _, none, _ => rfl
  | n + 1, e, some cfg, s => by
    simp only [collectTreeP, Collect.collectTree]
    rcases cfg.hints with _ | hs
    · rfl
    · simp only
      split
      · rfl
      · exact overHintsP_run _ _ (collectBranchP_run C P W _ _ (collectTreeP_run C P W stopAt n) e) _ _ _

theorem collectP_run (C : Crypto) (P : Collect.Params) (W : Collect.World) (fuel : Nat) (entity stopAt : String) (s : State) :
    (collectP C P W fuel entity stopAt).run s =
      ((Collect.collect C P W fuel s.coll entity stopAt).1, withColl s (Collect.collect C P W fuel s.coll entity stopAt).2) := by
  rw [collectP, run_look, Collect.collect]
  rcases s.coll.config.get? entity with _ | c
  · simp only
    rcases W.config entity with e | _ | j
    · rfl
    · rfl
    · simp only
      rcases selfVerify C W.now j with e | p
      · rfl
      · simp only
        rw [run_act, run_andThen, collectTreeP_run]
        simp only [onConfig]
        generalize Collect.collectTree C P W stopAt fuel { config := s.coll.config.set entity ⟨j⟩, es := s.coll.es } entity (some p) = r
        obtain ⟨r, st⟩ := r
        cases r <;> rfl
  · simp only
    rcases Collect.tooOld P W c with e | _ | _
    · rfl
    · simp only
      rw [run_andThen, collectTreeP_run]
      generalize Collect.collectTree C P W stopAt fuel s.coll entity (some c.jws.payload) = r
      obtain ⟨r, st⟩ := r
      cases r <;> rfl
    · simp only
      rcases W.config entity with e | _ | j
      · rfl
      · rfl
      · simp only
        rcases selfVerify C W.now j with e | p
        · rfl
        · simp only
          rw [run_act, run_andThen, collectTreeP_run]
          simp only [onConfig]
          generalize Collect.collectTree C P W stopAt fuel { config := s.coll.config.set entity ⟨j⟩, es := s.coll.es } entity (some p) = r
          obtain ⟨r, st⟩ := r
          cases r <;> rfl

/-- The key jar put back. -/
def withJar (s : State) (jar : KeyJar) : State := { s with jar := jar }

theorem verifyFrom_run (L : Lib) (chain : List Doc) : ∀ (n : Nat) (pc : Threads.Pc) (s : State) (r : Except PyErr (Option TrustChain)) (jar : KeyJar),
    Threads.alone L chain n (pc, s.jar) = (.done r, jar) → (verifyFrom L chain n pc).run s = (r, withJar s jar)
  | n, .done r', s, r, jar, h => by
    rw [Threads.alone_done] at h
    cases h
    cases n <;> rfl
  | 0, .start, s, r, jar, h => by cases h
  | 0, .loop _ _, s, r, jar, h => by cases h
  | 0, .compare _ _ _ _, s, r, jar, h => by cases h
  | 0, .add _ _ _ _, s, r, jar, h => by cases h
  | n + 1, .start, s, r, jar, h => by rw [verifyFrom, run_act]; exact verifyFrom_run L chain n _ _ r jar h; simp
  | n + 1, .loop _ _, s, r, jar, h => by rw [verifyFrom, run_act]; exact verifyFrom_run L chain n _ _ r jar h; simp
  | n + 1, .compare _ _ _ _, s, r, jar, h => by rw [verifyFrom, run_act]; exact verifyFrom_run L chain n _ _ r jar h; simp
  | n + 1, .add _ _ _ _, s, r, jar, h => by rw [verifyFrom, run_act]; exact verifyFrom_run L chain n _ _ r jar h; simp

theorem verifyP_run (L : Lib) (chain : List Doc) (s : State) :
    (verifyFrom L chain (3 * chain.length + 2) .start).run s = ((verifyChain L s.jar chain).1, withJar s (verifyChain L s.jar chain).2) :=
  verifyFrom_run L chain _ _ s _ _ (Threads.alone_eq L chain s.jar 0)

theorem verifyChainsP_run (L : Lib) : ∀ (cs : List (List Doc)) (s : State),
    (verifyChainsP L cs).run s = ((verifyChains L cs s.jar).1, withJar s (verifyChains L cs s.jar).2)
  | [], _ => rfl
  | c :: cs, s => by
    rw [verifyChainsP, run_andThen, verifyP_run, verifyChains]
    obtain ⟨r, jar⟩ := verifyChain L s.jar c
    cases r with
    | error e => rfl
    | ok o =>
      simp only
      rw [run_andThen, verifyChainsP_run L cs]
      simp only [withJar]
      obtain ⟨r, jar⟩ := verifyChains L cs jar
      cases r <;> rfl

/-- Without interruption a resolution has the result, and leaves behind, what the sequential model says. -/
theorem getVerifiedP_run (V : Env) (entity stopAt : String) (s : State) : (getVerifiedP V entity stopAt).run s = getVerified V s entity stopAt := by
  rw [getVerifiedP, run_andThen, collectP_run, getVerified]
  obtain ⟨r, coll⟩ := Collect.collect V.L.toCrypto V.P V.W V.fuel s.coll entity stopAt
  cases r with
  | error e => rfl
  | ok x =>
    obtain ⟨f, ec⟩ := x
    simp only
    rw [run_andThen, verifyChainsP_run]
    simp only [withColl]
    generalize verifyChains V.L ((Collect.tree2chains f).map fun c => c.map some ++ [some ec]) s.jar = r
    obtain ⟨r, jar⟩ := r
    cases r with
    | error e => rfl
    | ok tcs =>
      simp only [run_ret]
      cases applyPolicies V.E V.K tcs <;> rfl

theorem getTrustChainsP_run (V : Env) (entity : String) (s : State) : (getTrustChainsP V entity).run s = getTrustChains V s entity := by
  rw [getTrustChainsP, run_look, getTrustChains]
  rcases s.store.get? entity with _ | tcs
  rotate_left
  · rfl
  · simp only
    rw [run_andThen, getVerifiedP_run]
    obtain ⟨r, st⟩ := getVerified V s entity
    cases r with
    | error e => rfl
    | ok tcs => cases tcs <;> rfl

theorem getVerifiedMetadataP_run (V : Env) (entity : String) (s : State) : (getVerifiedMetadataP V entity).run s = getVerifiedMetadata V s entity := by
  rw [getVerifiedMetadataP, run_andThen, getTrustChainsP_run, getVerifiedMetadata]
  obtain ⟨r, st⟩ := getTrustChains V s entity
  cases r <;> rfl

end Fed.Chains.AtOnce
