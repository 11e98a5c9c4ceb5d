import Verif.Collect.CollectorProps
import Verif.Collect.Keys
import Verif.Collect.CollectorLemmas
/-
C230: the questions that are put to other entities while trust chains are collected: `get_entity_configuration` (/repo/src/fedservice/entity/function/trust_chain_collector.py 127-166) and `get_entity_statement` (209-225).
The functions here are those of `Collect/Collector`, with a record of the questions; that they are those is proved (`collectA_collect`).
-/
namespace Fed.Collect
open Fed

/-- A question: for the configuration of an entity (trust_chain_collector.py 127-166, counted once, though it may take two requests, 139-152), or to an authority for its statement about an entity (209-225). -/
inductive Question
  | config (entity : String)
  | statement (authority entity : String)
deriving DecidableEq, Repr

/-- The caches, and what has been asked, the first question first. -/
structure Asked where
  st : State
  log : List Question

/-- `refreshConfig` (trust_chain_collector.py 195-205). -/
def refreshA (C : Crypto) (W : World) (s : Asked) (authority : String) : Except PyErr (Option Val) × Asked :=
  match W.config authority with
  | .error e => (.error e.toPy, ⟨s.st, s.log ++ [.config authority]⟩)
  | .ok none => (.error .valueError, ⟨s.st, s.log ++ [.config authority]⟩)
  | .ok (some j) =>
    match selfVerify C W.now j with
    | .error e => (.error e, ⟨s.st, s.log ++ [.config authority]⟩)
    | .ok p =>
      match getFetchEndpoint p with
      | .error e => (.error e, ⟨s.st, s.log ++ [.config authority]⟩)
      | .ok ep => (.ok ep, ⟨{ s.st with config := s.st.config.set authority ⟨j⟩ }, s.log ++ [.config authority]⟩)

/-- `fetchEndpoint` (trust_chain_collector.py 184-207). -/
def endpointA (C : Crypto) (P : Params) (W : World) (s : Asked) (authority : String) : Except PyErr (Option Val) × Asked :=
  match subscript P.delta W.now s.st.config authority with
  | (.error e, db) => (.error e, ⟨{ s.st with config := db }, s.log⟩)
  | (.ok none, db) => refreshA C W ⟨{ s.st with config := db }, s.log⟩ authority
  | (.ok (some c), db) =>
    match getFetchEndpoint c.jws.payload with
    | .error e => (.error e, ⟨{ s.st with config := db }, s.log⟩)
    | .ok ep =>
      match usableEndpoint ep with
      | some _ => (.ok ep, ⟨{ s.st with config := db }, s.log⟩)
      | none => refreshA C W ⟨{ s.st with config := db }, s.log⟩ authority

/-- `fetchStatement` (trust_chain_collector.py 282-299). -/
def fetchA (C : Crypto) (P : Params) (W : World) (s : Asked) (entity authority : String) : Except PyErr (Option Jws) × Asked :=
  match endpointA C P W s authority with
  | (.error e, s) => (.error e, s)
  | (.ok ep, s) =>
    match usableEndpoint ep with
    | none => (.ok none, s)
    | some ep =>
      match W.fetch ep authority entity with
      | .error e => (.error e.toPy, ⟨s.st, s.log ++ [.statement authority entity]⟩)
      | .ok none => (.error .valueError, ⟨s.st, s.log ++ [.statement authority entity]⟩)
      | .ok (some j) =>
        match j.payload.exp with
        | none => (.error .keyError, ⟨{ s.st with es := s.st.es.set (cacheKey authority entity) (.stmt j) }, s.log ++ [.statement authority entity]⟩)
        | some e =>
          (.ok (some j), ⟨{ s.st with es := (s.st.es.set (cacheKey authority entity) (.stmt j)).set (timeKey authority entity) (.time e) }, s.log ++ [.statement authority entity]⟩)

/-- `getStatement` (trust_chain_collector.py 265-299). -/
def statementA (C : Crypto) (P : Params) (W : World) (s : Asked) (entity authority : String) : Except PyErr (Option Jws) × Asked :=
  match s.st.es.get? (cacheKey authority entity) with
  | none => fetchA C P W s entity authority
  | some (.time _) => (.error .typeError, s)
  | some (.stmt j) =>
    match s.st.es.get? (timeKey authority entity) with
    | some (.time e) =>
      if W.now > e - P.delta then
        fetchA C P W ⟨{ s.st with es := drop (drop s.st.es (cacheKey authority entity)) (timeKey authority entity) }, s.log⟩ entity authority
      else (.ok (some j), s)
    | _ => (.error .typeError, s)

/-- `overHints` (trust_chain_collector.py 257-263). -/
def overHintsA (branch : Asked → String → Except PyErr Branch × Asked) : List String → Forest Jws → Asked → Except PyErr (Forest Jws) × Asked
  | [], acc, s => (.ok acc, s)
  | a :: as, acc, s =>
    match branch s a with
    | (.error e, s) => (.error e, s)
    | (.ok b, s) => overHintsA branch as (acc.set a b) s

/-- `collectBranch` (trust_chain_collector.py 301-341). -/
def branchA (C : Crypto) (P : Params) (W : World) (tree : Asked → String → Option Payload → Except PyErr (Forest Jws) × Asked) (entity : String) (s : Asked) (authority : String) : Except PyErr Branch × Asked :=
  if entity = authority ∧ entity ∈ P.anchors then (.ok none, s)
  else
    match statementA C P W s entity authority with
    | (.error e, s) => (.error e, s)
    | (.ok none, s) => (.ok none, s)
    | (.ok (some j), s) =>
      match subscript P.delta W.now s.st.config authority with
      | (.error e, db) => (.error e, ⟨{ s.st with config := db }, s.log⟩)
      | (.ok c, db) =>
        match tree ⟨{ s.st with config := db }, s.log⟩ authority (c.map (·.jws.payload)) with
        | (.error e, s) => (.error e, s)
        | (.ok f, s) => (.ok (some (j, f)), s)

/-- `collectTree` (trust_chain_collector.py 227-263). -/
def treeA (C : Crypto) (P : Params) (W : World) (stopAt : String) : (fuel : Nat) → Asked → (entity : String) → Option Payload → Except PyErr (Forest Jws) × Asked
  | 0, s, _, _ => (.error .outOfFuel, s)
  | _ + 1, s, _, none => (.error .typeError, s)
  | n + 1, s, entity, some cfg =>
    match cfg.hints with
    | none => (.ok .nil, s)
    | some hs =>
      if cfg.iss = stopAt then (.ok .nil, s)
      else overHintsA (branchA C P W (treeA C P W stopAt n) entity) hs .nil s

/-- `collect` (trust_chain_collector.py 350-376). -/
def collectA (C : Crypto) (P : Params) (W : World) (fuel : Nat) (st : State) (entity stopAt : String) : Except PyErr (Forest Jws × Jws) × Asked :=
  let cached : Except PyErr (Option Config) :=
    match st.config.get? entity with
    | none => .ok none
    | some c => match tooOld P W c with | .error e => .error e | .ok true => .ok none | .ok false => .ok (some c)
  match cached with
  | .error e => (.error e, ⟨st, []⟩)
  | .ok (some c) =>
    match treeA C P W stopAt fuel ⟨st, []⟩ entity (some c.jws.payload) with
    | (.error e, s) => (.error e, s)
    | (.ok f, s) => (.ok (f, c.jws), s)
  | .ok none =>
    match W.config entity with
    | .error e => (.error e.toPy, ⟨st, [.config entity]⟩)
    | .ok none => (.error .valueError, ⟨st, [.config entity]⟩)
    | .ok (some j) =>
      match selfVerify C W.now j with
      | .error e => (.error e, ⟨st, [.config entity]⟩)
      | .ok p =>
        match treeA C P W stopAt fuel ⟨{ st with config := st.config.set entity ⟨j⟩ }, [.config entity]⟩ entity (some p) with
        | (.error e, s) => (.error e, s)
        | (.ok f, s) => (.ok (f, j), s)

/-! ### The same functions -/

section
variable {C : Crypto} {P : Params} {W : World}

theorem refreshA_st (s : Asked) (a : String) : ((refreshA C W s a).1, (refreshA C W s a).2.st) = refreshConfig C W s.st a := by
  unfold refreshA refreshConfig
  repeat' split <;> simp_all

theorem endpointA_st (s : Asked) (a : String) : ((endpointA C P W s a).1, (endpointA C P W s a).2.st) = fetchEndpoint C P W s.st a := by
  unfold endpointA fetchEndpoint
  generalize subscript P.delta W.now s.st.config a = r
  obtain ⟨r, db⟩ := r
  rcases r with e | (_ | c)
  · rfl
  · exact refreshA_st ⟨{ s.st with config := db }, s.log⟩ a
  · simp only
    cases getFetchEndpoint c.jws.payload with
    | error e => rfl
    | ok ep =>
      simp only
      cases usableEndpoint ep with
      | some v => rfl
      | none => exact refreshA_st ⟨{ s.st with config := db }, s.log⟩ a

theorem fetchA_st (s : Asked) (e a : String) : ((fetchA C P W s e a).1, (fetchA C P W s e a).2.st) = fetchStatement C P W s.st e a := by
  unfold fetchA fetchStatement
  rw [← endpointA_st s a]
  generalize endpointA C P W s a = r
  obtain ⟨r, s⟩ := r
  cases r with
  | error e => rfl
  | ok ep =>
    simp only
    cases usableEndpoint ep with
    | none => rfl
    | some v =>
      simp only
      rcases W.fetch v a e with _ | (_ | j)
      · rfl
      · rfl
      · simp only
        cases j.payload.exp <;> rfl

theorem statementA_st (s : Asked) (e a : String) : ((statementA C P W s e a).1, (statementA C P W s e a).2.st) = getStatement C P W s.st e a := by
  unfold statementA getStatement
  rcases s.st.es.get? (cacheKey a e) with _ | (j | x)
  · exact fetchA_st s e a
  · simp only
    rcases s.st.es.get? (timeKey a e) with _ | (j' | x)
    · rfl
    · rfl
    · simp only
      split
      · exact fetchA_st ⟨{ s.st with es := drop (drop s.st.es (cacheKey a e)) (timeKey a e) }, s.log⟩ e a
      · rfl
  · rfl

theorem overHintsA_st {branch : Asked → String → Except PyErr Branch × Asked} {branch' : State → String → Except PyErr Branch × State} (h : ∀ s a, ((branch s a).1, (branch s a).2.st) = branch' s.st a) :
    ∀ (l : List String) (acc : Forest Jws) (s : Asked), ((overHintsA branch l acc s).1, (overHintsA branch l acc s).2.st) = overHints branch' l acc s.st
  | [], _, _ => rfl
  | a :: as, acc, s => by
    unfold overHintsA overHints
    rw [← h s a]
    generalize branch s a = r
    obtain ⟨r, s⟩ := r
    cases r with
    | error e => rfl
    | ok b => exact overHintsA_st h as _ s

theorem branchA_st {tree : Asked → String → Option Payload → Except PyErr (Forest Jws) × Asked} {tree' : State → String → Option Payload → Except PyErr (Forest Jws) × State}
    (h : ∀ s a p, ((tree s a p).1, (tree s a p).2.st) = tree' s.st a p) (e : String) (s : Asked) (a : String) : ((branchA C P W tree e s a).1, (branchA C P W tree e s a).2.st) = collectBranch C P W tree' e s.st a := by
  unfold branchA collectBranch
  split
  · rfl
  · rw [← statementA_st s e a]
    generalize statementA C P W s e a = r
    obtain ⟨r, s⟩ := r
    rcases r with _ | (_ | j)
    · rfl
    · rfl
    · simp only
      generalize subscript P.delta W.now s.st.config a = r
      obtain ⟨r, db⟩ := r
      cases r with
      | error e => rfl
      | ok c =>
        simp only
        rw [← h ⟨{ s.st with config := db }, s.log⟩ a (c.map (·.jws.payload))]
        generalize tree ⟨{ s.st with config := db }, s.log⟩ a (c.map (·.jws.payload)) = r
        obtain ⟨r, s⟩ := r
        cases r <;> rfl

theorem treeA_st (stopAt : String) : ∀ (n : Nat) (s : Asked) (e : String) (p : Option Payload), ((treeA C P W stopAt n s e p).1, (treeA C P W stopAt n s e p).2.st) = collectTree C P W stopAt n s.st e p
  | 0, _, _, _ => rfl
  | n + 1, _, _, none => rfl
  | n + 1, s, e, some p => by
    unfold treeA collectTree
    cases p.hints with
    | none => rfl
    | some hs =>
      simp only
      split
      · rfl
      · exact overHintsA_st (branchA_st (treeA_st stopAt n) e) hs .nil s

/-- The part of `collect` after the look into the cache (trust_chain_collector.py 359-376). -/
theorem afterA (fuel : Nat) (st : State) (entity stopAt : String) (j : Jws) (p : Payload) (s : Asked) (hs : s.st = st) :
    ((match treeA C P W stopAt fuel s entity (some p) with | (.error e, s) => (.error e, s) | (.ok f, s) => (.ok (f, j), s) : Except PyErr (Forest Jws × Jws) × Asked).1,
      (match treeA C P W stopAt fuel s entity (some p) with | (.error e, s) => (.error e, s) | (.ok f, s) => (.ok (f, j), s) : Except PyErr (Forest Jws × Jws) × Asked).2.st) =
    match collectTree C P W stopAt fuel st entity (some p) with | (.error e, st) => (.error e, st) | (.ok f, st) => (.ok (f, j), st) := by
  subst hs
  rw [← treeA_st stopAt fuel s entity (some p)]
  generalize treeA C P W stopAt fuel s entity (some p) = r
  obtain ⟨r, s⟩ := r
  cases r <;> rfl

/-- With the questions left out this is `collect`. -/
theorem collectA_collect (fuel : Nat) (st : State) (entity stopAt : String) : ((collectA C P W fuel st entity stopAt).1, (collectA C P W fuel st entity stopAt).2.st) = collect C P W fuel st entity stopAt := by
  unfold collectA collect
  cases st.config.get? entity with
  | none =>
    simp only
    rcases W.config entity with _ | (_ | j)
    · rfl
    · rfl
    · simp only
      cases selfVerify C W.now j with
      | error e => rfl
      | ok p => exact afterA fuel _ entity stopAt j p _ rfl
  | some c =>
    simp only
    rcases tooOld P W c with e | (_ | _)
    · rfl
    · exact afterA fuel _ entity stopAt c.jws c.jws.payload _ rfl
    · simp only
      rcases W.config entity with _ | (_ | j)
      · rfl
      · rfl
      · simp only
        cases selfVerify C W.now j with
        | error e => rfl
        | ok p => exact afterA fuel _ entity stopAt j p _ rfl

end

/-! ### What is asked, and what is kept -/

/-- A set of entities closed under naming: whoever is named by `entity`, or by one of the set, in the configuration it publishes or in the one remembered, is in the set. Their identifiers have no exclamation mark. -/
structure Around (W : World) (st : State) (entity : String) (N : String → Prop) : Prop where
  start : Plain entity
  plain : ∀ a, N a → Plain a
  published : ∀ a, a = entity ∨ N a → ∀ j, W.config a = .ok (some j) → ∀ hs, j.payload.hints = some hs → ∀ h ∈ hs, N h
  remembered : ∀ a, a = entity ∨ N a → ∀ c, st.config.get? a = some c → ∀ hs, c.jws.payload.hints = some hs → ∀ h ∈ hs, N h

/-- A configuration that is used as long as it is kept: it does not expire within the allowed delta, and has a fetch endpoint that can be used if it says anything about a federation entity. -/
def Serves (P : Params) (W : World) (j : Jws) : Prop :=
  (∀ x, j.payload.exp = some x → W.now < x - P.delta) ∧ ∀ ep, getFetchEndpoint j.payload = .ok ep → usableEndpoint ep ≠ none

/-- What the entities of the set publish can be kept. -/
structure Keepable (P : Params) (W : World) (entity : String) (N : String → Prop) : Prop where
  configs : ∀ a, N a → ∀ j, W.config a = .ok (some j) → Serves P W j
  statements : ∀ a e, N a → e = entity ∨ N e → ∀ ep j, W.fetch ep a e = .ok (some j) → ∀ x, j.payload.exp = some x → W.now ≤ x - P.delta

section
variable {C : Crypto} {P : Params} {W : World} {N : String → Prop} {entity : String}

/-- A question about `entity` or the set. -/
def Within230 (N : String → Prop) (entity : String) : Question → Prop
  | .config a => a = entity ∨ N a
  | .statement a e => N a ∧ (e = entity ∨ N e)

structure Once (N : String → Prop) (entity : String) (l : List Question) : Prop where
  nodup : l.Nodup
  within : ∀ q ∈ l, Within230 N entity q

theorem Once.snoc {l : List Question} (h : Once N entity l) {q : Question} (hq : q ∉ l) (hw : Within230 N entity q) : Once N entity (l ++ [q]) where
  nodup := by
    rw [List.nodup_append]
    refine ⟨h.nodup, by simp, fun a ha b hb hab => ?_⟩
    simp at hb
    subst hb; subst hab
    exact hq ha
  within q' hq' := by
    rcases List.mem_append.1 hq' with h' | h'
    · exact h.within q' h'
    · simp at h'; subst h'; exact hw

/-- What was asked is kept. -/
structure Kept230 (P : Params) (W : World) (N : String → Prop) (entity : String) (s : Asked) : Prop where
  once : Once N entity s.log
  configs : ∀ a, .config a ∈ s.log → ∃ c, s.st.config.get? a = some c ∧ (N a → Serves P W c.jws)
  statements : ∀ a e, .statement a e ∈ s.log → (∃ j, s.st.es.get? (cacheKey a e) = some (.stmt j)) ∧ ∃ x, s.st.es.get? (timeKey a e) = some (.time x) ∧ W.now ≤ x - P.delta
  hints : ∀ a, a = entity ∨ N a → ∀ c, s.st.config.get? a = some c → ∀ hs, c.jws.payload.hints = some hs → ∀ h ∈ hs, N h

def Fine230 (P : Params) (W : World) (N : String → Prop) (entity : String) (r : Except PyErr α × Asked) : Prop :=
  Once N entity r.2.log ∧ ∀ v, r.1 = .ok v → Kept230 P W N entity r.2

theorem Fine230.error {s : Asked} {e : PyErr} (h : Once N entity s.log) : Fine230 (α := α) P W N entity (.error e, s) := ⟨h, fun _ h => by cases h⟩

theorem Fine230.ok {s : Asked} {v : α} (h : Kept230 P W N entity s) : Fine230 P W N entity (.ok v, s) := ⟨h.once, fun _ _ => h⟩

theorem refreshA_fine {st0 : State} (hA : Around W st0 entity N) (hK : Keepable P W entity N) {s : Asked} (h : Kept230 P W N entity s) {a : String} (ha : N a) (hq : .config a ∉ s.log) : Fine230 P W N entity (refreshA C W s a) := by
  have hs : Once N entity (s.log ++ [.config a]) := h.once.snoc hq (Or.inr ha)
  unfold refreshA
  rcases hc : W.config a with e | (_ | j)
  · exact .error hs
  · exact .error hs
  · simp only
    cases hv : selfVerify C W.now j with
    | error e => exact .error hs
    | ok p =>
      simp only
      cases getFetchEndpoint p with
      | error e => exact .error hs
      | ok ep =>
        refine .ok ⟨hs, fun b hb => ?_, fun b e hb => ?_, fun b hb c hbc hs' hh => ?_⟩
        · simp only [Dict.get?_set]
          by_cases hab : a = b
          · subst hab
            exact ⟨⟨j⟩, by simp, fun _ => hK.configs a ha j hc⟩
          · rw [if_neg hab]
            rcases List.mem_append.1 hb with hb | hb
            · exact h.configs b hb
            · simp at hb; exact absurd hb.symm hab
        · rcases List.mem_append.1 hb with hb | hb
          · exact h.statements b e hb
          · simp at hb
        · simp only [Dict.get?_set] at hbc
          by_cases hab : a = b
          · subst hab
            rw [if_pos rfl] at hbc
            cases hbc
            exact hA.published a (Or.inr ha) j hc hs' hh
          · rw [if_neg hab] at hbc
            exact h.hints b hb c hbc hs' hh

theorem subscript_kept {s : Asked} (h : Kept230 P W N entity s) {a : String} (ha : N a) : Kept230 P W N entity ⟨{ s.st with config := (subscript P.delta W.now s.st.config a).2 }, s.log⟩ := by
  unfold subscript
  cases hg : s.st.config.get? a with
  | none => exact h
  | some c =>
    simp only [CacheVal.dictExp]
    cases hx : c.jws.payload.exp with
    | none => exact h
    | some x =>
      simp only
      split
      · exact h
      · rename_i hlt
        refine ⟨h.once, fun b hb => ?_, h.statements, fun b hb c' hc' hs hh => ?_⟩
        · obtain ⟨c', h1, h2⟩ := h.configs b hb
          refine ⟨c', ?_, h2⟩
          simp only [get?_drop]
          by_cases hab : a = b
          · subst hab
            rw [hg] at h1; cases h1
            exact absurd ((h2 ha).1 x hx) hlt
          · rw [if_neg hab]; exact h1
        · simp only [get?_drop] at hc'
          split at hc'
          · cases hc'
          · exact h.hints b hb c' hc' hs hh

theorem subscript_none {db : Dict Config} {t : Int} {a : String} (h : (subscript P.delta t db a).1 = .ok none) : ∀ c, db.get? a = some c → ∃ x, c.jws.payload.exp = some x ∧ ¬ t < x - P.delta := by
  intro c hc
  unfold subscript at h
  rw [hc] at h
  simp only [CacheVal.dictExp] at h
  cases hx : c.jws.payload.exp with
  | none => rw [hx] at h; cases h
  | some x =>
    rw [hx] at h
    simp only at h
    split at h
    · cases h
    · exact ⟨x, rfl, by assumption⟩

theorem subscript_found {db : Dict Config} {t : Int} {a : String} {c : Config} (h : (subscript P.delta t db a).1 = .ok (some c)) : db.get? a = some c := by
  unfold subscript at h
  cases hc : db.get? a with
  | none => rw [hc] at h; cases h
  | some c' =>
    rw [hc] at h
    simp only [CacheVal.dictExp] at h
    cases hx : c'.jws.payload.exp with
    | none => rw [hx] at h; cases h
    | some x =>
      rw [hx] at h
      simp only at h
      split at h <;> simp_all

theorem endpointA_fine {st0 : State} (hA : Around W st0 entity N) (hK : Keepable P W entity N) {s : Asked} (h : Kept230 P W N entity s) {a : String} (ha : N a) : Fine230 P W N entity (endpointA C P W s a) := by
  unfold endpointA
  have h1 := subscript_kept h ha
  have h2 := @subscript_none P s.st.config W.now a
  have h3 := @subscript_found P s.st.config W.now a
  generalize subscript P.delta W.now s.st.config a = r at h1 h2 h3 ⊢
  obtain ⟨r, db⟩ := r
  rcases r with e | (_ | c)
  · exact .error h.once
  · refine refreshA_fine hA hK h1 ha fun hq => ?_
    obtain ⟨c, h4, h5⟩ := h.configs a hq
    obtain ⟨x, h6, h7⟩ := h2 rfl c h4
    exact h7 ((h5 ha).1 x h6)
  · simp only
    cases hg : getFetchEndpoint c.jws.payload with
    | error e => exact .error h.once
    | ok ep =>
      simp only
      cases hu : usableEndpoint ep with
      | some v => exact .ok h1
      | none =>
        refine refreshA_fine hA hK h1 ha fun hq => ?_
        obtain ⟨c', h4, h5⟩ := h.configs a hq
        rw [h3 rfl] at h4; cases h4
        exact (h5 ha).2 ep hg hu

theorem refreshA_statements {s : Asked} {a b e : String} (h : .statement b e ∈ (refreshA C W s a).2.log) : .statement b e ∈ s.log := by
  unfold refreshA at h
  repeat' split at h
  all_goals simpa using h

theorem endpointA_statements {s : Asked} {a b e : String} (h : .statement b e ∈ (endpointA C P W s a).2.log) : .statement b e ∈ s.log := by
  unfold endpointA at h
  generalize subscript P.delta W.now s.st.config a = r at h
  obtain ⟨r, db⟩ := r
  rcases r with _ | (_ | c)
  · exact h
  · exact refreshA_statements (s := ⟨{ s.st with config := db }, s.log⟩) h
  · simp only at h
    cases hg : getFetchEndpoint c.jws.payload with
    | error e => rw [hg] at h; exact h
    | ok ep =>
      rw [hg] at h
      simp only at h
      cases hu : usableEndpoint ep with
      | some v => rw [hu] at h; exact h
      | none => rw [hu] at h; exact refreshA_statements (s := ⟨{ s.st with config := db }, s.log⟩) h

theorem fetchA_fine {st0 : State} (hA : Around W st0 entity N) (hK : Keepable P W entity N) {s : Asked} (h : Kept230 P W N entity s) {a e : String} (ha : N a) (he : e = entity ∨ N e) (hq : .statement a e ∉ s.log) : Fine230 P W N entity (fetchA C P W s e a) := by
  unfold fetchA
  have h1 := endpointA_fine (C := C) hA hK h ha
  have h2 := mt (@endpointA_statements C P W s a a e) hq
  generalize endpointA C P W s a = r at h1 h2 ⊢
  obtain ⟨r, s1⟩ := r
  cases r with
  | error x => exact .error h1.1
  | ok ep =>
    have hk := h1.2 ep rfl
    simp only at h2 hk ⊢
    cases usableEndpoint ep with
    | none => exact .ok hk
    | some v =>
      have hs : Once N entity (s1.log ++ [.statement a e]) := h1.1.snoc h2 ⟨ha, he⟩
      simp only
      rcases hf : W.fetch v a e with _ | (_ | j)
      · exact .error hs
      · exact .error hs
      · simp only
        cases hx : j.payload.exp with
        | none => exact .error hs
        | some x =>
          have hpa := hA.plain a ha
          have hpe : Plain e := he.elim (fun h => h ▸ hA.start) (hA.plain e)
          refine .ok ⟨hs, fun b hb => ?_, fun b e' hb => ?_, hk.hints⟩
          · rcases List.mem_append.1 hb with hb | hb
            · exact hk.configs b hb
            · simp at hb
          · simp only [Dict.get?_set]
            rcases List.mem_append.1 hb with hb' | hb'
            · have hne : ¬ (a = b ∧ e = e') := fun hne => h2 (by rw [hne.1, hne.2]; exact hb')
              have k1 : cacheKey a e ≠ cacheKey b e' := fun hk => hne (cacheKey_inj hpa hpe hk)
              have k2 : timeKey a e ≠ timeKey b e' := fun hk => hne (timeKey_inj hpa hpe hk)
              have k3 : timeKey a e ≠ cacheKey b e' := fun hk => not_plain_timeKey_cacheKey hpa hpe hk
              have k4 : cacheKey a e ≠ timeKey b e' := fun hk => not_plain_cacheKey_timeKey hpa hpe hk
              simp only [if_neg k1, if_neg k2, if_neg k3, if_neg k4]
              exact hk.statements b e' hb'
            · simp at hb'
              obtain ⟨rfl, rfl⟩ := hb'
              have k3 : timeKey b e' ≠ cacheKey b e' := fun hk => cacheKey_ne_timeKey b e' hk.symm
              exact ⟨⟨j, by simp [if_neg k3]⟩, x, by simp, hK.statements b e' ha he v j hf x hx⟩

theorem statementA_fine {st0 : State} (hA : Around W st0 entity N) (hK : Keepable P W entity N) {s : Asked} (h : Kept230 P W N entity s) {a e : String} (ha : N a) (he : e = entity ∨ N e) : Fine230 P W N entity (statementA C P W s e a) := by
  unfold statementA
  rcases hg : s.st.es.get? (cacheKey a e) with _ | (j | x)
  · exact fetchA_fine hA hK h ha he fun hq => by
      obtain ⟨⟨j, hj⟩, _⟩ := h.statements a e hq
      rw [hg] at hj; cases hj
  · simp only
    rcases ht : s.st.es.get? (timeKey a e) with _ | (j' | x)
    · exact .error h.once
    · exact .error h.once
    · simp only
      split
      · rename_i hlt
        have hq : .statement a e ∉ s.log := fun hq => by
          obtain ⟨_, x', hx', hle⟩ := h.statements a e hq
          rw [ht] at hx'; cases hx'
          omega
        refine fetchA_fine (s := ⟨{ s.st with es := drop (drop s.st.es (cacheKey a e)) (timeKey a e) }, s.log⟩) hA hK ⟨h.once, h.configs, fun b e' hb => ?_, h.hints⟩ ha he hq
        have hpa := hA.plain a ha
        have hpe : Plain e := he.elim (fun h => h ▸ hA.start) (hA.plain e)
        have hne : ¬ (a = b ∧ e = e') := fun hne => hq (by rw [hne.1, hne.2]; exact hb)
        have k1 : cacheKey a e ≠ cacheKey b e' := fun hk => hne (cacheKey_inj hpa hpe hk)
        have k2 : timeKey a e ≠ timeKey b e' := fun hk => hne (timeKey_inj hpa hpe hk)
        have k3 : timeKey a e ≠ cacheKey b e' := fun hk => not_plain_timeKey_cacheKey hpa hpe hk
        have k4 : cacheKey a e ≠ timeKey b e' := fun hk => not_plain_cacheKey_timeKey hpa hpe hk
        simp only [get?_drop, if_neg k1, if_neg k2, if_neg k3, if_neg k4]
        exact h.statements b e' hb
      · exact .ok h
  · exact .error h.once

theorem overHintsA_fine {branch : Asked → String → Except PyErr Branch × Asked} (hb : ∀ s a, Kept230 P W N entity s → N a → Fine230 P W N entity (branch s a)) :
    ∀ (l : List String) (acc : Forest Jws) (s : Asked), (∀ a ∈ l, N a) → Kept230 P W N entity s → Fine230 P W N entity (overHintsA branch l acc s)
  | [], _, _, _, h => .ok h
  | a :: as, acc, s, hl, h => by
    unfold overHintsA
    have h1 := hb s a h (hl a (by simp))
    generalize branch s a = r at h1 ⊢
    obtain ⟨r, s⟩ := r
    cases r with
    | error e => exact .error h1.1
    | ok b => exact overHintsA_fine hb as _ s (fun x hx => hl x (by simp [hx])) (h1.2 b rfl)

theorem branchA_fine {st0 : State} (hA : Around W st0 entity N) (hK : Keepable P W entity N) {tree : Asked → String → Option Payload → Except PyErr (Forest Jws) × Asked}
    (ht : ∀ s a p, Kept230 P W N entity s → N a → (∀ q, p = some q → ∀ hs, q.hints = some hs → ∀ h ∈ hs, N h) → Fine230 P W N entity (tree s a p)) {e : String} (he : e = entity ∨ N e) (s : Asked) (a : String) (h : Kept230 P W N entity s) (ha : N a) :
    Fine230 P W N entity (branchA C P W tree e s a) := by
  unfold branchA
  split
  · exact .ok h
  · have h1 := statementA_fine (C := C) hA hK h ha he
    generalize statementA C P W s e a = r at h1 ⊢
    obtain ⟨r, s⟩ := r
    rcases r with _ | (_ | j)
    · exact .error h1.1
    · exact .ok (h1.2 none rfl)
    · have hk := h1.2 (some j) rfl
      simp only at hk ⊢
      have h2 := subscript_kept hk ha
      have h3 := @subscript_found P s.st.config W.now a
      generalize subscript P.delta W.now s.st.config a = r at h2 h3 ⊢
      obtain ⟨r, db⟩ := r
      cases r with
      | error x => exact .error hk.once
      | ok c =>
        simp only
        have h4 := ht _ a (c.map (·.jws.payload)) h2 ha fun q hq hs hh => by
          cases c with
          | none => cases hq
          | some c =>
            cases hq
            exact hk.hints a (Or.inr ha) c (h3 rfl) hs hh
        generalize tree ⟨{ s.st with config := db }, s.log⟩ a (c.map (·.jws.payload)) = r at h4 ⊢
        obtain ⟨r, s⟩ := r
        cases r with
        | error x => exact .error h4.1
        | ok f => exact .ok (h4.2 f rfl)

theorem treeA_fine {st0 : State} (hA : Around W st0 entity N) (hK : Keepable P W entity N) (stopAt : String) : ∀ (n : Nat) (s : Asked) (e : String) (p : Option Payload), Kept230 P W N entity s → (e = entity ∨ N e) → (∀ q, p = some q → ∀ hs, q.hints = some hs → ∀ h ∈ hs, N h) →
    Fine230 P W N entity (treeA C P W stopAt n s e p)
  | 0, _, _, _, h, _, _ => .error h.once
  | n + 1, _, _, none, h, _, _ => .error h.once
  | n + 1, s, e, some p, h, he, hp => by
    unfold treeA
    cases hh : p.hints with
    | none => exact .ok h
    | some hs =>
      simp only
      split
      · exact .ok h
      · exact overHintsA_fine (fun s a h ha => branchA_fine hA hK (fun s a p h ha hp => treeA_fine hA hK stopAt n s a p h (Or.inr ha) hp) he s a h ha) hs .nil s (hp p rfl hs hh) h

theorem collectA_once {st : State} (hA : Around W st entity N) (hK : Keepable P W entity N) (fuel : Nat) (stopAt : String) : Once N entity (collectA C P W fuel st entity stopAt).2.log := by
  have hnil : Kept230 P W N entity ⟨st, []⟩ := ⟨⟨by simp, by simp⟩, by simp, by simp, hA.remembered⟩
  have hone : Once N entity [.config entity] := ⟨by simp, fun q hq => by simp at hq; subst hq; exact Or.inl rfl⟩
  have hfetch : ∀ j, W.config entity = .ok (some j) → Kept230 P W N entity ⟨{ st with config := st.config.set entity ⟨j⟩ }, [.config entity]⟩ := by
    intro j hj
    refine ⟨hone, fun a ha => ?_, by simp, fun a ha c hc hs hh => ?_⟩
    · simp at ha
      subst ha
      exact ⟨⟨j⟩, by simp, fun hn => hK.configs a hn j hj⟩
    · simp only [Dict.get?_set] at hc
      split at hc
      · rename_i hae
        cases hc
        subst hae
        exact hA.published entity ha j hj hs hh
      · exact hA.remembered a ha c hc hs hh
  have hlog : ∀ (s : Asked) (p : Payload) (j : Jws), Kept230 P W N entity s → (∀ hs, p.hints = some hs → ∀ h ∈ hs, N h) →
      Once N entity (match treeA C P W stopAt fuel s entity (some p) with | (.error e, s) => (.error e, s) | (.ok f, s) => (.ok (f, j), s) : Except PyErr (Forest Jws × Jws) × Asked).2.log := by
    intro s p j hk hp
    have h1 := treeA_fine (C := C) hA hK stopAt fuel s entity (some p) hk (Or.inl rfl) fun q hq => by cases hq; exact hp
    generalize treeA C P W stopAt fuel s entity (some p) = r at h1 ⊢
    obtain ⟨r, s⟩ := r
    cases r <;> exact h1.1
  have hnew : Once N entity (match W.config entity with
    | .error e => (.error e.toPy, ⟨st, [.config entity]⟩)
    | .ok none => (.error .valueError, ⟨st, [.config entity]⟩)
    | .ok (some j) =>
      match selfVerify C W.now j with
      | .error e => (.error e, ⟨st, [.config entity]⟩)
      | .ok p =>
        match treeA C P W stopAt fuel ⟨{ st with config := st.config.set entity ⟨j⟩ }, [.config entity]⟩ entity (some p) with
        | (.error e, s) => (.error e, s)
        | (.ok f, s) => (.ok (f, j), s) : Except PyErr (Forest Jws × Jws) × Asked).2.log := by
    rcases hc : W.config entity with _ | (_ | j)
    · exact hone
    · exact hone
    · simp only
      cases hv : selfVerify C W.now j with
      | error e => exact hone
      | ok p =>
        refine hlog _ p j (hfetch j hc) ?_
        rw [selfVerify_payload hv]
        exact hA.published entity (Or.inl rfl) j hc
  unfold collectA
  cases hg : st.config.get? entity with
  | none => exact hnew
  | some c =>
    simp only
    rcases tooOld P W c with e | (_ | _)
    · exact hnil.once
    · exact hlog _ _ c.jws hnil (hA.remembered entity (Or.inl rfl) c hg)
    · exact hnew

end

/-! ### C230 -/

/-- C230: in one collection no entity is asked for its configuration twice, and no authority twice for its statement about an entity. -/
def C230_full : Prop :=
  ∀ (C : Crypto) (P : Params) (W : World) (fuel : Nat) (st : State) (entity stopAt : String), (collectA C P W fuel st entity stopAt).2.log.Nodup

/-- C230, where what is published can be kept, whatever was remembered before and however the collection ends: `collect` is the function of which the questions are recorded, and none of them is put twice. Partial: identifiers without exclamation marks, and documents of the authorities that do not expire within the allowed delta and name a usable fetch endpoint (`Keepable`; without these it is not so, see below). -/
theorem C230_once_partial (C : Crypto) (P : Params) (W : World) (st : State) (entity : String) (N : String → Prop) (hA : Around W st entity N) (hK : Keepable P W entity N) (fuel : Nat) (stopAt : String) :
    ((collectA C P W fuel st entity stopAt).1, (collectA C P W fuel st entity stopAt).2.st) = collect C P W fuel st entity stopAt ∧ (collectA C P W fuel st entity stopAt).2.log.Nodup :=
  ⟨collectA_collect fuel st entity stopAt, (collectA_once hA hK fuel stopAt).nodup⟩

theorem length_le_of_nodup [DecidableEq α] : ∀ {l m : List α}, l.Nodup → (∀ x ∈ l, x ∈ m) → l.length ≤ m.length
  | [], _, _, _ => Nat.zero_le _
  | x :: l, m, h, hm => by
    have hx := hm x (by simp)
    have h1 : l.length ≤ (m.erase x).length := length_le_of_nodup (List.nodup_cons.1 h).2 fun y hy => by
      have hne : y ≠ x := fun e => (List.nodup_cons.1 h).1 (e ▸ hy)
      exact (List.mem_erase_of_ne hne).2 (hm y (by simp [hy]))
    have h2 := List.length_erase_of_mem hx
    have h3 := List.length_pos_of_mem hx
    simp only [List.length_cons]
    omega

/-- All questions there are among `entity` and the entities of a list. -/
def allQuestions (entity : String) (es : List String) : List Question :=
  (entity :: es).map .config ++ es.flatMap fun a => (entity :: es).map (.statement a)

theorem allQuestions_length (entity : String) (es : List String) : (allQuestions entity es).length = (es.length + 1) * (es.length + 1) := by
  have : ∀ l : List String, (l.flatMap fun a => (entity :: es).map (Question.statement a)).length = l.length * (es.length + 1) := by
    intro l
    induction l with
    | nil => simp
    | cons a l ih => simp only [List.flatMap_cons, List.length_append, ih, List.length_map, List.length_cons, Nat.add_mul]; omega
  simp only [allQuestions, List.length_append, this, List.length_map, List.length_cons, Nat.add_mul]
  omega

/-- So the number of questions is bounded by the square of the number of the entities concerned: with `n` entities in reach besides the one the chains are collected for, no more than `(n + 1)²`, however many trust chains there are (C231). Partial as before. -/
theorem C230_bound_partial (C : Crypto) (P : Params) (W : World) (st : State) (entity : String) (es : List String) (hA : Around W st entity (· ∈ es)) (hK : Keepable P W entity (· ∈ es)) (fuel : Nat) (stopAt : String) :
    ((collectA C P W fuel st entity stopAt).1, (collectA C P W fuel st entity stopAt).2.st) = collect C P W fuel st entity stopAt ∧ (collectA C P W fuel st entity stopAt).2.log.length ≤ (es.length + 1) * (es.length + 1) := by
  have h := collectA_once (C := C) hA hK fuel stopAt
  refine ⟨collectA_collect fuel st entity stopAt, ?_⟩
  rw [← allQuestions_length entity es]
  refine length_le_of_nodup h.nodup fun q hq => ?_
  have hw := h.within q hq
  unfold allQuestions
  cases q with
  | config a =>
    refine List.mem_append.2 (Or.inl (List.mem_map.2 ⟨a, ?_, rfl⟩))
    rcases hw with rfl | hw
    · simp
    · simp [hw]
  | statement a e =>
    refine List.mem_append.2 (Or.inr (List.mem_flatMap.2 ⟨a, hw.1, List.mem_map.2 ⟨e, ?_, rfl⟩⟩))
    rcases hw.2 with rfl | hw
    · simp
    · simp [hw]

namespace Ex230
open Ex31

/-- `leaf` below `im1` and `im2`, both below `ta`: eight questions, of the sixteen there could be. -/
example : (collectA C P (world good) 10 {} "leaf" "").2.log = [.config "leaf", .config "im1", .statement "im1" "leaf", .config "ta", .statement "ta" "im1", .config "im2", .statement "im2" "leaf", .statement "ta" "im2"] := by decide +kernel

theorem around : Around (world good) {} "leaf" (· ∈ ["im1", "im2", "ta"]) where
  start := by decide
  plain a ha := by
    simp only [List.mem_cons, List.not_mem_nil, or_false] at ha
    rcases ha with rfl | rfl | rfl <;> decide
  published a _ j hj hs hh h hm := by
    simp only [world, Except.ok.injEq, Option.some.injEq] at hj
    subst hj
    simp only [conf, good] at hh
    split at hh <;> simp only [Option.some.injEq, reduceCtorEq] at hh <;> subst hh <;> simp_all <;> rcases hm with hm | hm <;> simp [hm]
  remembered _ _ _ h := by cases h

theorem keepable : Keepable P (world good) "leaf" (· ∈ ["im1", "im2", "ta"]) where
  configs a _ j hj := by
    simp only [world, Except.ok.injEq, Option.some.injEq] at hj
    subst hj
    refine ⟨fun x hx => ?_, fun ep h hu => ?_⟩
    · cases hx; decide
    · have : getFetchEndpoint (conf a (good a)).payload = .ok (some (.str "fetch")) := rfl
      rw [this] at h; cases h
      exact absurd hu (by decide)
  statements a e _ _ ep j hj x hx := by
    simp only [world, Except.ok.injEq, Option.some.injEq] at hj
    subst hj
    cases hx
    decide

example (fuel : Nat) (stopAt : String) : (collectA C P (world good) fuel {} "leaf" stopAt).2.log.length ≤ 16 := (C230_bound_partial C P (world good) {} "leaf" _ around keepable fuel stopAt).2

/-- An authority without a fetch endpoint, named by `leaf` and by `im`. -/
def dead : World :=
  { world (fun | "leaf" => some ["im", "dead"] | "im" => some ["dead"] | _ => none) with
    config := fun k =>
      if k = "dead" then .ok (some ⟨{ iss := "dead", sub := "dead", exp := some 10000, jwks := some [1], metadata := some (fe none) }, 1⟩)
      else (world (fun | "leaf" => some ["im", "dead"] | "im" => some ["dead"] | _ => none)).config k }

/-- The federation of the example, where the statements of `ta` about `top` are about to expire; `top` is above both `im1` and `im2`. -/
def brief : World :=
  let w := world (fun | "leaf" => some ["im1", "im2"] | "im1" => some ["top"] | "im2" => some ["top"] | "top" => some ["ta"] | _ => none)
  { w with fetch := fun _ a e => .ok (some (if e = "top" then ⟨{ iss := a, sub := e, exp := some 200, jwks := some [1] }, 2⟩ else about a e)) }
end Ex230

/-- Without a usable fetch endpoint the configuration of an authority is asked for each time the authority is named: the collection succeeds, and `dead` is asked for its configuration twice. -/
theorem C230_endpoint_violation : ¬ C230_full ∧ (collectA Ex31.C Ex31.P Ex230.dead 10 {} "leaf" "").1.toOption.isSome = true ∧ (collectA Ex31.C Ex31.P Ex230.dead 10 {} "leaf" "").2.log.count (.config "dead") = 2 :=
  ⟨fun h => absurd (h Ex31.C Ex31.P Ex230.dead 10 {} "leaf" "") (by decide +kernel), by decide +kernel, by decide +kernel⟩

/-- A statement that expires within the allowed delta is asked for anew on each path that it is on, though it was asked for a moment before. -/
theorem C230_expiring_violation : ¬ C230_full ∧ (collectA Ex31.C Ex31.P Ex230.brief 10 {} "leaf" "").1.toOption.isSome = true ∧ (collectA Ex31.C Ex31.P Ex230.brief 10 {} "leaf" "").2.log.count (.statement "ta" "top") = 2 :=
  ⟨fun h => absurd (h Ex31.C Ex31.P Ex230.brief 10 {} "leaf" "") (by decide +kernel), by decide +kernel, by decide +kernel⟩

end Fed.Collect
