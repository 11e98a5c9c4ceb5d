import Verif.Collect.CollectorProps
import Verif.Chains.Model
/-
Property C194: what a collection finds depends only on the entity asked about and those above it.
-/
namespace Fed.Collect
open Fed

/-- Every authority named in a configuration is in the set. -/
def HintsIn (S : String → Prop) (p : Payload) : Prop := ∀ hs, p.hints = some hs → ∀ a ∈ hs, S a

/-- `S` has, with an entity, the authorities it names, in what it publishes and in what is cached of it. -/
structure Upwards (S : String → Prop) (W : World) (st : State) : Prop where
  published : ∀ e j, S e → W.config e = .ok (some j) → HintsIn S j.payload
  cached : ∀ e c, S e → st.config.get? e = some c → HintsIn S c.jws.payload

/-- Two federations at the same time in which the entities of `S` publish the same configurations and say the same about each other. Whatever other entities do may differ. -/
structure SameIn (S : String → Prop) (W W' : World) : Prop where
  now : W.now = W'.now
  config : ∀ e, S e → W.config e = W'.config e
  fetch : ∀ ep a e, S a → S e → W.fetch ep a e = W'.fetch ep a e

/-- Two collectors that remember the same of the entities of `S`. -/
structure SameCached (S : String → Prop) (st st' : State) : Prop where
  config : ∀ e, S e → st.config.get? e = st'.config.get? e
  stmt : ∀ a e, S a → S e → st.es.get? (cacheKey a e) = st'.es.get? (cacheKey a e)
  time : ∀ a e, S a → S e → st.es.get? (timeKey a e) = st'.es.get? (timeKey a e)

/-- What is kept in step. -/
structure InStep (S : String → Prop) (W : World) (st st' : State) : Prop where
  same : SameCached S st st'
  up : Upwards S W st

section
variable {S : String → Prop} {W W' : World} {C : Crypto} {P : Params}

theorem InStep.setConfig {st st' : State} (h : InStep S W st st') (k : String) (c : Config) (hc : S k → HintsIn S c.jws.payload) :
    InStep S W { st with config := st.config.set k c } { st' with config := st'.config.set k c } := by
  refine ⟨⟨fun e he => ?_, h.same.stmt, h.same.time⟩, ⟨h.up.published, fun e c' he hg => ?_⟩⟩
  · simp only [Dict.get?_set]
    by_cases hk : k = e
    · rw [if_pos hk, if_pos hk]
    · rw [if_neg hk, if_neg hk]; exact h.same.config e he
  · simp only [Dict.get?_set] at hg
    by_cases hk : k = e
    · rw [if_pos hk] at hg; cases hg; subst hk; exact hc he
    · rw [if_neg hk] at hg; exact h.up.cached e c' he hg

theorem InStep.dropConfig {st st' : State} (h : InStep S W st st') (k : String) :
    InStep S W { st with config := drop st.config k } { st' with config := drop st'.config k } := by
  refine ⟨⟨fun e he => ?_, h.same.stmt, h.same.time⟩, ⟨h.up.published, fun e c' he hg => ?_⟩⟩
  · simp only [get?_drop]
    by_cases hk : k = e
    · rw [if_pos hk, if_pos hk]
    · rw [if_neg hk, if_neg hk]; exact h.same.config e he
  · simp only [get?_drop] at hg
    by_cases hk : k = e
    · rw [if_pos hk] at hg; cases hg
    · rw [if_neg hk] at hg; exact h.up.cached e c' he hg

theorem InStep.setEs {st st' : State} (h : InStep S W st st') (k : String) (v : ESVal) : InStep S W { st with es := st.es.set k v } { st' with es := st'.es.set k v } := by
  refine ⟨⟨h.same.config, fun a e ha he => ?_, fun a e ha he => ?_⟩, ⟨h.up.published, h.up.cached⟩⟩
  · simp only [Dict.get?_set, h.same.stmt a e ha he]
  · simp only [Dict.get?_set, h.same.time a e ha he]

theorem InStep.dropEs {st st' : State} (h : InStep S W st st') (k : String) : InStep S W { st with es := drop st.es k } { st' with es := drop st'.es k } := by
  refine ⟨⟨h.same.config, fun a e ha he => ?_, fun a e ha he => ?_⟩, ⟨h.up.published, h.up.cached⟩⟩
  · simp only [get?_drop, h.same.stmt a e ha he]
  · simp only [get?_drop, h.same.time a e ha he]

/-- The same result, and in step. -/
def Alike {α : Type} (S : String → Prop) (W : World) (r r' : Except PyErr α × State) : Prop := r.1 = r'.1 ∧ InStep S W r.2 r'.2

theorem subscript_alike {st st' : State} (h : InStep S W st st') (delta now : Int) {k : String} (hk : S k) :
    (subscript delta now st.config k).1 = (subscript delta now st'.config k).1 ∧
    InStep S W { st with config := (subscript delta now st.config k).2 } { st' with config := (subscript delta now st'.config k).2 } := by
  have hs := h.same.config k hk
  unfold subscript
  rw [hs]
  cases st'.config.get? k with
  | none => exact ⟨rfl, h⟩
  | some v =>
    simp only
    cases CacheVal.dictExp v with
    | none => exact ⟨rfl, h⟩
    | some o =>
      cases o with
      | none => exact ⟨rfl, h⟩
      | some e =>
        simp only
        by_cases hn : now < e - delta
        · rw [if_pos hn, if_pos hn]; exact ⟨rfl, h⟩
        · rw [if_neg hn, if_neg hn]; exact ⟨rfl, h.dropConfig k⟩

theorem refreshConfig_alike (hw : SameIn S W W') {st st' : State} (h : InStep S W st st') {a : String} (ha : S a) : Alike S W (refreshConfig C W st a) (refreshConfig C W' st' a) := by
  have hp := h.up.published a
  unfold refreshConfig
  rw [← hw.config a ha, ← hw.now]
  cases hc : W.config a with
  | error e => exact ⟨rfl, h⟩
  | ok d =>
    cases d with
    | none => exact ⟨rfl, h⟩
    | some j =>
      simp only
      cases selfVerify C W.now j with
      | error e => exact ⟨rfl, h⟩
      | ok p =>
        simp only
        cases getFetchEndpoint p with
        | error e => exact ⟨rfl, h⟩
        | ok ep => exact ⟨rfl, h.setConfig a ⟨j⟩ fun _ => hp j ha hc⟩

theorem fetchEndpoint_alike (hw : SameIn S W W') {st st' : State} (h : InStep S W st st') {a : String} (ha : S a) : Alike S W (fetchEndpoint C P W st a) (fetchEndpoint C P W' st' a) := by
  obtain ⟨h1, h2⟩ := subscript_alike h P.delta W.now ha
  unfold fetchEndpoint
  rw [← hw.now]
  generalize subscript P.delta W.now st.config a = r at h1 h2 ⊢
  generalize subscript P.delta W.now st'.config a = r' at h1 h2 ⊢
  obtain ⟨r1, db⟩ := r
  obtain ⟨r1', db'⟩ := r'
  simp only at h1 h2
  subst h1
  cases r1 with
  | error e => exact ⟨rfl, h2⟩
  | ok c =>
    cases c with
    | none => exact refreshConfig_alike hw h2 ha
    | some c =>
      simp only
      cases getFetchEndpoint c.jws.payload with
      | error e => exact ⟨rfl, h2⟩
      | ok ep =>
        simp only
        cases usableEndpoint ep with
        | none => exact refreshConfig_alike hw h2 ha
        | some v => exact ⟨rfl, h2⟩

theorem fetchStatement_alike (hw : SameIn S W W') {st st' : State} (h : InStep S W st st') {e a : String} (he : S e) (ha : S a) :
    Alike S W (fetchStatement C P W st e a) (fetchStatement C P W' st' e a) := by
  obtain ⟨h1, h2⟩ := fetchEndpoint_alike (C := C) (P := P) hw h ha
  unfold fetchStatement
  generalize fetchEndpoint C P W st a = r at h1 h2 ⊢
  generalize fetchEndpoint C P W' st' a = r' at h1 h2 ⊢
  obtain ⟨r1, s⟩ := r
  obtain ⟨r1', s'⟩ := r'
  simp only at h1 h2
  subst h1
  cases r1 with
  | error e => exact ⟨rfl, h2⟩
  | ok ep =>
    simp only
    cases usableEndpoint ep with
    | none => exact ⟨rfl, h2⟩
    | some v =>
      simp only
      rw [← hw.fetch v a e ha he]
      cases W.fetch v a e with
      | error x => exact ⟨rfl, h2⟩
      | ok d =>
        cases d with
        | none => exact ⟨rfl, h2⟩
        | some j =>
          simp only
          cases j.payload.exp with
          | none => exact ⟨rfl, h2.setEs _ _⟩
          | some x => exact ⟨rfl, (h2.setEs _ _).setEs _ _⟩

theorem getStatement_alike (hw : SameIn S W W') {st st' : State} (h : InStep S W st st') {e a : String} (he : S e) (ha : S a) :
    Alike S W (getStatement C P W st e a) (getStatement C P W' st' e a) := by
  unfold getStatement
  rw [← h.same.stmt a e ha he, ← h.same.time a e ha he, ← hw.now]
  cases st.es.get? (cacheKey a e) with
  | none => exact fetchStatement_alike hw h he ha
  | some v =>
    cases v with
    | time x => exact ⟨rfl, h⟩
    | stmt j =>
      simp only
      cases st.es.get? (timeKey a e) with
      | none => exact ⟨rfl, h⟩
      | some w =>
        cases w with
        | stmt j' => exact ⟨rfl, h⟩
        | time x =>
          simp only
          by_cases hn : W.now > x - P.delta
          · rw [if_pos hn, if_pos hn]; exact fetchStatement_alike hw ((h.dropEs _).dropEs _) he ha
          · rw [if_neg hn, if_neg hn]; exact ⟨rfl, h⟩

theorem overHints_alike {branch branch' : State → String → Except PyErr Branch × State} (hb : ∀ st st' a, S a → InStep S W st st' → Alike S W (branch st a) (branch' st' a)) :
    ∀ (hs : List String) (acc : Forest Jws) (st st' : State), (∀ a ∈ hs, S a) → InStep S W st st' → Alike S W (overHints branch hs acc st) (overHints branch' hs acc st') := by
  intro hs
  induction hs with
  | nil => intro acc st st' _ h; exact ⟨rfl, h⟩
  | cons a as ih =>
    intro acc st st' hm h
    obtain ⟨h1, h2⟩ := hb st st' a (hm a (List.mem_cons_self ..)) h
    unfold overHints
    generalize branch st a = r at h1 h2 ⊢
    generalize branch' st' a = r' at h1 h2 ⊢
    obtain ⟨r1, s⟩ := r
    obtain ⟨r1', s'⟩ := r'
    simp only at h1 h2
    subst h1
    cases r1 with
    | error e => exact ⟨rfl, h2⟩
    | ok b => exact ih _ _ _ (fun x hx => hm x (List.mem_cons_of_mem _ hx)) h2

theorem collectBranch_alike (hw : SameIn S W W') {tree tree' : State → String → Option Payload → Except PyErr (Forest Jws) × State}
    (ht : ∀ st st' a p, S a → (∀ q, p = some q → HintsIn S q) → InStep S W st st' → Alike S W (tree st a p) (tree' st' a p)) {e : String} (he : S e) (st st' : State) (a : String) (ha : S a)
    (h : InStep S W st st') : Alike S W (collectBranch C P W tree e st a) (collectBranch C P W' tree' e st' a) := by
  unfold collectBranch
  by_cases hx : e = a ∧ e ∈ P.anchors
  · rw [if_pos hx, if_pos hx]; exact ⟨rfl, h⟩
  · rw [if_neg hx, if_neg hx]
    obtain ⟨h1, h2⟩ := getStatement_alike (C := C) (P := P) hw h he ha
    generalize getStatement C P W st e a = r at h1 h2 ⊢
    generalize getStatement C P W' st' e a = r' at h1 h2 ⊢
    obtain ⟨r1, s⟩ := r
    obtain ⟨r1', s'⟩ := r'
    simp only at h1 h2
    subst h1
    cases r1 with
    | error e => exact ⟨rfl, h2⟩
    | ok o =>
      cases o with
      | none => exact ⟨rfl, h2⟩
      | some j =>
        simp only
        obtain ⟨g1, g2⟩ := subscript_alike h2 P.delta W.now ha
        have g3 : ∀ c, (subscript P.delta W.now s.config a).1 = .ok (some c) → HintsIn S c.jws.payload := by
          intro c hc
          rcases subscript_config P.delta W.now s.config a with ⟨c', _, k1, _, _, k4⟩ | ⟨c', _, _, _, _, k4⟩ | ⟨c', _, _, k4⟩ | ⟨_, k4⟩
          · rw [k4] at hc; cases hc; exact h2.up.cached a c ha k1
          · rw [k4] at hc; cases hc
          · rw [k4] at hc; cases hc
          · rw [k4] at hc; cases hc
        rw [← hw.now]
        generalize subscript P.delta W.now s.config a = r at g1 g2 g3 ⊢
        generalize subscript P.delta W.now s'.config a = r' at g1 g2 ⊢
        obtain ⟨r1, db⟩ := r
        obtain ⟨r1', db'⟩ := r'
        simp only at g1 g2 g3
        subst g1
        cases r1 with
        | error e => exact ⟨rfl, g2⟩
        | ok c =>
          simp only
          have hq : ∀ q, c.map (·.jws.payload) = some q → HintsIn S q := by
            intro q hq
            cases c with
            | none => cases hq
            | some c => cases hq; exact g3 c rfl
          obtain ⟨t1, t2⟩ := ht _ _ a (c.map (·.jws.payload)) ha hq g2
          generalize tree { s with config := db } a (c.map (·.jws.payload)) = r at t1 t2 ⊢
          generalize tree' { s' with config := db' } a (c.map (·.jws.payload)) = r' at t1 t2 ⊢
          obtain ⟨r1, u⟩ := r
          obtain ⟨r1', u'⟩ := r'
          simp only at t1 t2
          subst t1
          cases r1 with
          | error e => exact ⟨rfl, t2⟩
          | ok f => exact ⟨rfl, t2⟩

theorem collectTree_alike (hw : SameIn S W W') (stopAt : String) : ∀ (n : Nat) (st st' : State) (e : String) (p : Option Payload), S e → (∀ q, p = some q → HintsIn S q) → InStep S W st st' →
    Alike S W (collectTree C P W stopAt n st e p) (collectTree C P W' stopAt n st' e p) := by
  intro n
  induction n with
  | zero => intro st st' e p _ _ h; exact ⟨rfl, h⟩
  | succ n ih =>
    intro st st' e p he hp h
    cases p with
    | none => exact ⟨rfl, h⟩
    | some cfg =>
      unfold collectTree
      cases hh : cfg.hints with
      | none => exact ⟨rfl, h⟩
      | some hs =>
        simp only
        by_cases hx : cfg.iss = stopAt
        · rw [if_pos hx, if_pos hx]; exact ⟨rfl, h⟩
        · rw [if_neg hx, if_neg hx]
          refine overHints_alike (fun s s' a ha hs => ?_) hs .nil st st' (hp cfg rfl hs hh) h
          exact collectBranch_alike hw (fun s s' a p ha hp hs => ih s s' a p ha hp hs) he s s' a ha hs

theorem collect_alike (hw : SameIn S W W') {st st' : State} (h : InStep S W st st') (n : Nat) {e : String} (he : S e) (stopAt : String) :
    Alike S W (collect C P W n st e stopAt) (collect C P W' n st' e stopAt) := by
  have hto : ∀ c, tooOld P W' c = tooOld P W c := by intro c; unfold tooOld; rw [hw.now]
  unfold collect
  simp only [← h.same.config e he, hto]
  have fresh : Alike S W
      (match W.config e with
        | .error x => (.error x.toPy, st)
        | .ok none => (.error .valueError, st)
        | .ok (some j) =>
          match selfVerify C W.now j with
          | .error x => (.error x, st)
          | .ok p =>
            match collectTree C P W stopAt n { st with config := st.config.set e ⟨j⟩ } e (some p) with
            | (.error x, st) => (.error x, st)
            | (.ok f, st) => (.ok (f, j), st) : Except PyErr (Forest Jws × Jws) × State)
      (match W'.config e with
        | .error x => (.error x.toPy, st')
        | .ok none => (.error .valueError, st')
        | .ok (some j) =>
          match selfVerify C W'.now j with
          | .error x => (.error x, st')
          | .ok p =>
            match collectTree C P W' stopAt n { st' with config := st'.config.set e ⟨j⟩ } e (some p) with
            | (.error x, st) => (.error x, st)
            | (.ok f, st) => (.ok (f, j), st) : Except PyErr (Forest Jws × Jws) × State) := by
    rw [← hw.config e he, ← hw.now]
    cases hc : W.config e with
    | error x => exact ⟨rfl, h⟩
    | ok d =>
      cases d with
      | none => exact ⟨rfl, h⟩
      | some j =>
        simp only
        cases hv : selfVerify C W.now j with
        | error x => exact ⟨rfl, h⟩
        | ok p =>
          simp only
          have hj := h.up.published e j he hc
          have hp := selfVerify_payload hv
          subst hp
          obtain ⟨t1, t2⟩ := collectTree_alike (C := C) (P := P) hw stopAt n _ _ e (some j.payload) he (fun q hq => by cases hq; exact hj) (h.setConfig e ⟨j⟩ fun _ => hj)
          generalize collectTree C P W stopAt n { st with config := st.config.set e ⟨j⟩ } e (some j.payload) = r at t1 t2 ⊢
          generalize collectTree C P W' stopAt n { st' with config := st'.config.set e ⟨j⟩ } e (some j.payload) = r' at t1 t2 ⊢
          obtain ⟨r1, u⟩ := r
          obtain ⟨r1', u'⟩ := r'
          simp only at t1 t2
          subst t1
          cases r1 with
          | error e => exact ⟨rfl, t2⟩
          | ok f => exact ⟨rfl, t2⟩
  cases hc : st.config.get? e with
  | none => exact fresh
  | some c =>
    simp only
    cases tooOld P W c with
    | error x => exact ⟨rfl, h⟩
    | ok b =>
      cases b with
      | true => exact fresh
      | false =>
        simp only
        have hj := h.up.cached e c he hc
        obtain ⟨t1, t2⟩ := collectTree_alike (C := C) (P := P) hw stopAt n st st' e (some c.jws.payload) he (fun q hq => by cases hq; exact hj) h
        generalize collectTree C P W stopAt n st e (some c.jws.payload) = r at t1 t2 ⊢
        generalize collectTree C P W' stopAt n st' e (some c.jws.payload) = r' at t1 t2 ⊢
        obtain ⟨r1, u⟩ := r
        obtain ⟨r1', u'⟩ := r'
        simp only at t1 t2
        subst t1
        cases r1 with
        | error e => exact ⟨rfl, t2⟩
        | ok f => exact ⟨rfl, t2⟩

/-- C194: two federations in which an entity and everything above it publish the same, and two collectors that remember the same of them: what is collected of the entity is the same, whatever other entities publish,
refuse to publish, or have published before. -/
theorem C194_collection (C : Crypto) (P : Params) (S : String → Prop) (W W' : World) (n : Nat) (st st' : State) (entity stopAt : String) (he : S entity) (hup : Upwards S W st) (hw : SameIn S W W')
    (hst : SameCached S st st') : (collect C P W n st entity stopAt).1 = (collect C P W' n st' entity stopAt).1 ∧
      SameCached S (collect C P W n st entity stopAt).2 (collect C P W' n st' entity stopAt).2 :=
  have h := collect_alike hw ⟨hst, hup⟩ n he stopAt
  ⟨h.1, h.2.same⟩

end

/-! The case: a leaf below a trust anchor, in a federation where a stranger is silent, and in one where it claims to be above everybody. -/
namespace Ex194
open Ex31
def hints : String → Option (List String)
  | "leaf" => some ["https://ta"]
  | _ => none
def S (e : String) : Prop := e = "leaf" ∨ e = "https://ta"
def W : World := { now := 0, config := fun k => if k = "stranger" then .error .missingPage else .ok (some (conf k (hints k))), fetch := fun _ a e => .ok (some (about a e)) }
def W' : World := { now := 0, config := fun k => .ok (some (conf k (if k = "stranger" then some ["leaf"] else hints k))), fetch := fun _ a e => .ok (some (about a e)) }
end Ex194

theorem Ex194.sameIn : SameIn Ex194.S Ex194.W Ex194.W' := by
  refine ⟨rfl, fun e he => ?_, fun _ _ _ _ _ => rfl⟩
  rcases he with rfl | rfl <;> rfl

theorem Ex194.upwards : Upwards Ex194.S Ex194.W {} := by
  refine ⟨fun e j he hj => ?_, fun e c he hc => by cases hc⟩
  rcases he with rfl | rfl
  · cases hj
    intro hs hh a ha
    cases hh
    cases ha with
    | head => exact Or.inr rfl
    | tail _ h => cases h
  · cases hj
    intro hs hh
    cases hh

example : (collect Ex31.C Ex31.P Ex194.W' 10 {} "leaf" "").1 = .ok (.node "https://ta" (Ex31.about "https://ta" "leaf") .nil .nil, Ex31.conf "leaf" (some ["https://ta"])) := by decide +kernel
example : Ex194.W.config "stranger" ≠ Ex194.W'.config "stranger" := by intro h; cases h

end Fed.Collect

namespace Fed.Chains
open Fed Collect

/-- C194: so are the verified trust chains with the metadata resolved, and the keys learnt. -/
theorem C194_chains (V : Env) (W' : World) (S : String → Prop) (st st' : State) (entity stopAt : String) (he : S entity) (hup : Upwards S V.W st.coll) (hw : SameIn S V.W W')
    (hst : SameCached S st.coll st'.coll) (hj : st.jar = st'.jar) :
    (getVerified V st entity stopAt).1 = (getVerified { V with W := W' } st' entity stopAt).1 ∧ (getVerified V st entity stopAt).2.jar = (getVerified { V with W := W' } st' entity stopAt).2.jar := by
  obtain ⟨h1, h2⟩ := C194_collection V.L.toCrypto V.P S V.W W' V.fuel st.coll st'.coll entity stopAt he hup hw hst
  unfold getVerified
  simp only
  rw [← hj]
  generalize collect V.L.toCrypto V.P V.W V.fuel st.coll entity stopAt = r at h1 ⊢
  generalize collect V.L.toCrypto V.P W' V.fuel st'.coll entity stopAt = r' at h1 ⊢
  obtain ⟨r1, u⟩ := r
  obtain ⟨r1', u'⟩ := r'
  simp only at h1
  subst h1
  cases r1 with
  | error e => exact ⟨rfl, rfl⟩
  | ok x =>
    obtain ⟨f, ec⟩ := x
    simp only
    generalize verifyChains V.L ((tree2chains f).map fun c => c.map some ++ [some ec]) st.jar = v
    obtain ⟨v1, jar⟩ := v
    cases v1 with
    | error e => exact ⟨rfl, rfl⟩
    | ok tcs =>
      simp only
      cases applyPolicies V.E V.K tcs with
      | error e => exact ⟨rfl, rfl⟩
      | ok tcs => exact ⟨rfl, rfl⟩

end Fed.Chains
