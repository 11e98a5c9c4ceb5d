import Verif.Chains.Props
import Verif.Chains.AtOnceProps
import Verif.Config.Anchors
/-
C219: trusting one more trust anchor. What `add_trust_anchor` (/repo/src/fedservice/entity/__init__.py 399-408 and /repo/src/fedservice/entity/function/trust_chain_collector.py 378-387) changes in
what is resolved (`Verif.Chains.Model`).
-/
namespace Fed.Chains
open Fed Verify

/-- `add_trust_anchor` (trust_chain_collector.py 378-387), what it changes in what resolution reads: the anchor is listed (387) … -/
def trusting (V : Env) (x : String) : Env := { V with P := { V.P with anchors := V.P.anchors ++ [x] } }

/-- … and its keys are in the key jar (386). -/
def givenKeys (st : State) (x : String) (ks : List Key) : State := { st with jar := Config.importJwks st.jar x ks }

/-- C219 in full: once an entity trusts one more trust anchor, whatever was resolved before is resolved still, to the same trust chains in the same order, and the only trust chains that are new are those to that anchor. -/
def C219_full : Prop :=
  ∀ (V : Env) (st : State) (x : String) (ks : List Key) (entity stopAt : String) (out : List TrustChain), (getVerified V st entity stopAt).1 = .ok out →
    ∃ out', (getVerified (trusting V x) (givenKeys st x ks) entity stopAt).1 = .ok out' ∧ out.Sublist out' ∧ ∀ tc ∈ out', tc ∉ out → tc.anchor = x

/-- An entity does not name itself as its authority, in what it publishes and in what is cached of it. -/
def NotItself (W : Collect.World) (st : Collect.State) (x : String) : Prop :=
  (∀ j hs, W.config x = .ok (some j) → j.payload.hints = some hs → x ∉ hs) ∧ ∀ c hs, st.config.get? x = some c → c.jws.payload.hints = some hs → x ∉ hs

/-! ### What is collected -/

section
open Collect
variable {C : Crypto} {P : Params} {W : World} {x : String}

theorem NotItself.subscript {st : Collect.State} (h : NotItself W st x) (d t : Int) (k : String) : NotItself W { st with config := (Collect.subscript d t st.config k).2 } x := by
  refine ⟨h.1, ?_⟩
  intro c hs hg
  refine h.2 c hs ?_
  revert hg
  unfold Collect.subscript
  cases hk : st.config.get? k with
  | none => exact id
  | some c0 =>
    simp only [CacheVal.dictExp]
    cases c0.jws.payload.exp with
    | none => exact id
    | some y =>
      simp only
      by_cases h1 : t < y - d
      · rw [if_pos h1]; exact id
      · rw [if_neg h1]
        simp only [get?_drop]
        by_cases hkk : k = x
        · rw [if_pos hkk]; intro h; cases h
        · rw [if_neg hkk]; exact id

theorem NotItself.set {st : Collect.State} (h : NotItself W st x) {a : String} {j : Jws} (hj : W.config a = .ok (some j)) : NotItself W { st with config := st.config.set a ⟨j⟩ } x := by
  refine ⟨h.1, ?_⟩
  intro c hs hg
  simp only [Dict.get?_set] at hg
  by_cases hkk : a = x
  · rw [if_pos hkk] at hg; cases hg; subst hkk; exact h.1 j hs hj
  · rw [if_neg hkk] at hg; exact h.2 c hs hg

theorem refreshConfig_notItself {st : Collect.State} (h : NotItself W st x) (a : String) : NotItself W (refreshConfig C W st a).2 x := by
  unfold refreshConfig
  cases hc : W.config a with
  | error e => exact h
  | ok d =>
    cases d with
    | none => exact h
    | some j =>
      simp only
      cases selfVerify C W.now j with
      | error e => exact h
      | ok p =>
        simp only
        cases getFetchEndpoint p with
        | error e => exact h
        | ok ep => exact h.set hc

theorem fetchEndpoint_notItself {st : Collect.State} (h : NotItself W st x) (a : String) : NotItself W (fetchEndpoint C P W st a).2 x := by
  unfold fetchEndpoint
  have h' := h.subscript P.delta W.now a
  revert h'
  generalize Collect.subscript P.delta W.now st.config a = r
  obtain ⟨r, db⟩ := r
  intro h'
  cases r with
  | error e => exact h'
  | ok o =>
    cases o with
    | none => exact refreshConfig_notItself h' a
    | some c =>
      simp only
      cases getFetchEndpoint c.jws.payload with
      | error e => exact h'
      | ok ep =>
        simp only
        cases usableEndpoint ep with
        | none => exact refreshConfig_notItself h' a
        | some _ => exact h'

theorem fetchStatement_notItself {st : Collect.State} (h : NotItself W st x) (e a : String) : NotItself W (fetchStatement C P W st e a).2 x := by
  unfold fetchStatement
  have h' := fetchEndpoint_notItself (C := C) (P := P) h a
  revert h'
  generalize fetchEndpoint C P W st a = r
  obtain ⟨r, st1⟩ := r
  intro h'
  cases r with
  | error e => exact h'
  | ok ep =>
    simp only
    cases usableEndpoint ep with
    | none => exact h'
    | some ep =>
      simp only
      cases W.fetch ep a e with
      | error e => exact h'
      | ok d =>
        cases d with
        | none => exact h'
        | some j =>
          simp only
          cases j.payload.exp with
          | none => exact h'
          | some _ => exact h'

theorem getStatement_notItself {st : Collect.State} (h : NotItself W st x) (e a : String) : NotItself W (getStatement C P W st e a).2 x := by
  unfold getStatement
  cases st.es.get? (cacheKey a e) with
  | none => exact fetchStatement_notItself h e a
  | some v =>
    cases v with
    | time _ => exact h
    | stmt j =>
      simp only
      cases st.es.get? (timeKey a e) with
      | none => exact h
      | some v =>
        cases v with
        | stmt _ => exact h
        | time y =>
          simp only
          by_cases h1 : W.now > y - P.delta
          · rw [if_pos h1]; exact fetchStatement_notItself (st := { st with es := drop (drop st.es (cacheKey a e)) (timeKey a e) }) h e a
          · rw [if_neg h1]; exact h

/-- The configuration `collect_tree` is given does not name the entity itself, if it is `x`. -/
def Fitting (x e : String) (p : Option Payload) : Prop := e = x → ∀ q hs, p = some q → q.hints = some hs → x ∉ hs

theorem branch_trusting {x : String} {tree tree' : Collect.State → String → Option Payload → Except PyErr (Forest Jws) × Collect.State}
    (htree : ∀ st a p, NotItself W st x → Fitting x a p → tree' st a p = tree st a p ∧ NotItself W (tree st a p).2 x) (e : String) {st : Collect.State} (h : NotItself W st x) (a : String) (ha : ¬ (e = x ∧ a = x)) :
    collectBranch C { P with anchors := P.anchors ++ [x] } W tree' e st a = collectBranch C P W tree e st a ∧ NotItself W (collectBranch C P W tree e st a).2 x := by
  have hg : getStatement C { P with anchors := P.anchors ++ [x] } W st e a = getStatement C P W st e a := rfl
  unfold collectBranch
  rw [hg]
  by_cases h1 : e = a ∧ e ∈ P.anchors
  · rw [if_pos h1, if_pos ⟨h1.1, List.mem_append_left _ h1.2⟩]
    exact ⟨rfl, h⟩
  have h2 : ¬ (e = a ∧ e ∈ P.anchors ++ [x]) := by
    rintro ⟨h2, h3⟩
    rcases List.mem_append.1 h3 with h3 | h3
    · exact h1 ⟨h2, h3⟩
    · have h4 := List.mem_singleton.1 h3
      exact ha ⟨h4, h2 ▸ h4⟩
  rw [if_neg h1, if_neg h2]
  have h' := getStatement_notItself (C := C) (P := P) h e a
  revert h'
  generalize getStatement C P W st e a = r
  obtain ⟨r, st1⟩ := r
  intro h'
  cases r with
  | error e => exact ⟨rfl, h'⟩
  | ok o =>
    cases o with
    | none => exact ⟨rfl, h'⟩
    | some j =>
      simp only
      have h3 := NotItself.subscript h' P.delta W.now a
      have hf : ∀ c, (Collect.subscript P.delta W.now st1.config a).1 = .ok c → Fitting x a (c.map (·.jws.payload)) := by
        intro c hc hax q hs hq hh
        cases c with
        | none => cases hq
        | some c =>
          simp only [Option.map, Option.some.injEq] at hq
          subst hq hax
          refine h'.2 c hs ?_ hh
          revert hc
          unfold Collect.subscript
          cases st1.config.get? a with
          | none => intro hc; cases hc
          | some c0 =>
            simp only [CacheVal.dictExp]
            cases c0.jws.payload.exp with
            | none => intro hc; cases hc
            | some y =>
              simp only
              by_cases h1 : W.now < y - P.delta
              · rw [if_pos h1]; intro hc; cases hc; rfl
              · rw [if_neg h1]; intro hc; cases hc
      revert h3 hf
      generalize Collect.subscript P.delta W.now st1.config a = r
      obtain ⟨r, db⟩ := r
      intro h3 hf
      cases r with
      | error e => exact ⟨rfl, h3⟩
      | ok c =>
        simp only
        obtain ⟨h4, h5⟩ := htree { st1 with config := db } a (c.map (·.jws.payload)) h3 (hf c rfl)
        rw [h4]
        revert h5
        generalize tree { st1 with config := db } a (c.map (·.jws.payload)) = r
        obtain ⟨r, st2⟩ := r
        intro h5
        cases r with
        | error e => exact ⟨rfl, h5⟩
        | ok f => exact ⟨rfl, h5⟩

theorem overHints_trusting {b b' : Collect.State → String → Except PyErr Branch × Collect.State} : ∀ (l : List String), (∀ st, ∀ a ∈ l, NotItself W st x → b' st a = b st a ∧ NotItself W (b st a).2 x) → ∀ (acc : Forest Jws) (st : Collect.State), NotItself W st x →
    overHints b' l acc st = overHints b l acc st ∧ NotItself W (overHints b l acc st).2 x := by
  intro l
  induction l with
  | nil => intro _ acc st h; exact ⟨rfl, h⟩
  | cons a as ih =>
    intro hb acc st h
    unfold overHints
    obtain ⟨h1, h2⟩ := hb st a (by simp) h
    rw [h1]
    revert h2
    generalize b st a = r
    obtain ⟨r, st1⟩ := r
    intro h2
    cases r with
    | error e => exact ⟨rfl, h2⟩
    | ok o => exact ih (fun st a ha => hb st a (by simp [ha])) _ _ h2

theorem tree_trusting (stopAt : String) : ∀ (fuel : Nat) (st : Collect.State) (e : String) (p : Option Payload), NotItself W st x → Fitting x e p →
    collectTree C { P with anchors := P.anchors ++ [x] } W stopAt fuel st e p = collectTree C P W stopAt fuel st e p ∧ NotItself W (collectTree C P W stopAt fuel st e p).2 x := by
  intro fuel
  induction fuel with
  | zero => intro st e p h _; exact ⟨rfl, h⟩
  | succ n ih =>
    intro st e p h hf
    cases p with
    | none => exact ⟨rfl, h⟩
    | some p =>
      unfold collectTree
      cases hh : p.hints with
      | none => exact ⟨rfl, h⟩
      | some l =>
        simp only
        by_cases hi : p.iss = stopAt
        · rw [if_pos hi, if_pos hi]; exact ⟨rfl, h⟩
        · rw [if_neg hi, if_neg hi]
          refine overHints_trusting l (fun st a ha h => branch_trusting ih e h a ?_) .nil st h
          rintro ⟨h1, h2⟩
          exact hf h1 p l rfl hh (h2 ▸ ha)

theorem collect_trusting (fuel : Nat) {st : Collect.State} (h : NotItself W st x) (entity stopAt : String) :
    Collect.collect C { P with anchors := P.anchors ++ [x] } W fuel st entity stopAt = Collect.collect C P W fuel st entity stopAt := by
  have ht : ∀ c, tooOld { P with anchors := P.anchors ++ [x] } W c = tooOld P W c := fun _ => rfl
  have hfetch : ∀ j p, W.config entity = .ok (some j) → selfVerify C W.now j = .ok p →
      collectTree C { P with anchors := P.anchors ++ [x] } W stopAt fuel { st with config := st.config.set entity ⟨j⟩ } entity (some p) =
        collectTree C P W stopAt fuel { st with config := st.config.set entity ⟨j⟩ } entity (some p) := by
    intro j p hc hv
    refine (tree_trusting stopAt fuel _ entity _ (h.set hc) ?_).1
    intro hx q hs hq hh
    simp only [Option.some.injEq] at hq
    subst hq hx
    have hp : p = j.payload := by
      unfold selfVerify at hv
      cases hk : j.payload.jwks with
      | none => rw [hk] at hv; cases hv
      | some ks =>
        rw [hk] at hv
        simp only at hv
        split at hv
        · cases hv; rfl
        · cases hv
    subst hp
    exact h.1 j hs hc hh
  have hnew : (match W.config entity with
      | .error e => (.error e.toPy, st)
      | .ok none => (.error .valueError, st)
      | .ok (some j) =>
        match selfVerify C W.now j with
        | .error e => (.error e, st)
        | .ok p =>
          match collectTree C { P with anchors := P.anchors ++ [x] } W stopAt fuel { st with config := st.config.set entity ⟨j⟩ } entity (some p) with
          | (.error e, st) => (.error e, st)
          | (.ok f, st) => (.ok (f, j), st) : Except PyErr (Forest Jws × Jws) × Collect.State) =
      (match W.config entity with
      | .error e => (.error e.toPy, st)
      | .ok none => (.error .valueError, st)
      | .ok (some j) =>
        match selfVerify C W.now j with
        | .error e => (.error e, st)
        | .ok p =>
          match collectTree C P W stopAt fuel { st with config := st.config.set entity ⟨j⟩ } entity (some p) with
          | (.error e, st) => (.error e, st)
          | (.ok f, st) => (.ok (f, j), st)) := by
    cases hc : W.config entity with
    | error e => rfl
    | ok d =>
      cases d with
      | none => rfl
      | some j =>
        simp only
        cases hv : selfVerify C W.now j with
        | error e => rfl
        | ok p => simp only; rw [hfetch j p hc hv]
  unfold Collect.collect
  cases hg : st.config.get? entity with
  | none => exact hnew
  | some c =>
    simp only
    rw [ht]
    cases tooOld P W c with
    | error e => rfl
    | ok b =>
      cases b with
      | true => exact hnew
      | false =>
        simp only
        rw [(tree_trusting stopAt fuel st entity (some c.jws.payload) h ?_).1]
        intro hx q hs hq hh
        simp only [Option.some.injEq] at hq
        subst hq hx
        exact h.2 c hs hg hh

end

/-! ### What is verified -/

theorem importJwks_grows (jar : KeyJar) (x : String) (ks : List Key) : Threads.Grows jar (Config.importJwks jar x ks) := Threads.grows_set jar x ks

theorem addKeys_grows (L : Lib) {jar jar' : KeyJar} (h : Threads.Grows jar jar') (sub : String) (ks : List Key) : Threads.Grows (addKeys L jar sub ks) (addKeys L jar' sub ks) := by
  refine ⟨fun e k hk => ?_, fun e he => ?_⟩
  · rw [mem_keysOf_addKeys] at hk ⊢
    exact hk.imp (h.1 e k) id
  · by_cases hj : Dict.has jar e = true
    · exact has_addKeys_mono _ _ _ _ _ (h.2 e hj)
    · rcases has_addKeys _ _ _ _ _ he with h1 | h1
      · exact absurd h1 hj
      · rw [h1] at he ⊢
        cases h2 : Dict.get? jar' e with
        | some old => exact has_addKeys_mono _ _ _ _ _ (by simp [Dict.has, h2])
        | none =>
          have h3 : Dict.get? jar e = none := by
            cases h4 : Dict.get? jar e with
            | none => rfl
            | some v => exact absurd (by simp [Dict.has, h4]) hj
          unfold addKeys at he ⊢
          rw [h3] at he
          rw [h2]
          simp only at he ⊢
          split at he
          · rename_i h5; rw [if_pos h5]; simp [Dict.has, Dict.get?_set]
          · rename_i h5
            rw [if_neg h5]
            split at he
            · exact absurd he hj
            · rename_i h6; rw [if_neg h6]; simp [Dict.has, Dict.get?_set]

theorem verifyLoop_kept (L : Lib) (n : Nat) (ds : List Doc) (jar : KeyJar) (ves : List Payload) : Threads.Grows jar (verifyLoop L n ds jar ves).2 :=
  ⟨fun e k hk => (verifyLoop_keeps ds jar ves e).1 k hk, fun e => (verifyLoop_keeps ds jar ves e).2⟩

/-- With more keys at the start there are more keys at the end. -/
theorem verifyLoop_grows {L : Lib} {n : Nat} : ∀ (ds : List Doc) {jar jar' : KeyJar} (ves : List Payload), Threads.Grows jar jar' →
    Threads.Grows (verifyLoop L n ds jar ves).2 (verifyLoop L n ds jar' ves).2
  | [], _, _, _, h => h
  | none :: ds, _, _, ves, h => by rw [verifyLoop, verifyLoop]; exact verifyLoop_grows ds ves h
  | some j :: ds, jar, jar', ves, h => by
    have hv' : (verifyKeys L jar j).any (L.verifies j) = true → (verifyKeys L jar' j).any (L.verifies j) = true := by
      intro hv
      obtain ⟨k, h1, h2, h3 | ⟨_, h3, -⟩⟩ := vouched_nil.2 hv
      · exact vouched_nil.1 ⟨k, h1, h2, Or.inl (h.1 _ _ h3)⟩
      · simp at h3
    by_cases hv : (verifyKeys L jar j).any (L.verifies j) = true
    · have e1 : ∀ {l : List Key}, l.any (L.verifies j) = true → ¬ l.isEmpty = true := by
        intro l hl he
        rw [List.isEmpty_iff] at he
        subst he
        cases hl
      rw [verifyLoop, verifyLoop]
      rw [if_neg (e1 hv), if_neg (e1 (hv' hv)), if_pos hv, if_pos (hv' hv)]
      cases hj : j.payload.jwks with
      | none =>
        simp only
        by_cases hn : ves.length ≠ n
        · rw [if_pos hn, if_pos hn]; exact h
        · rw [if_neg hn, if_neg hn]; exact verifyLoop_grows ds _ h
      | some ks => exact verifyLoop_grows ds _ (addKeys_grows L h _ ks)
    · have e2 : (verifyLoop L n (some j :: ds) jar ves).2 = jar := by
        rw [verifyLoop]
        by_cases he : (verifyKeys L jar j).isEmpty = true
        · rw [if_pos he]
        · rw [if_neg he, if_neg hv]
      rw [e2]
      exact h.trans (verifyLoop_kept L n _ jar' ves)

theorem verifyTrustChain_kept (L : Lib) (jar : KeyJar) (c : List Doc) : Threads.Grows jar (verifyTrustChain L jar c).2 := by
  rcases verifyTrustChain_jar (L := L) (jar := jar) (chain := c) with h | h <;> rw [h]
  · exact Threads.Grows.refl _
  · exact verifyLoop_kept ..

theorem verifyTrustChain_trusted {L : Lib} {jar : KeyJar} {j : Jws} {ds : List Doc} (h : Dict.has jar j.payload.iss = true) :
    (verifyTrustChain L jar (some j :: ds)).2 = (verifyLoop L ((some j :: ds : List Doc).length - 1) (some j :: ds) jar []).2 := by
  unfold verifyTrustChain
  simp only [trustedAnchor, h]
  generalize verifyLoop L _ (some j :: ds) jar [] = r
  obtain ⟨r, jar1⟩ := r
  cases r with
  | error e => rfl
  | ok ves =>
    simp only
    cases hl : ves.getLast? with
    | none => rfl
    | some leaf =>
      simp only
      cases meets ves.dropLast leaf <;> rfl

theorem verifyChain_grows (L : Lib) {jar jar' : KeyJar} (c : List Doc) (h : Threads.Grows jar jar') : Threads.Grows (verifyChain L jar c).2 (verifyChain L jar' c).2 := by
  rw [verifyChain_jar, verifyChain_jar]
  rcases c with _ | ⟨_ | j, ds⟩
  · exact h
  · exact h
  · by_cases hh : Dict.has jar j.payload.iss = true
    · rw [verifyTrustChain_trusted hh, verifyTrustChain_trusted (h.2 _ hh)]
      exact verifyLoop_grows _ _ h
    · have e : (verifyTrustChain L jar (some j :: ds)).2 = jar := by
        unfold verifyTrustChain
        simp only [trustedAnchor, Bool.not_eq_true _ ▸ hh]
      rw [e]
      exact h.trans (verifyTrustChain_kept ..)

theorem verifyChain_kept (L : Lib) (jar : KeyJar) (c : List Doc) : Threads.Grows jar (verifyChain L jar c).2 := by
  rw [verifyChain_jar]; exact verifyTrustChain_kept L jar c

/-- With more keys, more of the same chains are accepted. -/
theorem verifyChains_sublist {L : Lib} : ∀ (cs : List (List Doc)) {jar jar' : KeyJar} {tcs tcs' : List TrustChain}, Threads.Grows jar jar' →
    (verifyChains L cs jar).1 = .ok tcs → (verifyChains L cs jar').1 = .ok tcs' → tcs.Sublist tcs'
  | [], _, _, _, _, _, h, h' => by cases h; cases h'; exact .slnil
  | c :: cs, jar, jar', tcs, tcs', hg, h, h' => by
    have g := verifyChain_grows L c hg
    have m : ∀ tc, (verifyChain L jar c).1 = .ok (some tc) → (verifyChain L jar' c).1 = .ok (some tc) := fun tc => verifyChain_mono hg.1 hg.2
    rw [verifyChains] at h h'
    generalize verifyChain L jar c = r at h g m
    generalize verifyChain L jar' c = r' at h' g m
    obtain ⟨r, jar1⟩ := r
    obtain ⟨r', jar1'⟩ := r'
    cases r with
    | error e => cases h
    | ok o =>
      cases r' with
      | error e => cases h'
      | ok o' =>
        simp only at h h' g m
        have ih := fun a b => verifyChains_sublist (L := L) cs (tcs := a) (tcs' := b) g
        generalize verifyChains L cs jar1 = q at h ih
        generalize verifyChains L cs jar1' = q' at h' ih
        obtain ⟨q, _⟩ := q
        obtain ⟨q', _⟩ := q'
        cases q with
        | error e => cases h
        | ok a =>
          cases q' with
          | error e => cases h'
          | ok b =>
            simp only [Except.ok.injEq] at h h'
            subst h h'
            have hs := ih a b rfl rfl
            cases o with
            | none => exact hs.trans (List.sublist_append_right _ _)
            | some tc =>
              have := m tc rfl
              simp only [Except.ok.injEq] at this
              subst this
              exact hs.cons_cons tc

theorem applyPolicies_cons {E : SetEnum Val} {K : SetEnum String} {tc : TrustChain} {tcs out : List TrustChain} (h : applyPolicies E K (tc :: tcs) = .ok out) :
    ∃ t ts, applyToChain E K tc = .ok t ∧ applyPolicies E K tcs = .ok ts ∧ out = t :: ts := by
  unfold applyPolicies at h
  cases h1 : applyToChain E K tc with
  | error e => rw [h1] at h; cases h
  | ok t =>
    cases h2 : applyPolicies E K tcs with
    | error e => rw [h1, h2] at h; cases h
    | ok ts => rw [h1, h2] at h; cases h; exact ⟨t, ts, rfl, rfl, rfl⟩

theorem applyPolicies_sublist {E : SetEnum Val} {K : SetEnum String} {tcs tcs' : List TrustChain} (hs : tcs.Sublist tcs') : ∀ {out out' : List TrustChain},
    applyPolicies E K tcs = .ok out → applyPolicies E K tcs' = .ok out' → out.Sublist out' := by
  induction hs with
  | slnil => intro out out' h h'; cases h; cases h'; exact .slnil
  | cons a _ ih =>
    intro out out' h h'
    obtain ⟨t, ts, -, h2, rfl⟩ := applyPolicies_cons h'
    exact (ih h h2).cons t
  | cons_cons a _ ih =>
    intro out out' h h'
    obtain ⟨t, ts, h1, h2, rfl⟩ := applyPolicies_cons h'
    obtain ⟨t', ts', h1', h2', rfl⟩ := applyPolicies_cons h
    rw [h1] at h1'
    cases h1'
    exact (ih h2' h2).cons_cons t

theorem applyToChain_anchor {E : SetEnum Val} {K : SetEnum String} {tc t : TrustChain} (h : applyToChain E K tc = .ok t) : t.anchor = tc.anchor := by
  obtain ⟨_, _, _, _, ⟨_, _, _, rfl⟩ | ⟨_, _, _, rfl⟩⟩ := applyToChain_ok.1 h <;> rfl

/-! ### The theorems -/

/-- C219 as far as it holds, first part: when the entity is resolved after the anchor was added too, the trust chains there were are there still, in the same order. Missing: that it is resolved (`C219_conflict_violation`). The anchor does not name itself as its own authority. -/
theorem C219_kept_partial (V : Env) (st : State) (x : String) (ks : List Key) (entity stopAt : String) (hx : NotItself V.W st.coll x) (out out' : List TrustChain)
    (h : (getVerified V st entity stopAt).1 = .ok out) (h' : (getVerified (trusting V x) (givenKeys st x ks) entity stopAt).1 = .ok out') : out.Sublist out' := by
  obtain ⟨f, ec, tcs, h1, h2, h3, -⟩ := getVerified_ok h
  obtain ⟨f', ec', tcs', h1', h2', h3', -⟩ := getVerified_ok h'
  have hc := collect_trusting (C := V.L.toCrypto) (P := V.P) V.fuel hx entity stopAt
  have e : (Except.ok (f', ec') : Except PyErr _) = .ok (f, ec) := by rw [← h1, ← h1', ← hc]; rfl
  cases e
  exact applyPolicies_sublist (verifyChains_sublist _ (importJwks_grows st.jar x ks) h2 h2') h3 h3'

/-- C219 as far as it holds, second part: when each chain that is collected either was accepted with the keys held before or starts with a statement of the new anchor, then every trust chain there is afterwards was there before or is one to the new anchor.
Missing: chains that start elsewhere and were not accepted (`C219_elsewhere_violation`). -/
theorem C219_gained_partial (V : Env) (st : State) (x : String) (ks : List Key) (entity stopAt : String) (hx : NotItself V.W st.coll x) (out out' : List TrustChain)
    (hall : ∀ f ec, (Collect.collect V.L.toCrypto V.P V.W V.fuel st.coll entity stopAt).1 = .ok (f, ec) → ∀ c ∈ docs f ec,
      (∃ tc, (verifyChain V.L st.jar c).1 = .ok (some tc)) ∨ ∃ j ds, c = some j :: ds ∧ j.payload.iss = x)
    (h : (getVerified V st entity stopAt).1 = .ok out) (h' : (getVerified (trusting V x) (givenKeys st x ks) entity stopAt).1 = .ok out') :
    ∀ tc ∈ out', tc ∈ out ∨ tc.anchor = x := by
  obtain ⟨f, ec, tcs, h1, h2, h3, -⟩ := getVerified_ok h
  obtain ⟨f', ec', tcs', h1', h2', h3', -⟩ := getVerified_ok h'
  have hc := collect_trusting (C := V.L.toCrypto) (P := V.P) V.fuel hx entity stopAt
  have e : (Except.ok (f', ec') : Except PyErr _) = .ok (f, ec) := by rw [← h1, ← h1', ← hc]; rfl
  cases e
  intro t ht
  obtain ⟨tc, htc, ha⟩ := (applyPolicies_mem h3').1 t ht
  obtain ⟨pre, c, post, hcs, hv⟩ := (verifyChains_mem h2' tc).1 htc
  rcases hall f ec h1 c (by rw [hcs]; simp) with ⟨tc0, h0⟩ | ⟨j, ds, rfl, hj⟩
  · have keep : ∀ jar cs, Threads.Grows jar (runAll V.L jar cs) := fun jar cs => ⟨fun e k hk => (runAll_keeps V.L cs jar e).1 k hk, fun e he => (runAll_keeps V.L cs jar e).2 he⟩
    have g1 := (importJwks_grows st.jar x ks).trans (keep _ pre)
    have h0' := verifyChain_mono g1.1 g1.2 h0
    have : tc0 = tc := by
      have e : (Except.ok (some tc0) : Except PyErr _) = .ok (some tc) := h0'.symm.trans hv
      cases e; rfl
    subst this
    have g2 := keep st.jar pre
    have hm : tc0 ∈ tcs := (verifyChains_mem h2 tc0).2 ⟨pre, c, post, hcs, verifyChain_mono g2.1 g2.2 h0⟩
    obtain ⟨t', ht', ha'⟩ := (applyPolicies_mem h3).2 tc0 hm
    have e : (Except.ok t : Except PyErr _) = .ok t' := ha.symm.trans ha'
    cases e
    exact Or.inl ht'
  · right
    rw [applyToChain_anchor ha]
    obtain ⟨p, ps, y, hp, -, rfl⟩ := verifyChain_ok.1 hv
    obtain ⟨-, h5, -⟩ := verifyTrustChain_ok.1 hp
    simp only [statements] at h5
    simp at h5
    exact h5.1 ▸ hj

/-- C219 as far as it holds, third part: an entity all of whose chains were accepted before is resolved to just what it was resolved to, whether that is trust chains or an exception. -/
theorem C219_unconcerned_partial (V : Env) (st : State) (x : String) (ks : List Key) (entity stopAt : String) (hx : NotItself V.W st.coll x)
    (hall : ∀ f ec, (Collect.collect V.L.toCrypto V.P V.W V.fuel st.coll entity stopAt).1 = .ok (f, ec) → ∀ c ∈ docs f ec, ∃ tc, (verifyChain V.L st.jar c).1 = .ok (some tc)) :
    (getVerified (trusting V x) (givenKeys st x ks) entity stopAt).1 = (getVerified V st entity stopAt).1 := by
  have hc : Collect.collect (trusting V x).L.toCrypto (trusting V x).P (trusting V x).W (trusting V x).fuel (givenKeys st x ks).coll entity stopAt = Collect.collect V.L.toCrypto V.P V.W V.fuel st.coll entity stopAt :=
    collect_trusting (C := V.L.toCrypto) (P := V.P) V.fuel hx entity stopAt
  unfold getVerified
  rw [hc]
  generalize Collect.collect V.L.toCrypto V.P V.W V.fuel st.coll entity stopAt = r at hall ⊢
  obtain ⟨r, coll⟩ := r
  rcases r with e | ⟨f, ec⟩
  · rfl
  · simp only
    have hg : (verifyChains V.L (docs f ec) (givenKeys st x ks).jar).1 = (verifyChains V.L (docs f ec) st.jar).1 :=
      AtOnce.verifyChains_grown (hall f ec rfl) (importJwks_grows st.jar x ks)
    show (match verifyChains V.L (docs f ec) (givenKeys st x ks).jar with
      | (.error e, jar) => _
      | (.ok tcs, jar) => _ : Except PyErr (List TrustChain) × State).1 = (match verifyChains V.L (docs f ec) st.jar with
      | (.error e, jar) => _
      | (.ok tcs, jar) => _ : Except PyErr (List TrustChain) × State).1
    generalize verifyChains V.L (docs f ec) (givenKeys st x ks).jar = a at hg ⊢
    generalize verifyChains V.L (docs f ec) st.jar = b at hg ⊢
    obtain ⟨a, _⟩ := a
    obtain ⟨b, _⟩ := b
    simp only at hg
    subst hg
    cases a with
    | error e => rfl
    | ok tcs =>
      simp only
      show (match applyPolicies V.E V.K tcs with | .error e => _ | .ok tcs => _ : Except PyErr (List TrustChain) × State).1 = _
      cases applyPolicies V.E V.K tcs <;> rfl

/-! ### Where it does not hold -/

namespace Ex219
/-- `leaf` is below `im`, which is below `ta` and `tb`. `tb` is in conflict with `im` about what scopes are, `ta` has no opinion. `far` is below `mid`, which is below `tb` and below `dead`, an entity without a fetch endpoint. `near` is below `ta` and below `tb`. -/
def key : String → Key
  | "https://ta" => 1
  | "https://im" => 2
  | "https://leaf" => 3
  | "https://tb" => 4
  | "https://mid" => 5
  | "https://far" => 6
  | "https://near" => 7
  | _ => 9
def conf (e : String) (hints : Option (List String)) (md : Dict Policy.Metadata) : Jws :=
  ⟨{ iss := e, sub := e, exp := some 10000, jwks := some [key e], hints := hints, metadata := some md }, key e⟩
def scopes (v : String) : Dict Policy.MetadataPolicy := [("openid_relying_party", [("scopes", [("value", .str v)])])]
def about (a e : String) (pol : Dict Policy.MetadataPolicy := []) : Jws :=
  ⟨{ iss := a, sub := e, exp := some 10000, jwks := some [key e], policy := pol }, key a⟩
def W : Collect.World where
  now := 0
  config
    | "https://ta" => .ok (some (conf "https://ta" none (Ex.fe true)))
    | "https://tb" => .ok (some (conf "https://tb" none (Ex.fe true)))
    | "https://dead" => .ok (some (conf "https://dead" none (Ex.fe false)))
    | "https://im" => .ok (some (conf "https://im" (some ["https://ta", "https://tb"]) (Ex.fe true)))
    | "https://mid" => .ok (some (conf "https://mid" (some ["https://tb", "https://dead"]) (Ex.fe true)))
    | "https://leaf" => .ok (some (conf "https://leaf" (some ["https://im"]) (Ex.rp (.str "openid"))))
    | "https://far" => .ok (some (conf "https://far" (some ["https://mid"]) (Ex.rp (.str "openid"))))
    | "https://near" => .ok (some (conf "https://near" (some ["https://ta", "https://tb"]) (Ex.rp (.str "openid"))))
    | _ => .error .missingPage
  fetch _ a e := .ok (some (about a e (if a = "https://im" then scopes "openid" else if a = "https://tb" ∧ e = "https://im" then scopes "email" else [])))
def V : Env := { L := Ex.L, P := { anchors := ["https://ta"] }, W := W, fuel := 10, E := SetEnum.insertion, K := SetEnum.insertion }
def st : State := { jar := [("https://ta", [1])] }

/-- The anchors of what an entity is resolved to. -/
def anchors (r : Except PyErr (List TrustChain)) : Except PyErr (List String) := r.map (·.map (·.anchor))
end Ex219

/-- C219 does not hold: once `tb` is trusted too, `leaf`, which was resolved through `ta`, cannot be resolved any more, because what `tb` says about it is in conflict with what `im` says. -/
theorem C219_conflict_violation : ¬ C219_full := by
  intro h
  have h1 : Ex219.anchors (getVerified Ex219.V Ex219.st "https://leaf").1 = .ok ["https://ta"] := by decide +kernel
  have h2 : Ex219.anchors (getVerified (trusting Ex219.V "https://tb") (givenKeys Ex219.st "https://tb" [4]) "https://leaf").1 = .error .policyError := by decide +kernel
  cases h3 : (getVerified Ex219.V Ex219.st "https://leaf").1 with
  | error e => rw [h3] at h1; cases h1
  | ok out =>
    obtain ⟨out', h4, -⟩ := h Ex219.V Ex219.st "https://tb" [4] "https://leaf" "" out h3
    rw [h4] at h2
    cases h2

/-- C219 does not hold: `far` was not resolved; once `tb` is trusted there is a trust chain to `tb`, and another one whose trust anchor is `mid`. -/
theorem C219_elsewhere_violation : ¬ C219_full := by
  intro h
  have h1 : (getVerified Ex219.V Ex219.st "https://far").1 = .ok [] := by decide +kernel
  have h2 : Ex219.anchors (getVerified (trusting Ex219.V "https://tb") (givenKeys Ex219.st "https://tb" [4]) "https://far").1 = .ok ["https://tb", "https://mid"] := by decide +kernel
  obtain ⟨out', h4, -, h5⟩ := h Ex219.V Ex219.st "https://tb" [4] "https://far" "" [] h1
  rw [h4] at h2
  simp only [Ex219.anchors, Except.map, Except.ok.injEq] at h2
  have hm : "https://mid" ∈ out'.map (·.anchor) := by rw [h2]; decide
  obtain ⟨tc, htc, ha⟩ := List.mem_map.1 hm
  exact absurd (ha.symm.trans (h5 tc htc (by simp))) (by decide)

namespace Ex219
/-- Is every chain that is collected for the entity accepted, or else one that starts with a statement of `x`? -/
def concerned (V : Env) (st : State) (x : Option String) (entity : String) : Bool :=
  match (Collect.collect V.L.toCrypto V.P V.W V.fuel st.coll entity "").1 with
  | .error _ => true
  | .ok (f, ec) => (docs f ec).all fun c =>
    (match (verifyChain V.L st.jar c).1 with
    | .ok (some _) => true
    | _ => false) ||
    match c with
    | some j :: _ => decide (some j.payload.iss = x)
    | _ => false

theorem concerned_iff {V : Env} {st : State} {x : Option String} {entity : String} (h : concerned V st x entity = true) :
    ∀ f ec, (Collect.collect V.L.toCrypto V.P V.W V.fuel st.coll entity "").1 = .ok (f, ec) → ∀ c ∈ docs f ec,
      (∃ tc, (verifyChain V.L st.jar c).1 = .ok (some tc)) ∨ ∃ j ds, c = some j :: ds ∧ some j.payload.iss = x := by
  intro f ec hc c hm
  unfold concerned at h
  rw [hc] at h
  have := List.all_eq_true.1 h c hm
  rcases Bool.or_eq_true_iff.1 this with h1 | h1
  · left
    split at h1
    · rename_i tc h2; exact ⟨tc, h2⟩
    · cases h1
  · right
    split at h1
    · rename_i j ds; exact ⟨j, ds, rfl, of_decide_eq_true h1⟩
    · cases h1

theorem notItself : NotItself W st.coll "https://tb" := by
  refine ⟨fun j hs hj hh => ?_, fun c hs hc => by cases hc⟩
  have : j = conf "https://tb" none (Ex.fe true) := by
    simp only [W, Except.ok.injEq, Option.some.injEq] at hj
    exact hj.symm
  subst this
  cases hh

/-- `near` was resolved through `ta`; it is so still, and through `tb` as well; each other is as the theorems say. -/
example : anchors (getVerified V st "https://near").1 = .ok ["https://ta"] ∧
    anchors (getVerified (trusting V "https://tb") (givenKeys st "https://tb" [4]) "https://near").1 = .ok ["https://ta", "https://tb"] := by decide +kernel
example (out out' : List TrustChain) (h : (getVerified V st "https://near").1 = .ok out)
    (h' : (getVerified (trusting V "https://tb") (givenKeys st "https://tb" [4]) "https://near").1 = .ok out') : out.Sublist out' ∧ ∀ tc ∈ out', tc ∈ out ∨ tc.anchor = "https://tb" :=
  ⟨C219_kept_partial V st "https://tb" [4] "https://near" "" notItself out out' h h',
   C219_gained_partial V st "https://tb" [4] "https://near" "" notItself out out' (fun f ec hc c hm => by
    rcases concerned_iff (x := some "https://tb") (by decide +kernel) f ec hc c hm with h | ⟨j, ds, h1, h2⟩
    · exact Or.inl h
    · exact Or.inr ⟨j, ds, h1, by simpa using h2⟩) h h'⟩
/-- An entity below `ta` only. -/
example : (getVerified (trusting (Ex.env (Ex.W 0)) "https://tb") (givenKeys Ex.st "https://tb" [4]) "https://leaf").1 = .ok [Ex.leafChain] := by
  rw [C219_unconcerned_partial (Ex.env (Ex.W 0)) Ex.st "https://tb" [4] "https://leaf" "" ?_ ?_]
  · exact Ex.leaf_resolved
  · exact ⟨(fun j hs hj => by cases hj), (fun c hs hc => by cases hc)⟩
  · intro f ec hc c hm
    rcases concerned_iff (x := none) (by decide +kernel) f ec hc c hm with h | ⟨j, ds, h1, h2⟩
    · exact h
    · cases h2
end Ex219

end Fed.Chains
