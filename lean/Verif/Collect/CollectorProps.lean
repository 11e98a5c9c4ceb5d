import Verif.Collect.CollectorLemmas
/-
Properties C30, C31, C33: collecting the superiors of an entity.
-/
namespace Fed.Collect
open Fed

/-! ## C31 -/

theorem Faithful.mono {src src' : String → String → Jws → Prop} {cfg cfg' : String → Jws → Prop}
    {gone gone' : String → String → Prop} {stopAt e c f}
    (h : Faithful src cfg gone stopAt e c f) (h1 : ∀ a e s, src a e s → src' a e s) (h2 : ∀ a j, cfg a j → cfg' a j)
    (h3 : ∀ e a, gone e a → gone' e a) : Faithful src' cfg' gone' stopAt e c f := by
  induction h with
  | noHints h => exact .noHints h
  | stopped h => exact .stopped h
  | hints conf a b c d e f _ ih =>
    exact .hints conf a b c (fun x hx => h3 _ _ (d x hx)) (fun x s sub hx => h1 _ _ _ (e x s sub hx))
      (fun x s sub hx => h2 _ _ (f x s sub hx)) ih

theorem inv_collect_start {C W st j} {entity : String} (h1 : W.config entity = .ok (some j)) (h2 : selfVerify C W.now j = .ok j.payload) :
    Inv C W st { st with config := st.config.set entity ⟨j⟩ } := by
  refine ⟨fun k c hk => ?_, fun _ _ h => Or.inl h⟩
  rw [Dict.get?_set] at hk
  split at hk
  · cases hk; rename_i e; subst e; exact Or.inr ⟨h1, h2⟩
  · exact Or.inl hk

theorem collect_faithful {C : Crypto} {P : Params} {W : World} {fuel : Nat} {st : State} {entity stopAt : String} :
    Inv C W st (collect C P W fuel st entity stopAt).2 ∧
    ∀ f ec, (collect C P W fuel st entity stopAt).1 = .ok (f, ec) → ConfigFrom C W st entity ec ∧
      Faithful (CachedOrFetched C W st) (FreshConfig C P W st) (Gone C P W st) stopAt entity ec.payload f := by
  unfold collect
  simp only
  split
  · exact ⟨Inv.refl _ _ _, by simp⟩
  · rename_i c hc
    have hcfg : st.config.get? entity = some c := by
      split at hc
      · cases hc
      · rename_i c' hc'
        split at hc <;> cases hc
        exact hc'
    have := collectTree_faithful C P W stopAt st fuel st entity (some c.jws.payload) (Inv.refl _ _ _)
    generalize hr : collectTree C P W stopAt fuel st entity (some c.jws.payload) = r at this
    obtain ⟨r1, st1⟩ := r
    cases r1 with
    | error x => exact ⟨this.1, by simp⟩
    | ok f =>
      refine ⟨this.1, fun f' ec h => ?_⟩
      cases h
      obtain ⟨p, hp, hF⟩ := this.2 f rfl
      cases hp
      exact ⟨Or.inl hcfg, hF⟩
  · split
    · exact ⟨Inv.refl _ _ _, by simp⟩
    · exact ⟨Inv.refl _ _ _, by simp⟩
    · rename_i j hj
      split
      · exact ⟨Inv.refl _ _ _, by simp⟩
      · rename_i p hp
        have := selfVerify_payload hp
        subst this
        have := collectTree_faithful C P W stopAt st fuel { st with config := st.config.set entity ⟨j⟩ } entity (some j.payload)
          (inv_collect_start hj hp)
        generalize hr : collectTree C P W stopAt fuel { st with config := st.config.set entity ⟨j⟩ } entity (some j.payload) = r at this
        obtain ⟨r1, st1⟩ := r
        cases r1 with
        | error x => exact ⟨this.1, by simp⟩
        | ok f =>
          refine ⟨this.1, fun f' ec h => ?_⟩
          cases h
          obtain ⟨p, hp', hF⟩ := this.2 f rfl
          cases hp'
          exact ⟨Or.inr ⟨hj, hp⟩, hF⟩

/-- A statement by `a` about `e` comes from the cache entry of the pair or from the fetch endpoint of `a`. -/
def StatementFrom (C : Crypto) (W : World) (st : State) (a e : String) (s : Jws) : Prop :=
  st.es.get? (cacheKey a e) = some (.stmt s) ∨ Fetched C W st a e s

/-- C31 in full: in the collected tree each authority is a hint of the entity below it (all hints, in order) and carries the
statement it gave about that entity; nothing is above the stop entity; a branch is missing only where there is no statement
to be had. -/
def C31_full : Prop :=
  ∀ (C : Crypto) (P : Params) (W : World) (fuel : Nat) (st : State) (entity stopAt : String) (f : Forest Jws) (ec : Jws),
    (collect C P W fuel st entity stopAt).1 = .ok (f, ec) → ConfigFrom C W st entity ec ∧
      Faithful (StatementFrom C W st) (FreshConfig C P W st) (Gone C P W st) stopAt entity ec.payload f

/-- C31 for identifiers without exclamation mark. Missing: identifiers that contain one (see C34). -/
theorem C31_tree_faithful_partial (C : Crypto) (P : Params) (W : World) (fuel : Nat) (st : State) (entity stopAt : String)
    (f : Forest Jws) (ec : Jws) (h : (collect C P W fuel st entity stopAt).1 = .ok (f, ec)) :
    ConfigFrom C W st entity ec ∧ f.Wf ∧
      Faithful (fun a e s => Plain a → Plain e → StatementFrom C W st a e s) (FreshConfig C P W st) (Gone C P W st) stopAt
        entity ec.payload f := by
  obtain ⟨h1, h2⟩ := collect_faithful.2 f ec h
  refine ⟨h1, h2.wf, h2.mono ?_ (fun _ _ h => h) (fun _ _ h => h)⟩
  rintro a e s (h | ⟨a', e', hk, hF⟩) ha he
  · exact Or.inl h
  · obtain ⟨rfl, rfl⟩ := cacheKey_inj ha he hk
    exact Or.inr hF

namespace Ex31
/-- Any signature will do. -/
def C : Crypto := ⟨fun _ _ => true, fun _ _ => true, notExpired⟩
def P : Params := { anchors := ["https://ta"] }
def fe (ep : Option String) : Dict Policy.Metadata :=
  [("federation_entity", match ep with | none => [] | some u => [("federation_fetch_endpoint", .str u)])]
/-- A configuration of `k` with the given hints. -/
def conf (k : String) (hints : Option (List String)) : Jws :=
  ⟨{ iss := k, sub := k, exp := some 10000, jwks := some [1], hints := hints, metadata := some (fe (some "fetch")) }, 1⟩
def about (a e : String) : Jws := ⟨{ iss := a, sub := e, exp := some 10000, jwks := some [1] }, 2⟩
/-- A federation given by the hints of its members; each authority answers about everyone. -/
def world (hints : String → Option (List String)) : World where
  now := 0
  config k := .ok (some (conf k (hints k)))
  fetch _ a e := .ok (some (about a e))

def evil : String → Option (List String)
  | "leaf" => some ["x!exp!y", "y!exp!z!!w", "w", "z!!w"]
  | "y!exp!z!!w" => some ["x"]
  | "w" => some ["x!exp!y!!z"]
  | "z!!w" => some ["x!exp!y"]
  | _ => none

/-- The tree that is collected: `x!exp!y` above `z!!w` carries the statement of `x!exp!y!!z` about `w`. -/
def evilTree : Forest Jws :=
  .node "x!exp!y" (about "x!exp!y" "leaf") .nil <| .node "y!exp!z!!w" (about "y!exp!z!!w" "leaf") (.node "x" (about "x" "y!exp!z!!w") .nil .nil)
    (.node "w" (about "w" "leaf") (.node "x!exp!y!!z" (about "x!exp!y!!z" "w") .nil .nil)
      (.node "z!!w" (about "z!!w" "leaf") (.node "x!exp!y" (about "x!exp!y!!z" "w") .nil .nil) .nil))

theorem evil_collected : (collect C P (world evil) 10 {} "leaf" "").1 = .ok (evilTree, conf "leaf" (evil "leaf")) := by
  decide +kernel

def good : String → Option (List String)
  | "leaf" => some ["im1", "im2"]
  | "im1" => some ["ta"]
  | "im2" => some ["ta"]
  | _ => none
/-- A federation where the hypotheses of the theorems hold. -/
example : (collect C P (world good) 10 {} "leaf" "").1 = .ok
    (.node "im1" (about "im1" "leaf") (.node "ta" (about "ta" "im1") .nil .nil)
      (.node "im2" (about "im2" "leaf") (.node "ta" (about "ta" "im2") .nil .nil) .nil), conf "leaf" (good "leaf")) := by
  decide +kernel
end Ex31

/-- C31 does not hold for identifiers with exclamation marks: from empty caches, an authority is given a statement that
another authority made about another entity. -/
theorem C31_collision_violation : ¬ C31_full := by
  intro h
  have hF := (h _ _ _ _ _ _ _ _ _ Ex31.evil_collected).2
  cases hF with
  | hints conf hh hs hk hg hsrc hcfg hrec =>
    have hz : ("z!!w", some (Ex31.about "z!!w" "leaf", Forest.node "x!exp!y" (Ex31.about "x!exp!y!!z" "w") .nil .nil)) ∈
        Ex31.evilTree.items := by decide
    have h1 := hcfg _ _ _ hz
    have h2 := hrec _ _ _ hz
    cases h2 with
    | hints conf' hh' hs' hk' hg' hsrc' hcfg' hrec' =>
      have := hsrc' "x!exp!y" (Ex31.about "x!exp!y!!z" "w") .nil (by decide)
      rcases this with h3 | ⟨j, fe, ep, -, -, -, h3⟩
      · exact absurd h3 (by decide)
      · have : Ex31.about "x!exp!y" "z!!w" = Ex31.about "x!exp!y!!z" "w" := by simpa [Ex31.world] using h3
        exact absurd this (by decide)

/-! ## C30 -/

/-- More fuel does not change a run that ended. -/
theorem overHints_congr {b b' : State → String → Except PyErr Branch × State}
    (h : ∀ st a, (b st a).1 ≠ .error .outOfFuel → b' st a = b st a) :
    ∀ hs acc st, (overHints b hs acc st).1 ≠ .error .outOfFuel → overHints b' hs acc st = overHints b hs acc st
  | [], _, _, _ => rfl
  | a :: hs, acc, st, hne => by
      have key := h st a
      unfold overHints at hne ⊢
      generalize hr : b st a = r at hne key
      obtain ⟨r1, st1⟩ := r
      cases r1 with
      | error x => rw [key (by simpa using hne)]
      | ok o =>
        rw [key (by simp)]
        exact overHints_congr h hs _ _ (by simpa using hne)

theorem collectTree_mono (C : Crypto) (P : Params) (W : World) (stopAt : String) :
    ∀ n st e c, (collectTree C P W stopAt n st e c).1 ≠ .error .outOfFuel →
      collectTree C P W stopAt (n + 1) st e c = collectTree C P W stopAt n st e c
  | 0, st, e, c, h => absurd rfl h
  | n + 1, st, e, none, h => by simp [collectTree]
  | n + 1, st, e, some p, h => by
      rw [collectTree.eq_3] at h ⊢
      rw [collectTree.eq_3]
      cases hh : p.hints with
      | none => rfl
      | some hs =>
        simp only [hh] at h ⊢
        by_cases hst : p.iss = stopAt
        · simp only [hst, if_true]
        · simp only [hst, if_false] at h ⊢
          refine overHints_congr (fun st a hb => ?_) hs _ _ h
          unfold collectBranch at hb ⊢
          split at hb
          · rename_i hc; rw [if_pos hc, if_pos hc]
          · rename_i hc
            simp only [hc, if_false]
            generalize getStatement C P W st e a = r at hb ⊢
            obtain ⟨r1, st1⟩ := r
            cases r1 with
            | error x => rfl
            | ok o =>
              cases o with
              | none => rfl
              | some s =>
                simp only at hb ⊢
                generalize subscript P.delta W.now st1.config a = r at hb ⊢
                obtain ⟨r1, db⟩ := r
                cases r1 with
                | error x => rfl
                | ok o =>
                  simp only at hb ⊢
                  rw [collectTree_mono C P W stopAt n]
                  intro hx
                  apply hb
                  generalize collectTree C P W stopAt n { st1 with config := db } a (o.map (·.jws.payload)) = r at hx ⊢
                  obtain ⟨r1, db⟩ := r
                  simp only at hx
                  subst hx
                  rfl

/-- C30: the depth at which the model looks does not matter once a run has ended within it. -/
theorem C30_fuel_irrelevant (C : Crypto) (P : Params) (W : World) (stopAt : String) (n m : Nat) (hm : n ≤ m) (st : State)
    (e : String) (c : Option Payload) (h : (collectTree C P W stopAt n st e c).1 ≠ .error .outOfFuel) :
    collectTree C P W stopAt m st e c = collectTree C P W stopAt n st e c := by
  induction m with
  | zero => have : n = 0 := by omega
            rw [this]
  | succ m ih =>
    by_cases hnm : n ≤ m
    · rw [collectTree_mono C P W stopAt m st e c (by rw [ih hnm]; exact h), ih hnm]
    · have : n = m + 1 := by omega
      rw [this]

/-- C30 in full: every collection ends, that is, it ends within some depth of recursion. -/
def C30_full : Prop :=
  ∀ (C : Crypto) (P : Params) (W : World) (st : State) (entity stopAt : String),
    ∃ fuel, (collect C P W fuel st entity stopAt).1 ≠ .error .outOfFuel

namespace Ex30
open Ex31
/-- The leaf names `a`; `a` and `b` name each other. -/
def cyclic : String → Option (List String)
  | "leaf" => some ["a"]
  | "a" => some ["b"]
  | "b" => some ["a"]
  | _ => none
def W : World := world cyclic
/-- The caches once everything has been seen. -/
def full : State where
  config := [("leaf", ⟨conf "leaf" (cyclic "leaf")⟩), ("a", ⟨conf "a" (cyclic "a")⟩), ("b", ⟨conf "b" (cyclic "b")⟩)]
  es := [("a!!leaf", .stmt (about "a" "leaf")), ("a!exp!leaf", .time 10000), ("b!!a", .stmt (about "b" "a")),
    ("b!exp!a", .time 10000), ("a!!b", .stmt (about "a" "b")), ("a!exp!b", .time 10000)]
/-- The caches on the way. -/
def st1 : State := { config := [("leaf", ⟨conf "leaf" (cyclic "leaf")⟩)] }
def st2 : State where
  config := [("leaf", ⟨conf "leaf" (cyclic "leaf")⟩), ("a", ⟨conf "a" (cyclic "a")⟩)]
  es := [("a!!leaf", .stmt (about "a" "leaf")), ("a!exp!leaf", .time 10000)]
def st3 : State where
  config := [("leaf", ⟨conf "leaf" (cyclic "leaf")⟩), ("a", ⟨conf "a" (cyclic "a")⟩), ("b", ⟨conf "b" (cyclic "b")⟩)]
  es := [("a!!leaf", .stmt (about "a" "leaf")), ("a!exp!leaf", .time 10000), ("b!!a", .stmt (about "b" "a")),
    ("b!exp!a", .time 10000)]

theorem one {st st' : State} {e a : String} {x : Option (List String)} {n : Nat}
    (hh : cyclic e = some [a]) (hi : e ≠ "") (ha : ¬ (e = a ∧ e ∈ P.anchors))
    (hs : getStatement C P W st e a = (.ok (some (about a e)), st'))
    (hc : subscript P.delta W.now st'.config a = (.ok (some ⟨conf a x⟩), st'.config))
    (hr : (collectTree C P W "" n st' a (some (conf a x).payload)).1 = .error .outOfFuel) :
    (collectTree C P W "" (n + 1) st e (some (conf e (cyclic e)).payload)).1 = .error .outOfFuel := by
  unfold collectTree
  have h1 : (conf e (cyclic e)).payload.hints = some [a] := hh
  have h2 : ¬ (conf e (cyclic e)).payload.iss = "" := hi
  simp only [h1, h2, if_false, overHints, collectBranch, ha, hs, hc, Option.map]
  generalize hg : collectTree C P W "" n _ a (some (conf a x).payload) = r
  have : (collectTree C P W "" n st' a (some (conf a x).payload)) = r := hg
  rw [this] at hr
  obtain ⟨r1, r2⟩ := r
  simp only at hr
  subst hr
  rfl

theorem loop : ∀ n, (collectTree C P W "" n full "a" (some (conf "a" (cyclic "a")).payload)).1 = .error .outOfFuel ∧
    (collectTree C P W "" n full "b" (some (conf "b" (cyclic "b")).payload)).1 = .error .outOfFuel
  | 0 => ⟨rfl, rfl⟩
  | n + 1 => ⟨one (a := "b") (x := cyclic "b") (st' := full) (by decide) (by decide) (by decide) (by decide +kernel) (by decide +kernel) (loop n).2,
      one (a := "a") (x := cyclic "a") (st' := full) (by decide) (by decide) (by decide) (by decide +kernel) (by decide +kernel) (loop n).1⟩

theorem from3 : ∀ n, (collectTree C P W "" n st3 "b" (some (conf "b" (cyclic "b")).payload)).1 = .error .outOfFuel
  | 0 => rfl
  | n + 1 => one (a := "a") (x := cyclic "a") (st' := full) (by decide) (by decide) (by decide) (by decide +kernel) (by decide +kernel) (loop n).1
theorem from2 : ∀ n, (collectTree C P W "" n st2 "a" (some (conf "a" (cyclic "a")).payload)).1 = .error .outOfFuel
  | 0 => rfl
  | n + 1 => one (a := "b") (x := cyclic "b") (st' := st3) (by decide) (by decide) (by decide) (by decide +kernel) (by decide +kernel) (from3 n)
theorem from1 : ∀ n, (collectTree C P W "" n st1 "leaf" (some (conf "leaf" (cyclic "leaf")).payload)).1 = .error .outOfFuel
  | 0 => rfl
  | n + 1 => one (a := "a") (x := cyclic "a") (st' := st2) (by decide) (by decide) (by decide) (by decide +kernel) (by decide +kernel) (from2 n)
end Ex30

/-- C30 does not hold: two authorities that name each other are followed for ever, from empty caches. -/
theorem C30_cycle_violation : ¬ C30_full := by
  intro h
  obtain ⟨n, hn⟩ := h Ex31.C Ex31.P Ex30.W {} "leaf" ""
  apply hn
  have h1 := Ex30.from1 n
  have h2 : Ex30.W.config "leaf" = .ok (some (Ex31.conf "leaf" (Ex30.cyclic "leaf"))) := rfl
  have h3 : selfVerify Ex31.C Ex30.W.now (Ex31.conf "leaf" (Ex30.cyclic "leaf")) = .ok (Ex31.conf "leaf" (Ex30.cyclic "leaf")).payload := by
    decide +kernel
  unfold collect
  simp only [Dict.get?_nil, h2, h3]
  generalize hg : collectTree Ex31.C Ex31.P Ex30.W "" n _ "leaf" _ = r
  have : collectTree Ex31.C Ex31.P Ex30.W "" n Ex30.st1 "leaf" (some (Ex31.conf "leaf" (Ex30.cyclic "leaf")).payload) = r := hg
  rw [this] at h1
  obtain ⟨r1, r2⟩ := r
  simp only at h1
  subst h1
  rfl

theorem overHints_ends {branch : State → String → Except PyErr Branch × State} (I : State → Prop) :
    ∀ hs acc st, I st → (∀ st a, a ∈ hs → I st → I (branch st a).2 ∧ (branch st a).1 ≠ .error .outOfFuel) →
      I (overHints branch hs acc st).2 ∧ (overHints branch hs acc st).1 ≠ .error .outOfFuel
  | [], _, _, hI, _ => ⟨hI, by simp [overHints]⟩
  | a :: hs, acc, st, hI, hb => by
      have := hb st a (by simp) hI
      unfold overHints
      generalize branch st a = r at this
      obtain ⟨r1, st1⟩ := r
      cases r1 with
      | error x => exact ⟨this.1, by simpa using this.2⟩
      | ok b => exact overHints_ends I hs _ _ this.1 fun st x hx => hb st x (by simp [hx])

theorem NetErr.toPy_ne (e : NetErr) : e.toPy ≠ .outOfFuel := by cases e <;> simp [NetErr.toPy]

theorem getFetchEndpoint_ne (p : Payload) : getFetchEndpoint p ≠ .error .outOfFuel := by
  unfold getFetchEndpoint; split <;> simp

theorem selfVerify_ne (C : Crypto) (now : Int) (j : Jws) : selfVerify C now j ≠ .error .outOfFuel := by
  unfold selfVerify
  split
  · simp
  · split <;> simp

theorem refreshConfig_ne (C : Crypto) (W : World) (st : State) (a : String) : (refreshConfig C W st a).1 ≠ .error .outOfFuel := by
  unfold refreshConfig
  split
  · simp [NetErr.toPy_ne]
  · simp
  · split
    · rename_i j hj _ e he
      intro h; simp only [Except.error.injEq] at h; subst h; exact selfVerify_ne _ _ _ he
    · split
      · rename_i e he
        intro h; simp only [Except.error.injEq] at h; subst h; exact getFetchEndpoint_ne _ he
      · simp

theorem fetchEndpoint_ne (C : Crypto) (P : Params) (W : World) (st : State) (a : String) :
    (fetchEndpoint C P W st a).1 ≠ .error .outOfFuel := by
  unfold fetchEndpoint
  rcases subscript_config P.delta W.now st.config a with ⟨c, e, h1, h2, h3, h4⟩ | ⟨c, e, h1, h2, h3, h4⟩ | ⟨c, h1, h2, h4⟩ | ⟨h1, h4⟩
  · rw [h4]
    simp only
    split
    · rename_i e he
      intro h; simp only [Except.error.injEq] at h; subst h; exact getFetchEndpoint_ne _ he
    · split
      · simp
      · exact refreshConfig_ne _ _ _ _
  · rw [h4]; exact refreshConfig_ne _ _ _ _
  · rw [h4]; simp
  · rw [h4]; exact refreshConfig_ne _ _ _ _

theorem fetchStatement_ne (C : Crypto) (P : Params) (W : World) (st : State) (e a : String) :
    (fetchStatement C P W st e a).1 ≠ .error .outOfFuel := by
  unfold fetchStatement
  have := fetchEndpoint_ne C P W st a
  generalize fetchEndpoint C P W st a = r at this
  obtain ⟨r1, st1⟩ := r
  cases r1 with
  | error x => simpa using this
  | ok ep =>
    simp only
    split
    · simp
    · split
      · simp [NetErr.toPy_ne]
      · simp
      · split <;> simp

theorem getStatement_ne (C : Crypto) (P : Params) (W : World) (st : State) (e a : String) :
    (getStatement C P W st e a).1 ≠ .error .outOfFuel := by
  unfold getStatement
  split
  · exact fetchStatement_ne _ _ _ _ _ _
  · simp
  · split
    · split
      · exact fetchStatement_ne _ _ _ _ _ _
      · simp
    · simp

theorem collectTree_ends (C : Crypto) (P : Params) (W : World) (stopAt : String) (st0 : State) (rank : String → Nat)
    (hrank : ∀ e j hs, ConfigFrom C W st0 e j → j.payload.hints = some hs → ∀ a ∈ hs, rank a < rank e) :
    ∀ n st e c, Inv C W st0 st → (∀ p hs, c = some p → p.hints = some hs → ∀ a ∈ hs, rank a + 1 < n) → 0 < n →
      (collectTree C P W stopAt n st e c).1 ≠ .error .outOfFuel
  | 0, _, _, _, _, _, h0 => absurd h0 (by omega)
  | n + 1, st, e, none, h, _, _ => by simp [collectTree]
  | n + 1, st, e, some p, h, hp, _ => by
      unfold collectTree
      split
      · simp
      · rename_i hs hh
        split
        · simp
        · refine (overHints_ends (Inv C W st0) hs .nil st h fun st a ha hI => ?_).2
          have hlt := hp p hs rfl hh a ha
          have hinv := (overHints_inv (branch := collectBranch C P W (collectTree C P W stopAt n) e) (Inv C W st0) (fun _ _ => True)
            (fun st a hI => ⟨?_, fun _ _ => trivial⟩) [a] .nil st hI (by simp [Forest.keys, Forest.items]) (by simp)).1
          · refine ⟨?_, ?_⟩
            · unfold overHints at hinv
              generalize collectBranch C P W (collectTree C P W stopAt n) e st a = r at hinv ⊢
              obtain ⟨r1, r2⟩ := r
              cases r1 <;> exact hinv
            · unfold collectBranch
              split
              · simp
              · have h1 := getStatement_ne C P W st e a
                have h2 := (hI.getStatement P e a).1
                generalize getStatement C P W st e a = r at h1 h2
                obtain ⟨r1, st1⟩ := r
                cases r1 with
                | error x => simpa using h1
                | ok o =>
                  cases o with
                  | none => simp
                  | some s =>
                    simp only
                    have fin : ∀ st2 c, Inv C W st0 st2 → (∀ p hs, c = some p → p.hints = some hs → ∀ a ∈ hs, rank a + 1 < n) →
                        (match collectTree C P W stopAt n st2 a c with
                          | (Except.error e, st) => ((Except.error e : Except PyErr Branch), st)
                          | (Except.ok f, st) => (Except.ok (some (s, f)), st)).1 ≠ .error .outOfFuel := by
                      intro st2 c hI2 hc2
                      cases n with
                      | zero => omega
                      | succ n =>
                        have := collectTree_ends C P W stopAt st0 rank hrank (n + 1) st2 a c hI2 hc2 (by omega)
                        generalize collectTree C P W stopAt (n + 1) st2 a c = r at this
                        obtain ⟨r1, r2⟩ := r
                        cases r1 with
                        | error x => simpa using this
                        | ok f => simp
                    rcases subscript_config P.delta W.now st1.config a with
                      ⟨c, x, h1, h2', h3, h4⟩ | ⟨c, x, h1, h2', h3, h4⟩ | ⟨c, h1, h2', h4⟩ | ⟨h1, h4⟩
                    · rw [h4]
                      refine fin _ _ h2 fun p hs' hp' hh' x hx => ?_
                      simp only [Option.map, Option.some.injEq] at hp'
                      subst hp'
                      have := hrank a c.jws hs' (h2.config _ _ h1) hh' x hx
                      omega
                    · rw [h4]; exact fin _ _ (h2.drop_config a) (by simp)
                    · rw [h4]; simp
                    · rw [h4]; exact fin _ _ h2 (by simp)
          · unfold collectBranch
            split
            · exact hI
            · have h2 := (hI.getStatement P e a).1
              generalize getStatement C P W _ e a = r at h2
              obtain ⟨r1, st1⟩ := r
              cases r1 with
              | error x => exact h2
              | ok o =>
                cases o with
                | none => exact h2
                | some s =>
                  simp only
                  have h3 := h2.subscript P.delta W.now a
                  generalize Collect.subscript P.delta W.now st1.config a = r at h3
                  obtain ⟨r1, db⟩ := r
                  cases r1 with
                  | error x => exact h3
                  | ok c =>
                    simp only
                    have h4 := (collectTree_faithful C P W stopAt st0 n { st1 with config := db } a (c.map (·.jws.payload)) h3).1
                    generalize collectTree C P W stopAt n { st1 with config := db } a (c.map (·.jws.payload)) = r at h4
                    obtain ⟨r1, r2⟩ := r
                    cases r1 <;> exact h4

/-- C30 for hints without cycles: if the entities can be ranked so that each hint in a configuration (cached or found) ranks
below the entity it is for, collection ends, for every state of the caches. Missing: cyclic hints. -/
theorem C30_acyclic_partial (C : Crypto) (P : Params) (W : World) (st : State) (entity stopAt : String) (rank : String → Nat)
    (hrank : ∀ e j hs, ConfigFrom C W st e j → j.payload.hints = some hs → ∀ a ∈ hs, rank a < rank e) :
    ∀ fuel, rank entity < fuel → (collect C P W fuel st entity stopAt).1 ≠ .error .outOfFuel := by
  intro fuel hf
  have fin : ∀ st2 (j : Jws), Inv C W st st2 → ConfigFrom C W st entity j → 
      (match collectTree C P W stopAt fuel st2 entity (some j.payload) with
        | (Except.error e, st) => ((Except.error e : Except PyErr (Forest Jws × Jws)), st)
        | (Except.ok f, st) => (Except.ok (f, j), st)).1 ≠ .error .outOfFuel := by
    intro st2 j hI hc
    have := collectTree_ends C P W stopAt st rank hrank fuel st2 entity (some j.payload) hI (by
      intro p hs hp hh a ha
      cases hp
      have := hrank entity j hs hc hh a ha
      omega) (by omega)
    generalize collectTree C P W stopAt fuel st2 entity (some j.payload) = r at this
    obtain ⟨r1, r2⟩ := r
    cases r1 with
    | error x => simpa using this
    | ok f => simp
  unfold collect
  simp only
  split
  · rename_i e he
    split at he
    · cases he
    · split at he
      · rename_i e' ht
        cases he
        unfold tooOld at ht
        split at ht
        · cases ht; simp
        · cases ht
      · cases he
      · cases he
  · rename_i c hc
    have hcfg : st.config.get? entity = some c := by
      split at hc
      · cases hc
      · rename_i c' hc'
        split at hc <;> cases hc
        exact hc'
    exact fin st c.jws (Inv.refl _ _ _) (Or.inl hcfg)
  · split
    · simp [NetErr.toPy_ne]
    · simp
    · rename_i j hj
      split
      · rename_i e he
        intro h; simp only [Except.error.injEq] at h; subst h; exact selfVerify_ne _ _ _ he
      · rename_i p hp
        have := selfVerify_payload hp
        subst this
        exact fin _ j (inv_collect_start hj hp) (Or.inr ⟨hj, hp⟩)

/-- A ranking for the example federation. -/
example : ∀ e j hs, ConfigFrom Ex31.C (Ex31.world Ex31.good) {} e j → j.payload.hints = some hs → ∀ a ∈ hs,
    (fun s : String => if s = "leaf" then 2 else if s = "ta" then 0 else 1) a <
    (fun s : String => if s = "leaf" then 2 else if s = "ta" then 0 else 1) e := by
  rintro e j hs (h | ⟨h, -⟩) hh a ha
  · cases h
  · simp only [Ex31.world, Except.ok.injEq, Option.some.injEq] at h
    subst h
    simp only [Ex31.conf, Ex31.good] at hh
    split at hh <;> simp only [Option.some.injEq, reduceCtorEq] at hh <;> subst hh <;> simp at ha
    · rcases ha with rfl | rfl <;> decide
    · subst ha; decide
    · subst ha; decide

end Fed.Collect
