import Verif.Chains.Joined

/-!
# C228: time alone changes nothing about who is trusted

In a federation that does not change, an entity that resolves at some time resolved to the same trust chains at any earlier time, whatever has been resolved before or in between; and it goes on to resolve to them for as
long as the published configurations are valid for longer than the allowed delta. The functions concerned are those of Verif/Collect/Model.lean, Verif/Verifier/Model.lean and Verif/Chains/Model.lean (which cite the code);
the caches are those of earlier runs in the same federation, see Verif/Collect/Passing.lean.
-/

namespace Fed.Chains

open Server (Within)
open Collect hiding State collect
open Verify (TrustChain)

/-! ### What a change of the clock does to what is published -/

theorem publishedConfig_at {C : Crypto} {F : Federation} {t t' : Int} {a : String} {j : Jws} (hc : C.current t j = true → C.current t' j = true) (h : publishedConfig C F t a = some j) : publishedConfig C F t' a = some j := by
  rw [publishedConfig_iff] at h ⊢
  refine ⟨h.1, ?_⟩
  have h2 := h.2
  unfold selfVerify at h2 ⊢
  split at h2
  · cases h2
  · split at h2
    · rename_i hk
      rw [Bool.and_eq_true] at hk
      rw [if_pos (by rw [Bool.and_eq_true]; exact ⟨hk.1, hc hk.2⟩)]
    · cases h2

/-- What could be used at `t` can be used at `t'`. -/
structure StillGood (C : Crypto) (P : Params) (F : Federation) (t t' : Int) : Prop where
  current : ∀ k j, F.config k = .ok (some j) → C.current t j = true → C.current t' j = true
  fresh : ∀ k j, F.config k = .ok (some j) → freshAt P t j = true → freshAt P t' j = true

theorem StillGood.config {C P F t t'} (g : StillGood C P F t t') {a : String} {j : Jws} (h : publishedConfig C F t a = some j) : publishedConfig C F t' a = some j :=
  publishedConfig_at (g.current a j (publishedConfig_iff.1 h).1) h

theorem StillGood.statement {C P F t t'} (g : StillGood C P F t t') {a e : String} {s : Option Jws} (h : publishedStatement C F t a e = some s) : publishedStatement C F t' a e = some s := by
  unfold publishedStatement at h ⊢
  cases hp : publishedConfig C F t a with
  | none => rw [hp] at h; cases h
  | some j0 =>
    rw [hp] at h
    rw [g.config hp]
    exact h

theorem StillGood.branch {C P F t t'} (g : StillGood C P F t t') {tree tree' : String → Payload → Option (Forest Jws)} (ht : ∀ a p f, tree a p = some f → tree' a p = some f) {e a : String} {b : Branch}
    (h : idealBranch C P F t tree e a = some b) : idealBranch C P F t' tree' e a = some b := by
  unfold idealBranch at h ⊢
  split
  · rename_i hc; rw [if_pos hc] at h; exact h
  · rename_i hc
    rw [if_neg hc] at h
    cases hs : publishedStatement C F t a e with
    | none => rw [hs] at h; cases h
    | some s =>
      rw [hs] at h
      rw [g.statement hs]
      cases s with
      | none => exact h
      | some s =>
        simp only at h ⊢
        cases hp : publishedConfig C F t a with
        | none => rw [hp] at h; cases h
        | some j =>
          rw [hp] at h
          rw [g.config hp]
          simp only at h ⊢
          split at h
          · rename_i hf
            rw [if_pos (g.fresh a j (publishedConfig_iff.1 hp).1 hf)]
            cases hx : tree a j.payload with
            | none => rw [hx] at h; cases h
            | some f => rw [hx] at h; rw [ht _ _ _ hx]; exact h
          · cases h

theorem idealHints_of {br br' : String → Option Branch} (hb : ∀ a b, br a = some b → br' a = some b) : ∀ (hs : List String) (acc f : Forest Jws), idealHints br hs acc = some f → idealHints br' hs acc = some f
  | [], _, _, h => h
  | a :: as, acc, f, h => by
    unfold idealHints at h ⊢
    cases hx : br a with
    | none => rw [hx] at h; cases h
    | some b =>
      rw [hx] at h
      rw [hb _ _ hx]
      exact idealHints_of hb as _ _ h

theorem StillGood.tree {C P F t t'} (g : StillGood C P F t t') (stopAt : String) : ∀ (n : Nat) (e : String) (p : Payload) (f : Forest Jws), idealTree C P F t stopAt n e p = some f → idealTree C P F t' stopAt n e p = some f
  | 0, _, _, _, h => by cases h
  | n + 1, e, p, f, h => by
    unfold idealTree at h ⊢
    cases hh : p.hints with
    | none => rw [hh] at h; exact h
    | some hs =>
      rw [hh] at h
      simp only at h ⊢
      split
      · rename_i hc; rw [if_pos hc] at h; exact h
      · rename_i hc
        rw [if_neg hc] at h
        exact idealHints_of (fun _ _ hb => g.branch (g.tree stopAt n) hb) _ _ _ h

theorem StillGood.collect {C P F t t'} (g : StillGood C P F t t') {fuel : Nat} {entity stopAt : String} {x : Forest Jws × Jws} (h : idealCollect C P F t fuel entity stopAt = some x) : idealCollect C P F t' fuel entity stopAt = some x := by
  unfold idealCollect at h ⊢
  cases hp : publishedConfig C F t entity with
  | none => rw [hp] at h; cases h
  | some j =>
    rw [hp] at h
    rw [g.config hp]
    simp only at h ⊢
    cases hx : idealTree C P F t stopAt fuel entity j.payload with
    | none => rw [hx] at h; cases h
    | some f => rw [hx] at h; rw [g.tree stopAt _ _ _ _ hx]; exact h

/-- The caches are those of earlier collections in the same federation, whose documents are accepted for as long as they are valid for longer than the allowed delta. -/
structure Aged (F : Federation) (V : Env) (st : State) (h : List FRun) : Prop where
  world : V.W = F.at V.W.now
  steady : F.Steady V.L.toCrypto V.P V.W.now
  collected : st.coll = Collect.runAll V.L.toCrypto V.P (h.map (FRun.run F))
  order : h.Pairwise fun a b => a.time ≤ b.time
  past : ∀ r ∈ h, r.time ≤ V.W.now
  plain : ∀ r ∈ h, Plain r.entity

/-- The published configuration of the entity is accepted, or it expired at least the allowed delta ago. -/
def Settles (F : Federation) (V : Env) (entity : String) : Prop :=
  ∀ j x, F.config entity = .ok (some j) → j.payload.exp = some x → V.L.current V.W.now j = true ∨ x + V.P.delta ≤ V.W.now

theorem Aged.ideal {F : Federation} {V : Env} {st : State} {h : List FRun} (w : Aged F V st h) (hd : F.Dated) (hpl : F.PlainHints) {entity : String} (he : Plain entity) (hs : Settles F V entity) (stopAt : String) :
    (Collect.collect V.L.toCrypto V.P V.W V.fuel st.coll entity stopAt).1.toOption = idealCollect V.L.toCrypto V.P F V.W.now V.fuel entity stopAt := by
  have hs : ∀ j x, F.config entity = .ok (some j) → j.payload.exp = some x → V.L.toCrypto.current V.W.now j = true ∨ x + V.P.delta ≤ V.W.now := hs
  rw [w.collected]
  have hW := w.world
  generalize V.W.now = t at hW
  have h' := w.steady
  have h2 := w.past
  rw [hW] at h' h2 hs ⊢
  exact (collect_aging (runAll_aging (C := V.L.toCrypto) (P := V.P) hd hpl h t h' w.order h2 w.plain) hd hpl V.fuel entity stopAt he).2 hs

theorem verified_of_collected {V V' : Env} {st st' : State} {sub stopAt : String} {out : List TrustChain} {f : Forest Jws} {ec : Jws} (hL : V'.L = V.L) (hE : V'.E = V.E) (hK : V'.K = V.K) (hj : st'.jar = st.jar)
    (ho : (getVerified V st sub stopAt).1 = .ok out) (h1 : (Collect.collect V.L.toCrypto V.P V.W V.fuel st.coll sub stopAt).1 = .ok (f, ec))
    (h2 : (Collect.collect V'.L.toCrypto V'.P V'.W V'.fuel st'.coll sub stopAt).1 = .ok (f, ec)) : (getVerified V' st' sub stopAt).1 = .ok out := by
  obtain ⟨f1, ec1, tcs, c1, c2, c3, -⟩ := getVerified_ok ho
  rw [c1] at h1
  cases h1
  unfold getVerified
  generalize Collect.collect V'.L.toCrypto V'.P V'.W V'.fuel st'.coll sub stopAt = r at h2
  obtain ⟨r, coll⟩ := r
  simp only at h2
  subst h2
  simp only
  rw [hj, hL, hE, hK]
  unfold docs at c2
  generalize verifyChains V.L _ st.jar = q at c2
  obtain ⟨q, jar⟩ := q
  simp only at c2
  subst c2
  simp only
  rw [c3]

/-- What is published is not dated ahead: what is accepted at `t'` has been accepted at `t` already. -/
def NotAhead (F : Federation) (C : Crypto) (t t' : Int) : Prop := ∀ k j, F.config k = .ok (some j) → C.current t' j = true → C.current t j = true

/-- C228 in full: what an entity resolves to, it resolved to at any earlier time. -/
def C228_full : Prop :=
  ∀ (F : Federation) (V V' : Env) (st st' : State) (h h' : List FRun) (sub stopAt : String) (out : List TrustChain),
    Aged F V st h → Aged F V' st' h' → V' = { V with W := F.at V'.W.now } → st'.jar = st.jar → F.Dated → F.PlainHints → Plain sub → V.W.now ≤ V'.W.now → NotAhead F V.L.toCrypto V.W.now V'.W.now →
    (getVerified V' st' sub stopAt).1 = .ok out → (getVerified V st sub stopAt).1 = .ok out

theorem stillGood_before {F : Federation} {C : Crypto} {P : Params} {t t' : Int} (h : t ≤ t') (hn : NotAhead F C t t') : StillGood C P F t' t where
  current := hn
  fresh := by
    intro k j _ hf
    cases hx : freshAt P t j with
    | true => rfl
    | false => rw [freshAt_mono h hx] at hf; cases hf

theorem toOption_some {α : Type} {r : Except PyErr α} {x : α} (h : r.toOption = some x) : r = .ok x := by
  cases r with
  | error e => cases h
  | ok y => cases h; rfl

/-- C228 for an entity whose configuration has not expired, or expired at least the allowed delta ago. The trust chains and the metadata in them are the same ones, whatever has been resolved by then, by this process or
not. Missing: the time between the expiry of the configuration and the end of the delta. -/
theorem C228_waiting_partial (F : Federation) (V V' : Env) (st st' : State) (h h' : List FRun) (sub stopAt : String) (out : List TrustChain) (w : Aged F V st h) (w' : Aged F V' st' h')
    (hV : V' = { V with W := F.at V'.W.now }) (hj : st'.jar = st.jar) (hd : F.Dated) (hp : F.PlainHints) (hsub : Plain sub) (ht : V.W.now ≤ V'.W.now) (hn : NotAhead F V.L.toCrypto V.W.now V'.W.now)
    (hs : Settles F V' sub) (ho : (getVerified V' st' sub stopAt).1 = .ok out) : (getVerified V st sub stopAt).1 = .ok out := by
  obtain ⟨f, ec, tcs, c1, -⟩ := getVerified_ok ho
  have e1 : V'.L = V.L := by rw [hV]
  have e2 : V'.P = V.P := by rw [hV]
  have e3 : V'.fuel = V.fuel := by rw [hV]
  have e4 : V'.E = V.E := by rw [hV]
  have e5 : V'.K = V.K := by rw [hV]
  have i1 := w'.ideal hd hp hsub hs stopAt
  rw [c1, e1, e2, e3] at i1
  have i2 := (stillGood_before ht hn).collect i1.symm
  have hs0 : Settles F V sub := by
    intro j x hj hx
    cases hq : publishedConfig V.L.toCrypto F V.W.now sub with
    | none => unfold idealCollect at i2; rw [hq] at i2; cases i2
    | some j' =>
      rw [publishedConfig_iff, hj] at hq
      obtain ⟨q1, q2⟩ := hq
      cases q1
      left
      unfold selfVerify at q2
      split at q2
      · cases q2
      · split at q2
        · rename_i hk
          rw [Bool.and_eq_true] at hk
          exact hk.2
        · cases q2
  have i3 := w.ideal hd hp hsub hs0 stopAt
  rw [i2] at i3
  exact verified_of_collected e1.symm e4.symm e5.symm hj.symm ho c1 (toOption_some i3)

/-- C228 at one time: two processes with the same settings that know the same keys get the same trust chains, or both get none, whatever each of them has resolved before. -/
theorem C228_agree_partial (F : Federation) (V : Env) (st st' : State) (h h' : List FRun) (sub stopAt : String) (w : Aged F V st h) (w' : Aged F V st' h') (hj : st'.jar = st.jar) (hd : F.Dated) (hp : F.PlainHints)
    (hsub : Plain sub) (hs : Settles F V sub) : (getVerified V st sub stopAt).1.toOption = (getVerified V st' sub stopAt).1.toOption := by
  have hV : V = { V with W := F.at V.W.now } := by have := w.world; cases V; simp only at this ⊢; rw [← this]
  have go : ∀ (s s' : State) (k k' : List FRun), Aged F V s k → Aged F V s' k' → s'.jar = s.jar → ∀ out, (getVerified V s' sub stopAt).1 = .ok out → (getVerified V s sub stopAt).1 = .ok out :=
    fun s s' k k' a a' e out => C228_waiting_partial F V V s s' k k' sub stopAt out a a' hV e hd hp hsub (Int.le_refl _) (fun _ _ _ x => x) hs
  cases h1 : (getVerified V st' sub stopAt).1 with
  | ok out => rw [go st st' h h' w w' hj out h1]
  | error e =>
    cases h2 : (getVerified V st sub stopAt).1 with
    | error e' => rfl
    | ok out => rw [go st' st h' h w' w hj.symm out h2] at h1; cases h1

/-- C228, the other way round: what an entity resolves to, it will resolve to for as long as the published configurations are valid for longer than the allowed delta. -/
theorem C228_lasts (F : Federation) (V V' : Env) (st st' : State) (h h' : List FRun) (sub stopAt : String) (out : List TrustChain) (w : Aged F V st h) (w' : Aged F V' st' h')
    (hV : V' = { V with W := F.at V'.W.now }) (hj : st'.jar = st.jar) (hd : F.Dated) (hp : F.PlainHints) (hsub : Plain sub) (ht : V.W.now ≤ V'.W.now) (hs : Settles F V sub)
    (hx : ∀ k j x, F.config k = .ok (some j) → j.payload.exp = some x → V'.W.now < x - V.P.delta) (ho : (getVerified V st sub stopAt).1 = .ok out) : (getVerified V' st' sub stopAt).1 = .ok out := by
  obtain ⟨f, ec, tcs, c1, -⟩ := getVerified_ok ho
  have e1 : V'.L = V.L := by rw [hV]
  have e2 : V'.P = V.P := by rw [hV]
  have e3 : V'.fuel = V.fuel := by rw [hV]
  have e4 : V'.E = V.E := by rw [hV]
  have e5 : V'.K = V.K := by rw [hV]
  have hf : ∀ k j, F.config k = .ok (some j) → freshAt V.P V'.W.now j = true := by
    intro k j hj
    obtain ⟨x, h1⟩ := hd k j hj
    rw [freshAt_of h1, decide_eq_true_eq]
    exact hx k j x hj h1
  have hst := w'.steady
  rw [e1, e2] at hst
  have g : StillGood V.L.toCrypto V.P F V.W.now V'.W.now := ⟨fun k j hj hc => hst k j hj _ _ ht (Int.le_refl _) hc (hf k j hj), fun k j hj _ => hf k j hj⟩
  have i1 := w.ideal hd hp hsub hs stopAt
  rw [c1] at i1
  have i2 := g.collect i1.symm
  have hs' : Settles F V' sub := by
    intro j x hj hx
    cases hq : publishedConfig V.L.toCrypto F V'.W.now sub with
    | none => unfold idealCollect at i2; rw [hq] at i2; cases i2
    | some j' =>
      rw [publishedConfig_iff, hj] at hq
      obtain ⟨q1, q2⟩ := hq
      cases q1
      left
      rw [e1]
      unfold selfVerify at q2
      split at q2
      · cases q2
      · split at q2
        · rename_i hk
          rw [Bool.and_eq_true] at hk
          exact hk.2
        · cases q2
  have i3 := w'.ideal hd hp hsub hs' stopAt
  rw [e1, e2, e3, i2] at i3
  have i4 := toOption_some i3
  exact verified_of_collected e1 e4 e5 hj ho c1 (by rw [e1, e2, e3]; exact i4)

/-! ### Where it does not hold, and examples -/

namespace Ex228
/-- `leaf` is below `ta`. Its configuration expires at 1000, that of `ta` at 10000. -/
def conf (k : String) : Jws := { Ex219.conf k (if k = "https://leaf" then some ["https://ta"] else none) (if k = "https://leaf" then Ex.rp (.str "openid") else Ex.fe true) with
  payload := { (Ex219.conf k (if k = "https://leaf" then some ["https://ta"] else none) (if k = "https://leaf" then Ex.rp (.str "openid") else Ex.fe true)).payload with exp := some (if k = "https://leaf" then 1000 else 10000) } }
def F : Federation where
  config k := .ok (some (conf k))
  fetch _ a e := .ok (some (Ex219.about a e))

theorem dated : F.Dated := by intro k j h; cases h; exact ⟨_, rfl⟩
theorem plainHints : F.PlainHints := by
  intro k j hs h hh
  cases h
  simp only [conf, Ex219.conf] at hh
  split at hh
  · cases hh; decide
  · cases hh
theorem notAhead {t t' : Int} (h : t ≤ t') : NotAhead F Ex.L.toCrypto t t' := by
  intro k j hj
  cases hj
  simp only [conf, Ex.L, notExpired, decide_eq_true_eq]
  omega

def V (t : Int) : Env := { L := Ex.L, P := { anchors := ["https://ta"] }, W := F.at t, fuel := 10, E := SetEnum.insertion, K := SetEnum.insertion }
/-- A process that has not resolved anything yet. -/
def new : State := { jar := [("https://ta", [1])] }
def before : List FRun := [⟨0, 10, "https://leaf", ""⟩]
/-- One that has resolved `leaf` at 0 (and has put what it has learnt about keys aside). -/
def used : State := { coll := Collect.runAll Ex.L.toCrypto (V 0).P (before.map (FRun.run F)), jar := [("https://ta", [1])] }

theorem aged (t : Int) : Aged F (V t) new [] where
  world := rfl
  steady := Federation.steady_notExpired (fun _ _ => rfl) (show (0 : Int) ≤ 300 by decide) _ _
  collected := rfl
  order := List.Pairwise.nil
  past := by intro r hr; cases hr
  plain := by intro r hr; cases hr
theorem aged_used {t : Int} (ht : 0 ≤ t) : Aged F (V t) used before where
  world := rfl
  steady := Federation.steady_notExpired (fun _ _ => rfl) (show (0 : Int) ≤ 300 by decide) _ _
  collected := rfl
  order := List.pairwise_singleton _ _
  past := by intro r hr; cases List.mem_singleton.1 hr; exact ht
  plain := by intro r hr; cases List.mem_singleton.1 hr; decide
end Ex228

/-- C228 does not hold: the configuration of `leaf` expires at 1000. A process that starts at 1100 does not accept it. One that has it in its cache does, at 1200. -/
theorem C228_expired_violation : ¬ C228_full := by
  intro h
  have h1 : Ex219.anchors (getVerified (Ex228.V 1200) Ex228.used "https://leaf").1 = .ok ["https://ta"] := by decide +kernel
  have h2 : (getVerified (Ex228.V 1100) Ex228.new "https://leaf").1.toOption = none := by decide +kernel
  cases h3 : (getVerified (Ex228.V 1200) Ex228.used "https://leaf").1 with
  | error e => rw [h3] at h1; cases h1
  | ok out =>
    have := h Ex228.F (Ex228.V 1100) (Ex228.V 1200) Ex228.new Ex228.used [] Ex228.before "https://leaf" "" out (Ex228.aged _) (Ex228.aged_used (by decide)) rfl rfl Ex228.dated Ex228.plainHints (by decide) (by decide)
      (Ex228.notAhead (by decide)) h3
    rw [this] at h2
    cases h2

namespace Ex228
theorem settles {t : Int} (ht : t < 1015 ∨ 1300 ≤ t) : Settles F (V t) "https://leaf" := by
  intro j x hj hx
  cases hj
  cases hx
  rcases ht with ht | ht
  · left
    show decide (t < 1000 + 15) = true
    simpa using ht
  · right
    exact ht

/-- The cases C228 is about: `leaf` is resolved by a process that has done so before, at 1010, when its configuration has in fact expired; so it was at 500, by a process that had not. What is resolved at 0 is so at 600. -/
example (out : List TrustChain) (ho : (getVerified (V 1010) used "https://leaf").1 = .ok out) : (getVerified (V 500) new "https://leaf").1 = .ok out :=
  C228_waiting_partial F (V 500) (V 1010) new used [] before "https://leaf" "" out (aged _) (aged_used (by decide)) rfl rfl dated plainHints (by decide) (by decide) (notAhead (by decide)) (settles (by decide)) ho
example : Ex219.anchors (getVerified (V 1010) used "https://leaf").1 = .ok ["https://ta"] := by decide +kernel
example (out : List TrustChain) (ho : (getVerified (V 0) new "https://leaf").1 = .ok out) : (getVerified (V 600) used "https://leaf").1 = .ok out :=
  C228_lasts F (V 0) (V 600) new used [] before "https://leaf" "" out (aged _) (aged_used (by decide)) rfl rfl dated plainHints (by decide) (by decide) (settles (by decide))
    (by intro k j x hj hx
        cases hj
        cases hx
        show (600 : Int) < _ - 300
        split <;> decide) ho
example : Ex219.anchors (getVerified (V 0) new "https://leaf").1 = .ok ["https://ta"] := by decide +kernel
example : (getVerified (V 1010) new "https://leaf").1.toOption = (getVerified (V 1010) used "https://leaf").1.toOption :=
  C228_agree_partial F (V 1010) new used [] before "https://leaf" "" (aged _) (aged_used (by decide)) rfl dated plainHints (by decide) (settles (by decide))
end Ex228

end Fed.Chains
