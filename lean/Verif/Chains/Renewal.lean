import Verif.Chains.Waiting

/-!
# C232: how early documents are renewed does not decide who is trusted

The setting `allowed_delta` of the collector (/repo/src/fedservice/entity/function/trust_chain_collector.py 70-89, cache.py 17-40) says how long before their expiry remembered documents are fetched anew. The functions concerned are those of
Verif/Collect/Collector.lean and Verif/Chains/Model.lean, which cite the code.
-/

namespace Fed.Chains

open Collect hiding State collect
open Verify (TrustChain)

/-- Whoever is recent enough with the setting `P` is with the setting `P'`; the trust anchors are the same. -/
structure Later (F : Federation) (t : Int) (P P' : Params) : Prop where
  anchors : P'.anchors = P.anchors
  fresh : ∀ k j, F.config k = .ok (some j) → freshAt P t j = true → freshAt P' t j = true

theorem Later.branch {C : Crypto} {F : Federation} {t : Int} {P P' : Params} (g : Later F t P P') {tree tree' : String → Payload → Option (Forest Jws)} (ht : ∀ a p f, tree a p = some f → tree' a p = some f) {e a : String} {b : Branch}
    (h : idealBranch C P F t tree e a = some b) : idealBranch C P' F t tree' e a = some b := by
  unfold idealBranch at h ⊢
  rw [g.anchors]
  split
  · rename_i hc; rw [if_pos hc] at h; exact h
  · rename_i hc
    rw [if_neg hc] at h
    rcases hs : publishedStatement C F t a e with _ | (_ | s)
    · rw [hs] at h; cases h
    · rw [hs] at h; exact h
    · rw [hs] at h
      simp only at h ⊢
      cases hp : publishedConfig C F t a with
      | none => rw [hp] at h; cases h
      | some j =>
        rw [hp] at h
        simp only at h ⊢
        split at h
        · rename_i hf
          rw [if_pos (g.fresh a j (publishedConfig_iff.1 hp).1 hf)]
          cases hx : tree a j.payload with
          | none => rw [hx] at h; cases h
          | some f => rw [hx] at h; rw [ht _ _ _ hx]; exact h
        · cases h

theorem Later.tree {C : Crypto} {F : Federation} {t : Int} {P P' : Params} (g : Later F t P P') (stopAt : String) : ∀ (n : Nat) (e : String) (p : Payload) (f : Forest Jws), idealTree C P F t stopAt n e p = some f → idealTree C P' F t stopAt n e p = some f
  | 0, _, _, _, h => by cases h
  | n + 1, e, p, f, h => by
    unfold idealTree at h ⊢
    cases hh : p.hints with
    | none => rw [hh] at h; exact h
    | some hs =>
      rw [hh] at h
      simp only at h ⊢
      split
      · rename_i hc; rw [if_pos hc] at h; exact h
      · rename_i hc
        rw [if_neg hc] at h
        exact idealHints_of (fun _ _ hb => g.branch (g.tree stopAt n) hb) _ _ _ h

theorem Later.collect {C : Crypto} {F : Federation} {t : Int} {P P' : Params} (g : Later F t P P') {fuel : Nat} {entity stopAt : String} {x : Forest Jws × Jws} (h : idealCollect C P F t fuel entity stopAt = some x) : idealCollect C P' F t fuel entity stopAt = some x := by
  unfold idealCollect at h ⊢
  cases hp : publishedConfig C F t entity with
  | none => rw [hp] at h; cases h
  | some j =>
    rw [hp] at h
    simp only at h ⊢
    cases hx : idealTree C P F t stopAt fuel entity j.payload with
    | none => rw [hx] at h; cases h
    | some f => rw [hx] at h; rw [g.tree stopAt _ _ _ _ hx]; exact h

theorem later_of_le {F : Federation} {t : Int} {P P' : Params} (ha : P'.anchors = P.anchors) (hd : P'.delta ≤ P.delta) : Later F t P P' where
  anchors := ha
  fresh k j _ h := by
    unfold freshAt at h ⊢
    split at h
    · rw [decide_eq_true_eq] at h ⊢; omega
    · cases h

/-- C232 in full: two processes in the same federation that trust the same trust anchors, knowing the same keys, and differ only in how early they renew documents, and in what they have resolved before, resolve every entity to the same trust chains. -/
def C232_full : Prop :=
  ∀ (F : Federation) (V V' : Env) (st st' : State) (h h' : List FRun) (sub stopAt : String),
    Aged F V st h → Aged F V' st' h' → V' = { V with P := { V.P with delta := V'.P.delta } } → st'.jar = st.jar → F.Dated → F.PlainHints → Plain sub → Settles F V sub → Settles F V' sub → 0 ≤ V.P.delta → 0 ≤ V'.P.delta →
    (getVerified V st sub stopAt).1.toOption = (getVerified V' st' sub stopAt).1.toOption

theorem renewed_of {F : Federation} {V V' : Env} {st st' : State} {h h' : List FRun} {sub stopAt : String} {out : List TrustChain} (w : Aged F V st h) (w' : Aged F V' st' h') (hV : V' = { V with P := { V.P with delta := V'.P.delta } })
    (hj : st'.jar = st.jar) (hd : F.Dated) (hp : F.PlainHints) (hsub : Plain sub) (hs : Settles F V sub) (hs' : Settles F V' sub) (g : Later F V.W.now V.P V'.P) (ho : (getVerified V st sub stopAt).1 = .ok out) : (getVerified V' st' sub stopAt).1 = .ok out := by
  obtain ⟨f, ec, tcs, c1, -⟩ := getVerified_ok ho
  have e1 : V'.L = V.L := by rw [hV]
  have e2 : V'.W = V.W := by rw [hV]
  have e3 : V'.fuel = V.fuel := by rw [hV]
  have e4 : V'.E = V.E := by rw [hV]
  have e5 : V'.K = V.K := by rw [hV]
  have i1 := w.ideal hd hp hsub hs stopAt
  rw [c1] at i1
  have i2 := g.collect i1.symm
  have i3 := w'.ideal hd hp hsub hs' stopAt
  rw [e1, e2, e3, i2] at i3
  have i4 := toOption_some i3
  exact verified_of_collected e1 e4 e5 hj ho c1 (by rw [e1, e2, e3]; exact i4)

/-- C232, the one way: what is resolved by a process that renews documents early is resolved, to the same trust chains, by one that renews them later, whatever either has resolved before. Partial: not the other way, see below. -/
theorem C232_later_partial (F : Federation) (V V' : Env) (st st' : State) (h h' : List FRun) (sub stopAt : String) (out : List TrustChain) (w : Aged F V st h) (w' : Aged F V' st' h') (hV : V' = { V with P := { V.P with delta := V'.P.delta } })
    (hj : st'.jar = st.jar) (hd : F.Dated) (hp : F.PlainHints) (hsub : Plain sub) (hs : Settles F V sub) (hs' : Settles F V' sub) (hle : V'.P.delta ≤ V.P.delta) (ho : (getVerified V st sub stopAt).1 = .ok out) : (getVerified V' st' sub stopAt).1 = .ok out :=
  renewed_of w w' hV hj hd hp hsub hs hs' (later_of_le (by rw [hV]) hle) ho

/-- C232, where no published configuration is about to expire (within the larger of the two settings, but not within the smaller): the two resolve the same. -/
theorem C232_agree_partial (F : Federation) (V V' : Env) (st st' : State) (h h' : List FRun) (sub stopAt : String) (w : Aged F V st h) (w' : Aged F V' st' h') (hV : V' = { V with P := { V.P with delta := V'.P.delta } })
    (hj : st'.jar = st.jar) (hd : F.Dated) (hp : F.PlainHints) (hsub : Plain sub) (hs : Settles F V sub) (hs' : Settles F V' sub)
    (hx : ∀ k j x, F.config k = .ok (some j) → j.payload.exp = some x → (V.W.now < x - V.P.delta ↔ V.W.now < x - V'.P.delta)) : (getVerified V st sub stopAt).1.toOption = (getVerified V' st' sub stopAt).1.toOption := by
  have ea : V'.P.anchors = V.P.anchors := by rw [hV]
  have ew : V'.W.now = V.W.now := by rw [hV]
  have hf : ∀ k j, F.config k = .ok (some j) → freshAt V.P V.W.now j = freshAt V'.P V.W.now j := by
    intro k j hj
    obtain ⟨x, h1⟩ := hd k j hj
    rw [freshAt_of h1, freshAt_of h1]
    exact decide_eq_decide.2 (hx k j x hj h1)
  have hV' : V = { V' with P := { V'.P with delta := V.P.delta } } := by rw [hV]
  cases h1 : (getVerified V' st' sub stopAt).1 with
  | ok out => rw [renewed_of w' w hV' hj.symm hd hp hsub hs' hs ⟨ea.symm, fun k j hj h => by rw [ew] at h ⊢; rw [hf k j hj]; exact h⟩ h1]
  | error e =>
    cases h2 : (getVerified V st sub stopAt).1 with
    | error e' => rfl
    | ok out => rw [renewed_of w w' hV hj hd hp hsub hs hs' ⟨ea, fun k j hj h => by rw [← hf k j hj]; exact h⟩ h2] at h1; cases h1

namespace Ex232
open Ex228

/-- As `Ex228.V`, with another setting. -/
def U (d t : Int) : Env := { V t with P := { anchors := ["https://ta"], delta := d } }

theorem aged_new {d t : Int} (hd : 0 ≤ d) : Aged F (U d t) new [] where
  world := rfl
  steady := Federation.steady_notExpired (fun _ _ => rfl) hd _ _
  collected := rfl
  order := List.Pairwise.nil
  past := by intro r hr; cases hr
  plain := by intro r hr; cases hr

theorem settles {d t : Int} (ht : t < 1015) : Settles F (U d t) "https://leaf" := by
  intro j x hj hx
  cases hj
  cases hx
  left
  show decide (t < 1000 + 15) = true
  simpa using ht

/-- The case of both: at 500 a process with a delta of 300 and one with a delta of 400 agree about `leaf`, and it is resolved. -/
example : (getVerified (U 300 500) new "https://leaf").1.toOption = (getVerified (U 400 500) new "https://leaf").1.toOption :=
  C232_agree_partial F (U 300 500) (U 400 500) new new [] [] "https://leaf" "" (aged_new (by decide)) (aged_new (by decide)) rfl rfl dated plainHints (by decide) (settles (by decide)) (settles (by decide))
    (by intro k j x hj hx
        cases hj
        have hx : (if k = "https://leaf" then (1000 : Int) else 10000) = x := by cases hx; rfl
        show (500 : Int) < x - 300 ↔ (500 : Int) < x - 400
        split at hx <;> omega)
example : Ex219.anchors (getVerified (U 400 500) new "https://leaf").1 = .ok ["https://ta"] := by decide +kernel
/-- And one that renews documents only when they expire finds what one with a delta of 300 finds. -/
example (out : List TrustChain) (ho : (getVerified (U 300 500) new "https://leaf").1 = .ok out) : (getVerified (U 0 500) new "https://leaf").1 = .ok out :=
  C232_later_partial F (U 300 500) (U 0 500) new new [] [] "https://leaf" "" out (aged_new (by decide)) (aged_new (by decide)) rfl rfl dated plainHints (by decide) (settles (by decide)) (settles (by decide)) (by decide) ho

/-- The same federation, where the trust anchor publishes configurations that expire at 700. -/
def short : Federation := { F with config := fun k => .ok (some (if k = "https://ta" then { conf k with payload := { (conf k).payload with exp := some 700 } } else conf k)) }

theorem short_dated : short.Dated := by
  intro k j h
  cases h
  split
  · exact ⟨_, rfl⟩
  · exact ⟨_, rfl⟩

theorem short_plain : short.PlainHints := by
  intro k j hs h hh
  cases h
  refine plainHints k (conf k) hs rfl ?_
  split at hh
  · exact hh
  · exact hh

def S (d t : Int) : Env := { U d t with W := short.at t }

theorem short_aged {d t : Int} (hd : 0 ≤ d) : Aged short (S d t) new [] where
  world := rfl
  steady := Federation.steady_notExpired (fun _ _ => rfl) hd _ _
  collected := rfl
  order := List.Pairwise.nil
  past := by intro r hr; cases hr
  plain := by intro r hr; cases hr

theorem short_settles {d t : Int} (ht : t < 1015) : Settles short (S d t) "https://leaf" := by
  intro j x hj hx
  cases hj
  cases hx
  left
  show decide (t < 1000 + 15) = true
  simpa using ht
end Ex232

/-- C232 does not hold: a configuration that expires sooner than the setting says is fetched, and then not used, so that whoever depends on it cannot be resolved at all. With a delta of 100 `leaf` is resolved at 500, with one of 300 (the default) it is not, though every
document of the federation is valid. -/
theorem C232_expiring_violation : ¬ C232_full := by
  intro h
  have h1 := h Ex232.short (Ex232.S 100 500) (Ex232.S 300 500) Ex228.new Ex228.new [] [] "https://leaf" "" (Ex232.short_aged (by decide)) (Ex232.short_aged (by decide)) rfl rfl Ex232.short_dated Ex232.short_plain (by decide)
    (Ex232.short_settles (by decide)) (Ex232.short_settles (by decide)) (by decide) (by decide)
  have h2 : (getVerified (Ex232.S 300 500) Ex228.new "https://leaf").1.toOption.isSome = false := by decide +kernel
  have h3 : (getVerified (Ex232.S 100 500) Ex228.new "https://leaf").1.toOption.isSome = true := by decide +kernel
  rw [h1, h2] at h3
  cases h3

end Fed.Chains
