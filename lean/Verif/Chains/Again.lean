import Verif.Collect.Again
import Verif.Chains.Props
/-
Resolving an entity a second time: the chains that were collected are verified again, with the keys learnt the first time.
-/
namespace Fed.Chains
open Fed Verify

/-- The second key jar has all keys and all entities of the first. -/
structure Knows (jar jar' : KeyJar) : Prop where
  keys : ∀ e k, k ∈ jar.keysOf e → k ∈ jar'.keysOf e
  has : ∀ e, Dict.has jar e = true → Dict.has jar' e = true

theorem Knows.refl (jar : KeyJar) : Knows jar jar := ⟨fun _ _ h => h, fun _ h => h⟩
theorem Knows.trans {a b c : KeyJar} (h1 : Knows a b) (h2 : Knows b c) : Knows a c := ⟨fun e k h => h2.keys e k (h1.keys e k h), fun e h => h2.has e (h1.has e h)⟩

theorem knows_addKeys (L : Lib) (jar : KeyJar) (sub : String) (ks : List Key) : Knows jar (addKeys L jar sub ks) :=
  ⟨fun e k h => (mem_keysOf_addKeys L jar sub ks e k).2 (.inl h), fun e h => has_addKeys_mono L jar sub ks e h⟩

/-- Recording keys that are there already changes nothing. -/
theorem addKeys_again (L : Lib) (jar jar' : KeyJar) (sub : String) (ks : List Key) (h : Knows (addKeys L jar sub ks) jar') : addKeys L jar' sub ks = jar' := by
  have hk : ∀ k ∈ ks, k ∈ jar'.keysOf sub := fun k hk => h.keys _ _ ((mem_keysOf_addKeys L jar sub ks sub k).2 (.inr ⟨rfl, hk⟩))
  unfold addKeys
  cases hg : Dict.get? jar' sub with
  | none =>
    simp only
    have hks : ks = [] := by
      cases ks with
      | nil => rfl
      | cons k ks =>
        have := hk k (by simp)
        unfold KeyJar.keysOf at this
        rw [hg] at this
        cases this
    subst hks
    cases hr : L.unknownRaises with
    | false => simp
    | true =>
      have hhas : Dict.has (addKeys L jar sub []) sub = true := by
        unfold addKeys
        cases hj : Dict.get? jar sub with
        | none => simp [hr, Dict.has, Dict.get?_set_self]
        | some old => simp [Dict.has, hj]
      have := h.has _ hhas
      unfold Dict.has at this
      rw [hg] at this
      cases this
  | some old =>
    simp only
    have : (ks.filter fun k => decide (k ∉ old)) = [] := by
      rw [List.filter_eq_nil_iff]
      intro k hk'
      have := hk k hk'
      unfold KeyJar.keysOf at this
      rw [hg] at this
      simp only [Option.getD] at this
      simp [this]
    rw [this]
    rfl

theorem verifyKeys_knows {L : Lib} {jar jar' : KeyJar} (h : Knows jar jar') (j : Jws) : ∀ k, k ∈ verifyKeys L jar j → k ∈ verifyKeys L jar' j := by
  intro k hk
  unfold verifyKeys at hk ⊢
  rw [List.mem_filter] at hk ⊢
  exact ⟨h.keys _ _ hk.1, hk.2⟩

theorem verifyLoop_again {L : Lib} {n : Nat} : ∀ (ds : List Doc) (jar : KeyJar) (ves : List Payload), Knows jar (verifyLoop L n ds jar ves).2 ∧
    ∀ r, (verifyLoop L n ds jar ves).1 = .ok r → ∀ jar', Knows (verifyLoop L n ds jar ves).2 jar' → verifyLoop L n ds jar' ves = (.ok r, jar')
  | [], jar, ves => ⟨.refl _, fun r hr jar' _ => by simp only [verifyLoop, Except.ok.injEq] at hr ⊢; rw [hr]⟩
  | none :: ds, jar, ves => by unfold verifyLoop; exact verifyLoop_again ds jar ves
  | some j :: ds, jar, ves => by
      unfold verifyLoop
      simp only
      by_cases h1 : (verifyKeys L jar j).isEmpty = true
      · rw [if_pos h1]; exact ⟨.refl _, fun r hr => by cases hr⟩
      · rw [if_neg h1]
        by_cases h2 : (verifyKeys L jar j).any (L.verifies j) = true
        · rw [if_pos h2]
          have same : ∀ jar', Knows jar jar' → ¬ (verifyKeys L jar' j).isEmpty = true ∧ (verifyKeys L jar' j).any (L.verifies j) = true := by
            intro jar' hk
            rw [List.any_eq_true] at h2 ⊢
            obtain ⟨k, k1, k2⟩ := h2
            have := verifyKeys_knows hk j k k1
            refine ⟨fun he => ?_, k, this, k2⟩
            rw [List.isEmpty_iff] at he
            rw [he] at this
            cases this
          cases hj : j.payload.jwks with
          | none =>
            simp only
            by_cases h3 : ves.length ≠ n
            · rw [if_pos h3]; exact ⟨.refl _, fun r hr => by cases hr⟩
            · rw [if_neg h3]
              obtain ⟨i1, i2⟩ := verifyLoop_again (L := L) (n := n) ds jar (ves ++ [j.payload])
              refine ⟨i1, fun r hr jar' hk => ?_⟩
              have hs := same jar' (i1.trans hk)
              rw [if_neg hs.1, if_pos hs.2, if_neg h3]
              exact i2 r hr jar' hk
          | some ks =>
            simp only
            obtain ⟨i1, i2⟩ := verifyLoop_again (L := L) (n := n) ds (addKeys L jar j.payload.sub ks) (ves ++ [j.payload])
            have ha := knows_addKeys L jar j.payload.sub ks
            refine ⟨ha.trans i1, fun r hr jar' hk => ?_⟩
            have hs := same jar' ((ha.trans i1).trans hk)
            rw [if_neg hs.1, if_pos hs.2, addKeys_again L jar jar' _ _ (i1.trans hk)]
            exact i2 r hr jar' hk
        · rw [if_neg h2]; exact ⟨.refl _, fun r hr => by cases hr⟩

/-- The entity at the top of the chain is one whose keys are known. -/
def TopKnown (jar : KeyJar) (chain : List Doc) : Prop := ∀ j ds, chain = some j :: ds → Dict.has jar j.payload.iss = true

theorem verifyChain_again {L : Lib} {jar : KeyJar} {chain : List Doc} : Knows jar (verifyChain L jar chain).2 ∧
    ∀ o, (verifyChain L jar chain).1 = .ok o → TopKnown jar chain → ∀ jar', Knows (verifyChain L jar chain).2 jar' → verifyChain L jar' chain = (.ok o, jar') := by
  unfold verifyChain verifyTrustChain
  cases chain with
  | nil => exact ⟨.refl _, fun o ho => by cases ho⟩
  | cons d ds =>
    cases d with
    | none => exact ⟨.refl _, fun o ho => by cases ho⟩
    | some j =>
      simp only [trustedAnchor]
      cases hh : Dict.has jar j.payload.iss with
      | false =>
        refine ⟨.refl _, fun o _ ht => ?_⟩
        rw [ht j ds rfl] at hh
        cases hh
      | true =>
        simp only
        obtain ⟨i1, i2⟩ := verifyLoop_again (L := L) (n := (some j :: ds).length - 1) (some j :: ds) jar []
        generalize verifyLoop L ((some j :: ds).length - 1) (some j :: ds) jar [] = r at i1 i2
        obtain ⟨r1, jar1⟩ := r
        simp only at i1 i2
        have again : ∀ jar', Knows jar1 jar' → Dict.has jar' j.payload.iss = true := fun jar' hk => hk.has _ (i1.has _ hh)
        cases r1 with
        | error e => exact ⟨i1, fun o ho => by cases ho⟩
        | ok ves =>
          simp only
          cases hl : ves.getLast? with
          | none =>
            simp only
            refine ⟨i1, fun o ho _ jar' hk => ?_⟩
            rw [again jar' hk]
            simp only
            rw [i2 ves rfl jar' hk]
            simp only [hl]
            cases ho
            rfl
          | some leaf =>
            simp only
            cases hm : meets ves.dropLast leaf with
            | error e => exact ⟨i1, fun o ho => by cases ho⟩
            | ok b =>
              simp only
              cases b with
              | false =>
                simp only [Bool.false_eq_true, if_false]
                refine ⟨i1, fun o ho _ jar' hk => ?_⟩
                rw [again jar' hk]
                simp only
                rw [i2 ves rfl jar' hk]
                simp only [hl, hm, Bool.false_eq_true, if_false]
                cases ho
                rfl
              | true =>
                simp only [if_true]
                cases ves with
                | nil => cases hl
                | cons p ps =>
                  simp only
                  cases hx : expiresAt (p :: ps) with
                  | error e => exact ⟨i1, fun o ho => by cases ho⟩
                  | ok x =>
                    simp only
                    refine ⟨i1, fun o ho _ jar' hk => ?_⟩
                    rw [again jar' hk]
                    simp only
                    rw [i2 _ rfl jar' hk]
                    simp only [hl, hm, if_true, hx]
                    cases ho
                    rfl

theorem verifyChains_again {L : Lib} : ∀ (cs : List (List Doc)) (jar : KeyJar), Knows jar (verifyChains L cs jar).2 ∧
    ∀ tcs, (verifyChains L cs jar).1 = .ok tcs → (∀ c ∈ cs, TopKnown jar c) → ∀ jar', Knows (verifyChains L cs jar).2 jar' → verifyChains L cs jar' = (.ok tcs, jar')
  | [], jar => ⟨.refl _, fun tcs ht _ jar' _ => by simp only [verifyChains, Except.ok.injEq] at ht ⊢; rw [ht]⟩
  | c :: cs, jar => by
      unfold verifyChains
      obtain ⟨i1, i2⟩ := verifyChain_again (L := L) (jar := jar) (chain := c)
      generalize verifyChain L jar c = r at i1 i2
      obtain ⟨r1, jar1⟩ := r
      simp only at i1 i2
      cases r1 with
      | error e => exact ⟨i1, fun tcs ht => by cases ht⟩
      | ok o =>
        simp only
        obtain ⟨k1, k2⟩ := verifyChains_again (L := L) cs jar1
        generalize verifyChains L cs jar1 = r2 at k1 k2
        obtain ⟨r3, jar2⟩ := r2
        simp only at k1 k2
        cases r3 with
        | error e => exact ⟨i1.trans k1, fun tcs ht => by cases ht⟩
        | ok tcs =>
          refine ⟨i1.trans k1, fun out ho htop jar' hk => ?_⟩
          cases ho
          rw [i2 o rfl (htop c (by simp)) jar' (k1.trans hk)]
          simp only
          rw [k2 tcs rfl (fun c' hc' j ds hj => i1.has _ (htop c' (by simp [hc']) j ds hj)) jar' hk]

/-- C208 for the verified chains, in full: resolved again, with nothing about to expire and the federation as it was, an entity has the chains and the metadata it had. -/
def C208_resolved_full : Prop :=
  ∀ (V : Env) (A : String → Prop) (st st1 : State) (entity : String) (out : List TrustChain),
    Collect.Lasting V.P V.W V.W.now A st.coll → Collect.Plain entity → A entity → getVerified V st entity = (.ok out, st1) → (getVerified V st1 entity).1 = .ok out

/-- C208: so are the verified chains and the metadata, if the chains collected all begin at entities whose keys are known. -/
theorem C208_chains_partial (V : Env) (W' : Collect.World) (A : String → Prop) (st st1 : State) (entity stopAt : String) (out : List TrustChain)
    (hl : Collect.Lasting V.P V.W W'.now A st.coll) (hf : Collect.AllFetch V.W A st.coll) (he : Collect.Plain entity) (hd : 0 ≤ V.P.delta)
    (hec : ∀ f ec, (Collect.collect V.L.toCrypto V.P V.W V.fuel st.coll entity stopAt).1 = .ok (f, ec) → Collect.HintsIn A ec.payload ∧ Collect.LastsPast V.P W'.now ec ∧ (∃ y, ec.payload.exp = some y) ∧
      ∀ c ∈ Collect.tree2chains f, TopKnown st.jar (c.map some ++ [some ec]))
    (h : getVerified V st entity stopAt = (.ok out, st1)) : getVerified { V with W := W' } st1 entity stopAt = (.ok out, st1) := by
  unfold getVerified at h ⊢
  have hc := fun f ec st1 => Collect.C208_again_partial V.L.toCrypto V.P V.W W' A V.fuel st.coll st1 entity stopAt f ec hl hf he
  generalize Collect.collect V.L.toCrypto V.P V.W V.fuel st.coll entity stopAt = r at h hec hc
  obtain ⟨r1, coll⟩ := r
  cases r1 with
  | error e => cases h
  | ok x =>
    obtain ⟨f, ec⟩ := x
    obtain ⟨e1, e2, e3, e4⟩ := hec f ec rfl
    simp only at h
    obtain ⟨v1, v2⟩ := verifyChains_again (L := V.L) ((Collect.tree2chains f).map fun c => c.map some ++ [some ec]) st.jar
    generalize verifyChains V.L ((Collect.tree2chains f).map fun c => c.map some ++ [some ec]) st.jar = v at h v1 v2
    obtain ⟨w1, jar⟩ := v
    cases w1 with
    | error e => cases h
    | ok tcs =>
      simp only at h v2
      cases hp : applyPolicies V.E V.K tcs with
      | error e => rw [hp] at h; cases h
      | ok tcs' =>
        rw [hp] at h
        simp only [Prod.mk.injEq, Except.ok.injEq] at h
        obtain ⟨rfl, rfl⟩ := h
        simp only [hc f ec coll e1 e2 hd e3 rfl]
        rw [v2 tcs rfl (fun c hc => by
          rw [List.mem_map] at hc
          obtain ⟨c', hc', rfl⟩ := hc
          exact e4 c' hc') jar (.refl _)]
        simp only [hp]

/-! The case: the chain of a leaf below an intermediate and a trust anchor, resolved again when everything is gone. -/
namespace Ex208
/-- The authorities. -/
def A (a : String) : Prop := a = "https://im" ∨ a = "https://ta"
end Ex208

theorem Ex208.lasting : Collect.Lasting (Ex.env (Ex.W 0)).P (Ex.W 0) 9600 Ex208.A {} ∧ Collect.AllFetch (Ex.W 0) Ex208.A {} := by
  refine ⟨⟨by decide, fun a ha => ?_, fun a j ha hj => ?_, fun a c _ h => by simp [Dict.get?] at h, fun ep a e s x ha hs hx => ?_, fun a e x _ h => by simp [Dict.get?] at h⟩,
    fun a j ha hj => ?_, fun a c _ h => by simp [Dict.get?] at h⟩
  · rcases ha with rfl | rfl <;> decide +kernel
  · rcases ha with rfl | rfl
    · cases hj
      refine ⟨fun hs hh b hb => ?_, fun x hx => ?_⟩
      · cases hh; simp only [List.mem_cons, List.not_mem_nil, or_false] at hb; exact .inr hb
      · cases hx; decide
    · cases hj
      refine ⟨fun hs hh b hb => ?_, fun x hx => ?_⟩
      · cases hh
      · cases hx; decide
  · cases hs
    cases hx
    decide
  · rcases ha with rfl | rfl <;> cases hj <;> exact ⟨_, rfl, _, rfl, rfl⟩

example : (getVerified (Ex.env (Ex.W 0)) Ex.st "https://leaf").1 = .ok [Ex.leafChain] ∧
    (getVerified (Ex.env (Collect.Ex208.nobody 9600)) (getVerified (Ex.env (Ex.W 0)) Ex.st "https://leaf").2 "https://leaf").1 = .ok [Ex.leafChain] ∧
    (getVerified (Ex.env (Collect.Ex208.nobody 9600)) Ex.st "https://leaf").1 = .error .connectionError := by decide +kernel

namespace Ex208
/-- The leaf names, besides the intermediate, an authority without a fetch endpoint. -/
def mute : Collect.World where
  now := 0
  config k := .ok (some (
    if k = "https://leaf" then Ex.conf k (some ["https://mute", "https://im"]) (Ex.rp (.str "admin"))
    else if k = "https://im" then Ex.conf k (some ["https://ta"]) (Ex.fe true)
    else Ex.conf k none (Ex.fe (k ≠ "https://mute"))))
  fetch _ a e := .ok (some (Ex.about a e))
def all (a : String) : Prop := a = "https://leaf" ∨ a = "https://mute" ∨ a = "https://im" ∨ a = "https://ta"
def afterMute : State := (getVerified (Ex.env mute) Ex.st "https://leaf").2
def chain : TrustChain where
  anchor := "https://ta"
  issPath := ["https://leaf", "https://im", "https://ta"]
  exp := 10000
  verified := [(Ex.about "https://ta" "https://im").payload, (Ex.about "https://im" "https://leaf").payload, (Ex.conf "https://leaf" (some ["https://mute", "https://im"]) (Ex.rp (.str "admin"))).payload]
  chain := [some (Ex.about "https://ta" "https://im"), some (Ex.about "https://im" "https://leaf"), some (Ex.conf "https://leaf" (some ["https://mute", "https://im"]) (Ex.rp (.str "admin")))]
  metadata := [("openid_relying_party", .obj [("scopes", .str "admin")])]
end Ex208

/-- C208 fails for the verified chains: where an authority that gives no statement comes first, its place is taken by a chain that is the entity's own configuration and nothing else. The first
time that is passed over; the second time the keys of the entity are known, the chain is accepted, and because it has no metadata to resolve, all of the resolution fails. -/
theorem C208_second_time_violation : ¬ C208_resolved_full := by
  intro h
  have h1 := h (Ex.env Ex208.mute) Ex208.all Ex.st Ex208.afterMute "https://leaf" [Ex208.chain]
    (by
      refine ⟨by decide, fun a ha => ?_, fun a j ha hj => ?_, fun a c _ h => by simp [Ex.st, Dict.get?] at h, fun ep a e s x ha hs hx => ?_, fun a e x _ h => by simp [Ex.st, Dict.get?] at h⟩
      · rcases ha with rfl | rfl | rfl | rfl <;> decide +kernel
      · rcases ha with rfl | rfl | rfl | rfl
        · cases hj
          refine ⟨fun hs hh b hb => ?_, fun x hx => by cases hx; decide⟩
          cases hh
          simp only [List.mem_cons, List.not_mem_nil, or_false] at hb
          rcases hb with rfl | rfl
          · exact .inr (.inl rfl)
          · exact .inr (.inr (.inl rfl))
        · cases hj
          exact ⟨fun hs hh => (by cases hh), fun x hx => by cases hx; decide⟩
        · cases hj
          refine ⟨fun hs hh b hb => ?_, fun x hx => by cases hx; decide⟩
          cases hh
          simp only [List.mem_cons, List.not_mem_nil, or_false] at hb
          exact .inr (.inr (.inr hb))
        · cases hj
          exact ⟨fun hs hh => (by cases hh), fun x hx => by cases hx; decide⟩
      · cases hs
        cases hx
        decide)
    (by decide +kernel) (.inl rfl) (Prod.ext (by decide +kernel) rfl)
  revert h1
  decide +kernel

/-- What happens the second time. -/
example : (getVerified (Ex.env Ex208.mute) Ex208.afterMute "https://leaf").1 = .error .keyError := by decide +kernel

end Fed.Chains
