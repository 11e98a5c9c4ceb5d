import Verif.Server.ResolveProps
import Verif.Collect.Passing
import Verif.Chains.AnotherAnchor
import Verif.Policy.CombineProps
/-
C220: what a resolver answers (/repo/src/fedservice/entity/server/resolve.py) and what one finds oneself (`get_verified_trust_chains`, /repo/src/fedservice/entity/function/__init__.py 154-161).
-/
namespace Fed.Server
open Fed Fed.Verify Fed.Chains

/-- An entity in the federation `F` that has collected trust chains before, `h`, and nothing else. -/
structure Within (F : Collect.Federation) (V : Env) (st : State) (h : List Collect.FRun) : Prop where
  world : V.W = F.at V.W.now
  steady : F.Steady V.L.toCrypto V.P V.W.now
  clear : F.Clear V.L.toCrypto V.P V.W.now
  collected : st.coll = Collect.runAll V.L.toCrypto V.P (h.map (Collect.FRun.run F))
  order : h.Pairwise fun a b => a.time ≤ b.time
  past : ∀ r ∈ h, r.time ≤ V.W.now
  plain : ∀ r ∈ h, Collect.Plain r.entity

/-- The metadata of one entity type is the same, up to the order of lists, which is that of Python sets and may differ from process to process. -/
def Alike : Option Val → Option Val → Prop
  | some (.obj a), some (.obj b) => ∀ c, OptSetEq (Dict.get? a c) (Dict.get? b c)
  | a, b => a = b

/-- The answer `p` of a resolver, to a request for all entity types or for one, states the metadata of `tc`. -/
def States (p : Dict Val) (type : Option String) (tc : TrustChain) : Prop :=
  match type with
  | none => ∃ md, p.get? "metadata" = (some (.obj md)).filter Val.truthy ∧ ∀ t, Alike (Dict.get? md t) (Dict.get? tc.metadata t)
  | some t => ∃ v, p.get? "metadata" = some (.obj [(t, v)]) ∧ Alike (some v) (Dict.get? tc.metadata t)

/-- C220 in full: when a resolver answers for a trust anchor that the asking entity trusts as well, knowing it by the same keys, then the asking entity would have found a trust chain to that anchor by itself, and the
metadata in the answer is what the first such chain gives. -/
def C220_full : Prop :=
  ∀ (F : Collect.Federation) (V V' : Env) (st st' : State) (h h' : List Collect.FRun) (R : Resolver) (sub anchor : String) (type : Option String) (p : Dict Val),
    Within F V st h → Within F V' st' h' → F.Dated → F.PlainHints → Collect.Plain sub → V'.L = V.L → V'.W.now = V.W.now → V'.P.delta = V.P.delta → V'.fuel = V.fuel →
    anchor ∈ V.P.anchors → anchor ∈ V'.P.anchors → Dict.has st.jar anchor = true → Dict.has st'.jar anchor = true → st.jar.keysOf anchor = st'.jar.keysOf anchor →
    (resolve R V' st' { sub := some sub, anchor := some anchor, type := type }).1 = .ok p →
    ∃ out tc, (getVerified V st sub).1 = .ok out ∧ out.find? (fun tc => decide (anchor = tc.anchor)) = some tc ∧ States p type tc

/-! ### What is collected -/

section
open Collect

/-- Collecting stops at `s` anyway: who goes by this name names no authorities. -/
def Topmost (F : Federation) (s : String) : Prop := ∀ k j, F.config k = .ok (some j) → j.payload.iss = s → j.payload.hints = none

/-- Nobody is their own authority. -/
def NoSelf (F : Federation) : Prop := ∀ k j hs, F.config k = .ok (some j) → j.payload.hints = some hs → k ∉ hs

variable {C : Crypto} {F : Federation}

theorem published_same {t t' : Int} {a : String} {j j' : Jws} (h : publishedConfig C F t a = some j) (h' : publishedConfig C F t' a = some j') : j = j' := by
  rw [publishedConfig_iff] at h h'
  rw [h.1] at h'
  cases h'.1
  rfl

theorem statement_same {t t' : Int} {a e : String} {s s' : Option Jws} (h : publishedStatement C F t a e = some s) (h' : publishedStatement C F t' a e = some s') : s = s' := by
  unfold publishedStatement at h h'
  cases hp : publishedConfig C F t a with
  | none => rw [hp] at h; cases h
  | some j =>
    cases hp' : publishedConfig C F t' a with
    | none => rw [hp'] at h'; cases h'
    | some j' =>
      cases published_same hp hp'
      rw [hp] at h
      rw [hp'] at h'
      exact Option.some.inj (h.symm.trans h')

/-- Two ideal collections that both succeed find the same, at whatever times, with whatever settings, and wherever they would stop, if everything ends there anyway. -/
theorem tree_same {P P' : Params} {t t' : Int} {s s' : String} (hs : Topmost F s) (hs' : Topmost F s') (hn : NoSelf F) : ∀ (n n' : Nat) (e : String) (j : Jws) (f f' : Forest Jws), F.config e = .ok (some j) →
    idealTree C P F t s n e j.payload = some f → idealTree C P' F t' s' n' e j.payload = some f' → f = f' := by
  intro n
  induction n with
  | zero => intro n' e j f f' _ h; cases h
  | succ n ih =>
    intro n' e j f f' hj h h'
    cases n' with
    | zero => cases h'
    | succ n' =>
      unfold idealTree at h h'
      cases hh : j.payload.hints with
      | none =>
        rw [hh] at h h'
        cases h; cases h'; rfl
      | some l =>
        rw [hh] at h h'
        simp only at h h'
        rw [if_neg (fun hi => by rw [hs e j hj hi] at hh; cases hh)] at h
        rw [if_neg (fun hi => by rw [hs' e j hj hi] at hh; cases hh)] at h'
        have hl := hn e j l hj hh
        have key : ∀ (l : List String), e ∉ l → ∀ (acc f f' : Forest Jws), idealHints (idealBranch C P F t (idealTree C P F t s n) e) l acc = some f →
            idealHints (idealBranch C P' F t' (idealTree C P' F t' s' n') e) l acc = some f' → f = f' := by
          intro l
          induction l with
          | nil => intro _ acc f f' h h'; cases h; cases h'; rfl
          | cons a as ih2 =>
            intro hl acc f f' h h'
            have hea : e ≠ a := fun hc => hl (by simp [hc])
            unfold idealHints at h h'
            cases hb : idealBranch C P F t (idealTree C P F t s n) e a with
            | none => rw [hb] at h; cases h
            | some b =>
              cases hb' : idealBranch C P' F t' (idealTree C P' F t' s' n') e a with
              | none => rw [hb'] at h'; cases h'
              | some b' =>
                rw [hb] at h
                rw [hb'] at h'
                have hbb : b = b' := by
                  unfold idealBranch at hb hb'
                  rw [if_neg (fun hc => hea hc.1)] at hb hb'
                  cases h1 : publishedStatement C F t a e with
                  | none => rw [h1] at hb; cases hb
                  | some o =>
                    cases h1' : publishedStatement C F t' a e with
                    | none => rw [h1'] at hb'; cases hb'
                    | some o' =>
                      cases statement_same h1 h1'
                      rw [h1] at hb
                      rw [h1'] at hb'
                      cases o with
                      | none => cases hb; cases hb'; rfl
                      | some s0 =>
                        simp only at hb hb'
                        cases h2 : publishedConfig C F t a with
                        | none => rw [h2] at hb; cases hb
                        | some j0 =>
                          cases h2' : publishedConfig C F t' a with
                          | none => rw [h2'] at hb'; cases hb'
                          | some j0' =>
                            cases published_same h2 h2'
                            rw [h2] at hb
                            rw [h2'] at hb'
                            simp only at hb hb'
                            split at hb
                            · split at hb'
                              · cases h3 : idealTree C P F t s n a j0.payload with
                                | none => rw [h3] at hb; cases hb
                                | some g =>
                                  cases h3' : idealTree C P' F t' s' n' a j0.payload with
                                  | none => rw [h3'] at hb'; cases hb'
                                  | some g' =>
                                    rw [h3] at hb
                                    rw [h3'] at hb'
                                    cases ih n' a j0 g g' (publishedConfig_iff.1 h2).1 h3 h3'
                                    cases hb; cases hb'; rfl
                              · cases hb'
                            · cases hb
                subst hbb
                exact ih2 (fun hc => hl (by simp [hc])) _ f f' h h'
        exact key l hl .nil f f' h h'

theorem collected_same {P P' : Params} {t t' : Int} {s s' : String} (hs : Topmost F s) (hs' : Topmost F s') (hn : NoSelf F) {n n' : Nat} {e : String} {x x' : Forest Jws × Jws}
    (h : idealCollect C P F t n e s = some x) (h' : idealCollect C P' F t' n' e s' = some x') : x = x' := by
  unfold idealCollect at h h'
  cases hp : publishedConfig C F t e with
  | none => rw [hp] at h; cases h
  | some j =>
    cases hp' : publishedConfig C F t' e with
    | none => rw [hp'] at h'; cases h'
    | some j' =>
      cases published_same hp hp'
      rw [hp] at h
      rw [hp'] at h'
      simp only at h h'
      cases h1 : idealTree C P F t s n e j.payload with
      | none => rw [h1] at h; cases h
      | some f =>
        cases h1' : idealTree C P' F t' s' n' e j.payload with
        | none => rw [h1'] at h'; cases h'
        | some f' =>
          rw [h1] at h
          rw [h1'] at h'
          cases tree_same hs hs' hn n n' e j f f' (publishedConfig_iff.1 hp).1 h1 h1'
          cases h; cases h'; rfl

end

theorem Within.ideal {F : Collect.Federation} {V : Env} {st : State} {h : List Collect.FRun} (w : Within F V st h) (hd : F.Dated) (hpl : F.PlainHints) {entity : String} (he : Collect.Plain entity) (stopAt : String) :
    (Collect.collect V.L.toCrypto V.P V.W V.fuel st.coll entity stopAt).1.toOption = Collect.idealCollect V.L.toCrypto V.P F V.W.now V.fuel entity stopAt := by
  rw [w.collected]
  have hW := w.world
  generalize V.W.now = t at hW
  have h' := w.steady
  have h3 := w.clear
  have h2 := w.past
  rw [hW] at h' h2 h3 ⊢
  exact (Collect.collect_aging (Collect.runAll_aging (C := V.L.toCrypto) (P := V.P) hd hpl h t h' w.order h2 w.plain) hd hpl V.fuel entity stopAt he).2 fun j x => h3 entity j x

/-! ### What is verified -/

/-- The chain starts with a statement of `a`. -/
def startsAt (a : String) : List Doc → Bool
  | some j :: _ => decide (j.payload.iss = a)
  | _ => false

theorem verified_anchor {L : Lib} {jar : KeyJar} {c : List Doc} {tc : TrustChain} (h : (verifyChain L jar c).1 = .ok (some tc)) (a : String) : startsAt a c = decide (a = tc.anchor) := by
  obtain ⟨p, ps, y, hp, -, rfl⟩ := verifyChain_ok.1 h
  obtain ⟨⟨j, ds, rfl, -⟩, h5, -⟩ := verifyTrustChain_ok.1 hp
  simp only [statements] at h5
  simp at h5
  simp only [startsAt]
  rw [h5.1]
  by_cases h : j.payload.iss = a
  · subst h; simp
  · rw [decide_eq_false h, decide_eq_false (fun h' => h h'.symm)]

/-- What a chain is verified to does not depend on the keys. -/
theorem verified_same {L : Lib} {jar jar' : KeyJar} {c : List Doc} {tc tc' : TrustChain} (h : (verifyChain L jar c).1 = .ok (some tc)) (h' : (verifyChain L jar' c).1 = .ok (some tc')) : tc = tc' := by
  obtain ⟨p, ps, y, hp, hy, rfl⟩ := verifyChain_ok.1 h
  obtain ⟨p', ps', y', hp', hy', rfl⟩ := verifyChain_ok.1 h'
  have e := (verifyTrustChain_ok.1 hp).2.1
  rw [← (verifyTrustChain_ok.1 hp').2.1] at e
  cases e
  rw [hy] at hy'
  cases hy'
  rfl

/-- What `c` is verified to with the keys in `jar`. -/
def verdict (L : Lib) (jar : KeyJar) (c : List Doc) : Option TrustChain := (verifyChain L jar c).1.toOption.join

/-- When all chains that start at `a` are accepted with the keys held at the beginning, the verified chains to `a` are these. -/
theorem verified_to {L : Lib} {a : String} {jar : KeyJar} : ∀ (cs : List (List Doc)) {jar0 : KeyJar} {tcs : List TrustChain}, Threads.Grows jar jar0 →
    (∀ c ∈ cs, startsAt a c = true → ∃ tc, (verifyChain L jar c).1 = .ok (some tc)) → (verifyChains L cs jar0).1 = .ok tcs →
    tcs.filter (fun tc => decide (a = tc.anchor)) = (cs.filter (startsAt a)).filterMap (verdict L jar)
  | [], _, _, _, _, h => by cases h; rfl
  | c :: cs, jar0, tcs, hg, hall, h => by
    have g := hg.trans (verifyChain_kept L jar0 c)
    have hc := hall c (by simp)
    have hm : ∀ tc, (verifyChain L jar c).1 = .ok (some tc) → (verifyChain L jar0 c).1 = .ok (some tc) := fun tc => verifyChain_mono hg.1 hg.2
    have ha := fun tc => verified_anchor (L := L) (jar := jar0) (c := c) (tc := tc)
    rw [verifyChains] at h
    generalize verifyChain L jar0 c = r at h g hm ha
    obtain ⟨r, jar1⟩ := r
    cases r with
    | error e => cases h
    | ok o =>
      simp only at h g hm ha
      have ih := fun b => verified_to (L := L) (a := a) (jar := jar) cs (jar0 := jar1) (tcs := b) g (fun c hc => hall c (by simp [hc]))
      generalize verifyChains L cs jar1 = q at h ih
      obtain ⟨q, _⟩ := q
      cases q with
      | error e => cases h
      | ok b =>
        simp only [Except.ok.injEq] at h
        subst h
        rw [List.filter_append, ih b rfl]
        cases hs : startsAt a c with
        | true =>
          obtain ⟨tc, h1⟩ := hc hs
          have h2 := hm tc h1
          simp only [Except.ok.injEq] at h2
          subst h2
          have h3 := ha tc rfl a
          rw [hs] at h3
          rw [List.filter_cons_of_pos hs]
          have h4 : verdict L jar c = some tc := by simp only [verdict, h1]; rfl
          rw [List.filterMap_cons_some h4]
          simp [← h3]
        | false =>
          rw [List.filter_cons_of_neg (by simp [hs])]
          cases o with
          | none => simp
          | some tc =>
            have h3 := ha tc rfl a
            rw [hs] at h3
            simp [← h3]

theorem applied_to {E : SetEnum Val} {K : SetEnum String} {a : String} : ∀ {tcs out : List TrustChain}, applyPolicies E K tcs = .ok out → ∀ {t : TrustChain},
    out.find? (fun tc => decide (a = tc.anchor)) = some t → ∃ tc, tcs.find? (fun tc => decide (a = tc.anchor)) = some tc ∧ applyToChain E K tc = .ok t := by
  intro tcs
  induction tcs with
  | nil => intro out h t ht; cases h; cases ht
  | cons tc tcs ih =>
    intro out h t ht
    obtain ⟨t1, ts, h1, h2, rfl⟩ := applyPolicies_cons h
    have ha := applyToChain_anchor h1
    by_cases hd : a = tc.anchor
    · rw [List.find?_cons_of_pos (by simp [ha, hd])] at ht
      cases ht
      exact ⟨tc, List.find?_cons_of_pos (by simp [hd]), h1⟩
    · rw [List.find?_cons_of_neg (by simp [ha, hd])] at ht
      rw [List.find?_cons_of_neg (by simp [hd])]
      exact ih h2 ht

theorem applied_back {E : SetEnum Val} {K : SetEnum String} {a : String} : ∀ {tcs out : List TrustChain}, applyPolicies E K tcs = .ok out → ∀ {tc : TrustChain},
    tcs.find? (fun tc => decide (a = tc.anchor)) = some tc → ∃ t, out.find? (fun tc => decide (a = tc.anchor)) = some t ∧ applyToChain E K tc = .ok t := by
  intro tcs
  induction tcs with
  | nil => intro out h t ht; cases ht
  | cons tc tcs ih =>
    intro out h t ht
    obtain ⟨t1, ts, h1, h2, rfl⟩ := applyPolicies_cons h
    have ha := applyToChain_anchor h1
    by_cases hd : a = tc.anchor
    · rw [List.find?_cons_of_pos (by simp [hd])] at ht
      cases ht
      exact ⟨t1, List.find?_cons_of_pos (by simp [ha, hd]), h1⟩
    · rw [List.find?_cons_of_neg (by simp [hd])] at ht
      rw [List.find?_cons_of_neg (by simp [ha, hd])]
      exact ih h2 ht

/-! ### What the policies make of it -/

theorem Alike.refl (a : Option Val) : Alike a a := by
  cases a with
  | none => rfl
  | some v => cases v <;> first | rfl | exact fun c => OptSetEq.refl _

theorem types_same {E E' : SetEnum Val} {K K' : SetEnum String} {sups : List Policy.PStatement} {leaf : Policy.PStatement} : ∀ {ts : List String} {l : Dict (Option Policy.Metadata)},
    Policy.policyForTypes E K sups leaf ts = .ok l →
    ∃ l', Policy.policyForTypes E' K' sups leaf ts = .ok l' ∧ ∀ t, Alike (Dict.get? (l.map fun p => (p.1, mdVal p.2)) t) (Dict.get? (l'.map fun p => (p.1, mdVal p.2)) t) := by
  intro ts
  induction ts with
  | nil => intro l h; cases h; exact ⟨[], rfl, fun t => rfl⟩
  | cons t ts ih =>
    intro l h
    unfold Policy.policyForTypes at h ⊢
    cases h1 : Policy.policyFor E K sups leaf t with
    | error e => rw [h1] at h; cases h
    | ok m =>
      rw [h1] at h
      cases h2 : Policy.policyForTypes E K sups leaf ts with
      | error e => rw [h2] at h; cases h
      | ok r =>
        rw [h2] at h
        cases h
        obtain ⟨r', h3, h4⟩ := ih h2
        have hm : ∃ m', Policy.policyFor E' K' sups leaf t = .ok m' ∧ Alike (some (mdVal m)) (some (mdVal m')) := by
          cases m with
          | some m =>
            obtain ⟨m', h5, h6⟩ := Policy.C21_resolution_hash_order_irrelevant E E' K K' sups leaf t m h1
            exact ⟨some m', h5, h6⟩
          | none =>
            refine ⟨none, ?_, rfl⟩
            unfold Policy.policyFor at h1 ⊢
            cases hg : Policy.gatherPolicies E K sups t with
            | error e => rw [hg] at h1; cases h1
            | ok R =>
              obtain ⟨R', h5, -⟩ := Policy.gatherPolicies_congr E E' K K' t hg
              rw [hg] at h1
              rw [h5]
              cases hl : leaf.metadata.get? t with
              | none => simp only [hl]; rfl
              | some md =>
                simp only [hl, bind, Except.bind] at h1
                split at h1 <;> cases h1
        obtain ⟨m', h5, h6⟩ := hm
        rw [h5, h3]
        refine ⟨(t, m') :: r', rfl, fun t' => ?_⟩
        simp only [List.map_cons, Dict.get?_cons]
        by_cases ht : t = t'
        · rw [if_pos ht, if_pos ht]; exact h6
        · rw [if_neg ht, if_neg ht]; exact h4 t'

/-- Whatever the enumeration of sets, the policies of a chain give the same. -/
theorem applied_same {E E' : SetEnum Val} {K K' : SetEnum String} {tc t : TrustChain} (h : applyToChain E K tc = .ok t) :
    ∃ t', applyToChain E' K' tc = .ok t' ∧ ∀ x, Alike (Dict.get? t.metadata x) (Dict.get? t'.metadata x) := by
  obtain ⟨leaf, md, h1, h2, ⟨h3, m, h4, rfl⟩ | ⟨h3, m, h4, rfl⟩⟩ := applyToChain_ok.1 h
  · obtain ⟨m', h5, h6⟩ := types_same (E' := E') (K' := K') h4
    exact ⟨_, applyToChain_ok.2 ⟨leaf, md, h1, h2, Or.inl ⟨h3, m', h5, rfl⟩⟩, h6⟩
  · exact ⟨_, applyToChain_ok.2 ⟨leaf, md, h1, h2, Or.inr ⟨h3, m, h4, rfl⟩⟩, fun x => Alike.refl _⟩

theorem Alike.symm {a b : Option Val} (h : Alike a b) : Alike b a := by
  unfold Alike at h ⊢
  split at h
  · exact fun c => (h c).symm
  · subst h
    split
    · exact fun c => OptSetEq.refl _
    · rfl

/-- The answer states the metadata of the first chain to the anchor. -/
theorem answer_states {R : Resolver} {V : Env} {st : State} {sub anchor : String} {type : Option String} {p : Dict Val} (h : (resolve R V st { sub := some sub, anchor := some anchor, type := type }).1 = .ok p) :
    ∃ out tc, (getVerified V st sub anchor).1 = .ok out ∧ out.find? (fun tc => decide (anchor = tc.anchor)) = some tc ∧
      ∀ t : TrustChain, (∀ x, Alike (Dict.get? tc.metadata x) (Dict.get? t.metadata x)) → States p type t := by
  obtain ⟨sub', anchor', out, tc, md, ch, h1, h2, h3, h4, h5, -, h7⟩ := resolve_ok h
  cases h1; cases h2
  obtain ⟨-, -, -, c4, -⟩ := C59_payload _ _ _ _ _ _ _ h7
  refine ⟨out, tc, h3, h4, fun t ht => ?_⟩
  have hm := c4 "metadata" (by simp)
  unfold States
  cases type with
  | none =>
    simp only [chosenMetadata, Except.ok.injEq] at h5
    subst h5
    exact ⟨tc.metadata, hm, ht⟩
  | some ty =>
    simp only [chosenMetadata, Dict.get] at h5
    cases hv : Dict.get? tc.metadata ty with
    | none => rw [hv] at h5; cases h5
    | some v =>
      rw [hv] at h5
      simp only [ok_bind, Except.ok.injEq] at h5
      subst h5
      exact ⟨v, hm, hv ▸ ht ty⟩

/-- C220 as far as it holds: when a resolver answers for an anchor, and the asking entity succeeds in resolving the subject too, then it finds a chain to that anchor, and the first one it finds gives the metadata in the answer;
at whatever time each of them looks, whatever each has collected before, whatever other anchors each trusts. The anchor is at the top of the federation, nobody is their own authority, and the chains of the subject
that start with a statement of the anchor are accepted with the keys each of them holds. Missing: anchors that are themselves below others (`C220_nested_violation`), and chains that only one of them accepts (`C220_keys_violation`). -/
theorem C220_agree_partial (F : Collect.Federation) (V V' : Env) (st st' : State) (h h' : List Collect.FRun) (R : Resolver) (sub anchor : String) (type : Option String) (p : Dict Val) (out : List TrustChain)
    (w : Within F V st h) (w' : Within F V' st' h') (hd : F.Dated) (hpl : F.PlainHints) (hsub : Collect.Plain sub) (hL : V'.L = V.L) (htop : Topmost F anchor) (hnull : Topmost F "") (hn : NoSelf F)
    (hall : ∀ f ec, (Collect.collect V.L.toCrypto V.P V.W V.fuel st.coll sub "").1 = .ok (f, ec) → ∀ c ∈ docs f ec, startsAt anchor c = true →
      (∃ tc, (verifyChain V.L st.jar c).1 = .ok (some tc)) ∧ ∃ tc, (verifyChain V.L st'.jar c).1 = .ok (some tc))
    (ho : (getVerified V st sub).1 = .ok out) (hr : (resolve R V' st' { sub := some sub, anchor := some anchor, type := type }).1 = .ok p) :
    ∃ tc, out.find? (fun tc => decide (anchor = tc.anchor)) = some tc ∧ States p type tc := by
  obtain ⟨out', t', h1', h2', hs⟩ := answer_states hr
  obtain ⟨f, ec, tcs, c1, c2, c3, -⟩ := getVerified_ok ho
  obtain ⟨f', ec', tcs', c1', c2', c3', -⟩ := getVerified_ok h1'
  have i1 := w.ideal hd hpl hsub ""
  have i2 := w'.ideal hd hpl hsub anchor
  rw [c1] at i1
  rw [c1', hL] at i2
  have e := collected_same hnull htop hn i1.symm i2.symm
  cases e
  have ha := hall f ec c1
  rw [hL] at c2'
  have v1 := verified_to (docs f ec) (Threads.Grows.refl st.jar) (fun c hc hs => (ha c hc hs).1) c2
  have v2 := verified_to (docs f ec) (Threads.Grows.refl st'.jar) (fun c hc hs => (ha c hc hs).2) c2'
  have v3 : ∀ cs : List (List Doc), (∀ c ∈ cs, c ∈ docs f ec) → (cs.filter (startsAt anchor)).filterMap (verdict V.L st.jar) = (cs.filter (startsAt anchor)).filterMap (verdict V.L st'.jar) := by
    intro cs
    induction cs with
    | nil => intro _; rfl
    | cons c cs ih =>
      intro hcs
      have ih := ih fun c hc => hcs c (by simp [hc])
      cases hsa : startsAt anchor c with
      | false => rw [List.filter_cons_of_neg (by simp [hsa])]; exact ih
      | true =>
        rw [List.filter_cons_of_pos hsa]
        obtain ⟨⟨tc, k1⟩, ⟨tc', k2⟩⟩ := ha c (hcs c (by simp)) hsa
        cases verified_same k1 k2
        have q1 : verdict V.L st.jar c = some tc := by simp only [verdict, k1]; rfl
        have q2 : verdict V.L st'.jar c = some tc := by simp only [verdict, k2]; rfl
        rw [List.filterMap_cons_some q1, List.filterMap_cons_some q2, ih]
  have v4 : tcs.find? (fun tc => decide (anchor = tc.anchor)) = tcs'.find? (fun tc => decide (anchor = tc.anchor)) := by
    rw [← List.head?_filter, ← List.head?_filter, v1, v2, v3 _ fun c hc => hc]
  obtain ⟨tc, k1, k2⟩ := applied_to c3' h2'
  rw [← v4] at k1
  obtain ⟨t, k3, k4⟩ := applied_back c3 k1
  refine ⟨t, k3, hs t fun x => ?_⟩
  obtain ⟨t'', k5, k6⟩ := applied_same (E' := V'.E) (K' := V'.K) k4
  rw [k2] at k5
  cases k5
  exact (k6 x).symm

/-! ### That there is an answer -/

section
open Collect

/-- With the same settings, at the same time, it does not matter where a collection would stop if everything ends there anyway. -/
theorem tree_stops {C : Crypto} {F : Federation} {P P' : Params} (hP : P'.delta = P.delta) {t : Int} {s s' : String} (hs : Topmost F s) (hs' : Topmost F s') (hn : NoSelf F) : ∀ (n : Nat) (e : String) (j : Jws), F.config e = .ok (some j) →
    idealTree C P' F t s' n e j.payload = idealTree C P F t s n e j.payload := by
  intro n
  induction n with
  | zero => intro e j _; rfl
  | succ n ih =>
    intro e j hj
    unfold idealTree
    cases hh : j.payload.hints with
    | none => rfl
    | some l =>
      simp only
      rw [if_neg (fun hi => by rw [hs' e j hj hi] at hh; cases hh), if_neg (fun hi => by rw [hs e j hj hi] at hh; cases hh)]
      have hl := hn e j l hj hh
      have hfresh : ∀ j, freshAt P' t j = freshAt P t j := by intro j; unfold freshAt; rw [hP]
      have key : ∀ (l : List String), e ∉ l → ∀ (acc : Forest Jws), idealHints (idealBranch C P' F t (idealTree C P' F t s' n) e) l acc = idealHints (idealBranch C P F t (idealTree C P F t s n) e) l acc := by
        intro l
        induction l with
        | nil => intro _ acc; rfl
        | cons a as ih2 =>
          intro hl acc
          have hea : e ≠ a := fun hc => hl (by simp [hc])
          have hb : idealBranch C P' F t (idealTree C P' F t s' n) e a = idealBranch C P F t (idealTree C P F t s n) e a := by
            unfold idealBranch
            rw [if_neg (fun hc => hea hc.1), if_neg (fun hc => hea hc.1)]
            cases publishedStatement C F t a e with
            | none => rfl
            | some o =>
              cases o with
              | none => rfl
              | some s0 =>
                simp only
                cases h2 : publishedConfig C F t a with
                | none => rfl
                | some j0 => simp only; rw [hfresh, ih a j0 (publishedConfig_iff.1 h2).1]
          unfold idealHints
          rw [hb]
          cases idealBranch C P F t (idealTree C P F t s n) e a with
          | none => rfl
          | some b => exact ih2 (fun hc => hl (by simp [hc])) _
      exact key l hl .nil

end

/-- All chains are accepted with the keys held at the beginning. -/
theorem all_verified {L : Lib} {jar : KeyJar} : ∀ (cs : List (List Doc)) {jar0 : KeyJar}, Threads.Grows jar jar0 → (∀ c ∈ cs, ∃ tc, (verifyChain L jar c).1 = .ok (some tc)) →
    (verifyChains L cs jar0).1 = .ok (cs.filterMap (verdict L jar))
  | [], _, _, _ => rfl
  | c :: cs, jar0, hg, hall => by
    obtain ⟨tc, h1⟩ := hall c (by simp)
    have g := hg.trans (verifyChain_kept L jar0 c)
    have h2 := verifyChain_mono hg.1 hg.2 h1
    have h4 : verdict L jar c = some tc := by simp only [verdict, h1]; rfl
    rw [verifyChains, List.filterMap_cons_some h4]
    generalize verifyChain L jar0 c = r at h2 g
    obtain ⟨r, jar1⟩ := r
    simp only at h2 g
    subst h2
    have ih := all_verified (L := L) (jar := jar) cs (jar0 := jar1) g (fun c hc => hall c (by simp [hc]))
    simp only
    generalize verifyChains L cs jar1 = q at ih
    obtain ⟨q, _⟩ := q
    simp only at ih
    subst ih
    rfl

theorem all_applied {E E' : SetEnum Val} {K K' : SetEnum String} : ∀ {tcs out : List TrustChain}, applyPolicies E K tcs = .ok out → ∃ out', applyPolicies E' K' tcs = .ok out' := by
  intro tcs
  induction tcs with
  | nil => intro out _; exact ⟨[], rfl⟩
  | cons tc tcs ih =>
    intro out h
    obtain ⟨t1, ts, h1, h2, rfl⟩ := applyPolicies_cons h
    obtain ⟨ts', h3⟩ := ih h2
    obtain ⟨t', h4, -⟩ := applied_same (E' := E') (K' := K') h1
    refine ⟨t' :: ts', ?_⟩
    unfold applyPolicies
    rw [h4, h3]
    rfl

/-- C220, that there is an answer: an entity that finds a chain to an anchor gets an answer for that anchor, and it is the same metadata, from a resolver that would accept all the chains of the subject too and goes by the same settings at the same time.
The resolver finds the documents of the chain in its caches (C90). -/
theorem C220_answered_partial (F : Collect.Federation) (V V' : Env) (st st' : State) (h h' : List Collect.FRun) (R : Resolver) (sub anchor : String) (out : List TrustChain) (tc : TrustChain)
    (w : Within F V st h) (w' : Within F V' st' h') (hd : F.Dated) (hpl : F.PlainHints) (hsub : Collect.Plain sub) (hL : V'.L = V.L) (hnow : V'.W.now = V.W.now) (hdelta : V'.P.delta = V.P.delta) (hfuel : V'.fuel = V.fuel)
    (htop : Topmost F anchor) (hnull : Topmost F "") (hn : NoSelf F)
    (hall : ∀ f ec, (Collect.collect V.L.toCrypto V.P V.W V.fuel st.coll sub "").1 = .ok (f, ec) → ∀ c ∈ docs f ec,
      (∃ tc, (verifyChain V.L st.jar c).1 = .ok (some tc)) ∧ ∃ tc, (verifyChain V.L st'.jar c).1 = .ok (some tc))
    (hord : Orderly V' st' sub) (ho : (getVerified V st sub).1 = .ok out) (hm : tc ∈ out) (ha : tc.anchor = anchor) :
    ∃ p tc', (resolve R V' st' { sub := some sub, anchor := some anchor }).1 = .ok p ∧ out.find? (fun tc => decide (anchor = tc.anchor)) = some tc' ∧ States p none tc' := by
  obtain ⟨f, ec, tcs, c1, c2, c3, -⟩ := getVerified_ok ho
  have i1 := w.ideal hd hpl hsub ""
  have i2 := w'.ideal hd hpl hsub anchor
  rw [c1] at i1
  have e : Collect.idealCollect V'.L.toCrypto V'.P F V'.W.now V'.fuel sub anchor = some (f, ec) := by
    rw [hL, hnow, hfuel]
    unfold Collect.idealCollect at i1 ⊢
    cases hp : Collect.publishedConfig V.L.toCrypto F V.W.now sub with
    | none => rw [hp] at i1; cases i1
    | some j =>
      rw [hp] at i1
      simp only at i1 ⊢
      rw [tree_stops hdelta hnull htop hn V.fuel sub j (Collect.publishedConfig_iff.1 hp).1]
      exact i1.symm
  rw [e] at i2
  have c1' : (Collect.collect V'.L.toCrypto V'.P V'.W V'.fuel st'.coll sub anchor).1 = .ok (f, ec) := by
    cases hc : (Collect.collect V'.L.toCrypto V'.P V'.W V'.fuel st'.coll sub anchor).1 with
    | error e => rw [hc] at i2; cases i2
    | ok x => rw [hc] at i2; cases i2; rfl
  have hall := hall f ec c1
  have v1 := all_verified (docs f ec) (Threads.Grows.refl st.jar) fun c hc => (hall c hc).1
  have v2 := all_verified (docs f ec) (Threads.Grows.refl st'.jar) fun c hc => (hall c hc).2
  have v3 : (docs f ec).filterMap (verdict V.L st'.jar) = (docs f ec).filterMap (verdict V.L st.jar) := by
    clear v1 v2 c1 c2 i1 i2 e c1'
    revert hall
    generalize docs f ec = cs
    intro hall
    induction cs with
    | nil => rfl
    | cons c cs ih =>
      obtain ⟨⟨tc, k1⟩, ⟨tc', k2⟩⟩ := hall c (by simp)
      cases verified_same k1 k2
      have q1 : verdict V.L st.jar c = some tc := by simp only [verdict, k1]; rfl
      have q2 : verdict V.L st'.jar c = some tc := by simp only [verdict, k2]; rfl
      rw [List.filterMap_cons_some q1, List.filterMap_cons_some q2, ih fun c hc => hall c (by simp [hc])]
  rw [v1] at c2
  cases c2
  rw [v3] at v2
  obtain ⟨out', c3'⟩ := all_applied (E' := V'.E) (K' := V'.K) c3
  have ho' : (getVerified V' st' sub anchor).1 = .ok out' := by
    unfold getVerified
    generalize Collect.collect V'.L.toCrypto V'.P V'.W V'.fuel st'.coll sub anchor = r at c1'
    obtain ⟨r, coll⟩ := r
    simp only at c1'
    subst c1'
    simp only
    rw [← hL] at v2
    unfold docs at v2
    generalize verifyChains V'.L _ st'.jar = q at v2
    obtain ⟨q, jar⟩ := q
    simp only at v2
    subst v2
    simp only
    unfold docs at c3'
    rw [← hL] at c3'
    rw [c3']
  obtain ⟨t, ht⟩ : ∃ t, out.find? (fun tc => decide (anchor = tc.anchor)) = some t := by
    cases hf : out.find? (fun tc => decide (anchor = tc.anchor)) with
    | some t => exact ⟨t, rfl⟩
    | none =>
      rw [List.find?_eq_none] at hf
      exact absurd (by simp [ha]) (hf tc hm)
  obtain ⟨tc0, k1, k2⟩ := applied_to c3 ht
  obtain ⟨t0, k3, k4⟩ := applied_back c3' k1
  have k5 := List.mem_of_find?_eq_some k3
  have k6 : anchor = t0.anchor := by simpa using List.find?_some k3
  obtain ⟨p, hp⟩ := C91_orderly_partial R V' st' sub anchor out' t0 hord ho' k5 k6.symm
  obtain ⟨t', q1, q2⟩ := C220_agree_partial F V V' st st' h h' R sub anchor none p out w w' hd hpl hsub hL htop hnull hn
    (fun f' ec' hc c hcm _ => by rw [c1] at hc; cases hc; exact hall c hcm) ho hp
  exact ⟨p, t', hp, q1, q2⟩

/-! ### Where they do not agree, and examples -/

namespace Ex220
open Chains.Ex in
/-- `leaf` is below `im`, which is below `ta`. -/
def F : Collect.Federation := ⟨(W 0).config, (W 0).fetch⟩

open Chains.Ex in
theorem known {k : String} {j : Jws} (h : F.config k = .ok (some j)) :
    (k = "https://ta" ∧ j = conf "https://ta" none (fe true)) ∨ (k = "https://im" ∧ j = conf "https://im" (some ["https://ta"]) (fe true)) ∨
    (k = "https://leaf" ∧ j = conf "https://leaf" (some ["https://im"]) (rp (.str "admin"))) := by
  simp only [F, W] at h
  split at h
  · cases h; exact Or.inl ⟨rfl, rfl⟩
  · cases h; exact Or.inr (Or.inl ⟨rfl, rfl⟩)
  · cases h; exact Or.inr (Or.inr ⟨rfl, rfl⟩)
  · cases h

theorem dated : F.Dated := by
  intro k j h
  rcases known h with ⟨-, rfl⟩ | ⟨-, rfl⟩ | ⟨-, rfl⟩ <;> exact ⟨10000, rfl⟩

theorem plainHints : F.PlainHints := by
  intro k j hs h hh
  rcases known h with ⟨-, rfl⟩ | ⟨-, rfl⟩ | ⟨-, rfl⟩ <;> cases hh <;> decide

theorem inForce {t : Int} (ht : t ≤ 100) : F.InForce Chains.Ex.L.toCrypto t := by
  intro k j h
  rcases known h with ⟨-, rfl⟩ | ⟨-, rfl⟩ | ⟨-, rfl⟩ <;> simp only [Chains.Ex.L, notExpired, Chains.Ex.conf, decide_eq_true_eq] <;> omega

theorem topmost (s : String) (h1 : s ≠ "https://im") (h2 : s ≠ "https://leaf") : Topmost F s := by
  intro k j h hi
  rcases known h with ⟨-, rfl⟩ | ⟨-, rfl⟩ | ⟨-, rfl⟩
  · rfl
  · exact absurd hi.symm h1
  · exact absurd hi.symm h2

theorem noSelf : NoSelf F := by
  intro k j hs h hh
  rcases known h with ⟨rfl, rfl⟩ | ⟨rfl, rfl⟩ | ⟨rfl, rfl⟩ <;> cases hh <;> decide

/-- An entity that looks at the federation at `t`, and trusts `anchors`. -/
def V (t : Int) (anchors : List String) : Env := { L := Chains.Ex.L, P := { anchors := anchors }, W := F.at t, fuel := 10, E := SetEnum.insertion, K := SetEnum.insertion }

theorem within (t : Int) (ht : t ≤ 100) (anchors : List String) (jar : KeyJar) : Within F (V t anchors) { jar := jar } [] where
  world := rfl
  steady := Collect.Federation.steady_notExpired (fun _ _ => rfl) (show (0 : Int) ≤ 300 by decide) _ _
  clear := (inForce ht).clear _
  collected := rfl
  order := List.Pairwise.nil
  past := by intro r hr; cases hr
  plain := by intro r hr; cases hr

/-- A resolver that has collected for `leaf` at time 5. -/
def before : List Collect.FRun := [⟨5, 10, "https://leaf", "https://ta"⟩]
def used (t : Int) (anchors : List String) (jar : KeyJar) : State := { jar := jar, coll := Collect.runAll Chains.Ex.L.toCrypto { anchors := anchors } (before.map (Collect.FRun.run F)) }
theorem within_used (anchors : List String) (jar : KeyJar) : Within F (V 50 anchors) (used 50 anchors jar) before where
  world := rfl
  steady := Collect.Federation.steady_notExpired (fun _ _ => rfl) (show (0 : Int) ≤ 300 by decide) _ _
  clear := (inForce (show (50 : Int) ≤ 100 by decide)).clear _
  collected := rfl
  order := by simp [before]
  past := by intro r hr; simp only [before, List.mem_singleton] at hr; subst hr; show (5 : Int) ≤ 50; decide
  plain := by intro r hr; simp only [before, List.mem_singleton] at hr; subst hr; decide
end Ex220

/-- C220 does not hold: the trust anchor of both is `im`, which is itself below `ta`. The resolver collects only up to the anchor it is asked about, and answers; the asking entity collects all the way up to `ta`, which it does not know, and finds nothing. -/
theorem C220_nested_violation : ¬ C220_full := by
  intro h
  have h1 : (getVerified (Ex220.V 0 ["https://im"]) { jar := [("https://im", [2])] } "https://leaf").1 = .ok [] := by decide +kernel
  have h2 : (resolve Ex.R (Ex220.V 0 ["https://im"]) { jar := [("https://im", [2])] } { sub := some "https://leaf", anchor := some "https://im" }).1 =
      .ok (Ex.answer (.obj [("openid_relying_party", .obj [("scopes", .str "admin")])]) [.int 3, .int 2]) := by decide +kernel
  obtain ⟨out, tc, h3, h4, -⟩ := h Ex220.F _ _ _ _ [] [] Ex.R "https://leaf" "https://im" none _ (Ex220.within 0 (by decide) ["https://im"] [("https://im", [2])])
    (Ex220.within 0 (by decide) ["https://im"] [("https://im", [2])]) Ex220.dated Ex220.plainHints (by decide) rfl rfl rfl rfl (by decide) (by decide) (by decide) (by decide) rfl h2
  rw [h1] at h3
  cases h3
  cases h4

namespace Ex220
/-- As `F`, but `im` signs with another key than the one `ta` states. -/
def G : Collect.Federation := { F with fetch := fun ep a e => if a = "https://im" then .ok (some { Chains.Ex.about a e with sig := 5 }) else F.fetch ep a e }
def VG : Env := { V 0 ["https://ta"] with W := G.at 0 }
theorem withinG (jar : KeyJar) : Within G VG { jar := jar } [] where
  world := rfl
  steady := Collect.Federation.steady_notExpired (fun _ _ => rfl) (show (0 : Int) ≤ 300 by decide) _ _
  clear := (inForce (by decide)).clear _
  collected := rfl
  order := List.Pairwise.nil
  past := by intro r hr; cases hr
  plain := by intro r hr; cases hr
end Ex220

/-- C220 does not hold: both trust `ta` with the same key, but the resolver has from elsewhere a key of `im` that `ta` does not state, and `im` signed with it. -/
theorem C220_keys_violation : ¬ C220_full := by
  intro h
  have h1 : (getVerified Ex220.VG { jar := [("https://ta", [1])] } "https://leaf").1.toOption = none := by decide +kernel
  have h2 : (resolve Ex.R Ex220.VG { jar := [("https://ta", [1]), ("https://im", [5])] } { sub := some "https://leaf", anchor := some "https://ta" }).1 =
      .ok (Ex.answer (.obj [("openid_relying_party", .obj [("scopes", .str "openid")])]) [.int 3, .int 5, .int 1]) := by decide +kernel
  obtain ⟨out, tc, h3, -⟩ := h Ex220.G _ _ _ _ [] [] Ex.R "https://leaf" "https://ta" none _ (Ex220.withinG [("https://ta", [1])])
    (Ex220.withinG [("https://ta", [1]), ("https://im", [5])]) Ex220.dated Ex220.plainHints (by decide) rfl rfl rfl rfl (by decide) (by decide) (by decide) (by decide) rfl h2
  rw [h3] at h1
  cases h1

namespace Ex220
def accepted (V : Env) (st : State) (jar jar' : KeyJar) (entity : String) : Bool :=
  match (Collect.collect V.L.toCrypto V.P V.W V.fuel st.coll entity "").1 with
  | .error _ => true
  | .ok (f, ec) => (docs f ec).all fun c =>
    (match (verifyChain V.L jar c).1 with
    | .ok (some _) => true
    | _ => false) &&
    match (verifyChain V.L jar' c).1 with
    | .ok (some _) => true
    | _ => false

theorem accepted_iff {V : Env} {st : State} {jar jar' : KeyJar} {entity : String} (h : accepted V st jar jar' entity = true) :
    ∀ f ec, (Collect.collect V.L.toCrypto V.P V.W V.fuel st.coll entity "").1 = .ok (f, ec) → ∀ c ∈ docs f ec,
      (∃ tc, (verifyChain V.L jar c).1 = .ok (some tc)) ∧ ∃ tc, (verifyChain V.L jar' c).1 = .ok (some tc) := by
  intro f ec hc c hm
  unfold accepted at h
  rw [hc] at h
  have := List.all_eq_true.1 h c hm
  obtain ⟨h1, h2⟩ := Bool.and_eq_true_iff.1 this
  constructor
  · split at h1
    · rename_i tc h2; exact ⟨tc, h2⟩
    · cases h1
  · split at h2
    · rename_i tc h3; exact ⟨tc, h3⟩
    · cases h2

/-- The resolver trusts another anchor as well, has collected for `leaf` before, and is asked at another time than the one at which the asking entity looks; it answers. -/
example : (resolve Ex.R (V 50 ["https://ta", "https://tb"]) (used 50 ["https://ta", "https://tb"] [("https://ta", [1]), ("https://tb", [4])]) { sub := some "https://leaf", anchor := some "https://ta" }).1 =
    .ok (Ex.answer (.obj [("openid_relying_party", .obj [("scopes", .str "openid")])]) [.int 3, .int 2, .int 1] 50) := by decide +kernel
example (p : Dict Val) (out : List TrustChain) (ho : (getVerified (V 100 ["https://ta"]) { jar := [("https://ta", [1])] } "https://leaf").1 = .ok out)
    (hr : (resolve Ex.R (V 50 ["https://ta", "https://tb"]) (used 50 ["https://ta", "https://tb"] [("https://ta", [1]), ("https://tb", [4])]) { sub := some "https://leaf", anchor := some "https://ta" }).1 = .ok p) :
    ∃ tc, out.find? (fun tc => decide ("https://ta" = tc.anchor)) = some tc ∧ States p none tc :=
  C220_agree_partial F (V 100 ["https://ta"]) (V 50 ["https://ta", "https://tb"]) _ _ [] before Ex.R "https://leaf" "https://ta" none p out (within 100 (by decide) _ _) (within_used _ _) dated plainHints (by decide) rfl
    (topmost _ (by decide) (by decide)) (topmost _ (by decide) (by decide)) noSelf (fun f ec hc c hm _ => accepted_iff (jar' := [("https://ta", [1]), ("https://tb", [4])]) (by decide +kernel) f ec hc c hm) ho hr
example : ∃ p tc', (resolve Ex.R (V 0 ["https://ta"]) Chains.Ex.st { sub := some "https://leaf", anchor := some "https://ta" }).1 = .ok p ∧
    [Chains.Ex.leafChain].find? (fun tc => decide ("https://ta" = tc.anchor)) = some tc' ∧ States p none tc' :=
  C220_answered_partial F (V 0 ["https://ta"]) (V 0 ["https://ta"]) Chains.Ex.st Chains.Ex.st [] [] Ex.R "https://leaf" "https://ta" [Chains.Ex.leafChain] Chains.Ex.leafChain (within 0 (by decide) _ _) (within 0 (by decide) _ _) dated plainHints
    (by decide) rfl rfl rfl rfl (topmost _ (by decide) (by decide)) (topmost _ (by decide) (by decide)) noSelf (accepted_iff (by decide +kernel)) Ex.orderly Chains.Ex.leaf_resolved (by simp) rfl
end Ex220

end Fed.Server
