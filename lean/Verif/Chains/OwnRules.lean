import Verif.Chains.OwnMatter
/-
C248: policies and constraints in the configurations entities publish about themselves, and what comes of them when entities are resolved (`get_verified_trust_chains`, /repo/src/fedservice/entity/function/__init__.py 154-161).
-/
namespace Fed.Chains
open Fed Fed.Verify Fed.Server

/-- Two configurations that differ in the policies and constraints in them only, and are signed alike. -/
structure RulesDiffer (C : Crypto) (j' j : Jws) : Prop where
  said : ∃ pol cs, j'.payload = { j.payload with policy := pol, constraints := cs }
  usable : ∀ k, C.usable j' k = C.usable j k
  verifies : ∀ k, C.verifies j' k = C.verifies j k
  current : ∀ t, C.current t j' = C.current t j

theorem RulesDiffer.framed {C : Crypto} {j' j : Jws} (h : RulesDiffer C j' j) : Framed C j j' := by
  obtain ⟨pol, cs, e⟩ := h.said
  exact ⟨by rw [e], by rw [e], by rw [e], by rw [e], h.usable, h.verifies⟩

theorem RulesDiffer.metadata {C : Crypto} {j' j : Jws} (h : RulesDiffer C j' j) : j'.payload.metadata = j.payload.metadata := by
  obtain ⟨pol, cs, e⟩ := h.said
  rw [e]

theorem RulesDiffer.refl {C : Crypto} (j : Jws) : RulesDiffer C j j := ⟨⟨_, _, rfl⟩, fun _ => rfl, fun _ => rfl, fun _ => rfl⟩

theorem RulesDiffer.symm {C : Crypto} {j' j : Jws} (h : RulesDiffer C j' j) : RulesDiffer C j j' := by
  obtain ⟨pol, cs, e⟩ := h.said
  exact ⟨⟨j.payload.policy, j.payload.constraints, by rw [e]⟩, fun k => (h.usable k).symm, fun k => (h.verifies k).symm, fun t => (h.current t).symm⟩

theorem RulesDiffer.samePlace {C : Crypto} {j' j : Jws} (h : RulesDiffer C j' j) : SamePlace C j' j := by
  obtain ⟨pol, cs, e⟩ := h.said
  refine ⟨by rw [e], by rw [e], by rw [e], by rw [e]; rfl, fun t => ?_⟩
  have e1 : C.usable j' = C.usable j := funext h.usable
  have e2 : C.verifies j' = C.verifies j := funext h.verifies
  have e3 : j'.payload.jwks = j.payload.jwks := by rw [e]
  unfold selfVerify
  rw [e1, e2, e3, h.current t]
  cases j.payload.jwks with
  | none => simp
  | some ks =>
    simp only
    split <;> simp

/-- The same federation, in which there are other policies and constraints in the configurations of entities. -/
structure OwnRulesDiffer (C : Crypto) (F' F : Collect.Federation) : Prop where
  config : ∀ e, F'.config e = F.config e ∨ ∃ j' j, F'.config e = .ok (some j') ∧ F.config e = .ok (some j) ∧ RulesDiffer C j' j
  fetch : F'.fetch = F.fetch

section
open Collect

variable {C : Crypto} {F F' : Federation}

theorem OwnRulesDiffer.symm (h : OwnRulesDiffer C F' F) : OwnRulesDiffer C F F' where
  config e := by
    rcases h.config e with q | ⟨j', j, q1, q2, q3⟩
    · exact Or.inl q.symm
    · exact Or.inr ⟨j, j', q2, q1, q3.symm⟩
  fetch := h.fetch.symm

theorem OwnRulesDiffer.samePlaces (h : OwnRulesDiffer C F' F) : SamePlaces C F' F where
  config e := (h.config e).imp id fun ⟨j', j, q1, q2, q3⟩ => ⟨j', j, q1, q2, q3.samePlace⟩
  fetch := h.fetch

theorem OwnRulesDiffer.published (h : OwnRulesDiffer C F' F) {t : Int} {a : String} {j : Jws} (hp : publishedConfig C F t a = some j) : ∃ j', publishedConfig C F' t a = some j' ∧ RulesDiffer C j' j := by
  rcases h.config a with e | ⟨j1', j1, e1, e2, hs⟩
  · refine ⟨j, ?_, .refl j⟩
    rw [← hp]
    unfold publishedConfig
    rw [e]
  · have hg := hs.samePlace.signed t
    unfold publishedConfig at hp ⊢
    rw [e2] at hp
    rw [e1]
    simp only at hp ⊢
    split at hp
    · rename_i hv
      cases hp
      rw [if_pos (hg.2 hv)]
      exact ⟨j1', rfl, hs⟩
    · cases hp

theorem OwnRulesDiffer.collect (h : OwnRulesDiffer C F' F) {P : Params} {t : Int} {s e : String} {n : Nat} {f : Forest Jws} {ec : Jws} (hc : idealCollect C P F t n e s = some (f, ec)) :
    ∃ ec', idealCollect C P F' t n e s = some (f, ec') ∧ RulesDiffer C ec' ec := by
  unfold idealCollect at hc ⊢
  cases hp : publishedConfig C F t e with
  | none => rw [hp] at hc; cases hc
  | some j =>
    obtain ⟨j', q1, q2⟩ := h.published hp
    rw [hp] at hc
    rw [q1]
    simp only at hc ⊢
    rw [h.samePlaces.tree n e j'.payload j.payload q2.samePlace.hints q2.samePlace.iss]
    cases ht : idealTree C P F t s n e j.payload with
    | none => rw [ht] at hc; cases hc
    | some g =>
      rw [ht] at hc
      cases hc
      exact ⟨j', rfl, q2⟩

end

/-! ### Policies -/

section
open Policy

variable {E : SetEnum Val} {K : SetEnum String}

/-- Of the entity's own configuration, resolving the metadata reads the metadata. -/
theorem policyForTypes_leaf {sups : List PStatement} {leaf' leaf : PStatement} (hl : leaf'.metadata = leaf.metadata) : ∀ ts : List String, policyForTypes E K sups leaf' ts = policyForTypes E K sups leaf ts
  | [] => rfl
  | t :: ts => by
    unfold policyForTypes policyFor
    rw [policyForTypes_leaf hl ts, hl]

theorem callPolicy_leaf {sups : List PStatement} {leaf' leaf : PStatement} (hl : leaf'.metadata = leaf.metadata) : callPolicy E K sups leaf' none = callPolicy E K sups leaf none := by
  unfold callPolicy
  simp only [hl, policyForTypes_leaf hl]

end

theorem applied_rules {C : Crypto} {E : SetEnum Val} {K : SetEnum String} {ec ec' : Jws} {ds : List Doc} {tc tc' t : TrustChain} (hf : RulesDiffer C ec' ec) (hs : SameFrame ec ec' ds tc tc') (h : applyToChain E K tc = .ok t) :
    ∃ t', applyToChain E K tc' = .ok t' ∧ outline t' = outline t := by
  obtain ⟨vs, h1, h2, -⟩ := hs.verified
  obtain ⟨leaf, md, k1, k2, k3⟩ := applyToChain_ok.1 h
  rw [h1, getLast_snoc] at k1
  cases k1
  have em : ec'.payload.metadata = some md := by rw [hf.metadata, k2]
  have hl : (toP ec'.payload).metadata = (toP ec.payload).metadata := by simp only [toP, Payload.md, hf.metadata]
  rcases k3 with ⟨k3, m, k4, rfl⟩ | ⟨k3, m, k4, rfl⟩
  · rw [h1, List.dropLast_concat, ← callPolicy_leaf hl] at k4
    refine ⟨_, applyToChain_ok.2 ⟨ec'.payload, md, by rw [h2, getLast_snoc], em, Or.inl ⟨?_, m, by rw [h2, List.dropLast_concat]; exact k4, rfl⟩⟩, ?_⟩
    · rw [h1] at k3; rw [h2]; simpa using k3
    · simp only [outline, hs.anchor, hs.issPath, hs.exp]
  · refine ⟨_, applyToChain_ok.2 ⟨ec'.payload, md, by rw [h2, getLast_snoc], em, Or.inr ⟨?_, m, k4, rfl⟩⟩, ?_⟩
    · rw [h1] at k3; rw [h2]; simpa using k3
    · simp only [outline, hs.anchor, hs.issPath, hs.exp]

theorem policies_rules {C : Crypto} {E : SetEnum Val} {K : SetEnum String} {ec ec' : Jws} (hf : RulesDiffer C ec' ec) {cs : List (List Jws)} : ∀ (ps : List (TrustChain × TrustChain)) (out : List TrustChain),
    (∀ p ∈ ps, ∃ c ∈ cs, SameFrame ec ec' (c.map some) p.1 p.2) → applyPolicies E K (ps.map (·.1)) = .ok out → ∃ out', applyPolicies E K (ps.map (·.2)) = .ok out' ∧ out'.map outline = out.map outline
  | [], out, _, h => by cases h; exact ⟨[], rfl, rfl⟩
  | p :: ps, out, hp, h => by
    obtain ⟨c, -, hs⟩ := hp p (by simp)
    simp only [List.map_cons, applyPolicies] at h ⊢
    cases h1 : applyToChain E K p.1 with
    | error e => rw [h1] at h; cases h
    | ok t =>
      rw [h1] at h
      cases h2 : applyPolicies E K (ps.map (·.1)) with
      | error e => rw [h2] at h; cases h
      | ok rest =>
        rw [h2] at h
        cases h
        obtain ⟨t', g1, g2⟩ := applied_rules hf hs h1
        obtain ⟨rest', g3, g4⟩ := policies_rules hf ps rest (fun q hq => hp q (by simp [hq])) h2
        rw [g1, g3]
        exact ⟨t' :: rest', rfl, by simp only [List.map_cons, g2, g4]⟩

theorem rules_one_way {F F' : Collect.Federation} {V V' : Env} {st st' : State} {h h' : List Collect.FRun} {sub stopAt : String} {out : List TrustChain}
    (w : Within F V st h) (w' : Within F' V' st' h') (hL : V'.L = V.L) (hP : V'.P = V.P) (hE : V'.E = V.E) (hK : V'.K = V.K) (hn : V'.fuel = V.fuel) (ht : V'.W.now = V.W.now) (hj : st'.jar = st.jar) (hd : F.Dated) (hd' : F'.Dated) (hp : F.PlainHints) (hp' : F'.PlainHints)
    (hsub : Collect.Plain sub) (hr : OwnRulesDiffer V.L.toCrypto F' F) (ho : (getVerified V st sub stopAt).1 = .ok out) :
    ∃ out', (getVerified V' st' sub stopAt).1 = .ok out' ∧ out'.map outline = out.map outline := by
  obtain ⟨f, ec, tcs, c1, c2, c3, -⟩ := getVerified_ok ho
  have i1 := w.ideal hd hp hsub stopAt
  have i2 := w'.ideal hd' hp' hsub stopAt
  rw [c1] at i1
  obtain ⟨ec', q1, q2⟩ := hr.collect i1.symm
  rw [hL, hP, ht, hn, q1] at i2
  have d1 := toOption_some i2
  unfold docs at c2
  obtain ⟨tcs', v1, ps, rfl, rfl, v4⟩ := all_framed q2.framed _ _ _ c2
  obtain ⟨out', g1, g2⟩ := policies_rules q2 ps out v4 c3
  refine ⟨out', ?_, g2⟩
  unfold getVerified
  rw [hL, hP, hn, hj, hE, hK]
  generalize Collect.collect V.L.toCrypto V.P V'.W V.fuel st'.coll sub stopAt = r at d1 ⊢
  obtain ⟨r, coll⟩ := r
  simp only at d1
  subst d1
  simp only
  generalize verifyChains V.L ((Collect.tree2chains f).map fun c => c.map some ++ [some ec']) st.jar = r at v1 ⊢
  obtain ⟨r, jar⟩ := r
  simp only at v1
  subst v1
  simp only
  rw [g1]

/-- C248: policies and constraints in the configurations entities publish about themselves, the one that is resolved and those above it, have no effect: whatever they are, the entity is resolved by the same trust chains with the same metadata, or not at all. The caches are those of any earlier runs. -/
theorem C248_own_rules (F F' : Collect.Federation) (V : Env) (st st' : State) (h h' : List Collect.FRun) (sub stopAt : String) (answer : List (String × List String × Int × Dict Val))
    (w : Within F V st h) (w' : Within F' { V with W := F'.at V.W.now } st' h') (hj : st'.jar = st.jar) (hd : F.Dated) (hd' : F'.Dated) (hp : F.PlainHints) (hp' : F'.PlainHints) (hsub : Collect.Plain sub)
    (hr : OwnRulesDiffer V.L.toCrypto F' F) :
    (∃ out, (getVerified { V with W := F'.at V.W.now } st' sub stopAt).1 = .ok out ∧ out.map outline = answer) ↔ ∃ out, (getVerified V st sub stopAt).1 = .ok out ∧ out.map outline = answer := by
  constructor
  · rintro ⟨out, ho, rfl⟩
    exact rules_one_way w' w rfl rfl rfl rfl rfl rfl hj.symm hd' hd hp' hp hsub hr.symm ho
  · rintro ⟨out, ho, rfl⟩
    exact rules_one_way w w' rfl rfl rfl rfl rfl rfl hj hd hd' hp hp' hsub hr ho

namespace Ex248
/-- `leaf` is below `im`, which is below `ta`. With `own`, `leaf` permits itself nothing but another scope, and excludes itself. -/
def leaf (own : Bool) : Jws :=
  let j := Ex219.conf "https://leaf" (some ["https://im"]) [("openid_relying_party", [("scopes", .str "openid")])]
  if own then ⟨{ j.payload with policy := Ex219.scopes "phone", constraints := some ⟨some 0, some ⟨none, some ["https://leaf"]⟩⟩ }, j.sig⟩ else j

def F (own : Bool) : Collect.Federation where
  config
    | "https://ta" => .ok (some (Ex219.conf "https://ta" none (Ex.fe true)))
    | "https://im" => .ok (some (Ex219.conf "https://im" (some ["https://ta"]) (Ex.fe true)))
    | "https://leaf" => .ok (some (leaf own))
    | _ => .error .missingPage
  fetch _ a e := .ok (some (Ex219.about a e))

theorem known {own : Bool} {k : String} {j : Jws} (h : (F own).config k = .ok (some j)) : j.payload.exp = some 10000 ∧ ∀ l, j.payload.hints = some l → ∀ a ∈ l, Collect.Plain a := by
  simp only [F] at h
  split at h <;> cases h
  · exact ⟨rfl, fun l hl => by cases hl⟩
  · refine ⟨rfl, fun l hl => ?_⟩
    cases hl
    decide
  · have h1 : (leaf own).payload.hints = some ["https://im"] := by cases own <;> rfl
    refine ⟨by cases own <;> rfl, fun l hl => ?_⟩
    rw [h1] at hl
    cases hl
    decide

variable {own : Bool}
theorem dated : (F own).Dated := fun _ _ h => ⟨10000, (known h).1⟩
theorem plainHints : (F own).PlainHints := fun _ _ l h hl => (known h).2 l hl
theorem inForce : (F own).InForce Ex.L.toCrypto 0 := by
  intro k j h
  simp only [Ex.L, notExpired, (known h).1]
  decide

theorem differ : OwnRulesDiffer Ex.L.toCrypto (F true) (F false) where
  config e := by
    simp only [F]
    split
    · exact Or.inl rfl
    · exact Or.inl rfl
    · exact Or.inr ⟨_, _, rfl, rfl, ⟨_, _, rfl⟩, fun _ => rfl, fun _ => rfl, fun _ => rfl⟩
    · exact Or.inl rfl
  fetch := rfl

abbrev V (own : Bool) : Env := Ex221.V (F own) ["https://ta"]
abbrev st : State := { jar := [("https://ta", [1])] }

/-- The case of C248. -/
example : Ex229.result (getVerified (V true) st "https://leaf").1 = .ok [("https://ta", [("openid_relying_party", .obj [("scopes", .str "openid")])])] := by decide +kernel

example (answer : List (String × List String × Int × Dict Val)) : (∃ out, (getVerified (V true) st "https://leaf").1 = .ok out ∧ out.map outline = answer) ↔ ∃ out, (getVerified (V false) st "https://leaf").1 = .ok out ∧ out.map outline = answer :=
  C248_own_rules (F false) (F true) (V false) st st [] [] "https://leaf" "" answer (Ex221.within inForce _ _) (Ex221.within inForce _ _) rfl dated dated plainHints plainHints (by decide) differ
end Ex248

end Fed.Chains
