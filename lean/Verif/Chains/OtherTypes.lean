import Verif.Chains.Restated
/-
C249: what authorities say about types of entities an entity is not of, and what comes of it when that entity is resolved (`get_verified_trust_chains`, /repo/src/fedservice/entity/function/__init__.py 154-161).
-/
namespace Fed.Chains
open Fed Fed.Verify Fed.Server
open Fed.Collect.Moving (mapForest)

/-- Two statements that have the same metadata and policies for the types `T` and may have different ones for others; they are signed alike. -/
structure SameFor (C : Crypto) (T : String → Prop) (j' j : Jws) : Prop where
  said : ∃ md pol, j'.payload = { j.payload with metadata := md, policy := pol }
  metadata : ∀ t, T t → j'.payload.md.get? t = j.payload.md.get? t
  policy : ∀ t, T t → j'.payload.policy.get? t = j.payload.policy.get? t
  usable : ∀ k, C.usable j' k = C.usable j k
  verifies : ∀ k, C.verifies j' k = C.verifies j k

theorem SameFor.refl {C : Crypto} {T : String → Prop} (j : Jws) : SameFor C T j j := ⟨⟨_, _, rfl⟩, fun _ _ => rfl, fun _ _ => rfl, fun _ => rfl, fun _ => rfl⟩

theorem SameFor.symm {C : Crypto} {T : String → Prop} {j' j : Jws} (h : SameFor C T j' j) : SameFor C T j j' := by
  obtain ⟨md, pol, e⟩ := h.said
  exact ⟨⟨j.payload.metadata, j.payload.policy, by rw [e]⟩, fun t ht => (h.metadata t ht).symm, fun t ht => (h.policy t ht).symm, fun k => (h.usable k).symm, fun k => (h.verifies k).symm⟩

theorem SameFor.judged (C : Crypto) (T : String → Prop) : Judged C (SameFor C T) := by
  refine ⟨⟨⟨.refl, ?_⟩, ?_, ?_, ?_, fun h => h.usable, fun h => h.verifies⟩, ?_⟩ <;> intro j' j h <;> obtain ⟨md, pol, e⟩ := h.said <;> rw [e]

theorem Restated.symm {R : Jws → Jws → Prop} (hR : ∀ {j' j}, R j' j → R j j') {F' F : Collect.Federation} (h : Restated R F' F) : Restated R F F' where
  config := h.config.symm
  fetch v a e := by
    rcases h.fetch v a e with q | ⟨j', j, q1, q2, q3⟩
    · exact Or.inl q.symm
    · exact Or.inr ⟨j, j', q2, q1, hR q3⟩

/-! ### Policies -/

section
open Policy

variable {C : Crypto} {T : String → Prop} {E : SetEnum Val} {K : SetEnum String}

theorem SameFor.rule {j' j : Jws} (h : SameFor C T j' j) {t : String} (ht : T t) : (toP j'.payload).rule t = (toP j.payload).rule t := by
  simp only [toP, PStatement.rule, h.metadata t ht, h.policy t ht]

theorem gatherRest_sameFor {t : String} (ht : T t) : ∀ (vs : List (Twin (SameFor C T))) (r : Rule), gatherRest E K t ((after vs).map toP) r = gatherRest E K t ((before vs).map toP) r
  | [], _ => rfl
  | p :: vs, r => by
    have key := gatherRest_sameFor ht vs
    simp only [after, before, List.map_cons, gatherRest, p.2.rule ht] at key ⊢
    simp only [key]

theorem gatherPolicies_sameFor {t : String} (ht : T t) (vs : List (Twin (SameFor C T))) : gatherPolicies E K ((after vs).map toP) t = gatherPolicies E K ((before vs).map toP) t := by
  cases vs with
  | nil => rfl
  | cons p vs =>
    have key := gatherRest_sameFor (E := E) (K := K) ht vs
    simp only [after, before, List.map_cons, gatherPolicies, p.2.rule ht] at key ⊢
    rw [key]

theorem policyForTypes_sameFor (vs : List (Twin (SameFor C T))) (leaf : PStatement) : ∀ ts : List String, (∀ t ∈ ts, T t) → policyForTypes E K ((after vs).map toP) leaf ts = policyForTypes E K ((before vs).map toP) leaf ts
  | [], _ => rfl
  | t :: ts, h => by
    unfold policyForTypes policyFor
    rw [gatherPolicies_sameFor (h t (by simp)), policyForTypes_sameFor vs leaf ts fun u hu => h u (by simp [hu])]

/-- The last statement verified is the configuration of the entity. -/
def EndsWith (ec : Jws) (tc : TrustChain) : Prop := ∃ vs, tc.verified = vs ++ [ec.payload]

theorem applied_sameFor {ec : Jws} {tc' tc t' : TrustChain} (hT : ∀ md, ec.payload.metadata = some md → ∀ t ∈ md.keys, T t) (hf : Frame (SameFor C T) tc' tc) (he' : EndsWith ec tc') (he : EndsWith ec tc) (h : applyToChain E K tc' = .ok t') :
    ∃ t, applyToChain E K tc = .ok t ∧ outline t = outline t' := by
  obtain ⟨vs, h1, h2⟩ := hf.verified
  obtain ⟨xs', e1⟩ := he'
  obtain ⟨xs, e2⟩ := he
  rcases List.eq_nil_or_concat vs with rfl | ⟨ws, w, rfl⟩
  · rw [h1] at e1
    simp [after] at e1
  · have k1 : xs' = after ws := by
      have := h1.symm.trans e1
      simp only [after, List.concat_eq_append, List.map_append, List.map_cons, List.map_nil] at this ⊢
      exact (List.append_inj' this rfl).1.symm
    have k2 : xs = before ws := by
      have := h2.symm.trans e2
      simp only [before, List.concat_eq_append, List.map_append, List.map_cons, List.map_nil] at this ⊢
      exact (List.append_inj' this rfl).1.symm
    subst k1 k2
    have hlen : tc.verified.length = tc'.verified.length := by rw [e1, e2]; simp [after, before]
    obtain ⟨leaf, md, g1, g2, g3⟩ := applyToChain_ok.1 h
    rw [e1, getLast_snoc] at g1
    cases g1
    rcases g3 with ⟨g3, m, g4, rfl⟩ | ⟨g3, m, g4, rfl⟩
    · have hk : ∀ t ∈ (toP ec.payload).metadata.keys, T t := by
        have : (toP ec.payload).metadata = md := by simp only [toP, Payload.md, g2, Option.getD_some]
        rw [this]
        exact hT md g2
      rw [e1, List.dropLast_concat] at g4
      unfold callPolicy at g4
      simp only at g4
      rw [policyForTypes_sameFor ws _ _ hk] at g4
      refine ⟨_, applyToChain_ok.2 ⟨ec.payload, md, by rw [e2, getLast_snoc], g2, Or.inl ⟨by rw [hlen]; exact g3, m, by rw [e2, List.dropLast_concat]; exact g4, rfl⟩⟩, ?_⟩
      simp only [outline, hf.anchor, hf.issPath, hf.exp]
    · refine ⟨_, applyToChain_ok.2 ⟨ec.payload, md, by rw [e2, getLast_snoc], g2, Or.inr ⟨by rw [hlen]; exact g3, m, g4, rfl⟩⟩, ?_⟩
      simp only [outline, hf.anchor, hf.issPath, hf.exp]

theorem policies_sameFor {ec : Jws} (hT : ∀ md, ec.payload.metadata = some md → ∀ t ∈ md.keys, T t) : ∀ (ps : List (TrustChain × TrustChain)) (out' : List TrustChain),
    (∀ p ∈ ps, Frame (SameFor C T) p.1 p.2) → (∀ p ∈ ps, EndsWith ec p.1) → (∀ p ∈ ps, EndsWith ec p.2) → applyPolicies E K (ps.map (·.1)) = .ok out' → ∃ out, applyPolicies E K (ps.map (·.2)) = .ok out ∧ out.map outline = out'.map outline
  | [], out', _, _, _, h => by cases h; exact ⟨[], rfl, rfl⟩
  | p :: ps, out', hp, h1, h2, h => by
    simp only [List.map_cons, applyPolicies] at h ⊢
    cases q1 : applyToChain E K p.1 with
    | error e => rw [q1] at h; cases h
    | ok t' =>
      rw [q1] at h
      simp only [ok_bind] at h
      cases q2 : applyPolicies E K (ps.map (·.1)) with
      | error e => rw [q2] at h; cases h
      | ok rest' =>
        rw [q2] at h
        cases h
        obtain ⟨t, g1, g2⟩ := applied_sameFor hT (hp p (by simp)) (h1 p (by simp)) (h2 p (by simp)) q1
        obtain ⟨rest, g3, g4⟩ := policies_sameFor hT ps rest' (fun p hm => hp p (by simp [hm])) (fun p hm => h1 p (by simp [hm])) (fun p hm => h2 p (by simp [hm])) q2
        exact ⟨t :: rest, by rw [g1, g3]; rfl, by simp only [List.map_cons, g2, g4]⟩

end

theorem ends_with {L : Lib} {ec : Jws} {f : Collect.Forest Jws} {jar : KeyJar} {tcs : List TrustChain} (h : (verifyChains L (docs f ec) jar).1 = .ok tcs) : ∀ tc ∈ tcs, EndsWith ec tc := by
  have hr : Framed L.toCrypto ec ec := ⟨rfl, rfl, rfl, rfl, fun _ => rfl, fun _ => rfl⟩
  unfold docs at h
  obtain ⟨tcs', -, ps, rfl, -, v⟩ := all_framed hr _ _ _ h
  intro tc hm
  obtain ⟨p, hp, rfl⟩ := List.mem_map.1 hm
  obtain ⟨c, -, hs⟩ := v p hp
  obtain ⟨vs, e, -⟩ := hs.verified
  exact ⟨vs, e⟩

theorem types_one_way {F F' : Collect.Federation} {V V' : Env} {st st' : State} {h h' : List Collect.FRun} {sub stopAt : String} {out' : List TrustChain} {T : String → Prop}
    (w : Within F V st h) (w' : Within F' V' st' h') (n1 : V'.L = V.L) (n2 : V'.P = V.P) (n3 : V'.W.now = V.W.now) (n4 : V'.fuel = V.fuel) (n5 : V'.E = V.E) (n6 : V'.K = V.K) (hj : st'.jar = st.jar) (hd : F.Dated) (hd' : F'.Dated) (hp : F.PlainHints) (hp' : F'.PlainHints)
    (hsub : Collect.Plain sub) (hT : ∀ j md, F.config sub = .ok (some j) → j.payload.metadata = some md → ∀ t ∈ md.keys, T t) (hr : Restated (SameFor V.L.toCrypto T) F' F) (ho : (getVerified V' st' sub stopAt).1 = .ok out') :
    ∃ out, (getVerified V st sub stopAt).1 = .ok out ∧ out.map outline = out'.map outline := by
  obtain ⟨f', ec, tcs', c1, c2, c3, -⟩ := getVerified_ok ho
  have i1 := w'.ideal hd' hp' hsub stopAt
  have i2 := w.ideal hd hp hsub stopAt
  rw [c1] at i1
  rw [n1, n2, n3, n4] at i1
  have hR := SameFor.judged V.L.toCrypto T
  obtain ⟨g, rfl, hg⟩ := hr.collect hR.toEnds i1.symm
  have hec : F.config sub = .ok (some ec) := by
    unfold Collect.idealCollect Collect.publishedConfig at hg
    split at hg
    · cases hg
    · rename_i j hj
      split at hj
      · rename_i j1 hc
        split at hj
        · cases hj
          obtain ⟨f0, -, e0⟩ := Option.map_eq_some_iff.1 hg
          cases e0
          exact hc
        · cases hj
      · cases hj
  rw [hg] at i2
  have c1' := toOption_some i2
  rw [n1, hj] at c2
  have l' := ends_with c2
  have hdoc := docs_restated hR.toEnds g ec
  rw [hdoc (fun p => p.1.1) rfl] at c2
  obtain ⟨tcs, v1, ps, rfl, rfl, v4⟩ := all_judged hR _ _ _ c2
  rw [← hdoc (fun p => p.1.2) rfl] at v1
  have l := ends_with v1
  rw [n5, n6] at c3
  obtain ⟨out, g1, g2⟩ := policies_sameFor (fun md => hT ec md hec) ps out' v4 (fun p hm => l' _ (List.mem_map_of_mem hm)) (fun p hm => l _ (List.mem_map_of_mem hm)) c3
  refine ⟨out, ?_, g2⟩
  unfold getVerified
  generalize hcol : Collect.collect V.L.toCrypto V.P V.W V.fuel st.coll sub stopAt = r at c1' ⊢
  obtain ⟨r, coll⟩ := r
  simp only at c1'
  subst c1'
  simp only
  unfold docs at v1
  generalize verifyChains V.L ((Collect.tree2chains (mapForest (fun p : Twin (SameFor V.L.toCrypto T) => p.1.2) g)).map fun c => c.map some ++ [some ec]) st.jar = r at v1 ⊢
  obtain ⟨r, jar⟩ := r
  simp only at v1
  subst v1
  simp only
  rw [g1]

/-- C249: whatever policies and metadata authorities anywhere in a federation have in their statements for types of entities that an entity does not say it is of, the entity is resolved by the same trust chains with the same metadata, or not at all. `T` are the types in its configuration, and perhaps further ones. The caches
are those of any earlier runs. -/
theorem C249_other_types (F F' : Collect.Federation) (V : Env) (st st' : State) (h h' : List Collect.FRun) (sub stopAt : String) (T : String → Prop) (answer : List (String × List String × Int × Dict Val))
    (w : Within F V st h) (w' : Within F' { V with W := F'.at V.W.now } st' h') (hj : st'.jar = st.jar) (hd : F.Dated) (hd' : F'.Dated) (hp : F.PlainHints) (hp' : F'.PlainHints) (hsub : Collect.Plain sub)
    (hT : ∀ j md, F.config sub = .ok (some j) → j.payload.metadata = some md → ∀ t ∈ md.keys, T t) (hr : Restated (SameFor V.L.toCrypto T) F' F) :
    (∃ out, (getVerified { V with W := F'.at V.W.now } st' sub stopAt).1 = .ok out ∧ out.map outline = answer) ↔ ∃ out, (getVerified V st sub stopAt).1 = .ok out ∧ out.map outline = answer := by
  constructor
  · rintro ⟨out, ho, rfl⟩
    exact types_one_way w w' rfl rfl rfl rfl rfl rfl hj hd hd' hp hp' hsub hT hr ho
  · rintro ⟨out, ho, rfl⟩
    exact types_one_way w' w rfl rfl rfl rfl rfl rfl hj.symm hd' hd hp' hp hsub (by rw [hr.config]; exact hT) (hr.symm SameFor.symm) ho

namespace Ex249
/-- `leaf`, a relying party, is below `im`, which is below `ta`. Both permit relying parties the one scope it has; of providers, `ta` demands what `im` forbids where `more`. -/
def rules (more : Bool) (a : String) : Dict Policy.MetadataPolicy :=
  [("openid_relying_party", [("scopes", [("one_of", Policy.Ex.strs ["openid", "phone"])])])] ++
    if more then [("openid_provider", [("scopes", [("value", .str (if a = "https://ta" then "phone" else "email"))])])] else []

def F (more : Bool) : Collect.Federation where
  config
    | "https://ta" => .ok (some (Ex219.conf "https://ta" none (Ex.fe true)))
    | "https://im" => .ok (some (Ex219.conf "https://im" (some ["https://ta"]) (Ex.fe true)))
    | "https://leaf" => .ok (some (Ex219.conf "https://leaf" (some ["https://im"]) [("openid_relying_party", [("scopes", .str "openid")])]))
    | _ => .error .missingPage
  fetch _ a e := .ok (some (Ex219.about a e (rules more a)))

variable {more : Bool}

theorem known {k : String} {j : Jws} (h : (F more).config k = .ok (some j)) : j.payload.exp = some 10000 ∧ ∀ l, j.payload.hints = some l → ∀ a ∈ l, Collect.Plain a := by
  simp only [F] at h
  split at h <;> cases h <;> refine ⟨rfl, fun l hl => ?_⟩ <;> cases hl <;> decide

theorem dated : (F more).Dated := fun _ _ h => ⟨10000, (known h).1⟩
theorem plainHints : (F more).PlainHints := fun _ _ l h hl => (known h).2 l hl
theorem inForce : (F more).InForce Ex.L.toCrypto 0 := by
  intro k j h
  simp only [Ex.L, notExpired, (known h).1]
  decide

theorem restated : Restated (SameFor Ex.L.toCrypto fun t => t = "openid_relying_party") (F true) (F false) where
  config := rfl
  fetch v a e := by
    refine Or.inr ⟨_, _, rfl, rfl, ⟨_, _, rfl⟩, fun t _ => rfl, ?_, fun _ => rfl, fun _ => rfl⟩
    rintro t rfl
    rfl

abbrev V (more : Bool) : Env := Ex221.V (F more) ["https://ta"]
abbrev st : State := { jar := [("https://ta", [1])] }

/-- The case of C249. -/
example : Ex229.result (getVerified (V true) st "https://leaf").1 = .ok [("https://ta", [("openid_relying_party", .obj [("scopes", .str "openid")])])] := by decide +kernel

example (answer : List (String × List String × Int × Dict Val)) : (∃ out, (getVerified (V true) st "https://leaf").1 = .ok out ∧ out.map outline = answer) ↔ ∃ out, (getVerified (V false) st "https://leaf").1 = .ok out ∧ out.map outline = answer :=
  C249_other_types (F false) (F true) (V false) st st [] [] "https://leaf" "" (fun t => t = "openid_relying_party") answer (Ex221.within inForce _ _) (Ex221.within inForce _ _) rfl dated dated plainHints plainHints (by decide)
    (fun j md h hm t ht => by
      cases h
      cases hm
      simpa [Dict.keys] using ht) restated
end Ex249

end Fed.Chains
