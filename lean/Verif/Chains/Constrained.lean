import Verif.Chains.Restated
import Verif.Constraints.Stricter
/-
C244: authorities that constrain more in their statements, and what comes of it when entities are resolved (`get_verified_trust_chains`, /repo/src/fedservice/entity/function/__init__.py 154-161). For the constraints along one trust chain, see C224.
-/
namespace Fed.Constraints

/-- The first statement allows no longer paths than the second and, where `begins`, may constrain names where the second says nothing about names. -/
structure Stiffer (begins : Prop) (new old : CStatement) : Prop where
  sub : new.sub = old.sub
  naming : new.naming = old.naming ∨ (begins ∧ old.naming = none)
  said : old.constraints ≠ none → new.constraints ≠ none
  length : NoLonger new old

theorem Stiffer.refl {begins : Prop} (st : CStatement) : Stiffer begins st st := ⟨rfl, .inl rfl, id, fun m h => ⟨m, h, Int.le_refl m⟩⟩

/-- Only one of the authorities says anything about names. -/
def NamedOnce (sts : List CStatement) : Prop := sts.Pairwise fun a b => a.naming = none ∨ b.naming = none

theorem stiffer_after {begins : Prop} : ∀ {new old : List CStatement} {cur cur' : Int} {acc' acc fin : Acc}, Pairwise2 (Stiffer begins) new old → (∀ st ∈ new, st.naming = none) → Finer acc' acc →
    restrictLoop new cur false acc' = .ok (some fin) → fin = acc' ∧ restrictLoop old cur' false acc = .ok (some acc)
  | _, _, _, _, _, _, _, .nil, _, _, h => ⟨by cases h; rfl, rfl⟩
  | _, _, _, _, _, _, _, .cons (a := a) (b := b) hs rest, hn, hf, h => by
    obtain ⟨c, acc1, h1, h2, h3, h4⟩ := restrictLoop_cons h
    have e := h2 (hn _ (by simp))
    subst e
    have hb : b.naming = none := by
      rcases hs.naming with e | ⟨-, e⟩
      · rw [← e]; exact hn _ (by simp)
      · exact e
    have ih := fun cur' => stiffer_after (cur' := cur') rest (fun x hx => hn x (by simp [hx])) hf h1
    exact ⟨(ih 0).1, restrictLoop_intro (hs.length.ok (restrictLoop_length h)) (fun _ => rfl) (fun n hn' => by rw [hb] at hn'; cases hn') (fun hc => hs.sub ▸ hf _ (h4 (hs.said hc))) (fun c => (ih c).2)⟩

theorem stiffer_loop {begins : Prop} : ∀ {new old : List CStatement} {cur cur' : Int} {fin' : Acc}, Pairwise2 (Stiffer begins) new old → NamedOnce new →
    restrictLoop new cur false ⟨[], []⟩ = .ok (some fin') → ∃ fin, Finer fin' fin ∧ restrictLoop old cur' false ⟨[], []⟩ = .ok (some fin)
  | _, _, _, _, _, .nil, _, h => by cases h; exact ⟨_, fun _ h => h, rfl⟩
  | _, _, _, _, fin', .cons (a := a) (b := b) (as := as) hs rest, hn, h => by
    obtain ⟨c, acc1, h1, h2, h3, h4⟩ := restrictLoop_cons h
    obtain ⟨n1, n2⟩ := List.pairwise_cons.1 hn
    cases ha : a.naming with
    | none =>
      have e := h2 ha
      subst e
      have hb : b.naming = none := by
        rcases hs.naming with e | ⟨-, e⟩
        · rw [← e]; exact ha
        · exact e
      obtain ⟨fin, g1, g2⟩ := stiffer_loop (cur' := 0) rest n2 h1
      exact ⟨fin, g1, restrictLoop_intro (hs.length.ok (restrictLoop_length h)) (fun _ => rfl) (fun n hn' => by rw [hb] at hn'; cases hn') (fun hc => hs.sub ▸ h4 (hs.said hc)) (fun c => restrictLoop_cur g2)⟩
    | some n =>
      have hr : ∀ st ∈ as, st.naming = none := fun st hst => (n1 st hst).resolve_left (by rw [ha]; exact fun e => by cases e)
      have hadd := h3 n ha
      have hf := added_finer hadd (.inr rfl)
      rcases hs.naming with e | ⟨-, hb⟩
      · have hb : b.naming = some n := by rw [← e]; exact ha
        have ih := fun cur' => stiffer_after (cur' := cur') rest hr (fun _ h => h) h1
        have := (ih 0).1
        subst this
        exact ⟨_, fun _ h => h, restrictLoop_intro (hs.length.ok (restrictLoop_length h)) (fun hn' => by rw [hb] at hn'; cases hn') (fun m hm => by rw [hb] at hm; cases hm; exact hadd)
          (fun hc => hs.sub ▸ h4 (hs.said hc)) (fun c => (ih c).2)⟩
      · have ih := fun cur' => stiffer_after (cur' := cur') rest hr hf h1
        have := (ih 0).1
        subst this
        exact ⟨_, hf, restrictLoop_intro (hs.length.ok (restrictLoop_length h)) (fun _ => rfl) (fun m hm => by rw [hb] at hm; cases hm)
          (fun hc => hs.sub ▸ hf _ (h4 (hs.said hc))) (fun c => (ih c).2)⟩

theorem onlyShorter {begins : Prop} (hb : ¬ begins) : ∀ {new old : List CStatement}, Pairwise2 (Stiffer begins) new old → Pairwise2 OnlyShorter new old
  | _, _, .nil => .nil
  | _, _, .cons hs rest => .cons ⟨hs.sub, hs.naming.resolve_right fun h => hb h.1, hs.said, hs.length⟩ (onlyShorter hb rest)

/-- Whoever meets the stiffer constraints meets the others. -/
theorem stiffer_meets {begins : Prop} {new old : List CStatement} {leaf : CStatement} (hs : Pairwise2 (Stiffer begins) new old) (hone : begins → NamedOnce new) (h : meetsRestrictions new leaf = .ok true) : meetsRestrictions old leaf = .ok true := by
  by_cases hb : begins
  · obtain ⟨acc, h1, h2⟩ := meetsRestrictions_true h
    obtain ⟨fin, g1, g2⟩ := stiffer_loop (cur' := 0) hs (hone hb) h1
    simp only [meetsRestrictions, g2, ok_bind, g1 _ h2]
  · exact C224_lengths_partial new old leaf (onlyShorter hb hs) h

end Fed.Constraints

namespace Fed.Chains
open Fed Fed.Verify Fed.Server
open Fed.Collect.Moving (mapForest)

/-- The first statement is the second one with stiffer constraints; it is signed alike. -/
structure Constrained (C : Crypto) (begins : Prop) (j' j : Jws) : Prop where
  said : ∃ c, j'.payload = { j.payload with constraints := c }
  stiffer : Constraints.Stiffer begins (toC j'.payload) (toC j.payload)
  usable : ∀ k, C.usable j' k = C.usable j k
  verifies : ∀ k, C.verifies j' k = C.verifies j k

theorem Constrained.sealed (C : Crypto) (begins : Prop) : Sealed C (Constrained C begins) := by
  refine ⟨⟨fun j => ⟨⟨j.payload.constraints, rfl⟩, .refl _, fun _ => rfl, fun _ => rfl⟩, ?_⟩, ?_, ?_, ?_, fun h => h.usable, fun h => h.verifies⟩ <;> intro j' j h <;> obtain ⟨c, e1⟩ := h.said <;> rw [e1]

section

variable {L : Lib} {begins : Prop}

abbrev Both (L : Lib) (begins : Prop) : Type := Twin (Constrained L.toCrypto begins)

theorem allStiffer : ∀ ws : List (Both L begins), Constraints.Pairwise2 (Constraints.Stiffer begins) ((after ws).map toC) ((before ws).map toC)
  | [] => .nil
  | w :: ws => .cons w.2.stiffer (allStiffer ws)

/-- Only one of the authorities in these statements, the last of which is the entity's own, says anything about names. -/
def NamesOnce (ves : List Payload) : Prop := Constraints.NamedOnce (ves.dropLast.map toC)

/-- The key jars stay the same, and statements that are accepted were accepted before. -/
theorem chain_constrained (c : List (Both L begins)) (jar : KeyJar) :
    (verifyTrustChain L jar (c.map fun p => some p.1.1)).2 = (verifyTrustChain L jar (c.map fun p => some p.1.2)).2 ∧
      ∀ ves, (verifyTrustChain L jar (c.map fun p => some p.1.1)).1 = .ok ves → ves ≠ [] → (begins → NamesOnce ves) → ∃ vs : List (Both L begins), ves = after vs ∧ (verifyTrustChain L jar (c.map fun p => some p.1.2)).1 = .ok (before vs) := by
  obtain ⟨r, jar1, h1, h2⟩ := loop_restated (Constrained.sealed L.toCrypto begins) (c.length - 1) c jar []
  cases c with
  | nil => exact ⟨rfl, fun _ h => by cases h⟩
  | cons p c =>
    have e1 : trustedAnchor jar (some p.1.1) = trustedAnchor jar (some p.1.2) := by
      simp only [trustedAnchor]
      rw [(Constrained.sealed L.toCrypto begins).iss p.2]
    have l1 : ((p :: c).map fun p => (some p.1.1 : Doc)).length = (p :: c).length := by simp
    have l2 : ((p :: c).map fun p => (some p.1.2 : Doc)).length = (p :: c).length := by simp
    unfold verifyTrustChain
    rw [l1, l2]
    have h1 : verifyLoop L ((p :: c).length - 1) ((p :: c).map fun p => some p.1.1) jar [] = (r.map after, jar1) := h1
    have h2 : verifyLoop L ((p :: c).length - 1) ((p :: c).map fun p => some p.1.2) jar [] = (r.map before, jar1) := h2
    rw [h1, h2]
    simp only [List.map_cons, e1]
    cases trustedAnchor jar (some p.1.2) with
    | error e => exact ⟨rfl, fun _ h => by cases h⟩
    | ok b =>
      cases b with
      | false => exact ⟨rfl, fun _ h hn => by cases h; exact absurd rfl hn⟩
      | true =>
        cases r with
        | error e => exact ⟨rfl, fun _ h => by cases h⟩
        | ok vs =>
          rcases List.eq_nil_or_concat vs with rfl | ⟨ws, w, rfl⟩
          · exact ⟨rfl, fun _ h hn => by cases h; exact absurd rfl hn⟩
          · have m1 : (begins → Constraints.NamedOnce ((after ws).map toC)) → meets (after ws) w.1.1.payload = .ok true → meets (before ws) w.1.2.payload = .ok true := by
              intro hone hm
              unfold meets at hm ⊢
              have h3 := Constraints.stiffer_meets (allStiffer ws) hone hm
              have : ∀ sups, Constraints.meetsRestrictions sups (toC w.1.1.payload) = Constraints.meetsRestrictions sups (toC w.1.2.payload) := by
                intro sups
                unfold Constraints.meetsRestrictions
                rw [w.2.stiffer.sub]
              rw [← this]
              exact h3
            simp only [Except.map, after, before, List.concat_eq_append, List.map_append, List.map_cons, List.map_nil, getLast_snoc, List.dropLast_concat] at m1 ⊢
            refine ⟨?_, fun ves hv hn hone => ?_⟩
            · cases meets (ws.map fun p => p.1.1.payload) w.1.1.payload <;> cases meets (ws.map fun p => p.1.2.payload) w.1.2.payload <;> rfl
            · cases hm : meets (ws.map fun p => p.1.1.payload) w.1.1.payload with
              | error e => rw [hm] at hv; cases hv
              | ok b =>
                rw [hm] at hv
                cases b with
                | false => cases hv; exact absurd rfl hn
                | true =>
                  cases hv
                  unfold NamesOnce at hone
                  rw [if_pos rfl, List.dropLast_concat] at hone
                  exact ⟨ws ++ [w], by simp, by rw [m1 hone hm]; simp⟩

/-- Two verified chains, after and before. -/
structure Kept (L : Lib) (begins : Prop) (tc' tc : TrustChain) : Prop where
  anchor : tc.anchor = tc'.anchor
  issPath : tc.issPath = tc'.issPath
  exp : tc.exp = tc'.exp
  verified : ∃ vs : List (Both L begins), tc'.verified = after vs ∧ tc.verified = before vs

theorem accepted_constrained (c : List (Both L begins)) (jar : KeyJar) (tc' : TrustChain) (hone : begins → NamesOnce tc'.verified) (h : (verifyChain L jar (c.map fun p => some p.1.1)).1 = .ok (some tc')) :
    ∃ tc, (verifyChain L jar (c.map fun p => some p.1.2)).1 = .ok (some tc) ∧ Kept L begins tc' tc := by
  have hR := Constrained.sealed L.toCrypto begins
  obtain ⟨p, ps, x, h1, h2, rfl⟩ := verifyChain_ok.1 h
  obtain ⟨vs, h3, h4⟩ := (chain_constrained c jar).2 _ h1 (by simp) hone
  cases vs with
  | nil => cases h3
  | cons v vs =>
    have hx : expiresAt (before (v :: vs)) = .ok x := by
      rw [h3] at h2
      unfold expiresAt at h2 ⊢
      rw [← expires_restated hR.toSameEnd]
      exact h2
    have hi : (after (v :: vs)).map (·.iss) = (before (v :: vs)).map (·.iss) := by
      simp only [after, before, List.map_map]
      exact List.map_congr_left fun q _ => hR.iss q.2
    refine ⟨_, verifyChain_ok.2 ⟨_, _, x, h4, hx, rfl⟩, ?_, ?_, rfl, v :: vs, h3, rfl⟩
    · injection h3 with e1 e2
      simp only
      rw [e1]
      exact (hR.iss v.2).symm
    · simp only
      rw [h3, hi]
      rfl

theorem runAll_constrained : ∀ (cs : List (List (Both L begins))) (jar : KeyJar), runAll L jar (cs.map fun c => c.map fun p => some p.1.1) = runAll L jar (cs.map fun c => c.map fun p => some p.1.2)
  | [], _ => rfl
  | c :: cs, jar => by
    have h1 := (chain_constrained c jar).1
    rw [← verifyChain_jar, ← verifyChain_jar] at h1
    have h2 := runAll_constrained cs (verifyChain L jar (c.map fun p => some p.1.2)).2
    simp only [List.map_cons, runAll, List.foldl_cons] at h2 ⊢
    rw [h1]
    exact h2

theorem all_constrained (cs : List (List (Both L begins))) (jar : KeyJar) (tcs' tcs : List TrustChain) (h' : (verifyChains L (cs.map fun c => c.map fun p => some p.1.1) jar).1 = .ok tcs')
    (h : (verifyChains L (cs.map fun c => c.map fun p => some p.1.2) jar).1 = .ok tcs) (tc' : TrustChain) (hm : tc' ∈ tcs') (hone : begins → NamesOnce tc'.verified) : ∃ tc ∈ tcs, Kept L begins tc' tc := by
  obtain ⟨pre, c, post, e1, e2⟩ := (verifyChains_mem h' tc').1 hm
  obtain ⟨pre, rest, rfl, rfl, e3⟩ := List.map_eq_append_iff.1 e1
  obtain ⟨c, post, rfl, rfl, rfl⟩ := List.map_eq_cons_iff.1 e3
  rw [runAll_constrained] at e2
  obtain ⟨tc, k1, k2⟩ := accepted_constrained c _ tc' hone e2
  exact ⟨tc, (verifyChains_mem h tc).2 ⟨_, _, _, by rw [List.map_append, List.map_cons], k1⟩, k2⟩

theorem toP_constrained : ∀ vs : List (Both L begins), (after vs).map toP = (before vs).map toP
  | [] => rfl
  | v :: vs => by
    obtain ⟨c, e1⟩ := v.2.said
    have h1 : toP v.1.1.payload = toP v.1.2.payload := by unfold toP Payload.md; rw [e1]
    have h2 := toP_constrained vs
    simp only [after, before, List.map_cons] at h2 ⊢
    rw [h1, h2]

theorem applied_constrained {E : SetEnum Val} {K : SetEnum String} {tc' tc t' : TrustChain} (hf : Kept L begins tc' tc) (h' : applyToChain E K tc' = .ok t') : ∃ t, applyToChain E K tc = .ok t ∧ outline t' = outline t := by
  obtain ⟨vs, h1, h2⟩ := hf.verified
  obtain ⟨leaf', md, a1, a2, a3⟩ := applyToChain_ok.1 h'
  have hlen : tc.verified.length = tc'.verified.length := by rw [h1, h2]; simp
  rcases List.eq_nil_or_concat vs with rfl | ⟨ws, w, rfl⟩
  · rw [h1] at a1; cases a1
  · simp only [after, before, List.concat_eq_append, List.map_append, List.map_cons, List.map_nil] at h1 h2
    rw [h1, getLast_snoc] at a1
    cases a1
    obtain ⟨c, e1⟩ := w.2.said
    have em : w.1.2.payload.metadata = some md := by rw [← a2, e1]
    have hw : toP w.1.1.payload = toP w.1.2.payload := by unfold toP Payload.md; rw [e1]
    have hl : tc.verified.getLast? = some w.1.2.payload := by rw [h2, getLast_snoc]
    rcases a3 with ⟨a3, m, a4, rfl⟩ | ⟨a3, m, a4, rfl⟩
    · rw [h1, List.dropLast_concat, hw] at a4
      have := toP_constrained ws
      simp only [after, before] at this
      rw [this] at a4
      refine ⟨_, applyToChain_ok.2 ⟨_, md, hl, em, Or.inl ⟨by rw [hlen]; exact a3, m, by rw [h2, List.dropLast_concat]; exact a4, rfl⟩⟩, ?_⟩
      simp only [outline, hf.anchor, hf.issPath, hf.exp]
    · refine ⟨_, applyToChain_ok.2 ⟨_, md, hl, em, Or.inr ⟨by rw [hlen]; exact a3, m, a4, rfl⟩⟩, ?_⟩
      simp only [outline, hf.anchor, hf.issPath, hf.exp]

theorem policies_constrained {E : SetEnum Val} {K : SetEnum String} : ∀ {tcs' tcs out' : List TrustChain}, Constraints.Pairwise2 (Kept L begins) tcs' tcs → applyPolicies E K tcs' = .ok out' →
    ∃ out, applyPolicies E K tcs = .ok out ∧ out'.map outline = out.map outline
  | _, _, _, .nil, h => by cases h; exact ⟨[], rfl, rfl⟩
  | _, _, _, .cons hf rest, h => by
    obtain ⟨t', ts', h1, h2, rfl⟩ := applyPolicies_cons h
    obtain ⟨t, k1, k2⟩ := applied_constrained hf h1
    obtain ⟨ts, k3, k4⟩ := policies_constrained rest h2
    refine ⟨t :: ts, ?_, by rw [List.map_cons, List.map_cons, k2, k4]⟩
    unfold applyPolicies
    rw [k1, k3]
    rfl

theorem policies_length {E : SetEnum Val} {K : SetEnum String} : ∀ {tcs out : List TrustChain}, applyPolicies E K tcs = .ok out → out.map (·.verified) = tcs.map (·.verified)
  | [], _, h => by cases h; rfl
  | tc :: tcs, _, h => by
    obtain ⟨t, ts, h1, h2, rfl⟩ := applyPolicies_cons h
    have hv : t.verified = tc.verified := by
      obtain ⟨_, _, _, _, ⟨_, _, _, rfl⟩ | ⟨_, _, _, rfl⟩⟩ := applyToChain_ok.1 h1 <;> rfl
    rw [List.map_cons, List.map_cons, hv, policies_length h2]

theorem verified_length : ∀ (cs : List (List Doc)) (jar : KeyJar) (tcs : List TrustChain), (verifyChains L cs jar).1 = .ok tcs → tcs.length ≤ cs.length
  | [], _, _, h => by cases h; exact Nat.le_refl 0
  | c :: cs, jar, tcs, h => by
    simp only [verifyChains] at h
    generalize verifyChain L jar c = r at h
    obtain ⟨r, jar1⟩ := r
    cases r with
    | error e => cases h
    | ok o =>
      simp only at h
      have ih := verified_length cs jar1
      generalize verifyChains L cs jar1 = q at h ih
      obtain ⟨q, jar2⟩ := q
      cases q with
      | error e => cases h
      | ok l =>
        cases h
        have := ih l rfl
        cases o <;> simp <;> omega

/-- Where nothing is left out after, nothing was left out before. -/
theorem none_left_out : ∀ (cs : List (List (Both L begins))) (jar : KeyJar) (tcs' : List TrustChain), (verifyChains L (cs.map fun c => c.map fun p => some p.1.1) jar).1 = .ok tcs' → tcs'.length = cs.length → (begins → ∀ tc' ∈ tcs', NamesOnce tc'.verified) →
    ∃ tcs, (verifyChains L (cs.map fun c => c.map fun p => some p.1.2) jar).1 = .ok tcs ∧ Constraints.Pairwise2 (Kept L begins) tcs' tcs
  | [], _, _, h, _, _ => by cases h; exact ⟨[], rfl, .nil⟩
  | c :: cs, jar, tcs', h, hl, hone => by
    have hj := (chain_constrained c jar).1
    rw [← verifyChain_jar, ← verifyChain_jar] at hj
    have ha := accepted_constrained c jar
    simp only [List.map_cons, verifyChains] at h ⊢
    generalize verifyChain L jar (c.map fun p => some p.1.1) = r' at h hj ha
    generalize verifyChain L jar (c.map fun p => some p.1.2) = r at hj ha ⊢
    obtain ⟨r', jar1⟩ := r'
    obtain ⟨r, jar1'⟩ := r
    simp only at hj
    subst hj
    cases r' with
    | error e => cases h
    | ok o' =>
      simp only at h
      have ih := none_left_out cs jar1
      have hle := verified_length (L := L) (cs.map fun c => c.map fun p => some p.1.1) jar1
      generalize verifyChains L (cs.map fun c => c.map fun p => some p.1.1) jar1 = q' at h ih hle
      obtain ⟨q', jar2⟩ := q'
      cases q' with
      | error e => cases h
      | ok l' =>
        cases h
        have := hle l' rfl
        rw [List.length_map] at this
        cases o' with
        | none => simp only [Option.toList_none, List.nil_append, List.length_cons] at hl; omega
        | some tc' =>
          simp only [Option.toList_some, List.cons_append, List.nil_append, List.length_cons, Nat.add_right_cancel_iff] at hl hone
          obtain ⟨tc, k1, k2⟩ := ha tc' (fun hb => hone hb tc' (by simp)) rfl
          obtain ⟨l, k3, k4⟩ := ih l' rfl hl (fun hb t ht => hone hb t (by simp [ht]))
          simp only at k1
          subst k1
          simp only
          generalize verifyChains L (cs.map fun c => c.map fun p => some p.1.2) jar1 = q at k3 ⊢
          obtain ⟨q, jar3⟩ := q
          simp only at k3
          subst k3
          exact ⟨tc :: l, rfl, .cons k2 k4⟩

end

/-- C244 in full: when authorities anywhere in a federation allow shorter paths only, or begin to constrain names, and change nothing else, then every entity that can be resolved could be resolved before, and each of the trust chains by which it is resolved was found before, with
the same metadata. -/
def C244_full : Prop :=
  ∀ (F F' : Collect.Federation) (V : Env) (st st' : State) (h h' : List Collect.FRun) (sub stopAt : String) (out' : List TrustChain),
    Within F V st h → Within F' { V with W := F'.at V.W.now } st' h' → st'.jar = st.jar → F.Dated → F'.Dated → F.PlainHints → F'.PlainHints → Collect.Plain sub →
    Restated (Constrained V.L.toCrypto True) F' F → (getVerified { V with W := F'.at V.W.now } st' sub stopAt).1 = .ok out' →
    ∃ out, (getVerified V st sub stopAt).1 = .ok out ∧ ∀ tc' ∈ out', ∃ tc ∈ out, outline tc' = outline tc

/-- C244 for entities that could be resolved before: no trust chain is new. Where authorities begin to constrain names, it is for trust chains in which one authority at most does so. What is missing: entities that could not be resolved before, because of a trust chain that now is left out,
where C244 is false, see `C244_spoiled_violation`; and trust chains in which several authorities constrain names, where it is false because C224 is. -/
theorem C244_constrained_partial (F F' : Collect.Federation) (V : Env) (st st' : State) (h h' : List Collect.FRun) (sub stopAt : String) (out' out : List TrustChain) (begins : Prop)
    (w : Within F V st h) (w' : Within F' { V with W := F'.at V.W.now } st' h') (hj : st'.jar = st.jar) (hd : F.Dated) (hd' : F'.Dated) (hp : F.PlainHints) (hp' : F'.PlainHints) (hsub : Collect.Plain sub)
    (hr : Restated (Constrained V.L.toCrypto begins) F' F) (ho' : (getVerified { V with W := F'.at V.W.now } st' sub stopAt).1 = .ok out') (ho : (getVerified V st sub stopAt).1 = .ok out) :
    ∀ tc' ∈ out', (begins → NamesOnce tc'.verified) → ∃ tc ∈ out, outline tc' = outline tc := by
  obtain ⟨f', ec, tcs', c1, c2, c3, -⟩ := getVerified_ok ho'
  obtain ⟨f, ec2, tcs, d1, d2, d3, -⟩ := getVerified_ok ho
  have i1 := w'.ideal hd' hp' hsub stopAt
  have i2 := w.ideal hd hp hsub stopAt
  rw [c1] at i1
  rw [d1] at i2
  obtain ⟨g, rfl, hg⟩ := hr.collect (Constrained.sealed V.L.toCrypto begins).toSameEnd.toEnds i1.symm
  have hn : ({ V with W := F'.at V.W.now } : Env).W.now = V.W.now := rfl
  rw [hn] at hg
  rw [hg] at i2
  cases i2
  have hdoc := docs_restated (Constrained.sealed V.L.toCrypto begins).toSameEnd.toEnds g ec
  simp only [hj] at c2
  rw [hdoc (fun p => p.1.1) rfl] at c2
  rw [hdoc (fun p => p.1.2) rfl] at d2
  intro t' ht' hone
  obtain ⟨tc', m1, a1⟩ := (applyPolicies_mem c3).1 t' ht'
  have hv : t'.verified = tc'.verified := by
    obtain ⟨_, _, _, _, ⟨_, _, _, rfl⟩ | ⟨_, _, _, rfl⟩⟩ := applyToChain_ok.1 a1 <;> rfl
  obtain ⟨tc, m2, k⟩ := all_constrained _ _ _ _ c2 d2 tc' m1 (hv ▸ hone)
  obtain ⟨t, m3, b1⟩ := (applyPolicies_mem d3).2 tc m2
  obtain ⟨t2, b2, b3⟩ := applied_constrained k a1
  rw [b1] at b2
  cases b2
  exact ⟨t, m3, b3⟩

/-- C244 for entities none of whose trust chains is left out: they could be resolved before, and the answer was the same. What is missing: entities of whose trust chains some are left out now, see the other part. -/
theorem C244_none_left_out_partial (F F' : Collect.Federation) (V : Env) (st st' : State) (h h' : List Collect.FRun) (sub stopAt : String) (out' : List TrustChain) (begins : Prop)
    (w : Within F V st h) (w' : Within F' { V with W := F'.at V.W.now } st' h') (hj : st'.jar = st.jar) (hd : F.Dated) (hd' : F'.Dated) (hp : F.PlainHints) (hp' : F'.PlainHints) (hsub : Collect.Plain sub)
    (hr : Restated (Constrained V.L.toCrypto begins) F' F) (ho' : (getVerified { V with W := F'.at V.W.now } st' sub stopAt).1 = .ok out') (hone : begins → ∀ tc' ∈ out', NamesOnce tc'.verified)
    (hall : ∀ f ec, (Collect.collect V.L.toCrypto V.P (F'.at V.W.now) V.fuel st'.coll sub stopAt).1 = .ok (f, ec) → (Collect.tree2chains f).length = out'.length) :
    ∃ out, (getVerified V st sub stopAt).1 = .ok out ∧ out'.map outline = out.map outline := by
  obtain ⟨f', ec, tcs', c1, c2, c3, -⟩ := getVerified_ok ho'
  have hlen := hall _ _ c1
  have i1 := w'.ideal hd' hp' hsub stopAt
  have i2 := w.ideal hd hp hsub stopAt
  rw [c1] at i1
  obtain ⟨g, rfl, hg⟩ := hr.collect (Constrained.sealed V.L.toCrypto begins).toSameEnd.toEnds i1.symm
  have hn : ({ V with W := F'.at V.W.now } : Env).W.now = V.W.now := rfl
  rw [hn] at hg
  rw [hg] at i2
  have d1 := toOption_some i2
  have hdoc := docs_restated (Constrained.sealed V.L.toCrypto begins).toSameEnd.toEnds g ec
  simp only [hj] at c2
  rw [hdoc (fun p => p.1.1) rfl] at c2
  have hv := policies_length c3
  have hl : tcs'.length = ((Collect.tree2chains g).map (· ++ [(⟨(ec, ec), (Constrained.sealed V.L.toCrypto begins).refl ec⟩ : Both V.L begins)])).length := by
    have := congrArg List.length hv
    rw [tree2chains_mapForest, List.length_map] at hlen
    simp only [List.length_map] at this ⊢
    omega
  obtain ⟨tcs, k1, k2⟩ := none_left_out _ _ _ c2 hl (fun hb tc' ht => by
    have h1 := List.mem_map_of_mem (f := fun tc : TrustChain => tc.verified) ht
    rw [← hv] at h1
    obtain ⟨t, h2, h3⟩ := List.mem_map.1 h1
    rw [← h3]
    exact hone hb t h2)
  rw [← hdoc (fun p => p.1.2) rfl] at k1
  obtain ⟨out, g1, g2⟩ := policies_constrained k2 c3
  refine ⟨out, ?_, g2⟩
  unfold getVerified
  generalize hcol : Collect.collect V.L.toCrypto V.P V.W V.fuel st.coll sub stopAt = r at d1 ⊢
  obtain ⟨r, coll⟩ := r
  simp only at d1
  subst d1
  simp only
  unfold docs at k1
  generalize verifyChains V.L ((Collect.tree2chains (mapForest (fun p : Both V.L begins => p.1.2) g)).map fun c => c.map some ++ [some ec]) st.jar = r at k1 ⊢
  obtain ⟨r, jar⟩ := r
  simp only at k1
  subst k1
  simp only
  change (match applyPolicies V.E V.K tcs with
    | .error e => _
    | .ok tcs => _ : Except PyErr (List TrustChain) × State).1 = _
  rw [g1]

namespace Ex244
/-- `leaf` is below `im` and below `mid`, which are below `ta`. The policy of `ta` about `mid` has a scope that `leaf` does not have. -/
def leaf : Dict Policy.Metadata := [("openid_relying_party", [("scopes", Policy.Ex.strs ["openid"])])]
def policy (v : String) : Dict Policy.MetadataPolicy := [("openid_relying_party", [("scopes", [("superset_of", Policy.Ex.strs [v])])])]
def about (v : String) (c : Option Constraints.Constr) (a e : String) : Jws :=
  if a = "https://ta" ∧ e = "https://mid" then ⟨{ (Ex219.about a e (policy v)).payload with constraints := c }, Ex219.key a⟩ else Ex219.about a e
def F (v : String) (c : Option Constraints.Constr) : Collect.Federation where
  config
    | "https://ta" => .ok (some (Ex219.conf "https://ta" none (Ex.fe true)))
    | "https://im" => .ok (some (Ex219.conf "https://im" (some ["https://ta"]) (Ex.fe true)))
    | "https://mid" => .ok (some (Ex219.conf "https://mid" (some ["https://ta"]) (Ex.fe true)))
    | "https://leaf" => .ok (some (Ex219.conf "https://leaf" (some ["https://mid", "https://im"]) leaf))
    | _ => .error .missingPage
  fetch _ a e := .ok (some (about v c a e))

variable {v : String} {c : Option Constraints.Constr}

theorem known {k : String} {j : Jws} (h : (F v c).config k = .ok (some j)) : j.payload.exp = some 10000 ∧ ∀ l, j.payload.hints = some l → ∀ a ∈ l, Collect.Plain a := by
  simp only [F] at h
  split at h <;> cases h <;> refine ⟨rfl, fun l hl => ?_⟩ <;> cases hl <;> decide

theorem dated : (F v c).Dated := fun _ _ h => ⟨10000, (known h).1⟩
theorem plainHints : (F v c).PlainHints := fun _ _ l h hl => (known h).2 l hl
theorem inForce : (F v c).InForce Ex.L.toCrypto 0 := by
  intro k j h
  simp only [Ex.L, notExpired, (known h).1]
  decide

/-- What `ta` begins to say about `mid`: `e` is excluded. -/
def excludes (e : String) : Option Constraints.Constr := some ⟨none, some ⟨none, some [e]⟩⟩
abbrev excluded : Option Constraints.Constr := excludes "https://leaf"

theorem restated {e : String} : Restated (Constrained Ex.L.toCrypto True) (F v (excludes e)) (F v none) where
  config := rfl
  fetch _ a e := by
    refine Or.inr ⟨_, _, rfl, rfl, ?_⟩
    unfold about
    by_cases h : a = "https://ta" ∧ e = "https://mid"
    · rw [if_pos h, if_pos h]
      exact ⟨⟨_, rfl⟩, ⟨rfl, Or.inr ⟨trivial, rfl⟩, fun _ e => (by cases e), fun m hm => (by cases hm)⟩, fun _ => rfl, fun _ => rfl⟩
    · rw [if_neg h, if_neg h]
      exact (Constrained.sealed _ _).refl _

abbrev V (v : String) (c : Option Constraints.Constr) : Env := Ex221.V (F v c) ["https://ta"]
abbrev st : State := { jar := [("https://ta", [1])] }

/-- The case of C244: two trust chains before, one after. -/
theorem fewer : (getVerified (V "openid" none) st "https://leaf").1.map (·.map (·.issPath)) = .ok [["https://leaf", "https://mid", "https://ta"], ["https://leaf", "https://im", "https://ta"]] ∧
    (getVerified (V "openid" excluded) st "https://leaf").1.map (·.map fun tc => (tc.issPath, tc.verified.dropLast.map toC)) =
      .ok [(["https://leaf", "https://im", "https://ta"], [⟨"https://im", none⟩, ⟨"https://leaf", none⟩])] := by decide +kernel

example (out' out : List TrustChain) (ho' : (getVerified (V "openid" excluded) st "https://leaf").1 = .ok out') (ho : (getVerified (V "openid" none) st "https://leaf").1 = .ok out) :
    ∀ tc' ∈ out', ∃ tc ∈ out, outline tc' = outline tc := by
  intro tc' ht
  refine C244_constrained_partial (F "openid" none) (F "openid" excluded) (V _ _) st st [] [] "https://leaf" "" out' out True (Ex221.within inForce _ _) (Ex221.within inForce _ _) rfl dated dated plainHints plainHints (by decide) restated ho' ho tc' ht fun _ => ?_
  have h1 := fewer.2
  rw [ho'] at h1
  simp only [Except.map, Except.ok.injEq] at h1
  have h2 := List.mem_map_of_mem (f := fun tc : TrustChain => (tc.issPath, tc.verified.dropLast.map toC)) ht
  rw [h1, List.mem_singleton] at h2
  unfold NamesOnce Constraints.NamedOnce
  rw [(Prod.mk.inj h2).2]
  decide

/-- The other case: somebody else is excluded. Both trust chains are found, before and after. -/
theorem asBefore : (getVerified (V "openid" (excludes "https://other")) st "https://leaf").1.map (·.map fun tc => (tc.issPath, tc.verified.dropLast.map toC)) =
      .ok [(["https://leaf", "https://mid", "https://ta"], [⟨"https://mid", excludes "https://other"⟩, ⟨"https://leaf", none⟩]), (["https://leaf", "https://im", "https://ta"], [⟨"https://im", none⟩, ⟨"https://leaf", none⟩])] := by decide +kernel

theorem collected : ((Collect.collect Ex.L.toCrypto (V "openid" none).P ((F "openid" (excludes "https://other")).at 0) 10 {} "https://leaf" "").1.map fun r => (Collect.tree2chains r.1).length) = .ok 2 := by decide +kernel

example (out' : List TrustChain) (ho' : (getVerified (V "openid" (excludes "https://other")) st "https://leaf").1 = .ok out') :
    ∃ out, (getVerified (V "openid" none) st "https://leaf").1 = .ok out ∧ out'.map outline = out.map outline := by
  have h1 := asBefore
  rw [ho'] at h1
  simp only [Except.map, Except.ok.injEq] at h1
  refine C244_none_left_out_partial (F "openid" none) (F "openid" (excludes "https://other")) (V _ _) st st [] [] "https://leaf" "" out' True (Ex221.within inForce _ _) (Ex221.within inForce _ _) rfl dated dated plainHints plainHints (by decide) restated ho'
    (fun _ tc ht => ?_) (fun f ec hc => ?_)
  · have h2 := List.mem_map_of_mem (f := fun tc : TrustChain => (tc.issPath, tc.verified.dropLast.map toC)) ht
    rw [h1] at h2
    unfold NamesOnce Constraints.NamedOnce
    simp only [List.mem_cons, List.not_mem_nil, or_false, Prod.mk.injEq] at h2
    rcases h2 with ⟨-, h2⟩ | ⟨-, h2⟩ <;> rw [h2] <;> decide
  · have h3 : (((Collect.collect Ex.L.toCrypto (V "openid" none).P ((F "openid" (excludes "https://other")).at 0) 10 {} "https://leaf" "").1.map fun r => (Collect.tree2chains r.1).length)) = .ok (Collect.tree2chains f).length := by
      have hc : (Collect.collect Ex.L.toCrypto (V "openid" none).P ((F "openid" (excludes "https://other")).at 0) 10 {} "https://leaf" "").1 = .ok (f, ec) := hc
      rw [hc]
      rfl
    rw [collected] at h3
    have h4 := congrArg List.length h1
    rw [List.length_map] at h4
    injection h3 with h3
    rw [← h3, h4]
    rfl
end Ex244

open Ex244 in
/-- C244 fails for entities with a trust chain that does not satisfy the policies along it: `leaf` cannot be resolved, although it satisfies those of the trust chain by `im`. When `ta` begins to exclude it from what is below `mid`, that trust chain is left out, and `leaf` is let in. -/
theorem C244_spoiled_violation : ¬ C244_full := by
  intro h
  have h1 : (Ex229.result (getVerified (V "email" excluded) st "https://leaf").1).isOk = true := by decide +kernel
  have h2 : (Ex229.result (getVerified (V "email" none) st "https://leaf").1) = .error .policyError := by decide +kernel
  cases h3 : (getVerified (V "email" excluded) st "https://leaf").1 with
  | error e => rw [h3] at h1; cases h1
  | ok out' =>
    obtain ⟨out, h4, -⟩ := h (F "email" none) (F "email" excluded) (V _ _) st st [] [] "https://leaf" "" out' (Ex221.within inForce _ _) (Ex221.within inForce _ _) rfl dated dated plainHints plainHints (by decide) restated h3
    rw [h4] at h2
    cases h2

end Fed.Chains
