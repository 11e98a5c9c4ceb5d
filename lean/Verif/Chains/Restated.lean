import Verif.Chains.Declared
import Verif.Collect.MovingProps
/-
Federations that are alike but for what authorities say about others: the statements differ as some relation says, and their signatures are good or bad alike. What is collected and verified (/repo/src/fedservice/entity/function/trust_chain_collector.py 184-376,
verifier.py 43-103) then is alike too. Used for C242 to C246 and C249.
-/
namespace Fed.Chains
open Fed Fed.Verify Fed.Server
open Fed.Collect.Moving (mapForest mapForest_set)

/-- Statements so related say when they end, or do not say. -/
structure Ends (R : Jws → Jws → Prop) : Prop where
  refl : ∀ j, R j j
  ends : ∀ {j' j}, R j' j → j'.payload.exp.isSome = j.payload.exp.isSome

/-- Statements so related have the same end of validity. -/
structure SameEnd (R : Jws → Jws → Prop) : Prop where
  refl : ∀ j, R j j
  exp : ∀ {j' j}, R j' j → j'.payload.exp = j.payload.exp

theorem SameEnd.toEnds {R : Jws → Jws → Prop} (h : SameEnd R) : Ends R := ⟨h.refl, fun hr => by rw [h.exp hr]⟩

/-- They also have the same issuer, subject and keys, and are signed alike. -/
structure Sealed (C : Crypto) (R : Jws → Jws → Prop) : Prop extends SameEnd R where
  iss : ∀ {j' j}, R j' j → j'.payload.iss = j.payload.iss
  sub : ∀ {j' j}, R j' j → j'.payload.sub = j.payload.sub
  jwks : ∀ {j' j}, R j' j → j'.payload.jwks = j.payload.jwks
  usable : ∀ {j' j}, R j' j → ∀ k, C.usable j' k = C.usable j k
  verifies : ∀ {j' j}, R j' j → ∀ k, C.verifies j' k = C.verifies j k

/-- And they have the same constraints. -/
structure Judged (C : Crypto) (R : Jws → Jws → Prop) : Prop extends Sealed C R where
  constraints : ∀ {j' j}, R j' j → j'.payload.constraints = j.payload.constraints

/-- The same federation, in which statements about others are replaced by related ones. -/
structure Restated (R : Jws → Jws → Prop) (F' F : Collect.Federation) : Prop where
  config : F'.config = F.config
  fetch : ∀ v a e, F'.fetch v a e = F.fetch v a e ∨ ∃ j' j, F'.fetch v a e = .ok (some j') ∧ F.fetch v a e = .ok (some j) ∧ R j' j

/-- Statements after and before. -/
abbrev Twin (R : Jws → Jws → Prop) : Type := { p : Jws × Jws // R p.1 p.2 }

/-! ### Collecting -/

section
open Collect

variable {C : Crypto} {R : Jws → Jws → Prop} {F F' : Federation}

theorem tree2chains_mapForest {α β : Type} (g : α → β) : ∀ f : Forest α, tree2chains (mapForest g f) = (tree2chains f).map (List.map g)
  | .nil => rfl
  | .missing a r => by simp only [mapForest, tree2chains, tree2chains_mapForest g r, List.map_cons, List.map_nil]
  | .node a s .nil r => by simp only [mapForest, tree2chains, tree2chains_mapForest g r, List.map_cons, List.map_nil]
  | .node a s (.missing b q) r => by
      have h1 := tree2chains_mapForest g (.missing b q)
      simp only [mapForest] at h1
      simp only [mapForest, tree2chains] at h1 ⊢
      rw [h1, tree2chains_mapForest g r]
      simp
  | .node a s (.node b s2 q1 q2) r => by
      have h1 := tree2chains_mapForest g (.node b s2 q1 q2)
      have e1 : tree2chains (mapForest g (.node a s (.node b s2 q1 q2) r)) = (tree2chains (mapForest g (.node b s2 q1 q2))).map (· ++ [g s]) ++ tree2chains (mapForest g r) := rfl
      have e2 : tree2chains (.node a s (.node b s2 q1 q2) r) = (tree2chains (.node b s2 q1 q2)).map (· ++ [s]) ++ tree2chains r := rfl
      rw [e1, e2, h1, tree2chains_mapForest g r]
      simp

theorem Restated.published (h : Restated R F' F) (t : Int) (a : String) : publishedConfig C F' t a = publishedConfig C F t a := by
  unfold publishedConfig
  rw [h.config]

theorem Restated.statement (hR : Ends R) (h : Restated R F' F) (t : Int) (a e : String) :
    (publishedStatement C F' t a e = none ∧ publishedStatement C F t a e = none) ∨ (publishedStatement C F' t a e = some none ∧ publishedStatement C F t a e = some none) ∨
      ∃ p : Twin R, publishedStatement C F' t a e = some (some p.1.1) ∧ publishedStatement C F t a e = some (some p.1.2) := by
  unfold publishedStatement
  rw [h.published]
  cases publishedConfig C F t a with
  | none => exact Or.inl ⟨rfl, rfl⟩
  | some j0 =>
    simp only
    cases getFetchEndpoint j0.payload with
    | error x => exact Or.inl ⟨rfl, rfl⟩
    | ok ep =>
      simp only
      cases usableEndpoint ep with
      | none => exact Or.inr (Or.inl ⟨rfl, rfl⟩)
      | some v =>
        simp only
        rcases h.fetch v a e with hf | ⟨j', j, h1, h2, ht⟩
        · rw [hf]
          cases F.fetch v a e with
          | error x => exact Or.inl ⟨rfl, rfl⟩
          | ok o =>
            cases o with
            | none => exact Or.inl ⟨rfl, rfl⟩
            | some j =>
              simp only
              split
              · exact Or.inr (Or.inr ⟨⟨(j, j), hR.refl j⟩, rfl, rfl⟩)
              · exact Or.inl ⟨rfl, rfl⟩
        · rw [h1, h2]
          simp only
          rw [hR.ends ht]
          split
          · exact Or.inr (Or.inr ⟨⟨(j', j), ht⟩, rfl, rfl⟩)
          · exact Or.inl ⟨rfl, rfl⟩

theorem Restated.tree (hR : Ends R) (h : Restated R F' F) {P : Params} {t : Int} {s : String} : ∀ (n : Nat) (e : String) (p : Payload) (f' : Forest Jws), idealTree C P F' t s n e p = some f' →
    ∃ g : Forest (Twin R), f' = mapForest (fun p => p.1.1) g ∧ idealTree C P F t s n e p = some (mapForest (fun p => p.1.2) g) := by
  intro n
  induction n with
  | zero => intro e p f' hf; cases hf
  | succ n ih =>
    intro e p f' hf
    unfold idealTree at hf ⊢
    cases hh : p.hints with
    | none => rw [hh] at hf; cases hf; exact ⟨.nil, rfl, rfl⟩
    | some l =>
      rw [hh] at hf
      simp only at hf ⊢
      by_cases hi : p.iss = s
      · rw [if_pos hi] at hf ⊢; cases hf; exact ⟨.nil, rfl, rfl⟩
      · rw [if_neg hi] at hf ⊢
        have one : ∀ a b', idealBranch C P F' t (idealTree C P F' t s n) e a = some b' → ∃ b : Option (Twin R × Forest (Twin R)), b' = b.map (fun q => (q.1.1.1, mapForest (fun p => p.1.1) q.2)) ∧
            idealBranch C P F t (idealTree C P F t s n) e a = some (b.map fun q => (q.1.1.2, mapForest (fun p => p.1.2) q.2)) := by
          intro a b' hb
          unfold idealBranch at hb ⊢
          by_cases hc : e = a ∧ e ∈ P.anchors
          · rw [if_pos hc] at hb ⊢; cases hb; exact ⟨none, rfl, rfl⟩
          · rw [if_neg hc] at hb ⊢
            rcases h.statement hR t a e with ⟨h1, h2⟩ | ⟨h1, h2⟩ | ⟨q, h1, h2⟩
            · rw [h1] at hb; cases hb
            · rw [h1] at hb; cases hb; rw [h2]; exact ⟨none, rfl, rfl⟩
            · rw [h1, h.published] at hb
              rw [h2]
              simp only at hb ⊢
              cases hp : publishedConfig C F t a with
              | none => rw [hp] at hb; cases hb
              | some j0 =>
                rw [hp] at hb
                simp only at hb ⊢
                split at hb
                · rename_i hfr
                  rw [if_pos hfr]
                  cases ht : idealTree C P F' t s n a j0.payload with
                  | none => rw [ht] at hb; cases hb
                  | some f1 =>
                    rw [ht] at hb
                    obtain ⟨g, rfl, hg⟩ := ih a j0.payload f1 ht
                    rw [hg]
                    cases hb
                    exact ⟨some (q, g), rfl, rfl⟩
                · cases hb
        have key : ∀ (l : List String) (acc : Forest (Twin R)) (f' : Forest Jws), idealHints (idealBranch C P F' t (idealTree C P F' t s n) e) l (mapForest (fun p => p.1.1) acc) = some f' →
            ∃ g : Forest (Twin R), f' = mapForest (fun p => p.1.1) g ∧ idealHints (idealBranch C P F t (idealTree C P F t s n) e) l (mapForest (fun p => p.1.2) acc) = some (mapForest (fun p => p.1.2) g) := by
          intro l
          induction l with
          | nil => intro acc f' hf; cases hf; exact ⟨acc, rfl, rfl⟩
          | cons a as ih2 =>
            intro acc f' hf
            unfold idealHints at hf ⊢
            cases hb : idealBranch C P F' t (idealTree C P F' t s n) e a with
            | none => rw [hb] at hf; cases hf
            | some b' =>
              rw [hb] at hf
              obtain ⟨b, rfl, hb2⟩ := one a b' hb
              rw [hb2]
              simp only at hf ⊢
              rw [← mapForest_set (fun p : Twin R => p.1.1)] at hf
              rw [← mapForest_set (fun p : Twin R => p.1.2)]
              exact ih2 _ _ hf
        exact key l .nil f' hf

theorem Restated.collect (hR : Ends R) (h : Restated R F' F) {P : Params} {t : Int} {s e : String} {n : Nat} {f' : Forest Jws} {ec : Jws} (hc : idealCollect C P F' t n e s = some (f', ec)) :
    ∃ g : Forest (Twin R), f' = mapForest (fun p => p.1.1) g ∧ idealCollect C P F t n e s = some (mapForest (fun p => p.1.2) g, ec) := by
  unfold idealCollect at hc ⊢
  rw [h.published] at hc
  cases hp : publishedConfig C F t e with
  | none => rw [hp] at hc; cases hc
  | some j =>
    rw [hp] at hc
    simp only at hc ⊢
    cases ht : idealTree C P F' t s n e j.payload with
    | none => rw [ht] at hc; cases hc
    | some f1 =>
      rw [ht] at hc
      cases hc
      obtain ⟨g, rfl, hg⟩ := h.tree hR n e _ _ ht
      exact ⟨g, rfl, by rw [hg]; rfl⟩

end

/-! ### Verifying -/

section

variable {L : Lib} {R : Jws → Jws → Prop}

/-- The statements after, and before. -/
abbrev after {R : Jws → Jws → Prop} (vs : List (Twin R)) : List Payload := vs.map fun p => p.1.1.payload
abbrev before {R : Jws → Jws → Prop} (vs : List (Twin R)) : List Payload := vs.map fun p => p.1.2.payload

theorem loop_restated (hR : Sealed L.toCrypto R) (n : Nat) : ∀ (c : List (Twin R)) (jar : KeyJar) (vs : List (Twin R)),
    ∃ (r : Except PyErr (List (Twin R))) (jar1 : KeyJar), verifyLoop L n (c.map fun p => some p.1.1) jar (after vs) = (r.map after, jar1) ∧ verifyLoop L n (c.map fun p => some p.1.2) jar (before vs) = (r.map before, jar1)
  | [], jar, vs => ⟨.ok vs, jar, rfl, rfl⟩
  | ⟨(j', j), hp⟩ :: c, jar, vs => by
    have q1 : verifyKeys L jar j' = verifyKeys L jar j := by
      have : L.usable j' = L.usable j := funext (hR.usable hp)
      unfold verifyKeys
      rw [this, hR.iss hp]
    have q2 : L.verifies j' = L.verifies j := funext (hR.verifies hp)
    have q3 : j'.payload.jwks = j.payload.jwks := hR.jwks hp
    have q4 : j'.payload.sub = j.payload.sub := hR.sub hp
    have s1 : after vs ++ [j'.payload] = after (vs ++ [⟨(j', j), hp⟩]) := by simp [after]
    have s2 : before vs ++ [j.payload] = before (vs ++ [⟨(j', j), hp⟩]) := by simp [before]
    have s3 : (after vs).length = (before vs).length := by simp [after, before]
    simp only [List.map_cons, verifyLoop]
    rw [q1, q2, q3, q4, s1, s2, s3]
    split
    · exact ⟨.error .missingKey, jar, rfl, rfl⟩
    · split
      · split
        · split
          · exact ⟨.error .valueError, jar, rfl, rfl⟩
          · exact loop_restated hR n c jar _
        · exact loop_restated hR n c _ _
      · exact ⟨.error .badSignature, jar, rfl, rfl⟩

theorem expires_restated (hR : SameEnd R) : ∀ (vs : List (Twin R)) (e : Int), expiresLoop (after vs) e = expiresLoop (before vs) e
  | [], _ => rfl
  | p :: vs, e => by
    have e2 : p.1.1.payload.getExp = p.1.2.payload.getExp := by unfold Payload.getExp; rw [hR.exp p.2]
    have key := expires_restated hR vs
    simp only [after, before, List.map_cons, expiresLoop] at key ⊢
    rw [e2]
    simp only [key]

theorem docs_restated (hR : Ends R) (g : Collect.Forest (Twin R)) (ec : Jws) (k : Twin R → Jws) (hk : k ⟨(ec, ec), hR.refl ec⟩ = ec) :
    docs (mapForest k g) ec = ((Collect.tree2chains g).map (· ++ [⟨(ec, ec), hR.refl ec⟩])).map fun c => c.map fun p => some (k p) := by
  unfold docs
  rw [tree2chains_mapForest, List.map_map, List.map_map]
  refine List.map_congr_left fun c _ => ?_
  simp [hk]

theorem toC_judged (hR : Judged L.toCrypto R) (p : Twin R) : toC p.1.1.payload = toC p.1.2.payload := by
  unfold toC
  rw [hR.sub p.2, hR.constraints p.2]

theorem chain_judged (hR : Judged L.toCrypto R) (c : List (Twin R)) (jar : KeyJar) :
    ∃ (r : Except PyErr (List (Twin R))) (jar1 : KeyJar), verifyTrustChain L jar (c.map fun p => some p.1.1) = (r.map after, jar1) ∧ verifyTrustChain L jar (c.map fun p => some p.1.2) = (r.map before, jar1) := by
  obtain ⟨r, jar1, h1, h2⟩ := loop_restated hR.toSealed (c.length - 1) c jar []
  cases c with
  | nil => exact ⟨.error .indexError, jar, rfl, rfl⟩
  | cons p c =>
    have e1 : trustedAnchor jar (some p.1.1) = trustedAnchor jar (some p.1.2) := by
      simp only [trustedAnchor]
      rw [hR.iss p.2]
    have l1 : ((p :: c).map fun p => (some p.1.1 : Doc)).length = (p :: c).length := by simp
    have l2 : ((p :: c).map fun p => (some p.1.2 : Doc)).length = (p :: c).length := by simp
    unfold verifyTrustChain
    rw [l1, l2]
    have h1 : verifyLoop L ((p :: c).length - 1) ((p :: c).map fun p => some p.1.1) jar [] = (r.map after, jar1) := h1
    have h2 : verifyLoop L ((p :: c).length - 1) ((p :: c).map fun p => some p.1.2) jar [] = (r.map before, jar1) := h2
    rw [h1, h2]
    simp only [List.map_cons, e1]
    cases trustedAnchor jar (some p.1.2) with
    | error e => exact ⟨.error e, jar, rfl, rfl⟩
    | ok b =>
      cases b with
      | false => exact ⟨.ok [], jar, rfl, rfl⟩
      | true =>
        cases r with
        | error e => exact ⟨.error e, jar1, rfl, rfl⟩
        | ok vs =>
          rcases List.eq_nil_or_concat vs with rfl | ⟨ws, w, rfl⟩
          · exact ⟨.ok [], jar1, rfl, rfl⟩
          · have m1 : meets (after ws) w.1.1.payload = meets (before ws) w.1.2.payload := by
              unfold meets
              have : (after ws).map toC = (before ws).map toC := by
                simp only [after, before, List.map_map]
                exact List.map_congr_left fun p _ => toC_judged hR p
              rw [this, toC_judged hR]
            simp only [Except.map, after, before, List.concat_eq_append, List.map_append, List.map_cons, List.map_nil, getLast_snoc, List.dropLast_concat] at m1 ⊢
            rw [m1]
            cases meets (ws.map fun p => p.1.2.payload) w.1.2.payload with
            | error e => exact ⟨.error e, jar1, rfl, rfl⟩
            | ok b =>
              cases b with
              | false => exact ⟨.ok [], jar1, rfl, rfl⟩
              | true => exact ⟨.ok (ws ++ [w]), jar1, by simp, by simp⟩

/-- Two verified chains, after and before. -/
structure Frame (R : Jws → Jws → Prop) (tc' tc : TrustChain) : Prop where
  anchor : tc.anchor = tc'.anchor
  issPath : tc.issPath = tc'.issPath
  exp : tc.exp = tc'.exp
  verified : ∃ vs : List (Twin R), tc'.verified = after vs ∧ tc.verified = before vs

theorem accepted_judged (hR : Judged L.toCrypto R) (c : List (Twin R)) (jar : KeyJar) :
    ∃ jar1, (∃ e, verifyChain L jar (c.map fun p => some p.1.1) = (.error e, jar1)) ∨
      (verifyChain L jar (c.map fun p => some p.1.1) = (.ok none, jar1) ∧ verifyChain L jar (c.map fun p => some p.1.2) = (.ok none, jar1)) ∨
      ∃ tc' tc, verifyChain L jar (c.map fun p => some p.1.1) = (.ok (some tc'), jar1) ∧ verifyChain L jar (c.map fun p => some p.1.2) = (.ok (some tc), jar1) ∧ Frame R tc' tc := by
  obtain ⟨r, jar1, h1, h2⟩ := chain_judged hR c jar
  refine ⟨jar1, ?_⟩
  unfold verifyChain
  rw [h1, h2]
  cases r with
  | error e => exact Or.inl ⟨e, rfl⟩
  | ok vs =>
    cases vs with
    | nil => exact Or.inr (Or.inl ⟨rfl, rfl⟩)
    | cons p vs =>
      have hx := expires_restated hR.toSameEnd (p :: vs) (-1)
      have hiss : ∀ q : Twin R, q.1.1.payload.iss = q.1.2.payload.iss := fun q => hR.iss q.2
      have hi : (after (p :: vs)).map (·.iss) = (before (p :: vs)).map (·.iss) := by
        simp only [after, before, List.map_map]
        exact List.map_congr_left fun q _ => hiss q
      simp only [after, before, Except.map, List.map_cons] at hx hi ⊢
      unfold expiresAt
      rw [hx]
      cases expiresLoop (p.1.2.payload :: vs.map fun p => p.1.2.payload) (-1) with
      | error e => exact Or.inl ⟨e, rfl⟩
      | ok x =>
        refine Or.inr (Or.inr ⟨_, _, rfl, rfl, (hiss p).symm, ?_, rfl, p :: vs, rfl, rfl⟩)
        simp only [hi]

theorem all_judged (hR : Judged L.toCrypto R) : ∀ (cs : List (List (Twin R))) (jar : KeyJar) (tcs' : List TrustChain), (verifyChains L (cs.map fun c => c.map fun p => some p.1.1) jar).1 = .ok tcs' →
    ∃ tcs, (verifyChains L (cs.map fun c => c.map fun p => some p.1.2) jar).1 = .ok tcs ∧ OneByOne (Frame R) tcs' tcs
  | [], jar, tcs', h => by cases h; exact ⟨[], rfl, .nil⟩
  | c :: cs, jar, tcs', h => by
    simp only [List.map_cons, verifyChains] at h ⊢
    obtain ⟨jar1, hc⟩ := accepted_judged hR c jar
    have key := all_judged hR cs jar1
    rcases hc with ⟨e, h1⟩ | ⟨h1, h2⟩ | ⟨tc', tc, h1, h2, hf⟩
    · rw [h1] at h; cases h
    · rw [h1] at h
      rw [h2]
      simp only at h ⊢
      generalize verifyChains L (cs.map fun c => c.map fun p => some p.1.1) jar1 = r' at h key
      obtain ⟨r', j'⟩ := r'
      cases r' with
      | error e => cases h
      | ok l' =>
        obtain ⟨l, k1, k2⟩ := key l' rfl
        generalize verifyChains L (cs.map fun c => c.map fun p => some p.1.2) jar1 = r at k1
        obtain ⟨r, j⟩ := r
        simp only at k1
        subst k1
        cases h
        exact ⟨_, rfl, k2⟩
    · rw [h1] at h
      rw [h2]
      simp only at h ⊢
      generalize verifyChains L (cs.map fun c => c.map fun p => some p.1.1) jar1 = r' at h key
      obtain ⟨r', j'⟩ := r'
      cases r' with
      | error e => cases h
      | ok l' =>
        obtain ⟨l, k1, k2⟩ := key l' rfl
        generalize verifyChains L (cs.map fun c => c.map fun p => some p.1.2) jar1 = r at k1
        obtain ⟨r, j⟩ := r
        simp only at k1
        subst k1
        cases h
        exact ⟨_, rfl, .cons hf k2⟩

end

end Fed.Chains
