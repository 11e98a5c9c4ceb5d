import Verif.Chains.Restated
/-
C245 and C246: authorities that list further keys for their subordinates, as they do before an entity changes its keys, or whose statements are valid for longer, and what comes of it when entities are resolved (`get_verified_trust_chains`, /repo/src/fedservice/entity/function/__init__.py 154-161).
-/
namespace Fed.Chains
open Fed Fed.Verify Fed.Server
open Fed.Collect.Moving (mapForest)

/-- The second statement is the first one with further keys and, where `longer`, perhaps a later end of validity; keys that verify the first verify it. -/
structure FurtherKeys (C : Crypto) (longer : Prop) (j j' : Jws) : Prop where
  said : ∃ l x, j'.payload = { j.payload with jwks := l, exp := x } ∧ (l = j.payload.jwks ∨ ∃ ks ks', j.payload.jwks = some ks ∧ l = some ks' ∧ ks ≠ [] ∧ ∀ k ∈ ks, k ∈ ks') ∧
    (x = j.payload.exp ∨ (longer ∧ ∃ a b, j.payload.exp = some a ∧ x = some b ∧ 0 ≤ a ∧ a ≤ b))
  usable : ∀ k, C.usable j k = true → C.usable j' k = true
  verifies : ∀ k, C.verifies j k = true → C.verifies j' k = true

theorem FurtherKeys.ends (C : Crypto) (longer : Prop) : Ends (FurtherKeys C longer) where
  refl j := ⟨⟨_, _, rfl, Or.inl rfl, Or.inl rfl⟩, fun _ h => h, fun _ h => h⟩
  ends h := by
    obtain ⟨l, x, e, -, e2⟩ := h.said
    rw [e]
    rcases e2 with rfl | ⟨-, a, b, e3, rfl, -⟩
    · rfl
    · rw [e3]; rfl

/-- The second key jar has keys for the same entities as the first, and at least the same ones. -/
structure Grown (jar jar' : KeyJar) : Prop where
  has : ∀ e, Dict.has jar' e = Dict.has jar e
  keys : ∀ e, ∀ k ∈ jar.keysOf e, k ∈ jar'.keysOf e

theorem Grown.refl (jar : KeyJar) : Grown jar jar := ⟨fun _ => rfl, fun _ _ h => h⟩

theorem Grown.get (h : Grown jar jar') (e : String) : (Dict.get? jar e = none ∧ Dict.get? jar' e = none) ∨ ∃ ks ks', Dict.get? jar e = some ks ∧ Dict.get? jar' e = some ks' ∧ ∀ k ∈ ks, k ∈ ks' := by
  have h1 := h.has e
  have h2 := h.keys e
  unfold Dict.has at h1
  unfold KeyJar.keysOf at h2
  cases g : Dict.get? jar e with
  | none =>
    cases g' : Dict.get? jar' e with
    | none => exact Or.inl ⟨rfl, rfl⟩
    | some ks' => rw [g, g'] at h1; cases h1
  | some ks =>
    cases g' : Dict.get? jar' e with
    | none => rw [g, g'] at h1; cases h1
    | some ks' => rw [g, g'] at h2; exact Or.inr ⟨ks, ks', rfl, rfl, h2⟩

theorem Grown.set {jar jar' : KeyJar} (h : Grown jar jar') (e : String) {ks ks' : List Key} (hk : ∀ k ∈ ks, k ∈ ks') : Grown (jar.set e ks) (jar'.set e ks') where
  has q := by
    have := h.has q
    unfold Dict.has at this ⊢
    rw [Dict.get?_set, Dict.get?_set]
    split
    · rfl
    · exact this
  keys q := by
    rw [keysOf_set, keysOf_set]
    split
    · exact hk
    · exact h.keys q

/-- Setting what is there already changes nothing. -/
theorem Grown.set_left {jar jar' : KeyJar} (h : Grown jar jar') {e : String} {old' ks' : List Key} (h0 : Dict.get? jar' e = some old') (hk : ∀ k ∈ old', k ∈ ks') : Grown jar (jar'.set e ks') where
  has q := by
    have := h.has q
    unfold Dict.has at this ⊢
    rw [Dict.get?_set]
    split
    · rename_i he
      subst he
      rw [← this, h0]
      rfl
    · exact this
  keys q k hq := by
    rw [keysOf_set]
    split
    · rename_i he
      subst he
      have h2 := h.keys e k hq
      unfold KeyJar.keysOf at h2
      rw [h0] at h2
      exact hk k h2
    · exact h.keys q k hq

theorem Grown.set_right {jar jar' : KeyJar} (h : Grown jar jar') {e : String} {old ks : List Key} (h0 : Dict.get? jar e = some old) (hk : ∀ k ∈ ks, k ∈ jar'.keysOf e) : Grown (jar.set e ks) jar' where
  has q := by
    have := h.has q
    unfold Dict.has at this ⊢
    rw [Dict.get?_set]
    split
    · rename_i he
      subst he
      rw [this, h0]
      rfl
    · exact this
  keys q k hq := by
    rw [keysOf_set] at hq
    split at hq
    · rename_i he
      subst he
      exact hk k hq
    · exact h.keys q k hq

theorem Grown.addKeys {L : Lib} {jar jar' : KeyJar} (h : Grown jar jar') (e : String) {ks ks' : List Key} (h0 : ks = [] → ks' = []) (hk : ∀ k ∈ ks, k ∈ ks') : Grown (addKeys L jar e ks) (addKeys L jar' e ks') := by
  unfold Verify.addKeys
  rcases h.get e with ⟨g, g'⟩ | ⟨old, old', g, g', ho⟩
  · rw [g, g']
    simp only
    split
    · exact h.set e hk
    · cases ks with
      | nil => rw [h0 rfl]; exact h
      | cons k ks =>
        cases ks' with
        | nil => cases hk k (by simp)
        | cons k' ks' => exact h.set e hk
  · rw [g, g']
    simp only
    have hall : ∀ k ∈ ks', k ∈ old' ∨ k ∈ ks'.filter fun k => decide (k ∉ old') := by
      intro k hm
      by_cases hko : k ∈ old'
      · exact Or.inl hko
      · exact Or.inr (List.mem_filter.2 ⟨hm, by simpa using hko⟩)
    have hsub : ∀ k ∈ old ++ ks.filter (fun k => decide (k ∉ old)), k ∈ old' ++ ks'.filter fun k => decide (k ∉ old') := by
      intro k hm
      rcases List.mem_append.1 hm with hm | hm
      · exact List.mem_append.2 (Or.inl (ho k hm))
      · exact List.mem_append.2 (hall k (hk k (List.mem_filter.1 hm).1))
    split
    · split
      · exact h
      · exact h.set_left g' fun k hm => List.mem_append.2 (Or.inl hm)
    · split
      · rename_i hn
        refine h.set_right g fun k hm => ?_
        unfold KeyJar.keysOf
        rw [g']
        have := hsub k hm
        rw [List.isEmpty_iff.1 hn, List.append_nil] at this
        exact this
      · exact h.set e hsub

section
variable {L : Lib} {longer : Prop}

theorem loop_keys (n : Nat) : ∀ (c : List (Twin (FurtherKeys L.toCrypto longer))) (jar jar' : KeyJar) (vs : List (Twin (FurtherKeys L.toCrypto longer))) (ves : List Payload), Grown jar jar' →
    (verifyLoop L n (c.map fun p => some p.1.1) jar (after vs)).1 = .ok ves → ∃ ws : List (Twin (FurtherKeys L.toCrypto longer)), ves = after ws ∧ (verifyLoop L n (c.map fun p => some p.1.2) jar' (before vs)).1 = .ok (before ws) ∧
      Grown (verifyLoop L n (c.map fun p => some p.1.1) jar (after vs)).2 (verifyLoop L n (c.map fun p => some p.1.2) jar' (before vs)).2
  | [], jar, jar', vs, ves, hg, h => by cases h; exact ⟨vs, rfl, rfl, hg⟩
  | ⟨(j, j'), hp⟩ :: c, jar, jar', vs, ves, hg, h => by
    have s1 : after vs ++ [j.payload] = after (vs ++ [⟨(j, j'), hp⟩]) := by simp [after]
    have s2 : before vs ++ [j'.payload] = before (vs ++ [⟨(j, j'), hp⟩]) := by simp [before]
    have s3 : (after vs).length = (before vs).length := by simp [after, before]
    obtain ⟨l, x, e1, e2, -⟩ := hp.said
    simp only at e1 e2
    have q1 : ∀ k ∈ verifyKeys L jar j, k ∈ verifyKeys L jar' j' := by
      intro k hk
      unfold verifyKeys at hk ⊢
      obtain ⟨h1, h2⟩ := List.mem_filter.1 hk
      refine List.mem_filter.2 ⟨?_, ?_⟩
      · rw [e1]; exact hg.keys _ k h1
      · exact hp.usable k h2
    simp only [List.map_cons, verifyLoop] at h ⊢
    rw [s1] at h ⊢
    rw [s2]
    rw [s3] at h ⊢
    split at h
    · cases h
    · rename_i hne
      have hne' : ¬ (verifyKeys L jar' j').isEmpty = true := by
        intro he
        rw [List.isEmpty_iff] at he
        apply hne
        rw [List.isEmpty_iff, List.eq_nil_iff_forall_not_mem]
        intro k hk
        have := q1 k hk
        rw [he] at this
        cases this
      rw [if_neg hne, if_neg hne']
      split at h
      · rename_i hv
        have hv' : (verifyKeys L jar' j').any (L.verifies j') = true := by
          obtain ⟨k, hk, hk2⟩ := List.any_eq_true.1 hv
          exact List.any_eq_true.2 ⟨k, q1 k hk, hp.verifies k hk2⟩
        rw [if_pos hv, if_pos hv']
        have es : j'.payload.sub = j.payload.sub := by rw [e1]
        have ej : j'.payload.jwks = l := by rw [e1]
        rw [es, ej]
        cases hjw : j.payload.jwks with
        | none =>
          have hl : l = none := by
            rcases e2 with e2 | ⟨_, _, e3, _⟩
            · rw [e2]; exact hjw
            · rw [hjw] at e3; cases e3
          rw [hjw] at h
          rw [hl]
          simp only at h ⊢
          split at h
          · cases h
          · rename_i hn
            rw [if_neg hn, if_neg hn]
            exact loop_keys n c jar jar' _ ves hg h
        | some ks =>
          obtain ⟨ks', hl, h0, hk⟩ : ∃ ks', l = some ks' ∧ (ks = [] → ks' = []) ∧ ∀ k ∈ ks, k ∈ ks' := by
            rcases e2 with e2 | ⟨a, b, e3, e4, e5, e6⟩
            · exact ⟨ks, by rw [e2]; exact hjw, fun e => e, fun _ h => h⟩
            · rw [hjw] at e3; cases e3; exact ⟨b, e4, fun e => absurd e e5, e6⟩
          rw [hjw] at h
          rw [hl]
          simp only at h ⊢
          exact loop_keys n c _ _ _ ves (hg.addKeys _ h0 hk) h
      · cases h

theorem toC_keys (p : Twin (FurtherKeys L.toCrypto longer)) : toC p.1.1.payload = toC p.1.2.payload := by
  obtain ⟨l, x, e, -⟩ := p.2.said
  unfold toC
  rw [e]

theorem toP_keys (p : Twin (FurtherKeys L.toCrypto longer)) : toP p.1.1.payload = toP p.1.2.payload := by
  obtain ⟨l, x, e, -⟩ := p.2.said
  unfold toP Payload.md
  rw [e]

theorem chain_keys (c : List (Twin (FurtherKeys L.toCrypto longer))) (jar jar' : KeyJar) (ves : List Payload) (hg : Grown jar jar') (h : (verifyTrustChain L jar (c.map fun p => some p.1.1)).1 = .ok ves) :
    ∃ ws : List (Twin (FurtherKeys L.toCrypto longer)), ves = after ws ∧ (verifyTrustChain L jar' (c.map fun p => some p.1.2)).1 = .ok (before ws) ∧
      Grown (verifyTrustChain L jar (c.map fun p => some p.1.1)).2 (verifyTrustChain L jar' (c.map fun p => some p.1.2)).2 := by
  have loop := loop_keys (L := L) (longer := longer) (c.length - 1) c jar jar' []
  cases c with
  | nil => cases h
  | cons p c =>
    have e1 : trustedAnchor jar' (some p.1.2) = trustedAnchor jar (some p.1.1) := by
      obtain ⟨l, x, e, -⟩ := p.2.said
      simp only [trustedAnchor]
      rw [e, hg.has]
    have l1 : ((p :: c).map fun p => (some p.1.1 : Doc)).length = (p :: c).length := by simp
    have l2 : ((p :: c).map fun p => (some p.1.2 : Doc)).length = (p :: c).length := by simp
    unfold verifyTrustChain at h ⊢
    rw [l1] at h ⊢
    rw [l2]
    simp only [after, before, List.map_nil, List.map_cons, e1] at loop h ⊢
    cases ht : trustedAnchor jar (some p.1.1) with
    | error e => rw [ht] at h; cases h
    | ok b =>
      rw [ht] at h
      cases b with
      | false => cases h; exact ⟨[], rfl, rfl, hg⟩
      | true =>
        simp only at h ⊢
        generalize verifyLoop L ((p :: c).length - 1) (some p.1.1 :: c.map fun p => some p.1.1) jar [] = r at h loop ⊢
        generalize verifyLoop L ((p :: c).length - 1) (some p.1.2 :: c.map fun p => some p.1.2) jar' [] = r' at loop ⊢
        obtain ⟨r, jar1⟩ := r
        obtain ⟨r', jar1'⟩ := r'
        cases r with
        | error e => cases h
        | ok vs =>
          obtain ⟨ws, rfl, k1, k2⟩ := loop vs hg rfl
          simp only at k1 k2
          subst k1
          rcases List.eq_nil_or_concat ws with rfl | ⟨ws, w, rfl⟩
          · cases h; exact ⟨[], rfl, rfl, k2⟩
          · have m1 : meets (after ws) w.1.1.payload = meets (before ws) w.1.2.payload := by
              unfold meets
              have : (after ws).map toC = (before ws).map toC := by
                simp only [after, before, List.map_map]
                exact List.map_congr_left fun p _ => toC_keys p
              rw [this, toC_keys]
            simp only [after, before, List.concat_eq_append, List.map_append, List.map_cons, List.map_nil, getLast_snoc, List.dropLast_concat] at m1 h ⊢
            rw [m1] at h ⊢
            cases hm : meets (ws.map fun p => p.1.2.payload) w.1.2.payload with
            | error e => rw [hm] at h; cases h
            | ok b =>
              rw [hm] at h
              cases b with
              | false => cases h; exact ⟨[], rfl, rfl, k2⟩
              | true => cases h; exact ⟨ws ++ [w], by simp, by simp, k2⟩

/-- The same, or, where `longer`, later. -/
def EndsLater (longer : Prop) (x x' : Int) : Prop := x' = x ∨ (longer ∧ 0 ≤ x ∧ x ≤ x')

theorem expires_keys : ∀ (vs : List (Twin (FurtherKeys L.toCrypto longer))) (e e' x : Int), EndsLater longer e e' → expiresLoop (after vs) e = .ok x → ∃ x', expiresLoop (before vs) e' = .ok x' ∧ EndsLater longer x x'
  | [], _, e', _, he, h => by cases h; exact ⟨e', rfl, he⟩
  | p :: vs, e, e', x, he, h => by
    have ih := expires_keys vs
    obtain ⟨l, y, e1, -, e2⟩ := p.2.said
    simp only [after, before, List.map_cons, expiresLoop, Payload.getExp] at ih h ⊢
    rw [e1]
    simp only
    cases hx : p.1.1.payload.exp with
    | none => rw [hx] at h; cases h
    | some a =>
      rw [hx] at h
      obtain ⟨b, rfl, hab⟩ : ∃ b, y = some b ∧ EndsLater longer a b := by
        rcases e2 with rfl | ⟨hl, a', b, e3, rfl, h4, h5⟩
        · exact ⟨a, hx, Or.inl rfl⟩
        · rw [hx] at e3; cases e3; exact ⟨b, rfl, Or.inr ⟨hl, h4, h5⟩⟩
      simp only [ok_bind] at h ⊢
      unfold EndsLater at he hab ih
      by_cases h0 : e ≥ 0
      · have h0' : e' ≥ 0 := by rcases he with rfl | ⟨-, h1, h2⟩ <;> omega
        rw [if_pos h0] at h
        rw [if_pos h0']
        by_cases h1 : a < e
        · rw [if_pos h1] at h
          by_cases h2 : b < e'
          · rw [if_pos h2]; exact ih a b x hab h
          · rw [if_neg h2]
            refine ih a e' x ?_ h
            rcases he with rfl | ⟨hl, h3, h4⟩
            · rcases hab with rfl | ⟨hl, h5, h6⟩
              · exact absurd h1 h2
              · exact Or.inr ⟨hl, h5, by omega⟩
            · refine Or.inr ⟨hl, ?_, by omega⟩
              rcases hab with rfl | ⟨-, h5, -⟩ <;> omega
        · rw [if_neg h1] at h
          by_cases h2 : b < e'
          · rw [if_pos h2]
            refine ih e b x ?_ h
            rcases he with rfl | ⟨hl, h3, h4⟩
            · rcases hab with rfl | ⟨hl, h5, h6⟩ <;> omega
            · refine Or.inr ⟨hl, h3, ?_⟩
              rcases hab with rfl | ⟨-, h5, h6⟩ <;> omega
          · rw [if_neg h2]; exact ih e e' x he h
      · have he' : e' = e := by rcases he with rfl | ⟨-, h1, h2⟩ <;> omega
        subst he'
        rw [if_neg h0] at h
        rw [if_neg h0]
        exact ih a b x hab h

/-- Two verified chains, before and after. -/
structure Rekeyed (L : Lib) (longer : Prop) (tc tc' : TrustChain) : Prop where
  anchor : tc'.anchor = tc.anchor
  issPath : tc'.issPath = tc.issPath
  exp : EndsLater longer tc.exp tc'.exp
  verified : ∃ vs : List (Twin (FurtherKeys L.toCrypto longer)), tc.verified = after vs ∧ tc'.verified = before vs

theorem accepted_keys (c : List (Twin (FurtherKeys L.toCrypto longer))) (jar jar' : KeyJar) (o : Option TrustChain) (hg : Grown jar jar') (h : (verifyChain L jar (c.map fun p => some p.1.1)).1 = .ok o) :
    Grown (verifyChain L jar (c.map fun p => some p.1.1)).2 (verifyChain L jar' (c.map fun p => some p.1.2)).2 ∧
      ((o = none ∧ (verifyChain L jar' (c.map fun p => some p.1.2)).1 = .ok none) ∨ ∃ tc tc', o = some tc ∧ (verifyChain L jar' (c.map fun p => some p.1.2)).1 = .ok (some tc') ∧ Rekeyed L longer tc tc') := by
  have hc := chain_keys c jar jar'
  unfold verifyChain at h ⊢
  generalize verifyTrustChain L jar (c.map fun p => some p.1.1) = r at h hc ⊢
  generalize verifyTrustChain L jar' (c.map fun p => some p.1.2) = r' at hc ⊢
  obtain ⟨r, jar1⟩ := r
  obtain ⟨r', jar1'⟩ := r'
  cases r with
  | error e => cases h
  | ok ves =>
    obtain ⟨ws, rfl, k1, k2⟩ := hc ves hg rfl
    simp only at k1 k2
    subst k1
    cases ws with
    | nil => cases h; exact ⟨k2, Or.inl ⟨rfl, rfl⟩⟩
    | cons p vs =>
      have hx := expires_keys (p :: vs) (-1) (-1)
      have hiss : ∀ q : Twin (FurtherKeys L.toCrypto longer), q.1.2.payload.iss = q.1.1.payload.iss := by
        intro q
        obtain ⟨l, x, e, -⟩ := q.2.said
        rw [e]
      have hi : (before (p :: vs)).map (·.iss) = (after (p :: vs)).map (·.iss) := by
        simp only [after, before, List.map_map]
        exact List.map_congr_left fun q _ => hiss q
      simp only [after, before, List.map_cons] at hx hi h ⊢
      unfold expiresAt at h ⊢
      cases he : expiresLoop (p.1.1.payload :: vs.map fun p => p.1.1.payload) (-1) with
      | error e => rw [he] at h; cases h
      | ok x =>
        rw [he] at h
        cases h
        obtain ⟨x', hx1, hx2⟩ := hx x (Or.inl rfl) he
        rw [hx1]
        refine ⟨k2, Or.inr ⟨_, _, rfl, rfl, hiss p, ?_, hx2, p :: vs, rfl, rfl⟩⟩
        simp only [hi]

theorem all_keys : ∀ (cs : List (List (Twin (FurtherKeys L.toCrypto longer)))) (jar jar' : KeyJar) (tcs : List TrustChain), Grown jar jar' → (verifyChains L (cs.map fun c => c.map fun p => some p.1.1) jar).1 = .ok tcs →
    ∃ tcs', (verifyChains L (cs.map fun c => c.map fun p => some p.1.2) jar').1 = .ok tcs' ∧ OneByOne (Rekeyed L longer) tcs tcs'
  | [], _, _, _, _, h => by cases h; exact ⟨[], rfl, .nil⟩
  | c :: cs, jar, jar', tcs, hg, h => by
    have ha := accepted_keys c jar jar'
    simp only [List.map_cons, verifyChains] at h ⊢
    generalize verifyChain L jar (c.map fun p => some p.1.1) = r at h ha
    generalize verifyChain L jar' (c.map fun p => some p.1.2) = r' at ha ⊢
    obtain ⟨r, jar1⟩ := r
    obtain ⟨r', jar1'⟩ := r'
    cases r with
    | error e => cases h
    | ok o =>
      obtain ⟨k1, k2⟩ := ha o hg rfl
      simp only at k1 k2 h
      have ih := all_keys cs jar1 jar1'
      generalize verifyChains L (cs.map fun c => c.map fun p => some p.1.1) jar1 = q at h ih
      obtain ⟨q, jar2⟩ := q
      cases q with
      | error e => cases h
      | ok l =>
        cases h
        obtain ⟨l', g1, g2⟩ := ih l k1 rfl
        rcases k2 with ⟨rfl, rfl⟩ | ⟨tc, tc', rfl, rfl, k3⟩ <;> simp only <;> generalize verifyChains L (cs.map fun c => c.map fun p => some p.1.2) jar1' = q' at g1 ⊢ <;> obtain ⟨q', jar2'⟩ := q' <;> simp only at g1 <;> subst g1
        · exact ⟨l', rfl, g2⟩
        · exact ⟨tc' :: l', rfl, .cons k3 g2⟩

/-- The same trust chain with the same metadata, perhaps valid for longer. -/
structure SameButLater (longer : Prop) (tc tc' : TrustChain) : Prop where
  anchor : tc'.anchor = tc.anchor
  issPath : tc'.issPath = tc.issPath
  exp : EndsLater longer tc.exp tc'.exp
  metadata : tc'.metadata = tc.metadata

theorem applied_keys {E : SetEnum Val} {K : SetEnum String} {tc tc' t : TrustChain} (hf : Rekeyed L longer tc tc') (h : applyToChain E K tc = .ok t) : ∃ t', applyToChain E K tc' = .ok t' ∧ SameButLater longer t t' := by
  obtain ⟨vs, h1, h2⟩ := hf.verified
  obtain ⟨leaf, md, a1, a2, a3⟩ := applyToChain_ok.1 h
  have hlen : tc'.verified.length = tc.verified.length := by rw [h1, h2]; simp
  rcases List.eq_nil_or_concat vs with rfl | ⟨ws, w, rfl⟩
  · rw [h1] at a1; cases a1
  · simp only [after, before, List.concat_eq_append, List.map_append, List.map_cons, List.map_nil] at h1 h2
    rw [h1, getLast_snoc] at a1
    cases a1
    have em : w.1.2.payload.metadata = some md := by
      obtain ⟨l, x, e, -⟩ := w.2.said
      rw [e]
      exact a2
    have hl : tc'.verified.getLast? = some w.1.2.payload := by rw [h2, getLast_snoc]
    rcases a3 with ⟨a3, m, a4, rfl⟩ | ⟨a3, m, a4, rfl⟩
    · rw [h1, List.dropLast_concat, toP_keys] at a4
      have : (ws.map fun p => p.1.1.payload).map toP = (ws.map fun p => p.1.2.payload).map toP := by
        simp only [List.map_map]
        exact List.map_congr_left fun p _ => toP_keys p
      rw [this] at a4
      refine ⟨_, applyToChain_ok.2 ⟨_, md, hl, em, Or.inl ⟨by rw [hlen]; exact a3, m, by rw [h2, List.dropLast_concat]; exact a4, rfl⟩⟩, hf.anchor, hf.issPath, hf.exp, rfl⟩
    · refine ⟨_, applyToChain_ok.2 ⟨_, md, hl, em, Or.inr ⟨by rw [hlen]; exact a3, m, a4, rfl⟩⟩, hf.anchor, hf.issPath, hf.exp, rfl⟩

theorem policies_keys {E : SetEnum Val} {K : SetEnum String} : ∀ (ps : List (TrustChain × TrustChain)) (out : List TrustChain), (∀ p ∈ ps, Rekeyed L longer p.1 p.2) → applyPolicies E K (ps.map (·.1)) = .ok out →
    ∃ out', applyPolicies E K (ps.map (·.2)) = .ok out' ∧ OneByOne (SameButLater longer) out out'
  | [], _, _, h => by cases h; exact ⟨[], rfl, .nil⟩
  | p :: ps, _, hp, h => by
    obtain ⟨t, ts, h1, h2, rfl⟩ := applyPolicies_cons h
    obtain ⟨t', k1, k2⟩ := applied_keys (hp p (by simp)) h1
    obtain ⟨ts', k3, k4⟩ := policies_keys ps ts (fun q hq => hp q (by simp [hq])) h2
    refine ⟨t' :: ts', ?_, .cons k2 k4⟩
    simp only [List.map_cons, applyPolicies]
    rw [k1, k3]
    rfl

end

/-- C245 and C246 together. -/
theorem eased (F F' : Collect.Federation) (V : Env) (st st' : State) (h h' : List Collect.FRun) (sub stopAt : String) (out : List TrustChain) (longer : Prop)
    (w : Within F V st h) (w' : Within F' { V with W := F'.at V.W.now } st' h') (hj : Grown st.jar st'.jar) (hd : F.Dated) (hd' : F'.Dated) (hp : F.PlainHints) (hp' : F'.PlainHints) (hsub : Collect.Plain sub)
    (hr : Restated (FurtherKeys V.L.toCrypto longer) F F') (ho : (getVerified V st sub stopAt).1 = .ok out) :
    ∃ out', (getVerified { V with W := F'.at V.W.now } st' sub stopAt).1 = .ok out' ∧ OneByOne (SameButLater longer) out out' := by
  obtain ⟨f, ec, tcs, c1, c2, c3, -⟩ := getVerified_ok ho
  have i1 := w.ideal hd hp hsub stopAt
  have i2 := w'.ideal hd' hp' hsub stopAt
  rw [c1] at i1
  obtain ⟨g, rfl, hg⟩ := hr.collect (FurtherKeys.ends V.L.toCrypto longer) i1.symm
  have hn : ({ V with W := F'.at V.W.now } : Env).W.now = V.W.now := rfl
  rw [hn, hg] at i2
  have d1 := toOption_some i2
  have hdoc := docs_restated (FurtherKeys.ends V.L.toCrypto longer) g ec
  rw [hdoc (fun p => p.1.1) rfl] at c2
  obtain ⟨tcs', k1, ps, rfl, rfl, k2⟩ := all_keys _ _ _ _ hj c2
  rw [← hdoc (fun p => p.1.2) rfl] at k1
  obtain ⟨out', g1, g2⟩ := policies_keys ps out k2 c3
  refine ⟨out', ?_, g2⟩
  unfold getVerified
  simp only at d1 ⊢
  generalize Collect.collect V.L.toCrypto V.P (F'.at V.W.now) V.fuel st'.coll sub stopAt = r at d1 ⊢
  obtain ⟨r, coll⟩ := r
  simp only at d1
  subst d1
  simp only
  unfold docs at k1
  generalize verifyChains V.L ((Collect.tree2chains (mapForest (fun p : Twin (FurtherKeys V.L.toCrypto longer) => p.1.2) g)).map fun c => c.map some ++ [some ec]) st'.jar = r at k1 ⊢
  obtain ⟨r, jar⟩ := r
  simp only at k1
  subst k1
  simp only
  rw [g1]

/-- C245: when authorities anywhere in a federation list further keys for subordinates, beside those they list, and so does whoever keeps the keys of the trust anchors, then every entity that can be resolved can be resolved afterwards, by the same trust chains and with
the same metadata. The caches are those of any earlier runs. -/
theorem C245_further_keys (F F' : Collect.Federation) (V : Env) (st st' : State) (h h' : List Collect.FRun) (sub stopAt : String) (out : List TrustChain)
    (w : Within F V st h) (w' : Within F' { V with W := F'.at V.W.now } st' h') (hj : Grown st.jar st'.jar) (hd : F.Dated) (hd' : F'.Dated) (hp : F.PlainHints) (hp' : F'.PlainHints) (hsub : Collect.Plain sub)
    (hr : Restated (FurtherKeys V.L.toCrypto False) F F') (ho : (getVerified V st sub stopAt).1 = .ok out) :
    ∃ out', (getVerified { V with W := F'.at V.W.now } st' sub stopAt).1 = .ok out' ∧ out'.map outline = out.map outline := by
  obtain ⟨out', h1, ps, rfl, rfl, h2⟩ := eased F F' V st st' h h' sub stopAt out False w w' hj hd hd' hp hp' hsub hr ho
  refine ⟨_, h1, ?_⟩
  rw [List.map_map, List.map_map]
  refine List.map_congr_left fun p hm => ?_
  obtain ⟨e1, e2, e3 | ⟨hf, -⟩, e4⟩ := h2 p hm
  · simp only [Function.comp_apply, outline, e1, e2, e3, e4]
  · exact hf.elim

/-- C246: when the statements of authorities anywhere in a federation are valid for longer, and perhaps list further keys, then every entity that can be resolved can be resolved afterwards, by the same trust chains and with the same metadata, and each of them is
valid for at least as long. -/
theorem C246_longer_valid (F F' : Collect.Federation) (V : Env) (st st' : State) (h h' : List Collect.FRun) (sub stopAt : String) (out : List TrustChain)
    (w : Within F V st h) (w' : Within F' { V with W := F'.at V.W.now } st' h') (hj : Grown st.jar st'.jar) (hd : F.Dated) (hd' : F'.Dated) (hp : F.PlainHints) (hp' : F'.PlainHints) (hsub : Collect.Plain sub)
    (hr : Restated (FurtherKeys V.L.toCrypto True) F F') (ho : (getVerified V st sub stopAt).1 = .ok out) :
    ∃ out', (getVerified { V with W := F'.at V.W.now } st' sub stopAt).1 = .ok out' ∧
      OneByOne (fun tc tc' => tc'.anchor = tc.anchor ∧ tc'.issPath = tc.issPath ∧ tc'.metadata = tc.metadata ∧ tc.exp ≤ tc'.exp) out out' := by
  obtain ⟨out', h1, ps, rfl, rfl, h2⟩ := eased F F' V st st' h h' sub stopAt out True w w' hj hd hd' hp hp' hsub hr ho
  refine ⟨_, h1, ps, rfl, rfl, fun p hm => ?_⟩
  obtain ⟨e1, e2, e3, e4⟩ := h2 p hm
  refine ⟨e1, e2, e4, ?_⟩
  rcases e3 with e3 | ⟨-, -, e3⟩ <;> omega

namespace Ex245
/-- `leaf` is below `im`, which is below `ta`. `ta` lists the keys `ks` for `im`, in a statement valid until `x`. -/
def F (ks : List Key) (x : Int := 9000) : Collect.Federation where
  config
    | "https://ta" => .ok (some (Ex219.conf "https://ta" none (Ex.fe true)))
    | "https://im" => .ok (some (Ex219.conf "https://im" (some ["https://ta"]) (Ex.fe true)))
    | "https://leaf" => .ok (some (Ex219.conf "https://leaf" (some ["https://im"]) [("openid_relying_party", [("scopes", .str "openid")])]))
    | _ => .error .missingPage
  fetch _ a e := .ok (some (if e = "https://im" then ⟨{ (Ex219.about a e).payload with jwks := some ks, exp := some x }, Ex219.key a⟩ else Ex219.about a e))

variable {ks : List Key} {x : Int}

theorem known {k : String} {j : Jws} (h : (F ks x).config k = .ok (some j)) : j.payload.exp = some 10000 ∧ ∀ l, j.payload.hints = some l → ∀ a ∈ l, Collect.Plain a := by
  simp only [F] at h
  split at h <;> cases h <;> refine ⟨rfl, fun l hl => ?_⟩ <;> cases hl <;> decide

theorem dated : (F ks x).Dated := fun _ _ h => ⟨10000, (known h).1⟩
theorem plainHints : (F ks x).PlainHints := fun _ _ l h hl => (known h).2 l hl
theorem inForce : (F ks x).InForce Ex.L.toCrypto 0 := by
  intro k j h
  simp only [Ex.L, notExpired, (known h).1]
  decide

theorem further {longer : Prop} {ks' : List Key} {x' : Int} (h0 : ks ≠ []) (h : ∀ k ∈ ks, k ∈ ks') (hx : x' = x ∨ (longer ∧ 0 ≤ x ∧ x ≤ x')) : Restated (FurtherKeys Ex.L.toCrypto longer) (F ks x) (F ks' x') where
  config := rfl
  fetch _ a e := by
    refine Or.inr ⟨_, _, rfl, rfl, ?_⟩
    by_cases he : e = "https://im"
    · rw [if_pos he, if_pos he]
      refine ⟨⟨_, _, rfl, Or.inr ⟨ks, ks', rfl, rfl, h0, h⟩, ?_⟩, fun _ h => h, fun _ h => h⟩
      rcases hx with rfl | ⟨hl, h1, h2⟩
      · exact Or.inl rfl
      · exact Or.inr ⟨hl, x, x', rfl, rfl, h1, h2⟩
    · rw [if_neg he, if_neg he]
      exact (FurtherKeys.ends _ _).refl _

abbrev V (ks : List Key) (x : Int := 9000) : Env := Ex221.V (F ks x) ["https://ta"]

/-- The case of C245: `ta` lists a second key for `im` and the key jar has a second key of `ta`. It matters what is listed: with the second key alone, `leaf` cannot be resolved. -/
example : (getVerified (V [2]) { jar := [("https://ta", [1])] } "https://leaf").1.map (·.map (·.issPath)) = .ok [["https://leaf", "https://im", "https://ta"]] ∧
    (getVerified (V [8]) { jar := [("https://ta", [1])] } "https://leaf").1.map (·.map (·.issPath)) = .error .badSignature := by decide +kernel

theorem grown : Grown [("https://ta", [1])] [("https://ta", [9, 1])] where
  has e := by
    unfold Dict.has
    simp only [Dict.get?_cons]
    split <;> rfl
  keys e k h := by
    unfold KeyJar.keysOf at h ⊢
    simp only [Dict.get?_cons] at h ⊢
    split at h
    · rename_i he
      rw [if_pos he]
      exact List.mem_cons_of_mem _ h
    · cases h

example (out : List TrustChain) (ho : (getVerified (V [2]) { jar := [("https://ta", [1])] } "https://leaf").1 = .ok out) :
    ∃ out', (getVerified (V [8, 2]) { jar := [("https://ta", [9, 1])] } "https://leaf").1 = .ok out' ∧ out'.map outline = out.map outline :=
  C245_further_keys (F [2]) (F [8, 2]) (V _) _ _ [] [] "https://leaf" "" out (Ex221.within inForce _ _) (Ex221.within inForce _ _) grown dated dated plainHints plainHints (by decide) (further (by decide) (by decide) (Or.inl rfl)) ho

/-- The case of C246. -/
example : (getVerified (V [2]) { jar := [("https://ta", [1])] } "https://leaf").1.map (·.map (·.exp)) = .ok [9000] ∧ (getVerified (V [2] 9500) { jar := [("https://ta", [1])] } "https://leaf").1.map (·.map (·.exp)) = .ok [9500] := by decide +kernel

example (out : List TrustChain) (ho : (getVerified (V [2]) { jar := [("https://ta", [1])] } "https://leaf").1 = .ok out) :
    ∃ out', (getVerified (V [2] 9500) { jar := [("https://ta", [1])] } "https://leaf").1 = .ok out' ∧
      OneByOne (fun tc tc' => tc'.anchor = tc.anchor ∧ tc'.issPath = tc.issPath ∧ tc'.metadata = tc.metadata ∧ tc.exp ≤ tc'.exp) out out' :=
  C246_longer_valid (F [2]) (F [2] 9500) (V _) _ _ [] [] "https://leaf" "" out (Ex221.within inForce _ _) (Ex221.within inForce _ _) (.refl _) dated dated plainHints plainHints (by decide)
    (further (by decide) (by decide) (Or.inr ⟨trivial, by decide, by decide⟩)) ho
end Ex245

end Fed.Chains
