import Verif.Verifier.Model
/-
Lemmas about chain verification.
-/
namespace Fed.Verify
open Fed

/-- The statements of a list of documents: those documents that are signed JWTs. -/
def statements (ds : List Doc) : List Jws := ds.filterMap id

/-- The signature of `j` verifies with a key that `jar` holds for its issuer or that one of the statements `pre` lists for it. -/
def Vouched (L : Lib) (jar : KeyJar) (pre : List Jws) (j : Jws) : Prop :=
  ∃ k, L.usable j k = true ∧ L.verifies j k = true ∧
    (k ∈ jar.keysOf j.payload.iss ∨
      ∃ j' ∈ pre, j'.payload.sub = j.payload.iss ∧ ∃ ks, j'.payload.jwks = some ks ∧ k ∈ ks)

theorem keysOf_set (jar : KeyJar) (e q : String) (ks : List Key) :
    KeyJar.keysOf (jar.set e ks) q = if e = q then ks else jar.keysOf q := by
  unfold KeyJar.keysOf
  rw [Dict.get?_set]
  split <;> rfl

theorem mem_keysOf_addKeys (L : Lib) (jar : KeyJar) (sub : String) (ks : List Key) (e : String) (k : Key) :
    k ∈ (addKeys L jar sub ks).keysOf e ↔ k ∈ jar.keysOf e ∨ (sub = e ∧ k ∈ ks) := by
  unfold addKeys
  cases h : Dict.get? jar sub with
  | none =>
    have h0 : jar.keysOf sub = [] := by simp [KeyJar.keysOf, h]
    have hset : k ∈ KeyJar.keysOf (jar.set sub ks) e ↔ k ∈ jar.keysOf e ∨ (sub = e ∧ k ∈ ks) := by
      rw [keysOf_set]
      by_cases he : sub = e
      · subst he; simp [h0]
      · simp [he]
    simp only
    split
    · exact hset
    · split
      · rename_i hk
        have : ks = [] := by simpa using hk
        simp [this]
      · exact hset
  | some old =>
    have h0 : jar.keysOf sub = old := by simp [KeyJar.keysOf, h]
    simp only
    split
    · rename_i hn
      constructor
      · exact Or.inl
      · rintro (h1 | ⟨rfl, h2⟩)
        · exact h1
        · rw [h0]
          by_cases hk : k ∈ old
          · exact hk
          · exfalso
            have : k ∈ ks.filter fun k => decide (k ∉ old) := by simp [h2, hk]
            rw [List.isEmpty_iff] at hn
            rw [hn] at this
            simp at this
    · rw [keysOf_set]
      by_cases he : sub = e
      · subst he
        simp only [if_true, h0, List.mem_append, List.mem_filter, decide_not, Bool.not_eq_true',
          decide_eq_false_iff_not, true_and]
        by_cases hk : k ∈ old <;> simp [hk]
      · simp [he]

theorem has_addKeys_mono (L : Lib) (jar : KeyJar) (sub : String) (ks : List Key) (e : String) (h : Dict.has jar e = true) :
    Dict.has (addKeys L jar sub ks) e = true := by
  have hset : ∀ v : List Key, Dict.has (Dict.set jar sub v) e = true := by
    intro v
    simp only [Dict.has, Dict.get?_set]
    split
    · rfl
    · exact h
  unfold addKeys
  split
  · split
    · exact hset _
    · split
      · exact h
      · exact hset _
  · simp only
    split
    · exact h
    · exact hset _

theorem has_addKeys (L : Lib) (jar : KeyJar) (sub : String) (ks : List Key) (e : String)
    (h : Dict.has (addKeys L jar sub ks) e = true) : Dict.has jar e = true ∨ sub = e := by
  have hset : ∀ v : List Key, Dict.has (Dict.set jar sub v) e = true → Dict.has jar e = true ∨ sub = e := by
    intro v hv
    simp only [Dict.has, Dict.get?_set] at hv
    split at hv
    · right; assumption
    · exact Or.inl hv
  unfold addKeys at h
  split at h
  · split at h
    · exact hset _ h
    · split at h
      · exact Or.inl h
      · exact hset _ h
  · simp only at h
    split at h
    · exact Or.inl h
    · exact hset _ h

/-- The keys of the jar vouch for the statement iff the loop finds a verifying key. -/
theorem vouched_nil {L : Lib} {jar : KeyJar} {j : Jws} :
    Vouched L jar [] j ↔ (verifyKeys L jar j).any (L.verifies j) = true := by
  simp only [Vouched, verifyKeys, List.any_eq_true, List.mem_filter]
  constructor
  · rintro ⟨k, h1, h2, h3 | ⟨j', h3, -⟩⟩
    · exact ⟨k, ⟨h3, h1⟩, h2⟩
    · simp at h3
  · rintro ⟨k, ⟨h3, h1⟩, h2⟩
    exact ⟨k, h1, h2, Or.inl h3⟩

/-- Recording the keys of `j0` is the same as having `j0` among the earlier statements. -/
theorem vouched_addKeys {L : Lib} {jar : KeyJar} {j0 j : Jws} {pre : List Jws} {ks : List Key} (h : j0.payload.jwks = some ks) :
    Vouched L (addKeys L jar j0.payload.sub ks) pre j ↔ Vouched L jar (j0 :: pre) j := by
  unfold Vouched
  refine exists_congr fun k => and_congr_right fun _ => and_congr_right fun _ => ?_
  rw [mem_keysOf_addKeys]
  constructor
  · rintro ((h1 | ⟨h1, h2⟩) | ⟨j', h1, h2⟩)
    · exact Or.inl h1
    · exact Or.inr ⟨j0, by simp, h1, ks, h, h2⟩
    · exact Or.inr ⟨j', by simp [h1], h2⟩
  · rintro (h1 | ⟨j', h1, h2, ks', h3, h4⟩)
    · exact Or.inl (Or.inl h1)
    · rcases List.mem_cons.1 h1 with rfl | h1
      · rw [h] at h3; cases h3; exact Or.inl (Or.inr ⟨h2, h4⟩)
      · exact Or.inr ⟨j', h1, h2, ks', h3, h4⟩

theorem vouched_noKeys {L : Lib} {jar : KeyJar} {j0 j : Jws} {pre : List Jws} (h : j0.payload.jwks = none) :
    Vouched L jar pre j ↔ Vouched L jar (j0 :: pre) j := by
  unfold Vouched
  refine exists_congr fun k => and_congr_right fun _ => and_congr_right fun _ => ?_
  constructor
  · rintro (h1 | ⟨j', h1, h2⟩)
    · exact Or.inl h1
    · exact Or.inr ⟨j', by simp [h1], h2⟩
  · rintro (h1 | ⟨j', h1, h2, ks', h3, h4⟩)
    · exact Or.inl h1
    · rcases List.mem_cons.1 h1 with rfl | h1
      · rw [h] at h3; cases h3
      · exact Or.inr ⟨j', h1, h2, ks', h3, h4⟩

/-- What it takes for the loop to get through. -/
def WellSigned (L : Lib) (jar : KeyJar) (n m : Nat) (js : List Jws) : Prop :=
  ∀ pre j post, js = pre ++ j :: post → Vouched L jar pre j ∧ (j.payload.jwks = none → m + pre.length = n)

theorem wellSigned_cons {L : Lib} {jar : KeyJar} {n m : Nat} {j : Jws} {js : List Jws} :
    WellSigned L jar n m (j :: js) ↔ (Vouched L jar [] j ∧ (j.payload.jwks = none → m = n)) ∧
      ∀ pre j' post, js = pre ++ j' :: post → Vouched L jar (j :: pre) j' ∧ (j'.payload.jwks = none → m + 1 + pre.length = n) := by
  constructor
  · intro h
    refine ⟨?_, fun pre j' post e => ?_⟩
    · have := h [] j js rfl; simpa using this
    · have := h (j :: pre) j' post (by simp [e])
      refine ⟨this.1, fun hn => ?_⟩
      have := this.2 hn
      simp only [List.length_cons] at this
      omega
  · rintro ⟨h1, h2⟩ pre j' post e
    cases pre with
    | nil => simp only [List.nil_append, List.cons.injEq] at e; obtain ⟨rfl, rfl⟩ := e; simpa using h1
    | cons p pre =>
      simp only [List.cons_append, List.cons.injEq] at e
      obtain ⟨rfl, e⟩ := e
      obtain ⟨h3, h4⟩ := h2 pre j' post e
      refine ⟨h3, fun hn => ?_⟩
      have := h4 hn
      simp only [List.length_cons]; omega

/-- Exactly when, and with what, the loop ends well. -/
theorem verifyLoop_ok {L : Lib} {n : Nat} : ∀ {ds : List Doc} {jar : KeyJar} {ves r : List Payload},
    (verifyLoop L n ds jar ves).1 = .ok r ↔
      r = ves ++ (statements ds).map (·.payload) ∧ WellSigned L jar n ves.length (statements ds)
  | [], jar, ves, r => by
      simp [verifyLoop, statements, WellSigned, eq_comm]
  | none :: ds, jar, ves, r => by
      rw [verifyLoop, verifyLoop_ok]; simp [statements]
  | some j :: ds, jar, ves, r => by
      have hs : statements (some j :: ds) = j :: statements ds := by simp [statements]
      rw [hs, verifyLoop, wellSigned_cons]
      by_cases hv : (verifyKeys L jar j).any (L.verifies j) = true
      · have he : (verifyKeys L jar j).isEmpty = false := by
          cases hk : verifyKeys L jar j with
          | nil => rw [hk] at hv; simp at hv
          | cons _ _ => rfl
        rw [he, if_neg (by simp), if_pos hv]
        cases hj : j.payload.jwks with
        | none =>
          simp only
          by_cases hn : ves.length = n
          · rw [if_neg (by simpa using hn), verifyLoop_ok]
            simp only [List.append_assoc, List.singleton_append, List.map_cons, List.length_append, List.length_singleton]
            refine and_congr_right fun _ => ?_
            unfold WellSigned
            constructor
            · intro h
              exact ⟨⟨vouched_nil.2 hv, fun _ => hn⟩, fun pre j' post e => by
                rw [← vouched_noKeys hj]; exact h pre j' post e⟩
            · rintro ⟨-, h⟩ pre j' post e
              rw [vouched_noKeys hj]; exact h pre j' post e
          · rw [if_pos hn]
            simp [hn]
        | some ks =>
          simp only
          rw [verifyLoop_ok]
          simp only [List.append_assoc, List.singleton_append, List.map_cons, List.length_append, List.length_singleton]
          refine and_congr_right fun _ => ?_
          unfold WellSigned
          constructor
          · intro h
            exact ⟨⟨vouched_nil.2 hv, by simp⟩, fun pre j' post e => by
              rw [← vouched_addKeys hj]; exact h pre j' post e⟩
          · rintro ⟨-, h⟩ pre j' post e
            rw [vouched_addKeys hj]; exact h pre j' post e
      · rw [if_neg hv]
        have : ∀ e : PyErr, ¬ ((Except.error e, jar) : Except PyErr (List Payload) × KeyJar).1 = .ok r := by simp
        constructor
        · intro h; split at h <;> cases h
        · rintro ⟨-, ⟨h, -⟩, -⟩; exact absurd (vouched_nil.1 h) hv

/-- Whatever the outcome, keys are only added. -/
theorem verifyLoop_keeps {L : Lib} {n : Nat} : ∀ (ds : List Doc) (jar : KeyJar) (ves : List Payload) (e : String),
    (∀ k ∈ jar.keysOf e, k ∈ (verifyLoop L n ds jar ves).2.keysOf e) ∧
    (Dict.has jar e = true → Dict.has (verifyLoop L n ds jar ves).2 e = true)
  | [], jar, ves, e => ⟨fun _ h => h, id⟩
  | none :: ds, jar, ves, e => by rw [verifyLoop]; exact verifyLoop_keeps ds jar ves e
  | some j :: ds, jar, ves, e => by
      rw [verifyLoop]
      split
      · exact ⟨fun _ h => h, id⟩
      · split
        · split
          · split
            · exact ⟨fun _ h => h, id⟩
            · exact verifyLoop_keeps ds jar _ e
          · rename_i ks hk
            have ih := verifyLoop_keeps (L := L) (n := n) ds (addKeys L jar j.payload.sub ks) (ves ++ [j.payload]) e
            exact ⟨fun k h => ih.1 k ((mem_keysOf_addKeys ..).2 (Or.inl h)), fun h => ih.2 (has_addKeys_mono _ _ _ _ _ h)⟩
        · exact ⟨fun _ h => h, id⟩

/-- Where the keys and entities in the jar come from, whatever the outcome: anything closed under what verified statements
declare and true of the jar before is true of the jar afterwards. -/
theorem verifyLoop_origin {L : Lib} {n : Nat} {K : String → Key → Prop} {H : String → Prop} :
    ∀ (ds : List Doc) (jar : KeyJar) (ves : List Payload),
    (∀ j k', some j ∈ ds → K j.payload.iss k' → L.usable j k' = true → L.verifies j k' = true →
      H j.payload.sub ∧ ∀ ks k, j.payload.jwks = some ks → k ∈ ks → K j.payload.sub k) →
    (∀ e k, k ∈ jar.keysOf e → K e k) → (∀ e, Dict.has jar e = true → H e) →
    (∀ e k, k ∈ (verifyLoop L n ds jar ves).2.keysOf e → K e k) ∧ (∀ e, Dict.has (verifyLoop L n ds jar ves).2 e = true → H e)
  | [], jar, ves, _, hK, hH => ⟨hK, hH⟩
  | none :: ds, jar, ves, hc, hK, hH => by
      rw [verifyLoop]
      exact verifyLoop_origin ds jar ves (fun j k h => hc j k (by simp [h])) hK hH
  | some j :: ds, jar, ves, hc, hK, hH => by
      have hc' : ∀ j k', some j ∈ ds → K j.payload.iss k' → L.usable j k' = true → L.verifies j k' = true →
          H j.payload.sub ∧ ∀ ks k, j.payload.jwks = some ks → k ∈ ks → K j.payload.sub k :=
        fun j k h => hc j k (by simp [h])
      rw [verifyLoop]
      split
      · exact ⟨hK, hH⟩
      · split
        · rename_i hv
          obtain ⟨k', h1, h2, h3 | ⟨_, h3, -⟩⟩ := vouched_nil.2 hv
          · obtain ⟨hj1, hj2⟩ := hc j k' (by simp) (hK _ _ h3) h1 h2
            split
            · split
              · exact ⟨hK, hH⟩
              · exact verifyLoop_origin ds jar _ hc' hK hH
            · rename_i ks hks
              refine verifyLoop_origin ds _ _ hc' (fun e k hk => ?_) (fun e he => ?_)
              · rcases (mem_keysOf_addKeys ..).1 hk with h4 | ⟨h4, h5⟩
                · exact hK e k h4
                · subst h4; exact hj2 ks k hks h5
              · rcases has_addKeys _ _ _ _ _ he with he | rfl
                · exact hH e he
                · exact hj1
          · simp at h3
        · exact ⟨hK, hH⟩

/-- After the loop ended well, the jar holds exactly what it held and what the statements declare. -/
theorem verifyLoop_jar {L : Lib} {n : Nat} : ∀ {ds : List Doc} {jar : KeyJar} {ves r : List Payload},
    (verifyLoop L n ds jar ves).1 = .ok r → ∀ e k, k ∈ (verifyLoop L n ds jar ves).2.keysOf e ↔
      k ∈ jar.keysOf e ∨ ∃ j ∈ statements ds, j.payload.sub = e ∧ ∃ ks, j.payload.jwks = some ks ∧ k ∈ ks
  | [], jar, ves, r, _, e, k => by simp [verifyLoop, statements]
  | none :: ds, jar, ves, r, h, e, k => by
      rw [verifyLoop] at h ⊢
      rw [verifyLoop_jar h]
      simp [statements]
  | some j :: ds, jar, ves, r, h, e, k => by
      have hs : statements (some j :: ds) = j :: statements ds := by simp [statements]
      rw [verifyLoop] at h ⊢
      rw [hs]
      by_cases he : (verifyKeys L jar j).isEmpty = true
      · rw [if_pos he] at h; cases h
      · rw [if_neg he] at h ⊢
        by_cases hv : (verifyKeys L jar j).any (L.verifies j) = true
        · rw [if_pos hv] at h ⊢
          cases hj : j.payload.jwks with
          | none =>
            rw [hj] at h
            simp only at h ⊢
            by_cases hn : ves.length ≠ n
            · rw [if_pos hn] at h; cases h
            · rw [if_neg hn] at h ⊢
              rw [verifyLoop_jar h]
              simp [hj]
          | some ks =>
            rw [hj] at h
            simp only at h ⊢
            rw [verifyLoop_jar h, mem_keysOf_addKeys]
            simp [hj, or_assoc]
        · rw [if_neg hv] at h; cases h

/-- The statements of an accepted chain (verifier.py 43-103, success). -/
theorem verifyTrustChain_ok {L : Lib} {jar : KeyJar} {chain : List Doc} {p : Payload} {ps : List Payload} :
    (verifyTrustChain L jar chain).1 = .ok (p :: ps) ↔
      (∃ j ds, chain = some j :: ds ∧ Dict.has jar j.payload.iss = true) ∧
      p :: ps = (statements chain).map (·.payload) ∧ WellSigned L jar (chain.length - 1) 0 (statements chain) ∧
      meets (p :: ps).dropLast ((p :: ps).getLast (by simp)) = .ok true := by
  unfold verifyTrustChain
  cases chain with
  | nil => simp
  | cons d ds =>
    cases d with
    | none => simp [trustedAnchor]
    | some j =>
      simp only [trustedAnchor]
      cases ha : Dict.has jar j.payload.iss with
      | false => simp [ha]
      | true =>
        simp only
        have hl := fun r => verifyLoop_ok (L := L) (n := (some j :: ds).length - 1) (ds := some j :: ds) (jar := jar) (ves := []) (r := r)
        generalize verifyLoop L ((some j :: ds).length - 1) (some j :: ds) jar [] = x at hl
        obtain ⟨x1, jar'⟩ := x
        simp only [List.nil_append, List.length_nil] at hl
        have h1 : (∃ j' ds', some j :: ds = some j' :: ds' ∧ Dict.has jar j'.payload.iss = true) := ⟨j, ds, rfl, ha⟩
        cases x1 with
        | error e =>
          simp only
          constructor
          · intro h; cases h
          · rintro ⟨-, h2, h3, -⟩
            have := (hl (p :: ps)).2 ⟨h2, h3⟩
            cases this
        | ok ves =>
          simp only
          have hv := (hl ves).1 rfl
          cases hlast : ves.getLast? with
          | none =>
            have : ves = [] := List.getLast?_eq_none_iff.1 hlast
            simp only
            constructor
            · intro h; cases h
            · rintro ⟨-, h2, -⟩
              rw [this] at hv; rw [← hv.1] at h2; cases h2
          | some leaf =>
            simp only
            have hne : ves ≠ [] := by rintro rfl; simp at hlast
            have hleaf : ves.getLast hne = leaf := by
              rw [List.getLast?_eq_some_getLast hne] at hlast; exact Option.some.inj hlast
            constructor
            · intro h
              cases hm : meets ves.dropLast leaf with
              | error e => rw [hm] at h; cases h
              | ok b =>
                rw [hm] at h
                cases b with
                | false => simp at h
                | true =>
                  simp only [if_true, Except.ok.injEq] at h
                  subst h
                  refine ⟨h1, hv.1, hv.2, ?_⟩
                  rw [hleaf]; exact hm
            · rintro ⟨-, h2, h3, h4⟩
              have : p :: ps = ves := by rw [h2, ← hv.1]
              subst this
              rw [hleaf] at h4
              rw [h4]; rfl

theorem verifyTrustChain_jar {L : Lib} {jar : KeyJar} {chain : List Doc} :
    (verifyTrustChain L jar chain).2 = jar ∨
    (verifyTrustChain L jar chain).2 = (verifyLoop L (chain.length - 1) chain jar []).2 := by
  unfold verifyTrustChain
  split
  · exact Or.inl rfl
  · split
    · exact Or.inl rfl
    · exact Or.inl rfl
    · right
      split
      · rename_i h; rw [h]
      · rename_i h
        rw [h]
        split
        · rfl
        · split <;> rfl

theorem verifyTrustChain_jar_ok {L : Lib} {jar : KeyJar} {chain : List Doc} {p : Payload} {ps : List Payload}
    (h : (verifyTrustChain L jar chain).1 = .ok (p :: ps)) :
    ∃ r, (verifyLoop L (chain.length - 1) chain jar []).1 = .ok r ∧
      (verifyTrustChain L jar chain).2 = (verifyLoop L (chain.length - 1) chain jar []).2 := by
  unfold verifyTrustChain at h ⊢
  split at h
  · cases h
  · split at h
    · cases h
    · cases h
    · split at h
      · cases h
      · rename_i ves jar' hv
        simp only [hv]
        refine ⟨ves, rfl, ?_⟩
        split <;> try rfl
        split <;> rfl

theorem verifyChain_jar {L : Lib} {jar : KeyJar} {chain : List Doc} :
    (verifyChain L jar chain).2 = (verifyTrustChain L jar chain).2 := by
  unfold verifyChain
  split
  · rename_i h; rw [h]
  · rename_i h; rw [h]
  · rename_i h; rw [h]; simp only; split <;> rfl

theorem expiresLoop_ok {ps : List Payload} : ∀ {e x : Int}, expiresLoop ps e = .ok x → ∀ p ∈ ps, ∃ y, p.exp = some y := by
  induction ps with
  | nil => simp
  | cons q ps ih =>
    intro e x h p hp
    unfold expiresLoop Payload.getExp at h
    cases hq : q.exp with
    | none => rw [hq] at h; cases h
    | some y =>
      rw [hq] at h
      simp only [ok_bind] at h
      rcases List.mem_cons.1 hp with rfl | hp
      · exact ⟨y, hq⟩
      · split at h
        · split at h <;> exact ih h p hp
        · exact ih h p hp

/-- Exactly when, and with what, a chain is accepted. -/
theorem verifyChain_ok {L : Lib} {jar : KeyJar} {chain : List Doc} {tc : TrustChain} :
    (verifyChain L jar chain).1 = .ok (some tc) ↔
      ∃ p ps x, (verifyTrustChain L jar chain).1 = .ok (p :: ps) ∧ expiresAt (p :: ps) = .ok x ∧
        tc = ⟨p.iss, ((p :: ps).map (·.iss)).reverse, x, p :: ps, chain, []⟩ := by
  unfold verifyChain
  generalize verifyTrustChain L jar chain = r
  obtain ⟨r1, jar'⟩ := r
  rcases r1 with e | _ | ⟨p, ps⟩
  · simp
  · simp
  · simp only
    cases hx : expiresAt (p :: ps) with
    | error e =>
      simp only
      constructor
      · intro h; cases h
      · rintro ⟨p', ps', x, h, h2, -⟩
        cases h; rw [hx] at h2; cases h2
    | ok x =>
      simp only [Except.ok.injEq, Option.some.injEq]
      constructor
      · rintro rfl; exact ⟨p, ps, x, rfl, hx, rfl⟩
      · rintro ⟨p', ps', x', h, h2, rfl⟩
        cases h; rw [hx] at h2; cases h2; rfl

end Fed.Verify
