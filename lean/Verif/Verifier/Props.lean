import Verif.Verifier.Lemmas
/-
Properties C35–C42 and C73–C75: what accepting a trust chain means.
-/
namespace Fed.Verify
open Fed

/-! ### Example federation: `ta` vouches for `im`, `im` for `leaf`. The signature number is the key number. -/
namespace Ex
def L : Lib := { usable := fun _ _ => true, verifies := fun j k => decide (j.sig = k), current := notExpired, unknownRaises := true }
/-- Statement of `a` (signed with key `k`) about `b`, whose keys are `ks`. -/
def st (a : String) (k : Key) (b : String) (ks : List Key) (exp : Int := 10000) : Jws :=
  ⟨{ iss := a, sub := b, exp := some exp, jwks := some ks }, k⟩
def jar : KeyJar := [("https://ta", [1])]
def chain : List Doc :=
  [some (st "https://ta" 1 "https://im" [2]), some (st "https://im" 2 "https://leaf" [3]), some (st "https://leaf" 3 "https://leaf" [3])]
def imChain : List Doc := [some (st "https://ta" 1 "https://im" [2]), some (st "https://im" 2 "https://im" [2])]
example : ((verifyChain L jar chain).1.toOption.bind id).map (fun tc => (tc.anchor, tc.issPath, tc.exp)) =
    some ("https://ta", ["https://leaf", "https://im", "https://ta"], 10000) := by decide +kernel
end Ex

/-! ## C35 -/

/-- C35: the first statement of an accepted chain is a JWT whose issuer the key store knew before, the issuer is the reported
anchor, and a key held for it beforehand verifies the statement. -/
theorem C35_known_anchor (L : Lib) (jar : KeyJar) (chain : List Doc) (tc : TrustChain)
    (h : (verifyChain L jar chain).1 = .ok (some tc)) :
    ∃ j rest k, chain = some j :: rest ∧ tc.anchor = j.payload.iss ∧ Dict.has jar j.payload.iss = true ∧
      k ∈ jar.keysOf j.payload.iss ∧ L.verifies j k = true := by
  obtain ⟨p, ps, x, h1, -, rfl⟩ := verifyChain_ok.1 h
  obtain ⟨⟨j, ds, rfl, ha⟩, h2, h3, -⟩ := verifyTrustChain_ok.1 h1
  have hs : statements (some j :: ds) = j :: statements ds := by simp [statements]
  rw [hs] at h2 h3
  obtain ⟨k, -, hv, hk | ⟨_, hm, -⟩⟩ := (h3 [] j _ rfl).1
  · simp only [List.map_cons, List.cons.injEq] at h2
    exact ⟨j, ds, k, rfl, by rw [h2.1], ha, hk, hv⟩
  · simp at hm

/-- C35: an unknown anchor gives no chain, and leaves the key store alone. -/
theorem C35_unknown_anchor_refused (L : Lib) (jar : KeyJar) (j : Jws) (rest : List Doc)
    (h : Dict.has jar j.payload.iss = false) : verifyChain L jar (some j :: rest) = (.ok none, jar) := by
  simp [verifyChain, verifyTrustChain, trustedAnchor, h]

example : Dict.has ([("https://other", [1])] : KeyJar) (Ex.st "https://ta" 1 "https://im" [2]).payload.iss = false := by decide

/-! ## Histories -/

/-- The key store after verifying chains one after the other; the outcomes do not matter. -/
def runAll (L : Lib) (jar : KeyJar) (h : List (List Doc)) : KeyJar := h.foldl (fun jar c => (verifyChain L jar c).2) jar

/-- `Known L jar h e k`: `k` was a key of `e` at the start, or is declared for `e` by a statement in one of the chains whose
signature verifies with a key known for its issuer. -/
inductive Known (L : Lib) (jar : KeyJar) (h : List (List Doc)) : String → Key → Prop
  | start {e k} : k ∈ jar.keysOf e → Known L jar h e k
  | declared {c j k' ks k} : c ∈ h → some j ∈ c → Known L jar h j.payload.iss k' → L.usable j k' = true → L.verifies j k' = true →
      j.payload.jwks = some ks → k ∈ ks → Known L jar h j.payload.sub k

/-- Likewise for entities: known at the start or the subject of a verified statement. -/
def KnownEntity (L : Lib) (jar : KeyJar) (h : List (List Doc)) (e : String) : Prop :=
  Dict.has jar e = true ∨ ∃ c ∈ h, ∃ j k, some j ∈ c ∧ Known L jar h j.payload.iss k ∧ L.usable j k = true ∧
    L.verifies j k = true ∧ j.payload.sub = e

theorem verifyChain_keeps (L : Lib) (jar : KeyJar) (c : List Doc) (e : String) :
    (∀ k ∈ jar.keysOf e, k ∈ (verifyChain L jar c).2.keysOf e) ∧
    (Dict.has jar e = true → Dict.has (verifyChain L jar c).2 e = true) := by
  rw [verifyChain_jar]
  rcases verifyTrustChain_jar (L := L) (jar := jar) (chain := c) with h | h <;> rw [h]
  · exact ⟨fun _ h => h, id⟩
  · exact verifyLoop_keeps _ _ _ _

theorem runAll_keeps (L : Lib) (h : List (List Doc)) : ∀ (jar : KeyJar) (e : String),
    (∀ k ∈ jar.keysOf e, k ∈ (runAll L jar h).keysOf e) ∧ (Dict.has jar e = true → Dict.has (runAll L jar h) e = true) := by
  induction h with
  | nil => intro jar e; exact ⟨fun _ h => h, id⟩
  | cons c h ih =>
    intro jar e
    have h1 := verifyChain_keeps L jar c e
    have h2 := ih (verifyChain L jar c).2 e
    exact ⟨fun k hk => h2.1 k (h1.1 k hk), fun hk => h2.2 (h1.2 hk)⟩

theorem runAll_origin (L : Lib) (jar0 : KeyJar) (H : List (List Doc)) : ∀ (h : List (List Doc)) (jar : KeyJar),
    (∀ c ∈ h, c ∈ H) → (∀ e k, k ∈ jar.keysOf e → Known L jar0 H e k) → (∀ e, Dict.has jar e = true → KnownEntity L jar0 H e) →
    (∀ e k, k ∈ (runAll L jar h).keysOf e → Known L jar0 H e k) ∧
    (∀ e, Dict.has (runAll L jar h) e = true → KnownEntity L jar0 H e) := by
  intro h
  induction h with
  | nil => intro jar _ h1 h2; exact ⟨h1, h2⟩
  | cons c h ih =>
    intro jar hsub h1 h2
    have step : (∀ e k, k ∈ (verifyChain L jar c).2.keysOf e → Known L jar0 H e k) ∧
        (∀ e, Dict.has (verifyChain L jar c).2 e = true → KnownEntity L jar0 H e) := by
      rw [verifyChain_jar]
      rcases verifyTrustChain_jar (L := L) (jar := jar) (chain := c) with h | h <;> rw [h]
      · exact ⟨h1, h2⟩
      · refine verifyLoop_origin c jar [] (fun j k' hj hk hu hv => ⟨?_, fun ks k hks hk' => ?_⟩) h1 h2
        · exact Or.inr ⟨c, hsub c (by simp), j, k', hj, hk, hu, hv, rfl⟩
        · exact .declared (hsub c (by simp)) hj hk hu hv hks hk'
    exact ih _ (fun c' hc' => hsub c' (by simp [hc'])) step.1 step.2

/-! ## C38 -/

/-- C38: over any history of verification attempts, no key is lost. -/
theorem C38_no_key_lost (L : Lib) (jar : KeyJar) (h : List (List Doc)) (e : String) (k : Key) (hk : k ∈ jar.keysOf e) :
    k ∈ (runAll L jar h).keysOf e :=
  (runAll_keeps L h jar e).1 k hk

/-- C38: and every key present was there at the start or was declared for the entity by a statement that verified, with a key
that was come by in the same way. -/
theorem C38_only_vouched_keys (L : Lib) (jar : KeyJar) (h : List (List Doc)) (e : String) (k : Key)
    (hk : k ∈ (runAll L jar h).keysOf e) : Known L jar h e k :=
  (runAll_origin L jar h h jar (fun _ h => h) (fun _ _ h => .start h) (fun _ h => Or.inl h)).1 e k hk

/-- C38: the keys an accepted chain declares are held afterwards. -/
theorem C38_declared_keys_held (L : Lib) (jar : KeyJar) (chain : List Doc) (tc : TrustChain)
    (h : (verifyChain L jar chain).1 = .ok (some tc)) (p : Payload) (hp : p ∈ tc.verified) (ks : List Key) (hks : p.jwks = some ks)
    (k : Key) (hk : k ∈ ks) : k ∈ (verifyChain L jar chain).2.keysOf p.sub := by
  obtain ⟨q, qs, x, h1, -, rfl⟩ := verifyChain_ok.1 h
  obtain ⟨r, hr, hj⟩ := verifyTrustChain_jar_ok h1
  obtain ⟨-, h2, -, -⟩ := verifyTrustChain_ok.1 h1
  rw [verifyChain_jar, hj, verifyLoop_jar hr]
  right
  simp only at hp
  rw [h2, List.mem_map] at hp
  obtain ⟨j, hj1, rfl⟩ := hp
  exact ⟨j, hj1, rfl, ks, hks, hk⟩

example : 3 ∈ (runAll Ex.L Ex.jar [Ex.imChain, Ex.chain]).keysOf "https://leaf" := by decide +kernel
/-- A failing attempt leaves what verified before the failure. -/
example : (runAll Ex.L Ex.jar [[some (Ex.st "https://ta" 1 "https://im" [2]), some (Ex.st "https://im" 9 "https://leaf" [3])]]) =
    [("https://ta", [1]), ("https://im", [2])] := by decide +kernel

/-! ## C36 -/

/-- C36 in full: after any history, the anchor of an accepted chain is one of the entities known at the start. -/
def C36_full : Prop :=
  ∀ (L : Lib) (jar : KeyJar) (h : List (List Doc)) (chain : List Doc) (tc : TrustChain),
    (verifyChain L (runAll L jar h) chain).1 = .ok (some tc) → Dict.has jar tc.anchor = true

/-- C36 does not hold: an intermediate of an earlier chain is accepted as trust anchor. -/
theorem C36_intermediate_violation : ¬ C36_full := by
  intro h
  have h1 : (verifyChain Ex.L (runAll Ex.L Ex.jar [Ex.imChain]) Ex.chain.tail).1 = .ok (some
      ⟨"https://im", ["https://leaf", "https://im"], 10000,
        [(Ex.st "https://im" 2 "https://leaf" [3]).payload, (Ex.st "https://leaf" 3 "https://leaf" [3]).payload], Ex.chain.tail, []⟩) := by
    decide +kernel
  have := h Ex.L Ex.jar [Ex.imChain] Ex.chain.tail _ h1
  exact absurd this (by decide)

/-- C36 does not hold: even a leaf of an earlier chain is, on the strength of its own configuration alone. -/
theorem C36_self_anchored_violation : ¬ C36_full := by
  intro h
  let ec := Ex.st "https://leaf" 3 "https://leaf" [3]
  have h1 : (verifyChain Ex.L (runAll Ex.L Ex.jar [Ex.chain]) [some ec]).1 =
      .ok (some ⟨"https://leaf", ["https://leaf"], 10000, [ec.payload], [some ec], []⟩) := by decide +kernel
  have := h Ex.L Ex.jar [Ex.chain] [some ec] _ h1
  exact absurd this (by decide)

/-- C36 as far as it holds: the anchor was known at the start or is the subject of a statement that verified earlier.
Missing: that it is a configured trust anchor. -/
theorem C36_anchor_vouched_partial (L : Lib) (jar : KeyJar) (h : List (List Doc)) (chain : List Doc) (tc : TrustChain)
    (hc : (verifyChain L (runAll L jar h) chain).1 = .ok (some tc)) : KnownEntity L jar h tc.anchor := by
  obtain ⟨j, rest, k, rfl, ha, hj, -⟩ := C35_known_anchor L _ _ tc hc
  rw [ha]
  exact (runAll_origin L jar h h jar (fun _ h => h) (fun _ _ h => .start h) (fun _ h => Or.inl h)).2 _ hj

/-- C36 for a history in which nothing verified (no chain's first statement is signed with a known key): the anchor is a
configured one. -/
theorem C36_no_success_partial (L : Lib) (jar : KeyJar) (h : List (List Doc)) (chain : List Doc) (tc : TrustChain)
    (hn : ∀ c ∈ h, ∀ j k, some j ∈ c → k ∈ jar.keysOf j.payload.iss → L.verifies j k = false)
    (hc : (verifyChain L (runAll L jar h) chain).1 = .ok (some tc)) : Dict.has jar tc.anchor = true := by
  have hno : ∀ e k, Known L jar h e k → k ∈ jar.keysOf e := by
    intro e k hk
    induction hk with
    | start h => exact h
    | declared hc hj _ _ hv _ _ ih => rw [hn _ hc _ _ hj ih] at hv; cases hv
  rcases C36_anchor_vouched_partial L jar h chain tc hc with h' | ⟨c, hc, j, k, hj, hk, -, hv, -⟩
  · exact h'
  · rw [hn c hc j k hj (hno _ _ hk)] at hv; cases hv

/-! ## C37 -/

/-- C37: each statement of an accepted chain is signed with a key known for its issuer beforehand, or declared for that issuer by
an earlier statement of the chain. -/
theorem C37_keys_from_above (L : Lib) (jar : KeyJar) (chain : List Doc) (tc : TrustChain)
    (h : (verifyChain L jar chain).1 = .ok (some tc)) (pre : List Jws) (j : Jws) (post : List Jws)
    (hs : statements chain = pre ++ j :: post) :
    ∃ k, L.usable j k = true ∧ L.verifies j k = true ∧
      (k ∈ jar.keysOf j.payload.iss ∨ ∃ j' ∈ pre, j'.payload.sub = j.payload.iss ∧ ∃ ks, j'.payload.jwks = some ks ∧ k ∈ ks) := by
  obtain ⟨p, ps, x, h1, -, rfl⟩ := verifyChain_ok.1 h
  exact ((verifyTrustChain_ok.1 h1).2.2.1 pre j post hs).1

/-! ## C42 -/

/-- C42: anchor, issuer path and verified chain are those of the supplied statements. -/
theorem C42_describes_chain (L : Lib) (jar : KeyJar) (chain : List Doc) (tc : TrustChain)
    (h : (verifyChain L jar chain).1 = .ok (some tc)) :
    tc.chain = chain ∧ tc.verified = (statements chain).map (·.payload) ∧
    tc.issPath = ((statements chain).map (·.payload.iss)).reverse ∧
    tc.issPath.getLast? = some tc.anchor := by
  obtain ⟨p, ps, x, h1, -, rfl⟩ := verifyChain_ok.1 h
  have h2 := (verifyTrustChain_ok.1 h1).2.1
  refine ⟨rfl, h2, ?_, by simp⟩
  simp only [h2, List.map_map]
  rfl

/-! ## C39 -/

/-- C39 in full: the expiry of an accepted chain is the least of its statements'. -/
def C39_full : Prop :=
  ∀ (L : Lib) (jar : KeyJar) (chain : List Doc) (tc : TrustChain), (verifyChain L jar chain).1 = .ok (some tc) →
    (∃ p ∈ tc.verified, p.exp = some tc.exp) ∧ ∀ p ∈ tc.verified, ∃ x, p.exp = some x ∧ tc.exp ≤ x

/-- C39 does not hold for times before 1970: the first expiry below zero is forgotten. -/
theorem C39_negative_violation : ¬ C39_full := by
  intro h
  let c : List Doc := [some (Ex.st "https://ta" 1 "https://leaf" [3] (-5)), some (Ex.st "https://leaf" 3 "https://leaf" [3])]
  have h1 : (verifyChain Ex.L Ex.jar c).1 = .ok (some ⟨"https://ta", ["https://leaf", "https://ta"], 10000,
      [(Ex.st "https://ta" 1 "https://leaf" [3] (-5)).payload, (Ex.st "https://leaf" 3 "https://leaf" [3]).payload], c, []⟩) := by
    decide +kernel
  obtain ⟨x, hx, hle⟩ := (h _ _ _ _ h1).2 (Ex.st "https://ta" 1 "https://leaf" [3] (-5)).payload (by simp)
  simp only [Ex.st, Option.some.injEq] at hx
  subst hx
  exact absurd hle (by decide)

theorem expiresLoop_spec : ∀ {ps : List Payload} {e x : Int}, expiresLoop ps e = .ok x →
    (x = e ∧ (ps = [] ∨ 0 ≤ e) ∨ ∃ p ∈ ps, p.exp = some x) ∧
    ((∀ p ∈ ps, ∀ y, p.exp = some y → 0 ≤ y) → (0 ≤ e → x ≤ e) ∧ ∀ p ∈ ps, ∃ y, p.exp = some y ∧ x ≤ y)
  | [], e, x, h => by
      simp only [expiresLoop, Except.ok.injEq] at h
      subst h
      simp
  | p :: ps, e, x, h => by
      unfold expiresLoop Payload.getExp at h
      cases hp : p.exp with
      | none => rw [hp] at h; cases h
      | some y =>
        rw [hp] at h
        simp only [ok_bind, ge_iff_le] at h
        have take : expiresLoop ps y = .ok x → (e < 0 ∨ y < e) →
            (x = e ∧ (p :: ps = [] ∨ 0 ≤ e) ∨ ∃ q ∈ p :: ps, q.exp = some x) ∧
            ((∀ q ∈ p :: ps, ∀ z, q.exp = some z → 0 ≤ z) → (0 ≤ e → x ≤ e) ∧ ∀ q ∈ p :: ps, ∃ z, q.exp = some z ∧ x ≤ z) := by
          intro h he
          obtain ⟨i1, i2⟩ := expiresLoop_spec h
          constructor
          · right
            rcases i1 with ⟨rfl, -⟩ | ⟨q, hq, hqx⟩
            · exact ⟨p, by simp, hp⟩
            · exact ⟨q, by simp [hq], hqx⟩
          · intro hz
            obtain ⟨i3, i4⟩ := i2 fun q hq => hz q (by simp [hq])
            have h0 := hz p (by simp) y hp
            have := i3 h0
            refine ⟨fun _ => by omega, fun q hq => ?_⟩
            rcases List.mem_cons.1 hq with rfl | hq
            · exact ⟨y, hp, this⟩
            · exact i4 q hq
        split at h
        · rename_i he
          split at h
          · rename_i hy; exact take h (Or.inr hy)
          · rename_i hy
            obtain ⟨i1, i2⟩ := expiresLoop_spec h
            constructor
            · rcases i1 with ⟨rfl, -⟩ | ⟨q, hq, hqx⟩
              · exact Or.inl ⟨rfl, Or.inr he⟩
              · exact Or.inr ⟨q, by simp [hq], hqx⟩
            · intro hz
              obtain ⟨i3, i4⟩ := i2 fun q hq => hz q (by simp [hq])
              have := i3 he
              refine ⟨fun _ => this, fun q hq => ?_⟩
              rcases List.mem_cons.1 hq with rfl | hq
              · exact ⟨y, hp, by omega⟩
              · exact i4 q hq
        · rename_i he; exact take h (Or.inl (by omega))

/-- C39 as far as it holds: the reported expiry is that of one of the statements, and, when no statement expired before 1970, the
least. -/
theorem C39_minimum_partial (L : Lib) (jar : KeyJar) (chain : List Doc) (tc : TrustChain)
    (h : (verifyChain L jar chain).1 = .ok (some tc)) :
    (∃ p ∈ tc.verified, p.exp = some tc.exp) ∧
    ((∀ p ∈ tc.verified, ∀ y, p.exp = some y → 0 ≤ y) → ∀ p ∈ tc.verified, ∃ x, p.exp = some x ∧ tc.exp ≤ x) := by
  obtain ⟨p, ps, x, -, h2, rfl⟩ := verifyChain_ok.1 h
  obtain ⟨i1, i2⟩ := expiresLoop_spec h2
  refine ⟨?_, fun hz => (i2 hz).2⟩
  rcases i1 with ⟨-, h | h⟩ | h
  · cases h
  · exact absurd h (by decide)
  · exact h

/-! ## C40 -/

/-- C40 in full: in an accepted chain each statement's subject is the issuer of the next. -/
def C40_full : Prop :=
  ∀ (L : Lib) (jar : KeyJar) (chain : List Doc) (tc : TrustChain), (verifyChain L jar chain).1 = .ok (some tc) →
    ∀ pre a b post, tc.verified = pre ++ a :: b :: post → a.sub = b.iss

/-- C40 does not hold: a statement of the anchor about `im`, and then the configuration of `leaf`, whose keys are already in the
key store, make an accepted chain. -/
theorem C40_unlinked_violation : ¬ C40_full := by
  intro h
  let c : List Doc := [some (Ex.st "https://ta" 1 "https://im" [2]), some (Ex.st "https://leaf" 3 "https://leaf" [3])]
  have h1 : (verifyChain Ex.L [("https://ta", [1]), ("https://leaf", [3])] c).1 = .ok (some ⟨"https://ta", ["https://leaf", "https://ta"], 10000,
      [(Ex.st "https://ta" 1 "https://im" [2]).payload, (Ex.st "https://leaf" 3 "https://leaf" [3]).payload], c, []⟩) := by
    decide +kernel
  have := h _ _ _ _ h1 [] _ _ [] rfl
  exact absurd this (by decide)

/-- C40 does not hold even when the key store has only the anchor's keys: the anchor may be followed by the anchor. -/
theorem C40_fresh_violation : ¬ ∀ (L : Lib) (jar : KeyJar) (chain : List Doc) (tc : TrustChain),
    (verifyChain L jar chain).1 = .ok (some tc) → (∀ e, Dict.has jar e = true → e = tc.anchor) →
    ∀ pre a b post, tc.verified = pre ++ a :: b :: post → a.sub = b.iss := by
  intro h
  let c : List Doc := [some (Ex.st "https://ta" 1 "https://im" [2]), some (Ex.st "https://ta" 1 "https://leaf" [3])]
  have h1 : (verifyChain Ex.L Ex.jar c).1 = .ok (some ⟨"https://ta", ["https://ta", "https://ta"], 10000,
      [(Ex.st "https://ta" 1 "https://im" [2]).payload, (Ex.st "https://ta" 1 "https://leaf" [3]).payload], c, []⟩) := by
    decide +kernel
  have := h _ _ _ _ h1 (by
    intro e he
    simp only [Ex.jar, Dict.has, Dict.get?_cons, Dict.get?_nil] at he
    split at he
    · rename_i h; exact h.symm
    · cases he) [] _ _ [] rfl
  exact absurd this (by decide)

/-- C40 as far as it holds: when the key store has only the anchor's keys, the issuer of each statement is the anchor or the
subject of an earlier statement of the chain. Missing: of the one just before it. -/
theorem C40_fresh_store_partial (L : Lib) (jar : KeyJar) (chain : List Doc) (tc : TrustChain)
    (h : (verifyChain L jar chain).1 = .ok (some tc)) (hj : ∀ e k, k ∈ jar.keysOf e → e = tc.anchor)
    (pre : List Payload) (b : Payload) (post : List Payload) (hs : tc.verified = pre ++ b :: post) :
    b.iss = tc.anchor ∨ ∃ a ∈ pre, a.sub = b.iss := by
  have h2 := (C42_describes_chain L jar chain tc h).2.1
  rw [h2, List.map_eq_append_iff] at hs
  obtain ⟨pre', r, h3, rfl, h4⟩ := hs
  rw [List.map_eq_cons_iff] at h4
  obtain ⟨j, post', rfl, rfl, rfl⟩ := h4
  obtain ⟨k, -, -, h5 | ⟨j', h5, h6, -⟩⟩ := C37_keys_from_above L jar chain tc h pre' j post' h3
  · exact Or.inl (hj _ _ h5)
  · exact Or.inr ⟨j'.payload, by simp only [List.mem_map]; exact ⟨j', h5, rfl⟩, h6⟩

example : ∀ e k, k ∈ Ex.jar.keysOf e → e = "https://ta" := by
  intro e k h
  simp only [Ex.jar, KeyJar.keysOf, Dict.get?_cons, Dict.get?_nil] at h
  split at h
  · rename_i h'; exact h'.symm
  · simp at h

/-! ## C41 -/

/-- C41 in full: whatever the time, a chain accepted at that time has no expired statement. The verifier has no clock, so the
time appears only in the conclusion. -/
def C41_full : Prop :=
  ∀ (L : Lib) (jar : KeyJar) (chain : List Doc) (tc : TrustChain) (now : Int), (verifyChain L jar chain).1 = .ok (some tc) →
    ∀ p ∈ tc.verified, ∀ x, p.exp = some x → now ≤ x

/-- C41 does not hold: a chain is accepted long after all its statements have expired. -/
theorem C41_expired_violation : ¬ C41_full := by
  intro h
  have h1 : (verifyChain Ex.L Ex.jar Ex.imChain).1 = .ok (some ⟨"https://ta", ["https://im", "https://ta"], 10000,
      [(Ex.st "https://ta" 1 "https://im" [2]).payload, (Ex.st "https://im" 2 "https://im" [2]).payload], Ex.imChain, []⟩) := by
    decide +kernel
  have := h _ _ _ _ 20000 h1 (Ex.st "https://ta" 1 "https://im" [2]).payload (by simp) 10000 rfl
  exact absurd this (by decide)

/-- C41 as far as it holds: the accepted chain says it is expired exactly when one of its statements is (none dating before
1970). Missing: the verifier does not ask. -/
theorem C41_reports_expiry_partial (L : Lib) (jar : KeyJar) (chain : List Doc) (tc : TrustChain) (now : Int)
    (h : (verifyChain L jar chain).1 = .ok (some tc)) (hz : ∀ p ∈ tc.verified, ∀ y, p.exp = some y → 0 ≤ y) :
    tc.isExpired now = true ↔ ∃ p ∈ tc.verified, ∃ x, p.exp = some x ∧ x < now := by
  obtain ⟨⟨p, hp, hpx⟩, h2⟩ := C39_minimum_partial L jar chain tc h
  simp only [TrustChain.isExpired, decide_eq_true_eq]
  constructor
  · intro hn; exact ⟨p, hp, _, hpx, hn⟩
  · rintro ⟨q, hq, x, hx, hn⟩
    obtain ⟨y, hy, hle⟩ := h2 hz q hq
    rw [hx] at hy; cases hy
    omega

/-! ## C73 -/

theorem wellSigned_mono {L : Lib} {jar jar' : KeyJar} {n m : Nat} {js : List Jws} (hk : ∀ e k, k ∈ jar.keysOf e → k ∈ jar'.keysOf e)
    (h : WellSigned L jar n m js) : WellSigned L jar' n m js := by
  intro pre j post e
  obtain ⟨⟨k, h1, h2, h3⟩, h4⟩ := h pre j post e
  exact ⟨⟨k, h1, h2, h3.imp (hk _ _) id⟩, h4⟩

theorem verifyChain_mono {L : Lib} {jar jar' : KeyJar} {chain : List Doc} {tc : TrustChain}
    (hk : ∀ e k, k ∈ jar.keysOf e → k ∈ jar'.keysOf e) (hh : ∀ e, Dict.has jar e = true → Dict.has jar' e = true)
    (h : (verifyChain L jar chain).1 = .ok (some tc)) : (verifyChain L jar' chain).1 = .ok (some tc) := by
  rw [verifyChain_ok] at h ⊢
  obtain ⟨p, ps, x, h1, h2, rfl⟩ := h
  refine ⟨p, ps, x, ?_, h2, rfl⟩
  rw [verifyTrustChain_ok] at h1 ⊢
  obtain ⟨⟨j, ds, h3, h4⟩, h5, h6, h7⟩ := h1
  exact ⟨⟨j, ds, h3, hh _ h4⟩, h5, wellSigned_mono hk h6, h7⟩

/-- C73: a chain that is accepted once is accepted, with the same result, after any further verifications. -/
theorem C73_acceptance_is_stable (L : Lib) (jar : KeyJar) (h h' : List (List Doc)) (chain : List Doc) (tc : TrustChain)
    (hc : (verifyChain L (runAll L jar h) chain).1 = .ok (some tc)) :
    (verifyChain L (runAll L jar (h ++ chain :: h')) chain).1 = .ok (some tc) := by
  have : runAll L jar (h ++ chain :: h') = runAll L (verifyChain L (runAll L jar h) chain).2 h' := by
    simp [runAll, List.foldl_append]
  rw [this]
  refine verifyChain_mono (fun e k hk => ?_) (fun e he => ?_) hc
  · exact (runAll_keeps L h' _ e).1 k ((verifyChain_keeps L _ _ e).1 k hk)
  · exact (runAll_keeps L h' _ e).2 ((verifyChain_keeps L _ _ e).2 he)

/-- C73: a failed attempt at some chain does not keep another chain from being accepted. -/
theorem C73_attempts_do_not_harm (L : Lib) (jar : KeyJar) (h : List (List Doc)) (chain : List Doc) (tc : TrustChain)
    (hc : (verifyChain L jar chain).1 = .ok (some tc)) : (verifyChain L (runAll L jar h) chain).1 = .ok (some tc) :=
  verifyChain_mono (fun e k => (runAll_keeps L h jar e).1 k) (fun e => (runAll_keeps L h jar e).2) hc

example : ∃ tc, (verifyChain Ex.L (runAll Ex.L Ex.jar [Ex.imChain]) Ex.chain).1 = .ok (some tc) := by
  have : ((verifyChain Ex.L (runAll Ex.L Ex.jar [Ex.imChain]) Ex.chain).1.toOption.bind id).isSome = true := by decide +kernel
  generalize (verifyChain Ex.L (runAll Ex.L Ex.jar [Ex.imChain]) Ex.chain).1 = r at this
  rcases r with _ | _ | tc
  · cases this
  · cases this
  · exact ⟨tc, rfl⟩

/-! ## C74 -/

/-- C74 in full: each statement but the first is signed with a key that the statement above it lists. -/
def C74_full : Prop :=
  ∀ (L : Lib) (jar : KeyJar) (chain : List Doc) (tc : TrustChain), (verifyChain L jar chain).1 = .ok (some tc) →
    ∀ pre a b post, statements chain = pre ++ a :: b :: post →
      ∃ k ks, a.payload.jwks = some ks ∧ k ∈ ks ∧ L.verifies b k = true

/-- C74 does not hold: a key that the superior listed once but has withdrawn since is still accepted. -/
theorem C74_withdrawn_key_violation : ¬ C74_full := by
  intro h
  -- key 2 was listed for `im` earlier; now the anchor lists key 7 only
  let c : List Doc := [some (Ex.st "https://ta" 1 "https://im" [7]), some (Ex.st "https://im" 2 "https://leaf" [3]),
    some (Ex.st "https://leaf" 3 "https://leaf" [3])]
  have h1 : (verifyChain Ex.L (runAll Ex.L Ex.jar [Ex.imChain]) c).1 = .ok (some ⟨"https://ta", ["https://leaf", "https://im", "https://ta"], 10000,
      [(Ex.st "https://ta" 1 "https://im" [7]).payload, (Ex.st "https://im" 2 "https://leaf" [3]).payload,
       (Ex.st "https://leaf" 3 "https://leaf" [3]).payload], c, []⟩) := by
    decide +kernel
  obtain ⟨k, ks, h2, h3, h4⟩ := h _ _ _ _ h1 [] (Ex.st "https://ta" 1 "https://im" [7]) (Ex.st "https://im" 2 "https://leaf" [3])
    [Ex.st "https://leaf" 3 "https://leaf" [3]] rfl
  simp only [Ex.st, Option.some.injEq] at h2
  subst h2
  simp only [List.mem_singleton] at h3
  subst h3
  exact absurd h4 (by decide)

/-- C74 as far as it holds: when nothing was known about the issuer of a statement before, and only one statement above it is
about that issuer, it is signed with a key that one lists. Missing: keys from earlier chains count as well. -/
theorem C74_fresh_issuer_partial (L : Lib) (jar : KeyJar) (chain : List Doc) (tc : TrustChain)
    (h : (verifyChain L jar chain).1 = .ok (some tc)) (pre : List Jws) (b : Jws) (post : List Jws)
    (hs : statements chain = pre ++ b :: post) (hn : jar.keysOf b.payload.iss = []) (a : Jws)
    (ha : ∀ j ∈ pre, j.payload.sub = b.payload.iss → j = a) :
    a ∈ pre ∧ a.payload.sub = b.payload.iss ∧ ∃ k ks, a.payload.jwks = some ks ∧ k ∈ ks ∧ L.verifies b k = true := by
  obtain ⟨k, -, h2, h3 | ⟨j', h3, h4, ks, h5, h6⟩⟩ := C37_keys_from_above L jar chain tc h pre b post hs
  · rw [hn] at h3; simp at h3
  · have := ha j' h3 h4
    subst this
    exact ⟨h3, h4, k, ks, h5, h6, h2⟩

/-! ## C75 -/

theorem restrictLoop_free : ∀ (ps : List Payload) (cur : Int) (acc : Constraints.Acc), (∀ p ∈ ps, p.constraints = none) →
    Constraints.restrictLoop (ps.map toC) cur false acc = .ok (some acc)
  | [], cur, acc, _ => rfl
  | p :: ps, cur, acc, h => by
      have hp : (toC p).constraints = none := h p (by simp)
      simp only [List.map_cons, Constraints.restrictLoop, hp]
      exact restrictLoop_free ps cur acc fun q hq => h q (by simp [hq])

theorem expiresLoop_total : ∀ (ps : List Payload) (e : Int), (∀ p ∈ ps, ∃ x, p.exp = some x) → ∃ x, expiresLoop ps e = .ok x
  | [], e, _ => ⟨e, rfl⟩
  | p :: ps, e, h => by
      obtain ⟨x, hx⟩ := h p (by simp)
      have ih := fun e => expiresLoop_total ps e fun q hq => h q (by simp [hq])
      unfold expiresLoop Payload.getExp
      rw [hx]
      simp only [ok_bind]
      split
      · split <;> exact ih _
      · exact ih _

/-- A chain is accepted if it is well signed and constraint checking has no objections. -/
theorem verifyChain_accepts (L : Lib) (jar : KeyJar) (j : Jws) (js : List Jws) (hj : Dict.has jar j.payload.iss = true)
    (hsig : ∀ pre b post, j :: js = pre ++ b :: post → ∃ k, L.usable b k = true ∧ L.verifies b k = true ∧
      (k ∈ jar.keysOf b.payload.iss ∨ ∃ a ∈ pre, a.payload.sub = b.payload.iss ∧ ∃ ks, a.payload.jwks = some ks ∧ k ∈ ks))
    (hkeys : ∀ pre b post, j :: js = pre ++ b :: post → b.payload.jwks = none → post = [])
    (hexp : ∀ b ∈ j :: js, ∃ x, b.payload.exp = some x)
    (hcon : ∀ leaf, ((j :: js).map (·.payload)).getLast? = some leaf → meets ((j :: js).map (·.payload)).dropLast leaf = .ok true) :
    ∃ tc, (verifyChain L jar ((j :: js).map some)).1 = .ok (some tc) ∧ tc.anchor = j.payload.iss ∧
      tc.verified = (j :: js).map (·.payload) ∧ tc.chain = (j :: js).map some := by
  have hst : statements ((j :: js).map some) = j :: js := by simp [statements, List.filterMap_map]
  obtain ⟨x, hx⟩ := expiresLoop_total ((j :: js).map (·.payload)) (-1) (by
    intro p hp
    obtain ⟨b, hb, rfl⟩ := List.mem_map.1 hp
    exact hexp b hb)
  refine ⟨⟨j.payload.iss, _, x, (j :: js).map (·.payload), _, []⟩, verifyChain_ok.2 ⟨j.payload, js.map (fun b : Jws => b.payload), x, ?_, by exact hx, rfl⟩, rfl, rfl, rfl⟩
  rw [verifyTrustChain_ok]
  refine ⟨⟨j, js.map some, rfl, hj⟩, by rw [hst]; rfl, ?_, ?_⟩
  · rw [hst]
    intro pre b post e
    refine ⟨hsig pre b post e, fun hn => ?_⟩
    have := hkeys pre b post e hn
    subst this
    simp [e]
  · apply hcon
    simp [List.getLast?_eq_some_getLast]

/-- C75: a chain of statements without constraints is accepted whenever its first issuer is known, each statement has an expiry
and is signed with a known key or one declared above it, and each but the last lists keys. -/
theorem C75_well_signed_accepted (L : Lib) (jar : KeyJar) (j : Jws) (js : List Jws) (hj : Dict.has jar j.payload.iss = true)
    (hsig : ∀ pre b post, j :: js = pre ++ b :: post → ∃ k, L.usable b k = true ∧ L.verifies b k = true ∧
      (k ∈ jar.keysOf b.payload.iss ∨ ∃ a ∈ pre, a.payload.sub = b.payload.iss ∧ ∃ ks, a.payload.jwks = some ks ∧ k ∈ ks))
    (hkeys : ∀ pre b post, j :: js = pre ++ b :: post → b.payload.jwks = none → post = [])
    (hexp : ∀ b ∈ j :: js, ∃ x, b.payload.exp = some x) (hcon : ∀ b ∈ j :: js, b.payload.constraints = none) :
    ∃ tc, (verifyChain L jar ((j :: js).map some)).1 = .ok (some tc) ∧ tc.anchor = j.payload.iss ∧
      tc.verified = (j :: js).map (·.payload) := by
  obtain ⟨tc, h1, h2, h3, -⟩ := verifyChain_accepts L jar j js hj hsig hkeys hexp (by
    intro leaf _
    have hc : ∀ p ∈ (j :: js).map (·.payload), p.constraints = none := by
      intro p hp
      obtain ⟨b, hb, rfl⟩ := List.mem_map.1 hp
      exact hcon b hb
    have hd : ∀ p ∈ ((j :: js).map (·.payload)).dropLast, p.constraints = none := fun p hp => hc p (List.dropLast_subset _ hp)
    unfold meets Constraints.meetsRestrictions
    rw [restrictLoop_free _ _ _ hd]
    simp [Constraints.checkNames])
  exact ⟨tc, h1, h2, h3⟩

theorem expiresLoop_exps : ∀ {ps : List Payload} {e x : Int}, expiresLoop ps e = .ok x → ∀ p ∈ ps, ∃ y, p.exp = some y
  | [], _, _, _, p, hp => by simp at hp
  | q :: ps, e, x, h, p, hp => by
      unfold expiresLoop Payload.getExp at h
      cases hq : q.exp with
      | none => rw [hq] at h; cases h
      | some y =>
        rw [hq] at h
        simp only [ok_bind] at h
        rcases List.mem_cons.1 hp with rfl | hp
        · exact ⟨y, hq⟩
        · split at h
          · split at h <;> exact expiresLoop_exps h p hp
          · exact expiresLoop_exps h p hp

/-- C75, the other way: nothing less is accepted, with or without constraints. -/
theorem C75_nothing_less (L : Lib) (jar : KeyJar) (j : Jws) (js : List Jws) (tc : TrustChain)
    (h : (verifyChain L jar ((j :: js).map some)).1 = .ok (some tc)) :
    Dict.has jar j.payload.iss = true ∧
    (∀ pre b post, j :: js = pre ++ b :: post → ∃ k, L.usable b k = true ∧ L.verifies b k = true ∧
      (k ∈ jar.keysOf b.payload.iss ∨ ∃ a ∈ pre, a.payload.sub = b.payload.iss ∧ ∃ ks, a.payload.jwks = some ks ∧ k ∈ ks)) ∧
    (∀ pre b post, j :: js = pre ++ b :: post → b.payload.jwks = none → post = []) ∧
    ∀ b ∈ j :: js, ∃ x, b.payload.exp = some x := by
  have hst : statements ((j :: js).map some) = j :: js := by simp [statements, List.filterMap_map]
  obtain ⟨p, ps, x, h1, h2, -⟩ := verifyChain_ok.1 h
  obtain ⟨⟨j', ds, h3, h4⟩, h5, h6, -⟩ := verifyTrustChain_ok.1 h1
  rw [hst] at h5 h6
  cases h3
  refine ⟨h4, fun pre b post e => (h6 pre b post e).1, fun pre b post e hn => ?_, fun b hb => ?_⟩
  · have h7 := (h6 pre b post e).2 hn
    have h8 : (j :: js).length = (pre ++ b :: post).length := by rw [e]
    rw [List.length_map, h8] at h7
    simp at h7
    exact h7
  · refine expiresLoop_exps h2 b.payload ?_
    rw [h5]
    exact List.mem_map.2 ⟨b, hb, rfl⟩

-- the chain of the example is one of these
example : Ex.chain = ([Ex.st "https://ta" 1 "https://im" [2], Ex.st "https://im" 2 "https://leaf" [3], Ex.st "https://leaf" 3 "https://leaf" [3]] : List Jws).map some ∧
    ((verifyChain Ex.L Ex.jar Ex.chain).1.toOption.bind id).isSome = true := by decide +kernel

end Fed.Verify
