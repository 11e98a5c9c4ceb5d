import Verif.Client.RegisterProps
import Verif.Chains.ServedProps
/-
A client of a well-run federation takes the response of a provider of the federation (the first part of property C178).
-/
namespace Fed.Client
open Fed Verify Chains

/-- One key jar has all that another has. -/
def Has (jar jar' : KeyJar) : Prop := (∀ e k, k ∈ jar.keysOf e → k ∈ jar'.keysOf e) ∧ ∀ e, Dict.has jar e = true → Dict.has jar' e = true

theorem Has.refl (jar : KeyJar) : Has jar jar := ⟨fun _ _ h => h, fun _ h => h⟩

theorem Has.trans {a b c : KeyJar} (h : Has a b) (h' : Has b c) : Has a c := ⟨fun e k x => h'.1 e k (h.1 e k x), fun e x => h'.2 e (h.2 e x)⟩

theorem has_verifyChain (L : Lib) (jar : KeyJar) (c : List Doc) : Has jar (verifyChain L jar c).2 :=
  ⟨fun e => (verifyChain_keeps L jar c e).1, fun e => (verifyChain_keeps L jar c e).2⟩

/-- What is learned from a chain that is well signed, whatever constraint checking says. -/
theorem verifyChain_learns (L : Lib) (jar : KeyJar) (j : Jws) (js : List Jws) (hj : Dict.has jar j.payload.iss = true)
    (hsig : ∀ pre b post, j :: js = pre ++ b :: post → ∃ k, L.usable b k = true ∧ L.verifies b k = true ∧
      (k ∈ jar.keysOf b.payload.iss ∨ ∃ a ∈ pre, a.payload.sub = b.payload.iss ∧ ∃ ks, a.payload.jwks = some ks ∧ k ∈ ks))
    (hkeys : ∀ b ∈ j :: js, b.payload.jwks ≠ none)
    (hexp : ∀ b ∈ j :: js, ∃ x, b.payload.exp = some x)
    (hcon : ∀ leaf, ((j :: js).map (·.payload)).getLast? = some leaf → ∃ b, meets ((j :: js).map (·.payload)).dropLast leaf = .ok b) :
    (∃ r, (verifyChain L jar ((j :: js).map some)).1 = .ok r) ∧
    ∀ e k, k ∈ (verifyChain L jar ((j :: js).map some)).2.keysOf e ↔ k ∈ jar.keysOf e ∨ ∃ b ∈ j :: js, b.payload.sub = e ∧ ∃ ks, b.payload.jwks = some ks ∧ k ∈ ks := by
  have hst : statements ((j :: js).map some) = j :: js := by simp [statements, List.filterMap_map]
  have hloop : (verifyLoop L (((j :: js).map some).length - 1) ((j :: js).map some) jar []).1 = .ok ((j :: js).map (·.payload)) := by
    rw [verifyLoop_ok, hst]
    refine ⟨by simp, fun pre b post e => ⟨hsig pre b post e, fun hn => absurd hn (hkeys b (by rw [e]; simp))⟩⟩
  have hjar := verifyLoop_jar hloop
  rw [hst] at hjar
  obtain ⟨x, hx⟩ := expiresLoop_total ((j :: js).map (·.payload)) (-1) (by
    intro p hp
    obtain ⟨b, hb, rfl⟩ := List.mem_map.1 hp
    exact hexp b hb)
  have hlast : ((j :: js).map (·.payload)).getLast? = some (((j :: js).map (·.payload)).getLast (by simp)) := List.getLast?_eq_some_getLast (by simp)
  obtain ⟨b, hb⟩ := hcon _ hlast
  have htc : verifyTrustChain L jar ((j :: js).map some) = (.ok (if b then (j :: js).map (·.payload) else []), (verifyLoop L (((j :: js).map some).length - 1) ((j :: js).map some) jar []).2) := by
    rw [List.map_cons] at hloop ⊢
    unfold verifyTrustChain
    simp only [trustedAnchor, hj]
    generalize verifyLoop L ((some j :: js.map some).length - 1) (some j :: js.map some) jar [] = r at hloop ⊢
    obtain ⟨r1, jar'⟩ := r
    simp only at hloop
    subst hloop
    simp only [hlast, hb]
  refine ⟨?_, ?_⟩
  · unfold verifyChain
    rw [htc]
    cases b with
    | false => exact ⟨none, rfl⟩
    | true =>
      simp only [if_true, List.map_cons] at hx ⊢
      have hx' : expiresAt (j.payload :: js.map (·.payload)) = .ok x := hx
      simp only [hx']
      exact ⟨_, rfl⟩
  · rw [verifyChain_jar, htc]
    exact hjar

/-- Verifying one chain after the other raises nothing and keeps what each of them teaches. -/
theorem verifyChains_learns {L : Lib} {Q : List Doc → String → Key → Prop} : ∀ {cs : List (List Doc)} {jar : KeyJar},
    (∀ c ∈ cs, ∀ jar', Has jar jar' → (∃ r, (verifyChain L jar' c).1 = .ok r) ∧ ∀ e k, Q c e k → k ∈ (verifyChain L jar' c).2.keysOf e) →
    (∃ tcs, (verifyChains L cs jar).1 = .ok tcs) ∧ Has jar (verifyChains L cs jar).2 ∧ ∀ c ∈ cs, ∀ e k, Q c e k → k ∈ (verifyChains L cs jar).2.keysOf e
  | [], jar, _ => ⟨⟨[], rfl⟩, Has.refl _, by simp⟩
  | c :: cs, jar, h => by
    obtain ⟨⟨r, h1⟩, h2⟩ := h c (by simp) jar (Has.refl _)
    have hk := has_verifyChain L jar c
    obtain ⟨⟨tcs, h3⟩, h4, h5⟩ := verifyChains_learns (cs := cs) (jar := (verifyChain L jar c).2) (Q := Q) fun c' hc' jar' hj => h c' (by simp [hc']) jar' (hk.trans hj)
    rw [verifyChains]
    generalize verifyChain L jar c = v at h1 h2 h3 h4 h5 hk ⊢
    obtain ⟨r1, jar1⟩ := v
    simp only at h1 h2 h3 h4 h5 hk
    subst h1
    simp only
    generalize verifyChains L cs jar1 = v at h3 h4 h5 ⊢
    obtain ⟨r1, jar2⟩ := v
    simp only at h3 h4 h5
    subst h3
    refine ⟨⟨_, rfl⟩, hk.trans h4, fun c' hc' e k q => ?_⟩
    rcases List.mem_cons.1 hc' with rfl | hc'
    · exact h4.1 e k (h2 e k q)
    · exact h5 c' hc' e k q

section
variable {L : Lib} {P : Collect.Params} {F : Collect.Federation} {now : Int} {stopAt : String} {jar jar' : KeyJar} {D : Directory} {S : String → Prop} {rank : String → Nat}

/-- A federation stays well run when more keys are known. -/
theorem wellRun_has (w : WellRun L P F now stopAt jar D S rank) (h : Has jar jar') : WellRun L P F now stopAt jar' D S rank :=
  { w with anchors := fun e he hn => ⟨h.2 e (w.anchors e he hn).1, fun k hk => h.1 e k ((w.anchors e he hn).2 k hk)⟩ }

/-- The statements above a member list keys and expire some time. -/
theorem stmts_each (w : WellRun L P F now stopAt jar D S rank) {e : String} {p : List String} (hp : Up D e p) (he : S e) :
    ∀ b ∈ stmtsOf D e p, b.payload.jwks ≠ none ∧ ∃ x, b.payload.exp = some x := by
  intro b hb
  obtain ⟨a, e', hs, k1, k2, k3, rfl⟩ := w.mem_stmtsOf hp he b hb
  obtain ⟨-, -, ⟨ks, k4, -⟩, k5⟩ := w.stated _ _ _ k1 k2 k3
  exact ⟨by rw [k4]; simp, k5⟩

/-- The names above an entity are URLs, and naming constraints give both lists; so constraint checking gives a verdict (C69). -/
def Judged (D : Directory) (e : String) : Prop :=
  ∀ p, Up D e p → ∀ s ∈ stmtsOf D e p, Constraints.UrlNames (toC s.payload) ∧ ∀ n, (toC s.payload).naming = some n → n.permitted ≠ none ∧ n.excluded ≠ none

theorem Judged.meets {e : String} (h : Judged D e) {p : List String} (hp : Up D e p) : ∀ leaf, ((stmtsOf D e p).map (·.payload)).getLast? = some leaf →
    ∃ b, Verify.meets ((stmtsOf D e p).map (·.payload)).dropLast leaf = .ok b := by
  intro leaf hl
  have hall : ∀ q ∈ (stmtsOf D e p).map (·.payload), Constraints.UrlNames (toC q) ∧ ∀ n, (toC q).naming = some n → n.permitted ≠ none ∧ n.excluded ≠ none := by
    intro q hq
    obtain ⟨s, hs, rfl⟩ := List.mem_map.1 hq
    exact h p hp s hs
  unfold Verify.meets
  refine Constraints.C69_verdict_partial _ _ ?_ (hall leaf (List.mem_of_getLast? hl)).1 ?_
  · intro st hst
    obtain ⟨q, hq, rfl⟩ := List.mem_map.1 hst
    exact (hall q (List.dropLast_subset _ hq)).1
  · intro st hst
    obtain ⟨q, hq, rfl⟩ := List.mem_map.1 hst
    exact (hall q (List.dropLast_subset _ hq)).2

/-- The keys of a member are learned from the statements on any way up from it. -/
theorem learns_keys (w : WellRun L P F now stopAt jar D S rank) {e : String} {p : List String} (hp : Up D e p) (he : S e) (hj : Judged D e) :
    (∃ r, (verifyChain L jar ((stmtsOf D e p).map some)).1 = .ok r) ∧ ∀ k ∈ D.keys e, k ∈ (verifyChain L jar ((stmtsOf D e p).map some)).2.keysOf e := by
  obtain ⟨j, js, h1, h2, -⟩ := w.first hp he
  have hsig := w.signedFrom hp he
  have each := stmts_each w hp he
  have hm := hj.meets hp
  obtain ⟨s, hs, k5, ks, k6, k7⟩ := w.last_stmt hp he
  rw [h1] at hsig each hm hs ⊢
  obtain ⟨r, hl⟩ := verifyChain_learns L jar j js h2 hsig (fun b hb => (each b hb).1) (fun b hb => (each b hb).2) hm
  exact ⟨r, fun k hk => (hl e k).2 (.inr ⟨s, hs, k5, _, k6, k7 k hk⟩)⟩
end

/-- The chains from the tree of an entity with one way up. -/
theorem tree_one {D : Directory} {entity : String} {f : Collect.Forest Jws} {p0 : List String} (h2 : f.Complete) (h3 : ∀ q, Collect.IsPath f q ↔ ∃ p, Up D entity p ∧ q = labelled D entity p)
    (hwf : f.Wf) (hp0 : Up D entity p0) (hu : ∀ p, Up D entity p → p = p0) : Collect.tree2chains f = [stmtsOf D entity p0] := by
  have hall : ∀ q, q ∈ Collect.paths f ↔ q = labelled D entity p0 := by
    intro q
    rw [Collect.mem_paths, h3]
    constructor
    · rintro ⟨p, hp, rfl⟩; rw [hu p hp]
    · rintro rfl; exact ⟨p0, hp0, rfl⟩
  have hone : Collect.paths f = [labelled D entity p0] := by
    have hn := Collect.paths_nodup f hwf
    generalize Collect.paths f = qs at hall hn
    cases qs with
    | nil => exact absurd ((hall (labelled D entity p0)).2 rfl) (by simp)
    | cons q qs =>
      have e1 := (hall q).1 (by simp)
      cases qs with
      | nil => rw [e1]
      | cons q' qs =>
        have e2 := (hall q').1 (by simp)
        rw [e1, e2] at hn
        simp at hn
  rw [Collect.tree2chains_paths f h2, hone, List.map_singleton, chainOf_labelled]

/-- The chains collected for a member of a well-run federation are those of its ways up. -/
theorem wellRun_chains (V : Chains.Env) (F : Collect.Federation) (fed : Chains.State) (now : Int) (stopAt entity : String) (D : Directory) (S : String → Prop) (rank : String → Nat)
    (jar : KeyJar) (hW : V.W = F.at now) (hd : F.Dated) (hpl : F.PlainHints) (hc : Collect.Aging V.L.toCrypto V.P F now fed.coll)
    (w : WellRun V.L V.P F now stopAt jar D S rank) (he : S entity) (hpe : Collect.Plain entity) (hfuel : rank entity < V.fuel) :
    ∃ cs coll, collectChains V fed entity stopAt = (.ok cs, { fed with coll := coll }) ∧ Collect.Aging V.L.toCrypto V.P F now coll ∧
      (∀ c, c ∈ cs ↔ ∃ p, Up D entity p ∧ c = stmtsOf D entity p) ∧ ∀ p0, Up D entity p0 → (∀ p, Up D entity p → p = p0) → cs = [stmtsOf D entity p0] := by
  obtain ⟨f, h1, h2, -, -, h3⟩ := w.tree V.fuel entity he hfuel
  obtain ⟨hco, hi⟩ := Collect.collect_aging hc hd hpl V.fuel entity stopAt hpe
  replace hi := hi (w.inForce he)
  rw [← hW] at hco hi
  have hcoll : (Collect.collect V.L.toCrypto V.P V.W V.fuel fed.coll entity stopAt).1 = .ok (f, D.cfg entity) := by
    simp only [Collect.idealCollect, w.published he, h1, Option.map_some] at hi
    revert hi
    cases (Collect.collect V.L.toCrypto V.P V.W V.fuel fed.coll entity stopAt).1 with
    | error e => intro h; simp [Except.toOption] at h
    | ok x => intro h; simp only [Except.toOption, Option.some.injEq] at h; rw [h]
  have hwf := (Collect.C31_tree_faithful_partial _ _ _ _ _ _ _ _ _ hcoll).2.1
  refine ⟨Collect.tree2chains f, (Collect.collect V.L.toCrypto V.P V.W V.fuel fed.coll entity stopAt).2, ?_, hco, ?_, ?_⟩
  · unfold collectChains
    generalize Collect.collect V.L.toCrypto V.P V.W V.fuel fed.coll entity stopAt = r at hcoll ⊢
    obtain ⟨r1, coll⟩ := r
    simp only at hcoll
    subst hcoll
    rfl
  · intro c
    rw [Collect.tree2chains_paths f h2, List.mem_map]
    constructor
    · rintro ⟨q, hq, rfl⟩
      obtain ⟨p, hp, rfl⟩ := (h3 q).1 ((Collect.mem_paths f q).1 hq)
      exact ⟨p, hp, chainOf_labelled D p entity⟩
    · rintro ⟨p, hp, rfl⟩
      exact ⟨labelled D entity p, (Collect.mem_paths f _).2 ((h3 _).2 ⟨p, hp, rfl⟩), chainOf_labelled D p entity⟩
  · intro p0 hp0 hu
    exact tree_one h2 h3 hwf hp0 hu

/-- What a response of `op` to `me` has to be like, for the client to make something of it. -/
structure Answer (V : Env) (now : Int) (D : Directory) (op anchor : String) (j : Jws) : Prop where
  iss : j.payload.iss = op
  keys : j.payload.jwks = some (D.keys op)
  signed : ∃ k ∈ D.keys op, V.L.usable j k = true ∧ V.L.verifies j k = true
  current : V.L.current now j = true
  exp : ∃ x, j.payload.exp = some x
  names : j.payload.trustAnchor = some anchor
  trusted : anchor ∈ V.P.anchors

/-- The client learns the keys of the provider that answered. -/
theorem wellRun_knows (V : Env) (F : Collect.Federation) (st : State) (now : Int) (op anchor : String) (j : Jws) (D : Directory) (S : String → Prop) (rank : String → Nat)
    (hW : V.W = F.at now) (hd : F.Dated) (hpl : F.PlainHints) (hc : Collect.Aging V.L.toCrypto V.P F now st.fed.coll)
    (w : WellRun V.L V.P F now anchor st.fed.jar D S rank)
    (ho : S op) (hpo : Collect.Plain op) (hfo : rank op < V.fuel) (hho : (D.cfg op).payload.hints ≠ none) (hjo : Judged D op) (ha : Answer V now D op anchor j) :
    selfVerify V.L.toCrypto V.W.now j = .ok j.payload ∧ ∃ coll jar1, signatureVerifies V.toEnv st.fed op anchor = (.ok true, { st.fed with coll := coll, jar := jar1 }) ∧
      Collect.Aging V.L.toCrypto V.P F now coll ∧ Has st.fed.jar jar1 ∧ ∀ k ∈ D.keys op, k ∈ jar1.keysOf op := by
  have hself : selfVerify V.L.toCrypto V.W.now j = .ok j.payload := by
    obtain ⟨k, h1, h2, h3⟩ := ha.signed
    have : ((D.keys op).filter (V.L.usable j)).any (V.L.verifies j) = true := by
      rw [List.any_eq_true]
      exact ⟨k, List.mem_filter.2 ⟨h1, h2⟩, h3⟩
    have hn : V.W.now = now := by rw [hW]; rfl
    simp only [selfVerify, ha.keys, this, hn, ha.current, Bool.and_self, if_true]
  obtain ⟨cs, coll, c1, c2, c3, -⟩ := wellRun_chains V.toEnv F st.fed now anchor op D S rank st.fed.jar hW hd hpl hc w ho hpo hfo
  obtain ⟨po, hpo'⟩ := exists_up w _ op ho (Nat.lt_succ_self _) hho
  have hmem : stmtsOf D op po ∈ cs := (c3 _).2 ⟨po, hpo', rfl⟩
  obtain ⟨⟨tcs, v1⟩, v2, v3⟩ := verifyChains_learns (L := V.L) (jar := st.fed.jar) (cs := cs.map (·.map some)) (Q := fun _ e k => e = op ∧ k ∈ D.keys op) (by
    intro c hc0 jar' hj
    obtain ⟨c', hc1, rfl⟩ := List.mem_map.1 hc0
    obtain ⟨p, hp, rfl⟩ := (c3 c').1 hc1
    obtain ⟨l1, l2⟩ := learns_keys (wellRun_has w hj) hp ho hjo
    exact ⟨l1, fun e k q => by rw [q.1]; exact l2 k q.2⟩)
  have hsv : signatureVerifies V.toEnv st.fed op anchor = (.ok true, { st.fed with coll := coll, jar := (verifyChains V.L (cs.map (·.map some)) st.fed.jar).2 }) := by
    unfold signatureVerifies
    rw [c1]
    cases cs with
    | nil => simp at hmem
    | cons c cs =>
      simp only
      generalize verifyChains V.L ((c :: cs).map (·.map some)) st.fed.jar = r at v1 ⊢
      obtain ⟨r1, jar1⟩ := r
      simp only at v1
      subst v1
      rfl
  have hkeys : ∀ k ∈ D.keys op, k ∈ (verifyChains V.L (cs.map (·.map some)) st.fed.jar).2.keysOf op :=
    fun k hk => v3 _ (List.mem_map.2 ⟨_, hmem, rfl⟩) op k ⟨rfl, hk⟩
  exact ⟨hself, coll, _, hsv, c2, v2, hkeys⟩

/-- A client with one way up takes the response of a provider of the same well-run federation, whatever was collected before, if what the response says satisfies the policies and constraints above the
client; and has then what the response says. -/
theorem wellRun_takes (V : Env) (F : Collect.Federation) (st : State) (now : Int) (op anchor : String) (j : Jws) (D : Directory) (S : String → Prop) (rank : String → Nat) (p0 : List String)
    (md : Policy.Metadata) (want : String → String → Policy.Want) (M : String → Policy.Metadata)
    (hm : V.metadataVerifier = none) (hW : V.W = F.at now) (hd : F.Dated) (hpl : F.PlainHints) (hc : Collect.Aging V.L.toCrypto V.P F now st.fed.coll)
    (w : WellRun V.L V.P F now anchor st.fed.jar D S rank)
    (ho : S op) (hpo : Collect.Plain op) (hfo : rank op < V.fuel) (hho : (D.cfg op).payload.hints ≠ none) (hjo : Judged D op)
    (he : S V.me) (hpe : Collect.Plain V.me) (hfe : rank V.me < V.fuel) (hup : Up D V.me p0) (hone : ∀ p, Up D V.me p → p = p0)
    (ha : Answer V now D op anchor j) (hmd : j.payload.md.get? "openid_relying_party" = some md) (hne : md ≠ [])
    (hcon : WithinConstraints ((stmtsOf D V.me p0).map (·.payload)) j.payload)
    (hpol : ∀ s ∈ stmtsOf D V.me p0, SatisfiedBy want M j.payload s.payload) :
    ∃ m st', parseResponse .oidc V st (some j) = (.ok (.obj m), st') ∧ st'.registered = some (.obj m) ∧
      (∀ s ∈ stmtsOf D V.me p0, ∀ c ∈ ((toP s.payload).rule "openid_relying_party").policy.keys, (want "openid_relying_party" c).is (Dict.get? m c)) ∧
      (∀ c v, md.get? c = some v → (∀ s ∈ stmtsOf D V.me p0, c ∉ ((toP s.payload).rule "openid_relying_party").policy.keys) → Dict.get? m c = some v) ∧
      ∀ k ∈ D.keys op, k ∈ st'.fed.jar.keysOf j.payload.sub := by
  obtain ⟨hself, coll, jar1, hsv, c2, v2, hkeys⟩ := wellRun_knows V F st now op anchor j D S rank hW hd hpl hc w ho hpo hfo hho hjo ha
  have w1 := wellRun_has w v2
  obtain ⟨cs', coll', d1, -, -, d4⟩ := wellRun_chains V.toEnv F { st.fed with coll := coll, jar := jar1 } now anchor V.me D S rank jar1 hW hd hpl c2 w1 he hpe hfe
  have hcs' := d4 p0 hup hone
  subst hcs'
  obtain ⟨j0, js, hj0, hhas, -⟩ := w1.first hup he
  have all : stmtsOf D V.me p0 ++ [j] = j0 :: (js ++ [j]) := by rw [hj0]; rfl
  have hsig : ∀ pre b post, j0 :: (js ++ [j]) = pre ++ b :: post → ∃ k, V.L.usable b k = true ∧ V.L.verifies b k = true ∧
      (k ∈ jar1.keysOf b.payload.iss ∨ ∃ a ∈ pre, a.payload.sub = b.payload.iss ∧ ∃ ks, a.payload.jwks = some ks ∧ k ∈ ks) := by
    intro pre b post hs
    rw [← all] at hs
    rcases snoc_split hs with ⟨-, rfl, rfl⟩ | ⟨post', -, hs'⟩
    · obtain ⟨k, k1, k2, k3⟩ := ha.signed
      exact ⟨k, k2, k3, .inl (by rw [ha.iss]; exact hkeys k k1)⟩
    · exact w1.signedFrom hup he pre b post' hs'
  have each : ∀ b ∈ j0 :: (js ++ [j]), b.payload.jwks ≠ none ∧ ∃ x, b.payload.exp = some x := by
    intro b hb
    rw [← all] at hb
    rcases List.mem_append.1 hb with hb | hb
    · exact stmts_each w1 hup he b hb
    · rw [List.mem_singleton.1 hb]
      exact ⟨by rw [ha.keys]; simp, ha.exp⟩
  have hmeets : ∀ leaf, ((j0 :: (js ++ [j])).map (·.payload)).getLast? = some leaf → meets ((j0 :: (js ++ [j])).map (·.payload)).dropLast leaf = .ok true := by
    intro leaf hl
    rw [← all] at hl ⊢
    simp only [List.map_append, List.map_cons, List.map_nil, List.getLast?_append, List.getLast?_singleton, Option.some_or, Option.some.injEq] at hl
    subst hl
    rw [List.map_append, List.map_cons, List.map_nil, List.dropLast_concat]
    exact hcon.meets
  obtain ⟨tc, t1, -, t3, -⟩ := verifyChain_accepts V.L jar1 j0 (js ++ [j]) hhas hsig (fun pre b post hs hn => absurd hn (each b (by rw [hs]; simp)).1) (fun b hb => (each b hb).2) hmeets
  have hlearn := (verifyChain_learns V.L jar1 j0 (js ++ [j]) hhas hsig (fun b hb => (each b hb).1) (fun b hb => (each b hb).2) (fun leaf hl => ⟨true, hmeets leaf hl⟩)).2
  rw [← all] at t1 t3 hlearn
  have hmd' : j.payload.metadata ≠ none := by
    intro h
    rw [Payload.md, h] at hmd
    cases hmd
  obtain ⟨tc', a1, -, -, -, a5⟩ := applyToChain_satisfied V.E V.K tc ((stmtsOf D V.me p0).map (·.payload)) j.payload want M (by rw [t3]; simp) (by simpa using stmtsOf_ne_nil hup) hmd' (by
    intro s hs
    obtain ⟨s', hs', rfl⟩ := List.mem_map.1 hs
    exact hpol s' hs')
  obtain ⟨m, m1, m2, m3⟩ := a5 _ _ hmd
  have m2' : ∀ s ∈ stmtsOf D V.me p0, ∀ c ∈ ((toP s.payload).rule "openid_relying_party").policy.keys, (want "openid_relying_party" c).is (Dict.get? m c) :=
    fun s hs => m2 s.payload (List.mem_map.2 ⟨s, hs, rfl⟩)
  have m3' : ∀ c v, md.get? c = some v → (∀ s ∈ stmtsOf D V.me p0, c ∉ ((toP s.payload).rule "openid_relying_party").policy.keys) → Dict.get? m c = some v := by
    intro c v hcv hno
    refine m3 c v hcv fun s hs => ?_
    obtain ⟨s', hs', rfl⟩ := List.mem_map.1 hs
    exact hno s' hs'
  have hm' : m ≠ [] := by
    rintro rfl
    cases md with
    | nil => exact hne rfl
    | cons x md =>
      by_cases hx : ∀ s ∈ stmtsOf D V.me p0, x.1 ∉ ((toP s.payload).rule "openid_relying_party").policy.keys
      · have := m3' x.1 x.2 (by rw [Dict.get?_cons, if_pos rfl]) hx
        cases this
      · simp only [Classical.not_forall] at hx
        obtain ⟨s, hs, hx⟩ := hx
        have := m2' s hs x.1 (Classical.not_not.1 hx)
        revert this
        cases want "openid_relying_party" x.1 with
        | list xs a b c => rintro ⟨ys, h, -⟩; cases h
        | one v b => intro h; cases h
  refine ⟨m, { fed := { st.fed with coll := coll', jar := (verifyChain V.L jar1 ((stmtsOf D V.me p0 ++ [j]).map some)).2 }, registered := some (.obj m) }, ?_, rfl, m2', m3', ?_⟩
  · have hfin : finishOidc V { st with fed := { st.fed with coll := coll, jar := jar1 } } j anchor =
        (.ok (.obj m), { fed := { st.fed with coll := coll', jar := (verifyChain V.L jar1 ((stmtsOf D V.me p0 ++ [j]).map some)).2 }, registered := some (.obj m) }) := by
      unfold finishOidc
      simp only [d1, List.map_cons, List.map_nil]
      have hdoc : (stmtsOf D V.me p0).map some ++ [some j] = (stmtsOf D V.me p0 ++ [j]).map some := by simp
      rw [hdoc]
      have hvc : verifyChains V.L [(stmtsOf D V.me p0 ++ [j]).map some] jar1 = (.ok [tc], (verifyChain V.L jar1 ((stmtsOf D V.me p0 ++ [j]).map some)).2) := by
        unfold verifyChains
        generalize verifyChain V.L jar1 ((stmtsOf D V.me p0 ++ [j]).map some) = r at t1 ⊢
        obtain ⟨r1, jar2⟩ := r
        simp only at t1
        subst t1
        rfl
      simp only [hvc, judgeOidc, a1, m1]
    unfold parseResponse parseFederation
    simp only [hself, ha.names, hm, ha.iss, hsv, hfin]
    rw [if_neg (fun h => h ha.trusted)]
    have : (Val.obj m).truthy = true := by
      cases m with
      | nil => exact absurd rfl hm'
      | cons _ _ => rfl
    simp only [this, if_true]
  · intro k hk
    exact (hlearn _ k).2 (.inr ⟨j, by simp, rfl, _, ha.keys, hk⟩)

end Fed.Client
