import Verif.Server.ResolvedElsewhere
/-
C221: the order in which entities name their authorities (`authority_hints`), which /repo/src/fedservice/entity/function/trust_chain_collector.py 227-263 (`collect_tree`) goes through one after the other.
-/
namespace Fed.Chains
open Fed Fed.Verify Fed.Server

/-- The same authorities, in whatever order, and named however many times. -/
def SameHints : Option (List String) → Option (List String) → Prop
  | none, none => True
  | some l, some l' => ∀ a, a ∈ l ↔ a ∈ l'
  | _, _ => False

/-- Two configurations that say the same but for the order of the authorities, and are signed alike. -/
def SameButOrder (C : Crypto) (j j' : Jws) : Prop :=
  (∃ h, j'.payload = { j.payload with hints := h } ∧ SameHints j.payload.hints h) ∧ (∀ k, C.usable j' k = C.usable j k) ∧ (∀ k, C.verifies j' k = C.verifies j k) ∧ ∀ t, C.current t j' = C.current t j

/-- Two configurations that say the same but for their authorities, and are signed alike. -/
def Resigned (C : Crypto) (j j' : Jws) : Prop :=
  (∃ h, j'.payload = { j.payload with hints := h }) ∧ (∀ k, C.usable j' k = C.usable j k) ∧ (∀ k, C.verifies j' k = C.verifies j k) ∧ ∀ t, C.current t j' = C.current t j

theorem SameButOrder.resigned {C : Crypto} {j j' : Jws} (h : SameButOrder C j j') : Resigned C j j' := by
  obtain ⟨⟨l, e, -⟩, h⟩ := h
  exact ⟨⟨l, e⟩, h⟩

/-- The same federation, with the authorities in another order in the configurations. -/
structure Reordered (C : Crypto) (F F' : Collect.Federation) : Prop where
  config : ∀ k, match F.config k, F'.config k with
    | .ok (some j), .ok (some j') => SameButOrder C j j'
    | .ok none, .ok none => True
    | .error _, .error _ => True
    | _, _ => False
  fetch : F'.fetch = F.fetch

/-- What one goes by in a trust chain. -/
def outline (tc : TrustChain) : String × List String × Int × Dict Val := (tc.anchor, tc.issPath, tc.exp, tc.metadata)

/-- The same trust chains, in whatever order. -/
def SameChains (out out' : List TrustChain) : Prop := (∀ tc ∈ out, ∃ tc' ∈ out', outline tc' = outline tc) ∧ ∀ tc' ∈ out', ∃ tc ∈ out, outline tc' = outline tc

/-- C221 in full: the order in which entities name their authorities makes no difference to which trust chains are found. -/
def C221_full : Prop :=
  ∀ (F F' : Collect.Federation) (V V' : Env) (st st' : State) (h h' : List Collect.FRun) (sub stopAt : String) (out : List TrustChain),
    Within F V st h → Within F' V' st' h' → V' = { V with W := F'.at V.W.now } → st'.jar = st.jar → F.Dated → F.PlainHints → Collect.Plain sub → Reordered V.L.toCrypto F F' →
    (getVerified V st sub stopAt).1 = .ok out → ∃ out', (getVerified V' st' sub stopAt).1 = .ok out' ∧ SameChains out out'

theorem SameHints.symm : ∀ {h h' : Option (List String)}, SameHints h h' → SameHints h' h
  | none, none, _ => trivial
  | some _, some _, e => fun a => (e a).symm

theorem SameButOrder.symm {C : Crypto} {j j' : Jws} (h : SameButOrder C j j') : SameButOrder C j' j := by
  obtain ⟨⟨hs, h1, h2⟩, h3, h4, h5⟩ := h
  refine ⟨⟨j.payload.hints, by rw [h1], ?_⟩, fun k => (h3 k).symm, fun k => (h4 k).symm, fun t => (h5 t).symm⟩
  rw [h1]
  exact h2.symm

theorem Reordered.symm {C : Crypto} {F F' : Collect.Federation} (h : Reordered C F F') : Reordered C F' F where
  config k := by
    have := h.config k
    generalize F.config k = a at this
    generalize F'.config k = b at this
    rcases a with _ | (_ | j) <;> rcases b with _ | (_ | j') <;> first | trivial | exact this.elim | exact SameButOrder.symm this
  fetch := h.fetch.symm

section
open Collect

variable {C : Crypto} {F F' : Federation}

theorem Reordered.conf (h : Reordered C F F') {k : String} {j : Jws} (hj : F.config k = .ok (some j)) : ∃ j', F'.config k = .ok (.some j') ∧ SameButOrder C j j' := by
  have := h.config k
  rw [hj] at this
  generalize F'.config k = b at this
  rcases b with _ | (_ | j')
  · exact this.elim
  · exact this.elim
  · exact ⟨j', rfl, this⟩

theorem Reordered.dated (h : Reordered C F F') (hd : F.Dated) : F'.Dated := by
  intro k j hj
  obtain ⟨j', h1, ⟨hs, h2, -⟩, -⟩ := h.symm.conf hj
  obtain ⟨x, hx⟩ := hd k j' h1
  rw [h2] at hx
  exact ⟨x, hx⟩

theorem Reordered.plainHints (h : Reordered C F F') (hd : F.PlainHints) : F'.PlainHints := by
  intro k j l hj hl a ha
  obtain ⟨j', h1, ⟨hs, h2, h3⟩, -⟩ := h.symm.conf hj
  rw [hl] at h3
  rcases hs with _ | l'
  · exact h3.elim
  · exact hd k j' l' h1 (by rw [h2]) a ((h3 a).1 ha)

theorem Resigned.selfVerify {j j' : Jws} (h : Resigned C j j') (t : Int) (hv : selfVerify C t j = .ok j.payload) : selfVerify C t j' = .ok j'.payload := by
  obtain ⟨⟨hs, h1⟩, h3, h4, h5⟩ := h
  have e1 : C.usable j' = C.usable j := funext h3
  have e2 : C.verifies j' = C.verifies j := funext h4
  have e3 : j'.payload.jwks = j.payload.jwks := by rw [h1]
  unfold Fed.selfVerify at hv ⊢
  rw [e3]
  cases hk : j.payload.jwks with
  | none => rw [hk] at hv; cases hv
  | some ks =>
    rw [hk] at hv
    simp only at hv ⊢
    rw [e1, e2, h5]
    split at hv
    · rename_i hc; rw [if_pos hc]
    · cases hv

/-- What is published of one entity in the one and in the other federation. -/
theorem Reordered.published (h : Reordered C F F') (t : Int) (a : String) {j : Jws} (hj : publishedConfig C F t a = .some j) : ∃ j', publishedConfig C F' t a = .some j' ∧ SameButOrder C j j' := by
  obtain ⟨h1, h2⟩ := publishedConfig_iff.1 hj
  obtain ⟨j', h3, h4⟩ := h.conf h1
  exact ⟨j', publishedConfig_iff.2 ⟨h3, h4.resigned.selfVerify t h2⟩, h4⟩

theorem Reordered.statement (h : Reordered C F F') (t : Int) (a e : String) {s : Option Jws} (hs : publishedStatement C F t a e = .some s) : publishedStatement C F' t a e = .some s := by
  unfold publishedStatement at hs ⊢
  cases hp : publishedConfig C F t a with
  | none => rw [hp] at hs; cases hs
  | some j =>
    obtain ⟨j', h1, ⟨l, h2, -⟩, -⟩ := h.published t a hp
    rw [hp] at hs
    rw [h1]
    have e : getFetchEndpoint j'.payload = getFetchEndpoint j.payload := by rw [h2]; rfl
    simp only at hs ⊢
    rw [e, h.fetch]
    exact hs

/-! ### Trees -/

/-- The same chains. -/
def SameTree (f f' : Forest Jws) : Prop := (f = .nil ↔ f' = .nil) ∧ ∀ c, c ∈ tree2chains f → c ∈ tree2chains f'

/-- The chains that come of one authority. -/
def branchChains (b : Branch) (c : List Jws) : Prop :=
  match b with
  | none => c = []
  | some (s, .nil) => c = [s]
  | some (s, sub) => ∃ c' ∈ tree2chains sub, c = c' ++ [s]

theorem mem_tree2chains {f : Forest Jws} {c : List Jws} : c ∈ tree2chains f ↔ ∃ x ∈ f.items, branchChains x.2 c := by
  induction f with
  | nil => simp [tree2chains, Forest.items]
  | missing i r ih => simp [tree2chains, Forest.items, ih, branchChains]
  | node i s sub r _ ih =>
    cases sub with
    | nil => simp [tree2chains, Forest.items, ih, branchChains]
    | missing j q => simp [tree2chains, Forest.items, ih, branchChains, eq_comm, or_assoc]
    | node j t q1 q2 => simp [tree2chains, Forest.items, ih, branchChains, eq_comm]

theorem items_nil {f : Forest Jws} : f = .nil ↔ f.items = [] := by
  cases f <;> simp [Forest.items]

theorem mem_set {f : Forest Jws} {i : String} {b : Branch} : (i, b) ∈ (f.set i b).items := by
  induction f with
  | nil => rcases b with _ | ⟨s, sub⟩ <;> simp [Forest.set, Forest.items]
  | missing j r ih =>
    simp only [Forest.set]
    split
    · rcases b with _ | ⟨s, sub⟩ <;> simp [Forest.items]
    · simp [Forest.items, ih]
  | node j t sub' r _ ih =>
    simp only [Forest.set]
    split
    · rcases b with _ | ⟨s, sub⟩ <;> simp [Forest.items]
    · simp [Forest.items, ih]

theorem mem_set_other {f : Forest Jws} {i : String} {b : Branch} {x : String × Branch} (h : x ∈ f.items) (hx : x.1 ≠ i) : x ∈ (f.set i b).items := by
  induction f with
  | nil => simp [Forest.items] at h
  | missing j r ih =>
    simp only [Forest.items, List.mem_cons] at h
    simp only [Forest.set]
    split
    · rename_i hj
      rcases h with rfl | h
      · exact absurd hj hx
      · rcases b with _ | ⟨s, sub⟩ <;> simp [Forest.items, h]
    · rcases h with rfl | h
      · simp [Forest.items]
      · simp [Forest.items, ih h]
  | node j t sub' r _ ih =>
    simp only [Forest.items, List.mem_cons] at h
    simp only [Forest.set]
    split
    · rename_i hj
      rcases h with rfl | h
      · exact absurd hj hx
      · rcases b with _ | ⟨s, sub⟩ <;> simp [Forest.items, h]
    · rcases h with rfl | h
      · simp [Forest.items]
      · simp [Forest.items, ih h]

/-- What is put together for a list of authorities: the branch of each. -/
theorem idealHints_mem {branch : String → Option Branch} : ∀ {l : List String} {acc f : Forest Jws}, idealHints branch l acc = some f →
    (∀ a ∈ l, ∃ b, branch a = some b ∧ (a, b) ∈ f.items) ∧ (∀ x ∈ f.items, (x.1 ∈ l ∧ branch x.1 = some x.2) ∨ x ∈ acc.items) ∧ ∀ x ∈ acc.items, x.1 ∉ l → x ∈ f.items := by
  intro l
  induction l with
  | nil => intro acc f h; cases h; exact ⟨by simp, fun x hx => Or.inr hx, fun x hx _ => hx⟩
  | cons a as ih =>
    intro acc f h
    unfold idealHints at h
    cases hb : branch a with
    | none => rw [hb] at h; cases h
    | some b =>
      rw [hb] at h
      obtain ⟨h1, h2, h3⟩ := ih h
      refine ⟨?_, ?_, ?_⟩
      · intro a' ha'
        by_cases hm : a' ∈ as
        · exact h1 a' hm
        · have : a' = a := by simpa [hm] using ha'
          subst this
          exact ⟨b, hb, h3 _ mem_set hm⟩
      · intro x hx
        rcases h2 x hx with ⟨k1, k2⟩ | k
        · exact Or.inl ⟨by simp [k1], k2⟩
        · rcases Forest.items_set_mem k with rfl | k
          · exact Or.inl ⟨by simp, hb⟩
          · exact Or.inr k
      · intro x hx hn
        simp only [List.mem_cons, not_or] at hn
        exact h3 x (mem_set_other hx hn.1) hn.2

/-- It succeeds if every authority does. -/
theorem idealHints_some {branch : String → Option Branch} : ∀ {l : List String} (acc : Forest Jws), (∀ a ∈ l, ∃ b, branch a = some b) → ∃ f, idealHints branch l acc = some f := by
  intro l
  induction l with
  | nil => intro acc _; exact ⟨acc, rfl⟩
  | cons a as ih =>
    intro acc h
    obtain ⟨b, hb⟩ := h a (by simp)
    unfold idealHints
    rw [hb]
    exact ih _ fun a ha => h a (by simp [ha])

/-- One authority in the one and in the other federation. -/
def SameBranch : Branch → Branch → Prop
  | none, none => True
  | some (s, f), some (s', f') => s = s' ∧ SameTree f f'
  | _, _ => False

theorem SameBranch.chains : ∀ {b b' : Branch}, SameBranch b b' → ∀ {c : List Jws}, branchChains b c → branchChains b' c
  | none, none, _, _, h => h
  | some (s, f), some (s', f'), ⟨e, hn, hc⟩, c, h => by
    subst e
    cases f with
    | nil =>
      have : f' = .nil := hn.1 rfl
      subst this
      exact h
    | missing i r =>
      obtain ⟨c', h1, h2⟩ := h
      cases f' with
      | nil => exact absurd (hn.2 rfl) (by simp)
      | missing => exact ⟨c', hc c' h1, h2⟩
      | node => exact ⟨c', hc c' h1, h2⟩
    | node i s' q r =>
      obtain ⟨c', h1, h2⟩ := h
      cases f' with
      | nil => exact absurd (hn.2 rfl) (by simp)
      | missing => exact ⟨c', hc c' h1, h2⟩
      | node => exact ⟨c', hc c' h1, h2⟩

theorem sameTree_of {branch branch' : String → Option Branch} {l l' : List String} {f : Forest Jws} (hl : ∀ a, a ∈ l ↔ a ∈ l') (h : idealHints branch l .nil = some f)
    (hb : ∀ a ∈ l, ∀ b, branch a = some b → ∃ b', branch' a = some b' ∧ SameBranch b b') : ∃ f', idealHints branch' l' .nil = some f' ∧ SameTree f f' := by
  obtain ⟨h1, h2, -⟩ := idealHints_mem h
  obtain ⟨f', hf'⟩ := idealHints_some (branch := branch') (l := l') .nil fun a ha => by
    obtain ⟨b, hb1, -⟩ := h1 a ((hl a).2 ha)
    obtain ⟨b', hb2, -⟩ := hb a ((hl a).2 ha) b hb1
    exact ⟨b', hb2⟩
  obtain ⟨k1, k2, -⟩ := idealHints_mem hf'
  refine ⟨f', hf', ?_, ?_⟩
  · rw [items_nil, items_nil, List.eq_nil_iff_forall_not_mem, List.eq_nil_iff_forall_not_mem]
    constructor
    · intro hn x hx
      rcases k2 x hx with ⟨m, -⟩ | m
      · obtain ⟨b, -, hm⟩ := h1 x.1 ((hl _).2 m)
        exact hn _ hm
      · simp [Forest.items] at m
    · intro hn x hx
      rcases h2 x hx with ⟨m, -⟩ | m
      · obtain ⟨b, -, hm⟩ := k1 x.1 ((hl _).1 m)
        exact hn _ hm
      · simp [Forest.items] at m
  · intro c hc
    rw [mem_tree2chains] at hc ⊢
    obtain ⟨x, hx, hxc⟩ := hc
    rcases h2 x hx with ⟨m, hm⟩ | m
    · obtain ⟨b', hb', hs⟩ := hb x.1 m x.2 hm
      obtain ⟨b'', q1, q2⟩ := k1 x.1 ((hl _).1 m)
      rw [hb'] at q1
      cases q1
      exact ⟨_, q2, hs.chains hxc⟩
    · simp [Forest.items] at m

theorem Reordered.tree (h : Reordered C F F') {P : Params} {t : Int} {s : String} : ∀ (n : Nat) (e : String) (j j' : Jws), SameButOrder C j j' → ∀ f, idealTree C P F t s n e j.payload = some f →
    ∃ f', idealTree C P F' t s n e j'.payload = some f' ∧ SameTree f f' := by
  intro n
  induction n with
  | zero => intro e j j' _ f hf; cases hf
  | succ n ih =>
    intro e j j' hj f hf
    obtain ⟨⟨hs', e1, e2⟩, -⟩ := hj
    have e3 : j'.payload.iss = j.payload.iss := by rw [e1]
    have e4 : j'.payload.hints = hs' := by rw [e1]
    unfold idealTree at hf ⊢
    rw [e3, e4]
    cases hh : j.payload.hints with
    | none =>
      rw [hh] at hf e2
      cases hs' with
      | some l => exact e2.elim
      | none => cases hf; exact ⟨.nil, rfl, Iff.rfl, fun _ hc => hc⟩
    | some l =>
      rw [hh] at hf e2
      cases hs' with
      | none => exact e2.elim
      | some l' =>
        simp only at hf ⊢
        by_cases hi : j.payload.iss = s
        · rw [if_pos hi] at hf ⊢
          cases hf
          exact ⟨.nil, rfl, Iff.rfl, fun _ hc => hc⟩
        · rw [if_neg hi] at hf ⊢
          refine sameTree_of e2 hf fun a _ b hb => ?_
          unfold idealBranch at hb ⊢
          by_cases hc : e = a ∧ e ∈ P.anchors
          · rw [if_pos hc] at hb ⊢
            cases hb
            exact ⟨none, rfl, trivial⟩
          · rw [if_neg hc] at hb ⊢
            cases hst : publishedStatement C F t a e with
            | none => rw [hst] at hb; cases hb
            | some o =>
              rw [h.statement t a e hst]
              rw [hst] at hb
              cases o with
              | none => cases hb; exact ⟨none, rfl, trivial⟩
              | some s0 =>
                simp only at hb ⊢
                cases hp : publishedConfig C F t a with
                | none => rw [hp] at hb; cases hb
                | some j0 =>
                  obtain ⟨j0', q1, q2⟩ := h.published t a hp
                  rw [hp] at hb
                  rw [q1]
                  simp only at hb ⊢
                  have hfr : freshAt P t j0' = freshAt P t j0 := by
                    obtain ⟨⟨x, q3, -⟩, -⟩ := q2
                    unfold freshAt
                    rw [q3]
                  rw [hfr]
                  split at hb
                  · rename_i hfresh
                    rw [if_pos hfresh]
                    cases ht : idealTree C P F t s n a j0.payload with
                    | none => rw [ht] at hb; cases hb
                    | some g =>
                      rw [ht] at hb
                      cases hb
                      obtain ⟨g', q4, q5⟩ := ih a j0 j0' q2 g ht
                      rw [q4]
                      exact ⟨_, rfl, rfl, q5⟩
                  · cases hb

theorem Reordered.collect (h : Reordered C F F') {P : Params} {t : Int} {s e : String} {n : Nat} {f : Forest Jws} {ec : Jws} (hc : idealCollect C P F t n e s = some (f, ec)) :
    ∃ f' ec', idealCollect C P F' t n e s = some (f', ec') ∧ SameTree f f' ∧ SameButOrder C ec ec' := by
  unfold idealCollect at hc ⊢
  cases hp : publishedConfig C F t e with
  | none => rw [hp] at hc; cases hc
  | some j =>
    obtain ⟨j', q1, q2⟩ := h.published t e hp
    rw [hp] at hc
    rw [q1]
    simp only at hc ⊢
    cases ht : idealTree C P F t s n e j.payload with
    | none => rw [ht] at hc; cases hc
    | some g =>
      rw [ht] at hc
      cases hc
      obtain ⟨g', q4, q5⟩ := h.tree n e _ j' q2 _ ht
      rw [q4]
      exact ⟨g', j', rfl, q5, q2⟩

end

/-! ### Verification -/

section

variable {L : Lib} {ec ec' : Jws}

theorem loop_reordered (hs : Resigned L.toCrypto ec ec') (n : Nat) : ∀ (ds : List Doc) (jar : KeyJar) (ves r : List Payload), (verifyLoop L n (ds ++ [some ec]) jar ves).1 = .ok r →
    ∃ vs, r = vs ++ [ec.payload] ∧ (verifyLoop L n (ds ++ [some ec']) jar ves).1 = .ok (vs ++ [ec'.payload]) := by
  intro ds
  induction ds with
  | nil =>
    intro jar ves r h
    obtain ⟨⟨l, e1⟩, h3, h4, -⟩ := hs
    have q1 : verifyKeys L jar ec' = verifyKeys L jar ec := by
      have : L.usable ec' = L.usable ec := funext h3
      unfold verifyKeys
      rw [this, e1]
    have q2 : L.verifies ec' = L.verifies ec := funext h4
    have q3 : ec'.payload.jwks = ec.payload.jwks := by rw [e1]
    simp only [List.nil_append, verifyLoop] at h ⊢
    rw [q1, q2, q3]
    split at h
    · cases h
    · rename_i hk
      rw [if_neg hk]
      split at h
      · rename_i hv
        rw [if_pos hv]
        split at h
        · rename_i hj
          split at h
          · cases h
          · rename_i hn
            cases h
            exact ⟨ves, rfl, by rw [if_neg hn]⟩
        · cases h
          exact ⟨ves, rfl, rfl⟩
      · cases h
  | cons d ds ih =>
    intro jar ves r h
    cases d with
    | none => exact ih jar ves r h
    | some j =>
      simp only [List.cons_append, verifyLoop] at h ⊢
      split at h
      · cases h
      · rename_i hk
        rw [if_neg hk]
        split at h
        · rename_i hv
          rw [if_pos hv]
          split at h
          · split at h
            · cases h
            · rename_i hn
              rw [if_neg hn]
              exact ih _ _ r h
          · exact ih _ _ r h
        · cases h

theorem getLast_snoc {α} (vs : List α) (p : α) : (vs ++ [p]).getLast? = some p := by simp

theorem chain_reordered (hs : Resigned L.toCrypto ec ec') (ds : List Doc) (jar : KeyJar) (p : Payload) (ps : List Payload) (h : (verifyTrustChain L jar (ds ++ [some ec])).1 = .ok (p :: ps)) :
    ∃ vs, p :: ps = vs ++ [ec.payload] ∧ (verifyTrustChain L jar (ds ++ [some ec'])).1 = .ok (vs ++ [ec'.payload]) := by
  obtain ⟨⟨l, e1⟩, -⟩ := id hs
  have hd : ∃ d d' rest rest', ds ++ [some ec] = d :: rest ∧ ds ++ [some ec'] = d' :: rest' ∧ trustedAnchor jar d' = trustedAnchor jar d := by
    cases ds with
    | nil => exact ⟨_, _, _, _, rfl, rfl, by simp only [trustedAnchor]; rw [e1]⟩
    | cons d ds => exact ⟨_, _, _, _, rfl, rfl, rfl⟩
  have hlen : (ds ++ [some ec']).length - 1 = (ds ++ [some ec]).length - 1 := by simp
  obtain ⟨d, d', rest, rest', k1, k2, k3⟩ := hd
  have key := loop_reordered hs ((ds ++ [some ec]).length - 1) ds jar []
  unfold verifyTrustChain at h ⊢
  generalize hc : ds ++ [some ec] = c at h key k1 hlen
  generalize hc' : ds ++ [some ec'] = c' at key k2 hlen ⊢
  subst k1 k2
  simp only at h ⊢
  rw [k3]
  cases ht : trustedAnchor jar d with
  | error e => rw [ht] at h; cases h
  | ok b =>
    rw [ht] at h
    cases b with
    | false => cases h
    | true =>
      simp only at h ⊢
      rw [hlen]
      generalize verifyLoop L ((d :: rest).length - 1) (d :: rest) jar [] = r at h key
      obtain ⟨r, jar1⟩ := r
      cases r with
      | error e => cases h
      | ok ves =>
        obtain ⟨vs, q1, q2⟩ := key ves rfl
        generalize verifyLoop L ((d :: rest).length - 1) (d' :: rest') jar [] = r' at q2 ⊢
        obtain ⟨r', jar2⟩ := r'
        simp only at q2
        subst q1 q2
        simp only [getLast_snoc, List.dropLast_concat] at h ⊢
        have e2 : meets vs ec'.payload = meets vs ec.payload := by
          unfold meets toC
          rw [e1]
        rw [e2]
        cases hm : meets vs ec.payload with
        | error e => rw [hm] at h; cases h
        | ok b =>
          rw [hm] at h
          cases b with
          | false => cases h
          | true =>
            simp only [if_true, Except.ok.injEq] at h ⊢
            exact ⟨vs, h.symm, rfl⟩

theorem expires_reordered {p p' : Payload} (hp : p'.getExp = p.getExp) : ∀ (vs : List Payload) (e : Int), expiresLoop (vs ++ [p']) e = expiresLoop (vs ++ [p]) e
  | [], e => by simp only [List.nil_append, expiresLoop, hp]
  | v :: vs, e => by
    simp only [List.cons_append, expiresLoop]
    have := expires_reordered hp vs
    simp only [this]

/-- Two verified chains that say the same but for the order of the authorities of their subject. -/
def SameChain (tc tc' : TrustChain) : Prop :=
  tc'.anchor = tc.anchor ∧ tc'.issPath = tc.issPath ∧ tc'.exp = tc.exp ∧ tc'.metadata = tc.metadata ∧ ∃ vs p l, tc.verified = vs ++ [p] ∧ tc'.verified = vs ++ [{ p with hints := l }]

theorem accepted_reordered (hs : Resigned L.toCrypto ec ec') (ds : List Doc) (jar : KeyJar) (tc : TrustChain) (h : (verifyChain L jar (ds ++ [some ec])).1 = .ok (some tc)) :
    ∃ tc', (verifyChain L jar (ds ++ [some ec'])).1 = .ok (some tc') ∧ SameChain tc tc' := by
  obtain ⟨p, ps, x, h1, h2, rfl⟩ := verifyChain_ok.1 h
  obtain ⟨vs, h3, h4⟩ := chain_reordered hs ds jar p ps h1
  obtain ⟨⟨l, e1⟩, -⟩ := id hs
  have h5 : expiresAt (vs ++ [ec'.payload]) = .ok x := by
    rw [h3] at h2
    unfold expiresAt at h2 ⊢
    rw [expires_reordered (p := ec.payload) (by rw [e1]; rfl), h2]
  have h6 : (vs ++ [ec'.payload]).map (·.iss) = (p :: ps).map (·.iss) := by
    rw [h3, e1]; simp
  have h8 : ∃ q qs, vs ++ [ec'.payload] = q :: qs := by cases vs <;> exact ⟨_, _, rfl⟩
  obtain ⟨q, qs, h9⟩ := h8
  rw [h9] at h4 h5 h6
  refine ⟨_, verifyChain_ok.2 ⟨q, qs, x, h4, h5, rfl⟩, ?_, ?_, rfl, rfl, vs, ec.payload, l, h3, ?_⟩
  · simp only [List.map_cons, List.cons.injEq] at h6
    exact h6.1
  · simp only [h6]
  · simp only
    rw [← h9, e1]

theorem applied_reordered {E : SetEnum Val} {K : SetEnum String} {tc tc' t : TrustChain} (hs : SameChain tc tc') (h : applyToChain E K tc = .ok t) : ∃ t', applyToChain E K tc' = .ok t' ∧ outline t' = outline t := by
  obtain ⟨a1, a2, a3, a4, vs, p, l, h1, h2⟩ := hs
  obtain ⟨leaf, md, k1, k2, k3⟩ := applyToChain_ok.1 h
  rw [h1, getLast_snoc] at k1
  cases k1
  rcases k3 with ⟨k3, m, k4, rfl⟩ | ⟨k3, m, k4, rfl⟩
  · refine ⟨_, applyToChain_ok.2 ⟨{ p with hints := l }, md, by rw [h2, getLast_snoc], k2, Or.inl ⟨?_, m, ?_, rfl⟩⟩, ?_⟩
    · rw [h1] at k3; rw [h2]; simpa using k3
    · rw [h1, List.dropLast_concat] at k4; rw [h2, List.dropLast_concat]; exact k4
    · simp only [outline, a1, a2, a3]
  · refine ⟨_, applyToChain_ok.2 ⟨{ p with hints := l }, md, by rw [h2, getLast_snoc], k2, Or.inr ⟨?_, m, k4, rfl⟩⟩, ?_⟩
    · rw [h1] at k3; rw [h2]; simpa using k3
    · simp only [outline, a1, a2, a3]

/-- The chain is accepted with the keys in `jar`, or starts with a statement of someone of whom neither `jar` nor the statements of any of the chains have a key. -/
def Settled (L : Lib) (jar : KeyJar) (cs : List (List Doc)) (c : List Doc) : Prop :=
  (∃ tc, (verifyChain L jar c).1 = .ok (some tc)) ∨
  ∃ j ds, c = some j :: ds ∧ Dict.has jar j.payload.iss = false ∧ ∀ c' ∈ cs, ∀ j', some j' ∈ c' → j'.payload.sub ≠ j.payload.iss

theorem loop_has {a : String} (n : Nat) : ∀ (ds : List Doc) (jar : KeyJar) (ves : List Payload), Dict.has jar a = false → (∀ j, some j ∈ ds → j.payload.sub ≠ a) → Dict.has (verifyLoop L n ds jar ves).2 a = false := by
  intro ds
  induction ds with
  | nil => intro jar ves h _; exact h
  | cons d ds ih =>
    intro jar ves h hd
    have hd' : ∀ j, some j ∈ ds → j.payload.sub ≠ a := fun j hj => hd j (by simp [hj])
    cases d with
    | none => exact ih jar ves h hd'
    | some j =>
      simp only [verifyLoop]
      split
      · exact h
      · split
        · split
          · split
            · exact h
            · exact ih _ _ h hd'
          · refine ih _ _ ?_ hd'
            cases hh : Dict.has (addKeys L jar j.payload.sub _) a with
            | false => rfl
            | true =>
              rcases has_addKeys _ _ _ _ _ hh with h' | h'
              · rw [h] at h'; cases h'
              · exact absurd h' (hd j (by simp))
        · exact h

theorem chain_has {a : String} {c : List Doc} {jar : KeyJar} (h : Dict.has jar a = false) (hd : ∀ j, some j ∈ c → j.payload.sub ≠ a) : Dict.has (verifyChain L jar c).2 a = false := by
  rw [verifyChain_jar]
  rcases verifyTrustChain_jar (L := L) (jar := jar) (chain := c) with e | e
  · rw [e]; exact h
  · rw [e]; exact loop_has _ c jar [] h hd

theorem verified_settled {jar : KeyJar} {all : List (List Doc)} : ∀ (cs : List (List Doc)) {jar0 : KeyJar}, Threads.Grows jar jar0 → (∀ c ∈ cs, c ∈ all) → (∀ c ∈ cs, Settled L jar all c) →
    (∀ a, Dict.has jar a = false → (∀ c' ∈ all, ∀ j', some j' ∈ c' → j'.payload.sub ≠ a) → Dict.has jar0 a = false) → (verifyChains L cs jar0).1 = .ok (cs.filterMap (verdict L jar)) := by
  intro cs
  induction cs with
  | nil => intro _ _ _ _ _; rfl
  | cons c cs ih =>
    intro jar0 hg hsub hset hno
    have hg' := hg.trans (verifyChain_kept L jar0 c)
    have hno' : ∀ a, Dict.has jar a = false → (∀ c' ∈ all, ∀ j', some j' ∈ c' → j'.payload.sub ≠ a) → Dict.has (verifyChain L jar0 c).2 a = false :=
      fun a h1 h2 => chain_has (hno a h1 h2) (h2 c (hsub c (by simp)))
    have rest := ih hg' (fun c hc => hsub c (by simp [hc])) (fun c hc => hset c (by simp [hc])) hno'
    have hv : (verifyChain L jar0 c).1 = .ok (verdict L jar c) := by
      rcases hset c (by simp) with ⟨tc, h1⟩ | ⟨j, ds, rfl, h1, h2⟩
      · rw [verifyChain_mono hg.1 hg.2 h1]
        simp only [verdict, h1]
        rfl
      · have n0 : (verifyChain L jar0 (some j :: ds)).1 = .ok none := by
          simp only [verifyChain, verifyTrustChain, trustedAnchor, hno _ h1 h2]
        have n1 : (verifyChain L jar (some j :: ds)).1 = .ok none := by
          simp only [verifyChain, verifyTrustChain, trustedAnchor, h1]
        rw [n0]
        simp only [verdict, n1]
        rfl
    rw [verifyChains]
    generalize verifyChain L jar0 c = r at hv rest
    obtain ⟨r, jar1⟩ := r
    simp only at hv rest
    subst hv
    simp only
    generalize verifyChains L cs jar1 = q at rest
    obtain ⟨q, jar2⟩ := q
    simp only at rest
    subst rest
    simp only [List.filterMap_cons]
    cases verdict L jar c <;> rfl

theorem apply_all {E : SetEnum Val} {K : SetEnum String} : ∀ {tcs : List TrustChain}, (∀ tc ∈ tcs, ∃ t, applyToChain E K tc = .ok t) → ∃ out, applyPolicies E K tcs = .ok out
  | [], _ => ⟨[], rfl⟩
  | tc :: tcs, h => by
    obtain ⟨t, h1⟩ := h tc (by simp)
    obtain ⟨out, h2⟩ := apply_all (tcs := tcs) fun tc h' => h tc (by simp [h'])
    refine ⟨t :: out, ?_⟩
    unfold applyPolicies
    rw [h1, h2]
    rfl

end

/-- One direction of what follows. -/
theorem found_reordered {L : Lib} {jar : KeyJar} {f f' : Collect.Forest Jws} {ec ec' : Jws} {tcs tcs' : List TrustChain} (hf : SameTree f f')
    (hs : SameButOrder L.toCrypto ec ec') (h : tcs = (docs f ec).filterMap (verdict L jar)) (h' : tcs' = (docs f' ec').filterMap (verdict L jar)) :
    ∀ tc ∈ tcs, ∃ tc' ∈ tcs', SameChain tc tc' := by
  intro tc ht
  rw [h, List.mem_filterMap] at ht
  obtain ⟨c, hc, hv⟩ := ht
  unfold docs at hc
  obtain ⟨c0, hc0, rfl⟩ := List.mem_map.1 hc
  have hv1 : (verifyChain L jar (c0.map some ++ [some ec])).1 = .ok (some tc) := by
    unfold verdict at hv
    cases hr : (verifyChain L jar (c0.map some ++ [some ec])).1 with
    | error e => rw [hr] at hv; cases hv
    | ok o => rw [hr] at hv; cases o with
      | none => cases hv
      | some t => cases hv; rfl
  obtain ⟨tc', k1, k2⟩ := accepted_reordered hs.resigned _ jar tc hv1
  refine ⟨tc', ?_, k2⟩
  rw [h', List.mem_filterMap]
  refine ⟨c0.map some ++ [some ec'], ?_, by simp only [verdict, k1]; rfl⟩
  unfold docs
  refine List.mem_map.2 ⟨c0, ?_, rfl⟩
  exact hf.2 c0 hc0

theorem settled_reordered {L : Lib} {jar : KeyJar} {f f' : Collect.Forest Jws} {ec ec' : Jws} (hf : SameTree f f') (hf' : SameTree f' f) (hs : SameButOrder L.toCrypto ec ec') (h : ∀ c ∈ docs f ec, Settled L jar (docs f ec) c) :
    ∀ c ∈ docs f' ec', Settled L jar (docs f' ec') c := by
  obtain ⟨⟨l, e1, -⟩, -⟩ := id hs
  have hsub : ec'.payload.sub = ec.payload.sub := by rw [e1]
  have hiss : ec'.payload.iss = ec.payload.iss := by rw [e1]
  intro c hc
  unfold docs at hc
  obtain ⟨c0, hc0, rfl⟩ := List.mem_map.1 hc
  have hm : c0.map some ++ [some ec] ∈ docs f ec := List.mem_map.2 ⟨c0, hf'.2 c0 hc0, rfl⟩
  have other : ∀ a, (∀ c' ∈ docs f ec, ∀ j', some j' ∈ c' → j'.payload.sub ≠ a) → ∀ c' ∈ docs f' ec', ∀ j', some j' ∈ c' → j'.payload.sub ≠ a := by
    intro a ha c' hc' j' hj'
    unfold docs at hc'
    obtain ⟨c1, hc1, rfl⟩ := List.mem_map.1 hc'
    have hm1 : c1.map some ++ [some ec] ∈ docs f ec := List.mem_map.2 ⟨c1, hf'.2 c1 hc1, rfl⟩
    rcases List.mem_append.1 hj' with hj' | hj'
    · exact ha _ hm1 j' (List.mem_append.2 (Or.inl hj'))
    · simp only [List.mem_singleton, Option.some.injEq] at hj'
      subst hj'
      rw [hsub]
      exact ha _ hm1 ec (by simp)
  rcases h _ hm with ⟨tc, h1⟩ | ⟨j, ds, h1, h2, h3⟩
  · obtain ⟨tc', k, -⟩ := accepted_reordered hs.resigned _ jar tc h1
    exact Or.inl ⟨tc', k⟩
  · right
    cases c0 with
    | nil =>
      simp only [List.map_nil, List.nil_append, List.cons.injEq, Option.some.injEq] at h1
      obtain ⟨rfl, -⟩ := h1
      exact ⟨ec', [], rfl, by rw [hiss]; exact h2, by rw [hiss]; exact other _ h3⟩
    | cons j0 c0 =>
      simp only [List.map_cons, List.cons_append, List.cons.injEq, Option.some.injEq] at h1
      obtain ⟨rfl, -⟩ := h1
      exact ⟨j0, _, rfl, h2, other _ h3⟩

/-- C221 as far as it holds: the order of the authorities makes no difference when it makes no difference to a trust chain which others were verified before it: every chain that is collected is accepted with the keys held already,
or starts with a statement of an entity of which none of them gives a key. Missing: chains that are accepted with the keys that other chains gave (`C221_violation`). -/
theorem C221_settled_partial (F F' : Collect.Federation) (V V' : Env) (st st' : State) (h h' : List Collect.FRun) (sub stopAt : String) (out : List TrustChain)
    (w : Within F V st h) (w' : Within F' V' st' h') (hV : V' = { V with W := F'.at V.W.now }) (hj : st'.jar = st.jar) (hd : F.Dated) (hp : F.PlainHints) (hsub : Collect.Plain sub) (hr : Reordered V.L.toCrypto F F')
    (hset : ∀ f ec, (Collect.collect V.L.toCrypto V.P V.W V.fuel st.coll sub stopAt).1 = .ok (f, ec) → ∀ c ∈ docs f ec, Settled V.L st.jar (docs f ec) c)
    (ho : (getVerified V st sub stopAt).1 = .ok out) : ∃ out', (getVerified V' st' sub stopAt).1 = .ok out' ∧ SameChains out out' := by
  obtain ⟨f, ec, tcs, c1, c2, c3, -⟩ := getVerified_ok ho
  have i1 := w.ideal hd hp hsub stopAt
  have i2 := w'.ideal (hr.dated hd) (hr.plainHints hp) hsub stopAt
  rw [c1] at i1
  obtain ⟨f', ec', q1, q2, q3⟩ := hr.collect i1.symm
  obtain ⟨f2, ec2, q4, q5, q6⟩ := hr.symm.collect q1
  have e : (f2, ec2) = (f, ec) := Option.some.inj (q4.symm.trans i1.symm)
  cases e
  have c1' : (Collect.collect V'.L.toCrypto V'.P V'.W V'.fuel st'.coll sub stopAt).1 = .ok (f', ec') := by
    rw [show Collect.idealCollect V'.L.toCrypto V'.P F' V'.W.now V'.fuel sub stopAt = some (f', ec') by rw [hV]; exact q1] at i2
    cases hc : (Collect.collect V'.L.toCrypto V'.P V'.W V'.fuel st'.coll sub stopAt).1 with
    | error e => rw [hc] at i2; cases i2
    | ok x => rw [hc] at i2; cases i2; rfl
  have s1 := hset f ec c1
  have s2 := settled_reordered q2 q5 q3 s1
  have v1 := verified_settled (docs f ec) (Threads.Grows.refl st.jar) (fun _ hc => hc) s1 fun _ h _ => h
  have v2 := verified_settled (docs f' ec') (Threads.Grows.refl st.jar) (fun _ hc => hc) s2 fun _ h _ => h
  have e1 : tcs = (docs f ec).filterMap (verdict V.L st.jar) := Except.ok.inj (c2.symm.trans v1)
  generalize e2 : (docs f' ec').filterMap (verdict V.L st.jar) = tcs' at v2
  have to := found_reordered q2 q3 e1 e2.symm
  have back := found_reordered q5 q6 e2.symm e1
  obtain ⟨m1, m2⟩ := applyPolicies_mem c3
  obtain ⟨out', c3'⟩ := apply_all (E := V.E) (K := V.K) (tcs := tcs') fun tc' ht' => by
    obtain ⟨tc, ht, hs⟩ := back tc' ht'
    obtain ⟨t, -, k1⟩ := m2 tc ht
    obtain ⟨tc2, ht2, hs2⟩ := to tc ht
    obtain ⟨vs, p, l, a1, a2⟩ := hs.2.2.2.2
    have hs' : SameChain tc tc' := ⟨hs.1.symm, hs.2.1.symm, hs.2.2.1.symm, hs.2.2.2.1.symm, vs, { p with hints := l }, p.hints, a2, a1⟩
    obtain ⟨t', k2, -⟩ := applied_reordered hs' k1
    exact ⟨t', k2⟩
  refine ⟨out', ?_, ?_⟩
  · unfold getVerified
    generalize Collect.collect V'.L.toCrypto V'.P V'.W V'.fuel st'.coll sub stopAt = r at c1'
    obtain ⟨r, coll⟩ := r
    simp only at c1'
    subst c1'
    simp only
    rw [hj]
    subst hV
    unfold docs at v2
    simp only
    generalize verifyChains V.L _ st.jar = q at v2
    obtain ⟨q, jar⟩ := q
    simp only at v2
    subst v2
    simp only
    rw [c3']
  · obtain ⟨m1', m2'⟩ := applyPolicies_mem c3'
    constructor
    · intro t ht
      obtain ⟨tc, htc, k1⟩ := m1 t ht
      obtain ⟨tc', htc', hs⟩ := to tc htc
      obtain ⟨t', k2, k3⟩ := applied_reordered hs k1
      obtain ⟨t2, k4, k5⟩ := m2' tc' htc'
      rw [k2] at k5
      cases k5
      exact ⟨t', k4, k3⟩
    · intro t' ht'
      obtain ⟨tc', htc', k1⟩ := m1' t' ht'
      obtain ⟨tc, htc, hs⟩ := back tc' htc'
      obtain ⟨t, k2, k3⟩ := applied_reordered hs k1
      obtain ⟨t2, k4, k5⟩ := m2 tc htc
      rw [k2] at k5
      cases k5
      exact ⟨t, k4, k3.symm⟩

/-! ### Where it does make a difference, and examples -/

theorem Reordered.inForce {C : Crypto} {F F' : Collect.Federation} (h : Reordered C F F') {now : Int} (hl : F.InForce C now) : F'.InForce C now := by
  intro k j hj
  obtain ⟨j', q1, -, -, -, q2⟩ := h.symm.conf hj
  rw [← q2]
  exact hl k j' q1

namespace Ex221
/-- The federation of `Ex219`: `far` is below `mid`, which is below `tb` and below `dead`, an entity without a fetch endpoint. `near` is below `ta` and below `tb`. -/
def F : Collect.Federation := ⟨Ex219.W.config, Ex219.W.fetch⟩

def backwards (j : Jws) : Jws := { j with payload := { j.payload with hints := j.payload.hints.map List.reverse } }

/-- The same with all authorities in the reverse order. -/
def F' : Collect.Federation where
  config k := match F.config k with
    | .ok (some j) => .ok (some (backwards j))
    | r => r
  fetch := F.fetch

theorem reordered : Reordered Ex.L.toCrypto F F' where
  config k := by
    simp only [F']
    generalize F.config k = r
    rcases r with _ | (_ | j)
    · trivial
    · trivial
    · refine ⟨⟨_, rfl, ?_⟩, fun _ => rfl, fun _ => rfl, fun _ => rfl⟩
      cases j.payload.hints with
      | none => trivial
      | some l => intro a; simp
  fetch := rfl

theorem known {k : String} {j : Jws} (h : F.config k = .ok (some j)) : j.payload.exp = some 10000 ∧ ∀ l, j.payload.hints = some l → ∀ a ∈ l, Collect.Plain a := by
  simp only [F, Ex219.W] at h
  split at h <;> cases h <;> refine ⟨rfl, fun l hl => ?_⟩ <;> cases hl <;> decide

theorem dated : F.Dated := fun _ _ h => ⟨10000, (known h).1⟩
theorem plainHints : F.PlainHints := fun _ _ l h hl => (known h).2 l hl
theorem inForce : F.InForce Ex.L.toCrypto 0 := by
  intro k j h
  simp only [Ex.L, notExpired, (known h).1]
  decide

def V (F : Collect.Federation) (anchors : List String) : Env := { L := Ex.L, P := { anchors := anchors }, W := F.at 0, fuel := 10, E := SetEnum.insertion, K := SetEnum.insertion }
theorem within {F : Collect.Federation} (hl : F.InForce Ex.L.toCrypto 0) (anchors : List String) (jar : KeyJar) : Within F (V F anchors) { jar := jar } [] where
  world := rfl
  steady := Collect.Federation.steady_notExpired (fun _ _ => rfl) (show (0 : Int) ≤ 300 by decide) _ _
  clear := hl.clear _
  collected := rfl
  order := List.Pairwise.nil
  past := by intro r hr; cases hr
  plain := by intro r hr; cases hr
end Ex221

/-- C221 does not hold: `mid` is below `tb` and below `dead`. If it names `tb` first there are two trust chains for `far`, of which one has `mid` as its trust anchor, since the keys of `mid` are known by then; if it names `dead` first there is only the other. -/
theorem C221_violation : ¬ C221_full := by
  intro h
  have h1 : Ex219.anchors (getVerified (Ex221.V Ex221.F ["https://tb"]) { jar := [("https://tb", [4])] } "https://far").1 = .ok ["https://tb", "https://mid"] := by decide +kernel
  have h2 : Ex219.anchors (getVerified (Ex221.V Ex221.F' ["https://tb"]) { jar := [("https://tb", [4])] } "https://far").1 = .ok ["https://tb"] := by decide +kernel
  cases h3 : (getVerified (Ex221.V Ex221.F ["https://tb"]) { jar := [("https://tb", [4])] } "https://far").1 with
  | error e => rw [h3] at h1; cases h1
  | ok out =>
    obtain ⟨out', h4, h5, -⟩ := h Ex221.F Ex221.F' _ (Ex221.V Ex221.F' ["https://tb"]) _ { jar := [("https://tb", [4])] } [] [] "https://far" "" out (Ex221.within Ex221.inForce _ _) (Ex221.within (Ex221.reordered.inForce Ex221.inForce) _ _)
      rfl rfl Ex221.dated Ex221.plainHints (by decide) Ex221.reordered h3
    rw [h3] at h1
    rw [h4] at h2
    simp only [Ex219.anchors, Except.map, Except.ok.injEq] at h1 h2
    have hm : "https://mid" ∈ out.map (·.anchor) := by rw [h1]; decide
    obtain ⟨tc, htc, ha⟩ := List.mem_map.1 hm
    obtain ⟨tc', htc', ho⟩ := h5 tc htc
    have hm' : tc'.anchor ∈ out'.map (·.anchor) := List.mem_map.2 ⟨tc', htc', rfl⟩
    simp only [outline, Prod.mk.injEq] at ho
    rw [h2, ho.1, ha] at hm'
    exact absurd hm' (by decide)

namespace Ex221
/-- Is every chain that is collected settled? -/
def settled (V : Env) (st : State) (entity : String) : Bool :=
  match (Collect.collect V.L.toCrypto V.P V.W V.fuel st.coll entity "").1 with
  | .error _ => true
  | .ok (f, ec) => (docs f ec).all fun c =>
    (match (verifyChain V.L st.jar c).1 with
    | .ok (some _) => true
    | _ => false) ||
    match c with
    | some j :: _ => !Dict.has st.jar j.payload.iss && (docs f ec).all fun c' => c'.all fun d => match d with
      | some j' => decide (j'.payload.sub ≠ j.payload.iss)
      | none => true
    | _ => false

theorem settled_iff {V : Env} {st : State} {entity : String} (h : settled V st entity = true) : ∀ f ec, (Collect.collect V.L.toCrypto V.P V.W V.fuel st.coll entity "").1 = .ok (f, ec) → ∀ c ∈ docs f ec, Settled V.L st.jar (docs f ec) c := by
  intro f ec hc c hm
  unfold settled at h
  rw [hc] at h
  have := List.all_eq_true.1 h c hm
  rcases Bool.or_eq_true_iff.1 this with h1 | h1
  · left
    split at h1
    · rename_i tc h2; exact ⟨tc, h2⟩
    · cases h1
  · right
    split at h1
    · rename_i j ds
      obtain ⟨k1, k2⟩ := Bool.and_eq_true_iff.1 h1
      refine ⟨j, ds, rfl, by simpa using k1, fun c' hc' j' hj' => ?_⟩
      have := List.all_eq_true.1 (List.all_eq_true.1 k2 c' hc') _ hj'
      exact of_decide_eq_true this
    · cases h1

/-- `near` names `ta`, which is trusted, and `tb`, which is not; or both of them are trusted. -/
example : Ex219.anchors (getVerified (V F ["https://ta"]) { jar := [("https://ta", [1])] } "https://near").1 = .ok ["https://ta"] ∧
    Ex219.anchors (getVerified (V F ["https://ta", "https://tb"]) { jar := [("https://ta", [1]), ("https://tb", [4])] } "https://near").1 = .ok ["https://ta", "https://tb"] ∧
    Ex219.anchors (getVerified (V F' ["https://ta", "https://tb"]) { jar := [("https://ta", [1]), ("https://tb", [4])] } "https://near").1 = .ok ["https://tb", "https://ta"] := by decide +kernel
example (out : List TrustChain) (h : (getVerified (V F ["https://ta"]) { jar := [("https://ta", [1])] } "https://near").1 = .ok out) :
    ∃ out', (getVerified (V F' ["https://ta"]) { jar := [("https://ta", [1])] } "https://near").1 = .ok out' ∧ SameChains out out' :=
  C221_settled_partial F F' _ (V F' ["https://ta"]) _ _ [] [] "https://near" "" out (within inForce _ _) (within (reordered.inForce inForce) _ _) rfl rfl dated plainHints (by decide) reordered (settled_iff (by decide +kernel)) h
example (out : List TrustChain) (h : (getVerified (V F ["https://ta", "https://tb"]) { jar := [("https://ta", [1]), ("https://tb", [4])] } "https://near").1 = .ok out) :
    ∃ out', (getVerified (V F' ["https://ta", "https://tb"]) { jar := [("https://ta", [1]), ("https://tb", [4])] } "https://near").1 = .ok out' ∧ SameChains out out' :=
  C221_settled_partial F F' _ (V F' ["https://ta", "https://tb"]) _ _ [] [] "https://near" "" out (within inForce _ _) (within (reordered.inForce inForce) _ _) rfl rfl dated plainHints (by decide) reordered (settled_iff (by decide +kernel)) h
end Ex221

end Fed.Chains
