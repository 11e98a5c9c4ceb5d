import Verif.Chains.Reordered
/-
C222: entities that name further authorities (`authority_hints`) than they did, because they joined another federation. Collected by /repo/src/fedservice/entity/function/trust_chain_collector.py 227-263 (`collect_tree`).
-/
namespace Fed.Chains
open Fed Fed.Verify Fed.Server

/-- The authorities there were, in the same order, and perhaps others among them; none twice. -/
def MoreHints (h h' : Option (List String)) : Prop := (h.getD []).Sublist (h'.getD []) ∧ (h'.getD []).Nodup ∧ (h' = none → h = none)

/-- The same federation after some entities named further authorities. -/
structure Joined (C : Crypto) (F F' : Collect.Federation) : Prop where
  config : ∀ k j, F.config k = .ok (some j) → ∃ j', F'.config k = .ok (some j') ∧ Resigned C j j' ∧ MoreHints j.payload.hints j'.payload.hints
  fetch : F'.fetch = F.fetch

/-- C222 in full: when entities name further authorities, all trust chains that were found are found still, in the same order. -/
def C222_full : Prop :=
  ∀ (F F' : Collect.Federation) (V V' : Env) (st st' : State) (h h' : List Collect.FRun) (sub : String) (out : List TrustChain),
    Within F V st h → Within F' V' st' h' → V' = { V with W := F'.at V.W.now } → st'.jar = st.jar → F.Dated → F'.Dated → F.PlainHints → F'.PlainHints → Collect.Plain sub → Joined V.L.toCrypto F F' →
    (getVerified V st sub).1 = .ok out → ∃ out', (getVerified V' st' sub).1 = .ok out' ∧ (out.map outline).Sublist (out'.map outline)

section
open Collect

variable {C : Crypto} {F F' : Federation}

theorem Joined.published (h : Joined C F F') (t : Int) (a : String) {j : Jws} (hj : publishedConfig C F t a = some j) :
    ∃ j', publishedConfig C F' t a = some j' ∧ Resigned C j j' ∧ MoreHints j.payload.hints j'.payload.hints := by
  obtain ⟨h1, h2⟩ := publishedConfig_iff.1 hj
  obtain ⟨j', h3, h4, h5⟩ := h.config a j h1
  exact ⟨j', publishedConfig_iff.2 ⟨h3, h4.selfVerify t h2⟩, h4, h5⟩

theorem Joined.statement (h : Joined C F F') (t : Int) (a e : String) {s : Option Jws} (hs : publishedStatement C F t a e = some s) : publishedStatement C F' t a e = some s := by
  unfold publishedStatement at hs ⊢
  cases hp : publishedConfig C F t a with
  | none => rw [hp] at hs; cases hs
  | some j =>
    obtain ⟨j', h1, ⟨⟨l, h2⟩, -⟩, -⟩ := h.published t a hp
    rw [hp] at hs
    rw [h1]
    have e : getFetchEndpoint j'.payload = getFetchEndpoint j.payload := by rw [h2]; rfl
    simp only at hs ⊢
    rw [e, h.fetch]
    exact hs

/-- The chains that come of one authority, as a list. -/
def branchList : Branch → List (List Jws)
  | none => [[]]
  | some (s, .nil) => [[s]]
  | some (s, sub) => (tree2chains sub).map (· ++ [s])

theorem tree2chains_items : ∀ (f : Forest Jws), tree2chains f = f.items.flatMap fun x => branchList x.2
  | .nil => rfl
  | .missing i r => by simp [tree2chains, Forest.items, branchList, tree2chains_items r]
  | .node i s .nil r => by simp [tree2chains, Forest.items, branchList, tree2chains_items r]
  | .node i s (.missing j q) r => by
    rw [tree2chains, tree2chains_items r]
    · simp [Forest.items, branchList]
    · simp
  | .node i s (.node j t q q') r => by
    rw [tree2chains, tree2chains_items r]
    · simp [Forest.items, branchList]
    · simp

theorem items_set_new {f : Forest Jws} {i : String} {b : Branch} (h : i ∉ f.keys) : (f.set i b).items = f.items ++ [(i, b)] := by
  induction f with
  | nil => rcases b with _ | ⟨s, sub⟩ <;> simp [Forest.set, Forest.items]
  | missing j r ih =>
    simp only [Forest.keys, Forest.items, List.map_cons, List.mem_cons, not_or] at h
    simp only [Forest.set, if_neg (fun e => h.1 (Eq.symm e)), Forest.items, List.cons_append]
    rw [ih h.2]
  | node j t sub' r _ ih =>
    simp only [Forest.keys, Forest.items, List.map_cons, List.mem_cons, not_or] at h
    simp only [Forest.set, if_neg (fun e => h.1 (Eq.symm e)), Forest.items, List.cons_append]
    rw [ih h.2]

/-- What is put together for a list of different authorities. -/
theorem idealHints_list {branch : String → Option Branch} : ∀ {l : List String} {acc f : Forest Jws}, l.Nodup → (∀ a ∈ l, a ∉ acc.keys) → idealHints branch l acc = some f →
    f.items = acc.items ++ l.map fun a => (a, (branch a).getD none) := by
  intro l
  induction l with
  | nil => intro acc f _ _ h; cases h; simp
  | cons a as ih =>
    intro acc f hn hk h
    unfold idealHints at h
    cases hb : branch a with
    | none => rw [hb] at h; cases h
    | some b =>
      rw [hb] at h
      have hnew := items_set_new (b := b) (hk a (by simp))
      rw [ih (List.nodup_cons.1 hn).2 ?_ h, hnew]
      · simp [hb]
      · intro a' ha'
        simp only [Forest.keys, hnew, List.map_append, List.map_cons, List.map_nil, List.mem_append, List.mem_singleton, not_or]
        exact ⟨hk a' (by simp [ha']), fun e => (List.nodup_cons.1 hn).1 (e ▸ ha')⟩

theorem flatMap_sublist {α β : Type} {g g' : α → List β} : ∀ {l l' : List α}, l.Sublist l' → (∀ a ∈ l, (g a).Sublist (g' a)) → (l.flatMap g).Sublist (l'.flatMap g') := by
  intro l l' h
  induction h with
  | slnil => intro _; exact .slnil
  | cons a _ ih =>
    intro hg
    rw [List.flatMap_cons]
    exact (ih hg).trans (List.sublist_append_right _ _)
  | cons_cons a _ ih =>
    intro hg
    rw [List.flatMap_cons, List.flatMap_cons]
    exact (hg a (by simp)).append (ih fun a ha => hg a (by simp [ha]))

/-- Entities that had no authority have none now. -/
def SameTops (F F' : Federation) : Prop := ∀ k j j', F.config k = .ok (some j) → F'.config k = .ok (some j') → j.payload.hints.getD [] = [] → j'.payload.hints.getD [] = []

theorem idealTree_hints {P : Params} {t : Int} {s : String} {n : Nat} {e : String} {p : Payload} {f : Forest Jws} (h : idealTree C P F t s (n + 1) e p = some f) :
    (p.iss = s ∧ f = .nil) ∨ (p.hints.getD [] = [] ∧ f = .nil) ∨ (p.iss ≠ s ∧ idealHints (idealBranch C P F t (idealTree C P F t s n) e) (p.hints.getD []) .nil = some f) := by
  unfold idealTree at h
  cases hh : p.hints with
  | none => rw [hh] at h; cases h; exact Or.inr (Or.inl ⟨rfl, rfl⟩)
  | some l =>
    rw [hh] at h
    simp only at h
    split at h
    · rename_i hi
      cases h
      exact Or.inl ⟨hi, rfl⟩
    · rename_i hi
      exact Or.inr (Or.inr ⟨hi, h⟩)

theorem Joined.tree (h : Joined C F F') (htop : SameTops F F') {P : Params} {t : Int} {s : String} : ∀ (n : Nat) (e : String) (j j' : Jws), F.config e = .ok (some j) → F'.config e = .ok (some j') →
    Resigned C j j' → MoreHints j.payload.hints j'.payload.hints → ∀ f f', idealTree C P F t s n e j.payload = some f → idealTree C P F' t s n e j'.payload = some f' →
    (f = .nil ↔ f' = .nil) ∧ (tree2chains f).Sublist (tree2chains f') := by
  intro n
  induction n with
  | zero => intro e j j' _ _ _ _ f f' hf; cases hf
  | succ n ih =>
    intro e j j' hj hj' hr hm f f' hf hf'
    obtain ⟨hm1, hm2, -⟩ := hm
    obtain ⟨⟨hs', e1⟩, -⟩ := hr
    have e3 : j'.payload.iss = j.payload.iss := by rw [e1]
    have ht := htop e j j' hj hj'
    have c1 := idealTree_hints hf
    have c2 := idealTree_hints hf'
    rw [e3] at c2
    generalize j.payload.hints.getD [] = l at hm1 ht c1
    generalize j'.payload.hints.getD [] = l' at hm1 hm2 ht c2
    have nilcase : f = .nil → f' = .nil → (f = .nil ↔ f' = .nil) ∧ (tree2chains f).Sublist (tree2chains f') := by
      rintro rfl rfl; exact ⟨Iff.rfl, List.Sublist.refl _⟩
    rcases c1 with ⟨k1, rfl⟩ | ⟨rfl, rfl⟩ | ⟨k1, k2⟩
    · rcases c2 with ⟨-, rfl⟩ | ⟨-, rfl⟩ | ⟨q1, -⟩
      · exact nilcase rfl rfl
      · exact nilcase rfl rfl
      · exact absurd k1 q1
    · rcases c2 with ⟨-, rfl⟩ | ⟨-, rfl⟩ | ⟨-, q2⟩
      · exact nilcase rfl rfl
      · exact nilcase rfl rfl
      · rw [ht rfl] at q2
        cases q2
        exact nilcase rfl rfl
    · rcases c2 with ⟨q1, -⟩ | ⟨rfl, rfl⟩ | ⟨-, q2⟩
      · exact absurd q1 k1
      · rw [List.sublist_nil.1 hm1] at k2
        cases k2
        exact nilcase rfl rfl
      · have i1 := idealHints_list (hm1.nodup hm2) (by simp [Forest.keys, Forest.items]) k2
        have i2 := idealHints_list hm2 (by simp [Forest.keys, Forest.items]) q2
        simp only [Forest.items, List.nil_append] at i1 i2
        obtain ⟨b1, -, -⟩ := idealHints_mem k2
        obtain ⟨b2, -, -⟩ := idealHints_mem q2
        refine ⟨?_, ?_⟩
        · rw [items_nil, items_nil, i1, i2, List.map_eq_nil_iff, List.map_eq_nil_iff]
          exact ⟨ht, fun h0 => by rw [h0] at hm1; exact List.sublist_nil.1 hm1⟩
        · rw [tree2chains_items, tree2chains_items f', i1, i2, List.flatMap_map, List.flatMap_map]
          refine flatMap_sublist hm1 fun a ha => ?_
          obtain ⟨b, hb, -⟩ := b1 a ha
          obtain ⟨b', hb', -⟩ := b2 a (hm1.subset ha)
          simp only [hb, hb', Option.getD_some]
          unfold idealBranch at hb hb'
          by_cases hc : e = a ∧ e ∈ P.anchors
          · rw [if_pos hc] at hb hb'
            cases hb; cases hb'
            exact List.Sublist.refl _
          · rw [if_neg hc] at hb hb'
            cases hst : publishedStatement C F t a e with
            | none => rw [hst] at hb; cases hb
            | some o =>
              rw [h.statement t a e hst] at hb'
              rw [hst] at hb
              cases o with
              | none => cases hb; cases hb'; exact List.Sublist.refl _
              | some s0 =>
                simp only at hb hb'
                cases hp : publishedConfig C F t a with
                | none => rw [hp] at hb; cases hb
                | some j0 =>
                  obtain ⟨j0', q1, q3, q4⟩ := h.published t a hp
                  rw [hp] at hb
                  rw [q1] at hb'
                  simp only at hb hb'
                  split at hb
                  · split at hb'
                    · cases ht : idealTree C P F t s n a j0.payload with
                      | none => rw [ht] at hb; cases hb
                      | some g =>
                        cases ht' : idealTree C P F' t s n a j0'.payload with
                        | none => rw [ht'] at hb'; cases hb'
                        | some g' =>
                          rw [ht] at hb
                          rw [ht'] at hb'
                          cases hb; cases hb'
                          obtain ⟨r1, r2⟩ := ih a j0 j0' (publishedConfig_iff.1 hp).1 (publishedConfig_iff.1 q1).1 q3 q4 g g' ht ht'
                          cases g with
                          | nil =>
                            have := r1.1 rfl
                            subst this
                            exact List.Sublist.refl _
                          | missing => cases g' with
                            | nil => exact absurd (r1.2 rfl) (by simp)
                            | missing => exact r2.map (· ++ [s0])
                            | node => exact r2.map (· ++ [s0])
                          | node => cases g' with
                            | nil => exact absurd (r1.2 rfl) (by simp)
                            | missing => exact r2.map (· ++ [s0])
                            | node => exact r2.map (· ++ [s0])
                    · cases hb'
                  · cases hb

theorem Joined.collect (h : Joined C F F') (htop : SameTops F F') {P : Params} {t : Int} {s e : String} {n : Nat} {f f' : Forest Jws} {ec ec' : Jws} (hc : idealCollect C P F t n e s = some (f, ec))
    (hc' : idealCollect C P F' t n e s = some (f', ec')) : (tree2chains f).Sublist (tree2chains f') ∧ Resigned C ec ec' := by
  unfold idealCollect at hc hc'
  cases hp : publishedConfig C F t e with
  | none => rw [hp] at hc; cases hc
  | some j =>
    obtain ⟨j', q1, q2, q3⟩ := h.published t e hp
    rw [hp] at hc
    rw [q1] at hc'
    simp only at hc hc'
    cases ht : idealTree C P F t s n e j.payload with
    | none => rw [ht] at hc; cases hc
    | some g =>
      cases ht' : idealTree C P F' t s n e j'.payload with
      | none => rw [ht'] at hc'; cases hc'
      | some g' =>
        rw [ht] at hc
        rw [ht'] at hc'
        cases hc; cases hc'
        exact ⟨(h.tree htop n e _ _ (publishedConfig_iff.1 hp).1 (publishedConfig_iff.1 q1).1 q2 q3 _ _ ht ht').2, q2⟩

end

/-! ### Verification -/

section

variable {L : Lib} {ec ec' : Jws}

theorem loop_jar (hs : Resigned L.toCrypto ec ec') (n : Nat) : ∀ (ds : List Doc) (jar : KeyJar) (ves : List Payload), (verifyLoop L n (ds ++ [some ec']) jar ves).2 = (verifyLoop L n (ds ++ [some ec]) jar ves).2 := by
  intro ds
  induction ds with
  | nil =>
    intro jar ves
    obtain ⟨⟨l, e1⟩, h3, h4, -⟩ := hs
    have q1 : verifyKeys L jar ec' = verifyKeys L jar ec := by
      have : L.usable ec' = L.usable ec := funext h3
      unfold verifyKeys
      rw [this, e1]
    have q2 : L.verifies ec' = L.verifies ec := funext h4
    have q3 : ec'.payload.jwks = ec.payload.jwks := by rw [e1]
    have q4 : ec'.payload.sub = ec.payload.sub := by rw [e1]
    simp only [List.nil_append, verifyLoop]
    rw [q1, q2, q3, q4]
    split
    · rfl
    · split
      · split
        · split <;> rfl
        · rfl
      · rfl
  | cons d ds ih =>
    intro jar ves
    cases d with
    | none => exact ih jar ves
    | some j =>
      simp only [List.cons_append, verifyLoop]
      split
      · rfl
      · split
        · split
          · split
            · rfl
            · exact ih _ _
          · exact ih _ _
        · rfl

theorem chain_jar (hs : Resigned L.toCrypto ec ec') (ds : List Doc) (jar : KeyJar) : (verifyChain L jar (ds ++ [some ec'])).2 = (verifyChain L jar (ds ++ [some ec])).2 := by
  rw [verifyChain_jar, verifyChain_jar]
  obtain ⟨⟨l, e1⟩, -⟩ := id hs
  have hd : ∃ d d' rest rest', ds ++ [some ec] = d :: rest ∧ ds ++ [some ec'] = d' :: rest' ∧ trustedAnchor jar d' = trustedAnchor jar d := by
    cases ds with
    | nil => exact ⟨_, _, _, _, rfl, rfl, by simp only [trustedAnchor]; rw [e1]⟩
    | cons d ds => exact ⟨_, _, _, _, rfl, rfl, rfl⟩
  have hlen : (ds ++ [some ec']).length - 1 = (ds ++ [some ec]).length - 1 := by simp
  obtain ⟨d, d', rest, rest', k1, k2, k3⟩ := hd
  have key := loop_jar hs ((ds ++ [some ec]).length - 1) ds jar []
  have out : ∀ (d : Doc) (c : List Doc), (verifyTrustChain L jar (d :: c)).2 = if trustedAnchor jar d = .ok true then (verifyLoop L ((d :: c).length - 1) (d :: c) jar []).2 else jar := by
    intro d c
    unfold verifyTrustChain
    simp only
    cases ht : trustedAnchor jar d with
    | error e => simp
    | ok b =>
      cases b with
      | false => simp
      | true =>
        simp only [if_true]
        generalize verifyLoop L ((d :: c).length - 1) (d :: c) jar [] = r
        obtain ⟨r, jar'⟩ := r
        cases r with
        | error e => rfl
        | ok ves =>
          simp only
          split
          · rfl
          · split <;> rfl
  rw [k1, k2] at key hlen
  rw [k1, k2, out, out, k3, hlen, key]

end

/-- Of more chains, with more keys, more are accepted; and they come out the same. -/
theorem joined_verified {L : Lib} {E : SetEnum Val} {K : SetEnum String} {ec ec' : Jws} (hs : Resigned L.toCrypto ec ec') : ∀ {cs cs' : List (List Jws)}, cs.Sublist cs' →
    ∀ {jar jar' : KeyJar} {tcs tcs' out out' : List TrustChain}, Threads.Grows jar jar' → (verifyChains L (cs.map fun c => c.map some ++ [some ec]) jar).1 = .ok tcs →
    (verifyChains L (cs'.map fun c => c.map some ++ [some ec']) jar').1 = .ok tcs' → applyPolicies E K tcs = .ok out → applyPolicies E K tcs' = .ok out' → (out.map outline).Sublist (out'.map outline) := by
  intro cs cs' h
  induction h with
  | slnil =>
    intro jar jar' tcs tcs' out out' _ h1 _ h3 _
    cases h1
    cases h3
    exact List.nil_sublist _
  | @cons cs cs' c _ ih =>
    intro jar jar' tcs tcs' out out' hg h1 h2 h3 h4
    rw [List.map_cons, verifyChains] at h2
    have g := hg.trans (verifyChain_kept L jar' (c.map some ++ [some ec']))
    generalize verifyChain L jar' (c.map some ++ [some ec']) = r at h2 g
    obtain ⟨r, jar1⟩ := r
    cases r with
    | error e => cases h2
    | ok o =>
      simp only at h2 g
      have ih := fun a o => ih (jar := jar) (jar' := jar1) (tcs' := a) (out := out) (out' := o) g h1
      generalize verifyChains L _ jar1 = q at h2 ih
      obtain ⟨q, jar2⟩ := q
      cases q with
      | error e => cases h2
      | ok a =>
        simp only [Except.ok.injEq] at h2
        subst h2
        cases o with
        | none => exact ih a out' rfl h3 h4
        | some tc =>
          obtain ⟨t, ts, -, k2, rfl⟩ := applyPolicies_cons h4
          exact (ih a ts rfl h3 k2).trans (List.sublist_cons_self _ _)
  | @cons_cons cs cs' c _ ih =>
    intro jar jar' tcs tcs' out out' hg h1 h2 h3 h4
    rw [List.map_cons, verifyChains] at h1 h2
    have g := verifyChain_grows L (c.map some ++ [some ec']) hg
    rw [chain_jar hs] at g
    have m : ∀ tc, (verifyChain L jar (c.map some ++ [some ec])).1 = .ok (some tc) → ∃ tc', (verifyChain L jar' (c.map some ++ [some ec'])).1 = .ok (some tc') ∧ SameChain tc tc' := by
      intro tc htc
      obtain ⟨tc', k1, k2⟩ := accepted_reordered hs _ jar tc htc
      exact ⟨tc', verifyChain_mono hg.1 hg.2 k1, k2⟩
    generalize verifyChain L jar (c.map some ++ [some ec]) = r at h1 g m
    generalize verifyChain L jar' (c.map some ++ [some ec']) = r' at h2 g m
    obtain ⟨r, jar1⟩ := r
    obtain ⟨r', jar1'⟩ := r'
    cases r with
    | error e => cases h1
    | ok o =>
      cases r' with
      | error e => cases h2
      | ok o' =>
        simp only at h1 h2 g m
        have ih := fun a a' o o' => ih (jar := jar1) (jar' := jar1') (tcs := a) (tcs' := a') (out := o) (out' := o') g
        generalize verifyChains L _ jar1 = q at h1 ih
        generalize verifyChains L _ jar1' = q' at h2 ih
        obtain ⟨q, _⟩ := q
        obtain ⟨q', _⟩ := q'
        cases q with
        | error e => cases h1
        | ok a =>
          cases q' with
          | error e => cases h2
          | ok a' =>
            simp only [Except.ok.injEq] at h1 h2
            subst h1 h2
            cases o with
            | none =>
              cases o' with
              | none => exact ih a a' out out' rfl rfl h3 h4
              | some tc' =>
                obtain ⟨t, ts, -, k2, rfl⟩ := applyPolicies_cons h4
                exact (ih a a' out ts rfl rfl h3 k2).trans (List.sublist_cons_self _ _)
            | some tc =>
              obtain ⟨tc', k1, k2⟩ := m tc rfl
              simp only [Except.ok.injEq] at k1
              subst k1
              obtain ⟨t, ts, k3, k4, rfl⟩ := applyPolicies_cons h3
              obtain ⟨t', ts', k5, k6, rfl⟩ := applyPolicies_cons h4
              obtain ⟨t2, k7, k8⟩ := applied_reordered k2 k3
              rw [k7] at k5
              cases k5
              rw [List.map_cons, List.map_cons, k8]
              exact (ih a a' ts ts' rfl rfl k4 k6).cons_cons _

/-- C222 as far as it holds: when entities name further authorities, all trust chains that were found are found still and in the same order, if the resolution does not fail for another reason and those that had no authority have none.
Missing: that the resolution does not fail because a new authority cannot be reached (`C222_unreachable_violation`) or its policies do not fit (`C222_conflict_violation`), and trust anchors that join another federation (`C222_anchor_violation`). -/
theorem C222_kept_partial (F F' : Collect.Federation) (V V' : Env) (st st' : State) (h h' : List Collect.FRun) (sub stopAt : String) (out out' : List TrustChain)
    (w : Within F V st h) (w' : Within F' V' st' h') (hV : V' = { V with W := F'.at V.W.now }) (hj : st'.jar = st.jar) (hd : F.Dated) (hd' : F'.Dated) (hp : F.PlainHints) (hp' : F'.PlainHints) (hsub : Collect.Plain sub)
    (hr : Joined V.L.toCrypto F F') (htop : SameTops F F') (ho : (getVerified V st sub stopAt).1 = .ok out) (ho' : (getVerified V' st' sub stopAt).1 = .ok out') : (out.map outline).Sublist (out'.map outline) := by
  obtain ⟨f, ec, tcs, c1, c2, c3, -⟩ := getVerified_ok ho
  obtain ⟨f', ec', tcs', c1', c2', c3', -⟩ := getVerified_ok ho'
  have i1 := w.ideal hd hp hsub stopAt
  have i2 := w'.ideal hd' hp' hsub stopAt
  rw [c1] at i1
  rw [c1'] at i2
  subst hV
  obtain ⟨q1, q2⟩ := hr.collect htop i1.symm i2.symm
  rw [hj] at c2'
  exact joined_verified q2 q1 (Threads.Grows.refl _) c2 c2' c3 c3'

/-! ### Where something is taken away, and examples -/

namespace Ex222
open Ex219 (conf)
def members : List String := ["https://ta", "https://tb", "https://im", "https://leaf", "https://near"]
def md (k : String) : Dict Policy.Metadata := if k = "https://leaf" ∨ k = "https://near" then Ex.rp (.str "openid") else Ex.fe true
/-- A federation in which the authorities are these. `tb` and `im` are in conflict about `leaf`. -/
def G (hs : String → Option (List String)) : Collect.Federation where
  config k := if k ∈ members then .ok (some (conf k (hs k) (md k))) else .error .missingPage
  fetch := Ex219.W.fetch

def before : String → Option (List String)
  | "https://im" => some ["https://ta"]
  | "https://leaf" => some ["https://im"]
  | "https://near" => some ["https://ta"]
  | _ => none

/-- `before`, but `k` has these authorities. -/
def but (k : String) (l : List String) (x : String) : Option (List String) := if x = k then some l else before x

theorem known {hs : String → Option (List String)} {k : String} {j : Jws} (h : (G hs).config k = .ok (some j)) : k ∈ members ∧ j = conf k (hs k) (md k) := by
  simp only [G] at h
  split at h
  · rename_i hm; cases h; exact ⟨hm, rfl⟩
  · cases h

theorem dated (hs : String → Option (List String)) : (G hs).Dated := by
  intro k j h; obtain ⟨-, rfl⟩ := known h; exact ⟨10000, rfl⟩
theorem plainHints {hs : String → Option (List String)} (hp : ∀ k ∈ members, ∀ a ∈ (hs k).getD [], Collect.Plain a) : (G hs).PlainHints := by
  intro k j l h hl a ha
  obtain ⟨hm, rfl⟩ := known h
  have : hs k = some l := hl
  exact hp k hm a (by rw [this]; exact ha)
theorem inForce (hs : String → Option (List String)) : (G hs).InForce Ex.L.toCrypto 0 := by
  intro k j h
  obtain ⟨-, rfl⟩ := known h
  rfl

instance (h h' : Option (List String)) : Decidable (MoreHints h h') := inferInstanceAs (Decidable (_ ∧ _ ∧ _))

theorem joined {hs hs' : String → Option (List String)} (h : ∀ k ∈ members, MoreHints (hs k) (hs' k)) : Joined Ex.L.toCrypto (G hs) (G hs') where
  config k j hj := by
    obtain ⟨hm, rfl⟩ := known hj
    exact ⟨conf k (hs' k) (md k), by simp only [G]; rw [if_pos hm], ⟨⟨_, rfl⟩, fun _ => rfl, fun _ => rfl, fun _ => rfl⟩, h k hm⟩
  fetch := rfl
end Ex222

/-- C222 does not hold: `near` is below `ta`, and names another authority that cannot be reached. -/
theorem C222_unreachable_violation : ¬ C222_full := by
  intro h
  have h1 : Ex219.anchors (getVerified (Ex221.V (Ex222.G Ex222.before) ["https://ta"]) { jar := [("https://ta", [1])] } "https://near").1 = .ok ["https://ta"] := by decide +kernel
  have h2 : (getVerified (Ex221.V (Ex222.G (Ex222.but "https://near" ["https://ta", "https://gone"])) ["https://ta"]) { jar := [("https://ta", [1])] } "https://near").1.toOption = none := by decide +kernel
  cases h3 : (getVerified (Ex221.V (Ex222.G Ex222.before) ["https://ta"]) { jar := [("https://ta", [1])] } "https://near").1 with
  | error e => rw [h3] at h1; cases h1
  | ok out =>
    obtain ⟨out', h4, -⟩ := h (Ex222.G Ex222.before) (Ex222.G (Ex222.but "https://near" ["https://ta", "https://gone"])) _ (Ex221.V _ ["https://ta"]) _ { jar := [("https://ta", [1])] } [] [] "https://near" out
      (Ex221.within (Ex222.inForce _) _ _) (Ex221.within (Ex222.inForce _) _ _) rfl rfl (Ex222.dated _) (Ex222.dated _) (Ex222.plainHints (by decide)) (Ex222.plainHints (by decide)) (by decide) (Ex222.joined (by decide)) h3
    rw [h4] at h2
    cases h2

/-- C222 does not hold: `leaf` is below `im`, which is below `ta`; once `im` is below `tb` too, `leaf` cannot be resolved any more, since `tb` and `im` are in conflict about its scopes. -/
theorem C222_conflict_violation : ¬ C222_full := by
  intro h
  have h1 : Ex219.anchors (getVerified (Ex221.V (Ex222.G Ex222.before) ["https://ta", "https://tb"]) { jar := [("https://ta", [1]), ("https://tb", [4])] } "https://leaf").1 = .ok ["https://ta"] := by decide +kernel
  have h2 : (getVerified (Ex221.V (Ex222.G (Ex222.but "https://im" ["https://ta", "https://tb"])) ["https://ta", "https://tb"]) { jar := [("https://ta", [1]), ("https://tb", [4])] } "https://leaf").1 = .error .policyError := by decide +kernel
  cases h3 : (getVerified (Ex221.V (Ex222.G Ex222.before) ["https://ta", "https://tb"]) { jar := [("https://ta", [1]), ("https://tb", [4])] } "https://leaf").1 with
  | error e => rw [h3] at h1; cases h1
  | ok out =>
    obtain ⟨out', h4, -⟩ := h (Ex222.G Ex222.before) (Ex222.G (Ex222.but "https://im" ["https://ta", "https://tb"])) _ (Ex221.V _ ["https://ta", "https://tb"]) _ { jar := [("https://ta", [1]), ("https://tb", [4])] } [] [] "https://leaf" out
      (Ex221.within (Ex222.inForce _) _ _) (Ex221.within (Ex222.inForce _) _ _) rfl rfl (Ex222.dated _) (Ex222.dated _) (Ex222.plainHints (by decide)) (Ex222.plainHints (by decide)) (by decide) (Ex222.joined (by decide)) h3
    rw [h4] at h2
    cases h2

/-- C222 does not hold: the trust anchor `ta` of `near` joins a federation whose anchor is `tb`, which is not trusted. No trust chain is found any more. -/
theorem C222_anchor_violation : ¬ C222_full := by
  intro h
  have h1 : Ex219.anchors (getVerified (Ex221.V (Ex222.G Ex222.before) ["https://ta"]) { jar := [("https://ta", [1])] } "https://near").1 = .ok ["https://ta"] := by decide +kernel
  have h2 : (getVerified (Ex221.V (Ex222.G (Ex222.but "https://ta" ["https://tb"])) ["https://ta"]) { jar := [("https://ta", [1])] } "https://near").1 = .ok [] := by decide +kernel
  cases h3 : (getVerified (Ex221.V (Ex222.G Ex222.before) ["https://ta"]) { jar := [("https://ta", [1])] } "https://near").1 with
  | error e => rw [h3] at h1; cases h1
  | ok out =>
    obtain ⟨out', h4, h5⟩ := h (Ex222.G Ex222.before) (Ex222.G (Ex222.but "https://ta" ["https://tb"])) _ (Ex221.V _ ["https://ta"]) _ { jar := [("https://ta", [1])] } [] [] "https://near" out
      (Ex221.within (Ex222.inForce _) _ _) (Ex221.within (Ex222.inForce _) _ _) rfl rfl (Ex222.dated _) (Ex222.dated _) (Ex222.plainHints (by decide)) (Ex222.plainHints (by decide)) (by decide) (Ex222.joined (by decide)) h3
    rw [h4] at h2
    cases h2
    have : out = [] := by simpa using List.sublist_nil.1 h5
    rw [h3, this] at h1
    cases h1

namespace Ex222
theorem sameTops (k : String) (l : List String) (hb : (before k).getD [] ≠ []) : SameTops (G before) (G (but k l)) := by
  intro x j j' hj hj' he
  obtain ⟨-, rfl⟩ := known hj
  obtain ⟨-, rfl⟩ := known hj'
  have he : (before x).getD [] = [] := he
  show (but k l x).getD [] = []
  unfold but
  have hx : x ≠ k := fun e => hb (e ▸ he)
  rw [if_neg hx]
  exact he

/-- `near` joins the federation of `tb` as well. -/
example : Ex219.anchors (getVerified (Ex221.V (G (but "https://near" ["https://tb", "https://ta"])) ["https://ta", "https://tb"]) { jar := [("https://ta", [1]), ("https://tb", [4])] } "https://near").1 = .ok ["https://tb", "https://ta"] := by
  decide +kernel
example (out out' : List TrustChain) (h : (getVerified (Ex221.V (G before) ["https://ta", "https://tb"]) { jar := [("https://ta", [1]), ("https://tb", [4])] } "https://near").1 = .ok out)
    (h' : (getVerified (Ex221.V (G (but "https://near" ["https://tb", "https://ta"])) ["https://ta", "https://tb"]) { jar := [("https://ta", [1]), ("https://tb", [4])] } "https://near").1 = .ok out') :
    (out.map outline).Sublist (out'.map outline) :=
  C222_kept_partial (G before) (G (but "https://near" ["https://tb", "https://ta"])) _ _ _ _ [] [] "https://near" "" out out' (Ex221.within (inForce _) _ _) (Ex221.within (inForce _) _ _) rfl rfl (dated _) (dated _)
    (plainHints (by decide)) (plainHints (by decide)) (by decide) (joined (by decide)) (sameTops _ _ (by decide)) h h'
end Ex222

end Fed.Chains
