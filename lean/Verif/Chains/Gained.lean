import Verif.Chains.Joined
/-
C225: what entities gain that name further authorities (`authority_hints`) than they did. Collected by /repo/src/fedservice/entity/function/trust_chain_collector.py 227-263 (`collect_tree`). The other half of C222.
-/
namespace Fed.Chains
open Fed Fed.Verify Fed.Server

/-- The entity names an authority that it did not name before. -/
def NewlyNames (F F' : Collect.Federation) (e a : String) : Prop :=
  ∃ j j', F.config e = .ok (some j) ∧ F'.config e = .ok (some j') ∧ a ∈ j'.payload.hints.getD [] ∧ a ∉ j.payload.hints.getD []

/-- The statements, first that of the trust anchor, lead down to the entity by way of an authority that was not named before: the last one is the statement of an authority about the entity; it, or one further up, is newly named.
A newly named authority that makes no statement ends the chain (`silent`). -/
inductive NewWay (C : Crypto) (F F' : Collect.Federation) (t : Int) : String → List Jws → Prop
  | here {e a : String} {c : List Jws} {s : Jws} : NewlyNames F F' e a → Collect.publishedStatement C F' t a e = some (some s) → NewWay C F F' t e (c ++ [s])
  | silent {e a : String} : NewlyNames F F' e a → Collect.publishedStatement C F' t a e = some none ∨ e = a → NewWay C F F' t e []
  | above {e a : String} {j' : Jws} {c : List Jws} {s : Jws} : F'.config e = .ok (some j') → a ∈ j'.payload.hints.getD [] → Collect.publishedStatement C F' t a e = some (some s) →
      NewWay C F F' t a c → NewWay C F F' t e (c ++ [s])

/-- C225 in full: when entities name further authorities, every trust chain there is then was there before or goes through an authority that was not named before. -/
def C225_full : Prop :=
  ∀ (F F' : Collect.Federation) (V V' : Env) (st st' : State) (h h' : List Collect.FRun) (sub : String) (out out' : List TrustChain),
    Within F V st h → Within F' V' st' h' → V' = { V with W := F'.at V.W.now } → st'.jar = st.jar → F.Dated → F'.Dated → F.PlainHints → F'.PlainHints → Collect.Plain sub → Joined V.L.toCrypto F F' →
    SameTops F F' → (getVerified V st sub).1 = .ok out → (getVerified V' st' sub).1 = .ok out' →
    ∀ tc' ∈ out', (∃ tc ∈ out, outline tc' = outline tc) ∨ ∃ c ec, tc'.chain = c.map some ++ [some ec] ∧ NewWay V.L.toCrypto F F' V.W.now sub c

section
open Collect

variable {C : Crypto} {F F' : Federation}

theorem branch_published {P : Params} {t : Int} {tree : String → Payload → Option (Forest Jws)} {e a : String} {b : Branch} (h : idealBranch C P F t tree e a = some b) :
    (b = none ∧ (publishedStatement C F t a e = some none ∨ e = a)) ∨ ∃ s j f, b = some (s, f) ∧ publishedStatement C F t a e = some (some s) ∧ publishedConfig C F t a = some j ∧ tree a j.payload = some f := by
  unfold idealBranch at h
  split at h
  · rename_i hc; cases h; exact Or.inl ⟨rfl, Or.inr hc.1⟩
  · cases hs : publishedStatement C F t a e with
    | none => rw [hs] at h; cases h
    | some o =>
      rw [hs] at h
      cases o with
      | none => cases h; exact Or.inl ⟨rfl, Or.inl rfl⟩
      | some s =>
        simp only at h
        cases hp : publishedConfig C F t a with
        | none => rw [hp] at h; cases h
        | some j =>
          rw [hp] at h
          simp only at h
          split at h
          · cases ht : tree a j.payload with
            | none => rw [ht] at h; cases h
            | some f => rw [ht] at h; cases h; exact Or.inr ⟨s, j, f, rfl, rfl, rfl, ht⟩
          · cases h

theorem branch_last {s : Jws} {f : Forest Jws} {c : List Jws} (h : branchChains (some (s, f)) c) : ∃ c0, c = c0 ++ [s] := by
  cases f with
  | nil => exact ⟨[], h⟩
  | missing => obtain ⟨c0, -, e⟩ := h; exact ⟨c0, e⟩
  | node => obtain ⟨c0, -, e⟩ := h; exact ⟨c0, e⟩

theorem Joined.gained (h : Joined C F F') (htop : SameTops F F') {P : Params} {t : Int} {s : String} : ∀ (n : Nat) (e : String) (j j' : Jws), F.config e = .ok (some j) → F'.config e = .ok (some j') →
    Resigned C j j' → MoreHints j.payload.hints j'.payload.hints → ∀ f f', idealTree C P F t s n e j.payload = some f → idealTree C P F' t s n e j'.payload = some f' →
    ∀ c ∈ tree2chains f', c ∈ tree2chains f ∨ NewWay C F F' t e c := by
  intro n
  induction n with
  | zero => intro e j j' _ _ _ _ f f' hf; cases hf
  | succ n ih =>
    intro e j j' hj hj' hr hm f f' hf hf' c hc
    have hm1 := hm.1
    have e3 : j'.payload.iss = j.payload.iss := by obtain ⟨⟨l, e1⟩, -⟩ := hr; rw [e1]
    have c2 := idealTree_hints hf'
    rcases c2 with ⟨-, rfl⟩ | ⟨-, rfl⟩ | ⟨q1, q2⟩
    · cases hc
    · cases hc
    · obtain ⟨x, hx, hbr⟩ := mem_tree2chains.1 hc
      obtain ⟨-, b2, -⟩ := idealHints_mem q2
      obtain ⟨hxl, hb⟩ : x.1 ∈ j'.payload.hints.getD [] ∧ idealBranch C P F' t (idealTree C P F' t s n) e x.1 = some x.2 := by
        rcases b2 x hx with h | h
        · exact h
        · cases h
      obtain ⟨a, b⟩ := x
      simp only at hxl hb hbr
      by_cases ha : a ∈ j.payload.hints.getD []
      · rcases idealTree_hints hf with ⟨k1, -⟩ | ⟨k1, -⟩ | ⟨k1, k2⟩
        · exact absurd (e3.trans k1) q1
        · rw [k1] at ha; cases ha
        · obtain ⟨b1, -, -⟩ := idealHints_mem k2
          obtain ⟨b0, hb0, hi0⟩ := b1 a ha
          have keep : branchChains b0 c → c ∈ tree2chains f := fun hk => mem_tree2chains.2 ⟨(a, b0), hi0, hk⟩
          rcases branch_published hb with ⟨rfl, hs⟩ | ⟨s1, j1, g1, rfl, hs, hp, ht⟩
          · rcases branch_published hb0 with ⟨rfl, -⟩ | ⟨s0, j0, g0, rfl, hs0, -, -⟩
            · exact Or.inl (keep hbr)
            · exfalso
              have hs1 := h.statement t a e hs0
              unfold idealBranch at hb hb0
              by_cases hcc : e = a ∧ e ∈ P.anchors
              · rw [if_pos hcc] at hb0; cases hb0
              · rw [if_neg hcc, hs1] at hb
                simp only at hb
                split at hb
                · cases hb
                · split at hb
                  · cases hq : idealTree C P F' t s n a _ with
                    | none => rw [hq] at hb; cases hb
                    | some g => rw [hq] at hb; cases hb
                  · cases hb
          · rcases branch_published hb0 with ⟨rfl, hs0⟩ | ⟨s0, j0, g0, rfl, hs0, hp0, ht0⟩
            · exfalso
              unfold idealBranch at hb hb0
              by_cases hcc : e = a ∧ e ∈ P.anchors
              · rw [if_pos hcc] at hb; cases hb
              · rw [if_neg hcc] at hb0
                cases hq : publishedStatement C F t a e with
                | none => rw [hq] at hb0; cases hb0
                | some o =>
                  have hs1 := h.statement t a e hq
                  rw [hs] at hs1
                  cases hs1
                  rw [hq] at hb0
                  simp only at hb0
                  split at hb0
                  · cases hb0
                  · split at hb0
                    · cases hq : idealTree C P F t s n a _ with
                      | none => rw [hq] at hb0; cases hb0
                      | some g => rw [hq] at hb0; cases hb0
                    · cases hb0
            · have es : s1 = s0 := by
                have := h.statement t a e hs0
                rw [hs] at this
                cases this
                rfl
              subst es
              obtain ⟨j2, w1, w2, w3⟩ := h.published t a hp0
              have ej : j2 = j1 := by rw [hp] at w1; cases w1; rfl
              subst ej
              have c0 := (publishedConfig_iff.1 hp0).1
              have c1 := (publishedConfig_iff.1 hp).1
              obtain ⟨r1, -⟩ := h.tree htop n a j0 j2 c0 c1 w2 w3 g0 g1 ht0 ht
              have ih' := ih a j0 j2 c0 c1 w2 w3 g0 g1 ht0 ht
              by_cases hg : g1 = .nil
              · have hg0 := r1.2 hg
                subst hg hg0
                exact Or.inl (keep hbr)
              · have hg0 : g0 ≠ .nil := fun e => hg (r1.1 e)
                have hex : ∃ c' ∈ tree2chains g1, c = c' ++ [s1] := by
                  cases g1 with
                  | nil => exact absurd rfl hg
                  | missing => exact hbr
                  | node => exact hbr
                obtain ⟨c', hc', rfl⟩ := hex
                rcases ih' c' hc' with k | k
                · refine Or.inl (keep ?_)
                  cases g0 with
                  | nil => exact absurd rfl hg0
                  | missing => exact ⟨c', k, rfl⟩
                  | node => exact ⟨c', k, rfl⟩
                · exact Or.inr (.above hj' hxl hs k)
      · have hnew : NewlyNames F F' e a := ⟨j, j', hj, hj', hxl, ha⟩
        rcases branch_published hb with ⟨rfl, hs⟩ | ⟨s1, j1, g1, rfl, hs, -, -⟩
        · have : c = [] := hbr
          subst this
          exact Or.inr (.silent hnew hs)
        · obtain ⟨c0, rfl⟩ := branch_last hbr
          exact Or.inr (.here hnew hs)

theorem Joined.collect_gained (h : Joined C F F') (htop : SameTops F F') {P : Params} {t : Int} {s e : String} {n : Nat} {f f' : Forest Jws} {ec ec' : Jws} (hc : idealCollect C P F t n e s = some (f, ec))
    (hc' : idealCollect C P F' t n e s = some (f', ec')) : ∀ c ∈ tree2chains f', c ∈ tree2chains f ∨ NewWay C F F' t e c := by
  unfold idealCollect at hc hc'
  cases hp : publishedConfig C F t e with
  | none => rw [hp] at hc; cases hc
  | some j =>
    obtain ⟨j', q1, q2, q3⟩ := h.published t e hp
    rw [hp] at hc
    rw [q1] at hc'
    simp only at hc hc'
    cases ht : idealTree C P F t s n e j.payload with
    | none => rw [ht] at hc; cases hc
    | some g =>
      cases ht' : idealTree C P F' t s n e j'.payload with
      | none => rw [ht'] at hc'; cases hc'
      | some g' =>
        rw [ht] at hc
        rw [ht'] at hc'
        cases hc; cases hc'
        exact h.gained htop n e _ _ (publishedConfig_iff.1 hp).1 (publishedConfig_iff.1 q1).1 q2 q3 _ _ ht ht'

end

theorem Resigned.symm {C : Crypto} {j j' : Jws} (h : Resigned C j j') : Resigned C j' j := by
  obtain ⟨⟨l, e⟩, h1, h2, h3⟩ := h
  exact ⟨⟨j.payload.hints, by rw [e]⟩, fun k => (h1 k).symm, fun k => (h2 k).symm, fun t => (h3 t).symm⟩

theorem runAll_grows {L : Lib} : ∀ (cs : List (List Doc)) (jar : KeyJar), Threads.Grows jar (runAll L jar cs)
  | [], jar => Threads.Grows.refl jar
  | c :: cs, jar => (verifyChain_kept L jar c).trans (runAll_grows cs _)

theorem applied_chain {E : SetEnum Val} {K : SetEnum String} {tc t : TrustChain} (h : applyToChain E K tc = .ok t) : t.chain = tc.chain := by
  obtain ⟨leaf, md, -, -, h3⟩ := applyToChain_ok.1 h
  rcases h3 with ⟨-, m, -, rfl⟩ | ⟨-, m, -, rfl⟩ <;> rfl

/-- C225 as far as it holds: when the verdict about each chain does not depend on the keys other chains give (`Settled`), every trust chain there is after entities named further authorities was there before or goes through an authority that was not named before.
Missing: chains that are accepted with the keys the new chains give (`C225_violation`). -/
theorem C225_settled_partial (F F' : Collect.Federation) (V V' : Env) (st st' : State) (h h' : List Collect.FRun) (sub stopAt : String) (out out' : List TrustChain)
    (w : Within F V st h) (w' : Within F' V' st' h') (hV : V' = { V with W := F'.at V.W.now }) (hj : st'.jar = st.jar) (hd : F.Dated) (hd' : F'.Dated) (hp : F.PlainHints) (hp' : F'.PlainHints) (hsub : Collect.Plain sub)
    (hr : Joined V.L.toCrypto F F') (htop : SameTops F F')
    (hset : ∀ f ec, (Collect.collect V'.L.toCrypto V'.P V'.W V'.fuel st'.coll sub stopAt).1 = .ok (f, ec) → ∀ c ∈ docs f ec, Settled V'.L st'.jar (docs f ec) c)
    (ho : (getVerified V st sub stopAt).1 = .ok out) (ho' : (getVerified V' st' sub stopAt).1 = .ok out') :
    ∀ tc' ∈ out', (∃ tc ∈ out, outline tc' = outline tc) ∨ ∃ c ec, tc'.chain = c.map some ++ [some ec] ∧ NewWay V.L.toCrypto F F' V.W.now sub c := by
  obtain ⟨f, ec, tcs, c1, c2, c3, -⟩ := getVerified_ok ho
  obtain ⟨f', ec', tcs', c1', c2', c3', -⟩ := getVerified_ok ho'
  have hset := hset f' ec' c1'
  have i1 := w.ideal hd hp hsub stopAt
  have i2 := w'.ideal hd' hp' hsub stopAt
  rw [c1] at i1
  rw [c1'] at i2
  subst hV
  rw [hj] at c2' hset
  obtain ⟨-, q2⟩ := hr.collect htop i1.symm i2.symm
  have q3 := hr.collect_gained htop i1.symm i2.symm
  have v2 := verified_settled (docs f' ec') (Threads.Grows.refl _) (fun _ h => h) hset (fun _ h _ => h)
  have e : Except.ok tcs' = Except.ok _ := c2'.symm.trans v2
  cases e
  intro t' ht'
  obtain ⟨tc', htc', k1⟩ := (applyPolicies_mem c3').1 t' ht'
  obtain ⟨cd, hcd, hv⟩ := List.mem_filterMap.1 htc'
  unfold docs at hcd
  obtain ⟨c, hc, rfl⟩ := List.mem_map.1 hcd
  have hv : (verifyChain V.L st.jar (c.map some ++ [some ec'])).1 = .ok (some tc') := by
    unfold verdict at hv
    generalize (verifyChain V.L st.jar (c.map some ++ [some ec'])).1 = r at hv ⊢
    cases r with
    | error e => cases hv
    | ok o => exact congrArg Except.ok hv
  rcases q3 c hc with k | k
  · left
    obtain ⟨tc, a1, a2⟩ := accepted_reordered q2.symm _ _ _ hv
    have hm : tc ∈ tcs := by
      obtain ⟨pre, post, e⟩ := List.append_of_mem (List.mem_map.2 ⟨c, k, rfl⟩ : (c.map some ++ [some ec]) ∈ docs f ec)
      have g := runAll_grows (L := V.L) pre st.jar
      exact (verifyChains_mem c2 tc).2 ⟨pre, _, post, e, verifyChain_mono g.1 g.2 a1⟩
    obtain ⟨t, m1, m2⟩ := (applyPolicies_mem c3).2 tc hm
    obtain ⟨t2, m3, m4⟩ := applied_reordered a2 k1
    rw [m3] at m2
    cases m2
    exact ⟨_, m1, m4.symm⟩
  · right
    obtain ⟨p, ps, x, -, -, rfl⟩ := verifyChain_ok.1 hv
    exact ⟨c, ec', applied_chain k1, k⟩

/-! ### Where something else is gained, and an example -/

namespace Ex225
open Ex219 (conf)
def members : List String := ["https://tb", "https://dead", "https://mid", "https://far"]
def md (k : String) : Dict Policy.Metadata := if k = "https://far" then Ex.rp (.str "openid") else Ex.fe (decide (k ≠ "https://dead"))
/-- `far` is below `mid`, which is below `dead`, an entity without a fetch endpoint, and names these authorities besides. -/
def hints (new : List String) : String → Option (List String)
  | "https://mid" => some (new ++ ["https://dead"])
  | "https://far" => some ["https://mid"]
  | _ => none
def G (new : List String) : Collect.Federation where
  config k := if k ∈ members then .ok (some (conf k (hints new k) (md k))) else .error .missingPage
  fetch := Ex219.W.fetch

theorem known {new : List String} {k : String} {j : Jws} (h : (G new).config k = .ok (some j)) : k ∈ members ∧ j = conf k (hints new k) (md k) := by
  simp only [G] at h
  split at h
  · rename_i hm; cases h; exact ⟨hm, rfl⟩
  · cases h

theorem dated (new : List String) : (G new).Dated := by
  intro k j h; obtain ⟨-, rfl⟩ := known h; exact ⟨10000, rfl⟩
theorem plainHints {new : List String} (hp : ∀ k ∈ members, ∀ a ∈ (hints new k).getD [], Collect.Plain a) : (G new).PlainHints := by
  intro k j l h hl a ha
  obtain ⟨hm, rfl⟩ := known h
  have : hints new k = some l := hl
  exact hp k hm a (by rw [this]; exact ha)
theorem inForce (new : List String) : (G new).InForce Ex.L.toCrypto 0 := by
  intro k j h
  obtain ⟨-, rfl⟩ := known h
  rfl
theorem joined : Joined Ex.L.toCrypto (G []) (G ["https://tb"]) where
  config k j hj := by
    obtain ⟨hm, rfl⟩ := known hj
    refine ⟨conf k (hints ["https://tb"] k) (md k), by simp only [G]; rw [if_pos hm], ⟨⟨_, rfl⟩, fun _ => rfl, fun _ => rfl, fun _ => rfl⟩, ?_⟩
    revert k
    decide
  fetch := rfl
theorem sameTops : SameTops (G []) (G ["https://tb"]) := by
  intro k j j' hj hj' he
  obtain ⟨hm, rfl⟩ := known hj
  obtain ⟨-, rfl⟩ := known hj'
  have : ∀ k ∈ members, (hints [] k).getD [] = [] → (hints ["https://tb"] k).getD [] = [] := by decide
  exact this k hm he

theorem newly {e a : String} (h : NewlyNames (G []) (G ["https://tb"]) e a) : e = "https://mid" ∧ a = "https://tb" := by
  obtain ⟨j, j', h1, h2, h3, h4⟩ := h
  obtain ⟨hm, rfl⟩ := known h1
  obtain ⟨-, rfl⟩ := known h2
  have : ∀ k ∈ members, ∀ a ∈ (hints ["https://tb"] k).getD [], a ∉ (hints [] k).getD [] → k = "https://mid" ∧ a = "https://tb" := by decide
  exact this e hm a h3 h4

/-- The statement of `mid` alone is not a way through `tb`. -/
theorem notNew (s : Jws) : ¬ NewWay Ex.L.toCrypto (G []) (G ["https://tb"]) 0 "https://far" [s] := by
  intro h
  generalize hc : [s] = c at h
  cases h with
  | here h1 _ => exact absurd (newly h1).1 (by decide)
  | silent h1 _ => cases hc
  | @above _ a j' c' s' h1 h2 _ h4 =>
    have hc' : c' = [] := by
      have := congrArg List.length hc
      simpa using this
    subst hc'
    obtain ⟨-, rfl⟩ := known h1
    have ha : a = "https://mid" := by
      have : a ∈ ["https://mid"] := h2
      simpa using this
    subst ha
    generalize hc2 : ([] : List Jws) = c2 at h4
    cases h4 with
    | here => simp at hc2
    | above => simp at hc2
    | silent h5 h6 =>
      obtain ⟨-, rfl⟩ := newly h5
      rcases h6 with h6 | h6
      · have h7 : (Collect.publishedStatement Ex.L.toCrypto (G ["https://tb"]) 0 "https://tb" "https://mid").map (·.isSome) = some true := by decide +kernel
        rw [h6] at h7
        cases h7
      · exact absurd h6 (by decide)

/-- The anchors, and how many statements there are above the entity. -/
def seen (r : Except PyErr (List TrustChain)) : Except PyErr (List (String × Nat)) := r.map (·.map fun tc => (tc.anchor, tc.chain.length))
end Ex225

/-- C225 does not hold: `far` is below `mid`, which is below `dead`, and cannot be resolved. Then `mid` joins the federation of `tb`. There are two trust chains for `far` now; one of them is the statement of `mid` alone, with `mid` as the trust anchor: it does not go through `tb`. -/
theorem C225_violation : ¬ C225_full := by
  intro h
  have h1 : (getVerified (Ex221.V (Ex225.G []) ["https://tb"]) { jar := [("https://tb", [4])] } "https://far").1 = .ok [] := by decide +kernel
  have h2 : Ex225.seen (getVerified (Ex221.V (Ex225.G ["https://tb"]) ["https://tb"]) { jar := [("https://tb", [4])] } "https://far").1 = .ok [("https://tb", 3), ("https://mid", 2)] := by decide +kernel
  cases h3 : (getVerified (Ex221.V (Ex225.G ["https://tb"]) ["https://tb"]) { jar := [("https://tb", [4])] } "https://far").1 with
  | error e => rw [h3] at h2; cases h2
  | ok out' =>
    have key := h (Ex225.G []) (Ex225.G ["https://tb"]) _ (Ex221.V _ ["https://tb"]) _ { jar := [("https://tb", [4])] } [] [] "https://far" [] out'
      (Ex221.within (Ex225.inForce _) _ _) (Ex221.within (Ex225.inForce _) _ _) rfl rfl (Ex225.dated _) (Ex225.dated _) (Ex225.plainHints (by decide)) (Ex225.plainHints (by decide)) (by decide) Ex225.joined Ex225.sameTops h1 h3
    rw [h3] at h2
    simp only [Ex225.seen, Except.map, Except.ok.injEq] at h2
    have hm : ("https://mid", 2) ∈ out'.map fun tc => (tc.anchor, tc.chain.length) := by rw [h2]; decide
    obtain ⟨tc', htc', he⟩ := List.mem_map.1 hm
    rcases key tc' htc' with ⟨tc, ht, -⟩ | ⟨c, ec, k1, k2⟩
    · cases ht
    · have hl : tc'.chain.length = 2 := (Prod.mk.inj he).2
      rw [k1] at hl
      simp only [List.length_append, List.length_map, List.length_cons, List.length_nil] at hl
      obtain ⟨s, rfl⟩ := List.length_eq_one_iff.1 (by omega : c.length = 1)
      exact Ex225.notNew s k2

/-- `near` joins the federation of `tb`: what is new goes through `tb`. -/
example (out out' : List TrustChain) (h : (getVerified (Ex221.V (Ex222.G Ex222.before) ["https://ta", "https://tb"]) { jar := [("https://ta", [1]), ("https://tb", [4])] } "https://near").1 = .ok out)
    (h' : (getVerified (Ex221.V (Ex222.G (Ex222.but "https://near" ["https://tb", "https://ta"])) ["https://ta", "https://tb"]) { jar := [("https://ta", [1]), ("https://tb", [4])] } "https://near").1 = .ok out') :
    ∀ tc' ∈ out', (∃ tc ∈ out, outline tc' = outline tc) ∨ ∃ c ec, tc'.chain = c.map some ++ [some ec] ∧ NewWay Ex.L.toCrypto (Ex222.G Ex222.before) (Ex222.G (Ex222.but "https://near" ["https://tb", "https://ta"])) 0 "https://near" c :=
  C225_settled_partial (Ex222.G Ex222.before) (Ex222.G (Ex222.but "https://near" ["https://tb", "https://ta"])) _ _ _ _ [] [] "https://near" "" out out' (Ex221.within (Ex222.inForce _) _ _) (Ex221.within (Ex222.inForce _) _ _) rfl rfl
    (Ex222.dated _) (Ex222.dated _) (Ex222.plainHints (by decide)) (Ex222.plainHints (by decide)) (by decide) (Ex222.joined (by decide)) (Ex222.sameTops _ _ (by decide)) (Ex221.settled_iff (by decide +kernel)) h h'

end Fed.Chains
