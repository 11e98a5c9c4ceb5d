import Verif.Chains.Restated
import Verif.Policy.Narrow
/-
C242 and C243: authorities that permit less, or demand more, in the policies of their statements, and what comes of it when entities are resolved (`get_verified_trust_chains`, /repo/src/fedservice/entity/function/__init__.py 154-161). That this holds for the policies
along one trust chain is C240 and C241.
-/
namespace Fed.Chains
open Fed Fed.Verify Fed.Server
open Fed.Collect.Moving (mapForest)

/-- The first statement is the second one with values taken out of what its policies permit, and, for the claims `more`, values put into what they demand; it is signed alike. -/
structure Tightened (C : Crypto) (more : String → Bool) (j' j : Jws) : Prop where
  said : ∃ pol, j'.payload = { j.payload with policy := pol } ∧ Policy.Akin (fun _ => Policy.LessPolicy more) pol j.payload.policy
  usable : ∀ k, C.usable j' k = C.usable j k
  verifies : ∀ k, C.verifies j' k = C.verifies j k

/-- The same federation, in which authorities permit less and, for the claims `more`, demand more. -/
abbrev PermittedLess (C : Crypto) (more : String → Bool) (F' F : Collect.Federation) : Prop := Restated (Tightened C more) F' F

theorem Tightened.refl (C : Crypto) (more : String → Bool) (j : Jws) : Tightened C more j j :=
  ⟨⟨j.payload.policy, rfl, Policy.alike_refl (fun _ => Policy.alike_refl fun _ => Policy.alike_refl (Policy.permits_refl _)) _⟩, fun _ => rfl, fun _ => rfl⟩

theorem Tightened.sealed (C : Crypto) (more : String → Bool) : Sealed C (Tightened C more) := by
  refine ⟨⟨.refl C more, ?_⟩, ?_, ?_, ?_, fun h => h.usable, fun h => h.verifies⟩ <;> intro j' j h <;> obtain ⟨pol, e1, -⟩ := h.said <;> rw [e1]

theorem Tightened.judged (C : Crypto) (more : String → Bool) : Judged C (Tightened C more) where
  toSealed := Tightened.sealed C more
  constraints h := by obtain ⟨pol, e1, -⟩ := h.said; rw [e1]

/-- Statements after and before. -/
abbrev Pair (C : Crypto) (more : String → Bool) : Type := Twin (Tightened C more)

section

variable {L : Lib} {more : String → Bool}

/-! ### Policies -/

open Policy

theorem narrows_tightened (p : Pair L.toCrypto more) : Narrows more (toP p.1.1.payload) (toP p.1.2.payload) := by
  obtain ⟨pol, e1, h⟩ := p.2.said
  constructor
  · simp only [toP, Payload.md]; rw [e1]
  · simp only [toP]; rw [e1]; exact h

theorem allNarrow_tightened : ∀ vs : List (Pair L.toCrypto more), AllNarrow more ((after vs).map toP) ((before vs).map toP)
  | [] => trivial
  | p :: vs => ⟨narrows_tightened p, allNarrow_tightened vs⟩

/-- Of the claims `more`, only one of the authorities in a trust chain demands something. -/
def OneDemands (more : String → Bool) (tc : TrustChain) : Prop :=
  tc.verified.dropLast.Pairwise fun a b => ∀ t c, more c = true → ¬ (Asks ((toP a).rule t).policy c ∧ Asks ((toP b).rule t).policy c)

theorem callPolicy_tightened {E E' : SetEnum Val} {K K' : SetEnum String} {sups' sups : List PStatement} {leaf' leaf : PStatement} {m' : Dict (Option Metadata)} (hs : AllNarrow more sups' sups) (hone : ∀ t, sups'.Pairwise fun a b => ∀ c, more c = true → ¬ (Asks (a.rule t).policy c ∧ Asks (b.rule t).policy c)) (hl : leaf'.metadata = leaf.metadata)
    (h : callPolicy E' K' sups' leaf' none = .ok m') :
    ∃ m, callPolicy E K sups leaf none = .ok m ∧ ∀ t x', m'.get? t = some (some x') → ∃ x, m.get? t = some (some x) ∧ ∀ c, Narrower (x'.get? c) (x.get? c) := by
  have hleaf : ∀ t, policyFor E' K' sups' leaf' t = policyFor E' K' sups' leaf t := by
    intro t
    unfold policyFor
    rw [hl]
  have step : ∀ t x', policyFor E' K' sups' leaf' t = .ok (some x') → ∃ x, policyFor E K sups leaf t = .ok (some x) ∧ ∀ c, Narrower (x'.get? c) (x.get? c) := by
    intro t x' hx
    rw [hleaf] at hx
    obtain ⟨x, h1, h2⟩ := C241_demanded_partial E E' K K' sups sups' leaf t x' more hs (hone t) hx
    refine ⟨x, h1, fun c => ?_⟩
    rcases h2 c with ⟨h3, h4⟩ | ⟨v', v, h3, h4, rfl | ⟨xs', xs, rfl, rfl, h5⟩⟩
    · exact Or.inl (by rw [h3, h4])
    · exact Or.inl (by rw [h3, h4])
    · exact Or.inr ⟨xs', xs, h3, h4, h5⟩
  have given : ∀ t o, t ∈ leaf'.metadata.keys → policyFor E' K' sups' leaf' t = .ok o → ∃ x', o = some x' := by
    intro t o ht ho
    obtain ⟨md, hm⟩ := (Dict.mem_keys_iff_exists _ _).1 ht
    unfold policyFor at ho
    cases hg : gatherPolicies E' K' sups' t with
    | error e => rw [hg] at ho; cases ho
    | ok R =>
      rw [hg, ok_bind] at ho
      simp only [hm] at ho
      cases ha : applyPolicy E' K' md R with
      | error e => rw [ha] at ho; cases ho
      | ok m => rw [ha] at ho; cases ho; exact ⟨m, rfl⟩
  unfold callPolicy at h ⊢
  simp only at h ⊢
  rw [← hl]
  have all := policyForTypes_ok h
  obtain ⟨m, h'⟩ := policyForTypes_of (E := E) (K := K) (l := sups) (leaf := leaf) (ts := leaf'.metadata.keys) fun t ht => by
    obtain ⟨o, -, ho⟩ := all t ht
    obtain ⟨x', rfl⟩ := given t o ht ho
    obtain ⟨x, hx, -⟩ := step t x' ho
    exact ⟨_, hx⟩
  refine ⟨m, h', fun t x' hx => ?_⟩
  have ht : t ∈ leaf'.metadata.keys := by
    by_cases ht : t ∈ leaf'.metadata.keys
    · exact ht
    · exfalso
      rw [policyForTypes_absent h ht] at hx
      cases hx
  obtain ⟨o, g1, g2⟩ := all t ht
  rw [hx] at g1
  cases g1
  obtain ⟨x, k1, k2⟩ := step t x' g2
  obtain ⟨o, g3, g4⟩ := policyForTypes_ok h' t ht
  rw [k1] at g4
  cases g4
  exact ⟨x, g3, k2⟩

theorem applied_tightened {E E' : SetEnum Val} {K K' : SetEnum String} {tc' tc t' : TrustChain} (hf : Frame (Tightened L.toCrypto more) tc' tc) (hone : OneDemands more t') (h : applyToChain E' K' tc' = .ok t') :
    ∃ t, applyToChain E K tc = .ok t ∧ LosesNothing t' t := by
  obtain ⟨vs, h1, h2⟩ := hf.verified
  obtain ⟨leaf', md, k1, k2, k3⟩ := applyToChain_ok.1 h
  rcases List.eq_nil_or_concat vs with rfl | ⟨ws, w, rfl⟩
  · rw [h1] at k1; cases k1
  · simp only [after, before, List.concat_eq_append, List.map_append, List.map_cons, List.map_nil] at h1 h2
    rw [h1, getLast_snoc] at k1
    cases k1
    obtain ⟨pol, e1, -⟩ := w.2.said
    have em : w.1.2.payload.metadata = some md := by rw [← k2, e1]
    have hlen : tc.verified.length = tc'.verified.length := by rw [h1, h2]; simp
    rcases k3 with ⟨k3, m', k4, rfl⟩ | ⟨k3, m', k4, rfl⟩
    · rw [h1, List.dropLast_concat] at k4
      obtain ⟨m, g1, g2⟩ := callPolicy_tightened (E := E) (K := K) (leaf := toP w.1.2.payload) (allNarrow_tightened ws) (fun t => by
        unfold OneDemands at hone
        simp only [h1, List.dropLast_concat] at hone
        exact List.Pairwise.map _ (fun a b hab c hm => hab t c hm) hone) (by simp only [toP, Payload.md]; rw [e1]) k4
      refine ⟨_, applyToChain_ok.2 ⟨w.1.2.payload, md, by rw [h2, getLast_snoc], em, Or.inl ⟨by rw [hlen]; exact k3, m, by rw [h2, List.dropLast_concat]; exact g1, rfl⟩⟩, hf.anchor, hf.issPath, hf.exp, fun t x hx => ?_⟩
      simp only [get?_map_val] at hx ⊢
      cases ho : m'.get? t with
      | none => rw [ho] at hx; cases hx
      | some o =>
        rw [ho] at hx
        cases o with
        | none => cases hx
        | some y =>
          cases hx
          obtain ⟨y', g3, g4⟩ := g2 t _ ho
          exact ⟨y', by rw [g3]; rfl, g4⟩
    · exact ⟨_, applyToChain_ok.2 ⟨w.1.2.payload, md, by rw [h2, getLast_snoc], em, Or.inr ⟨by rw [hlen]; exact k3, m', k4, rfl⟩⟩, hf.anchor, hf.issPath, hf.exp, fun t x hx => ⟨x, hx, fun c => .refl _⟩⟩

theorem policies_tightened {E E' : SetEnum Val} {K K' : SetEnum String} : ∀ (ps : List (TrustChain × TrustChain)) (out' : List TrustChain),
    (∀ p ∈ ps, Frame (Tightened L.toCrypto more) p.1 p.2) → (∀ tc ∈ out', OneDemands more tc) → applyPolicies E' K' (ps.map (·.1)) = .ok out' → ∃ out, applyPolicies E K (ps.map (·.2)) = .ok out ∧ OneByOne LosesNothing out' out
  | [], out', _, _, h => by cases h; exact ⟨[], rfl, .nil⟩
  | p :: ps, out', hp, hone, h => by
    simp only [List.map_cons, applyPolicies] at h ⊢
    cases h1 : applyToChain E' K' p.1 with
    | error e => rw [h1] at h; cases h
    | ok t' =>
      rw [h1] at h
      simp only [ok_bind] at h
      cases h2 : applyPolicies E' K' (ps.map (·.1)) with
      | error e => rw [h2] at h; cases h
      | ok rest' =>
        rw [h2] at h
        cases h
        obtain ⟨t, g1, g2⟩ := applied_tightened (E := E) (K := K) (hp p (by simp)) (hone t' (by simp)) h1
        obtain ⟨rest, g3, g4⟩ := policies_tightened (E := E) (K := K) ps rest' (fun p hm => hp p (by simp [hm])) (fun tc hm => hone tc (by simp [hm])) h2
        exact ⟨t :: rest, by rw [g1, g3]; rfl, .cons g2 g4⟩

end

/-- C243 in full: when authorities anywhere in a federation permit less or demand more, and change nothing else, then every entity that can be resolved could be resolved before, by the same trust chains, and each claim had the value it has now, or
was a list with at least the values it has now. -/
def C243_full : Prop :=
  ∀ (F F' : Collect.Federation) (V V' : Env) (st st' : State) (h h' : List Collect.FRun) (sub stopAt : String) (out' : List TrustChain) (more : String → Bool),
    Within F V st h → Within F' V' st' h' → V' = { V with W := F'.at V.W.now, E := V'.E, K := V'.K } → st'.jar = st.jar → F.Dated → F'.Dated → F.PlainHints → F'.PlainHints → Collect.Plain sub →
    PermittedLess V.L.toCrypto more F' F → (getVerified V' st' sub stopAt).1 = .ok out' → ∃ out, (getVerified V st sub stopAt).1 = .ok out ∧ OneByOne LosesNothing out' out

/-- C243 where, of the claims of which more is demanded, only one authority in each trust chain demands anything. What is missing: trust chains in which several do, where C243 is false, see `C243_superset_violation`. -/
theorem C243_demanded_partial (F F' : Collect.Federation) (V V' : Env) (st st' : State) (h h' : List Collect.FRun) (sub stopAt : String) (out' : List TrustChain) (more : String → Bool)
    (w : Within F V st h) (w' : Within F' V' st' h') (hV : V' = { V with W := F'.at V.W.now, E := V'.E, K := V'.K }) (hj : st'.jar = st.jar) (hd : F.Dated) (hd' : F'.Dated) (hp : F.PlainHints) (hp' : F'.PlainHints) (hsub : Collect.Plain sub)
    (hr : PermittedLess V.L.toCrypto more F' F) (hone : ∀ tc ∈ out', OneDemands more tc) (ho : (getVerified V' st' sub stopAt).1 = .ok out') :
    ∃ out, (getVerified V st sub stopAt).1 = .ok out ∧ OneByOne LosesNothing out' out := by
  obtain ⟨f', ec, tcs', c1, c2, c3, -⟩ := getVerified_ok ho
  have i1 := w'.ideal hd' hp' hsub stopAt
  have i2 := w.ideal hd hp hsub stopAt
  rw [c1] at i1
  have n1 : V'.L = V.L := by rw [hV]
  have n2 : V'.P = V.P := by rw [hV]
  have n3 : V'.W.now = V.W.now := by rw [hV]; rfl
  have n4 : V'.fuel = V.fuel := by rw [hV]
  rw [n1, n2, n3, n4] at i1
  obtain ⟨g, rfl, hg⟩ := hr.collect (Tightened.sealed V.L.toCrypto more).toSameEnd.toEnds i1.symm
  rw [hg] at i2
  have c1' := toOption_some i2
  rw [n1, hj] at c2
  have hdoc := docs_restated (Tightened.sealed V.L.toCrypto more).toSameEnd.toEnds g ec
  rw [hdoc (fun p => p.1.1) rfl] at c2
  obtain ⟨tcs, v1, ps, rfl, rfl, v4⟩ := all_judged (Tightened.judged V.L.toCrypto more) _ _ _ c2
  rw [← hdoc (fun p => p.1.2) rfl] at v1
  obtain ⟨out, g1, g2⟩ := policies_tightened (E := V.E) (K := V.K) ps out' v4 hone c3
  refine ⟨out, ?_, g2⟩
  unfold getVerified
  generalize hcol : Collect.collect V.L.toCrypto V.P V.W V.fuel st.coll sub stopAt = r at c1' ⊢
  obtain ⟨r, coll⟩ := r
  simp only at c1'
  subst c1'
  simp only
  unfold docs at v1
  generalize verifyChains V.L ((Collect.tree2chains (mapForest (fun p : Pair V.L.toCrypto more => p.1.2) g)).map fun c => c.map some ++ [some ec]) st.jar = r at v1 ⊢
  obtain ⟨r, jar⟩ := r
  simp only at v1
  subst v1
  simp only
  rw [g1]

/-- C242: when authorities anywhere in a federation take values out of the lists that their policies permit, and change nothing else, then every entity that can be resolved could be resolved before, by the same trust chains: same trust anchor, path
and end of validity. Each claim of each type of entity had the value it has now, or was a list with at least the values it has now. The caches are those of any earlier runs, and the two processes may have their sets in different orders. -/
theorem C242_permitted (F F' : Collect.Federation) (V V' : Env) (st st' : State) (h h' : List Collect.FRun) (sub stopAt : String) (out' : List TrustChain)
    (w : Within F V st h) (w' : Within F' V' st' h') (hV : V' = { V with W := F'.at V.W.now, E := V'.E, K := V'.K }) (hj : st'.jar = st.jar) (hd : F.Dated) (hd' : F'.Dated) (hp : F.PlainHints) (hp' : F'.PlainHints) (hsub : Collect.Plain sub)
    (hr : PermittedLess V.L.toCrypto (fun _ => false) F' F) (ho : (getVerified V' st' sub stopAt).1 = .ok out') : ∃ out, (getVerified V st sub stopAt).1 = .ok out ∧ OneByOne LosesNothing out' out :=
  C243_demanded_partial F F' V V' st st' h h' sub stopAt out' _ w w' hV hj hd hd' hp hp' hsub hr (fun _ _ => List.pairwise_iff_forall_sublist.2 fun _ _ _ hm => by cases hm) ho

namespace Ex242
/-- `leaf` is below `im`, which is below `ta`; both have a policy for relying parties. -/
def policy (op : String) (xs : List String) : Dict Policy.MetadataPolicy := [("openid_relying_party", [("scopes", [(op, Policy.Ex.strs xs)])])]
def leaf : Dict Policy.Metadata := [("openid_relying_party", [("scopes", Policy.Ex.strs ["openid", "phone", "email"])])]
def F (top low : Dict Policy.MetadataPolicy) : Collect.Federation where
  config
    | "https://ta" => .ok (some (Ex219.conf "https://ta" none (Ex.fe true)))
    | "https://im" => .ok (some (Ex219.conf "https://im" (some ["https://ta"]) (Ex.fe true)))
    | "https://leaf" => .ok (some (Ex219.conf "https://leaf" (some ["https://im"]) leaf))
    | _ => .error .missingPage
  fetch _ a e := .ok (some (Ex219.about a e (if a = "https://ta" then top else low)))

variable {top low top' low' : Dict Policy.MetadataPolicy}

theorem known {k : String} {j : Jws} (h : (F top low).config k = .ok (some j)) : j.payload.exp = some 10000 ∧ ∀ l, j.payload.hints = some l → ∀ a ∈ l, Collect.Plain a := by
  simp only [F] at h
  split at h <;> cases h <;> refine ⟨rfl, fun l hl => ?_⟩ <;> cases hl <;> decide

theorem dated : (F top low).Dated := fun _ _ h => ⟨10000, (known h).1⟩
theorem plainHints : (F top low).PlainHints := fun _ _ l h hl => (known h).2 l hl
theorem inForce : (F top low).InForce Ex.L.toCrypto 0 := by
  intro k j h
  simp only [Ex.L, notExpired, (known h).1]
  decide

theorem permittedLess {more : String → Bool} (h1 : Policy.Akin (fun _ => Policy.LessPolicy more) top' top) (h2 : Policy.Akin (fun _ => Policy.LessPolicy more) low' low) : PermittedLess Ex.L.toCrypto more (F top' low') (F top low) where
  config := rfl
  fetch v a e := by
    refine Or.inr ⟨_, _, rfl, rfl, ⟨_, rfl, ?_⟩, fun _ => rfl, fun _ => rfl⟩
    simp only [Ex219.about]
    split
    · exact h1
    · exact h2

theorem shorter {more : String → Bool} {xs' xs : List String} (h : ∀ x ∈ xs', x ∈ xs) : Policy.Akin (fun _ => Policy.LessPolicy more) (policy "subset_of" xs') (policy "subset_of" xs) :=
  ⟨rfl, ⟨rfl, ⟨rfl, Or.inr (Or.inl ⟨Or.inr rfl, Policy.Ex240.fewerStrs h⟩), trivial⟩, trivial⟩, trivial⟩
theorem longer {xs' xs : List String} (h : ∀ x ∈ xs, x ∈ xs') : Policy.Akin (fun _ => Policy.LessPolicy fun _ => true) (policy "superset_of" xs') (policy "superset_of" xs) :=
  ⟨rfl, ⟨rfl, ⟨rfl, Or.inr (Or.inr ⟨rfl, rfl, Policy.Ex240.fewerStrs h⟩), trivial⟩, trivial⟩, trivial⟩

abbrev V (top low : Dict Policy.MetadataPolicy) : Env := Ex221.V (F top low) ["https://ta"]
abbrev st : State := { jar := [("https://ta", [1])] }

/-- The case of C242: `leaf` is resolved with one scope when `ta` permits one, and with two before. -/
example : Ex229.result (getVerified (V (policy "subset_of" ["openid"]) []) st "https://leaf").1 = .ok [("https://ta", [("openid_relying_party", .obj [("scopes", Policy.Ex.strs ["openid"])])])] ∧
    Ex229.result (getVerified (V (policy "subset_of" ["email", "openid"]) []) st "https://leaf").1 = .ok [("https://ta", [("openid_relying_party", .obj [("scopes", Policy.Ex.strs ["email", "openid"])])])] := by decide +kernel

example (out' : List TrustChain) (ho : (getVerified (V (policy "subset_of" ["openid"]) []) st "https://leaf").1 = .ok out') :
    ∃ out, (getVerified (V (policy "subset_of" ["email", "openid"]) []) st "https://leaf").1 = .ok out ∧ OneByOne LosesNothing out' out :=
  C242_permitted (F _ _) (F _ _) (V _ _) (V _ _) st st [] [] "https://leaf" "" out' (Ex221.within inForce _ _) (Ex221.within inForce _ _) rfl rfl dated dated plainHints plainHints (by decide) (permittedLess (low := []) (low' := []) (shorter (by decide)) trivial) ho

/-- The case of C243: `ta` demands a second scope. -/
example : Ex229.result (getVerified (V (policy "superset_of" ["openid", "email"]) (policy "subset_of" ["openid", "email"])) st "https://leaf").1 = .ok [("https://ta", [("openid_relying_party", .obj [("scopes", Policy.Ex.strs ["openid", "email"])])])] := by
  decide +kernel

theorem superiors : ((getVerified (V (policy "superset_of" ["openid", "email"]) (policy "subset_of" ["openid", "email"])) st "https://leaf").1.map fun out => out.map fun tc => tc.verified.dropLast) =
    .ok [[(Ex219.about "https://ta" "https://im" (policy "superset_of" ["openid", "email"])).payload, (Ex219.about "https://im" "https://leaf" (policy "subset_of" ["openid", "email"])).payload]] := by decide +kernel

theorem notAsked {t c : String} : ¬ Policy.Asks ((toP (Ex219.about "https://im" "https://leaf" (policy "subset_of" ["openid", "email"])).payload).rule t).policy c := by
  rintro ⟨cp, h1, h2⟩
  simp only [toP, Ex219.about, policy, Policy.PStatement.rule, Dict.get?_cons] at h1
  by_cases ht : "openid_relying_party" = t
  · rw [if_pos ht, Option.getD_some, List.mem_singleton] at h1
    cases h1
    revert h2
    decide +kernel
  · rw [if_neg ht] at h1
    cases h1

example (out' : List TrustChain) (ho : (getVerified (V (policy "superset_of" ["openid", "email"]) (policy "subset_of" ["openid", "email"])) st "https://leaf").1 = .ok out') :
    ∃ out, (getVerified (V (policy "superset_of" ["openid"]) (policy "subset_of" ["openid", "email"])) st "https://leaf").1 = .ok out ∧ OneByOne LosesNothing out' out := by
  refine C243_demanded_partial (F _ _) (F _ _) (V _ _) (V _ _) st st [] [] "https://leaf" "" out' _ (Ex221.within inForce _ _) (Ex221.within inForce _ _) rfl rfl dated dated plainHints plainHints (by decide)
    (permittedLess (longer (by decide)) (shorter (by decide))) (fun tc htc => ?_) ho
  have h1 := superiors
  rw [ho] at h1
  simp only [Except.map, Except.ok.injEq] at h1
  have h2 := List.mem_map_of_mem (f := fun tc : TrustChain => tc.verified.dropLast) htc
  rw [h1, List.mem_singleton] at h2
  unfold OneDemands
  rw [h2]
  refine List.pairwise_cons.2 ⟨fun b hb t c _ hd => ?_, List.pairwise_cons.2 ⟨fun b hb => (by cases hb), List.Pairwise.nil⟩⟩
  rw [List.mem_singleton] at hb
  subst hb
  exact notAsked hd.2
end Ex242

open Ex242 in
/-- C243 fails where two authorities demand something of the same claim: `ta` demands `openid` and `im` demands `email`, and nobody is let in; when `im` demands both, `leaf` is. -/
theorem C243_superset_violation : ¬ C243_full := by
  intro h
  have h1 : (Ex229.result (getVerified (V (policy "superset_of" ["openid"]) (policy "superset_of" ["openid", "email"])) st "https://leaf").1).isOk = true := by decide +kernel
  have h2 : (Ex229.result (getVerified (V (policy "superset_of" ["openid"]) (policy "superset_of" ["email"])) st "https://leaf").1) = .error .policyError := by decide +kernel
  cases h3 : (getVerified (V (policy "superset_of" ["openid"]) (policy "superset_of" ["openid", "email"])) st "https://leaf").1 with
  | error e => rw [h3] at h1; cases h1
  | ok out' =>
    obtain ⟨out, h4, -⟩ := h (F (policy "superset_of" ["openid"]) (policy "superset_of" ["email"])) (F _ _) (V _ _) (V _ _) st st [] [] "https://leaf" "" out' _ (Ex221.within inForce _ _) (Ex221.within inForce _ _) rfl rfl dated dated plainHints plainHints
      (by decide) (permittedLess (longer (xs' := ["openid"]) (xs := ["openid"]) (by decide)) (longer (by decide))) h3
    rw [h4] at h2
    cases h2

end Fed.Chains
