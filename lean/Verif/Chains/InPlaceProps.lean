import Verif.Chains.InPlace
import Verif.Chains.Props
import Verif.Verifier.Props
/-
Property C152 and one about C11: the statements of a chain after the policies were applied.
-/
namespace Fed.Chains
open Fed Verify

/-! ### Lemmas -/

theorem keys_set_mem {β} : ∀ (d : Dict β) (k : String) (v : β), k ∈ Dict.keys d → Dict.keys (d.set k v) = Dict.keys d
  | [], k, v, h => by simp [Dict.keys] at h
  | (q, w) :: d, k, v, h => by
      by_cases e : q = k
      · subst e; simp [Dict.set, Dict.keys]
      · have hk : k ∈ Dict.keys d := by
          simp only [Dict.keys, List.map_cons, List.mem_cons] at h ⊢
          rcases h with h | h
          · exact absurd h.symm e
          · exact h
        have := keys_set_mem d k v hk
        simp only [Dict.set, e, if_false, Dict.keys, List.map_cons] at this ⊢
        rw [this]

/-- What one type leaves behind. -/
theorem policyOn_ok {E : SetEnum Val} {K : SetEnum String} {sups : List Policy.PStatement} {leaf : Dict Policy.Metadata} {t : String}
    {r : Option Policy.Metadata × Dict Policy.Metadata} (h : policyOn E K sups leaf t = .ok r) :
    ∃ R, Policy.gatherPolicies E K sups t = .ok R ∧
      ((leaf.get? t = none ∧ r = (none, leaf)) ∨
        ∃ md m, leaf.get? t = some md ∧ Policy.applyPolicy E K md R = .ok m ∧
          r = (some m, if R.metadata.isEmpty then leaf.set t m else leaf)) := by
  unfold policyOn at h
  cases hg : Policy.gatherPolicies E K sups t with
  | error e => rw [hg] at h; cases h
  | ok R =>
    rw [hg] at h
    simp only [ok_bind] at h
    refine ⟨R, rfl, ?_⟩
    cases hm : leaf.get? t with
    | none => rw [hm] at h; simp only [except_pure, Except.ok.injEq] at h; exact Or.inl ⟨rfl, h.symm⟩
    | some md =>
      rw [hm] at h
      simp only at h
      cases ha : Policy.applyPolicy E K md R with
      | error e => rw [ha] at h; cases h
      | ok m =>
        rw [ha] at h
        simp only [ok_bind, except_pure, Except.ok.injEq] at h
        exact Or.inr ⟨md, m, rfl, ha, h.symm⟩

theorem policyOn_fst (E : SetEnum Val) (K : SetEnum String) (sups : List Policy.PStatement) (leaf : Dict Policy.Metadata) (pol : Dict Policy.MetadataPolicy)
    (t : String) : (policyOn E K sups leaf t).map (·.1) = Policy.policyFor E K sups ⟨leaf, pol⟩ t := by
  unfold policyOn Policy.policyFor
  cases Policy.gatherPolicies E K sups t with
  | error e => rfl
  | ok R =>
    simp only [ok_bind]
    cases leaf.get? t with
    | none => rfl
    | some md =>
      simp only
      cases Policy.applyPolicy E K md R <;> rfl

theorem policyFor_congr (E : SetEnum Val) (K : SetEnum String) (sups : List Policy.PStatement) {leaf leaf' : Dict Policy.Metadata}
    (pol : Dict Policy.MetadataPolicy) {t : String} (h : leaf.get? t = leaf'.get? t) :
    Policy.policyFor E K sups ⟨leaf, pol⟩ t = Policy.policyFor E K sups ⟨leaf', pol⟩ t := by
  unfold Policy.policyFor
  simp only [h]

theorem policyForTypes_congr (E : SetEnum Val) (K : SetEnum String) (sups : List Policy.PStatement) {leaf leaf' : Dict Policy.Metadata}
    (pol : Dict Policy.MetadataPolicy) : ∀ {ts : List String}, (∀ t ∈ ts, leaf.get? t = leaf'.get? t) →
      Policy.policyForTypes E K sups ⟨leaf, pol⟩ ts = Policy.policyForTypes E K sups ⟨leaf', pol⟩ ts
  | [], _ => rfl
  | t :: ts, h => by
      unfold Policy.policyForTypes
      rw [policyFor_congr E K sups pol (h t (by simp)), policyForTypes_congr E K sups pol fun t ht => h t (by simp [ht])]

/-- Only the type at hand changes. -/
theorem policyOn_other {E : SetEnum Val} {K : SetEnum String} {sups : List Policy.PStatement} {leaf : Dict Policy.Metadata} {t t' : String}
    {r : Option Policy.Metadata × Dict Policy.Metadata} (h : policyOn E K sups leaf t = .ok r) (hn : t ≠ t') : r.2.get? t' = leaf.get? t' := by
  obtain ⟨R, -, ⟨-, rfl⟩ | ⟨md, m, -, -, rfl⟩⟩ := policyOn_ok h
  · rfl
  · simp only
    split
    · rw [Dict.get?_set_ne _ _ hn]
    · rfl

theorem policyOn_keys {E : SetEnum Val} {K : SetEnum String} {sups : List Policy.PStatement} {leaf : Dict Policy.Metadata} {t : String}
    {r : Option Policy.Metadata × Dict Policy.Metadata} (h : policyOn E K sups leaf t = .ok r) : r.2.keys = leaf.keys := by
  obtain ⟨R, -, ⟨-, rfl⟩ | ⟨md, m, hm, -, rfl⟩⟩ := policyOn_ok h
  · rfl
  · simp only
    split
    · exact keys_set_mem _ _ _ ((Dict.mem_keys_iff_exists _ _).2 ⟨_, hm⟩)
    · rfl

/-- The metadata that results is as if the statement were left alone. -/
theorem policyOnTypes_fst (E : SetEnum Val) (K : SetEnum String) (sups : List Policy.PStatement) (pol : Dict Policy.MetadataPolicy) :
    ∀ (ts : List String) (leaf : Dict Policy.Metadata), ts.Nodup →
      (policyOnTypes E K sups ts leaf).map (·.1) = Policy.policyForTypes E K sups ⟨leaf, pol⟩ ts
  | [], leaf, _ => rfl
  | t :: ts, leaf, hn => by
      rw [List.nodup_cons] at hn
      unfold policyOnTypes Policy.policyForTypes
      rw [← policyOn_fst E K sups leaf pol t]
      cases h1 : policyOn E K sups leaf t with
      | error e => rfl
      | ok r =>
        have hc : Policy.policyForTypes E K sups ⟨leaf, pol⟩ ts = Policy.policyForTypes E K sups ⟨r.2, pol⟩ ts :=
          policyForTypes_congr E K sups pol fun t' ht' => (policyOn_other h1 (fun e => hn.1 (e ▸ ht'))).symm
        simp only [ok_bind, Except.map]
        rw [hc, ← policyOnTypes_fst E K sups pol ts r.2 hn.2]
        cases policyOnTypes E K sups ts r.2 <;> rfl

/-- What is left in the statement, type by type. -/
theorem policyOnTypes_snd {E : SetEnum Val} {K : SetEnum String} {sups : List Policy.PStatement} :
    ∀ {ts : List String} {leaf : Dict Policy.Metadata} {r : Dict (Option Policy.Metadata) × Dict Policy.Metadata}, ts.Nodup →
      policyOnTypes E K sups ts leaf = .ok r →
      r.2.keys = leaf.keys ∧ (∀ t, t ∉ ts → r.2.get? t = leaf.get? t) ∧
      ∀ t ∈ ts, ∀ md, leaf.get? t = some md → ∃ R m, Policy.gatherPolicies E K sups t = .ok R ∧ Policy.applyPolicy E K md R = .ok m ∧
        r.2.get? t = some (if R.metadata.isEmpty then m else md) ∧ r.1.get? t = some (some m)
  | [], leaf, r, _, h => by
      simp only [policyOnTypes, Except.ok.injEq] at h
      subst h
      simp
  | t :: ts, leaf, r, hn, h => by
      rw [List.nodup_cons] at hn
      unfold policyOnTypes at h
      cases h1 : policyOn E K sups leaf t with
      | error e => rw [h1] at h; cases h
      | ok q =>
        rw [h1] at h
        simp only [ok_bind] at h
        cases h2 : policyOnTypes E K sups ts q.2 with
        | error e => rw [h2] at h; cases h
        | ok s =>
          rw [h2] at h
          simp only [ok_bind, except_pure, Except.ok.injEq] at h
          subst h
          obtain ⟨i1, i2, i3⟩ := policyOnTypes_snd hn.2 h2
          refine ⟨i1.trans (policyOn_keys h1), fun t' ht' => ?_, fun t' ht' md hmd => ?_⟩
          · simp only [List.mem_cons, not_or] at ht'
            exact (i2 t' ht'.2).trans (policyOn_other h1 (Ne.symm ht'.1))
          · by_cases he : t = t'
            · subst he
              obtain ⟨R, hR, ⟨hx, -⟩ | ⟨md', m, hm, ha, hq⟩⟩ := policyOn_ok h1
              · rw [hx] at hmd; cases hmd
              · rw [hmd, Option.some.injEq] at hm
                subst hm
                refine ⟨R, m, hR, ha, ?_, ?_⟩
                · rw [i2 t hn.1, hq]
                  simp only
                  split
                  · rw [Dict.get?_set_self]
                  · exact hmd
                · rw [Dict.get?_cons, if_pos rfl, hq]
            · have ht : t' ∈ ts := by
                rcases List.mem_cons.1 ht' with h | h
                · exact absurd h.symm he
                · exact h
              obtain ⟨R, m, a, b, c, d⟩ := i3 t' ht md (by rw [policyOn_other h1 he]; exact hmd)
              exact ⟨R, m, a, b, c, by rw [Dict.get?_cons, if_neg he]; exact d⟩

/-- Without repeated entity types in the leaf's metadata (no JSON object has any). -/
def PlainTypes (tc : TrustChain) : Prop := ∀ leaf md, tc.verified.getLast? = some leaf → leaf.metadata = some md → md.keys.Nodup

theorem applyOnChain_ok {E : SetEnum Val} {K : SetEnum String} {tc tc' : TrustChain} (h : applyOnChain E K tc = .ok tc') :
    ∃ leaf md, tc.verified.getLast? = some leaf ∧ leaf.metadata = some md ∧
      ((1 < tc.verified.length ∧ ∃ r, policyOnTypes E K (tc.verified.dropLast.map toP) md.keys md = .ok r ∧
          tc' = { tc with metadata := r.1.map fun p => (p.1, mdVal p.2), verified := tc.verified.dropLast ++ [{ leaf with metadata := some r.2 }] }) ∨
        (tc.verified.length ≤ 1 ∧ ∃ m, md.get? "" = some m ∧ tc' = { tc with metadata := m })) := by
  unfold applyOnChain at h
  cases h1 : tc.verified.getLast? with
  | none => rw [h1] at h; cases h
  | some leaf =>
    rw [h1] at h
    simp only at h
    cases h2 : leaf.metadata with
    | none => rw [h2] at h; cases h
    | some md =>
      rw [h2] at h
      simp only at h
      refine ⟨leaf, md, rfl, h2, ?_⟩
      by_cases h3 : tc.verified.length > 1
      · rw [if_pos h3] at h
        cases h4 : policyOnTypes E K (tc.verified.dropLast.map toP) md.keys md with
        | error e => rw [h4] at h; cases h
        | ok r =>
          rw [h4] at h
          simp only [ok_bind, except_pure, Except.ok.injEq] at h
          exact Or.inl ⟨h3, r, rfl, h.symm⟩
      · rw [if_neg h3] at h
        cases h4 : md.get? "" with
        | none => rw [h4] at h; cases h
        | some m =>
          rw [h4] at h
          simp only [Except.ok.injEq] at h
          exact Or.inr ⟨by omega, m, rfl, h.symm⟩

/-! ## C152 -/

/-- C152 in full: every statement reported with a resolved chain is the content of one of the signed documents the chain was made from. -/
def C152_full : Prop :=
  ∀ (L : Lib) (jar : KeyJar) (docs : List Doc) (E : SetEnum Val) (K : SetEnum String) (tc tc' : TrustChain),
    (verifyChain L jar docs).1 = .ok (some tc) → applyOnChain E K tc = .ok tc' → ∀ p ∈ tc'.verified, ∃ j, some j ∈ docs ∧ j.payload = p

namespace Ex
/-- The anchor about the leaf, with a policy for relying parties (and metadata for federation entities). -/
def anchorSt : Jws :=
  ⟨{ iss := "https://ta", sub := "https://leaf", exp := some 10000, jwks := some [3], metadata := some [("federation_entity", [("contacts", .str "ops")])],
     policy := [("openid_relying_party", [("scope", [("value", .str "openid")])]), ("federation_entity", [("name", [("value", .str "x")])])] }, 1⟩
/-- The leaf about itself. -/
def leafSt : Jws :=
  ⟨{ iss := "https://leaf", sub := "https://leaf", exp := some 10000, jwks := some [3],
     metadata := some [("openid_relying_party", [("scope", .str "all"), ("client_name", .str "n")]), ("federation_entity", [("name", .str "me")])] }, 3⟩
/-- The leaf about itself, as it is reported. -/
def leafAfter : Payload :=
  { leafSt.payload with metadata := some [("openid_relying_party", [("scope", .str "openid"), ("client_name", .str "n")]), ("federation_entity", [("name", .str "me")])] }
/-- The chain of the two. -/
def tcTwo : TrustChain :=
  ⟨"https://ta", ["https://leaf", "https://ta"], 10000, [anchorSt.payload, leafSt.payload], [some anchorSt, some leafSt], []⟩
def tcTwoMd : Dict Val :=
  [("openid_relying_party", .obj [("scope", .str "openid"), ("client_name", .str "n")]),
   ("federation_entity", .obj [("contacts", .str "ops"), ("name", .str "x")])]
theorem tcTwo_verified : (verifyChain Verify.Ex.L Verify.Ex.jar [some anchorSt, some leafSt]).1 = .ok (some tcTwo) := by decide +kernel
theorem tcTwo_applied : applyOnChain SetEnum.insertion SetEnum.insertion tcTwo =
    .ok { tcTwo with metadata := tcTwoMd, verified := [anchorSt.payload, leafAfter] } := by decide +kernel
end Ex

/-- C152 does not hold: the last statement of the chain, the entity's own configuration, then has the values the policies gave it (here a scope the entity did
not state), although it is reported as verified and the signature was over other values. -/
theorem C152_leaf_violation : ¬ C152_full := by
  intro h
  obtain ⟨j, hj, he⟩ := h _ _ _ _ _ _ _ Ex.tcTwo_verified Ex.tcTwo_applied Ex.leafAfter (by simp)
  simp only [List.mem_cons, Option.some.injEq, List.not_mem_nil, or_false] at hj
  rcases hj with rfl | rfl
  · exact absurd he (by decide +kernel)
  · exact absurd he (by decide +kernel)

theorem getLast_split {l : List Payload} {a : Payload} (h : l.getLast? = some a) : l = l.dropLast ++ [a] := by
  have hne : l ≠ [] := by rintro rfl; simp at h
  rw [List.getLast?_eq_some_getLast hne, Option.some.injEq] at h
  rw [← h]; exact (List.dropLast_concat_getLast hne).symm

/-- C152, what does hold: the documents, and all statements but the last, are reported as they were signed; the last one as well, but for its metadata. In the metadata,
the entity types are the same, and a type is as signed if the superiors give metadata for it, or no policy. A claim without a policy is as signed.
Otherwise the metadata of the type is the metadata that was resolved.
Missing: the claims of the last statement that a policy is about. -/
theorem C152_statements_partial (L : Lib) (jar : KeyJar) (docs : List Doc) (E : SetEnum Val) (K : SetEnum String) (tc tc' : TrustChain)
    (hv : (verifyChain L jar docs).1 = .ok (some tc)) (hp : PlainTypes tc) (h : applyOnChain E K tc = .ok tc') :
    tc'.chain = docs ∧ tc'.anchor = tc.anchor ∧ tc'.issPath = tc.issPath ∧ tc'.exp = tc.exp ∧
    ∃ sups leaf last md md', statements docs = sups ++ [leaf] ∧ tc'.verified = sups.map (·.payload) ++ [last] ∧
      leaf.payload.metadata = some md ∧ last = { leaf.payload with metadata := some md' } ∧ md'.keys = md.keys ∧
      ∀ t m, md.get? t = some m → 1 < tc.verified.length → ∃ R m' res, Policy.gatherPolicies E K (sups.map fun j => toP j.payload) t = .ok R ∧
        md'.get? t = some m' ∧ tc'.metadata.get? t = some (.obj res) ∧ Policy.applyPolicy E K m R = .ok res ∧
        (R.metadata ≠ [] ∨ R.policy = [] → m' = m) ∧ (R.metadata = [] → m' = res) ∧ ∀ c, R.policy.get? c = none → m'.get? c = m.get? c := by
  obtain ⟨hc, hver, -⟩ := C42_describes_chain L jar docs tc hv
  obtain ⟨leaf, md, hl, hm, hcase⟩ := applyOnChain_ok h
  have hsplit : ∃ sups j, statements docs = sups ++ [j] ∧ j.payload = leaf ∧ tc.verified.dropLast = sups.map (·.payload) := by
    have hs := getLast_split hl
    rw [hver] at hs hl
    rw [List.getLast?_map] at hl
    cases hj : (statements docs).getLast? with
    | none => rw [hj] at hl; cases hl
    | some j =>
      rw [hj] at hl
      simp only [Option.map_some, Option.some.injEq] at hl
      have hne : statements docs ≠ [] := by intro e; rw [e] at hj; cases hj
      refine ⟨(statements docs).dropLast, j, ?_, hl, ?_⟩
      · rw [List.getLast?_eq_some_getLast hne, Option.some.injEq] at hj
        rw [← hj]; exact (List.dropLast_concat_getLast hne).symm
      · rw [hver, List.map_dropLast]
  obtain ⟨sups, j, hst, rfl, hdrop⟩ := hsplit
  rcases hcase with ⟨hlen, r, hr, rfl⟩ | ⟨hlen, m, hm0, rfl⟩
  · obtain ⟨i1, i2, i3⟩ := policyOnTypes_snd (hp _ _ hl hm) hr
    refine ⟨hc, rfl, rfl, rfl, sups, j, _, md, r.2, hst, by rw [hdrop], hm, rfl, i1, fun t m ht _ => ?_⟩
    obtain ⟨R, res, a, b, c, d⟩ := i3 t ((Dict.mem_keys_iff_exists _ _).2 ⟨_, ht⟩) m ht
    refine ⟨R, _, res, ?_, c, ?_, b, ?_, ?_, ?_⟩
    · rw [← a, hdrop, List.map_map]; rfl
    · rw [get?_map_val, d]; rfl
    · rintro (hR | hR)
      · rw [if_neg]; simpa [List.isEmpty_iff] using hR
      · have : res = if R.metadata.isEmpty then m else R.metadata.update m := by
          have b' := b
          simp only [Policy.applyPolicy, hR, List.isEmpty_nil, if_true, Except.ok.injEq] at b'
          exact b'.symm
        split
        · next he => rw [this, if_pos he]
        · rfl
    · intro hR; rw [if_pos (by rw [hR]; rfl)]
    · intro q hq
      split
      · next he =>
        have := Policy.applyPolicy_ok E K b q
        rw [Policy.claimRes, hq] at this
        simp only [Except.ok.injEq] at this
        rw [← this, Policy.startValue, List.isEmpty_iff.1 he]
        cases Dict.get? m q <;> rfl
      · rfl
  · refine ⟨hc, rfl, rfl, rfl, sups, j, j.payload, md, md, hst, ?_, hm, by rw [← hm], rfl, ?_⟩
    · rw [← hdrop]; exact getLast_split hl
    · intro t m' _ hlt; omega

/-- The example meets the hypotheses, with one type changed in place and one not. -/
example : PlainTypes Ex.tcTwo := by
  intro leaf md hl hm
  simp only [Ex.tcTwo, List.getLast?_cons_cons, List.getLast?_singleton, Option.some.injEq] at hl
  subst hl
  simp only [Ex.leafSt, Option.some.injEq] at hm
  subst hm
  decide

/-- C152: what is resolved does not depend on the statement being changed on the way: the metadata (or the exception) is that of `applyToChain`, which the other theorems are about. -/
theorem C152_same_metadata (E : SetEnum Val) (K : SetEnum String) (tc : TrustChain) (hp : PlainTypes tc) :
    (applyOnChain E K tc).map (·.metadata) = (applyToChain E K tc).map (·.metadata) := by
  unfold applyOnChain applyToChain
  cases h1 : tc.verified.getLast? with
  | none => rfl
  | some leaf =>
    simp only
    cases h2 : leaf.metadata with
    | none => rfl
    | some md =>
      simp only
      by_cases h3 : tc.verified.length > 1
      · rw [if_pos h3, if_pos h3]
        have : toP leaf = ⟨md, leaf.policy⟩ := by simp [toP, Payload.md, h2]
        simp only [Policy.callPolicy, this]
        rw [← policyOnTypes_fst E K (tc.verified.dropLast.map toP) leaf.policy md.keys md (hp _ _ h1 h2)]
        cases policyOnTypes E K (tc.verified.dropLast.map toP) md.keys md <;> rfl
      · rw [if_neg h3, if_neg h3]
        cases md.get? "" <;> rfl

example : (applyToChain SetEnum.insertion SetEnum.insertion Ex.tcTwo).map (·.metadata) = .ok Ex.tcTwoMd := by decide +kernel

/-! ## C11 on chains -/

theorem policyOnTypes_exists {E : SetEnum Val} {K : SetEnum String} {sups : List Policy.PStatement} :
    ∀ {ts : List String} {leaf : Dict Policy.Metadata}, ts.Nodup →
      (∀ t ∈ ts, ∃ R md m, Policy.gatherPolicies E K sups t = .ok R ∧ leaf.get? t = some md ∧ Policy.applyPolicy E K md R = .ok m) →
      ∃ r, policyOnTypes E K sups ts leaf = .ok r
  | [], leaf, _, _ => ⟨_, rfl⟩
  | t :: ts, leaf, hn, h => by
      rw [List.nodup_cons] at hn
      obtain ⟨R, md, m, h1, h2, h3⟩ := h t (by simp)
      have hq : policyOn E K sups leaf t = .ok (some m, if R.metadata.isEmpty then leaf.set t m else leaf) := by
        simp only [policyOn, h1, h2, h3, ok_bind, except_pure]
      obtain ⟨r, hr⟩ := policyOnTypes_exists (E := E) (K := K) (sups := sups) (ts := ts) (leaf := if R.metadata.isEmpty then leaf.set t m else leaf) hn.2 (by
        intro t' ht'
        obtain ⟨R', md', m', a, b, c⟩ := h t' (by simp [ht'])
        exact ⟨R', md', m', a, by rw [policyOn_other hq (fun e => hn.1 (e ▸ ht'))]; exact b, c⟩)
      exact ⟨_, by rw [policyOnTypes, hq]; simp only [ok_bind]; rw [hr]; rfl⟩

/-- C11 on a whole chain, as the verifier of trust marks does it: the policies are applied a second time to a chain whose last statement they already changed.
It succeeds and gives the same metadata (lists as sets), under the two conditions of `C11_idempotent_partial`, which are needed only for types without metadata from the superiors. -/
theorem C11_chain_partial (E : SetEnum Val) (K : SetEnum String) (tc tc' : TrustChain) (leaf : Payload) (md : Dict Policy.Metadata)
    (hl : tc.verified.getLast? = some leaf) (hm : leaf.metadata = some md) (hlen : 1 < tc.verified.length) (hn : md.keys.Nodup)
    (h : applyOnChain E K tc = .ok tc')
    (hok : ∀ t R m, Policy.gatherPolicies E K (tc.verified.dropLast.map toP) t = .ok R → md.get? t = some m → R.metadata = [] → ∀ c cp, R.policy.get? c = some cp →
      (∀ a, cp.get? "add" = some a → m.get? c = none → ∃ xs, a = .arr xs ∧ ∀ x ∈ xs, x.hashable = true) ∧
      (∀ l s, cp.get? "subset_of" = some l → s ∈ cp.keys → m.get? c ≠ some (.str s) ∧ cp.get? "default" ≠ some (.str s))) :
    ∃ tc'', applyOnChain E K tc' = .ok tc'' ∧ ∀ t ∈ md.keys, ∃ a b, tc'.metadata.get? t = some (.obj a) ∧ tc''.metadata.get? t = some (.obj b) ∧
      ∀ c, OptSetEq (Dict.get? a c) (Dict.get? b c) := by
  obtain ⟨leaf0, md0, hl0, hm0, ⟨-, r, hr, rfl⟩ | ⟨hx, -⟩⟩ := applyOnChain_ok h
  case inr => omega
  rw [hl, Option.some.injEq] at hl0; subst hl0
  rw [hm, Option.some.injEq] at hm0; subst hm0
  obtain ⟨i1, -, i3⟩ := policyOnTypes_snd hn hr
  -- what the second application finds, type by type
  have hagain : ∀ t ∈ md.keys, ∃ R m x y z, Policy.gatherPolicies E K (tc.verified.dropLast.map toP) t = .ok R ∧ md.get? t = some m ∧
      r.2.get? t = some x ∧ r.1.get? t = some (some y) ∧ Policy.applyPolicy E K x R = .ok z ∧ ∀ c, OptSetEq (Dict.get? y c) (Dict.get? z c) := by
    intro t ht
    obtain ⟨m, hmt⟩ := (Dict.mem_keys_iff_exists _ _).1 ht
    obtain ⟨R, y, a, b, c, d⟩ := i3 t ht m hmt
    by_cases he : R.metadata = []
    · rw [if_pos (by rw [he]; rfl)] at c
      have hdec : ∀ c, Policy.declared m R c = m.get? c := by
        intro c; unfold Policy.declared; rw [he]; cases m.get? c <;> rfl
      obtain ⟨z, hz, hq⟩ := Policy.C11_idempotent_partial E K m y R b
        (fun c cp a' hc ha hd => (hok t R m a hmt he c cp hc).1 a' ha (by rw [← hdec]; exact hd))
        (fun c cp l s hc hl hs => by rw [hdec]; exact (hok t R m a hmt he c cp hc).2 l s hl hs)
      exact ⟨R, m, y, y, z, a, hmt, c, d, hz, hq⟩
    · rw [if_neg (by simpa [List.isEmpty_iff] using he)] at c
      exact ⟨R, m, m, y, y, a, hmt, c, d, b, fun q => OptSetEq.refl _⟩
  have hkn : r.2.keys.Nodup := by rw [i1]; exact hn
  obtain ⟨r2, hr2⟩ := policyOnTypes_exists (E := E) (K := K) (sups := tc.verified.dropLast.map toP) (leaf := r.2) hkn (by
    intro t ht
    rw [i1] at ht
    obtain ⟨R, m, x, y, z, a, -, b, -, c, -⟩ := hagain t ht
    exact ⟨R, x, z, a, b, c⟩)
  obtain ⟨-, -, j3⟩ := policyOnTypes_snd hkn hr2
  refine ⟨{ tc with metadata := r2.1.map fun p => (p.1, mdVal p.2), verified := tc.verified.dropLast ++ [{ leaf with metadata := some r2.2 }] }, ?_, fun t ht => ?_⟩
  · have hd : 1 < (tc.verified.dropLast ++ [{ leaf with metadata := some r.2 }]).length := by
      simp only [List.length_append, List.length_dropLast, List.length_singleton]; omega
    simp only [applyOnChain, List.getLast?_append, List.getLast?_singleton, Option.some_or]
    rw [if_pos hd]
    simp only [List.dropLast_concat, hr2, ok_bind, except_pure]
  · obtain ⟨R, m, x, y, z, a, -, b, c, d, e⟩ := hagain t ht
    obtain ⟨R', z', a', b', -, d'⟩ := j3 t (by rw [i1]; exact ht) x b
    rw [a, Except.ok.injEq] at a'; subst a'
    rw [d, Except.ok.injEq] at b'; subst b'
    exact ⟨y, z, by rw [get?_map_val, c]; rfl, by rw [get?_map_val, d']; rfl, e⟩

/-- The example chain meets the conditions. -/
example : ∃ tc'', applyOnChain SetEnum.insertion SetEnum.insertion { Ex.tcTwo with metadata := Ex.tcTwoMd, verified := [Ex.anchorSt.payload, Ex.leafAfter] } = .ok tc'' ∧
    ∀ t ∈ Ex.leafSt.payload.md.keys, ∃ a b, Dict.get? Ex.tcTwoMd t = some (.obj a) ∧ tc''.metadata.get? t = some (.obj b) ∧ ∀ c, OptSetEq (Dict.get? a c) (Dict.get? b c) := by
  refine C11_chain_partial _ _ Ex.tcTwo _ Ex.leafSt.payload _ rfl rfl (by decide) (by decide) Ex.tcTwo_applied ?_
  intro t R m hR hm hmeta c cp hc
  have hR1 : Policy.gatherPolicies SetEnum.insertion SetEnum.insertion (Ex.tcTwo.verified.dropLast.map toP) "openid_relying_party" =
      .ok ⟨[], [("scope", [("value", .str "openid")])]⟩ := by decide +kernel
  have hR2 : Policy.gatherPolicies SetEnum.insertion SetEnum.insertion (Ex.tcTwo.verified.dropLast.map toP) "federation_entity" =
      .ok ⟨[("contacts", .str "ops")], [("name", [("value", .str "x")])]⟩ := by decide +kernel
  by_cases h1 : "openid_relying_party" = t
  · subst h1
    rw [hR1, Except.ok.injEq] at hR
    subst hR
    by_cases h2 : "scope" = c
    · subst h2
      simp only [Dict.get?, if_true, Option.some.injEq] at hc
      subst hc
      exact ⟨fun a ha => absurd ha (by simp [Dict.get?]), fun l s hl => absurd hl (by simp [Dict.get?])⟩
    · simp [Dict.get?, h2] at hc
  · by_cases h2 : "federation_entity" = t
    · subst h2
      rw [hR2, Except.ok.injEq] at hR
      subst hR
      cases hmeta
    · simp [Payload.md, Ex.leafSt, Dict.get?, h1, h2] at hm

/-- The example chain again: the second application is the same. -/
example : (applyOnChain SetEnum.insertion SetEnum.insertion { Ex.tcTwo with metadata := Ex.tcTwoMd, verified := [Ex.anchorSt.payload, Ex.leafAfter] }) =
    .ok { Ex.tcTwo with metadata := Ex.tcTwoMd, verified := [Ex.anchorSt.payload, Ex.leafAfter] } := by decide +kernel

end Fed.Chains
