import Verif.Policy.Combine
import Verif.Policy.HashOrder
/-
Helper lemmas about combination.
-/
namespace Fed.Policy
open Fed

theorem buildRule_ok {E : SetEnum Val} {s c : ClaimPolicy} {ps : List String} {rule : ClaimPolicy}
    (h : buildRule E s c ps = .ok rule) :
    (∀ p ∈ ps, ∃ v, doPolicy E s c p = .ok v ∧ rule.get? p = some v) ∧ ∀ p, p ∉ ps → rule.get? p = none := by
  induction ps generalizing rule with
  | nil => simp only [buildRule, Except.ok.injEq] at h; subst h; simp
  | cons q qs ih =>
    simp only [buildRule] at h
    cases hv : doPolicy E s c q with
    | error e => simp [hv] at h
    | ok v =>
      simp only [hv, ok_bind] at h
      cases hr : buildRule E s c qs with
      | error e => simp [hr] at h
      | ok rest =>
        simp only [hr, ok_bind, except_pure, Except.ok.injEq] at h
        subst h
        obtain ⟨i1, i2⟩ := ih hr
        constructor
        · intro p hp
          by_cases hq : q = p
          · subst hq; exact ⟨v, hv, by simp [Dict.get?]⟩
          · rcases List.mem_cons.1 hp with rfl | hp
            · exact absurd rfl hq
            · obtain ⟨w, h1, h2⟩ := i1 p hp
              exact ⟨w, h1, by simp [Dict.get?, hq, h2]⟩
        · intro p hp
          simp only [List.mem_cons, not_or] at hp
          simp [Dict.get?, Ne.symm hp.1, i2 p hp.2]

theorem buildRule_error {E : SetEnum Val} {s c : ClaimPolicy} {ps : List String} {e : PyErr}
    (h : buildRule E s c ps = .error e) : ∃ p ∈ ps, doPolicy E s c p = .error e := by
  induction ps with
  | nil => simp [buildRule] at h
  | cons q qs ih =>
    simp only [buildRule] at h
    cases hv : doPolicy E s c q with
    | error e' => simp only [hv, error_bind, Except.error.injEq] at h; exact ⟨q, by simp, by rw [hv, h]⟩
    | ok v =>
      simp only [hv, ok_bind] at h
      cases hr : buildRule E s c qs with
      | error e' =>
        simp only [hr, error_bind, Except.error.injEq] at h
        obtain ⟨p, hp, hp2⟩ := ih (by rw [hr, h])
        exact ⟨p, by simp [hp], hp2⟩
      | ok rest => simp [hr] at h

theorem mem_combPolicy {s c : ClaimPolicy} {n : String} :
    n ∈ combPolicy s c ↔ n ∈ policyFunctions ∧ ((s.get? n).isSome ∨ (c.get? n).isSome) := by
  simp [combPolicy, Dict.has]

/-- What `combineFree` gives, operator by operator. -/
theorem combineFree_ok {E : SetEnum Val} {K : SetEnum String} {s c rule : ClaimPolicy}
    (h : combineFree E K s c = .ok rule) :
    essentialClash s c = false ∧
    ¬ ("one_of" ∈ combPolicy s c ∧ ("subset_of" ∈ combPolicy s c ∨ "superset_of" ∈ combPolicy s c)) ∧
    consistency (combPolicy s c) rule = .ok () ∧
    (∀ p ∈ combPolicy s c, ∃ v, doPolicy E s c p = .ok v ∧ rule.get? p = some v) ∧
    ∀ p, p ∉ combPolicy s c → rule.get? p = none := by
  simp only [combineFree] at h
  cases h0 : essentialClash s c with
  | true => simp [h0] at h
  | false =>
    simp only [h0, Bool.false_eq_true, if_false] at h
    split at h
    · simp at h
    · next h1 =>
      cases hr : buildRule E s c (K.enum (combPolicy s c)) with
      | error e => simp [hr] at h
      | ok rl =>
        simp only [hr, ok_bind] at h
        cases hc : consistency (combPolicy s c) rl with
        | error e => simp [hc] at h
        | ok u =>
          simp only [hc, ok_bind, except_pure, Except.ok.injEq] at h
          subst h
          obtain ⟨b1, b2⟩ := buildRule_ok hr
          refine ⟨rfl, h1, hc, ?_, ?_⟩
          · intro p hp; exact b1 p ((K.mem_enum _ _).2 hp)
          · intro p hp; exact b2 p (fun hh => hp ((K.mem_enum _ _).1 hh))

theorem combineFixed_ok {s c r : ClaimPolicy} {x : Val} (hx : s.get? "value" = some x)
    (h : combineFixed s c x = .ok r) :
    r.get? "value" = some x ∧
    ((r = s ∧ (recognised c = [] ∨ (c.get? "essential" = none ∧ c.get? "value" = some x))) ∨
     ∃ e, r = [("value", x), ("essential", e)] ∧ recognised c = ["essential"] ∧ c.get? "essential" = some e) := by
  simp only [combineFixed] at h
  by_cases h0 : recognised c = []
  · simp only [h0, List.isEmpty_nil, if_true, Except.ok.injEq] at h
    subst h
    exact ⟨hx, Or.inl ⟨rfl, Or.inl h0⟩⟩
  · rw [if_neg (by simpa using h0)] at h
    cases he : c.get? "essential" with
    | some e =>
      simp only [he] at h
      split at h
      · next hl =>
        simp only [Except.ok.injEq] at h
        subst h
        refine ⟨by simp [Dict.get?], Or.inr ⟨e, rfl, ?_, rfl⟩⟩
        obtain ⟨y, hy⟩ := List.length_eq_one_iff.1 hl
        have : "essential" ∈ recognised c := by simp [recognised, policyFunctions, Dict.has, he]
        rw [hy] at this ⊢
        simp at this; rw [this]
      · simp at h
    | none =>
      simp only [he] at h
      cases hv : c.get? "value" with
      | none => simp [hv] at h
      | some y =>
        simp only [hv] at h
        split at h
        · simp at h
        · next hyx =>
          simp only [Except.ok.injEq] at h
          subst h
          exact ⟨hx, Or.inl ⟨rfl, Or.inr ⟨rfl, by rw [Decidable.not_not.1 hyx]⟩⟩⟩

theorem doPolicy_value {E : SetEnum Val} {s c : ClaimPolicy} : doPolicy E s c "value" = doValue s c "value" := by
  simp [doPolicy]
theorem doPolicy_default {E : SetEnum Val} {s c : ClaimPolicy} : doPolicy E s c "default" = doDefault s c "default" := by
  simp [doPolicy]
theorem doPolicy_essential {E : SetEnum Val} {s c : ClaimPolicy} :
    doPolicy E s c "essential" = doEssential s c "essential" := by
  simp [doPolicy]
theorem doPolicy_set {E : SetEnum Val} {s c : ClaimPolicy} {op : String}
    (h : op = "add" ∨ op = "superset_of" ∨ op = "subset_of" ∨ op = "one_of") :
    doPolicy E s c op = doSubOneSuperAdd E s c op := by
  simp [doPolicy, h]

/-- Intersection operators after a successful free combination. -/
theorem combineFree_inter {E : SetEnum Val} {K : SetEnum String} {s c rule : ClaimPolicy}
    (h : combineFree E K s c = .ok rule) {op : String} (hop : op = "superset_of" ∨ op = "subset_of" ∨ op = "one_of") :
    (s.get? op = none ∧ rule.get? op = c.get? op) ∨ (c.get? op = none ∧ rule.get? op = s.get? op) ∨
    ∃ x y a b, s.get? op = some x ∧ c.get? op = some y ∧ pySet x = .ok a ∧ pySet y = .ok b ∧
      rule.get? op = some (.arr (E.enum (inter a b))) ∧ E.enum (inter a b) ≠ [] := by
  obtain ⟨_, _, _, h1, h2⟩ := combineFree_ok h
  have hpf : op ∈ policyFunctions := by rcases hop with rfl | rfl | rfl <;> decide
  have hne : op ≠ "add" := by rcases hop with rfl | rfl | rfl <;> decide
  by_cases hm : op ∈ combPolicy s c
  · obtain ⟨v, hv, hr⟩ := h1 op hm
    rw [doPolicy_set (Or.inr hop)] at hv
    unfold doSubOneSuperAdd at hv
    cases hs : s.get? op with
    | none =>
      cases hc : c.get? op with
      | none => simp [mem_combPolicy, hs, hc] at hm
      | some y => simp [hs, hc] at hv; left; exact ⟨rfl, by rw [hr, hv]⟩
    | some x =>
      cases hc : c.get? op with
      | none => simp [hs, hc] at hv; right; left; exact ⟨rfl, by rw [hr, hv]⟩
      | some y =>
        right; right
        simp only [hs, hc, op2func, hne, if_false, combineInter] at hv
        cases ha : pySet x with
        | error e => simp [ha] at hv
        | ok a =>
          cases hb : pySet y with
          | error e => simp [ha, hb] at hv
          | ok b =>
            simp only [ha, hb, ok_bind, except_pure] at hv
            by_cases ht : (Val.arr (E.enum (inter a b))).truthy = true
            · rw [if_pos ht] at hv
              simp only [Except.ok.injEq] at hv
              refine ⟨x, y, a, b, rfl, rfl, ha, hb, by rw [hr, hv], by simpa [Val.truthy] using ht⟩
            · rw [if_neg ht] at hv; simp at hv
  · left
    have : s.get? op = none ∧ c.get? op = none := by
      rw [mem_combPolicy] at hm
      simp only [hpf, true_and, not_or] at hm
      simpa using hm
    exact ⟨this.1, by rw [h2 op hm, this.2]⟩

theorem combineFree_value {E : SetEnum Val} {K : SetEnum String} {s c rule : ClaimPolicy}
    (h : combineFree E K s c = .ok rule) (hs : s.get? "value" = none) : rule.get? "value" = c.get? "value" := by
  obtain ⟨_, _, _, h1, h2⟩ := combineFree_ok h
  by_cases hm : "value" ∈ combPolicy s c
  · obtain ⟨v, hv, hr⟩ := h1 _ hm
    rw [doPolicy_value, doValue, hs] at hv
    cases hc : c.get? "value" with
    | none => simp [mem_combPolicy, hs, hc] at hm
    | some y => simp [hc] at hv; rw [hr, hv]
  · rw [h2 _ hm]
    rw [mem_combPolicy] at hm
    simp only [hs, Option.isSome_none, Bool.false_eq_true, false_or, not_and] at hm
    have := hm (by decide)
    simpa using Eq.symm (Option.not_isSome_iff_eq_none.1 (by simpa using this))

theorem combineFree_default {E : SetEnum Val} {K : SetEnum String} {s c rule : ClaimPolicy}
    (h : combineFree E K s c = .ok rule) :
    (rule.get? "default" = (s.get? "default").or (c.get? "default")) ∧
    ∀ x y, s.get? "default" = some x → c.get? "default" = some y → x = y := by
  obtain ⟨_, _, _, h1, h2⟩ := combineFree_ok h
  by_cases hm : "default" ∈ combPolicy s c
  · obtain ⟨v, hv, hr⟩ := h1 _ hm
    rw [doPolicy_default, doDefault] at hv
    cases hs : s.get? "default" with
    | none =>
      cases hc : c.get? "default" with
      | none => simp [mem_combPolicy, hs, hc] at hm
      | some y => simp [hs, hc] at hv; simp [hr, hv]
    | some x =>
      cases hc : c.get? "default" with
      | none => simp [hs, hc] at hv; simp [hr, hv]
      | some y =>
        simp only [hs, hc] at hv
        split at hv
        · next e => simp at hv; subst hv; subst e; simp [hr]
        · simp at hv
  · have : s.get? "default" = none ∧ c.get? "default" = none := by
      rw [mem_combPolicy] at hm
      simp only [show "default" ∈ policyFunctions by decide, true_and, not_or] at hm
      simpa using hm
    simp [h2 _ hm, this]

theorem combineFree_essential {E : SetEnum Val} {K : SetEnum String} {s c rule : ClaimPolicy}
    (h : combineFree E K s c = .ok rule) :
    (s.get? "essential" = none ∧ rule.get? "essential" = c.get? "essential") ∨
    (c.get? "essential" = none ∧ rule.get? "essential" = s.get? "essential") ∨
    ∃ x y, s.get? "essential" = some x ∧ c.get? "essential" = some y ∧ (x = y ∨ y ≠ .bool false) ∧
      rule.get? "essential" = some (if !x.truthy && y.truthy then .bool true else x) := by
  obtain ⟨h0, _, _, h1, h2⟩ := combineFree_ok h
  by_cases hm : "essential" ∈ combPolicy s c
  · obtain ⟨v, hv, hr⟩ := h1 _ hm
    rw [doPolicy_essential, doEssential] at hv
    cases hs : s.get? "essential" with
    | none =>
      cases hc : c.get? "essential" with
      | none => simp [mem_combPolicy, hs, hc] at hm
      | some y => simp [hs, hc] at hv; left; exact ⟨rfl, by rw [hr, hv]⟩
    | some x =>
      cases hc : c.get? "essential" with
      | none => simp [hs, hc] at hv; right; left; exact ⟨rfl, by rw [hr, hv]⟩
      | some y =>
        right; right
        simp only [essentialClash, hs, hc, decide_eq_false_iff_not] at h0
        refine ⟨x, y, rfl, rfl, ?_, ?_⟩
        · by_cases hxy : x = y
          · exact Or.inl hxy
          · exact Or.inr fun hf => h0 ⟨hxy, hf⟩
        · simp only [hs, hc] at hv
          rw [hr]
          split at hv <;> simp at hv <;> simp_all
  · left
    have : s.get? "essential" = none ∧ c.get? "essential" = none := by
      rw [mem_combPolicy] at hm
      simp only [show "essential" ∈ policyFunctions by decide, true_and, not_or] at hm
      simpa using hm
    exact ⟨this.1, by rw [h2 _ hm, this.2]⟩

theorem recognised_nil {c : ClaimPolicy} (h : recognised c = []) {op : String} (hop : op ∈ policyFunctions) :
    c.get? op = none := by
  unfold recognised at h
  rw [List.filter_eq_nil_iff] at h
  have := h op hop
  simpa [Dict.has] using this

theorem recognised_essential {c : ClaimPolicy} (h : recognised c = ["essential"]) {op : String}
    (hop : op ∈ policyFunctions) (hne : op ≠ "essential") : c.get? op = none := by
  have h1 : op ∉ recognised c := by rw [h]; simp [hne]
  unfold recognised at h1
  rw [List.mem_filter] at h1
  simp only [hop, true_and] at h1
  simpa [Dict.has] using h1

/-- A `value` of the superior stays, a `value` of the subordinate arrives. -/
theorem combineClaim_value {E : SetEnum Val} {K : SetEnum String} {s c r : ClaimPolicy}
    (h : combineClaimPolicy E K s c = .ok r) :
    (∀ x, s.get? "value" = some x → r.get? "value" = some x) ∧ ∀ x, c.get? "value" = some x → r.get? "value" = some x := by
  unfold combineClaimPolicy at h
  cases hs : s.get? "value" with
  | none =>
    simp only [hs] at h
    rw [combineFree_value h hs]
    simp
  | some x =>
    simp only [hs] at h
    obtain ⟨h1, h2⟩ := combineFixed_ok hs h
    refine ⟨fun y hy => by rw [h1, hy], fun y hy => ?_⟩
    rcases h2 with ⟨_, h3 | ⟨_, h3⟩⟩ | ⟨e, _, h3, _⟩
    · rw [recognised_nil h3 (by decide)] at hy; simp at hy
    · rw [h3] at hy; simp at hy; rw [h1, hy]
    · rw [recognised_essential h3 (by decide) (by decide)] at hy; simp at hy

/-! ## Dict lemmas for `combine` -/

theorem combineClaims_ok {E : SetEnum Val} {K : SetEnum String} {sup sub : MetadataPolicy} {cs : List String}
    {r : MetadataPolicy} (h : combineClaims E K sup sub cs = .ok r) :
    (∀ c ∈ cs, ∃ a b p, sup.get? c = some a ∧ sub.get? c = some b ∧ combineClaimPolicy E K a b = .ok p ∧
      r.get? c = some p) ∧ ∀ c, c ∉ cs → r.get? c = none := by
  induction cs generalizing r with
  | nil => simp only [combineClaims, Except.ok.injEq] at h; subst h; simp
  | cons q qs ih =>
    simp only [combineClaims, Dict.get] at h
    cases ha : sup.get? q with
    | none => simp [ha] at h
    | some a =>
      cases hb : sub.get? q with
      | none => simp [ha, hb] at h
      | some b =>
        simp only [ha, hb, ok_bind] at h
        cases hp : combineClaimPolicy E K a b with
        | error e => simp [hp] at h
        | ok p =>
          simp only [hp, ok_bind] at h
          cases hr : combineClaims E K sup sub qs with
          | error e => simp [hr] at h
          | ok rest =>
            simp only [hr, ok_bind, except_pure, Except.ok.injEq] at h
            subst h
            obtain ⟨i1, i2⟩ := ih hr
            constructor
            · intro c hc
              by_cases hq : q = c
              · subst hq; exact ⟨a, b, p, ha, hb, hp, by simp [Dict.get?]⟩
              · rcases List.mem_cons.1 hc with rfl | hc
                · exact absurd rfl hq
                · obtain ⟨a', b', p', e1, e2, e3, e4⟩ := i1 c hc
                  exact ⟨a', b', p', e1, e2, e3, by simp [Dict.get?, hq, e4]⟩
            · intro c hc
              simp only [List.mem_cons, not_or] at hc
              simp [Dict.get?, Ne.symm hc.1, i2 c hc.2]

theorem combineClaims_error {E : SetEnum Val} {K : SetEnum String} {sup sub : MetadataPolicy} {cs : List String}
    {e : PyErr} (hk : ∀ c ∈ cs, c ∈ sup.keys ∧ c ∈ sub.keys) (h : combineClaims E K sup sub cs = .error e) :
    ∃ c ∈ cs, ∃ a b, sup.get? c = some a ∧ sub.get? c = some b ∧ combineClaimPolicy E K a b = .error e := by
  induction cs with
  | nil => simp [combineClaims] at h
  | cons q qs ih =>
    obtain ⟨k1, k2⟩ := hk q (by simp)
    obtain ⟨a, ha⟩ := (Dict.mem_keys_iff_exists _ _).1 k1
    obtain ⟨b, hb⟩ := (Dict.mem_keys_iff_exists _ _).1 k2
    simp only [combineClaims, Dict.get, ha, hb, ok_bind] at h
    cases hp : combineClaimPolicy E K a b with
    | error e' =>
      simp only [hp, error_bind, Except.error.injEq] at h
      exact ⟨q, by simp, a, b, ha, hb, by rw [hp, h]⟩
    | ok p =>
      simp only [hp, ok_bind] at h
      cases hr : combineClaims E K sup sub qs with
      | error e' =>
        simp only [hr, error_bind, Except.error.injEq] at h
        obtain ⟨c, hc, rest⟩ := ih (fun c hc => hk c (by simp [hc])) (by rw [hr, h])
        exact ⟨c, by simp [hc], rest⟩
      | ok rest => simp [hr] at h

theorem get?_append {α} (d e : Dict α) (k : String) : Dict.get? (d ++ e) k = (d.get? k).or (e.get? k) := by
  induction d with
  | nil => simp
  | cons p d ih =>
    rw [List.cons_append, Dict.get?_cons, Dict.get?_cons, ih]
    split <;> simp

theorem get?_filter_key {α} (d : Dict α) (f : String → Bool) (k : String) :
    Dict.get? (d.filter fun p => f p.1) k = if f k then d.get? k else none := by
  induction d with
  | nil => simp
  | cons p d ih =>
    rw [List.filter_cons, Dict.get?_cons]
    by_cases hp : f p.1 = true
    · rw [if_pos hp, Dict.get?_cons, ih]
      by_cases hk : p.1 = k
      · subst hk; simp [hp]
      · simp [hk]
    · rw [if_neg hp, ih]
      by_cases hk : p.1 = k
      · subst hk; simp [hp]
      · simp [hk]

/-- What `combine` does to the policy of each claim. -/
def CombinedClaim (E : SetEnum Val) (K : SetEnum String) : Option ClaimPolicy → Option ClaimPolicy → Option ClaimPolicy → Prop
  | some a, some b, r => ∃ p, combineClaimPolicy E K a b = .ok p ∧ r = some p
  | some a, none, r => r = some a
  | none, b, r => r = b

theorem combineMetadata_ok {s c m : Metadata} (h : combineMetadata s c = .ok m) :
    (∀ k, m.get? k = (c.get? k).or (s.get? k)) ∧ ∀ k x y, s.get? k = some x → c.get? k = some y → x = y := by
  unfold combineMetadata at h
  split at h
  · next he =>
    simp only [Except.ok.injEq] at h
    subst h
    rw [List.isEmpty_iff] at he
    subst he
    simp
  · split at h
    · simp at h
    · next hcl =>
      simp only [Except.ok.injEq] at h
      subst h
      refine ⟨fun k => Dict.get?_update s c k, ?_⟩
      have key : ∀ ks, metadataClash s c ks = false → ∀ k ∈ ks, s.get? k = c.get? k := by
        intro ks
        induction ks with
        | nil => simp
        | cons q qs ih =>
          intro h k hk
          simp only [metadataClash, Bool.or_eq_false_iff, decide_eq_false_iff_not, Decidable.not_not] at h
          rcases List.mem_cons.1 hk with rfl | hk
          · exact h.1
          · exact ih h.2 k hk
      intro k x y hx hy
      have := key _ (by simpa using hcl) k (by
        rw [List.mem_filter]
        exact ⟨(Dict.mem_keys_iff_exists _ _).2 ⟨y, hy⟩, by simpa using (Dict.mem_keys_iff_exists _ _).2 ⟨x, hx⟩⟩)
      rw [hx, hy] at this
      simpa using this

theorem combineMetadata_error {s c : Metadata} {e : PyErr} (h : combineMetadata s c = .error e) :
    ∃ k x y, s.get? k = some x ∧ c.get? k = some y ∧ x ≠ y := by
  unfold combineMetadata at h
  split at h
  · simp at h
  · split at h
    · next hcl =>
      have key : ∀ ks, metadataClash s c ks = true → ∃ k ∈ ks, s.get? k ≠ c.get? k := by
        intro ks
        induction ks with
        | nil => simp [metadataClash]
        | cons q qs ih =>
          intro h
          simp only [metadataClash, Bool.or_eq_true, decide_eq_true_eq] at h
          rcases h with h | h
          · exact ⟨q, by simp, h⟩
          · obtain ⟨k, hk, h⟩ := ih h
            exact ⟨k, by simp [hk], h⟩
      obtain ⟨k, hk, hne⟩ := key _ hcl
      rw [List.mem_filter] at hk
      obtain ⟨y, hy⟩ := (Dict.mem_keys_iff_exists _ _).1 hk.1
      obtain ⟨x, hx⟩ := (Dict.mem_keys_iff_exists _ _).1 (by simpa using hk.2)
      exact ⟨k, x, y, hx, hy, fun e => hne (by rw [hx, hy, e])⟩
    · simp at h

theorem combine_ok {E : SetEnum Val} {K : SetEnum String} {s c r : Rule} (h : combine E K s c = .ok r) :
    (∀ k, r.metadata.get? k = (c.metadata.get? k).or (s.metadata.get? k)) ∧
    (∀ k x y, s.metadata.get? k = some x → c.metadata.get? k = some y → x = y) ∧
    ∀ k, CombinedClaim E K (s.policy.get? k) (c.policy.get? k) (r.policy.get? k) := by
  unfold combine at h
  cases hm : combineMetadata s.metadata c.metadata with
  | error e => simp [hm] at h
  | ok m =>
    simp only [hm, ok_bind] at h
    obtain ⟨m1, m2⟩ := combineMetadata_ok hm
    have hmm : (if m.isEmpty = true then s.metadata else m) = m ∨ (m = [] ∧ s.metadata = []) := by
      by_cases he : m.isEmpty = true
      · right
        rw [List.isEmpty_iff] at he
        refine ⟨he, ?_⟩
        cases hs : s.metadata with
        | nil => rfl
        | cons p l =>
          exfalso
          have := m1 p.1
          rw [he, hs, Dict.get?_cons, if_pos rfl] at this
          cases c.metadata.get? p.1 <;> simp at this
      · left; rw [if_neg he]
    have hmd : (if m.isEmpty = true then s.metadata else m) = m := by
      rcases hmm with h | ⟨h1, h2⟩
      · exact h
      · simp [h1, h2]
    rw [hmd] at h
    split at h
    · next he =>
      simp only [except_pure, Except.ok.injEq] at h
      subst h
      refine ⟨m1, m2, fun k => ?_⟩
      rw [List.isEmpty_iff] at he
      rw [he]
      cases s.policy.get? k <;> simp [CombinedClaim]
    · cases hb : combineClaims E K s.policy c.policy
        (K.enum (s.policy.keys.filter fun k => decide (k ∈ c.policy.keys))) with
      | error e => simp [hb] at h
      | ok both =>
        simp only [hb, ok_bind, except_pure, Except.ok.injEq] at h
        subst h
        refine ⟨m1, m2, fun k => ?_⟩
        obtain ⟨b1, b2⟩ := combineClaims_ok hb
        have hmem : k ∈ K.enum (s.policy.keys.filter fun k => decide (k ∈ c.policy.keys)) ↔
            k ∈ s.policy.keys ∧ k ∈ c.policy.keys := by
          rw [SetEnum.mem_enum, List.mem_filter]; simp
        simp only
        rw [get?_append, get?_append, get?_filter_key s.policy (fun x => decide (x ∉ c.policy.keys)),
          get?_filter_key c.policy (fun x => decide (x ∉ s.policy.keys))]
        cases hs : s.policy.get? k with
        | none =>
          have hks : k ∉ s.policy.keys := (Dict.get?_eq_none_iff _ _).1 hs
          rw [b2 k (fun hh => hks (hmem.1 hh).1)]
          simp [CombinedClaim, hks]
        | some a =>
          have hks : k ∈ s.policy.keys := (Dict.mem_keys_iff_exists _ _).2 ⟨a, hs⟩
          cases hc : c.policy.get? k with
          | none =>
            have hkc : k ∉ c.policy.keys := (Dict.get?_eq_none_iff _ _).1 hc
            rw [b2 k (fun hh => hkc (hmem.1 hh).2)]
            simp [CombinedClaim, hkc]
          | some b =>
            have hkc : k ∈ c.policy.keys := (Dict.mem_keys_iff_exists _ _).2 ⟨b, hc⟩
            obtain ⟨a', b', p, e1, e2, e3, e4⟩ := b1 k (hmem.2 ⟨hks, hkc⟩)
            rw [hs, Option.some.injEq] at e1
            rw [hc, Option.some.injEq] at e2
            subst e1; subst e2
            exact ⟨p, e3, by simp [e4]⟩

theorem combine_error {E : SetEnum Val} {K : SetEnum String} {s c : Rule} {e : PyErr} (h : combine E K s c = .error e) :
    (∃ k x y, s.metadata.get? k = some x ∧ c.metadata.get? k = some y ∧ x ≠ y) ∨
    ∃ k a b, s.policy.get? k = some a ∧ c.policy.get? k = some b ∧ combineClaimPolicy E K a b = .error e := by
  unfold combine at h
  cases hm : combineMetadata s.metadata c.metadata with
  | error e' => exact Or.inl (combineMetadata_error hm)
  | ok m =>
    right
    simp only [hm, ok_bind] at h
    split at h
    · simp at h
    · cases hb : combineClaims E K s.policy c.policy
        (K.enum (s.policy.keys.filter fun k => decide (k ∈ c.policy.keys))) with
      | ok both => simp [hb] at h
      | error e' =>
        simp only [hb, error_bind, Except.error.injEq] at h
        obtain ⟨k, _, a, b, h1, h2, h3⟩ := combineClaims_error (by
          intro k hk
          rw [SetEnum.mem_enum, List.mem_filter] at hk
          simpa using hk) hb
        exact ⟨k, a, b, h1, h2, by rw [h3, h]⟩

end Fed.Policy
