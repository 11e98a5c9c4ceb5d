import Verif.Policy.HashOrder
/-
Properties C01–C11 and C19: what a successful `apply_policy` (policy.py 334-356) guarantees about the resolved metadata.
Every theorem is about `applyPolicy E K metadata rule` for arbitrary set enumerations `E`, `K` (hash seeds), arbitrary
metadata and an arbitrary rule (combined policy + superiors' metadata).
-/
namespace Fed.Policy
open Fed

/-! ## Specification vocabulary -/

/-- The values a claim holds: the members of a list, the value itself otherwise, none when the claim is absent. -/
def held : Option Val → List Val
  | none => []
  | some (.arr xs) => xs
  | some v => [v]

/-- What the entity, or else a superior's `metadata`, says about the claim. -/
def declared (md : Metadata) (r : Rule) (c : String) : Option Val :=
  match md.get? c with
  | some v => some v
  | none => r.metadata.get? c

theorem declared_eq (md : Metadata) (r : Rule) (c : String) : startValue md r c = declared md r c := by
  unfold startValue declared; cases md.get? c <;> rfl

theorem applyPolicy_claim {E : SetEnum Val} {K : SetEnum String} {md md' : Metadata} {r : Rule} {c : String}
    {cp : ClaimPolicy} (h : applyPolicy E K md r = .ok md') (hc : r.policy.get? c = some cp) :
    claimRun E cp (declared md r c) = .ok (md'.get? c) := by
  have := applyPolicy_ok E K h c
  rwa [declared_eq, claimRes, hc] at this

/-! Test data for the examples. -/
namespace Ex
def E : SetEnum Val := SetEnum.insertion
def K : SetEnum String := SetEnum.insertion
def s (x : String) : Val := .str x
def strs (xs : List String) : Val := .arr (xs.map .str)
def scopes : ClaimPolicy := [("subset_of", strs ["openid", "email", "phone"]), ("superset_of", strs ["openid"])]
def contacts : ClaimPolicy := [("add", strs ["ops@example.org"])]
def auth : ClaimPolicy := [("one_of", strs ["private_key_jwt", "self_signed"]), ("essential", .bool true)]
def alg : ClaimPolicy := [("default", s "ES256"), ("one_of", strs ["ES256", "RS256"])]
def logo : ClaimPolicy := [("value", s "https://logo"), ("add", s "x")]
/-- A policy touching several claims at once. -/
def rule : Rule where
  metadata := [("organization_name", s "Org")]
  policy := [("scopes", scopes), ("contacts", contacts), ("auth", auth), ("alg", alg), ("logo", logo)]
def leaf : Metadata := [("scopes", strs ["openid", "email", "address"]), ("contacts", strs ["me@rp.example"]),
  ("auth", s "private_key_jwt"), ("logo", s "mine"), ("client_name", s "RP")]
def resolved : Metadata := [("organization_name", s "Org"), ("client_name", s "RP"), ("logo", s "https://logo"),
  ("auth", s "private_key_jwt"), ("contacts", strs ["me@rp.example", "ops@example.org"]),
  ("scopes", strs ["openid", "email"]), ("alg", s "ES256")]
/-- The hypothesis of the theorems below (`applyPolicy … = .ok …`) is met by this rule and leaf. -/
theorem resolves : applyPolicy E K leaf rule = .ok resolved := by decide +kernel
end Ex

/-! ## C01 -/

/-- C01: after success a claim with a `value` operator has exactly that value. -/
theorem C01_value_final (E : SetEnum Val) (K : SetEnum String) (md md' : Metadata) (r : Rule) (c : String)
    (cp : ClaimPolicy) (x : Val) (h : applyPolicy E K md r = .ok md') (hc : r.policy.get? c = some cp)
    (hx : cp.get? "value" = some x) : md'.get? c = some x := by
  have := applyPolicy_claim h hc
  rw [claimRun_value hx] at this
  simp at this; exact this.symm

example : Ex.resolved.get? "logo" = some (.str "https://logo") :=
  C01_value_final Ex.E Ex.K Ex.leaf _ Ex.rule "logo" Ex.logo _ Ex.resolves (by decide +kernel) (by decide +kernel)

/-! ## C02 -/

/-- C02 in full. -/
def C02_full : Prop :=
  ∀ (E : SetEnum Val) (K : SetEnum String) (md md' : Metadata) (r : Rule) (c : String) (cp : ClaimPolicy) (L : List Val),
    applyPolicy E K md r = .ok md' → r.policy.get? c = some cp → cp.get? "subset_of" = some (.arr L) →
    cp.get? "value" = none →
    md'.get? c = none ∨ ∃ xs, md'.get? c = some (.arr xs) ∧ xs ≠ [] ∧ ∀ x ∈ xs, x ∈ L

/-- C02 is violated: a single-valued claim whose value is the name of one of the claim's operators gets through, split
into characters (policy_operator.py 85-91). -/
theorem C02_subset_of_violation : ¬ C02_full := by
  intro h
  have := h Ex.E Ex.K [("c", .str "subset_of")] [("c", .arr (strChars "subset_of"))]
    ⟨[], [("c", [("subset_of", .arr [.str "a"])])]⟩ "c" [("subset_of", .arr [.str "a"])] [.str "a"]
    (by decide +kernel) (by decide +kernel) (by decide +kernel) (by decide +kernel)
  simp only [Dict.get?, if_true, reduceCtorEq, false_or, Option.some.injEq, Val.arr.injEq, exists_eq_left'] at this
  have := this.2 (.str "u") (by decide +kernel)
  revert this; decide +kernel

/-- The bound is also lost when `one_of` is present and the claim is single-valued: the loop then jumps over `subset_of`. -/
theorem C02_subset_of_one_of_violation :
    applyPolicy Ex.E Ex.K [("c", .str "b")]
      ⟨[], [("c", [("one_of", .arr [.str "b"]), ("subset_of", .arr [.str "a"])])]⟩ = .ok [("c", .str "b")] := by decide +kernel

/-- C02 for policies without `one_of` on the claim, when no supplied value (declared, `add`, `default`) is a string equal
to the name of one of the operators. Missing from the full statement: exactly those two cases, in which it is false. -/
theorem C02_subset_of_partial (E : SetEnum Val) (K : SetEnum String) (md md' : Metadata) (r : Rule) (c : String)
    (cp : ClaimPolicy) (L : List Val) (h : applyPolicy E K md r = .ok md') (hc : r.policy.get? c = some cp)
    (hL : cp.get? "subset_of" = some (.arr L)) (hv : cp.get? "value" = none)
    (ho : cp.get? "one_of" = none)
    (hs : ∀ s ∈ cp.keys, declared md r c ≠ some (.str s) ∧ cp.get? "add" ≠ some (.str s) ∧
      cp.get? "default" ≠ some (.str s)) :
    md'.get? c = none ∨ ∃ xs, md'.get? c = some (.arr xs) ∧ xs ≠ [] ∧ ∀ x ∈ xs, x ∈ L := by
  obtain ⟨v1, h1, h2⟩ := claimRun_ok_inv hv (applyPolicy_claim h hc)
  rcases h2 with ⟨h3, _⟩ | ⟨_, h4, _⟩
  · obtain ⟨l, _, hl, _⟩ := stepOneOf_true h3; rw [ho] at hl; simp at hl
  · rcases stepSubset_ok h4 with ⟨hn, _⟩ | ⟨_, hn⟩ | ⟨l, a, xs, hl, ha, _, _, hne, hw⟩ | ⟨l, s, hl, hx, hk, _⟩
    · rw [hL] at hn; simp at hn
    · exact Or.inl hn
    · right
      rw [hL] at hl; simp only [Option.some.injEq] at hl; subst hl
      obtain ⟨rfl, _⟩ := pySet_arr ha
      exact ⟨_, hw, hne, fun x hx => (mem_inter.1 ((E.mem_enum _ _).1 hx)).1⟩
    · exfalso
      obtain ⟨n1, n2, n3⟩ := hs s hk
      rcases stepAdd_ok h1 with ⟨_, rfl⟩ | ⟨a, ha, _, rfl⟩ | ⟨_, _, _, _, _, _, rfl⟩
      · cases hd : declared md r c with
        | none => rw [hd] at hx; exact n3 hx
        | some y => rw [hd] at hx n1; exact n1 hx
      · simp only [stepDefault, Option.some.injEq] at hx; subst hx; exact n2 ha
      · simp [stepDefault] at hx

example : Ex.resolved.get? "scopes" = none ∨ ∃ xs, Ex.resolved.get? "scopes" = some (.arr xs) ∧ xs ≠ [] ∧
    ∀ x ∈ xs, x ∈ [Val.str "openid", .str "email", .str "phone"] :=
  C02_subset_of_partial Ex.E Ex.K Ex.leaf _ Ex.rule "scopes" Ex.scopes _ Ex.resolves (by decide +kernel) (by decide +kernel) (by decide +kernel) (by decide +kernel)
    (by decide +kernel)

/-- C02, unconditional part: whenever the claim is declared as a list (what `subset_of` is meant for), the bound holds
whatever other operators the claim has. -/
theorem C02_subset_of_list_partial (E : SetEnum Val) (K : SetEnum String) (md md' : Metadata) (r : Rule) (c : String)
    (cp : ClaimPolicy) (L ds : List Val) (h : applyPolicy E K md r = .ok md') (hc : r.policy.get? c = some cp)
    (hL : cp.get? "subset_of" = some (.arr L)) (hv : cp.get? "value" = none) (hd : declared md r c = some (.arr ds)) :
    ∃ xs, md'.get? c = some (.arr xs) ∧ xs ≠ [] ∧ ∀ x ∈ xs, x ∈ L := by
  have hr := applyPolicy_claim h hc
  rw [hd] at hr
  obtain ⟨v1, h1, h2⟩ := claimRun_ok_inv hv hr
  have hv1 : ∃ ys, v1 = some (.arr ys) := by
    rcases stepAdd_ok h1 with ⟨_, rfl⟩ | ⟨a, _, hn, _⟩ | ⟨_, _, _, _, _, _, rfl⟩
    · exact ⟨_, rfl⟩
    · simp at hn
    · exact ⟨_, rfl⟩
  obtain ⟨ys, rfl⟩ := hv1
  simp only [stepDefault] at h2
  rcases h2 with ⟨h3, _⟩ | ⟨_, h4, _⟩
  · obtain ⟨l, y, _, hy, hl, _⟩ := stepOneOf_true h3
    simp only [Option.some.injEq] at hy; subst hy; simp [Val.isList] at hl
  · rcases stepSubset_ok h4 with ⟨hn, _⟩ | ⟨hn, _⟩ | ⟨l, a, xs, hl, ha, _, _, hne, hw⟩ | ⟨l, s, hl, hx, _, _⟩
    · rw [hL] at hn; simp at hn
    · simp at hn
    · rw [hL] at hl; simp only [Option.some.injEq] at hl; subst hl
      obtain ⟨rfl, _⟩ := pySet_arr ha
      exact ⟨_, hw, hne, fun x hx => (mem_inter.1 ((E.mem_enum _ _).1 hx)).1⟩
    · simp at hx

example : ∃ xs, Ex.resolved.get? "scopes" = some (.arr xs) ∧ xs ≠ [] ∧
    ∀ x ∈ xs, x ∈ [Val.str "openid", .str "email", .str "phone"] :=
  C02_subset_of_list_partial Ex.E Ex.K Ex.leaf _ Ex.rule "scopes" Ex.scopes _
    [.str "openid", .str "email", .str "address"] Ex.resolves (by decide +kernel) (by decide +kernel) (by decide +kernel) (by decide +kernel)

/-! ## C03 -/

/-- C03: a list-valued resolved claim contains every member of `superset_of`. -/
theorem C03_superset_of (E : SetEnum Val) (K : SetEnum String) (md md' : Metadata) (r : Rule) (c : String)
    (cp : ClaimPolicy) (L xs : List Val) (h : applyPolicy E K md r = .ok md') (hc : r.policy.get? c = some cp)
    (hL : cp.get? "superset_of" = some (.arr L)) (hv : cp.get? "value" = none)
    (hx : md'.get? c = some (.arr xs)) : ∀ x ∈ L, x ∈ xs := by
  obtain ⟨v1, h1, h2⟩ := claimRun_ok_inv hv (applyPolicy_claim h hc)
  rcases h2 with ⟨h3, h4⟩ | ⟨_, _, h5, _⟩
  · obtain ⟨l, y, _, hy, hl, _⟩ := stepOneOf_true h3
    rw [← h4, hx, Option.some.injEq] at hy; subst hy; simp [Val.isList] at hl
  · rw [hx] at h5
    obtain ⟨a, b, ha, hb, hab⟩ := stepSuperset_ok hL h5
    obtain ⟨rfl, _⟩ := pySet_arr ha
    obtain ⟨rfl, _⟩ := pySet_arr hb
    exact hab

example : ∀ x ∈ [Val.str "openid"], x ∈ [Val.str "openid", .str "email"] :=
  C03_superset_of Ex.E Ex.K Ex.leaf _ Ex.rule "scopes" Ex.scopes _ _ Ex.resolves (by decide +kernel) (by decide +kernel) (by decide +kernel) (by decide +kernel)

/-! ## C04 -/

/-- C04 in full. -/
def C04_full : Prop :=
  ∀ (E : SetEnum Val) (K : SetEnum String) (md md' : Metadata) (r : Rule) (c : String) (cp : ClaimPolicy) (L : List Val)
    (v : Val), applyPolicy E K md r = .ok md' → r.policy.get? c = some cp → cp.get? "one_of" = some (.arr L) →
    cp.get? "value" = none → md'.get? c = some v → v ∈ L

/-- C04 is violated: an entity that writes the claim as a list is not checked at all (policy_operator.py 46-47). -/
theorem C04_one_of_violation : ¬ C04_full := by
  intro h
  have := h Ex.E Ex.K [("auth", .arr [.str "none"])] [("auth", .arr [.str "none"])]
    ⟨[], [("auth", [("one_of", .arr [.str "private_key_jwt"])])]⟩ "auth" _ [.str "private_key_jwt"]
    (.arr [.str "none"]) (by decide +kernel) rfl (by decide +kernel) (by decide +kernel) (by decide +kernel)
  revert this; decide +kernel

/-- C04 for claims that resolve to a single value. Missing: list-valued claims, for which it is false. -/
theorem C04_one_of_partial (E : SetEnum Val) (K : SetEnum String) (md md' : Metadata) (r : Rule) (c : String)
    (cp : ClaimPolicy) (L : List Val) (v : Val) (h : applyPolicy E K md r = .ok md') (hc : r.policy.get? c = some cp)
    (hL : cp.get? "one_of" = some (.arr L)) (hv : cp.get? "value" = none)
    (hx : md'.get? c = some v) (hnl : ∀ xs, v ≠ .arr xs) : v ∈ L := by
  obtain ⟨v1, h1, h2⟩ := claimRun_ok_inv hv (applyPolicy_claim h hc)
  rcases h2 with ⟨h3, h4⟩ | ⟨h3, h4, _⟩
  · obtain ⟨l, y, hl, hy, _, hi⟩ := stepOneOf_true h3
    rw [hL, Option.some.injEq] at hl
    rw [← h4, hx, Option.some.injEq] at hy
    subst hl; subst hy
    simpa [pyIn] using hi
  · rw [hx] at h4
    rcases stepOneOf_false.1 h3 with hn | hn | ⟨xs, hn⟩
    · rw [hL] at hn; simp at hn
    · rw [hn] at h4
      simp only [stepSubset] at h4; split at h4 <;> simp at h4
    · rcases stepSubset_ok h4 with ⟨_, hw⟩ | ⟨_, hw⟩ | ⟨_, _, _, _, _, _, _, _, hw⟩ | ⟨_, _, _, _, _, hw⟩
      · rw [hn] at hw; simp at hw; exact absurd hw (hnl xs)
      · simp at hw
      · simp at hw; exact absurd hw (hnl _)
      · simp at hw; exact absurd hw (hnl _)

example : Val.str "private_key_jwt" ∈ [Val.str "private_key_jwt", .str "self_signed"] :=
  C04_one_of_partial Ex.E Ex.K Ex.leaf _ Ex.rule "auth" Ex.auth _ _ Ex.resolves (by decide +kernel) (by decide +kernel) (by decide +kernel) (by decide +kernel)
    (by simp)

/-! ## C05 -/

/-- C05 without `subset_of`: the claim then holds exactly what was declared and what was added. -/
theorem C05_add (E : SetEnum Val) (K : SetEnum String) (md md' : Metadata) (r : Rule) (c : String)
    (cp : ClaimPolicy) (a : Val) (h : applyPolicy E K md r = .ok md') (hc : r.policy.get? c = some cp)
    (ha : cp.get? "add" = some a) (hv : cp.get? "value" = none) (hs : cp.get? "subset_of" = none) :
    ∀ x, x ∈ held (md'.get? c) ↔ x ∈ held (declared md r c) ∨ x ∈ held (some a) := by
  obtain ⟨v1, h1, h2⟩ := claimRun_ok_inv hv (applyPolicy_claim h hc)
  have hsome : stepDefault cp v1 = v1 := by
    rcases stepAdd_ok h1 with ⟨hn, _⟩ | ⟨_, _, _, rfl⟩ | ⟨_, _, _, _, _, _, rfl⟩
    · rw [ha] at hn; simp at hn
    · rfl
    · rfl
  rw [hsome] at h2
  have hw : md'.get? c = v1 := by
    rcases h2 with ⟨_, h4⟩ | ⟨_, h4, _⟩
    · exact h4
    · simp only [stepSubset, hs, Except.ok.injEq] at h4; exact h4.symm
  rw [hw]
  have hset : ∀ (v : Val) (q : List Val), setOrSingleton v = .ok q → q = held (some v) := by
    intro v q hq
    rcases (setOrSingleton_ok hq).2 with ⟨xs, rfl, rfl⟩ | ⟨hl, rfl⟩
    · rfl
    · cases v <;> simp_all [held, Val.isList]
  rcases stepAdd_ok h1 with ⟨hn, _⟩ | ⟨a', ha', hd, rfl⟩ | ⟨a', y, u, ha', hd, hu, rfl⟩
  · rw [ha] at hn; simp at hn
  · rw [ha, Option.some.injEq] at ha'; subst ha'; simp [hd, held]
  · rw [ha, Option.some.injEq] at ha'; subst ha'
    obtain ⟨p, q, hp, hq, rfl⟩ := union_ok hu
    intro x
    rw [hd, ← hset _ _ hp, ← hset _ _ hq]
    simp [held, SetEnum.mem_enum]

example : ∀ x, x ∈ held (Ex.resolved.get? "contacts") ↔
    x ∈ held (declared Ex.leaf Ex.rule "contacts") ∨ x ∈ held (some (Ex.strs ["ops@example.org"])) :=
  C05_add Ex.E Ex.K Ex.leaf _ Ex.rule "contacts" Ex.contacts _ Ex.resolves (by decide +kernel) (by decide +kernel) (by decide +kernel) (by decide +kernel)

/-- C05 with `subset_of` as well, `add` being a list: the claim holds exactly those declared or added values that are in
the subset. -/
theorem C05_add_subset (E : SetEnum Val) (K : SetEnum String) (md md' : Metadata) (r : Rule) (c : String)
    (cp : ClaimPolicy) (A L : List Val) (h : applyPolicy E K md r = .ok md') (hc : r.policy.get? c = some cp)
    (ha : cp.get? "add" = some (.arr A)) (hv : cp.get? "value" = none) (hs : cp.get? "subset_of" = some (.arr L)) :
    ∀ x, x ∈ held (md'.get? c) ↔ (x ∈ held (declared md r c) ∨ x ∈ A) ∧ x ∈ L := by
  obtain ⟨v1, h1, h2⟩ := claimRun_ok_inv hv (applyPolicy_claim h hc)
  have hset : ∀ (v : Val) (q : List Val), setOrSingleton v = .ok q → q = held (some v) := by
    intro v q hq
    rcases (setOrSingleton_ok hq).2 with ⟨xs, rfl, rfl⟩ | ⟨hl, rfl⟩
    · rfl
    · cases v <;> simp_all [held, Val.isList]
  have hv1 : ∃ ys, v1 = some (.arr ys) ∧ ∀ x, x ∈ ys ↔ x ∈ held (declared md r c) ∨ x ∈ A := by
    rcases stepAdd_ok h1 with ⟨hn, _⟩ | ⟨a', ha', hd, rfl⟩ | ⟨a', y, u, ha', hd, hu, rfl⟩
    · rw [ha] at hn; simp at hn
    · rw [ha, Option.some.injEq] at ha'; subst ha'
      exact ⟨A, rfl, by simp [hd, held]⟩
    · rw [ha, Option.some.injEq] at ha'; subst ha'
      obtain ⟨p, q, hp, hq, rfl⟩ := union_ok hu
      refine ⟨_, rfl, fun x => ?_⟩
      rw [hd, ← hset _ _ hp, show q = A from hset _ _ hq]
      simp [SetEnum.mem_enum]
  obtain ⟨ys, rfl, hys⟩ := hv1
  simp only [stepDefault] at h2
  rcases h2 with ⟨h3, _⟩ | ⟨_, h4, _⟩
  · obtain ⟨l, y, _, hy, hl, _⟩ := stepOneOf_true h3
    simp only [Option.some.injEq] at hy; subst hy; simp [Val.isList] at hl
  · rcases stepSubset_ok h4 with ⟨hn, _⟩ | ⟨hn, _⟩ | ⟨l, a, xs, hl, hla, hx, _, hne, hw⟩ | ⟨l, s, hl, hx, _, _⟩
    · rw [hs] at hn; simp at hn
    · simp at hn
    · rw [hs, Option.some.injEq] at hl; subst hl
      obtain ⟨rfl, _⟩ := pySet_arr hla
      simp only [Option.some.injEq, Val.arr.injEq] at hx; subst hx
      intro x
      rw [hw]
      simp only [held, SetEnum.mem_enum, mem_inter, hys]
      exact And.comm
    · simp at hx

example : ∀ x, x ∈ held (some (Ex.strs ["a", "b"])) ↔
    (x ∈ held (declared [("c", Ex.strs ["a", "z"])] ⟨[], [("c", [("add", Ex.strs ["b"]), ("subset_of", Ex.strs ["a", "b"])])]⟩ "c")
      ∨ x ∈ [Val.str "b"]) ∧ x ∈ [Val.str "a", .str "b"] :=
  C05_add_subset Ex.E Ex.K [("c", Ex.strs ["a", "z"])] [("c", Ex.strs ["a", "b"])]
    ⟨[], [("c", [("add", Ex.strs ["b"]), ("subset_of", Ex.strs ["a", "b"])])]⟩ "c" _ _ _
    (by decide +kernel) rfl (by decide +kernel) (by decide +kernel) (by decide +kernel)

/-! ## C06 -/

/-- The rule with the `default` of claim `c` replaced. -/
def withDefault (r : Rule) (c : String) (cp : ClaimPolicy) (d : Val) : Rule :=
  { r with policy := r.policy.set c (cp.set "default" d) }

theorem claimRun_default_irrelevant (E : SetEnum Val) (cp : ClaimPolicy) (d d' : Val) (v : Option Val)
    (hd : cp.get? "default" = some d)
    (hs : v ≠ none ∨ (cp.get? "value").isSome ∨ (cp.get? "add").isSome) :
    claimRun E (cp.set "default" d') v = claimRun E cp v := by
  have hk : ∀ k, k ≠ "default" → (cp.set "default" d').get? k = cp.get? k :=
    fun k hk => Dict.get?_set_ne _ _ (Ne.symm hk)
  have hkeys : ∀ s, s ∈ (cp.set "default" d').keys ↔ s ∈ cp.keys := by
    intro s
    rw [Dict.mem_keys_iff, Dict.mem_keys_iff, Dict.get?_set]
    split
    · next e => subst e; simp [hd]
    · rfl
  have hany : ∀ w : Val, (cp.set "default" d').keys.any (fun k => decide (Val.str k = w)) =
      cp.keys.any (fun k => decide (Val.str k = w)) := by
    intro w
    rw [Bool.eq_iff_iff]
    simp only [List.any_eq_true, hkeys]
  have hv' := hk "value" (by decide +kernel)
  cases hv : cp.get? "value" with
  | some x => rw [claimRun_value hv, claimRun_value (hv'.trans hv)]
  | none =>
    have h1 : stepAdd E (cp.set "default" d') v = stepAdd E cp v := by
      simp only [stepAdd, hk "add" (by decide +kernel)]
    have h2 : ∀ v1, stepAdd E cp v = .ok v1 → stepDefault (cp.set "default" d') v1 = stepDefault cp v1 := by
      intro v1 he
      have : v1 ≠ none := by
        rintro rfl
        rcases stepAdd_ok he with ⟨hn, hh⟩ | ⟨_, _, _, hh⟩ | ⟨_, _, _, _, _, _, hh⟩
        · subst hh; simp [hv, hn] at hs
        · simp at hh
        · simp at hh
      cases v1 with
      | none => exact absurd rfl this
      | some y => rfl
    have h3 : ∀ z, stepOneOf (cp.set "default" d') z = stepOneOf cp z := by
      intro z; simp only [stepOneOf, hk "one_of" (by decide +kernel)]
    have h4 : ∀ z, stepSubset E (cp.set "default" d') z = stepSubset E cp z := by
      intro z; simp only [stepSubset, hk "subset_of" (by decide +kernel), hany]
    have h5 : ∀ z, stepSuperset (cp.set "default" d') z = stepSuperset cp z := by
      intro z; simp only [stepSuperset, hk "superset_of" (by decide +kernel)]
    have h6 : ∀ z, stepEssential (cp.set "default" d') z = stepEssential cp z := by
      intro z; simp only [stepEssential, hk "essential" (by decide +kernel)]
    simp only [claimRun, hv', hv, h1]
    cases hc : stepAdd E cp v with
    | error e => rfl
    | ok v1 => simp only [ok_bind, h2 v1 hc, h3, h4, h5, h6]

theorem claimRes_withDefault (E : SetEnum Val) (r : Rule) (c : String) (cp : ClaimPolicy) (d d' : Val) (md : Metadata)
    (hc : r.policy.get? c = some cp) (hd : cp.get? "default" = some d)
    (hs : declared md r c ≠ none ∨ (cp.get? "value").isSome ∨ (cp.get? "add").isSome) (q : String) :
    claimRes E (withDefault r c cp d').policy q (declared md r q) = claimRes E r.policy q (declared md r q) := by
  simp only [claimRes, withDefault, Dict.get?_set]
  by_cases hq : c = q
  · subst hq; simp only [if_true, hc]; exact claimRun_default_irrelevant E cp d d' _ hd hs
  · simp [hq]

/-- C06 (a): when the claim is supplied by the entity, by a superior's `metadata`, by `value` or by `add`, the `default`
operand has no influence at all: with any other default the outcome (failure or resolved claims) is the same. -/
theorem C06_default_never_overrides (E : SetEnum Val) (K : SetEnum String) (md : Metadata) (r : Rule) (c : String)
    (cp : ClaimPolicy) (d d' : Val) (hc : r.policy.get? c = some cp) (hd : cp.get? "default" = some d)
    (hs : declared md r c ≠ none ∨ (cp.get? "value").isSome ∨ (cp.get? "add").isSome) :
    ((∃ m, applyPolicy E K md r = .ok m) ↔ ∃ m, applyPolicy E K md (withDefault r c cp d') = .ok m) ∧
    ∀ m m', applyPolicy E K md r = .ok m → applyPolicy E K md (withDefault r c cp d') = .ok m' →
      ∀ q, m.get? q = m'.get? q := by
  have hres := claimRes_withDefault E r c cp d d' md hc hd hs
  have hkeys : ∀ q, q ∈ (withDefault r c cp d').policy.keys ↔ q ∈ r.policy.keys := by
    intro q
    rw [Dict.mem_keys_iff, Dict.mem_keys_iff, withDefault, Dict.get?_set]
    split
    · next e => subst e; simp [hc]
    · rfl
  have hst : ∀ q, startValue md (withDefault r c cp d') q = declared md r q := fun q => declared_eq md r q
  constructor
  · rw [applyPolicy_ok_iff, applyPolicy_ok_iff]
    simp only [hst, hres, hkeys, declared_eq]
  · intro m m' h1 h2 q
    have e1 := applyPolicy_ok E K h1 q
    have e2 := applyPolicy_ok E K h2 q
    rw [hst, hres] at e2
    rw [declared_eq] at e1
    rw [e1] at e2
    simpa using e2

example : Ex.rule.policy.get? "alg" = some Ex.alg ∧
    declared [("alg", .str "RS256")] Ex.rule "alg" ≠ none := by decide +kernel

/-- C06 (b): when nothing else supplies the claim, the outcome is the same as if the entity had declared the default. -/
theorem C06_default_supplied (E : SetEnum Val) (K : SetEnum String) (md : Metadata) (r : Rule) (c : String)
    (cp : ClaimPolicy) (d : Val) (hc : r.policy.get? c = some cp) (hd : cp.get? "default" = some d)
    (hn : declared md r c = none) (hv : cp.get? "value" = none) (ha : cp.get? "add" = none) :
    ((∃ m, applyPolicy E K md r = .ok m) ↔ ∃ m, applyPolicy E K (md.set c d) r = .ok m) ∧
    ∀ m m', applyPolicy E K md r = .ok m → applyPolicy E K (md.set c d) r = .ok m' → ∀ q, m.get? q = m'.get? q := by
  have hres : ∀ q, claimRes E r.policy q (declared (md.set c d) r q) = claimRes E r.policy q (declared md r q) := by
    intro q
    by_cases hq : c = q
    · subst hq
      have h2 : declared (md.set c d) r c = some d := by simp [declared]
      rw [h2, hn]
      simp [claimRes, hc, claimRun, hv, stepAdd, ha, stepDefault, hd]
    · have : declared (md.set c d) r q = declared md r q := by
        simp only [declared, Dict.get?_set_ne _ _ hq]
      rw [this]
  constructor
  · rw [applyPolicy_ok_iff, applyPolicy_ok_iff]
    simp only [declared_eq, hres]
  · intro m m' h1 h2 q
    have e1 := applyPolicy_ok E K h1 q
    have e2 := applyPolicy_ok E K h2 q
    rw [declared_eq, hres] at e2
    rw [declared_eq, e2] at e1
    simpa using e1.symm

example : declared Ex.leaf Ex.rule "alg" = none ∧ Ex.resolved.get? "alg" = some (.str "ES256") := by decide +kernel

/-! ## C07 -/

/-- C07: a claim marked essential is present after success. -/
theorem C07_essential_present (E : SetEnum Val) (K : SetEnum String) (md md' : Metadata) (r : Rule) (c : String)
    (cp : ClaimPolicy) (h : applyPolicy E K md r = .ok md') (hc : r.policy.get? c = some cp)
    (he : cp.get? "essential" = some (.bool true)) : ∃ v, md'.get? c = some v := by
  have hr := applyPolicy_claim h hc
  cases hv : cp.get? "value" with
  | some x => exact ⟨x, C01_value_final E K md md' r c cp x h hc hv⟩
  | none =>
    obtain ⟨v1, h1, h2⟩ := claimRun_ok_inv hv hr
    rcases h2 with ⟨h3, h4⟩ | ⟨_, _, _, h6⟩
    · obtain ⟨_, y, _, hy, _⟩ := stepOneOf_true h3
      exact ⟨y, by rw [h4, hy]⟩
    · cases hm : md'.get? c with
      | some v => exact ⟨v, rfl⟩
      | none => rw [hm] at h6; simp [stepEssential, he] at h6

example : ∃ v, Ex.resolved.get? "auth" = some v :=
  C07_essential_present Ex.E Ex.K Ex.leaf _ Ex.rule "auth" Ex.auth Ex.resolves (by decide +kernel) (by decide +kernel)

/-- C07, the other direction of refusal: an absent essential claim that nothing supplies makes application fail. -/
theorem C07_essential_missing_refused (E : SetEnum Val) (K : SetEnum String) (md : Metadata) (r : Rule) (c : String)
    (cp : ClaimPolicy) (hc : r.policy.get? c = some cp) (he : cp.get? "essential" = some (.bool true))
    (hn : declared md r c = none) (hv : cp.get? "value" = none) (ha : cp.get? "add" = none)
    (hd : cp.get? "default" = none) : ∀ md', applyPolicy E K md r ≠ .ok md' := by
  intro md' h
  have hr := applyPolicy_claim h hc
  rw [hn] at hr
  revert hr
  cases ho : cp.get? "one_of" <;> cases hs : cp.get? "subset_of" <;> cases hp : cp.get? "superset_of" <;>
    simp [claimRun, hv, stepAdd, ha, stepDefault, hd, stepOneOf, stepSubset, stepSuperset, stepEssential, he, ho, hs, hp]

example : applyPolicy Ex.E Ex.K [] Ex.rule = .error .policyError := by decide +kernel

/-! ## C08 -/

/-- C08 (a): a claim the policy does not mention has the entity's value, else a superior's, else is absent. -/
theorem C08_pass_through (E : SetEnum Val) (K : SetEnum String) (md md' : Metadata) (r : Rule) (c : String)
    (h : applyPolicy E K md r = .ok md') (hc : c ∉ r.policy.keys) :
    md'.get? c = match md.get? c with
      | some v => some v
      | none => r.metadata.get? c := by
  have := applyPolicy_ok E K h c
  rw [declared_eq, claimRes, (Dict.get?_eq_none_iff _ _).2 hc] at this
  simp only [Except.ok.injEq] at this
  exact this.symm

example : Ex.resolved.get? "organization_name" = some (.str "Org") ∧ Ex.resolved.get? "client_name" = some (.str "RP") ∧
    "organization_name" ∉ Ex.rule.policy.keys ∧ "client_name" ∉ Ex.rule.policy.keys := by decide +kernel

/-- C08 (b): no claim is invented: a resolved claim was declared by the entity, set by a superior, or is supplied by
`value`, `add` or `default` of its policy. -/
theorem C08_none_invented (E : SetEnum Val) (K : SetEnum String) (md md' : Metadata) (r : Rule) (c : String) (v : Val)
    (h : applyPolicy E K md r = .ok md') (hm : md'.get? c = some v) :
    (∃ x, md.get? c = some x) ∨ (∃ x, r.metadata.get? c = some x) ∨
    ∃ cp, r.policy.get? c = some cp ∧ ∃ x, cp.get? "value" = some x ∨ cp.get? "add" = some x ∨ cp.get? "default" = some x := by
  by_cases hd : declared md r c = none
  · right; right
    cases hc : r.policy.get? c with
    | none =>
      have := C08_pass_through E K md md' r c h ((Dict.get?_eq_none_iff _ _).1 hc)
      change md'.get? c = declared md r c at this
      rw [hd, hm] at this; simp at this
    | some cp =>
      refine ⟨cp, rfl, ?_⟩
      cases hv : cp.get? "value" with
      | some x => exact ⟨x, Or.inl rfl⟩
      | none =>
        cases ha : cp.get? "add" with
        | some x => exact ⟨x, Or.inr (Or.inl rfl)⟩
        | none =>
          cases hdf : cp.get? "default" with
          | some x => exact ⟨x, Or.inr (Or.inr rfl)⟩
          | none =>
            exfalso
            obtain ⟨v1, h1, h2⟩ := claimRun_ok_inv hv (applyPolicy_claim h hc)
            rw [hd] at h1
            simp only [stepAdd, ha, Except.ok.injEq] at h1
            subst h1
            simp only [stepDefault, hdf, hm] at h2
            rcases h2 with ⟨_, h4⟩ | ⟨_, h4, _⟩
            · simp at h4
            · simp only [stepSubset] at h4; split at h4 <;> simp at h4
  · unfold declared at hd
    cases hm1 : md.get? c with
    | some x => exact Or.inl ⟨x, rfl⟩
    | none =>
      cases hm2 : r.metadata.get? c with
      | some x => exact Or.inr (Or.inl ⟨x, rfl⟩)
      | none => simp [hm1, hm2] at hd

/-! ## C09 -/

/-- C09: the `while True` of `apply_metadata_policy` stops for every claim, policy and metadata after at most 7 rounds
(one per operator), and the outcome does not depend on how many rounds beyond that are allowed. -/
theorem C09_operator_loop_terminates (E : SetEnum Val) (claim : String) (cp : ClaimPolicy) (md : Metadata) :
    ∃ result, ∀ fuel, 7 ≤ fuel → opLoop E evaluationSequence claim cp fuel 0 md = some result := by
  obtain ⟨r, h, _⟩ := loop0 E claim cp 0 md
  refine ⟨r, ?_⟩
  have mono : ∀ (f i : Nat) (m : Metadata) (x : Except PyErr Metadata),
      opLoop E evaluationSequence claim cp f i m = some x →
      opLoop E evaluationSequence claim cp (f + 1) i m = some x := by
    intro f
    induction f with
    | zero => intro i m x h; simp [opLoop] at h
    | succ f ih =>
      intro i m x h
      unfold opLoop at h
      unfold opLoop
      cases ho : evaluationSequence[i]? with
      | none => simpa [ho] using h
      | some op =>
        simp only [ho] at h ⊢
        cases hg : cp.get? op.name with
        | none =>
          simp only [hg] at h ⊢
          split
          · next hlt => rwa [if_pos hlt] at h
          · next hlt => rw [if_neg hlt] at h; exact ih _ _ _ h
        | some w =>
          simp only [hg] at h ⊢
          cases hcall : callOp E op claim m cp w with
          | error e => simpa [hcall] using h
          | ok p =>
            obtain ⟨m', nx⟩ := p
            simp only [hcall] at h ⊢
            cases nx with
            | none =>
              simp only at h ⊢
              split
              · next hlt => rwa [if_pos hlt] at h
              · next hlt => rw [if_neg hlt] at h; exact ih _ _ _ h
            | some n =>
              simp only at h ⊢
              cases hp : opPlace n evaluationSequence i 0 with
              | none => simpa [hp] using h
              | some j => simp only [hp] at h ⊢; exact ih _ _ _ h
  intro fuel hf
  induction hf with
  | refl => exact h
  | step _ ih => exact mono _ _ _ _ ih

/-- C09: `apply_policy` never ends by running out of rounds. -/
theorem C09_applyPolicy_total (E : SetEnum Val) (K : SetEnum String) (md : Metadata) (r : Rule) :
    applyPolicy E K md r ≠ .error .outOfFuel := by
  intro h
  obtain ⟨c, _, hc⟩ := applyPolicy_error E K h
  revert hc
  generalize startValue md r c = v
  unfold claimRes
  cases r.policy.get? c with
  | none => simp
  | some cp =>
    simp only
    have hms : ∀ xs, mkSet xs ≠ .error .outOfFuel := by intro xs; unfold mkSet; split <;> simp
    have hsos : ∀ x, setOrSingleton x ≠ .error .outOfFuel := by
      intro x; cases x <;> exact hms _
    have hps : ∀ x, pySet x ≠ .error .outOfFuel := by
      intro x; cases x <;> simp [pySet, pyIter, hms]
    have hpi : ∀ x y, pyIn x y ≠ .error .outOfFuel := by
      intro x y
      cases y <;> simp only [pyIn] <;> (try simp)
      · cases x <;> simp
      · split <;> simp
    have h1 : ∀ v, stepAdd E cp v ≠ .error .outOfFuel := by
      intro v; unfold stepAdd
      cases cp.get? "add" with
      | none => simp
      | some a =>
        cases v with
        | none => simp
        | some x =>
          simp only [union]
          cases hp : setOrSingleton x with
          | error e => have := hsos x; rw [hp] at this; simpa using this
          | ok p =>
            cases hq : setOrSingleton a with
            | error e => have := hsos a; rw [hq] at this; simpa using this
            | ok q => simp
    have h2 : ∀ v, stepOneOf cp v ≠ .error .outOfFuel := by
      intro v; unfold stepOneOf
      cases cp.get? "one_of" with
      | none => simp
      | some a =>
        cases v with
        | none => simp
        | some x =>
          simp only
          split
          · simp
          · cases hp : pyIn x a with
            | error e => have := hpi x a; rw [hp] at this; simpa using this
            | ok b => cases b <;> simp
    have h3 : ∀ v, stepSubset E cp v ≠ .error .outOfFuel := by
      intro v; unfold stepSubset
      cases cp.get? "subset_of" with
      | none => simp
      | some a =>
        cases v with
        | none => simp
        | some x =>
          cases x with
          | arr xs =>
            simp only
            cases hp : pySet a with
            | error e => have := hps a; rw [hp] at this; simpa using this
            | ok p =>
              cases hq : mkSet xs with
              | error e => have := hms xs; rw [hq] at this; simpa using this
              | ok q => simp only [ok_bind]; split <;> simp
          | obj kvs => simp [Val.hashable]
          | _ =>
            simp only [Val.hashable, if_true, pyIter, ok_bind, error_bind, except_pure, except_throw]
            split
            · split <;> simp
            · simp
    have h4 : ∀ v, stepSuperset cp v ≠ .error .outOfFuel := by
      intro v; unfold stepSuperset
      cases cp.get? "superset_of" with
      | none => simp
      | some a =>
        cases v with
        | none => simp
        | some x =>
          simp only
          cases hp : pySet a with
          | error e => have := hps a; rw [hp] at this; simpa using this
          | ok p =>
            cases hq : pySet x with
            | error e => have := hps x; rw [hq] at this; simpa using this
            | ok q => simp only [ok_bind]; split <;> simp
    have h5 : ∀ v, stepEssential cp v ≠ .error .outOfFuel := by
      intro v; unfold stepEssential
      cases cp.get? "essential" with
      | none => simp
      | some a =>
        cases v with
        | none => simp only; split <;> simp
        | some x => simp
    unfold claimRun
    cases cp.get? "value" with
    | some x => simp
    | none =>
      simp only
      cases e1 : stepAdd E cp v with
      | error e => have := h1 v; rw [e1] at this; simpa using this
      | ok v1 =>
        simp only [ok_bind]
        cases e2 : stepOneOf cp (stepDefault cp v1) with
        | error e => have := h2 (stepDefault cp v1); rw [e2] at this; simpa using this
        | ok b =>
          cases b with
          | true => simp
          | false =>
            simp only [ok_bind, Bool.false_eq_true, if_false]
            cases e3 : stepSubset E cp (stepDefault cp v1) with
            | error e => have := h3 (stepDefault cp v1); rw [e3] at this; simpa using this
            | ok w =>
              simp only [ok_bind]
              cases e4 : stepSuperset cp w with
              | error e => have := h4 w; rw [e4] at this; simpa using this
              | ok u =>
                simp only [ok_bind]
                cases e5 : stepEssential cp w with
                | error e => have := h5 w; rw [e5] at this; simpa using this
                | ok u => simp

/-! ## C10 -/

/-- C10: two processes (different hash seeds) agree on success and on every resolved claim, lists compared as sets. -/
theorem C10_hash_order_irrelevant (E E' : SetEnum Val) (K K' : SetEnum String) (md : Metadata) (r : Rule) :
    ((∃ m, applyPolicy E K md r = .ok m) ↔ ∃ m, applyPolicy E' K' md r = .ok m) ∧
    ∀ m m', applyPolicy E K md r = .ok m → applyPolicy E' K' md r = .ok m' → ∀ c, OptSetEq (m.get? c) (m'.get? c) := by
  have hres : ∀ c, ResEq (claimRes E r.policy c (startValue md r c)) (claimRes E' r.policy c (startValue md r c)) :=
    fun c => claimRes_congr E E' r.policy c (OptSetEq.refl _)
  constructor
  · rw [applyPolicy_ok_iff, applyPolicy_ok_iff]
    constructor
    · intro h c hc
      obtain ⟨w, hw⟩ := h c hc
      have := hres c
      rw [hw] at this
      cases hx : claimRes E' r.policy c (startValue md r c) with
      | ok w' => exact ⟨w', rfl⟩
      | error e => rw [hx] at this; simp [ResEq] at this
    · intro h c hc
      obtain ⟨w, hw⟩ := h c hc
      have := hres c
      rw [hw] at this
      cases hx : claimRes E r.policy c (startValue md r c) with
      | ok w' => exact ⟨w', rfl⟩
      | error e => rw [hx] at this; simp [ResEq] at this
  · intro m m' h1 h2 c
    have := hres c
    rw [applyPolicy_ok E K h1 c, applyPolicy_ok E' K' h2 c] at this
    exact this

/-- Two seeds that really enumerate differently. -/
example : ∃ m m', applyPolicy SetEnum.insertion SetEnum.insertion Ex.leaf Ex.rule = .ok m ∧
    applyPolicy SetEnum.reversed SetEnum.reversed Ex.leaf Ex.rule = .ok m' ∧ m.get? "scopes" ≠ m'.get? "scopes" := by
  refine ⟨Ex.resolved, _, Ex.resolves, rfl, ?_⟩
  decide +kernel

/-! ## C11 -/

/-- C11 in full. -/
def C11_full : Prop :=
  ∀ (E : SetEnum Val) (K : SetEnum String) (md m : Metadata) (r : Rule), applyPolicy E K md r = .ok m →
    ∃ m', applyPolicy E K m r = .ok m' ∧ ∀ c, OptSetEq (m.get? c) (m'.get? c)

/-- C11 is violated: `add` with a single value gives an absent claim that value, and the second application wraps it in a
list (policy_operator.py 62-65). -/
theorem C11_idempotent_violation : ¬ C11_full := by
  intro h
  obtain ⟨m', h1, h2⟩ := h Ex.E Ex.K [] [("c", .str "x")] ⟨[], [("c", [("add", .str "x")])]⟩ (by decide +kernel)
  have : applyPolicy Ex.E Ex.K [("c", .str "x")] ⟨[], [("c", [("add", .str "x")])]⟩ = .ok [("c", .arr [.str "x"])] := by
    decide +kernel
  rw [this] at h1
  simp only [Except.ok.injEq] at h1
  have := h2 "c"
  rw [← h1] at this
  simp [Dict.get?, OptSetEq, Val.SetEq] at this

/-- C11 when every `add` operand for a claim nobody declares is a list of atoms, and no single-valued claim under
`subset_of` (declared, or its default) is the name of an operator. Missing: exactly those inputs, for which it can fail. -/
theorem C11_idempotent_partial (E : SetEnum Val) (K : SetEnum String) (md m : Metadata) (r : Rule)
    (h : applyPolicy E K md r = .ok m)
    (hadd : ∀ c cp a, r.policy.get? c = some cp → cp.get? "add" = some a → declared md r c = none →
      ∃ xs, a = .arr xs ∧ ∀ x ∈ xs, x.hashable = true)
    (hop : ∀ c cp l s, r.policy.get? c = some cp → cp.get? "subset_of" = some l → s ∈ cp.keys →
      declared md r c ≠ some (.str s) ∧ cp.get? "default" ≠ some (.str s)) :
    ∃ m', applyPolicy E K m r = .ok m' ∧ ∀ c, OptSetEq (m.get? c) (m'.get? c) := by
  -- nothing that was declared disappears
  have hst : ∀ c, startValue m r c = m.get? c := by
    intro c
    unfold startValue
    cases hm : m.get? c with
    | some v => rfl
    | none =>
      cases hr : r.metadata.get? c with
      | none => rfl
      | some y =>
        exfalso
        have he := applyPolicy_ok E K h c
        have hs : ∃ x, startValue md r c = some x := by
          unfold startValue; rw [hr]; cases md.get? c <;> simp
        obtain ⟨x, hx⟩ := hs
        rw [hx, hm, claimRes] at he
        cases hp : r.policy.get? c with
        | none => simp [hp] at he
        | some cp =>
          simp only [hp] at he
          obtain ⟨y, hy⟩ := claimRun_some he
          simp at hy
  have hcl : ∀ c, ∃ w, claimRes E r.policy c (m.get? c) = .ok w ∧ OptSetEq (m.get? c) w := by
    intro c
    have he := applyPolicy_ok E K h c
    unfold claimRes at he ⊢
    cases hp : r.policy.get? c with
    | none => exact ⟨_, rfl, OptSetEq.refl _⟩
    | some cp =>
      simp only [hp, declared_eq] at he ⊢
      exact claimRun_idem E cp he (fun a ha hn => hadd c cp a hp ha hn) (fun l hl s hs => hop c cp l s hp hl hs)
  have hex : ∃ m', applyPolicy E K m r = .ok m' := by
    rw [applyPolicy_ok_iff]
    intro c _
    obtain ⟨w, hw, _⟩ := hcl c
    exact ⟨w, by rw [hst]; exact hw⟩
  obtain ⟨m', hm'⟩ := hex
  refine ⟨m', hm', fun c => ?_⟩
  have he := applyPolicy_ok E K hm' c
  obtain ⟨w, hw, heq⟩ := hcl c
  rw [hst, hw] at he
  simp only [Except.ok.injEq] at he
  rw [← he]; exact heq

/-- The hypotheses of `C11_idempotent_partial` hold for a rule and leaf with `add` and `subset_of` on one claim. -/
example : ∃ m', applyPolicy Ex.E Ex.K [("c", Ex.strs ["a", "b"])] ⟨[], [("c", [("add", Ex.strs ["b"]), ("subset_of", Ex.strs ["a", "b"])])]⟩
    = .ok m' ∧ ∀ c, OptSetEq (Dict.get? [("c", Ex.strs ["a", "b"])] c) (m'.get? c) := by
  refine C11_idempotent_partial Ex.E Ex.K [("c", Ex.strs ["a", "z"])] _ _ (by decide +kernel) ?_ ?_
  · intro c cp a hc ha hd
    by_cases h : "c" = c
    · subst h; simp [declared, Dict.get?] at hd
    · simp [Dict.get?, h] at hc
  · intro c cp l s hc _ _
    by_cases h : "c" = c
    · subst h
      simp only [Dict.get?, if_true, Option.some.injEq] at hc
      subst hc
      simp [declared, Dict.get?, Ex.strs]
    · simp [Dict.get?, h] at hc

/-! ## C19 -/

/-- C19 in full: a claim set in superiors' `metadata`, without policy operators, has that value. -/
def C19_full : Prop :=
  ∀ (E : SetEnum Val) (K : SetEnum String) (md md' : Metadata) (r : Rule) (c : String) (x : Val),
    applyPolicy E K md r = .ok md' → c ∉ r.policy.keys → r.metadata.get? c = some x → md'.get? c = some x

/-- C19 is violated: the entity's own value wins (policy.py 345-347). -/
theorem C19_superior_metadata_violation : ¬ C19_full := by
  intro h
  have := h Ex.E Ex.K [("c", .str "leaf")] [("c", .str "leaf")] ⟨[("c", .str "superior")], []⟩ "c" (.str "superior")
    (by decide +kernel) (by decide +kernel) (by decide +kernel)
  revert this; decide +kernel

/-- C19 for claims the entity does not declare, or declares alike. Missing: claims it declares differently, for which it is
false. -/
theorem C19_superior_metadata_partial (E : SetEnum Val) (K : SetEnum String) (md md' : Metadata) (r : Rule) (c : String)
    (x : Val) (h : applyPolicy E K md r = .ok md') (hc : c ∉ r.policy.keys) (hx : r.metadata.get? c = some x)
    (hl : ∀ y, md.get? c = some y → y = x) : md'.get? c = some x := by
  rw [C08_pass_through E K md md' r c h hc]
  cases hm : md.get? c with
  | none => exact hx
  | some y => simp [hl y hm]

example : Ex.resolved.get? "organization_name" = some (.str "Org") :=
  C19_superior_metadata_partial Ex.E Ex.K Ex.leaf _ Ex.rule _ _ Ex.resolves (by decide +kernel) (by decide +kernel) (by decide +kernel)

end Fed.Policy
