import Verif.Message.Crit
/-
Property C60: unknown critical extensions.
-/
namespace Fed.Message
open Fed

/-! ## C60 -/

/-- The claims of entity statements that are defined in the specification, as far as this software goes, with those of all JWTs. -/
def definedClaims : List String :=
  ["iss", "sub", "aud", "exp", "nbf", "iat", "jti", "jwks", "authority_hints", "metadata", "metadata_policy", "constraints", "crit",
   "policy_language_crit", "trust_marks", "trust_anchor_id"]

/-- The policy operators that are defined there. -/
def definedOperators : List String := ["subset_of", "one_of", "superset_of", "add", "value", "default", "essential"]

/-- These are the ones the code goes by. -/
theorem params_defined : statementParams = definedClaims ∧ policyParams = definedOperators := ⟨rfl, rfl⟩

/-- The statement carries an undefined claim that it lists as critical and the verifier does not know. -/
def UnknownClaim (known : KnownExt) (s : Statement) : Prop :=
  ∃ c, s.crit = some c ∧ ∃ k ∈ c, k ∈ s.claims ∧ k ∉ definedClaims ∧ k ∉ known.ext.getD []

/-- A claim policy of the statement uses an undefined operator that the statement lists as critical and the verifier does not know. -/
def UnknownOperator (known : KnownExt) (s : Statement) : Prop :=
  ∃ c, s.policyCrit = some c ∧ ∃ k ∈ c, k ∉ definedOperators ∧ k ∉ known.policyExt.getD [] ∧
    ∃ t mp, (t, mp) ∈ s.policy ∧ ∃ claim ops, (claim, ops) ∈ mp ∧ k ∈ ops

/-- C60 in full: a statement that passes the other checks is refused as having an unknown critical extension exactly if it has one. -/
def C60_full : Prop :=
  ∀ (known : KnownExt) (s : Statement),
    verifyStatement (.ok ()) known s = .error .unknownCriticalExtension ↔ UnknownClaim known s ∨ UnknownOperator known s

/-- C60 does not hold: a statement with one extension that is not critical, and a critical one it does not carry, is refused by a verifier that
names no extensions. -/
theorem C60_harmless_violation : ¬ C60_full := by
  intro h
  have := (h {} { claims := ["iss", "sub", "foo"], crit := some ["bar"] }).1 (by decide)
  rcases this with ⟨c, hc, k, hk, h1, -⟩ | ⟨c, hc, -⟩
  · cases hc
    simp only [List.mem_singleton] at hk
    subst hk
    exact absurd h1 (by decide)
  · cases hc

theorem mem_extra (defined members : List String) (k : String) : k ∈ extra defined members ↔ k ∈ members ∧ k ∉ defined := by
  simp [extra]

theorem critCheck_ok {extras : List String} {crit known : Option (List String)} (h : critCheck extras crit known = .ok ()) :
    ∀ c, crit = some c → ∀ k ∈ c, k ∈ extras → k ∈ known.getD [] := by
  intro c hc k hk hx
  subst hc
  unfold critCheck at h
  rw [if_neg (by intro h0; rw [List.isEmpty_iff] at h0; subst h0; simp at hx)] at h
  cases c with
  | nil => simp at hk
  | cons a c =>
    simp only at h
    cases known with
    | none => simp at h
    | some ks =>
      cases ks with
      | nil => simp at h
      | cons b ks =>
        simp only at h
        split at h
        · rename_i hall
          rw [List.all_eq_true] at hall
          simpa using hall k (by simpa using ⟨List.mem_cons.1 hk, hx⟩)
        · simp at h

theorem verifyPolicies_ok {crit known : Option (List String)} : ∀ {l : List (List String)}, verifyPolicies crit known l = .ok () →
    ∀ ops ∈ l, critCheck (extra policyParams ops) crit known = .ok () := by
  intro l
  induction l with
  | nil => simp
  | cons a l ih =>
    intro h ops ho
    rw [verifyPolicies] at h
    cases hc : critCheck (extra policyParams a) crit known with
    | error e => rw [hc] at h; simp at h
    | ok u =>
      rw [hc] at h
      rcases List.mem_cons.1 ho with rfl | ho
      · exact hc
      · exact ih h ops ho

/-- C60, the first half: a statement that is accepted, whatever the other checks do, carries no claim that it lists as critical and the verifier does not know, and
uses no policy operator of that kind. -/
theorem C60_unknown_refused (base : Except PyErr Unit) (known : KnownExt) (s : Statement) (h : verifyStatement base known s = .ok ()) :
    ¬ UnknownClaim known s ∧ ¬ UnknownOperator known s := by
  unfold verifyStatement at h
  cases base with
  | error e => simp at h
  | ok u =>
    cases hc : critCheck (extra statementParams s.claims) s.crit known.ext with
    | error e => rw [hc] at h; simp at h
    | ok u =>
      rw [hc] at h
      simp only [ok_bind] at h
      constructor
      · rintro ⟨c, h1, k, h2, h3, h4, h5⟩
        exact h5 (critCheck_ok hc c h1 k h2 ((mem_extra _ _ _).2 ⟨h3, h4⟩))
      · rintro ⟨c, h1, k, h2, h3, h4, t, mp, h5, claim, ops, h6, h7⟩
        rw [if_neg (by intro h0; rw [List.isEmpty_iff] at h0; rw [h0] at h5; simp at h5), h1] at h
        cases c with
        | nil => simp at h2
        | cons a c =>
          simp only at h
          have := verifyPolicies_ok h ops (by
            unfold claimPolicies
            exact List.mem_flatMap.2 ⟨_, h5, List.mem_map.2 ⟨_, h6, rfl⟩⟩)
          exact h4 (critCheck_ok this _ rfl k h2 ((mem_extra _ _ _).2 ⟨h7, h3⟩))

example : UnknownClaim {} { claims := ["iss", "foo"], crit := some ["foo"] } ∧
    UnknownOperator { policyExt := some ["x"] } { claims := [], policyCrit := some ["regexp"], policy := [("t", [("c", ["regexp"])])] } ∧
    verifyStatement (.ok ()) { ext := some ["foo"], policyExt := some ["regexp"] } { claims := ["iss", "foo"], crit := some ["foo"], policyCrit := some ["regexp"], policy := [("t", [("c", ["regexp"])])] } = .ok () := by
  refine ⟨⟨_, rfl, "foo", by decide⟩, ⟨_, rfl, "regexp", by decide, by decide, by decide, "t", _, List.mem_singleton.2 rfl, "c", _, List.mem_singleton.2 rfl, by decide⟩, by decide⟩

theorem critCheck_err {extras : List String} {crit known : Option (List String)} {e : PyErr} (h : critCheck extras crit known = .error e) :
    (e = .valueError ∧ crit = some []) ∨ (e = .unknownCriticalExtension ∧
      ∃ c, crit = some c ∧ c ≠ [] ∧ extras ≠ [] ∧ (known.getD [] = [] ∨ ∃ k ∈ c, k ∈ extras ∧ k ∉ known.getD [])) := by
  unfold critCheck at h
  split at h
  · simp at h
  · rename_i hx
    have hx' : extras ≠ [] := by rintro rfl; simp at hx
    cases crit with
    | none => simp at h
    | some c =>
      cases c with
      | nil => simp at h; exact .inl ⟨h.symm, rfl⟩
      | cons a c =>
        simp only at h
        cases known with
        | none => simp at h; exact .inr ⟨h.symm, _, rfl, by simp, hx', .inl rfl⟩
        | some ks =>
          cases ks with
          | nil => simp at h; exact .inr ⟨h.symm, _, rfl, by simp, hx', .inl rfl⟩
          | cons b ks =>
            simp only at h
            split at h
            · simp at h
            · rename_i hall
              simp at h
              refine .inr ⟨h.symm, _, rfl, by simp, hx', .inr ?_⟩
              rw [Bool.not_eq_true, List.all_eq_false] at hall
              obtain ⟨m, hm, hn⟩ := hall
              simp only [List.mem_filter, decide_eq_true_eq] at hm
              exact ⟨m, hm.1, hm.2, by simpa using hn⟩

theorem verifyPolicies_err {crit known : Option (List String)} {e : PyErr} : ∀ {l : List (List String)}, verifyPolicies crit known l = .error e →
    ∃ ops ∈ l, critCheck (extra policyParams ops) crit known = .error e := by
  intro l
  induction l with
  | nil => simp [verifyPolicies]
  | cons a l ih =>
    intro h
    rw [verifyPolicies] at h
    cases hc : critCheck (extra policyParams a) crit known with
    | error e' => rw [hc] at h; simp at h; subst h; exact ⟨a, by simp, hc⟩
    | ok u =>
      rw [hc] at h
      obtain ⟨ops, h1, h2⟩ := ih h
      exact ⟨ops, by simp [h1], h2⟩

/-- C60, the second half as far as it holds: a verifier that names at least one extension of each kind refuses a statement, on the ground of its critical extensions, only
if it has an unknown one; a statement that lists nothing as critical is never refused on that ground.
Missing: a verifier that names no extensions (the default) refuses every statement that lists something as critical and has an undefined claim, see
`C60_harmless_violation`. -/
theorem C60_known_not_refused_partial (known : KnownExt) (s : Statement) (h : verifyStatement (.ok ()) known s = .error .unknownCriticalExtension) :
    (s.crit ≠ none ∨ s.policyCrit ≠ none) ∧
    (known.ext.getD [] ≠ [] → known.policyExt.getD [] ≠ [] → UnknownClaim known s ∨ UnknownOperator known s) := by
  unfold verifyStatement at h
  simp only [ok_bind] at h
  cases hc : critCheck (extra statementParams s.claims) s.crit known.ext with
  | error e =>
    rw [hc] at h
    simp only [error_bind, Except.error.injEq] at h
    subst h
    rcases critCheck_err hc with ⟨h0, -⟩ | ⟨-, c, h1, -, -, h2⟩
    · cases h0
    · refine ⟨.inl (by simp [h1]), fun hk _ => .inl ?_⟩
      rcases h2 with h2 | ⟨k, h2, h3, h4⟩
      · exact absurd h2 hk
      · rw [mem_extra] at h3
        exact ⟨c, h1, k, h2, h3.1, h3.2, h4⟩
  | ok u =>
    rw [hc] at h
    simp only [ok_bind] at h
    split at h
    · simp at h
    · cases hp : s.policyCrit with
      | none => rw [hp] at h; simp at h
      | some c =>
        rw [hp] at h
        cases c with
        | nil => simp at h
        | cons a c =>
          simp only at h
          refine ⟨.inr (by simp), fun _ hk => .inr ?_⟩
          obtain ⟨ops, h1, h2⟩ := verifyPolicies_err h
          rcases critCheck_err h2 with ⟨h0, -⟩ | ⟨-, c', h3, -, -, h4⟩
          · cases h0
          · cases h3
            rcases h4 with h4 | ⟨k, h4, h5, h6⟩
            · exact absurd h4 hk
            · rw [mem_extra] at h5
              obtain ⟨⟨t, mp⟩, h7, h8⟩ := List.mem_flatMap.1 h1
              obtain ⟨⟨claim, ops'⟩, h9, h10⟩ := List.mem_map.1 h8
              simp only at h9 h10
              subst h10
              exact ⟨_, hp, k, h4, h5.2, h6, t, mp, h7, claim, _, h9, h5.1⟩

example : verifyStatement (.ok ()) { ext := some ["foo"], policyExt := some ["x"] } { claims := ["iss", "foo", "bar"], crit := some ["foo", "bar"] } =
    .error .unknownCriticalExtension := by decide

end Fed.Message
