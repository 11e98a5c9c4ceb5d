import Verif.Policy.Merged
/-
Property C236: nothing gets into the metadata of an entity that nobody in its trust chain has said. What is resolved is what `TrustChainPolicy._policy` of /repo/src/fedservice/entity/function/policy.py (358-371) makes of the statements (modelled in
`Policy/Combine` and `Policy/Operators`).
-/
namespace Fed.Policy
open Fed

/-- A value is among those that the value of a claim consists of: a member, if that is a list, or else the value itself. -/
def Part (x : Val) : Val → Prop
  | .arr xs => x ∈ xs
  | v => x = v

/-- A statement says a value for a claim of entities of a type: in the metadata it gives to the type, or in a policy that sets the claim, adds to it or gives its default. -/
def PStatement.Says (es : PStatement) (t c : String) (x : Val) : Prop :=
  (∃ md v, es.metadata.get? t = some md ∧ md.get? c = some v ∧ Part x v) ∨
  ∃ cp v, es.about t c = some cp ∧ (cp.get? "value" = some v ∨ cp.get? "add" = some v ∨ cp.get? "default" = some v) ∧ Part x v

/-- Somebody in a chain says a value: the entity itself in its metadata, or somebody above it. -/
def SaidInChain (sups : List PStatement) (leaf : PStatement) (t c : String) (x : Val) : Prop :=
  (∃ md v, leaf.metadata.get? t = some md ∧ md.get? c = some v ∧ Part x v) ∨ ∃ e ∈ sups, e.Says t c x

/-- C236 in full: every value in the metadata an entity is resolved to has been said, for that claim, by the entity or by an authority above it. -/
def C236_full : Prop :=
  ∀ (E : SetEnum Val) (K : SetEnum String) (sups : List PStatement) (leaf : PStatement) (t c : String) (m : Metadata) (v x : Val),
    policyFor E K sups leaf t = .ok (some m) → m.get? c = some v → Part x v → SaidInChain sups leaf t c x

/-- An operator that somebody uses in a policy for a claim. -/
def OperatorUsed (sups : List PStatement) (t c n : String) : Prop := ∃ e ∈ sups, ∃ cp, e.about t c = some cp ∧ n ∈ cp.keys

/-- What is true of everything that a policy can put into a claim, and of the operators it has. -/
structure Puts (P : Val → Prop) (N : String → Prop) (cp : ClaimPolicy) : Prop where
  value : ∀ v x, cp.get? "value" = some v → Part x v → P x
  add : ∀ v x, cp.get? "add" = some v → Part x v → P x
  default : ∀ v x, cp.get? "default" = some v → Part x v → P x
  names : ∀ n, (cp.get? n).isSome → N n

theorem setOrSingleton_part {v : Val} {xs : List Val} (h : setOrSingleton v = .ok xs) {x : Val} (hx : x ∈ xs) : Part x v := by
  have mk : ∀ ys : List Val, mkSet ys = .ok xs → ys = xs := by
    intro ys hy
    unfold mkSet at hy
    split at hy
    · cases hy; rfl
    · cases hy
  cases v with
  | arr ys => cases mk ys h; exact hx
  | _ => cases mk _ h; exact List.mem_singleton.1 hx

section
variable {E : SetEnum Val} {K : SetEnum String} {P : Val → Prop} {N : String → Prop}

theorem doPolicy_add_part {a b : ClaimPolicy} (ha : Puts P N a) (hb : Puts P N b) {v x : Val} (hn : "add" ∈ combPolicy a b) (h : doPolicy E a b "add" = .ok v) (hx : Part x v) : P x := by
  rw [doPolicy_setOp (by decide)] at h
  unfold doSubOneSuperAdd at h
  have hm := (mem_combPolicy.1 hn).2
  cases h1 : a.get? "add" with
  | none =>
    cases h2 : b.get? "add" with
    | none => rw [h1, h2] at hm; rcases hm with hm | hm <;> cases hm
    | some y => rw [h1, h2] at h; cases h; exact hb.add _ _ h2 hx
  | some y =>
    cases h2 : b.get? "add" with
    | none => rw [h1, h2] at h; cases h; exact ha.add _ _ h1 hx
    | some z =>
      rw [h1, h2] at h
      simp only [op2func, if_true] at h
      unfold combineAdd at h
      cases h3 : setOrSingleton y with
      | error e => rw [h3] at h; cases h
      | ok ys =>
        cases h4 : setOrSingleton z with
        | error e => rw [h3, h4] at h; cases h
        | ok zs =>
          rw [h3, h4] at h
          simp only [ok_bind, pure_bind] at h
          split at h
          · cases h
            have hx : x ∈ E.enum (ys ++ zs) := hx
            rw [E.mem_enum, List.mem_append] at hx
            rcases hx with hx | hx
            · exact ha.add _ _ h1 (setOrSingleton_part h3 hx)
            · exact hb.add _ _ h2 (setOrSingleton_part h4 hx)
          · cases h

theorem doDefault_part {a b : ClaimPolicy} (ha : Puts P N a) (hb : Puts P N b) {v x : Val} (hn : "default" ∈ combPolicy a b) (h : doPolicy E a b "default" = .ok v) (hx : Part x v) : P x := by
  have e : doPolicy E a b "default" = doDefault a b "default" := by unfold doPolicy; rw [if_neg (by decide), if_neg (by decide), if_pos rfl]
  rw [e] at h
  unfold doDefault at h
  have hm := (mem_combPolicy.1 hn).2
  cases h1 : a.get? "default" with
  | none =>
    cases h2 : b.get? "default" with
    | none => rw [h1, h2] at hm; rcases hm with hm | hm <;> cases hm
    | some y => rw [h1, h2] at h; cases h; exact hb.default _ _ h2 hx
  | some y =>
    cases h2 : b.get? "default" with
    | none => rw [h1, h2] at h; cases h; exact ha.default _ _ h1 hx
    | some z =>
      rw [h1, h2] at h
      simp only at h
      split at h
      · cases h; exact ha.default _ _ h1 hx
      · cases h

theorem doValue_part {a b : ClaimPolicy} (ha : Puts P N a) (hb : Puts P N b) {v x : Val} (hn : "value" ∈ combPolicy a b) (h : doPolicy E a b "value" = .ok v) (hx : Part x v) : P x := by
  have e : doPolicy E a b "value" = doValue a b "value" := by unfold doPolicy; rw [if_neg (by decide), if_pos rfl]
  rw [e] at h
  unfold doValue at h
  have hm := (mem_combPolicy.1 hn).2
  cases h1 : a.get? "value" with
  | none =>
    cases h2 : b.get? "value" with
    | none => rw [h1, h2] at hm; rcases hm with hm | hm <;> cases hm
    | some y => rw [h1, h2] at h; cases h; exact hb.value _ _ h2 hx
  | some y =>
    cases h2 : b.get? "value" with
    | none => rw [h1, h2] at h; cases h; exact ha.value _ _ h1 hx
    | some z =>
      rw [h1, h2] at h
      simp only at h
      split at h
      · cases h; exact ha.value _ _ h1 hx
      · cases h

theorem Puts.combined {a b r : ClaimPolicy} (ha : Puts P N a) (hb : Puts P N b) (h : combineClaimPolicy E K a b = .ok r) : Puts P N r := by
  unfold combineClaimPolicy at h
  cases hv : a.get? "value" with
  | some w =>
    rw [hv] at h
    simp only [combineFixed] at h
    split at h
    · cases h; exact ha
    · cases he : b.get? "essential" with
      | some e =>
        rw [he] at h
        simp only at h
        split at h
        · cases h
          refine ⟨?_, ?_, ?_, ?_⟩
          · intro v x h1 hx
            have : v = w := by
              rw [Dict.get?_cons, if_pos rfl] at h1
              exact (Option.some.inj h1).symm
            subst this
            exact ha.value _ _ hv hx
          · intro v x h1; exact absurd h1 (by simp [Dict.get?_cons, Dict.get?])
          · intro v x h1; exact absurd h1 (by simp [Dict.get?_cons, Dict.get?])
          · intro n h1
            rw [Dict.get?_cons] at h1
            split at h1
            · next e => rw [← e]; exact ha.names _ (by rw [hv]; rfl)
            · rw [Dict.get?_cons] at h1
              split at h1
              · next e => rw [← e]; exact hb.names _ (by rw [he]; rfl)
              · cases h1
        · cases h
      | none =>
        rw [he] at h
        simp only at h
        split at h
        · split at h
          · cases h
          · cases h; exact ha
        · cases h
  | none =>
    rw [hv] at h
    simp only at h
    obtain ⟨-, -, -, h4, h5⟩ := combineFree_ok h
    have get : ∀ n v, r.get? n = some v → n ∈ combPolicy a b ∧ doPolicy E a b n = .ok v := by
      intro n v hn
      by_cases hc : n ∈ combPolicy a b
      · obtain ⟨v', g1, g2⟩ := h4 n hc
        rw [hn] at g2
        cases g2
        exact ⟨hc, g1⟩
      · rw [h5 n hc] at hn; cases hn
    refine ⟨?_, ?_, ?_, ?_⟩
    · intro v x h1 hx; exact doValue_part ha hb (get _ _ h1).1 (get _ _ h1).2 hx
    · intro v x h1 hx; exact doPolicy_add_part ha hb (get _ _ h1).1 (get _ _ h1).2 hx
    · intro v x h1 hx; exact doDefault_part ha hb (get _ _ h1).1 (get _ _ h1).2 hx
    · intro n h1
      obtain ⟨v, h2⟩ := Option.isSome_iff_exists.1 h1
      rcases (mem_combPolicy.1 (get n v h2).1).2 with h3 | h3
      · exact ha.names n h3
      · exact hb.names n h3

/-- What a policy makes of the value of a claim. -/
theorem claimRun_part {cp : ClaimPolicy} {v w : Option Val} (hcp : Puts P N cp) (hv : ∀ y x, v = some y → Part x y → P x) (hno : ∀ n, N n → ¬ P (.str n))
    (h : claimRun E cp v = .ok w) : ∀ y x, w = some y → Part x y → P x := by
  cases hval : cp.get? "value" with
  | some z =>
    rw [claimRun_value hval] at h
    cases h
    intro y x e hx
    cases e
    exact hcp.value _ _ hval hx
  | none =>
    unfold claimRun at h
    rw [hval] at h
    simp only at h
    cases h1 : stepAdd E cp v with
    | error e => rw [h1] at h; cases h
    | ok v1 =>
      rw [h1] at h
      simp only [ok_bind] at h
      have p1 : ∀ y x, v1 = some y → Part x y → P x := by
        unfold stepAdd at h1
        cases ha : cp.get? "add" with
        | none => rw [ha] at h1; cases h1; exact hv
        | some a =>
          rw [ha] at h1
          cases v with
          | none => cases h1; intro y x e hx; cases e; exact hcp.add _ _ ha hx
          | some u =>
            simp only [union] at h1
            cases h3 : setOrSingleton u with
            | error e => rw [h3] at h1; cases h1
            | ok ys =>
              cases h4 : setOrSingleton a with
              | error e => rw [h3, h4] at h1; cases h1
              | ok zs =>
                rw [h3, h4] at h1
                cases h1
                intro y x e hx
                cases e
                have hx : x ∈ E.enum (ys ++ zs) := hx
                rw [E.mem_enum, List.mem_append] at hx
                rcases hx with hx | hx
                · exact hv u x rfl (setOrSingleton_part h3 hx)
                · exact hcp.add _ _ ha (setOrSingleton_part h4 hx)
      have p2 : ∀ y x, stepDefault cp v1 = some y → Part x y → P x := by
        intro y x e hx
        unfold stepDefault at e
        cases v1 with
        | none => exact hcp.default _ _ e hx
        | some u => exact p1 y x e hx
      cases h2 : stepOneOf cp (stepDefault cp v1) with
      | error e => rw [h2] at h; cases h
      | ok jump =>
        rw [h2] at h
        simp only [ok_bind] at h
        split at h
        · cases h; exact p2
        · cases h3 : stepSubset E cp (stepDefault cp v1) with
          | error e => rw [h3] at h; cases h
          | ok v3 =>
            rw [h3] at h
            simp only [ok_bind] at h
            have hw : w = v3 := by
              cases h4 : stepSuperset cp v3 with
              | error e => rw [h4] at h; cases h
              | ok _ =>
                rw [h4] at h
                simp only [ok_bind] at h
                cases h5 : stepEssential cp v3 with
                | error e => rw [h5] at h; cases h
                | ok _ => rw [h5] at h; cases h; rfl
            subst hw
            unfold stepSubset at h3
            cases hs : cp.get? "subset_of" with
            | none => rw [hs] at h3; cases h3; exact p2
            | some l =>
              rw [hs] at h3
              cases h6 : stepDefault cp v1 with
              | none => rw [h6] at h3; cases h3; intro y x e; cases e
              | some u =>
                rw [h6] at h3 p2
                have scalar : ∀ (hna : ∀ xs, u ≠ .arr xs), (if u.hashable then
                    if cp.keys.any (fun k => decide (Val.str k = u)) then
                      if u.truthy then (do let cs ← pyIter u; pure (some (.arr cs))) else throw PyErr.policyError
                    else throw PyErr.policyError
                  else throw PyErr.typeError) = Except.ok w → False := by
                  intro hna h7
                  split at h7
                  · split at h7
                    · next hk =>
                      rw [List.any_eq_true] at hk
                      obtain ⟨k, hk1, hk2⟩ := hk
                      rw [decide_eq_true_eq] at hk2
                      refine hno k (hcp.names k ((Dict.mem_keys_iff _ _).1 hk1)) (p2 u _ rfl ?_)
                      rw [← hk2]
                      rfl
                    · cases h7
                  · cases h7
                cases u with
                | arr xs =>
                  simp only at h3
                  cases h7 : pySet l with
                  | error e => rw [h7] at h3; cases h3
                  | ok as =>
                    cases h8 : mkSet xs with
                    | error e => rw [h7, h8] at h3; cases h3
                    | ok bs =>
                      rw [h7, h8] at h3
                      simp only [ok_bind] at h3
                      split at h3
                      · cases h3
                      · cases h3
                        intro y x e hx
                        cases e
                        have hx : x ∈ E.enum (inter as bs) := hx
                        rw [E.mem_enum, mem_inter] at hx
                        refine p2 _ x rfl ?_
                        exact setOrSingleton_part (v := .arr xs) h8 hx.2
                | _ => exact (scalar (fun xs e => by cases e) h3).elim

theorem gathered_metadata {t c : String} {Q : Val → Prop} {l : List PStatement} {R R' : Rule} (hl : ∀ e ∈ l, ∀ v, (e.rule t).metadata.get? c = some v → Q v)
    (hR : ∀ v, R.metadata.get? c = some v → Q v) (h : gatherRest E K t l R = .ok R') : ∀ v, R'.metadata.get? c = some v → Q v := by
  induction l generalizing R with
  | nil => cases h; exact hR
  | cons e l ih =>
    obtain ⟨r1, h1, h2⟩ := gatherRest_cons h
    refine ih (fun e he => hl e (List.mem_cons_of_mem _ he)) ?_ h1
    rcases h2 with ⟨-, rfl⟩ | ⟨-, -, h2⟩
    · exact hR
    · obtain ⟨c1, -, -⟩ := combine_ok h2
      intro v hv
      rw [c1 c] at hv
      cases hs : (e.rule t).metadata.get? c with
      | none => rw [hs] at hv; exact hR v hv
      | some w => rw [hs] at hv; cases hv; exact hl e (List.mem_cons_self ..) _ hs
end

theorem rule_metadata_said {es : PStatement} {t c : String} {v x : Val} (h : (es.rule t).metadata.get? c = some v) (hx : Part x v) : es.Says t c x := by
  unfold PStatement.rule at h
  cases hm : es.metadata.get? t with
  | none => rw [hm] at h; cases h
  | some md => rw [hm] at h; exact Or.inl ⟨md, v, hm, h, hx⟩

/-- C236, as far as it holds: unless somebody says, as a value of the claim, the name of an operator used in the policies for it. -/
theorem C236_said_partial (E : SetEnum Val) (K : SetEnum String) (sups : List PStatement) (leaf : PStatement) (t c : String) (m : Metadata) (v x : Val)
    (hno : ∀ n, OperatorUsed sups t c n → ¬ SaidInChain sups leaf t c (.str n)) (h : policyFor E K sups leaf t = .ok (some m)) (hc : m.get? c = some v) (hx : Part x v) :
    SaidInChain sups leaf t c x := by
  unfold policyFor at h
  cases hR : gatherPolicies E K sups t with
  | error e => rw [hR] at h; cases h
  | ok R =>
    rw [hR] at h
    simp only [ok_bind] at h
    cases hl : leaf.metadata.get? t with
    | none => rw [hl] at h; cases h
    | some md =>
      rw [hl] at h
      simp only at h
      cases ha : applyPolicy E K md R with
      | error e => rw [ha] at h; cases h
      | ok m' =>
        rw [ha] at h
        cases h
        cases sups with
        | nil => cases hR
        | cons e0 rest =>
          have hputs : ∀ e ∈ e0 :: rest, ∀ cp, (e.rule t).policy.get? c = some cp → Puts (SaidInChain (e0 :: rest) leaf t c) (OperatorUsed (e0 :: rest) t c) cp := by
            intro e he cp hcp
            rw [about_rule] at hcp
            refine ⟨?_, ?_, ?_, ?_⟩
            · intro v x h1 hx; exact Or.inr ⟨e, he, Or.inr ⟨cp, v, hcp, Or.inl h1, hx⟩⟩
            · intro v x h1 hx; exact Or.inr ⟨e, he, Or.inr ⟨cp, v, hcp, Or.inr (Or.inl h1), hx⟩⟩
            · intro v x h1 hx; exact Or.inr ⟨e, he, Or.inr ⟨cp, v, hcp, Or.inr (Or.inr h1), hx⟩⟩
            · intro n h1; exact ⟨e, he, cp, hcp, (Dict.mem_keys_iff _ _).2 h1⟩
          have hmd : ∀ e ∈ e0 :: rest, ∀ v, (e.rule t).metadata.get? c = some v → ∀ x, Part x v → SaidInChain (e0 :: rest) leaf t c x := by
            intro e he v h1 x hx
            exact Or.inr ⟨e, he, rule_metadata_said h1 hx⟩
          have gp := gathered_keeps (Q := Puts (SaidInChain (e0 :: rest) leaf t c) (OperatorUsed (e0 :: rest) t c)) (fun _ _ _ h1 h2 h3 => h1.combined h2 h3)
            (fun e he => hputs e (List.mem_cons_of_mem _ he)) (hputs e0 (List.mem_cons_self ..)) hR
          have gm := gathered_metadata (Q := fun v => ∀ x, Part x v → SaidInChain (e0 :: rest) leaf t c x)
            (fun e he => hmd e (List.mem_cons_of_mem _ he)) (hmd e0 (List.mem_cons_self ..)) hR
          have hstart : ∀ y x, declared md R c = some y → Part x y → SaidInChain (e0 :: rest) leaf t c x := by
            intro y x h1 hx
            unfold declared at h1
            cases h2 : md.get? c with
            | some z => rw [h2] at h1; cases h1; exact Or.inl ⟨md, _, hl, h2, hx⟩
            | none => rw [h2] at h1; exact gm y h1 x hx
          have hres := applyPolicy_ok E K ha c
          rw [declared_eq, claimRes] at hres
          cases hp : R.policy.get? c with
          | none =>
            rw [hp] at hres
            simp only [Except.ok.injEq] at hres
            exact hstart v x (hres.trans hc) hx
          | some cp =>
            rw [hp] at hres
            exact claimRun_part (gp cp hp) hstart hno hres v x hc hx

namespace Ex236
/-- An authority that adds a contact, and one that gives a default. -/
def adds : PStatement := ⟨[("op", [("org", Ex.s "A")])], [("op", [("contacts", [("add", Ex.strs ["ops@a"])]), ("alg", [("default", Ex.s "y")])])]⟩
def me : PStatement := ⟨[("op", [("contacts", Ex.strs ["me@b"])])], []⟩
/-- Allows one scope. -/
def one : PStatement := ⟨[], [("op", [("scopes", [("subset_of", Ex.strs ["a"])])])]⟩
/-- Has a scope, not in a list, that is called like an operator. -/
def odd : PStatement := ⟨[("op", [("scopes", Ex.s "subset_of")])], []⟩
end Ex236

/-- The contact that was added was said by the authority. -/
example : SaidInChain [Ex236.adds, Ex.ta] Ex236.me "op" "contacts" (Ex.s "ops@a") := by
  have h : policyFor Ex.E Ex.K [Ex236.adds, Ex.ta] Ex236.me "op" =
      .ok (some [("org", Ex.s "A"), ("contacts", Ex.strs ["me@b", "ops@a"]), ("alg", Ex.s "y")]) := by decide +kernel
  refine C236_said_partial Ex.E Ex.K [Ex236.adds, Ex.ta] Ex236.me "op" "contacts" _ (Ex.strs ["me@b", "ops@a"]) (Ex.s "ops@a") ?_ h (by decide +kernel) (by simp [Ex.strs, Ex.s, Part])
  rintro n ⟨e, he, cp, hcp, hn⟩
  have e1 : Ex236.adds.about "op" "contacts" = some [("add", Ex.strs ["ops@a"])] := by decide +kernel
  have e2 : Ex.ta.about "op" "contacts" = none := by decide +kernel
  have hn' : n = "add" := by
    simp only [List.mem_cons, List.not_mem_nil, or_false] at he
    rcases he with rfl | rfl
    · rw [e1] at hcp; cases hcp; simpa [Dict.keys] using hn
    · rw [e2] at hcp; cases hcp
  subst hn'
  rintro (⟨md, v, h1, h2, h3⟩ | ⟨e, he, ⟨md, v, h1, h2, h3⟩ | ⟨cp, v, h1, h2, h3⟩⟩)
  · have : Ex236.me.metadata.get? "op" = some [("contacts", Ex.strs ["me@b"])] := by decide +kernel
    rw [this] at h1; cases h1
    have : Dict.get? [("contacts", Ex.strs ["me@b"])] "contacts" = some (Ex.strs ["me@b"]) := by decide +kernel
    rw [this] at h2; cases h2
    simp [Ex.strs, Part] at h3
  · simp only [List.mem_cons, List.not_mem_nil, or_false] at he
    rcases he with rfl | rfl <;>
    · have : Dict.get? [("org", Ex.s "A")] "contacts" = none := by decide +kernel
      have e3 : md = [("org", Ex.s "A")] := by
        revert h1; simp [Ex236.adds, Ex.ta, Dict.get?]; exact fun h => h.symm
      rw [e3, this] at h2; cases h2
  · simp only [List.mem_cons, List.not_mem_nil, or_false] at he
    rcases he with rfl | rfl
    · rw [e1] at h1; cases h1
      have f1 : Dict.get? [("add", Ex.strs ["ops@a"])] "value" = none := by decide +kernel
      have f2 : Dict.get? [("add", Ex.strs ["ops@a"])] "add" = some (Ex.strs ["ops@a"]) := by decide +kernel
      have f3 : Dict.get? [("add", Ex.strs ["ops@a"])] "default" = none := by decide +kernel
      rw [f1, f2, f3] at h2
      rcases h2 with h2 | h2 | h2
      · cases h2
      · cases h2; simp [Ex.strs, Part] at h3
      · cases h2
    · rw [e2] at h1; cases h1

/-- C236 is violated: a value that is not a list and is called like an operator in the policy for its claim is taken apart into its characters. -/
theorem C236_characters_violation : ¬ C236_full := by
  intro h
  have h1 : policyFor Ex.E Ex.K [Ex236.one] Ex236.odd "op" = .ok (some [("scopes", Ex.strs ["s", "u", "b", "s", "e", "t", "_", "o", "f"])]) := by decide +kernel
  have := h Ex.E Ex.K [Ex236.one] Ex236.odd "op" "scopes" _ _ (Ex.s "u") h1 (by rfl) (by simp [Ex.strs, Ex.s, Part])
  have e1 : Ex236.one.about "op" "scopes" = some [("subset_of", Ex.strs ["a"])] := by decide +kernel
  rcases this with ⟨md, v, h1, h2, h3⟩ | ⟨e, he, h⟩
  · have : Ex236.odd.metadata.get? "op" = some [("scopes", Ex.s "subset_of")] := by decide +kernel
    rw [this] at h1; cases h1
    have : Dict.get? [("scopes", Ex.s "subset_of")] "scopes" = some (Ex.s "subset_of") := by decide +kernel
    rw [this] at h2; cases h2
    exact absurd (show Ex.s "u" = Ex.s "subset_of" from h3) (by decide)
  · rw [List.mem_singleton] at he
    subst he
    rcases h with ⟨md, v, h1, -⟩ | ⟨cp, v, h1, h2, -⟩
    · cases h1
    · rw [e1] at h1; cases h1
      have f1 : Dict.get? [("subset_of", Ex.strs ["a"])] "value" = none := by decide +kernel
      have f2 : Dict.get? [("subset_of", Ex.strs ["a"])] "add" = none := by decide +kernel
      have f3 : Dict.get? [("subset_of", Ex.strs ["a"])] "default" = none := by decide +kernel
      rw [f1, f2, f3] at h2
      rcases h2 with h2 | h2 | h2 <;> cases h2

end Fed.Policy
