import Verif.Policy.CombineProps
/-
Property C193: policies are about one claim each. What is resolved for a claim, and whether a claim is the reason for refusing a chain, depends on nothing that is said about other claims or other types of entities.
-/
namespace Fed.Policy
open Fed

/-- Two statements say the same about claim `c` of entities of type `t`: the same value, if any, and the same policy, if any. -/
def SayTheSame (t c : String) (es es' : PStatement) : Prop :=
  (es.rule t).metadata.get? c = (es'.rule t).metadata.get? c ∧ (es.rule t).policy.get? c = (es'.rule t).policy.get? c

/-- Two chains that, statement by statement, say the same about claim `c` of entities of type `t`. -/
inductive SameAbout (t c : String) : List PStatement → List PStatement → Prop
  | nil : SameAbout t c [] []
  | cons {es es' l l'} : SayTheSame t c es es' → SameAbout t c l l' → SameAbout t c (es :: l) (es' :: l')

theorem SameAbout.symm {t c : String} {l l' : List PStatement} (h : SameAbout t c l l') : SameAbout t c l' l := by
  induction h with
  | nil => exact .nil
  | cons h1 _ ih => exact .cons ⟨h1.1.symm, h1.2.symm⟩ ih

/-- Two rules that are the same for claim `c`. -/
def RuleSame (c : String) (r r' : Rule) : Prop := r.metadata.get? c = r'.metadata.get? c ∧ r.policy.get? c = r'.policy.get? c

theorem combinedClaim_fun {E : SetEnum Val} {K : SetEnum String} {a b r r' : Option ClaimPolicy} (h : CombinedClaim E K a b r) (h' : CombinedClaim E K a b r') : r = r' := by
  cases a with
  | none => exact Eq.trans h (Eq.symm h')
  | some a =>
    cases b with
    | none => exact Eq.trans h (Eq.symm h')
    | some b =>
      obtain ⟨p, h1, h2⟩ := h
      obtain ⟨p', h1', h2'⟩ := h'
      rw [h1] at h1'
      cases h1'
      rw [h2, h2']

theorem combine_same {E : SetEnum Val} {K : SetEnum String} {c : String} {s s' u u' r r' : Rule} (hs : RuleSame c s s') (hu : RuleSame c u u') (h : combine E K s u = .ok r) (h' : combine E K s' u' = .ok r') :
    RuleSame c r r' := by
  obtain ⟨m, _, p⟩ := combine_ok h
  obtain ⟨m', _, p'⟩ := combine_ok h'
  refine ⟨?_, ?_⟩
  · rw [m c, m' c, hs.1, hu.1]
  · have q := p c
    rw [hs.2, hu.2] at q
    exact combinedClaim_fun q (p' c)

/-- A combination that is refused is refused because of some claim. -/
theorem combine_refused {E : SetEnum Val} {K : SetEnum String} {s u : Rule} {e : PyErr} (h : combine E K s u = .error e) :
    ∃ c, ∀ s' u' r', RuleSame c s s' → RuleSame c u u' → combine E K s' u' ≠ .ok r' := by
  rcases combine_error h with ⟨k, x, y, hx, hy, hne⟩ | ⟨k, a, b, ha, hb, he⟩
  · refine ⟨k, fun s' u' r' hs hu h' => ?_⟩
    obtain ⟨_, q, _⟩ := combine_ok h'
    exact hne (q k x y (hs.1 ▸ hx) (hu.1 ▸ hy))
  · refine ⟨k, fun s' u' r' hs hu h' => ?_⟩
    obtain ⟨_, _, q⟩ := combine_ok h'
    have q := q k
    rw [← hs.2, ← hu.2, ha, hb] at q
    obtain ⟨p, hp, _⟩ := q
    rw [he] at hp
    cases hp

/-- A statement with nothing for the type changes nothing, in the same way as one that is combined. -/
theorem combine_nothing {c : String} {E : SetEnum Val} {K : SetEnum String} {s s' u r' : Rule} (hs : RuleSame c s s') (hu : RuleSame c ⟨[], []⟩ u) (h' : combine E K s' u = .ok r') : RuleSame c s r' := by
  obtain ⟨m', _, p'⟩ := combine_ok h'
  have hm : u.metadata.get? c = none := hu.1.symm
  have hp : u.policy.get? c = none := hu.2.symm
  refine ⟨?_, ?_⟩
  · rw [m' c, hm, hs.1]; rfl
  · have q := p' c
    rw [hp] at q
    rw [hs.2]
    cases h1 : s'.policy.get? c with
    | none => rw [h1] at q; exact q.symm
    | some a => rw [h1] at q; exact q.symm

theorem RuleSame.symm {c : String} {r r' : Rule} (h : RuleSame c r r') : RuleSame c r' r := ⟨h.1.symm, h.2.symm⟩

/-- One step of the loop that gathers policies. -/
theorem gatherRest_cons {E : SetEnum Val} {K : SetEnum String} {t : String} {es : PStatement} {l : List PStatement} {r R : Rule} (h : gatherRest E K t (es :: l) r = .ok R) :
    ∃ r1, gatherRest E K t l r1 = .ok R ∧ (es.rule t = ⟨[], []⟩ ∧ r1 = r ∨
      es.rule t ≠ ⟨[], []⟩ ∧ (∀ c, c ∈ (es.rule t).policy.keys → c ∉ (es.rule t).metadata.keys) ∧ combine E K r (es.rule t) = .ok r1) := by
  unfold gatherRest at h
  simp only at h
  by_cases h1 : es.rule t = ⟨[], []⟩
  · rw [if_pos h1] at h
    exact ⟨r, h, Or.inl ⟨h1, rfl⟩⟩
  · rw [if_neg h1] at h
    by_cases h2 : ((es.rule t).policy.keys.any fun c => decide (c ∈ (es.rule t).metadata.keys)) = true
    · rw [if_pos h2] at h; cases h
    · rw [if_neg h2] at h
      cases h3 : combine E K r (es.rule t) with
      | error e => rw [h3] at h; cases h
      | ok r1 =>
        rw [h3, ok_bind] at h
        refine ⟨r1, h, Or.inr ⟨h1, ?_, rfl⟩⟩
        intro c hc hm
        exact h2 (List.any_eq_true.2 ⟨c, hc, decide_eq_true hm⟩)

theorem gatherRest_same {E : SetEnum Val} {K : SetEnum String} {t c : String} {l l' : List PStatement} (hl : SameAbout t c l l') :
    ∀ {r r' R R' : Rule}, RuleSame c r r' → gatherRest E K t l r = .ok R → gatherRest E K t l' r' = .ok R' → RuleSame c R R' := by
  induction hl with
  | nil =>
    intro r r' R R' hr h h'
    cases h
    cases h'
    exact hr
  | cons he _ ih =>
    intro r r' R R' hr h h'
    obtain ⟨r1, g1, s1⟩ := gatherRest_cons h
    obtain ⟨r2, g2, s2⟩ := gatherRest_cons h'
    refine ih ?_ g1 g2
    rcases s1 with ⟨e1, rfl⟩ | ⟨_, _, c1⟩
    · rcases s2 with ⟨e2, rfl⟩ | ⟨_, _, c2⟩
      · exact hr
      · have hu := he
        unfold SayTheSame at hu
        rw [e1] at hu
        exact combine_nothing hr hu c2
    · rcases s2 with ⟨e2, rfl⟩ | ⟨_, _, c2⟩
      · have hu : SayTheSame t c _ _ := ⟨he.1.symm, he.2.symm⟩
        unfold SayTheSame at hu
        rw [e2] at hu
        exact (combine_nothing hr.symm hu c1).symm
      · exact combine_same hr he c1 c2

theorem gatherRest_refused {E : SetEnum Val} {K : SetEnum String} {t : String} : ∀ {l : List PStatement} {r : Rule} {e : PyErr}, gatherRest E K t l r = .error e →
    ∃ c, ∀ l' r' R', SameAbout t c l l' → RuleSame c r r' → gatherRest E K t l' r' ≠ .ok R' := by
  intro l
  induction l with
  | nil => intro r e h; cases h
  | cons es l ih =>
    intro r e h
    unfold gatherRest at h
    simp only at h
    by_cases h1 : es.rule t = ⟨[], []⟩
    · rw [if_pos h1] at h
      obtain ⟨c, hc⟩ := ih h
      refine ⟨c, fun l' r' R' hl hr h' => ?_⟩
      cases hl with
      | cons he hl =>
        obtain ⟨r2, g2, s2⟩ := gatherRest_cons h'
        refine hc _ r2 R' hl ?_ g2
        rcases s2 with ⟨_, rfl⟩ | ⟨_, _, c2⟩
        · exact hr
        · have hu := he
          unfold SayTheSame at hu
          rw [h1] at hu
          exact combine_nothing hr hu c2
    · rw [if_neg h1] at h
      by_cases h2 : ((es.rule t).policy.keys.any fun c => decide (c ∈ (es.rule t).metadata.keys)) = true
      · obtain ⟨c, hc, hm⟩ := List.any_eq_true.1 h2
        have hm := of_decide_eq_true hm
        refine ⟨c, fun l' r' R' hl hr h' => ?_⟩
        cases hl with
        | cons he hl =>
          obtain ⟨x, hx⟩ := (Dict.mem_keys_iff_exists _ _).1 hc
          obtain ⟨y, hy⟩ := (Dict.mem_keys_iff_exists _ _).1 hm
          rw [he.2] at hx
          rw [he.1] at hy
          obtain ⟨r2, g2, s2⟩ := gatherRest_cons h'
          rcases s2 with ⟨e2, _⟩ | ⟨_, n2, _⟩
          · rw [e2] at hx; cases hx
          · exact n2 c ((Dict.mem_keys_iff_exists _ _).2 ⟨x, hx⟩) ((Dict.mem_keys_iff_exists _ _).2 ⟨y, hy⟩)
      · rw [if_neg h2] at h
        cases h3 : combine E K r (es.rule t) with
        | error e' =>
          obtain ⟨c, hc⟩ := combine_refused h3
          refine ⟨c, fun l' r' R' hl hr h' => ?_⟩
          cases hl with
          | cons he hl =>
            obtain ⟨r2, g2, s2⟩ := gatherRest_cons h'
            rcases s2 with ⟨e2, rfl⟩ | ⟨_, _, c2⟩
            · have hn : RuleSame c (es.rule t) ⟨[], []⟩ := by
                have hu := he
                unfold SayTheSame at hu
                rw [e2] at hu
                exact hu
              have : combine E K r2 ⟨[], []⟩ = .ok r2 := by
                unfold combine combineMetadata
                simp only [List.isEmpty_nil, if_true, ok_bind, ite_self]
                rfl
              exact hc _ _ _ hr hn this
            · exact hc _ _ _ hr he c2
        | ok r1 =>
          rw [h3, ok_bind] at h
          obtain ⟨c, hc⟩ := ih h
          refine ⟨c, fun l' r' R' hl hr h' => ?_⟩
          cases hl with
          | cons he hl =>
            obtain ⟨r2, g2, s2⟩ := gatherRest_cons h'
            refine hc _ r2 R' hl ?_ g2
            rcases s2 with ⟨e2, rfl⟩ | ⟨_, _, c2⟩
            · have hu : SayTheSame t c _ _ := ⟨he.1.symm, he.2.symm⟩
              unfold SayTheSame at hu
              rw [e2] at hu
              exact (combine_nothing hr.symm hu h3).symm
            · exact combine_same hr he h3 c2

theorem gatherPolicies_same {E : SetEnum Val} {K : SetEnum String} {t c : String} {l l' : List PStatement} {R R' : Rule} (hl : SameAbout t c l l') (h : gatherPolicies E K l t = .ok R)
    (h' : gatherPolicies E K l' t = .ok R') : RuleSame c R R' := by
  cases hl with
  | nil => cases h
  | cons he hl => exact gatherRest_same hl he h h'

/-- C193: what is resolved for a claim depends only on what the statements, and the entity itself, say about that claim. -/
theorem C193_value (E : SetEnum Val) (K : SetEnum String) (sups sups' : List PStatement) (leaf leaf' : PStatement) (t c : String) (m m' : Metadata) (hs : SameAbout t c sups sups')
    (hl : (leaf.rule t).metadata.get? c = (leaf'.rule t).metadata.get? c) (h : policyFor E K sups leaf t = .ok (some m)) (h' : policyFor E K sups' leaf' t = .ok (some m')) :
    m.get? c = m'.get? c := by
  obtain ⟨R, md, g, gl, ga⟩ := policyFor_inv h
  obtain ⟨R', md', g', gl', ga'⟩ := policyFor_inv h'
  have hr := gatherPolicies_same hs g g'
  have a := applyPolicy_ok E K ga c
  have a' := applyPolicy_ok E K ga' c
  have hmd : md.get? c = md'.get? c := by
    unfold PStatement.rule at hl
    rw [gl, gl'] at hl
    exact hl
  have hst : startValue md R c = startValue md' R' c := by
    unfold startValue
    rw [hmd, hr.1]
  unfold claimRes at a a'
  rw [hr.2, hst] at a
  rw [a] at a'
  exact Except.ok.inj a'

/-- C193: a chain that is refused is refused because of one claim: as long as the same is said about that claim, nothing that is said about other claims, or left out, makes the chain acceptable. -/
theorem C193_refused (E : SetEnum Val) (K : SetEnum String) (sups : List PStatement) (leaf : PStatement) (t : String) (e : PyErr) (hne : sups ≠ []) (h : policyFor E K sups leaf t = .error e) :
    ∃ c, ∀ sups' leaf' m', SameAbout t c sups sups' → (leaf.rule t).metadata.get? c = (leaf'.rule t).metadata.get? c → policyFor E K sups' leaf' t ≠ .ok (some m') := by
  unfold policyFor at h
  cases hg : gatherPolicies E K sups t with
  | error e' =>
    cases sups with
    | nil => exact absurd rfl hne
    | cons es l =>
      obtain ⟨c, hc⟩ := gatherRest_refused hg
      refine ⟨c, fun sups' leaf' m' hs hl h' => ?_⟩
      obtain ⟨R', md', g', _, _⟩ := policyFor_inv h'
      cases hs with
      | cons he hl => exact hc _ _ _ hl he g'
  | ok R =>
    rw [hg, ok_bind] at h
    cases hm : leaf.metadata.get? t with
    | none => rw [hm] at h; cases h
    | some md =>
      rw [hm] at h
      simp only at h
      cases ha : applyPolicy E K md R with
      | ok md1 => rw [ha, ok_bind] at h; cases h
      | error e1 =>
        obtain ⟨c, _, hc⟩ := applyPolicy_error E K ha
        refine ⟨c, fun sups' leaf' m' hs hl h' => ?_⟩
        obtain ⟨R', md', g', gl', ga'⟩ := policyFor_inv h'
        have hr := gatherPolicies_same hs hg g'
        have a' := applyPolicy_ok E K ga' c
        have hmd : md.get? c = md'.get? c := by
          unfold PStatement.rule at hl
          rw [hm, gl'] at hl
          exact hl
        have hst : startValue md R c = startValue md' R' c := by
          unfold startValue
          rw [hmd, hr.1]
        unfold claimRes at hc a'
        rw [hr.2, hst] at hc
        rw [hc] at a'
        cases a'

theorem gatherRest_map {E : SetEnum Val} {K : SetEnum String} {t : String} : ∀ {l l' : List PStatement} {r : Rule}, l.map (PStatement.rule · t) = l'.map (PStatement.rule · t) →
    gatherRest E K t l r = gatherRest E K t l' r := by
  intro l
  induction l with
  | nil =>
    intro l' r h
    cases l' with
    | nil => rfl
    | cons a b => cases h
  | cons es l ih =>
    intro l' r h
    cases l' with
    | nil => cases h
    | cons es' l' =>
      simp only [List.map_cons, List.cons.injEq] at h
      unfold gatherRest
      simp only [h.1]
      by_cases h1 : es'.rule t = ⟨[], []⟩
      · rw [if_pos h1, if_pos h1]
        exact ih h.2
      · rw [if_neg h1, if_neg h1]
        by_cases h2 : ((es'.rule t).policy.keys.any fun c => decide (c ∈ (es'.rule t).metadata.keys)) = true
        · rw [if_pos h2, if_pos h2]
        · rw [if_neg h2, if_neg h2]
          cases combine E K r (es'.rule t) with
          | error e => rfl
          | ok r1 => exact ih h.2

theorem policyFor_map {E : SetEnum Val} {K : SetEnum String} {t : String} {l l' : List PStatement} {leaf leaf' : PStatement} (h : l.map (PStatement.rule · t) = l'.map (PStatement.rule · t))
    (hl : leaf.metadata.get? t = leaf'.metadata.get? t) : policyFor E K l leaf t = policyFor E K l' leaf' t := by
  have hg : gatherPolicies E K l t = gatherPolicies E K l' t := by
    cases l with
    | nil =>
      cases l' with
      | nil => rfl
      | cons a b => cases h
    | cons es l =>
      cases l' with
      | nil => cases h
      | cons es' l' =>
        simp only [List.map_cons, List.cons.injEq] at h
        unfold gatherPolicies
        simp only [h.1]
        exact gatherRest_map h.2
  unfold policyFor
  rw [hg, hl]

theorem policyForTypes_ok {E : SetEnum Val} {K : SetEnum String} {l : List PStatement} {leaf : PStatement} : ∀ {ts : List String} {d : Dict (Option Metadata)}, policyForTypes E K l leaf ts = .ok d →
    ∀ t ∈ ts, ∃ m, d.get? t = some m ∧ policyFor E K l leaf t = .ok m := by
  intro ts
  induction ts with
  | nil => intro d _ t ht; cases ht
  | cons a ts ih =>
    intro d h t ht
    unfold policyForTypes at h
    cases h1 : policyFor E K l leaf a with
    | error e => rw [h1] at h; cases h
    | ok m =>
      rw [h1, ok_bind] at h
      cases h2 : policyForTypes E K l leaf ts with
      | error e => rw [h2] at h; cases h
      | ok rest =>
        rw [h2, ok_bind] at h
        cases h
        by_cases hta : a = t
        · subst hta
          exact ⟨m, by rw [Dict.get?_cons, if_pos rfl], h1⟩
        · rcases List.mem_cons.1 ht with rfl | ht
          · exact absurd rfl hta
          · obtain ⟨m', g1, g2⟩ := ih h2 t ht
            exact ⟨m', by rw [Dict.get?_cons, if_neg hta]; exact g1, g2⟩

/-- C193: what is resolved for one type of entity depends only on what is said about that type, whatever is said about the other types the entity is of. -/
theorem C193_types (E : SetEnum Val) (K : SetEnum String) (sups sups' : List PStatement) (leaf leaf' : PStatement) (t : String) (d d' : Dict (Option Metadata))
    (hs : sups.map (PStatement.rule · t) = sups'.map (PStatement.rule · t)) (hl : leaf.metadata.get? t = leaf'.metadata.get? t) (ht : t ∈ leaf.metadata.keys)
    (h : callPolicy E K sups leaf none = .ok d) (h' : callPolicy E K sups' leaf' none = .ok d') : d.get? t = d'.get? t := by
  have ht' : t ∈ leaf'.metadata.keys := by
    obtain ⟨v, hv⟩ := (Dict.mem_keys_iff_exists _ _).1 ht
    exact (Dict.mem_keys_iff_exists _ _).2 ⟨v, by rw [← hl]; exact hv⟩
  obtain ⟨m, g1, g2⟩ := policyForTypes_ok h t ht
  obtain ⟨m', g1', g2'⟩ := policyForTypes_ok h' t ht'
  rw [policyFor_map hs hl, g2'] at g2
  cases g2
  rw [g1, g1']

/-! The cases: the chain of C14, and the same chain with policies about other claims and another type. -/
namespace Ex
def im' : PStatement := ⟨[("op", [("city", s "C")]), ("rp", [("x", s "y")])], [("op", [("scopes", [("superset_of", strs ["a"])]), ("alg", [("value", s "q")])])]⟩
def imA : PStatement := ⟨[("op", [("city", s "B")])], [("op", [("scopes", [("superset_of", strs ["a"])]), ("alg", [("one_of", strs ["x", "y"])])])]⟩
end Ex
open Ex

example : SameAbout "op" "scopes" [ta, imA] [ta, im'] := .cons ⟨rfl, rfl⟩ (.cons ⟨by decide, by decide⟩ .nil)
example : (match policyFor Ex.E Ex.K [ta, imA] lf "op" with | .ok (some m) => m.get? "scopes" | _ => none) = some (strs ["a", "b"]) := by decide +kernel
example : (match policyFor Ex.E Ex.K [ta, im'] lf "op" with | .ok (some m) => m.get? "scopes" | _ => none) = some (strs ["a", "b"]) := by decide +kernel
example : ∃ e, policyFor Ex.E Ex.K [ta, im'] ⟨[("op", [("scopes", strs ["d"])])], []⟩ "op" = .error e := ⟨.policyError, by decide +kernel⟩
example : [ta, imA].map (PStatement.rule · "rp") = [ta, ⟨[], []⟩].map (PStatement.rule · "rp") := by decide

end Fed.Policy
