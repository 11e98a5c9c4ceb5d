import Verif.Policy.Narrowed
/-
Property C227: an entity that declares further values of its list claims loses nothing by it: what was accepted is accepted, and every value that was left to it is left to it.
-/
namespace Fed.Policy
open Fed

/-! ## What is claimed -/

/-- The same value, or a list with further values, which are neither lists nor objects. -/
def Extended (v v' : Option Val) : Prop :=
  v = v' ∨ ∃ xs ys, v = some (.arr xs) ∧ v' = some (.arr ys) ∧ (∀ x ∈ xs, x ∈ ys) ∧ ∀ y ∈ ys, y ∈ xs ∨ y.hashable = true

/-- The entity `leaf'` declares what `leaf` declares, with further values in some lists. -/
structure DeclaresMore (leaf leaf' : PStatement) : Prop where
  types : leaf'.metadata.keys = leaf.metadata.keys
  claims : ∀ t md, leaf.metadata.get? t = some md → ∃ md', leaf'.metadata.get? t = some md' ∧ ∀ c, Extended (md.get? c) (md'.get? c)

/-! ## One claim -/

theorem Extended.refl (v : Option Val) : Extended v v := Or.inl rfl

theorem Extended.set {xs ys : List Val} (hm : ∀ y ∈ ys, y ∈ xs ∨ y.hashable = true) (hx : mkSet xs = .ok xs) : mkSet ys = .ok ys := by
  refine mkSet_of fun y hy => ?_
  rcases hm y hy with h | h
  · exact (mkSet_ok hx).2 y h
  · exact h

theorem stepAdd_extended {E : SetEnum Val} {cp : ClaimPolicy} {v v' v1 : Option Val} (he : Extended v v') (h : stepAdd E cp v = .ok v1) : ∃ v1', stepAdd E cp v' = .ok v1' ∧ Extended v1 v1' := by
  rcases he with rfl | ⟨xs, ys, rfl, rfl, hs, hm⟩
  · exact ⟨v1, h, .refl _⟩
  · rcases stepAdd_ok h with ⟨hn, rfl⟩ | ⟨_, _, hc, _⟩ | ⟨a, x, u, ha, hx, hu, rfl⟩
    · exact ⟨_, by unfold stepAdd; rw [hn], Or.inr ⟨xs, ys, rfl, rfl, hs, hm⟩⟩
    · cases hc
    · cases hx
      obtain ⟨p, q, hp, hq, rfl⟩ := union_ok hu
      have hp : mkSet xs = .ok p := hp
      have e := (mkSet_ok hp).1
      subst e
      have hy := Extended.set hm hp
      have hh := (setOrSingleton_ok hq).1
      refine ⟨some (.arr (E.enum (ys ++ q))), ?_, Or.inr ⟨_, _, rfl, rfl, fun z hz => ?_, fun z hz => ?_⟩⟩
      · unfold stepAdd
        simp only [ha]
        have : union (.arr ys) a = .ok (ys ++ q) := by
          unfold union
          have e1 : setOrSingleton (.arr ys) = .ok ys := hy
          rw [e1, hq]
          rfl
        rw [this]
        rfl
      · rw [E.mem_enum, List.mem_append] at hz ⊢
        exact hz.imp (hs z) id
      · rw [E.mem_enum, List.mem_append] at hz
        right
        rcases hz with hz | hz
        · exact (mkSet_ok hy).2 z hz
        · exact hh z hz

theorem stepDefault_extended {cp : ClaimPolicy} {v v' : Option Val} (he : Extended v v') : Extended (stepDefault cp v) (stepDefault cp v') := by
  rcases he with rfl | ⟨xs, ys, rfl, rfl, hs, hm⟩
  · exact .refl _
  · exact Or.inr ⟨xs, ys, rfl, rfl, hs, hm⟩

theorem stepOneOf_extended {cp : ClaimPolicy} {v v' : Option Val} (he : Extended v v') : stepOneOf cp v' = stepOneOf cp v := by
  rcases he with rfl | ⟨xs, ys, rfl, rfl, hs, hm⟩
  · rfl
  · rw [stepOneOf_false.2 (Or.inr (Or.inr ⟨_, rfl⟩)), stepOneOf_false.2 (Or.inr (Or.inr ⟨_, rfl⟩))]

theorem stepSubset_extended {E : SetEnum Val} {cp : ClaimPolicy} {v v' w : Option Val} (he : Extended v v') (h : stepSubset E cp v = .ok w) : ∃ w', stepSubset E cp v' = .ok w' ∧ Extended w w' := by
  rcases he with rfl | ⟨xs, ys, rfl, rfl, hs, hm⟩
  · exact ⟨w, h, .refl _⟩
  · rcases stepSubset_ok h with ⟨hn, rfl⟩ | ⟨hc, _⟩ | ⟨l, A, zs, hL, hA, hz, hxs, hne, rfl⟩ | ⟨_, _, _, hc, _⟩
    · exact ⟨_, by unfold stepSubset; rw [hn], Or.inr ⟨xs, ys, rfl, rfl, hs, hm⟩⟩
    · cases hc
    · cases hz
      have hy := Extended.set hm hxs
      have hle : ∀ x ∈ E.enum (inter A xs), x ∈ E.enum (inter A ys) := by
        intro x hx
        rw [E.mem_enum, mem_inter] at hx ⊢
        exact ⟨hx.1, hs x hx.2⟩
      have hne' : E.enum (inter A ys) ≠ [] := by
        intro hc
        cases hh : E.enum (inter A xs) with
        | nil => exact hne hh
        | cons x l =>
          have := hle x (by rw [hh]; simp)
          rw [hc] at this
          cases this
      refine ⟨some (.arr (E.enum (inter A ys))), ?_, Or.inr ⟨_, _, rfl, rfl, hle, fun y hy => Or.inr ?_⟩⟩
      · unfold stepSubset
        simp only [hL, hA, hy, ok_bind]
        rw [if_neg (by simpa using hne')]
        rfl
      · rw [E.mem_enum, mem_inter] at hy
        exact pySet_hashable hA y hy.1
    · cases hc

theorem stepSuperset_extended {cp : ClaimPolicy} {v v' : Option Val} (he : Extended v v') (h : stepSuperset cp v = .ok ()) : stepSuperset cp v' = .ok () := by
  rcases he with rfl | ⟨xs, ys, rfl, rfl, hs, hm⟩
  · exact h
  · cases hl : cp.get? "superset_of" with
    | none => unfold stepSuperset; rw [hl]
    | some l =>
      obtain ⟨_, b, _, hb, _⟩ := stepSuperset_ok hl h
      have hb : mkSet xs = .ok b := hb
      have e := (mkSet_ok hb).1
      subst e
      exact stepSuperset_more (Extended.set hm hb) hs h

theorem run_extended {E : SetEnum Val} {cp : ClaimPolicy} {v v' w : Option Val} (he : Extended v v') (h : claimRun E cp v = .ok w) : ∃ w', claimRun E cp v' = .ok w' ∧ Extended w w' := by
  cases hv : cp.get? "value" with
  | some x =>
    rw [claimRun_value hv] at h
    cases h
    exact ⟨_, claimRun_value hv v', .refl _⟩
  | none =>
    obtain ⟨v1, s1, s2⟩ := claimRun_ok_inv hv h
    obtain ⟨v1', s1', e1⟩ := stepAdd_extended he s1
    have e2 := stepDefault_extended (cp := cp) e1
    rcases s2 with ⟨hj, rfl⟩ | ⟨hj, hsub, hsp, hes⟩
    · exact ⟨_, claimRun_intro_jump hv s1' (by rw [stepOneOf_extended e2]; exact hj), e2⟩
    · obtain ⟨w', hsub', e3⟩ := stepSubset_extended e2 hsub
      refine ⟨w', claimRun_intro hv s1' (by rw [stepOneOf_extended e2]; exact hj) hsub' (stepSuperset_extended e3 hsp) ?_, e3⟩
      rcases e3 with rfl | ⟨_, _, _, rfl, _⟩
      · exact hes
      · exact stepEssential_some cp _

/-! ## Chains -/

theorem applyPolicy_extended {E : SetEnum Val} {K : SetEnum String} {md md' m : Metadata} {R : Rule} (he : ∀ c, Extended (md.get? c) (md'.get? c)) (h : applyPolicy E K md R = .ok m) :
    ∃ m', applyPolicy E K md' R = .ok m' ∧ ∀ c, Extended (m.get? c) (m'.get? c) := by
  have key : ∀ c, ∃ w, claimRes E R.policy c (startValue md' R c) = .ok w ∧ Extended (m.get? c) w := by
    intro c
    have hs : Extended (startValue md R c) (startValue md' R c) := by
      unfold startValue
      rcases he c with h1 | ⟨xs, ys, h1, h2, h3⟩
      · rw [h1]; exact .refl _
      · rw [h1, h2]; exact Or.inr ⟨xs, ys, rfl, rfl, h3⟩
    have hr := applyPolicy_ok E K h c
    unfold claimRes at hr ⊢
    cases hp : R.policy.get? c with
    | none =>
      rw [hp] at hr
      refine ⟨_, rfl, ?_⟩
      rw [← Except.ok.inj hr]
      exact hs
    | some cp =>
      rw [hp] at hr
      exact run_extended hs hr
  obtain ⟨m', h2⟩ := (applyPolicy_ok_iff E K md' R).2 fun c _ => (key c).imp fun w hw => hw.1
  refine ⟨m', h2, fun c => ?_⟩
  obtain ⟨w, g1, g2⟩ := key c
  rw [applyPolicy_ok E K h2 c] at g1
  cases g1
  exact g2

/-- C227: whatever the policies of the chain, an entity that declares further values of its list claims is accepted if it was accepted before, for the same types, and each claim resolves to what it resolved to, or to a list with at least the same values. -/
theorem C227_declares_more (E : SetEnum Val) (K : SetEnum String) (sups : List PStatement) (leaf leaf' : PStatement) (et : Option String) (d : Dict (Option Metadata)) (hm : DeclaresMore leaf leaf')
    (h : callPolicy E K sups leaf et = .ok d) : ∃ d', callPolicy E K sups leaf' et = .ok d' ∧
      ∀ t m, d.get? t = some (some m) → ∃ m', d'.get? t = some (some m') ∧ ∀ c, Narrower (m.get? c) (m'.get? c) := by
  have one : ∀ t o, policyFor E K sups leaf t = .ok o → ∃ o', policyFor E K sups leaf' t = .ok o' ∧ ∀ m, o = some m → ∃ m', o' = some m' ∧ ∀ c, Narrower (m.get? c) (m'.get? c) := by
    intro t o ho
    unfold policyFor at ho ⊢
    cases hg : gatherPolicies E K sups t with
    | error e => rw [hg] at ho; cases ho
    | ok R =>
      rw [hg, ok_bind] at ho
      rw [ok_bind]
      cases hl : leaf.metadata.get? t with
      | none =>
        simp only [hl] at ho
        cases ho
        have hn : leaf'.metadata.get? t = none := by
          cases hn : leaf'.metadata.get? t with
          | none => rfl
          | some x =>
            have : t ∈ leaf'.metadata.keys := (Dict.mem_keys_iff_exists _ _).2 ⟨x, hn⟩
            rw [hm.types] at this
            obtain ⟨y, hy⟩ := (Dict.mem_keys_iff_exists _ _).1 this
            rw [hl] at hy
            cases hy
        simp only [hn]
        exact ⟨none, rfl, fun m he => by cases he⟩
      | some md =>
        obtain ⟨md', hl', he⟩ := hm.claims t md hl
        simp only [hl] at ho
        simp only [hl']
        cases ha : applyPolicy E K md R with
        | error e => rw [ha] at ho; cases ho
        | ok m =>
          rw [ha, ok_bind] at ho
          cases ho
          obtain ⟨m', ha', hx⟩ := applyPolicy_extended he ha
          refine ⟨some m', by rw [ha']; rfl, fun m0 h0 => ?_⟩
          cases h0
          refine ⟨m', rfl, fun c => ?_⟩
          rcases hx c with h1 | ⟨xs, ys, h1, h2, h3, _⟩
          · exact Or.inl h1
          · exact Or.inr ⟨xs, ys, h1, h2, h3⟩
  have types : ∀ ts d, policyForTypes E K sups leaf ts = .ok d → ∃ d', policyForTypes E K sups leaf' ts = .ok d' ∧
      ∀ t m, d.get? t = some (some m) → ∃ m', d'.get? t = some (some m') ∧ ∀ c, Narrower (m.get? c) (m'.get? c) := by
    intro ts
    induction ts with
    | nil => intro d h; cases h; exact ⟨[], rfl, fun t m h => by cases h⟩
    | cons a ts ih =>
      intro d h
      unfold policyForTypes at h ⊢
      cases h1 : policyFor E K sups leaf a with
      | error e => rw [h1] at h; cases h
      | ok o =>
        rw [h1, ok_bind] at h
        cases h2 : policyForTypes E K sups leaf ts with
        | error e => rw [h2] at h; cases h
        | ok rest =>
          rw [h2, ok_bind] at h
          cases h
          obtain ⟨o', g1, g2⟩ := one a o h1
          obtain ⟨d', g3, g4⟩ := ih rest h2
          refine ⟨(a, o') :: d', by rw [g1, g3]; rfl, fun t m ht => ?_⟩
          rw [Dict.get?_cons] at ht ⊢
          by_cases hat : a = t
          · rw [if_pos hat] at ht ⊢
            cases ht
            obtain ⟨m', rfl, hm'⟩ := g2 m rfl
            exact ⟨m', rfl, hm'⟩
          · rw [if_neg hat] at ht ⊢
            exact g4 t m ht
  cases et with
  | some t => exact types _ _ h
  | none =>
    unfold callPolicy at h ⊢
    simp only at h ⊢
    rw [hm.types]
    exact types _ _ h

/-! The case: the chain and entity of C226, and the entity with two further values, of which one is left. -/
namespace Ex227
def lf : PStatement := ⟨[("op", [("scopes", Ex.strs ["b", "d"])])], []⟩
def lf' : PStatement := ⟨[("op", [("scopes", Ex.strs ["d", "a", "b", "e"])])], []⟩
end Ex227

open Ex227 in
example : DeclaresMore lf lf' ∧ callPolicy Ex.E Ex.K [Ex226.sup] lf none = .ok [("op", some [("org", Ex.s "A"), ("scopes", Ex.strs ["b"])])] ∧
    callPolicy Ex.E Ex.K [Ex226.sup] lf' none = .ok [("op", some [("org", Ex.s "A"), ("scopes", Ex.strs ["a", "b"])])] := by
  refine ⟨⟨rfl, fun t md h => ?_⟩, by decide +kernel, by decide +kernel⟩
  simp only [lf, Dict.get?_cons] at h
  by_cases ht : "op" = t
  · rw [if_pos ht] at h
    cases h
    refine ⟨[("scopes", Ex.strs ["d", "a", "b", "e"])], by simp only [lf', Dict.get?_cons]; rw [if_pos ht], fun c => ?_⟩
    simp only [Dict.get?_cons]
    by_cases hc : "scopes" = c
    · rw [if_pos hc, if_pos hc]
      exact Or.inr ⟨_, _, rfl, rfl, by decide +kernel, by decide +kernel⟩
    · rw [if_neg hc, if_neg hc]
      exact .refl _
  · rw [if_neg ht] at h
    cases h

end Fed.Policy
