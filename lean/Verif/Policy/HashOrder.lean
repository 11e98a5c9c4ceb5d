import Verif.Policy.OperatorsLemmas
/-
Helper lemmas: the operators respect equality of lists as sets, whatever the set enumeration, and are idempotent.
-/
namespace Fed.Policy
open Fed

/-- Same outcome, with lists compared as sets. -/
def ResEq : Except PyErr (Option Val) → Except PyErr (Option Val) → Prop
  | .ok a, .ok b => OptSetEq a b
  | .error e, .error f => e = f
  | _, _ => False

theorem ResEq.refl (r) : ResEq r r := by
  cases r <;> simp [ResEq, OptSetEq.refl]

theorem setEq_arr {xs : List Val} {v : Val} (h : (Val.arr xs).SetEq v) : ∃ ys, v = .arr ys ∧ ∀ x, x ∈ xs ↔ x ∈ ys := by
  cases v <;> simp_all [Val.SetEq]

theorem optSetEq_cases {v v' : Option Val} (h : OptSetEq v v') :
    v = v' ∨ ∃ xs ys, v = some (.arr xs) ∧ v' = some (.arr ys) ∧ ∀ x, x ∈ xs ↔ x ∈ ys := by
  cases v with
  | none => cases v' <;> simp_all [OptSetEq]
  | some a =>
    cases v' with
    | none => simp [OptSetEq] at h
    | some b =>
      cases a <;> cases b <;> simp_all [OptSetEq, Val.SetEq]

theorem mkSet_congr {xs ys : List Val} (h : ∀ x, x ∈ xs ↔ x ∈ ys) :
    (mkSet xs = .ok xs ∧ mkSet ys = .ok ys) ∨ (mkSet xs = .error .typeError ∧ mkSet ys = .error .typeError) := by
  unfold mkSet
  by_cases hx : xs.all Val.hashable = true
  · have hy : ys.all Val.hashable = true := by
      rw [List.all_eq_true] at hx ⊢; exact fun x hxy => hx x ((h x).2 hxy)
    simp [hx, hy]
  · have hy : ¬ ys.all Val.hashable = true := by
      rw [List.all_eq_true] at hx ⊢; exact fun hh => hx fun x hxy => hh x ((h x).1 hxy)
    simp [hx, hy]

theorem enum_nil {α} (E : SetEnum α) (l : List α) : E.enum l = [] ↔ l = [] := by
  constructor
  · intro h
    cases l with
    | nil => rfl
    | cons a l => have := (E.mem_enum (a :: l) a).2 (by simp); rw [h] at this; simp at this
  · rintro rfl
    cases h : E.enum [] with
    | nil => rfl
    | cons a l => have := (E.mem_enum [] a).1 (by rw [h]; simp); simp at this

theorem stepAdd_congr (E E' : SetEnum Val) (cp : ClaimPolicy) {v v' : Option Val} (h : OptSetEq v v') :
    ResEq (stepAdd E cp v) (stepAdd E' cp v') := by
  unfold stepAdd
  cases ha : cp.get? "add" with
  | none => simpa [ResEq] using h
  | some a =>
    rcases optSetEq_cases h with rfl | ⟨xs, ys, rfl, rfl, hxy⟩
    · cases v with
      | none => simp [ResEq, OptSetEq, Val.SetEq.refl]
      | some w =>
        simp only
        cases union w a with
        | error e => simp [ResEq]
        | ok u => simp [ResEq, OptSetEq, Val.SetEq, SetEnum.mem_enum]
    · have e : ∀ zs, setOrSingleton (.arr zs) = mkSet zs := fun _ => rfl
      simp only [union, e]
      rcases mkSet_congr hxy with ⟨h1, h2⟩ | ⟨h1, h2⟩
      · simp only [h1, h2, ok_bind]
        cases setOrSingleton a with
        | error e => simp [ResEq]
        | ok q => simp [ResEq, OptSetEq, Val.SetEq, SetEnum.mem_enum, hxy]
      · simp [h1, h2, ResEq]

theorem stepDefault_congr (cp : ClaimPolicy) {v v' : Option Val} (h : OptSetEq v v') :
    OptSetEq (stepDefault cp v) (stepDefault cp v') := by
  cases v <;> cases v' <;> simp_all [OptSetEq, stepDefault]
  cases cp.get? "default" <;> simp [Val.SetEq.refl]

theorem stepOneOf_congr (cp : ClaimPolicy) {v v' : Option Val} (h : OptSetEq v v') :
    stepOneOf cp v = stepOneOf cp v' := by
  rcases optSetEq_cases h with rfl | ⟨xs, ys, rfl, rfl, hxy⟩
  · rfl
  · simp [stepOneOf, Val.isList]

theorem stepSubset_congr (E E' : SetEnum Val) (cp : ClaimPolicy) {v v' : Option Val} (h : OptSetEq v v') :
    ResEq (stepSubset E cp v) (stepSubset E' cp v') := by
  have key : ∀ xs ys : List Val, (∀ x, x ∈ xs ↔ x ∈ ys) →
      ResEq (stepSubset E cp (some (.arr xs))) (stepSubset E' cp (some (.arr ys))) := by
    intro xs ys hxy
    unfold stepSubset
    cases hl : cp.get? "subset_of" with
    | none => simpa [ResEq, OptSetEq, Val.SetEq] using hxy
    | some l =>
      simp only
      cases pySet l with
      | error e => simp [ResEq]
      | ok a =>
        simp only [ok_bind]
        rcases mkSet_congr hxy with ⟨h1, h2⟩ | ⟨h1, h2⟩
        · simp only [h1, h2, ok_bind]
          have hm : inter a xs = inter a ys := by
            unfold inter; congr 1; funext x; simp [hxy x]
          rw [hm]
          by_cases hn : inter a ys = []
          · simp [hn, (enum_nil _ _).2, ResEq]
          · have h1 : ¬ E.enum (inter a ys) = [] := by rwa [enum_nil]
            have h2 : ¬ E'.enum (inter a ys) = [] := by rwa [enum_nil]
            simp [h1, h2, ResEq, OptSetEq, Val.SetEq, SetEnum.mem_enum]
        · simp [h1, h2, ResEq]
  rcases optSetEq_cases h with rfl | ⟨xs, ys, rfl, rfl, hxy⟩
  · cases v with
    | none => unfold stepSubset; cases cp.get? "subset_of" <;> simp [ResEq, OptSetEq]
    | some w =>
      cases w with
      | arr xs => exact key xs xs fun _ => Iff.rfl
      | _ => exact ResEq.refl _
  · exact key xs ys hxy

theorem pySet_congr {xs ys : List Val} (h : ∀ x, x ∈ xs ↔ x ∈ ys) :
    (pySet (.arr xs) = .ok xs ∧ pySet (.arr ys) = .ok ys) ∨
    (pySet (.arr xs) = .error .typeError ∧ pySet (.arr ys) = .error .typeError) := by
  simpa [pySet, pyIter] using mkSet_congr h

theorem stepSuperset_congr (cp : ClaimPolicy) {v v' : Option Val} (h : OptSetEq v v') :
    stepSuperset cp v = stepSuperset cp v' := by
  rcases optSetEq_cases h with rfl | ⟨xs, ys, rfl, rfl, hxy⟩
  · rfl
  · unfold stepSuperset
    cases cp.get? "superset_of" with
    | none => rfl
    | some l =>
      simp only
      cases pySet l with
      | error e => simp
      | ok a =>
        simp only [ok_bind]
        rcases pySet_congr hxy with ⟨h1, h2⟩ | ⟨h1, h2⟩
        · simp only [h1, h2, ok_bind]
          have hm : diff a xs = diff a ys := by unfold diff; congr 1; funext x; simp [hxy x]
          rw [hm]
        · simp [h1, h2]

theorem stepEssential_congr (cp : ClaimPolicy) {v v' : Option Val} (h : OptSetEq v v') :
    stepEssential cp v = stepEssential cp v' := by
  rcases optSetEq_cases h with rfl | ⟨xs, ys, rfl, rfl, hxy⟩ <;> rfl

theorem claimRun_congr (E E' : SetEnum Val) (cp : ClaimPolicy) {v v' : Option Val} (h : OptSetEq v v') :
    ResEq (claimRun E cp v) (claimRun E' cp v') := by
  unfold claimRun
  cases cp.get? "value" with
  | some x => simp [ResEq, OptSetEq, Val.SetEq.refl]
  | none =>
    simp only
    have h1 := stepAdd_congr E E' cp h
    cases ha : stepAdd E cp v with
    | error e => cases hb : stepAdd E' cp v' <;> simp_all [ResEq]
    | ok v1 =>
      cases hb : stepAdd E' cp v' with
      | error e => simp [ha, hb, ResEq] at h1
      | ok v1' =>
        simp only [ha, hb, ResEq] at h1
        simp only [ok_bind]
        have h2 := stepDefault_congr cp h1
        rw [stepOneOf_congr cp h2]
        cases stepOneOf cp (stepDefault cp v1') with
        | error e => simp [ResEq]
        | ok b =>
          cases b with
          | true => simpa [ResEq] using h2
          | false =>
            simp only [ok_bind, Bool.false_eq_true, if_false]
            have h3 := stepSubset_congr E E' cp h2
            cases hc : stepSubset E cp (stepDefault cp v1) with
            | error e => cases hd : stepSubset E' cp (stepDefault cp v1') <;> simp_all [ResEq]
            | ok v3 =>
              cases hd : stepSubset E' cp (stepDefault cp v1') with
              | error e => simp [hc, hd, ResEq] at h3
              | ok v3' =>
                simp only [hc, hd, ResEq] at h3
                simp only [ok_bind]
                rw [stepSuperset_congr cp h3, stepEssential_congr cp h3]
                cases stepSuperset cp v3' with
                | error e => simp [ResEq]
                | ok u =>
                  cases stepEssential cp v3' with
                  | error e => simp [ResEq]
                  | ok u => simpa [ResEq] using h3

theorem claimRes_congr (E E' : SetEnum Val) (mp : MetadataPolicy) (c : String) {v v' : Option Val} (h : OptSetEq v v') :
    ResEq (claimRes E mp c v) (claimRes E' mp c v') := by
  unfold claimRes
  cases mp.get? c with
  | none => simpa [ResEq] using h
  | some cp => exact claimRun_congr E E' cp h

/-- `applyPolicy` succeeds exactly when `claimRes` does on every claim. -/
theorem applyPolicy_ok_iff (E : SetEnum Val) (K : SetEnum String) (md : Metadata) (r : Rule) :
    (∃ md', applyPolicy E K md r = .ok md') ↔
      ∀ c ∈ r.policy.keys, ∃ w, claimRes E r.policy c (startValue md r c) = .ok w := by
  constructor
  · rintro ⟨md', h⟩ c _
    exact ⟨_, applyPolicy_ok E K h c⟩
  · intro h
    cases hr : applyPolicy E K md r with
    | ok md' => exact ⟨md', rfl⟩
    | error e =>
      obtain ⟨c, hc, he⟩ := applyPolicy_error E K hr
      obtain ⟨w, hw⟩ := h c hc
      simp [hw] at he

/-- Last part of the second run. -/
theorem claimRun_finish (E : SetEnum Val) (cp : ClaimPolicy) {w w1 w2 : Option Val} (hv : cp.get? "value" = none)
    (h1 : stepAdd E cp w = .ok w1) (hs : stepDefault cp w1 = w1) (h2 : stepOneOf cp w1 = .ok false)
    (h3 : stepSubset E cp w1 = .ok w2) (heq : OptSetEq w w2)
    (h4 : stepSuperset cp w = .ok ()) (h5 : stepEssential cp w = .ok ()) :
    ∃ w', claimRun E cp w = .ok w' ∧ OptSetEq w w' :=
  ⟨w2, claimRun_intro hv h1 (by rwa [hs]) (by rwa [hs]) (by rw [← stepSuperset_congr cp heq]; exact h4)
    (by rw [← stepEssential_congr cp heq]; exact h5), heq⟩

theorem stepSubset_arr (E : SetEnum Val) (cp : ClaimPolicy) {l : Val} {a xs : List Val}
    (hl : cp.get? "subset_of" = some l) (ha : pySet l = .ok a) (hx : ∀ x ∈ xs, x.hashable = true)
    (hne : inter a xs ≠ []) : stepSubset E cp (some (.arr xs)) = .ok (some (.arr (E.enum (inter a xs)))) := by
  have : ¬ E.enum (inter a xs) = [] := by rwa [enum_nil]
  simp [stepSubset, hl, ha, mkSet_of hx, this]

theorem ne_nil_of_mem_iff {a b : List Val} (h : ∀ x, x ∈ a ↔ x ∈ b) (hb : b ≠ []) : a ≠ [] := by
  rintro rfl
  cases b with
  | nil => exact hb rfl
  | cons y ys => have := (h y).2 (by simp); simp at this

/-- Second application. The hypotheses exclude the shapes of input for which the claim is false. -/
theorem claimRun_idem (E : SetEnum Val) (cp : ClaimPolicy) {v w : Option Val} (h : claimRun E cp v = .ok w)
    (hadd : ∀ a, cp.get? "add" = some a → v = none → ∃ xs, a = .arr xs ∧ ∀ x ∈ xs, x.hashable = true)
    (hop : ∀ l, cp.get? "subset_of" = some l → ∀ s ∈ cp.keys, v ≠ some (.str s) ∧ cp.get? "default" ≠ some (.str s)) :
    ∃ w', claimRun E cp w = .ok w' ∧ OptSetEq w w' := by
  cases hv : cp.get? "value" with
  | some x =>
    rw [claimRun_value hv] at h ⊢
    simp only [Except.ok.injEq] at h
    exact ⟨_, rfl, by rw [← h]; exact OptSetEq.refl _⟩
  | none =>
    obtain ⟨v1, h1, h2⟩ := claimRun_ok_inv hv h
    have hA : (cp.get? "add" = none ∧ v1 = v) ∨ ∃ a q xs, cp.get? "add" = some a ∧ v1 = some (.arr xs) ∧
        setOrSingleton a = .ok q ∧ (∀ x ∈ q, x ∈ xs) ∧ ∀ x ∈ xs, x.hashable = true := by
      rcases stepAdd_ok h1 with ⟨ha, rfl⟩ | ⟨a, ha, rfl, rfl⟩ | ⟨a, x, u, ha, rfl, hu, rfl⟩
      · exact Or.inl ⟨ha, rfl⟩
      · right
        obtain ⟨xs, rfl, hh⟩ := hadd a ha rfl
        exact ⟨_, xs, xs, ha, rfl, by simp [setOrSingleton, mkSet_of hh], fun _ hx => hx, hh⟩
      · right
        obtain ⟨p, q, hp, hq, rfl⟩ := union_ok hu
        refine ⟨a, q, _, ha, rfl, hq, ?_, ?_⟩
        · intro x hx; rw [SetEnum.mem_enum]; exact List.mem_append_right _ hx
        · intro x hx
          rw [SetEnum.mem_enum, List.mem_append] at hx
          rcases hx with hx | hx
          · exact (setOrSingleton_ok hp).1 x hx
          · exact (setOrSingleton_ok hq).1 x hx
    rcases hA with ⟨ha, rfl⟩ | ⟨a, q, xs, ha, rfl, hq, hqs, hh⟩
    · have hadd2 : ∀ z, stepAdd E cp z = .ok z := fun z => by simp [stepAdd, ha]
      have hsd : ∀ y : Val, stepDefault cp (some y) = some y := fun _ => rfl
      rcases h2 with ⟨h3, rfl⟩ | ⟨h3, h4, h5, h6⟩
      · obtain ⟨l, y, _, hy, _⟩ := stepOneOf_true h3
        rw [hy] at h3 ⊢
        exact ⟨_, claimRun_intro_jump hv (hadd2 _) (by rwa [hsd]), OptSetEq.refl _⟩
      · rcases stepSubset_ok h4 with ⟨hn, rfl⟩ | ⟨hn, rfl⟩ | ⟨l, a, xs, hl, ha, hx, hm, hne, rfl⟩ | ⟨l, s, hl, hx, hk, rfl⟩
        · cases hd : stepDefault cp v1 with
          | none =>
            rw [hd] at h3 h4 h5 h6
            refine claimRun_finish E cp hv (hadd2 _) ?_ h3 h4 (OptSetEq.refl _) h5 h6
            cases v1 with
            | none => exact hd
            | some y => simp [stepDefault] at hd
          | some y =>
            rw [hd] at h3 h4 h5 h6
            exact claimRun_finish E cp hv (hadd2 _) (hsd _) h3 h4 (OptSetEq.refl _) h5 h6
        · refine claimRun_finish E cp hv (hadd2 _) ?_ (by rw [hn] at h3; exact h3)
            (by rw [hn] at h4; exact h4) (OptSetEq.refl _) h5 h6
          cases v1 with
          | none => exact hn
          | some y => simp [stepDefault] at hn
        · have hmem : ∀ x, x ∈ inter a (E.enum (inter a xs)) ↔ x ∈ inter a xs := by
            intro x; simp only [mem_inter, SetEnum.mem_enum]; exact ⟨fun h => h.2, fun h => ⟨h.1, h⟩⟩
          have hne' : inter a xs ≠ [] := fun e => hne ((enum_nil _ _).2 e)
          refine claimRun_finish E cp hv (hadd2 _) (hsd _) (stepOneOf_false.2 (Or.inr (Or.inr ⟨_, rfl⟩)))
            (stepSubset_arr E cp hl ha ?_ (ne_nil_of_mem_iff hmem hne')) ?_ h5 h6
          · intro x hx'
            rw [SetEnum.mem_enum, mem_inter] at hx'
            exact (mkSet_ok hm).2 x hx'.2
          · simp [OptSetEq, Val.SetEq, SetEnum.mem_enum, hmem]
        · exfalso
          obtain ⟨n1, n2⟩ := hop l hl s hk
          cases v1 with
          | none => exact n2 hx
          | some y => exact n1 hx
    · simp only [stepDefault] at h2
      have hadd2 : ∀ ys : List Val, (∀ x ∈ ys, x.hashable = true) →
          stepAdd E cp (some (.arr ys)) = .ok (some (.arr (E.enum (ys ++ q)))) := by
        intro ys hy
        have e : setOrSingleton (.arr ys) = mkSet ys := rfl
        simp [stepAdd, ha, union, e, mkSet_of hy, hq]
      rcases h2 with ⟨h3, rfl⟩ | ⟨h3, h4, h5, h6⟩
      · obtain ⟨l, y, _, hy, hl, _⟩ := stepOneOf_true h3
        simp only [Option.some.injEq] at hy; subst hy; simp [Val.isList] at hl
      · rcases stepSubset_ok h4 with ⟨hn, rfl⟩ | ⟨hn, rfl⟩ | ⟨l, b, ys, hl, hb, hx, hm, hne, rfl⟩ | ⟨l, s, hl, hx, hk, rfl⟩
        · refine claimRun_finish E cp hv (hadd2 xs hh) rfl (stepOneOf_false.2 (Or.inr (Or.inr ⟨_, rfl⟩)))
            (by simp [stepSubset, hn]; rfl) ?_ h5 h6
          simp only [OptSetEq, Val.SetEq, SetEnum.mem_enum, List.mem_append]
          exact fun x => ⟨Or.inl, fun h => h.elim id (hqs x)⟩
        · simp at hn
        · simp only [Option.some.injEq, Val.arr.injEq] at hx; subst hx
          have hw : ∀ x ∈ E.enum (inter b xs), x.hashable = true := by
            intro x hx'; rw [SetEnum.mem_enum, mem_inter] at hx'; exact hh x hx'.2
          have hmem : ∀ x, x ∈ inter b (E.enum (E.enum (inter b xs) ++ q)) ↔ x ∈ inter b xs := by
            intro x
            simp only [mem_inter, SetEnum.mem_enum, List.mem_append]
            constructor
            · rintro ⟨hb, h | h⟩
              · exact h
              · exact ⟨hb, hqs x h⟩
            · exact fun h => ⟨h.1, Or.inl h⟩
          have hne' : inter b xs ≠ [] := fun e => hne ((enum_nil _ _).2 e)
          refine claimRun_finish E cp hv (hadd2 _ hw) rfl (stepOneOf_false.2 (Or.inr (Or.inr ⟨_, rfl⟩)))
            (stepSubset_arr E cp hl hb ?_ (ne_nil_of_mem_iff hmem hne')) ?_ h5 h6
          · intro x hx'
            rw [SetEnum.mem_enum, List.mem_append] at hx'
            rcases hx' with hx' | hx'
            · exact hw x hx'
            · exact hh x (hqs x hx')
          · simp [OptSetEq, Val.SetEq, SetEnum.mem_enum, hmem]
        · simp at hx

end Fed.Policy
