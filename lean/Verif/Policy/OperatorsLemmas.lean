import Verif.Policy.Operators
/-
Helper lemmas about the operator loop: a closed form per claim, and independence of claims.
-/
namespace Fed.Policy
open Fed

/-- The operators as functions on the value of the claim alone. -/
def stepAdd (E : SetEnum Val) (cp : ClaimPolicy) (v : Option Val) : Except PyErr (Option Val) :=
  match cp.get? "add" with
  | none => .ok v
  | some a =>
    match v with
    | some w => do
      let u ← union w a
      pure (some (.arr (E.enum u)))
    | none => .ok (some a)

def stepDefault (cp : ClaimPolicy) (v : Option Val) : Option Val :=
  match v with
  | some w => some w
  | none => cp.get? "default"

/-- `some true`: the one_of test was made and passed, so the loop jumps to `essential`. -/
def stepOneOf (cp : ClaimPolicy) (v : Option Val) : Except PyErr Bool :=
  match cp.get? "one_of" with
  | none => .ok false
  | some l =>
    match v with
    | none => .ok false
    | some w =>
      if w.isList then .ok false
      else do if ← pyIn w l then pure true else throw .policyError

def stepSubset (E : SetEnum Val) (cp : ClaimPolicy) (v : Option Val) : Except PyErr (Option Val) :=
  match cp.get? "subset_of" with
  | none => .ok v
  | some l =>
    match v with
    | none => .ok none
    | some (.arr xs) => do
      let a ← pySet l
      let b ← mkSet xs
      let r := E.enum (inter a b)
      if r.isEmpty then throw .policyError else pure (some (.arr r))
    | some w =>
      if w.hashable then
        if cp.keys.any (fun k => decide (Val.str k = w)) then
          if w.truthy then do
            let cs ← pyIter w
            pure (some (.arr cs))
          else throw .policyError
        else throw .policyError
      else throw .typeError

def stepSuperset (cp : ClaimPolicy) (v : Option Val) : Except PyErr Unit :=
  match cp.get? "superset_of" with
  | none => .ok ()
  | some l =>
    match v with
    | none => .ok ()
    | some w => do
      let a ← pySet l
      let b ← pySet w
      if (diff a b).isEmpty then pure () else throw .policyError

def stepEssential (cp : ClaimPolicy) (v : Option Val) : Except PyErr Unit :=
  match cp.get? "essential" with
  | none => .ok ()
  | some e =>
    match v with
    | some _ => .ok ()
    | none => if e = .bool true ∨ e = .int 1 then throw .policyError else .ok ()

/-- What one pass over the operators does to the value of the claim. -/
def claimRun (E : SetEnum Val) (cp : ClaimPolicy) (v : Option Val) : Except PyErr (Option Val) :=
  match cp.get? "value" with
  | some x => .ok (some x)
  | none => do
    let v1 ← stepAdd E cp v
    let v2 := stepDefault cp v1
    let jump ← stepOneOf cp v2
    if jump then pure v2
    else do
      let v3 ← stepSubset E cp v2
      stepSuperset cp v3
      stepEssential cp v3
      pure v3

/-- The result `r` of running operators on metadata `md` is `s` as far as `claim` is concerned, and other claims are
as in `md`. -/
def Rel (claim : String) (md : Metadata) : Except PyErr Metadata → Except PyErr (Option Val) → Prop
  | .ok md', .ok v => md'.get? claim = v ∧ ∀ q, q ≠ claim → md'.get? q = md.get? q
  | .error e, .error e' => e = e'
  | _, _ => False

theorem Rel.set {claim : String} {md : Metadata} {w : Val} {r : Except PyErr Metadata}
    {s : Except PyErr (Option Val)} (h : Rel claim (md.set claim w) r s) : Rel claim md r s := by
  cases r <;> cases s <;> simp only [Rel] at h ⊢
  · exact h
  · exact ⟨h.1, fun q hq => by rw [h.2 q hq, Dict.get?_set_ne _ _ (Ne.symm hq)]⟩

def run6 (cp : ClaimPolicy) (v : Option Val) : Except PyErr (Option Val) := do
  stepEssential cp v
  pure v

def run5 (cp : ClaimPolicy) (v : Option Val) : Except PyErr (Option Val) := do
  stepSuperset cp v
  run6 cp v

def run4 (E : SetEnum Val) (cp : ClaimPolicy) (v : Option Val) : Except PyErr (Option Val) := do
  let v3 ← stepSubset E cp v
  run5 cp v3

def run3 (E : SetEnum Val) (cp : ClaimPolicy) (v : Option Val) : Except PyErr (Option Val) := do
  let jump ← stepOneOf cp v
  if jump then run6 cp v else run4 E cp v

def run1 (E : SetEnum Val) (cp : ClaimPolicy) (v : Option Val) : Except PyErr (Option Val) := do
  let v1 ← stepAdd E cp v
  run3 E cp (stepDefault cp v1)

variable (E : SetEnum Val) (claim : String) (cp : ClaimPolicy)

theorem loop6 (fuel : Nat) (md : Metadata) : ∃ r,
    opLoop E evaluationSequence claim cp (fuel + 1) 6 md = some r ∧
    Rel claim md r (run6 cp (md.get? claim)) := by
  simp only [opLoop, evaluationSequence, run6, stepEssential, callOp, callEssential, Op.name]
  simp only [List.getElem?_cons_succ, List.getElem?_cons_zero, List.length_cons, List.length_nil]
  cases h : cp.get? "essential" with
  | none => simp [Rel]
  | some e =>
    cases h2 : md.get? claim with
    | some v => simp [Rel, h2]
    | none =>
      by_cases h3 : e = .bool true ∨ e = .int 1 <;> simp [Rel, h3, h2]

theorem loop_skip {i : Nat} {op : Op} {fuel : Nat} {md : Metadata} (hi : i < 6)
    (hop : evaluationSequence[i]? = some op) (h : cp.get? op.name = none) :
    opLoop E evaluationSequence claim cp (fuel + 1) i md =
      opLoop E evaluationSequence claim cp fuel (i + 1) md := by
  have : evaluationSequence.length = 7 := rfl
  rw [opLoop]
  simp only [hop, h, this]
  rw [if_neg (by omega)]

theorem loop_err {i : Nat} {op : Op} {fuel : Nat} {md : Metadata} {w : Val} {e : PyErr}
    (hop : evaluationSequence[i]? = some op) (h : cp.get? op.name = some w)
    (hc : callOp E op claim md cp w = .error e) :
    opLoop E evaluationSequence claim cp (fuel + 1) i md = some (.error e) := by
  rw [opLoop]
  simp only [hop, h, hc]

theorem loop_next {i : Nat} {op : Op} {fuel : Nat} {md md' : Metadata} {w : Val} (hi : i < 6)
    (hop : evaluationSequence[i]? = some op) (h : cp.get? op.name = some w)
    (hc : callOp E op claim md cp w = .ok (md', none)) :
    opLoop E evaluationSequence claim cp (fuel + 1) i md =
      opLoop E evaluationSequence claim cp fuel (i + 1) md' := by
  have : evaluationSequence.length = 7 := rfl
  rw [opLoop]
  simp only [hop, h, hc, this]
  rw [if_neg (by omega)]

theorem loop_jump {i : Nat} {op : Op} {fuel : Nat} {md md' : Metadata} {w : Val} (hi : i ≤ 6)
    (hop : evaluationSequence[i]? = some op) (h : cp.get? op.name = some w)
    (hc : callOp E op claim md cp w = .ok (md', some "essential")) :
    opLoop E evaluationSequence claim cp (fuel + 1) i md =
      opLoop E evaluationSequence claim cp fuel 6 md' := by
  have hp : opPlace "essential" evaluationSequence i 0 = some 6 := by
    rcases i with _ | _ | _ | _ | _ | _ | _ | i <;> first | decide | omega
  rw [opLoop]
  simp only [hop, h, hc, hp]

theorem loop5 (fuel : Nat) (md : Metadata) : ∃ r,
    opLoop E evaluationSequence claim cp (fuel + 2) 5 md = some r ∧
    Rel claim md r (run5 cp (md.get? claim)) := by
  have hop : evaluationSequence[5]? = some .supersetOf := rfl
  cases h : cp.get? "superset_of" with
  | none =>
    rw [loop_skip E claim cp (by omega) hop h]
    simpa [run5, stepSuperset, h] using loop6 E claim cp fuel md
  | some l =>
    cases hc : callOp E .supersetOf claim md cp l with
    | error e =>
      rw [loop_err E claim cp hop h hc]
      refine ⟨_, rfl, ?_⟩
      simp only [callOp, callSupersetOf] at hc
      simp only [run5, stepSuperset, h]
      cases h2 : md.get? claim with
      | none => simp [h2] at hc
      | some w =>
        simp only [h2] at hc ⊢
        cases h3 : pySet l with
        | error e' => simp [h3] at hc; simp [Rel, hc]
        | ok a =>
          cases h4 : pySet w with
          | error e' => simp [h3, h4] at hc; simp [Rel, hc]
          | ok b =>
            by_cases h5 : diff a b = [] <;> simp [h3, h4, h5] at hc
            simp [Rel, h5, hc]
    | ok x =>
      simp only [callOp, callSupersetOf] at hc
      have hx : x = (md, none) ∧ stepSuperset cp (md.get? claim) = .ok () := by
        simp only [stepSuperset, h]
        cases h2 : md.get? claim with
        | none => simp [h2] at hc; simp [hc]
        | some w =>
          simp only [h2] at hc ⊢
          cases h3 : pySet l with
          | error e' => simp [h3] at hc
          | ok a =>
            cases h4 : pySet w with
            | error e' => simp [h3, h4] at hc
            | ok b => by_cases h5 : diff a b = [] <;> simp [h3, h4, h5] at hc; simp [h5, hc]
      rw [loop_next E claim cp (by omega) hop h (md' := md) (by rw [← hx.1, ← hc]; rfl)]
      simpa [run5, hx.2] using loop6 E claim cp fuel md

/-- Step function of the subset_of call, on the whole metadata. -/
theorem callSubsetOf_eq (md : Metadata) (l : Val) (h : cp.get? "subset_of" = some l) :
    callSubsetOf E claim md cp l =
      match stepSubset E cp (md.get? claim) with
      | .error e => .error e
      | .ok none => .ok (md, none)
      | .ok (some w) => .ok (md.set claim w, none) := by
  simp only [callSubsetOf, stepSubset, h]
  cases h2 : md.get? claim with
  | none => rfl
  | some v =>
    cases v with
    | arr xs =>
      simp only
      cases pySet l with
      | error e => simp
      | ok a =>
        cases mkSet xs with
        | error e => simp
        | ok b => simp only [ok_bind]; split <;> simp
    | obj kvs => simp [Val.hashable]
    | str w =>
      simp only [Val.hashable, if_true, pyIter, ok_bind, except_pure, except_throw]
      split
      · split <;> rfl
      · rfl
    | _ =>
      simp only [Val.hashable, if_true, pyIter, error_bind, except_throw]
      split
      · split <;> rfl
      · rfl

theorem loop4 (fuel : Nat) (md : Metadata) : ∃ r,
    opLoop E evaluationSequence claim cp (fuel + 3) 4 md = some r ∧
    Rel claim md r (run4 E cp (md.get? claim)) := by
  have hop : evaluationSequence[4]? = some .subsetOf := rfl
  cases h : cp.get? "subset_of" with
  | none =>
    rw [loop_skip E claim cp (by omega) hop h]
    simpa [run4, stepSubset, h] using loop5 E claim cp fuel md
  | some l =>
    have hc := callSubsetOf_eq E claim cp md l h
    cases hs : stepSubset E cp (md.get? claim) with
    | error e =>
      rw [loop_err E claim cp hop h (e := e) (by simp [callOp, hc, hs])]
      exact ⟨_, rfl, by simp [run4, hs, Rel]⟩
    | ok w =>
      cases w with
      | none =>
        rw [loop_next E claim cp (by omega) hop h (md' := md) (by simp [callOp, hc, hs])]
        have hn : md.get? claim = none := by
          cases hm : md.get? claim with
          | none => rfl
          | some v =>
            rw [hm] at hs
            exfalso; revert hs
            simp only [stepSubset, h]
            cases v with
            | arr xs =>
              simp only
              cases pySet l with
              | error e => simp
              | ok a =>
                cases mkSet xs with
                | error e => simp
                | ok b => simp only [ok_bind]; split <;> simp
            | obj kvs => simp [Val.hashable]
            | str w =>
              simp only [Val.hashable, if_true, pyIter, ok_bind, except_pure, except_throw]
              split
              · split <;> simp
              · simp
            | _ =>
              simp only [Val.hashable, if_true, pyIter, error_bind, except_throw]
              split
              · split <;> simp
              · simp
        have := loop5 E claim cp fuel md
        rw [hn] at hs this ⊢
        simpa [run4, hs] using this
      | some w =>
        rw [loop_next E claim cp (by omega) hop h (md' := md.set claim w) (by simp [callOp, hc, hs])]
        obtain ⟨r, h1, h2⟩ := loop5 E claim cp fuel (md.set claim w)
        refine ⟨r, h1, Rel.set (w := w) ?_⟩
        simpa [run4, hs] using h2

theorem loop6_le {fuel : Nat} (hf : 1 ≤ fuel) (md : Metadata) : ∃ r,
    opLoop E evaluationSequence claim cp fuel 6 md = some r ∧
    Rel claim md r (run6 cp (md.get? claim)) := by
  obtain ⟨k, rfl⟩ : ∃ k, fuel = k + 1 := ⟨fuel - 1, by omega⟩
  exact loop6 E claim cp k md

theorem loop3 (fuel : Nat) (md : Metadata) : ∃ r,
    opLoop E evaluationSequence claim cp (fuel + 4) 3 md = some r ∧
    Rel claim md r (run3 E cp (md.get? claim)) := by
  have hop : evaluationSequence[3]? = some .oneOf := rfl
  cases h : cp.get? "one_of" with
  | none =>
    rw [loop_skip E claim cp (by omega) hop h]
    simpa [run3, stepOneOf, h] using loop4 E claim cp fuel md
  | some l =>
    cases hm : md.get? claim with
    | none =>
      rw [loop_next E claim cp (by omega) hop h (md' := md) (by simp [callOp, callOneOf, hm])]
      simpa [run3, stepOneOf, h, hm] using loop4 E claim cp fuel md
    | some v =>
      by_cases hv : v.isList = true
      · rw [loop_next E claim cp (by omega) hop h (md' := md) (by simp [callOp, callOneOf, hm, hv])]
        simpa [run3, stepOneOf, h, hm, hv] using loop4 E claim cp fuel md
      · cases hp : pyIn v l with
        | error e =>
          rw [loop_err E claim cp hop h (e := e) (by simp [callOp, callOneOf, hm, hv, hp])]
          exact ⟨_, rfl, by simp [run3, stepOneOf, h, hv, hp, Rel]⟩
        | ok b =>
          cases b with
          | false =>
            rw [loop_err E claim cp hop h (e := .policyError) (by simp [callOp, callOneOf, hm, hv, hp])]
            exact ⟨_, rfl, by simp [run3, stepOneOf, h, hv, hp, Rel]⟩
          | true =>
            rw [loop_jump E claim cp (by omega) hop h (md' := md) (by simp [callOp, callOneOf, hm, hv, hp])]
            have := loop6_le E claim cp (fuel := fuel + 3) (by omega) md
            simpa [run3, stepOneOf, h, hm, hv, hp] using this

theorem loop2 (fuel : Nat) (md : Metadata) : ∃ r,
    opLoop E evaluationSequence claim cp (fuel + 5) 2 md = some r ∧
    Rel claim md r (run3 E cp (stepDefault cp (md.get? claim))) := by
  have hop : evaluationSequence[2]? = some .default := rfl
  cases h : cp.get? "default" with
  | none =>
    rw [loop_skip E claim cp (by omega) hop h]
    have := loop3 E claim cp fuel md
    cases hm : md.get? claim <;> simpa [stepDefault, h, hm] using this
  | some l =>
    cases hm : md.get? claim with
    | none =>
      rw [loop_next E claim cp (by omega) hop h (md' := md.set claim l) (by simp [callOp, callDefault, hm])]
      obtain ⟨r, h1, h2⟩ := loop3 E claim cp fuel (md.set claim l)
      refine ⟨r, h1, Rel.set (w := l) ?_⟩
      simpa [stepDefault, h] using h2
    | some v =>
      rw [loop_next E claim cp (by omega) hop h (md' := md) (by simp [callOp, callDefault, hm])]
      have := loop3 E claim cp fuel md
      simpa [stepDefault, hm] using this

theorem loop1 (fuel : Nat) (md : Metadata) : ∃ r,
    opLoop E evaluationSequence claim cp (fuel + 6) 1 md = some r ∧
    Rel claim md r (run1 E cp (md.get? claim)) := by
  have hop : evaluationSequence[1]? = some .add := rfl
  cases h : cp.get? "add" with
  | none =>
    rw [loop_skip E claim cp (by omega) hop h]
    simpa [run1, stepAdd, h] using loop2 E claim cp fuel md
  | some l =>
    cases hm : md.get? claim with
    | none =>
      rw [loop_next E claim cp (by omega) hop h (md' := md.set claim l) (by simp [callOp, callAdd, hm])]
      obtain ⟨r, h1, h2⟩ := loop2 E claim cp fuel (md.set claim l)
      refine ⟨r, h1, Rel.set (w := l) ?_⟩
      simpa [run1, stepAdd, h] using h2
    | some v =>
      cases hu : union v l with
      | error e =>
        rw [loop_err E claim cp hop h (e := e) (by simp [callOp, callAdd, hm, hu])]
        exact ⟨_, rfl, by simp [run1, stepAdd, h, hu, Rel]⟩
      | ok u =>
        rw [loop_next E claim cp (by omega) hop h (md' := md.set claim (.arr (E.enum u)))
          (by simp [callOp, callAdd, hm, hu])]
        obtain ⟨r, h1, h2⟩ := loop2 E claim cp fuel (md.set claim (.arr (E.enum u)))
        refine ⟨r, h1, Rel.set (w := .arr (E.enum u)) ?_⟩
        simpa [run1, stepAdd, h, hu] using h2

theorem claimRun_eq (v : Option Val) : claimRun E cp v =
    match cp.get? "value" with
    | some x => .ok (some x)
    | none => run1 E cp v := by
  unfold claimRun
  cases h0 : cp.get? "value" with
  | some x => rfl
  | none =>
    simp only [run1, run3, run4, run5, run6]
    cases h1 : stepAdd E cp v with
    | error e => rfl
    | ok v1 =>
      simp only [ok_bind]
      cases h2 : stepOneOf cp (stepDefault cp v1) with
      | error e => rfl
      | ok b =>
        cases b with
        | false => rfl
        | true =>
          simp only [ok_bind, if_true]
          have : ∃ w, stepDefault cp v1 = some w := by
            unfold stepOneOf at h2
            cases h3 : stepDefault cp v1 with
            | none => simp [h3] at h2; split at h2 <;> simp at h2
            | some w => exact ⟨w, rfl⟩
          obtain ⟨w, hw⟩ := this
          simp only [hw, stepEssential]
          cases cp.get? "essential" <;> rfl

/-- The operator loop on one claim: with enough fuel it stops, and its result is `claimRun`. -/
theorem loop0 (fuel : Nat) (md : Metadata) : ∃ r,
    opLoop E evaluationSequence claim cp (fuel + 7) 0 md = some r ∧
    Rel claim md r (claimRun E cp (md.get? claim)) := by
  have hop : evaluationSequence[0]? = some .value := rfl
  rw [claimRun_eq]
  cases h : cp.get? "value" with
  | none =>
    rw [loop_skip E claim cp (by omega) hop h]
    exact loop1 E claim cp fuel md
  | some l =>
    rw [loop_jump E claim cp (by omega) hop h (md' := md.set claim l) (by simp [callOp, callValue])]
    obtain ⟨r, h1, h2⟩ := loop6_le E claim cp (fuel := fuel + 6) (by omega) (md.set claim l)
    refine ⟨r, h1, Rel.set (w := l) ?_⟩
    have h3 : run6 cp (some l) = .ok (some l) := by
      simp only [run6, stepEssential]
      cases cp.get? "essential" <;> rfl
    simpa [h3] using h2

theorem applyClaim_rel (md : Metadata) :
    Rel claim md (applyClaim E claim cp md) (claimRun E cp (md.get? claim)) := by
  obtain ⟨r, h1, h2⟩ := loop0 E claim cp 1 md
  simp only [applyClaim, h1]
  exact h2

/-- What happens to the value of claim `c` when policy `mp` is applied to metadata: nothing, or `claimRun`. -/
def claimRes (E : SetEnum Val) (mp : MetadataPolicy) (c : String) (v : Option Val) : Except PyErr (Option Val) :=
  match mp.get? c with
  | none => .ok v
  | some cp => claimRun E cp v

omit claim cp in
theorem applyClaims_ok (mp : MetadataPolicy) (cs : List String) (hnd : cs.Nodup) (md md' : Metadata)
    (h : applyClaims E mp cs md = .ok md') :
    (∀ c ∈ cs, claimRes E mp c (md.get? c) = .ok (md'.get? c)) ∧ ∀ c, c ∉ cs → md'.get? c = md.get? c := by
  induction cs generalizing md with
  | nil => simp only [applyClaims, Except.ok.injEq] at h; simp [h]
  | cons c cs ih =>
    simp only [applyClaims, Dict.get] at h
    cases hc : mp.get? c with
    | none => simp [hc] at h
    | some cp =>
      simp only [hc, ok_bind] at h
      have hr := applyClaim_rel E c cp md
      cases h1 : applyClaim E c cp md with
      | error e => simp [h1] at h
      | ok md1 =>
        simp only [h1, ok_bind] at h
        rw [h1] at hr
        cases h2 : claimRun E cp (md.get? c) with
        | error e => simp [h2, Rel] at hr
        | ok w =>
          simp only [h2, Rel] at hr
          obtain ⟨i1, i2⟩ := ih hnd.of_cons md1 h
          have hcn : c ∉ cs := by simp at hnd; exact hnd.1
          constructor
          · intro d hd
            rcases List.mem_cons.1 hd with rfl | hd
            · simp only [claimRes, hc, h2, i2 _ hcn, hr.1]
            · have hne : d ≠ c := fun he => hcn (he ▸ hd)
              rw [← hr.2 d hne]; exact i1 d hd
          · intro d hd
            simp only [List.mem_cons, not_or] at hd
            rw [i2 d hd.2, hr.2 d hd.1]

omit claim cp in
theorem applyClaims_err (mp : MetadataPolicy) (cs : List String) (hnd : cs.Nodup) (hk : ∀ c ∈ cs, c ∈ mp.keys)
    (md : Metadata) (e : PyErr) (h : applyClaims E mp cs md = .error e) :
    ∃ c ∈ cs, claimRes E mp c (md.get? c) = .error e := by
  induction cs generalizing md with
  | nil => simp [applyClaims] at h
  | cons c cs ih =>
    simp only [applyClaims, Dict.get] at h
    obtain ⟨cp, hc⟩ := (Dict.mem_keys_iff_exists mp c).1 (hk c (by simp))
    simp only [hc, ok_bind] at h
    have hr := applyClaim_rel E c cp md
    cases h1 : applyClaim E c cp md with
    | error e' =>
      simp only [h1, error_bind, Except.error.injEq] at h
      rw [h1] at hr
      refine ⟨c, by simp, ?_⟩
      cases h2 : claimRun E cp (md.get? c) with
      | error e2 => simp only [h2, Rel] at hr; simp only [claimRes, hc, h2]; rw [← hr, h]
      | ok w => simp [h2, Rel] at hr
    | ok md1 =>
      simp only [h1, ok_bind] at h
      rw [h1] at hr
      obtain ⟨d, hd, hd2⟩ := ih hnd.of_cons (fun c hc => hk c (by simp [hc])) md1 h
      refine ⟨d, by simp [hd], ?_⟩
      have hne : d ≠ c := fun he => by simp at hnd; exact hnd.1 (he ▸ hd)
      cases h2 : claimRun E cp (md.get? c) with
      | error e2 => simp [h2, Rel] at hr
      | ok w =>
        simp only [h2, Rel] at hr
        rw [← hr.2 d hne]; exact hd2

omit claim cp in
/-- `applyMetadataPolicy` succeeds exactly when every claim does, and then does `claimRes` to each claim. -/
theorem applyMetadataPolicy_ok (K : SetEnum String) {md md' : Metadata} {mp : MetadataPolicy}
    (h : applyMetadataPolicy E K md mp = .ok md') (c : String) :
    claimRes E mp c (md.get? c) = .ok (md'.get? c) := by
  obtain ⟨h1, h2⟩ := applyClaims_ok E mp _ (K.nodup_enum _) md md' h
  by_cases hc : c ∈ K.enum mp.keys
  · exact h1 c hc
  · have hm : mp.get? c = none := by
      rw [Dict.get?_eq_none_iff]; exact fun hk => hc ((K.mem_enum _ _).2 hk)
    simp only [claimRes, hm, h2 c hc]

omit claim cp in
theorem applyMetadataPolicy_error (K : SetEnum String) {md : Metadata} {mp : MetadataPolicy} {e : PyErr}
    (h : applyMetadataPolicy E K md mp = .error e) : ∃ c ∈ mp.keys, claimRes E mp c (md.get? c) = .error e := by
  obtain ⟨c, hc, h2⟩ := applyClaims_err E mp _ (K.nodup_enum _) (fun c hc => (K.mem_enum _ _).1 hc) md e h
  exact ⟨c, (K.mem_enum _ _).1 hc, h2⟩

/-- The value of a claim before the operators are applied: the entity's own, else a superior's. -/
def startValue (md : Metadata) (r : Rule) (c : String) : Option Val := (md.get? c).or (r.metadata.get? c)

theorem start_get? (md : Metadata) (r : Rule) (c : String) :
    (if r.metadata.isEmpty then md else r.metadata.update md).get? c = startValue md r c := by
  unfold startValue
  split
  · next h => simp [List.isEmpty_iff.1 h]
  · rw [Dict.get?_update]

theorem applyPolicy_ok (E : SetEnum Val) (K : SetEnum String) {md md' : Metadata} {r : Rule}
    (h : applyPolicy E K md r = .ok md') (c : String) :
    claimRes E r.policy c (startValue md r c) = .ok (md'.get? c) := by
  simp only [applyPolicy] at h
  split at h
  · next hp =>
    simp only [Except.ok.injEq] at h
    rw [← h, start_get?]
    simp [claimRes, List.isEmpty_iff.1 hp]
  · rw [← start_get?]; exact applyMetadataPolicy_ok E K h c

theorem applyPolicy_error (E : SetEnum Val) (K : SetEnum String) {md : Metadata} {r : Rule} {e : PyErr}
    (h : applyPolicy E K md r = .error e) :
    ∃ c ∈ r.policy.keys, claimRes E r.policy c (startValue md r c) = .error e := by
  simp only [applyPolicy] at h
  split at h
  · simp at h
  · obtain ⟨c, hc, h2⟩ := applyMetadataPolicy_error E K h
    exact ⟨c, hc, by rw [start_get?] at h2; exact h2⟩

/-! Inversion of `claimRun`. -/

theorem claimRun_value {E : SetEnum Val} {cp : ClaimPolicy} {x : Val} (h : cp.get? "value" = some x) (v : Option Val) :
    claimRun E cp v = .ok (some x) := by
  simp [claimRun, h]

theorem claimRun_ok_inv {E : SetEnum Val} {cp : ClaimPolicy} {v w : Option Val} (hv : cp.get? "value" = none)
    (h : claimRun E cp v = .ok w) :
    ∃ v1, stepAdd E cp v = .ok v1 ∧
      ((stepOneOf cp (stepDefault cp v1) = .ok true ∧ w = stepDefault cp v1) ∨
       (stepOneOf cp (stepDefault cp v1) = .ok false ∧ stepSubset E cp (stepDefault cp v1) = .ok w ∧
          stepSuperset cp w = .ok () ∧ stepEssential cp w = .ok ())) := by
  simp only [claimRun, hv] at h
  cases h1 : stepAdd E cp v with
  | error e => simp [h1] at h
  | ok v1 =>
    refine ⟨v1, rfl, ?_⟩
    simp only [h1, ok_bind] at h
    cases h2 : stepOneOf cp (stepDefault cp v1) with
    | error e => simp [h2] at h
    | ok b =>
      cases b with
      | true => simp [h2] at h; simp [h]
      | false =>
        simp only [h2, ok_bind, Bool.false_eq_true, if_false] at h
        right
        cases h3 : stepSubset E cp (stepDefault cp v1) with
        | error e => simp [h3] at h
        | ok v3 =>
          simp only [h3, ok_bind] at h
          cases h4 : stepSuperset cp v3 with
          | error e => simp [h4] at h
          | ok u =>
            simp only [h4, ok_bind] at h
            cases h5 : stepEssential cp v3 with
            | error e => simp [h5] at h
            | ok u =>
              simp only [h5, ok_bind, except_pure, Except.ok.injEq] at h
              subst h
              exact ⟨rfl, rfl, h4, h5⟩

theorem claimRun_intro_jump {E : SetEnum Val} {cp : ClaimPolicy} {v v1 : Option Val} (hv : cp.get? "value" = none)
    (h1 : stepAdd E cp v = .ok v1) (h2 : stepOneOf cp (stepDefault cp v1) = .ok true) :
    claimRun E cp v = .ok (stepDefault cp v1) := by
  simp [claimRun, hv, h1, h2]

theorem claimRun_intro {E : SetEnum Val} {cp : ClaimPolicy} {v v1 w : Option Val} (hv : cp.get? "value" = none)
    (h1 : stepAdd E cp v = .ok v1) (h2 : stepOneOf cp (stepDefault cp v1) = .ok false)
    (h3 : stepSubset E cp (stepDefault cp v1) = .ok w) (h4 : stepSuperset cp w = .ok ())
    (h5 : stepEssential cp w = .ok ()) : claimRun E cp v = .ok w := by
  simp [claimRun, hv, h1, h2, h3, h4, h5]

theorem stepOneOf_true {cp : ClaimPolicy} {v : Option Val} (h : stepOneOf cp v = .ok true) :
    ∃ l w, cp.get? "one_of" = some l ∧ v = some w ∧ w.isList = false ∧ pyIn w l = .ok true := by
  unfold stepOneOf at h
  cases hl : cp.get? "one_of" with
  | none => simp [hl] at h
  | some l =>
    cases v with
    | none => simp [hl] at h
    | some w =>
      simp only [hl] at h
      by_cases hw : w.isList = true
      · simp [hw] at h
      · simp only [hw, Bool.false_eq_true, if_false] at h
        cases hp : pyIn w l with
        | error e => simp [hp] at h
        | ok b =>
          cases b with
          | false => simp [hp] at h
          | true => exact ⟨l, w, rfl, rfl, by simpa using hw, hp⟩

theorem stepOneOf_false {cp : ClaimPolicy} {v : Option Val} :
    stepOneOf cp v = .ok false ↔ cp.get? "one_of" = none ∨ v = none ∨ ∃ xs, v = some (.arr xs) := by
  unfold stepOneOf
  cases hl : cp.get? "one_of" with
  | none => simp
  | some l =>
    cases v with
    | none => simp
    | some w =>
      cases w with
      | arr xs => simp [Val.isList]
      | _ =>
        simp only [Val.isList, Bool.false_eq_true, if_false]
        cases pyIn _ l with
        | error e => simp
        | ok b => cases b <;> simp

/-- What a successful `subset_of` step does. -/
theorem stepSubset_ok {E : SetEnum Val} {cp : ClaimPolicy} {v w : Option Val} (h : stepSubset E cp v = .ok w) :
    (cp.get? "subset_of" = none ∧ w = v) ∨ (v = none ∧ w = none) ∨
    (∃ l a xs, cp.get? "subset_of" = some l ∧ pySet l = .ok a ∧ v = some (.arr xs) ∧ mkSet xs = .ok xs ∧
        E.enum (inter a xs) ≠ [] ∧ w = some (.arr (E.enum (inter a xs)))) ∨
    (∃ l s, cp.get? "subset_of" = some l ∧ v = some (.str s) ∧ s ∈ cp.keys ∧ w = some (.arr (strChars s))) := by
  unfold stepSubset at h
  cases hl : cp.get? "subset_of" with
  | none => simp [hl] at h; simp [h]
  | some l =>
    right
    simp only [hl] at h
    cases v with
    | none => simp at h; simp [h]
    | some u =>
      right
      cases u with
      | arr xs =>
        left
        simp only at h
        cases ha : pySet l with
        | error e => simp [ha] at h
        | ok a =>
          simp only [ha, ok_bind] at h
          cases hb : mkSet xs with
          | error e => simp [hb] at h
          | ok b =>
            have hbx : b = xs := by
              unfold mkSet at hb; split at hb <;> simp_all
            subst hbx
            simp only [hb, ok_bind] at h
            split at h
            · simp at h
            · next hne =>
              simp only [except_pure, Except.ok.injEq] at h
              exact ⟨l, a, b, rfl, ha, rfl, hb, by simpa using hne, h.symm⟩
      | str s =>
        right
        simp only [Val.hashable, if_true, pyIter, ok_bind, except_pure, except_throw] at h
        split at h
        · next hk =>
          split at h
          · simp only [Except.ok.injEq] at h
            refine ⟨l, s, rfl, rfl, ?_, h.symm⟩
            simpa using hk
          · simp at h
        · simp at h
      | obj kvs => simp [Val.hashable] at h
      | _ =>
        simp only [Val.hashable, if_true, pyIter, error_bind, except_throw] at h
        split at h
        · split at h <;> simp at h
        · simp at h

theorem stepAdd_ok {E : SetEnum Val} {cp : ClaimPolicy} {v w : Option Val} (h : stepAdd E cp v = .ok w) :
    (cp.get? "add" = none ∧ w = v) ∨ (∃ a, cp.get? "add" = some a ∧ v = none ∧ w = some a) ∨
    (∃ a x u, cp.get? "add" = some a ∧ v = some x ∧ union x a = .ok u ∧ w = some (.arr (E.enum u))) := by
  unfold stepAdd at h
  cases ha : cp.get? "add" with
  | none => simp [ha] at h; simp [h]
  | some a =>
    right
    simp only [ha] at h
    cases v with
    | none => left; simp at h; exact ⟨a, rfl, rfl, h.symm⟩
    | some x =>
      right
      simp only at h
      cases hu : union x a with
      | error e => simp [hu] at h
      | ok u => simp [hu] at h; exact ⟨a, x, u, rfl, rfl, hu, h.symm⟩

theorem mkSet_ok {xs ys : List Val} (h : mkSet xs = .ok ys) : ys = xs ∧ ∀ x ∈ xs, x.hashable = true := by
  unfold mkSet at h
  split at h
  · next hh => simp only [Except.ok.injEq] at h; exact ⟨h.symm, by simpa using hh⟩
  · simp at h

theorem mkSet_of {xs : List Val} (h : ∀ x ∈ xs, x.hashable = true) : mkSet xs = .ok xs := by
  unfold mkSet; rw [if_pos (by simpa using h)]

theorem mem_inter {a b : List Val} {x : Val} : x ∈ inter a b ↔ x ∈ a ∧ x ∈ b := by simp [inter]
theorem mem_diff {a b : List Val} {x : Val} : x ∈ diff a b ↔ x ∈ a ∧ x ∉ b := by simp [diff]

theorem pySet_arr {xs a : List Val} (h : pySet (.arr xs) = .ok a) : a = xs ∧ ∀ x ∈ xs, x.hashable = true :=
  mkSet_ok (by simpa [pySet, pyIter] using h)

theorem pySet_hashable {v : Val} {a : List Val} (h : pySet v = .ok a) : ∀ x ∈ a, x.hashable = true := by
  unfold pySet at h
  cases hi : pyIter v with
  | error e => simp [hi] at h
  | ok xs =>
    simp only [hi, ok_bind] at h
    obtain ⟨rfl, hh⟩ := mkSet_ok h
    exact hh

theorem stepSuperset_ok {cp : ClaimPolicy} {l w : Val} (hl : cp.get? "superset_of" = some l)
    (h : stepSuperset cp (some w) = .ok ()) : ∃ a b, pySet l = .ok a ∧ pySet w = .ok b ∧ ∀ x ∈ a, x ∈ b := by
  simp only [stepSuperset, hl] at h
  cases ha : pySet l with
  | error e => simp [ha] at h
  | ok a =>
    simp only [ha, ok_bind] at h
    cases hb : pySet w with
    | error e => simp [hb] at h
    | ok b =>
      simp only [hb, ok_bind] at h
      refine ⟨a, b, rfl, rfl, ?_⟩
      split at h
      · next hd =>
        intro x hx
        rw [List.isEmpty_iff] at hd
        by_cases hxb : x ∈ b
        · exact hxb
        · have := mem_diff.2 ⟨hx, hxb⟩; rw [hd] at this; simp at this
      · simp at h

theorem setOrSingleton_ok {v : Val} {a : List Val} (h : setOrSingleton v = .ok a) :
    (∀ x ∈ a, x.hashable = true) ∧ ((∃ xs, v = .arr xs ∧ a = xs) ∨ (v.isList = false ∧ a = [v])) := by
  cases v with
  | arr xs =>
    obtain ⟨h1, h2⟩ := mkSet_ok (by simpa [setOrSingleton] using h)
    subst h1
    exact ⟨h2, Or.inl ⟨a, rfl, rfl⟩⟩
  | _ =>
    obtain ⟨h1, h2⟩ := mkSet_ok (by simpa [setOrSingleton] using h)
    subst h1
    exact ⟨h2, Or.inr ⟨rfl, rfl⟩⟩

theorem union_ok {x a : Val} {u : List Val} (h : union x a = .ok u) :
    ∃ p q, setOrSingleton x = .ok p ∧ setOrSingleton a = .ok q ∧ u = p ++ q := by
  unfold union at h
  cases hp : setOrSingleton x with
  | error e => simp [hp] at h
  | ok p =>
    cases hq : setOrSingleton a with
    | error e => simp [hp, hq] at h
    | ok q => simp [hp, hq] at h; exact ⟨p, q, rfl, rfl, h.symm⟩

/-- A present claim stays present. -/
theorem claimRun_some {E : SetEnum Val} {cp : ClaimPolicy} {x : Val} {w : Option Val}
    (h : claimRun E cp (some x) = .ok w) : ∃ y, w = some y := by
  cases hv : cp.get? "value" with
  | some z => rw [claimRun_value hv] at h; simp at h; exact ⟨z, h.symm⟩
  | none =>
    obtain ⟨v1, h1, h2⟩ := claimRun_ok_inv hv h
    have hv1 : ∃ z, v1 = some z := by
      rcases stepAdd_ok h1 with ⟨_, rfl⟩ | ⟨a, _, h, _⟩ | ⟨a, x', u, _, _, _, rfl⟩
      · exact ⟨x, rfl⟩
      · simp at h
      · exact ⟨_, rfl⟩
    obtain ⟨z, rfl⟩ := hv1
    simp only [stepDefault] at h2
    rcases h2 with ⟨_, rfl⟩ | ⟨_, h3, _⟩
    · exact ⟨z, rfl⟩
    · rcases stepSubset_ok h3 with ⟨_, rfl⟩ | ⟨h, _⟩ | ⟨l, a, xs, _, _, _, _, _, rfl⟩ | ⟨l, s, _, _, _, rfl⟩
      · exact ⟨z, rfl⟩
      · simp at h
      · exact ⟨_, rfl⟩
      · exact ⟨_, rfl⟩

end Fed.Policy
