import Verif.Server.Fetch
/-
Properties of created statements, of the fetch endpoint and of the entity configuration endpoint: C54-C56, C59, C84, C85.
-/
namespace Fed.Server
open Fed

theorem get?_putIf (m : Dict Val) (n q : String) (v : Val) :
    (putIf m n v).get? q = if n = q ∧ v.truthy = true then some v else m.get? q := by
  unfold putIf
  by_cases h : v.truthy = true
  · rw [if_pos h, Dict.get?_set]; simp [h]
  · rw [if_neg h]; simp [h]

theorem get?_filter_key {α} (d : Dict α) (P : String → Bool) (q : String) :
    Dict.get? (d.filter fun p => P p.1) q = if P q then d.get? q else none := by
  induction d with
  | nil => simp
  | cons p d ih =>
    rw [List.filter_cons]
    by_cases hp : P p.1 = true
    · rw [if_pos hp, Dict.get?_cons, Dict.get?_cons, ih]
      by_cases hq : p.1 = q
      · subst hq; simp [hp]
      · simp [hq]
    · rw [if_neg hp, ih, Dict.get?_cons]
      by_cases hq : p.1 = q
      · subst hq; simp [hp]
      · simp [hq]

theorem get?_extraArgs (kwargs : Dict Val) (q : String) :
    (extraArgs kwargs).get? q = if q ∈ namedParams then none else kwargs.get? q := by
  have := get?_filter_key kwargs (fun k => decide (k ∉ namedParams)) q
  unfold extraArgs
  rw [this]
  by_cases h : q ∈ namedParams <;> simp [h]

/-! ## C59 -/

/-- C59: what a created statement says. `h` excludes calls that raise TypeError (iss, sub or key_jar given twice, lifetime not a
number). -/
theorem C59_payload (ownKeys : Val) (now : Int) (iss sub : String) (fn : Option Val) (kwargs p : Dict Val)
    (h : createStatement ownKeys now iss sub fn kwargs = .ok p) :
    p.get? "sub" = some (.str sub) ∧ p.get? "iss" = some (.str iss) ∧ p.get? "iat" = some (.int now) ∧
    (∀ k ∈ ["metadata", "metadata_policy", "aud", "constraints"], p.get? k = (kwargs.get? k).filter Val.truthy) ∧
    (∀ v, fn = some v → p.get? "authority_hints" = some v) ∧
    (fn = none → p.get? "authority_hints" = (kwargs.get? "authority_hints").filter Val.truthy) ∧
    (∀ ks, kwargs.get? "jwks" = some ks → p.get? "jwks" = some ks) ∧
    (kwargs.get? "jwks" = none → p.get? "jwks" = if ((kwargs.get? "include_jwks").getD (.bool true)).truthy then some ownKeys else none) ∧
    (∀ l, kwargs.get? "lifetime" = some (.int l) ∨ (kwargs.get? "lifetime" = none ∧ l = 86400) → l ≠ 0 → p.get? "exp" = some (.int (now + l))) ∧
    p.get? "lifetime" = none ∧ p.get? "include_jwks" = none ∧
    ∀ k, k ∉ namedParams → k ∉ ["sub", "iss", "iat", "exp", "jwks"] → p.get? k = kwargs.get? k := by
  unfold createStatement at h
  split at h
  · cases h
  · rename_i hno
    simp only [Bool.or_eq_true, not_or, Dict.has_iff, Dict.mem_keys_iff, Bool.not_eq_true, Option.isSome_eq_false_iff,
      Option.isNone_iff_eq_none] at hno
    -- the message
    have hm : ∀ q, (createMsg ownKeys sub fn kwargs).get? q =
        if q = "jwks" ∧ (param kwargs "include_jwks" (.bool true)).truthy = true then some ((kwargs.get? "jwks").getD ownKeys)
        else if q ∉ namedParams ∧ (kwargs.get? q).isSome then kwargs.get? q
        else if q = "constraints" ∧ (param kwargs "constraints" .null).truthy = true then some (param kwargs "constraints" .null)
        else if q = "aud" ∧ (param kwargs "aud" (.str "")).truthy = true then some (param kwargs "aud" (.str ""))
        else if q = "authority_hints" ∧ (fn.isSome ∨ (param kwargs "authority_hints" .null).truthy = true) then
          some (fn.getD (param kwargs "authority_hints" .null))
        else if q = "metadata_policy" ∧ (param kwargs "metadata_policy" .null).truthy = true then some (param kwargs "metadata_policy" .null)
        else if q = "metadata" ∧ (param kwargs "metadata" .null).truthy = true then some (param kwargs "metadata" .null)
        else if q = "sub" then some (.str sub) else none := by
      intro q
      have base : ∀ (m : Dict Val), (if (param kwargs "include_jwks" (.bool true)).truthy = true then
            match (extraArgs kwargs).get? "jwks" with | some ks => m.set "jwks" ks | none => m.set "jwks" ownKeys else m).get? q =
          if q = "jwks" ∧ (param kwargs "include_jwks" (.bool true)).truthy = true then some ((kwargs.get? "jwks").getD ownKeys) else m.get? q := by
        intro m
        have hj : (extraArgs kwargs).get? "jwks" = kwargs.get? "jwks" := by
          rw [get?_extraArgs]; simp [namedParams]
        rw [hj]
        by_cases hi : (param kwargs "include_jwks" (.bool true)).truthy = true
        · simp only [hi, if_true, and_true]
          cases kwargs.get? "jwks" <;> simp only [Dict.get?_set, Option.getD_some, Option.getD_none, eq_comm (a := "jwks")]
        · simp [hi]
      unfold createMsg
      refine (base _).trans ?_
      congr 1
      rw [Dict.get?_update, get?_extraArgs]
      by_cases hq : q ∈ namedParams ∨ kwargs.get? q = none
      · have : ((if q ∈ namedParams then none else kwargs.get? q) : Option Val) = none := by
          rcases hq with hq | hq <;> simp [hq]
        rw [this]
        have : ¬ (q ∉ namedParams ∧ (kwargs.get? q).isSome = true) := by
          rcases hq with hq | hq <;> simp [hq]
        rw [if_neg this]
        simp only [Option.none_or, get?_putIf, eq_comm (b := q)]
        congr 2
        cases fn with
        | none => simp only [get?_putIf, Option.isSome_none, Bool.false_eq_true, false_or, Option.getD_none, eq_comm (b := q), Dict.get?_cons, Dict.get?_nil]
        | some v => simp only [Dict.get?_set, get?_putIf, Option.isSome_some, true_or, and_true, Option.getD_some, eq_comm (b := q), Dict.get?_cons, Dict.get?_nil]
      · rw [not_or] at hq
        obtain ⟨v, hv⟩ := Option.ne_none_iff_exists'.1 hq.2
        simp [hq.1, hv]
    -- what packing adds
    have hp : ∀ q, q ≠ "exp" → p.get? q =
        if q = "iat" then some (.int now) else if q = "iss" then some (.str iss) else (createMsg ownKeys sub fn kwargs).get? q := by
      intro q hq
      unfold pack at h
      split at h
      · rename_i l hl
        simp only [Except.ok.injEq] at h
        subst h
        by_cases h0 : l = 0
        · simp [Dict.get?_set, eq_comm (b := q), h0]
        · simp [Dict.get?_set, eq_comm (b := q), h0, hq]
      · simp only [Except.ok.injEq] at h
        subst h
        simp [Dict.get?_set, eq_comm (b := q)]
      · cases h
    have hexp : ∀ l, kwargs.get? "lifetime" = some (.int l) ∨ (kwargs.get? "lifetime" = none ∧ l = 86400) → l ≠ 0 →
        p.get? "exp" = some (.int (now + l)) := by
      intro l hl h0
      have : param kwargs "lifetime" (.int 86400) = .int l := by
        unfold param
        rcases hl with hl | ⟨hl, rfl⟩ <;> rw [hl] <;> rfl
      rw [this] at h
      simp only [pack, Except.ok.injEq] at h
      subst h
      simp [h0]
    have filt : ∀ (o : Option Val) (d : Val), d.truthy = false →
        (if (o.getD d).truthy = true then some (o.getD d) else none) = o.filter Val.truthy := by
      intro o d hd
      cases o with
      | none => simp [hd]
      | some v => by_cases hv : v.truthy = true <;> simp [hv, Option.filter]
    refine ⟨?_, ?_, ?_, ?_, ?_, ?_, ?_, ?_, hexp, ?_, ?_, ?_⟩
    · rw [hp _ (by simp), hm]; simp [namedParams, hno.1.2]
    · rw [hp _ (by simp)]; simp
    · rw [hp _ (by simp)]; simp
    · intro k hk
      simp only [List.mem_cons, List.not_mem_nil, or_false] at hk
      rcases hk with rfl | rfl | rfl | rfl <;> rw [hp _ (by simp), hm] <;>
        simp only [namedParams, List.mem_cons, List.not_mem_nil, or_false, String.reduceEq, false_and, if_false, true_or, or_true, not_true_eq_false,
          true_and, param, reduceIte] <;>
        exact filt _ _ rfl
    · intro v hv
      rw [hp _ (by simp), hm]
      simp [namedParams, hv]
    · intro hf
      rw [hp _ (by simp), hm]
      simp only [namedParams, List.mem_cons, List.not_mem_nil, or_false, String.reduceEq, false_and, if_false, true_or, or_true, not_true_eq_false,
          true_and, param, reduceIte, hf, Option.isSome_none, Bool.false_eq_true, false_or, Option.getD_none]
      exact filt _ _ rfl
    · intro ks hks
      rw [hp _ (by simp), hm]
      simp [namedParams, hks]
    · intro hks
      rw [hp _ (by simp), hm]
      simp [namedParams, hks, param]
    · rw [hp _ (by simp), hm]; simp [namedParams]
    · rw [hp _ (by simp), hm]; simp [namedParams]
    · intro k hk1 hk2
      simp only [List.mem_cons, List.not_mem_nil, or_false, not_or] at hk2
      rw [hp k hk2.2.2.2.1, hm]
      have hk3 : k ≠ "constraints" ∧ k ≠ "aud" ∧ k ≠ "authority_hints" ∧ k ≠ "metadata_policy" ∧ k ≠ "metadata" := by
        refine ⟨?_, ?_, ?_, ?_, ?_⟩ <;> rintro rfl <;> simp [namedParams] at hk1
      simp only [hk2, hk1, hk3, false_and, if_false, not_false_eq_true, true_and]
      cases kwargs.get? k <;> simp

example : createStatement (.int 1) 1000 "https://ta" "https://leaf" none
    [("metadata", .obj []), ("jwks", .int 3), ("trust_marks", .arr []), ("lifetime", .int 10)] =
    .ok [("sub", .str "https://leaf"), ("trust_marks", .arr []), ("jwks", .int 3), ("iss", .str "https://ta"), ("iat", .int 1000), ("exp", .int 1010)] := by
  decide +kernel

/-! ## Helpers on dicts -/

theorem set_set {α} (d : Dict α) (k : String) (v w : α) : (d.set k v).set k w = d.set k w := by
  induction d with
  | nil => simp [Dict.set]
  | cons p d ih =>
    obtain ⟨a, b⟩ := p
    by_cases h : a = k
    · simp [Dict.set, h]
    · simp [Dict.set, h, ih]

theorem set_comm {α} (d : Dict α) (k k' : String) (v v' : α) (hk : k ≠ k') (hd : k ∈ d.keys) :
    (d.set k v).set k' v' = (d.set k' v').set k v := by
  induction d with
  | nil => simp [Dict.keys] at hd
  | cons p d ih =>
    obtain ⟨a, b⟩ := p
    by_cases h : a = k
    · subst h; simp [Dict.set, hk]
    · have hd' : k ∈ Dict.keys d := by
        simp only [Dict.keys, List.map_cons, List.mem_cons] at hd ⊢
        rcases hd with hd | hd
        · exact absurd hd.symm h
        · exact hd
      by_cases h' : a = k'
      · subst h'; simp [Dict.set, h]
      · simp [Dict.set, h, h', ih hd']

theorem update_cons {α} (d : Dict α) (k : String) (v : α) (e : Dict α) : d.update ((k, v) :: e) = (d.update e).set k v := rfl

theorem mem_keys_update {α} (d e : Dict α) (k : String) : k ∈ (d.update e).keys ↔ k ∈ e.keys ∨ k ∈ d.keys := by
  rw [Dict.mem_keys_iff, Dict.mem_keys_iff, Dict.mem_keys_iff, Dict.get?_update]
  cases Dict.get? e k <;> simp

theorem set_update_set {α} (x e : Dict α) (k : String) (v w : α) (hk : k ∈ x.keys) :
    (Dict.update (x.set k v) e).set k w = (x.update e).set k w := by
  induction e with
  | nil => exact set_set x k v w
  | cons p e ih =>
    obtain ⟨a, b⟩ := p
    rw [update_cons, update_cons]
    by_cases h : a = k
    · subst h; rw [set_set, set_set, ih]
    · have h1 : k ∈ (Dict.update (x.set k v) e).keys := by
        rw [mem_keys_update]; right; rw [Dict.mem_keys_iff, Dict.get?_set_self]; rfl
      have h2 : k ∈ (x.update e).keys := (mem_keys_update _ _ _).2 (.inr hk)
      rw [← set_comm _ k a w b (Ne.symm h) h1, ih, set_comm _ k a w b (Ne.symm h) h2]

theorem update_set_new {α} (y e : Dict α) (k : String) (v : α) (hk : k ∉ e.keys) (he : ∀ q ∈ e.keys, q ∈ y.keys) :
    Dict.update (y.set k v) e = (y.update e).set k v := by
  induction e with
  | nil => rfl
  | cons p e ih =>
    obtain ⟨a, b⟩ := p
    simp only [Dict.keys, List.map_cons, List.mem_cons, not_or] at hk he
    rw [update_cons, update_cons, ih hk.2 (fun q hq => he q (.inr hq))]
    exact (set_comm _ a k b v (Ne.symm hk.1) ((mem_keys_update _ _ _).2 (.inr (he a (.inl rfl))))).symm

theorem update_update {α} (d e : Dict α) : (d.update e).update e = d.update e := by
  induction e with
  | nil => rfl
  | cons p e ih =>
    obtain ⟨a, b⟩ := p
    rw [update_cons, update_cons]
    by_cases h : a ∈ (d.update e).keys
    · rw [set_update_set _ _ _ _ _ h, ih]
    · rw [update_set_new _ _ _ _ (fun hq => h ((mem_keys_update _ _ _).2 (.inl hq))) (fun q hq => (mem_keys_update _ _ _).2 (.inl hq)),
        ih, set_set]

/-! ## Helpers on fetch -/

/-- A successful fetch for someone else. -/
theorem fetch_foreign {A : Authority} {now : Int} {req : FetchRequest} {sub : String} {p : Dict Val}
    (hs : req.sub = some sub) (h1 : sub ≠ "") (h2 : sub ≠ req.issuer A) (h : (fetch A now req).1 = .ok p) :
    ∃ reg kwargs, A.subordinate.get? sub = some reg ∧ reg ≠ [] ∧ (withPolicies A sub (addHints (req.issuer A) reg)).1 = .ok kwargs ∧
      createStatement A.ownKeys now (req.issuer A) sub none kwargs = .ok p := by
  unfold fetch at h
  simp only [hs, h1, h2, or_self, if_false] at h
  split at h
  · cases h
  · cases h
  · rename_i x xs hreg
    refine ⟨x :: xs, ?_⟩
    generalize withPolicies A sub (addHints (req.issuer A) (x :: xs)) = w at h ⊢
    obtain ⟨w1, w2⟩ := w
    cases w1 with
    | error e => cases h
    | ok kw => exact ⟨kw, hreg, by simp, rfl, h⟩

theorem fetch_own {A : Authority} {now : Int} {req : FetchRequest} (h : ∀ sub, req.sub = some sub → sub = "" ∨ sub = req.issuer A) :
    fetch A now req = (ownStatement A now, A) := by
  unfold fetch
  cases hs : req.sub with
  | none => rfl
  | some sub => simp only; rw [if_pos (h sub hs)]

theorem get?_addHints (i : String) (r : Dict Val) (k : String) (hk : k ≠ "authority_hints") : (addHints i r).get? k = r.get? k := by
  unfold addHints
  split
  · rfl
  · exact Dict.get?_set_ne _ _ (Ne.symm hk)

theorem get?_dropTypes (r : Dict Val) (k : String) (hk : k ≠ "entity_types") : (dropTypes r).get? k = r.get? k := by
  unfold dropTypes
  rw [Dict.get?_filter_ne, if_neg (Ne.symm hk)]

/-- What the arguments for the statement are, per claim. -/
theorem withPolicies_get? {A : Authority} {sub : String} {r kw : Dict Val} (h : (withPolicies A sub r).1 = .ok kw) (k : String)
    (h1 : k ≠ "entity_types") (h2 : k ≠ "metadata") (h3 : k ≠ "metadata_policy") :
    kw.get? k = (((A.policy.get? sub).getD []).get? k).or (r.get? k) := by
  have hd := get?_dropTypes r k h1
  unfold withPolicies at h
  split at h
  · rename_i p ps hp
    simp only [Except.ok.injEq] at h
    subst h
    rw [hp, Dict.get?_update]; rfl
  · rename_i hp
    have hnil : (A.policy.get? sub).getD [] = [] := by
      cases hq : A.policy.get? sub with
      | none => rfl
      | some q =>
        cases q with
        | nil => rfl
        | cons a as => exact absurd hq (hp a as)
    rw [hnil, Dict.get?_nil, Option.none_or]
    split at h
    · simp only [Except.ok.injEq] at h; rw [h]
    · split at h
      · cases h
      · split at h
        · cases h
        · simp only [Except.ok.injEq] at h
          rw [← h, hd]
        · simp only [Except.ok.injEq] at h
          rw [← h, Dict.get?_update]
          simp only [Dict.get?_cons, Ne.symm h2, Ne.symm h3, if_false, Dict.get?_nil, Option.none_or, hd]

/-! ## C54 -/

/-- C54 in full: a statement issued on a request for some other entity is about that entity, which is registered, and carries the keys
registered for it. -/
def C54_full : Prop := ∀ (A : Authority) (now : Int) (req : FetchRequest) (sub : String) (p : Dict Val),
  req.sub = some sub → sub ≠ "" → sub ≠ A.entityId → (fetch A now req).1 = .ok p →
    ∃ reg ks, A.subordinate.get? sub = some reg ∧ p.get? "sub" = some (.str sub) ∧ reg.get? "jwks" = some ks ∧ p.get? "jwks" = some ks

/-- The authority of the examples: one registered subordinate. -/
def Ex.A (entry : Dict Val) (policy : Dict (Dict Val) := []) : Authority :=
  { entityId := "https://ta", ownKeys := .str "TAKEYS", metadata := .obj [("federation_entity", .obj [])],
    subordinate := [("https://leaf", entry)], policy }

/-- C54 does not hold: for a subordinate registered without keys the authority states its own keys as those of the subordinate. -/
theorem C54_violation : ¬ C54_full := by
  intro h
  obtain ⟨reg, ks, h1, -, h3, -⟩ := h (Ex.A [("entity_types", .arr [])]) 0 { sub := some "https://leaf" } "https://leaf"
    [("sub", .str "https://leaf"), ("authority_hints", .arr [.str "https://ta"]), ("jwks", .str "TAKEYS"), ("iss", .str "https://ta"), ("iat", .int 0),
     ("exp", .int 86400)] rfl (by decide) (by decide) (by decide +kernel)
  have : reg = [("entity_types", .arr [])] := by
    have h1' : some [("entity_types", Val.arr [])] = some reg := h1
    exact (Option.some.inj h1').symm
  rw [this] at h3
  exact absurd h3 (by simp [Dict.get?_cons])

/-- Nor does the answer always concern the subject asked for: asked for an unknown entity in that entity's own name, the authority answers
with its own statement. -/
theorem C54_violation_subject : ∃ (A : Authority) (req : FetchRequest) (p : Dict Val), req.sub = some "https://unknown" ∧
    A.subordinate.get? "https://unknown" = none ∧ A.entityId ≠ "https://unknown" ∧ (fetch A 0 req).1 = .ok p :=
  ⟨Ex.A [("jwks", .int 1)], { iss := some "https://unknown", sub := some "https://unknown" }, _, rfl, rfl, by decide, rfl⟩

/-- C54, what holds. A request that does not name its subject as issuer: the statement is about the subject, which is registered, and keys
registered for it are the ones stated (provided the policy for that entity does not state others). -/
theorem C54_partial (A : Authority) (now : Int) (req : FetchRequest) (sub : String) (p : Dict Val)
    (hs : req.sub = some sub) (h1 : sub ≠ "") (h2 : sub ≠ A.entityId) (h3 : req.iss ≠ some sub) (h : (fetch A now req).1 = .ok p) :
    ∃ reg, A.subordinate.get? sub = some reg ∧ reg ≠ [] ∧ p.get? "sub" = some (.str sub) ∧
      ∀ ks, reg.get? "jwks" = some ks → (∀ q, A.policy.get? sub = some q → q.get? "jwks" = none) → p.get? "jwks" = some ks := by
  have hi : sub ≠ req.issuer A := by
    unfold FetchRequest.issuer
    split
    · rename_i i hi
      split
      · intro he; rw [he, ← hi] at h3; exact h3 rfl
      · exact h2
    · exact h2
  obtain ⟨reg, kw, hr, hne, hw, hc⟩ := fetch_foreign hs h1 hi h
  have hp := C59_payload _ _ _ _ _ _ _ hc
  refine ⟨reg, hr, hne, hp.1, fun ks hks hpol => ?_⟩
  apply hp.2.2.2.2.2.2.1
  rw [withPolicies_get? hw "jwks" (by decide) (by decide) (by decide), get?_addHints _ _ _ (by decide), hks]
  cases hq : A.policy.get? sub with
  | none => rfl
  | some q => simp [hpol q hq]

example : (fetch (Ex.A [("jwks", .int 1)]) 0 { sub := some "https://leaf" }).1 =
    .ok [("sub", .str "https://leaf"), ("authority_hints", .arr [.str "https://ta"]), ("jwks", .int 1), ("iss", .str "https://ta"), ("iat", .int 0), ("exp", .int 86400)] := by
  decide +kernel

/-- C54: an unknown subject gives an error, and nothing changes. -/
theorem C54_unknown (A : Authority) (now : Int) (req : FetchRequest) (sub : String)
    (hs : req.sub = some sub) (h1 : sub ≠ "") (h2 : sub ≠ A.entityId) (h3 : req.iss ≠ some sub) (hu : A.subordinate.get? sub = none) :
    fetch A now req = (.error .unknownEntity, A) := by
  have hi : sub ≠ req.issuer A := by
    unfold FetchRequest.issuer
    split
    · rename_i i hi
      split
      · intro he; rw [he, ← hi] at h3; exact h3 rfl
      · exact h2
    · exact h2
  unfold fetch
  simp only [hs, h1, hi, or_self, if_false, hu]

example : fetch (Ex.A [("jwks", .int 1)]) 0 { sub := some "https://other" } = (.error .unknownEntity, Ex.A [("jwks", .int 1)]) := by decide +kernel

/-- C54: every other answer is the authority's statement about itself, with its own keys. -/
theorem C54_own (A : Authority) (now : Int) (req : FetchRequest)
    (hs : ∀ sub, req.sub = some sub → sub = "" ∨ sub = A.entityId ∧ (req.iss = none ∨ req.iss = some A.entityId)) :
    ∃ p, fetch A now req = (.ok p, A) ∧ p.get? "iss" = some (.str A.entityId) ∧ p.get? "sub" = some (.str A.entityId) ∧ p.get? "jwks" = some A.ownKeys ∧
      p.get? "metadata" = (some A.metadata).filter Val.truthy ∧ p.get? "authority_hints" = (some A.hints).filter Val.truthy := by
  have hown : fetch A now req = (ownStatement A now, A) := by
    apply fetch_own
    intro sub h
    rcases hs sub h with h | ⟨h, h' | h'⟩
    · exact .inl h
    · right; simp [FetchRequest.issuer, h', h]
    · right; simp [FetchRequest.issuer, h', h]
  have hok : ∃ p, ownStatement A now = .ok p := by
    unfold ownStatement createStatement
    rw [if_neg (by simp [Dict.has, Dict.get?_cons])]
    exact ⟨_, rfl⟩
  obtain ⟨p, hp⟩ := hok
  have hc := C59_payload _ _ _ _ _ _ _ hp
  refine ⟨p, by rw [hown, hp], hc.2.1, hc.1, ?_, ?_, ?_⟩
  · have := hc.2.2.2.2.2.2.2.1 (by simp [Dict.get?_cons])
    simpa [Dict.get?_cons, Val.truthy] using this
  · have := hc.2.2.2.1 "metadata" (by simp)
    simpa [Dict.get?_cons] using this
  · have := hc.2.2.2.2.2.1 rfl
    simpa [Dict.get?_cons] using this

example : (fetch (Ex.A []) 7 {}).1 = .ok [("sub", .str "https://ta"), ("metadata", .obj [("federation_entity", .obj [])]), ("jwks", .str "TAKEYS"),
    ("iss", .str "https://ta"), ("iat", .int 7), ("exp", .int 86407)] := by decide +kernel

/-! ## C55 -/

/-- C55 in full: whatever the request says, the statement is issued in the authority's name. -/
def C55_full : Prop := ∀ (A : Authority) (now : Int) (req : FetchRequest) (p : Dict Val),
  (fetch A now req).1 = .ok p → p.get? "iss" = some (.str A.entityId)

/-- C55 does not hold: the issuer named in the request is the issuer of the statement. -/
theorem C55_violation : ¬ C55_full := by
  intro h
  exact absurd (h (Ex.A [("jwks", .int 1)]) 0 { iss := some "https://evil", sub := some "https://leaf" } _ rfl) (by decide +kernel)

/-- C55, what holds: a request that names no issuer or the authority itself, or no subject, is answered in the authority's name. -/
theorem C55_partial (A : Authority) (now : Int) (req : FetchRequest) (p : Dict Val)
    (hr : req.iss = none ∨ req.iss = some "" ∨ req.iss = some A.entityId ∨ req.sub = none ∨ req.sub = some "")
    (h : (fetch A now req).1 = .ok p) : p.get? "iss" = some (.str A.entityId) := by
  by_cases ho : ∀ sub, req.sub = some sub → sub = "" ∨ sub = req.issuer A
  · rw [fetch_own ho] at h
    have h' : ownStatement A now = .ok p := h
    unfold ownStatement at h'
    exact (C59_payload _ _ _ _ _ _ _ h').2.1
  · have : ∃ sub, req.sub = some sub ∧ ¬ (sub = "" ∨ sub = req.issuer A) :=
      Classical.byContradiction fun hn => ho fun sub hs => Classical.byContradiction fun hc => hn ⟨sub, hs, hc⟩
    obtain ⟨sub, hs, hn⟩ := this
    rw [not_or] at hn
    obtain ⟨reg, kw, -, -, -, hc⟩ := fetch_foreign hs hn.1 hn.2 h
    rw [(C59_payload _ _ _ _ _ _ _ hc).2.1]
    congr 2
    unfold FetchRequest.issuer
    rcases hr with hr | hr | hr | hr | hr
    · rw [hr]
    · rw [hr]; simp
    · rw [hr]; simp
    · rw [hr] at hs; cases hs
    · rw [hr] at hs; cases hs; exact absurd rfl hn.1

example : ∃ p, (fetch (Ex.A [("jwks", .int 1)]) 0 { iss := some "https://ta", sub := some "https://leaf" }).1 = .ok p ∧
    p.get? "iss" = some (.str "https://ta") := ⟨_, rfl, by decide +kernel⟩

/-! ## C56 -/

/-- The authority after a history of requests, each with its time. -/
def after (A : Authority) : List (Int × FetchRequest) → Authority
  | [] => A
  | (t, req) :: rs => after (fetch A t req).2 rs

/-- C56 in full: a request gets the same answer after any history of requests as before it. -/
def C56_full : Prop := ∀ (A : Authority) (hist : List (Int × FetchRequest)) (now : Int) (req : FetchRequest),
  (fetch (after A hist) now req).1 = (fetch A now req).1

/-- C56 does not hold: one request in another issuer's name and the statements issued later name that issuer as the subordinate's authority. -/
theorem C56_violation : ¬ C56_full := by
  intro h
  exact absurd (h (Ex.A [("jwks", .int 1)]) [(0, { iss := some "https://evil", sub := some "https://leaf" })] 0 { sub := some "https://leaf" })
    (by decide +kernel)

/-- Requests that can not leave a trace: they name no issuer or the authority itself, or concern an entity registered with authority hints. -/
def Harmless (A : Authority) (req : FetchRequest) : Prop :=
  req.iss = none ∨ req.iss = some "" ∨ req.iss = some A.entityId ∨
    ∀ sub reg, req.sub = some sub → A.subordinate.get? sub = some reg → reg.has "authority_hints" = true

/-- What an entry has become: as registered, or as a fetch leaves it. -/
def Settled (A A' : Authority) : Prop :=
  A'.entityId = A.entityId ∧ A'.ownKeys = A.ownKeys ∧ A'.metadata = A.metadata ∧ A'.hints = A.hints ∧ A'.policy = A.policy ∧
    ∀ sub, A'.subordinate.get? sub = A.subordinate.get? sub ∨
      ∃ reg, A.subordinate.get? sub = some reg ∧ reg ≠ [] ∧ A'.subordinate.get? sub = some (withPolicies A sub (addHints A.entityId reg)).2

theorem has_true_get? (d : Dict Val) (k : String) : d.has k = true ↔ (d.get? k).isSome = true := Iff.rfl

theorem withPolicies_congr {A A' : Authority} (h : A'.policy = A.policy) (sub : String) (r : Dict Val) : withPolicies A' sub r = withPolicies A sub r := by
  unfold withPolicies; rw [h]

theorem has_addHints (i : String) (r : Dict Val) : (addHints i r).has "authority_hints" = true := by
  unfold addHints
  split
  · assumption
  · rw [has_true_get?, Dict.get?_set_self]; rfl

theorem withPolicies_snd (A : Authority) (sub : String) (r : Dict Val) :
    (withPolicies A sub r).2 = match A.policy.get? sub with | some (p :: ps) => r.update (p :: ps) | _ => r := by
  have rest : ∀ x : Except PyErr (Dict Val) × Dict Val, x = (match r.get? "entity_types" with
      | none => (.ok r, r)
      | some types =>
        match pyIter types with
        | .error e => (.error e, r)
        | .ok ts =>
          match typePolicies A.policy ts [] [] with
          | .error e => (.error e, r)
          | .ok ([], []) => (.ok (dropTypes r), r)
          | .ok (md, mp) => (.ok (Dict.update (dropTypes r) [("metadata", .obj md), ("metadata_policy", .obj mp)]), r)) → x.2 = r := by
    intro x hx
    subst hx
    split
    · rfl
    · split
      · rfl
      · split <;> rfl
  cases hp : A.policy.get? sub with
  | none => exact rest _ (by simp only [withPolicies, hp]; rfl)
  | some q =>
    cases q with
    | nil => exact rest _ (by simp only [withPolicies, hp]; rfl)
    | cons p ps => simp only [withPolicies, hp]

theorem has_withPolicies (A : Authority) (sub : String) (r : Dict Val) (h : r.has "authority_hints" = true) :
    (withPolicies A sub r).2.has "authority_hints" = true := by
  rw [withPolicies_snd]
  split
  · rw [has_true_get?, Dict.get?_update]
    rw [has_true_get?] at h
    simp [h]
  · exact h

theorem withPolicies_settled (A : Authority) (sub : String) (r : Dict Val) :
    withPolicies A sub (withPolicies A sub r).2 = withPolicies A sub r := by
  cases hp : A.policy.get? sub with
  | none => rw [show (withPolicies A sub r).2 = r by rw [withPolicies_snd, hp]]
  | some q =>
    cases q with
    | nil => rw [show (withPolicies A sub r).2 = r by rw [withPolicies_snd, hp]]
    | cons p ps => rw [withPolicies_snd, hp]; simp only [withPolicies, hp]; rw [update_update]

theorem addHints_of_has (i : String) (r : Dict Val) (h : r.has "authority_hints" = true) : addHints i r = r := by
  unfold addHints; rw [if_pos h]

theorem ownIssuer_or {A : Authority} {req : FetchRequest} (h : Harmless A req) :
    req.issuer A = A.entityId ∨ ∀ sub reg, req.sub = some sub → A.subordinate.get? sub = some reg → reg.has "authority_hints" = true := by
  unfold FetchRequest.issuer
  rcases h with h | h | h | h
  · left; rw [h]
  · left; rw [h]; simp
  · left; rw [h]; simp
  · exact .inr h

theorem settled_ne_nil (A : Authority) (sub : String) (r : Dict Val) (i : String) : (withPolicies A sub (addHints i r)).2 ≠ [] := by
  intro h
  have := has_withPolicies A sub _ (has_addHints i r)
  rw [h] at this
  simp [Dict.has] at this

/-- A fetch on a settled authority does what it does on the original one. -/
theorem fetch_settled {A A' : Authority} (hS : Settled A A') (now : Int) (req : FetchRequest)
    (hH : req.issuer A = A.entityId ∨ ∀ sub reg, req.sub = some sub → A.subordinate.get? sub = some reg → reg.has "authority_hints" = true) :
    (fetch A' now req).1 = (fetch A now req).1 ∧ Settled A (fetch A' now req).2 := by
  obtain ⟨he, hk, hm, hh, hp, hsub⟩ := hS
  have hS : Settled A A' := ⟨he, hk, hm, hh, hp, hsub⟩
  have hi : req.issuer A' = req.issuer A := by unfold FetchRequest.issuer; rw [he]
  have hown : ownStatement A' now = ownStatement A now := by unfold ownStatement; rw [he, hk, hm, hh]
  by_cases ho : ∀ sub, req.sub = some sub → sub = "" ∨ sub = req.issuer A
  · rw [fetch_own ho, fetch_own (by rw [hi]; exact ho), hown]
    exact ⟨rfl, hS⟩
  · have : ∃ sub, req.sub = some sub ∧ ¬ (sub = "" ∨ sub = req.issuer A) :=
      Classical.byContradiction fun hn => ho fun sub hs => Classical.byContradiction fun hc => hn ⟨sub, hs, hc⟩
    obtain ⟨sub, hs, hn⟩ := this
    rw [not_or] at hn
    -- what is looked up
    have key : ∀ reg, A.subordinate.get? sub = some reg → addHints (req.issuer A) reg = addHints A.entityId reg := by
      intro reg hreg
      rcases hH with h | h
      · rw [h]
      · rw [addHints_of_has _ _ (h sub reg hs hreg), addHints_of_has _ _ (h sub reg hs hreg)]
    unfold fetch
    simp only [hs, hi, hn.1, hn.2, or_self, if_false]
    rcases hsub sub with hsame | ⟨reg, hreg, hne, hset⟩
    · rw [hsame]
      cases hreg : A.subordinate.get? sub with
      | none => exact ⟨rfl, hS⟩
      | some reg =>
        cases reg with
        | nil => exact ⟨rfl, hS⟩
        | cons x xs =>
          simp only
          rw [withPolicies_congr hp, key _ hreg]
          have hS' : ∀ r, (withPolicies A sub (addHints A.entityId (x :: xs))).2 = r →
              Settled A { A' with subordinate := A'.subordinate.set sub r } := by
            intro r hr
            refine ⟨he, hk, hm, hh, hp, fun s => ?_⟩
            by_cases hss : sub = s
            · subst hss
              right
              exact ⟨x :: xs, hreg, by simp, by simp only [Dict.get?_set_self, hr]⟩
            · simp only [Dict.get?_set_ne _ _ hss]; exact hsub s
          generalize withPolicies A sub (addHints A.entityId (x :: xs)) = w at hS' ⊢
          obtain ⟨w1, w2⟩ := w
          cases w1 with
          | error e => exact ⟨rfl, hS' _ rfl⟩
          | ok kw => exact ⟨by simp only [hk], hS' _ rfl⟩
    · rw [hset, hreg]
      cases reg with
      | nil => exact absurd rfl hne
      | cons x xs =>
        have hne' := settled_ne_nil A sub (x :: xs) A.entityId
        have hadd : addHints (req.issuer A) (withPolicies A sub (addHints A.entityId (x :: xs))).2 = (withPolicies A sub (addHints A.entityId (x :: xs))).2 :=
          addHints_of_has _ _ (has_withPolicies A sub _ (has_addHints _ _))
        have hw := withPolicies_settled A sub (addHints A.entityId (x :: xs))
        have hS' : Settled A { A' with subordinate := A'.subordinate.set sub (withPolicies A sub (addHints A.entityId (x :: xs))).2 } := by
          refine ⟨he, hk, hm, hh, hp, fun s => ?_⟩
          by_cases hss : sub = s
          · subst hss
            right
            exact ⟨x :: xs, hreg, by simp, by simp only [Dict.get?_set_self]⟩
          · simp only [Dict.get?_set_ne _ _ hss]; exact hsub s
        generalize hR : (withPolicies A sub (addHints A.entityId (x :: xs))).2 = R at hne' hadd hw hS' ⊢
        cases R with
        | nil => exact absurd rfl hne'
        | cons y ys =>
          simp only
          rw [withPolicies_congr hp, hadd, hw, key _ hreg]
          generalize withPolicies A sub (addHints A.entityId (x :: xs)) = w at hR ⊢
          obtain ⟨w1, w2⟩ := w
          simp only at hR
          subst hR
          cases w1 with
          | error e => exact ⟨rfl, hS'⟩
          | ok kw => exact ⟨by simp only [hk], hS'⟩

theorem after_settled (A : Authority) (hist : List (Int × FetchRequest)) : ∀ A', Settled A A' → (∀ r ∈ hist, Harmless A r.2) → Settled A (after A' hist) := by
  induction hist with
  | nil => intro A' h _; exact h
  | cons r hist ih =>
    intro A' h hh
    obtain ⟨t, req⟩ := r
    exact ih _ (fetch_settled h t req (ownIssuer_or (hh (t, req) (List.mem_cons_self ..)))).2 (fun r hr => hh r (List.mem_cons_of_mem _ hr))

/-- C56, what holds: after any history of harmless requests, answered or refused, at whatever times, each harmless request gets the answer it
would have got at the start. Missing: requests that name another issuer for an entity registered without authority hints. -/
theorem C56_partial (A : Authority) (hist : List (Int × FetchRequest)) (now : Int) (req : FetchRequest)
    (hh : ∀ r ∈ hist, Harmless A r.2) (hr : Harmless A req) : (fetch (after A hist) now req).1 = (fetch A now req).1 :=
  (fetch_settled (after_settled A hist A ⟨rfl, rfl, rfl, rfl, rfl, fun _ => .inl rfl⟩ hh) now req (ownIssuer_or hr)).1

example : let A := Ex.A [("jwks", .int 1), ("entity_types", .arr [.str "op"])] [("https://leaf", [("metadata_policy", .obj [])])]
    (after A [(0, { sub := some "https://leaf" })]) ≠ A ∧
    (fetch (after A [(0, { sub := some "https://leaf" })]) 5 { sub := some "https://leaf" }).1 = (fetch A 5 { sub := some "https://leaf" }).1 := by
  decide +kernel

/-- Whatever the requests, the policies and the set of registered subordinates do not change. -/
theorem C56_registry (A : Authority) (hist : List (Int × FetchRequest)) :
    (after A hist).policy = A.policy ∧ (after A hist).entityId = A.entityId ∧
      ∀ sub, ((after A hist).subordinate.get? sub).isSome = (A.subordinate.get? sub).isSome := by
  induction hist generalizing A with
  | nil => exact ⟨rfl, rfl, fun _ => rfl⟩
  | cons r hist ih =>
    obtain ⟨t, req⟩ := r
    have one : (fetch A t req).2.policy = A.policy ∧ (fetch A t req).2.entityId = A.entityId ∧
        ∀ sub, ((fetch A t req).2.subordinate.get? sub).isSome = (A.subordinate.get? sub).isSome := by
      unfold fetch
      simp only
      split
      · exact ⟨rfl, rfl, fun _ => rfl⟩
      · split
        · exact ⟨rfl, rfl, fun _ => rfl⟩
        · split
          · exact ⟨rfl, rfl, fun _ => rfl⟩
          · exact ⟨rfl, rfl, fun _ => rfl⟩
          · rename_i sub _ _ _ x xs hreg
            have : ∀ (r : Dict Val) s, ((A.subordinate.set sub r).get? s).isSome = (A.subordinate.get? s).isSome := by
              intro r s
              by_cases hs : sub = s
              · subst hs; rw [hreg, Dict.get?_set_self]; rfl
              · rw [Dict.get?_set_ne _ _ hs]
            split
            · exact ⟨rfl, rfl, this _⟩
            · exact ⟨rfl, rfl, this _⟩
    obtain ⟨h1, h2, h3⟩ := ih (fetch A t req).2
    exact ⟨h1.trans one.1, h2.trans one.2.1, fun s => (h3 s).trans (one.2.2 s)⟩

/-! ## C84 -/

/-- The policies by entity type: exactly those registered for the types, under the type. -/
theorem typePolicies_get? (policy : Dict (Dict Val)) : ∀ (ts : List Val) (md mp md' mp' : Dict Val),
    typePolicies policy ts md mp = .ok (md', mp') →
    (∀ s, md'.get? s = if .str s ∈ ts then ((policy.get? s).bind (·.get? "metadata")).or (md.get? s) else md.get? s) ∧
    (∀ s, mp'.get? s = if .str s ∈ ts then ((policy.get? s).bind (·.get? "metadata_policy")).or (mp.get? s) else mp.get? s) := by
  intro ts
  induction ts with
  | nil =>
    intro md mp md' mp' h
    simp only [typePolicies, Except.ok.injEq, Prod.mk.injEq] at h
    obtain ⟨rfl, rfl⟩ := h
    simp
  | cons t ts ih =>
    intro md mp md' mp' h
    have skip : ∀ (s : String), Val.str s ≠ t → (Val.str s ∈ t :: ts ↔ Val.str s ∈ ts) := by
      intro s hs; simp [hs]
    cases t with
    | str u =>
      simp only [typePolicies] at h
      cases hp : policy.get? u with
      | none =>
        simp only [hp] at h
        obtain ⟨i1, i2⟩ := ih _ _ _ _ h
        constructor
        · intro s
          rw [i1]
          by_cases hu : u = s
          · subst hu; simp [hp]
          · have : (Val.str s ∈ Val.str u :: ts) = (Val.str s ∈ ts) := by
              rw [eq_iff_iff]; exact skip s (by simpa using Ne.symm hu)
            simp only [this]
        · intro s
          rw [i2]
          by_cases hu : u = s
          · subst hu; simp [hp]
          · have : (Val.str s ∈ Val.str u :: ts) = (Val.str s ∈ ts) := by
              rw [eq_iff_iff]; exact skip s (by simpa using Ne.symm hu)
            simp only [this]
      | some p =>
        simp only [hp] at h
        obtain ⟨i1, i2⟩ := ih _ _ _ _ h
        constructor
        · intro s
          rw [i1]
          by_cases hu : u = s
          · subst hu
            simp only [hp, Option.bind_some, List.mem_cons, true_or, if_true]
            cases hm : p.get? "metadata" <;> simp
          · have : (Val.str s ∈ Val.str u :: ts) = (Val.str s ∈ ts) := by
              rw [eq_iff_iff]; exact skip s (by simpa using Ne.symm hu)
            simp only [this]
            cases hm : p.get? "metadata" <;> simp [Dict.get?_set, hu]
        · intro s
          rw [i2]
          by_cases hu : u = s
          · subst hu
            simp only [hp, Option.bind_some, List.mem_cons, true_or, if_true]
            cases hm : p.get? "metadata_policy" <;> simp
          · have : (Val.str s ∈ Val.str u :: ts) = (Val.str s ∈ ts) := by
              rw [eq_iff_iff]; exact skip s (by simpa using Ne.symm hu)
            simp only [this]
            cases hm : p.get? "metadata_policy" <;> simp [Dict.get?_set, hu]
    | null => simp only [typePolicies, Val.hashable, if_true] at h; simpa using ih _ _ _ _ h
    | bool b => simp only [typePolicies, Val.hashable, if_true] at h; simpa using ih _ _ _ _ h
    | int b => simp only [typePolicies, Val.hashable, if_true] at h; simpa using ih _ _ _ _ h
    | arr b => simp [typePolicies, Val.hashable] at h
    | obj b => simp [typePolicies, Val.hashable] at h

/-- C84: a subordinate statement states the policy registered for that entity; if there is none, it states under each entity type registered
for the subordinate the policy registered for the type, and no other type's. -/
theorem C84_policies (A : Authority) (now : Int) (req : FetchRequest) (sub : String) (p reg : Dict Val)
    (hs : req.sub = some sub) (h1 : sub ≠ "") (h2 : sub ≠ req.issuer A) (hreg : A.subordinate.get? sub = some reg)
    (h : (fetch A now req).1 = .ok p) :
    (∀ q v, A.policy.get? sub = some q → q.get? "metadata_policy" = some v → v.truthy = true → p.get? "metadata_policy" = some v) ∧
    (∀ ts, ((A.policy.get? sub).getD [] = []) → reg.get? "entity_types" = some (.arr ts) →
      (∀ t q v, .str t ∈ ts → A.policy.get? t = some q → q.get? "metadata_policy" = some v →
        ∃ mp, p.get? "metadata_policy" = some (.obj mp) ∧ Dict.get? mp t = some v) ∧
      (∀ mp t v, reg.get? "metadata_policy" = none → p.get? "metadata_policy" = some (.obj mp) → Dict.get? mp t = some v →
        .str t ∈ ts ∧ ∃ q, A.policy.get? t = some q ∧ q.get? "metadata_policy" = some v)) := by
  obtain ⟨reg', kw, hr, hne, hw, hc⟩ := fetch_foreign hs h1 h2 h
  rw [hreg] at hr
  obtain rfl := Option.some.inj hr
  have hp := (C59_payload _ _ _ _ _ _ _ hc).2.2.2.1 "metadata_policy" (by simp)
  constructor
  · intro q v hq hv ht
    cases q with
    | nil => simp at hv
    | cons a as =>
      simp only [withPolicies, hq, Except.ok.injEq] at hw
      rw [hp, ← hw, Dict.get?_update, hv]
      simp [Option.filter, ht]
  · intro ts hnil hts
    have hts' : (addHints (req.issuer A) reg).get? "entity_types" = some (.arr ts) := by
      rw [get?_addHints _ _ _ (by decide), hts]
    have hmp' : (addHints (req.issuer A) reg).get? "metadata_policy" = reg.get? "metadata_policy" := get?_addHints _ _ _ (by decide)
    generalize addHints (req.issuer A) reg = r at hw hts' hmp'
    have hw' : (match typePolicies A.policy ts [] [] with
        | .error e => (Except.error e, r)
        | .ok ([], []) => (.ok (dropTypes r), r)
        | .ok (md, mp) => (.ok (Dict.update (dropTypes r) [("metadata", .obj md), ("metadata_policy", .obj mp)]), r)).1 = .ok kw := by
      cases hq : A.policy.get? sub with
      | none => simp only [withPolicies, hq, hts', pyIter] at hw; exact hw
      | some q =>
        rw [hq] at hnil
        simp only [Option.getD_some] at hnil
        subst hnil
        simp only [withPolicies, hq, hts', pyIter] at hw
        exact hw
    cases htp : typePolicies A.policy ts [] [] with
    | error e => rw [htp] at hw'; cases hw'
    | ok x =>
      obtain ⟨md, mp⟩ := x
      obtain ⟨t1, t2⟩ := typePolicies_get? _ _ _ _ _ _ htp
      rw [htp] at hw'
      have hcase : (md = [] ∧ mp = [] ∧ kw = dropTypes r) ∨ kw = Dict.update (dropTypes r) [("metadata", .obj md), ("metadata_policy", .obj mp)] := by
        cases md with
        | nil =>
          cases mp with
          | nil => left; exact ⟨rfl, rfl, by simpa using hw'.symm⟩
          | cons b bs => right; simpa using hw'.symm
        | cons b bs => right; simpa using hw'.symm
      have hdr : (dropTypes r).get? "metadata_policy" = reg.get? "metadata_policy" := by rw [get?_dropTypes _ _ (by decide), hmp']
      constructor
      · intro t q v ht hq hv
        have hmt : mp.get? t = some v := by rw [t2 t, if_pos ht, hq]; simp [hv]
        rcases hcase with ⟨-, rfl, -⟩ | rfl
        · simp at hmt
        · refine ⟨mp, ?_, hmt⟩
          rw [hp, Dict.get?_update]
          cases mp with
          | nil => simp at hmt
          | cons b bs => simp [Dict.get?_cons, Option.filter, Val.truthy]
      · intro mp2 t v hno hpp hm
        rcases hcase with ⟨-, -, rfl⟩ | rfl
        · rw [hp, hdr, hno] at hpp; simp [Option.filter] at hpp
        · rw [hp, Dict.get?_update] at hpp
          simp only [Dict.get?_cons, String.reduceEq, if_false, if_true, Option.some_or] at hpp
          have hmm : mp2 = mp := by
            by_cases hb : (Val.obj mp).truthy = true
            · simp only [Option.filter, hb, if_true, Option.some.injEq, Val.obj.injEq] at hpp; exact hpp.symm
            · simp [Option.filter, hb] at hpp
          subst hmm
          rw [t2 t] at hm
          by_cases ht : Val.str t ∈ ts
          · rw [if_pos ht] at hm
            refine ⟨ht, ?_⟩
            cases hq : A.policy.get? t with
            | none => simp [hq] at hm
            | some q => exact ⟨q, rfl, by simpa [hq] using hm⟩
          · rw [if_neg ht] at hm; simp at hm

example : ∃ p, (fetch (Ex.A [("jwks", .int 1), ("entity_types", .arr [.str "op", .str "rp"])]
      [("op", [("metadata_policy", .int 4)]), ("rp", []), ("other", [("metadata_policy", .int 5)])]) 0 { sub := some "https://leaf" }).1 = .ok p ∧
    p.get? "metadata_policy" = some (.obj [("op", .int 4)]) := ⟨_, rfl, by decide +kernel⟩

/-! ## C85 -/

/-- C85 in full: metadata registered with a subordinate that has no policy of its own is in the statements about it. -/
def C85_full : Prop := ∀ (A : Authority) (now : Int) (req : FetchRequest) (sub : String) (reg p : Dict Val) (v : Val),
  req.sub = some sub → sub ≠ "" → sub ≠ req.issuer A → A.subordinate.get? sub = some reg → A.policy.get? sub = none →
    reg.get? "metadata" = some v → v.truthy = true → (fetch A now req).1 = .ok p → p.get? "metadata" = some v

/-- C85 does not hold: as soon as one of its entity types has a metadata policy, the metadata registered with the subordinate is dropped. -/
theorem C85_violation : ¬ C85_full := by
  intro h
  exact absurd (h (Ex.A [("jwks", .int 1), ("entity_types", .arr [.str "op"]), ("metadata", .obj [("op", .obj [("contacts", .int 3)])])]
    [("op", [("metadata_policy", .int 4)])]) 0 { sub := some "https://leaf" } "https://leaf" _ _ _ rfl (by decide) (by decide) rfl rfl rfl rfl rfl)
    (by decide +kernel)

/-- C85, what holds: it is stated if no policy is registered for the subordinate or for any of its entity types. Missing: subordinates with a
policy for one of their entity types. -/
theorem C85_partial (A : Authority) (now : Int) (req : FetchRequest) (sub : String) (reg p : Dict Val) (v : Val)
    (hs : req.sub = some sub) (h1 : sub ≠ "") (h2 : sub ≠ req.issuer A) (hreg : A.subordinate.get? sub = some reg)
    (hp : A.policy.get? sub = none) (ht : ∀ ts t, reg.get? "entity_types" = some (.arr ts) → .str t ∈ ts → A.policy.get? t = none)
    (ht' : ∀ x, reg.get? "entity_types" = some x → ∃ ts, x = .arr ts)
    (hv : reg.get? "metadata" = some v) (hvt : v.truthy = true) (h : (fetch A now req).1 = .ok p) : p.get? "metadata" = some v := by
  obtain ⟨reg', kw, hr, hne, hw, hc⟩ := fetch_foreign hs h1 h2 h
  rw [hreg] at hr
  obtain rfl := Option.some.inj hr
  rw [(C59_payload _ _ _ _ _ _ _ hc).2.2.2.1 "metadata" (by simp)]
  have hm : (addHints (req.issuer A) reg).get? "metadata" = some v := by rw [get?_addHints _ _ _ (by decide), hv]
  have he : (addHints (req.issuer A) reg).get? "entity_types" = reg.get? "entity_types" := get?_addHints _ _ _ (by decide)
  generalize addHints (req.issuer A) reg = r at hw hm he
  simp only [withPolicies, hp, he] at hw
  have goal : kw.get? "metadata" = some v := by
    cases hts : reg.get? "entity_types" with
    | none => rw [hts] at hw; simp only [Except.ok.injEq] at hw; rw [← hw, hm]
    | some x =>
      obtain ⟨ts, rfl⟩ := ht' x hts
      rw [hts] at hw
      simp only [pyIter] at hw
      cases htp : typePolicies A.policy ts [] [] with
      | error e => rw [htp] at hw; cases hw
      | ok y =>
        obtain ⟨md, mp⟩ := y
        obtain ⟨t1, t2⟩ := typePolicies_get? _ _ _ _ _ _ htp
        have e1 : md = [] := by
          cases md with
          | nil => rfl
          | cons b bs =>
            have := t1 b.1
            rw [Dict.get?_cons, if_pos rfl] at this
            by_cases hb : Val.str b.1 ∈ ts
            · rw [if_pos hb, ht ts b.1 hts hb] at this; simp at this
            · rw [if_neg hb] at this; simp at this
        have e2 : mp = [] := by
          cases mp with
          | nil => rfl
          | cons b bs =>
            have := t2 b.1
            rw [Dict.get?_cons, if_pos rfl] at this
            by_cases hb : Val.str b.1 ∈ ts
            · rw [if_pos hb, ht ts b.1 hts hb] at this; simp at this
            · rw [if_neg hb] at this; simp at this
        subst e1 e2
        rw [htp] at hw
        simp only [Except.ok.injEq] at hw
        rw [← hw, get?_dropTypes _ _ (by decide), hm]
  rw [goal]
  simp [Option.filter, hvt]

example : ∃ p, (fetch (Ex.A [("jwks", .int 1), ("entity_types", .arr [.str "op"]), ("metadata", .obj [("op", .int 3)])] [("rp", [("metadata_policy", .int 4)])]) 0
    { sub := some "https://leaf" }).1 = .ok p ∧ p.get? "metadata" = some (.obj [("op", .int 3)]) := ⟨_, rfl, by decide +kernel⟩

/-! ## C86 -/

/-- C86: the published entity configuration is by the entity about itself, with its own keys, its metadata, its authority hints, its trust
marks, and nothing else. -/
theorem C86_configuration (A : Authority) (now : Int) (tms : Val) :
    ∃ p, entityConfiguration A now tms = .ok p ∧ p.get? "iss" = some (.str A.entityId) ∧ p.get? "sub" = some (.str A.entityId) ∧
      p.get? "jwks" = some A.ownKeys ∧ p.get? "metadata" = (some A.metadata).filter Val.truthy ∧
      p.get? "authority_hints" = (some A.hints).filter Val.truthy ∧ p.get? "trust_marks" = (some tms).filter Val.truthy ∧
      p.get? "iat" = some (.int now) ∧ p.get? "exp" = some (.int (now + 86400)) ∧
      ∀ k v, p.get? k = some v → k ∈ ["iss", "sub", "jwks", "metadata", "authority_hints", "trust_marks", "iat", "exp"] := by
  have hok : ∃ p, entityConfiguration A now tms = .ok p := by
    unfold entityConfiguration createStatement
    rw [if_neg]
    · by_cases h : tms.truthy = true
      · simp only [h, if_true]; exact ⟨_, rfl⟩
      · simp only [h, Bool.false_eq_true, if_false]; exact ⟨_, rfl⟩
    · by_cases h : tms.truthy = true <;> simp [h, Dict.has, Dict.get?_cons]
  obtain ⟨p, hp⟩ := hok
  refine ⟨p, hp, ?_⟩
  obtain ⟨c1, c2, c3, c4, -, c6, -, c8, c9, c10, c11, c12⟩ := C59_payload _ _ _ _ _ _ _ hp
  have g : ∀ k, Dict.get? ([("metadata", A.metadata), ("authority_hints", A.hints)] ++ (if tms.truthy then [("trust_marks", tms)] else [])) k =
      if k = "metadata" then some A.metadata else if k = "authority_hints" then some A.hints
      else if k = "trust_marks" then (some tms).filter Val.truthy else none := by
    intro k
    by_cases h : tms.truthy = true
    · simp [h, Dict.get?_cons, Option.filter, eq_comm (b := k)]
    · simp [h, Dict.get?_cons, Option.filter, eq_comm (b := k)]
  simp only [g] at c4 c6 c8 c9 c12
  refine ⟨c2, c1, ?_, ?_, ?_, ?_, c3, ?_, ?_⟩
  · simpa [Val.truthy] using c8
  · simpa using c4 "metadata" (by simp)
  · simpa using c6
  · simpa using c12 "trust_marks" (by decide) (by decide)
  · exact c9 86400 (.inr (by simp)) (by decide)
  · intro k v hk
    refine Classical.byContradiction fun hn => ?_
    simp only [List.mem_cons, List.not_mem_nil, or_false, not_or] at hn
    by_cases hnp : k ∈ namedParams
    · simp only [namedParams, List.mem_cons, List.not_mem_nil, or_false] at hnp
      rcases hnp with rfl | rfl | rfl | rfl | rfl | rfl | rfl
      · exact hn.2.2.2.1 rfl
      · have := c4 "metadata_policy" (by simp); rw [hk] at this; simp at this
      · exact hn.2.2.2.2.1 rfl
      · rw [c10] at hk; cases hk
      · have := c4 "aud" (by simp); rw [hk] at this; simp at this
      · rw [c11] at hk; cases hk
      · have := c4 "constraints" (by simp); rw [hk] at this; simp at this
    · have := c12 k hnp (by simp [hn])
      rw [hk] at this
      simp [hn] at this

example : entityConfiguration (Ex.A []) 5 (.arr [.str "mark"]) = .ok [("sub", .str "https://ta"), ("metadata", .obj [("federation_entity", .obj [])]),
    ("trust_marks", .arr [.str "mark"]), ("jwks", .str "TAKEYS"), ("iss", .str "https://ta"), ("iat", .int 5), ("exp", .int 86405)] := by decide +kernel

end Fed.Server
