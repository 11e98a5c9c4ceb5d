import Verif.Policy.Merged
/-
Property C238: policies compare values and do nothing else with them. What is resolved is what `TrustChainPolicy._policy` of /repo/src/fedservice/entity/function/policy.py (358-371) makes of the statements (modelled in
`Policy/Combine` and `Policy/Operators`).
-/
namespace Fed.Policy
open Fed

mutual
/-- A value with other texts in it. The names of members stay. -/
def reword (ρ : String → String) : Val → Val
  | .str s => .str (ρ s)
  | .arr xs => .arr (rewordAll ρ xs)
  | .obj kvs => .obj (rewordMembers ρ kvs)
  | v => v
def rewordAll (ρ : String → String) : List Val → List Val
  | [] => []
  | x :: xs => reword ρ x :: rewordAll ρ xs
def rewordMembers (ρ : String → String) : List (String × Val) → List (String × Val)
  | [] => []
  | (k, x) :: kvs => (k, reword ρ x) :: rewordMembers ρ kvs
end

/-- The same for everything in a dictionary. -/
def Dict.mapv {α β : Type} (f : α → β) (d : Dict α) : Dict β := d.map fun p => (p.1, f p.2)

/-- A statement with other texts as values, in its metadata and in its policies; the names of types, claims and operators stay. -/
def PStatement.reword (ρ : String → String) (es : PStatement) : PStatement :=
  ⟨Dict.mapv (Dict.mapv (Policy.reword ρ)) es.metadata, Dict.mapv (Dict.mapv (Dict.mapv (Policy.reword ρ))) es.policy⟩

/-- C238 in full: when texts are exchanged for other texts, one for one, in the values in all statements of a chain, then the entity is resolved to what it was resolved to before, with the same exchange, up to the order of lists, which is that of
Python sets. The empty text stays. -/
def C238_full : Prop :=
  ∀ (E E' : SetEnum Val) (K K' : SetEnum String) (ρ σ : String → String) (sups : List PStatement) (leaf : PStatement) (t : String) (m : Metadata),
    (∀ s, σ (ρ s) = s) → (∀ s, ρ (σ s) = s) → ρ "" = "" → policyFor E K sups leaf t = .ok (some m) →
    ∃ m', policyFor E' K' (sups.map (PStatement.reword ρ)) (leaf.reword ρ) t = .ok (some m') ∧ ∀ c, OptSetEq ((m.get? c).map (reword ρ)) (m'.get? c)

/-! ### Exchanging texts -/

mutual
theorem reword_reword {ρ σ : String → String} (h : ∀ s, σ (ρ s) = s) : ∀ v, reword σ (reword ρ v) = v
  | .str s => by simp [reword, h]
  | .arr xs => by simp only [reword]; rw [rewordAll_rewordAll h xs]
  | .obj kvs => by simp only [reword]; rw [rewordMembers_rewordMembers h kvs]
  | .null => rfl
  | .bool _ => rfl
  | .int _ => rfl
theorem rewordAll_rewordAll {ρ σ : String → String} (h : ∀ s, σ (ρ s) = s) : ∀ xs, rewordAll σ (rewordAll ρ xs) = xs
  | [] => rfl
  | x :: xs => by simp only [rewordAll]; rw [reword_reword h x, rewordAll_rewordAll h xs]
theorem rewordMembers_rewordMembers {ρ σ : String → String} (h : ∀ s, σ (ρ s) = s) : ∀ kvs, rewordMembers σ (rewordMembers ρ kvs) = kvs
  | [] => rfl
  | (k, x) :: kvs => by simp only [rewordMembers]; rw [reword_reword h x, rewordMembers_rewordMembers h kvs]
end

theorem rewordAll_eq (ρ : String → String) : ∀ xs, rewordAll ρ xs = xs.map (reword ρ)
  | [] => rfl
  | x :: xs => by simp only [rewordAll, List.map_cons]; rw [rewordAll_eq ρ xs]

/-- What is needed of an exchange of values. -/
structure Exchange (f g : Val → Val) : Prop where
  back : ∀ v, g (f v) = v
  forth : ∀ v, f (g v) = v
  list : ∀ xs, f (.arr xs) = .arr (xs.map f)
  bool : ∀ b, f (.bool b) = .bool b
  int : ∀ i, f (.int i) = .int i
  isList : ∀ v, (f v).isList = v.isList
  hashable : ∀ v, (f v).hashable = v.hashable
  truthy : ∀ v, (f v).truthy = v.truthy

theorem exchange_reword {ρ σ : String → String} (h1 : ∀ s, σ (ρ s) = s) (h2 : ∀ s, ρ (σ s) = s) (h0 : ρ "" = "") : Exchange (reword ρ) (reword σ) where
  back := reword_reword h1
  forth := reword_reword h2
  list xs := by simp only [reword]; rw [rewordAll_eq]
  bool b := rfl
  int i := rfl
  isList v := by cases v <;> rfl
  hashable v := by cases v <;> rfl
  truthy v := by
    cases v with
    | str s =>
      have h3 : σ "" = "" := (congrArg σ h0).symm.trans (h1 "")
      have : (ρ s = "") ↔ (s = "") := ⟨fun h => by rw [← h1 s, h, h3], fun h => by rw [h, h0]⟩
      show (ρ s != "") = (s != "")
      rw [Bool.eq_iff_iff]
      simp [this]
    | arr xs => cases xs <;> rfl
    | obj kvs => cases kvs <;> rfl
    | _ => rfl

namespace Exchange
variable {f g : Val → Val} (X : Exchange f g)
include X

theorem inj {a b : Val} : f a = f b ↔ a = b := ⟨fun h => by rw [← X.back a, h, X.back], fun h => by rw [h]⟩

theorem mem {x : Val} {xs : List Val} : f x ∈ xs.map f ↔ x ∈ xs := by
  rw [List.mem_map]
  exact ⟨fun ⟨y, h1, h2⟩ => X.inj.1 h2 ▸ h1, fun h => ⟨x, h, rfl⟩⟩

theorem eq_bool {v : Val} {b : Bool} : f v = .bool b ↔ v = .bool b := ⟨fun h => X.inj.1 (h.trans (X.bool b).symm), fun h => by rw [h, X.bool]⟩
theorem eq_int {v : Val} {i : Int} : f v = .int i ↔ v = .int i := ⟨fun h => X.inj.1 (h.trans (X.int i).symm), fun h => by rw [h, X.int]⟩

theorem mkSet (xs : List Val) : mkSet (xs.map f) = (Fed.mkSet xs).map (List.map f) := by
  unfold Fed.mkSet
  have : (xs.map f).all Val.hashable = xs.all Val.hashable := by
    rw [List.all_map]
    congr 1
    funext x
    exact X.hashable x
  rw [this]
  split <;> rfl

theorem pySet {v : Val} (h : v.isList = true) : pySet (f v) = (Fed.pySet v).map (List.map f) := by
  cases v with
  | arr xs =>
    rw [X.list]
    exact X.mkSet xs
  | _ => cases h

theorem setOrSingleton (v : Val) : setOrSingleton (f v) = (Fed.setOrSingleton v).map (List.map f) := by
  by_cases h : v.isList = true
  · cases v with
    | arr xs =>
      rw [X.list]
      exact X.mkSet xs
    | _ => cases h
  · have h' : (f v).isList ≠ true := by rw [X.isList]; exact h
    have single : ∀ w : Val, w.isList ≠ true → Fed.setOrSingleton w = Fed.mkSet [w] := by
      intro w hw
      cases w <;> first | rfl | exact absurd rfl hw
    rw [single v h, single _ h']
    exact X.mkSet [v]

theorem inter (a b : List Val) : inter (a.map f) (b.map f) = (Policy.inter a b).map f := by
  unfold Policy.inter
  rw [List.filter_map]
  congr 1
  apply List.filter_congr
  intro x _
  simp [Function.comp, X.mem]

theorem diff (a b : List Val) : diff (a.map f) (b.map f) = (Policy.diff a b).map f := by
  unfold Policy.diff
  rw [List.filter_map]
  congr 1
  apply List.filter_congr
  intro x _
  simp [Function.comp, X.mem]

/-- A process that has the exchanged values in the order in which another one has the values. -/
def enum (E : SetEnum Val) : SetEnum Val where
  enum l := (E.enum (l.map g)).map f
  mem_enum l x := by
    rw [List.mem_map]
    constructor
    · rintro ⟨y, h1, rfl⟩
      rw [E.mem_enum, List.mem_map] at h1
      obtain ⟨z, h2, rfl⟩ := h1
      rw [X.forth]
      exact h2
    · intro h
      exact ⟨g x, (E.mem_enum _ _).2 (List.mem_map.2 ⟨x, h, rfl⟩), X.forth x⟩
  nodup_enum l := by
    refine List.Pairwise.map f (fun a b hab h => hab (X.inj.1 h)) (E.nodup_enum _)

theorem enum_map (E : SetEnum Val) (l : List Val) : (X.enum E).enum (l.map f) = (E.enum l).map f := by
  simp only [enum, List.map_map]
  congr 2
  rw [show (g ∘ f) = id from funext X.back]
  exact List.map_id l
end Exchange

/-! ### Dictionaries -/

section
variable {α β : Type} {f : α → β}

theorem mapv_get? (d : Dict α) (k : String) : (Dict.mapv f d).get? k = (d.get? k).map f := by
  induction d with
  | nil => rfl
  | cons p d ih =>
    simp only [Dict.mapv, List.map_cons] at ih ⊢
    rw [Dict.get?_cons, Dict.get?_cons]
    by_cases h : p.1 = k
    · rw [if_pos h, if_pos h]; rfl
    · rw [if_neg h, if_neg h]; exact ih

theorem mapv_keys (d : Dict α) : (Dict.mapv f d).keys = d.keys := by
  simp [Dict.mapv, Dict.keys, Function.comp]

theorem mapv_has (d : Dict α) (k : String) : (Dict.mapv f d).has k = d.has k := by
  simp [Dict.has, mapv_get?]

theorem mapv_isEmpty (d : Dict α) : (Dict.mapv f d).isEmpty = d.isEmpty := by
  cases d <;> rfl

theorem mapv_set (d : Dict α) (k : String) (v : α) : (Dict.mapv f d).set k (f v) = Dict.mapv f (d.set k v) := by
  induction d with
  | nil => rfl
  | cons p d ih =>
    simp only [Dict.mapv, List.map_cons, Dict.set] at ih ⊢
    split
    · rfl
    · rw [List.map_cons, ih]

theorem mapv_update (d e : Dict α) : (Dict.mapv f d).update (Dict.mapv f e) = Dict.mapv f (d.update e) := by
  induction e with
  | nil => rfl
  | cons p e ih =>
    show ((Dict.mapv f d).update (Dict.mapv f e)).set p.1 (f p.2) = _
    rw [ih, mapv_set]
    rfl

theorem mapv_filter (d : Dict α) (q : String → Bool) : (Dict.mapv f d).filter (fun p => q p.1) = Dict.mapv f (d.filter fun p => q p.1) := by
  simp only [Dict.mapv, List.filter_map]
  rfl

theorem mapv_append (d e : Dict α) : Dict.mapv f d ++ Dict.mapv f e = Dict.mapv f (d ++ e) := by simp [Dict.mapv]

theorem mapv_get (d : Dict α) (k : String) : (Dict.mapv f d).get k = (d.get k).map f := by
  unfold Dict.get
  rw [mapv_get?]
  cases d.get? k <;> rfl
end

/-! ### Combining -/

/-- What policies for a claim have to be like. `sets`: the claim has a set of values, and is always given a list; otherwise nobody says of what its values are a subset or superset. -/
structure Tame (sets : Bool) (cp : ClaimPolicy) : Prop where
  listed : ∀ n ∈ ["one_of", "subset_of", "superset_of"], ∀ v, cp.get? n = some v → v.isList = true
  single : sets = false → ∀ n ∈ ["subset_of", "superset_of"], cp.get? n = none
  several : sets = true → ∀ n ∈ ["value", "add", "default"], ∀ v, cp.get? n = some v → v.isList = true

section
variable {f g : Val → Val} (X : Exchange f g) (E : SetEnum Val) (K : SetEnum String) {sets : Bool}
include X

theorem combineInter_map {a b : Val} (ha : a.isList = true) (hb : b.isList = true) : combineInter (X.enum E) (f a) (f b) = (combineInter E a b).map f := by
  unfold combineInter
  rw [X.pySet ha, X.pySet hb]
  cases pySet a with
  | error e => rfl
  | ok x =>
    cases pySet b with
    | error e => rfl
    | ok y =>
      show Except.ok (Val.arr ((X.enum E).enum (inter (x.map f) (y.map f)))) = .ok (f (.arr (E.enum (inter x y))))
      rw [X.inter, X.enum_map, X.list]

theorem combineAdd_map (a b : Val) : combineAdd (X.enum E) (f a) (f b) = (combineAdd E a b).map f := by
  unfold combineAdd
  rw [X.setOrSingleton, X.setOrSingleton]
  cases setOrSingleton a with
  | error e => rfl
  | ok x =>
    cases setOrSingleton b with
    | error e => rfl
    | ok y =>
      show Except.ok (Val.arr ((X.enum E).enum (x.map f ++ y.map f))) = .ok (f (.arr (E.enum (x ++ y))))
      rw [← List.map_append, X.enum_map, X.list]

theorem doPolicy_map {a b : ClaimPolicy} (ha : Tame sets a) (hb : Tame sets b) {n : String} (hn : n ∈ combPolicy a b) :
    doPolicy (X.enum E) (Dict.mapv f a) (Dict.mapv f b) n = (doPolicy E a b n).map f := by
  have hn' := (mem_combPolicy.1 hn)
  unfold doPolicy
  split
  · next hs =>
    unfold doSubOneSuperAdd
    rw [mapv_get?, mapv_get?]
    cases h1 : a.get? n with
    | none =>
      cases h2 : b.get? n with
      | none => rw [h1, h2] at hn'; rcases hn'.2 with h | h <;> cases h
      | some y => rfl
    | some x =>
      cases h2 : b.get? n with
      | none => rfl
      | some y =>
        have : op2func (X.enum E) n (f x) (f y) = (op2func E n x y).map f := by
          unfold op2func
          split
          · exact combineAdd_map X E x y
          · next hna =>
            have hm : n ∈ ["one_of", "subset_of", "superset_of"] := by
              rcases hs with rfl | rfl | rfl | rfl
              · exact absurd rfl hna
              · simp
              · simp
              · simp
            exact combineInter_map X E (ha.listed n hm x h1) (hb.listed n hm y h2)
        simp only [Option.map_some, this]
        cases op2func E n x y with
        | error e => rfl
        | ok r =>
          show (if (f r).truthy = true then pure (f r) else throw PyErr.policyError) = Except.map f (if r.truthy = true then pure r else throw PyErr.policyError)
          rw [X.truthy]
          split <;> rfl
  · have same : ∀ F : Val → Val → Except PyErr Val, (∀ x y, F (f x) (f y) = (F x y).map f) → ∀ (o p : Option Val), (o.isSome ∨ p.isSome) →
        (match o.map f, p.map f with | some s, some c => F s c | some s, none => Except.ok s | none, some c => .ok c | none, none => .ok .null) =
          (match o, p with | some s, some c => F s c | some s, none => Except.ok s | none, some c => .ok c | none, none => .ok .null).map f := by
      intro F hF o p h
      cases o with
      | none =>
        cases p with
        | none => rcases h with h | h <;> cases h
        | some y => rfl
      | some x =>
        cases p with
        | none => rfl
        | some y => exact hF x y
    have eqs : ∀ x y : Val, (if f x = f y then Except.ok (f x) else throw PyErr.policyError) = Except.map f (if x = y then .ok x else throw PyErr.policyError) := by
      intro x y
      by_cases h : x = y
      · rw [if_pos h, if_pos (by rw [h])]; rfl
      · rw [if_neg h, if_neg (fun e => h (X.inj.1 e))]; rfl
    split
    · next h => subst h; unfold doValue; rw [mapv_get?, mapv_get?]; exact same (fun s c => if s = c then .ok s else throw .policyError) eqs _ _ hn'.2
    · split
      · next h => subst h; unfold doDefault; rw [mapv_get?, mapv_get?]; exact same (fun s c => if s = c then .ok s else throw .policyError) eqs _ _ hn'.2
      · split
        · next h =>
          subst h
          unfold doEssential
          rw [mapv_get?, mapv_get?]
          refine same (fun s c => if !s.truthy && c.truthy then .ok (.bool true) else .ok s) ?_ _ _ hn'.2
          intro x y
          simp only [X.truthy]
          split
          · simp [Except.map, X.bool]
          · rfl
        · rfl

theorem buildRule_map {a b : ClaimPolicy} (ha : Tame sets a) (hb : Tame sets b) : ∀ {ns : List String}, (∀ n ∈ ns, n ∈ combPolicy a b) →
    buildRule (X.enum E) (Dict.mapv f a) (Dict.mapv f b) ns = (buildRule E a b ns).map (Dict.mapv f)
  | [], _ => rfl
  | n :: ns, h => by
      unfold buildRule
      rw [doPolicy_map X E ha hb (h n (List.mem_cons_self ..)), buildRule_map ha hb (fun x hx => h x (List.mem_cons_of_mem _ hx))]
      cases doPolicy E a b n with
      | error e => rfl
      | ok v => cases buildRule E a b ns <;> rfl

theorem demandSubset_map {a b : Val} (ha : a.isList = true) (hb : b.isList = true) : demandSubset (f a) (f b) = demandSubset a b := by
  unfold demandSubset
  rw [X.pySet ha, X.pySet hb]
  cases pySet a with
  | error e => rfl
  | ok x =>
    cases pySet b with
    | error e => rfl
    | ok y =>
      show (if (diff (x.map f) (y.map f)).isEmpty = true then pure () else throw PyErr.policyError) = if (diff x y).isEmpty = true then pure () else throw PyErr.policyError
      rw [X.diff, List.isEmpty_map]

theorem consistency_map {ns : List String} {r : ClaimPolicy} (hr : Tame sets r) (hns : ∀ n ∈ ns, (r.get? n).isSome) : consistency ns (Dict.mapv f r) = consistency ns r := by
  have mem : ∀ {a b : List String}, sameSet a b = true → ∀ n ∈ b, n ∈ a := by
    intro a b h n hn
    unfold sameSet at h
    rw [Bool.and_eq_true, List.all_eq_true, List.all_eq_true] at h
    simpa using h.2 n hn
  -- where sets are named, everything is a list
  have lists : (∃ n ∈ ["subset_of", "superset_of"], n ∈ ns) → ∀ n ∈ ["one_of", "subset_of", "superset_of", "value", "add", "default"], ∀ v, r.get? n = some v → v.isList = true := by
    rintro ⟨n, hn, hn'⟩ k hk v hv
    have hs : sets = true := by
      cases hsets : sets with
      | true => rfl
      | false =>
        have := hns n hn'
        rw [hr.single hsets n hn] at this
        cases this
    simp only [List.mem_cons, List.not_mem_nil, or_false] at hk
    rcases hk with rfl | rfl | rfl | rfl | rfl | rfl
    · exact hr.listed _ (by simp) v hv
    · exact hr.listed _ (by simp) v hv
    · exact hr.listed _ (by simp) v hv
    · exact hr.several hs _ (by simp) v hv
    · exact hr.several hs _ (by simp) v hv
    · exact hr.several hs _ (by simp) v hv
  have two : ∀ n k, (∀ v, r.get? n = some v → v.isList = true) → (∀ v, r.get? k = some v → v.isList = true) →
      (do demandSubset (← (Dict.mapv f r).get n) (← (Dict.mapv f r).get k)) = (do demandSubset (← r.get n) (← r.get k) : Except PyErr Unit) := by
    intro n k h1 h2
    rw [mapv_get, mapv_get]
    unfold Dict.get
    cases h3 : r.get? n with
    | none => rfl
    | some x =>
      cases h4 : r.get? k with
      | none => rfl
      | some y => exact demandSubset_map X (h1 x h3) (h2 y h4)
  unfold consistency
  split
  · next h =>
    have L := lists ⟨"subset_of", by simp, mem h _ (by simp)⟩
    exact two _ _ (L _ (by simp)) (L _ (by simp))
  · split
    · next h =>
      have L := lists ⟨"subset_of", by simp, mem h _ (by simp)⟩
      rw [mapv_get, mapv_get, mapv_get]
      unfold Dict.get
      cases h3 : r.get? "superset_of" with
      | none => rfl
      | some x =>
        cases h4 : r.get? "subset_of" with
        | none => rfl
        | some y =>
          have t1 := demandSubset_map X (L "superset_of" (by simp) x h3) (L "subset_of" (by simp) y h4)
          cases h5 : r.get? "default" with
          | none =>
            show (demandSubset (f x) (f y) >>= fun _ => _) = _
            rw [t1]
            rfl
          | some z =>
            have t2 := demandSubset_map X (L "default" (by simp) z h5) (L "subset_of" (by simp) y h4)
            have t3 := demandSubset_map X (L "superset_of" (by simp) x h3) (L "default" (by simp) z h5)
            show (demandSubset (f x) (f y) >>= fun _ => demandSubset (f z) (f y) >>= fun _ => demandSubset (f x) (f z)) = _
            rw [t1, t2, t3]
            rfl
    · split
      · next h =>
        have L := lists ⟨"subset_of", by simp, mem h _ (by simp)⟩
        exact two _ _ (L _ (by simp)) (L _ (by simp))
      · split
        · next h =>
          have L := lists ⟨"superset_of", by simp, mem h _ (by simp)⟩
          exact two _ _ (L _ (by simp)) (L _ (by simp))
        · split
          · rw [mapv_get, mapv_get]
            unfold Dict.get
            cases h3 : r.get? "default" with
            | none => rfl
            | some d =>
              show (if (f d).isList = true then _ else _) = if d.isList = true then _ else _
              rw [X.isList]
              cases h4 : r.get? "one_of" with
              | none =>
                split
                · rfl
                · show (mkSet ([d].map f) >>= _) = (mkSet [d] >>= _)
                  rw [X.mkSet]
                  cases mkSet [d] <;> rfl
              | some y =>
                have hy := hr.listed "one_of" (by simp) y h4
                split
                · next hd => exact demandSubset_map X hd hy
                · show (mkSet ([d].map f) >>= fun x => pySet (f y) >>= _) = (mkSet [d] >>= fun x => pySet y >>= _)
                  rw [X.mkSet, X.pySet hy]
                  cases mkSet [d] with
                  | error e => rfl
                  | ok x =>
                    cases pySet y with
                    | error e => rfl
                    | ok z =>
                      show (if (diff (x.map f) (z.map f)).isEmpty = true then pure () else throw PyErr.policyError) = if (diff x z).isEmpty = true then pure () else throw PyErr.policyError
                      rw [X.diff, List.isEmpty_map]
          · split
            · next h =>
              have L := lists ⟨"subset_of", by simp, mem h _ (by simp)⟩
              exact two _ _ (L _ (by simp)) (L _ (by simp))
            · split
              · next h =>
                have L := lists ⟨"superset_of", by simp, mem h _ (by simp)⟩
                exact two _ _ (L _ (by simp)) (L _ (by simp))
              · rfl

omit X in
theorem doPolicy_list {a b : ClaimPolicy} {n : String} {v : Val} (hn : n ∈ combPolicy a b) (he : n ≠ "essential") (ha : ∀ v, a.get? n = some v → v.isList = true)
    (hb : ∀ v, b.get? n = some v → v.isList = true) (h : doPolicy E a b n = .ok v) : v.isList = true := by
  have hn' := (mem_combPolicy.1 hn)
  unfold doPolicy at h
  split at h
  · unfold doSubOneSuperAdd at h
    cases h1 : a.get? n with
    | none =>
      cases h2 : b.get? n with
      | none => rw [h1, h2] at hn'; rcases hn'.2 with h | h <;> cases h
      | some y => rw [h1, h2] at h; cases h; exact hb _ h2
    | some x =>
      cases h2 : b.get? n with
      | none => rw [h1, h2] at h; cases h; exact ha _ h1
      | some y =>
        rw [h1, h2] at h
        simp only [op2func] at h
        split at h
        · unfold combineAdd at h
          cases h3 : setOrSingleton x with
          | error e => simp [h3] at h
          | ok x' =>
            cases h4 : setOrSingleton y with
            | error e => simp [h3, h4] at h
            | ok y' =>
              simp only [h3, h4, ok_bind, except_pure] at h
              split at h
              · cases h; rfl
              · cases h
        · unfold combineInter at h
          cases h3 : pySet x with
          | error e => simp [h3] at h
          | ok x' =>
            cases h4 : pySet y with
            | error e => simp [h3, h4] at h
            | ok y' =>
              simp only [h3, h4, ok_bind, except_pure] at h
              split at h
              · cases h; rfl
              · cases h
  · have either : ∀ F : Val → Val → Except PyErr Val, (∀ x y v, F x y = .ok v → v = x) →
        (match a.get? n, b.get? n with | some s, some c => F s c | some s, none => Except.ok s | none, some c => .ok c | none, none => .ok .null) = .ok v → v.isList = true := by
      intro F hF h
      cases h1 : a.get? n with
      | none =>
        cases h2 : b.get? n with
        | none => rw [h1, h2] at hn'; rcases hn'.2 with h | h <;> cases h
        | some y => rw [h1, h2] at h; cases h; exact hb _ h2
      | some x =>
        cases h2 : b.get? n with
        | none => rw [h1, h2] at h; cases h; exact ha _ h1
        | some y => rw [h1, h2] at h; rw [hF x y v h]; exact ha _ h1
    have eqs : ∀ x y v : Val, (if x = y then Except.ok x else throw PyErr.policyError) = .ok v → v = x := by
      intro x y v h
      split at h
      · cases h; rfl
      · cases h
    split at h
    · next hv => subst hv; unfold doValue at h; exact either (fun s c => if s = c then .ok s else throw .policyError) eqs h
    · split at h
      · next hv => subst hv; unfold doDefault at h; exact either (fun s c => if s = c then .ok s else throw .policyError) eqs h
      · exfalso
        have := hn'.1
        simp only [policyFunctions, List.mem_cons, List.not_mem_nil, or_false] at this
        simp_all

omit X in
theorem tame_built {a b r : ClaimPolicy} (ha : Tame sets a) (hb : Tame sets b) (h : buildRule E a b (K.enum (combPolicy a b)) = .ok r) : Tame sets r := by
  obtain ⟨h1, h2⟩ := buildRule_ok h
  have one : ∀ n v, r.get? n = some v → n ≠ "essential" → (∀ v, a.get? n = some v → v.isList = true) → (∀ v, b.get? n = some v → v.isList = true) → v.isList = true := by
    intro n v hv he h3 h4
    by_cases hn : n ∈ combPolicy a b
    · obtain ⟨w, h5, h6⟩ := h1 n ((K.mem_enum _ _).2 hn)
      rw [hv] at h6
      cases h6
      exact doPolicy_list E hn he h3 h4 h5
    · rw [h2 n (fun h => hn ((K.mem_enum _ _).1 h))] at hv
      cases hv
  refine ⟨fun n hn v hv => one n v hv ?_ (ha.listed n hn) (hb.listed n hn), fun hs n hn => h2 n fun h => ?_, fun hs n hn v hv => one n v hv ?_ (ha.several hs n hn) (hb.several hs n hn)⟩
  · rintro rfl; simp at hn
  · have := (mem_combPolicy.1 ((K.mem_enum _ _).1 h)).2
    rw [ha.single hs n hn, hb.single hs n hn] at this
    rcases this with h | h <;> cases h
  · rintro rfl; simp at hn

theorem combineClaimPolicy_map {a b : ClaimPolicy} (ha : Tame sets a) (hb : Tame sets b) :
    combineClaimPolicy (X.enum E) K (Dict.mapv f a) (Dict.mapv f b) = (combineClaimPolicy E K a b).map (Dict.mapv f) := by
  unfold combineClaimPolicy
  rw [mapv_get?]
  cases h1 : a.get? "value" with
  | some x =>
    show combineFixed _ _ (f x) = (combineFixed a b x).map _
    have hrec : recognised (Dict.mapv f b) = recognised b := by simp [recognised, mapv_has]
    unfold combineFixed
    simp only [hrec, mapv_get?]
    split
    · rfl
    · cases h2 : b.get? "essential" with
      | some e =>
        simp only [Option.map_some]
        split
        · rfl
        · rfl
      | none =>
        simp only [Option.map_none]
        cases h3 : b.get? "value" with
        | none => rfl
        | some y =>
          simp only [Option.map_some, ne_eq, X.inj]
          split <;> rfl
  | none =>
    show combineFree _ _ _ _ = (combineFree E K a b).map _
    have hcomb : combPolicy (Dict.mapv f a) (Dict.mapv f b) = combPolicy a b := by simp [combPolicy, mapv_has]
    have hclash : essentialClash (Dict.mapv f a) (Dict.mapv f b) = essentialClash a b := by
      unfold essentialClash
      rw [mapv_get?, mapv_get?]
      cases a.get? "essential" with
      | none => rfl
      | some x =>
        cases b.get? "essential" with
        | none => rfl
        | some y => simp [X.inj, X.eq_bool]
    unfold combineFree
    simp only [hcomb, hclash]
    split
    · rfl
    · split
      · rfl
      · rw [buildRule_map X E ha hb (fun n hn => (K.mem_enum _ _).1 hn)]
        cases h2 : buildRule E a b (K.enum (combPolicy a b)) with
        | error e => rfl
        | ok r =>
          have : consistency (combPolicy a b) (Dict.mapv f r) = consistency (combPolicy a b) r :=
            consistency_map X (tame_built E K ha hb h2) (fun n hn => by
              obtain ⟨v, _, hv⟩ := (buildRule_ok h2).1 n ((K.mem_enum _ _).2 hn)
              rw [hv]; rfl)
          show (consistency (combPolicy a b) (Dict.mapv f r) >>= fun _ => pure (Dict.mapv f r)) = Except.map _ (consistency (combPolicy a b) r >>= fun _ => pure r)
          rw [this]
          cases consistency (combPolicy a b) r <;> rfl

omit X in
theorem tame_combined {a b r : ClaimPolicy} (ha : Tame sets a) (hb : Tame sets b) (h : combineClaimPolicy E K a b = .ok r) : Tame sets r := by
  unfold combineClaimPolicy at h
  split at h
  · next x hx =>
    rcases (combineFixed_ok hx h).2 with ⟨rfl, _⟩ | ⟨e, rfl, _, _⟩
    · exact ha
    · refine ⟨fun n hn v hv => ?_, fun hs n hn => ?_, fun hs n hn v hv => ?_⟩
      · simp only [List.mem_cons, List.not_mem_nil, or_false] at hn
        rcases hn with rfl | rfl | rfl <;> simp [Dict.get?] at hv
      · simp only [List.mem_cons, List.not_mem_nil, or_false] at hn
        rcases hn with rfl | rfl <;> simp [Dict.get?]
      · simp only [List.mem_cons, List.not_mem_nil, or_false] at hn
        rcases hn with rfl | rfl | rfl <;> simp [Dict.get?] at hv
        subst hv
        exact ha.several hs "value" (by simp) _ hx
  · unfold combineFree at h
    simp only at h
    split at h
    · cases h
    · split at h
      · cases h
      · cases h2 : buildRule E a b (K.enum (combPolicy a b)) with
        | error e => simp [h2] at h
        | ok rl =>
          simp only [h2, ok_bind] at h
          cases h3 : consistency (combPolicy a b) rl with
          | error e => simp [h3] at h
          | ok u =>
            simp only [h3, ok_bind, except_pure, Except.ok.injEq] at h
            subst h
            exact tame_built E K ha hb h2

/-- Policies in which every claim is treated as `sets` says. -/
def AllTame (sets : String → Bool) (mp : MetadataPolicy) : Prop := ∀ p ∈ mp, Tame (sets p.1) p.2

/-- Metadata in which the claims with sets of values have lists. -/
def Lists (sets : String → Bool) (md : Metadata) : Prop := ∀ c v, sets c = true → md.get? c = some v → v.isList = true

variable {many : String → Bool}

theorem combineClaims_map {a b : MetadataPolicy} (ha : AllTame many a) (hb : AllTame many b) : ∀ cs : List String,
    combineClaims (X.enum E) K (Dict.mapv (Dict.mapv f) a) (Dict.mapv (Dict.mapv f) b) cs = (combineClaims E K a b cs).map (Dict.mapv (Dict.mapv f))
  | [] => rfl
  | c :: cs => by
      unfold combineClaims
      rw [mapv_get, mapv_get, combineClaims_map ha hb cs]
      unfold Dict.get
      cases h1 : a.get? c with
      | none => rfl
      | some x =>
        cases h2 : b.get? c with
        | none => rfl
        | some y =>
          show (combineClaimPolicy (X.enum E) K (Dict.mapv f x) (Dict.mapv f y) >>= _) = Except.map _ (combineClaimPolicy E K x y >>= _)
          rw [combineClaimPolicy_map X E K (ha (c, x) (Dict.get?_mem h1)) (hb (c, y) (Dict.get?_mem h2))]
          cases combineClaimPolicy E K x y with
          | error e => rfl
          | ok r => cases combineClaims E K a b cs <;> rfl

omit X in
theorem tame_claims {a b : MetadataPolicy} (ha : AllTame many a) (hb : AllTame many b) : ∀ {cs : List String} {r : MetadataPolicy}, combineClaims E K a b cs = .ok r → AllTame many r
  | [], r, h => by cases h; intro p hp; cases hp
  | c :: cs, r, h => by
      unfold combineClaims Dict.get at h
      cases h1 : a.get? c with
      | none => simp [h1] at h
      | some x =>
        cases h2 : b.get? c with
        | none => simp [h1, h2] at h
        | some y =>
          simp only [h1, h2, ok_bind] at h
          cases h3 : combineClaimPolicy E K x y with
          | error e => simp [h3] at h
          | ok q =>
            cases h4 : combineClaims E K a b cs with
            | error e => simp [h3, h4] at h
            | ok rest =>
              simp only [h3, h4, ok_bind, except_pure, Except.ok.injEq] at h
              subst h
              intro p hp
              rcases List.mem_cons.1 hp with rfl | hp
              · exact tame_combined E K (ha (c, x) (Dict.get?_mem h1)) (hb (c, y) (Dict.get?_mem h2)) h3
              · exact tame_claims ha hb h4 p hp

/-- The exchange in what has been gathered. -/
def Rule.mapv (f : Val → Val) (r : Rule) : Rule := ⟨Dict.mapv f r.metadata, Dict.mapv (Dict.mapv f) r.policy⟩

theorem metadataClash_map (a b : Metadata) : ∀ ks, metadataClash (Dict.mapv f a) (Dict.mapv f b) ks = metadataClash a b ks
  | [] => rfl
  | k :: ks => by
      unfold metadataClash
      rw [metadataClash_map a b ks, mapv_get?, mapv_get?]
      congr 1
      rw [decide_eq_decide]
      refine not_congr ⟨fun h => ?_, fun h => by rw [h]⟩
      cases h1 : a.get? k <;> cases h2 : b.get? k <;> simp_all [X.inj]

theorem combineMetadata_map (a b : Metadata) : combineMetadata (Dict.mapv f a) (Dict.mapv f b) = (combineMetadata a b).map (Dict.mapv f) := by
  unfold combineMetadata
  rw [mapv_isEmpty, metadataClash_map X, mapv_keys, mapv_keys, mapv_update]
  split
  · rfl
  · split <;> rfl

theorem combine_map {a b : Rule} (ha : AllTame many a.policy) (hb : AllTame many b.policy) : combine (X.enum E) K (a.mapv f) (b.mapv f) = (combine E K a b).map (Rule.mapv f) := by
  unfold combine
  simp only [Rule.mapv, combineMetadata_map X, mapv_isEmpty, mapv_keys]
  cases combineMetadata a.metadata b.metadata with
  | error e => rfl
  | ok md =>
    have hmd : (if (Dict.mapv f md).isEmpty = true then Dict.mapv f a.metadata else Dict.mapv f md) = Dict.mapv f (if md.isEmpty = true then a.metadata else md) := by
      rw [mapv_isEmpty]; split <;> rfl
    simp only [Except.map, ok_bind, hmd]
    split
    · rfl
    · rw [combineClaims_map X E K ha hb]
      cases combineClaims E K a.policy b.policy _ with
      | error e => rfl
      | ok both =>
        simp only [Except.map, ok_bind, except_pure]
        rw [mapv_filter a.policy (fun k => decide (k ∉ b.policy.keys)), mapv_filter b.policy (fun k => decide (k ∉ a.policy.keys)), mapv_append, mapv_append]
        rfl

omit X in
theorem combine_keeps {a b r : Rule} (ha : AllTame many a.policy) (hb : AllTame many b.policy) (ha' : Lists many a.metadata) (hb' : Lists many b.metadata) (h : combine E K a b = .ok r) :
    AllTame many r.policy ∧ Lists many r.metadata := by
  unfold combine at h
  cases h1 : combineMetadata a.metadata b.metadata with
  | error e => simp [h1] at h
  | ok md =>
    have hmd : Lists many md := by
      unfold combineMetadata at h1
      split at h1
      · cases h1; exact ha'
      · split at h1
        · cases h1
        · cases h1
          intro c v hc hv
          rw [Dict.get?_update] at hv
          cases h2 : b.metadata.get? c with
          | none => rw [h2] at hv; exact ha' c v hc hv
          | some w => rw [h2] at hv; cases hv; exact hb' c _ hc h2
    have hmd' : Lists many (if md.isEmpty = true then a.metadata else md) := by
      split
      · exact ha'
      · exact hmd
    simp only [h1, ok_bind] at h
    split at h
    · cases h; exact ⟨ha, hmd'⟩
    · cases h2 : combineClaims E K a.policy b.policy (K.enum (a.policy.keys.filter fun c => decide (c ∈ b.policy.keys))) with
      | error e => simp [h2] at h
      | ok both =>
        simp only [h2, ok_bind, except_pure, Except.ok.injEq] at h
        subst h
        refine ⟨fun p hp => ?_, hmd'⟩
        simp only [List.mem_append] at hp
        rcases hp with (hp | hp) | hp
        · exact tame_claims E K ha hb h2 p hp
        · exact ha p (List.mem_filter.1 hp).1
        · exact hb p (List.mem_filter.1 hp).1

theorem gatherRest_mapv (t : String) : ∀ (chain : List PStatement) (chain' : List PStatement) (r : Rule), chain'.map (fun es => es.rule t) = chain.map (fun es => (es.rule t).mapv f) →
    (∀ es ∈ chain, AllTame many (es.rule t).policy ∧ Lists many (es.rule t).metadata) → AllTame many r.policy → Lists many r.metadata →
    gatherRest (X.enum E) K t chain' (r.mapv f) = (gatherRest E K t chain r).map (Rule.mapv f)
  | [], chain', r, hc, _, _, _ => by
      cases chain' with
      | nil => rfl
      | cons _ _ => cases hc
  | es :: chain, chain', r, hc, h, h1, h2 => by
      cases chain' with
      | nil => cases hc
      | cons es' chain' =>
        simp only [List.map_cons, List.cons.injEq] at hc
        obtain ⟨hc1, hc2⟩ := hc
        have hes := h es (List.mem_cons_self ..)
        have hrest := fun x hx => h x (List.mem_cons_of_mem _ hx)
        unfold gatherRest
        simp only [hc1]
        have hempty : (Rule.mapv f (es.rule t) = ⟨[], []⟩) ↔ (es.rule t = ⟨[], []⟩) := by
          obtain ⟨md, mp⟩ := es.rule t
          simp only [Rule.mapv, Rule.mk.injEq, Dict.mapv, List.map_eq_nil_iff]
        have hkeys : ((Rule.mapv f (es.rule t)).policy.keys.any fun c => decide (c ∈ (Rule.mapv f (es.rule t)).metadata.keys)) = (es.rule t).policy.keys.any fun c => decide (c ∈ (es.rule t).metadata.keys) := by
          simp only [Rule.mapv, mapv_keys]
        simp only [hempty, hkeys]
        split
        · exact gatherRest_mapv t chain chain' r hc2 hrest h1 h2
        · split
          · rfl
          · rw [combine_map X E K h1 hes.1]
            cases h3 : combine E K r (es.rule t) with
            | error e => rfl
            | ok r' =>
              have := combine_keeps E K h1 hes.1 h2 hes.2 h3
              exact gatherRest_mapv t chain chain' r' hc2 hrest this.1 this.2

omit X in
theorem gatherRest_keeps (t : String) : ∀ (chain : List PStatement) (r R : Rule), (∀ es ∈ chain, AllTame many (es.rule t).policy ∧ Lists many (es.rule t).metadata) → AllTame many r.policy → Lists many r.metadata →
    gatherRest E K t chain r = .ok R → AllTame many R.policy ∧ Lists many R.metadata
  | [], r, R, _, h1, h2, h => by cases h; exact ⟨h1, h2⟩
  | es :: chain, r, R, hall, h1, h2, h => by
      have hes := hall es (List.mem_cons_self ..)
      have hrest := fun x hx => hall x (List.mem_cons_of_mem _ hx)
      unfold gatherRest at h
      simp only at h
      split at h
      · exact gatherRest_keeps t chain r R hrest h1 h2 h
      · split at h
        · cases h
        · cases h3 : combine E K r (es.rule t) with
          | error e => simp [h3] at h
          | ok r' =>
            simp only [h3, ok_bind] at h
            have := combine_keeps E K h1 hes.1 h2 hes.2 h3
            exact gatherRest_keeps t chain r' R hrest this.1 this.2 h

/-! ### Applying -/

theorem callOp_map {c : String} {md : Metadata} {cp : ClaimPolicy} {op : Op} {o : Val} (hcp : Tame (many c) cp) (hmd : Lists many md) (ho : cp.get? op.name = some o) :
    callOp (X.enum E) op c (Dict.mapv f md) (Dict.mapv f cp) (f o) = (callOp E op c md cp o).map (fun p => (Dict.mapv f p.1, p.2)) := by
  have union : ∀ a b, union (f a) (f b) = (Policy.union a b).map (List.map f) := by
    intro a b
    unfold Policy.union
    rw [X.setOrSingleton, X.setOrSingleton]
    cases setOrSingleton a with
    | error e => rfl
    | ok x =>
      cases setOrSingleton b with
      | error e => rfl
      | ok y => simp [Except.map]
  cases op with
  | value => simp only [callOp, callValue, mapv_set]; rfl
  | add =>
    simp only [callOp, callAdd, mapv_get?]
    cases md.get? c with
    | none => simp only [Option.map_none, mapv_set]; rfl
    | some v =>
      simp only [Option.map_some, union]
      cases Policy.union v o with
      | error e => rfl
      | ok u =>
        simp only [Except.map, ok_bind, X.enum_map, except_pure]
        rw [← X.list, mapv_set]
  | default =>
    simp only [callOp, callDefault, mapv_get?]
    cases md.get? c with
    | none => simp only [Option.map_none, mapv_set]; rfl
    | some v => rfl
  | oneOf =>
    simp only [callOp, callOneOf, mapv_get?]
    cases md.get? c with
    | none => rfl
    | some v =>
      simp only [Option.map_some, X.isList]
      split
      · rfl
      · have hl := hcp.listed "one_of" (by simp) o ho
        cases o with
        | arr xs =>
          rw [X.list]
          simp only [pyIn, X.mem, ok_bind]
          split <;> rfl
        | _ => cases hl
  | subsetOf =>
    have hs : many c = true := by
      cases hm : many c with
      | true => rfl
      | false => exact absurd (ho.symm.trans (hcp.single hm "subset_of" (by simp))) (by simp)
    have hl := hcp.listed "subset_of" (by simp) o ho
    simp only [callOp, callSubsetOf, mapv_get?]
    cases h1 : md.get? c with
    | none => rfl
    | some v =>
      have hv := hmd c v hs h1
      cases v with
      | arr xs =>
        simp only [Option.map_some, X.list, X.pySet hl, X.mkSet]
        cases pySet o with
        | error e => rfl
        | ok a =>
          cases mkSet xs with
          | error e => rfl
          | ok b =>
            simp only [Except.map, ok_bind, X.inter, X.enum_map, List.isEmpty_map]
            split
            · rfl
            · simp only [except_pure]
              rw [← X.list, mapv_set]
      | _ => cases hv
  | supersetOf =>
    have hs : many c = true := by
      cases hm : many c with
      | true => rfl
      | false => exact absurd (ho.symm.trans (hcp.single hm "superset_of" (by simp))) (by simp)
    have hl := hcp.listed "superset_of" (by simp) o ho
    simp only [callOp, callSupersetOf, mapv_get?]
    cases h1 : md.get? c with
    | none => rfl
    | some v =>
      simp only [Option.map_some, X.pySet hl, X.pySet (hmd c v hs h1)]
      cases pySet o with
      | error e => rfl
      | ok a =>
        cases pySet v with
        | error e => rfl
        | ok b =>
          simp only [Except.map, ok_bind, X.diff, List.isEmpty_map]
          split <;> rfl
  | essential =>
    simp only [callOp, callEssential, mapv_get?, X.eq_bool, X.eq_int]
    cases md.get? c with
    | none =>
      simp only [Option.map_none]
      split <;> rfl
    | some v => rfl

omit X in
theorem lists_set {md : Metadata} (hmd : Lists many md) {c : String} {v : Val} (hv : many c = true → v.isList = true) : Lists many (md.set c v) := by
  intro k w hk hw
  rw [Dict.get?_set] at hw
  split at hw
  · next h => subst h; cases hw; exact hv hk
  · exact hmd k w hk hw

omit X in
theorem callOp_keeps {c : String} {md : Metadata} {cp : ClaimPolicy} {op : Op} {o : Val} {r : Metadata × Option String} (hcp : Tame (many c) cp) (hmd : Lists many md) (ho : cp.get? op.name = some o)
    (h : callOp E op c md cp o = .ok r) : Lists many r.1 := by
  cases op with
  | value => cases h; exact lists_set hmd fun hs => hcp.several hs "value" (by simp) o ho
  | add =>
    simp only [callOp, callAdd] at h
    split at h
    · next v _ =>
      cases hu : Policy.union v o with
      | error e => simp [hu] at h
      | ok u => simp only [hu, ok_bind, except_pure, Except.ok.injEq] at h; subst h; exact lists_set hmd fun _ => rfl
    · cases h; exact lists_set hmd fun hs => hcp.several hs "add" (by simp) o ho
  | default =>
    simp only [callOp, callDefault] at h
    split at h
    · cases h; exact hmd
    · cases h; exact lists_set hmd fun hs => hcp.several hs "default" (by simp) o ho
  | oneOf =>
    simp only [callOp, callOneOf] at h
    split at h
    · cases h; exact hmd
    · next v _ =>
      split at h
      · cases h; exact hmd
      · cases hp : pyIn v o with
        | error e => simp [hp] at h
        | ok b =>
          simp only [hp, ok_bind] at h
          split at h
          · cases h; exact hmd
          · cases h
  | subsetOf =>
    simp only [callOp, callSubsetOf] at h
    split at h
    · cases h; exact hmd
    · next xs _ =>
      cases ha : pySet o with
      | error e => simp [ha] at h
      | ok a =>
        cases hb : mkSet xs with
        | error e => simp [ha, hb] at h
        | ok b =>
          simp only [ha, hb, ok_bind] at h
          split at h
          · cases h
          · cases h; exact lists_set hmd fun _ => rfl
    · split at h
      · split at h
        · split at h
          · next v _ _ _ _ _ =>
            cases hi : pyIter v with
            | error e => simp [hi] at h
            | ok cs => simp only [hi, ok_bind, except_pure, Except.ok.injEq] at h; subst h; exact lists_set hmd fun _ => rfl
          · cases h
        · cases h
      · cases h
  | supersetOf =>
    simp only [callOp, callSupersetOf] at h
    split at h
    · cases h; exact hmd
    · next v _ =>
      cases ha : pySet o with
      | error e => simp [ha] at h
      | ok a =>
        cases hb : pySet v with
        | error e => simp [ha, hb] at h
        | ok b =>
          simp only [ha, hb, ok_bind] at h
          split at h
          · cases h; exact hmd
          · cases h
  | essential =>
    simp only [callOp, callEssential] at h
    split at h
    · cases h; exact hmd
    · split at h
      · cases h
      · cases h; exact hmd

theorem opLoop_map {c : String} {cp : ClaimPolicy} (ops : List Op) (hcp : Tame (many c) cp) : ∀ (fuel i : Nat) (md : Metadata), Lists many md →
    opLoop (X.enum E) ops c (Dict.mapv f cp) fuel i (Dict.mapv f md) = (opLoop E ops c cp fuel i md).map (Except.map (Dict.mapv f)) ∧
    ∀ m, opLoop E ops c cp fuel i md = some (.ok m) → Lists many m
  | 0, _, _, _ => ⟨rfl, fun _ h => by cases h⟩
  | fuel + 1, i, md, hmd => by
      unfold opLoop
      cases ops[i]? with
      | none => exact ⟨rfl, fun _ h => by cases h⟩
      | some op =>
        simp only [mapv_get?]
        cases ho : cp.get? op.name with
        | none =>
          simp only [Option.map_none]
          split
          · exact ⟨rfl, fun _ h => by cases h; exact hmd⟩
          · exact opLoop_map ops hcp fuel (i + 1) md hmd
        | some o =>
          simp only [Option.map_some, callOp_map X E hcp hmd ho]
          cases hc : callOp E op c md cp o with
          | error e => exact ⟨rfl, fun _ h => by cases h⟩
          | ok r =>
            have hk := callOp_keeps E hcp hmd ho hc
            obtain ⟨md', next⟩ := r
            simp only [Except.map]
            cases next with
            | none =>
              simp only
              split
              · exact ⟨rfl, fun _ h => by cases h; exact hk⟩
              · exact opLoop_map ops hcp fuel (i + 1) md' hk
            | some n =>
              simp only
              cases opPlace n ops i 0 with
              | none => exact ⟨rfl, fun _ h => by cases h⟩
              | some j => exact opLoop_map ops hcp fuel j md' hk

theorem applyClaims_map {mp : MetadataPolicy} (hmp : AllTame many mp) : ∀ (cs : List String) (md : Metadata), Lists many md →
    applyClaims (X.enum E) (Dict.mapv (Dict.mapv f) mp) cs (Dict.mapv f md) = (applyClaims E mp cs md).map (Dict.mapv f)
  | [], _, _ => rfl
  | c :: cs, md, hmd => by
      unfold applyClaims
      rw [mapv_get]
      unfold Dict.get
      cases h1 : mp.get? c with
      | none => rfl
      | some cp =>
        obtain ⟨h2, h3⟩ := opLoop_map X E evaluationSequence (hmp (c, cp) (Dict.get?_mem h1)) 8 0 md hmd
        show (applyClaim (X.enum E) c (Dict.mapv f cp) (Dict.mapv f md) >>= fun md' => applyClaims _ _ cs md') = Except.map _ (applyClaim E c cp md >>= fun md' => applyClaims E mp cs md')
        unfold applyClaim
        rw [h2]
        cases h4 : opLoop E evaluationSequence c cp 8 0 md with
        | none => rfl
        | some r =>
          cases r with
          | error e => rfl
          | ok md' => exact applyClaims_map hmp cs md' (h3 md' h4)

theorem applyPolicy_map {md : Metadata} {r : Rule} (hr : AllTame many r.policy) (hr' : Lists many r.metadata) (hmd : Lists many md) :
    applyPolicy (X.enum E) K (Dict.mapv f md) (r.mapv f) = (applyPolicy E K md r).map (Dict.mapv f) := by
  have h1 : (if r.metadata.isEmpty = true then Dict.mapv f md else (Dict.mapv f r.metadata).update (Dict.mapv f md)) = Dict.mapv f (if r.metadata.isEmpty = true then md else r.metadata.update md) := by
    rw [mapv_update]; split <;> rfl
  have h2 : Lists many (if r.metadata.isEmpty = true then md else r.metadata.update md) := by
    split
    · exact hmd
    · intro c v hc hv
      rw [Dict.get?_update] at hv
      cases h2 : md.get? c with
      | none => rw [h2] at hv; exact hr' c v hc hv
      | some w => rw [h2] at hv; cases hv; exact hmd c _ hc h2
  unfold applyPolicy applyMetadataPolicy
  simp only [Rule.mapv, mapv_isEmpty, mapv_keys, h1]
  split
  · rfl
  · exact applyClaims_map X E hr _ _ h2
end

/-- C238 where the operands of `one_of`, `subset_of` and `superset_of` are lists, and where claims with `subset_of` or `superset_of` have lists for values wherever one is given. What is missing: operands and values that are texts there, which the
code takes apart into characters, or looks for among the names of the operators. -/
theorem C238_exchanged_partial (E E' : SetEnum Val) (K K' : SetEnum String) (ρ σ : String → String) (sups : List PStatement) (leaf : PStatement) (t : String) (m : Metadata) (many : String → Bool)
    (h1 : ∀ s, σ (ρ s) = s) (h2 : ∀ s, ρ (σ s) = s) (h0 : ρ "" = "") (hsups : ∀ es ∈ sups, AllTame many (es.rule t).policy ∧ Lists many (es.rule t).metadata)
    (hleaf : Lists many (leaf.rule t).metadata) (h : policyFor E K sups leaf t = .ok (some m)) :
    ∃ m', policyFor E' K' (sups.map (PStatement.reword ρ)) (leaf.reword ρ) t = .ok (some m') ∧ ∀ c, OptSetEq ((m.get? c).map (reword ρ)) (m'.get? c) := by
  have X := exchange_reword h1 h2 h0
  have hrule : ∀ es : PStatement, (es.reword ρ).rule t = (es.rule t).mapv (reword ρ) := by
    intro es
    simp only [PStatement.rule, PStatement.reword, mapv_get?, Rule.mapv]
    cases es.metadata.get? t <;> cases es.policy.get? t <;> rfl
  obtain ⟨R, md, hg, hm, ha⟩ := policyFor_inv h
  cases sups with
  | nil => cases hg
  | cons es rest =>
    have hes := hsups es (List.mem_cons_self ..)
    have hrest := fun x hx => hsups x (List.mem_cons_of_mem _ hx)
    have g1 : gatherPolicies (X.enum E) K ((es :: rest).map (PStatement.reword ρ)) t = .ok (R.mapv (reword ρ)) := by
      show gatherRest _ _ _ (rest.map _) ((es.reword ρ).rule t) = _
      rw [hrule, gatherRest_mapv X E K t rest _ _ (by simp [Function.comp, hrule]) hrest hes.1 hes.2]
      show Except.map _ (gatherPolicies E K (es :: rest) t) = _
      rw [hg]; rfl
    have g2 := gatherRest_keeps E K t rest _ R hrest hes.1 hes.2 hg
    have g3 : (leaf.reword ρ).metadata.get? t = some (Dict.mapv (reword ρ) md) := by
      simp only [PStatement.reword, mapv_get?, hm]; rfl
    have g4 : Lists many md := by
      have : (leaf.rule t).metadata = md := by simp [PStatement.rule, hm]
      rw [← this]; exact hleaf
    have g5 := applyPolicy_map X E K g2.1 g2.2 g4
    rw [ha] at g5
    have g6 : policyFor (X.enum E) K ((es :: rest).map (PStatement.reword ρ)) (leaf.reword ρ) t = .ok (some (Dict.mapv (reword ρ) m)) := by
      unfold policyFor
      rw [g1, ok_bind, g3]
      show (applyPolicy _ _ _ _ >>= _) = _
      rw [g5]; rfl
    obtain ⟨m', g7, g8⟩ := C21_resolution_hash_order_irrelevant _ E' K K' _ _ _ _ g6
    refine ⟨m', g7, fun c => ?_⟩
    rw [← mapv_get?]
    exact g8 c

theorem mapv_mapv {α : Type} {f g : α → α} (h : ∀ x, g (f x) = x) (d : Dict α) : Dict.mapv g (Dict.mapv f d) = d := by
  induction d with
  | nil => rfl
  | cons p d ih =>
    simp only [Dict.mapv, List.map_cons, h] at ih ⊢
    rw [ih]

/-- C238 for what is refused, with the same restriction: what is not resolved is not resolved with other texts either. -/
theorem C238_refused_partial (E E' : SetEnum Val) (K K' : SetEnum String) (ρ σ : String → String) (sups : List PStatement) (leaf : PStatement) (t : String) (many : String → Bool)
    (h1 : ∀ s, σ (ρ s) = s) (h2 : ∀ s, ρ (σ s) = s) (h0 : ρ "" = "") (hsups : ∀ es ∈ sups, AllTame many (es.rule t).policy ∧ Lists many (es.rule t).metadata)
    (hleaf : Lists many (leaf.rule t).metadata) (h : ∀ m, policyFor E K sups leaf t ≠ .ok (some m)) (m' : Metadata) :
    policyFor E' K' (sups.map (PStatement.reword ρ)) (leaf.reword ρ) t ≠ .ok (some m') := by
  intro h3
  have X := exchange_reword h1 h2 h0
  have hrule : ∀ es : PStatement, (es.reword ρ).rule t = (es.rule t).mapv (reword ρ) := by
    intro es
    simp only [PStatement.rule, PStatement.reword, mapv_get?, Rule.mapv]
    cases es.metadata.get? t <;> cases es.policy.get? t <;> rfl
  have hlists : ∀ md : Metadata, Lists many md → Lists many (Dict.mapv (reword ρ) md) := by
    intro md hmd c v hc hv
    rw [mapv_get?] at hv
    cases h4 : md.get? c with
    | none => rw [h4] at hv; cases hv
    | some w => rw [h4] at hv; cases hv; rw [X.isList]; exact hmd c w hc h4
  have htame : ∀ sets (cp : ClaimPolicy), Tame sets cp → Tame sets (Dict.mapv (reword ρ) cp) := by
    intro sets cp hcp
    have one : ∀ n v, (Dict.mapv (reword ρ) cp).get? n = some v → (∀ v, cp.get? n = some v → v.isList = true) → v.isList = true := by
      intro n v hv hl
      rw [mapv_get?] at hv
      cases h4 : cp.get? n with
      | none => rw [h4] at hv; cases hv
      | some w => rw [h4] at hv; cases hv; rw [X.isList]; exact hl w h4
    exact ⟨fun n hn v hv => one n v hv (hcp.listed n hn), fun hs n hn => by rw [mapv_get?, hcp.single hs n hn]; rfl, fun hs n hn v hv => one n v hv (hcp.several hs n hn)⟩
  have hback : ∀ es : PStatement, PStatement.reword σ (es.reword ρ) = es := by
    intro es
    obtain ⟨md, mp⟩ := es
    simp only [PStatement.reword, PStatement.mk.injEq]
    exact ⟨mapv_mapv (mapv_mapv (reword_reword h1)) md, mapv_mapv (mapv_mapv (mapv_mapv (reword_reword h1))) mp⟩
  obtain ⟨m, h4, _⟩ := C238_exchanged_partial E' E K' K σ ρ (sups.map (PStatement.reword ρ)) (leaf.reword ρ) t m' many h2 h1 ((congrArg σ h0).symm.trans (h1 "")) (by
      intro es' hes'
      obtain ⟨es, hes, rfl⟩ := List.mem_map.1 hes'
      rw [hrule]
      refine ⟨fun p hp => ?_, hlists _ (hsups es hes).2⟩
      obtain ⟨q, hq, rfl⟩ := List.mem_map.1 hp
      exact htame _ _ ((hsups es hes).1 q hq)) (by rw [hrule]; exact hlists _ hleaf) h3
  rw [hback, List.map_map, show (PStatement.reword σ ∘ PStatement.reword ρ) = id from funext hback, List.map_id] at h4
  exact h m h4

/-! ### Examples and exceptions -/

namespace Ex238
open Ex

/-- Two texts change places. -/
def swap (a b : String) (s : String) : String := if s = a then b else if s = b then a else s

theorem swap_swap (a b s : String) : swap a b (swap a b s) = s := by
  unfold swap
  by_cases h1 : s = a
  · by_cases h2 : b = a <;> simp [h1, h2]
  · by_cases h2 : s = b <;> simp [h1, h2]

def ta238 : PStatement := ⟨[("op", [("org", s "A")])], [("op", [("alg", [("one_of", strs ["x", "y"]), ("default", s "y")]), ("scopes", [("subset_of", strs ["a", "b", "c"]), ("add", strs ["b"])])])]⟩
def im238 : PStatement := ⟨[("op", [("city", s "y")])], [("op", [("alg", [("one_of", strs ["y", "z"])]), ("scopes", [("subset_of", strs ["c", "b"])])])]⟩
def lf238 : PStatement := ⟨[("op", [("scopes", strs ["c", "a"])])], []⟩

theorem resolves238 : policyFor E K [ta238, im238] lf238 "op" = .ok (some [("org", s "A"), ("city", s "y"), ("scopes", strs ["b", "c"]), ("alg", s "y")]) := by decide +kernel

theorem tame238 (sets : Bool) (cp : ClaimPolicy) (h : (["one_of", "subset_of", "superset_of"].all fun n => ((cp.get? n).map Val.isList).getD true) = true)
    (h' : (sets || (["subset_of", "superset_of"].all fun n => (cp.get? n).isNone)) = true) (h'' : (!sets || (["value", "add", "default"].all fun n => ((cp.get? n).map Val.isList).getD true)) = true) : Tame sets cp := by
  rw [List.all_eq_true] at h
  refine ⟨fun n hn v hv => by have := h n hn; rw [hv] at this; exact this, fun hs n hn => ?_, fun hs n hn v hv => ?_⟩
  · rw [hs, Bool.false_or, List.all_eq_true] at h'
    simpa using h' n hn
  · rw [hs, Bool.not_true, Bool.false_or, List.all_eq_true] at h''
    have := h'' n hn; rw [hv] at this; exact this

def many238 (c : String) : Bool := decide (c = "scopes")

theorem listed238 (md : Metadata) (h : (((md.get? "scopes").map Val.isList).getD true) = true) : Lists many238 md := by
  intro c v hc hv
  have : c = "scopes" := by simpa [many238] using hc
  subst this
  rw [hv] at h
  exact h

theorem all238 : ∀ es ∈ [ta238, im238], AllTame many238 (es.rule "op").policy ∧ Lists many238 (es.rule "op").metadata := by
  intro es hes
  simp only [List.mem_cons, List.not_mem_nil, or_false] at hes
  rcases hes with rfl | rfl
  · refine ⟨fun p hp => ?_, listed238 _ (by decide +kernel)⟩
    have : p ∈ ([("alg", [("one_of", strs ["x", "y"]), ("default", s "y")]), ("scopes", [("subset_of", strs ["a", "b", "c"]), ("add", strs ["b"])])] : MetadataPolicy) := hp
    simp only [List.mem_cons, List.not_mem_nil, or_false] at this
    rcases this with rfl | rfl <;> exact tame238 _ _ (by decide +kernel) (by decide +kernel) (by decide +kernel)
  · refine ⟨fun p hp => ?_, listed238 _ (by decide +kernel)⟩
    have : p ∈ ([("alg", [("one_of", strs ["y", "z"])]), ("scopes", [("subset_of", strs ["c", "b"])])] : MetadataPolicy) := hp
    simp only [List.mem_cons, List.not_mem_nil, or_false] at this
    rcases this with rfl | rfl <;> exact tame238 _ _ (by decide +kernel) (by decide +kernel) (by decide +kernel)

/-- The names of an algorithm and of a scope change places, and nothing else happens. -/
example : ∃ m', policyFor SetEnum.reversed SetEnum.reversed ([ta238, im238].map (PStatement.reword (swap "y" "b"))) (lf238.reword (swap "y" "b")) "op" = .ok (some m') ∧
    ∀ c, OptSetEq ((Dict.get? ([("org", s "A"), ("city", s "y"), ("scopes", strs ["b", "c"]), ("alg", s "y")] : Metadata) c).map (reword (swap "y" "b"))) (m'.get? c) :=
  C238_exchanged_partial E _ K _ (swap "y" "b") (swap "y" "b") _ _ _ _ many238 (swap_swap _ _) (swap_swap _ _) (by decide) all238 (listed238 _ (by decide +kernel)) resolves238

/-- A scope that is not allowed is not allowed under another name. -/
example (m' : Metadata) : policyFor SetEnum.reversed SetEnum.reversed ([ta238, im238].map (PStatement.reword (swap "y" "b")))
    (PStatement.reword (swap "y" "b") ⟨[("op", [("scopes", strs ["b"]), ("alg", s "x")])], []⟩) "op" ≠ .ok (some m') :=
  C238_refused_partial E _ K _ (swap "y" "b") (swap "y" "b") _ _ _ many238 (swap_swap _ _) (swap_swap _ _) (by decide) all238 (listed238 _ (by decide +kernel))
    (fun m hm => by
      have : policyFor E K [ta238, im238] ⟨[("op", [("scopes", strs ["b"]), ("alg", s "x")])], []⟩ "op" = .error .policyError := by decide +kernel
      rw [this] at hm; cases hm) m'
end Ex238

/-- C238 fails for `one_of` with a text: any part of the text is allowed. -/
theorem C238_text_violation : ¬ C238_full := by
  intro h
  obtain ⟨m', h1, _⟩ := h Ex.E Ex.E Ex.K Ex.K (Ex238.swap "RS" "ES") (Ex238.swap "RS" "ES") [⟨[], [("op", [("alg", [("one_of", .str "RS256")])])]⟩] ⟨[("op", [("alg", .str "RS")])], []⟩ "op"
    [("alg", .str "RS")] (Ex238.swap_swap _ _) (Ex238.swap_swap _ _) (by decide) (by decide +kernel)
  have : policyFor Ex.E Ex.K ([⟨[], [("op", [("alg", [("one_of", .str "RS256")])])]⟩].map (PStatement.reword (Ex238.swap "RS" "ES"))) (PStatement.reword (Ex238.swap "RS" "ES") ⟨[("op", [("alg", .str "RS")])], []⟩) "op" =
      .error .policyError := by decide +kernel
  rw [this] at h1
  cases h1

/-- C238 fails for `subset_of` where a single text is given: the text is looked for among the names of the operators, and then taken apart. -/
theorem C238_name_violation : ¬ C238_full := by
  intro h
  obtain ⟨m', h1, _⟩ := h Ex.E Ex.E Ex.K Ex.K (Ex238.swap "subset_of" "openid") (Ex238.swap "subset_of" "openid") [⟨[], [("op", [("scope", [("subset_of", .arr [.str "openid"])])])]⟩]
    ⟨[("op", [("scope", .str "subset_of")])], []⟩ "op" [("scope", .arr ("subset_of".toList.map fun c => .str c.toString))] (Ex238.swap_swap _ _) (Ex238.swap_swap _ _) (by decide) (by decide +kernel)
  have : policyFor Ex.E Ex.K ([⟨[], [("op", [("scope", [("subset_of", .arr [.str "openid"])])])]⟩].map (PStatement.reword (Ex238.swap "subset_of" "openid")))
      (PStatement.reword (Ex238.swap "subset_of" "openid") ⟨[("op", [("scope", .str "subset_of")])], []⟩) "op" = .error .policyError := by decide +kernel
  rw [this] at h1
  cases h1

/-- C238 fails for `superset_of` where a single text is given: what is compared are characters. -/
theorem C238_characters_violation : ¬ C238_full := by
  intro h
  obtain ⟨m', h1, _⟩ := h Ex.E Ex.E Ex.K Ex.K (Ex238.swap "x" "yz") (Ex238.swap "x" "yz") [⟨[], [("op", [("scope", [("superset_of", .arr [.str "x"])])])]⟩]
    ⟨[("op", [("scope", .str "xy")])], []⟩ "op" [("scope", .str "xy")] (Ex238.swap_swap _ _) (Ex238.swap_swap _ _) (by decide) (by decide +kernel)
  have : policyFor Ex.E Ex.K ([⟨[], [("op", [("scope", [("superset_of", .arr [.str "x"])])])]⟩].map (PStatement.reword (Ex238.swap "x" "yz")))
      (PStatement.reword (Ex238.swap "x" "yz") ⟨[("op", [("scope", .str "xy")])], []⟩) "op" = .error .policyError := by decide +kernel
  rw [this] at h1
  cases h1

end Fed.Policy
