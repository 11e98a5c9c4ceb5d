import Verif.Policy.Values
/-
Property C239: claims and entity types are known to policies only by name. What is resolved is what `TrustChainPolicy._policy` of /repo/src/fedservice/entity/function/policy.py (358-371) makes of the statements (modelled in
`Policy/Combine` and `Policy/Operators`).
-/
namespace Fed.Policy
open Fed

/-- A dictionary with other keys. -/
def Dict.mapk {α : Type} (τ : String → String) (d : Dict α) : Dict α := d.map fun p => (τ p.1, p.2)

/-- A statement with other names for entity types (`θ`) and for claims (`τ`), in its metadata and in its policies. Values and operators stay. -/
def PStatement.named (θ τ : String → String) (es : PStatement) : PStatement :=
  ⟨Dict.mapk θ (Dict.mapv (Dict.mapk τ) es.metadata), Dict.mapk θ (Dict.mapv (Dict.mapk τ) es.policy)⟩

/-! ### Dictionaries with other keys -/

/-- Different names stay different. -/
def Apart (τ : String → String) : Prop := ∀ a b, τ a = τ b → a = b

theorem dedup_map {α β : Type} [DecidableEq α] [DecidableEq β] (f : α → β) (hf : ∀ a b, f a = f b → a = b) : ∀ l : List α, dedup (l.map f) = (dedup l).map f
  | [] => rfl
  | x :: xs => by
      simp only [List.map_cons, dedup, dedup_map f hf xs, List.filter_map]
      congr 2
      apply List.filter_congr
      intro y _
      simp only [Function.comp, decide_eq_decide]
      exact not_congr ⟨fun h => hf _ _ h, fun h => by rw [h]⟩

section
variable {α : Type} {τ : String → String} (hτ : Apart τ)
include hτ

theorem mapk_get? (d : Dict α) (k : String) : (Dict.mapk τ d).get? (τ k) = d.get? k := by
  induction d with
  | nil => rfl
  | cons p d ih =>
    simp only [Dict.mapk, List.map_cons] at ih ⊢
    rw [Dict.get?_cons, Dict.get?_cons]
    by_cases h : p.1 = k
    · rw [if_pos h, if_pos (by rw [h])]
    · rw [if_neg h, if_neg (fun e => h (hτ _ _ e))]; exact ih

theorem mapk_get (d : Dict α) (k : String) : (Dict.mapk τ d).get (τ k) = d.get k := by
  unfold Dict.get
  rw [mapk_get? hτ]

omit hτ in
theorem mapk_keys (d : Dict α) : (Dict.mapk τ d).keys = d.keys.map τ := by
  simp [Dict.mapk, Dict.keys, Function.comp]

omit hτ in
theorem mapk_isEmpty (d : Dict α) : (Dict.mapk τ d).isEmpty = d.isEmpty := by cases d <;> rfl

theorem mapk_mem {k : String} {l : List String} : τ k ∈ l.map τ ↔ k ∈ l := by
  rw [List.mem_map]
  exact ⟨fun ⟨y, h1, h2⟩ => hτ _ _ h2 ▸ h1, fun h => ⟨k, h, rfl⟩⟩

theorem mapk_set (d : Dict α) (k : String) (v : α) : (Dict.mapk τ d).set (τ k) v = Dict.mapk τ (d.set k v) := by
  induction d with
  | nil => rfl
  | cons p d ih =>
    simp only [Dict.mapk, List.map_cons, Dict.set] at ih ⊢
    by_cases h : p.1 = k
    · rw [if_pos h, if_pos (by rw [h])]; rfl
    · rw [if_neg h, if_neg (fun e => h (hτ _ _ e)), List.map_cons, ih]

theorem mapk_update (d e : Dict α) : (Dict.mapk τ d).update (Dict.mapk τ e) = Dict.mapk τ (d.update e) := by
  induction e with
  | nil => rfl
  | cons p e ih =>
    show ((Dict.mapk τ d).update (Dict.mapk τ e)).set (τ p.1) p.2 = _
    rw [ih, mapk_set hτ]
    rfl

theorem mapk_filter (d : Dict α) (l : List String) : (Dict.mapk τ d).filter (fun p => decide (p.1 ∉ l.map τ)) = Dict.mapk τ (d.filter fun p => decide (p.1 ∉ l)) := by
  simp only [Dict.mapk, List.filter_map]
  congr 1
  apply List.filter_congr
  intro p _
  simp only [Function.comp, decide_eq_decide]
  exact not_congr (mapk_mem hτ)

theorem keys_filter (a b : List String) : (a.map τ).filter (fun c => decide (c ∈ b.map τ)) = (a.filter fun c => decide (c ∈ b)).map τ := by
  rw [List.filter_map]
  congr 1
  apply List.filter_congr
  intro p _
  simp only [Function.comp, decide_eq_decide]
  exact mapk_mem hτ
end

/-! ### Combining and applying -/

/-- The same for what has been gathered. -/
def Rule.mapk (τ : String → String) (r : Rule) : Rule := ⟨Dict.mapk τ r.metadata, Dict.mapk τ r.policy⟩

section
variable {τ : String → String} (hτ : Apart τ) (E : SetEnum Val) (K : SetEnum String) (hK : ∀ l, K.enum (l.map τ) = (K.enum l).map τ)
include hτ

theorem metadataClash_mapk (a b : Metadata) : ∀ ks, metadataClash (Dict.mapk τ a) (Dict.mapk τ b) (ks.map τ) = metadataClash a b ks
  | [] => rfl
  | k :: ks => by
      simp only [List.map_cons, metadataClash, mapk_get? hτ]
      rw [metadataClash_mapk a b ks]

theorem combineMetadata_mapk (a b : Metadata) : combineMetadata (Dict.mapk τ a) (Dict.mapk τ b) = (combineMetadata a b).map (Dict.mapk τ) := by
  unfold combineMetadata
  rw [mapk_isEmpty, mapk_keys, mapk_keys, keys_filter hτ, metadataClash_mapk hτ, mapk_update hτ]
  split
  · rfl
  · split <;> rfl

theorem combineClaims_mapk (a b : MetadataPolicy) : ∀ cs, combineClaims E K (Dict.mapk τ a) (Dict.mapk τ b) (cs.map τ) = (combineClaims E K a b cs).map (Dict.mapk τ)
  | [] => rfl
  | c :: cs => by
      simp only [List.map_cons, combineClaims, mapk_get hτ]
      rw [combineClaims_mapk a b cs]
      cases a.get c with
      | error e => rfl
      | ok x =>
        cases b.get c with
        | error e => rfl
        | ok y =>
          simp only [ok_bind]
          cases combineClaimPolicy E K x y with
          | error e => rfl
          | ok r => cases combineClaims E K a b cs <;> rfl

include hK in
theorem combine_mapk (a b : Rule) : combine E K (a.mapk τ) (b.mapk τ) = (combine E K a b).map (Rule.mapk τ) := by
  unfold combine
  simp only [Rule.mapk, combineMetadata_mapk hτ, mapk_isEmpty, mapk_keys, keys_filter hτ, hK, combineClaims_mapk hτ, mapk_filter hτ]
  cases combineMetadata a.metadata b.metadata with
  | error e => rfl
  | ok md =>
    have hmd : (if (Dict.mapk τ md).isEmpty = true then Dict.mapk τ a.metadata else Dict.mapk τ md) = Dict.mapk τ (if md.isEmpty = true then a.metadata else md) := by
      rw [mapk_isEmpty]; split <;> rfl
    simp only [Except.map, ok_bind, hmd]
    split
    · rfl
    · cases combineClaims E K a.policy b.policy _ with
      | error e => rfl
      | ok both =>
        simp only [ok_bind, except_pure, Rule.mapk, Dict.mapk, List.map_append]

include hK in
theorem gatherRest_mapk (t t' : String) : ∀ (chain chain' : List PStatement) (r : Rule), chain'.map (fun es => es.rule t') = chain.map (fun es => (es.rule t).mapk τ) →
    gatherRest E K t' chain' (r.mapk τ) = (gatherRest E K t chain r).map (Rule.mapk τ)
  | [], chain', r, hc => by
      cases chain' with
      | nil => rfl
      | cons _ _ => cases hc
  | es :: chain, chain', r, hc => by
      cases chain' with
      | nil => cases hc
      | cons es' chain' =>
        simp only [List.map_cons, List.cons.injEq] at hc
        obtain ⟨hc1, hc2⟩ := hc
        unfold gatherRest
        simp only [hc1]
        have hempty : (Rule.mapk τ (es.rule t) = ⟨[], []⟩) ↔ (es.rule t = ⟨[], []⟩) := by
          obtain ⟨md, mp⟩ := es.rule t
          simp only [Rule.mapk, Rule.mk.injEq, Dict.mapk, List.map_eq_nil_iff]
        have hkeys : ((Rule.mapk τ (es.rule t)).policy.keys.any fun c => decide (c ∈ (Rule.mapk τ (es.rule t)).metadata.keys)) = (es.rule t).policy.keys.any fun c => decide (c ∈ (es.rule t).metadata.keys) := by
          simp only [Rule.mapk, mapk_keys, List.any_map]
          congr 1
          funext c
          simp only [Function.comp, decide_eq_decide]
          exact mapk_mem hτ
        simp only [hempty, hkeys]
        split
        · exact gatherRest_mapk t t' chain chain' r hc2
        · split
          · rfl
          · rw [combine_mapk hτ E K hK]
            cases combine E K r (es.rule t) with
            | error e => rfl
            | ok r' => exact gatherRest_mapk t t' chain chain' r' hc2

theorem callOp_mapk (op : Op) (c : String) (md : Metadata) (cp : ClaimPolicy) (o : Val) :
    callOp E op (τ c) (Dict.mapk τ md) cp o = (callOp E op c md cp o).map (fun p => (Dict.mapk τ p.1, p.2)) := by
  cases op with
  | value => simp only [callOp, callValue, mapk_set hτ]; rfl
  | add =>
    simp only [callOp, callAdd, mapk_get? hτ]
    cases md.get? c with
    | none => simp only [mapk_set hτ]; rfl
    | some v =>
      simp only
      cases Policy.union v o with
      | error e => rfl
      | ok u => simp only [ok_bind, except_pure, mapk_set hτ]; rfl
  | default =>
    simp only [callOp, callDefault, mapk_get? hτ]
    cases md.get? c with
    | none => simp only [mapk_set hτ]; rfl
    | some v => rfl
  | oneOf =>
    simp only [callOp, callOneOf, mapk_get? hτ]
    cases md.get? c with
    | none => rfl
    | some v =>
      simp only
      split
      · rfl
      · cases pyIn v o with
        | error e => rfl
        | ok b => cases b <;> rfl
  | subsetOf =>
    simp only [callOp, callSubsetOf, mapk_get? hτ]
    cases md.get? c with
    | none => rfl
    | some v =>
      have other : (if v.hashable = true then if (cp.keys.any fun k => decide (Val.str k = v)) = true then if v.truthy = true then do
              let cs ← pyIter v
              pure ((Dict.mapk τ md).set (τ c) (.arr cs), none)
            else throw PyErr.policyError else throw PyErr.policyError else throw PyErr.typeError : Except PyErr (Metadata × Option String)) =
          Except.map (fun p => (Dict.mapk τ p.1, p.2)) (if v.hashable = true then if (cp.keys.any fun k => decide (Val.str k = v)) = true then if v.truthy = true then do
              let cs ← pyIter v
              pure (md.set c (.arr cs), none)
            else throw PyErr.policyError else throw PyErr.policyError else throw PyErr.typeError) := by
        split
        · split
          · split
            · cases pyIter v with
              | error e => rfl
              | ok cs => simp only [ok_bind, except_pure, mapk_set hτ]; rfl
            · rfl
          · rfl
        · rfl
      cases v with
      | arr xs =>
        simp only
        cases pySet o with
        | error e => rfl
        | ok a =>
          cases mkSet xs with
          | error e => rfl
          | ok b =>
            simp only [ok_bind]
            split
            · rfl
            · simp only [except_pure, mapk_set hτ]; rfl
      | _ => exact other
  | supersetOf =>
    simp only [callOp, callSupersetOf, mapk_get? hτ]
    cases md.get? c with
    | none => rfl
    | some v =>
      simp only
      cases pySet o with
      | error e => rfl
      | ok a =>
        cases pySet v with
        | error e => rfl
        | ok b =>
          simp only [ok_bind]
          split <;> rfl
  | essential =>
    simp only [callOp, callEssential, mapk_get? hτ]
    cases md.get? c with
    | none =>
      simp only
      split <;> rfl
    | some v => rfl

theorem opLoop_mapk (ops : List Op) (c : String) (cp : ClaimPolicy) : ∀ (fuel i : Nat) (md : Metadata),
    opLoop E ops (τ c) cp fuel i (Dict.mapk τ md) = (opLoop E ops c cp fuel i md).map (Except.map (Dict.mapk τ))
  | 0, _, _ => rfl
  | fuel + 1, i, md => by
      unfold opLoop
      cases ops[i]? with
      | none => rfl
      | some op =>
        simp only
        cases cp.get? op.name with
        | none =>
          simp only
          split
          · rfl
          · exact opLoop_mapk ops c cp fuel (i + 1) md
        | some o =>
          simp only [callOp_mapk hτ E]
          cases callOp E op c md cp o with
          | error e => rfl
          | ok r =>
            obtain ⟨md', next⟩ := r
            simp only [Except.map]
            cases next with
            | none =>
              simp only
              split
              · rfl
              · exact opLoop_mapk ops c cp fuel (i + 1) md'
            | some n =>
              simp only
              cases opPlace n ops i 0 with
              | none => rfl
              | some j => exact opLoop_mapk ops c cp fuel j md'

theorem applyClaims_mapk (mp : MetadataPolicy) : ∀ (cs : List String) (md : Metadata),
    applyClaims E (Dict.mapk τ mp) (cs.map τ) (Dict.mapk τ md) = (applyClaims E mp cs md).map (Dict.mapk τ)
  | [], _ => rfl
  | c :: cs, md => by
      simp only [List.map_cons, applyClaims, mapk_get hτ]
      cases mp.get c with
      | error e => rfl
      | ok cp =>
        simp only [ok_bind, applyClaim, opLoop_mapk hτ E]
        cases opLoop E evaluationSequence c cp 8 0 md with
        | none => rfl
        | some r =>
          cases r with
          | error e => rfl
          | ok md' => exact applyClaims_mapk mp cs md'

include hK in
theorem applyPolicy_mapk (md : Metadata) (r : Rule) : applyPolicy E K (Dict.mapk τ md) (r.mapk τ) = (applyPolicy E K md r).map (Dict.mapk τ) := by
  have h1 : (if r.metadata.isEmpty = true then Dict.mapk τ md else (Dict.mapk τ r.metadata).update (Dict.mapk τ md)) = Dict.mapk τ (if r.metadata.isEmpty = true then md else r.metadata.update md) := by
    rw [mapk_update hτ]; split <;> rfl
  unfold applyPolicy applyMetadataPolicy
  simp only [Rule.mapk, mapk_isEmpty, mapk_keys, h1, hK]
  split
  · rfl
  · exact applyClaims_mapk hτ E _ _ _
end

/-- With sets in the order in which they were made, the names have no influence at all. -/
theorem policyFor_mapk {θ τ : String → String} (hθ : Apart θ) (hτ : Apart τ) (E : SetEnum Val) (sups : List PStatement) (leaf : PStatement) (t : String) :
    policyFor E SetEnum.insertion (sups.map (PStatement.named θ τ)) (leaf.named θ τ) (θ t) = (policyFor E SetEnum.insertion sups leaf t).map (Option.map (Dict.mapk τ)) := by
  have hK : ∀ l, (SetEnum.insertion : SetEnum String).enum (l.map τ) = ((SetEnum.insertion : SetEnum String).enum l).map τ := dedup_map τ hτ
  have hrule : ∀ es : PStatement, (es.named θ τ).rule (θ t) = (es.rule t).mapk τ := by
    intro es
    simp only [PStatement.rule, PStatement.named, mapk_get? hθ, mapv_get?, Rule.mapk]
    cases es.metadata.get? t <;> cases es.policy.get? t <;> rfl
  have hg : gatherPolicies E SetEnum.insertion (sups.map (PStatement.named θ τ)) (θ t) = (gatherPolicies E SetEnum.insertion sups t).map (Rule.mapk τ) := by
    cases sups with
    | nil => rfl
    | cons es rest =>
      show gatherRest _ _ _ (rest.map _) ((es.named θ τ).rule (θ t)) = _
      rw [hrule]
      exact gatherRest_mapk hτ E _ hK t (θ t) rest _ _ (by simp [Function.comp, hrule])
  unfold policyFor
  rw [hg]
  cases gatherPolicies E SetEnum.insertion sups t with
  | error e => rfl
  | ok R =>
    simp only [Except.map, ok_bind]
    rw [show (leaf.named θ τ).metadata.get? (θ t) = (leaf.metadata.get? t).map (Dict.mapk τ) by simp only [PStatement.named, mapk_get? hθ, mapv_get?]]
    cases leaf.metadata.get? t with
    | none => rfl
    | some md =>
      simp only [Option.map_some, applyPolicy_mapk hτ E _ hK]
      cases applyPolicy E SetEnum.insertion md R <;> rfl

/-! ### C239 -/

/-- C239: when entity types and claims get other names, different ones for different ones, in the metadata and the policies of all statements of a chain, then the entity is resolved to the same values under the new names, up to the order of
lists, and to nothing else. -/
theorem C239_renamed (E E' : SetEnum Val) (K K' : SetEnum String) (θ τ : String → String) (sups : List PStatement) (leaf : PStatement) (t : String) (m : Metadata) (hθ : Apart θ) (hτ : Apart τ)
    (h : policyFor E K sups leaf t = .ok (some m)) :
    ∃ m', policyFor E' K' (sups.map (PStatement.named θ τ)) (leaf.named θ τ) (θ t) = .ok (some m') ∧ (∀ c, OptSetEq (m.get? c) (m'.get? (τ c))) ∧ ∀ d, (∀ c, τ c ≠ d) → m'.get? d = none := by
  obtain ⟨m1, h1, h2⟩ := C21_resolution_hash_order_irrelevant E E K SetEnum.insertion _ _ _ _ h
  have h3 := policyFor_mapk hθ hτ E sups leaf t
  rw [h1] at h3
  obtain ⟨m', h4, h5⟩ := C21_resolution_hash_order_irrelevant E E' SetEnum.insertion K' _ _ _ _ h3
  refine ⟨m', h4, fun c => ?_, fun d hd => ?_⟩
  · have := h5 (τ c)
    rw [mapk_get? hτ] at this
    exact OptSetEq.trans' (h2 c) this
  · have := h5 d
    have hn : (Dict.mapk τ m1).get? d = none := by
      cases hg : (Dict.mapk τ m1).get? d with
      | none => rfl
      | some v =>
        obtain ⟨p, _, hp⟩ := List.mem_map.1 (Dict.get?_mem hg)
        exact absurd (congrArg Prod.fst hp) (hd p.1)
    rw [hn] at this
    cases hg : m'.get? d with
    | none => rfl
    | some v => rw [hg] at this; cases this

/-- C239: what is not resolved is not resolved under other names either. -/
theorem C239_refused (E E' : SetEnum Val) (K K' : SetEnum String) (θ τ : String → String) (sups : List PStatement) (leaf : PStatement) (t : String) (hθ : Apart θ) (hτ : Apart τ)
    (h : ∀ m, policyFor E K sups leaf t ≠ .ok (some m)) (m' : Metadata) : policyFor E' K' (sups.map (PStatement.named θ τ)) (leaf.named θ τ) (θ t) ≠ .ok (some m') := by
  intro h1
  obtain ⟨m1, h2, _⟩ := C21_resolution_hash_order_irrelevant E' E K' SetEnum.insertion _ _ _ _ h1
  rw [policyFor_mapk hθ hτ] at h2
  cases h3 : policyFor E SetEnum.insertion sups leaf t with
  | error e => rw [h3] at h2; cases h2
  | ok o =>
    cases o with
    | none => rw [h3] at h2; cases h2
    | some m =>
      obtain ⟨m2, h4, _⟩ := C21_resolution_hash_order_irrelevant E E SetEnum.insertion K _ _ _ _ h3
      exact h m2 h4

/-- Two claims change names, and the entity type gets a new one. -/
example : ∃ m', policyFor SetEnum.reversed SetEnum.reversed ([Ex238.ta238, Ex238.im238].map (PStatement.named (Ex238.swap "op" "rp") (Ex238.swap "alg" "scopes"))) (Ex238.lf238.named (Ex238.swap "op" "rp") (Ex238.swap "alg" "scopes"))
      (Ex238.swap "op" "rp" "op") = .ok (some m') ∧
    (∀ c, OptSetEq (Dict.get? ([("org", Ex.s "A"), ("city", Ex.s "y"), ("scopes", Ex.strs ["b", "c"]), ("alg", Ex.s "y")] : Metadata) c) (m'.get? (Ex238.swap "alg" "scopes" c))) ∧
    ∀ d, (∀ c, Ex238.swap "alg" "scopes" c ≠ d) → m'.get? d = none :=
  C239_renamed Ex.E _ Ex.K _ (Ex238.swap "op" "rp") (Ex238.swap "alg" "scopes") _ _ _ _ (fun a b h => by rw [← Ex238.swap_swap "op" "rp" a, h, Ex238.swap_swap])
    (fun a b h => by rw [← Ex238.swap_swap "alg" "scopes" a, h, Ex238.swap_swap]) Ex238.resolves238

/-- An algorithm that is not allowed is not allowed for the claim under its new name. -/
example (m' : Metadata) : policyFor SetEnum.reversed SetEnum.reversed ([Ex238.ta238, Ex238.im238].map (PStatement.named id (Ex238.swap "alg" "scopes")))
    (PStatement.named id (Ex238.swap "alg" "scopes") ⟨[("op", [("scopes", Ex.strs ["b"]), ("alg", Ex.s "x")])], []⟩) (id "op") ≠ .ok (some m') :=
  C239_refused Ex.E _ Ex.K _ id (Ex238.swap "alg" "scopes") _ _ _ (fun _ _ h => h) (fun a b h => by rw [← Ex238.swap_swap "alg" "scopes" a, h, Ex238.swap_swap]) (fun m hm => by
      have : policyFor Ex.E Ex.K [Ex238.ta238, Ex238.im238] ⟨[("op", [("scopes", Ex.strs ["b"]), ("alg", Ex.s "x")])], []⟩ "op" = .error .policyError := by decide +kernel
      rw [this] at hm; cases hm) m'

end Fed.Policy
