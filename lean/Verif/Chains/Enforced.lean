import Verif.Chains.Props
import Verif.Policy.Demands
import Verif.Constraints.Complete
/-
Properties C110 and C111: constraints and policies are enforced on the chains that are returned.
-/
namespace Fed.Chains
open Fed Verify

/-- A returned chain, accepted by the verifier, and the metadata that the policies of its statements gave. -/
theorem getVerified_made {V : Env} {st : State} {entity stopAt : String} {out : List TrustChain} (h : (getVerified V st entity stopAt).1 = .ok out)
    {tc : TrustChain} (ht : tc ∈ out) : ∃ jar chain tc0, (verifyChain V.L jar chain).1 = .ok (some tc0) ∧ applyToChain V.E V.K tc0 = .ok tc ∧ tc.verified = tc0.verified := by
  obtain ⟨f, ec, tcs, _, h2, h3, -⟩ := getVerified_ok h
  obtain ⟨tc0, hm, ha⟩ := (applyPolicies_mem h3).1 tc ht
  obtain ⟨pre, c, post, _, hv⟩ := (verifyChains_mem h2 tc0).1 hm
  refine ⟨_, c, tc0, hv, ha, ?_⟩
  obtain ⟨_, _, _, _, ⟨_, _, _, rfl⟩ | ⟨_, _, _, rfl⟩⟩ := applyToChain_ok.1 ha <;> rfl

theorem getVerified_meets {V : Env} {st : State} {entity stopAt : String} {out : List TrustChain} (h : (getVerified V st entity stopAt).1 = .ok out)
    {tc : TrustChain} (ht : tc ∈ out) {sups : List Payload} {leaf : Payload} (hv : tc.verified = sups ++ [leaf]) : meets sups leaf = .ok true := by
  obtain ⟨jar, chain, tc0, h1, _, h3⟩ := getVerified_made h ht
  obtain ⟨p, ps, x, h4, _, rfl⟩ := verifyChain_ok.1 h1
  obtain ⟨-, -, -, hm⟩ := verifyTrustChain_ok.1 h4
  simp only at h3
  rw [hv] at h3
  have hd : (p :: ps).dropLast = sups := by rw [← h3, List.dropLast_concat]
  have hl : (p :: ps).getLast (by simp) = leaf := by simp only [← h3, List.getLast_concat]
  rw [hd, hl] at hm
  exact hm

/-! ## C110 -/

/-- The lists a statement has for naming constraints; absent = empty. -/
def permittedBy (p : Payload) : List String := ((p.constraints.bind (·.naming)).bind (·.permitted)).getD []
def excludedBy (p : Payload) : List String := ((p.constraints.bind (·.naming)).bind (·.excluded)).getD []

theorem permitted_toC (p : Payload) : (toC p).permitted = permittedBy p := rfl
theorem excluded_toC (p : Payload) : (toC p).excluded = excludedBy p := rfl

/-- C110 in full: a returned chain keeps to all constraints of its statements. -/
def C110_full : Prop :=
  ∀ (V : Env) (st : State) (entity stopAt : String) (out : List TrustChain), (getVerified V st entity stopAt).1 = .ok out →
    ∀ tc ∈ out, ∀ sups leaf, tc.verified = sups ++ [leaf] → Constraints.KeepsAll (sups.map toC) (toC leaf)

namespace Ex
/-- `ta` constrains what is below `im`. -/
def W110 (c : Constraints.Constr) : Collect.World where
  now := 0
  config := (W 0).config
  fetch _ a e := .ok (some (if a = "https://ta" then ⟨{ (about a e taPolicy).payload with constraints := some c }, 1⟩ else about a e))
def chain110 (c : Constraints.Constr) : TrustChain := { leafChain with
  verified := [{ (about "https://ta" "https://im" taPolicy).payload with constraints := some c }, (about "https://im" "https://leaf").payload,
    (conf "https://leaf" (some ["https://im"]) (rp (.str "admin"))).payload]
  chain := [some ⟨{ (about "https://ta" "https://im" taPolicy).payload with constraints := some c }, 1⟩, some (about "https://im" "https://leaf"),
    some (conf "https://leaf" (some ["https://im"]) (rp (.str "admin")))] }
end Ex

/-- C110 is violated: `ta` allows no intermediate between itself and the leaf, yet the chain with one is returned. -/
theorem C110_path_length_violation : ¬ C110_full := by
  intro h
  have := (h (Ex.env (Ex.W110 ⟨some 0, none⟩)) Ex.st "https://leaf" "" [Ex.chain110 ⟨some 0, none⟩] (by decide +kernel) _ (List.mem_singleton.2 rfl) [_, _] _ rfl).path
    [] _ _ ⟨some 0, none⟩ 0 rfl rfl rfl
  exact absurd this (by decide)

/-- C110 for permitted names: with `s` the topmost statement that lists some, the leaf of a returned chain (and every subject of a constrained statement on the
way) is inside that list. Missing: lower lists that do not refine every entry of it (C26). -/
theorem C110_permitted_partial (V : Env) (st : State) (entity stopAt : String) (out : List TrustChain) (h : (getVerified V st entity stopAt).1 = .ok out)
    (tc : TrustChain) (ht : tc ∈ out) (pre post : List Payload) (s leaf : Payload) (hv : tc.verified = pre ++ s :: post ++ [leaf])
    (hpre : ∀ x ∈ pre, permittedBy x = []) (hs : permittedBy s ≠ []) :
    (∃ p ∈ permittedBy s, Constraints.moreSpecific leaf.sub p = .ok true) ∧
    ∀ x ∈ s :: post, x.constraints ≠ none → ∃ p ∈ permittedBy s, Constraints.moreSpecific x.sub p = .ok true := by
  have hm := getVerified_meets h ht hv
  unfold meets at hm
  simp only [List.map_append, List.map_cons] at hm
  obtain ⟨h1, h2⟩ := Constraints.C25_permitted_only_narrows _ _ (toC s) _
    (by intro c hc; obtain ⟨x, hx, rfl⟩ := List.mem_map.1 hc; exact hpre x hx) hs hm
  refine ⟨h1, fun x hx hc => ?_⟩
  exact h2 (toC x) (by rw [← List.map_cons]; exact List.mem_map.2 ⟨x, hx, rfl⟩) hc

/-- C110 for excluded names: with `s` the topmost statement that excludes some, nobody below is inside a tree it excludes, if no lower statement excludes a smaller one in it.
Missing: the other exclusions (C24). -/
theorem C110_excluded_partial (V : Env) (st : State) (entity stopAt : String) (out : List TrustChain) (h : (getVerified V st entity stopAt).1 = .ok out)
    (tc : TrustChain) (ht : tc ∈ out) (pre post : List Payload) (s leaf : Payload) (hv : tc.verified = pre ++ s :: post ++ [leaf])
    (hpre : ∀ x ∈ pre, excludedBy x = []) (n : String) (hs : n ∈ excludedBy s)
    (hno : ∀ x ∈ post, ∀ m ∈ excludedBy x, Constraints.moreSpecific m n = .ok true → m = n) :
    Constraints.moreSpecific leaf.sub n = .ok false ∧
    ∀ x ∈ s :: post, x.constraints ≠ none → Constraints.moreSpecific x.sub n = .ok false := by
  have hm := getVerified_meets h ht hv
  unfold meets at hm
  simp only [List.map_append, List.map_cons] at hm
  obtain ⟨h1, h2⟩ := Constraints.C24_exclusion_partial _ _ (toC s) _ n
    (by intro c hc; obtain ⟨x, hx, rfl⟩ := List.mem_map.1 hc; exact hpre x hx) hs
    (by intro c hc m hmm; obtain ⟨x, hx, rfl⟩ := List.mem_map.1 hc; exact hno x hx m hmm) hm
  refine ⟨h1, fun x hx hc => ?_⟩
  exact h2 (toC x) (by rw [← List.map_cons]; exact List.mem_map.2 ⟨x, hx, rfl⟩) hc

/-- C110 for path lengths: no statement above the leaf in a returned chain has a negative maximum. Missing: all other maxima (C23). -/
theorem C110_path_length_partial (V : Env) (st : State) (entity stopAt : String) (out : List TrustChain) (h : (getVerified V st entity stopAt).1 = .ok out)
    (tc : TrustChain) (ht : tc ∈ out) (sups : List Payload) (leaf : Payload) (hv : tc.verified = sups ++ [leaf]) (s : Payload) (hs : s ∈ sups)
    (c : Constraints.Constr) (m : Int) (hc : s.constraints = some c) (hm : c.maxPathLength = some m) : 0 ≤ m := by
  rcases Int.lt_or_le m 0 with hn | hn
  · exfalso
    obtain ⟨pre, post, rfl⟩ := List.append_of_mem hs
    have hmt := getVerified_meets h ht hv
    unfold meets at hmt
    simp only [List.map_append, List.map_cons] at hmt
    exact Constraints.C23_path_length_partial _ _ _ _ c m hc hm hn hmt
  · exact hn

/-- A constraint under which `leaf` is returned, and one under which it is not. -/
example : (getVerified (Ex.env (Ex.W110 ⟨none, some ⟨some ["https://im", "https://leaf"], some ["https://other"]⟩⟩)) Ex.st "https://leaf").1 =
    .ok [Ex.chain110 ⟨none, some ⟨some ["https://im", "https://leaf"], some ["https://other"]⟩⟩] := by decide +kernel
example : (getVerified (Ex.env (Ex.W110 ⟨none, some ⟨some ["https://im"], some []⟩⟩)) Ex.st "https://leaf").1 = .ok [] := by decide +kernel
example : permittedBy ((Ex.chain110 ⟨none, some ⟨some ["https://im", "https://leaf"], some ["https://other"]⟩⟩).verified.head (by simp [Ex.chain110])) =
    ["https://im", "https://leaf"] := by decide

/-! ## C111 -/

/-- The metadata of a returned chain is what the policies of the statements above the leaf make of the leaf's. -/
theorem getVerified_policyFor {V : Env} {st : State} {entity stopAt : String} {out : List TrustChain} (h : (getVerified V st entity stopAt).1 = .ok out)
    {tc : TrustChain} (ht : tc ∈ out) {sups : List Payload} {leaf : Payload} (hv : tc.verified = sups ++ [leaf]) (hne : sups ≠ []) {t : String} {md : Policy.Metadata}
    (hmd : leaf.md.get? t = some md) :
    ∃ m, tc.metadata.get? t = some (.obj m) ∧ Policy.policyFor V.E V.K (sups.map toP) (toP leaf) t = .ok (some m) := by
  obtain ⟨_, _, tc0, _, ha, _⟩ := getVerified_made h ht
  obtain ⟨leaf', md', e1, e2, ⟨e3, m, e4, rfl⟩ | ⟨e3, m, e4, rfl⟩⟩ := applyToChain_ok.1 ha
  · simp only at hv
    rw [hv] at e1 e4
    simp only [List.getLast?_append, List.getLast?_singleton, Option.some_or, Option.some.injEq] at e1
    subst e1
    rw [List.dropLast_concat] at e4
    unfold Policy.callPolicy at e4
    have hk : t ∈ Dict.keys (toP leaf).metadata := by
      rw [Dict.mem_keys_iff]; simp [toP, hmd]
    obtain ⟨r, e5, e6⟩ := policyForTypes_get e4 t hk
    simp only
    rw [get?_map_val, e6]
    cases r with
    | none =>
      exfalso
      unfold Policy.policyFor at e5
      simp only [toP, hmd] at e5
      revert e5
      cases Policy.gatherPolicies V.E V.K (sups.map toP) t with
      | error e => simp
      | ok R =>
        simp only [ok_bind]
        cases Policy.applyPolicy V.E V.K md R with
        | error e => simp
        | ok _ => simp
    | some m' => exact ⟨m', rfl, e5⟩
  · exfalso
    simp only at hv
    rw [hv] at e3
    cases sups with
    | nil => exact hne rfl
    | cons _ _ => simp at e3

/-- Statement `s` has the operators `p` for a claim of an entity type. -/
def Asks (s : Payload) (t c : String) (p : Policy.ClaimPolicy) : Prop := ∃ mp, s.policy.get? t = some mp ∧ Dict.get? mp c = some p

/-- What claim policy `p` asks of the value of a claim. -/
def Meets (p : Policy.ClaimPolicy) (v : Option Val) : Prop :=
  Policy.Sat p v ∧ ∀ a, p.get? "add" = some a → ∀ y ∈ Policy.held (some a), y ∈ Policy.held v

/-- C111 in full: the metadata returned for an entity meets what any statement above it asks. -/
def C111_full : Prop :=
  ∀ (V : Env) (st : State) (entity stopAt : String) (out : List TrustChain), (getVerified V st entity stopAt).1 = .ok out →
    ∀ tc ∈ out, ∀ sups leaf, tc.verified = sups ++ [leaf] → ∀ s ∈ sups, ∀ t c p md, leaf.md.get? t = some md → Asks s t c p →
      ∃ m, tc.metadata.get? t = some (.obj m) ∧ Meets p (Dict.get? m c)

namespace Ex
/-- The policies of `ta` and `im` for the scopes of relying parties. -/
def W111 (ta im : Policy.ClaimPolicy) (v : Val) : Collect.World where
  now := 0
  config
    | "https://leaf" => .ok (some (conf "https://leaf" (some ["https://im"]) (rp v)))
    | e => (W 0).config e
  fetch _ a e := .ok (some (about a e [("openid_relying_party", [("scopes", if a = "https://ta" then ta else im)])]))
def chain111 (ta im : Policy.ClaimPolicy) (v : Val) (m : Val) : TrustChain where
  anchor := "https://ta"
  issPath := ["https://leaf", "https://im", "https://ta"]
  exp := 10000
  verified := [(about "https://ta" "https://im" [("openid_relying_party", [("scopes", ta)])]).payload,
    (about "https://im" "https://leaf" [("openid_relying_party", [("scopes", im)])]).payload, (conf "https://leaf" (some ["https://im"]) (rp v)).payload]
  chain := [some (about "https://ta" "https://im" [("openid_relying_party", [("scopes", ta)])]),
    some (about "https://im" "https://leaf" [("openid_relying_party", [("scopes", im)])]), some (conf "https://leaf" (some ["https://im"]) (rp v))]
  metadata := [("openid_relying_party", .obj [("scopes", m)])]
end Ex

/-- C111 is violated: `im` fixes a value outside what `ta` allows, and that value is returned. -/
theorem C111_fixed_violation : ¬ C111_full := by
  intro h
  obtain ⟨m, h1, h2, -⟩ := h (Ex.env (Ex.W111 [("subset_of", .arr [.str "openid"])] [("value", .arr [.str "admin"])] (.arr [.str "openid"]))) Ex.st "https://leaf" ""
    [Ex.chain111 [("subset_of", .arr [.str "openid"])] [("value", .arr [.str "admin"])] (.arr [.str "openid"]) (.arr [.str "admin"])]
    (by decide +kernel) _ (List.mem_singleton.2 rfl) [_, _] _ rfl _ (List.mem_cons_self) "openid_relying_party" "scopes" [("subset_of", .arr [.str "openid"])] [("scopes", .arr [.str "openid"])]
    (by decide +kernel) ⟨[("scopes", [("subset_of", .arr [.str "openid"])])], by decide +kernel, by decide +kernel⟩
  simp only [Ex.chain111, Dict.get?_cons, if_true, Option.some.injEq, Val.obj.injEq] at h1
  subst h1
  exact absurd (h2.2.2.1 [.str "openid"] (by decide) (.str "admin") (by decide)) (by decide)

/-- C111 is violated: what `ta` requires to be there in any case is given up when `im` requires something else as well. -/
theorem C111_superset_violation : ¬ C111_full := by
  intro h
  obtain ⟨m, h1, h2, -⟩ := h (Ex.env (Ex.W111 [("superset_of", .arr [.str "openid", .str "a"])] [("superset_of", .arr [.str "openid"])] (.arr [.str "openid"]))) Ex.st "https://leaf" ""
    [Ex.chain111 [("superset_of", .arr [.str "openid", .str "a"])] [("superset_of", .arr [.str "openid"])] (.arr [.str "openid"]) (.arr [.str "openid"])]
    (by decide +kernel) _ (List.mem_singleton.2 rfl) [_, _] _ rfl _ (List.mem_cons_self) "openid_relying_party" "scopes" [("superset_of", .arr [.str "openid", .str "a"])] [("scopes", .arr [.str "openid"])]
    (by decide +kernel) ⟨[("scopes", [("superset_of", .arr [.str "openid", .str "a"])])], by decide +kernel, by decide +kernel⟩
  simp only [Ex.chain111, Dict.get?_cons, if_true, Option.some.injEq, Val.obj.injEq] at h1
  subst h1
  exact absurd (h2.2.2.2.1 [.str "openid", .str "a"] (by decide) (by decide) (.str "a") (by decide)) (by decide)

section
variable (V : Env) (st : State) (entity stopAt : String) (out : List TrustChain) (h : (getVerified V st entity stopAt).1 = .ok out)
  (tc : TrustChain) (ht : tc ∈ out) (sups : List Payload) (leaf : Payload) (hv : tc.verified = sups ++ [leaf]) (s : Payload) (hs : s ∈ sups)
  (t c : String) (p : Policy.ClaimPolicy) (md : Policy.Metadata) (hmd : leaf.md.get? t = some md) (ha : Asks s t c p)
include h ht hv hs hmd ha

/-- C111 for `essential`: a claim that any statement above the leaf calls essential is in the returned metadata. (Whether claims are essential is said with true or false.) -/
theorem C111_essential_partial (hb : ∀ x ∈ sups, ∀ c p e, Asks x t c p → p.get? "essential" = some e → ∃ b, e = .bool b)
    (he : p.get? "essential" = some (.bool true)) : ∃ m v, tc.metadata.get? t = some (.obj m) ∧ Dict.get? m c = some v := by
  obtain ⟨m, h1, h2⟩ := getVerified_policyFor h ht hv (by intro e; rw [e] at hs; cases hs) hmd
  obtain ⟨mp, h3, h4⟩ := ha
  obtain ⟨v, h5⟩ := Policy.policyFor_essential h2 (by
    intro es hes mp c p e1 e2 e e3
    obtain ⟨x, hx, rfl⟩ := List.mem_map.1 hes
    exact hb x hx c p e ⟨mp, e1, e2⟩ e3) (List.mem_map.2 ⟨s, hs, rfl⟩) h3 h4 he
  exact ⟨m, v, h1, h5⟩

/-- C111 for `add`: what any statement above the leaf adds is in the returned metadata, if no statement fixes the claim or limits it by `subset_of`. -/
theorem C111_add_partial (hn : ∀ x ∈ sups, ∀ p, Asks x t c p → p.get? "value" = none ∧ p.get? "subset_of" = none) (a : Val) (he : p.get? "add" = some a) :
    ∃ m, tc.metadata.get? t = some (.obj m) ∧ ∀ y ∈ Policy.held (some a), y ∈ Policy.held (Dict.get? m c) := by
  obtain ⟨m, h1, h2⟩ := getVerified_policyFor h ht hv (by intro e; rw [e] at hs; cases hs) hmd
  obtain ⟨mp, h3, h4⟩ := ha
  refine ⟨m, h1, Policy.policyFor_add h2 ?_ ?_ (List.mem_map.2 ⟨s, hs, rfl⟩) h3 h4 he⟩
  · intro es hes mp p e1 e2
    obtain ⟨x, hx, rfl⟩ := List.mem_map.1 hes
    exact (hn x hx p ⟨mp, e1, e2⟩).1
  · intro es hes mp p e1 e2
    obtain ⟨x, hx, rfl⟩ := List.mem_map.1 hes
    exact (hn x hx p ⟨mp, e1, e2⟩).2

/-- C111 for `subset_of`: of what the leaf lists, only what every statement above it allows is in the returned metadata, if no statement fixes the claim. -/
theorem C111_subset_of_partial (hn : ∀ x ∈ sups, ∀ p, Asks x t c p → p.get? "value" = none) (ds L : List Val) (hd : Dict.get? md c = some (.arr ds))
    (hL : p.get? "subset_of" = some (.arr L)) : ∃ m xs, tc.metadata.get? t = some (.obj m) ∧ Dict.get? m c = some (.arr xs) ∧ xs ≠ [] ∧ ∀ x ∈ xs, x ∈ L := by
  obtain ⟨m, h1, h2⟩ := getVerified_policyFor h ht hv (by intro e; rw [e] at hs; cases hs) hmd
  obtain ⟨mp, h3, h4⟩ := ha
  obtain ⟨xs, h5⟩ := Policy.C14_subset_of_partial V.E V.K _ _ t c m h2 (by
    intro es hes mp p e1 e2
    obtain ⟨x, hx, rfl⟩ := List.mem_map.1 hes
    exact hn x hx p ⟨mp, e1, e2⟩) md ds hmd hd (toP s) (List.mem_map.2 ⟨s, hs, rfl⟩) mp p h3 h4 L hL
  exact ⟨m, xs, h1, h5⟩

/-- C111 for `one_of`: a single value in the returned metadata is one that every statement above the leaf allows, if no statement fixes the claim. -/
theorem C111_one_of_partial (hn : ∀ x ∈ sups, ∀ p, Asks x t c p → p.get? "value" = none) (L : List Val) (hL : p.get? "one_of" = some (.arr L)) :
    ∃ m, tc.metadata.get? t = some (.obj m) ∧ ∀ v, Dict.get? m c = some v → (∀ xs, v ≠ .arr xs) → v ∈ L := by
  obtain ⟨m, h1, h2⟩ := getVerified_policyFor h ht hv (by intro e; rw [e] at hs; cases hs) hmd
  obtain ⟨mp, h3, h4⟩ := ha
  refine ⟨m, h1, fun v hv hnl => ?_⟩
  exact Policy.C14_one_of_partial V.E V.K _ _ t c m h2 (by
    intro es hes mp p e1 e2
    obtain ⟨x, hx, rfl⟩ := List.mem_map.1 hes
    exact hn x hx p ⟨mp, e1, e2⟩) (toP s) (List.mem_map.2 ⟨s, hs, rfl⟩) mp p h3 h4 L hL v hv hnl

end

/-- Both authorities ask something, and both get it. -/
example : (getVerified (Ex.env (Ex.W111 [("subset_of", .arr [.str "a", .str "b"]), ("essential", .bool true)] [("subset_of", .arr [.str "b", .str "c"])] (.arr [.str "a", .str "b", .str "c"])))
    Ex.st "https://leaf").1 = .ok [Ex.chain111 [("subset_of", .arr [.str "a", .str "b"]), ("essential", .bool true)] [("subset_of", .arr [.str "b", .str "c"])]
      (.arr [.str "a", .str "b", .str "c"]) (.arr [.str "b"])] := by decide +kernel
example : (getVerified (Ex.env (Ex.W111 [("add", .arr [.str "x"])] [("add", .str "y")] (.str "z"))) Ex.st "https://leaf").1 =
    .ok [Ex.chain111 [("add", .arr [.str "x"])] [("add", .str "y")] (.str "z") (.arr [.str "z", .str "x", .str "y"])] := by decide +kernel
example : (getVerified (Ex.env (Ex.W111 [("one_of", .arr [.str "x", .str "z"])] [("one_of", .arr [.str "z"])] (.str "z"))) Ex.st "https://leaf").1 =
    .ok [Ex.chain111 [("one_of", .arr [.str "x", .str "z"])] [("one_of", .arr [.str "z"])] (.str "z") (.str "z")] := by decide +kernel

end Fed.Chains
