import Verif.Server.ContextGiven
/-
Model of the view that publishes the configuration of an entity in the web front ends: `wkof` of /repo/dc4eu_federation/*/views.py and /repo/setup_federation/*/views.py (the line numbers are those of
/repo/dc4eu_federation/trust_anchor/views.py), of /repo/edu_federation/*/views.py and of /repo/example/*/views.py. Property C187: what a web front end publishes.
-/
namespace Fed.Web
open Fed Server Server.Context

/-- `wkof` (trust_anchor/views.py 169-181): `metadata` is that of the entity, or of the combination where there is one (wallet_provider/views.py 204-219). -/
def wkof (files : Dict Val) (c : Ctx) (now : Int) (metadata : Val) : Except PyErr (Dict Val) :=
  match getHints files c with
  | .error e => .error e
  | .ok hints => ctxStatement files c now c.entityId c.entityId [("metadata", metadata), ("authority_hints", hints), ("lifetime", .int c.defaultLifetime)]

/-- `wkof` of the examples (/repo/example/ta/views.py 158-170, /repo/example/intermediate/views.py 158-172): the authority hints are handed over as the context has them. Something to call is called
further down (entity_statement/create.py 36-40), as it is when the context hands it over itself. -/
def wkofExample (files : Dict Val) (c : Ctx) (now : Int) (metadata : Val) : Except PyErr (Dict Val) :=
  ctxStatement files c now c.entityId c.entityId ([("metadata", metadata)] ++ (match c.hints with | .value v => [("authority_hints", v)] | .file n => [("authority_hints", .str n)] | _ => []) ++
    [("lifetime", .int c.defaultLifetime)])

/-- `wkof` of the relying party (/repo/edu_federation/relying_party_explicit/views.py 64-97): as the endpoint does it. -/
def wkofRelyingParty (files : Dict Val) (c : Ctx) (now : Int) (metadata : Val) : Except PyErr (Dict Val) := configuration files c now metadata

/-- What is to be published. -/
structure Publishes (c : Ctx) (now : Int) (md hints marks : Val) (p : Dict Val) : Prop where
  issuer : p.get? "iss" = some (.str c.entityId)
  subject : p.get? "sub" = some (.str c.entityId)
  issued : p.get? "iat" = some (.int now)
  keys : p.get? "jwks" = some c.ownKeys
  expires : c.defaultLifetime ≠ 0 → p.get? "exp" = some (.int (now + c.defaultLifetime))
  metadata : p.get? "metadata" = (some md).filter Val.truthy
  hints : p.get? "authority_hints" = (some hints).filter Val.truthy
  marks : p.get? "trust_marks" = (some marks).filter Val.truthy
  nothingElse : ∀ k, k ∉ ["iss", "sub", "iat", "jwks", "exp", "metadata", "authority_hints", "trust_marks"] → p.get? k = none

/-- C187 in full, for one of the views. -/
def C187_full (view : Dict Val → Ctx → Int → Val → Except PyErr (Dict Val)) : Prop := ∀ (files : Dict Val) (c : Ctx) (now : Int) (md hints marks : Val),
  getHints files c = .ok hints → getMarks files c = .ok marks → ∃ p, view files c now md = .ok p ∧ Publishes c now md hints marks p

/-- The arguments of such a statement. -/
def ownArgs (md : Val) (given : Option Val) (lifetime : Int) : Dict Val := ("metadata", md) :: ((given.map fun v => ("authority_hints", v)).toList ++ [("lifetime", .int lifetime)])

theorem get?_ownArgs (md : Val) (given : Option Val) (l : Int) (k : String) :
    (ownArgs md given l).get? k = if "metadata" = k then some md else if "authority_hints" = k then given else if "lifetime" = k then some (.int l) else none := by
  unfold ownArgs
  cases given with
  | none =>
    simp only [Option.map_none, Option.toList_none, List.nil_append, Dict.get?_cons, Dict.get?_nil]
    by_cases h : "authority_hints" = k
    · subst h; simp
    · rw [if_neg h]
  | some v => simp only [Option.map_some, Option.toList_some, List.cons_append, List.nil_append, Dict.get?_cons, Dict.get?_nil]

/-- A statement of an entity about itself, in its context, given hints or none. -/
theorem own_statement (files : Dict Val) (c : Ctx) (now : Int) (md marks : Val) (given : Option Val) (hints : Val) (hm : getMarks files c = .ok marks)
    (hg : ∀ v, given = some v → v.truthy = true → v = hints)
    (hr : (given = none ∨ ∃ v, given = some v ∧ v.truthy = false) → (rawHints c.hints).1.or ((some (rawHints c.hints).2).filter Val.truthy) = (some hints).filter Val.truthy) :
    ∃ p, ctxStatement files c now c.entityId c.entityId (ownArgs md given c.defaultLifetime) = .ok p ∧
      Publishes c now md hints marks p := by
  have hk := get?_ownArgs md given c.defaultLifetime
  generalize ownArgs md given c.defaultLifetime = A at hk ⊢
  have hka : ∀ k, (keyArgs A).get? k = Dict.get? A k := by
    intro k
    by_cases h1 : k = "jwks"
    · subst h1
      have := hk "jwks"
      have h2 := hk "keys"
      simp at this h2
      simp [keyArgs, this, wrapKeys, get?_without, h2]
    · by_cases h2 : k = "keys"
      · subst h2
        have := hk "jwks"
        have h2 := hk "keys"
        simp at this h2
        simp [keyArgs, this, wrapKeys, get?_without, h2]
      · exact get?_keyArgs_other _ _ h1 h2
  unfold ctxStatement
  have hma : ∃ kw, markArgs files c (keyArgs A) = .ok kw ∧ ∀ k, kw.get? k = if "trust_marks" = k then (some marks).filter Val.truthy else Dict.get? A k := by
    unfold markArgs
    have : (keyArgs A).get? "trust_marks" = none := by rw [hka, hk]; simp
    rw [this, hm]
    refine ⟨_, by simp only [Option.getD_none, show Val.null.truthy = false from rfl]; rfl, fun k => ?_⟩
    by_cases ht : marks.truthy = true
    · rw [if_pos ht, Dict.get?_set, hka]; simp [Option.filter, ht]
    · rw [if_neg ht, hka]
      by_cases hq : "trust_marks" = k
      · subst hq; rw [if_pos rfl, hk]; simp [Option.filter, ht]
      · rw [if_neg hq]
  obtain ⟨kw, hkw, hkw'⟩ := hma
  have hlt : lifetimeArg c A = .int c.defaultLifetime := by
    unfold lifetimeArg
    have : Dict.get? A "lifetime" = some (.int c.defaultLifetime) := by rw [hk]; simp
    rw [this]
    simp only [Option.getD_some]
    split <;> rfl
  have hgv : Dict.get? A "authority_hints" = given := by rw [hk]; simp
  simp only [hkw, hgv]
  generalize hfh : (if (given.getD .null).truthy = true then (none, given.getD .null) else rawHints c.hints) = fh
  have hfh' : fh.1.or ((some fh.2).filter Val.truthy) = (some hints).filter Val.truthy := by
    rw [← hfh]
    cases given with
    | none => rw [if_neg (by simp [Val.truthy])]; exact hr (.inl rfl)
    | some v =>
      by_cases ht : v.truthy = true
      · rw [Option.getD_some, if_pos ht]
        rw [hg v rfl ht]
        rfl
      · rw [Option.getD_some, if_neg ht]
        exact hr (.inr ⟨v, rfl, by simpa using ht⟩)
  rw [hlt]
  generalize hK : (kw.set "authority_hints" fh.2).set "lifetime" (.int c.defaultLifetime) = K
  have hKk : ∀ k, K.get? k = if "lifetime" = k then some (.int c.defaultLifetime) else if "authority_hints" = k then some fh.2 else if "trust_marks" = k then (some marks).filter Val.truthy
      else if "metadata" = k then some md else none := by
    intro k
    rw [← hK, Dict.get?_set, Dict.get?_set, hkw', hk]
    by_cases h1 : "lifetime" = k
    · simp [h1]
    · by_cases h2 : "authority_hints" = k
      · simp [h1, h2]
      · simp [h1, h2]
  have hok : ∃ p, createStatement c.ownKeys now c.entityId c.entityId fh.1 K = .ok p := by
    unfold createStatement
    rw [if_neg (by simp [Dict.has, hKk])]
    have : param K "lifetime" (.int 86400) = .int c.defaultLifetime := by simp [param, hKk]
    rw [this]
    exact ⟨_, rfl⟩
  obtain ⟨p, hp⟩ := hok
  obtain ⟨c1, c2, c3, c4, c5, c6, -, c8, c9, c10, c11, c12⟩ := C59_payload _ _ _ _ _ _ _ hp
  refine ⟨p, hp, c2, c1, c3, ?_, ?_, ?_, ?_, ?_, ?_⟩
  · rw [c8 (by rw [hKk]; simp), hKk]; simp [Val.truthy]
  · intro hd
    exact c9 _ (.inl (by rw [hKk]; simp)) hd
  · rw [c4 "metadata" (by simp), hKk]; simp
  · rw [← hfh']
    cases hf : fh.1 with
    | some v => rw [c5 v hf]; rfl
    | none => rw [c6 hf, hKk]; simp
  · rw [c12 "trust_marks" (by decide) (by decide), hKk]; simp
  · intro k hn
    simp only [List.mem_cons, not_or, List.not_mem_nil, not_false_eq_true, and_true] at hn
    obtain ⟨n1, n2, n3, n4, n5, n6, n7, n8⟩ := hn
    by_cases hp : k ∈ namedParams
    · simp only [namedParams, List.mem_cons, List.not_mem_nil, or_false] at hp
      rcases hp with rfl | rfl | rfl | rfl | rfl | rfl | rfl
      · exact absurd rfl n6
      · rw [c4 _ (by simp), hKk]; simp
      · exact absurd rfl n7
      · exact c10
      · rw [c4 _ (by simp), hKk]; simp
      · exact c11
      · rw [c4 _ (by simp), hKk]; simp
    · rw [c12 k hp (by simp [n1, n2, n3, n4, n5]), hKk]
      rw [if_neg (by rintro rfl; exact hp (by decide)), if_neg (Ne.symm n7), if_neg (Ne.symm n8), if_neg (Ne.symm n6)]

/-- C187 for the front ends of the federations, whatever the trust marks are given as. Missing: an entity without superiors that has its (empty) authority hints in a file, or a function for them (false). -/
theorem C187_view_partial (files : Dict Val) (c : Ctx) (now : Int) (md hints marks : Val) (hh : getHints files c = .ok hints) (hm : getMarks files c = .ok marks)
    (hs : hints.truthy = true ∨ c.hints = .value hints) : ∃ p, wkof files c now md = .ok p ∧ Publishes c now md hints marks p := by
  unfold wkof
  rw [hh]
  refine own_statement files c now md marks (some hints) hints hm (fun v hv _ => by cases hv; rfl) ?_
  rintro (h | ⟨v, h1, h2⟩)
  · cases h
  · cases h1
    rcases hs with hs | hs
    · rw [hs] at h2; cases h2
    · rw [hs]; rfl

/-- C187 for the examples. Missing, and false: authority hints in a file. -/
theorem C187_example_partial (files : Dict Val) (c : Ctx) (now : Int) (md hints marks : Val) (hm : getMarks files c = .ok marks)
    (hs : c.hints = .value hints ∨ (c.hints = .call hints ∧ hints.truthy = true)) : ∃ p, wkofExample files c now md = .ok p ∧ Publishes c now md hints marks p := by
  unfold wkofExample
  rcases hs with hs | ⟨hs, ht⟩
  · rw [hs]
    refine own_statement files c now md marks (some hints) hints hm (fun v hv _ => by cases hv; rfl) fun _ => ?_
    rw [hs]; rfl
  · rw [hs]
    refine own_statement files c now md marks none hints hm (fun v hv _ => by cases hv) fun _ => ?_
    rw [hs]; simp [rawHints, Option.filter, ht]

/-- C187: where both say what they should, the view and the endpoint say the same, except for how long it holds. -/
theorem C187_same_partial (files : Dict Val) (c : Ctx) (now : Int) (md hints marks : Val) (hh : getHints files c = .ok hints) (hm : getMarks files c = .ok marks)
    (hs : hints.truthy = true ∨ c.hints = .value hints) (hf : ∀ n, c.marks ≠ .file n) (he : ∀ v, c.marks = .call v → v.truthy = true) :
    ∃ p q, wkof files c now md = .ok p ∧ configuration files c now md = .ok q ∧ (∀ k, k ≠ "exp" → p.get? k = q.get? k) ∧ (c.defaultLifetime = 86400 → ∀ k, p.get? k = q.get? k) := by
  obtain ⟨p, hp, h⟩ := C187_view_partial files c now md hints marks hh hm hs
  obtain ⟨q, hq, q1, q2, q3, q4, q5, q6, q7⟩ := configuration_ok files c now md hints hh
  have hmarks : (endpointMarks c).get? "trust_marks" = (some marks).filter Val.truthy := by
    unfold getMarks at hm
    unfold endpointMarks
    cases hc : c.marks with
    | nothing => rw [hc] at hm; cases hm; rfl
    | file n => exact absurd hc (hf n)
    | value v =>
      rw [hc] at hm; cases hm
      by_cases ht : marks.truthy = true
      · simp [Source.given, ht, Option.filter, Dict.get?_cons]
      · simp [Source.given, ht, Option.filter, Dict.get?_nil]
    | call v => rw [hc] at hm; cases hm; simp [Source.given, he _ hc, Option.filter, Dict.get?_cons]
  have hrest : q.get? "iat" = some (.int now) ∧ ∀ k, k ∉ ["iss", "sub", "iat", "jwks", "exp", "metadata", "authority_hints", "trust_marks"] → q.get? k = none := by
    unfold configuration at hq
    rw [hh] at hq
    simp only at hq
    have hk : ∀ k, Dict.get? ([("metadata", md), ("authority_hints", hints)] ++ endpointMarks c) k =
        if "metadata" = k then some md else if "authority_hints" = k then some hints else (endpointMarks c).get? k := by
      intro k; simp [Dict.get?]
    generalize ([("metadata", md), ("authority_hints", hints)] ++ endpointMarks c) = kw at hk hq
    obtain ⟨-, -, c3, c4, -, -, -, -, -, c10, c11, c12⟩ := C59_payload _ _ _ _ _ _ _ hq
    refine ⟨c3, fun k hn => ?_⟩
    simp only [List.mem_cons, not_or, List.not_mem_nil, not_false_eq_true, and_true] at hn
    obtain ⟨n1, n2, n3, n4, n5, n6, n7, n8⟩ := hn
    have hkn : Dict.get? kw k = none := by rw [hk, if_neg (Ne.symm n6), if_neg (Ne.symm n7), get?_endpointMarks c k n8]
    by_cases hp : k ∈ namedParams
    · simp only [namedParams, List.mem_cons, List.not_mem_nil, or_false] at hp
      rcases hp with rfl | rfl | rfl | rfl | rfl | rfl | rfl
      · exact absurd rfl n6
      · rw [c4 _ (by simp), hkn]; rfl
      · exact absurd rfl n7
      · exact c10
      · rw [c4 _ (by simp), hkn]; rfl
      · exact c11
      · rw [c4 _ (by simp), hkn]; rfl
    · rw [c12 k hp (by simp [n1, n2, n3, n4, n5]), hkn]
  have main : ∀ k, k ≠ "exp" → p.get? k = q.get? k := by
    intro k hk
    by_cases hin : k ∈ ["iss", "sub", "iat", "jwks", "exp", "metadata", "authority_hints", "trust_marks"]
    · simp only [List.mem_cons, List.not_mem_nil, or_false] at hin
      rcases hin with rfl | rfl | rfl | rfl | rfl | rfl | rfl | rfl
      · rw [h.issuer, q1]
      · rw [h.subject, q2]
      · rw [h.issued, hrest.1]
      · rw [h.keys, q3]
      · exact absurd rfl hk
      · rw [h.metadata, q5]
      · rw [h.hints, q6]
      · rw [h.marks, q7, hmarks]
    · rw [h.nothingElse k hin, hrest.2 k hin]
  refine ⟨p, q, hp, hq, main, fun hd k => ?_⟩
  by_cases hk : k = "exp"
  · subst hk
    rw [q4, h.expires (by rw [hd]; decide), hd]
  · exact main k hk

namespace Ex
/-- Authority hints and trust marks in files. -/
def ctx187 : Ctx := { entityId := "https://op", ownKeys := .obj [("keys", .arr [.str "k"])], hints := .file "hints.json", marks := .file "marks.json", defaultLifetime := 3600 }
def files187 : Dict Val := [("hints.json", .arr [.str "https://ta"]), ("marks.json", .arr [.str "eyJ"]), ("none.json", .arr [])]
end Ex

/-- The view reads the trust marks from the file, which the endpoint does not (C149). -/
example : ∃ p, wkof Ex.files187 Ex.ctx187 10 (.obj [("federation_entity", .obj [])]) = .ok p ∧ p.get? "trust_marks" = some (.arr [.str "eyJ"]) ∧ p.get? "exp" = some (.int 3610) ∧
    p.get? "authority_hints" = some (.arr [.str "https://ta"]) := by
  obtain ⟨p, h1, h2⟩ := C187_view_partial Ex.files187 Ex.ctx187 10 (.obj [("federation_entity", .obj [])]) (.arr [.str "https://ta"]) (.arr [.str "eyJ"]) rfl rfl (.inl rfl)
  exact ⟨p, h1, h2.marks, h2.expires (by decide), h2.hints⟩

example := C187_example_partial Ex.files187 { Ex.ctx187 with hints := .value (.arr [.str "https://ta"]) } 10 (.obj []) _ _ rfl (.inl rfl)
example := C187_same_partial Ex.files187 { Ex.ctx187 with marks := .value (.arr [.str "eyJ"]) } 10 (.obj []) (.arr [.str "https://ta"]) (.arr [.str "eyJ"]) rfl rfl (.inl rfl) (fun n h => by cases h) (fun v h => by cases h)

/-- C187 does not hold for the front ends of the federations: a trust anchor with an empty file of authority hints publishes the name of the file as its authority hints; -/
theorem C187_view_violation : ¬ C187_full wkof := by
  intro h
  obtain ⟨p, hp, hs⟩ := h Ex.files187 { Ex.ctx187 with hints := .file "none.json" } 0 (.obj []) (.arr []) (.arr [.str "eyJ"]) rfl rfl
  have hq : ∃ q, wkof Ex.files187 { Ex.ctx187 with hints := .file "none.json" } 0 (.obj []) = .ok q ∧ q.get? "authority_hints" = some (.str "none.json") := ⟨_, rfl, by decide +kernel⟩
  obtain ⟨q, hq1, hq2⟩ := hq
  rw [hp] at hq1; cases hq1
  rw [hs.hints] at hq2
  revert hq2; decide +kernel

/-- nor for the examples: whoever has authority hints in a file publishes the name of the file; -/
theorem C187_example_violation : ¬ C187_full wkofExample := by
  intro h
  obtain ⟨p, hp, hs⟩ := h Ex.files187 Ex.ctx187 0 (.obj []) (.arr [.str "https://ta"]) (.arr [.str "eyJ"]) rfl rfl
  have hq : ∃ q, wkofExample Ex.files187 Ex.ctx187 0 (.obj []) = .ok q ∧ q.get? "authority_hints" = some (.str "hints.json") := ⟨_, rfl, by decide +kernel⟩
  obtain ⟨q, hq1, hq2⟩ := hq
  rw [hp] at hq1; cases hq1
  rw [hs.hints] at hq2
  revert hq2; decide +kernel

/-- nor for the relying party: its configuration holds for a day whatever it was set up with, and trust marks in a file are not read. -/
theorem C187_relying_party_violation : ¬ C187_full wkofRelyingParty := by
  intro h
  obtain ⟨p, hp, hs⟩ := h Ex.files187 Ex.ctx187 0 (.obj []) (.arr [.str "https://ta"]) (.arr [.str "eyJ"]) rfl rfl
  obtain ⟨q, hq1, -, -, -, hq2, -⟩ := configuration_ok Ex.files187 Ex.ctx187 0 (.obj []) (.arr [.str "https://ta"]) rfl
  rw [wkofRelyingParty, hq1] at hp; cases hp
  rw [hs.expires (by decide)] at hq2
  revert hq2; decide +kernel

end Fed.Web
