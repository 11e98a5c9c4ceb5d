import Verif.Py
/-
C174, C175: how the parts of an entity find their federation entity and the settings in its context. Model of `get_federation_entity`, /repo/src/fedservice/entity/utils.py 20-36, and of `get_context_attribute` of the
federation entity (/repo/src/fedservice/entity/__init__.py 202-207) and of its client (/repo/src/fedservice/entity/client/__init__.py 208-211).
-/
namespace Fed.Config.Lookup
open Fed

/-- What an object has besides the unit above it. `entity`: its class is called `FederationEntity`. `get`: the parts it can be asked for by name, none if it has no method `get` (a combination has,
/repo/src/fedservice/combo/__init__.py 75-79). `guise`: none if it has no method `get_guise`, otherwise what a call with one argument gives; the one of servers takes no argument, a TypeError
(/repo/src/fedservice/appserver/__init__.py 191-192). Objects are known by their name. -/
structure Item where
  name : String
  entity : Bool := false
  get : Option (Dict String) := none
  guise : Option (Except PyErr (Option String)) := none

/-- An object with the units above it, the nearest first. Simplification: `upstream_get('unit')` gives the unit above (idpyoidc's `unit_get`), and no unit is above itself. -/
abbrev Path := Item × List Item

/-- `get_federation_entity` (entity/utils.py 20-36) where there is no unit above. -/
def findTop (x : Item) : Except PyErr (Option String) :=
  if x.entity then .ok (some x.name)
  else
    match x.get with
    | some parts => .ok (parts.get? "federation_entity")
    | none =>
      match x.guise with
      | some r => r
      | none => .ok none

/-- `get_federation_entity` (entity/utils.py 20-36): itself, or else what the unit above finds, or else what it has under that name. -/
def find (x : Item) : List Item → Except PyErr (Option String)
  | [] => findTop x
  | u :: above => if x.entity then .ok (some x.name) else find u above

/-! ## C174 -/

/-- The federation entity that an object belongs to: the nearest above it (or itself), or the one that the combination at the top has. `none`: there is none. -/
def Belongs (x : Item) (above : List Item) (r : Option String) : Prop :=
  (∃ near f far, x :: above = near ++ f :: far ∧ (∀ u ∈ near, u.entity = false) ∧ f.entity = true ∧ r = some f.name) ∨
    ((∀ u ∈ x :: above, u.entity = false) ∧ ∃ top, (x :: above).getLast? = some top ∧ r = top.get.bind fun parts => parts.get? "federation_entity")

/-- C174, full: every object finds the federation entity it belongs to, and None if there is none. -/
def C174_full : Prop := ∀ (x : Item) (above : List Item) (r : Option String), Belongs x above r → find x above = .ok r

/-- A server (/repo/src/fedservice/appserver/__init__.py). -/
def server (name : String) : Item := { name := name, guise := some (.error .typeError) }

/-- C174 fails: an endpoint of a server that is no part of a combination is not told that there is no federation entity, but gets a TypeError. -/
theorem C174_server_violation : ¬ C174_full := by
  intro h
  have h1 := h { name := "authorization" } [server "op"] none (Or.inr ⟨by decide, server "op", rfl, rfl⟩)
  exact absurd h1 (by decide)

/-- Is there an answer at the top: a federation entity, a combination, or something that has no `get_guise`? -/
def Rooted (x : Item) (above : List Item) : Prop := ∀ top, (x :: above).getLast? = some top → top.entity = true ∨ top.get ≠ none ∨ top.guise = none

theorem find_entity (near : List Item) : ∀ (x : Item) (above : List Item) (f : Item) (far : List Item), x :: above = near ++ f :: far → (∀ u ∈ near, u.entity = false) → f.entity = true →
    find x above = .ok (some f.name) := by
  induction near with
  | nil =>
    intro x above f far he _ hf
    simp only [List.nil_append, List.cons.injEq] at he
    obtain ⟨rfl, rfl⟩ := he
    cases above with
    | nil => simp [find, findTop, hf]
    | cons u us => simp [find, hf]
  | cons n near ih =>
    intro x above f far he hn hf
    simp only [List.cons_append, List.cons.injEq] at he
    obtain ⟨rfl, he⟩ := he
    have hx : x.entity = false := hn x (by simp)
    cases above with
    | nil => simp at he
    | cons u us =>
      simp only [find, hx]
      exact ih u us f far he (fun v hv => hn v (by simp [hv])) hf

theorem find_top : ∀ (above : List Item) (x : Item), (∀ u ∈ x :: above, u.entity = false) → ∃ top, (x :: above).getLast? = some top ∧ find x above = findTop top := by
  intro above
  induction above with
  | nil => intro x _; exact ⟨x, rfl, rfl⟩
  | cons u us ih =>
    intro x h
    have hx : x.entity = false := h x (by simp)
    obtain ⟨top, h1, h2⟩ := ih u fun v hv => h v (by simp [hv])
    refine ⟨top, ?_, ?_⟩
    · rw [List.getLast?_cons_cons]; exact h1
    · simp only [find, hx]; exact h2

/-- C174, however deep: with a federation entity above, or a combination at the top, or nothing that has a `get_guise`, every object finds the federation entity it belongs to. -/
theorem C174_found_partial (x : Item) (above : List Item) (r : Option String) (hr : Rooted x above) (h : Belongs x above r) : find x above = .ok r := by
  rcases h with ⟨near, f, far, h1, h2, h3, rfl⟩ | ⟨h1, top, h2, rfl⟩
  · exact find_entity near x above f far h1 h2 h3
  · obtain ⟨top', h3, h4⟩ := find_top above x h1
    rw [h2] at h3
    cases h3
    have ht : top.entity = false := h1 top (List.mem_of_getLast? h2)
    rw [h4]
    unfold findTop
    rw [ht]
    cases hg : top.get with
    | some parts => simp
    | none =>
      rcases hr top h2 with h | h | h
      · rw [ht] at h; cases h
      · exact absurd hg h
      · simp [h]

/-- C174, the other way: what is found is never anything but the federation entity the object belongs to. -/
theorem C174_only_partial (x : Item) (above : List Item) (r : Option String) (hr : Rooted x above) (h : find x above = .ok r) : Belongs x above r := by
  by_cases he : ∀ u ∈ x :: above, u.entity = false
  · obtain ⟨top, h1, h2⟩ := find_top above x he
    have hb : Belongs x above (top.get.bind fun parts => parts.get? "federation_entity") := Or.inr ⟨he, top, h1, rfl⟩
    have := C174_found_partial x above _ hr hb
    rw [this] at h
    cases h
    exact hb
  · have key : ∀ l : List Item, ¬ (∀ u ∈ l, u.entity = false) → ∃ near f far, l = near ++ f :: far ∧ (∀ u ∈ near, u.entity = false) ∧ f.entity = true := by
      intro l
      induction l with
      | nil => intro h; exact absurd (by simp) h
      | cons u us ih =>
        intro h
        cases hu : u.entity with
        | true => exact ⟨[], u, us, rfl, by simp, hu⟩
        | false =>
          have : ¬ ∀ v ∈ us, v.entity = false := by
            intro h'
            apply h
            intro v hv
            rcases List.mem_cons.1 hv with rfl | hv
            · exact hu
            · exact h' v hv
          obtain ⟨near, f, far, h1, h2, h3⟩ := ih this
          refine ⟨u :: near, f, far, by rw [h1]; rfl, ?_, h3⟩
          intro v hv
          rcases List.mem_cons.1 hv with rfl | hv
          · exact hu
          · exact h2 v hv
    obtain ⟨near, f, far, h1, h2, h3⟩ := key _ he
    rw [find_entity near x above f far h1 h2 h3] at h
    cases h
    exact Or.inl ⟨near, f, far, h1, h2, h3, rfl⟩

namespace Ex
def fe : Item := { name := "fe", entity := true }
def combo : Item := { name := "combo", get := some [("federation_entity", "fe"), ("openid_provider", "op")] }
end Ex

/-- A service of the client of the federation entity, and an endpoint of the provider beside it, find the same one; a service of a client by itself finds none. -/
example : find { name := "list" } [{ name := "client" }, Ex.fe, Ex.combo] = .ok (some "fe") ∧ find { name := "authorization" } [server "op", Ex.combo] = .ok (some "fe") ∧
    find { name := "registration" } [{ name := "rp" }] = .ok none ∧ Rooted { name := "authorization" } [server "op", Ex.combo] := by
  refine ⟨by decide, by decide, by decide, ?_⟩
  intro top h
  have : top = Ex.combo := (Option.some.inj h).symm
  subst this
  exact Or.inr (Or.inl (by simp [Ex.combo]))

/-! ## C175 -/

/-- The contexts that a setting can be in: attributes by their name. `above`: what asking the unit above the federation entity gives, if there is one. -/
structure Contexts where
  client : Dict Val
  entity : Dict Val
  above : Option (String → Val)

/-- `FederationEntity.get_context_attribute` (entity/__init__.py 202-207). -/
def ofEntity (C : Contexts) (attr : String) : Val :=
  let v := (C.entity.get? attr).getD .null
  match C.above with
  | some up => if v.truthy then v else up attr
  | none => v

/-- `FederationClientEntity.get_context_attribute` (entity/client/__init__.py 208-211): what services of the client get for `upstream_get('context_attribute', attr)`. There is no return for a value of its own. -/
def ofClient (C : Contexts) (attr : String) : Except PyErr Val :=
  match C.client.get? attr with
  | none => .error .attributeError
  | some v => if v.truthy then .ok .null else .ok (ofEntity C attr)

/-- Is there a value that counts? -/
def Set (d : Dict Val) (attr : String) (v : Val) : Prop := d.get? attr = some v ∧ v.truthy = true

/-- C175, full: a service of the client gets the value set in the context of the client, or if none is set there the one set in the context of the entity. -/
def C175_full : Prop := ∀ (C : Contexts) (attr : String) (v : Val), (Set C.client attr v → ofClient C attr = .ok v) ∧
  ((∀ w, ¬ Set C.client attr w) → Set C.entity attr v → ofClient C attr = .ok v)

/-- C175 fails: a value set in the context of the client is lost. -/
theorem C175_own_violation : ¬ C175_full := by
  intro h
  have h1 := (h ⟨[("entity_id", .str "https://leaf")], [("entity_id", .str "https://leaf")], none⟩ "entity_id" (.str "https://leaf")).1 ⟨rfl, rfl⟩
  exact absurd h1 (by decide)

/-- C175 fails: a value set in the context of the entity does not reach services of the client if the context of the client has no such attribute. -/
theorem C175_missing_violation : ¬ ∀ (C : Contexts) (attr : String) (v : Val), (∀ w, ¬ Set C.client attr w) → Set C.entity attr v → ofClient C attr = .ok v := by
  intro h
  have h1 := h ⟨[], [("provider_info", .str "p")], none⟩ "provider_info" (.str "p") (by rintro w ⟨h, -⟩; cases h) ⟨rfl, rfl⟩
  exact absurd h1 (by decide)

/-- It is always lost: nothing set in the context of the client, and nothing in the others if it is set there, is ever given to its services. -/
theorem C175_lost (C : Contexts) (attr : String) (v : Val) (h : Set C.client attr v) : ofClient C attr = .ok .null := by
  unfold ofClient
  rw [h.1]
  simp only
  rw [if_pos h.2]

/-- C175 for attributes that the context of the client has but that are empty there: the value of the entity arrives, and if it has none, that of the unit above. -/
theorem C175_entity_partial (C : Contexts) (attr : String) (e : Val) (hc : C.client.get? attr = some e) (he : e.truthy = false) :
    (∀ v, Set C.entity attr v → ofClient C attr = .ok v) ∧ ((∀ v, ¬ Set C.entity attr v) → ∀ up, C.above = some up → ofClient C attr = .ok (up attr)) := by
  have h0 : ofClient C attr = .ok (ofEntity C attr) := by
    unfold ofClient
    rw [hc]
    simp only
    rw [if_neg (by simp [he])]
  rw [h0]
  refine ⟨fun v hv => ?_, fun hn up hu => ?_⟩
  · unfold ofEntity
    rw [hv.1]
    cases C.above with
    | none => rfl
    | some up => simp only [Option.getD_some]; rw [if_pos hv.2]
  · unfold ofEntity
    rw [hu]
    simp only
    have : ((C.entity.get? attr).getD .null).truthy = false := by
      cases hg : C.entity.get? attr with
      | none => rfl
      | some v =>
        cases ht : v.truthy with
        | false => simpa using ht
        | true => exact absurd ⟨hg, ht⟩ (hn v)
    rw [if_neg (by simp [this])]

example : ofClient ⟨[("authority_hints", .arr [])], [("authority_hints", .arr [.str "https://ta"])], none⟩ "authority_hints" = .ok (.arr [.str "https://ta"]) := by decide

end Fed.Config.Lookup
