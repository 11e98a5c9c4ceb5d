import Verif.Client.HttpProps
/-
C176: metadata of a provider applied to a combination. Model of `FederationCombo.apply_metadata`, /repo/src/fedservice/combo/__init__.py 148-154.
-/
namespace Fed.Config.Applied
open Fed Fed.Client.Http

/-- Metadata by entity type. -/
abbrev Metadata := Dict (Dict Val)

/-- A part of a combination, as far as it concerns metadata of others. `context`: the `server_metadata` of its context, none if it has no context (a handler of relying parties has none of its own). `client`: the
`server_metadata` of the context of its client, which the federation entity has (/repo/src/fedservice/entity/client/__init__.py 65 and 160-164, /repo/src/fedservice/entity/__init__.py 66-76). -/
structure Part where
  context : Option Metadata
  client : Option Metadata := none
deriving DecidableEq

/-- One part (combo/__init__.py 151-153). -/
def Part.given (m : Metadata) (p : Part) : Part :=
  match p.context with
  | some _ => { p with context := some m }
  | none => p

/-- `apply_metadata` (combo/__init__.py 148-154): the context of every part that has one. -/
def apply (m : Metadata) (parts : Dict Part) : Dict Part := parts.map fun p => (p.1, p.2.given m)

/-- Where a part looks for a claim in the metadata of a provider: a federation entity in the context of its client, the only one of /repo that has `get_metadata_claim` (entity/client/__init__.py 113-127); the clients of a
combination in their own context (idpyoidc's, assumed to do the same). AttributeError if there is none. -/
def lookup (p : Part) (claim : String) (types : List String) : Except PyErr Val :=
  match p.client with
  | some m => getMetadataClaim m claim types
  | none =>
    match p.context with
    | some m => getMetadataClaim m claim types
    | none => .error .attributeError

/-- C176, full: after metadata was applied, all parts go by it. -/
def C176_full : Prop := ∀ (m : Metadata) (parts : Dict Part) (name : String) (p : Part) (claim : String) (types : List String), (apply m parts).get? name = some p →
  lookup p claim types = getMetadataClaim m claim types

namespace Ex
def op : Metadata := [("openid_provider", [("issuer", .str "https://op")]), ("federation_entity", [("federation_fetch_endpoint", .str "https://op/fetch")])]
def parts : Dict Part := [("federation_entity", ⟨some [], some []⟩), ("openid_relying_party", ⟨some [], none⟩)]
end Ex

/-- C176 fails: it does not reach the client of the federation entity. -/
theorem C176_client_violation : ¬ C176_full := by
  intro h
  have h1 := h Ex.op Ex.parts "federation_entity" ⟨some Ex.op, some []⟩ "federation_fetch_endpoint" ["federation_entity"] (by decide)
  exact absurd h1 (by decide)

/-- C176 fails: nor does it reach parts that have no context, such as a handler of relying parties. -/
theorem C176_handler_violation : ¬ ∀ (m : Metadata) (parts : Dict Part) (name : String) (p : Part) (claim : String) (types : List String), (apply m parts).get? name = some p → p.client = none →
    lookup p claim types = getMetadataClaim m claim types := by
  intro h
  have h1 := h Ex.op [("openid_relying_party", ⟨none, none⟩)] "openid_relying_party" ⟨none, none⟩ "issuer" ["openid_provider"] (by decide) rfl
  exact absurd h1 (by decide)

theorem get?_apply (m : Metadata) (parts : Dict Part) (name : String) :
    (apply m parts).get? name = (parts.get? name).map (Part.given m) := by
  induction parts with
  | nil => rfl
  | cons p parts ih =>
    obtain ⟨k, v⟩ := p
    change Dict.get? ((k, v.given m) :: apply m parts) name = _
    rw [Dict.get?_cons, Dict.get?_cons, ih]
    by_cases h : k = name
    · rw [if_pos h, if_pos h]; rfl
    · rw [if_neg h, if_neg h]

/-- In general: what the client of a federation entity finds is what it found before, whatever is applied. -/
theorem C176_never (m : Metadata) (parts : Dict Part) (name : String) (p p' : Part) (c : Metadata) (claim : String) (types : List String) (h : parts.get? name = some p) (hc : p.client = some c)
    (h' : (apply m parts).get? name = some p') : lookup p' claim types = lookup p claim types := by
  rw [get?_apply, h] at h'
  simp only [Option.map_some, Option.some.injEq] at h'
  have : p'.client = some c := by
    rw [← h']
    unfold Part.given
    cases p.context with
    | none => exact hc
    | some _ => exact hc
  unfold lookup
  rw [this, hc]

/-- C176 for the clients of a combination: each of them goes by exactly what was applied last; metadata applied earlier leaves no trace. No part comes or goes. -/
theorem C176_applied_partial (ms : List Metadata) (m : Metadata) (parts : Dict Part) (name : String) (claim : String) (types : List String) :
    let later := apply m (ms.foldl (fun ps x => apply x ps) parts)
    ((later.get? name).isSome = (parts.get? name).isSome) ∧
      ∀ p p', parts.get? name = some p → p.client = none → p.context ≠ none → later.get? name = some p' → lookup p' claim types = getMetadataClaim m claim types := by
  intro later
  have key : ∀ (ms : List Metadata) (parts : Dict Part), ((ms.foldl (fun ps x => apply x ps) parts).get? name).isSome = (parts.get? name).isSome ∧
      ∀ p p', parts.get? name = some p → (ms.foldl (fun ps x => apply x ps) parts).get? name = some p' → p'.client = p.client ∧ (p.context ≠ none → p'.context ≠ none) := by
    intro ms
    induction ms with
    | nil =>
      intro parts
      refine ⟨rfl, fun p p' h h' => ?_⟩
      rw [List.foldl_nil] at h'
      rw [h] at h'
      cases h'
      exact ⟨rfl, id⟩
    | cons x ms ih =>
      intro parts
      obtain ⟨h1, h2⟩ := ih (apply x parts)
      rw [List.foldl_cons]
      refine ⟨?_, fun p p' h h' => ?_⟩
      · rw [h1, get?_apply, Option.isSome_map]
      · have hg := get?_apply x parts name
        rw [h] at hg
        obtain ⟨h3, h4⟩ := h2 _ p' hg h'
        simp only [Part.given] at h3 h4
        cases hp : p.context with
        | none => rw [hp] at h3; exact ⟨h3, fun h => absurd rfl h⟩
        | some _ => rw [hp] at h3 h4; exact ⟨h3, fun _ => h4 (by simp)⟩
  obtain ⟨h1, h2⟩ := key ms parts
  refine ⟨?_, fun p p' h hc hx h' => ?_⟩
  · change ((apply m _).get? name).isSome = _
    rw [get?_apply, Option.isSome_map, h1]
  · change (apply m _).get? name = _ at h'
    rw [get?_apply] at h'
    cases hq : (ms.foldl (fun ps x => apply x ps) parts).get? name with
    | none => rw [hq] at h'; cases h'
    | some q =>
      rw [hq] at h'
      simp only [Option.map_some, Option.some.injEq] at h'
      obtain ⟨h3, h4⟩ := h2 p q h hq
      unfold Part.given at h'
      cases hqc : q.context with
      | none => exact absurd hqc (h4 hx)
      | some _ =>
        rw [hqc] at h'
        subst h'
        unfold lookup
        simp only [h3, hc]

example : let later := apply Ex.op (apply [("openid_provider", [("jwks_uri", .str "old")])] Ex.parts)
    (later.get? "openid_relying_party").map (lookup · "issuer" ["openid_provider"]) = some (.ok (.str "https://op")) ∧
      (later.get? "openid_relying_party").map (lookup · "jwks_uri" ["openid_provider"]) = some (.error .keyError) ∧
      (later.get? "federation_entity").map (lookup · "issuer" []) = some (.error .keyError) := by decide

end Fed.Config.Applied
