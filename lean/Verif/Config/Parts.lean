import Verif.Verifier.Props
/-
C171, C172: which keys the parts of an entity work with. Model of how units look for the attribute `keyjar`: `FederationEntity.get_attribute` (/repo/src/fedservice/entity/__init__.py 116-131),
`FederationCombo.get_attribute` (/repo/src/fedservice/combo/__init__.py 127-140), `FederationClientEntity.get_attribute` (/repo/src/fedservice/entity/client/__init__.py 175-180) and
`FederationEntityServer.get_attribute` (/repo/src/fedservice/entity/server/__init__.py 95-100), and of the places that take the key jar of the federation entity as it is.
-/
namespace Fed.Config.Parts
open Fed Verify

/-- The attribute `keyjar` of a unit; none: False or None. -/
abbrev Attr := Option KeyJar

/-- A federation entity with its parts and what it is a part of. `combo`: the combination, none if it stands alone. `full`: does a key jar count as true (cryptojwt: has it any keys)?
Simplification: the collection of functions is idpyoidc's, of which it is assumed that it looks at itself and then asks the unit above; a combination has no context of its own. -/
structure Parts where
  full : KeyJar → Bool
  combo : Option Attr
  entity : Attr
  client : Attr
  server : Attr
  functions : Attr

namespace Parts

/-- Is there a key jar that counts as true? -/
def has (P : Parts) : Attr → Bool
  | none => false
  | some jar => P.full jar

/-- `FederationCombo.get_attribute("keyjar")` (combo/__init__.py 127-140): its own, else that of the federation entity as it is. -/
def ofCombo (P : Parts) (own : Attr) : Attr := if P.has own then own else P.entity

/-- `FederationEntity.get_attribute("keyjar")` (entity/__init__.py 116-131). -/
def ofEntity (P : Parts) : Attr :=
  if P.has P.entity then P.entity
  else
    match P.combo with
    | none => none
    | some c => P.ofCombo c

/-- `get_attribute("keyjar")` of the server (entity/server/__init__.py 95-100). -/
def ofServer (P : Parts) : Attr := if P.has P.server then P.server else P.ofEntity

/-- What the functions are given by `upstream_get("attribute", "keyjar")`. -/
def ofFunctions (P : Parts) : Attr := if P.has P.functions then P.functions else P.ofEntity

/-- What other parts of a combination are given by theirs, if they have none themselves. -/
def ofOthers (P : Parts) : Attr :=
  match P.combo with
  | none => none
  | some c => P.ofCombo c

/-- `trusted_anchor` (/repo/src/fedservice/entity/function/verifier.py 23-41): looks in the key jar of the federation entity as it is. TypeError if that is False or None. -/
def trustedAnchor (P : Parts) : Doc → Except PyErr Bool
  | none => .error .attributeError
  | some j =>
    match P.entity with
    | none => .error .typeError
    | some jar => .ok (Dict.has jar j.payload.iss)

/-- `verify_trust_chain` (verifier.py 43-103): the signatures are verified with the keys the functions are given. As `Verify.verifyTrustChain`, without taking the two key jars for one. -/
def verifyTrustChain (L : Lib) (P : Parts) (chain : List Doc) : Except PyErr (List Payload) :=
  match chain with
  | [] => .error .indexError
  | d :: _ =>
    match P.trustedAnchor d with
    | .error e => .error e
    | .ok false => .ok []
    | .ok true =>
      match P.ofFunctions with
      | none => .error .attributeError
      | some jar =>
        match (verifyLoop L (chain.length - 1) chain jar []).1 with
        | .error e => .error e
        | .ok ves =>
          match ves.getLast? with
          | none => .ok []
          | some leaf =>
            match meets ves.dropLast leaf with
            | .error e => .error e
            | .ok b => .ok (if b then ves else [])

end Parts

/-- What an entity signs. -/
inductive Kind
  | configuration
  | resolved
  | subordinate
  | registration
  | trustMark
  | selfSigned
deriving DecidableEq, Repr

/-- The key jar used: entity configurations (/repo/src/fedservice/entity/server/entity_configuration.py 51), resolve responses (resolve.py 56), statements about subordinates (fetch.py 34), requests for
explicit registration (/repo/src/fedservice/appclient/oidc/registration.py 64, oauth2/registration.py 91), trust marks of a trust mark issuer that is a part of the same combination
(/repo/src/fedservice/trust_mark_entity/entity.py 91) and those it signs for itself (113-116). The key jar of the trust mark issuer itself (54-57) is not used. -/
def signs (P : Parts) : Kind → Attr
  | .configuration => P.ofEntity
  | .resolved => P.ofEntity
  | .subordinate => P.ofServer
  | .registration => P.ofEntity
  | .trustMark => P.entity
  | .selfSigned => P.ofOthers

/-! ## C171 -/

/-- The parts of the federation entity have no keys themselves. -/
def Parts.Plain (P : Parts) : Prop := P.has P.client = false ∧ P.has P.server = false ∧ P.has P.functions = false

/-- C171, full: wherever the keys of an entity are kept, chains are accepted as the key jar that trust anchors are put into says. -/
def C171_full : Prop := ∀ (L : Lib) (P : Parts) (jar : KeyJar) (chain : List Doc), P.Plain → P.ofFunctions = some jar → P.full jar = true →
  P.verifyTrustChain L chain = (Verify.verifyTrustChain L jar chain).1

/-- Reading the two definitions side by side. -/
theorem verify_same (L : Lib) (P : Parts) (jar : KeyJar) (chain : List Doc) (h1 : P.entity = some jar) (h2 : P.ofFunctions = some jar) :
    P.verifyTrustChain L chain = (Verify.verifyTrustChain L jar chain).1 := by
  cases chain with
  | nil => rfl
  | cons d ds =>
    have ht : P.trustedAnchor d = Verify.trustedAnchor jar d := by
      cases d with
      | none => rfl
      | some j => simp only [Parts.trustedAnchor, Verify.trustedAnchor, h1]
    simp only [Parts.verifyTrustChain, Verify.verifyTrustChain, ht, h2]
    cases Verify.trustedAnchor jar d with
    | error e => rfl
    | ok b =>
      cases b with
      | false => rfl
      | true =>
        rcases hg : verifyLoop L ((d :: ds).length - 1) (d :: ds) jar [] with ⟨r, jar'⟩
        cases r with
        | error e => simp only [hg]
        | ok ves =>
          simp only [hg]
          cases ves.getLast? with
          | none => rfl
          | some leaf =>
            simp only
            cases meets ves.dropLast leaf with
            | error e => rfl
            | ok b => rfl

theorem entity_functions {P : Parts} (hp : P.Plain) : P.ofFunctions = P.ofEntity := by
  unfold Parts.ofFunctions; rw [hp.2.2]; rfl

/-- C171 as far as it holds: for an entity that keeps its keys itself; then they are its keys that count. Missing: combinations that keep the keys. -/
theorem C171_own_keys_partial (L : Lib) (P : Parts) (chain : List Doc) (hp : P.Plain) (h : P.has P.entity = true) :
    ∃ jar, P.entity = some jar ∧ P.ofFunctions = some jar ∧ P.verifyTrustChain L chain = (Verify.verifyTrustChain L jar chain).1 := by
  cases he : P.entity with
  | none => rw [he] at h; cases h
  | some jar =>
    have h1 : P.ofFunctions = some jar := by rw [entity_functions hp]; unfold Parts.ofEntity; rw [h]; exact he
    exact ⟨jar, rfl, h1, verify_same L P jar chain he h1⟩

/-- And what happens otherwise: where the federation entity has no key jar or an empty one nothing is ever accepted, whatever keys and trust anchors the combination has. -/
theorem C171_nothing (L : Lib) (P : Parts) (chain : List Doc) (h : P.entity = none ∨ P.entity = some []) (p : Payload) (ps : List Payload) :
    P.verifyTrustChain L chain ≠ .ok (p :: ps) := by
  cases chain with
  | nil => intro h; cases h
  | cons d ds =>
    unfold Parts.verifyTrustChain
    cases d with
    | none => intro h; cases h
    | some j =>
      rcases h with h | h
      · simp only [Parts.trustedAnchor, h]; intro h; cases h
      · simp only [Parts.trustedAnchor, h, Dict.has]
        intro h; cases h

/-! ## C172 -/

/-- C172, full: everything an entity signs is signed with the keys it publishes, those of its entity configuration. -/
def C172_full : Prop := ∀ (P : Parts) (jar : KeyJar), P.combo ≠ none → signs P .configuration = some jar → P.full jar = true → ∀ k, signs P k = some jar

/-- C172 as far as it holds: for federation entities that keep their keys themselves in combinations and servers that have none. -/
theorem C172_own_keys_partial (P : Parts) (c : Attr) (hc : P.combo = some c) (hcn : P.has c = false) (he : P.has P.entity = true) (hs : P.has P.server = false) (k : Kind) :
    signs P k = P.entity := by
  have h1 : P.ofEntity = P.entity := by unfold Parts.ofEntity; rw [he]; rfl
  cases k with
  | configuration => exact h1
  | resolved => exact h1
  | registration => exact h1
  | trustMark => rfl
  | subordinate => show P.ofServer = P.entity; unfold Parts.ofServer; rw [hs]; exact h1
  | selfSigned => show P.ofOthers = P.entity; unfold Parts.ofOthers; rw [hc]; simp only [Parts.ofCombo, hcn, Bool.false_eq_true, if_false]

/-- Whatever keeps the keys, resolve responses and registration requests are signed with the published ones; statements about subordinates exactly if the server has no keys or the same. -/
theorem C172_statements (P : Parts) : signs P .resolved = signs P .configuration ∧ signs P .registration = signs P .configuration ∧
    (signs P .subordinate = signs P .configuration ↔ P.has P.server = false ∨ P.server = signs P .configuration) := by
  refine ⟨rfl, rfl, ?_⟩
  show P.ofServer = P.ofEntity ↔ P.has P.server = false ∨ P.server = P.ofEntity
  unfold Parts.ofServer
  cases P.has P.server with
  | true => simp
  | false => simp

namespace Ex
/-- Cryptojwt: a key jar without keys does not count as true. -/
def full (jar : KeyJar) : Bool := jar.any fun p => !p.2.isEmpty
/-- The combination keeps the keys, among them those of the trust anchor; the federation entity has an empty key jar. -/
def shared : Parts := ⟨full, some (some (("", [9]) :: Verify.Ex.jar)), some [], none, none, none⟩
/-- The federation entity keeps them. -/
def own : Parts := { shared with combo := some none, entity := some (("", [9]) :: Verify.Ex.jar) }
/-- As `own`, with a server that has keys of its own. -/
def server : Parts := { own with server := some [("", [8])] }
example : (own.verifyTrustChain Verify.Ex.L Verify.Ex.chain).toOption.map (·.length) = some 3 := by decide +kernel
example : own.Plain ∧ own.has own.entity = true := by unfold Parts.Plain; decide +kernel
example : ∀ k, signs own k = own.entity := C172_own_keys_partial own none rfl rfl (by decide +kernel) rfl
end Ex

/-- C171 does not hold: with keys and trust anchors kept by the combination, a chain that its keys verify is not accepted. -/
theorem C171_combination_violation : ¬ C171_full := by
  intro h
  have := h Verify.Ex.L Ex.shared (("", [9]) :: Verify.Ex.jar) Verify.Ex.chain (by unfold Parts.Plain; decide +kernel) (by decide +kernel) (by decide +kernel)
  exact absurd this (by decide +kernel)

/-- C172 does not hold: if the combination keeps the keys, trust marks are signed with other ones. -/
theorem C172_trust_mark_violation : ¬ C172_full := by
  intro h
  have := h Ex.shared (("", [9]) :: Verify.Ex.jar) nofun (by decide +kernel) (by decide +kernel) .trustMark
  exact absurd this (by decide +kernel)

/-- Nor for statements about subordinates of a server that has keys of its own: no verifier that goes by the published keys accepts them. -/
theorem C172_server_violation : ¬ C172_full := by
  intro h
  have := h Ex.server (("", [9]) :: Verify.Ex.jar) nofun (by decide +kernel) (by decide +kernel) .subordinate
  exact absurd this (by decide +kernel)

end Fed.Config.Parts
