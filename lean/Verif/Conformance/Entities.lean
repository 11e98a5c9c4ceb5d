import Verif.Constraints.Model
import Verif.Message.Crit
import Verif.Chains.Props
import Verif.Server.Resolve
import Verif.Server.List
import Verif.Server.Fetch
import Verif.Client.Requests
import Verif.Client.Http
/-
The model against the repository's own tests: what /repo/tests/test_04_tree2chains.py, test_05_constraints.py, test_09_parse_request_response.py,
test_40_fe.py, test_41_federation_entity.py and test_55_trust_chain_constraints.py assert, with the model in place of the code. These are checks of
the model on samples, not proofs of properties.
-/
namespace Fed.Conformance
open Fed

/-! ### test_04_tree2chains.py -/
section Trees
open Collect Collect.Forest

example : tree2chains (node "rp" 1 (node "im" 2 (node "ta" 3 nil nil) nil) nil) = [[3, 2, 1]] := by decide
example : tree2chains (node "rp" 1 (node "im" 2 (node "ta1" 3 nil (node "ta2" 4 nil nil)) nil) nil) = [[3, 2, 1], [4, 2, 1]] := by decide
example : tree2chains (node "rp" 1 (node "im1" 2 (node "ta1" 3 nil nil) (node "im2" 5 (node "ta2" 4 nil nil) nil)) nil) = [[3, 2, 1], [4, 5, 1]] := by
  decide
example : tree2chains (node "rp" 1 (node "im1" 2 (node "ta1" 3 nil nil) (node "im2" 5 (node "ta1" 3 nil nil) nil)) nil) = [[3, 2, 1], [3, 5, 1]] := by
  decide
example : tree2chains (node "rp" 1 (node "im1" 2 (node "ta1" 3 nil nil) (node "ta2" 4 nil nil)) nil) = [[3, 2, 1], [4, 1]] := by decide
end Trees

/-! ### test_05_constraints.py -/
section Constraints
open Constraints

example : calculatePathLength { maxPathLength := some 1 } 0 false = 1 := by decide
example : calculatePathLength { maxPathLength := some 1 } 2 true = 1 := by decide
example : calculatePathLength { maxPathLength := some 3 } 2 true = 1 := by decide
example : calculatePathLength {} 2 true = 1 := by decide

/-- `update_naming_constraints` with `Constraints(naming_constraints=NamingConstraints(…))`, one after the other. -/
def updates : List Naming → Except PyErr Acc :=
  fun ns => ns.foldl (fun r n => r >>= updateNaming { naming := some n }) (.ok ⟨[], []⟩)

example : updates [⟨some ["https://.example.com"], some ["https://east.example.com"]⟩] = .ok ⟨["https://.example.com"], ["https://east.example.com"]⟩ := by
  decide +kernel
example : updates [⟨some ["https://.example.com"], none⟩, ⟨some ["https://foo.example.com"], none⟩] = .ok ⟨["https://foo.example.com"], []⟩ := by
  decide +kernel
example : updates [⟨some ["https://.example.com"], none⟩, ⟨some ["https://.example.org"], none⟩] = .ok ⟨["https://.example.com"], []⟩ := by
  decide +kernel
example : updates [⟨none, some ["https://.example.com"]⟩, ⟨none, some ["https://foo.example.com"]⟩] = .ok ⟨[], ["https://foo.example.com"]⟩ := by
  decide +kernel
example : updates [⟨none, some ["https://.example.com", "https://bar.example.org"]⟩, ⟨none, some ["https://foo.example.com"]⟩] =
    .ok ⟨[], ["https://foo.example.com", "https://bar.example.org"]⟩ := by decide +kernel
example : updates [⟨none, some ["https://.example.com"]⟩, ⟨none, some ["https://foo.example.com", "https://bar.example.com"]⟩] =
    .ok ⟨[], ["https://foo.example.com", "https://bar.example.com"]⟩ := by decide +kernel
example : updates [⟨none, some ["https://.example.com", "https://.example.org"]⟩, ⟨none, some ["https://foo.example.com", "https://bar.example.org"]⟩] =
    .ok ⟨[], ["https://foo.example.com", "https://bar.example.org"]⟩ := by decide +kernel
example : updates [⟨none, some ["https://.example.com"]⟩, ⟨none, some ["https://.example.org"]⟩] = .ok ⟨[], ["https://.example.com"]⟩ := by
  decide +kernel
example : anyMatch "https://foo.example.org" ["https://.example.org"] = .ok true := by decide +kernel
end Constraints

/-! ### test_05_constraints.py, critical extensions -/
section Crit
open Message

def foo (crit : Option (List String)) : Statement := { claims := ["sub", "iss", "iat", "exp", "foo"] ++ (if crit.isSome then ["crit"] else []), crit := crit }
def verify (s : Statement) (known : Option (List String)) : Except PyErr Unit := verifyStatement (.ok ()) { ext := known } s

example : verify (foo (some ["foo"])) (some ["foo"]) = .ok () := by decide
example : verify (foo (some ["foo"])) (some ["foo", "xyz"]) = .ok () := by decide
example : verify (foo (some ["foo"])) none = .error .unknownCriticalExtension := by decide
example : verify (foo none) (some ["foo"]) = .ok () := by decide
example : verify (foo none) (some ["foo", "xyz"]) = .ok () := by decide
example : verify (foo none) none = .ok () := by decide
example : verify (foo (some ["foo"])) (some ["xyz"]) = .error .unknownCriticalExtension := by decide

/-- `MSG` of the test. -/
def regexp : Statement :=
  { claims := ["iss", "jwks", "policy_language_crit", "metadata_policy", "sub", "iat", "exp"], policyCrit := some ["regexp"], policy := [("openid_provider", [("contacts", ["add", "regexp"])])] }
example : verifyStatement (.ok ()) { policyExt := some ["regexp"] } regexp = .ok () := by decide
example : verifyStatement (.ok ()) {} regexp = .error .unknownCriticalExtension := by decide
end Crit

/-! ### test_09_parse_request_response.py -/
section Http
open Client.Http

/-- A registration service: it takes signed responses only; the texts of the tests that are JSON or urlencoded are told apart by their first character. -/
def S : Service where
  parse _ _ := .error .valueError
  deser ct := if ct = some "application/json" then "json" else if ct = some "application/x-www-form-urlencoded" then "urlencoded" else ""
  successful := [200, 201, 202, 203, 204, 205, 206]
  fromJson t := if t.toList.head? = some '{' then .ok [("error", .str "page missing")] else .error .valueError
  fromUrl t := if t.toList.head? = some 'e' then .ok [("error", .str "page missing")] else .ok []
  format := "json"
def raised : Except PyErr Answer → Option PyErr
  | .error e => some e
  | .ok _ => none

example : raised (clientParse S ⟨200, some "text/plain", "Some information"⟩ "") = some .valueError := by decide +kernel
example : clientParse S ⟨302, some "text/plain", "Some information"⟩ "" = .ok (.http ⟨302, some "text/plain", "Some information"⟩) := by decide +kernel
example : raised (clientParse S ⟨500, some "text/plain", "Serious error"⟩ "") = some .systemError := by decide +kernel
example : raised (clientParse S ⟨404, some "application/json", "{\"error\": \"page missing\"}"⟩ "") = none := by decide +kernel
example : raised (clientParse S ⟨404, some "application/x-www-form-urlencoded", "error=page+missing"⟩ "") = none := by decide +kernel
example : raised (clientParse S ⟨404, some "application/json", "error=page+missing"⟩ "") = none := by decide +kernel
end Http

/-! ### test_40_fe.py and test_41_federation_entity.py: requests, fetch and list -/
section Entity
open Server Client.Requests

def text : Val → String
  | .str s => s
  | _ => ""
def P : Collect.Params := { anchors := [] }
def stmt (issuer subject : String) : Except PyErr Get := (statementRequest text P 0 (fun _ => .error .keyError) [] "https://ta.example.org/fetch" issuer subject).1
example : stmt "" "" = .ok ⟨"https://ta.example.org/fetch", []⟩ := by decide +kernel
example : stmt "https://ta.example.org" "" = .ok ⟨"https://ta.example.org/fetch", [("iss", "https://ta.example.org")]⟩ := by decide +kernel
example : stmt "https://ta.example.org" "https://rp.example.org" =
    .ok ⟨"https://ta.example.org/fetch", [("iss", "https://ta.example.org"), ("sub", "https://rp.example.org")]⟩ := by decide +kernel

/-- The entity of test_40. -/
def A : Authority where
  entityId := "https://entity.example.com"
  ownKeys := .obj [("keys", .arr [])]
  metadata := .obj [("federation_entity", .obj [("contacts", .str "operations@ta.example.com")])]
  hints := .arr [.str "https://ntnu.no"]
  subordinate := [("https://op.example.com", [("jwks", .obj [("keys", .arr [.int 1])]), ("metadata_policy", .obj [("openid_provider", .obj [("organization_name", .obj [("value", .str "NTNU")])])])])]
def keysOf (r : Except PyErr (Dict Val)) : List String :=
  match r with
  | .ok d => d.keys
  | .error _ => []
def sameKeys (r : Except PyErr (Dict Val)) (ks : List String) : Bool := (keysOf r).all (fun k => decide (k ∈ ks)) && ks.all fun k => decide (k ∈ keysOf r)
def claim (r : Except PyErr (Dict Val)) (k : String) : Option Val :=
  match r with
  | .ok d => d.get? k
  | .error _ => none

example : sameKeys (entityConfiguration A 0 .null) ["exp", "jwks", "sub", "iat", "metadata", "iss", "authority_hints"] = true := by decide +kernel
example : claim (entityConfiguration A 0 .null) "iss" = claim (entityConfiguration A 0 .null) "sub" := by decide +kernel
def fetched : Except PyErr (Dict Val) := (fetch A 0 ⟨some "https://entity.example.com", some "https://op.example.com"⟩).1
example : sameKeys fetched ["exp", "jwks", "sub", "iat", "metadata_policy", "iss", "authority_hints"] = true := by decide +kernel
example : claim fetched "iss" = some (.str "https://entity.example.com") := by decide +kernel
example : claim fetched "sub" = some (.str "https://op.example.com") := by decide +kernel
example : claim fetched "metadata_policy" = some (.obj [("openid_provider", .obj [("organization_name", .obj [("value", .str "NTNU")])])]) := by decide +kernel
/-- test_41, test_fetch: the hints of a statement about a subordinate name the authority. -/
example : claim (fetch A 0 ⟨none, some "https://op.example.com"⟩).1 "authority_hints" = some (.arr [.str "https://entity.example.com"]) := by decide +kernel
example : list Policy.Ex.K ⟨fun _ => .error .keyError, fun _ _ => false⟩ false A.subordinate [] = .ok (.ids ["https://op.example.com"]) := by decide +kernel
end Entity

/-! ### test_41_federation_entity.py, TestFunction: two anchors -/
section Federation
open Chains Chains.Ex Verify

/-- leaf below im below ta1, and below ta2 itself. -/
def W : Collect.World where
  now := 0
  config
    | "https://ta" => .ok (some (conf "https://ta" none (fe true)))
    | "https://ta2" => .ok (some (conf "https://ta2" none (fe true)))
    | "https://im" => .ok (some (conf "https://im" (some ["https://ta"]) (fe true)))
    | "https://leaf" => .ok (some (conf "https://leaf" (some ["https://im", "https://ta2"]) (rp (.str "x"))))
    | _ => .error .missingPage
  fetch _ a e := .ok (some (about a e))
def V (anchors : List String) : Env := { L := L, P := { anchors := anchors }, W := W, fuel := 10, E := SetEnum.insertion, K := SetEnum.insertion }
def jar1 : KeyJar := [("https://ta", [keyOf "https://ta"])]
def jar2 : KeyJar := [("https://ta", [keyOf "https://ta"]), ("https://ta2", [keyOf "https://ta2"])]
def found (anchors : List String) (jar : KeyJar) : List (String × List String) :=
  match (getVerified (V anchors) { jar := jar } "https://leaf").1 with
  | .ok tcs => tcs.map fun tc => (tc.anchor, tc.issPath)
  | .error _ => []

/-- The intermediate does not have the second trust anchor. -/
example : found ["https://ta"] jar1 = [("https://ta", ["https://leaf", "https://im", "https://ta"])] := by decide +kernel
/-- The leaf has both. -/
example : found ["https://ta", "https://ta2"] jar2 = [("https://ta", ["https://leaf", "https://im", "https://ta"]), ("https://ta2", ["https://leaf", "https://ta2"])] := by
  decide +kernel
/-- `test_save_trust_chains` -/
example : (match (getVerified (V ["https://ta", "https://ta2"]) { jar := jar2 } "https://leaf").1 with
    | .ok tcs => (getTrustChain (saveTrustChains [] tcs).2 "https://leaf" "https://ta").map fun tc => tc.issPath
    | .error _ => none) = some ["https://leaf", "https://im", "https://ta"] := by decide +kernel
end Federation

/-! ### test_55_trust_chain_constraints.py -/
section Policies
open Server

def im : Authority where
  entityId := "https://im.example.org"
  ownKeys := .obj []
  hints := .arr [.str "https://ta.example.org"]
  subordinate := [("https://rp.example.org", [("jwks", .int 1), ("entity_types", .arr [.str "federation_entity", .str "openid_relying_party"])]),
    ("https://leaf.example.org", [("jwks", .int 2), ("entity_types", .arr [.str "federation_entity"])])]
  policy := [("openid_relying_party", [("metadata_policy", .obj [("contacts", .obj [("add", .arr [.str "ops@example.org", .str "ops@example.com"])])]),
    ("metadata", .obj [("application_type", .str "web")])])]

/-- `test_leaf`: neither a policy nor metadata. -/
example : sameKeys (fetch im 0 ⟨none, some "https://leaf.example.org"⟩).1 ["exp", "jwks", "sub", "iat", "iss", "authority_hints"] = true := by decide +kernel
/-- `test_rp`: both. -/
example : sameKeys (fetch im 0 ⟨none, some "https://rp.example.org"⟩).1 ["exp", "jwks", "sub", "iat", "iss", "authority_hints", "metadata", "metadata_policy"] = true := by
  decide +kernel
end Policies

end Fed.Conformance
