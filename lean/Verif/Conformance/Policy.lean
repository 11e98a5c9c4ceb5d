import Verif.Policy.OperatorsProps
import Verif.Policy.Combine
/-
The model against the repository's own tests: the literals of /repo/tests/test_05_policy.py, put through the model of
`combine_claim_policy`, `combine` and `apply_policy`, with the outcome the test asserts. Written by tools/conformance.py,
which parses the test file as text. These are checks of the model on samples, not proofs of properties.
As in the tests, lists are compared as sets and a list of one value counts as that value. The tests' own comparison looks
at the first operator only; here every operator and claim is compared.
-/
namespace Fed.Policy.Conformance
open Fed
open Fed.Policy.Ex (E K)

/-- Equal up to the order of lists. -/
def like : Val → Val → Bool
  | .arr xs, .arr ys => xs.all (fun x => decide (x ∈ ys)) && ys.all (fun y => decide (y ∈ xs))
  | .arr xs, v => decide (xs = [v])
  | v, .arr ys => decide (ys = [v])
  | v, w => decide (v = w)

def likeDict (r : Dict α → Dict α → Bool) (a b : Dict α) : Bool :=
  a.keys.all (fun k => decide (k ∈ b.keys)) && b.keys.all (fun k => decide (k ∈ a.keys)) && r a b

def likeMetadata : Metadata → Metadata → Bool :=
  likeDict fun a b => a.keys.all fun k =>
    match a.get? k, b.get? k with
    | some v, some w => like v w
    | _, _ => false

def likePolicy : MetadataPolicy → MetadataPolicy → Bool :=
  likeDict fun a b => a.keys.all fun k =>
    match a.get? k, b.get? k with
    | some v, some w => likeMetadata v w
    | _, _ => false

def gives (r : Except PyErr (Dict Val)) (want : Dict Val) : Bool :=
  match r with
  | .ok got => likeMetadata got want
  | .error _ => false

def givesRule (r : Except PyErr Rule) (want : Rule) : Bool :=
  match r with
  | .ok got => likeMetadata got.metadata want.metadata && likePolicy got.policy want.policy
  | .error _ => false

def refused (r : Except PyErr α) : Bool :=
  match r with
  | .error .policyError => true
  | _ => false

/-- test_05_policy.py 9-13 -/
example : gives (combineClaimPolicy E K [("subset_of", .arr [.str "X", .str "Y", .str "Z"])] [("subset_of", .arr [.str "X", .str "Y"])]) [("subset_of", .arr [.str "X", .str "Y"])] = true := by decide +kernel

/-- test_05_policy.py 14-19 -/
example : gives (combineClaimPolicy E K [("subset_of", .arr [.str "X", .str "Y", .str "Z"])] [("subset_of", .arr [.str "X", .str "Y", .str "W"])]) [("subset_of", .arr [.str "X", .str "Y"])] = true := by decide +kernel

/-- test_05_policy.py 20-25 -/
example : gives (combineClaimPolicy E K [("subset_of", .arr [.str "A", .str "X", .str "Y", .str "Z"])] [("subset_of", .arr [.str "X", .str "Y", .str "W"])]) [("subset_of", .arr [.str "X", .str "Y"])] = true := by decide +kernel

/-- test_05_policy.py 26-31 -/
example : gives (combineClaimPolicy E K [("subset_of", .arr [.str "Y", .str "Z"])] [("subset_of", .arr [.str "X", .str "Y"])]) [("subset_of", .arr [.str "Y"])] = true := by decide +kernel

/-- test_05_policy.py 32-37 -/
example : gives (combineClaimPolicy E K [("subset_of", .arr [.str "X", .str "Y"])] [("subset_of", .arr [.str "Z", .str "Y"])]) [("subset_of", .arr [.str "Y"])] = true := by decide +kernel

/-- test_05_policy.py 38-43 -/
example : refused (combineClaimPolicy E K [("subset_of", .arr [.str "X", .str "Y"])] [("subset_of", .arr [.str "Z", .str "W"])]) = true := by decide +kernel

/-- test_05_policy.py 44-49 -/
example : gives (combineClaimPolicy E K [("superset_of", .arr [.str "X", .str "Y", .str "Z"])] [("superset_of", .arr [.str "X", .str "Y"])]) [("superset_of", .arr [.str "X", .str "Y"])] = true := by decide +kernel

/-- test_05_policy.py 50-55 -/
example : gives (combineClaimPolicy E K [("superset_of", .arr [.str "X", .str "Y", .str "Z"])] [("superset_of", .arr [.str "X", .str "Y", .str "W"])]) [("superset_of", .arr [.str "X", .str "Y"])] = true := by decide +kernel

/-- test_05_policy.py 56-61 -/
example : gives (combineClaimPolicy E K [("superset_of", .arr [.str "A", .str "X", .str "Y", .str "Z"])] [("superset_of", .arr [.str "X", .str "Y", .str "W"])]) [("superset_of", .arr [.str "X", .str "Y"])] = true := by decide +kernel

/-- test_05_policy.py 62-67 -/
example : gives (combineClaimPolicy E K [("superset_of", .arr [.str "Y", .str "Z"])] [("superset_of", .arr [.str "X", .str "Y"])]) [("superset_of", .arr [.str "Y"])] = true := by decide +kernel

/-- test_05_policy.py 68-73 -/
example : gives (combineClaimPolicy E K [("superset_of", .arr [.str "X", .str "Y"])] [("superset_of", .arr [.str "Z", .str "Y"])]) [("superset_of", .arr [.str "Y"])] = true := by decide +kernel

/-- test_05_policy.py 74-79 -/
example : refused (combineClaimPolicy E K [("superset_of", .arr [.str "X", .str "Y"])] [("superset_of", .arr [.str "Z", .str "W"])]) = true := by decide +kernel

/-- test_05_policy.py 81-86 -/
example : gives (combineClaimPolicy E K [("one_of", .arr [.str "X", .str "Y", .str "Z"])] [("one_of", .arr [.str "X", .str "Y"])]) [("one_of", .arr [.str "X", .str "Y"])] = true := by decide +kernel

/-- test_05_policy.py 87-92 -/
example : gives (combineClaimPolicy E K [("one_of", .arr [.str "X", .str "Y", .str "Z"])] [("one_of", .arr [.str "X", .str "Y", .str "W"])]) [("one_of", .arr [.str "X", .str "Y"])] = true := by decide +kernel

/-- test_05_policy.py 93-98 -/
example : gives (combineClaimPolicy E K [("one_of", .arr [.str "A", .str "X", .str "Y", .str "Z"])] [("one_of", .arr [.str "X", .str "Y", .str "W"])]) [("one_of", .arr [.str "X", .str "Y"])] = true := by decide +kernel

/-- test_05_policy.py 99-104 -/
example : gives (combineClaimPolicy E K [("one_of", .arr [.str "Y", .str "Z"])] [("one_of", .arr [.str "X", .str "Y"])]) [("one_of", .arr [.str "Y"])] = true := by decide +kernel

/-- test_05_policy.py 105-110 -/
example : gives (combineClaimPolicy E K [("one_of", .arr [.str "X", .str "Y"])] [("one_of", .arr [.str "Z", .str "Y"])]) [("one_of", .arr [.str "Y"])] = true := by decide +kernel

/-- test_05_policy.py 111-116 -/
example : refused (combineClaimPolicy E K [("one_of", .arr [.str "X", .str "Y"])] [("one_of", .arr [.str "Z", .str "W"])]) = true := by decide +kernel

/-- test_05_policy.py 117-122 -/
example : gives (combineClaimPolicy E K [("add", .str "X")] [("add", .str "B")]) [("add", .arr [.str "X", .str "B"])] = true := by decide +kernel

/-- test_05_policy.py 123-128 -/
example : gives (combineClaimPolicy E K [("add", .str "X")] [("add", .str "X")]) [("add", .str "X")] = true := by decide +kernel

/-- test_05_policy.py 129-134 -/
example : refused (combineClaimPolicy E K [("value", .str "X")] [("value", .str "B")]) = true := by decide +kernel

/-- test_05_policy.py 135-140 -/
example : gives (combineClaimPolicy E K [("value", .str "X")] [("value", .str "X")]) [("value", .str "X")] = true := by decide +kernel

/-- test_05_policy.py 141-146 -/
example : refused (combineClaimPolicy E K [("value", .arr [.str "X", .str "Y"])] [("value", .arr [.str "X", .str "Z"])]) = true := by decide +kernel

/-- test_05_policy.py 147-152 -/
example : refused (combineClaimPolicy E K [("default", .str "X")] [("default", .str "B")]) = true := by decide +kernel

/-- test_05_policy.py 153-158 -/
example : refused (combineClaimPolicy E K [("default", .arr [.str "X", .str "B"])] [("default", .arr [.str "B", .str "Y"])]) = true := by decide +kernel

/-- test_05_policy.py 159-164 -/
example : gives (combineClaimPolicy E K [("default", .str "X")] [("default", .str "X")]) [("default", .str "X")] = true := by decide +kernel

/-- test_05_policy.py 165-170 -/
example : refused (combineClaimPolicy E K [("essential", .bool true)] [("essential", .bool false)]) = true := by decide +kernel

/-- test_05_policy.py 171-176 -/
example : gives (combineClaimPolicy E K [("essential", .bool false)] [("essential", .bool true)]) [("essential", .bool true)] = true := by decide +kernel

/-- test_05_policy.py 177-182 -/
example : gives (combineClaimPolicy E K [("essential", .bool true)] [("essential", .bool true)]) [("essential", .bool true)] = true := by decide +kernel

/-- test_05_policy.py 183-188 -/
example : gives (combineClaimPolicy E K [("essential", .bool false)] [("essential", .bool false)]) [("essential", .bool false)] = true := by decide +kernel

/-- test_05_policy.py 192-196 -/
example : gives (combineClaimPolicy E K [("add", .arr [.str "Z"])] [("default", .arr [.str "X", .str "Y"])]) [("default", .arr [.str "X", .str "Y"]), ("add", .arr [.str "Z"])] = true := by decide +kernel

/-- test_05_policy.py 197-201 -/
example : gives (combineClaimPolicy E K [("add", .arr [.str "A"])] [("essential", .bool false)]) [("add", .arr [.str "A"]), ("essential", .bool false)] = true := by decide +kernel

/-- test_05_policy.py 202-206 -/
example : refused (combineClaimPolicy E K [("add", .arr [.str "Z"])] [("subset_of", .arr [.str "X", .str "Y"])]) = true := by decide +kernel

/-- test_05_policy.py 207-211 -/
example : gives (combineClaimPolicy E K [("add", .arr [.str "X"])] [("subset_of", .arr [.str "X", .str "Y"])]) [("subset_of", .arr [.str "X", .str "Y"]), ("add", .arr [.str "X"])] = true := by decide +kernel

/-- test_05_policy.py 212-216 -/
example : refused (combineClaimPolicy E K [("add", .arr [.str "Z"])] [("superset_of", .arr [.str "X", .str "Y"])]) = true := by decide +kernel

/-- test_05_policy.py 217-221 -/
example : gives (combineClaimPolicy E K [("add", .arr [.str "Z", .str "X", .str "Y"])] [("superset_of", .arr [.str "X", .str "Y"])]) [("superset_of", .arr [.str "X", .str "Y"]), ("add", .arr [.str "Z", .str "X", .str "Y"])] = true := by decide +kernel

/-- test_05_policy.py 222-226 -/
example : gives (combineClaimPolicy E K [("essential", .bool false)] [("default", .str "A")]) [("essential", .bool false), ("default", .str "A")] = true := by decide +kernel

/-- test_05_policy.py 227-231 -/
example : gives (combineClaimPolicy E K [("essential", .bool true)] [("default", .str "A")]) [("essential", .bool true), ("default", .str "A")] = true := by decide +kernel

/-- test_05_policy.py 232-236 -/
example : gives (combineClaimPolicy E K [("essential", .bool false)] [("value", .str "A")]) [("essential", .bool false), ("value", .str "A")] = true := by decide +kernel

/-- test_05_policy.py 237-241 -/
example : gives (combineClaimPolicy E K [("essential", .bool true)] [("value", .str "A")]) [("essential", .bool true), ("value", .str "A")] = true := by decide +kernel

/-- test_05_policy.py 242-246 -/
example : gives (combineClaimPolicy E K [("essential", .bool false), ("default", .str "A")] [("default", .str "A"), ("essential", .bool true)]) [("essential", .bool true), ("default", .str "A")] = true := by decide +kernel

/-- test_05_policy.py 247-251 -/
example : refused (combineClaimPolicy E K [("essential", .bool true), ("default", .str "A")] [("default", .str "B"), ("essential", .bool true)]) = true := by decide +kernel

/-- test_05_policy.py 252-256 -/
example : gives (combineClaimPolicy E K [("essential", .bool false)] [("subset_of", .arr [.str "B"])]) [("essential", .bool false), ("subset_of", .arr [.str "B"])] = true := by decide +kernel

/-- test_05_policy.py 257-261 -/
example : gives (combineClaimPolicy E K [("subset_of", .arr [.str "X", .str "Y", .str "Z"])] [("superset_of", .arr [.str "Y", .str "Z"])]) [("subset_of", .arr [.str "X", .str "Y", .str "Z"]), ("superset_of", .arr [.str "Y", .str "Z"])] = true := by decide +kernel

/-- test_05_policy.py 262-266 -/
example : refused (combineClaimPolicy E K [("superset_of", .arr [.str "Y", .str "Z"])] [("subset_of", .arr [.str "X", .str "Y"])]) = true := by decide +kernel

/-- test_05_policy.py 267-271 -/
example : gives (combineClaimPolicy E K [("subset_of", .arr [.str "X", .str "Y"])] [("superset_of", .arr [.str "X", .str "Y"])]) [("subset_of", .arr [.str "X", .str "Y"]), ("superset_of", .arr [.str "X", .str "Y"])] = true := by decide +kernel

/-- test_05_policy.py 272-276 -/
example : gives (combineClaimPolicy E K [("superset_of", .arr [.str "X", .str "Y"])] [("subset_of", .arr [.str "X", .str "Y"])]) [("subset_of", .arr [.str "X", .str "Y"]), ("superset_of", .arr [.str "X", .str "Y"])] = true := by decide +kernel

/-- test_05_policy.py 277-281 -/
example : refused (combineClaimPolicy E K [("subset_of", .arr [.str "X", .str "Y", .str "Z"])] [("superset_of", .arr [.str "Y", .str "A"])]) = true := by decide +kernel

/-- test_05_policy.py 282-286 -/
example : refused (combineClaimPolicy E K [("subset_of", .arr [.str "X", .str "Y"])] [("superset_of", .arr [.str "X", .str "Y", .str "A"])]) = true := by decide +kernel

/-- test_05_policy.py 287-291 -/
example : gives (combineClaimPolicy E K [("subset_of", .arr [.str "X", .str "Y"])] [("default", .arr [.str "X"])]) [("subset_of", .arr [.str "X", .str "Y"]), ("default", .arr [.str "X"])] = true := by decide +kernel

/-- test_05_policy.py 292-296 -/
example : gives (combineClaimPolicy E K [("superset_of", .arr [.str "X", .str "Y"])] [("default", .arr [.str "X", .str "Y", .str "Z"])]) [("superset_of", .arr [.str "X", .str "Y"]), ("default", .arr [.str "X", .str "Y", .str "Z"])] = true := by decide +kernel

/-- test_05_policy.py 297-301 -/
example : gives (combineClaimPolicy E K [("one_of", .arr [.str "X", .str "Y"])] [("default", .str "X")]) [("one_of", .arr [.str "X", .str "Y"]), ("default", .str "X")] = true := by decide +kernel

/-- test_05_policy.py 302-306 -/
example : refused (combineClaimPolicy E K [("subset_of", .arr [.str "X", .str "Y"])] [("default", .arr [.str "X", .str "Z"])]) = true := by decide +kernel

/-- test_05_policy.py 307-311 -/
example : refused (combineClaimPolicy E K [("subset_of", .arr [.str "X", .str "Y"])] [("one_of", .arr [.str "X", .str "Y"])]) = true := by decide +kernel

/-- test_05_policy.py 312-316 -/
example : refused (combineClaimPolicy E K [("superset_of", .arr [.str "X", .str "Y"])] [("default", .arr [.str "X", .str "Z"])]) = true := by decide +kernel

/-- test_05_policy.py 317-321 -/
example : refused (combineClaimPolicy E K [("one_of", .arr [.str "X", .str "Y"])] [("default", .str "Z")]) = true := by decide +kernel

/-- test_combine_policies -/
example : givesRule (combine E K ⟨[], [("scopes", [("subset_of", .arr [.str "openid", .str "eduperson", .str "phone"]), ("superset_of", .arr [.str "openid"]), ("default", .arr [.str "openid", .str "eduperson"])]), ("id_token_signed_response_alg", [("one_of", .arr [.str "ES256", .str "ES384", .str "ES512"]), ("default", .str "ES256")]), ("contacts", [("add", .str "helpdesk@federation.example.org")]), ("application_type", [("value", .str "web")])]⟩ ⟨[], [("scopes", [("subset_of", .arr [.str "openid", .str "eduperson", .str "address"]), ("default", .arr [.str "openid", .str "eduperson"])]), ("id_token_signed_response_alg", [("one_of", .arr [.str "ES256", .str "ES384"]), ("default", .str "ES256")]), ("contacts", [("add", .str "helpdesk@org.example.org")])]⟩) ⟨[], [("scopes", [("subset_of", .arr [.str "openid", .str "eduperson"]), ("superset_of", .arr [.str "openid"]), ("default", .arr [.str "openid", .str "eduperson"])]), ("id_token_signed_response_alg", [("one_of", .arr [.str "ES256", .str "ES384"]), ("default", .str "ES256")]), ("contacts", [("add", .arr [.str "helpdesk@federation.example.org", .str "helpdesk@org.example.org"])]), ("application_type", [("value", .str "web")])]⟩ = true := by decide +kernel

/-- test_apply_policies -/
example : gives (combine E K ⟨[], [("scopes", [("superset_of", .arr [.str "openid", .str "eduperson"]), ("default", .arr [.str "openid", .str "eduperson"])]), ("response_types", [("subset_of", .arr [.str "code", .str "code id_token"])]), ("id_token_signed_response_alg", [("one_of", .arr [.str "ES256", .str "ES384"]), ("default", .str "ES256")])]⟩ ⟨[], [("contacts", [("add", .str "helpdesk@example.com")]), ("logo_uri", [("one_of", .arr [.str "https://example.com/logo_small.jpg", .str "https://example.com/logo_big.jpg"]), ("default", .str "https://example.com/logo_small.jpg")]), ("policy_uri", [("value", .str "https://example.com/policy.html")]), ("tos_uri", [("value", .str "https://example.com/tos.html")])]⟩ >>= applyPolicy E K [("contacts", .arr [.str "rp_admins@cs.example.com"]), ("redirect_uris", .arr [.str "https://cs.example.com/rp1"]), ("response_types", .arr [.str "code"])]) [("contacts", .arr [.str "rp_admins@cs.example.com", .str "helpdesk@example.com"]), ("logo_uri", .str "https://example.com/logo_small.jpg"), ("policy_uri", .str "https://example.com/policy.html"), ("tos_uri", .str "https://example.com/tos.html"), ("scopes", .arr [.str "openid", .str "eduperson"]), ("response_types", .arr [.str "code"]), ("redirect_uris", .arr [.str "https://cs.example.com/rp1"]), ("id_token_signed_response_alg", .str "ES256")] = true := by decide +kernel

/-- test_combine_metadata_and_metadata_policy_OK -/
example : gives (combine E K ⟨[("B", .int 123)], [("A", [("subset_of", .arr [.str "a", .str "b"])])]⟩ ⟨[("C", .str "foo")], [("A", [("subset_of", .arr [.str "a"])])]⟩ >>= applyPolicy E K [("A", .arr [.str "a", .str "b", .str "e"]), ("C", .str "foo")]) [("A", .arr [.str "a"]), ("B", .int 123), ("C", .str "foo")] = true := by decide +kernel

/-- test_combine_metadata_and_metadata_policy_NOT_OK -/
example : refused (combine E K ⟨[("B", .int 123)], [("A", [("subset_of", .arr [.str "a", .str "b"])])]⟩ ⟨[("B", .str "foo")], [("A", [("subset_of", .arr [.str "a"])])]⟩ >>= applyPolicy E K []) = true := by decide +kernel

/-- test_combine_metadata_and_metadata_policy_NOT_OK -/
example : refused (combine E K ⟨[("B", .int 123)], []⟩ ⟨[], [("B", [("subset_of", .arr [.int 12, .int 6])])]⟩ >>= applyPolicy E K []) = true := by decide +kernel

/-- test_set_equality -/
example : gives (combine E K ⟨[], [("scopes", [("superset_of", .arr [.str "openid", .str "eduperson"]), ("subset_of", .arr [.str "openid", .str "eduperson"])])]⟩ ⟨[], [("response_types", [("subset_of", .arr [.str "code", .str "code id_token"]), ("superset_of", .arr [.str "code", .str "code id_token"])])]⟩ >>= applyPolicy E K [("contacts", .arr [.str "rp_admins@cs.example.com"]), ("redirect_uris", .arr [.str "https://cs.example.com/rp1"]), ("response_types", .arr [.str "code", .str "code id_token", .str "id_token"]), ("scopes", .arr [.str "openid", .str "eduperson", .str "email", .str "address"])]) [("contacts", .arr [.str "rp_admins@cs.example.com"]), ("redirect_uris", .arr [.str "https://cs.example.com/rp1"]), ("response_types", .arr [.str "code", .str "code id_token"]), ("scopes", .arr [.str "openid", .str "eduperson"])] = true := by decide +kernel

/-- test_spec_examples, the combined policy -/
example : givesRule (combine E K ⟨[], [("grant_types", [("default", .arr [.str "authorization_code"]), ("subset_of", .arr [.str "authorization_code", .str "refresh_token"]), ("superset_of", .arr [.str "authorization_code"])]), ("token_endpoint_auth_method", [("one_of", .arr [.str "private_key_jwt", .str "self_signed_tls_client_auth"]), ("essential", .bool true)]), ("token_endpoint_auth_signing_alg", [("one_of", .arr [.str "PS256", .str "ES256"])]), ("subject_type", [("value", .str "pairwise")]), ("contacts", [("add", .arr [.str "helpdesk@federation.example.org"])])]⟩ ⟨[("sector_identifier_uri", .str "https://org.example.org/sector-ids.json"), ("policy_uri", .str "https://org.example.org/policy.html")], [("grant_types", [("subset_of", .arr [.str "authorization_code"])]), ("token_endpoint_auth_method", [("one_of", .arr [.str "self_signed_tls_client_auth"])]), ("contacts", [("add", .arr [.str "helpdesk@org.example.org"])])]⟩) ⟨[("sector_identifier_uri", .str "https://org.example.org/sector-ids.json"), ("policy_uri", .str "https://org.example.org/policy.html")], [("grant_types", [("default", .arr [.str "authorization_code"]), ("superset_of", .arr [.str "authorization_code"]), ("subset_of", .arr [.str "authorization_code"])]), ("token_endpoint_auth_method", [("one_of", .arr [.str "self_signed_tls_client_auth"]), ("essential", .bool true)]), ("token_endpoint_auth_signing_alg", [("one_of", .arr [.str "PS256", .str "ES256"])]), ("subject_type", [("value", .str "pairwise")]), ("contacts", [("add", .arr [.str "helpdesk@federation.example.org", .str "helpdesk@org.example.org"])])]⟩ = true := by decide +kernel

/-- test_spec_examples, the resolved metadata -/
example : gives (combine E K ⟨[], [("grant_types", [("default", .arr [.str "authorization_code"]), ("subset_of", .arr [.str "authorization_code", .str "refresh_token"]), ("superset_of", .arr [.str "authorization_code"])]), ("token_endpoint_auth_method", [("one_of", .arr [.str "private_key_jwt", .str "self_signed_tls_client_auth"]), ("essential", .bool true)]), ("token_endpoint_auth_signing_alg", [("one_of", .arr [.str "PS256", .str "ES256"])]), ("subject_type", [("value", .str "pairwise")]), ("contacts", [("add", .arr [.str "helpdesk@federation.example.org"])])]⟩ ⟨[("sector_identifier_uri", .str "https://org.example.org/sector-ids.json"), ("policy_uri", .str "https://org.example.org/policy.html")], [("grant_types", [("subset_of", .arr [.str "authorization_code"])]), ("token_endpoint_auth_method", [("one_of", .arr [.str "self_signed_tls_client_auth"])]), ("contacts", [("add", .arr [.str "helpdesk@org.example.org"])])]⟩ >>= applyPolicy E K [("redirect_uris", .arr [.str "https://rp.example.org/callback"]), ("response_types", .arr [.str "code"]), ("token_endpoint_auth_method", .str "self_signed_tls_client_auth"), ("contacts", .arr [.str "rp_admins@rp.example.org"])]) [("redirect_uris", .arr [.str "https://rp.example.org/callback"]), ("grant_types", .arr [.str "authorization_code"]), ("response_types", .arr [.str "code"]), ("token_endpoint_auth_method", .str "self_signed_tls_client_auth"), ("subject_type", .str "pairwise"), ("sector_identifier_uri", .str "https://org.example.org/sector-ids.json"), ("policy_uri", .str "https://org.example.org/policy.html"), ("contacts", .arr [.str "rp_admins@rp.example.org", .str "helpdesk@federation.example.org", .str "helpdesk@org.example.org"])] = true := by decide +kernel

/-- test_federation_policy_A_2 -/
example : gives (combine E K ⟨[], [("contacts", [("add", .str "ops@edugain.geant.org")])]⟩ ⟨[], [("id_token_signing_alg_values_supported", [("subset_of", .arr [.str "RS256", .str "ES256", .str "ES384", .str "ES512"])]), ("token_endpoint_auth_methods_supported", [("subset_of", .arr [.str "client_secret_jwt", .str "private_key_jwt"])]), ("userinfo_signing_alg_values_supported", [("subset_of", .arr [.str "ES256", .str "ES384", .str "ES512"])])]⟩ >>= fun r => combine E K r ⟨[], [("contacts", [("add", .arr [.str "ops@swamid.se"])]), ("organization_name", [("value", .str "University of Umeå")]), ("subject_types_supported", [("value", .arr [.str "pairwise"])]), ("token_endpoint_auth_methods_supported", [("default", .arr [.str "private_key_jwt"]), ("subset_of", .arr [.str "private_key_jwt", .str "client_secret_jwt"]), ("superset_of", .arr [.str "private_key_jwt"])])]⟩ >>= applyPolicy E K [("issuer", .str "https://op.umu.se/openid"), ("signed_jwks_uri", .str "https://op.umu.se/openid/jwks.jose"), ("authorization_endpoint", .str "https://op.umu.se/openid/authorization"), ("client_registration_types_supported", .arr [.str "automatic", .str "explicit"]), ("request_parameter_supported", .bool true), ("grant_types_supported", .arr [.str "authorization_code", .str "implicit", .str "urn:ietf:params:oauth:grant-type:jwt-bearer"]), ("id_token_signing_alg_values_supported", .arr [.str "ES256", .str "RS256"]), ("logo_uri", .str "https://www.umu.se/img/umu-logo-left-neg-SE.svg"), ("op_policy_uri", .str "https://www.umu.se/en/website/legal-information/"), ("response_types_supported", .arr [.str "code", .str "code id_token", .str "token"]), ("subject_types_supported", .arr [.str "pairwise", .str "public"]), ("token_endpoint", .str "https://op.umu.se/openid/token"), ("federation_registration_endpoint", .str "https://op.umu.se/openid/fedreg"), ("token_endpoint_auth_methods_supported", .arr [.str "client_secret_post", .str "client_secret_basic", .str "client_secret_jwt", .str "private_key_jwt"])]) [("authorization_endpoint", .str "https://op.umu.se/openid/authorization"), ("contacts", .arr [.str "ops@swamid.se", .str "ops@edugain.geant.org"]), ("federation_registration_endpoint", .str "https://op.umu.se/openid/fedreg"), ("client_registration_types_supported", .arr [.str "automatic", .str "explicit"]), ("grant_types_supported", .arr [.str "authorization_code", .str "implicit", .str "urn:ietf:params:oauth:grant-type:jwt-bearer"]), ("id_token_signing_alg_values_supported", .arr [.str "RS256", .str "ES256"]), ("issuer", .str "https://op.umu.se/openid"), ("signed_jwks_uri", .str "https://op.umu.se/openid/jwks.jose"), ("logo_uri", .str "https://www.umu.se/img/umu-logo-left-neg-SE.svg"), ("organization_name", .str "University of Umeå"), ("op_policy_uri", .str "https://www.umu.se/en/website/legal-information/"), ("request_parameter_supported", .bool true), ("response_types_supported", .arr [.str "code", .str "code id_token", .str "token"]), ("subject_types_supported", .arr [.str "pairwise"]), ("token_endpoint", .str "https://op.umu.se/openid/token"), ("token_endpoint_auth_methods_supported", .arr [.str "private_key_jwt", .str "client_secret_jwt"])] = true := by decide +kernel

end Fed.Policy.Conformance
