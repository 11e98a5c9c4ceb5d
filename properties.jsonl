{"id": "C01", "title": "value operator is final", "statement": "If the policy applied to an entity's metadata gives a claim the operator 'value' and application succeeds, the resolved claim is exactly that value, whatever the entity declared and whatever other operators the policy has for the claim.", "quantifier": "all metadata documents, all policies, all claims, all set iteration orders", "why_tests_cant": "The space of metadata documents x operator combinations is unbounded; unit tests sample a handful of operator mixes.", "anchors": ["src/fedservice/entity/function/policy.py:apply_metadata_policy", "src/fedservice/entity/function/policy.py:TrustChainPolicy.apply_policy", "src/fedservice/entity/function/policy_operator.py:Value"]}
{"id": "C02", "title": "subset_of bounds the resolved claim", "statement": "If the policy gives a claim 'subset_of' L (and no 'value'), then after successful application the claim is absent or is a non-empty list all of whose members are in L.", "quantifier": "all metadata documents, policies, claims", "why_tests_cant": "Needs to hold for every interplay of add/default/one_of with subset_of, for list and scalar metadata.", "anchors": ["src/fedservice/entity/function/policy_operator.py:SubsetOf", "src/fedservice/entity/function/policy.py:apply_metadata_policy"]}
{"id": "C03", "title": "superset_of is enforced", "statement": "If the policy gives a claim 'superset_of' L (and no 'value'), then after successful application a list-valued claim contains every member of L.", "quantifier": "all metadata documents, policies, claims", "why_tests_cant": "Quantifies over all documents and operator mixes.", "anchors": ["src/fedservice/entity/function/policy_operator.py:SupersetOf", "src/fedservice/entity/function/policy.py:apply_metadata_policy"]}
{"id": "C04", "title": "one_of is enforced", "statement": "If the policy gives a claim 'one_of' L (and no 'value'), then after successful application the claim, when present, is one of the members of L.", "quantifier": "all metadata documents, policies, claims", "why_tests_cant": "Quantifies over all documents and operator mixes; the tests only use scalar claims.", "anchors": ["src/fedservice/entity/function/policy_operator.py:OneOf", "src/fedservice/entity/function/policy.py:apply_metadata_policy"]}
{"id": "C05", "title": "add only adds, and always adds", "statement": "If the policy gives a claim 'add' A (and no 'value'), then after successful application the claim holds exactly the values in A and the values the entity (or a superior's metadata) declared; when A is a list and 'subset_of' is also present it holds exactly those of them that the subset allows.", "quantifier": "all metadata documents, policies, claims", "why_tests_cant": "Set semantics over unbounded lists.", "anchors": ["src/fedservice/entity/function/policy_operator.py:Add", "src/fedservice/entity/function/policy_operator.py:union", "src/fedservice/entity/function/policy.py:apply_metadata_policy"]}
{"id": "C06", "title": "default never overrides", "statement": "The operator 'default' supplies the claim only when neither the entity, nor a superior's metadata, nor 'value'/'add' supplied it: then the outcome is as if the entity had declared the default. Otherwise the default has no influence: with any other default the outcome is the same.", "quantifier": "all metadata documents, policies, claims", "why_tests_cant": "Equivalence of two policies on all documents.", "anchors": ["src/fedservice/entity/function/policy_operator.py:Default", "src/fedservice/entity/function/policy.py:apply_metadata_policy"]}
{"id": "C07", "title": "essential claims are present", "statement": "If the policy marks a claim essential and application succeeds, the claim is present in the resolved metadata.", "quantifier": "all metadata documents, policies, claims", "why_tests_cant": "Must hold on every path through the operator loop, including the jumps.", "anchors": ["src/fedservice/entity/function/policy_operator.py:Essential", "src/fedservice/entity/function/policy.py:apply_metadata_policy"]}
{"id": "C08", "title": "claims without a policy pass through, none are invented", "statement": "For a claim the combined policy says nothing about, the resolved metadata has the entity's own value, else the value a superior set in 'metadata', else no such claim. Each resolved claim therefore comes from the entity, from superiors' metadata or from the policy.", "quantifier": "all metadata documents, policies, claims", "why_tests_cant": "A frame condition over all claims.", "anchors": ["src/fedservice/entity/function/policy.py:TrustChainPolicy.apply_policy", "src/fedservice/entity/function/policy.py:apply_metadata_policy"]}
{"id": "C09", "title": "policy application terminates", "statement": "Applying a policy finishes for every document: the operator loop (an unbounded while with jumps) visits each operator at most once per claim.", "quantifier": "all metadata documents and policies", "why_tests_cant": "Non-termination cannot be refuted by running finitely many inputs.", "anchors": ["src/fedservice/entity/function/policy.py:apply_metadata_policy", "src/fedservice/entity/function/policy.py:op_place", "src/fedservice/entity/function/policy_operator.py:construct_evaluation_sequence"]}
{"id": "C10", "title": "policy application does not depend on hash order", "statement": "Whether application succeeds, and each resolved claim (lists compared as sets), do not depend on the order in which Python enumerates its sets (i.e. on PYTHONHASHSEED).", "quantifier": "all documents, all policies, all enumeration orders of the sets involved", "why_tests_cant": "A test run observes a single hash seed.", "anchors": ["src/fedservice/entity/function/policy.py:apply_metadata_policy", "src/fedservice/entity/function/policy_operator.py:SubsetOf", "src/fedservice/entity/function/policy_operator.py:Add"]}
{"id": "C11", "title": "policy application is idempotent", "statement": "Applying the same policy again to metadata it already resolved (which the library does, because resolution updates the entity configuration in place) succeeds and leaves every claim as it was, lists compared as sets.", "quantifier": "all documents and policies", "why_tests_cant": "Two-run property on all inputs.", "anchors": ["src/fedservice/entity/function/policy.py:apply_metadata_policy", "src/fedservice/entity/function/trust_mark_verifier.py:TrustMarkVerifier.__call__"]}
{"id": "C12", "title": "combining policies never loosens the superior", "statement": "Whatever a subordinate puts in its policy for a claim, a claim value acceptable to the combined policy is acceptable to the superior's policy (value, one_of, subset_of, superset_of, essential).", "quantifier": "all pairs of claim policies and all claim values", "why_tests_cant": "A refinement relation over all pairs of policies and all values.", "anchors": ["src/fedservice/entity/function/policy.py:combine_claim_policy", "src/fedservice/entity/function/policy.py:do_sub_one_super_add", "src/fedservice/entity/function/policy.py:do_essential"]}
{"id": "C13", "title": "combining policies never loosens the subordinate", "statement": "A claim value acceptable to the combined policy is acceptable to the subordinate's policy too.", "quantifier": "all pairs of claim policies and all claim values", "why_tests_cant": "Same as C12, for the other argument.", "anchors": ["src/fedservice/entity/function/policy.py:combine_claim_policy"]}
{"id": "C14", "title": "every restriction in a trust chain reaches the leaf", "statement": "For a trust chain of any length, if the leaf's metadata resolves, every resolved claim obeys the 'value', 'one_of' and 'subset_of' operators of every statement in the chain, not only of the nearest or the farthest superior.", "quantifier": "all chains of any length, all leaf metadata", "why_tests_cant": "Unbounded chain length.", "anchors": ["src/fedservice/entity/function/policy.py:TrustChainPolicy.gather_policies", "src/fedservice/entity/function/policy.py:TrustChainPolicy._policy", "src/fedservice/entity/function/policy.py:combine"]}
{"id": "C15", "title": "contradictory values and defaults are refused", "statement": "A subordinate that fixes a claim to another value than any superior of the chain makes combination fail. For a claim whose value the superior does not fix, a subordinate that sets another default, or makes an essential claim optional, makes combination fail.", "quantifier": "all pairs of claim policies", "why_tests_cant": "All operator mixes.", "anchors": ["src/fedservice/entity/function/policy.py:combine_claim_policy", "src/fedservice/entity/function/policy.py:do_value", "src/fedservice/entity/function/policy.py:do_default"]}
{"id": "C16", "title": "combined policy is self-consistent", "statement": "When combination succeeds the combined operators do not contradict each other: superset_of is within subset_of, default is within subset_of/one_of and contains superset_of, add is within subset_of.", "quantifier": "all pairs of claim policies", "why_tests_cant": "All operator mixes (the code compares exact operator sets).", "anchors": ["src/fedservice/entity/function/policy.py:combine_claim_policy"]}
{"id": "C17", "title": "combination covers exactly the claims of both policies", "statement": "The combined policy mentions a claim iff the superior's or the subordinate's does; a claim only one mentions keeps that one's operators unchanged.", "quantifier": "all pairs of policies, any number of claims", "why_tests_cant": "Quantifies over arbitrary dictionaries.", "anchors": ["src/fedservice/entity/function/policy.py:combine"]}
{"id": "C18", "title": "superior metadata cannot be contradicted by a subordinate authority", "statement": "Explicit metadata set by a statement in the chain is kept in the combined metadata; two statements setting one claim differently make resolution fail.", "quantifier": "all chains of any length", "why_tests_cant": "Unbounded chain length.", "anchors": ["src/fedservice/entity/function/policy.py:combine_metadata", "src/fedservice/entity/function/policy.py:TrustChainPolicy.gather_policies"]}
{"id": "C19", "title": "superior metadata overrides the leaf", "statement": "A claim that a superior sets explicitly in 'metadata' has that value in the leaf's resolved metadata even if the leaf declares another one.", "quantifier": "all chains and leaf metadata", "why_tests_cant": "All leaf documents.", "anchors": ["src/fedservice/entity/function/policy.py:TrustChainPolicy.apply_policy"]}
{"id": "C20", "title": "a claim is not both set and constrained by one statement", "statement": "A statement in which one claim appears in both 'metadata' and 'metadata_policy' for the same entity type makes resolution fail.", "quantifier": "all chains of any length, any position in the chain", "why_tests_cant": "Any position of the statement in a chain of any length.", "anchors": ["src/fedservice/entity/function/policy.py:TrustChainPolicy.gather_policies"]}
{"id": "C21", "title": "combination does not depend on hash order", "statement": "Whether combining a chain's policies succeeds, the combined policy (list operands as sets), and the leaf metadata resolved with it (lists as sets) do not depend on set enumeration order.", "quantifier": "all chains, all enumeration orders", "why_tests_cant": "A test run observes a single hash seed.", "anchors": ["src/fedservice/entity/function/policy.py:combine", "src/fedservice/entity/function/policy.py:combine_claim_policy"]}
{"id": "C22", "title": "difference policy reproduces the new metadata", "statement": "Applying diff2policy(new, old) to old yields every claim of new with its new value and keeps the claims new does not mention.", "quantifier": "all pairs of metadata documents", "why_tests_cant": "Round trip over all documents.", "anchors": ["src/fedservice/entity/function/policy.py:diff2policy", "src/fedservice/entity/function/policy.py:apply_metadata_policy"]}
{"id": "C23", "title": "max_path_length limits the chain", "statement": "A chain in which more intermediates follow a statement than its max_path_length allows is refused.", "quantifier": "all chains of any length", "why_tests_cant": "Unbounded chain length.", "anchors": ["src/fedservice/entity_statement/constraints.py:meets_restrictions", "src/fedservice/entity_statement/constraints.py:calculate_path_length"]}
{"id": "C24", "title": "excluded subjects are refused", "statement": "A chain whose leaf (or an intermediate subject) matches a name excluded by any statement above it is refused; subordinates cannot lift the exclusion.", "quantifier": "all chains of any length, all name lists", "why_tests_cant": "Unbounded chain length and name lists.", "anchors": ["src/fedservice/entity_statement/constraints.py:meets_restrictions", "src/fedservice/entity_statement/constraints.py:excluded", "src/fedservice/entity_statement/constraints.py:update_specs"]}
{"id": "C25", "title": "permitted subtrees only narrow", "statement": "If the topmost statement with naming constraints restricts names to a permitted list, the leaf of an accepted chain is inside it, whatever subordinates declare.", "quantifier": "all chains of any length, all name lists", "why_tests_cant": "Unbounded chain length and name lists.", "anchors": ["src/fedservice/entity_statement/constraints.py:meets_restrictions", "src/fedservice/entity_statement/constraints.py:permitted", "src/fedservice/entity_statement/constraints.py:update_specs"]}
{"id": "C26", "title": "every permitted list is honoured", "statement": "The leaf of an accepted chain is inside the permitted list of every statement of the chain.", "quantifier": "all chains of any length", "why_tests_cant": "Unbounded chain length.", "anchors": ["src/fedservice/entity_statement/constraints.py:meets_restrictions", "src/fedservice/entity_statement/constraints.py:update_specs"]}
{"id": "C27", "title": "name matching is by whole labels", "statement": "A name matches a constraint iff its dot-separated labels end in the constraint's labels (a leading dot demanding at least one more label); matching is reflexive and transitive, so 'evilexample.com' never matches 'example.com'.", "quantifier": "all strings", "why_tests_cant": "All strings.", "anchors": ["src/fedservice/entity_statement/constraints.py:more_specific", "src/fedservice/entity_statement/constraints.py:remove_scheme"]}
{"id": "C28", "title": "chains are exactly the root paths of the tree", "statement": "The chains built from a collected superior tree are exactly its root-to-top paths, top statement first, one per path, in order of the authority hints.", "quantifier": "all trees of any depth and width", "why_tests_cant": "Unbounded recursive structure.", "anchors": ["src/fedservice/entity/function/__init__.py:tree2chains"]}
{"id": "C29", "title": "an unreachable authority contributes no chain", "statement": "A branch whose authority gave no statement contributes no chain to what is later verified.", "quantifier": "all trees", "why_tests_cant": "Any position in an unbounded tree.", "anchors": ["src/fedservice/entity/function/__init__.py:tree2chains", "src/fedservice/entity/function/trust_chain_collector.py:TrustChainCollector.collect_branch"]}
{"id": "C30", "title": "collection terminates", "statement": "Collecting the superiors of an entity terminates for every configuration of authority hints, cyclic ones included.", "quantifier": "all federation graphs", "why_tests_cant": "Non-termination cannot be observed by a terminating test, and graphs are unbounded.", "anchors": ["src/fedservice/entity/function/trust_chain_collector.py:TrustChainCollector.collect_tree", "src/fedservice/entity/function/trust_chain_collector.py:TrustChainCollector.collect_branch"]}
{"id": "C31", "title": "collected statements come from the hinted authorities", "statement": "Each node of the collected tree is an authority hint of the entity below it and carries the statement which that authority's fetch endpoint (or the cache entry for that pair) gave about that entity; nothing above the stop entity is collected.", "quantifier": "all federation graphs, all cache states", "why_tests_cant": "Unbounded graphs.", "anchors": ["src/fedservice/entity/function/trust_chain_collector.py:TrustChainCollector.collect_tree", "src/fedservice/entity/function/trust_chain_collector.py:TrustChainCollector._get_entity_statement"]}
{"id": "C32", "title": "configuration cache never serves stale dictionaries", "statement": "Looking up a cached entity configuration by subscript returns the last value stored under that key iff it is still fresh (now < exp - allowed_delta), otherwise nothing, in every history of stores, deletes and lookups at non-decreasing times; an entry found stale is gone.", "quantifier": "all operation histories, all clocks", "why_tests_cant": "All histories.", "anchors": ["src/fedservice/entity_statement/cache.py:ESCache"]}
{"id": "C33", "title": "entity statement cache never serves stale statements", "statement": "A cached entity statement is used only if now <= exp - allowed_delta for the exp stored with it; otherwise both entries are dropped and it is fetched anew.", "quantifier": "all histories of lookups", "why_tests_cant": "All histories and clocks.", "anchors": ["src/fedservice/entity/function/trust_chain_collector.py:TrustChainCollector._get_entity_statement"]}
{"id": "C34", "title": "cache keys do not collide", "statement": "Statements for different (authority, entity) pairs never share a cache entry, nor does a statement share one with an expiry time.", "quantifier": "all entity identifiers", "why_tests_cant": "All strings.", "anchors": ["src/fedservice/entity/function/trust_chain_collector.py:cache_key", "src/fedservice/entity/function/trust_chain_collector.py:time_key"]}
{"id": "C35", "title": "accepted chains start at a known anchor", "statement": "A chain is accepted only if its first statement is issued by an entity whose keys the verifier held beforehand; an unknown anchor gives no chain and changes nothing.", "quantifier": "all chains, all key stores", "why_tests_cant": "All inputs.", "anchors": ["src/fedservice/entity/function/verifier.py:TrustChainVerifier.trusted_anchor", "src/fedservice/entity/function/verifier.py:TrustChainVerifier.verify_trust_chain"]}
{"id": "C36", "title": "accepted chains start at a configured trust anchor", "statement": "After any history of verifications, the anchor of an accepted chain is one of the configured trust anchors.", "quantifier": "all histories of verified chains", "why_tests_cant": "Histories of any length.", "anchors": ["src/fedservice/entity/function/verifier.py:TrustChainVerifier.trusted_anchor", "src/fedservice/entity/function/verifier.py:TrustChainVerifier.__call__"]}
{"id": "C37", "title": "keys are vouched for from above", "statement": "Each statement in an accepted chain is signed with a key that was known for its issuer beforehand or that an earlier verified statement of the same chain declared for that issuer.", "quantifier": "all chains of any length, all key stores", "why_tests_cant": "Unbounded chain length.", "anchors": ["src/fedservice/entity/function/verifier.py:TrustChainVerifier.verify_trust_chain"]}
{"id": "C38", "title": "key store grows only by vouched keys, over any history", "statement": "In every history of verification attempts (failed ones included) no key is lost from the store and each key present was there at start or was declared for that entity by a statement that verified.", "quantifier": "all histories of any length", "why_tests_cant": "Histories of any length, with failures at any point.", "anchors": ["src/fedservice/entity/function/verifier.py:TrustChainVerifier.verify_trust_chain"]}
{"id": "C39", "title": "chain expiry is the earliest statement expiry", "statement": "The expiry reported for a verified chain is the minimum of the expiry times of its statements.", "quantifier": "all chains of any length", "why_tests_cant": "Unbounded chain length.", "anchors": ["src/fedservice/entity/function/verifier.py:TrustChainVerifier.trust_chain_expires_at"]}
{"id": "C40", "title": "adjacent statements are linked", "statement": "In an accepted chain each statement's subject is the issuer of the next one.", "quantifier": "all chains", "why_tests_cant": "All chains.", "anchors": ["src/fedservice/entity/function/verifier.py:TrustChainVerifier.verify_trust_chain"]}
{"id": "C41", "title": "expired statements are not accepted", "statement": "A chain containing a statement that is expired at verification time is not accepted.", "quantifier": "all chains, all clocks", "why_tests_cant": "All clocks.", "anchors": ["src/fedservice/entity/function/verifier.py:TrustChainVerifier.verify_trust_chain", "src/fedservice/entity_statement/statement.py:TrustChain.is_expired"]}
{"id": "C42", "title": "anchor and issuer path describe the chain", "statement": "For an accepted chain the anchor is the issuer of the first statement and iss_path lists the issuers leaf first; every supplied statement that is a JWT is in the verified chain in order.", "quantifier": "all chains", "why_tests_cant": "Unbounded chain length.", "anchors": ["src/fedservice/entity/function/verifier.py:TrustChainVerifier.__call__"]}
{"id": "C43", "title": "shortest chain per anchor is kept", "statement": "chains2dict keeps for each trust anchor exactly one of the supplied chains, of minimal length among those with that anchor and the earliest such.", "quantifier": "all lists of chains", "why_tests_cant": "Lists of any length.", "anchors": ["src/fedservice/entity_statement/statement.py:chains2dict"]}
{"id": "C44", "title": "stored chains are found again", "statement": "After any history of save_trust_chains, get_trust_chain(entity, anchor) gives the chain that the last save containing such a chain selected for that pair, and nothing for pairs never saved.", "quantifier": "all histories of saves", "why_tests_cant": "Histories of any length.", "anchors": ["src/fedservice/__init__.py:save_trust_chains", "src/fedservice/__init__.py:get_trust_chain"]}
{"id": "C45", "title": "exporting a chain is repeatable", "statement": "Exporting a chain gives the leaf-first sequence each time it is called and does not change the chain.", "quantifier": "all chains, any number of calls", "why_tests_cant": "Any number of calls.", "anchors": ["src/fedservice/entity_statement/statement.py:TrustChain.export_chain"]}
{"id": "C46", "title": "chain choice follows the anchor priority", "statement": "Choosing among several chains (fresh or stored) gives one whose anchor comes first in the configured priority among the available anchors.", "quantifier": "all chain lists and priority lists", "why_tests_cant": "All lists.", "anchors": ["src/fedservice/entity/__init__.py:FederationEntity.pick_trust_chain", "src/fedservice/entity/__init__.py:FederationEntity.pick_from_stored_trust_chains"]}
{"id": "C47", "title": "expired chains are not served from the store", "statement": "get_trust_chains / get_verified_metadata never answer from a stored chain that has expired.", "quantifier": "all histories, all clocks", "why_tests_cant": "All histories.", "anchors": ["src/fedservice/entity/__init__.py:FederationEntity.get_trust_chains", "src/fedservice/entity/__init__.py:FederationEntity.get_verified_metadata"]}
{"id": "C48", "title": "file trust-mark store: a mark is active iff issued and unexpired", "statement": "After any history of additions, find(id, sub, iat) is true iff a mark for that id and subject (and issue time, when given) was added and has not expired.", "quantifier": "all histories of additions, all clocks", "why_tests_cant": "Histories of any length.", "anchors": ["src/fedservice/trust_mark_entity/__init__.py:FileDB.add", "src/fedservice/trust_mark_entity/__init__.py:FileDB.find"]}
{"id": "C49", "title": "file trust-mark store lists each subject once", "statement": "list(id) names exactly the subjects marks were added for, each once, latest first; with a subject filter it names that subject iff it has a mark.", "quantifier": "all histories of additions", "why_tests_cant": "Histories of any length.", "anchors": ["src/fedservice/trust_mark_entity/__init__.py:FileDB.list"]}
{"id": "C50", "title": "file trust-mark store survives dump and load", "statement": "Loading a dump into an empty store gives a store that answers every query the same.", "quantifier": "all store contents", "why_tests_cant": "Round trip.", "anchors": ["src/fedservice/trust_mark_entity/__init__.py:FileDB.dump", "src/fedservice/trust_mark_entity/__init__.py:FileDB.load"]}
{"id": "C51", "title": "in-memory trust-mark store accepts every mark", "statement": "After any history of additions the in-memory store finds exactly the marks added.", "quantifier": "all histories", "why_tests_cant": "Histories of any length.", "anchors": ["src/fedservice/trust_mark_entity/__init__.py:SimpleDB"]}
{"id": "C52", "title": "trust mark acceptance", "statement": "A trust mark is accepted only if it has the required claims, has not expired, its issuer has a verified trust chain to the requested anchor and the signature verifies; an invalid delegation makes it rejected.", "quantifier": "all trust marks, key stores and federations", "why_tests_cant": "All inputs.", "anchors": ["src/fedservice/entity/function/trust_mark_verifier.py:TrustMarkVerifier.__call__", "src/fedservice/entity/function/trust_mark_verifier.py:TrustMarkVerifier.verify_delegation"]}
{"id": "C53", "title": "trust mark status follows issuance", "statement": "The status endpoint answers active for a mark this issuer created and has not expired, and inactive otherwise; it does not fail on unknown marks.", "quantifier": "all histories of issuance", "why_tests_cant": "Histories of any length.", "anchors": ["src/fedservice/trust_mark_entity/server/trust_mark_status.py:TrustMarkStatus.process_request", "src/fedservice/trust_mark_entity/entity.py:TrustMarkEntity.create_trust_mark"]}
{"id": "C54", "title": "fetch answers only for known subordinates", "statement": "The fetch endpoint issues a subordinate statement only for a registered subordinate, about that subject, with the subordinate's registered keys; unknown subjects give an error.", "quantifier": "all requests, all subordinate registries", "why_tests_cant": "All requests.", "anchors": ["src/fedservice/entity/server/fetch.py:Fetch.process_request"]}
{"id": "C55", "title": "fetch issues in its own name", "statement": "Every statement the fetch endpoint issues names this entity as issuer, whatever the request says.", "quantifier": "all requests", "why_tests_cant": "All requests.", "anchors": ["src/fedservice/entity/server/fetch.py:Fetch.process_request"]}
{"id": "C56", "title": "fetch is repeatable", "statement": "Repeating a fetch request gives the same statement: answering requests does not change the registered subordinates or policies.", "quantifier": "all request histories", "why_tests_cant": "Histories of any length.", "anchors": ["src/fedservice/entity/server/fetch.py:Fetch.process_request"]}
{"id": "C57", "title": "list filter selects by the conjunction of the given criteria", "statement": "The list endpoint names exactly the subordinates satisfying every filter in the request (entity type, trust mark, intermediate), and all of them when no filter is given.", "quantifier": "all registries and requests", "why_tests_cant": "All registries.", "anchors": ["src/fedservice/entity/server/list.py:List.filter", "src/fedservice/entity/server/list.py:List.process_request"]}
{"id": "C58", "title": "resolve answers for the requested anchor", "statement": "A resolve response carries metadata of a verified chain of the subject to the requested anchor, restricted to the requested type; no such chain gives an error.", "quantifier": "all requests and federations", "why_tests_cant": "All inputs.", "anchors": ["src/fedservice/entity/server/resolve.py:Resolve.process_request"]}
{"id": "C59", "title": "created entity statements say what was asked", "statement": "The payload created for a statement has the given subject and issuer, and exactly the given non-empty metadata, policy, hints, audience and constraints; keys are those supplied or else the issuer's; it expires after the given lifetime; extra claims are passed on as they are.", "quantifier": "all arguments", "why_tests_cant": "All arguments.", "anchors": ["src/fedservice/entity_statement/create.py:create_entity_statement"]}
{"id": "C60", "title": "unknown critical claims are refused", "statement": "An entity statement that lists as critical an extension claim it carries and the verifier does not know is refused; without unknown critical claims it is not refused on that ground.", "quantifier": "all statements and known sets", "why_tests_cant": "All sets.", "anchors": ["src/fedservice/message.py:EntityStatement.verify", "src/fedservice/message.py:Policy.verify"]}
{"id": "C61", "title": "redirect URIs obey the application type", "statement": "Each accepted redirect URI of a native client uses a custom scheme or http on localhost/127.0.0.1; of any other client it uses http or https, and https for a web client unless its response types are exactly [code]. No accepted redirect URI has a fragment.", "quantifier": "all registration requests", "why_tests_cant": "All URIs.", "anchors": ["src/fedservice/appserver/oauth2/registration.py:Registration.verify_redirect_uris"]}
{"id": "C62", "title": "registered metadata stays within what the server supports", "statement": "After filtering a client request each value is one the server supports; claims the server says nothing about are untouched.", "quantifier": "all requests and capability tables", "why_tests_cant": "All tables.", "anchors": ["src/fedservice/appserver/oauth2/registration.py:Registration.match_claim", "src/fedservice/appserver/oauth2/registration.py:Registration.filter_client_request"]}
{"id": "C63", "title": "failed registration leaves no client behind", "statement": "A registration that is refused leaves the client database as it was.", "quantifier": "all requests, failure at any step", "why_tests_cant": "Failure at any point.", "anchors": ["src/fedservice/appserver/oauth2/registration.py:Registration.client_registration_setup", "src/fedservice/appserver/oauth2/registration.py:Registration.do_client_registration"]}
{"id": "C64", "title": "automatic registration only for trusted entities", "statement": "An unknown client gets past client authentication only if automatic registration is supported and a verified trust chain exists for it; a known client is not registered again.", "quantifier": "all requests and client databases", "why_tests_cant": "All states.", "anchors": ["src/fedservice/appserver/oauth2/authorization.py:Authorization.client_authentication", "src/fedservice/appserver/oauth2/authorization.py:Authorization.do_automatic_registration"]}
{"id": "C65", "title": "automatic registration registers the entity the chain is about", "statement": "When an unknown client is registered automatically, from a collected or from a client-supplied trust chain, the metadata registered under the client's identifier is the resolved metadata of that very entity.", "quantifier": "all requests, all supplied chains", "why_tests_cant": "All chains an attacker may supply.", "anchors": ["src/fedservice/appserver/oidc/authorization.py:Authorization.do_automatic_registration", "src/fedservice/appserver/oauth2/authorization.py:Authorization.do_automatic_registration"]}
{"id": "C66", "title": "explicit registration honours the federation policy", "statement": "The metadata a client is registered with in explicit registration is its metadata after the chain's policies were applied.", "quantifier": "all requests, all chains", "why_tests_cant": "All policies and requests.", "anchors": ["src/fedservice/appserver/oidc/registration.py:Registration.process_request", "src/fedservice/appserver/oauth2/registration.py:Registration.process_request"]}
{"id": "C67", "title": "one bad chain does not spoil the others", "statement": "When an entity has several verified trust chains and the policies of one of them contradict each other, the other chains are still resolved and returned.", "quantifier": "all lists of verified trust chains", "why_tests_cant": "tests use one chain or chains that all resolve; the claim is about every mix of good and bad chains", "anchors": ["src/fedservice/entity/function/__init__.py:apply_policies", "src/fedservice/entity/function/__init__.py:get_verified_trust_chains"]}
{"id": "C68", "title": "naming constraints apply to host names", "statement": "An entity identifier matches a naming constraint iff the host of the identifier is the constraint's host or lies below it; the path and port of the identifier play no part.", "quantifier": "all pairs of http(s) URLs", "why_tests_cant": "tests use a few identifiers without a path; the claim is about every URL", "anchors": ["src/fedservice/entity_statement/constraints.py:more_specific", "src/fedservice/entity_statement/constraints.py:remove_scheme"]}
{"id": "C69", "title": "constraint checking always reaches a verdict", "statement": "For every chain of statements whose names are http(s) URLs, checking its constraints answers yes or no, also when a statement gives only one of the two kinds of naming constraints.", "quantifier": "all chains with well-formed constraints", "why_tests_cant": "tests give both lists in every statement; the claim is about every combination of present and absent members", "anchors": ["src/fedservice/entity_statement/constraints.py:meets_restrictions", "src/fedservice/entity_statement/constraints.py:add_constraints"]}
{"id": "C70", "title": "caching never changes the outcome of a collection", "statement": "A collection that succeeds with empty caches succeeds as well with the caches left behind by any earlier collections in the same federation; in a federation that always publishes the same documents it also gives the same tree and configuration.", "quantifier": "all federations, all histories of earlier collections, all times, all starting entities", "why_tests_cant": "tests run one or two collections at one point in time; the claim ranges over all histories and all relations between the lifetimes of cached documents", "anchors": ["src/fedservice/entity/function/trust_chain_collector.py:TrustChainCollector.collect_tree", "src/fedservice/entity/function/trust_chain_collector.py:TrustChainCollector._get_entity_statement", "src/fedservice/entity/function/trust_chain_collector.py:TrustChainCollector.__call__"]}
{"id": "C71", "title": "a failing authority does not spoil the collection through the others", "statement": "If the statements about an entity can be collected through one of its authorities, the collection succeeds also when other authorities it names are unreachable or publish unusable documents.", "quantifier": "all entities, all sets of authority hints, all failures of the other authorities", "why_tests_cant": "tests use a small set of live mock authorities; the claim is about every combination of failing ones", "anchors": ["src/fedservice/entity/function/trust_chain_collector.py:TrustChainCollector.collect_branch", "src/fedservice/entity/function/trust_chain_collector.py:TrustChainCollector.collect_tree"]}
{"id": "C72", "title": "a collection never starts from an expired entity configuration", "statement": "The entity configuration a successful collection reports for its starting entity has not expired at the time of the collection.", "quantifier": "all times, caches, published documents", "why_tests_cant": "tests run with the clock of the machine and fresh configurations", "anchors": ["src/fedservice/entity/function/trust_chain_collector.py:TrustChainCollector.too_old", "src/fedservice/entity/function/trust_chain_collector.py:TrustChainCollector.__call__"]}
{"id": "C73", "title": "acceptance of a chain is stable", "statement": "A chain that is accepted once is accepted again with the same result after any further verifications, successful or not, of other chains.", "quantifier": "all chains, all histories of verifications", "why_tests_cant": "the key store is shared and changed by every verification; tests verify a few chains in one order", "anchors": ["src/fedservice/entity/function/verifier.py:TrustChainVerifier.verify_trust_chain", "src/fedservice/entity/function/verifier.py:TrustChainVerifier.__call__"]}
{"id": "C74", "title": "withdrawn keys are not accepted", "statement": "Each statement of an accepted chain but the first is signed with a key that the statement directly above it lists, so a key a superior no longer lists is no longer accepted.", "quantifier": "all chains, all key stores", "why_tests_cant": "depends on what earlier chains left in the key store", "anchors": ["src/fedservice/entity/function/verifier.py:TrustChainVerifier.verify_trust_chain", "src/fedservice/entity/function/verifier.py:TrustChainVerifier.__call__"]}
{"id": "C75", "title": "well-signed chains from a known anchor are accepted, and no others", "statement": "A chain without constraints is accepted whenever its first issuer is known, each statement has an expiry and is signed with a key known or declared above it, and each but the last lists keys; a chain of which one of these is not true is not accepted, whatever its constraints.", "quantifier": "all chains of any length, all key stores", "why_tests_cant": "tests show acceptance for a few fixed chains", "anchors": ["src/fedservice/entity/function/verifier.py:TrustChainVerifier.verify_trust_chain", "src/fedservice/entity/function/verifier.py:TrustChainVerifier.__call__"]}
{"id": "C76", "title": "returned chains are paths of authority hints signed from known keys", "statement": "Every chain that resolving an entity returns ends with the configuration found for that entity; going up, each authority is named in the configuration of the one below and made the statement about it (from its fetch endpoint or the cache); every signature verifies with a key that goes back, through verified statements collected now, to keys known before.", "quantifier": "all federations, caches, key stores; authority and entity identifiers without '!'", "why_tests_cant": "Joins collection, verification and policies over arbitrary federation graphs, cache contents and key stores.", "anchors": ["src/fedservice/entity/function/__init__.py:get_verified_trust_chains", "src/fedservice/entity/function/__init__.py:collect_trust_chains", "src/fedservice/entity/function/__init__.py:verify_trust_chains"]}
{"id": "C77", "title": "nobody vouches for themselves", "statement": "An entity that is not a configured trust anchor is only resolved on the word of another: each chain returned for it has a statement by another issuer.", "quantifier": "all histories of resolutions, all federations", "why_tests_cant": "The failure needs a history or an adversarial choice of authority hints.", "anchors": ["src/fedservice/entity/function/__init__.py:get_verified_trust_chains", "src/fedservice/entity/function/policy.py:TrustChainPolicy.__call__", "src/fedservice/entity/function/verifier.py:TrustChainVerifier.trusted_anchor"]}
{"id": "C78", "title": "the resolved chain is about the entity asked for", "statement": "The last statement of every chain returned for an entity has that entity as its subject.", "quantifier": "all federations, including dishonest ones, all states", "why_tests_cant": "Tests use honest configurations.", "anchors": ["src/fedservice/entity/function/__init__.py:get_verified_trust_chains", "src/fedservice/entity/function/trust_chain_collector.py:TrustChainCollector.__call__"]}
{"id": "C79", "title": "a value fixed by a superior arrives in the resolved metadata", "statement": "From identifier to metadata: if any statement above the leaf in a returned chain fixes the value of a claim for an entity type the leaf has, the metadata of the chain has exactly that value.", "quantifier": "all federations, states and chains", "why_tests_cant": "All chains of any length through collection, verification and policy application.", "anchors": ["src/fedservice/entity/function/__init__.py:get_verified_trust_chains", "src/fedservice/entity/function/__init__.py:apply_policies"]}
{"id": "C80", "title": "trust mark list endpoint names the subjects with active marks", "statement": "Asked for a trust mark id, the trust mark list endpoint names exactly the subjects that hold a mark with that id which has not expired; asked for one subject as well, it answers with that subject iff it holds such a mark.", "quantifier": "all histories of issuance, all clocks", "why_tests_cant": "Histories of any length.", "anchors": ["src/fedservice/trust_mark_entity/server/trust_mark_list.py:TrustMarkList.process_request", "src/fedservice/trust_mark_entity/__init__.py:FileDB.list"]}
{"id": "C81", "title": "a trust mark verified for an entity is about that entity", "statement": "When a trust mark is verified with an entity identifier given, it is accepted only if its subject is that entity.", "quantifier": "all trust marks, entity identifiers, key stores and federations", "why_tests_cant": "All inputs; tests use matching subjects.", "anchors": ["src/fedservice/entity/function/trust_mark_verifier.py:TrustMarkVerifier.__call__", "src/fedservice/message.py:TrustMark.verify"]}
{"id": "C82", "title": "checked trust marks are confirmed by their issuer", "statement": "verify_trust_mark returns a mark only if the verifier accepts it for an anchor the issuer has a chain to and, when asked to check with the issuer, the status endpoint says that it is active; a mark that is not accepted gives None.", "quantifier": "all trust marks, federations and answers of the status endpoint", "why_tests_cant": "All inputs and all answers of a remote party.", "anchors": ["src/fedservice/entity/__init__.py:FederationEntity.verify_trust_mark"]}
{"id": "C83", "title": "delegations are judged by authentic metadata of the anchor", "statement": "The metadata of the trust anchor that names the owners of trust marks is taken only from a configuration signed with a key held for that anchor.", "quantifier": "all key stores and all documents published under the name of the anchor", "why_tests_cant": "All documents an attacker may publish.", "anchors": ["src/fedservice/entity/function/trust_chain_collector.py:TrustChainCollector.get_metadata", "src/fedservice/entity/function/trust_mark_verifier.py:TrustMarkVerifier.verify_delegation"]}
{"id": "C84", "title": "statements carry the policies the authority registered", "statement": "A subordinate statement states the metadata policy the authority registered for that entity; if there is none, it states under each entity type of the subordinate the policy registered for that type, and no other type's.", "quantifier": "all registries, policies and requests", "why_tests_cant": "All combinations of registered policies and entity types.", "anchors": ["src/fedservice/entity/server/fetch.py:Fetch.process_request"]}
{"id": "C85", "title": "metadata registered with a subordinate is stated", "statement": "Metadata the authority registered with a subordinate that has no policy of its own is in every statement about that subordinate.", "quantifier": "all registries, policies and requests", "why_tests_cant": "All combinations of registered policies and entity types.", "anchors": ["src/fedservice/entity/server/fetch.py:Fetch.process_request"]}
{"id": "C86", "title": "the published configuration is the entity's own", "statement": "The entity configuration an entity publishes is issued by it about itself, with its own keys, its metadata, authority hints and trust marks, a day of validity and nothing else.", "quantifier": "all entities and times", "why_tests_cant": "All metadata, hints and trust marks.", "anchors": ["src/fedservice/entity/server/entity_configuration.py:EntityConfiguration.process_request"]}
{"id": "C87", "title": "fetch and list read the same registry", "statement": "On a registry that names the entity types of each subordinate the way the fetch endpoint reads them, listing by entity type is answered with exactly the subordinates of that type.", "quantifier": "all registries, all entity types", "why_tests_cant": "All registries.", "anchors": ["src/fedservice/entity/server/list.py:List.process_request", "src/fedservice/entity/server/fetch.py:Fetch.process_request"]}
{"id": "C88", "title": "listed configurations are signed by the subordinate", "statement": "Each entity configuration in an extended list answer is signed with keys the authority registered for the subordinate it is listed under.", "quantifier": "all registries, requests and published configurations", "why_tests_cant": "All configurations subordinates may publish.", "anchors": ["src/fedservice/entity/server/list.py:List.collect_subordinates", "src/fedservice/entity/server/list.py:List.process_request"]}
{"id": "C89", "title": "resolve answers only for trusted anchors", "statement": "Whatever was asked before, the resolve endpoint only answers for trust anchors the entity was configured with.", "quantifier": "all histories of requests, all federations", "why_tests_cant": "Histories of any length.", "anchors": ["src/fedservice/entity/server/resolve.py:Resolve.process_request", "src/fedservice/entity/function/verifier.py:TrustChainVerifier.trusted_anchor"]}
{"id": "C90", "title": "the trust chain in a resolve response is the verified one", "statement": "The trust_chain in a resolve response is the chain that was verified for the subject and anchor, leaf first, each statement signed as it was collected.", "quantifier": "all requests, federations and cache states", "why_tests_cant": "All cache states and federations.", "anchors": ["src/fedservice/entity/server/resolve.py:Resolve.process_request", "src/fedservice/entity/function/trust_chain_collector.py:TrustChainCollector.get_chain"]}
{"id": "C91", "title": "resolve answers when there is a chain", "statement": "Whenever the subject has a verified chain to the requested anchor, a resolve request is answered.", "quantifier": "all requests, federations and cache states", "why_tests_cant": "All cache states and points in time.", "anchors": ["src/fedservice/entity/server/resolve.py:Resolve.process_request", "src/fedservice/entity/function/trust_chain_collector.py:TrustChainCollector.get_chain"]}
{"id": "C92", "title": "chains with unknown critical claims are refused", "statement": "When trust chains for an entity are resolved, a chain in which some statement lists as critical an extension claim it carries and the resolver does not know is not used.", "quantifier": "all entities, all published statements, all known sets", "why_tests_cant": "Needs every position of the offending statement in every chain; a test only shows one chain.", "anchors": ["src/fedservice/entity/function/verifier.py:TrustChainVerifier", "src/fedservice/message.py:EntityStatement.verify", "src/fedservice/entity/function/trust_chain_collector.py:TrustChainCollector"]}
{"id": "C93", "title": "registered secrets are the server's", "statement": "The client identifier, salt and client secret that are stored for a newly registered client are the ones the server generated; a request cannot choose them.", "quantifier": "all registration requests, all client databases, all generators", "why_tests_cant": "A test uses requests without such members; the claim is about every request.", "anchors": ["src/fedservice/appserver/oauth2/registration.py:Registration.client_registration_setup", "src/fedservice/appserver/oauth2/registration.py:Registration.do_client_registration"]}
{"id": "C94", "title": "stored client information is what was asked for and checked", "statement": "After a successful registration the stored information has, claim by claim, the requested value as far as the server goes along with it; the redirect URIs are the verified ones, each information page passed the check against them, a signing algorithm is the one asked for or dropped; anything else was made up by the server.", "quantifier": "all registration requests, all client databases, all capability tables", "why_tests_cant": "Quantifies over every claim of every request, including those no test names.", "anchors": ["src/fedservice/appserver/oauth2/registration.py:Registration.do_client_registration", "src/fedservice/appserver/oauth2/registration.py:Registration.filter_client_request"]}
{"id": "C95", "title": "a refused automatic registration leaves the client unknown", "statement": "An unknown client whose request was not let in by automatic registration is still treated as unknown afterwards: with automatic registration switched off it does not get past client authentication.", "quantifier": "all clients, all federations, all client databases, all supplied chains", "why_tests_cant": "Needs every way in which a registration can be refused; a test tries one refusal and seldom a second request.", "anchors": ["src/fedservice/appserver/oauth2/authorization.py:Authorization.client_authentication", "src/fedservice/appserver/oauth2/authorization.py:Authorization.do_automatic_registration", "src/fedservice/appserver/oauth2/registration.py:Registration.client_registration_setup"]}
{"id": "C96", "title": "a request that is not let in changes no registered client", "statement": "A request with an arbitrary client id and arbitrary supplied trust chain that does not get past client authentication leaves every registered client as it was.", "quantifier": "all requests, all client databases", "why_tests_cant": "Frame condition over every other client and every failing request.", "anchors": ["src/fedservice/appserver/oauth2/authorization.py:Authorization.client_authentication", "src/fedservice/appserver/oidc/authorization.py:Authorization.client_authentication"]}
{"id": "C97", "title": "explicit registration only by the entity itself", "statement": "A client is registered explicitly only upon a request signed with a key that a verified statement of another entity lists for the subject of the request.", "quantifier": "all requests (also of attackers), all federations, all key stores", "why_tests_cant": "Security against every possible forged request.", "anchors": ["src/fedservice/appserver/oidc/registration.py:Registration.process_request", "src/fedservice/appserver/oauth2/registration.py:Registration.process_request", "src/fedservice/entity_statement/statement.py:TrustChain"]}
{"id": "C98", "title": "the response to explicit registration", "statement": "The statement that answers an explicit registration is about and for the issuer of the request, names as trust anchor the issuer of the top statement of a chain verified for the client, is about an entity type of the request, and repeats no keys of the client unless the registration itself returns them; the client is then registered.", "quantifier": "all requests, all federations", "why_tests_cant": "All chains and all requests.", "anchors": ["src/fedservice/appserver/oidc/registration.py:Registration.process_request", "src/fedservice/appserver/oauth2/registration.py:Registration.process_request"]}
{"id": "C99", "title": "walking down finds exactly the entities of a type", "statement": "In a federation whose members answer list and statement requests truthfully, walking down from an entity returns exactly the identifiers of the entities of the wanted type at or below it: none is missed at any depth, none is reported that is not there.", "quantifier": "all federations (trees and graphs of any depth), all entity types", "why_tests_cant": "Soundness and completeness over every shape of federation.", "anchors": ["src/fedservice/entity/__init__.py:FederationEntity.trawl"]}
{"id": "C100", "title": "walking down ends", "statement": "Walking down a federation from an entity comes to an end, whatever the entities answer.", "quantifier": "all federations, also with entities that list each other", "why_tests_cant": "Termination for every graph.", "anchors": ["src/fedservice/entity/__init__.py:FederationEntity.trawl"]}
{"id": "C101", "title": "endpoints of other entities come from verified statements", "statement": "The endpoint used for an entity is, for a trust anchor, what the anchor itself publishes, signed with a key held for it; for any other entity what the metadata of a verified trust chain for it says after policies.", "quantifier": "all entities, all federations, all key stores", "why_tests_cant": "Security against all possible published documents.", "anchors": ["src/fedservice/entity/function/trust_anchor.py:get_verified_endpoint", "src/fedservice/entity/function/trust_anchor.py:get_verified_trust_anchor_statement"]}
{"id": "C102", "title": "a list request goes to a list endpoint", "statement": "A list request is sent to the endpoint given by the caller or to a list endpoint that was found for the entity, never elsewhere.", "quantifier": "all entities, all federations", "why_tests_cant": "Covers every entity including those without such an endpoint.", "anchors": ["src/fedservice/entity/client/list.py:List.get_request_parameters", "src/fedservice/entity/function/trust_anchor.py:get_verified_endpoint"]}
{"id": "C103", "title": "the configuration of an entity is what it publishes", "statement": "The document taken as the configuration of an entity is the one at the well-known location below its identifier, if there is one, also for entities with a path in their identifier.", "quantifier": "all identifiers, all contents of the web", "why_tests_cant": "All combinations of documents at the two possible locations.", "anchors": ["src/fedservice/entity/function/trust_chain_collector.py:TrustChainCollector.get_entity_configuration", "src/fedservice/entity/client/entity_configuration.py:construct_well_known_url", "src/fedservice/entity/client/entity_configuration.py:construct_tenant_well_known_url"]}
{"id": "C104", "title": "who names only entities that meet all criteria", "statement": "Every entity in the answer of the who endpoint was found below a trusted anchor with the wanted entity type, offers the wanted credential type in its resolved metadata, and has in its verified configuration a trust mark with the wanted id that verifies, is active according to its issuer, and was issued to it.", "quantifier": "all federations, all requests, all trust marks", "why_tests_cant": "Security against all published configurations and marks.", "anchors": ["src/fedservice/entity/server/who.py:Who.process_request"]}
{"id": "C105", "title": "who names all entities that meet the criteria", "statement": "If the who endpoint answers, every entity found below the anchor that meets all the criteria given is in the answer.", "quantifier": "all federations, all requests with any subset of the criteria", "why_tests_cant": "Completeness over all federations and all combinations of criteria.", "anchors": ["src/fedservice/entity/server/who.py:Who.process_request"]}
{"id": "C106", "title": "policies refuse only what violates them", "statement": "Applying a policy refuses metadata only if a demanded claim is missing, if nothing permitted is left, if a required value is missing or if the single value is not among those allowed; otherwise the result has exactly the values declared or added that are permitted.", "quantifier": "all metadata and all policies of the usual shape (lists for list operators, one value or list per claim)", "why_tests_cant": "Exactness for every combination of operators and values, in both directions.", "anchors": ["src/fedservice/entity/function/policy.py:apply_metadata_policy", "src/fedservice/entity/function/policy.py:TrustChainPolicy.apply_policy"]}
{"id": "C107", "title": "entities that satisfy all policies are not turned away", "statement": "If what an entity declares satisfies the policies of every statement above it, the policies can be combined, the entity is resolved, and the declared values are unchanged.", "quantifier": "all chains of any length, all policies, all declared metadata", "why_tests_cant": "Liveness over all chains and all combinations of policies.", "anchors": ["src/fedservice/entity/function/policy.py:combine_claim_policy", "src/fedservice/entity/function/policy.py:TrustChainPolicy.gather_policies", "src/fedservice/entity/function/policy.py:TrustChainPolicy.__call__"]}
{"id": "C108", "title": "chains that keep to all constraints are accepted", "statement": "If every subject of a chain keeps to the naming constraints of its own statement and of all those above it, and no path is longer than any statement allows, the constraints do not turn the chain away.", "quantifier": "all chains of any length, all constraints, all URLs as identifiers", "why_tests_cant": "Liveness over all chains and all combinations of permitted and excluded lists.", "anchors": ["src/fedservice/entity_statement/constraints.py:meets_restrictions", "src/fedservice/entity_statement/constraints.py:update_specs"]}
{"id": "C109", "title": "members of a well-run federation are resolved", "statement": "If the members of a federation publish properly signed, unexpired configurations and statements up to anchors whose keys are known, an entity whose metadata satisfies the policies and constraints along its ways up gets one verified chain for each way up to an anchor, with the metadata it declared, and no other chain, whatever was collected before.", "quantifier": "all federations of any size and shape without cycles, all entities in them, all histories of earlier collections", "why_tests_cant": "Liveness over all federation graphs and all cache states; tests run a few fixed federations.", "anchors": ["src/fedservice/entity/function/__init__.py:get_verified_trust_chains", "src/fedservice/entity/__init__.py:FederationEntity.get_trust_chains", "src/fedservice/entity/__init__.py:FederationEntity.get_verified_metadata", "src/fedservice/entity/function/trust_chain_collector.py:TrustChainCollector.collect_tree", "src/fedservice/entity/function/verifier.py:TrustChainVerifier.__call__"]}
{"id": "C110", "title": "chains that break a constraint are not returned", "statement": "In every trust chain returned for an entity, all subjects keep to the naming constraints of their own statement and of every statement above, and no path is longer than any statement allows.", "quantifier": "all worlds, all cache and key store states, all entities, all constraints anywhere in the chain", "why_tests_cant": "Tests call the constraint check on a few literal chains; whether the verdict reaches the result of a resolution in every case, for lists at any position, cannot be sampled.", "anchors": ["src/fedservice/entity/function/__init__.py:get_verified_trust_chains", "src/fedservice/entity/function/verifier.py:TrustChainVerifier.__call__", "src/fedservice/entity_statement/constraints.py:meets_restrictions"]}
{"id": "C111", "title": "every authority above gets what its policy asks", "statement": "The metadata returned for an entity meets every policy operator (value, subset_of, superset_of, one_of, essential, add) of every statement above it in the chain: an essential claim is there, what is added is there, only allowed values are there.", "quantifier": "all worlds, all states, all entities, all statements of the chain, all claims and operators", "why_tests_cant": "Policies of several authorities are merged before they are applied; whether any demand of any authority gets lost depends on all combinations of operators over chains of any length.", "anchors": ["src/fedservice/entity/function/__init__.py:get_verified_trust_chains", "src/fedservice/entity/function/verifier.py:TrustChainVerifier.__call__", "src/fedservice/entity/function/policy.py:TrustChainPolicy.gather_policies", "src/fedservice/entity/function/policy.py:TrustChainPolicy.apply_policy", "src/fedservice/entity/function/policy.py:combine"]}
{"id": "C112", "title": "a registration response comes from the provider asked", "statement": "What a client takes as the answer to its explicit registration was issued by the provider it asked, is meant for the client, and is signed with a key that the federation vouches for as that provider's.", "quantifier": "all worlds, all key store and cache states, all responses, both kinds of client", "why_tests_cant": "Tests parse one genuine response; that no response by anybody else, in any federation, is accepted is a statement about all of them.", "anchors": ["src/fedservice/appclient/oidc/registration.py:Registration.parse_federation_registration_response", "src/fedservice/appclient/oauth2/registration.py:Registration.parse_federation_registration_response"]}
{"id": "C113", "title": "the policies above the client apply to its registration", "statement": "The metadata a client takes over from a registration response has gone through the policies of a verified trust chain up from the client: a value that any superior on that chain fixes is the value taken over.", "quantifier": "all worlds, states and responses for which registration succeeds, all claims and policies", "why_tests_cant": "The policies of chains of any length have to be followed through merging and application for any response.", "anchors": ["src/fedservice/appclient/oidc/registration.py:Registration.parse_federation_registration_response", "src/fedservice/appclient/oauth2/registration.py:Registration.parse_federation_registration_response", "src/fedservice/entity/function/policy.py:TrustChainPolicy.__call__"]}
{"id": "C114", "title": "registration follows the trust anchor agreed on", "statement": "What a client takes over follows the policies of its chain up to the trust anchor named in the response, and several such chains are no reason to refuse the response.", "quantifier": "all federations with any number of trust anchors and chains per client", "why_tests_cant": "Test federations have one trust anchor and one chain per client, where all choices coincide.", "anchors": ["src/fedservice/appclient/oidc/registration.py:Registration.parse_federation_registration_response", "src/fedservice/appclient/oauth2/registration.py:Registration.parse_federation_registration_response"]}
{"id": "C115", "title": "unregistered clients send no plain authorization request", "statement": "A client that is not registered makes no authorization request that is neither signed in its own name nor pushed.", "quantifier": "all client configurations, all server metadata, all request arguments, both kinds of client", "why_tests_cant": "Depends on every combination of the endpoints the client is configured for and the methods the server supports.", "anchors": ["src/fedservice/appclient/oidc/authorization.py", "src/fedservice/appclient/oauth2/authorization.py"]}
{"id": "C116", "title": "the first endpoint supported by both is used", "statement": "The first endpoint in the client's configuration at which the server supports a method decides how the request is made: at the authorization endpoint the server has to support request objects and the request is signed, at the pushed authorization endpoint it is pushed; and if the server supports it, the request is made.", "quantifier": "all configurations and server metadata, all request arguments", "why_tests_cant": "Lists of endpoints and methods are unbounded and their order matters.", "anchors": ["src/fedservice/appclient/oidc/authorization.py", "src/fedservice/appclient/oauth2/authorization.py"]}
{"id": "C117", "title": "arguments of an authorization request are kept", "statement": "The arguments given for a request are all sent, with the client's entity id as client id if none is given, and the arguments for the following steps reach them.", "quantifier": "all request and post arguments, all configurations", "why_tests_cant": "Tests check a few arguments in one configuration; losing one in some branch goes unnoticed.", "anchors": ["src/fedservice/appclient/oidc/authorization.py", "src/fedservice/appclient/oauth2/authorization.py"]}
{"id": "C118", "title": "a signed request carries everything inside", "statement": "In a signed request of an OAuth client the request object is made from all the arguments, and beside it there are only required parameters, with the same values; a request that is not signed goes out as it is.", "quantifier": "all requests and arguments, any way of making request objects", "why_tests_cant": "A parameter outside the request object with another value than inside would have to be excluded for all parameters.", "anchors": ["src/fedservice/appclient/oauth2/authorization.py"]}
{"id": "C119", "title": "provider metadata is that of the provider asked for", "statement": "The metadata a client takes for that of a provider it looked up in the federation names that provider as issuer, has gone through the policies of a verified chain, and keys are loaded for that provider only; if there is no verified chain, nothing is taken over.", "quantifier": "all worlds, states, providers, trust anchor priorities", "why_tests_cant": "A test shows the metadata of an honest provider; the statement is about every provider, including ones that claim to be another.", "anchors": ["src/fedservice/appclient/stand_alone_client_entity.py"]}
{"id": "C120", "title": "the kind of registration is one both support", "statement": "A client registers explicitly only if it and the provider both support that, at the endpoint the provider names; it skips registration only if both support automatic registration; if they have nothing in common it refuses.", "quantifier": "all lists of registration types of client and provider, all stored chains", "why_tests_cant": "All combinations of two lists, with unknown types among them, have to be considered.", "anchors": ["src/fedservice/appclient/stand_alone_client_entity.py"]}
{"id": "C121", "title": "registration is decided by the metadata in use", "statement": "How to register is decided by the same provider metadata that the client took over for all else.", "quantifier": "all worlds, states, providers with any number of chains, all priorities", "why_tests_cant": "With one chain per provider, as in tests, every choice is the same.", "anchors": ["src/fedservice/appclient/stand_alone_client_entity.py"]}
{"id": "C122", "title": "configured provider metadata is used as it is", "statement": "Provider metadata that is configured is used without asking the federation: every service whose endpoint is in it uses that one, the others keep theirs, and keys are loaded for the client's issuer or from the configured address only. With nothing but an issuer configured, that issuer is the provider asked for.", "quantifier": "all configurations, services, states", "why_tests_cant": "Tests use one configuration; that no endpoint is mixed up needs all.", "anchors": ["src/fedservice/appclient/stand_alone_client_entity.py"]}
{"id": "C123", "title": "an authentication request has a response type", "statement": "The response type of an authentication request is the one asked for, or one the client is registered with (code, if that is one of them).", "quantifier": "all registered response types, all request arguments", "why_tests_cant": "Other arguments, empty arguments and missing arguments take different branches.", "anchors": ["src/fedservice/appclient/stand_alone_client_entity.py"]}
{"id": "C124", "title": "responses come in a supported mode", "statement": "If a client supports certain response modes only, the response comes in one of them: the mode asked for, or the default for the response type, or the first that is supported; an unsupported mode is refused.", "quantifier": "all lists of supported modes, all response types and requested modes, any table of defaults", "why_tests_cant": "A default mode that is not supported shows only for some pairs of type and list.", "anchors": ["src/fedservice/appclient/stand_alone_client_entity.py"]}
{"id": "C125", "title": "the order of response type words does not matter", "statement": "The response mode is the same for response types that list the same words in another order.", "quantifier": "all response types, all supported lists, all requested modes", "why_tests_cant": "Tests write the words in one order.", "anchors": ["src/fedservice/appclient/stand_alone_client_entity.py"]}
{"id": "C126", "title": "what an authentication request is made of", "statement": "Arguments given go before configured ones and these before the defaults; the state is the new one and is remembered with the provider; the nonce sent is the one by which the answer will be recognised.", "quantifier": "all arguments, configurations, states", "why_tests_cant": "Which argument wins has to be known for every argument, including those the client sets itself.", "anchors": ["src/fedservice/appclient/stand_alone_client_entity.py"]}
{"id": "C127", "title": "responses belong to an authentication that was begun", "statement": "Whatever happened before, an authorization response that is accepted and is not an error belongs to an authentication that was begun at this provider, and each authentication is finished only once.", "quantifier": "all histories of begun and finished authentications, all responses", "why_tests_cant": "Statement about all interleavings of sessions, including replays and responses to sessions of others.", "anchors": ["src/fedservice/appclient/stand_alone_client_entity.py"]}
{"id": "C128", "title": "a verified ID Token is not lost", "statement": "An ID Token that came with the authorization response is handed on, whatever the response type and whether or not tokens are collected as well.", "quantifier": "all response types, responses and token responses", "why_tests_cant": "Each test uses one response type; the combinations with collecting tokens are not tried.", "anchors": ["src/fedservice/appclient/stand_alone_client_entity.py"]}
{"id": "C129", "title": "expired tokens are not used", "statement": "An access token is handed out exactly if there is one stored that has no expiry or expires later than now, and a user counts as authenticated exactly as long as the stored ID Token has not expired.", "quantifier": "all times and stored sessions", "why_tests_cant": "The boundary and missing or zero expiry times need all cases.", "anchors": ["src/fedservice/appclient/stand_alone_client_entity.py"]}
{"id": "C130", "title": "only successful responses change a client", "statement": "A client's state is changed only by what was in a successful HTTP response: a message that parsed in the format given or expected (or the text, if HTML is expected). Redirections, errors and failures change nothing.", "quantifier": "all HTTP responses (status, content type, text), all services and expected formats, both kinds of client", "why_tests_cant": "Tests try a few status codes and bodies; the branches depend on status, content type and on which exceptions parsing raises.", "anchors": ["src/fedservice/appclient/__init__.py:ClientEntity.service_request", "src/fedservice/appclient/__init__.py:ClientEntity.parse_request_response", "src/fedservice/entity/client/__init__.py:FederationClient.service_request", "src/fedservice/entity/client/__init__.py:FederationClient.get_response"]}
{"id": "C131", "title": "the error of a provider reaches the caller", "statement": "If a provider answers with an error in JSON, the caller gets that error; in any case the text and the fact that it is an error.", "quantifier": "all error responses with status 400 to 499, all services", "why_tests_cant": "The mix-up of content types and format names shows only where a test looks into the error message.", "anchors": ["src/fedservice/appclient/__init__.py:ClientEntity.service_request", "src/fedservice/appclient/__init__.py:ClientEntity.parse_request_response", "src/fedservice/entity/client/__init__.py:FederationClient.service_request", "src/fedservice/entity/client/__init__.py:FederationClient.get_response"]}
{"id": "C132", "title": "metadata claims are looked up in the order asked for", "statement": "A claim of the server's metadata is found if and only if one of the entity types asked for has it, and the value is that of the first which has.", "quantifier": "all metadata, claims and lists of types", "why_tests_cant": "Values such as false and the order of types matter.", "anchors": ["src/fedservice/entity/client/__init__.py:FederationServiceContext.get_metadata_claim"]}
{"id": "C133", "title": "a federation of this software resolves itself", "statement": "If all members of a federation run this software, their authorities have registered their keys, and every way up ends at an anchor the client trusts, then a client running this software finds exactly one chain for each way up from a member to an anchor, and resolves the metadata the member declares, whatever was asked of the servers and collected by the client before.", "quantifier": "all federations, registries, policies and constraints that the declared metadata satisfies; all histories of requests to the servers and of collections by the client", "why_tests_cant": "Tests run one small federation with one topology from empty caches; the claim joins server and client code over all federations and histories.", "anchors": ["src/fedservice/entity/server/entity_configuration.py:EntityConfiguration.process_request", "src/fedservice/entity/server/fetch.py:Fetch.process_request", "src/fedservice/entity/function/trust_chain_collector.py:TrustChainCollector", "src/fedservice/entity/function/verifier.py:TrustChainVerifier", "src/fedservice/entity/utils.py:get_verified_trust_chains"]}
{"id": "C134", "title": "trust anchors stay with the entity they were given to", "statement": "An entity has keys only for itself and for the trust anchors it was made with or given later, and lists no other trust anchors, whatever other entities the process makes and gives anchors to.", "quantifier": "all programs that make entities, with or without anchors in either place, and add anchors to them, in any order", "why_tests_cant": "Whether default values are shared shows only when entities are made after others were changed, in one process; tests make their entities from fresh fixtures.", "anchors": ["src/fedservice/utils.py:make_federation_entity", "src/fedservice/build_entity.py:FederationEntityBuilder", "src/fedservice/defaults.py:FEDERATION_ENTITY_FUNCTIONS", "src/fedservice/entity/function/trust_chain_collector.py:TrustChainCollector.__init__", "src/fedservice/entity/function/trust_chain_collector.py:TrustChainCollector.add_trust_anchor", "src/fedservice/entity/__init__.py:FederationEntity.add_trust_anchor"]}
{"id": "C135", "title": "trust anchors given to an entity have effect", "statement": "The keys of every trust anchor an entity is made with or given later can be used for verification from then on, and the anchor is listed among its trust anchors.", "quantifier": "all programs that make entities and add anchors to them, in any order", "why_tests_cant": "There are two places to give anchors in and one to add them later; tests use one at a time.", "anchors": ["src/fedservice/utils.py:make_federation_entity", "src/fedservice/entity/function/trust_chain_collector.py:TrustChainCollector.__init__", "src/fedservice/entity/__init__.py:FederationEntity.add_trust_anchor"]}
{"id": "C136", "title": "settings of an entity do not reach others", "statement": "An entity made with a clock tolerance in the settings of its collector uses it; one made without uses the default.", "quantifier": "all programs that make entities, in any order", "why_tests_cant": "Depends on the order in which entities are made in one process.", "anchors": ["src/fedservice/build_entity.py:FederationEntityBuilder", "src/fedservice/defaults.py:FEDERATION_ENTITY_FUNCTIONS", "src/fedservice/utils.py:make_federation_entity"]}
{"id": "C137", "title": "values in files are read wherever they are named", "statement": "After a configuration is loaded, every place that named a file (file:...) holds the content of that file (parsed, if it is JSON; nothing, if there is no such file).", "quantifier": "all configurations of any depth, all places in them, all contents of the file system", "why_tests_cant": "Configurations nest without bound; tests load one example.", "anchors": ["src/fedservice/utils.py:load_values_from_file", "src/fedservice/utils.py:_import"]}
{"id": "C138", "title": "loading values from files changes nothing else", "statement": "Places of a configuration on the way to which no file is named hold after loading what they held before; and loading succeeds if every file that exists can be used.", "quantifier": "all configurations of any depth, all places in them, all contents of the file system", "why_tests_cant": "Configurations nest without bound; tests load one example.", "anchors": ["src/fedservice/utils.py:load_values_from_file", "src/fedservice/utils.py:_import"]}
{"id": "C139", "title": "an entity has the services, functions and endpoints asked for", "statement": "An entity has exactly the services, functions and endpoints it was made with: those named or specified, none if none are named, and the default ones if nothing is said.", "quantifier": "all ways to name or specify items of the three kinds, all states of the process", "why_tests_cant": "The combinations of named, specified, empty and missing lists for three kinds, with known and unknown names, are not bounded by a table.", "anchors": ["src/fedservice/utils.py:build_entity_config", "src/fedservice/build_entity.py:FederationEntityBuilder", "src/fedservice/defaults.py:federation_services", "src/fedservice/defaults.py:federation_functions", "src/fedservice/defaults.py:federation_endpoints"]}
{"id": "C140", "title": "items have the settings given for them", "statement": "A service, function or endpoint of an entity has the settings given for it when the entity was made, and else those of its specification or of the library, whatever entities were made before.", "quantifier": "all histories of entities made in one process, all settings", "why_tests_cant": "Whether settings leak into the defaults shows only for later entities in the same process; histories are unbounded.", "anchors": ["src/fedservice/utils.py:build_entity_config", "src/fedservice/build_entity.py:FederationEntityBuilder", "src/fedservice/defaults.py:SERVICES", "src/fedservice/defaults.py:FEDERATION_ENTITY_FUNCTIONS", "src/fedservice/defaults.py:FEDERATION_ENDPOINTS"]}
{"id": "C141", "title": "the question for the status of a trust mark reaches the endpoint it is meant for", "statement": "A client asking for the status of a trust mark sends the question to the endpoint it was given, the question names the mark (or its subject and id), and an issuer running this software answers exactly that question.", "quantifier": "all arguments of the request, all endpoints, all issuers and what they have issued", "why_tests_cant": "The request mixes caller arguments, defaults and content of an unverified token; tests use one of the ways to ask.", "anchors": ["src/fedservice/entity/client/trust_mark_status.py:TrustMarkStatus.get_request_parameters", "src/fedservice/trust_mark_entity/server/trust_mark_status.py:TrustMarkStatus.process_request"]}
{"id": "C142", "title": "trust marks issued by this software are accepted by this software", "statement": "A trust mark issued by a member of a federation, signed with its published key and not expired, is accepted by whoever verifies it; if the issuer is asked, it is accepted exactly as long as the issuer has such a mark on record that has not expired. For every mark there is a verdict.", "quantifier": "all federations of this software, all histories of issuing and of earlier resolutions, all times", "why_tests_cant": "It involves federations of any shape, histories of requests and two passes of resolution with growing caches and key jars; tests run one federation once.", "anchors": ["src/fedservice/entity/__init__.py:FederationEntity.verify_trust_mark", "src/fedservice/entity/function/trust_mark_verifier.py:TrustMarkVerifier.__call__", "src/fedservice/trust_mark_entity/entity.py:TrustMarkEntity.create_trust_mark", "src/fedservice/trust_mark_entity/server/trust_mark_status.py:TrustMarkStatus.process_request", "src/fedservice/entity/client/trust_mark_status.py:TrustMarkStatus.get_request_parameters"]}
{"id": "C143", "title": "asking who has a trust mark", "statement": "A client that asks an issuer who has been given a trust mark, or whether a subject has, is told what the issuer has to say about just that.", "quantifier": "all arguments of the request, all issuers and histories of issuing", "why_tests_cant": "What is dropped on the way from the client to the endpoint shows only when both are combined over all arguments and histories.", "anchors": ["src/fedservice/entity/client/trust_mark_list.py:TrustMarkList.get_request_parameters", "src/fedservice/trust_mark_entity/server/trust_mark_list.py:TrustMarkList.process_request"]}
{"id": "C144", "title": "asking an authority for a statement", "statement": "A client that asks for the statement of an authority about a subject sends the request to the fetch endpoint in the configuration of that authority, cached or not, and gets the statement about the subject, with the keys registered for it, or an error.", "quantifier": "all issuers and subjects, all contents of the configuration cache, all times, all registries", "why_tests_cant": "Cache contents and times are unbounded; tests use fresh caches and name both issuer and subject.", "anchors": ["src/fedservice/entity/client/entity_statement.py:EntityStatement.get_request_parameters", "src/fedservice/entity/server/fetch.py:Fetch.process_request"]}
{"id": "C145", "title": "asking an authority for its subordinates", "statement": "A client that asks an authority for all its subordinates, for those of an entity type, or for the intermediates, is told exactly those that are registered so.", "quantifier": "all registries whose entries have a list of entity types, all arguments that ask for one thing", "why_tests_cant": "Registries are unbounded, and the request is made in one place and read in another.", "anchors": ["src/fedservice/entity/client/list.py:List.get_request_parameters", "src/fedservice/entity/server/list.py:List.process_request"]}
{"id": "C146", "title": "a directory publishes the configurations its files describe", "statement": "For an entity with keys in the directory, the publisher serves an entity configuration issued by and about that entity, with the metadata and authority hints of its files and its public keys, signed with its keys.", "quantifier": "all directories, all host names, all times", "why_tests_cant": "Tests read one directory with seven entities, none of whose names is unusual.", "anchors": ["src/fedservice/fetch_entity_statement/fs2.py:FSPublisher.get", "src/fedservice/fetch_entity_statement/fs2.py:FSFetchEntityStatement.gather_info", "src/fedservice/fetch_entity_statement/__init__.py:FetchEntityStatement.create_entity_statement"]}
{"id": "C147", "title": "statements made from a directory say what its files say", "statement": "A statement made for an issuer and a subject with keys in the directory names both, has the policy, constraints, metadata and hints of the files or given by the caller, the public keys the directory has for the subject at that time, and is signed with keys of the issuer, whatever was asked of the same object before.", "quantifier": "all directories, all names, all additional claims, all histories of earlier requests, successful or not", "why_tests_cant": "The object remembers keys between requests; tests make one statement per object.", "anchors": ["src/fedservice/fetch_entity_statement/fs2.py:FSFetchEntityStatement.gather_info", "src/fedservice/fetch_entity_statement/fs2.py:FSFetchEntityStatement.load_jwks", "src/fedservice/fetch_entity_statement/__init__.py:FetchEntityStatement.create_entity_statement"]}
{"id": "C148", "title": "a directory answers fetch requests in the name of the authority asked", "statement": "A fetch request for a subject, sent to the publisher under the host name of an authority, is answered with the statement of that authority about the subject.", "quantifier": "all directories, all authorities and subjects, all paths", "why_tests_cant": "No test fetches a statement through the publisher; the claim is about all pairs of names.", "anchors": ["src/fedservice/fetch_entity_statement/fs2.py:FSPublisher.get", "src/fedservice/fetch_entity_statement/fs2.py:FSPublisher._create_entity_statement"]}
{"id": "C149", "title": "authority hints and trust marks are published however they are given", "statement": "An entity given authority hints and trust marks as lists, as names of files or as functions publishes a configuration by and about itself with just these.", "quantifier": "all ways to give them, all contents, all metadata, all times", "why_tests_cant": "Three ways for two settings, read in different places; tests give lists.", "anchors": ["src/fedservice/entity/context.py:FederationContext.get_authority_hints", "src/fedservice/entity/context.py:FederationContext.get_trust_marks", "src/fedservice/entity/server/entity_configuration.py:EntityConfiguration.process_request"]}
{"id": "C150", "title": "the answer to an explicit registration is about the client", "statement": "The statement a provider answers an explicit registration with names provider, client, audience and trust anchor and has the registered metadata, and says nothing about the client that is about the provider, such as its keys or trust marks.", "quantifier": "all providers, clients, anchors and metadata, both kinds of server", "why_tests_cant": "Tests use providers without trust marks and do not compare keys.", "anchors": ["src/fedservice/entity/context.py:FederationContext.create_entity_statement", "src/fedservice/appserver/oidc/registration.py:Registration.process_request", "src/fedservice/appserver/oauth2/registration.py:Registration.process_request"]}
{"id": "C151", "title": "self-signed trust marks are published while they are valid", "statement": "An entity can make each self-signed trust mark it has a specification for; the mark is by and about the entity, and the configuration of the entity has it, whatever marks are made afterwards, until it expires and not longer.", "quantifier": "all entities, specifications and additional claims, all later histories and times", "why_tests_cant": "It is about all later histories and all times; a test makes one mark and looks at once.", "anchors": ["src/fedservice/trust_mark_entity/entity.py:SelfSignedTrustMarkEntity.__call__", "src/fedservice/entity/server/entity_configuration.py:EntityConfiguration.process_request"]}
{"id": "C152", "title": "the statements reported with a resolved chain are those that were signed", "statement": "After an entity has been resolved, the verified statements of the trust chain are the contents of the signed documents the chain consists of. What the policies of the superiors make of the metadata is reported separately, as the metadata of the chain.", "quantifier": "all chains, keys, policies and metadata", "why_tests_cant": "A change made in passing shows only for the combinations of policies and metadata a test happens to use, and only if the test looks at the statements again afterwards.", "anchors": ["src/fedservice/entity/function/policy.py:TrustChainPolicy.apply_policy", "src/fedservice/entity/function/policy.py:TrustChainPolicy.__call__", "src/fedservice/entity_statement/statement.py:TrustChain"]}
{"id": "C153", "title": "a statement made in the context of an entity says what it was given", "statement": "A statement made in the context of an entity has the metadata, keys, lifetime, trust marks and authority hints it is given, as far as they are given; the rest is what the entity is configured with, and issuer and subject are those given.", "quantifier": "all entities, all configurations of hints, trust marks, lifetime and keys, all arguments", "why_tests_cant": "Which argument wins over which configured value is a matter of all combinations of both; tests try a few of them.", "anchors": ["src/fedservice/entity/context.py:FederationContext.create_entity_statement"]}
{"id": "C154", "title": "the keys recorded for a client are those it registered", "statement": "After a successful registration the keys the server has on record for the client are those the registered metadata names, by signed_jwks_uri, jwks_uri or jwks, and the secret it has been given; no keys from earlier, and no other client is affected.", "quantifier": "all servers, all key records from earlier, all registration requests", "why_tests_cant": "Keys that should no longer count show only after a history of registrations, and a source that is not read shows only when something signed with those keys arrives.", "anchors": ["src/fedservice/appserver/__init__.py:import_client_keys", "src/fedservice/appserver/oauth2/registration.py:Registration.do_client_registration", "src/fedservice/appserver/oauth2/registration.py:Registration.client_registration_setup"]}
{"id": "C155", "title": "a client keeps the registration it accepted", "statement": "A registration response that a client accepts is what it keeps as its registration; after a response that it refuses it still has the registration it had.", "quantifier": "all worlds, states, responses and kinds of client", "why_tests_cant": "Tests look at the value returned for one good response; what is kept after any refusal, at whatever step, is a statement about all of them.", "anchors": ["src/fedservice/appclient/oidc/registration.py:Registration.parse_response", "src/fedservice/appclient/oidc/registration.py:Registration.parse_federation_registration_response", "src/fedservice/appclient/oauth2/registration.py:Registration.parse_federation_registration_response"]}
{"id": "C156", "title": "an entity publishes all its roles", "statement": "An entity with several roles publishes a configuration whenever its authority hints can be read. The configuration has, for each role and under its entity type, the metadata of that role (with the entity's identifier as the issuer where it has one), and no other metadata.", "quantifier": "all combinations of roles, all metadata of each", "why_tests_cant": "Tests publish one or two fixed combinations.", "anchors": ["src/fedservice/combo/__init__.py:FederationCombo.get_metadata", "src/fedservice/appserver/__init__.py:ServerEntity.get_metadata", "src/fedservice/appclient/__init__.py:ClientEntity.get_metadata", "src/fedservice/entity/server/entity_configuration.py:EntityConfiguration.process_request", "src/fedservice/appclient/oauth2/registration.py:Registration.create_entity_statement"]}
{"id": "C157", "title": "what an entity is set up to say about trust marks is published", "statement": "The issuers and owners of trust marks that a trust anchor is set up with are in the metadata it publishes, where others look for them; so are its trust marks and authority hints in the configuration.", "quantifier": "all arguments with which an entity can be made", "why_tests_cant": "Tests give these as preferences; that each of the ways to give them works for any value is not something a few cases show.", "anchors": ["src/fedservice/utils.py:make_federation_combo", "src/fedservice/entity/__init__.py:FederationEntity.get_metadata", "src/fedservice/entity/server/entity_configuration.py:EntityConfiguration.process_request"]}
{"id": "C158", "title": "the settings of an entity have their effect", "statement": "An entity made with an order of preference among trust anchors picks chains by that order, one made with a default lifetime issues statements that live that long, and one made with trust marks or authority hints states them.", "quantifier": "all settings, all lists of chains, all statements", "why_tests_cant": "In test federations there is one trust anchor and the defaults are used, so that lost settings do not show.", "anchors": ["src/fedservice/entity/__init__.py:FederationEntity.__init__", "src/fedservice/entity/context.py:FederationContext.__init__", "src/fedservice/entity/client/__init__.py:FederationServiceContext.__init__", "src/fedservice/entity/__init__.py:FederationEntity.pick_trust_chain"]}
{"id": "C159", "title": "the collector goes by configurations in force", "statement": "The fetch endpoint at which the collector asks an authority, and the authority hints it follows from there, are from a configuration of that authority that has not expired, or from the one it publishes now, also when the client of the same entity has asked for configurations before.", "quantifier": "all histories of questions of client and collector, all configurations published at any time, all times", "why_tests_cant": "Client and collector share a cache but put different kinds of object in it; it takes a client's question, a long time and a changed configuration for the difference to show.", "anchors": ["src/fedservice/entity/client/entity_configuration.py:EntityConfiguration.post_parse_response", "src/fedservice/entity_statement/cache.py:ESCache.__getitem__", "src/fedservice/entity/function/trust_chain_collector.py:TrustChainCollector.get_federation_fetch_endpoint", "src/fedservice/entity/function/trust_chain_collector.py:TrustChainCollector.collect_branch"]}
{"id": "C160", "title": "what an authority registers takes effect on everything resolved through it", "statement": "If an authority has registered a metadata policy or naming constraints for a subordinate, or a policy for a type of entity the subordinate is registered as, then the metadata of every entity resolved through that subordinate meets the policy, and its name keeps to the constraints. Servers and clients are those of this software.", "quantifier": "all federations of any size whose members run this software, all registries and policies, all earlier requests and collections, all entities", "why_tests_cant": "Fetch endpoint, collector, verifier and policy engine are tested one by one, or together for a single fixed federation.", "anchors": ["src/fedservice/entity/server/fetch.py:Fetch.process_request", "src/fedservice/entity/function/__init__.py:apply_policies", "src/fedservice/entity/function/policy.py:TrustChainPolicy", "src/fedservice/entity/function/verifier.py:TrustChainVerifier"]}
{"id": "C161", "title": "the who endpoint looks for what it was set up to look for", "statement": "A who endpoint that is asked without criteria answers as if the entity type, the credential type and the trust mark it was set up with had been in the request; criteria in the request take precedence over the settings.", "quantifier": "all federations, all settings given or left out, all states of the entity", "why_tests_cant": "Equality of answers for all settings and federations; tests use one set of settings.", "anchors": ["src/fedservice/entity/server/who.py:Who.__init__", "src/fedservice/entity/server/who.py:Who.process_request"]}
{"id": "C162", "title": "authorization responses name the trust anchor used", "statement": "The authorization response to a client that was registered automatically by its request names, as trust_anchor_id, the trust anchor of a trust chain the client was registered through; for other clients it names the trust anchor of the first trust chain kept for the client, if any. Nothing else in the response is affected, and no trust anchor is named that is not one of a trust chain kept for the client.", "quantifier": "all three authorization endpoints, all federations, client databases, requests with or without trust chains, responses", "why_tests_cant": "Ties the response to the chain used for the registration, for all federations and endpoints; tests look at one endpoint with one chain.", "anchors": ["src/fedservice/appserver/oidc/authorization.py:Authorization.extra_response_args", "src/fedservice/appserver/oauth2/authorization.py:Authorization.extra_response_args", "src/fedservice/appserver/oauth2/pushed_authorization.py:PushedAuthorization.extra_response_args"]}
{"id": "C163", "title": "registration responses are valid as to the client secret", "statement": "The response to a registration passes the check of its own message class: it has a client id, and if it has a client secret it says when that expires. The client secret in it is recorded as a key of the client.", "quantifier": "all registration requests, client databases and server settings", "why_tests_cant": "The settings and the members of the request that break it are not in the tests; the claim is about all of them.", "anchors": ["src/fedservice/message.py:OauthClientInformationResponse.verify", "src/fedservice/appserver/oauth2/registration.py:Registration.add_client_secret", "src/fedservice/appserver/oauth2/registration.py:Registration.client_registration_setup"]}
{"id": "C164", "title": "a combination hands its settings to its parts", "statement": "Each part of a combination of entities is made with the parameters for HTTP requests (such as how TLS certificates are checked) and the entity id that the combination was given, unless the specification of the part has its own. The same holds for a second combination made from the same configuration with other parameters.", "quantifier": "all configurations, all parameters, given as argument, in the configuration or for the federation entity", "why_tests_cant": "A test has one configuration; the parts left out are those specified in an unusual form, and the change of the configuration shows only when it is used again.", "anchors": ["src/fedservice/combo/__init__.py:Combo.__init__", "src/fedservice/combo/__init__.py:Combo._add_httpc_params", "src/fedservice/combo/__init__.py:FederationCombo._get_httpc_params"]}
{"id": "C165", "title": "finishing an authentication gives the caller the tokens", "statement": "If the authorization response is accepted, the tokens are obtained and the user information, where there is a userinfo service, is given, then the caller is given these tokens, the user information and the state. What the caller is given belongs to a session that was begun at the provider expected; the subject leads to that session afterwards; the user information was given by the provider for the access token the caller is given.", "quantifier": "all clients, providers, sessions, responses, response types", "why_tests_cant": "About every combination of response type, services and answers of the provider; tests run a flow or two with an ID Token.", "anchors": ["src/fedservice/appclient/stand_alone_client_entity.py:StandAloneClientEntity.finalize", "src/fedservice/appclient/stand_alone_client_entity.py:StandAloneClientEntity.get_tokens", "src/fedservice/appclient/stand_alone_client_entity.py:StandAloneClientEntity.userinfo_in_id_token"]}
{"id": "C166", "title": "an authorization response does not change what was asked for", "statement": "Tokens are got in the way that was asked for: if a session was begun with a response type that has code and not token, the access token comes from the token endpoint, in answer to a request with the redirect URI of the session, whatever members the authorization response has. Other sessions are not affected by it.", "quantifier": "all sessions, authorization responses with any members, providers", "why_tests_cant": "The members an attacker may add to a response are not in the tests.", "anchors": ["src/fedservice/appclient/stand_alone_client_entity.py:StandAloneClientEntity.finalize_auth", "src/fedservice/appclient/stand_alone_client_entity.py:StandAloneClientEntity.get_access_and_id_token", "src/fedservice/appclient/stand_alone_client_entity.py:StandAloneClientEntity.get_tokens"]}
{"id": "C167", "title": "the server knows the client that asks for tokens", "statement": "After a registration, explicit or automatic, the server knows the client under the client id that the client names in its token requests.", "quantifier": "all federations, clients, registration requests, servers with or without new client ids", "why_tests_cant": "Joins registration at the server with what the client sends later; tests of the two sides are separate.", "anchors": ["src/fedservice/appclient/stand_alone_client_entity.py:StandAloneClientEntity.get_tokens", "src/fedservice/appclient/__init__.py:ClientEntity.get_client_id", "src/fedservice/appserver/oauth2/registration.py:Registration.process_request"]}
{"id": "C168", "title": "requests for trust marks go to the endpoint the issuer states", "statement": "In a federation whose members run this software and see to their duties, the request for a trust mark goes to the trust mark endpoint that the issuer states in its metadata, and other endpoints an entity states are found likewise. In any federation, an endpoint for trust marks is one stated in the metadata of a trust chain that was verified for the issuer.", "quantifier": "all well run federations, all members including trust anchors, all histories of earlier requests; for the second part all federations", "why_tests_cant": "The endpoint is the result of collection, verification and policies in a federation of any shape; tests have a fixed one, in which the issuer is no trust anchor.", "anchors": ["src/fedservice/entity/client/trust_mark.py:TrustMark.get_endpoint", "src/fedservice/entity/function/__init__.py:get_entity_endpoint"]}
{"id": "C169", "title": "a client is made as the kind of client its configuration says", "statement": "A client is of the kind (OpenID or OAuth2) that is stated as client type, else that of its entity type, else OpenID, the configuration taking precedence over arguments; as a part of a combination it is of the kind the name of the part says. A client for which no services are given has the default services of its kind; services that are given are used.", "quantifier": "all arguments and configurations, all combinations", "why_tests_cant": "There are many ways to state the kind, which are used together; tests use one or two and always state services for OAuth2 clients.", "anchors": ["src/fedservice/appclient/__init__.py:ClientEntity.__init__"]}
{"id": "C170", "title": "a server is made as the kind its configuration says, with its entity id as issuer", "statement": "A server whose kind and entity id are given, as arguments or in the configuration, is made as that kind, with the metadata schema of that kind, and its endpoints are below its entity id, which is its issuer. A ready made configuration is used as it is, and refused if it is of another kind.", "quantifier": "all arguments and configurations, all combinations", "why_tests_cant": "Depends on where the values are given; tests give them as arguments through a combination.", "anchors": ["src/fedservice/appserver/__init__.py:ServerEntity.__init__", "src/fedservice/server.py:ServerUnit.__init__"]}
{"id": "C171", "title": "keys kept by a combination serve its federation entity", "statement": "Whether a federation entity keeps its keys and trust anchors itself or the combination it is a part of keeps them, it accepts the same trust chains: those that start at an entity whose keys are held and whose signatures verify with keys held.", "quantifier": "all distributions of keys over a combination, its federation entity and the parts of that, all trust chains", "why_tests_cant": "Which key jar is used depends on which of the units have one and whether it is empty; tests keep all keys with the federation entity.", "anchors": ["src/fedservice/entity/__init__.py:FederationEntity.get_attribute", "src/fedservice/combo/__init__.py:FederationCombo.get_attribute", "src/fedservice/entity/function/verifier.py:TrustChainVerifier.trusted_anchor", "src/fedservice/entity/function/verifier.py:TrustChainVerifier.verify_trust_chain"]}
{"id": "C172", "title": "what an entity signs is signed with the keys it publishes", "statement": "Resolve responses, statements about subordinates, registration requests and trust marks of an entity are signed with the keys that its entity configuration is signed with and states.", "quantifier": "all distributions of keys over a combination, its federation entity and the parts of that, all kinds of documents", "why_tests_cant": "The places where documents are signed look for the keys in different ways, which agree in the configurations tests use.", "anchors": ["src/fedservice/entity/server/entity_configuration.py:EntityConfiguration.process_request", "src/fedservice/entity/server/fetch.py:Fetch.process_request", "src/fedservice/entity/server/resolve.py:Resolve.process_request", "src/fedservice/trust_mark_entity/entity.py:TrustMarkEntity.create_trust_mark"]}
{"id": "C173", "title": "a session that is ended is over", "statement": "Logging out of a session gives the request that the end-session service makes for it, or an error saying that the client does not know how to log out. After a session was closed or cleared no token of it is handed out, its user does not count as authenticated and no response is accepted in it, until it is begun again; other sessions are left as they are.", "quantifier": "all clients, sessions, and all histories of what an application does afterwards", "why_tests_cant": "Tests would close one session and look once; that a session never comes back concerns every later sequence of requests and late responses.", "anchors": ["src/fedservice/appclient/stand_alone_client_entity.py: logout", "src/fedservice/appclient/stand_alone_client_entity.py: close", "src/fedservice/appclient/stand_alone_client_entity.py: clear_session", "src/fedservice/appclient/__init__.py: get_service"]}
{"id": "C174", "title": "every part finds the federation entity it belongs to", "statement": "Whatever part of an entity is asked (an endpoint, a service, a function, however deeply nested), looking for the federation entity gives the nearest one above it, or the one of the combination it is in, and None if there is none.", "quantifier": "all nestings of units of any depth", "why_tests_cant": "Tests try the few set-ups they build; the nesting is unbounded and combinations of parts are free.", "anchors": ["src/fedservice/entity/utils.py: get_federation_entity", "src/fedservice/combo/__init__.py: get", "src/fedservice/appserver/__init__.py: get_guise"]}
{"id": "C175", "title": "settings in a context reach the services", "statement": "A service of the client of a federation entity that asks for an attribute of the context gets the value set in the context of the client, or else the one set in the context of the entity, or else the one of the unit above.", "quantifier": "all contexts, attributes and values", "why_tests_cant": "Tests ask for one attribute from the level of the entity; the result depends on which of the contexts has a value.", "anchors": ["src/fedservice/entity/client/__init__.py: get_context_attribute", "src/fedservice/entity/__init__.py: get_context_attribute"]}
{"id": "C176", "title": "metadata applied to a combination is what its parts go by", "statement": "After provider metadata resolved from a trust chain was applied to a combination, every part of it finds the claims of that metadata, and nothing of what was applied before.", "quantifier": "all combinations, all sequences of metadata applied, all claims and entity types", "why_tests_cant": "It concerns every kind of part and any history of metadata; no test calls it.", "anchors": ["src/fedservice/combo/__init__.py: apply_metadata", "src/fedservice/entity/client/__init__.py: get_metadata_claim"]}
{"id": "C177", "title": "Clients and servers of this software agree on how requests are authenticated", "statement": "An unregistered client that is configured to use endpoints a server of this software states authentication methods for, that is able to push requests and that knows the location of the authorization endpoint, gets its authorization request made, and the request is either signed or pushed. In the code this fails: servers state the methods for pushed requests under pushed_authorization_request_endpoint, and clients know the endpoint as pushed_authorization_endpoint only. Configured with the former the client fails, configured with the latter it sends the plain request; there is no configuration with which it pushes.", "quantifier": "for all servers stating methods under the names of endpoints of this software, all client configurations, all requests and client states", "why_tests_cant": "The tests configure both sides by hand and always name the authorization endpoint first, so the second name is never looked up; that no configuration works is a statement about all of them.", "anchors": ["src/fedservice/entity/claims.py:OPClaims", "src/fedservice/entity/claims.py:ASClaims", "src/fedservice/appserver/oidc/authorization.py:Authorization", "src/fedservice/appserver/oauth2/authorization.py:Authorization", "src/fedservice/appserver/oauth2/pushed_authorization.py:PushedAuthorization", "src/fedservice/appclient/oauth2/authorization.py:Authorization", "src/fedservice/appclient/oidc/authorization.py:Authorization"]}
{"id": "C178", "title": "a client and a provider of this software register with each other", "statement": "In a federation run with this software, an OpenID client that sends a provider its registration request gets an answer the client takes: the provider verifies the request, finds the chains of the client, registers it and answers with a signed statement naming the trust anchor; the client verifies the answer, applies the policies above itself, and then has as its registration what the provider said (for claims with a policy: what the policy allows, which is what was said). In the code this fails for a client with more than one way up to the trust anchor: it refuses every answer with SystemError.", "quantifier": "for all federations kept as C133 requires, all members that are clients and providers in it, all metadata asked for and granted, all earlier collections of both, all times within the lifetimes of the statements", "why_tests_cant": "Tests register one client with one provider in one fixed federation; that registering works for every federation, every history of the caches and every granted metadata, and that two authorities always break it, is a statement about all of them.", "anchors": ["src/fedservice/appclient/oidc/registration.py:Registration.create_entity_statement", "src/fedservice/appclient/oidc/registration.py:Registration.parse_federation_registration_response", "src/fedservice/appserver/oidc/registration.py:Registration.process_request", "src/fedservice/entity/context.py:FederationContext.create_entity_statement", "src/fedservice/entity/function/__init__.py:collect_trust_chains", "src/fedservice/entity/function/__init__.py:verify_trust_chains", "src/fedservice/entity/function/__init__.py:apply_policies"]}
{"id": "C179", "title": "an OpenID client registers with its own metadata", "statement": "The request with which an OpenID client registers is a statement of the entity about itself, with its keys, the metadata of the client that registers and the trust marks of the entity. In the code this fails for clients made by a handler: the request says nothing about them, the provider registers the entity as a federation entity, and whatever the provider answers the client does not take it. It also fails for trust marks in a file: the name of the file is sent.", "quantifier": "for all combinations of parts, all clients, contexts, files and times; for the consequence: all providers, registrations and states on both sides", "why_tests_cant": "The tests have a client part in the combination and give trust marks as lists; that a handler's client can never register, whatever the provider does, cannot be shown by trying providers.", "anchors": ["src/fedservice/appclient/oidc/registration.py:Registration.create_entity_statement", "src/fedservice/combo/__init__.py:FederationCombo.get_metadata", "src/fedservice/appserver/oidc/registration.py:Registration.process_request", "src/fedservice/entity/context.py:FederationContext.get_trust_marks"]}
{"id": "C180", "title": "registering does not mix the keys of client and provider", "statement": "What an OpenID client adds to its key jar by taking a registration response are, for every entity, keys that an authority above the client or the provider states for that entity. In the code this fails: every time a response is taken, the keys in it, which are those of the provider, are added as keys of its subject, which is the client itself, so that statements in the client's name signed by the provider verify from then on. For all other entities it holds.", "quantifier": "for all clients, key jars, caches, federations and responses that are taken", "why_tests_cant": "The tests look at the metadata a registration results in, not at the key jar; that the keys are mixed up in every registration is a statement about all of them.", "anchors": ["src/fedservice/appclient/oidc/registration.py:Registration.parse_federation_registration_response", "src/fedservice/entity/function/verifier.py:TrustChainVerifier.verify_trust_chain", "src/fedservice/appserver/oidc/registration.py:Registration.process_request"]}
{"id": "C181", "title": "a client uses what it is registered with", "statement": "A client that has taken the response to its registration sends the client id and the client secret that the response gives it in its token requests.", "quantifier": "all combinations of parts, all responses, all ways of making registered values from preferences, all sessions", "why_tests_cant": "Tests look at the response and not at the requests afterwards, and with a provider that takes the entity id as client id nothing is seen.", "anchors": ["src/fedservice/appclient/oauth2/registration.py:Registration.update_service_context", "src/fedservice/appclient/__init__.py:ClientEntity.get_client_id", "src/fedservice/appclient/stand_alone_client_entity.py:get_tokens", "src/fedservice/appserver/oauth2/registration.py:step2_process_request"]}
{"id": "C182", "title": "an entity is found by its id", "statement": "Whoever looks for the configuration of an entity that runs this software gets the configuration that entity serves, whichever other entities serve theirs, on the same host or elsewhere; and it is taken from nowhere but the scheme and host in the entity id.", "quantifier": "all sets of entities with http or https ids without query and fragment, served at different addresses; for where it is taken from, all texts with a scheme and a host, and all contents of the web", "why_tests_cant": "Entity ids are texts; tests use ids without paths, or one tenant alone on a host whose other pages do not exist.", "anchors": ["src/fedservice/entity/client/entity_configuration.py:construct_well_known_url", "src/fedservice/entity/client/entity_configuration.py:construct_tenant_well_known_url", "src/fedservice/entity/client/entity_configuration.py:EntityConfiguration.get_request_parameters", "src/fedservice/entity/function/trust_chain_collector.py:TrustChainCollector.get_entity_configuration", "src/fedservice/entity/server/__init__.py:FederationServerEntity"]}
{"id": "C183", "title": "asking a resolver", "statement": "A client that asks a resolver of this software about an entity, an anchor and perhaps an entity type sends the request to the endpoint given, and what is answered is the resolver's statement about that entity, with the metadata, or that of the type asked for, of a chain verified at that time up to that anchor. A request without subject or anchor is not sent.", "quantifier": "all arguments (texts, each name once), all states of the resolver and of the rest of the federation", "why_tests_cant": "The request is made in one place and read in another; federations and states are unbounded.", "anchors": ["src/fedservice/entity/client/resolve.py:Resolve.get_request_parameters", "src/fedservice/message.py:ResolveRequest", "src/fedservice/entity/server/resolve.py:Resolve.process_request"]}
{"id": "C184", "title": "an OAuth client and an authorization server of this software register with each other", "statement": "In a federation run with this software, an OAuth client that sends an authorization server its registration request gets an answer the client takes: the server verifies the request, works out the metadata of the client by following the authorities named in the request and applying their policies, and, if it registers the client with that metadata, answers with a signed statement naming the trust anchor; the client verifies the answer, applies the policies above itself to it, and then has as its registration what the server said (for claims with a policy: what the policy allows), and for the entity types not in the answer what it publishes itself. In the code this fails for a client with more than one way up to a trust anchor: it refuses every answer with SystemError.", "quantifier": "for all federations kept as C133 requires, all members that are clients and authorization servers in it, all metadata asked for, all outcomes of the server's registration, all earlier collections of both, all times within the lifetimes of the statements", "why_tests_cant": "Tests register one client with one server in one fixed federation; that registering works for every federation, every history of the caches and every outcome of the registration, and that two authorities always break it, is a statement about all of them.", "anchors": ["src/fedservice/appclient/oauth2/registration.py:Registration.create_entity_statement", "src/fedservice/appclient/oauth2/registration.py:Registration.parse_federation_registration_response", "src/fedservice/appserver/oauth2/registration.py:Registration.process_request", "src/fedservice/entity/context.py:FederationContext.create_entity_statement", "src/fedservice/entity/function/__init__.py:collect_trust_chains", "src/fedservice/entity/function/__init__.py:verify_trust_chains", "src/fedservice/entity/function/__init__.py:apply_policies"]}
{"id": "C185", "title": "a federation set up with the scripts works", "statement": "If the operators of a federation run get_info.py and add_info.py as command.sh does - for every entity and every authority it names, the information published by the entity is added to the subordinates of the authority; for every client, the keys published by a trust anchor are added to its trust anchors - then, in whichever order the steps are taken and however often: every enrolled entity is known to the authority with the keys, the entity types and the role it publishes; the authority lists exactly those enrolled with it, and as intermediates exactly those that publish a list endpoint; a client trusts exactly the anchors it was told to, with exactly the keys they publish; and a client resolves every member up to a trust anchor and gets at least the metadata the member publishes. An entity that publishes nothing as a federation entity cannot be enrolled. Listing by entity type should give the members of that type; in the code it fails, because the script writes `entity_types` and the list endpoint reads `entity_type`.", "quantifier": "for all federations of entities running this software, all orders and repetitions of the steps that enrol every entity with the authorities it names, all earlier collections by the client, all times within the lifetimes of the statements", "why_tests_cant": "No test runs the scripts. That the pieces written by one program are what other programs need holds or fails for every federation, not for one.", "anchors": ["dc4eu_federation/get_info.py:__main__", "dc4eu_federation/add_info.py:__main__", "dc4eu_federation/command.sh", "src/fedservice/entity/server/fetch.py:Fetch.process_request", "src/fedservice/entity/server/list.py:List.filter", "src/fedservice/entity/function/__init__.py:collect_trust_chains", "src/fedservice/utils.py:make_federation_combo"]}
{"id": "C186", "title": "the tree script shows who is in a federation", "statement": "Given the trust anchor of a federation whose members answer, the script tree.py should come to an end, show everybody below the anchor, complain exactly of those listed by somebody they do not name as authority, and, if asked, say of each whether there is a verified chain to that anchor. In the code what is shown is exactly the entities below the anchor that publish no list endpoint, all on one level: intermediates are never shown, and an entity that lists itself keeps the script from ending. In a federation set up with the scripts the script ends, complains of nobody, and finds for everybody it shows a verified chain to the anchor, given nothing but the keys the anchor publishes.", "quantifier": "for all answers of all entities to requests for their configuration and their subordinates, all trust anchors; for the last part all federations set up as in C185 below one trust anchor", "why_tests_cant": "No test runs the script. What is shown depends on the whole graph of who lists whom, which may be of any size and have cycles.", "anchors": ["script/tree.py:do_subordinates", "script/tree.py:find_trust_chain", "script/tree.py:get_entity_configuration", "src/fedservice/entity/server/list.py:List.process_request", "src/fedservice/entity/function/trust_chain_collector.py:verify_self_signed_signature", "src/fedservice/entity/__init__.py:get_verified_trust_chains"]}
{"id": "C187", "title": "a web front end publishes what the entity is configured with", "statement": "What a web front end answers at /.well-known/openid-federation is a self-signed statement with the id of the entity, its keys, its metadata, the authority hints it is configured with and, if it has any, its trust marks, valid for the lifetime the entity is configured with. The front ends of the examples put the configured attribute for authority hints in as it is, so that an entity whose hints are in a file publishes the name of the file; the others do so if the file says there are none; the front end of the relying party ignores the configured lifetime, and trust marks kept in files.", "quantifier": "for all configurations of entities, contents of files, times", "why_tests_cant": "No test runs the front ends. What is published has to be right for every configuration, with hints and marks given or in files.", "anchors": ["dc4eu_federation/trust_anchor/views.py:wkof", "setup_federation/trust_anchor/views.py:wkof", "edu_federation/relying_party_explicit/views.py:wkof", "example/ta/views.py:wkof", "src/fedservice/entity/context.py:FederationContext.create_entity_statement", "src/fedservice/entity/__init__.py:get_authority_hints"]}
{"id": "C188", "title": "what is asked over HTTP is answered", "statement": "A request that reaches an endpoint through a web front end is answered as the endpoint answers it: what the endpoint refuses, in parsing or processing, is refused with status 400 and the reason, and a request that cannot be parsed changes nothing; an answer with status 200 means that the endpoint took the request; a statement that an authority makes about a subordinate, the list of subordinates, a trust mark, its status, and the response to a registration are sent as they are. The who endpoint should be no exception; in the code it refuses whatever is asked over HTTP, because the front end passes on no trust anchor.", "quantifier": "for all endpoints (parsing, processing and rendering), their states, and all requests", "why_tests_cant": "No test runs the front ends, and the tests call the parts of an endpoint one by one with arguments the front ends never give.", "anchors": ["dc4eu_federation/trust_anchor/views.py:service_endpoint", "dc4eu_federation/trust_anchor/views.py:do_response", "edu_federation/openid_provider/views.py:service_endpoint", "src/fedservice/entity/server/fetch.py:Fetch.process_request", "src/fedservice/entity/server/list.py:List.process_request", "src/fedservice/entity/server/who.py:Who.process_request", "src/fedservice/trust_mark_entity/server/trust_mark.py:TrustMark.process_request", "src/fedservice/trust_mark_entity/server/trust_mark_status.py:TrustMarkStatus.process_request", "src/fedservice/appserver/oauth2/registration.py:Registration.process_request"]}
{"id": "C189", "title": "an operator decides who gets a trust mark", "statement": "The operator of a trust mark issuer should be able to have the trust mark endpoint give a mark to some entities and not to others. In the code that is impossible: whatever the issuer is configured with, if the endpoint gives a mark for one subject then it gives that mark to anybody that asks, for any subject, and the status endpoint confirms it afterwards to whoever asks, as long as the specification of the mark lets it be valid.", "quantifier": "for all issuers (specifications, stores, marks issued before), all marks, subjects and times", "why_tests_cant": "A test shows that a mark is given; that there is no configuration with which it is refused to somebody is a statement about all configurations.", "anchors": ["src/fedservice/trust_mark_entity/server/trust_mark.py:TrustMark.process_request", "src/fedservice/trust_mark_entity/entity.py:TrustMarkEntity.create_trust_mark", "src/fedservice/trust_mark_entity/server/trust_mark_status.py:TrustMarkStatus.process_request", "src/fedservice/message.py:TrustMarkRequest"]}
{"id": "C190", "title": "somebody who has logged in is shown so", "statement": "A user whose login at a provider succeeded should be shown, by the relying party's front end, what the provider said about them. In the code every login that succeeds ends in an internal server error, whatever is configured and whatever the provider answers, although at the client the login has happened. What holds: a user the provider refused is told the provider's error and nothing changes; a callback that names no session of the client it is addressed to is not acted on; and a callback for one provider changes nothing at the clients for other providers, and of its own client's sessions only the one its response names.", "quantifier": "for all relying parties (clients, sessions, trust chains held), callbacks and answers of providers", "why_tests_cant": "No test runs the front ends. That no login ever ends in the page that is meant for it is a statement about all of them.", "anchors": ["edu_federation/relying_party_explicit/views.py:finalize", "edu_federation/relying_party_explicit/views.py:get_rp", "edu_federation/relying_party_explicit/views.py:authz_cb", "src/fedservice/appclient/stand_alone_client_entity.py:StandAloneClientEntity.finalize", "src/fedservice/__init__.py:save_trust_chains"]}
{"id": "C191", "title": "a client of a provider can check its session", "statement": "A client that the provider knows and that asks, from the provider's origin, whether its session is as it was, should be told so. In the code the session check of the provider's front end never says so, to anybody, because it compares the client's id with the whole client database.", "quantifier": "for all providers, client databases and requests", "why_tests_cant": "No test runs the front ends; that no request has the answer is a statement about all of them.", "anchors": ["edu_federation/openid_provider/views.py:check_session_iframe"]}
{"id": "C192", "title": "the login form lets nobody in who was not authenticated", "statement": "The provider's login form leads to an answer to an authorization request only if the user was authenticated with that form, with a name, and then the session is that user's, for the request the form was made for. If nobody was authenticated, there is no answer and no session.", "quantifier": "for all ways of authenticating, tokens, authorization endpoints, their states, and all forms", "why_tests_cant": "A test logs somebody in, or fails to; that there is no form that gets an answer otherwise is about all forms.", "anchors": ["edu_federation/openid_provider/views.py:verify", "edu_federation/openid_provider/views.py:verify_user"]}
{"id": "C193", "title": "policies about one claim do not affect other claims", "statement": "What an entity's metadata has for a claim after the policies of a trust chain were applied depends only on what the statements of the chain, and the entity, say about that claim of that type of entity. A chain whose policies are refused is refused because of one claim: as long as the same is said about that claim, nothing that is said or left unsaid about other claims makes it acceptable. What is resolved for one type of entity does not depend on what is said about other types.", "quantifier": "for all chains of statements, policies, metadata, claims and types of entities, and all orders in which sets are enumerated", "why_tests_cant": "It compares all pairs of chains that agree on a claim.", "anchors": ["src/fedservice/entity/function/policy.py:combine", "src/fedservice/entity/function/policy.py:combine_metadata", "src/fedservice/entity/function/policy.py:apply_metadata_policy", "src/fedservice/entity/function/policy.py:TrustChainPolicy.gather_policies", "src/fedservice/entity/function/policy.py:TrustChainPolicy.apply_policy", "src/fedservice/entity/function/policy.py:TrustChainPolicy.__call__"]}
{"id": "C194", "title": "what unrelated entities publish does not matter", "statement": "The trust chains found for an entity, the metadata resolved and the keys learnt depend only on what the entity and the entities above it, by the authority hints they publish or that are remembered of them, publish and say about each other. Whatever other entities publish, refuse to publish, or are remembered to have published makes no difference, not even to errors.", "quantifier": "for all pairs of federations and caches that agree on a set of entities closed under authority hints, all entities in it, to every depth", "why_tests_cant": "It compares all pairs of federations.", "anchors": ["src/fedservice/entity/function/trust_chain_collector.py:TrustChainCollector", "src/fedservice/entity/function/__init__.py:get_verified_trust_chains"]}
{"id": "C195", "title": "the trust anchor decides who may issue a trust mark", "statement": "A trust mark is accepted for a trust anchor only if its issuer is among those that the anchor lists as issuers of that trust mark, if the anchor lists any. In particular an entity can not certify itself with a mark that others are to issue.", "quantifier": "all trust marks, federations, key stores and states of the caches", "why_tests_cant": "It is about all issuers and all marks; tests verify marks of the listed issuer.", "anchors": ["src/fedservice/entity/function/trust_mark_verifier.py:TrustMarkVerifier.__call__", "src/fedservice/entity/function/trust_mark_verifier.py:TrustMarkVerifier.verify_delegation", "src/fedservice/entity/__init__.py:FederationEntity.verify_trust_mark", "src/fedservice/trust_mark_entity/entity.py:SelfSignedTrustMarkEntity.__call__"]}
{"id": "C196", "title": "cookies are set as asked for", "statement": "A cookie that an endpoint asks the web front end to set reaches the browser with its name, value, lifetime and protection: whether it is for secure connections only, hidden from scripts, or withheld from requests of other sites. The answer it comes with is not affected.", "quantifier": "all answers and all specifications of cookies", "why_tests_cant": "All specifications; no test runs the front ends.", "anchors": ["edu_federation/openid_provider/views.py:_add_cookie", "edu_federation/openid_provider/views.py:add_cookie", "edu_federation/openid_provider/views.py:do_response", "dc4eu_federation/trust_anchor/views.py:_add_cookie"]}
{"id": "C197", "title": "logging out at the provider", "statement": "Sessions are ended only for a form with a token the provider has signed, as the token says, and all sessions of the user only if the form says so. Who has logged out is sent to the address in the token and nowhere else, and the provider's cookies are removed from the browser.", "quantifier": "all providers, sessions, tokens and forms", "why_tests_cant": "All forms and all states of the provider; no test runs the front end.", "anchors": ["edu_federation/openid_provider/views.py:rp_logout", "edu_federation/openid_provider/views.py:_add_cookie"]}
{"id": "C198", "title": "requests that are handled at the same time do not disturb each other", "statement": "When several collections of trust chains run at the same time in one process and share the cache of entity statements, each of them fails only if an authority could not be asked, and uses statements that were fetched for it or that had not expired when it ran.", "quantifier": "all numbers of threads, all schedules of their accesses to the cache, all clocks, all answers of the authorities, all contents of the cache", "why_tests_cant": "Which thread comes when is up to the machine; tests run one collection at a time.", "anchors": ["src/fedservice/entity/function/trust_chain_collector.py:TrustChainCollector._get_entity_statement", "src/fedservice/entity_statement/cache.py:ESCache", "edu_federation/entity.py"]}
{"id": "C199", "title": "an entity that its authorities have dropped drops out", "statement": "When the authorities an entity names have stopped making statements about it, and the statements they had made have expired, the entity is no longer resolved, whatever was resolved before.", "quantifier": "all federations, all histories of resolutions, all times, all entities", "why_tests_cant": "It is about what is left of earlier resolutions in any order and at any time; tests resolve once.", "anchors": ["src/fedservice/entity/__init__.py:FederationEntity.get_trust_chains", "src/fedservice/entity/function/__init__.py:get_verified_trust_chains", "src/fedservice/entity/function/trust_chain_collector.py:TrustChainCollector._get_entity_statement"]}
{"id": "C200", "title": "the scripts show what they say they show", "statement": "What a script prints as the configuration of an entity, as the statement of a superior about an entity, or as a trust chain ending in an anchor, is that: issued by whom and about whom the heading says, and signed with keys that belong to the issuer. In a well-run federation the scripts show, for every member, its configuration, the statements of its authorities, all its subordinates and the status of its trust marks.", "quantifier": "all federations, all entities, all answers of their servers", "why_tests_cant": "The scripts have no tests, and that nothing false is shown is about every answer a server may give.", "anchors": ["script/get_entity_configuration.py", "script/get_subordinate_statement.py", "script/get_trust_chains.py", "script/list_subordinates.py", "script/get_trust_mark_status.py", "example/display_entity.py:get_self_signed_entity_statement", "example/display_entity.py:fetch_entity"]}
{"id": "C201", "title": "lookups of an authority's endpoint at the same time do not disturb each other", "statement": "When several requests handled at the same time look up the fetch endpoint of an authority, sharing the cache of entity configurations, each lookup fails only if the authority's configuration could not be had, verified or used, and otherwise returns the endpoint stated in a configuration of that very authority which the lookup received itself or which was not about to expire.", "quantifier": "all numbers of threads, all schedules of their accesses to the cache, all clocks, all answers of the authorities, all contents of the cache", "why_tests_cant": "Which thread comes when is up to the machine; tests run one lookup at a time.", "anchors": ["src/fedservice/entity/function/trust_chain_collector.py:TrustChainCollector.get_federation_fetch_endpoint", "src/fedservice/entity_statement/cache.py:ESCache.__getitem__", "edu_federation/entity.py"]}
{"id": "C202", "title": "a client stays known while it is registered anew", "statement": "A client that the OpenID provider knows, and would register again whenever it looks it up in the federation, is let in with every request and found by every other request, whatever requests of this and other clients are handled at the same time.", "quantifier": "all numbers of threads, all schedules of their accesses to the client database, all clients, all contents of the client database, all outcomes of the registrations", "why_tests_cant": "Which thread comes when is up to the machine; tests send one request at a time.", "anchors": ["src/fedservice/appserver/oidc/authorization.py:Authorization.client_authentication", "src/fedservice/appserver/oidc/authorization.py:Authorization.do_automatic_registration", "edu_federation/openid_provider/views.py"]}
{"id": "C203", "title": "requests to other entities do not get mixed up", "statement": "A request for a trust mark is sent to the endpoint stated in trust chains of the issuer it is for, and the trust chains that are kept for an entity are trust chains of that entity, whatever other requests the software makes at the same time.", "quantifier": "all numbers of threads, all schedules of their accesses to what is shared, all entities, all trust chains that are kept and collected", "why_tests_cant": "Which thread comes when is up to the machine; tests make one request at a time.", "anchors": ["src/fedservice/entity/client/__init__.py:FederationClientEntity.do_request", "src/fedservice/entity/client/trust_mark.py:TrustMark.get_endpoint", "src/fedservice/entity/__init__.py:FederationEntity.get_trust_chains"]}
{"id": "C204", "title": "a member of the federation gets in without having registered", "statement": "A client that is a member of a federation of entities running this software, and about which its authorities say nothing its metadata do not meet, is let in by a server that supports automatic registration and trusts the federation's anchors, at the authorization endpoint and at the pushed one, whatever requests and lookups the server has dealt with before. If it is new it is registered with what its authorities leave of its metadata, its keys recorded before, and it is known afterwards under the id it came with; an OpenID provider's response names a trust anchor above the client.", "quantifier": "all federations, all members, all kinds of endpoints, all histories of requests and lookups of any clients with any trust chains handed in, all times while the documents are valid", "why_tests_cant": "Tests let one client come to one server that has just been started.", "anchors": ["src/fedservice/appserver/oidc/authorization.py:Authorization.client_authentication", "src/fedservice/appserver/oauth2/authorization.py:Authorization.client_authentication", "src/fedservice/appserver/oauth2/pushed_authorization.py:PushedAuthorization.client_authentication", "src/fedservice/entity/function/__init__.py:get_verified_trust_chains"]}
{"id": "C205", "title": "trust chains can be handed in with a request", "statement": "A client that sends one of its trust chains along with its request is let in along that chain, without the server asking anyone. The chain a resolver of the federation gives for the client and an anchor above it is such a chain, and so is what exporting a verified trust chain gives, as its documentation says.", "quantifier": "all federations, all members, all ways up to an anchor, all servers after any history, all networks", "why_tests_cant": "Tests neither hand in trust chains nor use what a resolver or an export gives.", "anchors": ["src/fedservice/appserver/oidc/authorization.py:Authorization.do_automatic_registration", "src/fedservice/entity/server/resolve.py:Resolve.process_request", "src/fedservice/entity_statement/statement.py:TrustChain.export_chain"]}
{"id": "C206", "title": "a client its authorities have dropped is not let in", "statement": "When the authorities a client names say nothing about it any more, and what they had said has expired, a server that has not registered the client for good no longer lets it in by automatic registration, whatever it let in before and whatever expired statements the client sends along.", "quantifier": "all servers, all kinds of endpoints, all networks, all histories of requests and lookups, all clients, all chains handed in", "why_tests_cant": "Tests do not drop members, nor do they let time pass; the chains that could be handed in are without number.", "anchors": ["src/fedservice/appserver/oidc/authorization.py:Authorization.client_authentication", "src/fedservice/appserver/oidc/authorization.py:Authorization.do_automatic_registration", "src/fedservice/entity/function/verifier.py:TrustChainVerifier.verify_trust_chain", "src/fedservice/entity/function/trust_chain_collector.py:TrustChainCollector.get_entity_statement"]}
{"id": "C207", "title": "authorities that add nothing change nothing", "statement": "Putting an authority into a trust chain that says nothing about the type of entity, or that says again exactly what an authority above it says, makes no difference: the chain is refused if and only if it was refused before, and the metadata resolved is the same, lists taken as sets.", "quantifier": "all chains, all positions in them, all leaf metadata, all entity types, all enumeration orders of sets", "why_tests_cant": "The tests have a few fixed chains; this compares all chains with their extensions, and tests that look at one chain at a time do not compare chains.", "anchors": ["src/fedservice/entity/function/policy.py:combine", "src/fedservice/entity/function/policy.py:combine_claim_policy", "src/fedservice/entity/function/policy.py:TrustChainPolicy.gather_policies", "src/fedservice/entity/function/policy.py:TrustChainPolicy._policy"]}
{"id": "C208", "title": "what was resolved once can be resolved again without the federation", "statement": "After an entity has been resolved, resolving it again gives the same tree, the same trust chains and the same metadata, and leaves everything remembered as it is, whatever has become of the rest of the federation (unreachable, or answering anything at all), as long as nothing of what was used is about to expire.", "quantifier": "all federations, all states of the caches and the key jar, all later states of the network, all times up to the expiry less the allowed delta", "why_tests_cant": "The tests resolve each entity once, against a fixed set of simulated answers; this compares the second resolution in every possible network with the first, for every content of the caches.", "anchors": ["src/fedservice/entity/function/trust_chain_collector.py:TrustChainCollector.__call__", "src/fedservice/entity/function/trust_chain_collector.py:TrustChainCollector.get_federation_fetch_endpoint", "src/fedservice/entity/function/trust_chain_collector.py:TrustChainCollector.collect_branch", "src/fedservice/entity/function/verifier.py:TrustChainVerifier.verify_trust_chain", "src/fedservice/entity/function/__init__.py:get_verified_trust_chains"]}
{"id": "C209", "title": "a trust anchor is itself a trusted member of the federation", "statement": "A configured trust anchor that publishes a configuration signed with a key it is known by is resolved to the metadata it publishes, and a trust mark that it has signed with such a key, and that has not expired, is accepted.", "quantifier": "all federations, all configurations and metadata of the trust anchor, all trust marks of it, all earlier resolutions", "why_tests_cant": "The tests only resolve entities below a trust anchor and only verify marks of issuers below one; that a trust anchor's own marks are never accepted, whatever they contain and whatever was resolved before, is a statement about all of them.", "anchors": ["src/fedservice/entity/__init__.py:FederationEntity.verify_trust_mark", "src/fedservice/entity/__init__.py:FederationEntity.get_verified_metadata", "src/fedservice/entity/function/trust_mark_verifier.py:TrustMarkVerifier.__call__", "src/fedservice/entity/function/trust_chain_collector.py:TrustChainCollector.collect_tree", "src/fedservice/entity/function/__init__.py:get_verified_trust_chains"]}
{"id": "C210", "title": "a federation may change while it is used", "statement": "If members change what they publish (their keys, metadata, authorities, endpoints), so that the federation is in order before and after, and no document is about to expire, then every member is resolved after the change as before, whatever was collected before.", "quantifier": "all federations before and after the change, all members, all histories of collections, all times", "why_tests_cant": "A test changes one entity at one moment with a cache filled in one way. Which mixtures of old cached documents and new ones can arise depends on what was collected when; that all of them resolve is a statement about all histories.", "anchors": ["src/fedservice/entity/function/trust_chain_collector.py:TrustChainCollector.collect_tree", "src/fedservice/entity/function/trust_chain_collector.py:TrustChainCollector.get_entity_statement", "src/fedservice/entity/function/trust_chain_collector.py:TrustChainCollector.get_verified_self_signed_entity_configuration", "src/fedservice/entity/function/verifier.py:TrustChainVerifier.verify_trust_chain", "src/fedservice/entity/function/__init__.py:get_verified_trust_chains"]}
{"id": "C211", "title": "trust chains verified at the same time", "statement": "When a server verifies several trust chains at the same time, in different threads, each of them is accepted or refused as it could have been had they been verified one after the other: a chain that is in order is accepted whatever is verified beside it, nothing is accepted that the keys vouched for do not support, no key is lost and none gets into the key store that nobody vouched for, and every verification ends.", "quantifier": "all numbers of threads, all trust chains, all key stores, all interleavings of the accesses to the key store", "why_tests_cant": "Which thread reads or adds keys when is not under the control of a test; the claim is about all interleavings, and about chains that get keys from each other.", "anchors": ["src/fedservice/entity/function/verifier.py:TrustChainVerifier.verify_trust_chain", "src/fedservice/entity/function/verifier.py:TrustChainVerifier.trusted_anchor", "src/fedservice/entity/function/verifier.py:TrustChainVerifier.__call__"]}
{"id": "C212", "title": "entities resolved at the same time", "statement": "A server may resolve any number of members of a federation that is in order at the same time, in different threads of one process: each resolution ends with the chains it would end with alone, one for each way up to a trust anchor, with the metadata declared.", "quantifier": "all federations that are in order, all numbers of threads, all members, all fillings of caches and store, all interleavings of the accesses to caches, key store and stored chains", "why_tests_cant": "Which thread reads or writes when is not under the control of a test; the claim is about all interleavings of all the accesses that a resolution makes, in all federations.", "anchors": ["src/fedservice/entity/__init__.py:FederationEntity.get_trust_chains", "src/fedservice/entity/function/__init__.py:get_verified_trust_chains", "src/fedservice/entity/function/trust_chain_collector.py:TrustChainCollector.collect_tree", "src/fedservice/entity/function/trust_chain_collector.py:TrustChainCollector._get_entity_statement", "src/fedservice/entity_statement/cache.py:ESCache.__getitem__", "src/fedservice/entity/function/verifier.py:TrustChainVerifier.verify_trust_chain"]}
{"id": "C213", "title": "what is resolved at the same time is vouched for", "statement": "Whatever several threads of a server resolve or verify at the same time, and whatever other entities say, each trust chain a thread ends with, and each one stored, is vouched for: it leads up from a configuration of the entity asked for along its authority hints, with statements the authorities made, or is the chain that was handed in; every signature verifies with a key that goes back to the keys known at the start; its metadata is what its policies allow. No key is lost and none gets into the key store that is not vouched for.", "quantifier": "all federations, also those whose members lie or change what they say, all numbers of threads, all entities and chains handed in, all fillings of the caches, all interleavings of the accesses to caches, key store and stored chains; identifiers without '!'", "why_tests_cant": "An attack may need a particular interleaving of particular answers; the claim is about all of them.", "anchors": ["src/fedservice/entity/__init__.py:FederationEntity.get_trust_chains", "src/fedservice/entity/function/__init__.py:get_verified_trust_chains", "src/fedservice/entity/function/__init__.py:verify_trust_chains", "src/fedservice/entity/function/trust_chain_collector.py:TrustChainCollector.collect_tree", "src/fedservice/entity/function/verifier.py:TrustChainVerifier.verify_trust_chain"]}
{"id": "C214", "title": "what a provider knows about an entity comes from that entity", "statement": "Whatever requests an OpenID provider has received before, and in whatever name they were made, the trust chains and the metadata it takes for those of an entity lead up from a configuration the entity itself published. In particular a trust mark is accepted after asking its issuer only if the endpoint that the issuer names confirmed it.", "quantifier": "all federations, all histories of resolutions and of authorization requests with any client ids and any trust chains sent along, all entities, all trust marks; identifiers without '!'", "why_tests_cant": "The damage shows in another function than the one that is attacked, after a history nobody thinks of testing.", "anchors": ["src/fedservice/appserver/oidc/authorization.py:Authorization.do_automatic_registration", "src/fedservice/appserver/oidc/authorization.py:Authorization.client_authentication", "src/fedservice/entity/__init__.py:FederationEntity.get_trust_chains", "src/fedservice/entity/__init__.py:FederationEntity.store_trust_chains", "src/fedservice/entity/__init__.py:FederationEntity.verify_trust_mark"]}
{"id": "C215", "title": "registering clients does not change who is trusted", "statement": "After whatever requests were made to a server, at whichever endpoint and in whosever name, a trust chain is accepted only if each statement in it is signed with a key that goes back, through signed statements, to the keys configured for the trust anchors; whether the server keeps the keys of its clients in a key jar of its own or, having none, in that of the federation entity.", "quantifier": "all federations, all histories of resolutions and of requests at the three endpoints with any client ids and any trust chains sent along, all trust chains, one key jar or two", "why_tests_cant": "It takes a configuration where parts share a key jar, a request in the name of somebody else, and then a chain in yet another place that should have been refused.", "anchors": ["src/fedservice/appserver/oidc/authorization.py:Authorization.do_automatic_registration", "src/fedservice/appserver/oauth2/authorization.py:Authorization.do_automatic_registration", "src/fedservice/appserver/oauth2/pushed_authorization.py:PushedAuthorization.do_automatic_registration", "src/fedservice/appserver/__init__.py:import_client_keys", "src/fedservice/entity/utils.py:get_keys", "src/fedservice/combo/__init__.py:FederationCombo.get_attribute", "src/fedservice/entity/function/verifier.py:TrustChainVerifier.trusted_anchor"]}
{"id": "C216", "title": "what an entity asks others for does not change whom its trust anchors' keys are", "statement": "After whatever an entity resolved, asked others for or came upon while walking down a federation, each key it holds for a trust anchor was configured for it, or is listed for it in a statement that a trust anchor signed with such a key; and each trust chain it returns under a trust anchor starts with a statement signed with such a key. For other entities, each key was there at the start or is listed in a document signed with a key come by in the same way.", "quantifier": "all federations, which may change and answer the client otherwise than the collector, all histories of resolutions, walks and requests for configurations and statements, all entities and keys", "why_tests_cant": "It takes an answer to one question that says something about somebody else, and then another question whose answer is believed because of it; tests ask one question of honest entities.", "anchors": ["src/fedservice/entity/__init__.py:FederationEntity.trawl", "src/fedservice/entity/client/__init__.py:FederationClient.do_request", "src/fedservice/entity/client/entity_configuration.py:EntityConfiguration", "src/fedservice/entity/client/entity_statement.py:EntityStatement", "src/fedservice/entity/client/list.py:List", "src/fedservice/entity/function/verifier.py:TrustChainVerifier.verify_trust_chain", "src/fedservice/entity/function/__init__.py:get_verified_trust_chains"]}
{"id": "C217", "title": "asking around does not change what entities are resolved to", "statement": "In a federation whose members publish the same documents all the time, an entity that is resolved first thing, all its trust chains being accepted, is resolved to the same trust chains after whatever configurations and statements have been asked for, whatever part of the federation has been walked down and whichever entities have been resolved.", "quantifier": "all federations, all histories of resolutions, walks and requests, all entities, all settings", "why_tests_cant": "Answers are kept in the same cache that resolution reads, under a name the answer itself gives; a test would have to hit on the question, asked of one entity, that spoils the resolution of another.", "anchors": ["src/fedservice/entity/client/entity_configuration.py:EntityConfiguration.post_parse_response", "src/fedservice/entity/client/entity_statement.py:EntityStatement", "src/fedservice/entity/__init__.py:FederationEntity.trawl", "src/fedservice/entity/function/trust_chain_collector.py:TrustChainCollector", "src/fedservice/entity/function/__init__.py:get_verified_trust_chains"]}
{"id": "C218", "title": "time passing while trust chains are collected does not make collection fail", "statement": "If the trust chains of an entity could be collected were the clock to stand still at any of the moments the collector reads the clock or asks others, and documents are at most renewed meanwhile, then collecting them while time passes succeeds.", "quantifier": "all federations, all caches, all clocks and renewals during one collection, all entities, all settings", "why_tests_cant": "In a test the clock stands still, for all purposes, during one collection; what matters is a document passing a freshness limit between two particular reads, in any federation and with any caches.", "anchors": ["src/fedservice/entity/function/trust_chain_collector.py:TrustChainCollector.__call__", "src/fedservice/entity/function/trust_chain_collector.py:TrustChainCollector.collect_branch", "src/fedservice/entity/function/trust_chain_collector.py:TrustChainCollector.get_federation_fetch_endpoint", "src/fedservice/entity_statement/cache.py:ESCache"]}
{"id": "C219", "title": "trusting another trust anchor takes nothing away", "statement": "When one more trust anchor is added to those an entity trusts, every entity that could be resolved before is resolved still, to the same trust chains in the same order, and the only trust chains that come to it are those to the anchor that was added.", "quantifier": "all federations, all states of caches and key jar, all sets of trust anchors and keys, all entities", "why_tests_cant": "An anchor may be added in any state, and its keys let other chains be verified than its own; a test would have to know beforehand which statement of which authority makes another chain pass or the whole resolution fail.", "anchors": ["src/fedservice/entity/function/trust_chain_collector.py:TrustChainCollector.add_trust_anchor", "src/fedservice/entity/__init__.py:FederationEntity.add_trust_anchor", "src/fedservice/entity/function/__init__.py:get_verified_trust_chains", "src/fedservice/entity/function/verifier.py:TrustChainVerifier"]}
{"id": "C220", "title": "what a resolver answers is what one would find oneself", "statement": "When a resolver answers for a subject and a trust anchor that the asking entity trusts too and knows by the same keys, then the asking entity would have found a trust chain from the subject to that anchor by itself, and the metadata in the answer is what the first such chain gives (up to the order of lists that come from sets).", "quantifier": "all federations, all resolvers and asking entities with whatever caches, key jars, other trust anchors and times at which they look, all subjects, anchors and entity types", "why_tests_cant": "Resolver and asking entity have different histories: caches, keys learnt, other anchors, hash seeds. A test fixes one of each and cannot settle that none of it shows in the answer.", "anchors": ["src/fedservice/entity/server/resolve.py:Resolve.process_request", "src/fedservice/entity/function/__init__.py:get_verified_trust_chains", "src/fedservice/entity/function/trust_chain_collector.py:TrustChainCollector.collect_tree", "src/fedservice/entity/function/verifier.py:TrustChainVerifier"]}
{"id": "C221", "title": "the order of authority hints does not matter", "statement": "If the entities of a federation name the same authorities in another order (or name one more than once), then the same trust chains are found for every entity: to the same trust anchors, through the same intermediates, with the same expiry and metadata, though perhaps in another order.", "quantifier": "all federations and all reorderings of the hints of all their entities, all caches filled by earlier collections, all key jars, all entities", "why_tests_cant": "Each order is a different run through shared caches and a shared key jar, and there are as many as there are permutations at every level; tests try the order in the test data.", "anchors": ["src/fedservice/entity/function/trust_chain_collector.py:TrustChainCollector.collect_tree", "src/fedservice/entity/function/__init__.py:tree2chains", "src/fedservice/entity/function/__init__.py:verify_trust_chains", "src/fedservice/entity/function/verifier.py:TrustChainVerifier.verify_trust_chain"]}
{"id": "C222", "title": "joining another federation takes nothing away", "statement": "When entities name further authorities in their configurations, because they joined another federation, then every entity that could be resolved is resolved still, and all the trust chains that were found for it are found still, in the same order, with the same metadata.", "quantifier": "all federations and all ways of adding authorities to those of their entities, all caches filled by earlier collections, all key jars and trust anchors, all entities", "why_tests_cant": "An authority may be added anywhere above an entity, and what is above it is beyond anybody's control; tests have one federation that does not change.", "anchors": ["src/fedservice/entity/function/trust_chain_collector.py:TrustChainCollector.collect_tree", "src/fedservice/entity/function/trust_chain_collector.py:TrustChainCollector.collect_branch", "src/fedservice/entity/function/__init__.py:verify_trust_chains", "src/fedservice/entity/function/__init__.py:apply_policies"]}
{"id": "C223", "title": "trust marks issued by several processes are all on record", "statement": "When several processes of a trust mark issuer, like the workers of a web server, are started and issue trust marks with the same files as their record, then each of them finds, at any moment, what it would find if the marks issued so far had been issued by one process, one after the other; none is lost and no status request fails because of what the others do.", "quantifier": "all configurations and contents of the files, all numbers of processes, all interleavings of starting, issuing and asking, all lengths of the lines written", "why_tests_cant": "Which process is stopped between two system calls for how long is decided by the operating system; tests run in one process.", "anchors": ["src/fedservice/trust_mark_entity/__init__.py:FileDB.__init__", "src/fedservice/trust_mark_entity/__init__.py:FileDB.add", "src/fedservice/trust_mark_entity/__init__.py:FileDB.find"]}
{"id": "C224", "title": "stricter constraints let nobody else in", "statement": "When authorities make the constraints in their statements stricter, by permitting fewer names, excluding more names or allowing shorter paths, then every chain that is accepted afterwards would have been accepted before.", "quantifier": "all chains of any length, all constraints in any of the statements, all ways of making them stricter, all names", "why_tests_cant": "It compares two verdicts for every chain and every change to it; tests have a few chains and one verdict each.", "anchors": ["src/fedservice/entity_statement/constraints.py:meets_restrictions", "src/fedservice/entity_statement/constraints.py:add_constraints", "src/fedservice/entity_statement/constraints.py:update_specs", "src/fedservice/entity_statement/constraints.py:calculate_path_length"]}
{"id": "C225", "title": "joining another federation gives trust chains through that federation and no others", "statement": "When entities name further authorities in their configurations, then every trust chain that is found for an entity afterwards was found before, with the same metadata, or goes through an authority that was not named before. Read the other way round: an entity that stops naming an authority loses only trust chains through that authority.", "quantifier": "all federations and all ways of adding authorities to those of their entities, all caches filled by earlier collections, all key jars and trust anchors, all entities", "why_tests_cant": "An authority may be added anywhere above an entity, and what it vouches for is beyond anybody's control; tests have one federation that does not change.", "anchors": ["src/fedservice/entity/function/trust_chain_collector.py:TrustChainCollector.collect_tree", "src/fedservice/entity/function/trust_chain_collector.py:tree2chains", "src/fedservice/entity/function/__init__.py:verify_trust_chains", "src/fedservice/entity/function/verifier.py:TrustChainVerifier.verify_trust_chain"]}
{"id": "C226", "title": "an authority that only restricts lets nobody in", "statement": "A chain with one more statement, whose policies only restrict what claims may be (subset_of, superset_of, one_of, essential, and nothing else), is accepted only if the chain without that statement is accepted, for the same types of entities, and each claim of the resolved metadata is then the same or has fewer values with the statement than without it.", "quantifier": "all chains, all statements with such policies at any place below the trust anchor, all metadata of the entity, all requested entity types, all hash orders", "why_tests_cant": "What one policy does depends on all the others in the chain and on the operators that happen to meet; tests have a few combinations whose result is written down.", "anchors": ["src/fedservice/entity/function/policy.py:combine_claim_policy", "src/fedservice/entity/function/policy.py:TrustChainPolicy.gather_policies", "src/fedservice/entity/function/policy.py:apply_metadata_policy", "src/fedservice/entity/function/policy_operator.py:SubsetOf"]}
{"id": "C227", "title": "declaring more costs an entity nothing", "statement": "If an entity whose metadata is accepted declares further values in some of its list claims, it is still accepted under the same chain, for the same types, and each claim resolves to what it resolved to before, or to a list with at least the values it had before. Read the other way round: an entity that is refused is not accepted because it declares fewer values of the claims it declares.", "quantifier": "all chains of policies, well formed or not, all metadata, all ways of adding single values to lists, all requested entity types, all hash orders", "why_tests_cant": "The claim compares two runs for every policy; tests run one and compare with a result written down.", "anchors": ["src/fedservice/entity/function/policy.py:apply_metadata_policy", "src/fedservice/entity/function/policy.py:TrustChainPolicy.__call__", "src/fedservice/entity/function/policy_operator.py:SubsetOf", "src/fedservice/entity/function/policy_operator.py:SupersetOf", "src/fedservice/entity/function/policy_operator.py:Add"]}
{"id": "C228", "title": "time alone changes nothing about who is trusted", "statement": "In a federation that does not change, an entity that can be resolved at some time could be resolved at any earlier time, to the same trust chains with the same metadata, whatever has been resolved before, by the same process or by another one that knows the same keys. And it can be resolved, to the same, for as long as the published configurations are valid for longer than the allowed delta.", "quantifier": "all federations, all pairs of times, all histories of earlier collections of each process, all entities", "why_tests_cant": "The claim compares two runs at different times with caches from arbitrary histories; a test has one clock and few histories.", "anchors": ["src/fedservice/entity/function/trust_chain_collector.py:TrustChainCollector.__call__", "src/fedservice/entity/function/trust_chain_collector.py:TrustChainCollector.too_old", "src/fedservice/entity/function/__init__.py:get_verified_trust_chains"]}
{"id": "C229", "title": "declaring more does not cost anybody their trust chains", "statement": "When entities publish configurations that declare more than before (further values in list claims of their metadata, further entity types) and say the same otherwise, every entity that could be resolved can be resolved, to the same number of trust chains with the same trust anchors, paths and expiry, and of each entity type it had it gets metadata with the same values or lists with at least the same values.", "quantifier": "all federations, all ways in which any number of entities declare more, all histories of earlier collections, all policies, all entities", "why_tests_cant": "The claim compares the outcome of whole resolutions in two federations, for all policies and trees; a test sees one pair.", "anchors": ["src/fedservice/entity/function/__init__.py:get_verified_trust_chains", "src/fedservice/entity/function/__init__.py:apply_policies", "src/fedservice/entity/function/policy.py:TrustChainPolicy.__call__", "src/fedservice/entity/function/trust_chain_collector.py:TrustChainCollector.collect_tree"]}
{"id": "C230", "title": "no question is put twice in one collection", "statement": "While the trust chains of an entity are collected, no entity is asked for its configuration twice and no authority is asked twice for its statement about an entity, however many paths lead through them; so that the number of questions is at most the square of the number of entities in reach.", "quantifier": "all federations (with cycles or without), all contents of the caches, all entities and values of stop_at, all outcomes of the questions, collections that succeed, fail, or go on for as long as one likes", "why_tests_cant": "How often an entity is asked depends on the number of paths, on what is remembered and on what expires; tests have a few small federations and do not count requests.", "anchors": ["src/fedservice/entity/function/trust_chain_collector.py:TrustChainCollector.get_federation_fetch_endpoint", "src/fedservice/entity/function/trust_chain_collector.py:TrustChainCollector._get_entity_statement", "src/fedservice/entity/function/trust_chain_collector.py:TrustChainCollector.collect_branch", "src/fedservice/entity/function/trust_chain_collector.py:TrustChainCollector.__call__"]}
{"id": "C231", "title": "the number of trust chains is bounded by the size of the federation", "statement": "The number of trust chains that are collected for an entity, all of which are held in memory and verified, is bounded by the square of the number of entities in reach.", "quantifier": "all federations, all contents of the caches, all entities and values of stop_at", "why_tests_cant": "How the number of chains grows shows in families of federations of all sizes only; the federations of the tests have a few entities.", "anchors": ["src/fedservice/entity/function/__init__.py:tree2chains", "src/fedservice/entity/function/__init__.py:collect_trust_chains", "src/fedservice/entity/function/trust_chain_collector.py:TrustChainCollector.collect_tree"]}
{"id": "C232", "title": "how early documents are renewed does not decide who is trusted", "statement": "Two processes in the same federation that trust the same trust anchors and differ only in how long before their expiry they fetch remembered documents anew (allowed_delta), and in what they have resolved before, resolve every entity to the same trust chains.", "quantifier": "all federations, all pairs of settings, all histories of earlier collections of either process, all times, all entities and values of stop_at", "why_tests_cant": "The claim compares two processes over all histories and settings; whether it holds depends on what happens to expire when.", "anchors": ["src/fedservice/entity/function/trust_chain_collector.py:TrustChainCollector.__init__", "src/fedservice/entity/function/trust_chain_collector.py:TrustChainCollector.collect_branch", "src/fedservice/entity_statement/cache.py:ESCache", "src/fedservice/entity/function/__init__.py:get_verified_trust_chains"]}
{"id": "C233", "title": "identifiers are only names", "statement": "Two federations without naming constraints that differ only in what their members are called are treated alike: an entity resolves in one exactly when the entity in its place resolves in the other, to the same trust chains but for the names, with the same metadata and the same expiry times.", "quantifier": "all federations, all one-to-one renamings, all key jars, all histories of earlier collections on either side, all times, entities and values of stop_at", "why_tests_cant": "The claim is about all renamings; code that takes names apart, compares parts of them or builds keys out of them behaves well with the names tests use.", "anchors": ["src/fedservice/entity/function/trust_chain_collector.py:TrustChainCollector.collect_branch", "src/fedservice/entity/function/trust_chain_collector.py:cache_key", "src/fedservice/entity/function/verifier.py:TrustChainVerifier.verify_trust_chain", "src/fedservice/entity_statement/constraints.py:meets_restrictions", "src/fedservice/entity/function/__init__.py:get_verified_trust_chains"]}
{"id": "C234", "title": "two authorities can be replaced by one that says what both say", "statement": "In a trust chain, two authorities, one directly below the other, can be replaced by one authority that states the metadata and the combined policies of the two: the leaf's metadata of every type comes out the same, or the chain is refused in both cases.", "quantifier": "all chains, all positions of the two authorities, all their statements, all leaves, entity types and set orders", "why_tests_cant": "It compares combining in one grouping with combining in another, for all policies above and below; a test fixes both chains.", "anchors": ["src/fedservice/entity/function/policy.py:combine", "src/fedservice/entity/function/policy.py:combine_claim_policy", "src/fedservice/entity/function/policy.py:TrustChainPolicy.gather_policies", "src/fedservice/entity/function/policy.py:TrustChainPolicy._policy"]}
{"id": "C235", "title": "the order of two authorities makes no difference", "statement": "Two neighbouring authorities of a trust chain can change places: the leaf's metadata of every type comes out the same, or the chain is refused in both cases.", "quantifier": "all chains, all positions of the two authorities, all their statements, all leaves, entity types and set orders", "why_tests_cant": "It compares two orders of combining for all policies above and below; a test fixes both chains.", "anchors": ["src/fedservice/entity/function/policy.py:combine", "src/fedservice/entity/function/policy.py:combine_claim_policy", "src/fedservice/entity/function/policy.py:TrustChainPolicy.gather_policies", "src/fedservice/entity/function/policy.py:TrustChainPolicy._policy"]}
{"id": "C236", "title": "nothing gets into an entity's metadata that nobody has said", "statement": "Every value in the metadata an entity is resolved to, and every member of a list there, has been stated for that claim either by the entity itself or by an authority above it in the trust chain: as metadata, or as a policy's value, addition or default.", "quantifier": "all trust chains, all statements and policies, all claims and entity types, all set orders; all federations and histories for resolved entities", "why_tests_cant": "The origin of a value is a relation between the result and all statements; a test checks one result against one expected document.", "anchors": ["src/fedservice/entity/function/policy.py:TrustChainPolicy._policy", "src/fedservice/entity/function/policy.py:combine_claim_policy", "src/fedservice/entity/function/policy.py:apply_metadata_policy", "src/fedservice/entity/function/policy_operator.py:SubsetOf", "src/fedservice/entity/function/policy_operator.py:Add", "src/fedservice/entity/function/__init__.py:apply_policies"]}
{"id": "C237", "title": "the scripts for asking a resolver and an issuer get what they ask for", "statement": "In a federation whose members run this software, see to their duties, and register only keys: resolve_entity.py, given a member that states a resolve endpoint, an entity that is a member, and a trust anchor at the top of a way up from it, sends its question to that endpoint, and the resolver answers, with a statement of its own about the entity that has at least the metadata the entity publishes. Without an entity or a trust anchor nothing is sent. get_trust_mark.py sends its request to the trust mark endpoint that the issuer states, and an issuer set up to issue the mark gives it, for the subject asked for; get_trust_mark_status.py, asking the issuer afterwards, is told that the mark is active for as long as its specification lets it be valid.", "quantifier": "all federations of such members, all members, anchors, issuers and marks; all histories of the asking entity, the resolver and the issuer; all times while the documents last", "why_tests_cant": "Two or three entities are involved, each with a history of its own, and the federation around them is arbitrary; a test sets up one federation and asks once.", "anchors": ["script/resolve_entity.py", "script/get_trust_mark.py", "script/get_trust_mark_status.py", "src/fedservice/entity/function/__init__.py:get_entity_endpoint", "src/fedservice/entity/client/resolve.py:Resolve.get_request_parameters", "src/fedservice/entity/client/trust_mark.py:TrustMark.construct_request", "src/fedservice/entity/server/resolve.py:Resolve.process_request", "src/fedservice/trust_mark_entity/server/trust_mark.py:TrustMark.process_request", "src/fedservice/trust_mark_entity/server/trust_mark_status.py:TrustMarkStatus.process_request"]}
{"id": "C238", "title": "policies compare values and do nothing else with them", "statement": "When texts are exchanged for other texts, one for one (the empty text stays), in all values that the statements of a chain give in metadata and as operands in policies, then the entity is resolved to what it was resolved to before, with the same exchange, up to the order of lists; and what was refused is refused. Neither the spelling of a value nor what values there are elsewhere has a say.", "quantifier": "all chains, all statements in them, all exchanges of texts, all orders in which the two processes have their sets", "why_tests_cant": "A test names values; that no value is special, in any combination of operators along any chain, needs the same run for all one-to-one exchanges of texts.", "anchors": ["src/fedservice/entity/function/policy.py:TrustChainPolicy._policy", "src/fedservice/entity/function/policy.py:combine_claim_policy", "src/fedservice/entity/function/policy.py:apply_metadata_policy", "src/fedservice/entity/function/policy_operator.py:OneOf.__call__", "src/fedservice/entity/function/policy_operator.py:SubsetOf.__call__", "src/fedservice/entity/function/policy_operator.py:SupersetOf.__call__"]}
{"id": "C239", "title": "claims and entity types are only names", "statement": "When entity types and claims get other names, different ones for different ones, in the metadata and in the policies of all statements of a chain, then an entity is resolved to the same values under the new names, up to the order of lists, and to nothing under any other name; and what was refused is refused. No claim and no entity type is treated in a way of its own.", "quantifier": "all chains, all statements in them, all ways to give types and claims other names, all orders in which the two processes have their sets", "why_tests_cant": "Tests name claims. That no name is special, whatever policies there are for whatever claims along the chain, needs all names and all chains.", "anchors": ["src/fedservice/entity/function/policy.py:TrustChainPolicy._policy", "src/fedservice/entity/function/policy.py:TrustChainPolicy.gather_policies", "src/fedservice/entity/function/policy.py:combine", "src/fedservice/entity/function/policy.py:apply_metadata_policy"]}
{"id": "C240", "title": "an authority that permits less lets nobody else in", "statement": "When authorities in a chain take values out of the lists that their policies permit (one_of, subset_of), and say the same as before otherwise, then an entity that is resolved would have been resolved before, with the same claims, and each claim has the value it had, or is a list without any value that was not in it before. The values in the lists are simple ones (texts, numbers).", "quantifier": "all chains, all authorities in them, all ways to take values out of their lists, all metadata of the entity, all orders in which the two processes have their sets", "why_tests_cant": "The lists pass through intersections with those of all other authorities, through checks among the operators, and meet the metadata in the end; that no combination of operators makes a shorter list let more through needs all policies along all chains.", "anchors": ["src/fedservice/entity/function/policy.py:TrustChainPolicy._policy", "src/fedservice/entity/function/policy.py:combine_claim_policy", "src/fedservice/entity/function/policy.py:apply_metadata_policy", "src/fedservice/entity/function/policy_operator.py:OneOf.__call__", "src/fedservice/entity/function/policy_operator.py:SubsetOf.__call__"]}
{"id": "C241", "title": "an authority that demands more lets nobody else in", "statement": "When authorities in a chain permit less (values taken out of the lists of one_of and subset_of) or demand more (values put into the lists of superset_of), and say the same as before otherwise, then an entity that is resolved would have been resolved before, with the same claims, and each claim has the value it had, or is a list without any value that was not in it before. Violated where two authorities demand something of the same claim: the values demanded by both are what counts, and where there are none the chain is refused, so that an authority can let an entity in by demanding more.", "quantifier": "all chains, all authorities in them, all ways to shorten what they permit and to lengthen what they demand, all metadata of the entity, all orders in which the two processes have their sets", "why_tests_cant": "What is demanded is combined with what the others demand and compared with what they permit, add and set as default; that no combination makes a longer demand easier to meet needs all policies along all chains.", "anchors": ["src/fedservice/entity/function/policy.py:TrustChainPolicy._policy", "src/fedservice/entity/function/policy.py:do_sub_one_super_add", "src/fedservice/entity/function/policy.py:combine_claim_policy", "src/fedservice/entity/function/policy_operator.py:SupersetOf.__call__"]}
{"id": "C242", "title": "a federation in which authorities permit less lets nobody else in", "statement": "When authorities anywhere in a federation take values out of the lists that the policies in their statements permit (one_of, subset_of), and nothing else changes, then every entity that can be resolved could be resolved before, by the same trust chains (same trust anchor, same path, same end of validity), and each claim of each of its entity types had the value it has now, or was a list with at least the values it has now.", "quantifier": "all federations, all ways authorities in them can permit less, all caches filled by earlier collections, all key jars, trust anchors and settings, all entities, all orders in which the processes have their sets", "why_tests_cant": "Several trust chains with different authorities are collected and verified, and one that fails spoils the answer; the claim compares the answers of two federations for all of these. A test has one federation and one or two policies.", "anchors": ["src/fedservice/entity/function/__init__.py:get_verified_trust_chains", "src/fedservice/entity/function/__init__.py:apply_policies", "src/fedservice/entity/function/policy.py:TrustChainPolicy.__call__", "src/fedservice/entity/function/trust_chain_collector.py:TrustChainCollector.__call__", "src/fedservice/entity/function/verifier.py:TrustChainVerifier.__call__"]}
{"id": "C243", "title": "a federation in which authorities demand more lets nobody else in", "statement": "When authorities anywhere in a federation permit less (one_of, subset_of) or demand more (superset_of), and nothing else changes, then every entity that can be resolved could be resolved before, by the same trust chains, and each claim had the value it has now, or was a list with at least the values it has now. Violated where two authorities in a trust chain demand something of the same claim: an entity can get in because one of them demands more.", "quantifier": "all federations, all ways authorities in them can permit less and demand more, all caches filled by earlier collections, all key jars, trust anchors and settings, all entities, all orders in which the processes have their sets", "why_tests_cant": "What authorities demand is combined along every trust chain that is found; the claim compares the answers of two federations for all entities and all combinations of policies.", "anchors": ["src/fedservice/entity/function/__init__.py:get_verified_trust_chains", "src/fedservice/entity/function/__init__.py:apply_policies", "src/fedservice/entity/function/policy.py:TrustChainPolicy.__call__", "src/fedservice/entity/function/trust_chain_collector.py:TrustChainCollector.__call__", "src/fedservice/entity/function/verifier.py:TrustChainVerifier.__call__", "src/fedservice/entity/function/policy.py:do_sub_one_super_add"]}
{"id": "C244", "title": "a federation in which authorities constrain more lets nobody else in", "statement": "When authorities anywhere in a federation allow shorter paths below them (max_path_length), or begin to constrain names (naming_constraints) where they did not, and nothing else changes, then every entity that can be resolved could be resolved before, and each of the trust chains by which it is resolved was found before, with the same trust anchor, path, end of validity and metadata. Violated for entities with several trust chains: one that does not satisfy its policies makes the whole resolution fail, so a constraint that rules it out lets the entity in.", "quantifier": "all federations, all ways authorities in them can allow shorter paths or begin to constrain names, all caches filled by earlier collections, all key jars, trust anchors and settings, all entities", "why_tests_cant": "Each trust chain is checked against the constraints of all its authorities, and then one failing policy spoils the answer; the claim compares the answers of two federations for all of these. A test has one federation and one constraint.", "anchors": ["src/fedservice/entity/function/__init__.py:get_verified_trust_chains", "src/fedservice/entity/function/__init__.py:apply_policies", "src/fedservice/entity/function/verifier.py:TrustChainVerifier.verify_trust_chain", "src/fedservice/entity/function/trust_chain_collector.py:TrustChainCollector.__call__", "src/fedservice/entity_statement/constraints.py:meets_restrictions"]}
{"id": "C245", "title": "listing further keys takes nothing away", "statement": "When authorities anywhere in a federation list further keys for subordinates for which they list some (as they do before an entity changes its keys), further keys of trust anchors are configured beside those that are there, and nothing else changes, then every entity that can be resolved can be resolved afterwards, by the same trust chains (same trust anchor, path and end of validity) and with the same metadata.", "quantifier": "all federations, all ways authorities in them can list further keys, all caches filled by earlier collections, all key jars, trust anchors and settings, all entities", "why_tests_cant": "The keys in a statement are added to a key jar that all later statements and trust chains are verified with, and an entity that has keys there counts as trust anchor; the claim is about the state that all of them build up. A test has one key per entity.", "anchors": ["src/fedservice/entity/function/verifier.py:TrustChainVerifier.verify_trust_chain", "src/fedservice/entity/function/verifier.py:TrustChainVerifier.trusted_anchor", "src/fedservice/entity/function/__init__.py:get_verified_trust_chains", "src/fedservice/entity/function/trust_chain_collector.py:TrustChainCollector.__call__"]}
{"id": "C246", "title": "statements that are valid for longer take nothing away", "statement": "When statements of authorities anywhere in a federation are valid for longer (and perhaps list further keys), and nothing else changes, then every entity that can be resolved can be resolved afterwards, by the same trust chains (same trust anchor and path) and with the same metadata, and each of these trust chains is valid for at least as long as before.", "quantifier": "all federations, all ways the ends of validity of statements in them can be moved on, all caches filled by earlier collections, all key jars, trust anchors and settings, all entities", "why_tests_cant": "The end of validity of a trust chain is computed from all its statements, with negative numbers standing for none yet; the claim compares two federations for any number of statements. A test has one trust chain.", "anchors": ["src/fedservice/entity/function/verifier.py:TrustChainVerifier.trust_chain_expires_at", "src/fedservice/entity/function/verifier.py:TrustChainVerifier.verify_trust_chain", "src/fedservice/entity/function/__init__.py:get_verified_trust_chains", "src/fedservice/entity/function/trust_chain_collector.py:TrustChainCollector.__call__"]}
{"id": "C247", "title": "what others say about themselves makes no difference", "statement": "Whatever members of a federation other than the entity in question say about themselves in their configurations (metadata, keys, policies, constraints, anything but who is above them, where they answer to fetch requests and until when the configuration is valid), as long as their configurations are properly signed or not as before, the entity is resolved to exactly the same answer: the same trust chains with the same statements and the same metadata, or none in both cases.", "quantifier": "all federations, all changes to what others say about themselves, all caches filled by earlier collections, all key jars, trust anchors and settings, all entities", "why_tests_cant": "Configurations and statements are objects of the same class and pass through the same caches and verification; that nothing of an authority's configuration ends up in a subordinate's trust chain holds for all federations and contents or not at all. Tests have authorities with one configuration.", "anchors": ["src/fedservice/entity/function/trust_chain_collector.py:TrustChainCollector.collect_tree", "src/fedservice/entity/function/trust_chain_collector.py:TrustChainCollector.collect_branch", "src/fedservice/entity/function/__init__.py:get_verified_trust_chains"]}
{"id": "C248", "title": "policies and constraints in an entity's own configuration have no effect", "statement": "Policies and constraints in the configurations entities publish about themselves, both the entity that is resolved and the authorities above it, have no effect on how it is resolved: whatever they are, and as long as the configurations are properly signed or not as before, the entity has the same trust chains with the same issuers, end of validity and metadata, or cannot be resolved in either case.", "quantifier": "all federations, all policies and constraints in configurations, all caches filled by earlier collections, all key jars, trust anchors and settings, all entities", "why_tests_cant": "The entity's own configuration is the last element of the trust chain, an object like the others, and the loops over policies and constraints leave it out by where they stop. An index off by one shows only with configurations that have policies or constraints, which no test has; the claim is about all of them at once.", "anchors": ["src/fedservice/entity/function/policy.py:TrustChainPolicy", "src/fedservice/entity_statement/constraints.py:meets_restrictions", "src/fedservice/entity/function/verifier.py:TrustChainVerifier", "src/fedservice/entity/function/__init__.py:get_verified_trust_chains"]}
{"id": "C249", "title": "what authorities say about other types of entities makes no difference", "statement": "Whatever policies and metadata authorities anywhere in a federation have in their statements for types of entities that an entity does not say it is of, even if they contradict each other, the entity is resolved by the same trust chains with the same issuers, end of validity and metadata as without them, or cannot be resolved in either case.", "quantifier": "all federations, all policies and metadata for other types in any of the statements, all caches filled by earlier collections, all key jars, trust anchors and settings, all entities", "why_tests_cant": "The policies of all types are in one statement and pass through the same code one type after the other; that a type the entity is not of cannot interfere is about all policies for all other types, also such as cannot be combined. Tests have policies for one or two types that do not conflict.", "anchors": ["src/fedservice/entity/function/policy.py:TrustChainPolicy", "src/fedservice/entity/function/policy.py:TrustChainPolicy.gather_policies", "src/fedservice/entity/function/__init__.py:get_verified_trust_chains"]}
{"id": "C250", "title": "what happens elsewhere in a federation makes no difference", "statement": "Whatever is published elsewhere in a federation, by entities one does not get to from an entity by following authority hints, or by authorities above it about others than those on the way to it, the entity is resolved to exactly the same answer: the same trust chains with the same statements and metadata, or none in both cases. This includes entities elsewhere that come, go, fail to answer or say something that is not valid, and earlier collections about them that have filled the caches.", "quantifier": "all federations, all changes elsewhere, all caches filled by earlier collections about any entities, all key jars, trust anchors and settings, all entities", "why_tests_cant": "The collector keeps one cache for all the entities it has looked at, with keys made from pairs of identifiers; that nothing published elsewhere gets into the answer is about all federations around an entity at once and all that was collected before. Tests have one small federation that does not change.", "anchors": ["src/fedservice/entity/function/trust_chain_collector.py:TrustChainCollector.collect_tree", "src/fedservice/entity/function/trust_chain_collector.py:TrustChainCollector.collect_branch", "src/fedservice/entity/function/trust_chain_collector.py:TrustChainCollector.__call__", "src/fedservice/entity/function/__init__.py:get_verified_trust_chains"]}
