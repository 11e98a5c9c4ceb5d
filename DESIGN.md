# Formal model of fedservice: design

Source: `/repo` (rohe/fedservice, read as text, never run). Model and proofs: `/verif/lean` (Lean 4).

## Method

* Shallow embedding. One small total computable function per Python function, branch by branch.
  Python exceptions are values: a function that may raise returns `Except PyErr α`. Code that mutates an
  object returns the new object. Code that mutates and may raise half way returns the state reached
  as well, whenever the state after a failure is observable by a later call.
* Loops without an obvious bound (`while True` in `apply_metadata_policy`, the recursion of
  `collect_tree`/`collect_branch`, `trawl`) take fuel, with theorems about how much fuel suffices, or that none does.
* JSON documents are `Val` (null, bool, int, string, array, object). Python dicts are association lists
  with first-match lookup. Objects inside values are understood to be written with their keys in a canonical
  order, so that structural equality is Python's `==` on dicts. Floats are left out, and Python's `True == 1` is not modelled
  (booleans and integers are distinct values).
* Iteration over a Python `set` (and `list(set)`) has no specified order. Wherever the code does it, the model takes
  the enumeration as a parameter (`SetEnum`: any function returning the distinct members in some order), so theorems
  hold for every hash seed.
* External code is a parameter: signature verification, JWT parsing, HTTP, clock, `urlparse`. What is assumed about it
  is written beside the parameter and repeated under "Trusted base".
* When the code violates a property, the model follows the code. The violation is proved as a theorem with a concrete
  witness (name ends in `_violation`), and the strongest true part is proved with suffix `_partial`.

## Layout (`lean/Verif/`)

| modules | model of | properties |
|---|---|---|
| `Py` | errors, `Val`, dicts, sets and their enumeration | – |
| `Statement` | the claims of an entity statement the other modules look at; signed statements; what is open about cryptojwt | – |
| `Policy/Operators` (+`Lemmas`, `Props`) | `policy_operator.py`, `apply_metadata_policy`, `apply_policy` | C01–C11, C19 |
| `Policy/Combine` (+`Lemmas`, `Props`) | `combine_*`, `do_*`, `combine`, `gather_policies`, `_policy`, `__call__`, `diff2policy` | C12–C18, C20, C22 |
| `Policy/HashOrder`, `HashOrderCombine` | independence of set enumeration | C10, C11, C21 |
| `Policy/Exact`, `Policy/Compatible`, `Policy/Demands` | nothing refused without reason; compatible policies; what survives combining | C106, C107, C111 |
| `Constraints/Model` (+`Lemmas`, `Props`, `Complete`) | `entity_statement/constraints.py` | C23–C27, C68, C69, C108 |
| `Collect/Tree` (+`Props`) | `tree2chains` | C28, C29 |
| `Collect/Cache` (+`Props`) | `ESCache` | C32 |
| `Collect/Collector`, `Keys`, `CollectorLemmas`, `CollectorProps`, `HistoryProps`, `Transparency`, `Held` | `trust_chain_collector.py`: `collect_tree`, `collect_branch`, fetching, both caches, cache keys, histories of collections | C30, C31, C33, C34, C70–C72 |
| `Verifier/Model` (+`Lemmas`, `Props`) | `verifier.py`: `TrustChainVerifier` | C35–C42, C73–C75 |
| `Chains/Model` (+`Lemmas`, `Props`) | `TrustChain`, `chains2dict`, stored chains, `pick_*`, `get_verified_trust_chains`, `apply_policies` | C43–C47, C67, C76–C79 |
| `Chains/InPlace` (+`Props`) | `TrustChainPolicy.__call__` and what it does to the statements of the chain | C152, C11 |
| `Chains/Liveness`, `Chains/Unresolved`, `Chains/Enforced` | the same: well-run federations; constraints and policies on what is returned | C109–C111 |
| `TrustMarks/Store` (+`Props`) | `FileDB`, `SimpleDB`, `TrustMarkEntity`, status and list endpoints | C48–C51, C53, C80 |
| `TrustMarks/Verify` (+`Props`) | `trust_mark_verifier.py`, `verify_trust_mark` | C52, C81–C83 |
| `Server/Create`, `Fetch`, `List`, `Resolve` (+`Props`) | `create_entity_statement`; fetch, entity configuration, list and resolve endpoints; `get_chain` | C54–C59, C84–C91 |
| `Message/Crit` (+`CritProps`, `ChainProps`) | `crit` handling in `message.py` | C60, C92 |
| `Registration/Request`, `Setup` (+`Props`) | `appserver/oauth2/registration.py`: `verify_redirect_uris`, `match_claim`, `filter_client_request`, `do_client_registration`, `client_registration_setup`; `import_client_keys` | C61–C63, C93, C94 |
| `Registration/Automatic` (+`Props`) | client authentication of the application servers, automatic registration, key lookup | C64–C66, C95, C96 |
| `Registration/Explicit` (+`Props`) | explicit registration endpoints (oauth2 and oidc) | C97, C98 |
| `Registration/Addresses` | (more about registration: addresses, keys, entries of clients registered automatically) | C94, C154, C64, C65 |
| `Discover/Trawl`, `Endpoint`, `Who` (+`Props`) | `trawl`, `trust_anchor.py`, list request, location of configurations, who endpoint | C99–C105 |
| `Client/Register` (+`Props`) | `appclient/*/registration.py`: what a client makes of a registration response | C112–C114 |
| `Client/Authorization` (+`Props`) | `appclient/*/authorization.py`: authorization requests of clients that are not registered | C115–C118 |
| `Client/Provider` (+`Props`) | `stand_alone_client_entity.py` 52-196: provider metadata, kind of registration | C119–C122 |
| `Client/Session` (+`Props`) | `stand_alone_client_entity.py`: response type and mode, beginning and finishing an authentication, tokens | C123–C129 |
| `Chains/Served` (+`Props`), `Collect/Reissue`, `Chains/Reissued` | server and client together: a federation whose members run this software; statements made anew with each request | C133 |
| `Config/Anchors` (+`Props`) | `make_federation_entity`, builder defaults, `add_trust_anchor`: which dict objects are shared | C134–C136 |
| `Config/Files` (+`Props`) | `load_values_from_file` | C137, C138 |
| `Config/Build` (+`Props`) | `build_entity_config`, `FederationEntityBuilder`, the tables in defaults.py. (`who` among the services and `metadata_verifier` among the functions name classes that are not in /repo; instantiating them is not modelled.) | C139, C140 |
| `Client/Requests` (+`Props`) | the requests of the client services `trust_mark_status`, `trust_mark_list`, `entity_statement`, `list` and what the endpoints of this software read in them. Encoding of queries is not modelled. | C141, C143, C144, C145 |
| `TrustMarks/Life` (+`Props`) | the status question of `verify_trust_mark`, put by the modelled client to the modelled issuer, in a federation as in `Chains/Served` | C142 |
| `Server/Publish` (+`Props`) | `FetchEntityStatement`, `FSFetchEntityStatement`, `FSPublisher` (fetch_entity_statement/). URL parsing and decoding are parameters; names are single path components. | C146-C148 |
| `Server/Context` (+`Props`) | `FederationContext`: sources of hints, marks and roots, `create_entity_statement`; the entity configuration endpoint; `SelfSignedTrustMarkEntity`; the statement that answers an explicit registration | C149-C151 |
| `Server/ContextGiven` | (statements about `create_entity_statement` of the context) | C153 |
| `Server/Roles`, `RolesProps` | combo/__init__.py `FederationCombo.get_metadata`; `get_metadata` of federation entities, servers and clients; the entity configuration endpoint; appclient/oauth2/registration.py `create_entity_statement`. Left open: idpyoidc's `get_client_metadata` and `get_server_metadata`. | C156 |
| `Config/Settings`, `SettingsProps` | entity/context.py, entity/\_\_init\_\_.py and entity/client/\_\_init\_\_.py, the constructors; the end of `make_federation_combo` in utils.py. Assumed of idpyoidc: the metadata of a federation entity is made of its preferences and endpoints. | C157, C158 |
| `Collect/Mixed`, `MixedProps` | entity/client/entity\_configuration.py `post_parse_response`, with the cache and the two places of trust\_chain\_collector.py that subscript it. Which answers a client accepts is left open; what `TrustChainCollector.__call__` makes of such an entry is in `Discover/Walk`. | C159 |
| `Chains/Upheld` | server and client together, as in `Chains/Served` | C160 |
| `Discover/WhoSettings` | `who.py` 24-33 | C161 |
| `Registration/Response` | `extra_response_args` of the three authorization endpoints | C162 |
| `Registration/Secret` | `message.py` 159-175 | C163 |
| `Config/Combo`, `Config/ComboProps` | `combo/__init__.py` 19-55, 87-108 | C164 |
| `Client/Finalize` (+`Props`) | `stand_alone_client_entity.py` 340-378, 441-453, 579-659 | C165, C166 |
| `Client/TokenClient` | the client id of token requests against registrations | C167 |
| `Client/MarkEndpoint` | `entity/function/__init__.py` 164-176, `entity/client/trust_mark.py` 59-71 | C168 |
| `Config/Kinds` | the decisions in the constructors `ClientEntity`, `ServerEntity` | C169, C170 |
| `Config/Parts` | `get_attribute` of the federation entity, its client and server, and combinations; the places that use the key jar; `verifier.py` 23-103 with two key jars | C171, C172 |
| `Config/Lookup` | `entity/utils.py` 20-36; `get_context_attribute` of the federation entity and its client | C174, C175 |
| `Config/Applied` | `combo/__init__.py` 148-154 | C176 |
| `Client/Ending` | `stand_alone_client_entity.py` 711-751 (logout, close, clear_session) | C173 |
| `Client/Pushed` | what servers state about request authentication: `entity/claims.py` 17-59, `appserver/o*/authorization.py` 25-36, `pushed_authorization.py` 24 | C177 |
| `Client/Welcomed` | what a client makes of a response in a well-run federation (proofs about `Client/Register`, which models `appclient/oidc/registration.py` 90-161) | C178 |
| `Client/Enrolled` | the request of an OpenID client: `appclient/oidc/registration.py` 49-85; request, answer and its acceptance together | C178-C180 |
| `Client/Taken` | `appclient/oauth2/registration.py` 202-225 and what the next requests use of it | C181 |
| `Chains/Elsewhere` | federations that differ elsewhere | C250 |
| `Chains/OtherTypes` | federations whose authorities say other things about other types of entities | C249 |
| `Chains/OwnRules` | federations whose members have other policies and constraints in their own configurations | C248 |
| `Chains/OwnMatter` | federations whose members say other things about themselves | C247 |
| `Chains/MoreKeys` | federations whose authorities list further keys, or whose statements are valid for longer | C245, C246 |
| `Chains/Restated` | federations alike but for what authorities say about others: collecting and verifying | C242 to C246 |
| `Chains/Constrained` | federations whose authorities constrain more | C244 |
| `Chains/Permitted` | federations whose authorities permit less or demand more | C242, C243 |
| `Policy/Narrow` | policies that permit less or demand more | C240, C241 |
| `Policy/Names` | claims and entity types are only names | C239 |
| `Policy/Values` | policies only compare values | C238 |
| `Setup/Asking` | the scripts that ask a resolver and an issuer of trust marks | C237 |
| `Policy/Said`, `Chains/Said` | where the values in resolved metadata come from | C236 |
| `Policy/Merged` | grouping and order of authorities in a chain | C234, C235 |
| `Chains/Renamed` | federations that differ in names only | C233 |
| `Chains/Renewal` | processes with different `allowed_delta` | C232 |
| `Collect/Many` | the number of trust chains | C231 |
| `Collect/Asked` | the questions put during one collection | C230 |
| `Chains/Declared` | resolution after entities have declared more | C229 |
| `Collect/Passing`, `Chains/Waiting` | caches while documents expire; resolution at two times | C70, C228 |
| `Policy/More` | entities that declare more | C227 |
| `Policy/Narrowed`, `Policy/Tighter` | what one more restricting statement does | C226 |
| `Chains/Gained` | what naming further authorities gives | C225 |
| `Constraints/Stricter` | making constraints stricter | C224 |
| `TrustMarks/Shared` | the file store used by several processes | C223 |
| `Chains/Joined` | what naming further authorities does to resolution | C222 |
| `Chains/Reordered` | the order of authority hints | C221 |
| `Server/ResolvedElsewhere` | what a resolver answers against what one finds oneself | C220 |
| `Chains/AnotherAnchor` | what adding a trust anchor does to resolution | C219 |
| `Collect/Moving`, `Collect/MovingProps` | trust_chain_collector.py 184-376 and cache.py 25-40, while time passes and documents are renewed | C218 |
| `Discover/WalkSame` | what requests, walks and resolutions do to later resolutions | C217 |
| `Discover/Walk`, `Discover/WalkKeys` | what requests, walks and resolutions do to the caches and keys of an entity | C216 |
| `Registration/SharedKeys` | what registrations do to the keys trust chains are verified with | C215 |
| `Registration/Named` | what requests leave behind in the stored chains of an OpenID provider | C214 |
| `Chains/AtOnceSound` | entities resolved at the same time in any federation | C213 |
| `Chains/AtOnce` | resolution cut up into its accesses to what threads share; equality with the sequential model | C212 |
| `Chains/AtOnceProps` | entities resolved at the same time | C212 |
| `Verifier/Threads` | trust chains verified at the same time | C211 |
| `TrustMarks/Members` | trust marks in federations that change, with delegations and stored chains | C142 |
| `Chains/Flux` | federations that change while they are used | C210 |
| `TrustMarks/Anchors` | trust anchors as entities and as trust mark issuers | C209 |
| `Collect/Again`, `Chains/Again` | resolving a second time, without the network | C208 |
| `Policy/Repeated` | authorities that say nothing, or say again what was said above | C207 |
| `Registration/Later` | automatic registration with statements made anew, and of clients that were dropped | C204, C205, C206 |
| `Registration/Admitted` | members let in by automatic registration, with and without a trust chain handed in | C204, C205 |
| `Server/Standing` | federations of this software are orderly for a resolver | C91, C205 |
| `Client/IssuerThreads` | requests to several entities at the same time | C203 |
| `Registration/Threads` | several requests of clients at the same time | C202 |
| `Collect/ConfigThreads` | several threads on the cache of configurations | C201 |
| `Setup/Tools` | the small scripts that show statements, chains, subordinates and trust marks | C200 |
| `Collect/Withdrawn`, `Chains/Withdrawn` | authorities that have stopped making statements | C199 |
| `Collect/Threads`, `ThreadsProps` | several threads on one statement cache, trust_chain_collector.py 265-299 | C198 |
| `TrustMarks/Issuers` | trust marks of members that are not listed as issuers | C195 |
| `Web/Logout` | cookies and logging out in the front ends, /repo/edu_federation/openid_provider/views.py | C196, C197 |
| `Policy/Separate`, `Collect/Separate` | what does not influence policies and collections | C193, C194 |
| `Web/Login` | the callback of the relying party's front end; login form and session check of the provider's | C190, C191, C192 |
| `Web/View` | the views at `/.well-known/openid-federation` | C187 |
| `Web/Service` | `service_endpoint` and `do_response` of the views, with the endpoints | C188, C189 |
| `Setup/Scripts`, `Setup/ScriptsProps` | `dc4eu_federation/get_info.py`, `add_info.py`, `command.sh`: enrolling entities and handing out trust anchors | C185 |
| `Setup/Tree` | `script/tree.py` | C186 |
| `Client/EnrolledOauth` | composition of the OAuth request, the registration endpoint and the client | C184 |
| `Discover/WellKnown` (`Props`) | `entity/client/entity_configuration.py` 23-30, 51-111, `trust_chain_collector.py` 127-166, with `urlparse` on characters and the address served (`entity/server/__init__.py` 48) | C182 |
| `Client/Resolving` | `entity/client/resolve.py` 28-51 with the endpoint of `Server/Resolve` | C183 |
| `Client/Http` (+`Props`) | `appclient/__init__.py`, `entity/client/__init__.py`: handling of HTTP responses, lookup of metadata claims | C130–C132 |
| `Conformance/Policy`, `Conformance/Entities` | none: the inputs and expected outcomes of /repo/tests (04, 05, 09, 40, 41, 55) put through the model, to check the reading of the code | – |

Each area has a model module, helper-lemma module where needed, and a property module (`…Props.lean`) holding only
specifications, property theorems, violations and non-vacuity examples.

## Plan per property

| id | what is modelled, how it is proved |
|---|---|
| C01 | operator loop; after `value` the loop can only run `essential`, which does not write. Case analysis of the 7-step sequence for one claim, lifted over the claim iteration (claims are independent). |
| C02 | same; `subset_of` writes an intersection, later operators do not write. Scalar metadata is a violation (tested against operator names). |
| C03 | same; later operators do not write. |
| C04 | same; list-valued metadata is not checked: violation. |
| C05 | same; with `subset_of` the added values may be dropped: exact characterisation. |
| C06 | comparing the loop with and without `default`. |
| C07 | `essential` runs last on every path. |
| C08 | frame lemma for the claim loop and dict update. |
| C09 | fuel model of the `while True`; 8 iterations always suffice and more fuel gives the same answer. |
| C10 | claims commute: per-claim function, independence lemma; lists compared as sets. |
| C11 | per-claim algebra; violation for scalar `add`. |
| C12, C13 | spec `Sat` of a claim policy; violations for `superset_of` (intersection) and `essential` beside `value`. |
| C14 | induction over the chain with the monotonicity of `combine`. |
| C15 | case analysis. |
| C16 | violation (checks are skipped when another operator such as `essential` is present), partial for the operator sets the code checks. |
| C17 | dict lemma. |
| C18 | induction over the chain. |
| C19 | violation (leaf wins); partial: used when the leaf is silent. |
| C20 | violation for the first statement of the chain; proved for all others. |
| C21 | set equality through `combine`. |
| C22 | round trip. |
| C23 | violation (`max_assigned` is never set); partial: what is rejected. |
| C24 | violation (a subordinate's more specific exclusion replaces the superior's); partial. |
| C25 | invariant over the loop; transitivity of `more_specific`. |
| C26 | violation; partial. |
| C27 | equivalence with a suffix specification. |
| C28 | refinement to an inductive path enumeration. |
| C29 | violation. |
| C30 | violation: cyclic hints exhaust every amount of fuel; partial: acyclic graphs terminate. |
| C31 | induction on fuel. |
| C32 | refinement to a map with expiry over arbitrary histories. |
| C33 | same. |
| C34 | violation for identifiers with `!!`; injectivity for identifiers without `!`. |
| C35–C38 | verification loop over an abstract signature check; key provenance invariant over histories. C36 is violated after a successful verification. |
| C39 | fold = minimum for non-negative times. |
| C40, C41 | violations with concrete chains; partial. |
| C42 | induction. |
| C43, C44 | refinement to a map. |
| C45 | violation (second call is in the other order); partial. |
| C46 | proved for fresh chains, violation for stored ones. |
| C47 | violation; partial. |
| C48 | violation (an expired mark of another subject hides active ones); partial. |
| C49, C50 | list lemmas. |
| C51 | violation (second mark with the same id fails); partial. |
| C52 | decision logic; violation for delegation. |
| C53 | composition of issuance and find; partial. |
| C54–C56 | endpoint as state transformer; C55 and C56 violated. |
| C57 | violation (union); partial. |
| C58 | decision logic. |
| C59 | dict algebra. |
| C60 | decision logic. |
| C61–C66 | decision logic over an abstract URL parser / registration step. |
| C67 | loop over chains with exceptions; violations; converse: success means no good chain is missing. |
| C68 | `more_specific` against a host specification; violations by path and port. |
| C69 | case analysis; violation when one of the two lists is missing. |
| C70 | simulation between runs with empty and arbitrary reachable caches; violation for an expired configuration. |
| C71 | success of the collection = success through each authority; violation. |
| C72 | invariant of the cache; violations. |
| C73 | key jar only grows; acceptance is monotone in it. |
| C74 | violation by an earlier verification; partial with provenance of keys. |
| C75 | induction over the chain. |
| C76 | composition of the collector's and the verifier's invariants over arbitrary states. |
| C77, C78 | violations by hints to oneself and by a foreign subject; partial. |
| C79 | `value` survives `combine` and application (C14), lifted to `get_verified_trust_chains`. |
| C80 | list lemmas over histories of issuing; violation. |
| C81–C83 | decision logic over the chains model; violations. |
| C84–C86 | dict algebra over `create_entity_statement`; C85 violated. |
| C87, C88 | registry invariants, key jar provenance within the loop; violations. |
| C89–C91 | composition of `get_verified_trust_chains` and `get_chain`; violations; partial for orderly federations. |
| C92 | resolution gives the same answer with `crit` stripped; violation. |
| C93, C94 | characterisation of the stored client entry. |
| C95, C96 | state after refusal; violations; partial. |
| C97, C98 | decision logic over chains model and an abstract registration step. |
| C99, C100 | `trawl` with fuel against an inductive reachability; violation by a cycle, partial by rank. |
| C101–C103 | decision logic; violations. |
| C104, C105 | soundness and completeness of the who filter; violations. |
| C106 | inversion of each operator: error only with a reason; exact result. |
| C107 | invariant `Allows` is kept by combining; violations for `superset_of`. |
| C108 | invariant over the accumulated constraint sets; violation. |
| C109 | liveness: induction on rank through collector, verifier and policies, from any faithful cache state. Violation: policies that the metadata satisfies one by one need not combine. |
| C110 | C23–C25 lifted to what `get_verified_trust_chains` returns; violation. |
| C111 | relation `Demands`/`Adds` kept by combining, lifted likewise; violations. |
| C112–C114 | composition of collector, verifier and policies on the client's side; both variants; violations with concrete federations. |
| C115–C118 | decision logic over abstract server metadata; violations. |
| C119–C122 | composition with `get_verified_trust_chains`; state transformer; violations. |
| C123–C126 | case analysis; sorting is invariant under permutation; violations. |
| C127 | invariant over all histories of beginning and finishing; violation by replay. |
| C128, C129 | case analysis; C128 violated. |
| C130–C132 | case analysis over status codes and abstract parsers; violations. |
| C133 | the server theorems (C56, C59, C84, C86) discharge the hypotheses of C109. For statements made anew with each request: the collector cannot tell the federation from one that always publishes what is in the caches (and, for the rest, what is found now); that one is well run as long as nothing cached is about to expire, so C109 applies. Beyond a day: violation. |
| C134–C136 | numbered dict objects; invariants over all programs; violations, one through to an accepted chain. |
| C137, C138 | mutual recursion over values; induction over places; C137 violated for lists. |
| C139, C140 | lookups through the tables, invariant over all histories of entities made; violations. |
| C141, C143, C144, C145 | the query as a dict, composed with the theorems about the endpoints (C53, C54, C57, C80); violations. |
| C142 | C133 twice (before and after the issuer's chains are stored: the jar only grows, the caches stay those of a history), C38 for the key, C52, C53 and C141. Elsewhere: caches, keys and stored chains are kept as in C210 by all questions (`asked_seen`). |
| C146-C148 | Invariant of the key jar of an object over all earlier requests (what it has for an ordinary name is what the directory has), then C59. Swapped arguments: read off C59 for every answer. |
| C149, C150 | C59 with the arguments computed; violations by evaluating concrete cases. |
| C151 | Induction over the later history: the list of marks only grows. |
| C152 | The loop over entity types with the leaf's metadata as state; induction over the types shows what each leaves behind, and that the metadata resolved is that of the model without state, which all other theorems use. |
| C153 | Case analysis over the arguments and the sources, using C59 for the statement itself. |
| C154 | The record of keys after a registration as a function of the one before; case analysis of the metadata. |
| C155 | Case analysis of every way `parse_response` can end, with the state it leaves. |
| C156 | Induction over the parts of the entity: a type that only one part speaks about has what that part says. |
| C157 | From C156 and C149, with the entity as `make_federation_combo` leaves it. |
| C158 | The context of an entity computed for all settings; C153 for the statements made in it. |
| C159 | Invariant over histories: where an entry of the cache comes from. That answers to the client stay, by induction over the history. |
| C160 | The chains returned are those of the directory of C133 (without assuming that anybody keeps to the policies); C84 and C59 for what the statements say; C110, C111 and C79 for the effect. |
| C161 | The answer to an empty request is equal to the answer to a request that states the settings; where they are dropped the answer is always empty. |
| C162 | The response made after `client_authentication` is related to the chain that passed verification; the case where chains are not kept, or kept under another name, by witness. |
| C163 | What the response has in the three members is computed from request and skeleton; the check is a function of these. |
| C164 | By induction over the configuration: what each part is made with and what the configuration is afterwards; two combinations in a row by applying that twice. |
| C165 | Case analysis of finishing an authentication, on top of what C127 and C128 say about its parts. |
| C166 | What is kept for the session after the response is what was kept updated with the response; response type and redirect URI are read from that. |
| C167 | The client id in token requests, with C65 for what the server keeps after an automatic registration; a concrete explicit registration for the violation. |
| C168 | C133 for the metadata resolved in a well run federation; C47 for chains kept from earlier. |
| C169, C170 | Case analysis of the constructors, composed with C164's model of combinations. |
| C171, C172 | Two key jars are kept apart that C35 to C42 take for one: the federation entity's own and the one found by asking upwards. It is proved when they are the same, so that those theorems apply. |
| C173 | Everything an application does is a list of acts on the stored sessions; induction over the acts after a session was cleared. idpyoidc's `remove_state` is assumed to remove the session and the keys leading to it. |
| C174, C175 | An object is given by itself and the list of units above it; induction over the list, in both directions. For C175 the three contexts are dictionaries of attributes. |
| C176 | Parts of a combination with the metadata in their contexts; induction over the metadata applied so far. That clients made by idpyoidc look claims up as `get_metadata_claim` of /repo does is an assumption. |
| C177 | What servers state is taken from the source; the client's choice is that of C116. The violation is for every statement that names the endpoint for pushed requests, not for one client only; that no configuration helps is a theorem about all of them. |
| C178 | Composition: the request (`Client/Enrolled`), the provider (`Registration/Explicit`), its response (`Server/Context`), the client (`Client/Register`), in the federations of C133. That each takes what the other made is proved, not assumed; what idpyoidc registers is a parameter. |
| C179 | The request is made by the combination of C156. The consequence (no answer is taken) is proved for all providers and states. |
| C180 | The key jar after a response was taken is computed from the documents looked at, then C38. |
| C181 | Induction over the parts; the token request of C165 with what the parts have afterwards; the provider's side is C57/C63. What idpyoidc makes of preferences is a parameter. |
| C182 | `urlparse` is written out over lists of characters; lemmas on what it makes of an id and of the addresses built from one; the web is the set of entities with the addresses they serve at. Violations by witness. |
| C183 | The request as the endpoint reads it, then C58. |
| C184 | As C178, with the OAuth request (`Server/Roles`), the chains collected for the signed request itself (`Registration/Explicit`), the registration of C57/C63 and the client's own chain with its metadata replaced; C109 generalised to any statement the entity signed (`WellRun.judged`). |
| C185 | The steps of the scripts as transitions of a site (what each entity is configured with); an invariant says what is in a registry after any list of steps; then C57, C63 and C133 apply to the entities started with it. |
| C186 | The script as a function of the answers, with fuel; `Under` is reachability through lists. Induction on fuel; termination by a rank; then the answers are those of entities set up as in C185 and the chains come from C185. |
| C187 | The views as functions of the configuration, with the statement of C153; what `Publishes` asks for is stated claim by claim. |
| C188 | `service_endpoint` over an arbitrary endpoint (parse, process, render); case analysis; then the endpoints of the other modules are put in. |
| C189 | Whether a mark is created does not depend on the subject, for both stores; then C53 and C188. |
| C190 | The view as a function of the handler (clients by provider), composed with `finalize` of C165; what is held about trust chains has either of the two types the code stores. |
| C191 | The session check as a function of issuer, client database and arguments. |
| C192 | The login form over an arbitrary authentication method and authorization endpoint. |
| C193 | Two chains that agree on a claim are run side by side: combination and application act on each claim by itself (`combine_ok`, `combine_error`, `applyPolicy_ok`, `applyPolicy_error`). |
| C194 | Two collections that agree on a set closed under hints are run side by side; induction on the depth. |
| C195 | Violation by a federation whose anchor lists another issuer. Two marks of one issuer are verified side by side; the first half of C142 for a mark made as in C151. |
| C196 | `_add_cookie` on any specification; induction on lists of them. |
| C197 | `rp_logout` for an arbitrary session endpoint of idpyoidc; the cookies by C196. |
| C198 | `_get_entity_statement` cut up into its accesses to the cache, any number of calls, any schedule; shown to be the function of the sequential model when not interrupted. Invariants over all schedules; violations by schedules of two calls. |
| C199 | Invariant of the statement cache over histories: the expiry noted for the pair is not after the last one given. The tree then has no such branch; with C76 no chain. Violation by a stored chain. |
| C200 | The scripts as compositions of the modelled steps; what is printed with its heading as the result. Counterexamples for three of them; with C76 and C35 for the chains, with `WellRun` (C109) and C168, C145, C141 for well-run federations. |
| C201 | `get_federation_fetch_endpoint` and the cache it reads, cut up into single accesses; any number of calls take turns in any order. An invariant over all runs says where each configuration and each error came from; uninterrupted, the accesses are `fetchEndpoint`. |
| C202 | `client_authentication` of the OpenID endpoint cut up into single accesses to the client database, and requests that only look for the client; any number of them take turns in any order. Uninterrupted, the accesses are `clientAuthentication`. Counterexamples with two requests; invariants over all runs for what is left. |
| C203 | `do_request`, `TrustMark.get_endpoint` and `get_trust_chains` cut up into single accesses to the shared name of the issuer and to the trust chains that are kept; any number of threads take turns in any order. Uninterrupted, the accesses are `trustMarkEndpoint`. One invariant over all runs for what holds; counterexamples with two to four threads. |
| C204 | The server of C29, with `client_authentication` at each of its endpoints, in the federation of C133: an invariant says that after any requests and lookups the collector caches are coherent with what the members publish and the key jar has only grown. So the next collection gives a chain for each way up (C133), and the registration goes through. |
| C205 | The chains of C133 are accepted one by one by the verifier as they are handed in, leaf first, in any world. The resolver's answer is such a chain since a federation of C133 is orderly in the sense of C90 (`Server/Standing`). Exported chains are documents without signature; the verifier raises for the first one. |
| C206 | The invariant of C199 (the expiry noted in the cache for a pair is not later than the last statement) holds for the caches of a server after any requests (`collected_visits`); so no chain is collected and the registration raises. The chain of the first day is the witness against the full statement. |
| C207 | `Contains`: what a policy must have for another one to add nothing to it; it holds after combining with a policy in order, is kept by further combinations, and makes combining once more the identity up to the order of lists; the chain level is an induction, and set-equal rules resolve to set-equal metadata (C21). |
| C208 | `Stays`: statements with their expiry, and configurations, that are not about to expire stay during a collection; so a call that succeeded can be made again on any later state without the network (induction over the tree); verifying again with the keys learnt is the identity on the key jar. Violations by concrete federations. |
| C209 | The tree of an anchor that names at most itself is empty or has the anchor alone; a chain of one statement has no entity type to take metadata for. So no history leaves chains for it in the store. Violations by the concrete federation of C42. |
| C210 | What is found at present, from caches and network, is a directory each document of which was published during the period (`foundNow`); the rules of `Flux` make it a well-run federation, to which C109 applies. Violation by a federation of four members one of which changes its key. |
| C211 | `verify_trust_chain` cut up into its accesses to the key jar; invariants over all schedules: the jar only grows, what was verified so far is signed with keys it holds, the keys listed so far are in it. Uninterrupted, the steps are the sequential function. Violations by two chains that bring each other the keys. |
| C212 | The functions of collection, verification and resolution cut up into their accesses to caches, key jar and store (a tree of accesses per thread, any number of threads, any schedule). Rely and guarantee: nothing is taken away, and caches hold only what is published; each step shown safe, the composition by induction over the tree and over the schedule. Uninterrupted, the steps are the sequential functions. |
| C213 | The same accesses as in C212, with an invariant that asks nothing of the federation: the caches hold what was there or was found, the key jar what is backed, the store what is sound; rely: the key jar only grows. |
| C214 | Histories of the functions modelled in `Registration/Automatic` and `Chains/Model`; each event is shown to be what a thread of C213 does, so that C213 can be used. The violations are one request, computed. |
| C215 | Histories of the functions modelled in `Registration/Automatic` and `Chains/Model`; with one key jar, what a request recorded is read into the jar of the federation entity. The invariant is that of C213, which each event keeps; keys that came in by registrations count as there from the start, and are then shown to play no part. The violation is one request and one chain, computed. |
| C216 | The requests the client makes, the walk and the resolution as functions on the caches and the key jar the entity has for all of them; histories are lists of such. Invariant: documents in the caches were offered, keys were come by through offered documents. The violations are computed federations, in which all documents are members of a finite list. |
| C217 | As long as the answers in the cache are not about to expire, the collector does what it does with a cache of what it found itself (simulation, by induction along the collection); then the invariant of the transparency proof (C70) is kept by each request, walk and resolution, and the key jar only grows, which does not change accepted chains. The violation is one request, computed. |
| C218 | The collector again, with the clock and the answers of others read anew at each look. Agreement with a collection at one moment, by induction along the collection, when nothing passes a limit; a simulation between two collectors with kindred caches when documents are renewed. The violation is one course of events, computed. |
| C219 | The collector does the same with one more anchor (induction along the collection, with the invariant that the anchor does not name itself); verification is monotone in the key jar, also in what it leaves in the jar when it fails (induction along the chain), so the verified chains before are a sublist of those after; policies are applied chain by chain. The violations are computed. |
| C220 | What both collect is what a collection without caches finds (C70), and that is the same wherever it would stop if everything ends there anyway (induction along the collection); a chain accepted with two key jars gives the same verdict with both; policies give the same up to the order of lists (C21); the answer states the metadata of the first chain to the anchor (C58, C59). That there is an answer: C91. The violations are computed. |
| C221 | What is collected is what a collection without caches finds (C70); that succeeds if every branch does and consists of the branches of the authorities named, so trees of reordered federations have the same chains (induction along the collection); verification and policies do not read the hints of the configuration at the end of a chain; settled chains are verified the same whatever came before. The violation is computed. |
| C222 | The chains of the tree are those of the branches of the authorities one after the other, so the chains before are a sublist of those after (induction along the collection); verification is monotone in the key jar (C219) and does not read the hints at the end of a chain (C221), so verified chains before are a sublist too. The violations are computed. |
| C223 | Processes take steps in any order: look whether a file exists, empty it, open it for appending, write one part of a line. Invariant over all schedules: the files are there, so that nobody is about to empty one, and have the lines of the marks added so far in the order of the writes. Lines are read back from the parts; the violations are computed schedules. |
| C224 | Two runs of the loop over the statements are related: whatever passes the names accumulated in the first passes those of the second. Adding names to what is accumulated keeps this, as being more specific is transitive; the verdict does not depend on the path length so far. The violations are computed. |
| C225 | Induction along the collection before and after the change: a chain of the tree after is one of the tree before or takes a link that is new, which is stated by an inductive relation between the entity and the statements. Settled chains are verified independently of each other (C221), and the verdict about a chain does not depend on the hints at its end. The violation is computed. |
| C226 | One claim at a time, by the closed form of the operator loop (C01-C11): the combined policy has the superior's add and default, its subset_of and one_of are within the superior's, its superset_of is the superior's or new, its essential is at least as demanding. What is asked of the statements is carried through the gathering by an induction for properties that every combination keeps. For a statement in the middle, a relation between the policies gathered with and without it is kept by every combination with the statements below. The violations are computed. |
| C227 | One operator at a time: each step of the closed form of the operator loop (C01-C11) keeps the relation that the second value is the first or a list with further values. |
| C228 | Caches in which documents have expired agree with what the federation publishes as far as they are used (`Aging`); so a collection gives what the documents give without caches, and that is compared at two times. |
| C229 | What is collected is the same but for the configuration of the subject (`DeclaredMore.collect`); each chain is verified with the same outcome and leaves the same keys (`accepted_framed`), and the policies leave at least what they left (`callPolicy_fuller`, from C227). |
| C230 | The functions of the collector once more, with a record of the questions (`Collect/Asked`), proved to be the same otherwise (`collectA_collect`); invariant that what was asked is kept and will be found (`Kept230`), for each function; two federations where it is not so. |
| C231 | Count of the chains of a tree that is faithful to the hints (C31), by induction over it; for the violation, the tree collected from a ladder of n rungs with two entities each, by induction over n (from C70: what is collected is what is published). |
| C232 | What is collected is what is published (C70, C228), and that depends on the setting only through what counts as recent enough (`Later`, by induction over the tree); a federation whose trust anchor publishes configurations that last for 200 s. |
| C233 | What is collected is what is published (C70, C228); publishing, the tree, the chains made of it, their verification with the key jar and the policies commute with the renaming, function by function (`Renamed.*`); a federation where one member is called `q` or `y!!z`. |
| C234 | Policies with one operator combine to the union or the intersection of their sets, or to the common value (`meansS_combine`, `meansV_combine`), which is associative (`uses_assoc`); claim by claim this gives the same rule (`combine_assoc`), also below whatever the authorities above combine to (`gathered_keeps`). |
| C235 | As C234, with commutativity (`uses_swap`, `uses_comm`, `combine_swap`). |
| C236 | What policies can put into a claim, and their operators, are kept by combining (`Puts.combined`) and reach the claim unchanged or as members (`claimRun_part`); metadata of authorities is taken over as it is (`gathered_metadata`). |
| C237 | `Setup/Asking` models the two scripts; the endpoint comes from C168, the answer of the resolver from C183, C91 and C133, the marks and their status from C189. |
| C238 | `Policy/Values`: every step of combining and applying commutes with an exchange of texts, in a process that has its sets in the exchanged order; C21 gives all other orders. |
| C239 | `Policy/Names`: with sets in the order in which they were made every step commutes with giving other names; C21 gives all other orders. |
| C240 | `Policy/Narrow`: a relation between policies, kept by every step of combining and applying; C21 gives all orders of sets. |
| C241 | `Policy/Narrow`: the relation of C240 with longer lists for `superset_of`; the intersection of what two authorities demand is the violation. |
| C242 | `Chains/Permitted`: trees of pairs of statements, before and after, are collected and verified alike; C240 for the policies. |
| C243 | `Chains/Permitted`: as C242, with C241 for the policies; its violation occurs in a federation of three entities. |
| C244 | `Chains/Restated` and `Chains/Constrained`: trees of pairs of statements, as for C242; the key jar is the same whether or not the constraints are met; C224 for the constraints. |
| C245 | `Chains/MoreKeys`: the key jar of the one run has keys for the same entities as that of the other, and at least the same ones, at every step; trees of pairs of statements as for C242. |
| C246 | `Chains/MoreKeys`: as C245; the loop over the ends of validity yields the same or a later one, where the earlier one is not negative. |
| C247 | `Chains/OwnMatter`: the tree of statements collected is the same, by induction on its depth; with the same key jar the rest is the same. |
| C248 | `Chains/OwnRules`: the same tree is collected; of the last statement verification reads issuer, subject, end of validity and keys, and resolving the metadata reads the metadata. |
| C249 | `Chains/OtherTypes`: what is collected and verified is alike (`Chains/Restated`); policies are gathered type by type, for the types in the entity's configuration, by induction on the trust chain. |
| C250 | `Chains/Elsewhere`: the tree collected depends on the entities one gets to by hints (`Above`, an inductive predicate), by induction on its depth; with the same key jar the rest is the same. |

## Trusted base

* Lean's kernel and the axioms `propext`, `Classical.choice`, `Quot.sound` (per-theorem list: see `AXIOMS.md`). No others.
* The reading of the Python code recorded in the comments of the model. It was compared with the assertions in /repo/tests; where the tests are about
  functions of the model alone, they are restated as examples in `Conformance/` (the policy ones written by `tools/conformance.py`).
* Assumed of external code (each is written beside the definition concerned as well):
  * cryptojwt: verifying a JWS tries the usable keys held for its issuer; which keys are usable and which verify is an arbitrary
    function of statement and key. Signatures made with symmetric keys, for which keys of the verifying entity may be tried as well, and keys
    loaded from addresses in headers (`jku`, `x5u`) are left out. Whether asking for the keys of an unknown issuer raises is a parameter (`unknownRaises`), so is
    whether a JWS without matching keys raises (`noKeys`, `noKeysD`). `JWT.pack` writes iss, iat and exp over the payload.
    All reasons for `JWT.unpack` to refuse are one error. Which tokens it refuses for their dates at which time is an arbitrary function
    (`Crypto.current`) wherever self-signed documents are concerned; examples and violations use what cryptojwt does (`notExpired`). Where
    a theorem needs more (C70, C109, C133, C142) it is a hypothesis.
  * One key jar is shared by the functions of an entity. Importing keys does not fail.
  * JSON survives a round trip. `Message.verify` checks only that required members are there, unless overridden in /repo.
    The known claims of idpyoidc's `JsonWebToken` are iss, sub, aud, exp, nbf, iat, jti.
  * The clock stands still during one call. HTTP answers are an arbitrary function, constant during one call (during one collection, one trawl),
    except where a theorem quantifies over changing worlds (histories).
  * `urlparse`, `split_uri`, `verify_url`, `comb_uri` are arbitrary functions where only their results matter; for the naming
    constraints the part of `urlparse` that is used is modelled.
  * idpyoidc's own registration and client authentication are arbitrary functions (`register`), subject to what is written beside them.
  * idpyoidc's client side is given as parameters: `get_metadata_claim`, `construct_request_parameter`, `pick_redirect_uri`, the parsing of an
    authorization response, the table of default response modes. Its store of sessions (`Current`) is a dict of dicts, and a dict from nonce to state.
  * idpyoidc's `Collection` and `instantiate` hand the `kwargs` of a function over by shallow copies.
  * Registries are plain dicts. Mutation of the leaf's metadata in place is tracked in `Chains/InPlace` only.
* Not modelled: HTTP, TLS, cryptography, JSON (de)serialisation, `idpyoidc`/`cryptojwt` internals, logging, the parts of the Flask front ends and the scripts that are not named in the layout table.

## Wrong programs

`seeded/LOG.jsonl` records edits of model definitions that imitate realistic bugs: the definition, the edit, the claims it breaks, the theorems
that no longer build. As shared lemmas make more theorems fail than became false, for some edits the log also names theorems whose statements
were shown false of the edited model by a proof of their negation (`refuted_by_witness`); otherwise it was judged by reading. Edits no theorem was
false of led to new or tighter theorems, named in the entry.
