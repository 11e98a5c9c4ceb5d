{
 "claims": [
  {
   "property": "C01",
   "status": "proved",
   "theorems": [
    "Fed.Policy.C01_value_final"
   ],
   "note": ""
  },
  {
   "property": "C02",
   "status": "partial",
   "theorems": [
    "Fed.Policy.C02_subset_of_partial",
    "Fed.Policy.C02_subset_of_list_partial",
    "Fed.Policy.C02_subset_of_violation",
    "Fed.Policy.C02_subset_of_one_of_violation"
   ],
   "note": "False in the code for single-valued claims that name an operator, and when one_of is present as well (violation theorems). Proved without those two cases, and unconditionally for claims declared as lists."
  },
  {
   "property": "C03",
   "status": "proved",
   "theorems": [
    "Fed.Policy.C03_superset_of"
   ],
   "note": ""
  },
  {
   "property": "C04",
   "status": "partial",
   "theorems": [
    "Fed.Policy.C04_one_of_partial",
    "Fed.Policy.C04_one_of_violation"
   ],
   "note": "False in the code for claims written as lists (violation theorem). Proved for claims that resolve to a single value."
  },
  {
   "property": "C05",
   "status": "proved",
   "theorems": [
    "Fed.Policy.C05_add",
    "Fed.Policy.C05_add_subset"
   ],
   "note": ""
  },
  {
   "property": "C06",
   "status": "proved",
   "theorems": [
    "Fed.Policy.C06_default_never_overrides",
    "Fed.Policy.C06_default_supplied"
   ],
   "note": ""
  },
  {
   "property": "C07",
   "status": "proved",
   "theorems": [
    "Fed.Policy.C07_essential_present",
    "Fed.Policy.C07_essential_missing_refused"
   ],
   "note": ""
  },
  {
   "property": "C08",
   "status": "proved",
   "theorems": [
    "Fed.Policy.C08_pass_through",
    "Fed.Policy.C08_none_invented"
   ],
   "note": ""
  },
  {
   "property": "C09",
   "status": "proved",
   "theorems": [
    "Fed.Policy.C09_operator_loop_terminates",
    "Fed.Policy.C09_applyPolicy_total"
   ],
   "note": ""
  },
  {
   "property": "C10",
   "status": "proved",
   "theorems": [
    "Fed.Policy.C10_hash_order_irrelevant"
   ],
   "note": ""
  },
  {
   "property": "C100",
   "status": "partial",
   "theorems": [
    "Fed.Discover.C100_ranked_partial",
    "Fed.Discover.C100_loop_violation"
   ],
   "note": "False in the code: entities that list each other make it run forever (violation theorem). Proved for federations in which subordinates have a smaller rank."
  },
  {
   "property": "C101",
   "status": "partial",
   "theorems": [
    "Fed.Discover.C101_endpoint_partial",
    "Fed.Discover.C101_other_issuer_violation"
   ],
   "note": "False in the code for trust anchors: the published document may name another issuer whose keys are known (violation theorem). Proved otherwise."
  },
  {
   "property": "C102",
   "status": "partial",
   "theorems": [
    "Fed.Discover.C102_found_partial",
    "Fed.Discover.C102_none_violation"
   ],
   "note": "False in the code: for an entity without list endpoint the request goes to the text None (violation theorem). Proved otherwise."
  },
  {
   "property": "C103",
   "status": "partial",
   "theorems": [
    "Fed.Discover.C103_published_partial",
    "Fed.Discover.C103_tenant_violation"
   ],
   "note": "False in the code: the configuration of the host hides that of an entity with a path (violation theorem). Proved without path or when the host has none."
  },
  {
   "property": "C104",
   "status": "partial",
   "theorems": [
    "Fed.Discover.C104_named_partial",
    "Fed.Discover.C104_honest_partial",
    "Fed.Discover.C104_foreign_mark_violation"
   ],
   "note": "False in the code: a mark issued to somebody else counts (violation theorem). Proved: everything but the subject of the mark; in truthful federations the entity is below the anchor and of the type."
  },
  {
   "property": "C105",
   "status": "partial",
   "theorems": [
    "Fed.Discover.C105_complete_partial",
    "Fed.Discover.C105_empty_violation"
   ],
   "note": "False in the code: without a credential type the answer is always empty (violation theorem). Proved with a credential type."
  },
  {
   "property": "C106",
   "status": "proved",
   "theorems": [
    "Fed.Policy.C106_refused_with_reason",
    "Fed.Policy.C106_list_kept",
    "Fed.Policy.C106_single_kept"
   ],
   "note": ""
  },
  {
   "property": "C107",
   "status": "partial",
   "theorems": [
    "Fed.Policy.C107_combine_partial",
    "Fed.Policy.C107_chain_partial",
    "Fed.Policy.C107_superset_violation",
    "Fed.Policy.C107_superset_add_violation"
   ],
   "note": "False in the code: two different superset_of are intersected, and add below superset_of is refused (violation theorems). Proved for chains without these; policies that fix a value are in C79."
  },
  {
   "property": "C108",
   "status": "partial",
   "theorems": [
    "Fed.Constraints.C108_accepted_partial",
    "Fed.Constraints.C108_wider_violation"
   ],
   "note": "False in the code: a statement that permits a wider tree and a narrower one beside it loses the wider one (violation theorem). Proved for chains whose permitted lists narrow from the anchor down and that give both lists."
  },
  {
   "property": "C109",
   "status": "partial",
   "theorems": [
    "Fed.Chains.C109_resolved_partial",
    "Fed.Chains.C109_metadata_partial",
    "Fed.Chains.C109_policies_violation"
   ],
   "note": "Proved, until the first configuration expires, for federations all of which is well-run above the entity, with policies and constraints of the kinds C107 and C108 cover. False in the code outside these: two superset_of demands that the metadata satisfies can not be combined (violation); also the violations of C67, C71, C107, C108."
  },
  {
   "property": "C11",
   "status": "partial",
   "theorems": [
    "Fed.Policy.C11_idempotent_partial",
    "Fed.Policy.C11_idempotent_violation",
    "Fed.Chains.C11_chain_partial"
   ],
   "note": "False in the code for a single-valued add on an absent claim (violation theorem). Proved when such operands are lists of atoms and no single-valued claim under subset_of names an operator."
  },
  {
   "property": "C110",
   "status": "partial",
   "theorems": [
    "Fed.Chains.C110_permitted_partial",
    "Fed.Chains.C110_excluded_partial",
    "Fed.Chains.C110_path_length_partial",
    "Fed.Chains.C110_path_length_violation"
   ],
   "note": "False in the code: max_path_length has no effect unless negative (violation theorem; C24 and C26 for naming). Proved: the topmost permitted list always holds for the leaf and all constrained subjects, the topmost exclusions hold unless replaced below by a narrower one, and negative path lengths are refused."
  },
  {
   "property": "C111",
   "status": "partial",
   "theorems": [
    "Fed.Chains.C111_essential_partial",
    "Fed.Chains.C111_add_partial",
    "Fed.Chains.C111_subset_of_partial",
    "Fed.Chains.C111_one_of_partial",
    "Fed.Chains.C111_fixed_violation",
    "Fed.Chains.C111_superset_violation"
   ],
   "note": "False in the code: a value fixed below is not held against subset_of above, and superset_of lists are intersected (violation theorems). Proved: essential always, subset_of and one_of where nothing is fixed, add where nothing is fixed or limited; fixed values are in C79."
  },
  {
   "property": "C112",
   "status": "partial",
   "theorems": [
    "Fed.Client.C112_oidc_partial",
    "Fed.Client.C112_named_partial",
    "Fed.Client.C112_other_provider_violation",
    "Fed.Client.C112_forged_violation"
   ],
   "note": "False in the code: the OpenID client accepts any member of the federation in place of the provider asked, the OAuth client accepts responses signed with any key (violation theorems). Proved: for the OpenID client the response is signed with a key vouched for the issuer it names; for both that it is signed with a key it carries, names a trusted anchor and an issuer with a way up."
  },
  {
   "property": "C113",
   "status": "proved",
   "theorems": [
    "Fed.Client.C113_oidc_fixed",
    "Fed.Client.C113_oauth2_fixed"
   ],
   "note": "Without a configured metadata verifier (C112-C114)."
  },
  {
   "property": "C114",
   "status": "partial",
   "theorems": [
    "Fed.Client.C114_one_partial",
    "Fed.Client.C114_other_anchor_violation",
    "Fed.Client.C114_several_violation"
   ],
   "note": "False in the code: chains to another trust anchor are used, and with two chains the response is refused (violation theorems). Proved for the OpenID client: exactly one way up verifies with the response and its policies are the ones applied."
  },
  {
   "property": "C115",
   "status": "partial",
   "theorems": [
    "Fed.Client.C115_supported_partial",
    "Fed.Client.C115_unsupported_partial",
    "Fed.Client.C115_plain_violation"
   ],
   "note": "False in the code: if the server supports methods, but none at an endpoint the client is configured for, the plain request goes out (violation theorem). Proved when it supports one, or none at all."
  },
  {
   "property": "C116",
   "status": "proved",
   "theorems": [
    "Fed.Client.C116_first_supported",
    "Fed.Client.C116_made"
   ],
   "note": ""
  },
  {
   "property": "C117",
   "status": "partial",
   "theorems": [
    "Fed.Client.C117_kept_partial",
    "Fed.Client.C117_pushed_violation"
   ],
   "note": "False in the code: a pushed request loses all post arguments (violation theorem). Proved otherwise; request arguments are always kept."
  },
  {
   "property": "C118",
   "status": "proved",
   "theorems": [
    "Fed.Client.C118_signed",
    "Fed.Client.C118_plain",
    "Fed.Client.C118_signed_iff"
   ],
   "note": ""
  },
  {
   "property": "C119",
   "status": "partial",
   "theorems": [
    "Fed.Client.C119_resolved_partial",
    "Fed.Client.C119_refused_partial",
    "Fed.Client.C119_other_issuer_violation"
   ],
   "note": "False in the code: the issuer in the metadata is not compared with the provider asked for, and keys are loaded in its name (violation theorem). Proved: the rest."
  },
  {
   "property": "C12",
   "status": "partial",
   "theorems": [
    "Fed.Policy.C12_superior_partial",
    "Fed.Policy.C12_superior_violation"
   ],
   "note": "False in the code when both sides have superset_of (violation theorem). Proved in every other case."
  },
  {
   "property": "C120",
   "status": "partial",
   "theorems": [
    "Fed.Client.C120_two_types_partial",
    "Fed.Client.C120_none_partial",
    "Fed.Client.C120_other_type_violation"
   ],
   "note": "False in the code: with another type in common beside automatic, explicit registration is used (violation theorem). Proved for clients that know only the two types; refusal in all cases."
  },
  {
   "property": "C121",
   "status": "partial",
   "theorems": [
    "Fed.Client.C121_single_partial",
    "Fed.Client.C121_priority_violation"
   ],
   "note": "False in the code: the metadata comes from the chain of the anchor with priority, the registration types from the first stored chain (violation theorem). Proved for providers with one chain."
  },
  {
   "property": "C122",
   "status": "proved",
   "theorems": [
    "Fed.Client.C122_configured",
    "Fed.Client.C122_keys",
    "Fed.Client.C122_loaded",
    "Fed.Client.C122_unknown_source",
    "Fed.Client.C122_issuer"
   ],
   "note": ""
  },
  {
   "property": "C123",
   "status": "partial",
   "theorems": [
    "Fed.Client.Session.C123_given_partial",
    "Fed.Client.Session.C123_none_violation"
   ],
   "note": "False in the code: with other arguments but no response_type there is none (violation theorem). Proved otherwise."
  },
  {
   "property": "C124",
   "status": "proved",
   "theorems": [
    "Fed.Client.Session.C124_supported",
    "Fed.Client.Session.C124_refused"
   ],
   "note": ""
  },
  {
   "property": "C125",
   "status": "partial",
   "theorems": [
    "Fed.Client.Session.C125_default_partial",
    "Fed.Client.Session.C125_unsorted_violation"
   ],
   "note": "False in the code: with a requested mode the words have to be sorted (violation theorem). Proved if no mode is requested."
  },
  {
   "property": "C126",
   "status": "partial",
   "theorems": [
    "Fed.Client.Session.C126_partial",
    "Fed.Client.Session.C126_nonce_violation"
   ],
   "note": "False in the code: a nonce among the arguments or in the configuration is sent, but another is remembered (violation theorem). Proved otherwise."
  },
  {
   "property": "C127",
   "status": "partial",
   "theorems": [
    "Fed.Client.Session.C127_begun_partial",
    "Fed.Client.Session.C127_unchanged_partial",
    "Fed.Client.Session.C127_again_violation"
   ],
   "note": "False in the code: the same response is accepted again (violation theorem). Proved, over all histories: the authentication was begun, at this provider; errors and refused responses change nothing."
  },
  {
   "property": "C128",
   "status": "partial",
   "theorems": [
    "Fed.Client.Session.C128_front_partial",
    "Fed.Client.Session.C128_collect_violation",
    "Fed.Client.Session.C128_hybrid_violation",
    "Fed.Client.Session.C128_collected"
   ],
   "note": "False in the code: lost for code id_token, and whenever tokens are collected (violation theorems). Proved for the other types, if nothing is collected."
  },
  {
   "property": "C129",
   "status": "proved",
   "theorems": [
    "Fed.Client.Session.C129_valid",
    "Fed.Client.Session.C129_active"
   ],
   "note": ""
  },
  {
   "property": "C13",
   "status": "partial",
   "theorems": [
    "Fed.Policy.C13_subordinate_partial",
    "Fed.Policy.C13_subordinate_violation"
   ],
   "note": "False in the code when both sides have superset_of (violation theorem). Proved in every other case, for a superior whose essential is a boolean."
  },
  {
   "property": "C130",
   "status": "partial",
   "theorems": [
    "Fed.Client.Http.C130_federation_partial",
    "Fed.Client.Http.C130_client_partial",
    "Fed.Client.Http.C130_error_partial",
    "Fed.Client.Http.C130_redirect_violation",
    "Fed.Client.Http.C130_error_violation"
   ],
   "note": "False in the code: redirections are handed to the service as a result, and for clients of providers error responses whose body parses (violation theorems). Proved otherwise."
  },
  {
   "property": "C131",
   "status": "partial",
   "theorems": [
    "Fed.Client.Http.C131_client_partial",
    "Fed.Client.Http.C131_federation_partial",
    "Fed.Client.Http.C131_text_violation",
    "Fed.Client.Http.C131_statuses",
    "Fed.Client.Http.C131_formats"
   ],
   "note": "False in the code: the client gets the whole body as error, the federation client the words System error (violation theorem). Proved: the text is not lost and there is an error."
  },
  {
   "property": "C132",
   "status": "partial",
   "theorems": [
    "Fed.Client.Http.C132_first_partial",
    "Fed.Client.Http.C132_false_violation"
   ],
   "note": "False in the code: a value that is false, zero or empty counts as missing (violation theorem). Proved otherwise."
  },
  {
   "property": "C133",
   "status": "partial",
   "theorems": [
    "Fed.Chains.C133_resolved_partial",
    "Fed.Chains.C133_keys_suffice",
    "Fed.Chains.C133_reissued_partial",
    "Fed.Chains.C133_reissued_keys_partial",
    "Fed.Chains.C133_next_day_violation"
   ],
   "note": "Proved, with servers as modelled in Server and clients as in Chains, also when servers make their statements anew with each request, up to a day less the allowed delta after the first collection. Missing: as for C109; later collections, for which it is false: a statement can outlive the cached configuration of its issuer, and every collection through it then fails with TypeError."
  },
  {
   "property": "C134",
   "status": "partial",
   "theorems": [
    "Fed.Config.C134_settings_partial",
    "Fed.Config.C134_arguments_partial",
    "Fed.Config.C134_add_violation",
    "Fed.Config.C134_init_violation",
    "Fed.Config.C134_chain_violation"
   ],
   "note": "False in the code: the default anchors are one shared dict, and settings are written into the defaults (violation theorems, one with a chain that is accepted). Proved if every entity is made with anchors in its settings, and if none is and anchors are added only to entities made with some."
  },
  {
   "property": "C135",
   "status": "partial",
   "theorems": [
    "Fed.Config.C135_keys",
    "Fed.Config.C135_listed_partial",
    "Fed.Config.C135_violation"
   ],
   "note": "The keys: proved. The list is false in the code: anchors in the settings drop out of it if anchors are given as an argument too (violation theorem). Proved otherwise."
  },
  {
   "property": "C136",
   "status": "partial",
   "theorems": [
    "Fed.Config.C136_partial",
    "Fed.Config.C136_violation"
   ],
   "note": "False in the code: settings are written into the defaults (violation theorem). Proved if every entity or none is made with the setting."
  },
  {
   "property": "C137",
   "status": "partial",
   "theorems": [
    "Fed.Config.C137_partial",
    "Fed.Config.C137_list_violation",
    "Fed.Config.C137_nested_violation"
   ],
   "note": "False in the code: names of files that are elements of lists stay, and lists in lists are not looked at (violation theorems). Proved for places reached through dicts, and through lists only to dicts in them."
  },
  {
   "property": "C138",
   "status": "proved",
   "theorems": [
    "Fed.Config.C138_unchanged",
    "Fed.Config.C138_ok"
   ],
   "note": ""
  },
  {
   "property": "C139",
   "status": "partial",
   "theorems": [
    "Fed.Config.C139_partial",
    "Fed.Config.C139_none_violation",
    "Fed.Config.C139_services_violation",
    "Fed.Config.C139_unknown_violation"
   ],
   "note": "False in the code: an empty list of endpoints or functions gives the default ones, an empty list of services leaves out endpoints and functions too, services with unknown names are passed over (violation theorems). Proved otherwise."
  },
  {
   "property": "C14",
   "status": "partial",
   "theorems": [
    "Fed.Policy.C14_value_partial",
    "Fed.Policy.C14_subset_of_partial",
    "Fed.Policy.C14_one_of_partial",
    "Fed.Policy.C14_chain_violation"
   ],
   "note": "False in the code when a lower statement fixes the value (violation theorem). value proved for all chains; subset_of (leaf claim a list) and one_of (single value) proved for chains without a value for the claim."
  },
  {
   "property": "C140",
   "status": "partial",
   "theorems": [
    "Fed.Config.C140_partial",
    "Fed.Config.C140_given_partial",
    "Fed.Config.C140_library_partial",
    "Fed.Config.C140_leak_violation",
    "Fed.Config.C140_args_violation"
   ],
   "note": "False in the code: settings are written into the tables of the library and stay for later entities; item_args is used for endpoints only (violation theorems). Proved otherwise; given settings have effect whatever was made before."
  },
  {
   "property": "C141",
   "status": "partial",
   "theorems": [
    "Fed.Client.Requests.C141_question_partial",
    "Fed.Client.Requests.C141_nowhere",
    "Fed.Client.Requests.C141_target_violation"
   ],
   "note": "False in the code: a question that gives the trust mark goes to the entity id in its unverified payload (violation theorem). Proved for questions that name subject and id."
  },
  {
   "property": "C142",
   "status": "partial",
   "theorems": [
    "Fed.TrustMarks.C142_any_federation_partial",
    "Fed.TrustMarks.C142_genuine_partial",
    "Fed.TrustMarks.C142_issued_partial",
    "Fed.TrustMarks.C142_verdict_violation"
   ],
   "note": "Proved: acceptance in any federation that keeps to the rules of C210, with policies, constraints, delegations, chains stored earlier and any questions before; and for issuers that keep marks in files, in federations whose authorities register keys only, that asking the issuer gives what its records say. False in the code: there is no verdict on an expired mark if the issuer is to be asked, but a TypeError (violation theorem)."
  },
  {
   "property": "C143",
   "status": "partial",
   "theorems": [
    "Fed.Client.Requests.C143_all_partial",
    "Fed.Client.Requests.C143_holders",
    "Fed.Client.Requests.C143_subject_violation"
   ],
   "note": "False in the code: the subject is not passed on (violation theorem). Proved without a subject."
  },
  {
   "property": "C144",
   "status": "partial",
   "theorems": [
    "Fed.Client.Requests.C144_subject_partial",
    "Fed.Client.Requests.C144_target_partial",
    "Fed.Client.Requests.C144_subject_violation",
    "Fed.Client.Requests.C144_expired_violation"
   ],
   "note": "False in the code: without an issuer the subject is not passed on; with an expired configuration of the issuer in the cache the request fails with TypeError (violation theorems). Proved otherwise."
  },
  {
   "property": "C145",
   "status": "proved",
   "theorems": [
    "Fed.Client.Requests.C145_all",
    "Fed.Client.Requests.C145_type",
    "Fed.Client.Requests.C145_intermediates"
   ],
   "note": ""
  },
  {
   "property": "C146",
   "status": "partial",
   "theorems": [
    "Fed.Server.Publish.C146_configuration_partial",
    "Fed.Server.Publish.C146_host_violation"
   ],
   "note": "False in the code: a host whose name begins with https is taken for a URL (violation theorem). Proved otherwise."
  },
  {
   "property": "C147",
   "status": "partial",
   "theorems": [
    "Fed.Server.Publish.C147_statement_partial",
    "Fed.Server.Publish.C147_encoded_violation",
    "Fed.Server.Publish.C147_rollover_violation"
   ],
   "note": "False in the code: subjects named by an encoded URL are stated without keys, and keys changed in the directory are not noticed by an object that has read the old ones (violation theorems). Proved otherwise, over all earlier requests."
  },
  {
   "property": "C148",
   "status": "partial",
   "theorems": [
    "Fed.Server.Publish.C148_self_partial",
    "Fed.Server.Publish.C148_never",
    "Fed.Server.Publish.C148_swapped_violation"
   ],
   "note": "False in the code: issuer and subject are swapped, so it never holds for a subject other than the authority (violation theorem, and that there are no exceptions). Proved for the authority itself."
  },
  {
   "property": "C149",
   "status": "partial",
   "theorems": [
    "Fed.Server.Context.C149_published_partial",
    "Fed.Server.Context.C149_file_violation"
   ],
   "note": "False in the code: for trust marks in a file the name of the file is published (violation theorem). Proved otherwise."
  },
  {
   "property": "C15",
   "status": "proved",
   "theorems": [
    "Fed.Policy.C15_value_conflict_refused",
    "Fed.Policy.C15_default_conflict_refused",
    "Fed.Policy.C15_essential_weakening_refused",
    "Fed.Policy.C15_chain_value_conflict_refused"
   ],
   "note": ""
  },
  {
   "property": "C150",
   "status": "partial",
   "theorems": [
    "Fed.Server.Context.C150_response_partial",
    "Fed.Server.Context.C150_keys_violation",
    "Fed.Server.Context.C150_marks_violation"
   ],
   "note": "False in the code: the keys stated are always the provider's own, and its trust marks are stated about the client (violation theorems). Proved: the rest."
  },
  {
   "property": "C151",
   "status": "partial",
   "theorems": [
    "Fed.Server.Context.C151_self_signed_partial",
    "Fed.Server.Context.C151_expired_violation",
    "Fed.Server.Context.C151_subject_violation",
    "Fed.Server.Context.C151_source_violation"
   ],
   "note": "False in the code: expired marks stay, an argument can name another subject, entities that get trust marks from a function or a file can make none (violation theorems). Proved otherwise: the mark is as specified and stays published."
  },
  {
   "property": "C152",
   "status": "partial",
   "theorems": [
    "Fed.Chains.C152_statements_partial",
    "Fed.Chains.C152_same_metadata",
    "Fed.Chains.C152_leaf_violation"
   ],
   "note": "False in the code: policies are applied to the entity's own statement in place (violation theorem). Proved: the documents, all other statements, and everything in that statement but the claims a policy is about, are as signed; and that the metadata resolved is not affected."
  },
  {
   "property": "C153",
   "status": "partial",
   "theorems": [
    "Fed.Server.Context.C153_given_partial",
    "Fed.Server.Context.C153_file_violation"
   ],
   "note": "False in the code: for an entity that has its hints in a file the name of the file is stated (violation theorem). Proved otherwise."
  },
  {
   "property": "C154",
   "status": "partial",
   "theorems": [
    "Fed.Registration.C154_added_partial",
    "Fed.Registration.C154_first_time_partial",
    "Fed.Registration.C154_signed_violation",
    "Fed.Registration.C154_old_keys_violation"
   ],
   "note": "False in the code: of a client that publishes its keys signed none are recorded, and keys from an earlier registration stay (violation theorems). Proved: exactly what a registration adds; and the full claim for a client that has no keys yet and does not publish them signed."
  },
  {
   "property": "C155",
   "status": "partial",
   "theorems": [
    "Fed.Client.C155_kept_partial",
    "Fed.Client.C155_refused_partial",
    "Fed.Client.C155_verifier_partial",
    "Fed.Client.C155_forgotten_violation"
   ],
   "note": "False in the code: a response of which the policies leave nothing is refused, yet what the client had registered is gone (violation theorem). Proved otherwise, for clients without a metadata_verifier; with one, its answer is the outcome."
  },
  {
   "property": "C156",
   "status": "partial",
   "theorems": [
    "Fed.Server.Roles.C156_published_partial",
    "Fed.Server.Roles.C156_only_partial",
    "Fed.Server.Roles.C156_registering_partial",
    "Fed.Server.Roles.C156_some",
    "Fed.Server.Roles.C156_alone",
    "Fed.Server.Roles.C156_mark_issuer_never",
    "Fed.Server.Roles.C156_handler_violation",
    "Fed.Server.Roles.C156_mark_issuer_violation"
   ],
   "note": "False in the code: roles played through a handler of clients are left out, and an entity that is also a trust mark issuer publishes no configuration at all, since its part for trust marks cannot be asked for metadata in the way the whole asks (violation theorems). Proved for all other roles, that there is nothing else, that a configuration is published whenever there is no such part, and for the statement with which a client of a handler registers."
  },
  {
   "property": "C157",
   "status": "partial",
   "theorems": [
    "Fed.Config.Settings.C157_preference_partial",
    "Fed.Config.Settings.C157_only_partial",
    "Fed.Config.Settings.C157_marks_partial",
    "Fed.Config.Settings.C157_kept",
    "Fed.Config.Settings.C157_issuers_violation",
    "Fed.Config.Settings.C157_owners_violation"
   ],
   "note": "False in the code: what is given as trust_mark_issuers and trust_mark_owner is put where nothing reads it (violation theorems). Proved for what is given among the preferences, that nothing else is claimed, and for trust marks and authority hints."
  },
  {
   "property": "C158",
   "status": "partial",
   "theorems": [
    "Fed.Config.Settings.C158_first_partial",
    "Fed.Config.Settings.C158_day_partial",
    "Fed.Config.Settings.C158_client_partial",
    "Fed.Config.Settings.C158_context",
    "Fed.Config.Settings.C158_priority_violation",
    "Fed.Config.Settings.C158_lifetime_violation",
    "Fed.Config.Settings.C158_marks_violation"
   ],
   "note": "False in the code: order among trust anchors, default lifetime and trust marks given to a federation entity are dropped (violation theorems). Proved: what happens whatever the settings are, that authority hints have effect, and what has effect in the client part."
  },
  {
   "property": "C159",
   "status": "partial",
   "theorems": [
    "Fed.Collect.Mixed.C159_endpoint_partial",
    "Fed.Collect.Mixed.C159_hints_partial",
    "Fed.Collect.Mixed.C159_forever",
    "Fed.Collect.Mixed.C159_violation"
   ],
   "note": "False in the code: what a client was answered with is kept in the cache in a form that never expires there (violation theorem, and that nothing but another answer ends it). Proved as long as those answers are in force, and for entities whose client has not asked."
  },
  {
   "property": "C16",
   "status": "partial",
   "theorems": [
    "Fed.Policy.C16_self_consistent_partial",
    "Fed.Policy.C16_one_of_exclusive_partial",
    "Fed.Policy.C16_self_consistent_violation"
   ],
   "note": "False in the code when an operator such as essential is present too (violation theorem). Proved for the exact operator sets the code checks, and the exclusion of one_of with subset_of/superset_of."
  },
  {
   "property": "C160",
   "status": "partial",
   "theorems": [
    "Fed.Chains.C160_subset_of_partial",
    "Fed.Chains.C160_one_of_partial",
    "Fed.Chains.C160_essential_partial",
    "Fed.Chains.C160_add_partial",
    "Fed.Chains.C160_value_partial",
    "Fed.Chains.C160_permitted_partial",
    "Fed.Chains.C160_excluded_partial",
    "Fed.Chains.C160_violation"
   ],
   "note": "False in the code: a value fixed by a lower authority is resolved against the policy of a higher one (violation theorem). Proved per operator and for naming constraints, in federations of servers of this software asked by a client of it; path length and superset_of missing (false, see C23, C111)."
  },
  {
   "property": "C161",
   "status": "partial",
   "theorems": [
    "Fed.Discover.C161_partial",
    "Fed.Discover.C161_defaults",
    "Fed.Discover.C161_request_first",
    "Fed.Discover.C161_nobody",
    "Fed.Discover.C161_credential_type_violation"
   ],
   "note": "False in the code: the credential type is dropped unless the entity type is credential_issuer, and then nobody is ever named (violation theorem, and what is answered instead). Proved for the entity type and the trust mark, for the defaults, and that requests take precedence."
  },
  {
   "property": "C162",
   "status": "partial",
   "theorems": [
    "Fed.Registration.C162_oidc_partial",
    "Fed.Registration.C162_known_partial",
    "Fed.Registration.C162_kept",
    "Fed.Registration.C162_oauth2_violation",
    "Fed.Registration.C162_pushed_violation",
    "Fed.Registration.C162_new_id_violation"
   ],
   "note": "False in the code: the OAuth2 endpoints keep no trust chains, and at the OpenID endpoint chains are kept under the entity id but looked for under the client id (violation theorems). Proved at the OpenID endpoint for clients that keep their entity id as client id, for known clients, and that no trust anchor is made up."
  },
  {
   "property": "C163",
   "status": "partial",
   "theorems": [
    "Fed.Registration.C163_partial",
    "Fed.Registration.C163_key_partial",
    "Fed.Registration.C163_explicit_partial",
    "Fed.Registration.C163_never_expires",
    "Fed.Registration.C163_never_expires_violation",
    "Fed.Registration.C163_own_secret_violation"
   ],
   "note": "False in the code: a server whose secrets do not expire does not say so, and a client that brings its own secret is told that one while another is recorded (violation theorems). Proved otherwise, also for explicit registration as a whole, and that the first case never passes."
  },
  {
   "property": "C164",
   "status": "partial",
   "theorems": [
    "Fed.Config.Combo.C164_arguments_partial",
    "Fed.Config.Combo.C164_first_stays",
    "Fed.Config.Combo.C164_no_arguments_violation",
    "Fed.Config.Combo.C164_again_violation"
   ],
   "note": "False in the code: a part specified without arguments gets no parameters, and the configuration is changed, so that a second combination gets the parameters of the first (violation theorems). Proved for parts with arguments; and that the first combination's parameters stay."
  },
  {
   "property": "C165",
   "status": "partial",
   "theorems": [
    "Fed.Client.Session.C165_partial",
    "Fed.Client.Session.C165_belongs",
    "Fed.Client.Session.C165_userinfo",
    "Fed.Client.Session.C165_oauth2_violation"
   ],
   "note": "False in the code: a client without the userinfo service that gets no ID Token, as OAuth2 clients are, gets a KeyError instead of the tokens (violation theorem). Proved whenever the ID Token or the user information names a subject; and that what the caller gets belongs to its session."
  },
  {
   "property": "C166",
   "status": "partial",
   "theorems": [
    "Fed.Client.Session.C166_partial",
    "Fed.Client.Session.C166_others",
    "Fed.Client.Session.C166_response_type_violation",
    "Fed.Client.Session.C166_redirect_violation"
   ],
   "note": "False in the code: a response that names a response type or a redirect URI changes those of the session (violation theorems). Proved for responses that do not, and that other sessions are not affected."
  },
  {
   "property": "C167",
   "status": "partial",
   "theorems": [
    "Fed.Registration.C167_automatic_partial",
    "Fed.Registration.C167_known_partial",
    "Fed.Registration.C167_explicit_violation"
   ],
   "note": "False in the code: after explicit registration at an OAuth2 server the client names its entity id, which the server does not know (violation theorem). Proved after automatic registration at the OAuth2 endpoints and for known clients."
  },
  {
   "property": "C168",
   "status": "partial",
   "theorems": [
    "Fed.Chains.C168_trust_mark_partial",
    "Fed.Chains.C168_endpoint",
    "Fed.Chains.C168_none",
    "Fed.Chains.C168_sourced",
    "Fed.Chains.C168_anchor_violation"
   ],
   "note": "False in the code: for a trust anchor no endpoint for trust marks is found (violation theorem). Proved for all other members of a federation run with this software whose authorities register only keys, for the endpoints looked up by get_entity_endpoint including those of trust anchors, and in any federation that the endpoint is one stated in a verified chain."
  },
  {
   "property": "C169",
   "status": "partial",
   "theorems": [
    "Fed.Config.Kinds.C169_services_partial",
    "Fed.Config.Kinds.C169_kind",
    "Fed.Config.Kinds.C169_given",
    "Fed.Config.Kinds.C169_entity_id",
    "Fed.Config.Kinds.C169_no_entity_id",
    "Fed.Config.Kinds.C169_combination",
    "Fed.Config.Kinds.C169_combination_violation"
   ],
   "note": "False in the code: an OAuth2 client whose kind is stated by configuration or entity type, as in a combination, has no services and cannot be made (violation theorem, and exactly when). Proved: the kind, OpenID clients, services that are given."
  },
  {
   "property": "C17",
   "status": "proved",
   "theorems": [
    "Fed.Policy.C17_combine_covers",
    "Fed.Policy.C17_chain_covers"
   ],
   "note": ""
  },
  {
   "property": "C170",
   "status": "partial",
   "theorems": [
    "Fed.Config.Kinds.C170_arguments_partial",
    "Fed.Config.Kinds.C170_combination",
    "Fed.Config.Kinds.C170_server_type",
    "Fed.Config.Kinds.C170_no_default",
    "Fed.Config.Kinds.C170_ready",
    "Fed.Config.Kinds.C170_issuer_violation",
    "Fed.Config.Kinds.C170_kind_violation"
   ],
   "note": "False in the code: an entity id that stands in the configuration is not used as issuer, an entity type that stands there is not used (violation theorems). Proved if they are given as arguments, so for the parts of a combination, and for ready made configurations."
  },
  {
   "property": "C171",
   "status": "partial",
   "theorems": [
    "Fed.Config.Parts.C171_own_keys_partial",
    "Fed.Config.Parts.C171_nothing",
    "Fed.Config.Parts.C171_combination_violation"
   ],
   "note": "False in the code: whether the first issuer of a chain is known is looked up in the key jar of the federation entity as it is, so that with keys kept by the combination nothing is ever accepted (violation theorem, and that there are no exceptions). Proved for federation entities that keep their keys."
  },
  {
   "property": "C172",
   "status": "partial",
   "theorems": [
    "Fed.Config.Parts.C172_own_keys_partial",
    "Fed.Config.Parts.C172_statements",
    "Fed.Config.Parts.C172_trust_mark_violation",
    "Fed.Config.Parts.C172_server_violation"
   ],
   "note": "False in the code: trust marks are signed with the key jar of the federation entity as it is, also if the combination keeps the keys, and statements about subordinates with keys of the server if it has any (violation theorems). Proved for federation entities that keep their keys, and for resolve responses and registration requests always."
  },
  {
   "property": "C173",
   "status": "partial",
   "theorems": [
    "Fed.Client.Session.C173_cleared_partial",
    "Fed.Client.Session.C173_others_partial",
    "Fed.Client.Session.C173_request_partial",
    "Fed.Client.Session.C173_close_same",
    "Fed.Client.Session.C173_unknown_violation",
    "Fed.Client.Session.C173_close_violation"
   ],
   "note": "False in the code: closing a session leaves its tokens in use, and a client without an end-session service raises AttributeError (violation theorems). Proved for clear_session over all histories, for other sessions, and for the request made."
  },
  {
   "property": "C174",
   "status": "partial",
   "theorems": [
    "Fed.Config.Lookup.C174_found_partial",
    "Fed.Config.Lookup.C174_only_partial",
    "Fed.Config.Lookup.C174_server_violation"
   ],
   "note": "False in the code: parts of a server that is in no combination get a TypeError instead of None (violation theorem). Proved in both directions for all other nestings."
  },
  {
   "property": "C175",
   "status": "partial",
   "theorems": [
    "Fed.Config.Lookup.C175_entity_partial",
    "Fed.Config.Lookup.C175_lost",
    "Fed.Config.Lookup.C175_own_violation",
    "Fed.Config.Lookup.C175_missing_violation"
   ],
   "note": "False in the code: a value set in the context of the client is always lost, and one the client has no attribute for raises AttributeError (violation theorems). Proved for attributes that are empty in the context of the client."
  },
  {
   "property": "C176",
   "status": "partial",
   "theorems": [
    "Fed.Config.Applied.C176_applied_partial",
    "Fed.Config.Applied.C176_never",
    "Fed.Config.Applied.C176_client_violation",
    "Fed.Config.Applied.C176_handler_violation"
   ],
   "note": "False in the code: the metadata never reaches the client of the federation entity, nor parts without a context (violation theorems). Proved for the clients of a combination, for any sequence of metadata applied."
  },
  {
   "property": "C177",
   "status": "partial",
   "theorems": [
    "Fed.Client.C177_signed_partial",
    "Fed.Client.C177_never_pushed",
    "Fed.Client.C177_pushed_violation"
   ],
   "note": "False in the code: servers state the methods for pushed requests under a name clients have no method for; clients configured with it fail (violation theorem, for every statement that has the name), and no configuration makes a client push (general theorem). Proved for clients that use the authorization endpoint."
  },
  {
   "property": "C178",
   "status": "partial",
   "theorems": [
    "Fed.Client.C178_registered_partial",
    "Fed.Client.C178_keys_partial",
    "Fed.Client.C178_taken_partial",
    "Fed.Client.C178_two_ways_violation"
   ],
   "note": "False in the code: a client with two ways up to the anchor refuses every response (violation theorem). Proved end to end, from the request made to the response taken, for members with one way up in a federation of this software (C133), whatever both have collected before; what the registration itself (idpyoidc) does is a parameter."
  },
  {
   "property": "C179",
   "status": "partial",
   "theorems": [
    "Fed.Client.C179_part_partial",
    "Fed.Client.C179_marks_partial",
    "Fed.Client.C179_handler_never",
    "Fed.Client.C179_handler_violation",
    "Fed.Client.C179_marks_violation"
   ],
   "note": "False in the code for clients made by a handler and for trust marks in files (violation theorems); the handler's client never takes an answer to its request (general theorem). Proved for clients that are parts of the combination and trust marks given as they are."
  },
  {
   "property": "C18",
   "status": "proved",
   "theorems": [
    "Fed.Policy.C18_superior_metadata_kept",
    "Fed.Policy.C18_contradiction_refused"
   ],
   "note": ""
  },
  {
   "property": "C180",
   "status": "partial",
   "theorems": [
    "Fed.Client.C180_others_partial",
    "Fed.Client.C180_mixed",
    "Fed.Client.C180_violation"
   ],
   "note": "False in the code: the keys of the provider become keys of the client whenever a response is taken (violation theorem, and general theorem C180_mixed). Proved for all other entities."
  },
  {
   "property": "C181",
   "status": "partial",
   "theorems": [
    "Fed.Client.C181_secret_partial",
    "Fed.Client.C181_handled_partial",
    "Fed.Client.C181_id_never",
    "Fed.Client.C181_authorization",
    "Fed.Client.C181_accepted",
    "Fed.Client.C181_types",
    "Fed.Client.C181_handler",
    "Fed.Client.C181_unknown",
    "Fed.Client.C181_violation"
   ],
   "note": "False in the code: token requests always carry the entity id, whatever client id was given (violation theorem, general theorem C181_id_never), so that an OAuth provider of this software, which makes a new id, does not know it (C181_unknown); clients of a handler are never changed (C181_handler). Proved for the secret, for client ids that are the entity id, when a response is taken, and which types it has."
  },
  {
   "property": "C182",
   "status": "partial",
   "theorems": [
    "Fed.Discover.WellKnown.C182_found_partial",
    "Fed.Discover.WellKnown.C182_own_host",
    "Fed.Discover.WellKnown.C182_named",
    "Fed.Discover.WellKnown.C182_shared_violation",
    "Fed.Discover.WellKnown.C182_slash_violation"
   ],
   "note": "False in the code: the address of the host is asked first, so that next to an entity that is a host its tenants get the configuration of the host; and an id with a path that ends with a slash is asked for at an address with two slashes (violation theorems). Proved on the text of the ids, with a model of urlparse, for all other ids without parameters; that no other host is ever asked is proved for all texts."
  },
  {
   "property": "C183",
   "status": "proved",
   "theorems": [
    "Fed.Client.Resolving.C183_answer",
    "Fed.Client.Resolving.C183_incomplete"
   ],
   "note": "From the arguments of the client to the payload of the answer, on top of C58."
  },
  {
   "property": "C184",
   "status": "partial",
   "theorems": [
    "Fed.Client.C184_taken_partial",
    "Fed.Client.C184_registered_partial",
    "Fed.Client.C184_keys_partial",
    "Fed.Client.C184_two_ways_violation"
   ],
   "note": "False in the code for clients with several ways up (violation theorem). Proved for clients with one way up: from the request through the answer of the server to what the client keeps, for every outcome of the registration proper."
  },
  {
   "property": "C185",
   "status": "partial",
   "theorems": [
    "Fed.Setup.C185_entry",
    "Fed.Setup.C185_listed_partial",
    "Fed.Setup.C185_trusted",
    "Fed.Setup.C185_resolved_partial",
    "Fed.Setup.C185_no_federation_entity",
    "Fed.Setup.C185_by_type_fails",
    "Fed.Setup.C185_by_type_violation"
   ],
   "note": "False in the code for listing by entity type (violation theorem, and C185_by_type_fails: it fails at every authority that enrolled anybody). The rest proved for members that are given no policies."
  },
  {
   "property": "C186",
   "status": "partial",
   "theorems": [
    "Fed.Setup.C186_leaves_partial",
    "Fed.Setup.C186_complaints",
    "Fed.Setup.C186_ends_partial",
    "Fed.Setup.C186_intermediates_missing",
    "Fed.Setup.C186_set_up_partial",
    "Fed.Setup.C186_chains_partial",
    "Fed.Setup.C186_verdicts",
    "Fed.Setup.C186_intermediate_violation",
    "Fed.Setup.C186_loop_violation"
   ],
   "note": "False in the code: intermediates are never shown (C186_intermediates_missing, for all federations), and a loop in the lists is followed for ever. Proved: exactly who is shown, exactly who is complained of, that the script ends without loops, and what it says in a federation set up with the scripts."
  },
  {
   "property": "C187",
   "status": "partial",
   "theorems": [
    "Fed.Web.C187_view_partial",
    "Fed.Web.C187_example_partial",
    "Fed.Web.C187_same_partial",
    "Fed.Web.C187_view_violation",
    "Fed.Web.C187_example_violation",
    "Fed.Web.C187_relying_party_violation"
   ],
   "note": "False in the code for hints in files and, at the relying party, for lifetimes and marks in files (violation theorems). Proved for the rest."
  },
  {
   "property": "C188",
   "status": "partial",
   "theorems": [
    "Fed.Web.C188_refused",
    "Fed.Web.C188_success",
    "Fed.Web.C188_redirect",
    "Fed.Web.C188_crash",
    "Fed.Web.C188_fetch",
    "Fed.Web.C188_list",
    "Fed.Web.C188_mark",
    "Fed.Web.C188_status",
    "Fed.Web.C188_register",
    "Fed.Web.C188_who_never",
    "Fed.Web.C188_who_violation"
   ],
   "note": "False in the code for the who endpoint (C188_who_never, C188_who_violation). Proved for all endpoints: refusals, what 200 means, when there is no answer; and what is sent for the endpoints named. What idpyoidc makes of a message is an assumption (Renders)."
  },
  {
   "property": "C189",
   "status": "partial",
   "theorems": [
    "Fed.Web.C189_anybody",
    "Fed.Web.C189_confirmed",
    "Fed.Web.C189_violation"
   ],
   "note": "False in the code (violation theorem): no configuration restricts who gets a mark. Proved: whoever asks gets it, and it is confirmed afterwards. Client authentication methods other than the default, which are idpyoidc's, are the way a request is parsed."
  },
  {
   "property": "C19",
   "status": "partial",
   "theorems": [
    "Fed.Policy.C19_superior_metadata_partial",
    "Fed.Policy.C19_superior_metadata_violation"
   ],
   "note": "False in the code: the leaf wins (violation theorem). Proved when the leaf is silent or agrees."
  },
  {
   "property": "C190",
   "status": "partial",
   "theorems": [
    "Fed.Web.Login.C190_never",
    "Fed.Web.Login.C190_no_page",
    "Fed.Web.Login.C190_violation",
    "Fed.Web.Login.C190_refused_partial",
    "Fed.Web.Login.C190_foreign",
    "Fed.Web.Login.C190_others"
   ],
   "note": "False in the code (C190_never, C190_no_page, C190_violation). Proved: refusals, callbacks that are for no session, what other clients and sessions keep. What idpyoidc makes of a response is a parameter."
  },
  {
   "property": "C191",
   "status": "partial",
   "theorems": [
    "Fed.Web.Login.C191_never",
    "Fed.Web.Login.C191_violation"
   ],
   "note": "False in the code (violation theorem)."
  },
  {
   "property": "C192",
   "status": "proved",
   "theorems": [
    "Fed.Web.Login.C192_authenticated",
    "Fed.Web.Login.C192_denied"
   ],
   "note": "The authentication method, the token and the authorization endpoint are parameters."
  },
  {
   "property": "C193",
   "status": "proved",
   "theorems": [
    "Fed.Policy.C193_value",
    "Fed.Policy.C193_refused",
    "Fed.Policy.C193_types"
   ],
   "note": ""
  },
  {
   "property": "C194",
   "status": "proved",
   "theorems": [
    "Fed.Collect.C194_collection",
    "Fed.Chains.C194_chains"
   ],
   "note": ""
  },
  {
   "property": "C195",
   "status": "partial",
   "theorems": [
    "Fed.TrustMarks.C195_member_partial",
    "Fed.TrustMarks.C195_any_mark",
    "Fed.TrustMarks.C195_self_made",
    "Fed.TrustMarks.C195_unlisted_violation"
   ],
   "note": "False in the code: the list is read only for marks with a delegation, and then the result only leads to a log message. Any member of the federation can issue any mark to anybody, itself included; a caller has to compare the issuer itself."
  },
  {
   "property": "C196",
   "status": "partial",
   "theorems": [
    "Fed.Web.C196_set_partial",
    "Fed.Web.C196_unprotected",
    "Fed.Web.C196_age_crash",
    "Fed.Web.C196_protection_violation",
    "Fed.Web.C196_age_violation"
   ],
   "note": "False in the code: nothing that protects a cookie is passed on, and a cookie with an age makes the answer fail."
  },
  {
   "property": "C197",
   "status": "partial",
   "theorems": [
    "Fed.Web.C197_logout_partial",
    "Fed.Web.C197_only_token",
    "Fed.Web.C197_frames_violation"
   ],
   "note": "False in the code in one point: the cookies stay if some client is to be told about the logout through the browser."
  },
  {
   "property": "C198",
   "status": "partial",
   "theorems": [
    "Fed.Collect.Threads.C198_apart_partial",
    "Fed.Collect.Threads.C198_sequential",
    "Fed.Collect.Threads.C198_source_partial",
    "Fed.Collect.Threads.C198_errors_partial",
    "Fed.Collect.Threads.C198_cached_partial",
    "Fed.Collect.Threads.C198_between_writes_violation",
    "Fed.Collect.Threads.C198_both_delete_violation",
    "Fed.Collect.Threads.C198_expired_violation"
   ],
   "note": "False in the code: a thread that comes in between two accesses of another one makes a call fail with TypeError or KeyError, or return a statement that has expired. Proved: calls for different pairs of authority and entity do not disturb each other, statements are never mixed up, no other errors arise, and what is in the cache and not about to expire is served to all."
  },
  {
   "property": "C199",
   "status": "partial",
   "theorems": [
    "Fed.Chains.C199_no_chain_partial",
    "Fed.Chains.C199_dropped_partial",
    "Fed.Chains.C199_not_stored_partial",
    "Fed.Chains.C199_stored_violation"
   ],
   "note": "False in the code: get_trust_chains and get_verified_metadata give the chain that was stored for good. Proved for everything that is resolved anew, after any history, for identifiers without exclamation mark."
  },
  {
   "property": "C20",
   "status": "partial",
   "theorems": [
    "Fed.Policy.C20_overlap_partial",
    "Fed.Policy.C20_overlap_violation"
   ],
   "note": "False in the code for the first statement of the chain (violation theorem). Proved for all others."
  },
  {
   "property": "C200",
   "status": "partial",
   "theorems": [
    "Fed.Setup.Tools.C200_chains",
    "Fed.Setup.Tools.C200_configuration_well_run",
    "Fed.Setup.Tools.C200_statement_well_run",
    "Fed.Setup.Tools.C200_list",
    "Fed.Setup.Tools.C200_status",
    "Fed.Setup.Tools.C200_configuration_partial",
    "Fed.Setup.Tools.C200_statement_partial",
    "Fed.Setup.Tools.C200_display_partial",
    "Fed.Setup.Tools.C200_configuration_violation",
    "Fed.Setup.Tools.C200_statement_violation",
    "Fed.Setup.Tools.C200_display_violation"
   ],
   "note": "False in the code of three scripts: get_entity_configuration.py does not compare the configuration with the entity asked for; get_subordinate_statement.py verifies nothing; display_entity.py does not compare the subject. Proved: in full for get_trust_chains.py in any federation and for all of them in well-run federations; elsewhere what is left of the three."
  },
  {
   "property": "C201",
   "status": "partial",
   "theorems": [
    "Fed.Collect.ConfigThreads.C201_endpoint_partial",
    "Fed.Collect.ConfigThreads.C201_error_partial",
    "Fed.Collect.ConfigThreads.C201_lasting_partial",
    "Fed.Collect.ConfigThreads.C201_apart_partial",
    "Fed.Collect.ConfigThreads.C201_cache",
    "Fed.Collect.ConfigThreads.C201_sequential",
    "Fed.Collect.ConfigThreads.C201_both_delete_violation"
   ],
   "note": "False in the code: when two lookups find that the cached configuration is about to expire, the second one to delete it raises KeyError. Proved for all schedules: what is returned, and what is cached, is as claimed; there is no other failure; none at all when no other call is after the same authority, or when the configurations of the authority last."
  },
  {
   "property": "C202",
   "status": "partial",
   "theorems": [
    "Fed.Registration.Threads.C202_single_partial",
    "Fed.Registration.Threads.C202_apart_partial",
    "Fed.Registration.Threads.C202_settled_partial",
    "Fed.Registration.Threads.C202_after_partial",
    "Fed.Registration.Threads.C202_errors_partial",
    "Fed.Registration.Threads.C202_sequential",
    "Fed.Registration.Threads.C202_both_delete_violation",
    "Fed.Registration.Threads.C202_unknown_violation",
    "Fed.Registration.Threads.C202_lost_violation"
   ],
   "note": "False in the code: a client that registers automatically is deleted and registered anew with each authorization request. Of two such requests at the same time one may raise KeyError, and another request of the client (for tokens, say) may find it unknown meanwhile. Proved for all schedules: requests of different clients do not disturb each other; a request with no other of its client at the same time is let in; clients that registered themselves are found and stay as they are; KeyError is the only exception that can be added; once all is over the client is known."
  },
  {
   "property": "C203",
   "status": "partial",
   "theorems": [
    "Fed.Chains.IssuerThreads.C203_named_partial",
    "Fed.Chains.IssuerThreads.C203_same_partial",
    "Fed.Chains.IssuerThreads.C203_others_partial",
    "Fed.Chains.IssuerThreads.C203_store_partial",
    "Fed.Chains.IssuerThreads.C203_sequential",
    "Fed.Chains.IssuerThreads.C203_request_violation",
    "Fed.Chains.IssuerThreads.C203_store_violation",
    "Fed.Chains.IssuerThreads.C203_get_violation"
   ],
   "note": "False in the code: do_request writes down whom the request is for in an object that all threads share, and the service reads it there up to three times. Of two requests for trust marks of different issuers one may be sent to the wrong issuer; and an entity without trust chains may have those of another entity kept for it, and counts as trusted from then on. Proved for all schedules: while all requests at the time are for one entity the property holds; the trust chains are always ones of an entity some request at the time is for; what is kept is right while all entities that requests are for have trust chains, and always for the other entities."
  },
  {
   "property": "C204",
   "status": "partial",
   "theorems": [
    "Fed.Registration.C204_let_in_partial",
    "Fed.Registration.C204_reissued_partial",
    "Fed.Registration.C204_anchor_partial",
    "Fed.Registration.C204_next_day_violation"
   ],
   "note": "False in the code from the second day on: the end of one cached statement can leave the collector with a TypeError (violation theorem, see C133). Proved, up to a day after requests began to reach the server, for federations whose members run this software and whose policies and constraints the client meets, with statements made anew for each request; the registration proper (idpyoidc) is one that takes the metadata the client ends up with. The anchor named in the response is proved for statements of one time, and clients registered with this very request under their own id."
  },
  {
   "property": "C205",
   "status": "partial",
   "theorems": [
    "Fed.Registration.C205_handed_in_partial",
    "Fed.Registration.C205_reissued_partial",
    "Fed.Registration.C205_resolver_partial",
    "Fed.Registration.C205_export_refused",
    "Fed.Registration.C205_export_violation"
   ],
   "note": "False in the code for exported chains: export_chain gives the claims of the statements, not the signed statements, and no client that is not yet known gets in with them (C205_export_refused holds for all servers and chains). Proved, for clients as in C204: any chain of the client is accepted when handed in, whatever other entities would answer; the chain from a resolver of the federation is one of them, where no statement is issued for less than a day."
  },
  {
   "property": "C206",
   "status": "partial",
   "theorems": [
    "Fed.Registration.C206_dropped_partial",
    "Fed.Registration.C206_old_chain_violation"
   ],
   "note": "False in the code: the verifier does not look at the clock, and a chain that is handed in is used as it is; a chain of long ago lets the client in though nobody is left to ask (violation theorem; by C205_reissued_partial this is so for all members that were well within the policies, and for statements of any age). Proved for clients that hand in nothing, after any history, for identifiers without exclamation mark."
  },
  {
   "property": "C207",
   "status": "partial",
   "theorems": [
    "Fed.Policy.C207_silent_partial",
    "Fed.Policy.C207_repeated_partial",
    "Fed.Policy.C207_word_for_word_violation",
    "Fed.Policy.C207_below_value_violation",
    "Fed.Policy.C207_optional_violation",
    "Fed.Policy.C207_silent_anchor_violation"
   ],
   "note": "False in the code, in four ways, each with a violation theorem: a policy with value and essential can not be repeated, even word for word; nothing but value and essential can be said again below a value; what is optional at the top can not be called optional again below an authority that requires it; and the first statement of a chain is not tested for claims that it both sets and constrains, the others are. Proved for authorities that say nothing, and for those that say again, at any distance, policies that are in order in themselves (the conditions are spelt out operator by operator) with nobody in between who fixes a value or changes whether the claim is essential."
  },
  {
   "property": "C208",
   "status": "partial",
   "theorems": [
    "Fed.Collect.C208_again_partial",
    "Fed.Collect.C208_no_fetch_endpoint_violation",
    "Fed.Collect.C208_no_expiry_violation",
    "Fed.Chains.C208_chains_partial",
    "Fed.Chains.C208_second_time_violation"
   ],
   "note": "False in the code, in three ways, each with a violation theorem: the configuration of an authority without a fetch endpoint is asked for anew each time although it is remembered; an entity whose configuration has no exp is collected once and then raises KeyError; and after an authority that gives no statement the second resolution fails although the federation is as it was, because the configuration by itself is then taken for a chain. Proved for federations where all authorities above the entity name a fetch endpoint (the collection), and where in addition all chains collected begin at entities whose keys are known (the chains and the metadata); identifiers without exclamation marks (C34)."
  },
  {
   "property": "C209",
   "status": "partial",
   "theorems": [
    "Fed.Chains.C209_no_chain",
    "Fed.Chains.C209_metadata_violation",
    "Fed.Chains.C209_self_named_violation",
    "Fed.TrustMarks.C209_no_mark",
    "Fed.TrustMarks.C209_no_mark_verifier",
    "Fed.TrustMarks.C209_mark_violation"
   ],
   "note": "False in the code: a trust anchor that names no authority has no trust chain, so no metadata is found for it and its marks are refused; one that names itself ends in a KeyError. Proved: the violations, and that it is so for all trust anchors that name nobody but perhaps themselves, all marks and all histories (for the verifier called directly: marks without a delegation)."
  },
  {
   "property": "C21",
   "status": "proved",
   "theorems": [
    "Fed.Policy.C21_hash_order_irrelevant",
    "Fed.Policy.C21_resolution_hash_order_irrelevant"
   ],
   "note": ""
  },
  {
   "property": "C210",
   "status": "partial",
   "theorems": [
    "Fed.Chains.C210_in_flux_partial",
    "Fed.Chains.C210_keys_partial",
    "Fed.Chains.C210_at_once_violation"
   ],
   "note": "False in the code: an authority that replaces its key at once makes resolution of those it vouches for from then on raise, for everyone who has the old statement about it in the cache; statements stay there until they expire. Proved: the violation, and that changes of keys, metadata, authorities, endpoints and policies in whatever order are harmless as long as each document lists all keys in use during the period; with all ways up and nothing else, and all metadata declared."
  },
  {
   "property": "C211",
   "status": "partial",
   "theorems": [
    "Fed.Verify.Threads.C211_accepted_partial",
    "Fed.Verify.Threads.C211_sound_partial",
    "Fed.Verify.Threads.C211_vouched",
    "Fed.Verify.Threads.C211_ends",
    "Fed.Verify.Threads.C211_any_order_partial",
    "Fed.Verify.Threads.C211_crossed_violation",
    "Fed.Verify.Threads.C211_twice_violation",
    "Fed.Verify.Threads.alone_eq"
   ],
   "note": "False in the code: two chains each of which needs a key that the other brings are both accepted when their verifications overlap, although whichever is verified first is refused; and keys can be added twice. Proved: both violations; for any number of threads and any schedule, that a chain that would be accepted when its verification begins is accepted with the same result, that what is accepted would be accepted with the keys held at the end, that no key is lost and every key is vouched for, that every verification ends, and that chains that are in order fare as one after the other in any order. The methods of the key jar are taken to be atomic."
  },
  {
   "property": "C212",
   "status": "partial",
   "theorems": [
    "Fed.Chains.AtOnce.C212_resolved_partial",
    "Fed.Chains.AtOnce.C212_verified_partial",
    "Fed.Chains.AtOnce.C212_again_partial",
    "Fed.Chains.AtOnce.C212_ends",
    "Fed.Chains.AtOnce.C212_violation",
    "Fed.Chains.AtOnce.getVerifiedP_run",
    "Fed.Chains.AtOnce.getTrustChainsP_run"
   ],
   "note": "False in the code: a statement and the time it expires are stored one after the other, and a thread that looks in between ends with TypeError. Proved: the violation; that in a well-run federation, for any number of threads and any schedule, a resolution ends with the right chains, those it would end with alone, or with TypeError; with TypeError only if a statement above the entity had not been collected when it began, so never once the entity has been resolved with success; that every thread ends; and that without interruption the steps are the functions of the sequential model. Missing: statements that are about to expire and are removed from the cache. The clock stands still for each thread."
  },
  {
   "property": "C213",
   "status": "proved",
   "theorems": [
    "Fed.Chains.AtOnce.C213_sound",
    "Fed.Chains.AtOnce.C213_stored",
    "Fed.Chains.AtOnce.C213_keys"
   ],
   "note": "For the functions get_trust_chains, get_verified_trust_chains, verify_trust_chains with apply_policies, and the part of the automatic registration of OpenID clients that stores chains; what was sent along in the name of an entity may be stored for it (C214). One access to a dictionary or to the key jar is atomic; nothing stored at the start. Whether the entity at the top is a configured trust anchor is C36 and C77, which fail also without threads."
  },
  {
   "property": "C214",
   "status": "partial",
   "theorems": [
    "Fed.Registration.Named.C214_history_partial",
    "Fed.Registration.Named.C214_mark_partial",
    "Fed.Registration.Named.C214_sent",
    "Fed.Registration.Named.C214_violation",
    "Fed.Registration.Named.C214_mark_violation"
   ],
   "note": "False in the code: an authorization request may name any entity as its client and bring along the trust chain of another one; that chain is stored as the one of the entity named, although the request itself is refused. From then on the other one's metadata is taken for that of the entity; a trust mark that its issuer has withdrawn is accepted on the word of the sender (two violation theorems). Proved for entities in whose name no chain was sent along, whatever was sent in the names of others; and for all others that what is taken for their chains was accepted, and is their own or was sent in their name."
  },
  {
   "property": "C215",
   "status": "partial",
   "theorems": [
    "Fed.Registration.SharedKeys.C215_separate_partial",
    "Fed.Registration.SharedKeys.C215_shared_partial",
    "Fed.Registration.SharedKeys.C215_violation"
   ],
   "note": "False in the code for a server without keys of its own in a combination without keys: it records the keys of clients in the key jar of the federation entity, under whatever name the request gives, so that a relying party whose request names the trust anchor and brings its own chain along adds its keys to those of the trust anchor, and chains it makes up are accepted (violation theorem). The example configurations in the repository give the server keys of its own. Proved for servers that have keys of their own; and for one key jar, if no request names an entity that issues statements about others."
  },
  {
   "property": "C216",
   "status": "partial",
   "theorems": [
    "Fed.Discover.Walk.C216_came",
    "Fed.Discover.Walk.C216_keys_partial",
    "Fed.Discover.Walk.C216_chain_partial",
    "Fed.Discover.Walk.C216_resolve_violation",
    "Fed.Discover.Walk.C216_walk_violation",
    "Fed.Discover.Walk.C216_chain_violation"
   ],
   "note": "The last sentence holds (came). The rest is false in the code: whatever subject a statement names, its keys are taken for that subject once its signature is verified, so that an intermediate that is asked about a subordinate and answers with a statement about the trust anchor, listing a key of its own, has that key taken for one of the trust anchor; by resolutions, even ones that fail, and by walks (violation theorems). Chains it makes up then are accepted, past the policies of the trust anchor. Proved if nobody but trust anchors signs statements about trust anchors."
  },
  {
   "property": "C217",
   "status": "partial",
   "theorems": [
    "Fed.Discover.Walk.C217_collected_partial",
    "Fed.Discover.Walk.C217_same_partial",
    "Fed.Discover.Walk.C217_violation"
   ],
   "note": "False in the code: an answer to a request for a configuration is cached under the issuer it names, whoever was asked and whatever it is. An intermediate that publishes the statement of the trust anchor about itself in place of its configuration has that statement cached as the configuration of the trust anchor; as it has no fetch endpoint, entities below other intermediates are not resolved any more, and the entry does not expire (violation theorem; for expiry see C159). Proved if everybody publishes a proper configuration of their own that does not expire meanwhile, identifiers are free of exclamation marks (see C70) and parsed answers have the attribute the collector reads."
  },
  {
   "property": "C218",
   "status": "partial",
   "theorems": [
    "Fed.Collect.Moving.C218_still_partial",
    "Fed.Collect.Moving.C218_renewed_partial",
    "Fed.Collect.Moving.C218_violation"
   ],
   "note": "False in the code: the configuration of an authority that is fetched just before it is allowed_delta from expiring is dropped from the cache again when the statement has been fetched, and its absence is a TypeError, although a moment sooner, or a moment later when it has been renewed, collection succeeds (violation theorem). Proved: when nothing published or cached passes a freshness limit meanwhile, the result, the error if any, and the caches afterwards are those of a collection at any one moment (C218_still_partial); when documents are renewed meanwhile and those of the beginning stay fresh to the end, collection succeeds if it would have at the beginning, with the same tree up to expiry times and signatures (C218_renewed_partial)."
  },
  {
   "property": "C219",
   "status": "partial",
   "theorems": [
    "Fed.Chains.C219_kept_partial",
    "Fed.Chains.C219_gained_partial",
    "Fed.Chains.C219_unconcerned_partial",
    "Fed.Chains.C219_conflict_violation",
    "Fed.Chains.C219_elsewhere_violation"
   ],
   "note": "False in the code in two ways. Policies are applied to all verified chains together, so one chain to the new anchor with conflicting policies makes the resolution raise, although the chains to the old anchors are as good as they were (violation theorem). Verifying a chain to the new anchor puts the keys of the intermediates in the key jar, after which a chain that starts with such an intermediate is accepted with the intermediate as its trust anchor (violation theorem). Proved: the chains there were are there still and in the same order if the resolution succeeds; only chains to the new anchor come to them if every chain collected was accepted before or starts with a statement of the new anchor; and the resolution is the same if all chains were accepted before. The new anchor must not name itself as its authority."
  },
  {
   "property": "C22",
   "status": "proved",
   "theorems": [
    "Fed.Policy.C22_diff2policy_round_trip"
   ],
   "note": ""
  },
  {
   "property": "C220",
   "status": "partial",
   "theorems": [
    "Fed.Server.C220_agree_partial",
    "Fed.Server.C220_answered_partial",
    "Fed.Server.C220_nested_violation",
    "Fed.Server.C220_keys_violation"
   ],
   "note": "False in the code in two ways. A resolver stops collecting at the anchor it is asked about while the asking entity does not stop at its anchors, so an anchor that has authorities itself is found by the resolver only (violation theorem). And keys of intermediates learnt elsewhere stay in the key jar, so a chain that the trust anchor does not vouch for is accepted by one of them only (violation theorem). Proved: the two agree whenever both succeed, at whatever times, after whatever collections before and with whatever other anchors, if nobody called by the name of the anchor names authorities, nobody is its own authority, and the chains that start with a statement of the anchor are accepted with the keys of each; and that the resolver answers, if it goes by the same settings at the same time, accepts all chains, and has what it needs in its caches."
  },
  {
   "property": "C221",
   "status": "partial",
   "theorems": [
    "Fed.Chains.C221_settled_partial",
    "Fed.Chains.C221_violation"
   ],
   "note": "False in the code: chains are verified one after the other with a key jar that keeps the keys each of them gives, so a chain that stops at an intermediate (because an authority above it has no fetch endpoint) is accepted with that intermediate as its anchor if it comes after a chain through the intermediate, and rejected if it comes before (violation theorem). Proved: the order makes no difference if every chain collected is either accepted with the keys held at the start or begins with a statement of an entity of which none of the chains gives a key. Which of several chains comes first does depend on the order."
  },
  {
   "property": "C222",
   "status": "partial",
   "theorems": [
    "Fed.Chains.C222_kept_partial",
    "Fed.Chains.C222_unreachable_violation",
    "Fed.Chains.C222_conflict_violation",
    "Fed.Chains.C222_anchor_violation"
   ],
   "note": "False in the code in three ways: an authority that cannot be reached makes the whole collection fail; a chain through the new authority with policies in conflict makes the resolution raise; and a trust anchor that names an authority itself is no longer where collection ends, so that chains to it are replaced by longer ones (violation theorems). Proved: if the resolution succeeds after the change, and those that had no authority have none, all chains there were are there, in the same order, with the same anchor, path, expiry and metadata."
  },
  {
   "property": "C223",
   "status": "partial",
   "theorems": [
    "Fed.TrustMarks.Shared.C223_sequential_partial",
    "Fed.TrustMarks.Shared.C223_kept_partial",
    "Fed.TrustMarks.Shared.C223_lost_violation",
    "Fed.TrustMarks.Shared.C223_mixed_violation"
   ],
   "note": "False in the code in two ways: a process that is started finds a file missing and, when others have created it and written to it, empties it, so that marks that were issued are lost; and lines longer than the buffer of the file object are written in parts, so that two processes make each other's lines unreadable and every status request for that id fails (violation theorems). Proved: if the files are there before the processes are started, and lines are written at once, every process finds at any moment what a single one would, and a mark that was issued is in the file from then on. Reading a file is taken to happen at one moment."
  },
  {
   "property": "C224",
   "status": "partial",
   "theorems": [
    "Fed.Constraints.C224_lengths_partial",
    "Fed.Constraints.C224_names_partial",
    "Fed.Constraints.C224_excluded_violation",
    "Fed.Constraints.C224_permitted_violation"
   ],
   "note": "False in the code in two ways: an authority that excludes one host more replaces the exclusion of the whole domain by its superior, so that the other hosts are let in; and a trust anchor that permits fewer names lets in names it refused before, when nothing of what an authority below permits is left (violation theorems). Proved: allowing shorter paths, anywhere in the chain, lets nobody else in; nor does an authority that begins to constrain names, when nobody below it does and, if it excludes names, nobody above it excludes any."
  },
  {
   "property": "C225",
   "status": "partial",
   "theorems": [
    "Fed.Chains.C225_settled_partial",
    "Fed.Chains.C225_violation"
   ],
   "note": "False in the code: keys that verified chains give are kept and make further chains acceptable, so that when an intermediate joins a trusted federation, a chain that ends at the intermediate itself, which was refused before, is accepted as well, with the intermediate as its trust anchor (violation theorem). Proved: if each chain after the change is accepted with the keys held at the beginning, or starts with a statement of an entity of which none of them gives a key, every chain there is was there before or has a statement of a newly named authority, or ends with one that makes none."
  },
  {
   "property": "C226",
   "status": "partial",
   "theorems": [
    "Fed.Policy.C226_last_partial",
    "Fed.Policy.C226_anywhere_partial",
    "Fed.Policy.C226_superset_violation",
    "Fed.Policy.C226_middle_violation",
    "Fed.Policy.C226_name_violation",
    "Fed.Policy.C226_essential_violation"
   ],
   "note": "False in the code: superset_of of two authorities is intersected, so a lower authority takes away demands; an authority in the middle that mentions essential switches off the check that the policies above and below it contradict each other; one that says essential with a value other than true or false makes what a lower one demands void; and since a single value is looked up among the names of the operators, an authority that mentions essential makes the value \"essential\" acceptable (four violation theorems). Proved for a statement at the end of the chain, if superset_of is not said twice of a claim and the claims bound by subset_of, among those the statement mentions, are lists; and for a statement anywhere below the first, if moreover the policies of the others let somebody in and the statement says essential with true or false."
  },
  {
   "property": "C227",
   "status": "proved",
   "theorems": [
    "Fed.Policy.C227_declares_more"
   ],
   "note": "For every chain of policies. Added values are not lists or objects, which cannot be members of a Python set."
  },
  {
   "property": "C228",
   "status": "partial",
   "theorems": [
    "Fed.Chains.C228_waiting_partial",
    "Fed.Chains.C228_agree_partial",
    "Fed.Chains.C228_lasts",
    "Fed.Chains.C228_expired_violation"
   ],
   "note": "False in the code: a cached configuration is used to start from until the allowed delta after it has expired, so that an entity whose configuration has expired is resolved by a process that has it in its cache, and not, at an earlier time, by one that has not (violation theorem). Proved for entities whose configuration has not expired, or expired longer than the allowed delta ago; the second part is proved in full. No configuration is dated ahead (the library does not check for that), and all of them have an expiry."
  },
  {
   "property": "C229",
   "status": "partial",
   "theorems": [
    "Fed.Chains.C229_unspoken_partial",
    "Fed.Chains.C229_violation"
   ],
   "note": "False in the code: the policies are applied for every entity type the subject declares, and one that does not fit makes the resolution fail altogether, for the other types as well (violation theorem). Proved for further values of lists, and for further types about which no authority says anything; further types of anybody but the subject never matter. The fetch endpoint of authorities stays the same."
  },
  {
   "property": "C23",
   "status": "partial",
   "theorems": [
    "Fed.Constraints.C23_path_length_partial",
    "Fed.Constraints.C23_counting_partial",
    "Fed.Constraints.C23_path_length_violation"
   ],
   "note": "False in the code: the path length is never counted down (violation theorem). Proved: negative maxima are refused; the counting function would be right if its flag were set."
  },
  {
   "property": "C230",
   "status": "partial",
   "theorems": [
    "Fed.Collect.C230_once_partial",
    "Fed.Collect.C230_bound_partial",
    "Fed.Collect.C230_endpoint_violation",
    "Fed.Collect.C230_expiring_violation"
   ],
   "note": "False in the code in two cases (violation theorems): the configuration of an authority without a usable fetch endpoint is asked for each time it is named, and a document that expires within the allowed delta is asked for anew on each path. Proved for all federations where neither is the case, whatever was remembered before and however the collection ends, with identifiers without exclamation marks (see C34); a cycle is no exception. The theorems also say that the functions with the record of the questions are those of the collector."
  },
  {
   "property": "C231",
   "status": "partial",
   "theorems": [
    "Fed.Collect.C231_width_partial",
    "Fed.Collect.C231_single_partial",
    "Fed.Collect.C231_doubling_violation"
   ],
   "note": "False in the code: for every n there is a federation with 2n entities above the one in question, without cycles, for which 2^n trust chains are collected (C231_doubling_violation; proved for all n, not for one). Proved instead: with at most b authorities named by anybody and chains of at most d statements there are at most b^(d+1) chains, and one at most where each entity names one authority."
  },
  {
   "property": "C232",
   "status": "partial",
   "theorems": [
    "Fed.Chains.C232_later_partial",
    "Fed.Chains.C232_agree_partial",
    "Fed.Chains.C232_expiring_violation"
   ],
   "note": "False in the code: a configuration of an authority that expires within allowed_delta is fetched, stored, and dropped by the look into the cache that follows, so that nobody below can be resolved although every document is valid (violation theorem; the setting then decides). Proved: what is resolved with the larger setting is resolved with the smaller to the same chains, whatever either has resolved before; and the two agree when no configuration expires between the two settings. As in C228, the configuration of the entity itself has not expired or did so at least the delta ago."
  },
  {
   "property": "C233",
   "status": "partial",
   "theorems": [
    "Fed.Chains.C233_renamed_partial",
    "Fed.Chains.C233_collision_violation"
   ],
   "note": "False in the code for names with exclamation marks: the keys of the statement cache run the names together (C31), so that giving a member another name changes the trust anchors another member resolves to (violation theorem, from empty caches). Proved for names without them on either side, whatever has been resolved before; as in C228, the configuration of the entity itself has not expired or did so at least the delta ago. Signatures of the renamed documents are assumed to verify where the original ones do."
  },
  {
   "property": "C234",
   "status": "partial",
   "theorems": [
    "Fed.Policy.C234_merged_partial",
    "Fed.Policy.C234_overlap_violation",
    "Fed.Policy.C234_demands_violation"
   ],
   "note": "False in the code in two ways (violation theorems): one authority that gives a value to a claim and one below it that constrains the claim are accepted, one that does both is refused; and an authority that demands more than the anchor allows is refused, but not when it is put together with one below it that demands less, because demands are intersected. Proved when the two together do not do the first, and for each claim both speak about nobody above does or all use one and the same operator (subset_of, superset_of, one_of, add, value or default). What both say together is what combine makes of the two statements."
  },
  {
   "property": "C235",
   "status": "partial",
   "theorems": [
    "Fed.Policy.C235_swapped_partial",
    "Fed.Policy.C235_value_violation",
    "Fed.Policy.C235_anchor_violation"
   ],
   "note": "False in the code in two ways (violation theorems): a value below a constraint it meets is accepted, the constraint below the value is refused; and an authority that gives a value to a claim it also constrains is accepted only at the top. Proved when neither of the two does that and for each claim both speak about the policies of the two and above use one and the same operator, or nobody above speaks about it and the two neither fix the value nor disagree about essential."
  },
  {
   "property": "C236",
   "status": "partial",
   "theorems": [
    "Fed.Policy.C236_said_partial",
    "Fed.Policy.C236_characters_violation",
    "Fed.Chains.C236_resolved_partial"
   ],
   "note": "False in the code (violation theorem): a value that is not a list and happens to be the name of an operator in the policy for its claim passes subset_of and is replaced by the list of its characters. Proved when nobody says such a name for the claim, for single chains and for everything an entity is resolved to through chains of more than its own configuration."
  },
  {
   "property": "C237",
   "status": "proved",
   "theorems": [
    "Fed.Setup.Asking.C237_incomplete",
    "Fed.Setup.Asking.C237_resolver",
    "Fed.Setup.Asking.C237_mark"
   ],
   "note": "The resolver and the asking entity may have collected different things before and are asked at different times. That the query is read as it was written is taken from idpyoidc (hypothesis Reads); what the scripts print of an answer is not modelled."
  },
  {
   "property": "C238",
   "status": "partial",
   "theorems": [
    "Fed.Policy.C238_exchanged_partial",
    "Fed.Policy.C238_refused_partial",
    "Fed.Policy.C238_text_violation",
    "Fed.Policy.C238_name_violation",
    "Fed.Policy.C238_characters_violation"
   ],
   "note": "Proved where the operands of one_of, subset_of and superset_of are lists and where claims with subset_of or superset_of are always given lists. Outside it is false: one_of with a text allows any part of the text (C238_text_violation), subset_of looks for a single text among the names of the operators (C238_name_violation), and superset_of compares the characters of a single text (C238_characters_violation)."
  },
  {
   "property": "C239",
   "status": "proved",
   "theorems": [
    "Fed.Policy.C239_renamed",
    "Fed.Policy.C239_refused"
   ],
   "note": "Names are exchanged for types and claims, not for operators. Of the members of values the names stay."
  },
  {
   "property": "C24",
   "status": "partial",
   "theorems": [
    "Fed.Constraints.C24_exclusion_partial",
    "Fed.Constraints.C24_exclusion_violation",
    "Fed.Constraints.C24_second_list_violation"
   ],
   "note": "False in the code: a subordinate exclusion replaces the superior one, and a second unrelated list is ignored (violation theorems). Proved for the topmost exclusions when no lower statement excludes a smaller subtree."
  },
  {
   "property": "C240",
   "status": "proved",
   "theorems": [
    "Fed.Policy.C240_narrowed"
   ],
   "note": "The lists after the change are part of those before; operands that are not lists stay as they are."
  },
  {
   "property": "C241",
   "status": "partial",
   "theorems": [
    "Fed.Policy.C241_demanded_partial",
    "Fed.Policy.C241_superset_violation"
   ],
   "note": "Proved where, of a claim of which more is demanded, only one authority of the chain demands anything; false where two do."
  },
  {
   "property": "C242",
   "status": "proved",
   "theorems": [
    "Fed.Chains.C242_permitted"
   ],
   "note": "Statements are signed again with the same keys; what the signature depends on stays the same."
  },
  {
   "property": "C243",
   "status": "partial",
   "theorems": [
    "Fed.Chains.C243_demanded_partial",
    "Fed.Chains.C243_superset_violation"
   ],
   "note": "Proved where, of the claims of which more is demanded, only one authority in each trust chain that is found demands anything; false where two do."
  },
  {
   "property": "C244",
   "status": "partial",
   "theorems": [
    "Fed.Chains.C244_constrained_partial",
    "Fed.Chains.C244_none_left_out_partial",
    "Fed.Chains.C244_spoiled_violation"
   ],
   "note": "Proved for entities that could be resolved before (no trust chain is new) and for entities none of whose trust chains is left out (they could be resolved before, with the same answer), provided that, where authorities begin to constrain names, one authority at most in the trust chain does; false for entities that could not be resolved because of a trust chain that now is ruled out."
  },
  {
   "property": "C245",
   "status": "proved",
   "theorems": [
    "Fed.Chains.C245_further_keys"
   ],
   "note": "Which keys verify a statement does not change when it is issued again with further keys in it."
  },
  {
   "property": "C246",
   "status": "proved",
   "theorems": [
    "Fed.Chains.C246_longer_valid"
   ],
   "note": "For statements whose end of validity, where it is moved on, was not negative. Keys that verify a statement verify it when it is issued again."
  },
  {
   "property": "C247",
   "status": "proved",
   "theorems": [
    "Fed.Chains.C247_own_matter"
   ],
   "note": ""
  },
  {
   "property": "C248",
   "status": "proved",
   "theorems": [
    "Fed.Chains.C248_own_rules"
   ],
   "note": ""
  },
  {
   "property": "C249",
   "status": "proved",
   "theorems": [
    "Fed.Chains.C249_other_types"
   ],
   "note": ""
  },
  {
   "property": "C25",
   "status": "proved",
   "theorems": [
    "Fed.Constraints.C25_permitted_only_narrows"
   ],
   "note": ""
  },
  {
   "property": "C250",
   "status": "proved",
   "theorems": [
    "Fed.Chains.C250_elsewhere"
   ],
   "note": ""
  },
  {
   "property": "C26",
   "status": "partial",
   "theorems": [
    "Fed.Constraints.C26_every_list_partial",
    "Fed.Constraints.C26_every_list_violation"
   ],
   "note": "False in the code: a list that refines no entry of the superior is ignored (violation theorem). Proved when each list refines every entry of the one before it."
  },
  {
   "property": "C27",
   "status": "proved",
   "theorems": [
    "Fed.Constraints.C27_labels",
    "Fed.Constraints.C27_suffix_match",
    "Fed.Constraints.C27_reflexive",
    "Fed.Constraints.C27_transitive"
   ],
   "note": ""
  },
  {
   "property": "C28",
   "status": "proved",
   "theorems": [
    "Fed.Collect.C28_chains_are_paths"
   ],
   "note": ""
  },
  {
   "property": "C29",
   "status": "partial",
   "theorems": [
    "Fed.Collect.C29_complete_paths_partial",
    "Fed.Collect.C29_no_failure_partial",
    "Fed.Collect.C29_failed_branch_violation",
    "Fed.Collect.C29_empty_chain_violation"
   ],
   "note": "False in the code: a failed branch leaves a cut-off or empty chain (violation theorems). Proved: complete paths always give their chain, every other chain ends just below a failed branch, and without failed branches there is no other chain."
  },
  {
   "property": "C30",
   "status": "partial",
   "theorems": [
    "Fed.Collect.C30_acyclic_partial",
    "Fed.Collect.C30_fuel_irrelevant",
    "Fed.Collect.C30_cycle_violation"
   ],
   "note": "False in the code: two authorities naming each other are followed forever (violation theorem). Proved for authority hints without cycles; the depth bound of the model changes no finished result."
  },
  {
   "property": "C31",
   "status": "partial",
   "theorems": [
    "Fed.Collect.C31_tree_faithful_partial",
    "Fed.Collect.C31_collision_violation"
   ],
   "note": "False in the code when an identifier contains the cache separator (violation theorem). Proved for identifiers without exclamation marks."
  },
  {
   "property": "C32",
   "status": "proved",
   "theorems": [
    "Fed.Collect.C32_lookup_is_last_fresh",
    "Fed.Collect.C32_stale_entry_gone"
   ],
   "note": ""
  },
  {
   "property": "C33",
   "status": "proved",
   "theorems": [
    "Fed.Collect.C33_only_fresh_served",
    "Fed.Collect.C33_stale_dropped",
    "Fed.Collect.C33_history"
   ],
   "note": ""
  },
  {
   "property": "C34",
   "status": "partial",
   "theorems": [
    "Fed.Collect.C34_plain_partial",
    "Fed.Collect.C34_statements_collide_violation",
    "Fed.Collect.C34_expiry_collides_violation"
   ],
   "note": "False in the code for identifiers containing exclamation marks (violation theorems). Proved for all others."
  },
  {
   "property": "C35",
   "status": "proved",
   "theorems": [
    "Fed.Verify.C35_known_anchor",
    "Fed.Verify.C35_unknown_anchor_refused"
   ],
   "note": ""
  },
  {
   "property": "C36",
   "status": "partial",
   "theorems": [
    "Fed.Verify.C36_anchor_vouched_partial",
    "Fed.Verify.C36_no_success_partial",
    "Fed.Verify.C36_intermediate_violation",
    "Fed.Verify.C36_self_anchored_violation"
   ],
   "note": "False in the code: entities of earlier chains, even leaves, count as anchors afterwards (violation theorems). Proved: the anchor was configured or is the subject of a statement verified earlier; a configured one if nothing verified before."
  },
  {
   "property": "C37",
   "status": "proved",
   "theorems": [
    "Fed.Verify.C37_keys_from_above"
   ],
   "note": ""
  },
  {
   "property": "C38",
   "status": "proved",
   "theorems": [
    "Fed.Verify.C38_no_key_lost",
    "Fed.Verify.C38_only_vouched_keys",
    "Fed.Verify.C38_declared_keys_held"
   ],
   "note": ""
  },
  {
   "property": "C39",
   "status": "partial",
   "theorems": [
    "Fed.Verify.C39_minimum_partial",
    "Fed.Verify.C39_negative_violation"
   ],
   "note": "False in the code for expiry times before 1970 (violation theorem). Proved for all others; the reported time is always that of one of the statements."
  },
  {
   "property": "C40",
   "status": "partial",
   "theorems": [
    "Fed.Verify.C40_fresh_store_partial",
    "Fed.Verify.C40_unlinked_violation",
    "Fed.Verify.C40_fresh_violation"
   ],
   "note": "False in the code (violation theorems). Proved for a key store with only the anchor: each issuer is the anchor or the subject of some earlier statement."
  },
  {
   "property": "C41",
   "status": "partial",
   "theorems": [
    "Fed.Verify.C41_reports_expiry_partial",
    "Fed.Verify.C41_expired_violation"
   ],
   "note": "False in the code: verification does not look at the clock (violation theorem). Proved: the accepted chain reports itself expired exactly when one of its statements is."
  },
  {
   "property": "C42",
   "status": "proved",
   "theorems": [
    "Fed.Verify.C42_describes_chain"
   ],
   "note": ""
  },
  {
   "property": "C43",
   "status": "proved",
   "theorems": [
    "Fed.Chains.C43_shortest_first"
   ],
   "note": ""
  },
  {
   "property": "C44",
   "status": "partial",
   "theorems": [
    "Fed.Chains.C44_one_entity_partial",
    "Fed.Chains.C44_found_was_saved_partial",
    "Fed.Chains.C44_mixed_save_violation"
   ],
   "note": "False in the code for a save that mixes entities with the same anchor (violation theorem). Proved when each save is about one entity; and what is found was saved for that pair, always."
  },
  {
   "property": "C45",
   "status": "partial",
   "theorems": [
    "Fed.Chains.C45_alternates_partial",
    "Fed.Chains.C45_second_export_violation"
   ],
   "note": "False in the code: exporting reverses the chain in place (violation theorem). Proved: exports alternate, the first is leaf first."
  },
  {
   "property": "C46",
   "status": "partial",
   "theorems": [
    "Fed.Chains.C46_fresh_partial",
    "Fed.Chains.C46_stored_first_partial",
    "Fed.Chains.C46_stored_violation"
   ],
   "note": "False in the code for stored chains (violation theorem); proved in full for fresh ones. For stored ones: the first is always taken."
  },
  {
   "property": "C47",
   "status": "partial",
   "theorems": [
    "Fed.Chains.C47_stored_was_resolved_partial",
    "Fed.Chains.C47_first_answer_stays_partial",
    "Fed.Chains.C47_expired_violation"
   ],
   "note": "False in the code (violation theorem). Proved: a stored answer was resolved by an earlier call for the same entity; the first answer stays for ever."
  },
  {
   "property": "C48",
   "status": "partial",
   "theorems": [
    "Fed.TrustMarks.C48_exact_partial",
    "Fed.TrustMarks.C48_same_lifetime_partial",
    "Fed.TrustMarks.C48_hidden_violation"
   ],
   "note": "False in the code: only the latest matching line is looked at, so an expired later mark hides a live earlier one (violation theorem). Proved: the exact answer of every history, and the full claim when marks of an id live equally long."
  },
  {
   "property": "C49",
   "status": "proved",
   "theorems": [
    "Fed.TrustMarks.C49_lists_subjects"
   ],
   "note": ""
  },
  {
   "property": "C50",
   "status": "proved",
   "theorems": [
    "Fed.TrustMarks.C50_dump_load"
   ],
   "note": ""
  },
  {
   "property": "C51",
   "status": "partial",
   "theorems": [
    "Fed.TrustMarks.C51_first_only_partial",
    "Fed.TrustMarks.C51_distinct_ids_partial",
    "Fed.TrustMarks.C51_second_mark_violation"
   ],
   "note": "False in the code: a second mark of an id raises (violation theorem). Proved for histories with distinct ids; what a second one of an id does."
  },
  {
   "property": "C52",
   "status": "partial",
   "theorems": [
    "Fed.TrustMarks.C52_accepted_partial",
    "Fed.TrustMarks.C52_delegation_partial",
    "Fed.TrustMarks.C52_good_mark_accepted",
    "Fed.TrustMarks.C52_delegation_violation"
   ],
   "note": "False in the code: a delegation for a trust mark id the anchor does not list is only logged (violation theorem). Proved: everything else, and the delegation for ids that are listed; also that good marks without delegation are accepted."
  },
  {
   "property": "C53",
   "status": "partial",
   "theorems": [
    "Fed.TrustMarks.C53_file_partial",
    "Fed.TrustMarks.C53_requests_partial",
    "Fed.TrustMarks.C53_memory_partial",
    "Fed.TrustMarks.C53_unknown_id_violation",
    "Fed.TrustMarks.C53_expired_violation"
   ],
   "note": "False in the code: unknown ids raise, and a mark that has expired since can count as active in memory (violation theorems). Proved for known ids, for both stores."
  },
  {
   "property": "C54",
   "status": "partial",
   "theorems": [
    "Fed.Server.C54_partial",
    "Fed.Server.C54_unknown",
    "Fed.Server.C54_own",
    "Fed.Server.C54_violation",
    "Fed.Server.C54_violation_subject"
   ],
   "note": "False in the code: a subordinate registered without keys is given the authority's keys; a request in the name of an unknown entity is answered with the own statement (violation theorems). Proved: the subject is registered and its registered keys are stated, unknown subjects are refused, and all other answers are about the entity itself."
  },
  {
   "property": "C55",
   "status": "partial",
   "theorems": [
    "Fed.Server.C55_partial",
    "Fed.Server.C55_violation"
   ],
   "note": "False in the code: the issuer is taken from the request (violation theorem). Proved for requests naming no or the right issuer."
  },
  {
   "property": "C56",
   "status": "partial",
   "theorems": [
    "Fed.Server.C56_partial",
    "Fed.Server.C56_registry",
    "Fed.Server.C56_violation"
   ],
   "note": "False in the code: the issuer named in a request is kept as authority hint in the registry (violation theorem). Proved for all histories of other requests; policies and the set of subordinates never change."
  },
  {
   "property": "C57",
   "status": "partial",
   "theorems": [
    "Fed.Server.C57_all",
    "Fed.Server.C57_union_partial",
    "Fed.Server.C57_registered",
    "Fed.Server.C57_type_partial",
    "Fed.Server.C57_intermediate_partial",
    "Fed.Server.C57_marked_partial",
    "Fed.Server.C57_mark_id_partial",
    "Fed.Server.C57_violation",
    "Fed.Server.C57_violation_unrelated"
   ],
   "note": "False in the code: several criteria select the union; an unknown member in the request gives an empty answer (violation theorems). Proved: what each answer names exactly; the claim for each single criterion and for none."
  },
  {
   "property": "C58",
   "status": "proved",
   "theorems": [
    "Fed.Server.C58_answer",
    "Fed.Server.C58_no_chain",
    "Fed.Server.C58_no_type"
   ],
   "note": ""
  },
  {
   "property": "C59",
   "status": "proved",
   "theorems": [
    "Fed.Server.C59_payload"
   ],
   "note": ""
  },
  {
   "property": "C60",
   "status": "partial",
   "theorems": [
    "Fed.Message.C60_unknown_refused",
    "Fed.Message.C60_known_not_refused_partial",
    "Fed.Message.C60_harmless_violation"
   ],
   "note": "False in the code: a statement whose critical list only names claims it does not carry or known ones can still be refused for a harmless extension (violation theorem). Proved: unknown critical claims are refused, and statements all of whose extra claims are known are not."
  },
  {
   "property": "C61",
   "status": "partial",
   "theorems": [
    "Fed.Registration.C61_exact_partial",
    "Fed.Registration.C61_accepted_partial",
    "Fed.Registration.C61_fragment_violation",
    "Fed.Registration.C61_localhost_fragment_violation"
   ],
   "note": "False in the code: fragments are accepted in some cases (violation theorems). Proved: exactly which redirect URIs are accepted, and everything about schemes and hosts."
  },
  {
   "property": "C62",
   "status": "partial",
   "theorems": [
    "Fed.Registration.C62_untouched_partial",
    "Fed.Registration.C62_supported_partial",
    "Fed.Registration.C62_refused",
    "Fed.Registration.C62_false_dropped_violation",
    "Fed.Registration.C62_substring_violation"
   ],
   "note": "False in the code: false is dropped although the server says nothing about it; support is tested with `in` on strings (violation theorems). Proved otherwise; what is not supported is refused."
  },
  {
   "property": "C63",
   "status": "partial",
   "theorems": [
    "Fed.Registration.C63_skeleton_partial",
    "Fed.Registration.C63_fresh_partial",
    "Fed.Registration.C63_early_partial",
    "Fed.Registration.C63_half_made_violation",
    "Fed.Registration.C63_wiped_violation"
   ],
   "note": "False in the code: the half-made entry stays; with self-chosen ids it replaces an existing registration (violation theorems). Proved: only the entry of that id changes and it has nothing of the request; with fresh ids no other client is affected; early refusals change nothing."
  },
  {
   "property": "C64",
   "status": "partial",
   "theorems": [
    "Fed.Registration.C64_unknown_partial",
    "Fed.Registration.C64_known_partial",
    "Fed.Registration.C64_key_lookup_violation",
    "Fed.Registration.C64_again_violation",
    "Fed.Registration.C64_known_afterwards"
   ],
   "note": "False in the code: looking up keys for a token registers its issuer without asking whether that is supported; the OpenID endpoint registers automatically registered clients anew (violation theorems). Proved: an unknown client gets in only with support and a verified chain with metadata of the right type; known clients are not registered again otherwise."
  },
  {
   "property": "C65",
   "status": "partial",
   "theorems": [
    "Fed.Registration.C65_registered_partial",
    "Fed.Registration.C65_asked_partial",
    "Fed.Registration.C65_foreign_chain_violation",
    "Fed.Registration.C65_role_partial"
   ],
   "note": "False in the code: a chain handed in with the request may be about any other entity (violation theorem). Proved for collected chains of clients that publish their own configuration; for handed in chains that it is the metadata of a verified chain."
  },
  {
   "property": "C66",
   "status": "partial",
   "theorems": [
    "Fed.Registration.C66_oauth2_partial",
    "Fed.Registration.C66_oidc_partial",
    "Fed.Registration.C66_unpoliced_violation"
   ],
   "note": "False in the code at the OpenID endpoint: the unpoliced metadata of the request is registered (violation theorem, and what exactly is registered). Proved for the OAuth endpoint."
  },
  {
   "property": "C67",
   "status": "partial",
   "theorems": [
    "Fed.Chains.C67_none_missing_partial",
    "Fed.Chains.C67_one_spoils_all_partial",
    "Fed.Chains.C67_policy_violation",
    "Fed.Chains.C67_signature_violation"
   ],
   "note": "False in the code for contradicting policies and for bad signatures (violation theorems). Proved: if resolution succeeds no good chain is missing; one failing chain always fails the whole."
  },
  {
   "property": "C68",
   "status": "partial",
   "theorems": [
    "Fed.Constraints.C68_host_partial",
    "Fed.Constraints.C68_host_violation",
    "Fed.Constraints.C68_exclusion_violation"
   ],
   "note": "False in the code: path and port take part in the matching (violation theorems). Proved for identifiers that are a bare scheme and host."
  },
  {
   "property": "C69",
   "status": "partial",
   "theorems": [
    "Fed.Constraints.C69_verdict_partial",
    "Fed.Constraints.C69_verdict_violation"
   ],
   "note": "False in the code: a missing list raises KeyError (violation theorem). Proved when both lists are given."
  },
  {
   "property": "C70",
   "status": "partial",
   "theorems": [
    "Fed.Collect.C70_passing_partial",
    "Fed.Collect.C70_static_federation_partial",
    "Fed.Collect.C70_static_federation_published_partial",
    "Fed.Collect.C70_expired_configuration_violation"
   ],
   "note": "False in the code: an expired configuration of an authority with a statement still cached makes collection fail (violation theorem). Proved for federations that publish the same documents all the time, with documents that expire as time passes (C70_passing_partial), unless the configuration of the entity itself expired less than the allowed delta ago."
  },
  {
   "property": "C71",
   "status": "partial",
   "theorems": [
    "Fed.Collect.C71_all_or_nothing_partial",
    "Fed.Collect.C71_unreachable_violation"
   ],
   "note": "False in the code: one unreachable authority fails the whole collection (violation theorem). Proved: collection succeeds exactly if it does through each authority alone, and an authority without fetch endpoint is harmless."
  },
  {
   "property": "C72",
   "status": "partial",
   "theorems": [
    "Fed.Collect.C72_start_partial",
    "Fed.Collect.C72_cached_violation",
    "Fed.Collect.C72_fetched_violation"
   ],
   "note": "False in the code: cached configurations are used past their expiry until the allowed delta has passed, fetched ones while the skew of cryptojwt has not passed (violation theorems). Proved: no longer than that."
  },
  {
   "property": "C73",
   "status": "proved",
   "theorems": [
    "Fed.Verify.C73_acceptance_is_stable",
    "Fed.Verify.C73_attempts_do_not_harm"
   ],
   "note": ""
  },
  {
   "property": "C74",
   "status": "partial",
   "theorems": [
    "Fed.Verify.C74_fresh_issuer_partial",
    "Fed.Verify.C74_withdrawn_key_violation"
   ],
   "note": "False in the code: keys are never withdrawn from the key store (violation theorem). Proved when the store had no key of the issuer and one statement above is about it."
  },
  {
   "property": "C75",
   "status": "proved",
   "theorems": [
    "Fed.Verify.C75_well_signed_accepted",
    "Fed.Verify.C75_nothing_less"
   ],
   "note": ""
  },
  {
   "property": "C76",
   "status": "proved",
   "theorems": [
    "Fed.Chains.C76_provenance"
   ],
   "note": ""
  },
  {
   "property": "C77",
   "status": "partial",
   "theorems": [
    "Fed.Chains.C77_unknown_entity_partial",
    "Fed.Chains.C77_self_anchored_violation",
    "Fed.Chains.C77_first_contact_violation"
   ],
   "note": "False in the code: an entity naming itself as authority becomes its own anchor, escaping all policies (violation theorems: after an earlier resolution, and at first contact). Proved for an unknown entity with one chain."
  },
  {
   "property": "C78",
   "status": "partial",
   "theorems": [
    "Fed.Chains.C78_honest_partial",
    "Fed.Chains.C78_mirror_violation"
   ],
   "note": "False in the code: the subject of the published configuration is not compared with the identifier (violation theorem). Proved when the entity publishes its own configuration."
  },
  {
   "property": "C79",
   "status": "proved",
   "theorems": [
    "Fed.Chains.C79_fixed_value_arrives"
   ],
   "note": ""
  },
  {
   "property": "C80",
   "status": "partial",
   "theorems": [
    "Fed.TrustMarks.C80_list_partial",
    "Fed.TrustMarks.C80_expired_violation"
   ],
   "note": "False in the code: expired marks stay in the list (violation theorem). Proved: the list names exactly the subjects that were given a mark; asked for one subject the answer is right."
  },
  {
   "property": "C81",
   "status": "partial",
   "theorems": [
    "Fed.TrustMarks.C81_signed_subject_partial",
    "Fed.TrustMarks.C81_message_partial",
    "Fed.TrustMarks.C81_other_subject_violation"
   ],
   "note": "False in the code: the verifier does not use its parameter entity_id (violation theorem). Proved: the subject returned is the one the issuer signed; what the message class checks."
  },
  {
   "property": "C82",
   "status": "partial",
   "theorems": [
    "Fed.TrustMarks.C82_returned_partial",
    "Fed.TrustMarks.C82_unchecked_partial",
    "Fed.TrustMarks.C82_check_violation"
   ],
   "note": "False in the code: with the check, a mark that is not accepted raises TypeError (violation theorem). Proved: what is returned was accepted and confirmed; without the check the verifier decides."
  },
  {
   "property": "C83",
   "status": "partial",
   "theorems": [
    "Fed.TrustMarks.C83_self_signed_partial",
    "Fed.TrustMarks.C83_forged_violation"
   ],
   "note": "False in the code: any self-signed configuration published under the name of the anchor counts (violation theorem). Proved: that it is self-signed or cached, and has not expired."
  },
  {
   "property": "C84",
   "status": "proved",
   "theorems": [
    "Fed.Server.C84_policies"
   ],
   "note": ""
  },
  {
   "property": "C85",
   "status": "partial",
   "theorems": [
    "Fed.Server.C85_partial",
    "Fed.Server.C85_violation"
   ],
   "note": "False in the code: dropped as soon as an entity type of the subordinate has a metadata policy (violation theorem). Proved when no entity type of the subordinate has a policy."
  },
  {
   "property": "C86",
   "status": "proved",
   "theorems": [
    "Fed.Server.C86_configuration"
   ],
   "note": ""
  },
  {
   "property": "C87",
   "status": "partial",
   "theorems": [
    "Fed.Server.C87_partial",
    "Fed.Server.C87_always_fails",
    "Fed.Server.C87_violation"
   ],
   "note": "False in the code: list reads entity_type, fetch reads entity_types (violation theorem). Proved for registries with both."
  },
  {
   "property": "C88",
   "status": "partial",
   "theorems": [
    "Fed.Server.C88_partial",
    "Fed.Server.C88_violation"
   ],
   "note": "False in the code: one subordinate can sign the configuration of another that comes later (violation theorem). Proved for the issuer the configuration names."
  },
  {
   "property": "C89",
   "status": "partial",
   "theorems": [
    "Fed.Server.C89_vouched_partial",
    "Fed.Server.C89_one_chain_partial",
    "Fed.Server.C89_violation"
   ],
   "note": "False in the code: entities seen in earlier chains count as anchors (violation theorem). Proved: the anchor is configured or the subject of a validly signed statement collected for this or an earlier request; with one chain it was in the key store before."
  },
  {
   "property": "C90",
   "status": "partial",
   "theorems": [
    "Fed.Server.C90_orderly_partial",
    "Fed.Server.C90_violation",
    "Fed.Server.C90_with_anchor_partial"
   ],
   "note": "False in the code: the chain is put together again from the caches, by issuer, and null is given out for what is not found (violation theorem). Proved for federations in which nothing is about to expire and everyone signs under the identifier it is known by."
  },
  {
   "property": "C91",
   "status": "partial",
   "theorems": [
    "Fed.Server.C91_orderly_partial",
    "Fed.Server.C91_violation",
    "Fed.Server.C91_federation_partial"
   ],
   "note": "False in the code: TypeError if the configuration of the subject expires within the allowed delta (violation theorem). Proved under the same conditions as C90, and for federations of entities that run this software and issue no statement for less than a day."
  },
  {
   "property": "C92",
   "status": "partial",
   "theorems": [
    "Fed.Message.C92_disregarded_partial",
    "Fed.Message.C92_accepted_violation"
   ],
   "note": "False in the code: statements of a chain are not checked for critical claims (violation theorem). Proved: resolution disregards them altogether."
  },
  {
   "property": "C93",
   "status": "partial",
   "theorems": [
    "Fed.Registration.C93_made_up_partial",
    "Fed.Registration.C93_own_secret_violation"
   ],
   "note": "False in the code: a request may bring its own client_secret or client_salt (violation theorem). Proved for requests that do not; the id is always right."
  },
  {
   "property": "C94",
   "status": "proved",
   "theorems": [
    "Fed.Registration.C94_kept",
    "Fed.Registration.C94_addresses"
   ],
   "note": ""
  },
  {
   "property": "C95",
   "status": "partial",
   "theorems": [
    "Fed.Registration.C95_still_unknown_partial",
    "Fed.Registration.C95_second_time_violation"
   ],
   "note": "False in the code: the half-made entry makes the client known, so the second request is let in (violation theorem). Proved when there is no trusted chain or a new id is given."
  },
  {
   "property": "C96",
   "status": "partial",
   "theorems": [
    "Fed.Registration.C96_oauth2_partial",
    "Fed.Registration.C96_removed_violation"
   ],
   "note": "False in the code at the OpenID endpoint: an automatically registered client is removed before the new chain is checked (violation theorem). Proved for the OAuth endpoints."
  },
  {
   "property": "C97",
   "status": "partial",
   "theorems": [
    "Fed.Registration.C97_oauth2_partial",
    "Fed.Registration.C97_anyone_violation",
    "Fed.Registration.C97_member_violation"
   ],
   "note": "False in the code: the OpenID endpoint checks only that the request is self-signed; the OAuth endpoint lets issuers with known keys name another subject (violation theorems). Proved for the OAuth endpoint: signed with a key of its issuer that was known before or that another verified statement lists."
  },
  {
   "property": "C98",
   "status": "proved",
   "theorems": [
    "Fed.Registration.C98_response",
    "Fed.Registration.C98_response_oidc"
   ],
   "note": ""
  },
  {
   "property": "C99",
   "status": "proved",
   "theorems": [
    "Fed.Discover.C99_exactly"
   ],
   "note": ""
  }
 ]
}