CL={}
def c(k,s,n,*t,ns='Fed.Policy.'): CL[k]=(s,[ns+x for x in t],n)
c('C01','proved','','C01_value_final')
c('C02','partial','False in the code for single-valued claims that name an operator, and when one_of is present as well (violation theorems). Proved without those two cases, and unconditionally for claims declared as lists.','C02_subset_of_partial','C02_subset_of_list_partial','C02_subset_of_violation','C02_subset_of_one_of_violation')
c('C03','proved','','C03_superset_of')
c('C04','partial','False in the code for claims written as lists (violation theorem). Proved for claims that resolve to a single value.','C04_one_of_partial','C04_one_of_violation')
c('C05','proved','','C05_add','C05_add_subset')
c('C06','proved','','C06_default_never_overrides','C06_default_supplied')
c('C07','proved','','C07_essential_present','C07_essential_missing_refused')
c('C08','proved','','C08_pass_through','C08_none_invented')
c('C09','proved','','C09_operator_loop_terminates','C09_applyPolicy_total')
c('C10','proved','','C10_hash_order_irrelevant')
c('C11','partial','False in the code for a single-valued add on an absent claim (violation theorem). Proved when such operands are lists of atoms and no single-valued claim under subset_of names an operator.','C11_idempotent_partial','C11_idempotent_violation')
c('C19','partial','False in the code: the leaf wins (violation theorem). Proved when the leaf is silent or agrees.','C19_superior_metadata_partial','C19_superior_metadata_violation')
c('C12','partial','False in the code when both sides have superset_of (violation theorem). Proved in every other case.','C12_superior_partial','C12_superior_violation')
c('C13','partial','False in the code when both sides have superset_of (violation theorem). Proved in every other case, for a superior whose essential is a boolean.','C13_subordinate_partial','C13_subordinate_violation')
c('C14','partial','False in the code when a lower statement fixes the value (violation theorem). value proved for all chains; subset_of (leaf claim a list) and one_of (single value) proved for chains without a value for the claim.','C14_value_partial','C14_subset_of_partial','C14_one_of_partial','C14_chain_violation')
c('C15','proved','','C15_value_conflict_refused','C15_default_conflict_refused','C15_essential_weakening_refused','C15_chain_value_conflict_refused')
c('C16','partial','False in the code when an operator such as essential is present too (violation theorem). Proved for the exact operator sets the code checks, and the exclusion of one_of with subset_of/superset_of.','C16_self_consistent_partial','C16_one_of_exclusive_partial','C16_self_consistent_violation')
c('C17','proved','','C17_combine_covers','C17_chain_covers')
c('C18','proved','','C18_superior_metadata_kept','C18_contradiction_refused')
c('C20','partial','False in the code for the first statement of the chain (violation theorem). Proved for all others.','C20_overlap_partial','C20_overlap_violation')
c('C21','proved','','C21_hash_order_irrelevant','C21_resolution_hash_order_irrelevant')
c('C22','proved','','C22_diff2policy_round_trip')
N='Fed.Constraints.'
c('C23','partial','False in the code: the path length is never counted down (violation theorem). Proved: negative maxima are refused; the counting function would be right if its flag were set.','C23_path_length_partial','C23_counting_partial','C23_path_length_violation',ns=N)
c('C24','partial','False in the code: a subordinate exclusion replaces the superior one, and a second unrelated list is ignored (violation theorems). Proved for the topmost exclusions when no lower statement excludes a smaller subtree.','C24_exclusion_partial','C24_exclusion_violation','C24_second_list_violation',ns=N)
c('C25','proved','','C25_permitted_only_narrows',ns=N)
c('C26','partial','False in the code: a list that refines no entry of the superior is ignored (violation theorem). Proved when each list refines every entry of the one before it.','C26_every_list_partial','C26_every_list_violation',ns=N)
c('C27','proved','','C27_labels','C27_suffix_match','C27_reflexive','C27_transitive',ns=N)
c('C68','partial','False in the code: path and port take part in the matching (violation theorems). Proved for identifiers that are a bare scheme and host.','C68_host_partial','C68_host_violation','C68_exclusion_violation',ns=N)
c('C69','partial','False in the code: a missing list raises KeyError (violation theorem). Proved when both lists are given.','C69_verdict_partial','C69_verdict_violation',ns=N)
K='Fed.Collect.'
c('C28','proved','','C28_chains_are_paths',ns=K)
c('C29','partial','False in the code: a failed branch leaves a cut-off or empty chain (violation theorems). Proved: complete paths always give their chain, every other chain ends just below a failed branch, and without failed branches there is no other chain.','C29_complete_paths_partial','C29_no_failure_partial','C29_failed_branch_violation','C29_empty_chain_violation',ns=K)
c('C32','proved','','C32_lookup_is_last_fresh','C32_stale_entry_gone',ns=K)
c('C30','partial','False in the code: two authorities naming each other are followed forever (violation theorem). Proved for authority hints without cycles; the depth bound of the model changes no finished result.','C30_acyclic_partial','C30_fuel_irrelevant','C30_cycle_violation',ns=K)
c('C31','partial','False in the code when an identifier contains the cache separator (violation theorem). Proved for identifiers without exclamation marks.','C31_tree_faithful_partial','C31_collision_violation',ns=K)
c('C33','proved','','C33_only_fresh_served','C33_stale_dropped','C33_history',ns=K)
c('C34','partial','False in the code for identifiers containing exclamation marks (violation theorems). Proved for all others.','C34_plain_partial','C34_statements_collide_violation','C34_expiry_collides_violation',ns=K)
c('C70','partial','False in the code: an expired configuration of an authority with a statement still cached makes collection fail (violation theorem). Proved for federations that publish the same documents all the time, with documents that expire as time passes (C70_passing_partial), unless the configuration of the entity itself expired less than the allowed delta ago.','C70_passing_partial','C70_static_federation_partial','C70_static_federation_published_partial','C70_expired_configuration_violation',ns=K)
c('C71','partial','False in the code: one unreachable authority fails the whole collection (violation theorem). Proved: collection succeeds exactly if it does through each authority alone, and an authority without fetch endpoint is harmless.','C71_all_or_nothing_partial','C71_unreachable_violation',ns=K)
c('C72','partial','False in the code: cached configurations are used past their expiry until the allowed delta has passed, fetched ones while the skew of cryptojwt has not passed (violation theorems). Proved: no longer than that.','C72_start_partial','C72_cached_violation','C72_fetched_violation',ns=K)
V='Fed.Verify.'
c('C35','proved','','C35_known_anchor','C35_unknown_anchor_refused',ns=V)
c('C36','partial','False in the code: entities of earlier chains, even leaves, count as anchors afterwards (violation theorems). Proved: the anchor was configured or is the subject of a statement verified earlier; a configured one if nothing verified before.','C36_anchor_vouched_partial','C36_no_success_partial','C36_intermediate_violation','C36_self_anchored_violation',ns=V)
c('C37','proved','','C37_keys_from_above',ns=V)
c('C38','proved','','C38_no_key_lost','C38_only_vouched_keys','C38_declared_keys_held',ns=V)
c('C39','partial','False in the code for expiry times before 1970 (violation theorem). Proved for all others; the reported time is always that of one of the statements.','C39_minimum_partial','C39_negative_violation',ns=V)
c('C40','partial','False in the code (violation theorems). Proved for a key store with only the anchor: each issuer is the anchor or the subject of some earlier statement.','C40_fresh_store_partial','C40_unlinked_violation','C40_fresh_violation',ns=V)
c('C41','partial','False in the code: verification does not look at the clock (violation theorem). Proved: the accepted chain reports itself expired exactly when one of its statements is.','C41_reports_expiry_partial','C41_expired_violation',ns=V)
c('C42','proved','','C42_describes_chain',ns=V)
c('C73','proved','','C73_acceptance_is_stable','C73_attempts_do_not_harm',ns=V)
c('C74','partial','False in the code: keys are never withdrawn from the key store (violation theorem). Proved when the store had no key of the issuer and one statement above is about it.','C74_fresh_issuer_partial','C74_withdrawn_key_violation',ns=V)
c('C75','proved','','C75_well_signed_accepted','C75_nothing_less',ns=V)
H='Fed.Chains.'
c('C43','proved','','C43_shortest_first',ns=H)
c('C44','partial','False in the code for a save that mixes entities with the same anchor (violation theorem). Proved when each save is about one entity; and what is found was saved for that pair, always.','C44_one_entity_partial','C44_found_was_saved_partial','C44_mixed_save_violation',ns=H)
c('C45','partial','False in the code: exporting reverses the chain in place (violation theorem). Proved: exports alternate, the first is leaf first.','C45_alternates_partial','C45_second_export_violation',ns=H)
c('C46','partial','False in the code for stored chains (violation theorem); proved in full for fresh ones. For stored ones: the first is always taken.','C46_fresh_partial','C46_stored_first_partial','C46_stored_violation',ns=H)
c('C47','partial','False in the code (violation theorem). Proved: a stored answer was resolved by an earlier call for the same entity; the first answer stays for ever.','C47_stored_was_resolved_partial','C47_first_answer_stays_partial','C47_expired_violation',ns=H)
c('C67','partial','False in the code for contradicting policies and for bad signatures (violation theorems). Proved: if resolution succeeds no good chain is missing; one failing chain always fails the whole.','C67_none_missing_partial','C67_one_spoils_all_partial','C67_policy_violation','C67_signature_violation',ns=H)
c('C76','proved','','C76_provenance',ns=H)
c('C77','partial','False in the code: an entity naming itself as authority becomes its own anchor, escaping all policies (violation theorems: after an earlier resolution, and at first contact). Proved for an unknown entity with one chain.','C77_unknown_entity_partial','C77_self_anchored_violation','C77_first_contact_violation',ns=H)
c('C78','partial','False in the code: the subject of the published configuration is not compared with the identifier (violation theorem). Proved when the entity publishes its own configuration.','C78_honest_partial','C78_mirror_violation',ns=H)
c('C79','proved','','C79_fixed_value_arrives',ns=H)
T='Fed.TrustMarks.'
c('C48','partial','False in the code: only the latest matching line is looked at, so an expired later mark hides a live earlier one (violation theorem). Proved: the exact answer of every history, and the full claim when marks of an id live equally long.','C48_exact_partial','C48_same_lifetime_partial','C48_hidden_violation',ns=T)
c('C49','proved','','C49_lists_subjects',ns=T)
c('C50','proved','','C50_dump_load',ns=T)
c('C51','partial','False in the code: a second mark of an id raises (violation theorem). Proved for histories with distinct ids; what a second one of an id does.','C51_first_only_partial','C51_distinct_ids_partial','C51_second_mark_violation',ns=T)
c('C53','partial','False in the code: unknown ids raise, and a mark that has expired since can count as active in memory (violation theorems). Proved for known ids, for both stores.','C53_file_partial','C53_requests_partial','C53_memory_partial','C53_unknown_id_violation','C53_expired_violation',ns=T)
c('C52','partial','False in the code: a delegation for a trust mark id the anchor does not list is only logged (violation theorem). Proved: everything else, and the delegation for ids that are listed; also that good marks without delegation are accepted.','C52_accepted_partial','C52_delegation_partial','C52_good_mark_accepted','C52_delegation_violation',ns=T)
c('C80','partial','False in the code: expired marks stay in the list (violation theorem). Proved: the list names exactly the subjects that were given a mark; asked for one subject the answer is right.','C80_list_partial','C80_expired_violation',ns=T)
c('C81','partial','False in the code: the verifier does not use its parameter entity_id (violation theorem). Proved: the subject returned is the one the issuer signed; what the message class checks.','C81_signed_subject_partial','C81_message_partial','C81_other_subject_violation',ns=T)
c('C82','partial','False in the code: with the check, a mark that is not accepted raises TypeError (violation theorem). Proved: what is returned was accepted and confirmed; without the check the verifier decides.','C82_returned_partial','C82_unchecked_partial','C82_check_violation',ns=T)
c('C83','partial','False in the code: any self-signed configuration published under the name of the anchor counts (violation theorem). Proved: that it is self-signed or cached, and has not expired.','C83_self_signed_partial','C83_forged_violation',ns=T)
S='Fed.Server.'
c('C54','partial','False in the code: a subordinate registered without keys is given the authority\'s keys; a request in the name of an unknown entity is answered with the own statement (violation theorems). Proved: the subject is registered and its registered keys are stated, unknown subjects are refused, and all other answers are about the entity itself.','C54_partial','C54_unknown','C54_own','C54_violation','C54_violation_subject',ns=S)
c('C55','partial','False in the code: the issuer is taken from the request (violation theorem). Proved for requests naming no or the right issuer.','C55_partial','C55_violation',ns=S)
c('C56','partial','False in the code: the issuer named in a request is kept as authority hint in the registry (violation theorem). Proved for all histories of other requests; policies and the set of subordinates never change.','C56_partial','C56_registry','C56_violation',ns=S)
c('C57','partial','False in the code: several criteria select the union; an unknown member in the request gives an empty answer (violation theorems). Proved: what each answer names exactly; the claim for each single criterion and for none.','C57_all','C57_union_partial','C57_registered','C57_type_partial','C57_intermediate_partial','C57_marked_partial','C57_mark_id_partial','C57_violation','C57_violation_unrelated',ns=S)
c('C59','proved','','C59_payload',ns=S)
c('C84','proved','','C84_policies',ns=S)
c('C85','partial','False in the code: dropped as soon as an entity type of the subordinate has a metadata policy (violation theorem). Proved when no entity type of the subordinate has a policy.','C85_partial','C85_violation',ns=S)
c('C86','proved','','C86_configuration',ns=S)
c('C87','partial','False in the code: list reads entity_type, fetch reads entity_types (violation theorem). Proved for registries with both.','C87_partial','C87_always_fails','C87_violation',ns=S)
c('C88','partial','False in the code: one subordinate can sign the configuration of another that comes later (violation theorem). Proved for the issuer the configuration names.','C88_partial','C88_violation',ns=S)
c('C58','proved','','C58_answer','C58_no_chain','C58_no_type',ns=S)
c('C89','partial','False in the code: entities seen in earlier chains count as anchors (violation theorem). Proved: the anchor is configured or the subject of a validly signed statement collected for this or an earlier request; with one chain it was in the key store before.','C89_vouched_partial','C89_one_chain_partial','C89_violation',ns=S)
c('C90','partial','False in the code: the chain is put together again from the caches, by issuer, and null is given out for what is not found (violation theorem). Proved for federations in which nothing is about to expire and everyone signs under the identifier it is known by.','C90_orderly_partial','C90_violation',ns=S)
c('C91','partial','False in the code: TypeError if the configuration of the subject expires within the allowed delta (violation theorem). Proved under the same conditions as C90, and for federations of entities that run this software and issue no statement for less than a day.','C91_orderly_partial','C91_violation',ns=S)
M='Fed.Message.'
c('C60','partial','False in the code: a statement whose critical list only names claims it does not carry or known ones can still be refused for a harmless extension (violation theorem). Proved: unknown critical claims are refused, and statements all of whose extra claims are known are not.','C60_unknown_refused','C60_known_not_refused_partial','C60_harmless_violation',ns=M)
c('C92','partial','False in the code: statements of a chain are not checked for critical claims (violation theorem). Proved: resolution disregards them altogether.','C92_disregarded_partial','C92_accepted_violation',ns=M)
G='Fed.Registration.'
c('C61','partial','False in the code: fragments are accepted in some cases (violation theorems). Proved: exactly which redirect URIs are accepted, and everything about schemes and hosts.','C61_exact_partial','C61_accepted_partial','C61_fragment_violation','C61_localhost_fragment_violation',ns=G)
c('C62','partial','False in the code: false is dropped although the server says nothing about it; support is tested with `in` on strings (violation theorems). Proved otherwise; what is not supported is refused.','C62_untouched_partial','C62_supported_partial','C62_refused','C62_false_dropped_violation','C62_substring_violation',ns=G)
c('C63','partial','False in the code: the half-made entry stays; with self-chosen ids it replaces an existing registration (violation theorems). Proved: only the entry of that id changes and it has nothing of the request; with fresh ids no other client is affected; early refusals change nothing.','C63_skeleton_partial','C63_fresh_partial','C63_early_partial','C63_half_made_violation','C63_wiped_violation',ns=G)
c('C93','partial','False in the code: a request may bring its own client_secret or client_salt (violation theorem). Proved for requests that do not; the id is always right.','C93_made_up_partial','C93_own_secret_violation',ns=G)
c('C94','proved','','C94_kept',ns=G)
c('C64','partial','False in the code: looking up keys for a token registers its issuer without asking whether that is supported; the OpenID endpoint registers automatically registered clients anew (violation theorems). Proved: an unknown client gets in only with support and a verified chain with metadata of the right type; known clients are not registered again otherwise.','C64_unknown_partial','C64_known_partial','C64_key_lookup_violation','C64_again_violation',ns=G)
c('C65','partial','False in the code: a chain handed in with the request may be about any other entity (violation theorem). Proved for collected chains of clients that publish their own configuration; for handed in chains that it is the metadata of a verified chain.','C65_registered_partial','C65_asked_partial','C65_foreign_chain_violation',ns=G)
c('C66','partial','False in the code at the OpenID endpoint: the unpoliced metadata of the request is registered (violation theorem, and what exactly is registered). Proved for the OAuth endpoint.','C66_oauth2_partial','C66_oidc_partial','C66_unpoliced_violation',ns=G)
c('C95','partial','False in the code: the half-made entry makes the client known, so the second request is let in (violation theorem). Proved when there is no trusted chain or a new id is given.','C95_still_unknown_partial','C95_second_time_violation',ns=G)
c('C96','partial','False in the code at the OpenID endpoint: an automatically registered client is removed before the new chain is checked (violation theorem). Proved for the OAuth endpoints.','C96_oauth2_partial','C96_removed_violation',ns=G)
c('C97','partial','False in the code: the OpenID endpoint checks only that the request is self-signed; the OAuth endpoint lets issuers with known keys name another subject (violation theorems). Proved for the OAuth endpoint: signed with a key of its issuer that was known before or that another verified statement lists.','C97_oauth2_partial','C97_anyone_violation','C97_member_violation',ns=G)
c('C98','proved','','C98_response','C98_response_oidc',ns=G)
D='Fed.Discover.'
c('C99','proved','','C99_exactly',ns=D)
c('C100','partial','False in the code: entities that list each other make it run forever (violation theorem). Proved for federations in which subordinates have a smaller rank.','C100_ranked_partial','C100_loop_violation',ns=D)
c('C101','partial','False in the code for trust anchors: the published document may name another issuer whose keys are known (violation theorem). Proved otherwise.','C101_endpoint_partial','C101_other_issuer_violation',ns=D)
c('C102','partial','False in the code: for an entity without list endpoint the request goes to the text None (violation theorem). Proved otherwise.','C102_found_partial','C102_none_violation',ns=D)
c('C103','partial','False in the code: the configuration of the host hides that of an entity with a path (violation theorem). Proved without path or when the host has none.','C103_published_partial','C103_tenant_violation',ns=D)
c('C104','partial','False in the code: a mark issued to somebody else counts (violation theorem). Proved: everything but the subject of the mark; in truthful federations the entity is below the anchor and of the type.','C104_named_partial','C104_honest_partial','C104_foreign_mark_violation',ns=D)
c('C105','partial','False in the code: without a credential type the answer is always empty (violation theorem). Proved with a credential type.','C105_complete_partial','C105_empty_violation',ns=D)
c('C106','proved','','C106_refused_with_reason','C106_list_kept','C106_single_kept')
c('C107','partial','False in the code: two different superset_of are intersected, and add below superset_of is refused (violation theorems). Proved for chains without these; policies that fix a value are in C79.','C107_combine_partial','C107_chain_partial','C107_superset_violation','C107_superset_add_violation')
c('C108','partial','False in the code: a statement that permits a wider tree and a narrower one beside it loses the wider one (violation theorem). Proved for chains whose permitted lists narrow from the anchor down and that give both lists.','C108_accepted_partial','C108_wider_violation',ns=N)
c('C109','partial','Proved, until the first configuration expires, for federations all of which is well-run above the entity, with policies and constraints of the kinds C107 and C108 cover. False in the code outside these: two superset_of demands that the metadata satisfies can not be combined (violation); also the violations of C67, C71, C107, C108.','C109_resolved_partial','C109_metadata_partial','C109_policies_violation',ns='Fed.Chains.')
c('C110','partial','False in the code: max_path_length has no effect unless negative (violation theorem; C24 and C26 for naming). Proved: the topmost permitted list always holds for the leaf and all constrained subjects, the topmost exclusions hold unless replaced below by a narrower one, and negative path lengths are refused.','C110_permitted_partial','C110_excluded_partial','C110_path_length_partial','C110_path_length_violation',ns=H)
c('C111','partial','False in the code: a value fixed below is not held against subset_of above, and superset_of lists are intersected (violation theorems). Proved: essential always, subset_of and one_of where nothing is fixed, add where nothing is fixed or limited; fixed values are in C79.','C111_essential_partial','C111_add_partial','C111_subset_of_partial','C111_one_of_partial','C111_fixed_violation','C111_superset_violation',ns=H)
L='Fed.Client.'
c('C112','partial','False in the code: the OpenID client accepts any member of the federation in place of the provider asked, the OAuth client accepts responses signed with any key (violation theorems). Proved: for the OpenID client the response is signed with a key vouched for the issuer it names; for both that it is signed with a key it carries, names a trusted anchor and an issuer with a way up.','C112_oidc_partial','C112_named_partial','C112_other_provider_violation','C112_forged_violation',ns=L)
c('C113','proved','Without a configured metadata verifier (C112-C114).','C113_oidc_fixed','C113_oauth2_fixed',ns=L)
c('C114','partial','False in the code: chains to another trust anchor are used, and with two chains the response is refused (violation theorems). Proved for the OpenID client: exactly one way up verifies with the response and its policies are the ones applied.','C114_one_partial','C114_other_anchor_violation','C114_several_violation',ns=L)
c('C115','partial','False in the code: if the server supports methods, but none at an endpoint the client is configured for, the plain request goes out (violation theorem). Proved when it supports one, or none at all.','C115_supported_partial','C115_unsupported_partial','C115_plain_violation',ns=L)
c('C116','proved','','C116_first_supported','C116_made',ns=L)
c('C117','partial','False in the code: a pushed request loses all post arguments (violation theorem). Proved otherwise; request arguments are always kept.','C117_kept_partial','C117_pushed_violation',ns=L)
c('C118','proved','','C118_signed','C118_plain',ns=L)
c('C119','partial','False in the code: the issuer in the metadata is not compared with the provider asked for, and keys are loaded in its name (violation theorem). Proved: the rest.','C119_resolved_partial','C119_refused_partial','C119_other_issuer_violation',ns=L)
c('C120','partial','False in the code: with another type in common beside automatic, explicit registration is used (violation theorem). Proved for clients that know only the two types; refusal in all cases.','C120_two_types_partial','C120_none_partial','C120_other_type_violation',ns=L)
c('C121','partial','False in the code: the metadata comes from the chain of the anchor with priority, the registration types from the first stored chain (violation theorem). Proved for providers with one chain.','C121_single_partial','C121_priority_violation',ns=L)
c('C122','proved','','C122_configured','C122_keys','C122_loaded','C122_unknown_source','C122_issuer',ns=L)
Z='Fed.Client.Session.'
c('C123','partial','False in the code: with other arguments but no response_type there is none (violation theorem). Proved otherwise.','C123_given_partial','C123_none_violation',ns=Z)
c('C124','proved','','C124_supported','C124_refused',ns=Z)
c('C125','partial','False in the code: with a requested mode the words have to be sorted (violation theorem). Proved if no mode is requested.','C125_default_partial','C125_unsorted_violation',ns=Z)
c('C126','partial','False in the code: a nonce among the arguments or in the configuration is sent, but another is remembered (violation theorem). Proved otherwise.','C126_partial','C126_nonce_violation',ns=Z)
c('C127','partial','False in the code: the same response is accepted again (violation theorem). Proved, over all histories: the authentication was begun, at this provider; errors and refused responses change nothing.','C127_begun_partial','C127_unchanged_partial','C127_again_violation',ns=Z)
c('C128','partial','False in the code: lost for code id_token, and whenever tokens are collected (violation theorems). Proved for the other types, if nothing is collected.','C128_front_partial','C128_collect_violation','C128_hybrid_violation',ns=Z)
c('C129','proved','','C129_valid','C129_active',ns=Z)
X='Fed.Client.Http.'
c('C130','partial','False in the code: redirections are handed to the service as a result, and for clients of providers error responses whose body parses (violation theorems). Proved otherwise.','C130_federation_partial','C130_client_partial','C130_error_partial','C130_redirect_violation','C130_error_violation',ns=X)
c('C131','partial','False in the code: the client gets the whole body as error, the federation client the words System error (violation theorem). Proved: the text is not lost and there is an error.','C131_client_partial','C131_federation_partial','C131_text_violation',ns=X)
c('C132','partial','False in the code: a value that is false, zero or empty counts as missing (violation theorem). Proved otherwise.','C132_first_partial','C132_false_violation',ns=X)
c('C133','partial','Proved, with servers as modelled in Server and clients as in Chains, also when servers make their statements anew with each request, up to a day less the allowed delta after the first collection. Missing: as for C109; later collections, for which it is false: a statement can outlive the cached configuration of its issuer, and every collection through it then fails with TypeError.','C133_resolved_partial','C133_keys_suffice','C133_reissued_partial','C133_reissued_keys_partial','C133_next_day_violation',ns=H)
Y='Fed.Config.'
c('C134','partial','False in the code: the default anchors are one shared dict, and settings are written into the defaults (violation theorems, one with a chain that is accepted). Proved if every entity is made with anchors in its settings, and if none is and anchors are added only to entities made with some.','C134_settings_partial','C134_arguments_partial','C134_add_violation','C134_init_violation','C134_chain_violation',ns=Y)
c('C135','partial','The keys: proved. The list is false in the code: anchors in the settings drop out of it if anchors are given as an argument too (violation theorem). Proved otherwise.','C135_keys','C135_listed_partial','C135_violation',ns=Y)
c('C136','partial','False in the code: settings are written into the defaults (violation theorem). Proved if every entity or none is made with the setting.','C136_partial','C136_violation',ns=Y)
c('C137','partial','False in the code: names of files that are elements of lists stay, and lists in lists are not looked at (violation theorems). Proved for places reached through dicts, and through lists only to dicts in them.','C137_partial','C137_list_violation','C137_nested_violation',ns=Y)
c('C138','proved','','C138_unchanged','C138_ok',ns=Y)
c('C139','partial','False in the code: an empty list of endpoints or functions gives the default ones, an empty list of services leaves out endpoints and functions too, services with unknown names are passed over (violation theorems). Proved otherwise.','C139_partial','C139_none_violation','C139_services_violation','C139_unknown_violation',ns=Y)
c('C140','partial','False in the code: settings are written into the tables of the library and stay for later entities; item_args is used for endpoints only (violation theorems). Proved otherwise; given settings have effect whatever was made before.','C140_partial','C140_given_partial','C140_library_partial','C140_leak_violation','C140_args_violation',ns=Y)
R='Fed.Client.Requests.'
c('C141','partial','False in the code: a question that gives the trust mark goes to the entity id in its unverified payload (violation theorem). Proved for questions that name subject and id.','C141_question_partial','C141_nowhere','C141_target_violation',ns=R)
c('C142','partial','Proved: acceptance in any federation that keeps to the rules of C210, with policies, constraints, delegations, chains stored earlier and any questions before; and for issuers that keep marks in files, in federations whose authorities register keys only, that asking the issuer gives what its records say. False in the code: there is no verdict on an expired mark if the issuer is to be asked, but a TypeError (violation theorem).','C142_any_federation_partial','C142_genuine_partial','C142_issued_partial','C142_verdict_violation',ns='Fed.TrustMarks.')
c('C143','partial','False in the code: the subject is not passed on (violation theorem). Proved without a subject.','C143_all_partial','C143_holders','C143_subject_violation',ns=R)
c('C144','partial','False in the code: without an issuer the subject is not passed on; with an expired configuration of the issuer in the cache the request fails with TypeError (violation theorems). Proved otherwise.','C144_subject_partial','C144_target_partial','C144_subject_violation','C144_expired_violation',ns=R)
c('C145','proved','','C145_all','C145_type','C145_intermediates',ns=R)
P='Fed.Server.Publish.'
c('C146','partial','False in the code: a host whose name begins with https is taken for a URL (violation theorem). Proved otherwise.','C146_configuration_partial','C146_host_violation',ns=P)
c('C147','partial','False in the code: subjects named by an encoded URL are stated without keys, and keys changed in the directory are not noticed by an object that has read the old ones (violation theorems). Proved otherwise, over all earlier requests.','C147_statement_partial','C147_encoded_violation','C147_rollover_violation',ns=P)
c('C148','partial','False in the code: issuer and subject are swapped, so it never holds for a subject other than the authority (violation theorem, and that there are no exceptions). Proved for the authority itself.','C148_self_partial','C148_never','C148_swapped_violation',ns=P)
Q='Fed.Server.Context.'
c('C149','partial','False in the code: for trust marks in a file the name of the file is published (violation theorem). Proved otherwise.','C149_published_partial','C149_file_violation',ns=Q)
c('C150','partial','False in the code: the keys stated are always the provider\'s own, and its trust marks are stated about the client (violation theorems). Proved: the rest.','C150_response_partial','C150_keys_violation','C150_marks_violation',ns=Q)
c('C151','partial','False in the code: expired marks stay, an argument can name another subject, entities that get trust marks from a function or a file can make none (violation theorems). Proved otherwise: the mark is as specified and stays published.','C151_self_signed_partial','C151_expired_violation','C151_subject_violation','C151_source_violation',ns=Q)
CL['C11'][1].append('Fed.Chains.C11_chain_partial')
c('C152','partial','False in the code: policies are applied to the entity\'s own statement in place (violation theorem). Proved: the documents, all other statements, and everything in that statement but the claims a policy is about, are as signed; and that the metadata resolved is not affected.','C152_statements_partial','C152_same_metadata','C152_leaf_violation',ns=H)
c('C153','partial','False in the code: for an entity that has its hints in a file the name of the file is stated (violation theorem). Proved otherwise.','C153_given_partial','C153_file_violation',ns=Q)
c('C154','partial','False in the code: of a client that publishes its keys signed none are recorded, and keys from an earlier registration stay (violation theorems). Proved: exactly what a registration adds; and the full claim for a client that has no keys yet and does not publish them signed.','C154_added_partial','C154_first_time_partial','C154_signed_violation','C154_old_keys_violation',ns=G)
CL['C94'][1].append('Fed.Registration.C94_addresses')
CL['C64'][1].append('Fed.Registration.C64_known_afterwards')
CL['C65'][1].append('Fed.Registration.C65_role_partial')
CL['C90'][1].append('Fed.Server.C90_with_anchor_partial')
c('C155','partial','False in the code: a response of which the policies leave nothing is refused, yet what the client had registered is gone (violation theorem). Proved otherwise, for clients without a metadata_verifier; with one, its answer is the outcome.','C155_kept_partial','C155_refused_partial','C155_verifier_partial','C155_forgotten_violation',ns='Fed.Client.')
c('C156','partial','False in the code: roles played through a handler of clients are left out, and an entity that is also a trust mark issuer publishes no configuration at all, since its part for trust marks cannot be asked for metadata in the way the whole asks (violation theorems). Proved for all other roles, that there is nothing else, that a configuration is published whenever there is no such part, and for the statement with which a client of a handler registers.','C156_published_partial','C156_only_partial','C156_registering_partial','C156_some','C156_alone','C156_mark_issuer_never','C156_handler_violation','C156_mark_issuer_violation',ns='Fed.Server.Roles.')
c('C157','partial','False in the code: what is given as trust_mark_issuers and trust_mark_owner is put where nothing reads it (violation theorems). Proved for what is given among the preferences, that nothing else is claimed, and for trust marks and authority hints.','C157_preference_partial','C157_only_partial','C157_marks_partial','C157_kept','C157_issuers_violation','C157_owners_violation',ns='Fed.Config.Settings.')
c('C158','partial','False in the code: order among trust anchors, default lifetime and trust marks given to a federation entity are dropped (violation theorems). Proved: what happens whatever the settings are, that authority hints have effect, and what has effect in the client part.','C158_first_partial','C158_day_partial','C158_client_partial','C158_context','C158_priority_violation','C158_lifetime_violation','C158_marks_violation',ns='Fed.Config.Settings.')
c('C159','partial','False in the code: what a client was answered with is kept in the cache in a form that never expires there (violation theorem, and that nothing but another answer ends it). Proved as long as those answers are in force, and for entities whose client has not asked.','C159_endpoint_partial','C159_hints_partial','C159_forever','C159_violation',ns='Fed.Collect.Mixed.')
c('C160','partial','False in the code: a value fixed by a lower authority is resolved against the policy of a higher one (violation theorem). Proved per operator and for naming constraints, in federations of servers of this software asked by a client of it; path length and superset_of missing (false, see C23, C111).','C160_subset_of_partial','C160_one_of_partial','C160_essential_partial','C160_add_partial','C160_value_partial','C160_permitted_partial','C160_excluded_partial','C160_violation',ns='Fed.Chains.')
c('C161','partial','False in the code: the credential type is dropped unless the entity type is credential_issuer, and then nobody is ever named (violation theorem, and what is answered instead). Proved for the entity type and the trust mark, for the defaults, and that requests take precedence.','C161_partial','C161_defaults','C161_request_first','C161_nobody','C161_credential_type_violation',ns='Fed.Discover.')
CL['C128'][1].append('Fed.Client.Session.C128_collected')
c('C162','partial','False in the code: the OAuth2 endpoints keep no trust chains, and at the OpenID endpoint chains are kept under the entity id but looked for under the client id (violation theorems). Proved at the OpenID endpoint for clients that keep their entity id as client id, for known clients, and that no trust anchor is made up.','C162_oidc_partial','C162_known_partial','C162_kept','C162_oauth2_violation','C162_pushed_violation','C162_new_id_violation',ns=G)
c('C163','partial','False in the code: a server whose secrets do not expire does not say so, and a client that brings its own secret is told that one while another is recorded (violation theorems). Proved otherwise, also for explicit registration as a whole, and that the first case never passes.','C163_partial','C163_key_partial','C163_explicit_partial','C163_never_expires','C163_never_expires_violation','C163_own_secret_violation',ns=G)
c('C164','partial','False in the code: a part specified without arguments gets no parameters, and the configuration is changed, so that a second combination gets the parameters of the first (violation theorems). Proved for parts with arguments; and that the first combination\'s parameters stay.','C164_arguments_partial','C164_first_stays','C164_no_arguments_violation','C164_again_violation',ns='Fed.Config.Combo.')
CS='Fed.Client.Session.'
c('C165','partial','False in the code: a client without the userinfo service that gets no ID Token, as OAuth2 clients are, gets a KeyError instead of the tokens (violation theorem). Proved whenever the ID Token or the user information names a subject; and that what the caller gets belongs to its session.','C165_partial','C165_belongs','C165_userinfo','C165_oauth2_violation',ns=CS)
c('C166','partial','False in the code: a response that names a response type or a redirect URI changes those of the session (violation theorems). Proved for responses that do not, and that other sessions are not affected.','C166_partial','C166_others','C166_response_type_violation','C166_redirect_violation',ns=CS)
c('C167','partial','False in the code: after explicit registration at an OAuth2 server the client names its entity id, which the server does not know (violation theorem). Proved after automatic registration at the OAuth2 endpoints and for known clients.','C167_automatic_partial','C167_known_partial','C167_explicit_violation',ns=G)
c('C168','partial','False in the code: for a trust anchor no endpoint for trust marks is found (violation theorem). Proved for all other members of a federation run with this software whose authorities register only keys, for the endpoints looked up by get_entity_endpoint including those of trust anchors, and in any federation that the endpoint is one stated in a verified chain.','C168_trust_mark_partial','C168_endpoint','C168_none','C168_sourced','C168_anchor_violation',ns='Fed.Chains.')
K='Fed.Config.Kinds.'
c('C169','partial','False in the code: an OAuth2 client whose kind is stated by configuration or entity type, as in a combination, has no services and cannot be made (violation theorem, and exactly when). Proved: the kind, OpenID clients, services that are given.','C169_services_partial','C169_kind','C169_given','C169_entity_id','C169_no_entity_id','C169_combination','C169_combination_violation',ns=K)
c('C170','partial','False in the code: an entity id that stands in the configuration is not used as issuer, an entity type that stands there is not used (violation theorems). Proved if they are given as arguments, so for the parts of a combination, and for ready made configurations.','C170_arguments_partial','C170_combination','C170_server_type','C170_no_default','C170_ready','C170_issuer_violation','C170_kind_violation',ns=K)
PA='Fed.Config.Parts.'
c('C171','partial','False in the code: whether the first issuer of a chain is known is looked up in the key jar of the federation entity as it is, so that with keys kept by the combination nothing is ever accepted (violation theorem, and that there are no exceptions). Proved for federation entities that keep their keys.','C171_own_keys_partial','C171_nothing','C171_combination_violation',ns=PA)
c('C172','partial','False in the code: trust marks are signed with the key jar of the federation entity as it is, also if the combination keeps the keys, and statements about subordinates with keys of the server if it has any (violation theorems). Proved for federation entities that keep their keys, and for resolve responses and registration requests always.','C172_own_keys_partial','C172_statements','C172_trust_mark_violation','C172_server_violation',ns=PA)
c('C173','partial','False in the code: closing a session leaves its tokens in use, and a client without an end-session service raises AttributeError (violation theorems). Proved for clear_session over all histories, for other sessions, and for the request made.','C173_cleared_partial','C173_others_partial','C173_request_partial','C173_close_same','C173_unknown_violation','C173_close_violation',ns='Fed.Client.Session.')
c('C174','partial','False in the code: parts of a server that is in no combination get a TypeError instead of None (violation theorem). Proved in both directions for all other nestings.','C174_found_partial','C174_only_partial','C174_server_violation',ns='Fed.Config.Lookup.')
c('C175','partial','False in the code: a value set in the context of the client is always lost, and one the client has no attribute for raises AttributeError (violation theorems). Proved for attributes that are empty in the context of the client.','C175_entity_partial','C175_lost','C175_own_violation','C175_missing_violation',ns='Fed.Config.Lookup.')
c('C176','partial','False in the code: the metadata never reaches the client of the federation entity, nor parts without a context (violation theorems). Proved for the clients of a combination, for any sequence of metadata applied.','C176_applied_partial','C176_never','C176_client_violation','C176_handler_violation',ns='Fed.Config.Applied.')
c('C177','partial','False in the code: servers state the methods for pushed requests under a name clients have no method for; clients configured with it fail (violation theorem, for every statement that has the name), and no configuration makes a client push (general theorem). Proved for clients that use the authorization endpoint.','C177_signed_partial','C177_never_pushed','C177_pushed_violation',ns='Fed.Client.')
c('C178','partial','False in the code: a client with two ways up to the anchor refuses every response (violation theorem). Proved end to end, from the request made to the response taken, for members with one way up in a federation of this software (C133), whatever both have collected before; what the registration itself (idpyoidc) does is a parameter.','C178_registered_partial','C178_keys_partial','C178_taken_partial','C178_two_ways_violation',ns='Fed.Client.')
c('C179','partial','False in the code for clients made by a handler and for trust marks in files (violation theorems); the handler\'s client never takes an answer to its request (general theorem). Proved for clients that are parts of the combination and trust marks given as they are.','C179_part_partial','C179_marks_partial','C179_handler_never','C179_handler_violation','C179_marks_violation',ns='Fed.Client.')
c('C180','partial','False in the code: the keys of the provider become keys of the client whenever a response is taken (violation theorem, and general theorem C180_mixed). Proved for all other entities.','C180_others_partial','C180_mixed','C180_violation',ns='Fed.Client.')
c('C181','partial','False in the code: token requests always carry the entity id, whatever client id was given (violation theorem, general theorem C181_id_never), so that an OAuth provider of this software, which makes a new id, does not know it (C181_unknown); clients of a handler are never changed (C181_handler). Proved for the secret, for client ids that are the entity id, when a response is taken, and which types it has.','C181_secret_partial','C181_handled_partial','C181_id_never','C181_authorization','C181_accepted','C181_types','C181_handler','C181_unknown','C181_violation',ns='Fed.Client.')
c('C182','partial','False in the code: the address of the host is asked first, so that next to an entity that is a host its tenants get the configuration of the host; and an id with a path that ends with a slash is asked for at an address with two slashes (violation theorems). Proved on the text of the ids, with a model of urlparse, for all other ids without parameters; that no other host is ever asked is proved for all texts.','C182_found_partial','C182_own_host','C182_named','C182_shared_violation','C182_slash_violation',ns='Fed.Discover.WellKnown.')
c('C183','proved','From the arguments of the client to the payload of the answer, on top of C58.','C183_answer','C183_incomplete',ns='Fed.Client.Resolving.')
c('C184','partial','False in the code for clients with several ways up (violation theorem). Proved for clients with one way up: from the request through the answer of the server to what the client keeps, for every outcome of the registration proper.','C184_taken_partial','C184_registered_partial','C184_keys_partial','C184_two_ways_violation',ns='Fed.Client.')
c('C185','partial','False in the code for listing by entity type (violation theorem, and C185_by_type_fails: it fails at every authority that enrolled anybody). The rest proved for members that are given no policies.','C185_entry','C185_listed_partial','C185_trusted','C185_resolved_partial','C185_no_federation_entity','C185_by_type_fails','C185_by_type_violation',ns='Fed.Setup.')
c('C186','partial','False in the code: intermediates are never shown (C186_intermediates_missing, for all federations), and a loop in the lists is followed for ever. Proved: exactly who is shown, exactly who is complained of, that the script ends without loops, and what it says in a federation set up with the scripts.','C186_leaves_partial','C186_complaints','C186_ends_partial','C186_intermediates_missing','C186_set_up_partial','C186_chains_partial','C186_verdicts','C186_intermediate_violation','C186_loop_violation',ns='Fed.Setup.')
c('C187','partial','False in the code for hints in files and, at the relying party, for lifetimes and marks in files (violation theorems). Proved for the rest.','C187_view_partial','C187_example_partial','C187_same_partial','C187_view_violation','C187_example_violation','C187_relying_party_violation',ns='Fed.Web.')
c('C188','partial','False in the code for the who endpoint (C188_who_never, C188_who_violation). Proved for all endpoints: refusals, what 200 means, when there is no answer; and what is sent for the endpoints named. What idpyoidc makes of a message is an assumption (Renders).','C188_refused','C188_success','C188_redirect','C188_crash','C188_fetch','C188_list','C188_mark','C188_status','C188_register','C188_who_never','C188_who_violation',ns='Fed.Web.')
c('C189','partial','False in the code (violation theorem): no configuration restricts who gets a mark. Proved: whoever asks gets it, and it is confirmed afterwards. Client authentication methods other than the default, which are idpyoidc\'s, are the way a request is parsed.','C189_anybody','C189_confirmed','C189_violation',ns='Fed.Web.')
c('C190','partial','False in the code (C190_never, C190_no_page, C190_violation). Proved: refusals, callbacks that are for no session, what other clients and sessions keep. What idpyoidc makes of a response is a parameter.','C190_never','C190_no_page','C190_violation','C190_refused_partial','C190_foreign','C190_others',ns='Fed.Web.Login.')
c('C191','partial','False in the code (violation theorem).','C191_never','C191_violation',ns='Fed.Web.Login.')
c('C192','proved','The authentication method, the token and the authorization endpoint are parameters.','C192_authenticated','C192_denied',ns='Fed.Web.Login.')
c('C193','proved','','C193_value','C193_refused','C193_types',ns='Fed.Policy.')
c('C194','proved','','Collect.C194_collection','Chains.C194_chains',ns='Fed.')
c('C195','partial','False in the code: the list is read only for marks with a delegation, and then the result only leads to a log message. Any member of the federation can issue any mark to anybody, itself included; a caller has to compare the issuer itself.','C195_member_partial','C195_any_mark','C195_self_made','C195_unlisted_violation',ns='Fed.TrustMarks.')
c('C196','partial','False in the code: nothing that protects a cookie is passed on, and a cookie with an age makes the answer fail.','C196_set_partial','C196_unprotected','C196_age_crash','C196_protection_violation','C196_age_violation',ns='Fed.Web.')
c('C197','partial','False in the code in one point: the cookies stay if some client is to be told about the logout through the browser.','C197_logout_partial','C197_only_token','C197_frames_violation',ns='Fed.Web.')
c('C198','partial','False in the code: a thread that comes in between two accesses of another one makes a call fail with TypeError or KeyError, or return a statement that has expired. Proved: calls for different pairs of authority and entity do not disturb each other, statements are never mixed up, no other errors arise, and what is in the cache and not about to expire is served to all.','C198_apart_partial','C198_sequential','C198_source_partial','C198_errors_partial','C198_cached_partial','C198_between_writes_violation','C198_both_delete_violation','C198_expired_violation',ns='Fed.Collect.Threads.')
c('C199','partial','False in the code: get_trust_chains and get_verified_metadata give the chain that was stored for good. Proved for everything that is resolved anew, after any history, for identifiers without exclamation mark.','C199_no_chain_partial','C199_dropped_partial','C199_not_stored_partial','C199_stored_violation',ns='Fed.Chains.')
c('C200','partial','False in the code of three scripts: get_entity_configuration.py does not compare the configuration with the entity asked for; get_subordinate_statement.py verifies nothing; display_entity.py does not compare the subject. Proved: in full for get_trust_chains.py in any federation and for all of them in well-run federations; elsewhere what is left of the three.','C200_chains','C200_configuration_well_run','C200_statement_well_run','C200_list','C200_status','C200_configuration_partial','C200_statement_partial','C200_display_partial','C200_configuration_violation','C200_statement_violation','C200_display_violation',ns='Fed.Setup.Tools.')
c('C201','partial','False in the code: when two lookups find that the cached configuration is about to expire, the second one to delete it raises KeyError. Proved for all schedules: what is returned, and what is cached, is as claimed; there is no other failure; none at all when no other call is after the same authority, or when the configurations of the authority last.','C201_endpoint_partial','C201_error_partial','C201_lasting_partial','C201_apart_partial','C201_cache','C201_sequential','C201_both_delete_violation',ns='Fed.Collect.ConfigThreads.')
c('C202','partial','False in the code: a client that registers automatically is deleted and registered anew with each authorization request. Of two such requests at the same time one may raise KeyError, and another request of the client (for tokens, say) may find it unknown meanwhile. Proved for all schedules: requests of different clients do not disturb each other; a request with no other of its client at the same time is let in; clients that registered themselves are found and stay as they are; KeyError is the only exception that can be added; once all is over the client is known.','C202_single_partial','C202_apart_partial','C202_settled_partial','C202_after_partial','C202_errors_partial','C202_sequential','C202_both_delete_violation','C202_unknown_violation','C202_lost_violation',ns='Fed.Registration.Threads.')
c('C203','partial','False in the code: do_request writes down whom the request is for in an object that all threads share, and the service reads it there up to three times. Of two requests for trust marks of different issuers one may be sent to the wrong issuer; and an entity without trust chains may have those of another entity kept for it, and counts as trusted from then on. Proved for all schedules: while all requests at the time are for one entity the property holds; the trust chains are always ones of an entity some request at the time is for; what is kept is right while all entities that requests are for have trust chains, and always for the other entities.','C203_named_partial','C203_same_partial','C203_others_partial','C203_store_partial','C203_sequential','C203_request_violation','C203_store_violation','C203_get_violation',ns='Fed.Chains.IssuerThreads.')
c('C204','partial','False in the code from the second day on: the end of one cached statement can leave the collector with a TypeError (violation theorem, see C133). Proved, up to a day after requests began to reach the server, for federations whose members run this software and whose policies and constraints the client meets, with statements made anew for each request; the registration proper (idpyoidc) is one that takes the metadata the client ends up with. The anchor named in the response is proved for statements of one time, and clients registered with this very request under their own id.','C204_let_in_partial','C204_reissued_partial','C204_anchor_partial','C204_next_day_violation',ns='Fed.Registration.')
c('C205','partial','False in the code for exported chains: export_chain gives the claims of the statements, not the signed statements, and no client that is not yet known gets in with them (C205_export_refused holds for all servers and chains). Proved, for clients as in C204: any chain of the client is accepted when handed in, whatever other entities would answer; the chain from a resolver of the federation is one of them, where no statement is issued for less than a day.','C205_handed_in_partial','C205_reissued_partial','C205_resolver_partial','C205_export_refused','C205_export_violation',ns='Fed.Registration.')
CL['C91'][1].append('Fed.Server.C91_federation_partial')
CL['C131'][1].append('Fed.Client.Http.C131_statuses')
CL['C131'][1].append('Fed.Client.Http.C131_formats')
CL['C118'][1].append('Fed.Client.C118_signed_iff')
c('C206','partial','False in the code: the verifier does not look at the clock, and a chain that is handed in is used as it is; a chain of long ago lets the client in though nobody is left to ask (violation theorem; by C205_reissued_partial this is so for all members that were well within the policies, and for statements of any age). Proved for clients that hand in nothing, after any history, for identifiers without exclamation mark.','C206_dropped_partial','C206_old_chain_violation',ns='Fed.Registration.')
c('C207','partial','False in the code, in four ways, each with a violation theorem: a policy with value and essential can not be repeated, even word for word; nothing but value and essential can be said again below a value; what is optional at the top can not be called optional again below an authority that requires it; and the first statement of a chain is not tested for claims that it both sets and constrains, the others are. Proved for authorities that say nothing, and for those that say again, at any distance, policies that are in order in themselves (the conditions are spelt out operator by operator) with nobody in between who fixes a value or changes whether the claim is essential.','C207_silent_partial','C207_repeated_partial','C207_word_for_word_violation','C207_below_value_violation','C207_optional_violation','C207_silent_anchor_violation',ns='Fed.Policy.')
c('C208','partial','False in the code, in three ways, each with a violation theorem: the configuration of an authority without a fetch endpoint is asked for anew each time although it is remembered; an entity whose configuration has no exp is collected once and then raises KeyError; and after an authority that gives no statement the second resolution fails although the federation is as it was, because the configuration by itself is then taken for a chain. Proved for federations where all authorities above the entity name a fetch endpoint (the collection), and where in addition all chains collected begin at entities whose keys are known (the chains and the metadata); identifiers without exclamation marks (C34).','C208_again_partial','C208_no_fetch_endpoint_violation','C208_no_expiry_violation',ns='Fed.Collect.')
CL['C208'][1].extend(['Fed.Chains.C208_chains_partial','Fed.Chains.C208_second_time_violation'])
c('C209','partial','False in the code: a trust anchor that names no authority has no trust chain, so no metadata is found for it and its marks are refused; one that names itself ends in a KeyError. Proved: the violations, and that it is so for all trust anchors that name nobody but perhaps themselves, all marks and all histories (for the verifier called directly: marks without a delegation).','C209_no_chain','C209_metadata_violation','C209_self_named_violation',ns='Fed.Chains.')
CL['C209'][1].extend(['Fed.TrustMarks.C209_no_mark','Fed.TrustMarks.C209_no_mark_verifier','Fed.TrustMarks.C209_mark_violation'])
c('C210','partial','False in the code: an authority that replaces its key at once makes resolution of those it vouches for from then on raise, for everyone who has the old statement about it in the cache; statements stay there until they expire. Proved: the violation, and that changes of keys, metadata, authorities, endpoints and policies in whatever order are harmless as long as each document lists all keys in use during the period; with all ways up and nothing else, and all metadata declared.','C210_in_flux_partial','C210_keys_partial','C210_at_once_violation',ns='Fed.Chains.')

c('C211','partial','False in the code: two chains each of which needs a key that the other brings are both accepted when their verifications overlap, although whichever is verified first is refused; and keys can be added twice. Proved: both violations; for any number of threads and any schedule, that a chain that would be accepted when its verification begins is accepted with the same result, that what is accepted would be accepted with the keys held at the end, that no key is lost and every key is vouched for, that every verification ends, and that chains that are in order fare as one after the other in any order. The methods of the key jar are taken to be atomic.','C211_accepted_partial','C211_sound_partial','C211_vouched','C211_ends','C211_any_order_partial','C211_crossed_violation','C211_twice_violation','alone_eq',ns='Fed.Verify.Threads.')
c('C212','partial','False in the code: a statement and the time it expires are stored one after the other, and a thread that looks in between ends with TypeError. Proved: the violation; that in a well-run federation, for any number of threads and any schedule, a resolution ends with the right chains, those it would end with alone, or with TypeError; with TypeError only if a statement above the entity had not been collected when it began, so never once the entity has been resolved with success; that every thread ends; and that without interruption the steps are the functions of the sequential model. Missing: statements that are about to expire and are removed from the cache. The clock stands still for each thread.','C212_resolved_partial','C212_verified_partial','C212_again_partial','C212_ends','C212_violation','getVerifiedP_run','getTrustChainsP_run',ns='Fed.Chains.AtOnce.')
c('C213','proved','For the functions get_trust_chains, get_verified_trust_chains, verify_trust_chains with apply_policies, and the part of the automatic registration of OpenID clients that stores chains; what was sent along in the name of an entity may be stored for it (C214). One access to a dictionary or to the key jar is atomic; nothing stored at the start. Whether the entity at the top is a configured trust anchor is C36 and C77, which fail also without threads.','C213_sound','C213_stored','C213_keys',ns='Fed.Chains.AtOnce.')
c('C214','partial','False in the code: an authorization request may name any entity as its client and bring along the trust chain of another one; that chain is stored as the one of the entity named, although the request itself is refused. From then on the other one\'s metadata is taken for that of the entity; a trust mark that its issuer has withdrawn is accepted on the word of the sender (two violation theorems). Proved for entities in whose name no chain was sent along, whatever was sent in the names of others; and for all others that what is taken for their chains was accepted, and is their own or was sent in their name.','C214_history_partial','C214_mark_partial','C214_sent','C214_violation','C214_mark_violation',ns='Fed.Registration.Named.')
c('C215','partial','False in the code for a server without keys of its own in a combination without keys: it records the keys of clients in the key jar of the federation entity, under whatever name the request gives, so that a relying party whose request names the trust anchor and brings its own chain along adds its keys to those of the trust anchor, and chains it makes up are accepted (violation theorem). The example configurations in the repository give the server keys of its own. Proved for servers that have keys of their own; and for one key jar, if no request names an entity that issues statements about others.','C215_separate_partial','C215_shared_partial','C215_violation',ns='Fed.Registration.SharedKeys.')
c('C216','partial','The last sentence holds (came). The rest is false in the code: whatever subject a statement names, its keys are taken for that subject once its signature is verified, so that an intermediate that is asked about a subordinate and answers with a statement about the trust anchor, listing a key of its own, has that key taken for one of the trust anchor; by resolutions, even ones that fail, and by walks (violation theorems). Chains it makes up then are accepted, past the policies of the trust anchor. Proved if nobody but trust anchors signs statements about trust anchors.','C216_came','C216_keys_partial','C216_chain_partial','C216_resolve_violation','C216_walk_violation','C216_chain_violation',ns='Fed.Discover.Walk.')
c('C217','partial','False in the code: an answer to a request for a configuration is cached under the issuer it names, whoever was asked and whatever it is. An intermediate that publishes the statement of the trust anchor about itself in place of its configuration has that statement cached as the configuration of the trust anchor; as it has no fetch endpoint, entities below other intermediates are not resolved any more, and the entry does not expire (violation theorem; for expiry see C159). Proved if everybody publishes a proper configuration of their own that does not expire meanwhile, identifiers are free of exclamation marks (see C70) and parsed answers have the attribute the collector reads.','C217_collected_partial','C217_same_partial','C217_violation',ns='Fed.Discover.Walk.')
c('C218','partial','False in the code: the configuration of an authority that is fetched just before it is allowed_delta from expiring is dropped from the cache again when the statement has been fetched, and its absence is a TypeError, although a moment sooner, or a moment later when it has been renewed, collection succeeds (violation theorem). Proved: when nothing published or cached passes a freshness limit meanwhile, the result, the error if any, and the caches afterwards are those of a collection at any one moment (C218_still_partial); when documents are renewed meanwhile and those of the beginning stay fresh to the end, collection succeeds if it would have at the beginning, with the same tree up to expiry times and signatures (C218_renewed_partial).','C218_still_partial','C218_renewed_partial','C218_violation',ns='Fed.Collect.Moving.')
c('C219','partial','False in the code in two ways. Policies are applied to all verified chains together, so one chain to the new anchor with conflicting policies makes the resolution raise, although the chains to the old anchors are as good as they were (violation theorem). Verifying a chain to the new anchor puts the keys of the intermediates in the key jar, after which a chain that starts with such an intermediate is accepted with the intermediate as its trust anchor (violation theorem). Proved: the chains there were are there still and in the same order if the resolution succeeds; only chains to the new anchor come to them if every chain collected was accepted before or starts with a statement of the new anchor; and the resolution is the same if all chains were accepted before. The new anchor must not name itself as its authority.','C219_kept_partial','C219_gained_partial','C219_unconcerned_partial','C219_conflict_violation','C219_elsewhere_violation',ns='Fed.Chains.')
c('C220','partial','False in the code in two ways. A resolver stops collecting at the anchor it is asked about while the asking entity does not stop at its anchors, so an anchor that has authorities itself is found by the resolver only (violation theorem). And keys of intermediates learnt elsewhere stay in the key jar, so a chain that the trust anchor does not vouch for is accepted by one of them only (violation theorem). Proved: the two agree whenever both succeed, at whatever times, after whatever collections before and with whatever other anchors, if nobody called by the name of the anchor names authorities, nobody is its own authority, and the chains that start with a statement of the anchor are accepted with the keys of each; and that the resolver answers, if it goes by the same settings at the same time, accepts all chains, and has what it needs in its caches.','C220_agree_partial','C220_answered_partial','C220_nested_violation','C220_keys_violation',ns='Fed.Server.')
c('C221','partial','False in the code: chains are verified one after the other with a key jar that keeps the keys each of them gives, so a chain that stops at an intermediate (because an authority above it has no fetch endpoint) is accepted with that intermediate as its anchor if it comes after a chain through the intermediate, and rejected if it comes before (violation theorem). Proved: the order makes no difference if every chain collected is either accepted with the keys held at the start or begins with a statement of an entity of which none of the chains gives a key. Which of several chains comes first does depend on the order.','C221_settled_partial','C221_violation',ns='Fed.Chains.')
c('C222','partial','False in the code in three ways: an authority that cannot be reached makes the whole collection fail; a chain through the new authority with policies in conflict makes the resolution raise; and a trust anchor that names an authority itself is no longer where collection ends, so that chains to it are replaced by longer ones (violation theorems). Proved: if the resolution succeeds after the change, and those that had no authority have none, all chains there were are there, in the same order, with the same anchor, path, expiry and metadata.','C222_kept_partial','C222_unreachable_violation','C222_conflict_violation','C222_anchor_violation',ns='Fed.Chains.')
c('C223','partial','False in the code in two ways: a process that is started finds a file missing and, when others have created it and written to it, empties it, so that marks that were issued are lost; and lines longer than the buffer of the file object are written in parts, so that two processes make each other\'s lines unreadable and every status request for that id fails (violation theorems). Proved: if the files are there before the processes are started, and lines are written at once, every process finds at any moment what a single one would, and a mark that was issued is in the file from then on. Reading a file is taken to happen at one moment.','C223_sequential_partial','C223_kept_partial','C223_lost_violation','C223_mixed_violation',ns='Fed.TrustMarks.Shared.')
c('C224','partial','False in the code in two ways: an authority that excludes one host more replaces the exclusion of the whole domain by its superior, so that the other hosts are let in; and a trust anchor that permits fewer names lets in names it refused before, when nothing of what an authority below permits is left (violation theorems). Proved: allowing shorter paths, anywhere in the chain, lets nobody else in; nor does an authority that begins to constrain names, when nobody below it does and, if it excludes names, nobody above it excludes any.','C224_lengths_partial','C224_names_partial','C224_excluded_violation','C224_permitted_violation',ns='Fed.Constraints.')
c('C225','partial','False in the code: keys that verified chains give are kept and make further chains acceptable, so that when an intermediate joins a trusted federation, a chain that ends at the intermediate itself, which was refused before, is accepted as well, with the intermediate as its trust anchor (violation theorem). Proved: if each chain after the change is accepted with the keys held at the beginning, or starts with a statement of an entity of which none of them gives a key, every chain there is was there before or has a statement of a newly named authority, or ends with one that makes none.','C225_settled_partial','C225_violation',ns='Fed.Chains.')
c('C226','partial','False in the code: superset_of of two authorities is intersected, so a lower authority takes away demands; an authority in the middle that mentions essential switches off the check that the policies above and below it contradict each other; one that says essential with a value other than true or false makes what a lower one demands void; and since a single value is looked up among the names of the operators, an authority that mentions essential makes the value "essential" acceptable (four violation theorems). Proved for a statement at the end of the chain, if superset_of is not said twice of a claim and the claims bound by subset_of, among those the statement mentions, are lists; and for a statement anywhere below the first, if moreover the policies of the others let somebody in and the statement says essential with true or false.','C226_last_partial','C226_anywhere_partial','C226_superset_violation','C226_middle_violation','C226_name_violation','C226_essential_violation',ns='Fed.Policy.')
c('C227','proved','For every chain of policies. Added values are not lists or objects, which cannot be members of a Python set.','C227_declares_more',ns='Fed.Policy.')
c('C228','partial','False in the code: a cached configuration is used to start from until the allowed delta after it has expired, so that an entity whose configuration has expired is resolved by a process that has it in its cache, and not, at an earlier time, by one that has not (violation theorem). Proved for entities whose configuration has not expired, or expired longer than the allowed delta ago; the second part is proved in full. No configuration is dated ahead (the library does not check for that), and all of them have an expiry.','C228_waiting_partial','C228_agree_partial','C228_lasts','C228_expired_violation',ns='Fed.Chains.')
c('C229','partial','False in the code: the policies are applied for every entity type the subject declares, and one that does not fit makes the resolution fail altogether, for the other types as well (violation theorem). Proved for further values of lists, and for further types about which no authority says anything; further types of anybody but the subject never matter. The fetch endpoint of authorities stays the same.','C229_unspoken_partial','C229_violation',ns='Fed.Chains.')
c('C230','partial','False in the code in two cases (violation theorems): the configuration of an authority without a usable fetch endpoint is asked for each time it is named, and a document that expires within the allowed delta is asked for anew on each path. Proved for all federations where neither is the case, whatever was remembered before and however the collection ends, with identifiers without exclamation marks (see C34); a cycle is no exception. The theorems also say that the functions with the record of the questions are those of the collector.','C230_once_partial','C230_bound_partial','C230_endpoint_violation','C230_expiring_violation',ns='Fed.Collect.')
c('C231','partial','False in the code: for every n there is a federation with 2n entities above the one in question, without cycles, for which 2^n trust chains are collected (C231_doubling_violation; proved for all n, not for one). Proved instead: with at most b authorities named by anybody and chains of at most d statements there are at most b^(d+1) chains, and one at most where each entity names one authority.','C231_width_partial','C231_single_partial','C231_doubling_violation',ns='Fed.Collect.')
c('C232','partial','False in the code: a configuration of an authority that expires within allowed_delta is fetched, stored, and dropped by the look into the cache that follows, so that nobody below can be resolved although every document is valid (violation theorem; the setting then decides). Proved: what is resolved with the larger setting is resolved with the smaller to the same chains, whatever either has resolved before; and the two agree when no configuration expires between the two settings. As in C228, the configuration of the entity itself has not expired or did so at least the delta ago.','C232_later_partial','C232_agree_partial','C232_expiring_violation',ns='Fed.Chains.')
c('C233','partial','False in the code for names with exclamation marks: the keys of the statement cache run the names together (C31), so that giving a member another name changes the trust anchors another member resolves to (violation theorem, from empty caches). Proved for names without them on either side, whatever has been resolved before; as in C228, the configuration of the entity itself has not expired or did so at least the delta ago. Signatures of the renamed documents are assumed to verify where the original ones do.','C233_renamed_partial','C233_collision_violation',ns='Fed.Chains.')
c('C234','partial','False in the code in two ways (violation theorems): one authority that gives a value to a claim and one below it that constrains the claim are accepted, one that does both is refused; and an authority that demands more than the anchor allows is refused, but not when it is put together with one below it that demands less, because demands are intersected. Proved when the two together do not do the first, and for each claim both speak about nobody above does or all use one and the same operator (subset_of, superset_of, one_of, add, value or default). What both say together is what combine makes of the two statements.','C234_merged_partial','C234_overlap_violation','C234_demands_violation',ns='Fed.Policy.')
c('C235','partial','False in the code in two ways (violation theorems): a value below a constraint it meets is accepted, the constraint below the value is refused; and an authority that gives a value to a claim it also constrains is accepted only at the top. Proved when neither of the two does that and for each claim both speak about the policies of the two and above use one and the same operator, or nobody above speaks about it and the two neither fix the value nor disagree about essential.','C235_swapped_partial','C235_value_violation','C235_anchor_violation',ns='Fed.Policy.')
c('C236','partial','False in the code (violation theorem): a value that is not a list and happens to be the name of an operator in the policy for its claim passes subset_of and is replaced by the list of its characters. Proved when nobody says such a name for the claim, for single chains and for everything an entity is resolved to through chains of more than its own configuration.','Policy.C236_said_partial','Policy.C236_characters_violation','Chains.C236_resolved_partial',ns='Fed.')
c('C237','proved','The resolver and the asking entity may have collected different things before and are asked at different times. That the query is read as it was written is taken from idpyoidc (hypothesis Reads); what the scripts print of an answer is not modelled.','C237_incomplete','C237_resolver','C237_mark',ns='Fed.Setup.Asking.')
c('C238','partial','Proved where the operands of one_of, subset_of and superset_of are lists and where claims with subset_of or superset_of are always given lists. Outside it is false: one_of with a text allows any part of the text (C238_text_violation), subset_of looks for a single text among the names of the operators (C238_name_violation), and superset_of compares the characters of a single text (C238_characters_violation).','C238_exchanged_partial','C238_refused_partial','C238_text_violation','C238_name_violation','C238_characters_violation',ns='Fed.Policy.')
c('C239','proved','Names are exchanged for types and claims, not for operators. Of the members of values the names stay.','C239_renamed','C239_refused',ns='Fed.Policy.')
c('C240','proved','The lists after the change are part of those before; operands that are not lists stay as they are.','C240_narrowed',ns='Fed.Policy.')
c('C241','partial','Proved where, of a claim of which more is demanded, only one authority of the chain demands anything; false where two do.','C241_demanded_partial','C241_superset_violation',ns='Fed.Policy.')
c('C242','proved','Statements are signed again with the same keys; what the signature depends on stays the same.','C242_permitted',ns='Fed.Chains.')
c('C243','partial','Proved where, of the claims of which more is demanded, only one authority in each trust chain that is found demands anything; false where two do.','C243_demanded_partial','C243_superset_violation',ns='Fed.Chains.')
c('C244','partial','Proved for entities that could be resolved before (no trust chain is new) and for entities none of whose trust chains is left out (they could be resolved before, with the same answer), provided that, where authorities begin to constrain names, one authority at most in the trust chain does; false for entities that could not be resolved because of a trust chain that now is ruled out.','C244_constrained_partial','C244_none_left_out_partial','C244_spoiled_violation',ns='Fed.Chains.')
c('C245','proved','Which keys verify a statement does not change when it is issued again with further keys in it.','C245_further_keys',ns='Fed.Chains.')
c('C246','proved','For statements whose end of validity, where it is moved on, was not negative. Keys that verify a statement verify it when it is issued again.','C246_longer_valid',ns='Fed.Chains.')
c('C247','proved','','C247_own_matter',ns='Fed.Chains.')
c('C248','proved','','C248_own_rules',ns='Fed.Chains.')
c('C249','proved','','C249_other_types',ns='Fed.Chains.')
c('C250','proved','','C250_elsewhere',ns='Fed.Chains.')
