# Axioms per theorem

Output of `#print axioms` for every theorem named in MANIFEST.json.

| theorem | axioms |
|---|---|
| `Fed.Policy.C01_value_final` | propext, Classical.choice, Quot.sound |
| `Fed.Policy.C02_subset_of_partial` | propext, Classical.choice, Quot.sound |
| `Fed.Policy.C02_subset_of_list_partial` | propext, Classical.choice, Quot.sound |
| `Fed.Policy.C02_subset_of_violation` | propext, Classical.choice, Quot.sound |
| `Fed.Policy.C02_subset_of_one_of_violation` | propext, Classical.choice, Quot.sound |
| `Fed.Policy.C03_superset_of` | propext, Classical.choice, Quot.sound |
| `Fed.Policy.C04_one_of_partial` | propext, Classical.choice, Quot.sound |
| `Fed.Policy.C04_one_of_violation` | propext, Classical.choice, Quot.sound |
| `Fed.Policy.C05_add` | propext, Classical.choice, Quot.sound |
| `Fed.Policy.C05_add_subset` | propext, Classical.choice, Quot.sound |
| `Fed.Policy.C06_default_never_overrides` | propext, Classical.choice, Quot.sound |
| `Fed.Policy.C06_default_supplied` | propext, Classical.choice, Quot.sound |
| `Fed.Policy.C07_essential_present` | propext, Classical.choice, Quot.sound |
| `Fed.Policy.C07_essential_missing_refused` | propext, Classical.choice, Quot.sound |
| `Fed.Policy.C08_pass_through` | propext, Classical.choice, Quot.sound |
| `Fed.Policy.C08_none_invented` | propext, Classical.choice, Quot.sound |
| `Fed.Policy.C09_operator_loop_terminates` | propext, Classical.choice, Quot.sound |
| `Fed.Policy.C09_applyPolicy_total` | propext, Classical.choice, Quot.sound |
| `Fed.Policy.C10_hash_order_irrelevant` | propext, Classical.choice, Quot.sound |
| `Fed.Discover.C100_ranked_partial` | propext, Quot.sound |
| `Fed.Discover.C100_loop_violation` | propext |
| `Fed.Discover.C101_endpoint_partial` | propext, Classical.choice, Quot.sound |
| `Fed.Discover.C101_other_issuer_violation` | propext, Classical.choice, Quot.sound |
| `Fed.Discover.C102_found_partial` | propext, Classical.choice, Quot.sound |
| `Fed.Discover.C102_none_violation` | propext, Classical.choice, Quot.sound |
| `Fed.Discover.C103_published_partial` | propext, Quot.sound |
| `Fed.Discover.C103_tenant_violation` | propext, Quot.sound |
| `Fed.Discover.C104_named_partial` | propext, Classical.choice, Quot.sound |
| `Fed.Discover.C104_honest_partial` | propext, Classical.choice, Quot.sound |
| `Fed.Discover.C104_foreign_mark_violation` | propext, Classical.choice, Quot.sound |
| `Fed.Discover.C105_complete_partial` | propext, Classical.choice, Quot.sound |
| `Fed.Discover.C105_empty_violation` | propext, Classical.choice, Quot.sound |
| `Fed.Policy.C106_refused_with_reason` | propext, Classical.choice, Quot.sound |
| `Fed.Policy.C106_list_kept` | propext, Classical.choice, Quot.sound |
| `Fed.Policy.C106_single_kept` | propext, Classical.choice, Quot.sound |
| `Fed.Policy.C107_combine_partial` | propext, Classical.choice, Quot.sound |
| `Fed.Policy.C107_chain_partial` | propext, Classical.choice, Quot.sound |
| `Fed.Policy.C107_superset_violation` | propext, Classical.choice, Quot.sound |
| `Fed.Policy.C107_superset_add_violation` | propext, Classical.choice, Quot.sound |
| `Fed.Constraints.C108_accepted_partial` | propext, Classical.choice, Quot.sound |
| `Fed.Constraints.C108_wider_violation` | propext, Classical.choice, Quot.sound |
| `Fed.Chains.C109_resolved_partial` | propext, Classical.choice, Quot.sound |
| `Fed.Chains.C109_metadata_partial` | propext, Classical.choice, Quot.sound |
| `Fed.Chains.C109_policies_violation` | propext, Classical.choice, Quot.sound |
| `Fed.Policy.C11_idempotent_partial` | propext, Classical.choice, Quot.sound |
| `Fed.Policy.C11_idempotent_violation` | propext, Classical.choice, Quot.sound |
| `Fed.Chains.C11_chain_partial` | propext, Classical.choice, Quot.sound |
| `Fed.Chains.C110_permitted_partial` | propext, Classical.choice, Quot.sound |
| `Fed.Chains.C110_excluded_partial` | propext, Classical.choice, Quot.sound |
| `Fed.Chains.C110_path_length_partial` | propext, Classical.choice, Quot.sound |
| `Fed.Chains.C110_path_length_violation` | propext, Classical.choice, Quot.sound |
| `Fed.Chains.C111_essential_partial` | propext, Classical.choice, Quot.sound |
| `Fed.Chains.C111_add_partial` | propext, Classical.choice, Quot.sound |
| `Fed.Chains.C111_subset_of_partial` | propext, Classical.choice, Quot.sound |
| `Fed.Chains.C111_one_of_partial` | propext, Classical.choice, Quot.sound |
| `Fed.Chains.C111_fixed_violation` | propext, Classical.choice, Quot.sound |
| `Fed.Chains.C111_superset_violation` | propext, Classical.choice, Quot.sound |
| `Fed.Client.C112_oidc_partial` | propext, Classical.choice, Quot.sound |
| `Fed.Client.C112_named_partial` | propext, Classical.choice, Quot.sound |
| `Fed.Client.C112_other_provider_violation` | propext, Classical.choice, Quot.sound |
| `Fed.Client.C112_forged_violation` | propext, Classical.choice, Quot.sound |
| `Fed.Client.C113_oidc_fixed` | propext, Classical.choice, Quot.sound |
| `Fed.Client.C113_oauth2_fixed` | propext, Classical.choice, Quot.sound |
| `Fed.Client.C114_one_partial` | propext, Classical.choice, Quot.sound |
| `Fed.Client.C114_other_anchor_violation` | propext, Classical.choice, Quot.sound |
| `Fed.Client.C114_several_violation` | propext, Classical.choice, Quot.sound |
| `Fed.Client.C115_supported_partial` | propext, Classical.choice, Quot.sound |
| `Fed.Client.C115_unsupported_partial` | propext, Classical.choice, Quot.sound |
| `Fed.Client.C115_plain_violation` | propext, Quot.sound |
| `Fed.Client.C116_first_supported` | propext, Classical.choice, Quot.sound |
| `Fed.Client.C116_made` | propext, Classical.choice, Quot.sound |
| `Fed.Client.C117_kept_partial` | propext, Classical.choice, Quot.sound |
| `Fed.Client.C117_pushed_violation` | propext, Quot.sound |
| `Fed.Client.C118_signed` | propext, Quot.sound |
| `Fed.Client.C118_plain` | propext, Quot.sound |
| `Fed.Client.C118_signed_iff` | propext, Quot.sound |
| `Fed.Client.C119_resolved_partial` | propext, Classical.choice, Quot.sound |
| `Fed.Client.C119_refused_partial` | propext, Classical.choice, Quot.sound |
| `Fed.Client.C119_other_issuer_violation` | propext, Classical.choice, Quot.sound |
| `Fed.Policy.C12_superior_partial` | propext, Classical.choice, Quot.sound |
| `Fed.Policy.C12_superior_violation` | propext, Classical.choice, Quot.sound |
| `Fed.Client.C120_two_types_partial` | propext, Classical.choice, Quot.sound |
| `Fed.Client.C120_none_partial` | propext, Classical.choice, Quot.sound |
| `Fed.Client.C120_other_type_violation` | propext, Quot.sound |
| `Fed.Client.C121_single_partial` | propext, Classical.choice, Quot.sound |
| `Fed.Client.C121_priority_violation` | propext, Classical.choice, Quot.sound |
| `Fed.Client.C122_configured` | propext, Classical.choice, Quot.sound |
| `Fed.Client.C122_keys` | propext, Classical.choice, Quot.sound |
| `Fed.Client.C122_loaded` | propext, Classical.choice, Quot.sound |
| `Fed.Client.C122_unknown_source` | propext, Classical.choice, Quot.sound |
| `Fed.Client.C122_issuer` | propext, Classical.choice, Quot.sound |
| `Fed.Client.Session.C123_given_partial` | propext |
| `Fed.Client.Session.C123_none_violation` | propext, Quot.sound |
| `Fed.Client.Session.C124_supported` | propext, Classical.choice, Quot.sound |
| `Fed.Client.Session.C124_refused` | propext, Classical.choice, Quot.sound |
| `Fed.Client.Session.C125_default_partial` | propext, Classical.choice, Quot.sound |
| `Fed.Client.Session.C125_unsorted_violation` | propext, Classical.choice, Quot.sound |
| `Fed.Client.Session.C126_partial` | propext, Quot.sound |
| `Fed.Client.Session.C126_nonce_violation` | propext, Classical.choice, Quot.sound |
| `Fed.Client.Session.C127_begun_partial` | propext, Classical.choice, Quot.sound |
| `Fed.Client.Session.C127_unchanged_partial` | propext, Quot.sound |
| `Fed.Client.Session.C127_again_violation` | propext, Quot.sound |
| `Fed.Client.Session.C128_front_partial` | propext, Classical.choice, Quot.sound |
| `Fed.Client.Session.C128_collect_violation` | propext, Quot.sound |
| `Fed.Client.Session.C128_hybrid_violation` | propext, Quot.sound |
| `Fed.Client.Session.C128_collected` | propext, Quot.sound |
| `Fed.Client.Session.C129_valid` | propext, Quot.sound |
| `Fed.Client.Session.C129_active` | propext, Quot.sound |
| `Fed.Policy.C13_subordinate_partial` | propext, Classical.choice, Quot.sound |
| `Fed.Policy.C13_subordinate_violation` | propext, Classical.choice, Quot.sound |
| `Fed.Client.Http.C130_federation_partial` | propext, Classical.choice, Quot.sound |
| `Fed.Client.Http.C130_client_partial` | propext, Classical.choice, Quot.sound |
| `Fed.Client.Http.C130_error_partial` | propext, Classical.choice, Quot.sound |
| `Fed.Client.Http.C130_redirect_violation` | propext, Classical.choice, Quot.sound |
| `Fed.Client.Http.C130_error_violation` | propext, Classical.choice, Quot.sound |
| `Fed.Client.Http.C131_client_partial` | propext, Quot.sound |
| `Fed.Client.Http.C131_federation_partial` | propext, Quot.sound |
| `Fed.Client.Http.C131_text_violation` | propext, Quot.sound |
| `Fed.Client.Http.C131_statuses` | propext, Classical.choice, Quot.sound |
| `Fed.Client.Http.C131_formats` | propext, Quot.sound |
| `Fed.Client.Http.C132_first_partial` | propext |
| `Fed.Client.Http.C132_false_violation` | propext |
| `Fed.Chains.C133_resolved_partial` | propext, Classical.choice, Quot.sound |
| `Fed.Chains.C133_keys_suffice` | propext, Classical.choice, Quot.sound |
| `Fed.Chains.C133_reissued_partial` | propext, Classical.choice, Quot.sound |
| `Fed.Chains.C133_reissued_keys_partial` | propext, Classical.choice, Quot.sound |
| `Fed.Chains.C133_next_day_violation` | propext, Classical.choice, Quot.sound |
| `Fed.Config.C134_settings_partial` | propext, Classical.choice, Quot.sound |
| `Fed.Config.C134_arguments_partial` | propext, Classical.choice, Quot.sound |
| `Fed.Config.C134_add_violation` | propext, Classical.choice, Quot.sound |
| `Fed.Config.C134_init_violation` | propext, Classical.choice, Quot.sound |
| `Fed.Config.C134_chain_violation` | propext, Classical.choice, Quot.sound |
| `Fed.Config.C135_keys` | propext, Classical.choice, Quot.sound |
| `Fed.Config.C135_listed_partial` | propext, Classical.choice, Quot.sound |
| `Fed.Config.C135_violation` | propext, Quot.sound |
| `Fed.Config.C136_partial` | propext, Classical.choice, Quot.sound |
| `Fed.Config.C136_violation` | propext |
| `Fed.Config.C137_partial` | propext, Classical.choice, Quot.sound |
| `Fed.Config.C137_list_violation` | propext, Classical.choice, Quot.sound |
| `Fed.Config.C137_nested_violation` | propext, Classical.choice, Quot.sound |
| `Fed.Config.C138_unchanged` | propext, Classical.choice, Quot.sound |
| `Fed.Config.C138_ok` | propext, Classical.choice, Quot.sound |
| `Fed.Config.C139_partial` | propext, Quot.sound |
| `Fed.Config.C139_none_violation` | propext, Quot.sound |
| `Fed.Config.C139_services_violation` | propext, Classical.choice, Quot.sound |
| `Fed.Config.C139_unknown_violation` | propext, Classical.choice, Quot.sound |
| `Fed.Policy.C14_value_partial` | propext, Classical.choice, Quot.sound |
| `Fed.Policy.C14_subset_of_partial` | propext, Classical.choice, Quot.sound |
| `Fed.Policy.C14_one_of_partial` | propext, Classical.choice, Quot.sound |
| `Fed.Policy.C14_chain_violation` | propext, Classical.choice, Quot.sound |
| `Fed.Config.C140_partial` | propext, Quot.sound |
| `Fed.Config.C140_given_partial` | propext, Quot.sound |
| `Fed.Config.C140_library_partial` | propext, Quot.sound |
| `Fed.Config.C140_leak_violation` | propext |
| `Fed.Config.C140_args_violation` | propext, Quot.sound |
| `Fed.Client.Requests.C141_question_partial` | propext, Classical.choice, Quot.sound |
| `Fed.Client.Requests.C141_nowhere` | propext |
| `Fed.Client.Requests.C141_target_violation` | propext |
| `Fed.TrustMarks.C142_any_federation_partial` | propext, Classical.choice, Quot.sound |
| `Fed.TrustMarks.C142_genuine_partial` | propext, Classical.choice, Quot.sound |
| `Fed.TrustMarks.C142_issued_partial` | propext, Classical.choice, Quot.sound |
| `Fed.TrustMarks.C142_verdict_violation` | propext, Classical.choice, Quot.sound |
| `Fed.Client.Requests.C143_all_partial` | propext, Classical.choice, Quot.sound |
| `Fed.Client.Requests.C143_holders` | propext, Classical.choice, Quot.sound |
| `Fed.Client.Requests.C143_subject_violation` | propext |
| `Fed.Client.Requests.C144_subject_partial` | propext, Classical.choice, Quot.sound |
| `Fed.Client.Requests.C144_target_partial` | propext |
| `Fed.Client.Requests.C144_subject_violation` | propext, Classical.choice, Quot.sound |
| `Fed.Client.Requests.C144_expired_violation` | propext |
| `Fed.Client.Requests.C145_all` | propext, Classical.choice, Quot.sound |
| `Fed.Client.Requests.C145_type` | propext, Classical.choice, Quot.sound |
| `Fed.Client.Requests.C145_intermediates` | propext, Classical.choice, Quot.sound |
| `Fed.Server.Publish.C146_configuration_partial` | propext, Classical.choice, Quot.sound |
| `Fed.Server.Publish.C146_host_violation` | propext, Classical.choice, Quot.sound |
| `Fed.Server.Publish.C147_statement_partial` | propext, Classical.choice, Quot.sound |
| `Fed.Server.Publish.C147_encoded_violation` | propext, Classical.choice, Quot.sound |
| `Fed.Server.Publish.C147_rollover_violation` | propext, Classical.choice, Quot.sound |
| `Fed.Server.Publish.C148_self_partial` | propext, Classical.choice, Quot.sound |
| `Fed.Server.Publish.C148_never` | propext, Classical.choice, Quot.sound |
| `Fed.Server.Publish.C148_swapped_violation` | propext, Classical.choice, Quot.sound |
| `Fed.Server.Context.C149_published_partial` | propext, Classical.choice, Quot.sound |
| `Fed.Server.Context.C149_file_violation` | propext, Classical.choice, Quot.sound |
| `Fed.Policy.C15_value_conflict_refused` | propext, Classical.choice, Quot.sound |
| `Fed.Policy.C15_default_conflict_refused` | propext, Classical.choice, Quot.sound |
| `Fed.Policy.C15_essential_weakening_refused` | propext, Classical.choice, Quot.sound |
| `Fed.Policy.C15_chain_value_conflict_refused` | propext, Classical.choice, Quot.sound |
| `Fed.Server.Context.C150_response_partial` | propext, Classical.choice, Quot.sound |
| `Fed.Server.Context.C150_keys_violation` | propext, Classical.choice, Quot.sound |
| `Fed.Server.Context.C150_marks_violation` | propext, Classical.choice, Quot.sound |
| `Fed.Server.Context.C151_self_signed_partial` | propext, Classical.choice, Quot.sound |
| `Fed.Server.Context.C151_expired_violation` | propext, Classical.choice, Quot.sound |
| `Fed.Server.Context.C151_subject_violation` | propext, Quot.sound |
| `Fed.Server.Context.C151_source_violation` | propext, Quot.sound |
| `Fed.Chains.C152_statements_partial` | propext, Classical.choice, Quot.sound |
| `Fed.Chains.C152_same_metadata` | propext, Classical.choice, Quot.sound |
| `Fed.Chains.C152_leaf_violation` | propext, Classical.choice, Quot.sound |
| `Fed.Server.Context.C153_given_partial` | propext, Classical.choice, Quot.sound |
| `Fed.Server.Context.C153_file_violation` | propext, Quot.sound |
| `Fed.Registration.C154_added_partial` | propext, Classical.choice, Quot.sound |
| `Fed.Registration.C154_first_time_partial` | propext, Classical.choice, Quot.sound |
| `Fed.Registration.C154_signed_violation` | propext, Classical.choice, Quot.sound |
| `Fed.Registration.C154_old_keys_violation` | propext, Classical.choice, Quot.sound |
| `Fed.Client.C155_kept_partial` | propext, Classical.choice, Quot.sound |
| `Fed.Client.C155_refused_partial` | propext, Classical.choice, Quot.sound |
| `Fed.Client.C155_verifier_partial` | propext, Classical.choice, Quot.sound |
| `Fed.Client.C155_forgotten_violation` | propext, Classical.choice, Quot.sound |
| `Fed.Server.Roles.C156_published_partial` | propext, Classical.choice, Quot.sound |
| `Fed.Server.Roles.C156_only_partial` | propext, Classical.choice, Quot.sound |
| `Fed.Server.Roles.C156_registering_partial` | propext, Classical.choice, Quot.sound |
| `Fed.Server.Roles.C156_some` | propext, Classical.choice, Quot.sound |
| `Fed.Server.Roles.C156_alone` | propext, Classical.choice, Quot.sound |
| `Fed.Server.Roles.C156_mark_issuer_never` | propext, Quot.sound |
| `Fed.Server.Roles.C156_handler_violation` | propext, Classical.choice, Quot.sound |
| `Fed.Server.Roles.C156_mark_issuer_violation` | propext, Quot.sound |
| `Fed.Config.Settings.C157_preference_partial` | propext, Classical.choice, Quot.sound |
| `Fed.Config.Settings.C157_only_partial` | propext, Classical.choice, Quot.sound |
| `Fed.Config.Settings.C157_marks_partial` | propext, Classical.choice, Quot.sound |
| `Fed.Config.Settings.C157_kept` | propext, Classical.choice, Quot.sound |
| `Fed.Config.Settings.C157_issuers_violation` | propext, Classical.choice, Quot.sound |
| `Fed.Config.Settings.C157_owners_violation` | propext, Classical.choice, Quot.sound |
| `Fed.Config.Settings.C158_first_partial` | propext, Classical.choice, Quot.sound |
| `Fed.Config.Settings.C158_day_partial` | propext, Classical.choice, Quot.sound |
| `Fed.Config.Settings.C158_client_partial` | propext, Classical.choice, Quot.sound |
| `Fed.Config.Settings.C158_context` | propext, Classical.choice, Quot.sound |
| `Fed.Config.Settings.C158_priority_violation` | propext, Classical.choice, Quot.sound |
| `Fed.Config.Settings.C158_lifetime_violation` | propext, Classical.choice, Quot.sound |
| `Fed.Config.Settings.C158_marks_violation` | propext, Classical.choice, Quot.sound |
| `Fed.Collect.Mixed.C159_endpoint_partial` | propext, Quot.sound |
| `Fed.Collect.Mixed.C159_hints_partial` | propext, Quot.sound |
| `Fed.Collect.Mixed.C159_forever` | propext, Quot.sound |
| `Fed.Collect.Mixed.C159_violation` | propext, Classical.choice, Quot.sound |
| `Fed.Policy.C16_self_consistent_partial` | propext, Classical.choice, Quot.sound |
| `Fed.Policy.C16_one_of_exclusive_partial` | propext, Classical.choice, Quot.sound |
| `Fed.Policy.C16_self_consistent_violation` | propext, Classical.choice, Quot.sound |
| `Fed.Chains.C160_subset_of_partial` | propext, Classical.choice, Quot.sound |
| `Fed.Chains.C160_one_of_partial` | propext, Classical.choice, Quot.sound |
| `Fed.Chains.C160_essential_partial` | propext, Classical.choice, Quot.sound |
| `Fed.Chains.C160_add_partial` | propext, Classical.choice, Quot.sound |
| `Fed.Chains.C160_value_partial` | propext, Classical.choice, Quot.sound |
| `Fed.Chains.C160_permitted_partial` | propext, Classical.choice, Quot.sound |
| `Fed.Chains.C160_excluded_partial` | propext, Classical.choice, Quot.sound |
| `Fed.Chains.C160_violation` | propext, Classical.choice, Quot.sound |
| `Fed.Discover.C161_partial` | propext, Classical.choice, Quot.sound |
| `Fed.Discover.C161_defaults` | propext, Classical.choice, Quot.sound |
| `Fed.Discover.C161_request_first` | propext, Classical.choice, Quot.sound |
| `Fed.Discover.C161_nobody` | propext, Classical.choice, Quot.sound |
| `Fed.Discover.C161_credential_type_violation` | propext, Classical.choice, Quot.sound |
| `Fed.Registration.C162_oidc_partial` | propext, Classical.choice, Quot.sound |
| `Fed.Registration.C162_known_partial` | propext, Classical.choice, Quot.sound |
| `Fed.Registration.C162_kept` | propext |
| `Fed.Registration.C162_oauth2_violation` | propext, Classical.choice, Quot.sound |
| `Fed.Registration.C162_pushed_violation` | propext, Classical.choice, Quot.sound |
| `Fed.Registration.C162_new_id_violation` | propext, Classical.choice, Quot.sound |
| `Fed.Registration.C163_partial` | propext, Classical.choice, Quot.sound |
| `Fed.Registration.C163_key_partial` | propext, Classical.choice, Quot.sound |
| `Fed.Registration.C163_explicit_partial` | propext, Classical.choice, Quot.sound |
| `Fed.Registration.C163_never_expires` | propext, Classical.choice, Quot.sound |
| `Fed.Registration.C163_never_expires_violation` | propext, Classical.choice, Quot.sound |
| `Fed.Registration.C163_own_secret_violation` | propext, Classical.choice, Quot.sound |
| `Fed.Config.Combo.C164_arguments_partial` | propext, Quot.sound |
| `Fed.Config.Combo.C164_first_stays` | propext, Classical.choice, Quot.sound |
| `Fed.Config.Combo.C164_no_arguments_violation` | propext, Quot.sound |
| `Fed.Config.Combo.C164_again_violation` | propext, Quot.sound |
| `Fed.Client.Session.C165_partial` | propext, Quot.sound |
| `Fed.Client.Session.C165_belongs` | propext, Classical.choice, Quot.sound |
| `Fed.Client.Session.C165_userinfo` | propext, Quot.sound |
| `Fed.Client.Session.C165_oauth2_violation` | propext, Quot.sound |
| `Fed.Client.Session.C166_partial` | propext, Classical.choice, Quot.sound |
| `Fed.Client.Session.C166_others` | propext, Classical.choice, Quot.sound |
| `Fed.Client.Session.C166_response_type_violation` | propext, Quot.sound |
| `Fed.Client.Session.C166_redirect_violation` | propext, Quot.sound |
| `Fed.Registration.C167_automatic_partial` | propext, Classical.choice, Quot.sound |
| `Fed.Registration.C167_known_partial` | propext, Classical.choice, Quot.sound |
| `Fed.Registration.C167_explicit_violation` | propext, Classical.choice, Quot.sound |
| `Fed.Chains.C168_trust_mark_partial` | propext, Classical.choice, Quot.sound |
| `Fed.Chains.C168_endpoint` | propext, Classical.choice, Quot.sound |
| `Fed.Chains.C168_none` | propext, Classical.choice, Quot.sound |
| `Fed.Chains.C168_sourced` | propext, Classical.choice, Quot.sound |
| `Fed.Chains.C168_anchor_violation` | propext, Classical.choice, Quot.sound |
| `Fed.Config.Kinds.C169_services_partial` | propext, Classical.choice, Quot.sound |
| `Fed.Config.Kinds.C169_kind` | propext, Classical.choice, Quot.sound |
| `Fed.Config.Kinds.C169_given` | propext, Quot.sound |
| `Fed.Config.Kinds.C169_entity_id` | propext |
| `Fed.Config.Kinds.C169_no_entity_id` | propext |
| `Fed.Config.Kinds.C169_combination` | propext, Classical.choice, Quot.sound |
| `Fed.Config.Kinds.C169_combination_violation` | propext, Quot.sound |
| `Fed.Policy.C17_combine_covers` | propext, Classical.choice, Quot.sound |
| `Fed.Policy.C17_chain_covers` | propext, Classical.choice, Quot.sound |
| `Fed.Config.Kinds.C170_arguments_partial` | propext, Quot.sound |
| `Fed.Config.Kinds.C170_combination` | propext, Quot.sound |
| `Fed.Config.Kinds.C170_server_type` | propext, Quot.sound |
| `Fed.Config.Kinds.C170_no_default` | propext, Quot.sound |
| `Fed.Config.Kinds.C170_ready` | propext, Quot.sound |
| `Fed.Config.Kinds.C170_issuer_violation` | propext, Quot.sound |
| `Fed.Config.Kinds.C170_kind_violation` | propext, Quot.sound |
| `Fed.Config.Parts.C171_own_keys_partial` | propext, Classical.choice, Quot.sound |
| `Fed.Config.Parts.C171_nothing` | propext, Classical.choice, Quot.sound |
| `Fed.Config.Parts.C171_combination_violation` | propext, Classical.choice, Quot.sound |
| `Fed.Config.Parts.C172_own_keys_partial` | propext |
| `Fed.Config.Parts.C172_statements` | propext |
| `Fed.Config.Parts.C172_trust_mark_violation` | none |
| `Fed.Config.Parts.C172_server_violation` | none |
| `Fed.Client.Session.C173_cleared_partial` | propext, Classical.choice, Quot.sound |
| `Fed.Client.Session.C173_others_partial` | propext, Quot.sound |
| `Fed.Client.Session.C173_request_partial` | none |
| `Fed.Client.Session.C173_close_same` | propext, Quot.sound |
| `Fed.Client.Session.C173_unknown_violation` | propext, Quot.sound |
| `Fed.Client.Session.C173_close_violation` | propext, Quot.sound |
| `Fed.Config.Lookup.C174_found_partial` | propext |
| `Fed.Config.Lookup.C174_only_partial` | propext, Quot.sound |
| `Fed.Config.Lookup.C174_server_violation` | propext |
| `Fed.Config.Lookup.C175_entity_partial` | propext |
| `Fed.Config.Lookup.C175_lost` | none |
| `Fed.Config.Lookup.C175_own_violation` | propext, Quot.sound |
| `Fed.Config.Lookup.C175_missing_violation` | propext, Quot.sound |
| `Fed.Config.Applied.C176_applied_partial` | propext |
| `Fed.Config.Applied.C176_never` | propext |
| `Fed.Config.Applied.C176_client_violation` | propext, Quot.sound |
| `Fed.Config.Applied.C176_handler_violation` | propext, Quot.sound |
| `Fed.Client.C177_signed_partial` | propext, Classical.choice, Quot.sound |
| `Fed.Client.C177_never_pushed` | propext, Classical.choice, Quot.sound |
| `Fed.Client.C177_pushed_violation` | propext, Classical.choice, Quot.sound |
| `Fed.Client.C178_registered_partial` | propext, Classical.choice, Quot.sound |
| `Fed.Client.C178_keys_partial` | propext, Classical.choice, Quot.sound |
| `Fed.Client.C178_taken_partial` | propext, Classical.choice, Quot.sound |
| `Fed.Client.C178_two_ways_violation` | propext, Classical.choice, Quot.sound |
| `Fed.Client.C179_part_partial` | propext, Classical.choice, Quot.sound |
| `Fed.Client.C179_marks_partial` | propext, Classical.choice, Quot.sound |
| `Fed.Client.C179_handler_never` | propext, Classical.choice, Quot.sound |
| `Fed.Client.C179_handler_violation` | propext, Classical.choice, Quot.sound |
| `Fed.Client.C179_marks_violation` | propext, Quot.sound |
| `Fed.Policy.C18_superior_metadata_kept` | propext, Classical.choice, Quot.sound |
| `Fed.Policy.C18_contradiction_refused` | propext, Classical.choice, Quot.sound |
| `Fed.Client.C180_others_partial` | propext, Classical.choice, Quot.sound |
| `Fed.Client.C180_mixed` | propext, Classical.choice, Quot.sound |
| `Fed.Client.C180_violation` | propext, Classical.choice, Quot.sound |
| `Fed.Client.C181_secret_partial` | propext |
| `Fed.Client.C181_handled_partial` | propext |
| `Fed.Client.C181_id_never` | propext |
| `Fed.Client.C181_authorization` | propext |
| `Fed.Client.C181_accepted` | propext, Quot.sound |
| `Fed.Client.C181_types` | propext, Classical.choice, Quot.sound |
| `Fed.Client.C181_handler` | propext |
| `Fed.Client.C181_unknown` | propext, Classical.choice, Quot.sound |
| `Fed.Client.C181_violation` | propext, Classical.choice, Quot.sound |
| `Fed.Discover.WellKnown.C182_found_partial` | propext, Classical.choice, Quot.sound |
| `Fed.Discover.WellKnown.C182_own_host` | propext, Classical.choice, Quot.sound |
| `Fed.Discover.WellKnown.C182_named` | propext, Classical.choice, Quot.sound |
| `Fed.Discover.WellKnown.C182_shared_violation` | propext, Classical.choice, Quot.sound |
| `Fed.Discover.WellKnown.C182_slash_violation` | propext, Classical.choice, Quot.sound |
| `Fed.Client.Resolving.C183_answer` | propext, Classical.choice, Quot.sound |
| `Fed.Client.Resolving.C183_incomplete` | propext, Quot.sound |
| `Fed.Client.C184_taken_partial` | propext, Classical.choice, Quot.sound |
| `Fed.Client.C184_registered_partial` | propext, Classical.choice, Quot.sound |
| `Fed.Client.C184_keys_partial` | propext, Classical.choice, Quot.sound |
| `Fed.Client.C184_two_ways_violation` | propext, Classical.choice, Quot.sound |
| `Fed.Setup.C185_entry` | propext, Classical.choice, Quot.sound |
| `Fed.Setup.C185_listed_partial` | propext, Classical.choice, Quot.sound |
| `Fed.Setup.C185_trusted` | propext, Classical.choice, Quot.sound |
| `Fed.Setup.C185_resolved_partial` | propext, Classical.choice, Quot.sound |
| `Fed.Setup.C185_no_federation_entity` | propext, Classical.choice, Quot.sound |
| `Fed.Setup.C185_by_type_fails` | propext, Classical.choice, Quot.sound |
| `Fed.Setup.C185_by_type_violation` | propext, Classical.choice, Quot.sound |
| `Fed.Setup.C186_leaves_partial` | propext, Quot.sound |
| `Fed.Setup.C186_complaints` | propext, Quot.sound |
| `Fed.Setup.C186_ends_partial` | propext, Classical.choice, Quot.sound |
| `Fed.Setup.C186_intermediates_missing` | propext, Quot.sound |
| `Fed.Setup.C186_set_up_partial` | propext, Classical.choice, Quot.sound |
| `Fed.Setup.C186_chains_partial` | propext, Classical.choice, Quot.sound |
| `Fed.Setup.C186_verdicts` | propext, Classical.choice, Quot.sound |
| `Fed.Setup.C186_intermediate_violation` | propext, Quot.sound |
| `Fed.Setup.C186_loop_violation` | propext, Quot.sound |
| `Fed.Web.C187_view_partial` | propext, Classical.choice, Quot.sound |
| `Fed.Web.C187_example_partial` | propext, Classical.choice, Quot.sound |
| `Fed.Web.C187_same_partial` | propext, Classical.choice, Quot.sound |
| `Fed.Web.C187_view_violation` | propext, Quot.sound |
| `Fed.Web.C187_example_violation` | propext, Quot.sound |
| `Fed.Web.C187_relying_party_violation` | propext, Classical.choice, Quot.sound |
| `Fed.Web.C188_refused` | propext |
| `Fed.Web.C188_success` | propext |
| `Fed.Web.C188_redirect` | propext, Quot.sound |
| `Fed.Web.C188_crash` | propext |
| `Fed.Web.C188_fetch` | propext, Classical.choice, Quot.sound |
| `Fed.Web.C188_list` | propext, Classical.choice, Quot.sound |
| `Fed.Web.C188_mark` | propext |
| `Fed.Web.C188_status` | propext, Quot.sound |
| `Fed.Web.C188_register` | propext, Classical.choice, Quot.sound |
| `Fed.Web.C188_who_never` | propext, Classical.choice, Quot.sound |
| `Fed.Web.C188_who_violation` | propext, Classical.choice, Quot.sound |
| `Fed.Web.C189_anybody` | propext, Quot.sound |
| `Fed.Web.C189_confirmed` | propext, Quot.sound |
| `Fed.Web.C189_violation` | propext, Quot.sound |
| `Fed.Policy.C19_superior_metadata_partial` | propext, Classical.choice, Quot.sound |
| `Fed.Policy.C19_superior_metadata_violation` | propext, Classical.choice, Quot.sound |
| `Fed.Web.Login.C190_never` | propext, Quot.sound |
| `Fed.Web.Login.C190_no_page` | propext, Classical.choice, Quot.sound |
| `Fed.Web.Login.C190_violation` | propext, Classical.choice, Quot.sound |
| `Fed.Web.Login.C190_refused_partial` | propext, Quot.sound |
| `Fed.Web.Login.C190_foreign` | propext, Quot.sound |
| `Fed.Web.Login.C190_others` | propext, Classical.choice, Quot.sound |
| `Fed.Web.Login.C191_never` | propext, Quot.sound |
| `Fed.Web.Login.C191_violation` | propext, Quot.sound |
| `Fed.Web.Login.C192_authenticated` | none |
| `Fed.Web.Login.C192_denied` | none |
| `Fed.Policy.C193_value` | propext, Classical.choice, Quot.sound |
| `Fed.Policy.C193_refused` | propext, Classical.choice, Quot.sound |
| `Fed.Policy.C193_types` | propext, Classical.choice, Quot.sound |
| `Fed.Collect.C194_collection` | propext, Quot.sound |
| `Fed.Chains.C194_chains` | propext, Classical.choice, Quot.sound |
| `Fed.TrustMarks.C195_member_partial` | propext, Classical.choice, Quot.sound |
| `Fed.TrustMarks.C195_any_mark` | propext, Classical.choice, Quot.sound |
| `Fed.TrustMarks.C195_self_made` | propext, Classical.choice, Quot.sound |
| `Fed.TrustMarks.C195_unlisted_violation` | propext, Classical.choice, Quot.sound |
| `Fed.Web.C196_set_partial` | propext, Quot.sound |
| `Fed.Web.C196_unprotected` | propext |
| `Fed.Web.C196_age_crash` | propext |
| `Fed.Web.C196_protection_violation` | propext, Quot.sound |
| `Fed.Web.C196_age_violation` | propext, Quot.sound |
| `Fed.Web.C197_logout_partial` | propext, Quot.sound |
| `Fed.Web.C197_only_token` | propext, Quot.sound |
| `Fed.Web.C197_frames_violation` | propext |
| `Fed.Collect.Threads.C198_apart_partial` | propext, Classical.choice, Quot.sound |
| `Fed.Collect.Threads.C198_sequential` | propext, Classical.choice, Quot.sound |
| `Fed.Collect.Threads.C198_source_partial` | propext, Classical.choice, Quot.sound |
| `Fed.Collect.Threads.C198_errors_partial` | propext |
| `Fed.Collect.Threads.C198_cached_partial` | propext, Classical.choice, Quot.sound |
| `Fed.Collect.Threads.C198_between_writes_violation` | propext, Classical.choice, Quot.sound |
| `Fed.Collect.Threads.C198_both_delete_violation` | propext, Classical.choice, Quot.sound |
| `Fed.Collect.Threads.C198_expired_violation` | propext, Classical.choice, Quot.sound |
| `Fed.Chains.C199_no_chain_partial` | propext, Classical.choice, Quot.sound |
| `Fed.Chains.C199_dropped_partial` | propext, Classical.choice, Quot.sound |
| `Fed.Chains.C199_not_stored_partial` | propext, Classical.choice, Quot.sound |
| `Fed.Chains.C199_stored_violation` | propext, Classical.choice, Quot.sound |
| `Fed.Policy.C20_overlap_partial` | propext, Classical.choice, Quot.sound |
| `Fed.Policy.C20_overlap_violation` | propext, Classical.choice, Quot.sound |
| `Fed.Setup.Tools.C200_chains` | propext, Classical.choice, Quot.sound |
| `Fed.Setup.Tools.C200_configuration_well_run` | propext, Quot.sound |
| `Fed.Setup.Tools.C200_statement_well_run` | propext, Quot.sound |
| `Fed.Setup.Tools.C200_list` | propext, Classical.choice, Quot.sound |
| `Fed.Setup.Tools.C200_status` | propext, Classical.choice, Quot.sound |
| `Fed.Setup.Tools.C200_configuration_partial` | propext, Quot.sound |
| `Fed.Setup.Tools.C200_statement_partial` | none |
| `Fed.Setup.Tools.C200_display_partial` | propext, Quot.sound |
| `Fed.Setup.Tools.C200_configuration_violation` | propext, Quot.sound |
| `Fed.Setup.Tools.C200_statement_violation` | propext, Quot.sound |
| `Fed.Setup.Tools.C200_display_violation` | propext, Quot.sound |
| `Fed.Collect.ConfigThreads.C201_endpoint_partial` | propext, Quot.sound |
| `Fed.Collect.ConfigThreads.C201_error_partial` | propext, Classical.choice, Quot.sound |
| `Fed.Collect.ConfigThreads.C201_lasting_partial` | propext, Quot.sound |
| `Fed.Collect.ConfigThreads.C201_apart_partial` | propext, Quot.sound |
| `Fed.Collect.ConfigThreads.C201_cache` | propext, Quot.sound |
| `Fed.Collect.ConfigThreads.C201_sequential` | propext, Quot.sound |
| `Fed.Collect.ConfigThreads.C201_both_delete_violation` | propext, Quot.sound |
| `Fed.Registration.Threads.C202_single_partial` | propext, Quot.sound |
| `Fed.Registration.Threads.C202_apart_partial` | propext, Quot.sound |
| `Fed.Registration.Threads.C202_settled_partial` | propext, Quot.sound |
| `Fed.Registration.Threads.C202_after_partial` | propext, Quot.sound |
| `Fed.Registration.Threads.C202_errors_partial` | propext, Quot.sound |
| `Fed.Registration.Threads.C202_sequential` | propext, Classical.choice, Quot.sound |
| `Fed.Registration.Threads.C202_both_delete_violation` | propext, Quot.sound |
| `Fed.Registration.Threads.C202_unknown_violation` | propext, Quot.sound |
| `Fed.Registration.Threads.C202_lost_violation` | propext, Quot.sound |
| `Fed.Chains.IssuerThreads.C203_named_partial` | propext, Quot.sound |
| `Fed.Chains.IssuerThreads.C203_same_partial` | propext, Quot.sound |
| `Fed.Chains.IssuerThreads.C203_others_partial` | propext, Quot.sound |
| `Fed.Chains.IssuerThreads.C203_store_partial` | propext, Quot.sound |
| `Fed.Chains.IssuerThreads.C203_sequential` | propext, Classical.choice, Quot.sound |
| `Fed.Chains.IssuerThreads.C203_request_violation` | propext, Quot.sound |
| `Fed.Chains.IssuerThreads.C203_store_violation` | propext, Quot.sound |
| `Fed.Chains.IssuerThreads.C203_get_violation` | propext, Quot.sound |
| `Fed.Registration.C204_let_in_partial` | propext, Classical.choice, Quot.sound |
| `Fed.Registration.C204_reissued_partial` | propext, Classical.choice, Quot.sound |
| `Fed.Registration.C204_anchor_partial` | propext, Classical.choice, Quot.sound |
| `Fed.Registration.C204_next_day_violation` | propext, Classical.choice, Quot.sound |
| `Fed.Registration.C205_handed_in_partial` | propext, Classical.choice, Quot.sound |
| `Fed.Registration.C205_reissued_partial` | propext, Classical.choice, Quot.sound |
| `Fed.Registration.C205_resolver_partial` | propext, Classical.choice, Quot.sound |
| `Fed.Registration.C205_export_refused` | propext, Classical.choice, Quot.sound |
| `Fed.Registration.C205_export_violation` | propext, Classical.choice, Quot.sound |
| `Fed.Registration.C206_dropped_partial` | propext, Classical.choice, Quot.sound |
| `Fed.Registration.C206_old_chain_violation` | propext, Classical.choice, Quot.sound |
| `Fed.Policy.C207_silent_partial` | propext, Classical.choice, Quot.sound |
| `Fed.Policy.C207_repeated_partial` | propext, Classical.choice, Quot.sound |
| `Fed.Policy.C207_word_for_word_violation` | propext, Classical.choice, Quot.sound |
| `Fed.Policy.C207_below_value_violation` | propext, Classical.choice, Quot.sound |
| `Fed.Policy.C207_optional_violation` | propext, Classical.choice, Quot.sound |
| `Fed.Policy.C207_silent_anchor_violation` | propext, Classical.choice, Quot.sound |
| `Fed.Collect.C208_again_partial` | propext, Classical.choice, Quot.sound |
| `Fed.Collect.C208_no_fetch_endpoint_violation` | propext, Classical.choice, Quot.sound |
| `Fed.Collect.C208_no_expiry_violation` | propext, Classical.choice, Quot.sound |
| `Fed.Chains.C208_chains_partial` | propext, Classical.choice, Quot.sound |
| `Fed.Chains.C208_second_time_violation` | propext, Classical.choice, Quot.sound |
| `Fed.Chains.C209_no_chain` | propext, Classical.choice, Quot.sound |
| `Fed.Chains.C209_metadata_violation` | propext, Classical.choice, Quot.sound |
| `Fed.Chains.C209_self_named_violation` | propext, Classical.choice, Quot.sound |
| `Fed.TrustMarks.C209_no_mark` | propext, Classical.choice, Quot.sound |
| `Fed.TrustMarks.C209_no_mark_verifier` | propext, Classical.choice, Quot.sound |
| `Fed.TrustMarks.C209_mark_violation` | propext, Classical.choice, Quot.sound |
| `Fed.Policy.C21_hash_order_irrelevant` | propext, Classical.choice, Quot.sound |
| `Fed.Policy.C21_resolution_hash_order_irrelevant` | propext, Classical.choice, Quot.sound |
| `Fed.Chains.C210_in_flux_partial` | propext, Classical.choice, Quot.sound |
| `Fed.Chains.C210_keys_partial` | propext, Classical.choice, Quot.sound |
| `Fed.Chains.C210_at_once_violation` | propext, Classical.choice, Quot.sound |
| `Fed.Verify.Threads.C211_accepted_partial` | propext, Classical.choice, Quot.sound |
| `Fed.Verify.Threads.C211_sound_partial` | propext, Classical.choice, Quot.sound |
| `Fed.Verify.Threads.C211_vouched` | propext, Classical.choice, Quot.sound |
| `Fed.Verify.Threads.C211_ends` | propext, Classical.choice, Quot.sound |
| `Fed.Verify.Threads.C211_any_order_partial` | propext, Classical.choice, Quot.sound |
| `Fed.Verify.Threads.C211_crossed_violation` | propext, Classical.choice, Quot.sound |
| `Fed.Verify.Threads.C211_twice_violation` | propext, Classical.choice, Quot.sound |
| `Fed.Verify.Threads.alone_eq` | propext, Classical.choice, Quot.sound |
| `Fed.Chains.AtOnce.C212_resolved_partial` | propext, Classical.choice, Quot.sound |
| `Fed.Chains.AtOnce.C212_verified_partial` | propext, Classical.choice, Quot.sound |
| `Fed.Chains.AtOnce.C212_again_partial` | propext, Classical.choice, Quot.sound |
| `Fed.Chains.AtOnce.C212_ends` | propext, Quot.sound |
| `Fed.Chains.AtOnce.C212_violation` | propext, Classical.choice, Quot.sound |
| `Fed.Chains.AtOnce.getVerifiedP_run` | propext, Classical.choice, Quot.sound |
| `Fed.Chains.AtOnce.getTrustChainsP_run` | propext, Classical.choice, Quot.sound |
| `Fed.Chains.AtOnce.C213_sound` | propext, Classical.choice, Quot.sound |
| `Fed.Chains.AtOnce.C213_stored` | propext, Classical.choice, Quot.sound |
| `Fed.Chains.AtOnce.C213_keys` | propext, Classical.choice, Quot.sound |
| `Fed.Registration.Named.C214_history_partial` | propext, Classical.choice, Quot.sound |
| `Fed.Registration.Named.C214_mark_partial` | propext, Classical.choice, Quot.sound |
| `Fed.Registration.Named.C214_sent` | propext, Classical.choice, Quot.sound |
| `Fed.Registration.Named.C214_violation` | propext, Classical.choice, Quot.sound |
| `Fed.Registration.Named.C214_mark_violation` | propext, Classical.choice, Quot.sound |
| `Fed.Registration.SharedKeys.C215_separate_partial` | propext, Classical.choice, Quot.sound |
| `Fed.Registration.SharedKeys.C215_shared_partial` | propext, Classical.choice, Quot.sound |
| `Fed.Registration.SharedKeys.C215_violation` | propext, Classical.choice, Quot.sound |
| `Fed.Discover.Walk.C216_came` | propext, Classical.choice, Quot.sound |
| `Fed.Discover.Walk.C216_keys_partial` | propext, Classical.choice, Quot.sound |
| `Fed.Discover.Walk.C216_chain_partial` | propext, Classical.choice, Quot.sound |
| `Fed.Discover.Walk.C216_resolve_violation` | propext, Classical.choice, Quot.sound |
| `Fed.Discover.Walk.C216_walk_violation` | propext, Classical.choice, Quot.sound |
| `Fed.Discover.Walk.C216_chain_violation` | propext, Classical.choice, Quot.sound |
| `Fed.Discover.Walk.C217_collected_partial` | propext, Classical.choice, Quot.sound |
| `Fed.Discover.Walk.C217_same_partial` | propext, Classical.choice, Quot.sound |
| `Fed.Discover.Walk.C217_violation` | propext, Classical.choice, Quot.sound |
| `Fed.Collect.Moving.C218_still_partial` | propext, Quot.sound |
| `Fed.Collect.Moving.C218_renewed_partial` | propext, Classical.choice, Quot.sound |
| `Fed.Collect.Moving.C218_violation` | propext, Quot.sound |
| `Fed.Chains.C219_kept_partial` | propext, Classical.choice, Quot.sound |
| `Fed.Chains.C219_gained_partial` | propext, Classical.choice, Quot.sound |
| `Fed.Chains.C219_unconcerned_partial` | propext, Classical.choice, Quot.sound |
| `Fed.Chains.C219_conflict_violation` | propext, Classical.choice, Quot.sound |
| `Fed.Chains.C219_elsewhere_violation` | propext, Classical.choice, Quot.sound |
| `Fed.Policy.C22_diff2policy_round_trip` | propext, Classical.choice, Quot.sound |
| `Fed.Server.C220_agree_partial` | propext, Classical.choice, Quot.sound |
| `Fed.Server.C220_answered_partial` | propext, Classical.choice, Quot.sound |
| `Fed.Server.C220_nested_violation` | propext, Classical.choice, Quot.sound |
| `Fed.Server.C220_keys_violation` | propext, Classical.choice, Quot.sound |
| `Fed.Chains.C221_settled_partial` | propext, Classical.choice, Quot.sound |
| `Fed.Chains.C221_violation` | propext, Classical.choice, Quot.sound |
| `Fed.Chains.C222_kept_partial` | propext, Classical.choice, Quot.sound |
| `Fed.Chains.C222_unreachable_violation` | propext, Classical.choice, Quot.sound |
| `Fed.Chains.C222_conflict_violation` | propext, Classical.choice, Quot.sound |
| `Fed.Chains.C222_anchor_violation` | propext, Classical.choice, Quot.sound |
| `Fed.TrustMarks.Shared.C223_sequential_partial` | propext, Quot.sound |
| `Fed.TrustMarks.Shared.C223_kept_partial` | propext, Quot.sound |
| `Fed.TrustMarks.Shared.C223_lost_violation` | propext |
| `Fed.TrustMarks.Shared.C223_mixed_violation` | propext |
| `Fed.Constraints.C224_lengths_partial` | propext, Classical.choice, Quot.sound |
| `Fed.Constraints.C224_names_partial` | propext, Classical.choice, Quot.sound |
| `Fed.Constraints.C224_excluded_violation` | propext, Classical.choice, Quot.sound |
| `Fed.Constraints.C224_permitted_violation` | propext, Classical.choice, Quot.sound |
| `Fed.Chains.C225_settled_partial` | propext, Classical.choice, Quot.sound |
| `Fed.Chains.C225_violation` | propext, Classical.choice, Quot.sound |
| `Fed.Policy.C226_last_partial` | propext, Classical.choice, Quot.sound |
| `Fed.Policy.C226_anywhere_partial` | propext, Classical.choice, Quot.sound |
| `Fed.Policy.C226_superset_violation` | propext, Classical.choice, Quot.sound |
| `Fed.Policy.C226_middle_violation` | propext, Classical.choice, Quot.sound |
| `Fed.Policy.C226_name_violation` | propext, Classical.choice, Quot.sound |
| `Fed.Policy.C226_essential_violation` | propext, Classical.choice, Quot.sound |
| `Fed.Policy.C227_declares_more` | propext, Classical.choice, Quot.sound |
| `Fed.Chains.C228_waiting_partial` | propext, Classical.choice, Quot.sound |
| `Fed.Chains.C228_agree_partial` | propext, Classical.choice, Quot.sound |
| `Fed.Chains.C228_lasts` | propext, Classical.choice, Quot.sound |
| `Fed.Chains.C228_expired_violation` | propext, Classical.choice, Quot.sound |
| `Fed.Chains.C229_unspoken_partial` | propext, Classical.choice, Quot.sound |
| `Fed.Chains.C229_violation` | propext, Classical.choice, Quot.sound |
| `Fed.Constraints.C23_path_length_partial` | propext, Classical.choice, Quot.sound |
| `Fed.Constraints.C23_counting_partial` | propext, Quot.sound |
| `Fed.Constraints.C23_path_length_violation` | propext, Classical.choice, Quot.sound |
| `Fed.Collect.C230_once_partial` | propext, Classical.choice, Quot.sound |
| `Fed.Collect.C230_bound_partial` | propext, Classical.choice, Quot.sound |
| `Fed.Collect.C230_endpoint_violation` | propext |
| `Fed.Collect.C230_expiring_violation` | propext |
| `Fed.Collect.C231_width_partial` | propext, Classical.choice, Quot.sound |
| `Fed.Collect.C231_single_partial` | propext, Classical.choice, Quot.sound |
| `Fed.Collect.C231_doubling_violation` | propext, Classical.choice, Quot.sound |
| `Fed.Chains.C232_later_partial` | propext, Classical.choice, Quot.sound |
| `Fed.Chains.C232_agree_partial` | propext, Classical.choice, Quot.sound |
| `Fed.Chains.C232_expiring_violation` | propext, Classical.choice, Quot.sound |
| `Fed.Chains.C233_renamed_partial` | propext, Classical.choice, Quot.sound |
| `Fed.Chains.C233_collision_violation` | propext, Classical.choice, Quot.sound |
| `Fed.Policy.C234_merged_partial` | propext, Classical.choice, Quot.sound |
| `Fed.Policy.C234_overlap_violation` | propext, Classical.choice, Quot.sound |
| `Fed.Policy.C234_demands_violation` | propext, Classical.choice, Quot.sound |
| `Fed.Policy.C235_swapped_partial` | propext, Classical.choice, Quot.sound |
| `Fed.Policy.C235_value_violation` | propext, Classical.choice, Quot.sound |
| `Fed.Policy.C235_anchor_violation` | propext, Classical.choice, Quot.sound |
| `Fed.Policy.C236_said_partial` | propext, Classical.choice, Quot.sound |
| `Fed.Policy.C236_characters_violation` | propext, Classical.choice, Quot.sound |
| `Fed.Chains.C236_resolved_partial` | propext, Classical.choice, Quot.sound |
| `Fed.Setup.Asking.C237_incomplete` | propext, Classical.choice, Quot.sound |
| `Fed.Setup.Asking.C237_resolver` | propext, Classical.choice, Quot.sound |
| `Fed.Setup.Asking.C237_mark` | propext, Classical.choice, Quot.sound |
| `Fed.Policy.C238_exchanged_partial` | propext, Classical.choice, Quot.sound |
| `Fed.Policy.C238_refused_partial` | propext, Classical.choice, Quot.sound |
| `Fed.Policy.C238_text_violation` | propext, Classical.choice, Quot.sound |
| `Fed.Policy.C238_name_violation` | propext, Classical.choice, Quot.sound |
| `Fed.Policy.C238_characters_violation` | propext, Classical.choice, Quot.sound |
| `Fed.Policy.C239_renamed` | propext, Classical.choice, Quot.sound |
| `Fed.Policy.C239_refused` | propext, Classical.choice, Quot.sound |
| `Fed.Constraints.C24_exclusion_partial` | propext, Classical.choice, Quot.sound |
| `Fed.Constraints.C24_exclusion_violation` | propext, Classical.choice, Quot.sound |
| `Fed.Constraints.C24_second_list_violation` | propext, Classical.choice, Quot.sound |
| `Fed.Policy.C240_narrowed` | propext, Classical.choice, Quot.sound |
| `Fed.Policy.C241_demanded_partial` | propext, Classical.choice, Quot.sound |
| `Fed.Policy.C241_superset_violation` | propext, Classical.choice, Quot.sound |
| `Fed.Chains.C242_permitted` | propext, Classical.choice, Quot.sound |
| `Fed.Chains.C243_demanded_partial` | propext, Classical.choice, Quot.sound |
| `Fed.Chains.C243_superset_violation` | propext, Classical.choice, Quot.sound |
| `Fed.Chains.C244_constrained_partial` | propext, Classical.choice, Quot.sound |
| `Fed.Chains.C244_none_left_out_partial` | propext, Classical.choice, Quot.sound |
| `Fed.Chains.C244_spoiled_violation` | propext, Classical.choice, Quot.sound |
| `Fed.Chains.C245_further_keys` | propext, Classical.choice, Quot.sound |
| `Fed.Chains.C246_longer_valid` | propext, Classical.choice, Quot.sound |
| `Fed.Chains.C247_own_matter` | propext, Classical.choice, Quot.sound |
| `Fed.Chains.C248_own_rules` | propext, Classical.choice, Quot.sound |
| `Fed.Chains.C249_other_types` | propext, Classical.choice, Quot.sound |
| `Fed.Constraints.C25_permitted_only_narrows` | propext, Classical.choice, Quot.sound |
| `Fed.Chains.C250_elsewhere` | propext, Classical.choice, Quot.sound |
| `Fed.Constraints.C26_every_list_partial` | propext, Classical.choice, Quot.sound |
| `Fed.Constraints.C26_every_list_violation` | propext, Classical.choice, Quot.sound |
| `Fed.Constraints.C27_labels` | propext, Quot.sound |
| `Fed.Constraints.C27_suffix_match` | propext, Classical.choice, Quot.sound |
| `Fed.Constraints.C27_reflexive` | propext, Classical.choice, Quot.sound |
| `Fed.Constraints.C27_transitive` | propext, Classical.choice, Quot.sound |
| `Fed.Collect.C28_chains_are_paths` | propext, Quot.sound |
| `Fed.Collect.C29_complete_paths_partial` | propext, Quot.sound |
| `Fed.Collect.C29_no_failure_partial` | propext, Quot.sound |
| `Fed.Collect.C29_failed_branch_violation` | propext, Quot.sound |
| `Fed.Collect.C29_empty_chain_violation` | propext |
| `Fed.Collect.C30_acyclic_partial` | propext, Classical.choice, Quot.sound |
| `Fed.Collect.C30_fuel_irrelevant` | propext, Quot.sound |
| `Fed.Collect.C30_cycle_violation` | propext, Quot.sound |
| `Fed.Collect.C31_tree_faithful_partial` | propext, Classical.choice, Quot.sound |
| `Fed.Collect.C31_collision_violation` | propext, Quot.sound |
| `Fed.Collect.C32_lookup_is_last_fresh` | propext, Classical.choice, Quot.sound |
| `Fed.Collect.C32_stale_entry_gone` | propext, Quot.sound |
| `Fed.Collect.C33_only_fresh_served` | propext, Classical.choice, Quot.sound |
| `Fed.Collect.C33_stale_dropped` | propext, Quot.sound |
| `Fed.Collect.C33_history` | propext, Classical.choice, Quot.sound |
| `Fed.Collect.C34_plain_partial` | propext, Classical.choice, Quot.sound |
| `Fed.Collect.C34_statements_collide_violation` | propext |
| `Fed.Collect.C34_expiry_collides_violation` | propext |
| `Fed.Verify.C35_known_anchor` | propext, Classical.choice, Quot.sound |
| `Fed.Verify.C35_unknown_anchor_refused` | propext, Classical.choice, Quot.sound |
| `Fed.Verify.C36_anchor_vouched_partial` | propext, Classical.choice, Quot.sound |
| `Fed.Verify.C36_no_success_partial` | propext, Classical.choice, Quot.sound |
| `Fed.Verify.C36_intermediate_violation` | propext, Classical.choice, Quot.sound |
| `Fed.Verify.C36_self_anchored_violation` | propext, Classical.choice, Quot.sound |
| `Fed.Verify.C37_keys_from_above` | propext, Classical.choice, Quot.sound |
| `Fed.Verify.C38_no_key_lost` | propext, Classical.choice, Quot.sound |
| `Fed.Verify.C38_only_vouched_keys` | propext, Classical.choice, Quot.sound |
| `Fed.Verify.C38_declared_keys_held` | propext, Classical.choice, Quot.sound |
| `Fed.Verify.C39_minimum_partial` | propext, Classical.choice, Quot.sound |
| `Fed.Verify.C39_negative_violation` | propext, Classical.choice, Quot.sound |
| `Fed.Verify.C40_fresh_store_partial` | propext, Classical.choice, Quot.sound |
| `Fed.Verify.C40_unlinked_violation` | propext, Classical.choice, Quot.sound |
| `Fed.Verify.C40_fresh_violation` | propext, Classical.choice, Quot.sound |
| `Fed.Verify.C41_reports_expiry_partial` | propext, Classical.choice, Quot.sound |
| `Fed.Verify.C41_expired_violation` | propext, Classical.choice, Quot.sound |
| `Fed.Verify.C42_describes_chain` | propext, Classical.choice, Quot.sound |
| `Fed.Chains.C43_shortest_first` | propext, Classical.choice, Quot.sound |
| `Fed.Chains.C44_one_entity_partial` | propext, Classical.choice, Quot.sound |
| `Fed.Chains.C44_found_was_saved_partial` | propext, Classical.choice, Quot.sound |
| `Fed.Chains.C44_mixed_save_violation` | propext, Quot.sound |
| `Fed.Chains.C45_alternates_partial` | propext, Quot.sound |
| `Fed.Chains.C45_second_export_violation` | propext, Quot.sound |
| `Fed.Chains.C46_fresh_partial` | propext, Quot.sound |
| `Fed.Chains.C46_stored_first_partial` | propext, Quot.sound |
| `Fed.Chains.C46_stored_violation` | propext, Quot.sound |
| `Fed.Chains.C47_stored_was_resolved_partial` | propext, Classical.choice, Quot.sound |
| `Fed.Chains.C47_first_answer_stays_partial` | propext, Classical.choice, Quot.sound |
| `Fed.Chains.C47_expired_violation` | propext, Classical.choice, Quot.sound |
| `Fed.TrustMarks.C48_exact_partial` | propext, Quot.sound |
| `Fed.TrustMarks.C48_same_lifetime_partial` | propext, Quot.sound |
| `Fed.TrustMarks.C48_hidden_violation` | propext, Classical.choice, Quot.sound |
| `Fed.TrustMarks.C49_lists_subjects` | propext, Quot.sound |
| `Fed.TrustMarks.C50_dump_load` | propext, Quot.sound |
| `Fed.TrustMarks.C51_first_only_partial` | propext, Quot.sound |
| `Fed.TrustMarks.C51_distinct_ids_partial` | propext, Quot.sound |
| `Fed.TrustMarks.C51_second_mark_violation` | propext |
| `Fed.TrustMarks.C52_accepted_partial` | propext, Classical.choice, Quot.sound |
| `Fed.TrustMarks.C52_delegation_partial` | propext, Classical.choice, Quot.sound |
| `Fed.TrustMarks.C52_good_mark_accepted` | propext, Classical.choice, Quot.sound |
| `Fed.TrustMarks.C52_delegation_violation` | propext, Classical.choice, Quot.sound |
| `Fed.TrustMarks.C53_file_partial` | propext, Quot.sound |
| `Fed.TrustMarks.C53_requests_partial` | propext, Quot.sound |
| `Fed.TrustMarks.C53_memory_partial` | propext, Quot.sound |
| `Fed.TrustMarks.C53_unknown_id_violation` | propext |
| `Fed.TrustMarks.C53_expired_violation` | propext, Quot.sound |
| `Fed.Server.C54_partial` | propext, Classical.choice, Quot.sound |
| `Fed.Server.C54_unknown` | propext, Classical.choice, Quot.sound |
| `Fed.Server.C54_own` | propext, Classical.choice, Quot.sound |
| `Fed.Server.C54_violation` | propext, Classical.choice, Quot.sound |
| `Fed.Server.C54_violation_subject` | propext, Classical.choice, Quot.sound |
| `Fed.Server.C55_partial` | propext, Classical.choice, Quot.sound |
| `Fed.Server.C55_violation` | propext, Classical.choice, Quot.sound |
| `Fed.Server.C56_partial` | propext, Classical.choice, Quot.sound |
| `Fed.Server.C56_registry` | propext, Classical.choice, Quot.sound |
| `Fed.Server.C56_violation` | propext, Classical.choice, Quot.sound |
| `Fed.Server.C57_all` | propext, Classical.choice, Quot.sound |
| `Fed.Server.C57_union_partial` | propext, Classical.choice, Quot.sound |
| `Fed.Server.C57_registered` | propext, Classical.choice, Quot.sound |
| `Fed.Server.C57_type_partial` | propext, Classical.choice, Quot.sound |
| `Fed.Server.C57_intermediate_partial` | propext, Classical.choice, Quot.sound |
| `Fed.Server.C57_marked_partial` | propext, Classical.choice, Quot.sound |
| `Fed.Server.C57_mark_id_partial` | propext, Classical.choice, Quot.sound |
| `Fed.Server.C57_violation` | propext, Classical.choice, Quot.sound |
| `Fed.Server.C57_violation_unrelated` | propext, Classical.choice, Quot.sound |
| `Fed.Server.C58_answer` | propext, Classical.choice, Quot.sound |
| `Fed.Server.C58_no_chain` | propext, Classical.choice, Quot.sound |
| `Fed.Server.C58_no_type` | propext, Classical.choice, Quot.sound |
| `Fed.Server.C59_payload` | propext, Classical.choice, Quot.sound |
| `Fed.Message.C60_unknown_refused` | propext, Quot.sound |
| `Fed.Message.C60_known_not_refused_partial` | propext, Classical.choice, Quot.sound |
| `Fed.Message.C60_harmless_violation` | propext |
| `Fed.Registration.C61_exact_partial` | propext, Classical.choice, Quot.sound |
| `Fed.Registration.C61_accepted_partial` | propext, Classical.choice, Quot.sound |
| `Fed.Registration.C61_fragment_violation` | propext, Classical.choice, Quot.sound |
| `Fed.Registration.C61_localhost_fragment_violation` | propext, Classical.choice, Quot.sound |
| `Fed.Registration.C62_untouched_partial` | propext, Classical.choice, Quot.sound |
| `Fed.Registration.C62_supported_partial` | propext, Classical.choice, Quot.sound |
| `Fed.Registration.C62_refused` | propext, Classical.choice, Quot.sound |
| `Fed.Registration.C62_false_dropped_violation` | propext, Classical.choice, Quot.sound |
| `Fed.Registration.C62_substring_violation` | propext, Classical.choice, Quot.sound |
| `Fed.Registration.C63_skeleton_partial` | propext, Classical.choice, Quot.sound |
| `Fed.Registration.C63_fresh_partial` | propext, Classical.choice, Quot.sound |
| `Fed.Registration.C63_early_partial` | propext, Classical.choice, Quot.sound |
| `Fed.Registration.C63_half_made_violation` | propext, Classical.choice, Quot.sound |
| `Fed.Registration.C63_wiped_violation` | propext, Classical.choice, Quot.sound |
| `Fed.Registration.C64_unknown_partial` | propext, Classical.choice, Quot.sound |
| `Fed.Registration.C64_known_partial` | propext, Classical.choice, Quot.sound |
| `Fed.Registration.C64_key_lookup_violation` | propext, Classical.choice, Quot.sound |
| `Fed.Registration.C64_again_violation` | propext, Classical.choice, Quot.sound |
| `Fed.Registration.C64_known_afterwards` | propext, Classical.choice, Quot.sound |
| `Fed.Registration.C65_registered_partial` | propext, Classical.choice, Quot.sound |
| `Fed.Registration.C65_asked_partial` | propext, Classical.choice, Quot.sound |
| `Fed.Registration.C65_foreign_chain_violation` | propext, Classical.choice, Quot.sound |
| `Fed.Registration.C65_role_partial` | propext, Classical.choice, Quot.sound |
| `Fed.Registration.C66_oauth2_partial` | propext, Classical.choice, Quot.sound |
| `Fed.Registration.C66_oidc_partial` | propext, Classical.choice, Quot.sound |
| `Fed.Registration.C66_unpoliced_violation` | propext, Classical.choice, Quot.sound |
| `Fed.Chains.C67_none_missing_partial` | propext, Classical.choice, Quot.sound |
| `Fed.Chains.C67_one_spoils_all_partial` | propext, Classical.choice, Quot.sound |
| `Fed.Chains.C67_policy_violation` | propext, Classical.choice, Quot.sound |
| `Fed.Chains.C67_signature_violation` | propext, Classical.choice, Quot.sound |
| `Fed.Constraints.C68_host_partial` | propext, Classical.choice, Quot.sound |
| `Fed.Constraints.C68_host_violation` | propext, Classical.choice, Quot.sound |
| `Fed.Constraints.C68_exclusion_violation` | propext, Classical.choice, Quot.sound |
| `Fed.Constraints.C69_verdict_partial` | propext, Classical.choice, Quot.sound |
| `Fed.Constraints.C69_verdict_violation` | propext, Classical.choice, Quot.sound |
| `Fed.Collect.C70_passing_partial` | propext, Classical.choice, Quot.sound |
| `Fed.Collect.C70_static_federation_partial` | propext, Classical.choice, Quot.sound |
| `Fed.Collect.C70_static_federation_published_partial` | propext, Classical.choice, Quot.sound |
| `Fed.Collect.C70_expired_configuration_violation` | propext, Quot.sound |
| `Fed.Collect.C71_all_or_nothing_partial` | propext, Classical.choice, Quot.sound |
| `Fed.Collect.C71_unreachable_violation` | propext, Quot.sound |
| `Fed.Collect.C72_start_partial` | propext, Quot.sound |
| `Fed.Collect.C72_cached_violation` | propext, Quot.sound |
| `Fed.Collect.C72_fetched_violation` | propext, Quot.sound |
| `Fed.Verify.C73_acceptance_is_stable` | propext, Classical.choice, Quot.sound |
| `Fed.Verify.C73_attempts_do_not_harm` | propext, Classical.choice, Quot.sound |
| `Fed.Verify.C74_fresh_issuer_partial` | propext, Classical.choice, Quot.sound |
| `Fed.Verify.C74_withdrawn_key_violation` | propext, Classical.choice, Quot.sound |
| `Fed.Verify.C75_well_signed_accepted` | propext, Classical.choice, Quot.sound |
| `Fed.Verify.C75_nothing_less` | propext, Classical.choice, Quot.sound |
| `Fed.Chains.C76_provenance` | propext, Classical.choice, Quot.sound |
| `Fed.Chains.C77_unknown_entity_partial` | propext, Classical.choice, Quot.sound |
| `Fed.Chains.C77_self_anchored_violation` | propext, Classical.choice, Quot.sound |
| `Fed.Chains.C77_first_contact_violation` | propext, Classical.choice, Quot.sound |
| `Fed.Chains.C78_honest_partial` | propext, Classical.choice, Quot.sound |
| `Fed.Chains.C78_mirror_violation` | propext, Classical.choice, Quot.sound |
| `Fed.Chains.C79_fixed_value_arrives` | propext, Classical.choice, Quot.sound |
| `Fed.TrustMarks.C80_list_partial` | propext, Quot.sound |
| `Fed.TrustMarks.C80_expired_violation` | propext, Quot.sound |
| `Fed.TrustMarks.C81_signed_subject_partial` | propext, Classical.choice, Quot.sound |
| `Fed.TrustMarks.C81_message_partial` | propext, Classical.choice, Quot.sound |
| `Fed.TrustMarks.C81_other_subject_violation` | propext, Classical.choice, Quot.sound |
| `Fed.TrustMarks.C82_returned_partial` | propext, Classical.choice, Quot.sound |
| `Fed.TrustMarks.C82_unchecked_partial` | propext, Classical.choice, Quot.sound |
| `Fed.TrustMarks.C82_check_violation` | propext, Classical.choice, Quot.sound |
| `Fed.TrustMarks.C83_self_signed_partial` | propext, Classical.choice, Quot.sound |
| `Fed.TrustMarks.C83_forged_violation` | propext, Classical.choice, Quot.sound |
| `Fed.Server.C84_policies` | propext, Classical.choice, Quot.sound |
| `Fed.Server.C85_partial` | propext, Classical.choice, Quot.sound |
| `Fed.Server.C85_violation` | propext, Classical.choice, Quot.sound |
| `Fed.Server.C86_configuration` | propext, Classical.choice, Quot.sound |
| `Fed.Server.C87_partial` | propext, Classical.choice, Quot.sound |
| `Fed.Server.C87_always_fails` | propext, Classical.choice, Quot.sound |
| `Fed.Server.C87_violation` | propext, Classical.choice, Quot.sound |
| `Fed.Server.C88_partial` | propext, Classical.choice, Quot.sound |
| `Fed.Server.C88_violation` | propext, Classical.choice, Quot.sound |
| `Fed.Server.C89_vouched_partial` | propext, Classical.choice, Quot.sound |
| `Fed.Server.C89_one_chain_partial` | propext, Classical.choice, Quot.sound |
| `Fed.Server.C89_violation` | propext, Classical.choice, Quot.sound |
| `Fed.Server.C90_orderly_partial` | propext, Classical.choice, Quot.sound |
| `Fed.Server.C90_violation` | propext, Classical.choice, Quot.sound |
| `Fed.Server.C90_with_anchor_partial` | propext, Classical.choice, Quot.sound |
| `Fed.Server.C91_orderly_partial` | propext, Classical.choice, Quot.sound |
| `Fed.Server.C91_violation` | propext, Classical.choice, Quot.sound |
| `Fed.Server.C91_federation_partial` | propext, Classical.choice, Quot.sound |
| `Fed.Message.C92_disregarded_partial` | propext, Classical.choice, Quot.sound |
| `Fed.Message.C92_accepted_violation` | propext, Classical.choice, Quot.sound |
| `Fed.Registration.C93_made_up_partial` | propext, Classical.choice, Quot.sound |
| `Fed.Registration.C93_own_secret_violation` | propext, Classical.choice, Quot.sound |
| `Fed.Registration.C94_kept` | propext, Classical.choice, Quot.sound |
| `Fed.Registration.C94_addresses` | propext, Classical.choice, Quot.sound |
| `Fed.Registration.C95_still_unknown_partial` | propext, Classical.choice, Quot.sound |
| `Fed.Registration.C95_second_time_violation` | propext, Classical.choice, Quot.sound |
| `Fed.Registration.C96_oauth2_partial` | propext, Classical.choice, Quot.sound |
| `Fed.Registration.C96_removed_violation` | propext, Classical.choice, Quot.sound |
| `Fed.Registration.C97_oauth2_partial` | propext, Classical.choice, Quot.sound |
| `Fed.Registration.C97_anyone_violation` | propext, Classical.choice, Quot.sound |
| `Fed.Registration.C97_member_violation` | propext, Classical.choice, Quot.sound |
| `Fed.Registration.C98_response` | propext, Classical.choice, Quot.sound |
| `Fed.Registration.C98_response_oidc` | propext, Classical.choice, Quot.sound |
| `Fed.Discover.C99_exactly` | propext, Quot.sound |
