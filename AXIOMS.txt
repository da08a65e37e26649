'DS.C01_action_classification' depends on axioms: [propext, Classical.choice, Quot.sound]
'DS.C02_has_diffs' depends on axioms: [propext, Classical.choice, Quot.sound]
'DS.C02_element_has_diffs' depends on axioms: [propext, Quot.sound]
'DS.C03_attrs_diffs_exact' depends on axioms: [propext, Quot.sound]
'DS.C04_update_sufficient_minimal' depends on axioms: [propext, Classical.choice, Quot.sound]
'DS.C05_summary_totals' depends on axioms: [propext, Classical.choice, Quot.sound]
'DS.C06_skip_count' depends on axioms: [propext, Classical.choice, Quot.sound]
'DS.Ex.C06_hidden_pair_counts_once' depends on axioms: [propext, Classical.choice, Quot.sound]
'DS.C06_skip_exact' depends on axioms: [propext, Classical.choice, Quot.sound]
'DS.C06_skip_determined' depends on axioms: [propext, Classical.choice, Quot.sound]
'DS.C06_nothing_skipped' depends on axioms: [propext, Classical.choice, Quot.sound]
'DS.C07_order_methods_only_reorder' depends on axioms: [propext, Classical.choice, Quot.sound]
'DS.C08_add' depends on axioms: [propext, Classical.choice, Quot.sound]
'DS.C08_unique_names' depends on axioms: [propext, Classical.choice, Quot.sound]
'DS.C09_element_order' depends on axioms: [propext, Classical.choice, Quot.sound]
'DS.C09_sorting_deterministic' depends on axioms: [propext, Classical.choice, Quot.sound]
'DS.Ex.C09_not_total' depends on axioms: [propext, Classical.choice, Quot.sound]
'DS.C09_equality' depends on axioms: [propext, Classical.choice, Quot.sound]
'DS.C09_operators' depends on axioms: [propext, Classical.choice, Quot.sound]
'DS.Ex.C09_both_greater' depends on axioms: [propext, Classical.choice, Quot.sound]
'DS.C10_diff_describes_contents' depends on axioms: [propext, Classical.choice, Quot.sound]
'DS.C10_top_exact' depends on axioms: [propext, Classical.choice, Quot.sound]
'DS.C10_all_depths' depends on axioms: [propext, Classical.choice, Quot.sound]
'DS.C11_diff_changes_nothing' depends on axioms: [propext, Classical.choice, Quot.sound]
'DS.C12_no_diffs_iff_agree' depends on axioms: [propext, Classical.choice, Quot.sound]
'DS.C12_no_diffs_same_ids' depends on axioms: [propext, Classical.choice, Quot.sound]
'DS.C12_self_diff' depends on axioms: [propext, Classical.choice, Quot.sound]
'DS.C13_returns_both_ways' depends on axioms: [propext, Classical.choice, Quot.sound]
'DS.C13_mirrored' depends on axioms: [propext, Classical.choice, Quot.sound]
'DS.C13_summary_mirrored' depends on axioms: [propext, Classical.choice, Quot.sound]
'DS.C14_no_unmatched' depends on axioms: [propext, Classical.choice, Quot.sound]
'DS.C14_flags_prune' depends on axioms: [propext, Classical.choice, Quot.sound]
'DS.C15_model_flags' depends on axioms: [propext, Classical.choice, Quot.sound]
'DS.C15_no_element_at_top' depends on axioms: [propext, Classical.choice, Quot.sound]
'DS.C15_no_element_below' depends on axioms: [propext, Classical.choice, Quot.sound]
'DS.C16_returned_means_resolved' depends on axioms: [propext, Classical.choice, Quot.sound]
'DS.C16_dangling_raises' depends on axioms: [propext, Classical.choice, Quot.sound]
'DS.C17_only_like_objects' depends on axioms: [propext, Classical.choice, Quot.sound]
'DS.C17_unlike_raises' depends on axioms: [propext, Classical.choice, Quot.sound]
'DS.C18_diff_progress' depends on axioms: [propext, Classical.choice, Quot.sound]
'DS.C18_current_within_total' depends on axioms: [propext, Classical.choice, Quot.sound]
'DS.C19_bounded_depth' depends on axioms: [propext, Classical.choice, Quot.sound]
'DS.C19_acyclic_terminates' depends on axioms: [propext, Classical.choice, Quot.sound]
'DS.C19_cycle_never_returns' depends on axioms: [propext, Classical.choice, Quot.sound]
'DS.C20_top_types' depends on axioms: [propext, Classical.choice, Quot.sound]
'DS.C20_sync_types' depends on axioms: [propext, Classical.choice, Quot.sound]
'DS.C21_sync_converges' depends on axioms: [propext, Classical.choice, Quot.sound]
'DS.C21_sync_to_converges' depends on axioms: [propext, Classical.choice, Quot.sound]
'DS.C21_after_any_history' depends on axioms: [propext, Classical.choice, Quot.sound]
'DS.C22_second_sync_idle' depends on axioms: [propext, Classical.choice, Quot.sound]
'DS.C23_only_diffed_objects_change' depends on axioms: [propext, Classical.choice, Quot.sound]
'DS.C23_other_adapters_untouched' depends on axioms: [propext, Classical.choice, Quot.sound]
'DS.C24_skip_unmatched' depends on axioms: [propext, Classical.choice, Quot.sound]
'DS.C25_create_arguments' depends on axioms: [propext, Classical.choice, Quot.sound]
'DS.C25_update_arguments' depends on axioms: [propext, Classical.choice, Quot.sound]
'DS.C25_delete_target' depends on axioms: [propext, Classical.choice, Quot.sound]
'DS.C26_call_order' depends on axioms: [propext, Classical.choice, Quot.sound]
'DS.C26_order_unique' depends on axioms: [propext]
'DS.C27_one_call_per_element' depends on axioms: [propext, Classical.choice, Quot.sound]
'DS.C27_number_of_calls' depends on axioms: [propext, Classical.choice, Quot.sound]
'DS.C28_no_calls_below' depends on axioms: [propext, Classical.choice, Quot.sound]
'DS.C28_only_success_changes_contents' depends on axioms: [propext, Classical.choice, Quot.sound]
'DS.C28_failed_create_adds_nothing' depends on axioms: [propext, Classical.choice, Quot.sound]
'DS.C28_failed_delete_removes_nothing' depends on axioms: [propext, Classical.choice, Quot.sound]
'DS.C29_first_failure_aborts' depends on axioms: [propext, Classical.choice, Quot.sound]
'DS.C29_calls_are_a_prefix' depends on axioms: [propext, Classical.choice, Quot.sound]
'DS.C30_no_crud_exception' depends on axioms: [propext, Classical.choice, Quot.sound]
'DS.C30_everything_attempted' depends on axioms: [propext, Classical.choice, Quot.sound]
'DS.C31_failures_do_not_matter' depends on axioms: [propext, Classical.choice, Quot.sound]
'DS.C32_sync_complete' depends on axioms: [propext, Classical.choice, Quot.sound]
'DS.C32_nothing_to_do' depends on axioms: [propext, Classical.choice, Quot.sound]
'DS.C33_progress' depends on axioms: [propext, Classical.choice, Quot.sound]
'DS.C34_stale_refused' depends on axioms: [propext, Classical.choice, Quot.sound]
'DS.C34_stale_raises' depends on axioms: [propext, Classical.choice, Quot.sound]
'DS.C34_crud_error_source' depends on axioms: [propext, Classical.choice, Quot.sound]
'DS.C35_not_recomputed' depends on axioms: [propext, Classical.choice, Quot.sound]
'DS.C35_not_recomputed_open' depends on axioms: [propext, Classical.choice, Quot.sound]
'DS.Ex.C35_mixed_deletion' depends on axioms: [propext, Classical.choice, Quot.sound]
'DS.C35_class_mismatch' depends on axioms: [propext, Classical.choice, Quot.sound]
'DS.C35_supplied_diff_applied_partial' depends on axioms: [propext, Classical.choice, Quot.sound]
'DS.Ex.C35_empty_diff_ignored' depends on axioms: [propext, Classical.choice, Quot.sound]
'DS.C36_local_store_is_map' depends on axioms: [propext, Classical.choice, Quot.sound]
'DS.C36_get_by_identifiers' depends on axioms: [propext, Quot.sound]
'DS.C37_count_model_local' depends on axioms: [propext, Classical.choice, Quot.sound]
'DS.C37_count_model_redis' depends on axioms: [propext, Classical.choice, Quot.sound]
'DS.C37_len_is_count' depends on axioms: [propext, Classical.choice, Quot.sound]
'DS.C37_count_model_local_partial' depends on axioms: [propext, Classical.choice, Quot.sound]
'DS.C37_count_model_redis_partial' depends on axioms: [propext, Classical.choice, Quot.sound]
'DS.C37_count_is_sum_local' depends on axioms: [propext, Classical.choice, Quot.sound]
'DS.C37_count_is_sum_redis' depends on axioms: [propext, Classical.choice, Quot.sound]
'DS.Ex.C37_empty_name_counts_all' depends on axioms: [propext, Classical.choice, Quot.sound]
'DS.Ex.C37_redis_count_lowercases' depends on axioms: [propext, Classical.choice, Quot.sound]
'DS.C38_get_by_uids' depends on axioms: [propext, Classical.choice, Quot.sound]
'DS.C39_redis_get_or_instantiate' depends on axioms: [propext, Classical.choice, Quot.sound]
'DS.C39_redis_get_or_add' depends on axioms: [propext, Classical.choice, Quot.sound]
'DS.C39_redis_update_or_instantiate_partial' depends on axioms: [propext, Classical.choice, Quot.sound]
'DS.C39_redis_update_or_add_partial' depends on axioms: [propext, Classical.choice, Quot.sound]
'DS.Ex.C39_parsed_identifier' depends on axioms: [propext, Classical.choice, Quot.sound]
'DS.C39_get_or_instantiate' depends on axioms: [propext, Classical.choice, Quot.sound]
'DS.C39_get_or_add' depends on axioms: [propext, Classical.choice, Quot.sound]
'DS.C39_update_or_instantiate_partial' depends on axioms: [propext, Classical.choice, Quot.sound]
'DS.C39_update_or_add_partial' depends on axioms: [propext, Classical.choice, Quot.sound]
'DS.Ex.C39_redis_update_lost' depends on axioms: [propext, Classical.choice, Quot.sound]
'DS.C39_unknown_attribute' depends on axioms: [propext, Classical.choice, Quot.sound]
'DS.C40_remove_children_local' depends on axioms: [propext, Classical.choice, Quot.sound]
'DS.C40_remove_children_redis' depends on axioms: [propext, Classical.choice, Quot.sound]
'DS.C40_remove_only' depends on axioms: [propext, Classical.choice, Quot.sound]
'DS.C41_redis_store_is_map' depends on axioms: [propext, Classical.choice, Quot.sound]
'DS.C41_isolated' depends on axioms: [propext, Classical.choice, Quot.sound]
'DS.Ex.C41_pattern_store_id' depends on axioms: [propext, Classical.choice, Quot.sound]
'DS.C41_add_used_key' depends on axioms: [propext, Classical.choice, Quot.sound]
'DS.Ex.C42_redis_changes_lost' depends on axioms: [propext, Classical.choice, Quot.sound]
'DS.C42_redis_adds_and_removes_partial' depends on axioms: [propext, Classical.choice, Quot.sound]
'DS.C42_updates_not_persisted' depends on axioms: [propext, Classical.choice, Quot.sound]
'DS.C42_redis_contents_partial' depends on axioms: [propext, Classical.choice, Quot.sound]
'DS.Ex.C42_second_sync_raises' depends on axioms: [propext, Classical.choice, Quot.sound]
'DS.C43_unique_ids_partial' depends on axioms: [propext, Classical.choice, Quot.sound]
'DS.C43_get_by_dict_or_uid' depends on axioms: [propext, Quot.sound]
'DS.Ex.C43_not_injective' depends on axioms: [propext, Classical.choice, Quot.sound]
'DS.C44_add_child' depends on axioms: [propext, Quot.sound]
'DS.C44_no_list' depends on axioms: [propext]
'DS.C44_remove_child' depends on axioms: [propext, Quot.sound]
'DS.C44_remove_undoes_add' depends on axioms: [propext, Classical.choice, Quot.sound]
'DS.C44_no_duplicates' depends on axioms: [propext, Quot.sound]
'DS.C45_class_validation' depends on axioms: [propext, Quot.sound]
'DS.C45_ids_attrs_disjoint' depends on axioms: [propext, Quot.sound]
'DS.C46_dict_returns_iff' depends on axioms: [propext, Classical.choice, Quot.sound]
'DS.C46_redis_colon_key_error' depends on axioms: [propext, Classical.choice, Quot.sound]
'DS.C46_round_trip' depends on axioms: [propext, Classical.choice, Quot.sound]
'DS.C46_load_into_redis' depends on axioms: [propext, Classical.choice, Quot.sound]
'DS.C47_get_path' depends on axioms: [propext, Quot.sound]
'DS.C47_set_key' depends on axioms: [propext, Quot.sound]
'DS.C47_tree_traversal' depends on axioms: [propext, Quot.sound]
'DS.C48_set_clear' depends on axioms: [propext, Quot.sound]
'DS.C48_named_flags' depends on axioms: [propext, Classical.choice, Quot.sound]
'DS.C49_model_names_local' depends on axioms: [propext, Classical.choice, Quot.sound]
'DS.C49_model_names_redis' depends on axioms: [propext, Classical.choice, Quot.sound]
'DS.C49_model_names_local_partial' depends on axioms: [propext, Classical.choice, Quot.sound]
'DS.Ex.C49_phantom_name' depends on axioms: [propext, Classical.choice, Quot.sound]
'DS.C50_natural_deletion_order' depends on axioms: [propext, Classical.choice, Quot.sound]
'DS.C51_no_calls_for_descendants' depends on axioms: [propext, Classical.choice, Quot.sound]
'DS.C51_removes_exactly' depends on axioms: [propext, Classical.choice, Quot.sound]
'DS.C52_protected_partial' depends on axioms: [propext, Classical.choice, Quot.sound]
'DS.Ex.C52_removed_along' depends on axioms: [propext, Classical.choice, Quot.sound]
'DS.Ex.C53_natural_deletion_misreports' depends on axioms: [propext, Classical.choice, Quot.sound]
'DS.C53_call_is_recorded' depends on axioms: [propext, Classical.choice, Quot.sound]
'DS.C53_record_has_call' depends on axioms: [propext, Classical.choice, Quot.sound]
'DS.C53_record_names' depends on axioms: [propext, Classical.choice, Quot.sound]
'DS.C53_call_is_recorded_partial' depends on axioms: [propext, Classical.choice, Quot.sound]
'DS.C53_record_has_call_partial' depends on axioms: [propext, Classical.choice, Quot.sound]
'DS.C54_dict_faithful' depends on axioms: [propext, Classical.choice, Quot.sound]
'DS.C55_adapter_validation' depends on axioms: [propext, Quot.sound]
'DS.C55_adapter_refused' depends on axioms: [propext, Classical.choice, Quot.sound]
'DS.C56_tree_string_lines' depends on axioms: [propext, Quot.sound]
'DS.C56_tree_string_text' depends on axioms: [propext, Quot.sound]
'DS.C56_tree_string_keys' depends on axioms: [propext, Quot.sound]
'DS.C57_stored_objects_well_formed' depends on axioms: [propext, Classical.choice, Quot.sound]
'DS.C57_get_all_agrees_with_get' depends on axioms: [propext, Classical.choice, Quot.sound]
'DS.C57_identities_last' depends on axioms: [propext, Classical.choice, Quot.sound]
'DS.C57_fit_for_diffs' depends on axioms: [propext, Classical.choice, Quot.sound]
'DS.C57_fit_for_syncs' depends on axioms: [propext, Classical.choice, Quot.sound]
'DS.C57_fit_for_redis' depends on axioms: [propext, Classical.choice, Quot.sound]
'DS.C57_fit_for_convergence' depends on axioms: [propext, Classical.choice, Quot.sound]
'DS.C58_no_diffs' depends on axioms: [propext, Classical.choice, Quot.sound]
'DS.C58_every_difference_shown' depends on axioms: [propext, Classical.choice, Quot.sound]
'DS.C58_element' depends on axioms: [propext, Classical.choice, Quot.sound]
'DS.C58_only_differences_shown' depends on axioms: [propext, Quot.sound]
'DS.C59_str_reads_only' depends on axioms: [propext, Classical.choice, Quot.sound]
'DS.C59_str_shows_everything' depends on axioms: [propext, Classical.choice, Quot.sound]
'DS.C59_str_fails_only_on_depth' depends on axioms: [propext, Classical.choice, Quot.sound]
'DS.C59_same_contents_same_text' depends on axioms: [propext, Classical.choice, Quot.sound]
'DS.Ex.C59_shared_object_shows_other_adapter' depends on axioms: [propext, Classical.choice, Quot.sound]
'DS.C60_by_uid' depends on axioms: [propext, Classical.choice, Quot.sound]
'DS.C60_by_identifiers' depends on axioms: [propext, Quot.sound]
'DS.C61_successful_calls_take_effect' depends on axioms: [propext, Classical.choice, Quot.sound]
'DS.C61_passed_on_updates_take_effect' depends on axioms: [propext, Classical.choice, Quot.sound]
'DS.C61_all_in_effect' depends on axioms: [propext, Classical.choice, Quot.sound]
'DS.C62_stored_objects_refer_back' depends on axioms: [propext, Classical.choice, Quot.sound]
'DS.C62_got_objects_refer_back' depends on axioms: [propext, Classical.choice, Quot.sound]
'DS.C62_got_by_uids_refer_back' depends on axioms: [propext, Classical.choice, Quot.sound]
'DS.C62_all_objects_refer_back' depends on axioms: [propext, Classical.choice, Quot.sound]
'DS.C62_fit_for_str' depends on axioms: [propext, Classical.choice, Quot.sound]
'DS.C62_removed_objects' depends on axioms: [propext, Classical.choice, Quot.sound]
'DS.Ex.C62_last_removed_object_stays_attached' depends on axioms: [propext, Classical.choice, Quot.sound]
'DS.Ex.C62_removed_elsewhere' depends on axioms: [propext, Classical.choice, Quot.sound]
'DS.Ex.C62_update_does_not_attach' depends on axioms: [propext, Classical.choice, Quot.sound]
'DS.C63_count' depends on axioms: [propext, Classical.choice, Quot.sound]
'DS.C63_get_all' depends on axioms: [propext, Classical.choice, Quot.sound]
'DS.C63_sees_its_objects' depends on axioms: [propext, Classical.choice, Quot.sound]
'DS.C63_names' depends on axioms: [propext, Classical.choice, Quot.sound]
'DS.Ex.C63_wildcards_see_others' depends on axioms: [propext, Classical.choice, Quot.sound]
'DS.Ex.C63_brackets_see_nothing' depends on axioms: [propext, Classical.choice, Quot.sound]
'DS.C64_methods_stay_within' depends on axioms: [propext, Classical.choice, Quot.sound]
'DS.C64_isolated' depends on axioms: [propext, Classical.choice, Quot.sound]
'DS.C64_stores_apart' depends on axioms: [propext, Classical.choice, Quot.sound]
'DS.C64_alone_add' depends on axioms: [propext, Classical.choice, Quot.sound]
'DS.C64_alone_update' depends on axioms: [propext, Classical.choice, Quot.sound]
'DS.C64_alone_get' depends on axioms: [propext, Classical.choice, Quot.sound]
'DS.C64_alone_get_all' depends on axioms: [propext, Classical.choice, Quot.sound]
'DS.C64_alone_get_by_uids' depends on axioms: [propext, Classical.choice, Quot.sound]
'DS.C64_alone_count' depends on axioms: [propext, Classical.choice, Quot.sound]
'DS.C64_alone_model_names' depends on axioms: [propext, Classical.choice, Quot.sound]
'DS.C64_alone_remove' depends on axioms: [propext, Classical.choice, Quot.sound]
'DS.C65_get' depends on axioms: [propext, Classical.choice, Quot.sound]
'DS.C65_update' depends on axioms: [propext, Classical.choice, Quot.sound]
'DS.C65_add' depends on axioms: [propext, Classical.choice, Quot.sound]
'DS.C65_remove_item' depends on axioms: [propext, Classical.choice, Quot.sound]
'DS.C65_get_by_uids' depends on axioms: [propext, Classical.choice, Quot.sound]
'DS.C65_get_all' depends on axioms: [propext, Classical.choice, Quot.sound]
'DS.C65_keys_right' depends on axioms: [propext, Classical.choice, Quot.sound]
'DS.C65_got_what_asked' depends on axioms: [propext, Classical.choice, Quot.sound]
'DS.C65_methods_proper' depends on axioms: [propext, Classical.choice, Quot.sound]
'DS.Ex.C65_both_add' depends on axioms: [propext, Classical.choice, Quot.sound]
'DS.Ex.C65_both_remove' depends on axioms: [propext, Classical.choice, Quot.sound]
'DS.Ex.C65_get_all_may_raise' depends on axioms: [propext, Classical.choice, Quot.sound]
'DS.C66_calls' depends on axioms: [propext, Classical.choice, Quot.sound]
'DS.C66_progress' depends on axioms: [propext, Classical.choice, Quot.sound]
'DS.C66_exception' depends on axioms: [propext, Classical.choice, Quot.sound]
'DS.C66_callback' depends on axioms: [propext, Classical.choice, Quot.sound]
'DS.C66_complete' depends on axioms: [propext, Classical.choice, Quot.sound]
'DS.C66_returns' depends on axioms: [propext, Classical.choice, Quot.sound]
'DS.C66_same_sync' depends on axioms: [propext, Classical.choice, Quot.sound]
'DS.C67_reads' depends on axioms: [propext, Classical.choice, Quot.sound]
'DS.C67_writes' depends on axioms: [propext, Classical.choice, Quot.sound]
'DS.C67_remove' depends on axioms: [propext, Classical.choice, Quot.sound]
'DS.C67_load_prefix' depends on axioms: [propext, Classical.choice, Quot.sound]
'DS.C67_load_again' depends on axioms: [propext, Classical.choice, Quot.sound]
'DS.C67_updates_prefix' depends on axioms: [propext, Classical.choice, Quot.sound]
'DS.C67_updates_again' depends on axioms: [propext, Classical.choice, Quot.sound]
'DS.Ex.C67_remove_not_resumable' depends on axioms: [propext, Classical.choice, Quot.sound]
'DS.C68_agreement_transitive' depends on axioms: [propext, Quot.sound]
'DS.C68_no_diffs_transitive' depends on axioms: [propext, Classical.choice, Quot.sound]
'DS.C68_syncs_chain' depends on axioms: [propext, Classical.choice, Quot.sound]
'DS.C69_same_diff' depends on axioms: [propext, Classical.choice, Quot.sound]
'DS.C69_same_counts' depends on axioms: [propext, Classical.choice, Quot.sound]
'DS.C69_returns_alike' depends on axioms: [propext, Classical.choice, Quot.sound]
'DS.C69_load' depends on axioms: [propext, Classical.choice, Quot.sound]
'DS.C69_load_order' depends on axioms: [propext, Classical.choice, Quot.sound]
'DS.C70_others_exact' depends on axioms: [propext, Classical.choice, Quot.sound]
'DS.C70_same_outcome_always' depends on axioms: [propext, Classical.choice, Quot.sound]
'DS.C70_outcome' depends on axioms: [propext, Classical.choice, Quot.sound]
'DS.C70_outcome_to' depends on axioms: [propext, Classical.choice, Quot.sound]
'DS.C70_rest_untouched' depends on axioms: [propext, Classical.choice, Quot.sound]
'DS.C70_same_outcome' depends on axioms: [propext, Classical.choice, Quot.sound]
'DS.C71_retries' depends on axioms: [propext, Classical.choice, Quot.sound]
'DS.C71_retries_same' depends on axioms: [propext, Classical.choice, Quot.sound]
'DS.C71_source_arrives' depends on axioms: [propext, Classical.choice, Quot.sound]
'DS.C71_whole' depends on axioms: [propext, Classical.choice, Quot.sound]
'DS.C71_retries_whole' depends on axioms: [propext, Classical.choice, Quot.sound]
'DS.C72_what_remains' depends on axioms: [propext, Classical.choice, Quot.sound]
'DS.C72_second_sync_converges' depends on axioms: [propext, Classical.choice, Quot.sound]
'DS.C72_second_calls' depends on axioms: [propext, Classical.choice, Quot.sound]
'DS.C72_third_sync_idle' depends on axioms: [propext, Classical.choice, Quot.sound]
'DS.Ex.C72_one_sync_is_not_enough' depends on axioms: [propext, Classical.choice, Quot.sound]
'DS.Ex.C72_parsed_identifier' depends on axioms: [propext, Classical.choice, Quot.sound]
'DS.C73_create' depends on axioms: [propext, Classical.choice, Quot.sound]
'DS.C73_update' depends on axioms: [propext, Classical.choice, Quot.sound]
'DS.C73_delete' depends on axioms: [propext, Classical.choice, Quot.sound]
'DS.C73_plain' depends on axioms: [propext, Classical.choice, Quot.sound]
'DS.C74_isolated' depends on axioms: [propext, Classical.choice, Quot.sound]
'DS.C74_same_objects' depends on axioms: [propext, Classical.choice, Quot.sound]
'DS.C74_separate' depends on axioms: [propext, Classical.choice, Quot.sound]
'DS.C74_sync' depends on axioms: [propext, Classical.choice, Quot.sound]
'DS.C74_converges' depends on axioms: [propext, Classical.choice, Quot.sound]
'DS.Ex.C74_shared_object_changes_in_both' depends on axioms: [propext, Classical.choice, Quot.sound]
'DS.C75_status_after_call' depends on axioms: [propext, Classical.choice, Quot.sound]
'DS.C75_status_without_call' depends on axioms: [propext, Classical.choice, Quot.sound]
'DS.C75_status_outside_diff' depends on axioms: [propext, Classical.choice, Quot.sound]
'DS.C76_text' depends on axioms: [propext, Classical.choice, Quot.sound]
'DS.C76_text_tells_names' depends on axioms: [propext, Classical.choice, Quot.sound]
'DS.C76_new_adapter_empty' depends on axioms: [propext, Classical.choice, Quot.sound]
'DS.C76_given_store' depends on axioms: [propext, Classical.choice, Quot.sound]
'DS.C76_redis_connected' depends on axioms: [propext, Classical.choice, Quot.sound]
'DS.C76_redis_available' depends on axioms: [propext, Classical.choice, Quot.sound]
'DS.C76_redis_refused' depends on axioms: [propext, Classical.choice, Quot.sound]
'DS.C76_port_zero' depends on axioms: [propext, Classical.choice, Quot.sound]
'DS.C77_raises_only_user_exceptions' depends on axioms: [propext, Classical.choice, Quot.sound]
'DS.C77_raises_only_user_exceptions_to' depends on axioms: [propext, Classical.choice, Quot.sound]
'DS.C77_returns' depends on axioms: [propext, Classical.choice, Quot.sound]
'DS.C77_nothing_refused' depends on axioms: [propext, Classical.choice, Quot.sound]
'DS.C77_redis_raises_only_user_exceptions' depends on axioms: [propext, Classical.choice, Quot.sound]
'DS.C77_redis_raises_only_user_exceptions_to' depends on axioms: [propext, Classical.choice, Quot.sound]
'DS.C77_redis_returns' depends on axioms: [propext, Classical.choice, Quot.sound]
'DS.C77_redis_nothing_refused' depends on axioms: [propext, Classical.choice, Quot.sound]
'DS.C78_left_to_create' depends on axioms: [propext, Classical.choice, Quot.sound]
'DS.C78_left_to_update' depends on axioms: [propext, Classical.choice, Quot.sound]
'DS.C78_left_to_delete' depends on axioms: [propext, Classical.choice, Quot.sound]
'DS.C78_diff_says_what_to_do' depends on axioms: [propext, Classical.choice, Quot.sound]
'DS.C78_next_diff' depends on axioms: [propext, Classical.choice, Quot.sound]
'DS.C78_left_after_any_tries' depends on axioms: [propext, Classical.choice, Quot.sound]
'DS.C79_merge' depends on axioms: [propext, Classical.choice, Quot.sound]
'DS.C79_calls' depends on axioms: [propext, Classical.choice, Quot.sound]
'DS.C79_in_sync' depends on axioms: [propext, Classical.choice, Quot.sound]
'DS.C80_constructor' depends on axioms: [propext, Classical.choice, Quot.sound]
'DS.C80_load_from_dict' depends on axioms: [propext, Classical.choice, Quot.sound]
'DS.C80_update' depends on axioms: [propext, Quot.sound]
'DS.C80_update_unknown' depends on axioms: [propext, Quot.sound]
'DS.C80_new_status' depends on axioms: [propext, Classical.choice, Quot.sound]
'DS.C80_load_status' depends on axioms: [propext, Classical.choice, Quot.sound]
'DS.C81_any_callback' depends on axioms: [propext, Classical.choice, Quot.sound]
'DS.C81_looking_callback' depends on axioms: [propext, Classical.choice, Quot.sound]
'DS.C81_quiet_callback' depends on axioms: [propext, Classical.choice, Quot.sound]
'DS.C81_sync_given' depends on axioms: [propext, Classical.choice, Quot.sound]
'DS.C81_sync' depends on axioms: [propext, Classical.choice, Quot.sound]
'DS.C81_sync_not_begun' depends on axioms: [propext, Classical.choice, Quot.sound]
'DS.C81_sync_quiet' depends on axioms: [propext, Classical.choice, Quot.sound]
'DS.C82_diff' depends on axioms: [propext, Classical.choice, Quot.sound]
'DS.C82_raises' depends on axioms: [propext, Classical.choice, Quot.sound]
'DS.C82_reads_only' depends on axioms: [propext, Classical.choice, Quot.sound]
'DS.C82_sound' depends on axioms: [propext, Classical.choice, Quot.sound]
'DS.C82_undisturbed' depends on axioms: [propext, Classical.choice, Quot.sound]
'DS.C82_steady' depends on axioms: [propext, Classical.choice, Quot.sound]
'DS.C82_alone' depends on axioms: [propext, Classical.choice, Quot.sound]
'DS.Ex.C82_mixed' depends on axioms: [propext, Classical.choice, Quot.sound]
'DS.Ex.C82_torn' depends on axioms: [propext, Classical.choice, Quot.sound]
'DS.C83_create' depends on axioms: [propext, Classical.choice, Quot.sound]
'DS.C83_update' depends on axioms: [propext, Classical.choice, Quot.sound]
'DS.C83_delete' depends on axioms: [propext, Classical.choice, Quot.sound]
'DS.Ex.C83_mixed' depends on axioms: [propext, Classical.choice, Quot.sound]
'DS.C84_intersection' depends on axioms: [propext, Quot.sound]
'DS.C84_symmetric_difference' depends on axioms: [propext, Classical.choice, Quot.sound]
'DS.C84_symmetric' depends on axioms: [propext, Classical.choice, Quot.sound]
'DS.C85_children' depends on axioms: [propext, Classical.choice, Quot.sound]
'DS.C85_add' depends on axioms: [propext, Classical.choice, Quot.sound]
'DS.C85_distinct' depends on axioms: [propext, Classical.choice, Quot.sound]
'DS.C85_add_attrs' depends on axioms: [propext]
'DS.C85_len_summary' depends on axioms: [propext, Classical.choice, Quot.sound]
'DS.C85_has_diffs' depends on axioms: [propext, Classical.choice, Quot.sound]
'DS.C85_tree_iff' depends on axioms: [propext, Classical.choice, Quot.sound]
'DS.C85_cycle' depends on axioms: [propext, Classical.choice, Quot.sound]
'DS.C85_has_diffs_any' depends on axioms: [propext, Classical.choice, Quot.sound]
'DS.C85_str' depends on axioms: [propext, Classical.choice, Quot.sound]
'DS.C85_new' depends on axioms: [propext, Classical.choice, Quot.sound]
'DS.C85_every_tree' depends on axioms: [propext, Classical.choice, Quot.sound]
'DS.C85_add_tree' depends on axioms: [propext, Classical.choice, Quot.sound]
'DS.C86_alone' depends on axioms: [propext, Classical.choice, Quot.sound]
'DS.C86_killed' depends on axioms: [propext, Classical.choice, Quot.sound]
'DS.C86_adds_and_removes' depends on axioms: [propext, Classical.choice, Quot.sound]
'DS.C86_others' depends on axioms: [propext, Classical.choice, Quot.sound]
'DS.Ex.C86_orphans_stay' depends on axioms: [propext, Classical.choice, Quot.sound]
'DS.C87_isolated' depends on axioms: [propext, Classical.choice, Quot.sound]
'DS.C87_meanwhile' depends on axioms: [propext, Classical.choice, Quot.sound]
'DS.C87_stores_apart' depends on axioms: [propext, Classical.choice, Quot.sound]
'DS.C88_same_store' depends on axioms: [propext, Classical.choice, Quot.sound]
'DS.C88_keys_right' depends on axioms: [propext, Classical.choice, Quot.sound]
'DS.Ex.C88_lost_create' depends on axioms: [propext, Classical.choice, Quot.sound]
'DS.C89_same_store' depends on axioms: [propext, Classical.choice, Quot.sound]
'DS.C89_source_on_server' depends on axioms: [propext, Classical.choice, Quot.sound]
'DS.C89_returns' depends on axioms: [propext, Classical.choice, Quot.sound]
'DS.C89_isolated' depends on axioms: [propext, Classical.choice, Quot.sound]
'DS.C89_given' depends on axioms: [propext, Classical.choice, Quot.sound]
'DS.Ex.C89_interleaved' depends on axioms: [propext, Classical.choice, Quot.sound]
'DS.C90_never_waits' depends on axioms: [propext, Classical.choice, Quot.sound]
'DS.C90_finitely_many' depends on axioms: [propext, Classical.choice, Quot.sound]
'DS.C90_ends' depends on axioms: [propext, Classical.choice, Quot.sound]
'DS.C90_all_end' depends on axioms: [propext, Classical.choice, Quot.sound]
'DS.C90_commands' depends on axioms: [propext, Classical.choice, Quot.sound]
'DS.C91_goes_through' depends on axioms: [propext, Classical.choice, Quot.sound]
'DS.C91_outcome' depends on axioms: [propext, Classical.choice, Quot.sound]
'DS.C91_next_returns' depends on axioms: [propext, Classical.choice, Quot.sound]
'DS.C91_next_plan' depends on axioms: [propext, Classical.choice, Quot.sound]
'DS.C91_converges_iff' depends on axioms: [propext, Classical.choice, Quot.sound]
'DS.C92_validate_accepts' depends on axioms: [propext, Quot.sound]
'DS.C92_validate_raises' depends on axioms: [propext, Quot.sound]
'DS.C92_list_refused' depends on axioms: [propext, Quot.sound]
'DS.C92_list_refused_one' depends on axioms: [propext, Quot.sound]
'DS.C92_list_compared' depends on axioms: [propext, Classical.choice, Quot.sound]
'DS.C92_ex_type' depends on axioms: [propext, Classical.choice, Quot.sound]
'DS.C92_ex_value' depends on axioms: [propext, Classical.choice, Quot.sound]
'DS.C92_ex_paired' depends on axioms: [propext, Classical.choice, Quot.sound]
'DS.C93_diff_in_order' depends on axioms: [propext, Classical.choice, Quot.sound]
'DS.C93_get_children' depends on axioms: [propext, Classical.choice, Quot.sound]
'DS.C94_calls' depends on axioms: [propext, Classical.choice, Quot.sound]
'DS.C94_redis_calls' depends on axioms: [propext, Classical.choice, Quot.sound]
'DS.C94_first_calls' depends on axioms: [propext, Classical.choice, Quot.sound]
'DS.C94_redis_first_calls' depends on axioms: [propext, Classical.choice, Quot.sound]
'DS.C94_one_list' depends on axioms: [propext, Classical.choice, Quot.sound]
'DS.C95_any_order' depends on axioms: [propext, Classical.choice, Quot.sound]
'DS.C95_redis_any_order' depends on axioms: [propext, Classical.choice, Quot.sound]
'DS.C95_run' depends on axioms: [propext, Classical.choice, Quot.sound]
'DS.C95_redis_run' depends on axioms: [propext, Classical.choice, Quot.sound]
'DS.C95_same_or_split' depends on axioms: [propext, Classical.choice, Quot.sound]
'DS.C95_same_calls' depends on axioms: [propext, Classical.choice, Quot.sound]
'DS.C95_redis_same_calls' depends on axioms: [propext, Classical.choice, Quot.sound]
'DS.C96_add_same' depends on axioms: [propext, Classical.choice, Quot.sound]
'DS.C96_add_child_same' depends on axioms: [propext]
'DS.C96_diff_add_same' does not depend on any axioms
'DS.C96_local_partial' depends on axioms: [propext, Classical.choice, Quot.sound]
'DS.C96_redis_partial' depends on axioms: [propext, Classical.choice, Quot.sound]
'DS.C96_diff_partial' depends on axioms: [propext, Classical.choice, Quot.sound]
'DS.C96_add_child' depends on axioms: [propext]
'DS.C97_run' depends on axioms: [propext, Classical.choice, Quot.sound]
'DS.C97_redis_run' depends on axioms: [propext, Classical.choice, Quot.sound]
'DS.C97_any_order' depends on axioms: [propext, Classical.choice, Quot.sound]
'DS.C97_redis_any_order' depends on axioms: [propext, Classical.choice, Quot.sound]
'DS.C97_result' depends on axioms: [propext, Classical.choice, Quot.sound]
'DS.C97_redis_result' depends on axioms: [propext, Classical.choice, Quot.sound]
'DS.C97_outcome' depends on axioms: [propext, Classical.choice, Quot.sound]
'DS.C97_same_calls' depends on axioms: [propext, Classical.choice, Quot.sound]
'DS.C97_empty' depends on axioms: [propext, Classical.choice, Quot.sound]
'DS.C97_at_once' depends on axioms: [propext, Classical.choice, Quot.sound]
'DS.C98_left' depends on axioms: [propext, Classical.choice, Quot.sound]
'DS.C98_left_to' depends on axioms: [propext, Classical.choice, Quot.sound]
'DS.C98_subtree' depends on axioms: [propext, Classical.choice, Quot.sound]
'DS.C98_deletes' depends on axioms: [propext, Classical.choice, Quot.sound]
'DS.C98_determined' depends on axioms: [propext, Classical.choice, Quot.sound]
'DS.C98_same_outcomes' depends on axioms: [propext, Classical.choice, Quot.sound]
'DS.C99_only_when_asked' depends on axioms: [propext, Classical.choice, Quot.sound]
'DS.C99_unchanged_records' depends on axioms: [propext, Classical.choice, Quot.sound]
'DS.C99_every_unchanged' depends on axioms: [propext, Classical.choice, Quot.sound]
'DS.C99_exactly_the_unchanged' depends on axioms: [propext, Classical.choice, Quot.sound]
'DS.C99_once' depends on axioms: [propext, Classical.choice, Quot.sound]
'DS.Ex.C99_hidden_below_failure' depends on axioms: [propext, Classical.choice, Quot.sound]
'DS.C100_warning_has_cause' depends on axioms: [propext, Classical.choice, Quot.sound]
'DS.C100_failure_is_warned' depends on axioms: [propext, Classical.choice, Quot.sound]
'DS.C100_absent_is_warned' depends on axioms: [propext, Classical.choice, Quot.sound]
'DS.C101_removal_report_local' depends on axioms: [propext, Classical.choice, Quot.sound]
'DS.C101_removal_report_redis' depends on axioms: [propext, Classical.choice, Quot.sound]
'DS.C101_how_many' depends on axioms: [propext, Classical.choice, Quot.sound]
'DS.C101_in_all' depends on axioms: [propext, Quot.sound]
'DS.C101_why' depends on axioms: [propext, Classical.choice, Quot.sound]
'DS.C101_in_a_sync' depends on axioms: [propext, Classical.choice, Quot.sound]
