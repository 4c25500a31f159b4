# Axioms of the theorems in MANIFEST.json

Output of `#print axioms`, by `tools/axioms.py`.

| property | theorem | axioms |
|---|---|---|
| C01 | `NTM.C01_igp_paths_exact_perf` | propext, Classical.choice, Quot.sound |
| C02 | `NTM.C02_igp_paths_exact_flex` | propext, Classical.choice, Quot.sound |
| C03 | `NTM.C03_unrouted_iff` | propext, Classical.choice, Quot.sound |
| C04 | `NTM.C04_nothing_over_failed_perf` | propext, Classical.choice, Quot.sound |
| C04 | `NTM.C04_nothing_over_failed_flex_partial` | propext, Classical.choice, Quot.sound |
| C04 | `NTM.C04_demands_avoid_failed` | propext, Classical.choice, Quot.sound |
| C04 | `NTM.C04_flex_false` | propext, Classical.choice, Quot.sound |
| C05 | `NTM.C05_ecmp_conserves_flex` | propext, Classical.choice, Quot.sound |
| C06 | `NTM.C06_ecmp_conserves_perf` | propext, Classical.choice, Quot.sound |
| C06 | `NTM.C06_rounding_differs` | propext, Classical.choice, Quot.sound |
| C07 | `NTM.C07_equal_split_flex` | propext, Classical.choice, Quot.sound |
| C07 | `NTM.C07_equal_split_perf_partial` | propext, Classical.choice, Quot.sound |
| C07 | `NTM.C07_equal_split_perf_false` | propext, Classical.choice, Quot.sound |
| C08 | `NTM.C08_flow_balance` | propext, Classical.choice, Quot.sound |
| C09 | `NTM.C09_splits_cumulative` | propext, Classical.choice, Quot.sound |
| C10 | `NTM.C10_interface_traffic_flex` | propext, Classical.choice, Quot.sound |
| C100 | `NTM.C100_cut_lower_bound` | propext, Classical.choice, Quot.sound |
| C100 | `NTM.C100_overload` | propext, Classical.choice, Quot.sound |
| C101 | `NTM.C101_no_rounding` | propext, Classical.choice, Quot.sound |
| C101 | `NTM.C101_whole_numbers` | propext, Classical.choice, Quot.sound |
| C101 | `NTM.C101_whole_load` | propext, Classical.choice, Quot.sound |
| C101 | `NTM.C101_limit_tie_false` | propext, Classical.choice, Quot.sound |
| C101 | `NTM.C101_split_false` | propext, Classical.choice, Quot.sound |
| C102 | `NTM.C102_interface_status` | propext |
| C102 | `NTM.C102_unrouted_demands` | propext, Classical.choice, Quot.sound |
| C102 | `NTM.C102_node_interfaces` | propext, Quot.sound |
| C102 | `NTM.C102_adjacent` | propext, Classical.choice, Quot.sound |
| C102 | `NTM.C102_circuit_ids` | propext, Classical.choice, Quot.sound |
| C102 | `NTM.C102_circuit_ids_false` | propext, Classical.choice, Quot.sound |
| C102 | `NTM.C102_srlg_check` | propext, Classical.choice, Quot.sound |
| C103 | `NTM.C103_add_demand` | propext, Classical.choice, Quot.sound |
| C103 | `NTM.C103_add_lsp` | propext, Classical.choice, Quot.sound |
| C103 | `NTM.C103_add_node` | propext, Classical.choice, Quot.sound |
| C103 | `NTM.C103_from_list` | propext, Classical.choice, Quot.sound |
| C104 | `NTM.C104_rename` | propext |
| C104 | `NTM.C104_rename_unknown` | propext, Quot.sound |
| C104 | `NTM.C104_rename_lookup_partial` | propext, Quot.sound |
| C104 | `NTM.C104_rename_clash_false` | propext, Quot.sound |
| C105 | `NTM.C105_line_ends` | propext, Classical.choice, Quot.sound |
| C105 | `NTM.C105_round_trip` | propext, Classical.choice, Quot.sound |
| C106 | `NTM.C106_status_decides` | propext, Classical.choice, Quot.sound |
| C106 | `NTM.C106_what_if` | propext, Classical.choice, Quot.sound |
| C107 | `NTM.C107_failures_commute` | propext, Classical.choice, Quot.sound |
| C107 | `NTM.C107_srlg_is_its_members` | propext, Classical.choice, Quot.sound |
| C107 | `NTM.C107_same_simulation` | propext, Classical.choice, Quot.sound |
| C108 | `NTM.C108_full_repair` | propext, Classical.choice, Quot.sound |
| C108 | `NTM.C108_recovers` | propext, Classical.choice, Quot.sound |
| C108 | `NTM.C108_other_order_false` | propext, Classical.choice, Quot.sound |
| C109 | `NTM.C109_names_do_not_matter` | propext, Classical.choice, Quot.sound |
| C11 | `NTM.C11_interface_traffic_perf` | propext, Classical.choice, Quot.sound |
| C110 | `NTM.C110_settings_decide` | propext, Classical.choice, Quot.sound |
| C110 | `NTM.C110_put_back` | propext, Classical.choice, Quot.sound |
| C111 | `NTM.C111_traffic_matrix` | propext, Classical.choice, Quot.sound |
| C111 | `NTM.C111_performance_false` | propext, Classical.choice, Quot.sound |
| C112 | `NTM.C112_accepted_iff` | propext, Classical.choice, Quot.sound |
| C112 | `NTM.C112_order` | propext, Classical.choice, Quot.sound |
| C112 | `NTM.C112_performance_as_flex` | propext, Classical.choice, Quot.sound |
| C112 | `NTM.C112_shortcuts_ignored_false` | propext, Classical.choice, Quot.sound |
| C113 | `NTM.C113_traffic_distance` | propext, Classical.choice, Quot.sound |
| C113 | `NTM.C113_cost_weighted` | propext, Classical.choice, Quot.sound |
| C113 | `NTM.C113_least_cost` | propext, Classical.choice, Quot.sound |
| C114 | `NTM.C114_triangle` | propext, Classical.choice, Quot.sound |
| C114 | `NTM.C114_parts` | propext, Classical.choice, Quot.sound |
| C115 | `NTM.C115_seed_irrelevant` | propext, Classical.choice, Quot.sound |
| C115 | `NTM.C115_no_draw` | propext, Classical.choice, Quot.sound |
| C115 | `NTM.C115_repeatable` | propext, Classical.choice, Quot.sound |
| C115 | `NTM.C115_tie_matters` | propext, Classical.choice, Quot.sound |
| C116 | `NTM.C116_lsp_loop_free` | propext, Classical.choice, Quot.sound |
| C116 | `NTM.C116_demand_loop_free` | propext, Classical.choice, Quot.sound |
| C116 | `NTM.C116_no_transit` | propext, Classical.choice, Quot.sound |
| C116 | `NTM.C116_stub_traffic` | propext, Classical.choice, Quot.sound |
| C116 | `NTM.C116_shortcut_loop` | propext, Classical.choice, Quot.sound |
| C117 | `NTM.C117_bridge_paths` | propext, Classical.choice, Quot.sound |
| C117 | `NTM.C117_bridge_traffic` | propext, Classical.choice, Quot.sound |
| C117 | `NTM.C117_partition` | propext, Classical.choice, Quot.sound |
| C118 | `NTM.C118_local` | propext, Classical.choice, Quot.sound |
| C119 | `NTM.C119_bridge_lsps` | propext, Classical.choice, Quot.sound |
| C119 | `NTM.C119_bridge_reserved` | propext, Classical.choice, Quot.sound |
| C12 | `NTM.C12_same_network_same_results` | propext, Classical.choice, Quot.sound |
| C12 | `NTM.C12_order_irrelevant` | propext, Classical.choice, Quot.sound |
| C13 | `NTM.C13_linear` | propext, Classical.choice, Quot.sound |
| C13 | `NTM.C13_zero_demand` | propext, Classical.choice, Quot.sound |
| C14 | `NTM.C14_classes_agree` | propext, Classical.choice, Quot.sound |
| C14 | `NTM.C14_queries_agree` | propext, Classical.choice, Quot.sound |
| C15 | `NTM.C15_signalled_path_eligible` | propext, Classical.choice, Quot.sound |
| C15 | `NTM.C15_final_paths_eligible_partial` | propext, Classical.choice, Quot.sound |
| C15 | `NTM.C15_runs_along` | propext, Classical.choice, Quot.sound |
| C16 | `NTM.C16_signalled_path_best` | propext, Classical.choice, Quot.sound |
| C16 | `NTM.C16_served_in_order_partial` | propext, Classical.choice, Quot.sound |
| C17 | `NTM.C17_unrouted_iff_no_path` | propext, Classical.choice, Quot.sound |
| C18 | `NTM.C18_setup_bandwidth` | propext, Classical.choice, Quot.sound |
| C19 | `NTM.C19_ledger_balanced` | propext, Classical.choice, Quot.sound |
| C19 | `NTM.C19_tie_breaks_ledger` | propext, Classical.choice, Quot.sound |
| C20 | `NTM.C20_within_limit` | propext, Classical.choice, Quot.sound |
| C21 | `NTM.C21_rides_cheapest_lsps` | propext, Classical.choice, Quot.sound |
| C22 | `NTM.C22_even_split_over_lsps` | propext, Classical.choice, Quot.sound |
| C23 | `NTM.C23_effective_metric` | propext, Classical.choice, Quot.sound |
| C24 | `NTM.C24_assign_partial` | propext |
| C24 | `NTM.C24_bad_value_rejected_partial` | propext |
| C24 | `NTM.C24_assign_false` | none |
| C24 | `NTM.C24_bad_value_false` | none |
| C25 | `NTM.C25_reopt_false` | propext, Classical.choice, Quot.sound |
| C25 | `NTM.C25_reopt_partial` | propext, Classical.choice, Quot.sound |
| C26 | `NTM.C26_configured_false` | propext, Classical.choice, Quot.sound |
| C26 | `NTM.C26_configured_partial` | propext, Classical.choice, Quot.sound |
| C27 | `NTM.C27_traffic_on_lsp` | propext, Classical.choice, Quot.sound |
| C28 | `NTM.C28_circuits_pair` | propext, Classical.choice, Quot.sound |
| C29 | `NTM.C29_remote_involution_partial` | propext, Classical.choice, Quot.sound |
| C29 | `NTM.C29_remote_false` | propext, Classical.choice, Quot.sound |
| C30 | `NTM.C30_parallel_links_rejected` | propext, Classical.choice, Quot.sound |
| C30 | `NTM.C30_hyphen_rejected` | propext, Classical.choice, Quot.sound |
| C31 | `NTM.C31_add_circuit_rejects_partial` | propext, Classical.choice, Quot.sound |
| C31 | `NTM.C31_duplicate_names_false` | propext, Classical.choice, Quot.sound |
| C31 | `NTM.C31_duplicate_names_flex_false` | propext, Classical.choice, Quot.sound |
| C32 | `NTM.C32_unmatched_rejected_partial` | propext, Classical.choice, Quot.sound |
| C32 | `NTM.C32_unmatched_rejected_flex_partial` | propext, Classical.choice, Quot.sound |
| C32 | `NTM.C32_unmatched_false` | propext, Classical.choice, Quot.sound |
| C33 | `NTM.C33_validation_repeatable_partial` | propext, Classical.choice, Quot.sound |
| C33 | `NTM.C33_validation_repeatable_false` | propext, Classical.choice, Quot.sound |
| C34 | `NTM.C34_circuits_consistent` | propext, Classical.choice, Quot.sound |
| C35 | `NTM.C35_unique_node_names` | propext, Classical.choice, Quot.sound |
| C36 | `NTM.C36_fail_interface` | propext, Classical.choice, Quot.sound |
| C36 | `NTM.C36_fail_interface_validated` | propext, Classical.choice, Quot.sound |
| C37 | `NTM.C37_fail_node` | propext, Classical.choice, Quot.sound |
| C38 | `NTM.C38_no_live_interface_on_dead_node_partial` | propext, Classical.choice, Quot.sound |
| C38 | `NTM.C38_no_live_interface_on_dead_node_false` | propext, Classical.choice, Quot.sound |
| C39 | `NTM.C39_ends_fail_together` | propext, Classical.choice, Quot.sound |
| C39 | `NTM.C39_interface_membership_false` | propext, Classical.choice, Quot.sound |
| C40 | `NTM.C40_fail_srlg` | propext, Classical.choice, Quot.sound |
| C41 | `NTM.C41_interface_setter` | propext, Quot.sound |
| C41 | `NTM.C41_node_setter` | propext, Quot.sound |
| C41 | `NTM.C41_unfail_node` | propext, Classical.choice, Quot.sound |
| C41 | `NTM.C41_unfail_interface` | propext, Classical.choice, Quot.sound |
| C41 | `NTM.C41_interface_method` | propext, Quot.sound |
| C42 | `NTM.C42_assigned_false` | propext, Quot.sound |
| C42 | `NTM.C42_members_of_failed_srlg_partial` | propext, Classical.choice, Quot.sound |
| C42 | `NTM.C42_members_of_failed_srlg_false` | propext, Classical.choice, Quot.sound |
| C43 | `NTM.C43_fail_unfail_round_trip` | propext, Classical.choice, Quot.sound |
| C43 | `NTM.C43_with_lsp_false` | propext, Classical.choice, Quot.sound |
| C44 | `NTM.C44_unfail_refused_on_dead_node` | propext, Classical.choice, Quot.sound |
| C45 | `NTM.C45_unfail_srlg` | propext, Classical.choice, Quot.sound |
| C45 | `NTM.C45_other_exceptions` | propext, Classical.choice, Quot.sound |
| C46 | `NTM.C46_srlg_membership_symmetric` | propext, Classical.choice, Quot.sound |
| C47 | `NTM.C47_add_node_partial` | propext, Classical.choice, Quot.sound |
| C47 | `NTM.C47_add_demand_partial` | propext, Classical.choice, Quot.sound |
| C47 | `NTM.C47_add_rsvp_lsp_partial` | propext, Classical.choice, Quot.sound |
| C47 | `NTM.C47_add_srlg_partial` | propext, Quot.sound |
| C47 | `NTM.C47_add_circuit_partial` | propext, Classical.choice, Quot.sound |
| C47 | `NTM.C47_only_validation_partial` | propext, Classical.choice, Quot.sound |
| C47 | `NTM.C47_valid_model_partial` | propext, Classical.choice, Quot.sound |
| C47 | `NTM.C47_rejected_false` | propext, Classical.choice, Quot.sound |
| C48 | `NTM.C48_unique_keys` | propext, Classical.choice, Quot.sound |
| C48 | `NTM.C48_unique_keys_kept` | propext, Classical.choice, Quot.sound |
| C48 | `NTM.C48_from_list_false` | propext, Classical.choice, Quot.sound |
| C49 | `NTM.C49_lookups` | propext, Classical.choice, Quot.sound |
| C50 | `NTM.C50_demand_groups_partial` | propext, Classical.choice, Quot.sound |
| C50 | `NTM.C50_lsp_groups_partial` | propext, Classical.choice, Quot.sound |
| C50 | `NTM.C50_no_hyphen_partial` | propext, Classical.choice, Quot.sound |
| C50 | `NTM.C50_hyphen_false` | propext, Quot.sound |
| C51 | `NTM.C51_after_simulation_partial` | propext, Classical.choice, Quot.sound |
| C51 | `NTM.C51_stale_false` | propext, Classical.choice, Quot.sound |
| C52 | `NTM.C52_diagnostics` | propext, Classical.choice, Quot.sound |
| C52 | `NTM.C52_before_simulation_false` | propext, Quot.sound |
| C53 | `NTM.C53_cross_references` | propext, Classical.choice, Quot.sound |
| C54 | `NTM.C54_perf_circuit_id_false` | propext, Classical.choice, Quot.sound |
| C54 | `NTM.C54_add_circuit` | propext, Classical.choice, Quot.sound |
| C54 | `NTM.C54_flex_circuit_id` | propext, Classical.choice, Quot.sound |
| C54 | `NTM.C54_self_circuit_false` | propext, Classical.choice, Quot.sound |
| C55 | `NTM.C55_no_carry_over` | propext, Classical.choice, Quot.sound |
| C55 | `NTM.C55_lsps` | propext, Classical.choice, Quot.sound |
| C55 | `NTM.C55_path_detail_false` | propext, Classical.choice, Quot.sound |
| C56 | `NTM.C56_update_succeeds_partial` | propext, Classical.choice, Quot.sound |
| C56 | `NTM.C56_update_succeeds_without_lsps` | propext, Classical.choice, Quot.sound |
| C56 | `NTM.C56_parallel_lsps_false` | propext, Classical.choice, Quot.sound |
| C56 | `NTM.C56_fine_capacity_false` | propext, Classical.choice, Quot.sound |
| C56 | `NTM.C56_rsvp_false` | propext, Classical.choice, Quot.sound |
| C57 | `NTM.C57_shortest_path_perf` | propext, Classical.choice, Quot.sound |
| C57 | `NTM.C57_unknown_node` | propext, Classical.choice, Quot.sound |
| C58 | `NTM.C58_shortest_path_flex_partial` | propext, Classical.choice, Quot.sound |
| C58 | `NTM.C58_shortest_path_complete_partial` | propext, Classical.choice, Quot.sound |
| C58 | `NTM.C58_flex_false` | propext, Classical.choice, Quot.sound |
| C59 | `NTM.C59_all_paths` | propext, Classical.choice, Quot.sound |
| C59 | `NTM.C59_flex_parallel_false` | propext, Classical.choice, Quot.sound |
| C60 | `NTM.C60_normalize_mem` | propext, Quot.sound |
| C60 | `NTM.C60_normalize_length` | propext, Quot.sound |
| C60 | `NTM.C60_normalize_nodup` | propext, Quot.sound |
| C61 | `NTM.C61_guardrails` | propext, Classical.choice, Quot.sound |
| C61 | `NTM.C61_rejected_unchanged` | propext, Classical.choice, Quot.sound |
| C61 | `NTM.C61_accepted` | propext, Classical.choice, Quot.sound |
| C62 | `NTM.C62_utilization` | propext, Classical.choice, Quot.sound |
| C62 | `NTM.C62_nonneg` | propext, Classical.choice, Quot.sound |
| C62 | `NTM.C62_monotone` | propext, Classical.choice, Quot.sound |
| C63 | `NTM.C63_find_end_index` | propext, Classical.choice, Quot.sound |
| C64 | `NTM.C64_accepts` | propext, Classical.choice, Quot.sound |
| C64 | `NTM.C64_one_reading` | propext, Classical.choice, Quot.sound |
| C64 | `NTM.C64_loaded_partial` | propext, Classical.choice, Quot.sound |
| C64 | `NTM.C64_own_nodes` | propext, Classical.choice, Quot.sound |
| C64 | `NTM.C64_self_loop_false` | propext, Classical.choice, Quot.sound |
| C65 | `NTM.C65_circuit_ids` | propext, Classical.choice, Quot.sound |
| C65 | `NTM.C65_accepted` | propext, Classical.choice, Quot.sound |
| C66 | `NTM.C66_unknown_demand_node` | propext, Classical.choice, Quot.sound |
| C66 | `NTM.C66_unknown_lsp_node` | propext, Classical.choice, Quot.sound |
| C66 | `NTM.C66_demand_raises` | propext, Classical.choice, Quot.sound |
| C66 | `NTM.C66_lsp_raises` | propext, Classical.choice, Quot.sound |
| C67 | `NTM.C67_fraction` | propext, Classical.choice, Quot.sound |
| C67 | `NTM.C67_round_trip` | propext, Classical.choice, Quot.sound |
| C67 | `NTM.C67_decimal` | propext, Classical.choice, Quot.sound |
| C68 | `NTM.C68_duplicate_line_false` | propext, Classical.choice, Quot.sound |
| C68 | `NTM.C68_duplicate_line_partial` | propext, Classical.choice, Quot.sound |
| C69 | `NTM.C69_substitution` | propext, Quot.sound |
| C69 | `NTM.C69_paths_via_shortcuts` | propext, Classical.choice, Quot.sound |
| C69 | `NTM.C69_paths_connected` | propext, Classical.choice, Quot.sound |
| C69 | `NTM.C69_hyphens_false` | propext, Classical.choice, Quot.sound |
| C70 | `NTM.C70_traffic_lost_false` | propext, Classical.choice, Quot.sound |
| C70 | `NTM.C70_conserved_partial` | propext, Classical.choice, Quot.sound |
| C71 | `NTM.C71_igp_ignores_rsvp_false` | propext, Classical.choice, Quot.sound |
| C71 | `NTM.C71_demands_avoid_disabled` | propext, Classical.choice, Quot.sound |
| C71 | `NTM.C71_lsps_avoid_disabled_partial` | propext, Classical.choice, Quot.sound |
| C72 | `NTM.C72_defaults_shared_false` | propext, Classical.choice, Quot.sound |
| C72 | `NTM.C72_later_model_false` | propext, Classical.choice, Quot.sound |
| C72 | `NTM.C72_own_collections_partial` | propext, Classical.choice, Quot.sound |
| C72 | `NTM.C72_other_models_partial` | propext, Quot.sound |
| C72 | `NTM.C72_method_effect` | propext, Classical.choice, Quot.sound |
| C73 | `NTM.C73_inputs_kept` | propext, Classical.choice, Quot.sound |
| C74 | `NTM.C74_interface_traffic` | propext, Classical.choice, Quot.sound |
| C75 | `NTM.C75_equal_split` | propext, Classical.choice, Quot.sound |
| C75 | `NTM.C75_flow_conserved` | propext, Classical.choice, Quot.sound |
| C76 | `NTM.C76_rerun` | propext, Classical.choice, Quot.sound |
| C76 | `NTM.C76_rerun_deterministic` | propext, Classical.choice, Quot.sound |
| C77 | `NTM.C77_failure_impact` | propext, Classical.choice, Quot.sound |
| C77 | `NTM.C77_unaffected` | propext, Classical.choice, Quot.sound |
| C77 | `NTM.C77_fail_interface` | propext, Classical.choice, Quot.sound |
| C78 | `NTM.C78_superposition` | propext, Classical.choice, Quot.sound |
| C78 | `NTM.C78_added_demands` | propext, Classical.choice, Quot.sound |
| C79 | `NTM.C79_relative_costs` | propext, Classical.choice, Quot.sound |
| C80 | `NTM.C80_contribution_bounds_flex` | propext, Classical.choice, Quot.sound |
| C80 | `NTM.C80_contribution_bounds_perf` | propext, Classical.choice, Quot.sound |
| C80 | `NTM.C80_interface_bounds` | propext, Classical.choice, Quot.sound |
| C81 | `NTM.C81_node_balance_partial` | propext, Classical.choice, Quot.sound |
| C81 | `NTM.C81_node_balance_false` | propext, Classical.choice, Quot.sound |
| C82 | `NTM.C82_what_if` | propext, Classical.choice, Quot.sound |
| C83 | `NTM.C83_edges_partial` | propext, Classical.choice, Quot.sound |
| C83 | `NTM.C83_rsvp_disabled_false` | propext, Classical.choice, Quot.sound |
| C83 | `NTM.C83_nodes_partial` | propext, Classical.choice, Quot.sound |
| C83 | `NTM.C83_orphan_false` | propext, Classical.choice, Quot.sound |
| C83 | `NTM.C83_ids_partial` | propext, Classical.choice, Quot.sound |
| C84 | `NTM.C84_colors_sound` | propext, Classical.choice, Quot.sound |
| C84 | `NTM.C84_colors_complete_partial` | propext, Classical.choice, Quot.sound |
| C84 | `NTM.C84_gap_false` | propext, Classical.choice, Quot.sound |
| C84 | `NTM.C84_gaps` | propext, Classical.choice, Quot.sound |
| C85 | `NTM.C85_demand_menus_partial` | propext, Classical.choice, Quot.sound |
| C85 | `NTM.C85_lsp_menus_partial` | propext, Classical.choice, Quot.sound |
| C85 | `NTM.C85_hyphen_false` | propext, Classical.choice, Quot.sound |
| C85 | `NTM.C85_node_menu` | propext, Classical.choice, Quot.sound |
| C86 | `NTM.C86_find_interfaces_partial` | propext, Classical.choice, Quot.sound |
| C86 | `NTM.C86_demand_edges_partial` | propext, Classical.choice, Quot.sound |
| C86 | `NTM.C86_lsp_edges_partial` | propext, Classical.choice, Quot.sound |
| C86 | `NTM.C86_demand_nodes_partial` | propext, Classical.choice, Quot.sound |
| C86 | `NTM.C86_lsp_nodes` | propext, Classical.choice, Quot.sound |
| C86 | `NTM.C86_unrouted_false` | propext, Classical.choice, Quot.sound |
| C86 | `NTM.C86_unsignalled_false` | propext |
| C86 | `NTM.C86_same_text_false` | propext, Classical.choice, Quot.sound |
| C87 | `NTM.C87_clicked_edge_partial` | propext, Classical.choice, Quot.sound |
| C87 | `NTM.C87_hyphen_false` | propext, Classical.choice, Quot.sound |
| C87 | `NTM.C87_self_circuit_false` | propext, Classical.choice, Quot.sound |
| C88 | `NTM.C88_parallel_demands` | propext, Classical.choice, Quot.sound |
| C89 | `NTM.C89_unfail_node` | propext, Classical.choice, Quot.sound |
| C90 | `NTM.C90_circuit_failed` | propext |
| C90 | `NTM.C90_circuits` | propext, Classical.choice, Quot.sound |
| C90 | `NTM.C90_circuit_of_interface` | propext, Classical.choice, Quot.sound |
| C90 | `NTM.C90_orphans` | propext, Classical.choice, Quot.sound |
| C90 | `NTM.C90_node_status` | propext, Quot.sound |
| C90 | `NTM.C90_demand_ends_partial` | propext, Classical.choice, Quot.sound |
| C90 | `NTM.C90_demand_ends_false` | propext, Quot.sound |
| C91 | `NTM.C91_page_lists` | propext, Classical.choice, Quot.sound |
| C92 | `NTM.C92_same_paths` | propext, Classical.choice, Quot.sound |
| C92 | `NTM.C92_float_load` | propext, Classical.choice, Quot.sound |
| C92 | `NTM.C92_double` | propext, Classical.choice, Quot.sound |
| C93 | `NTM.C93_cost_impact` | propext, Classical.choice, Quot.sound |
| C93 | `NTM.C93_unaffected` | propext, Classical.choice, Quot.sound |
| C93 | `NTM.C93_raise_cost` | propext, Classical.choice, Quot.sound |
| C93 | `NTM.C93_drained` | propext, Classical.choice, Quot.sound |
| C94 | `NTM.C94_more_demand` | propext, Classical.choice, Quot.sound |
| C95 | `NTM.C95_symmetric` | propext, Classical.choice, Quot.sound |
| C95 | `NTM.C95_load_false` | propext, Classical.choice, Quot.sound |
| C96 | `NTM.C96_rest_of_path` | propext, Classical.choice, Quot.sound |
| C96 | `NTM.C96_same_next_hops` | propext, Classical.choice, Quot.sound |
| C97 | `NTM.C97_added_links` | propext, Classical.choice, Quot.sound |
| C97 | `NTM.C97_add_circuit` | propext, Classical.choice, Quot.sound |
| C98 | `NTM.C98_igp_paths` | propext, Classical.choice, Quot.sound |
| C98 | `NTM.C98_bystanders` | propext, Classical.choice, Quot.sound |
| C99 | `NTM.C99_cut_balance_partial` | propext, Classical.choice, Quot.sound |
| C99 | `NTM.C99_cut_balance_false` | propext, Classical.choice, Quot.sound |
