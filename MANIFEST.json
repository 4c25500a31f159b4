{
 "claims": [
  {
   "property": "C01",
   "status": "proved",
   "theorems": [
    "NTM.C01_igp_paths_exact_perf"
   ],
   "note": "Every environment, every Tidy model whose update_simulation() succeeds."
  },
  {
   "property": "C02",
   "status": "proved",
   "theorems": [
    "NTM.C02_igp_paths_exact_flex"
   ],
   "note": "FlexModel without IGP shortcuts, parallel links included."
  },
  {
   "property": "C03",
   "status": "proved",
   "theorems": [
    "NTM.C03_unrouted_iff"
   ],
   "note": "Both classes."
  },
  {
   "property": "C04",
   "status": "partial",
   "theorems": [
    "NTM.C04_nothing_over_failed_perf",
    "NTM.C04_nothing_over_failed_flex_partial",
    "NTM.C04_demands_avoid_failed",
    "NTM.C04_flex_false"
   ],
   "note": "Proved in full for the PerformanceModel and for demands of the FlexModel. False for FlexModel LSPs (C04_flex_false): re-optimisation may use a failed parallel link; proved there without parallel links or without partly routed groups."
  },
  {
   "property": "C05",
   "status": "proved",
   "theorems": [
    "NTM.C05_ecmp_conserves_flex"
   ],
   "note": "FlexModel without IGP shortcuts, parallel links included; exact rationals instead of floats."
  },
  {
   "property": "C06",
   "status": "proved",
   "theorems": [
    "NTM.C06_ecmp_conserves_perf",
    "NTM.C06_rounding_differs"
   ],
   "note": "With a witness that the sum can differ."
  },
  {
   "property": "C07",
   "status": "partial",
   "theorems": [
    "NTM.C07_equal_split_flex",
    "NTM.C07_equal_split_perf_partial",
    "NTM.C07_equal_split_perf_false"
   ],
   "note": "Proved for the FlexModel. False for the PerformanceModel, whose path traffic is rounded (C07_equal_split_perf_false); proved there up to 0.00005 per path."
  },
  {
   "property": "C08",
   "status": "proved",
   "theorems": [
    "NTM.C08_flow_balance"
   ],
   "note": "Both classes, in terms of path_detail."
  },
  {
   "property": "C09",
   "status": "proved",
   "theorems": [
    "NTM.C09_splits_cumulative"
   ],
   "note": "Both classes; in a PerformanceModel the quotient is rounded to four decimals."
  },
  {
   "property": "C10",
   "status": "proved",
   "theorems": [
    "NTM.C10_interface_traffic_flex"
   ],
   "note": "Every iteration order: demands are a list in arbitrary order."
  },
  {
   "property": "C100",
   "status": "proved",
   "theorems": [
    "NTM.C100_cut_lower_bound",
    "NTM.C100_overload"
   ],
   "note": "FlexModel, in exact rationals; no exception for parallel links is needed."
  },
  {
   "property": "C101",
   "status": "proved",
   "theorems": [
    "NTM.C101_no_rounding",
    "NTM.C101_whole_numbers",
    "NTM.C101_whole_load",
    "NTM.C101_limit_tie_false",
    "NTM.C101_split_false"
   ],
   "note": "Both classes, with the rounding of IEEE 754 doubles at every operation. C101_no_rounding checks that the floating point model without rounding is the exact model; the two _false theorems show that the last two conditions on the numbers cannot be dropped. Overflow and underflow are not modelled."
  },
  {
   "property": "C102",
   "status": "proved",
   "theorems": [
    "NTM.C102_interface_status",
    "NTM.C102_unrouted_demands",
    "NTM.C102_node_interfaces",
    "NTM.C102_adjacent",
    "NTM.C102_circuit_ids",
    "NTM.C102_circuit_ids_false",
    "NTM.C102_srlg_check"
   ],
   "note": "Both classes. C102_circuit_ids_false shows that the condition on RSVP is needed: interfaces that do not run it are in no circuit but their ids are listed."
  },
  {
   "property": "C103",
   "status": "proved",
   "theorems": [
    "NTM.C103_add_demand",
    "NTM.C103_add_lsp",
    "NTM.C103_add_node",
    "NTM.C103_from_list"
   ],
   "note": "Both classes. Lists that name an interface the model already has are covered by C48_from_list_false."
  },
  {
   "property": "C104",
   "status": "partial",
   "theorems": [
    "NTM.C104_rename",
    "NTM.C104_rename_unknown",
    "NTM.C104_rename_lookup_partial",
    "NTM.C104_rename_clash_false"
   ],
   "note": "False for a name that is taken on the node: nothing is raised and the renamed interface can no longer be looked up (C104_rename_clash_false). Proved for free names."
  },
  {
   "property": "C105",
   "status": "proved",
   "theorems": [
    "NTM.C105_line_ends",
    "NTM.C105_round_trip"
   ],
   "note": "Both classes; the model splits lines as Python's text mode and splitlines do for these line ends."
  },
  {
   "property": "C106",
   "status": "proved",
   "theorems": [
    "NTM.C106_status_decides",
    "NTM.C106_what_if"
   ],
   "note": "Generalises C82 to arbitrary sessions. The random choices of the compared simulations are the same; those in between are arbitrary."
  },
  {
   "property": "C107",
   "status": "proved",
   "theorems": [
    "NTM.C107_failures_commute",
    "NTM.C107_srlg_is_its_members",
    "NTM.C107_same_simulation"
   ],
   "note": "The members are any list that contains exactly the SRLG's nodes and interfaces of the model, with repetitions allowed."
  },
  {
   "property": "C108",
   "status": "proved",
   "theorems": [
    "NTM.C108_full_repair",
    "NTM.C108_recovers",
    "NTM.C108_other_order_false"
   ],
   "note": "The simulations of the session must not over-reserve an interface (RsvpReady, see C20): validation skips interfaces with negative reservable bandwidth. The claim for the opposite order is false of the code and its negation is proved."
  },
  {
   "property": "C109",
   "status": "proved",
   "theorems": [
    "NTM.C109_names_do_not_matter"
   ],
   "note": "Both simulations are assumed to succeed (see C56). LSPs are left out because their paths depend on random choices, IGP shortcuts because they need LSPs."
  },
  {
   "property": "C11",
   "status": "proved",
   "theorems": [
    "NTM.C11_interface_traffic_perf"
   ],
   "note": "Including the distance to the exact equal-split load."
  },
  {
   "property": "C110",
   "status": "proved",
   "theorems": [
    "NTM.C110_settings_decide",
    "NTM.C110_put_back"
   ],
   "note": "A metric is assigned only to an LSP without a pending configured metric (see C24). Simulations on the way are assumed to succeed; the last one is not."
  },
  {
   "property": "C111",
   "status": "proved",
   "theorems": [
    "NTM.C111_traffic_matrix",
    "NTM.C111_performance_false"
   ],
   "note": "Both simulations are assumed to succeed (see C56). `C111_performance_false` shows that the PerformanceModel does not have the property."
  },
  {
   "property": "C112",
   "status": "proved",
   "theorems": [
    "NTM.C112_accepted_iff",
    "NTM.C112_order",
    "NTM.C112_performance_as_flex",
    "NTM.C112_shortcuts_ignored_false"
   ],
   "note": "Both directions of the equivalence. C112_shortcuts_ignored_false records that the node documentation disagrees with the PerformanceModel's rule on IGP shortcuts (F55)."
  },
  {
   "property": "C113",
   "status": "proved",
   "theorems": [
    "NTM.C113_traffic_distance",
    "NTM.C113_cost_weighted",
    "NTM.C113_least_cost"
   ],
   "note": "Identity for all lengths, LSPs included; minimality for models without LSPs."
  },
  {
   "property": "C114",
   "status": "proved",
   "theorems": [
    "NTM.C114_triangle",
    "NTM.C114_parts"
   ],
   "note": "Both directions; demands must exist in the model for the paths to be observable."
  },
  {
   "property": "C115",
   "status": "proved",
   "theorems": [
    "NTM.C115_seed_irrelevant",
    "NTM.C115_no_draw",
    "NTM.C115_repeatable",
    "NTM.C115_tie_matters"
   ],
   "note": "Equality of the whole outcome, exceptions included. C115_tie_matters shows that the hypothesis on ties is needed."
  },
  {
   "property": "C116",
   "status": "proved",
   "theorems": [
    "NTM.C116_lsp_loop_free",
    "NTM.C116_demand_loop_free",
    "NTM.C116_no_transit",
    "NTM.C116_stub_traffic",
    "NTM.C116_shortcut_loop"
   ],
   "note": "Within the stated scope. A re-signalled LSP over parallel links lists interfaces parallel to the hops of its path (C15); it still follows one loop-free path. C116_shortcut_loop shows that the scope cannot include IGP shortcuts."
  },
  {
   "property": "C117",
   "status": "proved",
   "theorems": [
    "NTM.C117_bridge_paths",
    "NTM.C117_bridge_traffic",
    "NTM.C117_partition"
   ],
   "note": "Paths and partition for both classes; exact traffic for FlexModel, with C81's condition on LSPs."
  },
  {
   "property": "C118",
   "status": "proved",
   "theorems": [
    "NTM.C118_local"
   ],
   "note": "Both classes, with rounding; LSPs anywhere as long as they do not serve the demand itself."
  },
  {
   "property": "C119",
   "status": "proved",
   "theorems": [
    "NTM.C119_bridge_lsps",
    "NTM.C119_bridge_reserved"
   ],
   "note": "Both classes, without conditions on rounding ties: a run that ends in success has passed validation."
  },
  {
   "property": "C12",
   "status": "proved",
   "theorems": [
    "NTM.C12_same_network_same_results",
    "NTM.C12_order_irrelevant"
   ],
   "note": "Stated for two successful runs with arbitrary environments on models that list their nodes, interfaces and demands in different orders; without IGP shortcuts in the FlexModel."
  },
  {
   "property": "C13",
   "status": "proved",
   "theorems": [
    "NTM.C13_linear",
    "NTM.C13_zero_demand"
   ],
   "note": "The linear part holds for every rational factor; a demand without traffic adds no load in both classes, with or without LSPs."
  },
  {
   "property": "C14",
   "status": "proved",
   "theorems": [
    "NTM.C14_classes_agree",
    "NTM.C14_queries_agree"
   ],
   "note": "Stated for two successful runs under the same environment, on models whose interfaces have unique (name, node) keys; LSP results, reservations and demand paths agree, and get_shortest_path() answers alike. Interface traffic may still differ by the PerformanceModel's rounding of each path's share (C07)."
  },
  {
   "property": "C15",
   "status": "proved",
   "theorems": [
    "NTM.C15_signalled_path_eligible",
    "NTM.C15_final_paths_eligible_partial",
    "NTM.C15_runs_along"
   ],
   "note": "The property speaks of the moment an LSP is signalled: proved for every signalling step from any state. The final paths: C15_runs_along (every routed LSP of every simulation, parallel links included, contains a contiguous route of eligible interfaces and holds only interfaces parallel to it) and C15_final_paths_eligible_partial (re-optimisation over parallel FlexModel links is excluded, where it is false)."
  },
  {
   "property": "C16",
   "status": "proved",
   "theorems": [
    "NTM.C16_signalled_path_best",
    "NTM.C16_served_in_order_partial"
   ],
   "note": "Proved for every signalling step from any state and any random draw; C16_served_in_order_partial lifts it to whole simulations without partly routed groups and rounding ties."
  },
  {
   "property": "C17",
   "status": "proved",
   "theorems": [
    "NTM.C17_unrouted_iff_no_path"
   ],
   "note": "Proved for every signalling step from any state; lifted to whole simulations by C16_served_in_order_partial."
  },
  {
   "property": "C18",
   "status": "proved",
   "theorems": [
    "NTM.C18_setup_bandwidth"
   ],
   "note": "Including the re-signalled bandwidth of LSPs in partly routed groups."
  },
  {
   "property": "C19",
   "status": "proved",
   "theorems": [
    "NTM.C19_ledger_balanced",
    "NTM.C19_tie_breaks_ledger"
   ],
   "note": "Proved without rounding ties, except where C25 is false; with ties the stated failure is exhibited."
  },
  {
   "property": "C20",
   "status": "proved",
   "theorems": [
    "NTM.C20_within_limit"
   ],
   "note": "At the end of LSP routing, for every schedule and environment."
  },
  {
   "property": "C21",
   "status": "proved",
   "theorems": [
    "NTM.C21_rides_cheapest_lsps"
   ],
   "note": "Both classes, IGP shortcuts allowed; node names such that 'a-b' keys are unambiguous."
  },
  {
   "property": "C22",
   "status": "proved",
   "theorems": [
    "NTM.C22_even_split_over_lsps"
   ],
   "note": "Both classes."
  },
  {
   "property": "C23",
   "status": "proved",
   "theorems": [
    "NTM.C23_effective_metric"
   ],
   "note": "The metric that counts is the manual metric if there is one, else the cost of the path."
  },
  {
   "property": "C24",
   "status": "partial",
   "theorems": [
    "NTM.C24_assign_partial",
    "NTM.C24_bad_value_rejected_partial",
    "NTM.C24_assign_false",
    "NTM.C24_bad_value_false"
   ],
   "note": "False while a configured metric has not been read: the first assignment is lost, and even rejected values are accepted silently (C24_assign_false, C24_bad_value_false); proved for every sequence of reads and assignments otherwise."
  },
  {
   "property": "C25",
   "status": "partial",
   "theorems": [
    "NTM.C25_reopt_false",
    "NTM.C25_reopt_partial"
   ],
   "note": "False as stated (C25_reopt_false); holds when no LSP is re-signalled for the bandwidth it already has."
  },
  {
   "property": "C26",
   "status": "partial",
   "theorems": [
    "NTM.C26_configured_false",
    "NTM.C26_configured_partial"
   ],
   "note": "False as stated (C26_configured_false); holds when all LSPs of the group are routed."
  },
  {
   "property": "C27",
   "status": "proved",
   "theorems": [
    "NTM.C27_traffic_on_lsp"
   ],
   "note": "Both classes, without IGP shortcuts."
  },
  {
   "property": "C28",
   "status": "proved",
   "theorems": [
    "NTM.C28_circuits_pair"
   ],
   "note": "Both classes, every environment, every Tidy model accepted by validate_model()."
  },
  {
   "property": "C29",
   "status": "partial",
   "theorems": [
    "NTM.C29_remote_involution_partial",
    "NTM.C29_remote_false"
   ],
   "note": "Proved for models all of whose interfaces have non-negative reservable bandwidth and, in the FlexModel, unique circuit ids per node; false otherwise (C29_remote_false: UnboundLocalError)."
  },
  {
   "property": "C30",
   "status": "proved",
   "theorems": [
    "NTM.C30_parallel_links_rejected",
    "NTM.C30_hyphen_rejected"
   ],
   "note": "Rejection of parallel links, and a witness of the false alarm with hyphenated node names."
  },
  {
   "property": "C31",
   "status": "partial",
   "theorems": [
    "NTM.C31_add_circuit_rejects_partial",
    "NTM.C31_duplicate_names_false",
    "NTM.C31_duplicate_names_flex_false"
   ],
   "note": "False of both classes: the duplicate-name report is a truthy string and never reaches the error branch. What holds: add_circuit rejects a taken name (C31_add_circuit_rejects_partial) and models built by the API have unique names (C48_unique_keys)."
  },
  {
   "property": "C32",
   "status": "partial",
   "theorems": [
    "NTM.C32_unmatched_rejected_partial",
    "NTM.C32_unmatched_rejected_flex_partial",
    "NTM.C32_unmatched_false"
   ],
   "note": "False for RSVP-disabled interfaces (C32_unmatched_false); proved for interfaces with non-negative reservable bandwidth."
  },
  {
   "property": "C33",
   "status": "partial",
   "theorems": [
    "NTM.C33_validation_repeatable_partial",
    "NTM.C33_validation_repeatable_false"
   ],
   "note": "False when validation has to repair circuits whose ends disagree while an LSP reserves bandwidth on them (C33_validation_repeatable_false); proved when no end is repaired."
  },
  {
   "property": "C34",
   "status": "proved",
   "theorems": [
    "NTM.C34_circuits_consistent"
   ],
   "note": "Both classes."
  },
  {
   "property": "C35",
   "status": "proved",
   "theorems": [
    "NTM.C35_unique_node_names"
   ],
   "note": "Both classes."
  },
  {
   "property": "C36",
   "status": "proved",
   "theorems": [
    "NTM.C36_fail_interface",
    "NTM.C36_fail_interface_validated"
   ],
   "note": "Both classes; stated for any wired model with matching circuit ids and for every validated model."
  },
  {
   "property": "C37",
   "status": "proved",
   "theorems": [
    "NTM.C37_fail_node"
   ],
   "note": "Both classes, any degree."
  },
  {
   "property": "C38",
   "status": "partial",
   "theorems": [
    "NTM.C38_no_live_interface_on_dead_node_partial",
    "NTM.C38_no_live_interface_on_dead_node_false"
   ],
   "note": "False as stated (C38_no_live_interface_on_dead_node_false): a node added to an already failed SRLG; proved for all histories, simulations included, that add no node to a failed SRLG."
  },
  {
   "property": "C39",
   "status": "proved",
   "theorems": [
    "NTM.C39_ends_fail_together",
    "NTM.C39_interface_membership_false"
   ],
   "note": "All histories, simulations included, that keep interface membership fixed; the stated exception for Interface.remove_from_srlg is exhibited."
  },
  {
   "property": "C40",
   "status": "proved",
   "theorems": [
    "NTM.C40_fail_srlg"
   ],
   "note": "Both classes."
  },
  {
   "property": "C41",
   "status": "proved",
   "theorems": [
    "NTM.C41_interface_setter",
    "NTM.C41_node_setter",
    "NTM.C41_unfail_node",
    "NTM.C41_unfail_interface",
    "NTM.C41_interface_method"
   ],
   "note": "Every state; model.unfail_interface needs matching SRLG membership of the two ends (C46)."
  },
  {
   "property": "C42",
   "status": "partial",
   "theorems": [
    "NTM.C42_assigned_false",
    "NTM.C42_members_of_failed_srlg_partial",
    "NTM.C42_members_of_failed_srlg_false"
   ],
   "note": "False as stated (C42_members_of_failed_srlg_false), and for the assignment srlg.failed = True in every state (C42_assigned_false); proved for all histories, simulations included, that add nothing to a failed SRLG."
  },
  {
   "property": "C43",
   "status": "proved",
   "theorems": [
    "NTM.C43_fail_unfail_round_trip",
    "NTM.C43_with_lsp_false"
   ],
   "note": "Models without routed LSPs; the stated failure with a routed LSP is exhibited."
  },
  {
   "property": "C44",
   "status": "proved",
   "theorems": [
    "NTM.C44_unfail_refused_on_dead_node"
   ],
   "note": "Both classes."
  },
  {
   "property": "C45",
   "status": "proved",
   "theorems": [
    "NTM.C45_unfail_srlg",
    "NTM.C45_other_exceptions"
   ],
   "note": "Both classes, overlapping SRLGs; nodes as well as interfaces."
  },
  {
   "property": "C46",
   "status": "proved",
   "theorems": [
    "NTM.C46_srlg_membership_symmetric"
   ],
   "note": "All histories of failure, repair, validation and membership calls."
  },
  {
   "property": "C47",
   "status": "partial",
   "theorems": [
    "NTM.C47_add_node_partial",
    "NTM.C47_add_demand_partial",
    "NTM.C47_add_rsvp_lsp_partial",
    "NTM.C47_add_srlg_partial",
    "NTM.C47_add_circuit_partial",
    "NTM.C47_only_validation_partial",
    "NTM.C47_valid_model_partial",
    "NTM.C47_rejected_false"
   ],
   "note": "False as stated (C47_rejected_false); proved: nothing changes when the duplicate check raises, and every other error comes from the trailing validation, which cannot raise on a model that validates after the addition."
  },
  {
   "property": "C48",
   "status": "proved",
   "theorems": [
    "NTM.C48_unique_keys",
    "NTM.C48_unique_keys_kept",
    "NTM.C48_from_list_false"
   ],
   "note": "All histories from the empty model and from any model with unique keys; from-list loading is excluded and shown to break it (C48_from_list_false)."
  },
  {
   "property": "C49",
   "status": "proved",
   "theorems": [
    "NTM.C49_lookups"
   ],
   "note": "For states whose interfaces sit on nodes of the model and whose SRLG names are unique."
  },
  {
   "property": "C50",
   "status": "partial",
   "theorems": [
    "NTM.C50_demand_groups_partial",
    "NTM.C50_lsp_groups_partial",
    "NTM.C50_no_hyphen_partial",
    "NTM.C50_hyphen_false"
   ],
   "note": "False with hyphenated names (C50_hyphen_false); proved whenever distinct name pairs give distinct keys, in particular when no name contains a hyphen."
  },
  {
   "property": "C51",
   "status": "partial",
   "theorems": [
    "NTM.C51_after_simulation_partial",
    "NTM.C51_stale_false"
   ],
   "note": "False after add_rsvp_lsp (C51_stale_false); proved from a simulation until the next add_rsvp_lsp."
  },
  {
   "property": "C52",
   "status": "proved",
   "theorems": [
    "NTM.C52_diagnostics",
    "NTM.C52_before_simulation_false"
   ],
   "note": "After every successful simulation, both classes; the stated exception before any simulation is exhibited."
  },
  {
   "property": "C53",
   "status": "proved",
   "theorems": [
    "NTM.C53_cross_references"
   ],
   "note": "Both classes, IGP shortcuts included; interface keys unique (identity of objects versus equality)."
  },
  {
   "property": "C54",
   "status": "proved",
   "theorems": [
    "NTM.C54_perf_circuit_id_false",
    "NTM.C54_add_circuit",
    "NTM.C54_flex_circuit_id",
    "NTM.C54_self_circuit_false"
   ],
   "note": "Both classes; the degenerate circuit from a node to itself with one name is shown to break it (C54_self_circuit_false)."
  },
  {
   "property": "C55",
   "status": "proved",
   "theorems": [
    "NTM.C55_no_carry_over",
    "NTM.C55_lsps",
    "NTM.C55_path_detail_false"
   ],
   "note": "Both classes, LSPs and IGP shortcuts included, same exception when the call raises; interfaces with unique (name, node) keys. The stated exception, path_detail of unrouted demands, is C55_path_detail_false."
  },
  {
   "property": "C56",
   "status": "partial",
   "theorems": [
    "NTM.C56_update_succeeds_partial",
    "NTM.C56_update_succeeds_without_lsps",
    "NTM.C56_parallel_lsps_false",
    "NTM.C56_fine_capacity_false",
    "NTM.C56_rsvp_false"
   ],
   "note": "False as stated: two parallel LSPs of which one does not fit (C56_parallel_lsps_false), a capacity that is not a multiple of 0.1 (C56_fine_capacity_false) and a circuit with RSVP disabled at one end (C56_rsvp_false) make update_simulation() raise. Proved for every order and random choice: no exception on well-formed models with capacities in tenths, no rounding ties, and either no two LSPs with the same ends or no parallel links and no coincidence of bandwidths; without LSPs no further condition."
  },
  {
   "property": "C57",
   "status": "proved",
   "theorems": [
    "NTM.C57_shortest_path_perf",
    "NTM.C57_unknown_node"
   ],
   "note": "PerformanceModel; unknown nodes raise."
  },
  {
   "property": "C58",
   "status": "partial",
   "theorems": [
    "NTM.C58_shortest_path_flex_partial",
    "NTM.C58_shortest_path_complete_partial",
    "NTM.C58_flex_false"
   ],
   "note": "False of FlexModel: costlier parallel links are included (C58_flex_false); proved that every cheapest path is included and, without parallel links, that nothing else is."
  },
  {
   "property": "C59",
   "status": "proved",
   "theorems": [
    "NTM.C59_all_paths",
    "NTM.C59_flex_parallel_false"
   ],
   "note": "get_all_paths with and without failed interfaces; with parallel links and failed interfaces excluded the FlexModel still lists failed links (C59_flex_parallel_false)."
  },
  {
   "property": "C60",
   "status": "proved",
   "theorems": [
    "NTM.C60_normalize_mem",
    "NTM.C60_normalize_length",
    "NTM.C60_normalize_nodup"
   ],
   "note": "Membership, length and duplicates of the multidigraph path expansion."
  },
  {
   "property": "C61",
   "status": "proved",
   "theorems": [
    "NTM.C61_guardrails",
    "NTM.C61_rejected_unchanged",
    "NTM.C61_accepted"
   ],
   "note": "Every sequence of attempts, starting from any state; exactly the values out of range are rejected. Type tests are types in the model."
  },
  {
   "property": "C62",
   "status": "proved",
   "theorems": [
    "NTM.C62_utilization",
    "NTM.C62_nonneg",
    "NTM.C62_monotone"
   ],
   "note": "Exact rational arithmetic instead of floats."
  },
  {
   "property": "C63",
   "status": "proved",
   "theorems": [
    "NTM.C63_find_end_index"
   ],
   "note": "Every start index and list of lines."
  },
  {
   "property": "C64",
   "status": "partial",
   "theorems": [
    "NTM.C64_accepts",
    "NTM.C64_one_reading",
    "NTM.C64_loaded_partial",
    "NTM.C64_own_nodes",
    "NTM.C64_self_loop_false"
   ],
   "note": "False for a line from a new node to itself, whose remote node object is a copy (C64_self_loop_false); everything else is proved for every file and every reading of numbers, together with the exact set of accepted files."
  },
  {
   "property": "C65",
   "status": "proved",
   "theorems": [
    "NTM.C65_circuit_ids",
    "NTM.C65_accepted"
   ],
   "note": "Every file; any reading of numbers."
  },
  {
   "property": "C66",
   "status": "proved",
   "theorems": [
    "NTM.C66_unknown_demand_node",
    "NTM.C66_unknown_lsp_node",
    "NTM.C66_demand_raises",
    "NTM.C66_lsp_raises"
   ],
   "note": "Every such file is rejected; ModelException when the unknown node is the first fault of the file."
  },
  {
   "property": "C67",
   "status": "proved",
   "theorems": [
    "NTM.C67_fraction",
    "NTM.C67_round_trip",
    "NTM.C67_decimal"
   ],
   "note": "From the text of the file; for any way of printing numbers that is read back, with decimal integers as an instance."
  },
  {
   "property": "C68",
   "status": "partial",
   "theorems": [
    "NTM.C68_duplicate_line_false",
    "NTM.C68_duplicate_line_partial"
   ],
   "note": "False as stated (C68_duplicate_line_false); proved when the remote node was named before."
  },
  {
   "property": "C69",
   "status": "proved",
   "theorems": [
    "NTM.C69_substitution",
    "NTM.C69_paths_via_shortcuts",
    "NTM.C69_paths_connected",
    "NTM.C69_hyphens_false"
   ],
   "note": "The substitution itself for every path and list of groups, and the paths of every demand after every simulation of either class; node names must spell pairs unambiguously (C69_hyphens_false shows why)."
  },
  {
   "property": "C70",
   "status": "partial",
   "theorems": [
    "NTM.C70_traffic_lost_false",
    "NTM.C70_conserved_partial"
   ],
   "note": "False as stated (C70_traffic_lost_false). Proved for every demand whose cheapest usable paths agree on the LSP end points they visit."
  },
  {
   "property": "C71",
   "status": "partial",
   "theorems": [
    "NTM.C71_igp_ignores_rsvp_false",
    "NTM.C71_demands_avoid_disabled",
    "NTM.C71_lsps_avoid_disabled_partial"
   ],
   "note": "False as stated (C71_igp_ignores_rsvp_false). Proved instead, for every model: no demand is ever routed over an RSVP-disabled interface, and LSPs avoid them except through the FlexModel parallel-link conversion."
  },
  {
   "property": "C72",
   "status": "partial",
   "theorems": [
    "NTM.C72_defaults_shared_false",
    "NTM.C72_later_model_false",
    "NTM.C72_own_collections_partial",
    "NTM.C72_other_models_partial",
    "NTM.C72_method_effect"
   ],
   "note": "False as stated (C72_defaults_shared_false, C72_later_model_false); proved for every program for models constructed with all four collections given; what a method does to its own model is always what is described for a single model (C72_method_effect)."
  },
  {
   "property": "C73",
   "status": "proved",
   "theorems": [
    "NTM.C73_inputs_kept"
   ],
   "note": "Every state, every outcome; also: interfaces that are down stay down, and a FlexModel keeps its circuit ids."
  },
  {
   "property": "C74",
   "status": "proved",
   "theorems": [
    "NTM.C74_interface_traffic"
   ],
   "note": "Every FlexModel whose node names spell pairs unambiguously."
  },
  {
   "property": "C75",
   "status": "proved",
   "theorems": [
    "NTM.C75_equal_split",
    "NTM.C75_flow_conserved"
   ],
   "note": "Flow conservation for every model; the equal split under the stated agreement of the cheapest paths, for demands that do not ride LSPs end to end (those are C22)."
  },
  {
   "property": "C76",
   "status": "proved",
   "theorems": [
    "NTM.C76_rerun",
    "NTM.C76_rerun_deterministic"
   ],
   "note": "Every successful run of a tidy model, LSPs and shortcuts included."
  },
  {
   "property": "C77",
   "status": "proved",
   "theorems": [
    "NTM.C77_failure_impact",
    "NTM.C77_unaffected",
    "NTM.C77_fail_interface"
   ],
   "note": "Models without LSPs; any set of added interface failures, and the concrete sequence simulate, fail_interface, simulate."
  },
  {
   "property": "C78",
   "status": "proved",
   "theorems": [
    "NTM.C78_superposition",
    "NTM.C78_added_demands"
   ],
   "note": "Models without LSPs. Paths are compared as collections without regard to order."
  },
  {
   "property": "C79",
   "status": "proved",
   "theorems": [
    "NTM.C79_relative_costs"
   ],
   "note": "Models without LSPs; factors of at least one (costs are whole numbers)."
  },
  {
   "property": "C80",
   "status": "proved",
   "theorems": [
    "NTM.C80_contribution_bounds_flex",
    "NTM.C80_contribution_bounds_perf",
    "NTM.C80_interface_bounds"
   ],
   "note": "FlexModel exactly; PerformanceModel with the rounding error stated."
  },
  {
   "property": "C81",
   "status": "partial",
   "theorems": [
    "NTM.C81_node_balance_partial",
    "NTM.C81_node_balance_false"
   ],
   "note": "False when an LSP is re-signalled over parallel links: its path then holds all of them and its traffic is counted on each (C81_node_balance_false). Proved without parallel links, or when each group of LSPs is signalled all or none."
  },
  {
   "property": "C82",
   "status": "proved",
   "theorems": [
    "NTM.C82_what_if"
   ],
   "note": "Every cycle whose calls return; C43 shows what happens without the simulation in the middle."
  },
  {
   "property": "C83",
   "status": "partial",
   "theorems": [
    "NTM.C83_edges_partial",
    "NTM.C83_rsvp_disabled_false",
    "NTM.C83_nodes_partial",
    "NTM.C83_orphan_false",
    "NTM.C83_ids_partial"
   ],
   "note": "Proved for models without self circuits and with non-negative reservable bandwidth; the undrawn nodes and interfaces are proved as _false."
  },
  {
   "property": "C84",
   "status": "partial",
   "theorems": [
    "NTM.C84_colors_sound",
    "NTM.C84_colors_complete_partial",
    "NTM.C84_gap_false",
    "NTM.C84_gaps"
   ],
   "note": "Soundness proved in full, completeness outside the gaps; the gap is proved as _false and C84_gaps gives exactly the uncoloured utilizations."
  },
  {
   "property": "C85",
   "status": "partial",
   "theorems": [
    "NTM.C85_demand_menus_partial",
    "NTM.C85_lsp_menus_partial",
    "NTM.C85_hyphen_false",
    "NTM.C85_node_menu"
   ],
   "note": "Proved for end points without hyphens; with hyphens the page raises (C85_hyphen_false)."
  },
  {
   "property": "C86",
   "status": "partial",
   "theorems": [
    "NTM.C86_find_interfaces_partial",
    "NTM.C86_demand_edges_partial",
    "NTM.C86_lsp_edges_partial",
    "NTM.C86_demand_nodes_partial",
    "NTM.C86_lsp_nodes",
    "NTM.C86_unrouted_false",
    "NTM.C86_unsignalled_false",
    "NTM.C86_same_text_false"
   ],
   "note": "Proved for names of pairs that do not collide, interfaces with non-negative reservable bandwidth and, in a FlexModel, circuit ids that read differently on each node (automatic when they are numbers, num_textIds)."
  },
  {
   "property": "C87",
   "status": "partial",
   "theorems": [
    "NTM.C87_clicked_edge_partial",
    "NTM.C87_hyphen_false",
    "NTM.C87_self_circuit_false"
   ],
   "note": "Proved without hyphens and self circuits; both exceptions are proved as _false."
  },
  {
   "property": "C88",
   "status": "proved",
   "theorems": [
    "NTM.C88_parallel_demands"
   ],
   "note": "Both model kinds, with LSPs and IGP shortcuts."
  },
  {
   "property": "C89",
   "status": "proved",
   "theorems": [
    "NTM.C89_unfail_node"
   ],
   "note": "From any state with the invariants of C38-C46; the theorem is about calls that return."
  },
  {
   "property": "C90",
   "status": "partial",
   "theorems": [
    "NTM.C90_circuit_failed",
    "NTM.C90_circuits",
    "NTM.C90_circuit_of_interface",
    "NTM.C90_orphans",
    "NTM.C90_node_status",
    "NTM.C90_demand_ends_partial",
    "NTM.C90_demand_ends_false"
   ],
   "note": "All parts in full except the parallel group part, which needs names that do not collide and is false otherwise (C90_demand_ends_false)."
  },
  {
   "property": "C91",
   "status": "proved",
   "theorems": [
    "NTM.C91_page_lists"
   ],
   "note": "Both classes; the model needs unique keys and wired ends, which every model built through the API has (C48)."
  },
  {
   "property": "C92",
   "status": "proved",
   "theorems": [
    "NTM.C92_same_paths",
    "NTM.C92_float_load",
    "NTM.C92_double"
   ],
   "note": "Any rounding with relative error u (C92_float_load) and 53-bit round-to-even (C92_double, roundBits_rounding); the floating point run completes exactly when the exact one does and takes the same paths for any rounding, in both classes, with IGP shortcuts too (C92_same_paths). LSP signalling exact; the size of the load error is not covered in the PerformanceModel, which rounds to decimals by design (C06, C11)."
  },
  {
   "property": "C93",
   "status": "proved",
   "theorems": [
    "NTM.C93_cost_impact",
    "NTM.C93_unaffected",
    "NTM.C93_raise_cost",
    "NTM.C93_drained"
   ],
   "note": "General form (C93_cost_impact, C93_unaffected), the calls (C93_raise_cost) and costing out against failing (C93_drained)."
  },
  {
   "property": "C94",
   "status": "proved",
   "theorems": [
    "NTM.C94_more_demand"
   ],
   "note": "Both classes; follows the monotonicity of Python's rounding through both roundings of the PerformanceModel."
  },
  {
   "property": "C95",
   "status": "proved",
   "theorems": [
    "NTM.C95_symmetric",
    "NTM.C95_load_false"
   ],
   "note": "Both classes. C95_load_false records that the symmetry of paths does not extend to loads (F56)."
  },
  {
   "property": "C96",
   "status": "proved",
   "theorems": [
    "NTM.C96_rest_of_path",
    "NTM.C96_same_next_hops"
   ],
   "note": "Both classes; paths (C96_rest_of_path) and next hops (C96_same_next_hops)."
  },
  {
   "property": "C97",
   "status": "proved",
   "theorems": [
    "NTM.C97_added_links",
    "NTM.C97_add_circuit"
   ],
   "note": "General form (C97_added_links) and the calls (C97_add_circuit)."
  },
  {
   "property": "C98",
   "status": "proved",
   "theorems": [
    "NTM.C98_igp_paths",
    "NTM.C98_bystanders"
   ],
   "note": "Both classes. C98_igp_paths characterises the paths in one model; C98_bystanders compares two."
  },
  {
   "property": "C99",
   "status": "partial",
   "theorems": [
    "NTM.C99_cut_balance_partial",
    "NTM.C99_cut_balance_false"
   ],
   "note": "False when an LSP is re-signalled over parallel links (C99_cut_balance_false, as C81). Proved without parallel links, or when each group of LSPs is signalled all or none."
  }
 ]
}