
## 4. Findings

Deviations from what a user would expect, found while modelling; the theorem in brackets
exhibits the deviation on a concrete model.

* F1 Duplicate interface names are never rejected: the check returns a non-empty message, which
  counts as true (C31).
* F2 An RSVP-disabled interface has reservable bandwidth -1 and disappears from IGP routing,
  circuit matching and validation (C71, C32, C56_rsvp_false).
* F3 FlexModel `get_shortest_path` expands every hop with all parallel interfaces, costlier and
  failed ones included (C58_flex_false).
* F4, F31 FlexModel re-optimisation treats parallel interfaces as consecutive hops and may route
  an LSP over a failed one (C04_flex_false).
* F5 Re-signalling an LSP for the bandwidth it already has can leave its reservation on the old
  path (C25_reopt_false), and overwrites a configured bandwidth (C26_configured_false).
* F6 Rounding ties unbalance the reservation ledger (C19_tie_breaks_ledger).
* F7 A demand or LSP from a node to itself makes the simulation raise ValueError.
* F8 Names with hyphens make "source-destination" keys collide (C50_hyphen_false, C69_hyphens_false,
  C30_hyphen_rejected).
* F9 With IGP shortcuts, traffic is lost when the cheapest paths disagree on the LSPs they meet
  (C70_traffic_lost_false).
* F10 Assigning `manual_metric` is ignored while a configured metric is unread (C24_assign_false).
* F11 `Interface.remove_from_srlg` un-fails one end of a circuit only (C39).
* F12 `add_circuit` ignores `failed=True` (C54); F37 it accepts a circuit from a node to itself
  (C54_self_circuit_false); F38 on a PerformanceModel a parallel circuit raises but stays
  (C47_rejected_false).
* F13 `unfail_node` can raise midway; F21 fail and unfail without a simulation in between raises
  when an LSP is routed (C43_with_lsp_false).
* F14 `path_detail` of an unrouted demand is stale (C55_path_detail_false).
* F15 `parallel_lsp_groups()` is cached across `add_rsvp_lsp` (C51_stale_false).
* F16 Some lookups construct a ModelException without raising it; F18 `get_remote_interface`
  runs into UnboundLocalError (C29_remote_false).
* F17 `add_network_interfaces_from_list` creates fresh Node objects and checks no keys
  (C48_from_list_false).
* F19 `simulation_diagnostics` counts never-signalled LSPs as routed (C52).
* F20, F33, F36 Adding to an already failed SRLG fails nothing (C42, C38).
* F22 A disregarded duplicate interface line still creates its remote node (C68); a line from a
  node to itself creates two node objects (C64_self_loop_false).
* F23 Mutable default arguments are shared between models (C72).
* F24 `all_simple_paths` raises when the target is not in the graph (C59).
* F25 A blank line after RSVP_LSP_TABLE makes the loader raise; F28 so does a fourth node field
  other than True/False.
* F26 `_make_circuits` renumbers circuit ids of a PerformanceModel at every validation (C73).
* F27 PerformanceModel `path_detail` uses the key "interfaces" where the FlexModel uses "items".
* F29, F32 The validation at the end of a simulation can fail interfaces after routing, and
  repairing a half-failed circuit that carries reservations makes the next validation raise
  (C33_validation_repeatable_false).
* F30 A FlexModel with parallel links and no circuit ids cannot be matched.
* F34 `traffic_on_lsp` raises ValueError when the demands of an LSP ride nothing (C27).
* F35 PerformanceModel rounds each path's share, so equal shares are reported unequal (C07).
* F39 A capacity that is not a multiple of 0.1 can be over-reserved by rounding, and the
  simulation raises (C56_fine_capacity_false).
* F42 An LSP re-signalled by a FlexModel over parallel links puts its whole traffic on each of
  them: six units of demand become twelve on the wire (C81_node_balance_false, C99_cut_balance_false, a consequence of F4).
* F40 Utilizations between two legend ranges, such as 24.5, get no colour on the map (C84_gap_false).
* F43 Nodes without interfaces and interfaces with negative reservable bandwidth are not drawn
  (C83_orphan_false, C83_rsvp_disabled_false).
* F44 The map page cannot be built when an end point has a hyphen in its name (C85_hyphen_false).
* F41 `find_demand_interfaces_and_lsps` returns the characters of "Unrouted" for an unrouted demand
  (C86_unrouted_false); F45 selecting an LSP that was never signalled raises TypeError
  (C86_unsignalled_false).
* F46 The destination of a clicked edge is wrong with hyphens in node names, and a self circuit
  raises IndexError (C87_hyphen_false, C87_self_circuit_false).
* F47 Circuit ids 1 and "1" of a FlexModel cannot be told apart on the map (C86_same_text_false).
* F48 `srlg.failed = True` marks the SRLG only, although the class documentation says that a failed
  SRLG takes its members down: they stay up and keep carrying traffic after the next simulation
  (C42_assigned_false).
* F49 In floating point a group of parallel LSPs can be denied bandwidth that is free: with 25.2
  reservable, ten of fifteen LSPs hold 2.4 and could grow to 3.6 on the 1.2 left, but
  1.2 + 2.4 < 3.6 in floats (C101_split_false).
* F50 A reservation limit of 0.65 (13% of 5) rounds to 0.6 exactly and to 0.7 in floats, so that an
  LSP of 0.69 is routed beyond the limit (C101_limit_tie_false).
* F51 `change_interface_name` does not check whether the name is taken: two interfaces of one node
  then share their name and the second one cannot be looked up (C104_rename_clash_false).
* F52 The `circuit_id` given to `PerformanceModel.add_circuit` is lost, validation numbers all circuits
  from 1 (C54_perf_circuit_id_false).
* F53 Repair calls in the order interfaces, nodes, SRLGs can leave a circuit failed although nothing holds
  it, because `unfail_node` stops at the first interface that a failed SRLG holds
  (C108_other_order_false); the opposite order repairs everything (C108_full_repair).
* F54 A PerformanceModel rounds the share of every demand to one decimal before adding it: two demands of
  0.04 leave no traffic where one of 0.08 leaves 0.1 (C111_performance_false).
* F55 `Node.igp_shortcuts_enabled` is documented as ignored by the PerformanceModel, but its
  validation rejects the model (C112_shortcuts_ignored_false).
* F56 Splitting node by node is not symmetric: with the same costs and the same demands in both directions the two
  directions of a circuit can carry different traffic (C95_load_false).
* F57 With IGP shortcuts a demand can be sent back through a node it has passed: its shortest path is
  substituted from the LSP's head on, whatever route the LSP takes (C116_shortcut_loop).
