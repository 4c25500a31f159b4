{"id": "C01", "title": "IGP demand paths are exactly the shortest paths (PerformanceModel)", "statement": "After update_simulation(), a demand that does not ride an RSVP LSP and is routed has demand.path equal, without repetition, to the set of all minimum-total-cost contiguous interface sequences from its source node to its destination node over usable (not failed, non-negative reservable bandwidth) interfaces: nothing non-minimal is included and no equal-cost path is missing.", "quantifier": "every topology with at most one interface per ordered node pair, every cost assignment >= 1, every set iteration order, every demand", "why_tests_cant": "a test compares a handful of hand-drawn topologies; the claim is about all graphs and all equal-cost ties", "anchors": ["pyNTM/performance_model.py: PerformanceModel._route_demands", "pyNTM/performance_model.py: _make_weighted_network_graph", "pyNTM/performance_model.py: _convert_graph_path_to_model_path"]}
{"id": "C02", "title": "IGP demand paths are exactly the shortest paths over parallel links (FlexModel)", "statement": "With IGP shortcuts off, a FlexModel demand not riding an end-to-end LSP has demand.path equal, without repetition, to the set of all minimum-total-cost contiguous interface sequences over usable interfaces, where each combination of equal-cost parallel links is a distinct path and more expensive parallel links never appear.", "quantifier": "every multigraph topology, every cost assignment >= 1, every demand, every set iteration order", "why_tests_cant": "the number of parallel-link combinations is unbounded", "anchors": ["pyNTM/flex_model.py: FlexModel._route_demands", "pyNTM/flex_model.py: _get_all_paths_mdg", "pyNTM/flex_model.py: _normalize_multidigraph_paths"]}
{"id": "C03", "title": "A demand is unrouted exactly when it cannot be carried", "statement": "After update_simulation() demand.path is 'Unrouted' if and only if no routed LSP matches its source/destination and there is no contiguous sequence of usable interfaces from source to destination.", "quantifier": "every topology, failure pattern and LSP placement", "why_tests_cant": "absence of any path is a universally quantified statement over all walks", "anchors": ["pyNTM/performance_model.py: _route_demands", "pyNTM/flex_model.py: _route_demands", "pyNTM/master_model.py: get_unrouted_demand_objects"]}
{"id": "C04", "title": "Nothing is routed over a failed interface", "statement": "After update_simulation(), no demand path and no LSP path contains a failed interface, every failed interface reports traffic 'Down' and reserved bandwidth 0, and every interface that reports a number is not failed.", "quantifier": "every model, every combination of failed interfaces/nodes/SRLGs, every random choice", "why_tests_cant": "failure combinations are exponential in the number of circuits", "anchors": ["pyNTM/performance_model.py: update_simulation, _update_interface_utilization, _determine_lsp_state_info", "pyNTM/flex_model.py: update_simulation, _update_interface_utilization"]}
{"id": "C05", "title": "ECMP conserves a demand's traffic exactly (FlexModel)", "statement": "For an IGP-routed demand of a FlexModel without IGP shortcuts the path_traffic values in demand.path_detail add up to exactly demand.traffic.", "quantifier": "every topology, number of equal-cost paths and split pattern, every traffic value", "why_tests_cant": "the split tree is unbounded in depth and width", "anchors": ["pyNTM/flex_model.py: _demand_traffic_per_item", "pyNTM/flex_model.py: _find_unique_next_hops", "pyNTM/demand.py: Demand.path_detail"]}
{"id": "C06", "title": "ECMP conserves a demand's traffic up to rounding (PerformanceModel)", "statement": "For an IGP-routed PerformanceModel demand with n equal-cost paths, the path_traffic values in path_detail add up to demand.traffic within n * 0.00005 (each is rounded to four decimals); they can differ from it.", "quantifier": "every topology, split pattern and traffic value", "why_tests_cant": "rounding error accumulates with the number of paths, which is unbounded", "anchors": ["pyNTM/performance_model.py: _demand_traffic_per_int"]}
{"id": "C07", "title": "Hop-by-hop equal split", "statement": "Two interfaces that leave the same node on shortest paths of the same IGP-routed demand receive the same amount of that demand's traffic, namely the demand traffic arriving at (or originating at) the node divided by the number of such interfaces.", "quantifier": "every topology and demand; all nodes on its shortest paths", "why_tests_cant": "relates sums over sets of paths that grow exponentially", "anchors": ["pyNTM/flex_model.py: _demand_traffic_per_item", "pyNTM/performance_model.py: _demand_traffic_per_int", "pyNTM/demand.py: path_detail"]}
{"id": "C08", "title": "Flow balance at every transit node", "statement": "For each IGP-routed demand (no IGP shortcuts), at every node other than its source and destination the traffic its path_detail brings in equals the traffic it takes out; the source emits and the destination absorbs all path traffic; nothing enters the source or leaves the destination.", "quantifier": "every topology, demand and node", "why_tests_cant": "a statement about all nodes of all graphs", "anchors": ["pyNTM/flex_model.py: _demand_traffic_per_item", "pyNTM/performance_model.py: _demand_traffic_per_int"]}
{"id": "C09", "title": "Splits are cumulative products and path_traffic is the smallest item share", "statement": "In demand.path_detail the split count of an item is the product of the numbers of distinct next hops used at each node from the source up to that item; splits never decrease along a path and path_traffic equals demand.traffic divided by the last (largest) split.", "quantifier": "every path of every IGP-routed demand", "why_tests_cant": "unbounded path lengths", "anchors": ["pyNTM/performance_model.py: _demand_traffic_per_int", "pyNTM/flex_model.py: _demand_traffic_per_item", "pyNTM/demand.py: path_detail"]}
{"id": "C10", "title": "Interface traffic is the sum of the demands' contributions (FlexModel)", "statement": "In a FlexModel without IGP shortcuts, after update_simulation() the traffic of a non-failed interface equals the sum, over routed demands, of the traffic each demand puts on it: for IGP demands the sum of path_traffic of its paths through the interface, for end-to-end LSP demands traffic/(number of LSPs used) for each used LSP that transits the interface.", "quantifier": "every set of demands, every iteration order, every topology", "why_tests_cant": "needs an induction over the demand set", "anchors": ["pyNTM/flex_model.py: _update_interface_utilization, _update_int_traffic_for_end_to_end_lsps"]}
{"id": "C11", "title": "Interface traffic is the sum of the demands' contributions (PerformanceModel)", "statement": "As C10 for PerformanceModel, where an IGP demand contributes the sum of its rounded path_traffic values through the interface, rounded to one decimal; hence the reported traffic differs from the exact ECMP load by at most 0.05 + (number of its paths through the interface) * 0.00005 per IGP demand.", "quantifier": "every set of demands and topology", "why_tests_cant": "rounding error bound over unboundedly many demands and paths", "anchors": ["pyNTM/performance_model.py: _update_interface_utilization, _demand_traffic_per_int"]}
{"id": "C12", "title": "IGP results do not depend on set iteration order", "statement": "Without LSPs, reordering the (unordered) collections of interfaces, nodes and demands changes neither the set of paths of any demand nor the traffic of any interface.", "quantifier": "every permutation of the model's sets", "why_tests_cant": "Python set order varies with hash seeds; a test sees one order per run", "anchors": ["pyNTM/performance_model.py: _route_demands", "pyNTM/flex_model.py: _route_demands, _update_interface_utilization"]}
{"id": "C13", "title": "Load scales linearly with demand", "statement": "In a FlexModel without LSPs multiplying every demand's traffic by k >= 0 multiplies the traffic of every non-failed interface by k and leaves all demand paths unchanged; a zero-traffic demand adds no load.", "quantifier": "every model and every factor k", "why_tests_cant": "all factors, all topologies", "anchors": ["pyNTM/flex_model.py: _update_interface_utilization, _demand_traffic_per_item"]}
{"id": "C14", "title": "PerformanceModel and FlexModel agree on simple topologies", "statement": "On a topology with at most one interface per ordered node pair, without IGP shortcuts, both model classes compute the same set of shortest paths for every source and destination and the same LSP-riding decision.", "quantifier": "every topology without parallel links", "why_tests_cant": "two implementations compared over all inputs", "anchors": ["pyNTM/performance_model.py: _route_demands", "pyNTM/flex_model.py: _route_demands"]}
{"id": "C15", "title": "LSP paths are contiguous and eligible", "statement": "When an LSP is signalled for bandwidth b its chosen path is a contiguous interface sequence from the LSP's source to its destination, every hop of which is not failed, RSVP-enabled and has reservable_bandwidth >= b at that moment.", "quantifier": "every model, LSP order, reservation state and random choice", "why_tests_cant": "depends on the accumulated reservations of every earlier LSP and on random.choice", "anchors": ["pyNTM/performance_model.py: _determine_lsp_state_info", "pyNTM/flex_model.py: _determine_lsp_state_info"]}
{"id": "C16", "title": "LSP paths are cheapest, then shortest", "statement": "The path chosen for an LSP has minimum total cost among all eligible contiguous paths and, among those of minimum cost, the fewest hops, whichever candidate random.choice returns; path_cost and baseline_path_reservable_bw report the cost and the minimum reservable bandwidth of that path.", "quantifier": "every model, reservation state and every outcome of random.choice", "why_tests_cant": "randomised tie-break; all graphs", "anchors": ["pyNTM/performance_model.py: _determine_lsp_state_info", "pyNTM/master_model.py: _add_lsp_path_data"]}
{"id": "C17", "title": "An LSP is unrouted only when no eligible path exists", "statement": "During signalling an LSP is left 'Unrouted' (path and reserved_bandwidth) if and only if no contiguous eligible path with enough reservable bandwidth exists from its source to its destination at that moment, and then it reserves nothing anywhere.", "quantifier": "every model and reservation state", "why_tests_cant": "non-existence over all walks", "anchors": ["pyNTM/performance_model.py: _determine_lsp_state_info", "pyNTM/flex_model.py: _determine_lsp_state_info"]}
{"id": "C18", "title": "LSP setup bandwidth", "statement": "An LSP is signalled with its configured setup bandwidth when one is configured (zero included), otherwise with the total traffic of the demands sharing its source and destination divided by the number of LSPs sharing that source and destination.", "quantifier": "every group of LSPs and demands", "why_tests_cant": "unbounded group sizes; interplay of configured and automatic LSPs", "anchors": ["pyNTM/master_model.py: _route_parallel_lsp_groups", "pyNTM/performance_model.py: _determine_lsp_state_info", "pyNTM/rsvp.py: setup_bandwidth"]}
{"id": "C19", "title": "Reservation ledger", "statement": "After LSP routing every interface's reserved_bandwidth equals the sum over the LSPs whose path contains it of their reserved bandwidth rounded to one decimal, for every LSP mix in which no reserved bandwidth is an exact rounding tie; with ties the ledger can disagree and update_simulation() raises on a valid model.", "quantifier": "every model, group order, random choice, including the re-optimisation step", "why_tests_cant": "depends on rounding at every read-modify-write over unboundedly many LSPs", "anchors": ["pyNTM/master_model.py: _route_lsps, _make_int_info_dict, _reserved_bw_error_checks", "pyNTM/interface.py: reserved_bandwidth"]}
{"id": "C20", "title": "Reservations never exceed what is reservable", "statement": "Throughout LSP routing an RSVP-enabled interface's reservable_bandwidth never becomes negative, i.e. reserved bandwidth never exceeds capacity * percent_reservable_bandwidth / 100 by more than the 0.05 rounding slack, and never exceeds it at all when that limit is a multiple of 0.1.", "quantifier": "every number and size of LSPs, every order and random choice", "why_tests_cant": "accumulation over unboundedly many LSPs with rounding", "anchors": ["pyNTM/performance_model.py: _determine_lsp_state_info", "pyNTM/interface.py: reservable_bandwidth, reserved_bandwidth"]}
{"id": "C21", "title": "Demands ride exactly the cheapest matching LSPs", "statement": "If at least one routed LSP has the demand's source and destination node, demand.path consists of exactly those routed LSPs whose effective metric is minimal among the routed ones, each as its own path; no interface path is used.", "quantifier": "every group of LSPs, metrics and demand", "why_tests_cant": "all metric assignments and group sizes", "anchors": ["pyNTM/performance_model.py: _route_demands", "pyNTM/flex_model.py: _route_demands", "pyNTM/rsvp.py: effective_metric"]}
{"id": "C22", "title": "LSP-riding demands split evenly", "statement": "A demand riding k LSPs puts traffic/k on every interface of each of those LSPs' paths; the k shares add up to the demand's traffic.", "quantifier": "every demand and LSP group", "why_tests_cant": "unbounded group size", "anchors": ["pyNTM/performance_model.py: _update_interface_utilization, _lsp_routed_demand_path_detail", "pyNTM/flex_model.py: _update_int_traffic_for_end_to_end_lsps"]}
{"id": "C23", "title": "Effective metric of an LSP", "statement": "effective_metric is the manual metric when set, 'Unrouted' when unset and the LSP is not routed, and otherwise the cost of the cheapest usable path from source to destination (not of the path the LSP takes), which is never more than the LSP's own topology metric when its path is usable.", "quantifier": "every LSP and model state", "why_tests_cant": "minimum over all walks", "anchors": ["pyNTM/rsvp.py: effective_metric, topology_metric", "pyNTM/performance_model.py: get_shortest_path"]}
{"id": "C24", "title": "Assigning manual_metric takes effect", "statement": "Assigning a positive integer to lsp.manual_metric makes it the effective metric, -1 restores the default and anything else is rejected without change. (False of the code while a configured metric has not been read yet: the assignment is silently discarded.)", "quantifier": "every sequence of metric reads and assignments", "why_tests_cant": "history dependent", "anchors": ["pyNTM/rsvp.py: manual_metric"]}
{"id": "C25", "title": "Re-optimisation keeps the ledger and the limits", "statement": "When some LSPs of a group fail to route, re-signalling the routed ones for traffic/(number routed) moves each reservation to the new path so that the reservation ledger (C19) and the limits (C20) still hold. (False when the re-signalled bandwidth equals the old one and a different equal-cost path is drawn: the reservation stays on the old path.)", "quantifier": "every group, reservation state and random choice", "why_tests_cant": "randomised path choice", "anchors": ["pyNTM/master_model.py: _optimize_parallel_lsp_group_res_bw", "pyNTM/rsvp.py: find_rsvp_path_w_bw"]}
{"id": "C26", "title": "A configured setup bandwidth is never overridden", "statement": "An LSP with a configured setup bandwidth reserves exactly that bandwidth whenever it is routed. (False: re-optimisation overwrites its reserved_bandwidth.)", "quantifier": "every group with mixed LSPs", "why_tests_cant": "only occurs for partially routable groups", "anchors": ["pyNTM/rsvp.py: find_rsvp_path_w_bw", "pyNTM/master_model.py: _optimize_parallel_lsp_group_res_bw"]}
{"id": "C27", "title": "LSP traffic accounting", "statement": "traffic_on_lsp of an LSP carrying demands end to end equals (total traffic of the demands riding it) divided by the number of LSPs they ride; over the LSPs a demand group rides these add up to the group's traffic.", "quantifier": "every group of demands and LSPs", "why_tests_cant": "unbounded groups", "anchors": ["pyNTM/rsvp.py: traffic_on_lsp, demands_on_lsp"]}
{"id": "C28", "title": "Circuits pair every usable interface with its reverse", "statement": "When validate_model() succeeds every interface with non-negative reservable bandwidth belongs to exactly one circuit, whose other interface goes the opposite way between the same two nodes and carries the same circuit_id, and circuits are disjoint.", "quantifier": "every valid model and iteration order", "why_tests_cant": "matching property over all graphs", "anchors": ["pyNTM/performance_model.py: _make_circuits", "pyNTM/flex_model.py: _make_circuits_multidigraph"]}
{"id": "C29", "title": "get_remote_interface is an involution", "statement": "After successful validation the remote interface of an interface lies on the remote node, points back, and its remote interface is the interface itself.", "quantifier": "every valid model and interface, every iteration order", "why_tests_cant": "all graphs", "anchors": ["pyNTM/interface.py: get_remote_interface"]}
{"id": "C30", "title": "PerformanceModel rejects parallel links", "statement": "validate_model() on a PerformanceModel raises whenever two interfaces have the same local and the same remote node; it also raises on some models without parallel links when node names contain '-'.", "quantifier": "every interface set", "why_tests_cant": "all name combinations", "anchors": ["pyNTM/performance_model.py: _multiple_links_between_nodes, validate_model"]}
{"id": "C31", "title": "Duplicate interface names on a node are rejected", "statement": "validate_model() raises when two interfaces on one node have the same name. (False: the check returns a truthy message and the error branch is never taken.)", "quantifier": "every interface set", "why_tests_cant": "negative claim about every accepted model", "anchors": ["pyNTM/master_model.py: _unique_interface_per_node", "pyNTM/performance_model.py: validate_model", "pyNTM/flex_model.py: validate_model"]}
{"id": "C32", "title": "Every interface is validated into a circuit", "statement": "validate_model() raises when an interface has no counterpart in the opposite direction. (False for interfaces with rsvp_enabled=False: they are invisible to circuit matching; true for all interfaces with non-negative reservable bandwidth.)", "quantifier": "every interface set", "why_tests_cant": "negative claim about every accepted model", "anchors": ["pyNTM/performance_model.py: _make_circuits, _make_weighted_network_graph", "pyNTM/flex_model.py: _make_circuits_multidigraph"]}
{"id": "C33", "title": "Validation is repeatable", "statement": "If validate_model() succeeds, calling it again succeeds and changes neither paths, traffic, reservations, failure states nor circuit pairing.", "quantifier": "every valid model", "why_tests_cant": "idempotence over all states", "anchors": ["pyNTM/performance_model.py: validate_model", "pyNTM/flex_model.py: validate_model"]}
{"id": "C34", "title": "Mismatched circuits are repaired or rejected", "statement": "After validate_model() succeeds the two interfaces of every circuit have equal capacity and equal failed status; differing failed statuses are resolved by failing both.", "quantifier": "every model", "why_tests_cant": "all states", "anchors": ["pyNTM/master_model.py: _validate_circuit_interface_capacity"]}
{"id": "C35", "title": "Accepted models have unique node names", "statement": "validate_model() succeeds only if no two nodes of the model share a name.", "quantifier": "every node set", "why_tests_cant": "negative claim about every accepted model", "anchors": ["pyNTM/performance_model.py: validate_model", "pyNTM/flex_model.py: validate_model"]}
{"id": "C36", "title": "fail_interface fails exactly one circuit", "statement": "fail_interface(name, node) on a validated model sets failed on the named interface and its remote interface, zeroes their reserved bandwidth, and changes nothing else.", "quantifier": "every validated model and interface", "why_tests_cant": "frame condition over the whole state", "anchors": ["pyNTM/master_model.py: fail_interface", "pyNTM/interface.py: failed"]}
{"id": "C37", "title": "fail_node fails the node and all attached circuits", "statement": "After fail_node(n) the node is failed, every interface on it and every interface facing it is failed, and nothing else changes.", "quantifier": "every validated model and node", "why_tests_cant": "frame condition, unbounded degree", "anchors": ["pyNTM/master_model.py: fail_node"]}
{"id": "C38", "title": "No live interface on a dead node", "statement": "In every history of fail/unfail calls on nodes, interfaces and SRLGs, SRLG membership changes, validations and simulations starting from a validated model, an interface whose local or remote node is failed is itself failed. (False once a node has been added to an SRLG that is already failed: the node stays up, and a later unfail_node on it raises, marks it failed and leaves its interfaces up. False too once add_circuit attaches a circuit to a failed node.)", "quantifier": "every finite sequence of API calls", "why_tests_cant": "unbounded histories", "anchors": ["pyNTM/interface.py: failed", "pyNTM/node.py: failed", "pyNTM/master_model.py: fail_node, unfail_node, fail_interface, unfail_interface", "pyNTM/performance_model.py: add_circuit"]}
{"id": "C39", "title": "Both ends of a circuit fail and recover together", "statement": "In every history of fail/unfail calls on nodes, interfaces and SRLGs, node membership changes, validations and simulations the two interfaces of each circuit have the same failed status. (False after Interface.remove_from_srlg on a failed SRLG until the next validation.)", "quantifier": "every finite sequence of API calls", "why_tests_cant": "unbounded histories", "anchors": ["pyNTM/master_model.py: fail_interface, unfail_interface, unfail_node", "pyNTM/interface.py: remove_from_srlg"]}
{"id": "C40", "title": "Failing an SRLG fails every member", "statement": "After fail_srlg(s) the SRLG, each member node, each interface attached to or facing a member node, each member interface and each member interface's remote are failed, and non-members are untouched.", "quantifier": "every SRLG membership and model", "why_tests_cant": "unbounded membership", "anchors": ["pyNTM/master_model.py: fail_srlg", "pyNTM/srlg.py: SRLG.node_objects, SRLG.interface_objects"]}
{"id": "C41", "title": "A member of a failed SRLG cannot be brought up", "statement": "While an SRLG is failed, no attempt brings a failed member up: assigning failed=False on a member interface or node, unfail_node on a member node and Interface.unfail_interface raise and leave it failed; model.unfail_interface leaves it failed and raises, unless an end node is failed and raise_exception is False, when it does nothing.", "quantifier": "every state and every attempt", "why_tests_cant": "all membership combinations, including several SRLGs per object", "anchors": ["pyNTM/interface.py: failed", "pyNTM/node.py: failed"]}
{"id": "C42", "title": "Members of a failed SRLG are failed, in every history", "statement": "Whenever an SRLG is failed all of its members are failed. (False: adding an object to an already failed SRLG does not fail it, and the assignment srlg.failed = True changes only the SRLG.)", "quantifier": "every finite sequence of API calls", "why_tests_cant": "unbounded histories", "anchors": ["pyNTM/node.py: add_to_srlg", "pyNTM/interface.py: add_to_srlg", "pyNTM/srlg.py: SRLG.failed"]}
{"id": "C43", "title": "Failing and restoring a circuit is a round trip", "statement": "On a validated model where both end nodes are up, no member SRLG is failed and no LSP is routed, fail_interface followed by unfail_interface restores the failed status of every interface. (False with LSPs routed over the interface: unfail_interface raises because reservations were zeroed.)", "quantifier": "every validated model and interface", "why_tests_cant": "inverse law over all states", "anchors": ["pyNTM/master_model.py: fail_interface, unfail_interface"]}
{"id": "C44", "title": "unfail_interface is refused on a dead node", "statement": "If the local or remote node is failed unfail_interface leaves the interface failed and the state unchanged, and raises exactly when raise_exception=True.", "quantifier": "every state", "why_tests_cant": "all states", "anchors": ["pyNTM/master_model.py: unfail_interface"]}
{"id": "C45", "title": "unfail_srlg restores members not otherwise held down", "statement": "After unfail_srlg the SRLG is not failed and a member interface whose end nodes are up and which is in no other failed SRLG is up; members of another failed SRLG stay failed.", "quantifier": "every overlapping SRLG membership", "why_tests_cant": "all membership patterns", "anchors": ["pyNTM/master_model.py: unfail_srlg"]}
{"id": "C46", "title": "SRLG membership is symmetric across a circuit", "statement": "In every history of add_to_srlg/remove_from_srlg/fail/unfail calls on a validated model an interface is in an SRLG if and only if its remote interface is.", "quantifier": "every finite sequence of API calls", "why_tests_cant": "unbounded histories", "anchors": ["pyNTM/interface.py: add_to_srlg, remove_from_srlg"]}
{"id": "C47", "title": "Rejected additions leave the model unchanged", "statement": "add_demand, add_rsvp_lsp, add_node, add_circuit and add_srlg that raise leave the model as it was. (True when the duplicate-key check raises; false when the trailing validation raises: the object stays.)", "quantifier": "every state and argument", "why_tests_cant": "all failing inputs", "anchors": ["pyNTM/master_model.py: add_demand, add_rsvp_lsp, add_node, add_srlg", "pyNTM/performance_model.py: add_circuit", "pyNTM/flex_model.py: add_circuit"]}
{"id": "C48", "title": "Identity keys stay unique", "statement": "In every history of add_node, add_demand, add_rsvp_lsp, add_srlg, add_circuit, failure, SRLG and simulation calls starting from an empty model, no two nodes share a name, no two demands or LSPs share (source, dest, name), no two SRLGs share a name and no two interfaces share (name, node).", "quantifier": "every finite sequence of API calls, whether or not individual calls raise", "why_tests_cant": "unbounded histories", "anchors": ["pyNTM/master_model.py: add_node, add_demand, add_rsvp_lsp, add_srlg", "pyNTM/performance_model.py: add_circuit"]}
{"id": "C49", "title": "Lookups are exact", "statement": "get_node_object, get_interface_object, get_demand_object, get_rsvp_lsp and get_srlg_object return an object of the model with precisely the requested key when one exists and raise ModelException otherwise.", "quantifier": "every state whose interfaces sit on nodes of the model and whose SRLG names are unique, every key", "why_tests_cant": "all states and keys", "anchors": ["pyNTM/master_model.py: get_node_object, get_interface_object, get_demand_object, get_rsvp_lsp, get_srlg_object"]}
{"id": "C50", "title": "Parallel groups partition LSPs and demands", "statement": "parallel_lsp_groups (after a reset) and parallel_demand_groups put every LSP/demand in exactly one group, together with exactly those sharing its source and destination. (False when node names contain '-' so that two pairs collide on one key: LSPs disappear from the groups.)", "quantifier": "every set of LSPs/demands and every iteration order", "why_tests_cant": "all name combinations", "anchors": ["pyNTM/master_model.py: parallel_lsp_groups, parallel_demand_groups"]}
{"id": "C51", "title": "Parallel LSP groups are up to date", "statement": "parallel_lsp_groups() reflects the current LSPs. (False after add_rsvp_lsp: the cached dictionary of the last simulation is returned until update_simulation.)", "quantifier": "every history", "why_tests_cant": "history dependent cache", "anchors": ["pyNTM/master_model.py: parallel_lsp_groups, add_rsvp_lsp"]}
{"id": "C52", "title": "simulation_diagnostics counts are a partition", "statement": "After update_simulation: routed LSPs with demands + routed LSPs without demands + unrouted LSPs = all LSPs, and demands riding + not riding LSPs = all demands. (Before any simulation, never-signalled LSPs are counted as routed.)", "quantifier": "every model", "why_tests_cant": "all states", "anchors": ["pyNTM/master_model.py: simulation_diagnostics"]}
{"id": "C53", "title": "Cross-references agree", "statement": "Interface.lsps lists exactly the routed LSPs whose path contains the interface; Interface.demands lists exactly the routed demands that cross it directly or inside an LSP; RSVP_LSP.demands_on_lsp lists exactly the demands with that LSP on some path.", "quantifier": "every simulated model", "why_tests_cant": "all states", "anchors": ["pyNTM/interface.py: lsps, demands", "pyNTM/rsvp.py: demands_on_lsp"]}
{"id": "C54", "title": "add_circuit adds one circuit", "statement": "A successful add_circuit adds exactly the two interfaces, opposite directions between the two nodes, with the given names, costs, the same capacity and a circuit_id no other interface has, both up. (The failed=True argument is ignored.)", "quantifier": "every validated model and argument", "why_tests_cant": "all states", "anchors": ["pyNTM/performance_model.py: add_circuit", "pyNTM/flex_model.py: add_circuit"]}
{"id": "C55", "title": "update_simulation carries no state forward", "statement": "The outcome of update_simulation (paths, traffic, reservations) is a function of the configured topology, demands, LSP configuration, failure states and random choices only: starting it from two states that differ only in results of earlier simulations and in the bookkeeping of SRLGs gives the same results. (False for path_detail of unrouted demands, which keeps its stale value.)", "quantifier": "every pair of states with equal configuration", "why_tests_cant": "non-interference over all histories", "anchors": ["pyNTM/performance_model.py: update_simulation", "pyNTM/flex_model.py: update_simulation"]}
{"id": "C56", "title": "update_simulation succeeds on well-formed models", "statement": "On a well-formed model (matched circuits of equal capacity, unique names, demands and LSPs between distinct existing nodes, no rounding ties in reservations) update_simulation completes without raising.", "quantifier": "every well-formed model, order and random choice", "why_tests_cant": "absence of exceptions on all inputs", "anchors": ["pyNTM/performance_model.py: update_simulation", "pyNTM/flex_model.py: update_simulation"]}
{"id": "C57", "title": "get_shortest_path returns all cheapest paths (PerformanceModel)", "statement": "get_shortest_path(a, b, bw) returns precisely all minimum-cost contiguous paths over non-failed interfaces with reservable bandwidth >= bw, with cost equal to their common cost; {'path': [], 'cost': None} if there is none or a node is unknown.", "quantifier": "every single-link model, node pair and bandwidth", "why_tests_cant": "all graphs", "anchors": ["pyNTM/performance_model.py: get_shortest_path"]}
{"id": "C58", "title": "get_shortest_path returns only cheapest usable paths (FlexModel)", "statement": "As C57 for FlexModel. (False with parallel links: each hop is expanded with every parallel interface with enough bandwidth, whatever its cost and even if failed. True cost and true without parallel links.)", "quantifier": "every multigraph model, node pair and bandwidth", "why_tests_cant": "all graphs", "anchors": ["pyNTM/flex_model.py: get_shortest_path, _convert_nx_path_to_model_path"]}
{"id": "C59", "title": "get_all_paths_reservable_bw enumerates simple paths", "statement": "get_all_paths_reservable_bw(a, b, inc, cutoff, bw) returns exactly the node-simple contiguous paths of at most cutoff hops over interfaces with reservable bandwidth >= bw (non-failed ones when inc=False), each once.", "quantifier": "every single-link model, node pair, cutoff and bandwidth", "why_tests_cant": "all graphs", "anchors": ["pyNTM/performance_model.py: get_all_paths_reservable_bw", "pyNTM/flex_model.py: get_all_paths_reservable_bw"]}
{"id": "C60", "title": "Path normalisation is the product of the hops", "statement": "_normalize_multidigraph_paths turns each hop-choice list into exactly all combinations picking one interface per hop, in order, no combination lost or duplicated.", "quantifier": "every list of hop choices", "why_tests_cant": "unbounded sizes", "anchors": ["pyNTM/flex_model.py: _normalize_multidigraph_paths"]}
{"id": "C61", "title": "Guardrails", "statement": "No sequence of constructor calls and attribute assignments yields an interface with cost < 1 or capacity <= 0, a demand created with negative traffic or an LSP manual metric < 1; a rejected assignment leaves the old value.", "quantifier": "every sequence of attempts", "why_tests_cant": "all values and sequences", "anchors": ["pyNTM/interface.py: cost, capacity", "pyNTM/demand.py: Demand.__init__", "pyNTM/rsvp.py: manual_metric", "pyNTM/node.py: failed, igp_shortcuts_enabled"]}
{"id": "C62", "title": "Utilization", "statement": "utilization is 'Int is down' exactly for failed interfaces after a simulation, otherwise 100*traffic/capacity within 0.005, and is non-negative and non-decreasing in traffic.", "quantifier": "every traffic and capacity", "why_tests_cant": "all numbers", "anchors": ["pyNTM/interface.py: utilization"]}
{"id": "C63", "title": "find_end_index finds the first blank line", "statement": "find_end_index(i, lines) is the least index >= i of an empty line, or None if there is none.", "quantifier": "every list of lines and start index", "why_tests_cant": "all inputs", "anchors": ["pyNTM/utilities.py: find_end_index"]}
{"id": "C64", "title": "Loading yields unique nodes, interfaces, demands and LSPs", "statement": "A model returned by load_model_file has pairwise distinct node names, interface (name,node) keys, demand keys and LSP keys, every interface endpoint, demand endpoint and LSP endpoint is a node object of the model itself (not a copy), and the first line with a given key wins.", "quantifier": "every input file accepted by the loader", "why_tests_cant": "all file contents", "anchors": ["pyNTM/performance_model.py: load_model_file, _extract_interface_data_and_implied_nodes", "pyNTM/master_model.py: _add_demand_from_data, _add_lsp_from_data, _add_node_from_data"]}
{"id": "C65", "title": "Flex loader requires each circuit_id exactly twice", "statement": "FlexModel.load_model_file raises unless each circuit_id column value occurs on exactly two interface lines.", "quantifier": "every input file", "why_tests_cant": "all file contents", "anchors": ["pyNTM/flex_model.py: load_model_file"]}
{"id": "C66", "title": "Unknown nodes are rejected", "statement": "load_model_file raises ModelException if a demand or LSP line names a node that no interface or node line introduced.", "quantifier": "every input file", "why_tests_cant": "all file contents", "anchors": ["pyNTM/master_model.py: _add_demand_from_data, _add_lsp_from_data"]}
{"id": "C67", "title": "Model file round trip", "statement": "Writing a model as the documented tab-separated tables and loading it yields the same interfaces, nodes, demands and LSPs.", "quantifier": "every well-formed model description", "why_tests_cant": "all models", "anchors": ["pyNTM/performance_model.py: load_model_file", "pyNTM/flex_model.py: load_model_file"]}
{"id": "C68", "title": "A disregarded duplicate line has no effect", "statement": "An interface line whose (name,node) key was already seen changes nothing. (False: its remote node is still created.)", "quantifier": "every input file", "why_tests_cant": "all file contents", "anchors": ["pyNTM/performance_model.py: _extract_interface_data_and_implied_nodes"]}
{"id": "C69", "title": "IGP shortcut substitution preserves connectivity", "statement": "Replacing the stretch of an interface path between an LSP's source and destination by the LSP yields a path that still leads contiguously from the demand's source to its destination, one result per combination of parallel LSPs.", "quantifier": "every path and list of LSP groups in path order", "why_tests_cant": "unbounded path lengths and group sizes", "anchors": ["pyNTM/flex_model.py: _insert_lsps_into_path"]}
{"id": "C70", "title": "Traffic is conserved with IGP shortcuts", "statement": "path_traffic values of a demand using IGP shortcuts add up to the demand's traffic. (False: paths that contain only some of the last examined node path's shortcuts are left unsubstituted and traffic is lost.)", "quantifier": "every topology with shortcuts", "why_tests_cant": "depends on ECMP structure and iteration order", "anchors": ["pyNTM/flex_model.py: find_igp_shortcuts, _insert_lsp_shortcuts, _demand_traffic_per_item"]}
{"id": "C71", "title": "RSVP-disabled interfaces still carry IGP traffic", "statement": "rsvp_enabled=False only excludes an interface from LSP paths. (False: such an interface has reservable bandwidth -1 and is excluded from IGP routing as well, so demands that need it are Unrouted.)", "quantifier": "every model with RSVP-disabled interfaces", "why_tests_cant": "interaction of two features", "anchors": ["pyNTM/interface.py: reservable_bandwidth", "pyNTM/performance_model.py: _make_weighted_network_graph", "pyNTM/flex_model.py: _make_weighted_network_graph_mdg"]}
{"id": "C72", "title": "Independent models do not share state", "statement": "Two models constructed without arguments are independent. (False: the mutable default sets are shared, so adding a node to one adds it to the other.)", "quantifier": "every sequence of operations on two models", "why_tests_cant": "aliasing across objects", "anchors": ["pyNTM/master_model.py: _MasterModel.__init__", "pyNTM/performance_model.py: PerformanceModel.__init__", "pyNTM/flex_model.py: FlexModel.__init__"]}
{"id": "C73", "title": "A simulation changes only results, even when it raises", "statement": "update_simulation(), whether it returns or raises, leaves the topology and the configuration unchanged: the collections of nodes, interfaces, demands, LSPs and SRLGs, the names, costs, capacities, end points and SRLG memberships, and the source, destination and traffic of every demand.", "quantifier": "every model state and every point at which update_simulation() raises", "why_tests_cant": "ranges over all states and all exception points", "anchors": ["pyNTM/performance_model.py: update_simulation", "pyNTM/flex_model.py: update_simulation"]}
{"id": "C74", "title": "Interface traffic with IGP shortcuts", "statement": "In a FlexModel the traffic of every interface that is up is the sum over all demands of: the demand's traffic divided by the number of LSPs it rides end to end, for each of these that crosses the interface; or, if it does not ride LSPs end to end, the path_traffic of its paths through the interface plus, for every LSP on its paths that crosses the interface, the path_traffic of the paths through the LSP, rounded to one decimal.", "quantifier": "every FlexModel, with or without IGP shortcuts, and every interface", "why_tests_cant": "all topologies, LSP placements and ECMP structures", "anchors": ["pyNTM/flex_model.py: _update_interface_utilization, _demand_traffic_per_item"]}
{"id": "C75", "title": "Hop-by-hop equal split with IGP shortcuts", "statement": "At every node between a demand's end points as much of its traffic arrives over interfaces and LSPs as leaves; and where the demand's cheapest paths agree on the LSP end points they visit, the traffic through a node divides equally among the interfaces and LSPs by which its paths leave the node.", "quantifier": "every FlexModel, demand and node", "why_tests_cant": "all ECMP structures", "anchors": ["pyNTM/flex_model.py: _demand_traffic_per_item, find_igp_shortcuts, _insert_lsp_shortcuts"]}
{"id": "C77", "title": "Impact of a failure on demands", "statement": "In a model without RSVP LSPs, compare update_simulation() before and after some interfaces (and nothing else) fail. A demand that was unrouted stays unrouted. A demand some of whose paths avoid every failed interface is carried by exactly those of its paths. A demand none of whose paths survives is unrouted or moves to paths that are all dearer than before. A demand all of whose paths survive keeps them and puts the same traffic on every interface.", "quantifier": "every model of either class without RSVP LSPs (and, for FlexModel, without IGP shortcuts), every set of added failures, every demand", "why_tests_cant": "all topologies, metrics, ECMP structures and failure sets", "anchors": ["pyNTM/performance_model.py: update_simulation, _route_demands", "pyNTM/flex_model.py: update_simulation, _route_demands", "pyNTM/master_model.py: fail_interface"]}
{"id": "C78", "title": "Superposition of demands", "statement": "Without RSVP LSPs, demands do not influence one another: when the demands of one model are those of two others on the same network taken together, every demand takes the same paths as alone and every interface that is up carries the sum of its traffic in the two. Adding demands therefore changes no other demand, and each interface gains exactly what the added demands put on it.", "quantifier": "every network without RSVP LSPs (and, for FlexModel, without IGP shortcuts), every two sets of demands, every interface", "why_tests_cant": "all topologies and all pairs of demand sets", "anchors": ["pyNTM/performance_model.py: _route_demands, _update_interface_utilization", "pyNTM/flex_model.py: _route_demands, _update_interface_utilization"]}
{"id": "C79", "title": "Only the proportions of costs matter", "statement": "Without RSVP LSPs, multiplying every interface cost by the same factor of at least one, and changing interface names, capacities and reservable percentages, changes neither the paths of any demand nor the traffic of any interface.", "quantifier": "every network without RSVP LSPs (and, for FlexModel, without IGP shortcuts), every factor, every demand and interface", "why_tests_cant": "all topologies, cost assignments and factors", "anchors": ["pyNTM/performance_model.py: _route_demands, _make_weighted_network_graph_mpls", "pyNTM/flex_model.py: _route_demands, _make_weighted_network_graph_igp"]}
{"id": "C80", "title": "Bounds on what a demand puts on an interface", "statement": "What a demand puts on an interface is never negative and never more than the demand's traffic (up to rounding in a PerformanceModel); it is zero if none of its paths goes over the interface and all of the traffic if each of them does. Hence the traffic of an interface is at most the total traffic of the demands whose paths go over it.", "quantifier": "every model (FlexModel without IGP shortcuts), every demand and interface", "why_tests_cant": "all ECMP structures and LSP placements", "anchors": ["pyNTM/performance_model.py: _update_interface_utilization, _demand_traffic_per_int", "pyNTM/flex_model.py: _update_interface_utilization, _demand_traffic_per_item"]}
{"id": "C81", "title": "Balance of traffic at every node", "statement": "After update_simulation(), at every node the traffic on the interfaces leaving it less the traffic on the interfaces entering it equals the traffic of the routed demands that start there less the traffic of those that end there.", "quantifier": "every FlexModel without IGP shortcuts and every node", "why_tests_cant": "all topologies, ECMP structures and LSP placements", "anchors": ["pyNTM/flex_model.py: _update_interface_utilization, _demand_traffic_per_item", "pyNTM/rsvp.py: RSVP_LSP.demands_on_lsp"]}
{"id": "C76", "title": "Running a simulation again", "statement": "After a successful update_simulation(), calling it again with the same random choices succeeds and gives the same paths, traffic, reservations, failure states and circuits. If the first run needed no random choice, it can be repeated any number of times with the same results.", "quantifier": "every model of either class, with or without LSPs and IGP shortcuts, and every number of repetitions", "why_tests_cant": "all topologies, LSP placements and numbers of repetitions", "anchors": ["pyNTM/performance_model.py: update_simulation", "pyNTM/flex_model.py: update_simulation", "pyNTM/master_model.py: _route_lsps"]}
{"id": "C82", "title": "What-if analysis leaves no trace", "statement": "Simulate, fail an interface that is up, simulate, restore the interface, and simulate with the random choices of the first run: the last simulation succeeds and its results (demand and LSP paths, traffic, reservations, failure states) are those of the first.", "quantifier": "every model of either class, with or without LSPs and IGP shortcuts, every interface that is up, and all choices made in between", "why_tests_cant": "all topologies, LSP placements and failures", "anchors": ["pyNTM/master_model.py: fail_interface, unfail_interface", "pyNTM/performance_model.py: update_simulation", "pyNTM/flex_model.py: update_simulation"]}
{"id": "C83", "title": "The map draws the network", "statement": "The elements of the map page hold one edge per interface, showing its node, name, cost, capacity, circuit id and utilization, one node per node at its scaled position, and one midpoint per circuit halfway between its ends; distinct elements have distinct ids. (False for interfaces with negative reservable bandwidth and for nodes without interfaces, which are not drawn, and for names with hyphens, whose midpoints can collide.)", "quantifier": "every validated model", "why_tests_cant": "all topologies and values", "anchors": ["pyNTM/weathermap.py: create_weathermap, _make_json_midpoints, _make_json_node, _create_edges"]}
{"id": "C84", "title": "Map colours follow the legend", "statement": "The colour of an edge is the legend colour of the range its utilization lies in, grey if the interface is down; and every utilization gets a colour. (The second part is false: utilizations strictly between two ranges, such as 24.5, get none.)", "quantifier": "every utilization", "why_tests_cant": "a continuum of values", "anchors": ["pyNTM/weathermap.py: _get_util_color, util_ranges"]}
{"id": "C85", "title": "Menus of the map page are exact", "statement": "The source and destination menus for demands and LSPs list, sorted and without repetition, exactly the end points that occur, and with one end selected exactly the other ends that go with it; the objects offered are exactly those that fit the selection. (False with hyphens in node names: the page raises ValueError.)", "quantifier": "every model and selection", "why_tests_cant": "all models and selections", "anchors": ["pyNTM/weathermap.py: get_sources, get_destinations, demand_sources_and_destinations, lsp_sources_and_destinations, make_node_list, display_demand_dropdowns, display_lsp_dropdowns"]}
{"id": "C88", "title": "Parallel demands take the same paths", "statement": "After a successful simulation any two demands with the same source and destination have identical path lists, or are both unrouted.", "quantifier": "every model and pair of demands", "why_tests_cant": "all topologies, LSP layouts and demand orders", "anchors": ["pyNTM/performance_model.py: _route_demands", "pyNTM/flex_model.py: _route_demands"]}
{"id": "C89", "title": "unfail_node restores the node and its circuits", "statement": "When unfail_node returns, the node is up, the other nodes and SRLGs are unchanged, every interface from or to it whose other end is up is up, interfaces that do not touch it or have a failed end keep their status, and nothing has failed.", "quantifier": "every validated failure state and node", "why_tests_cant": "all failure patterns", "anchors": ["pyNTM/master_model.py: unfail_node, unfail_interface", "pyNTM/node.py: failed"]}
{"id": "C90", "title": "Queries about circuits, nodes and demands agree", "statement": "In a validated model Circuit.failed holds exactly if both interfaces are failed and Circuit.circuit_id is the id of both; Interface.get_circuit_object finds the circuit of the interface; a node is an orphan exactly if no circuit ends at it; get_failed_node_objects and get_non_failed_node_objects partition the nodes; and the demands returned both by source and by destination are exactly the parallel group of the pair. (The last needs node names whose keys do not collide.)", "quantifier": "every validated model", "why_tests_cant": "all models", "anchors": ["pyNTM/circuit.py: Circuit", "pyNTM/interface.py: get_circuit_object", "pyNTM/master_model.py: is_node_an_orphan, get_failed_node_objects, get_non_failed_node_objects, get_demand_objects_source_node, get_demand_objects_dest_node, parallel_demand_groups"]}
{"id": "C86", "title": "Selecting a demand or LSP highlights its path", "statement": "After a simulation, selecting a demand on the map page highlights exactly the edges of the interfaces this demand crosses, directly or inside an LSP it rides, and the edges of the opposite interfaces; selecting an LSP highlights exactly the edges of its path and the edges back; selecting something unrouted highlights nothing; the nodes highlighted are exactly the ends of the highlighted edges. (False for circuit ids such as 1 and '1' that read the same, before the first simulation, and for the helper that collects the interfaces, which returns the characters of the word Unrouted.)", "quantifier": "every simulated model, demand and LSP", "why_tests_cant": "all topologies, LSP layouts and selections", "anchors": ["pyNTM/weathermap.py: find_demand_interfaces_and_lsps, get_lsp_interface_data, update_stylesheet, display_selected_demand_data, display_selected_lsp"]}
{"id": "C87", "title": "Clicking an edge names the right interface", "statement": "The destination shown for an edge clicked on the map is the node at the other end of the interface that the edge shows. (False with hyphens in node names, where it can be a name that is no node, and for a circuit from a node to itself, where the page raises IndexError.)", "quantifier": "every validated model and edge", "why_tests_cant": "all topologies and names", "anchors": ["pyNTM/weathermap.py: display_selected_edge, create_elements"]}
{"id": "C91", "title": "The lists of the map page are exact", "statement": "After a simulation the lists on the map page are exact: the interfaces of the selected node, the LSPs and the demands on the selected interface, the demands on the selected LSP, the interfaces and LSPs of the selected demand, and the interfaces of the selected LSP. Each list has an entry for every such object and for no other, and choosing an entry selects the object it stands for and shows that object's ends, name, circuit id, cost and utilization.", "quantifier": "every simulated model of either class and every selected node, interface, LSP and demand", "why_tests_cant": "all topologies, LSP layouts and selections", "anchors": ["pyNTM/weathermap.py: interfaces_on_node, lsps_on_interface, demands_on_interface, demands_on_lsp, demand_interfaces, lsp_interfaces, display_selected_edge, format_interfaces_for_display, format_objects_for_display"]}
{"id": "C92", "title": "Floating point cannot move interface load far", "statement": "Computing interface load in Python floats instead of exact numbers never decides whether update_simulation() completes and changes no path and no down status, in both model classes. In a FlexModel without IGP shortcuts, on an interface crossed by n paths of demands it changes the load by at most a fraction (n + 1) / 2^52, so that even a million paths cost less than 3e-10. The rounding of each addition and division is that of IEEE 754 double precision without overflow and underflow; LSP signalling is taken as exact.", "quantifier": "every model, every interface, every order of demands, every rounding (paths and completion) and every rounding with bounded relative error (load)", "why_tests_cant": "all traffic values and all sums of any length", "anchors": ["pyNTM/flex_model.py: _update_interface_utilization, _update_int_traffic_for_end_to_end_lsps, _demand_traffic_per_item", "pyNTM/interface.py: traffic"]}
{"id": "C93", "title": "Raising a cost moves only what it must", "statement": "In a model without RSVP LSPs (and without IGP shortcuts), raise the cost of interfaces and simulate again. A demand is routed exactly if it was. A demand none of whose paths uses a raised interface keeps its paths and puts the same traffic on every interface. If only some of its paths used one, it is carried by exactly the others. If all did, its new paths cost more than its paths did before. An interface that costs more than a demand's way round it carries nothing of the demand: costing out is as good as failing.", "quantifier": "every well-formed model of both classes, every set of interfaces and raised costs, every demand", "why_tests_cant": "all topologies, all cost changes", "anchors": ["pyNTM/interface.py: cost", "pyNTM/performance_model.py: update_simulation", "pyNTM/flex_model.py: update_simulation"]}
{"id": "C94", "title": "More demand never means less load", "statement": "On the same network without RSVP LSPs (and without IGP shortcuts), adding demands or raising the traffic of demands changes no path of the demands there were and lowers the traffic of no interface, in spite of the PerformanceModel's rounding of every share.", "quantifier": "every well-formed model of both classes, all added demands and raised traffic values", "why_tests_cant": "all topologies and traffic values, including those next to a rounding boundary", "anchors": ["pyNTM/performance_model.py: update_simulation, _update_interface_utilization", "pyNTM/flex_model.py: update_simulation, _update_interface_utilization"]}
{"id": "C95", "title": "Symmetric costs give symmetric routing", "statement": "If every interface has a reverse with the same cost, capacity and RSVP settings, then in a model without RSVP LSPs (and without IGP shortcuts) two demands between the same nodes in opposite directions are both routed or both unrouted, and the paths of the one are the paths of the other over the same circuits in the opposite direction and order.", "quantifier": "every well-formed model of both classes with symmetric circuits, every pair of opposite demands", "why_tests_cant": "all topologies", "anchors": ["pyNTM/performance_model.py: update_simulation", "pyNTM/flex_model.py: update_simulation", "pyNTM/circuit.py: Circuit"]}
{"id": "C96", "title": "Forwarding is by destination", "statement": "In a model without RSVP LSPs (and without IGP shortcuts), where a path of a demand passes the source of another demand to the same destination, the rest of the path is a path of the other demand, and every path of the other demand completes the first part to a path of the first. Two demands to the same destination that both pass a node leave it over the same interfaces.", "quantifier": "every well-formed model of both classes, every pair of demands to one destination, every node on their way", "why_tests_cant": "all topologies and path sets", "anchors": ["pyNTM/performance_model.py: update_simulation, _convert_nx_path_to_model_path", "pyNTM/flex_model.py: update_simulation, _get_all_paths_mdg"]}
{"id": "C97", "title": "Adding a circuit never hurts routing", "statement": "In a model without RSVP LSPs (and without IGP shortcuts), simulate, add interfaces (for instance a circuit with add_circuit) and simulate again. A routed demand stays routed. If one of its new paths avoids the new interfaces, its old paths are exactly the new paths that do. Otherwise every new path is cheaper than every old one.", "quantifier": "every well-formed model of both classes, every circuit added, every demand", "why_tests_cant": "all topologies, all circuits", "anchors": ["pyNTM/performance_model.py: add_circuit, update_simulation", "pyNTM/flex_model.py: add_circuit, update_simulation"]}
{"id": "C98", "title": "LSPs do not disturb the demands that ride none", "statement": "After a simulation without IGP shortcuts, LSPs or not, a demand between whose end points no LSP is routed takes exactly the cheapest paths over the interfaces that are up and not RSVP-disabled, and is unrouted exactly if there is none: reservations, setup bandwidths and the traffic of LSPs never change where it goes. In particular two models that differ only in their LSPs and in the state earlier simulations left route such a demand over the same paths with the same traffic on every interface.", "quantifier": "every well-configured model of both classes, every set of LSPs whose setup bandwidth is no rounding tie, every demand without a routed LSP between its ends", "why_tests_cant": "all topologies, LSP sets, reservations and signalling orders", "anchors": ["pyNTM/performance_model.py: update_simulation, _route_demands", "pyNTM/flex_model.py: update_simulation, _route_demands", "pyNTM/rsvp.py: RSVP_LSP.route_lsp", "pyNTM/interface.py: reservable_bandwidth"]}
{"id": "C99", "title": "Traffic across any cut balances", "statement": "After a FlexModel simulation without IGP shortcuts, take any set of nodes: the traffic on the interfaces leaving it minus the traffic on the interfaces entering it is the traffic of the routed demands from inside to outside minus that of the routed demands from outside to inside. (False when an LSP is re-signalled over parallel links, whose traffic then counts on each of them.)", "quantifier": "every tidy FlexModel, every set of nodes, every environment", "why_tests_cant": "all topologies and all sets of nodes", "anchors": ["pyNTM/flex_model.py: update_simulation, _update_interface_utilization", "pyNTM/interface.py: traffic", "pyNTM/rsvp.py: RSVP_LSP"]}
{"id": "C100", "title": "A cut carries at least the demand across it", "statement": "After a FlexModel simulation without IGP shortcuts and with no negative traffic, the interfaces leaving a set of nodes carry together at least the traffic of the routed demands from inside to outside, parallel links and re-signalled LSPs included. So if these demands exceed the capacity leaving the set, some interface leaving it is loaded above its capacity: the simulator never hides an overload.", "quantifier": "every tidy FlexModel with non-negative traffic, every set of nodes, every environment", "why_tests_cant": "all topologies and all sets of nodes", "anchors": ["pyNTM/flex_model.py: update_simulation, _update_interface_utilization", "pyNTM/interface.py: traffic, capacity, utilization"]}
{"id": "C101", "title": "Whole numbers are simulated as if exactly", "statement": "The simulator computes in Python floats throughout: LSP bandwidths, reservations, reservable bandwidth, the choice of usable interfaces, demand shares and validation. When all numbers given are whole and of moderate size (capacities, configured bandwidths and total traffic up to 10^9, whole percentages, at most 10000 LSPs, at most 100 between the same nodes), no bandwidth or reservation limit is halfway between two tenths, and a bandwidth that differs from the first one by whole tenths is whole, the simulation completes and gives the result of exact arithmetic: the same paths of LSPs and demands, the same interfaces down, the same reserved bandwidth on every interface and the same bandwidth of every LSP up to one rounding; in a FlexModel without IGP shortcuts also the same loads up to (n+1)/2^52. Limits halfway between tenths and bandwidths a few tenths apart do make a difference.", "quantifier": "every well-configured model of both classes within these numbers in which no two LSPs share both ends, or without parallel links and coinciding bandwidths; every environment", "why_tests_cant": "all topologies, all numbers in range and every accumulation of rounding errors along a run", "anchors": ["pyNTM/interface.py: reservable_bandwidth, reserved_bandwidth", "pyNTM/rsvp.py: RSVP_LSP.setup_bandwidth, find_rsvp_path_w_bw", "pyNTM/master_model.py: _route_parallel_lsp_groups, _optimize_parallel_lsp_group_res_bw, _reserved_bw_error_checks", "pyNTM/performance_model.py: update_simulation", "pyNTM/flex_model.py: update_simulation"]}
{"id": "C102", "title": "Lists by status, node and circuit are exact", "statement": "get_failed_interface_objects and get_unfailed_interface_objects together list every interface exactly once, by status. get_unrouted_demand_objects lists, after a simulation, exactly the demands without a routed LSP or usable path. get_node_interfaces lists exactly the interfaces leaving the node, and every interface is listed for exactly one node. In a validated model whose interfaces run RSVP, all_interface_circuit_ids holds exactly the ids of the circuits and adjacency of nodes is symmetric. validate_srlg_nodes never reports anything.", "quantifier": "every model state; where stated, every validated or simulated model", "why_tests_cant": "all topologies, failure patterns and memberships", "anchors": ["pyNTM/master_model.py: get_failed_interface_objects, get_unfailed_interface_objects, get_unrouted_demand_objects, get_node_interfaces, all_interface_circuit_ids", "pyNTM/node.py: Node.interfaces, Node.adjacent_nodes", "pyNTM/performance_model.py: validate_srlg_nodes"]}
{"id": "C103", "title": "Additions add exactly what was asked for", "statement": "A successful add_node, add_demand, add_rsvp_lsp or add_network_interfaces_from_list adds exactly the objects described: one node with the given coordinates; one demand between the model's nodes of the given names, with the given traffic; one unsignalled LSP; one idle interface per list entry and one node for each name in the list the model did not know. Every other object of the model is left as it was, up to the numbering of circuits in a PerformanceModel.", "quantifier": "every model whose circuits have ends that agree and every argument; list entries for new interfaces", "why_tests_cant": "all models and lists", "anchors": ["pyNTM/master_model.py: add_node, add_demand, add_rsvp_lsp, _make_network_interfaces", "pyNTM/performance_model.py: add_network_interfaces_from_list", "pyNTM/flex_model.py: add_network_interfaces_from_list"]}
{"id": "C104", "title": "Renaming an interface", "statement": "change_interface_name gives the interface with the current name on the node the new name and changes nothing else; it is then found under the new name and not under the old one, and (name, node) pairs stay unique. Renaming an interface that does not exist raises ModelException and changes nothing.", "quantifier": "every model and every triple of names", "why_tests_cant": "all models and names", "anchors": ["pyNTM/master_model.py: change_interface_name, get_interface_object"]}
{"id": "C105", "title": "Line ends of a model file do not matter", "statement": "load_model_file reads the same rows whether the lines of the file end in a newline, a carriage return or both, in any mixture, and whether or not the last line is ended; a description written with any of these line ends loads to a model that contains exactly the described objects.", "quantifier": "every list of lines and every choice of line ends; every description of a model of either class", "why_tests_cant": "all files and all mixtures of line ends", "anchors": ["pyNTM/performance_model.py: PerformanceModel.load_model_file", "pyNTM/flex_model.py: FlexModel.load_model_file"]}
{"id": "C106", "title": "After what-if sessions the status of the objects decides the results", "statement": "Take two sessions on the same model made of failures and repairs of interfaces, nodes and SRLGs (successful or not), validations and successful simulations. If the same interfaces and nodes are failed at their ends, then a simulation succeeds after one exactly if it does after the other, and with the same results. In particular, simulating after a session that put every status back gives the results of the first simulation.", "quantifier": "every valid model of either class, all pairs of finite sessions in any order, all choices made in between", "why_tests_cant": "unbounded histories of calls", "anchors": ["pyNTM/master_model.py: fail_interface, unfail_interface, fail_node, unfail_node, fail_srlg, unfail_srlg", "pyNTM/performance_model.py: update_simulation", "pyNTM/flex_model.py: update_simulation"]}
{"id": "C107", "title": "Failing an SRLG is failing its members, and failures commute", "statement": "fail_node and fail_interface calls on objects of the model always succeed, and the state they lead to does not depend on the order of the calls or on repetitions. fail_srlg leaves the model exactly as failing the SRLG's member nodes and interfaces one by one, in any order, and marking the SRLG as failed. A simulation after the one therefore succeeds exactly if it does after the other, with the same results.", "quantifier": "every well-formed model of either class, every SRLG, every list of failures in any order", "why_tests_cant": "all orders of all sets of failures on all models", "anchors": ["pyNTM/master_model.py: fail_node, fail_interface, fail_srlg", "pyNTM/performance_model.py: update_simulation", "pyNTM/flex_model.py: update_simulation"]}
{"id": "C108", "title": "Everything can be repaired", "statement": "After any what-if session (failures and repairs of interfaces, nodes and SRLGs, successful or not, validations and successful simulations), calling unfail_srlg for every SRLG, then unfail_node for every node, then unfail_interface for every interface, in any order within each of the three and ignoring any ModelException, leaves no interface, node or SRLG failed. If nothing was failed before the session, simulating after the repair (with the random choices of the first simulation) succeeds with the results of the first simulation. (The order of the three matters: repairing interfaces, then nodes, then SRLGs can leave a circuit failed.)", "quantifier": "every valid model of either class, every finite session, every order and repetition of the repair calls", "why_tests_cant": "unbounded histories and all orders of the repair calls", "anchors": ["pyNTM/master_model.py: unfail_interface, unfail_node, unfail_srlg", "pyNTM/interface.py: Interface.failed", "pyNTM/node.py: Node.failed"]}
{"id": "C109", "title": "Names do not matter", "statement": "Take two models of the same class without LSPs (and without IGP shortcuts) whose nodes, interfaces and demands correspond one to one: interfaces lead between corresponding nodes with the same cost, status and bandwidth, demands ask for the same traffic between corresponding nodes. Then, after update_simulation on both, every demand takes the corresponding paths (or is unrouted in both) and corresponding interfaces carry the same traffic, whatever the nodes, interfaces and demands are called and in whichever order they are listed.", "quantifier": "every pair of models that correspond, all iteration orders and random choices", "why_tests_cant": "all namings and orders of all networks", "anchors": ["pyNTM/performance_model.py: update_simulation, _route_demands", "pyNTM/flex_model.py: update_simulation, _route_demands"]}
{"id": "C110", "title": "Settings and status decide the results", "statement": "Take any two sessions on the same model made of failures, repairs, validations, successful simulations and assignments to interface costs, capacities, rsvp_enabled and percent_reservable_bandwidth, demand traffic, LSP configured_setup_bandwidth and manual_metric, and node igp_shortcuts_enabled. If they end with the same settings and the same interfaces and nodes failed, update_simulation succeeds after one exactly if it succeeds after the other, and then with the same results. In particular a session that puts every setting and status back leaves no trace in the next simulation.", "quantifier": "every model, all sessions of any length, also with calls and assignments that raise", "why_tests_cant": "all sequences of calls and assignments", "anchors": ["pyNTM/interface.py: cost, capacity", "pyNTM/rsvp.py: manual_metric", "pyNTM/node.py: igp_shortcuts_enabled", "pyNTM/performance_model.py: update_simulation", "pyNTM/flex_model.py: update_simulation"]}
{"id": "C111", "title": "Only the traffic matrix matters (FlexModel)", "statement": "Two FlexModels without LSPs and IGP shortcuts on the same network, whose demands add up to the same traffic from every node to every other, put the same traffic on every interface, however the traffic is cut into demands. (False of the PerformanceModel, which rounds per demand.)", "quantifier": "every network, every pair of sets of demands, all iteration orders", "why_tests_cant": "all ways to cut traffic into demands", "anchors": ["pyNTM/flex_model.py: update_simulation, _update_interface_utilization", "pyNTM/performance_model.py: _update_interface_utilization"]}
{"id": "C112", "title": "Exactly which models validation accepts", "statement": "validate_model() succeeds if and only if: node names are unique; no interface reserves more than its capacity; what an interface reserves is, rounded to one decimal, the sum of what the routed LSPs hold on it, and LSP routes use interfaces of the model; a PerformanceModel has no node with IGP shortcuts and no two interfaces whose end names, joined by a hyphen, read the same; in a FlexModel an RSVP interface has a circuit id that no parallel interface has; and every RSVP interface has exactly one opposite interface (in a FlexModel with its circuit id), of the same capacity, as well as some opposite interface that runs RSVP. The verdict does not depend on the iteration order of sets. A PerformanceModel that is accepted is accepted as a FlexModel if the ends of its circuits carry the same circuit id.", "quantifier": "every model of either class, with or without LSPs, in any state (a FlexModel's interfaces having circuit ids), and every iteration order", "why_tests_cant": "an equivalence over all models and states: tests can only sample accepted and rejected ones", "anchors": ["pyNTM/performance_model.py: validate_model, _make_circuits, _multiple_links_between_nodes", "pyNTM/flex_model.py: validate_model, _make_circuits_multidigraph", "pyNTM/master_model.py: _make_int_info_dict, _reserved_bw_error_checks", "pyNTM/node.py: igp_shortcuts_enabled"]}
{"id": "C113", "title": "Traffic times distance (FlexModel)", "statement": "After update_simulation() of a FlexModel without IGP shortcuts, for any lengths given to the interfaces, the sum over the interfaces of length times traffic equals the sum over the demands and their paths of path_traffic times the length of the path, an LSP counting with all its hops. Without LSPs, the sum over the interfaces of cost times traffic is the sum over the demands of traffic times the cost of a cheapest path, and no other way to split the demands over paths of usable interfaces has a smaller sum.", "quantifier": "every FlexModel without IGP shortcuts, with or without LSPs, every assignment of lengths, and (for the minimum) every alternative split of the demands over paths", "why_tests_cant": "all topologies, demands and alternative routings", "anchors": ["pyNTM/flex_model.py: _update_interface_utilization, _get_demand_path_details, _route_demands", "pyNTM/flex_model.py: update_simulation"]}
{"id": "C114", "title": "Cheapest paths compose", "statement": "In a model without LSPs and IGP shortcuts, after update_simulation(), for demands A to B, B to C and A to C: if the first two are routed, so is the third, and its paths cost at most as much as one of each of the others together. If they cost just as much, every path A to B followed by every path B to C is a path of the third demand. Where a path of the third demand passes B, its two parts are paths of the other demands, and the costs add up.", "quantifier": "every model of either class without LSPs and IGP shortcuts and every three such demands", "why_tests_cant": "all topologies, failures and triples of demands", "anchors": ["pyNTM/performance_model.py: _route_demands, update_simulation", "pyNTM/flex_model.py: _route_demands, update_simulation"]}
{"id": "C115", "title": "Without ties the random seed does not matter", "statement": "If no two different loop-free paths between the ends of an LSP, over interfaces that are up and RSVP-enabled, cost the same, then update_simulation() draws no random number and its outcome is the same for every state of the random number generator: the same results or the same exception. It can then be repeated any number of times with the same results. With a tie, two seeds can load different links.", "quantifier": "every model of either class without such ties (a PerformanceModel without parallel links), every two random sequences, every number of repetitions", "why_tests_cant": "all topologies, LSP configurations and random sequences", "anchors": ["pyNTM/performance_model.py: _determine_lsp_state_info, update_simulation", "pyNTM/flex_model.py: _determine_lsp_state_info, update_simulation", "pyNTM/rsvp.py: find_rsvp_path_w_bw"]}
{"id": "C116", "title": "Paths have no loops, and stubs carry no transit traffic", "statement": "After update_simulation() every routed LSP follows a path that visits no node twice. Without IGP shortcuts so does every path of every routed demand, followed through the LSPs on it. So a node whose circuits all lead to one neighbour carries no transit traffic: a path that leaves it belongs to a demand that starts there, and a path that enters it to a demand that ends there. In a FlexModel without parallel links, or with each group of LSPs signalled all or none, the interfaces of such a node carry exactly the traffic of the routed demands from it, and those towards it exactly the traffic of the routed demands to it. With IGP shortcuts a path can pass a node twice.", "quantifier": "every model of either class, every LSP, demand, path and such node; end points whose names spell pairs unambiguously", "why_tests_cant": "all topologies, LSP layouts, failures and demands", "anchors": ["pyNTM/performance_model.py: update_simulation, _route_demands, _determine_lsp_state_info", "pyNTM/flex_model.py: update_simulation, _route_demands, _determine_lsp_state_info", "pyNTM/rsvp.py: find_rsvp_path_w_bw"]}
{"id": "C117", "title": "A bridge carries exactly the traffic between its sides", "statement": "Without IGP shortcuts, where all circuits between a set of nodes and the rest of the network connect the same two nodes, a path crosses from one side to the other only for demands that go that way. In a FlexModel without parallel links, or with each group of LSPs signalled all or none, those circuits carry in each direction exactly the traffic of the routed demands in that direction. Where every interface leading out of a set of nodes is down, no demand and no LSP from the set to the rest is routed.", "quantifier": "every model of either class, every set of nodes, demand, LSP and path; end points whose names spell pairs unambiguously", "why_tests_cant": "all topologies, sets of nodes, LSP layouts, failures and demands", "anchors": ["pyNTM/performance_model.py: update_simulation, _route_demands", "pyNTM/flex_model.py: update_simulation, _route_demands", "pyNTM/interface.py: traffic"]}
{"id": "C118", "title": "What lies beyond a bridge does not matter", "statement": "Take two well-formed models of one class without IGP shortcuts that agree on the interfaces within a set of nodes (end points, cost, state, RSVP setting), where in each all circuits between the set and the rest connect the same two nodes. A demand within the set that rides no LSP takes the same paths in both and puts the same traffic on every interface: nodes, circuits, failures, demands and LSPs beyond the bridge do not matter, nor do LSPs between other nodes.", "quantifier": "every pair of well-formed models of either class, every set of nodes and every demand within it; no setup bandwidth exactly halfway between two tenths", "why_tests_cant": "all pairs of networks that agree on one side of a bridge, and all demands there", "anchors": ["pyNTM/performance_model.py: update_simulation, _route_demands", "pyNTM/flex_model.py: update_simulation, _route_demands", "pyNTM/demand.py: path, path_detail"]}
{"id": "C119", "title": "What is reserved on a bridge", "statement": "Where all circuits between a set of nodes and the rest of the network connect the same two nodes, the path of a routed LSP crosses from one side to the other if and only if the LSP leads that way. Where it is one circuit alone, the reserved_bandwidth of its interface in each direction is the sum of what the routed LSPs in that direction hold, each rounded to a tenth.", "quantifier": "every model of either class, every set of nodes and every LSP, whenever update_simulation() succeeds; interface names unique on their node", "why_tests_cant": "all topologies, sets of nodes, LSP layouts, bandwidths and orders of signalling", "anchors": ["pyNTM/performance_model.py: update_simulation, validate_model", "pyNTM/flex_model.py: update_simulation, validate_model", "pyNTM/rsvp.py: path, reserved_bandwidth", "pyNTM/interface.py: reserved_bandwidth"]}
