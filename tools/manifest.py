"""Write MANIFEST.json from the theorem names in lean/Verif/Props and the notes below."""
import json, re, glob, os
root = os.path.dirname(os.path.dirname(os.path.abspath(__file__)))
# property -> (status, note)
NOTES = {
 "C01": ("proved", "Every environment, every Tidy model whose update_simulation() succeeds."),
 "C02": ("proved", "FlexModel without IGP shortcuts, parallel links included."),
 "C03": ("proved", "Both classes."),
 "C04": ("partial", "Proved in full for the PerformanceModel and for demands of the FlexModel. False for FlexModel LSPs (C04_flex_false): re-optimisation may use a failed parallel link; proved there without parallel links or without partly routed groups."),
 "C05": ("proved", "FlexModel without IGP shortcuts, parallel links included; exact rationals instead of floats."),
 "C06": ("proved", "With a witness that the sum can differ."),
 "C07": ("partial", "Proved for the FlexModel. False for the PerformanceModel, whose path traffic is rounded (C07_equal_split_perf_false); proved there up to 0.00005 per path."),
 "C08": ("proved", "Both classes, in terms of path_detail."),
 "C09": ("proved", "Both classes; in a PerformanceModel the quotient is rounded to four decimals."),
 "C10": ("proved", "Every iteration order: demands are a list in arbitrary order."),
 "C11": ("proved", "Including the distance to the exact equal-split load."),
 "C12": ("proved", "Stated for two successful runs with arbitrary environments on models that list their nodes, interfaces and demands in different orders; without IGP shortcuts in the FlexModel."),
 "C13": ("proved", "The linear part holds for every rational factor; a demand without traffic adds no load in both classes, with or without LSPs."),
 "C14": ("proved", "Stated for two successful runs under the same environment, on models whose interfaces have unique (name, node) keys; LSP results, reservations and demand paths agree, and get_shortest_path() answers alike. Interface traffic may still differ by the PerformanceModel's rounding of each path's share (C07)."),
 "C55": ("proved", "Both classes, LSPs and IGP shortcuts included, same exception when the call raises; interfaces with unique (name, node) keys. The stated exception, path_detail of unrouted demands, is C55_path_detail_false."),
 "C21": ("proved", "Both classes, IGP shortcuts allowed; node names such that 'a-b' keys are unambiguous."),
 "C22": ("proved", "Both classes."),
 "C27": ("proved", "Both classes, without IGP shortcuts."),
 "C15": ("proved", "The property speaks of the moment an LSP is signalled: proved for every signalling step from any state. The final paths: C15_runs_along (every routed LSP of every simulation, parallel links included, contains a contiguous route of eligible interfaces and holds only interfaces parallel to it) and C15_final_paths_eligible_partial (re-optimisation over parallel FlexModel links is excluded, where it is false)."),
 "C16": ("proved", "Proved for every signalling step from any state and any random draw; C16_served_in_order_partial lifts it to whole simulations without partly routed groups and rounding ties."),
 "C17": ("proved", "Proved for every signalling step from any state; lifted to whole simulations by C16_served_in_order_partial."),
 "C18": ("proved", "Including the re-signalled bandwidth of LSPs in partly routed groups."),
 "C19": ("proved", "Proved without rounding ties, except where C25 is false; with ties the stated failure is exhibited."),
 "C20": ("proved", "At the end of LSP routing, for every schedule and environment."),
 "C25": ("partial", "False as stated (C25_reopt_false); holds when no LSP is re-signalled for the bandwidth it already has."),
 "C26": ("partial", "False as stated (C26_configured_false); holds when all LSPs of the group are routed."),
 "C28": ("proved", "Both classes, every environment, every Tidy model accepted by validate_model()."),
 "C29": ("partial", "Proved for models all of whose interfaces have non-negative reservable bandwidth and, in the FlexModel, unique circuit ids per node; false otherwise (C29_remote_false: UnboundLocalError)."),
 "C30": ("proved", "Rejection of parallel links, and a witness of the false alarm with hyphenated node names."),
 "C31": ("partial", "False of both classes: the duplicate-name report is a truthy string and never reaches the error branch. What holds: add_circuit rejects a taken name (C31_add_circuit_rejects_partial) and models built by the API have unique names (C48_unique_keys)."),
 "C32": ("partial", "False for RSVP-disabled interfaces (C32_unmatched_false); proved for interfaces with non-negative reservable bandwidth."),
 "C33": ("partial", "False when validation has to repair circuits whose ends disagree while an LSP reserves bandwidth on them (C33_validation_repeatable_false); proved when no end is repaired."),
 "C34": ("proved", "Both classes."),
 "C35": ("proved", "Both classes."),
 "C23": ("proved", "The metric that counts is the manual metric if there is one, else the cost of the path."),
 "C24": ("partial", "False while a configured metric has not been read: the first assignment is lost, and even rejected values are accepted silently (C24_assign_false, C24_bad_value_false); proved for every sequence of reads and assignments otherwise."),
 "C36": ("proved", "Both classes; stated for any wired model with matching circuit ids and for every validated model."),
 "C37": ("proved", "Both classes, any degree."),
 "C38": ("partial", "False as stated (C38_no_live_interface_on_dead_node_false): a node added to an already failed SRLG; proved for all histories, simulations included, that add no node to a failed SRLG."),
 "C39": ("proved", "All histories, simulations included, that keep interface membership fixed; the stated exception for Interface.remove_from_srlg is exhibited."),
 "C40": ("proved", "Both classes."),
 "C41": ("proved", "Every state; model.unfail_interface needs matching SRLG membership of the two ends (C46)."),
 "C42": ("partial", "False as stated (C42_members_of_failed_srlg_false), and for the assignment srlg.failed = True in every state (C42_assigned_false); proved for all histories, simulations included, that add nothing to a failed SRLG."),
 "C43": ("proved", "Models without routed LSPs; the stated failure with a routed LSP is exhibited."),
 "C44": ("proved", "Both classes."),
 "C45": ("proved", "Both classes, overlapping SRLGs; nodes as well as interfaces."),
 "C46": ("proved", "All histories of failure, repair, validation and membership calls."),
 "C47": ("partial", "False as stated (C47_rejected_false); proved: nothing changes when the duplicate check raises, and every other error comes from the trailing validation, which cannot raise on a model that validates after the addition."),
 "C48": ("proved", "All histories from the empty model and from any model with unique keys; from-list loading is excluded and shown to break it (C48_from_list_false)."),
 "C50": ("partial", "False with hyphenated names (C50_hyphen_false); proved whenever distinct name pairs give distinct keys, in particular when no name contains a hyphen."),
 "C51": ("partial", "False after add_rsvp_lsp (C51_stale_false); proved from a simulation until the next add_rsvp_lsp."),
 "C52": ("proved", "After every successful simulation, both classes; the stated exception before any simulation is exhibited."),
 "C54": ("proved", "Both classes; the degenerate circuit from a node to itself with one name is shown to break it (C54_self_circuit_false)."),
 "C69": ("proved", "The substitution itself for every path and list of groups, and the paths of every demand after every simulation of either class; node names must spell pairs unambiguously (C69_hyphens_false shows why)."),
 "C70": ("partial", "False as stated (C70_traffic_lost_false). Proved for every demand whose cheapest usable paths agree on the LSP end points they visit."),
 "C73": ("proved", "Every state, every outcome; also: interfaces that are down stay down, and a FlexModel keeps its circuit ids."),
 "C74": ("proved", "Every FlexModel whose node names spell pairs unambiguously."),
 "C56": ("partial", "False as stated: two parallel LSPs of which one does not fit (C56_parallel_lsps_false), a capacity that is not a multiple of 0.1 (C56_fine_capacity_false) and a circuit with RSVP disabled at one end (C56_rsvp_false) make update_simulation() raise. Proved for every order and random choice: no exception on well-formed models with capacities in tenths, no rounding ties, and either no two LSPs with the same ends or no parallel links and no coincidence of bandwidths; without LSPs no further condition."),
 "C75": ("proved", "Flow conservation for every model; the equal split under the stated agreement of the cheapest paths, for demands that do not ride LSPs end to end (those are C22)."),
 "C119": ("proved", "Both classes, without conditions on rounding ties: a run that ends in success has passed validation."),
 "C118": ("proved", "Both classes, with rounding; LSPs anywhere as long as they do not serve the demand itself."),
 "C117": ("proved", "Paths and partition for both classes; exact traffic for FlexModel, with C81's condition on LSPs."),
 "C116": ("proved", "Within the stated scope. A re-signalled LSP over parallel links lists interfaces parallel to the hops of its path (C15); it still follows one loop-free path. C116_shortcut_loop shows that the scope cannot include IGP shortcuts."),
 "C115": ("proved", "Equality of the whole outcome, exceptions included. C115_tie_matters shows that the hypothesis on ties is needed."),
 "C114": ("proved", "Both directions; demands must exist in the model for the paths to be observable."),
 "C113": ("proved", "Identity for all lengths, LSPs included; minimality for models without LSPs."),
 "C112": ("proved", "Both directions of the equivalence. C112_shortcuts_ignored_false records that the node documentation disagrees with the PerformanceModel's rule on IGP shortcuts (F55)."),
 "C111": ("proved", "Both simulations are assumed to succeed (see C56). `C111_performance_false` shows that the PerformanceModel does not have the property."),
 "C110": ("proved", "A metric is assigned only to an LSP without a pending configured metric (see C24). Simulations on the way are assumed to succeed; the last one is not."),
 "C109": ("proved", "Both simulations are assumed to succeed (see C56). LSPs are left out because their paths depend on random choices, IGP shortcuts because they need LSPs."),
 "C108": ("proved", "The simulations of the session must not over-reserve an interface (RsvpReady, see C20): validation skips interfaces with negative reservable bandwidth. The claim for the opposite order is false of the code and its negation is proved."),
 "C107": ("proved", "The members are any list that contains exactly the SRLG's nodes and interfaces of the model, with repetitions allowed."),
 "C105": ("proved", "Both classes; the model splits lines as Python's text mode and splitlines do for these line ends."),
 "C106": ("proved", "Generalises C82 to arbitrary sessions. The random choices of the compared simulations are the same; those in between are arbitrary."),
 "C102": ("proved", "Both classes. C102_circuit_ids_false shows that the condition on RSVP is needed: interfaces that do not run it are in no circuit but their ids are listed."),
 "C103": ("proved", "Both classes. Lists that name an interface the model already has are covered by C48_from_list_false."),
 "C104": ("partial", "False for a name that is taken on the node: nothing is raised and the renamed interface can no longer be looked up (C104_rename_clash_false). Proved for free names."),
 "C101": ("proved", "Both classes, with the rounding of IEEE 754 doubles at every operation. C101_no_rounding checks that the floating point model without rounding is the exact model; the two _false theorems show that the last two conditions on the numbers cannot be dropped. Overflow and underflow are not modelled."),
 "C98": ("proved", "Both classes. C98_igp_paths characterises the paths in one model; C98_bystanders compares two."),
 "C99": ("partial", "False when an LSP is re-signalled over parallel links (C99_cut_balance_false, as C81). Proved without parallel links, or when each group of LSPs is signalled all or none."),
 "C100": ("proved", "FlexModel, in exact rationals; no exception for parallel links is needed."),
 "C93": ("proved", "General form (C93_cost_impact, C93_unaffected), the calls (C93_raise_cost) and costing out against failing (C93_drained)."),
 "C94": ("proved", "Both classes; follows the monotonicity of Python's rounding through both roundings of the PerformanceModel."),
 "C95": ("proved", "Both classes. C95_load_false records that the symmetry of paths does not extend to loads (F56)."),
 "C96": ("proved", "Both classes; paths (C96_rest_of_path) and next hops (C96_same_next_hops)."),
 "C97": ("proved", "General form (C97_added_links) and the calls (C97_add_circuit)."),
 "C92": ("proved", "Any rounding with relative error u (C92_float_load) and 53-bit round-to-even (C92_double, roundBits_rounding); the floating point run completes exactly when the exact one does and takes the same paths for any rounding, in both classes, with IGP shortcuts too (C92_same_paths). LSP signalling exact; the size of the load error is not covered in the PerformanceModel, which rounds to decimals by design (C06, C11)."),
 "C91": ("proved", "Both classes; the model needs unique keys and wired ends, which every model built through the API has (C48)."),
 "C86": ("partial", "Proved for names of pairs that do not collide, interfaces with non-negative reservable bandwidth and, in a FlexModel, circuit ids that read differently on each node (automatic when they are numbers, num_textIds)."),
 "C87": ("partial", "Proved without hyphens and self circuits; both exceptions are proved as _false."),
 "C83": ("partial", "Proved for models without self circuits and with non-negative reservable bandwidth; the undrawn nodes and interfaces are proved as _false."),
 "C84": ("partial", "Soundness proved in full, completeness outside the gaps; the gap is proved as _false and C84_gaps gives exactly the uncoloured utilizations."),
 "C85": ("partial", "Proved for end points without hyphens; with hyphens the page raises (C85_hyphen_false)."),
 "C88": ("proved", "Both model kinds, with LSPs and IGP shortcuts."),
 "C89": ("proved", "From any state with the invariants of C38-C46; the theorem is about calls that return."),
 "C90": ("partial", "All parts in full except the parallel group part, which needs names that do not collide and is false otherwise (C90_demand_ends_false)."),
 "C76": ("proved", "Every successful run of a tidy model, LSPs and shortcuts included."),
 "C82": ("proved", "Every cycle whose calls return; C43 shows what happens without the simulation in the middle."),
 "C77": ("proved", "Models without LSPs; any set of added interface failures, and the concrete sequence simulate, fail_interface, simulate."),
 "C78": ("proved", "Models without LSPs. Paths are compared as collections without regard to order."),
 "C79": ("proved", "Models without LSPs; factors of at least one (costs are whole numbers)."),
 "C80": ("proved", "FlexModel exactly; PerformanceModel with the rounding error stated."),
 "C81": ("partial", "False when an LSP is re-signalled over parallel links: its path then holds all of them and its traffic is counted on each (C81_node_balance_false). Proved without parallel links, or when each group of LSPs is signalled all or none."),
 "C71": ("partial", "False as stated (C71_igp_ignores_rsvp_false). Proved instead, for every model: no demand is ever routed over an RSVP-disabled interface, and LSPs avoid them except through the FlexModel parallel-link conversion."),
 "C72": ("partial", "False as stated (C72_defaults_shared_false, C72_later_model_false); proved for every program for models constructed with all four collections given; what a method does to its own model is always what is described for a single model (C72_method_effect)."),
 "C64": ("partial", "False for a line from a new node to itself, whose remote node object is a copy (C64_self_loop_false); everything else is proved for every file and every reading of numbers, together with the exact set of accepted files."),
 "C65": ("proved", "Every file; any reading of numbers."),
 "C66": ("proved", "Every such file is rejected; ModelException when the unknown node is the first fault of the file."),
 "C67": ("proved", "From the text of the file; for any way of printing numbers that is read back, with decimal integers as an instance."),
 "C68": ("partial", "False as stated (C68_duplicate_line_false); proved when the remote node was named before."),
 "C49": ("proved", "For states whose interfaces sit on nodes of the model and whose SRLG names are unique."),
 "C53": ("proved", "Both classes, IGP shortcuts included; interface keys unique (identity of objects versus equality)."),
 "C57": ("proved", "PerformanceModel; unknown nodes raise."),
 "C58": ("partial", "False of FlexModel: costlier parallel links are included (C58_flex_false); proved that every cheapest path is included and, without parallel links, that nothing else is."),
 "C59": ("proved", "get_all_paths with and without failed interfaces; with parallel links and failed interfaces excluded the FlexModel still lists failed links (C59_flex_parallel_false)."),
 "C60": ("proved", "Membership, length and duplicates of the multidigraph path expansion."),
 "C61": ("proved", "Every sequence of attempts, starting from any state; exactly the values out of range are rejected. Type tests are types in the model."),
 "C62": ("proved", "Exact rational arithmetic instead of floats."),
 "C63": ("proved", "Every start index and list of lines."),
}
names = {}
for f in sorted(glob.glob(root + "/lean/Verif/Props/*.lean")):
    for m in re.finditer(r"^theorem (C\d\d+)_(\S+)", open(f).read(), re.M):
        names.setdefault(m.group(1), []).append(f"NTM.{m.group(1)}_{m.group(2)}")
claims = []
for p in sorted(set(names) | set(NOTES)):
    if p not in NOTES or p not in names: print("incomplete:", p); continue
    claims.append({"property": p, "status": NOTES[p][0], "theorems": names[p], "note": NOTES[p][1]})
json.dump({"claims": claims}, open(root + "/MANIFEST.json", "w"), indent=1)
ids = [json.loads(l)["id"] for l in open(root + "/properties.jsonl")]
print(len(claims), "claims; missing:", [i for i in ids if i not in names])
