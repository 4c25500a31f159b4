# Formal model of pyNTM (network_traffic_modeler_py3) in Lean 4

The code in `/repo/pyNTM` is a network simulator: a *model* object holds nodes,
interfaces, demands (traffic loads), RSVP LSPs (tunnels) and SRLGs (shared risk
groups); `update_simulation()` routes LSPs, routes demands, loads interfaces and
validates the result.  `/verif/lean/Verif` contains a hand-written executable
model of that code and the theorems about it.

(Generated by `tools/design.py` from `tools/design_head.md`, `tools/design_tail.md`, the
method notes in the script, `properties.jsonl` and `MANIFEST.json`.)

## 1. Trusted base

* Lean 4.33.0's kernel.
* Axioms: at most `propext`, `Classical.choice`, `Quot.sound`.  No axiom of our
  own, no `sorry`, no `native_decide`/`bv_decide`.  `AXIOMS.md` lists the axioms of every
  theorem named in `MANIFEST.json` (`tools/axioms.py` regenerates it).
* The reading of the Python code: every model definition cites the file and
  lines it models, and says where it simplifies.  `tools/coverage.py` lists, for every
  function of the package, the model files that cite it.
* Python semantics assumed by the model: sets iterate in some fixed but
  arbitrary order, exceptions unwind and keep earlier mutations, objects are
  references.
* networkx 2.4 (`all_shortest_paths`, `shortest_path_length`,
  `all_simple_paths`, `DiGraph`, `MultiDiGraph`) is not in `/repo`.  It is
  replaced by an executable reference enumeration (`Model/Graph.lean`),
  which is *proved* to return exactly the minimum-cost walks (resp. the simple
  paths up to the cutoff); that networkx does so too is trusted.

### Modelling conventions

* **Numbers.**  Python floats are idealised as exact rationals (`Rat`);
  `round(x, n)` is exact round-half-even to `n` decimals.  (Rounding *is*
  modelled, because several properties depend on it.)  `Model/Float.lean` repeats the load
  phase with a rounding after every operation, and C92 bounds what that changes in a FlexModel
  without shortcuts.  `Model/FloatLsp.lean` repeats the whole simulation that way, and C101 says
  when it gives the result of exact arithmetic.  Overflow and underflow are outside the model.
* **Heap.**  Objects live in heaps indexed by references (`Nat`), mutation is a
  heap update, aliasing is equality of references.  `interface.node_object` is a
  reference into the node heap, so a model whose interfaces refer to other Node
  objects than `model.node_objects` (which `add_network_interfaces_from_list`
  creates) is expressible.  `Model/Shared.lean` adds one more level: several model objects over
  a common heap of Python sets, to express the shared mutable default arguments (C72).
* **Sets.**  A Python set of objects is a duplicate-free list: its iteration
  order.  Theorems quantify over every list, hence every order.  Sets built
  during a computation (names of sources, ...) are ordered by the environment `Env`
  (`ordS`, `ordI`: an arbitrary permutation of the elements), so theorems hold for every such
  order.
* **Randomness.**  `random.choice` takes its index from `Env.rand`; theorems
  quantify over all environments, hence over all outcomes of all draws.
* **Exceptions.**  `Py α := EStateM Exn State α`: a raised exception keeps the
  state reached, as in Python.  `Exn` tells `ModelException` from the built-in exceptions the
  code runs into (`KeyError`, `ValueError`, ...), which several findings are about.
* **Files.**  The loader works on the text of the file: `splitLines` and `splitTab` are
  modelled; reading numbers (`int()`, `float()`) is a parameter (`Reader`) over which the
  theorems quantify, with a decimal reader as instance.

### What is not modelled

* Binary floating point outside `update_simulation` (C92, C101), `print`/`pprint` output, `display_*`, `__repr__`, timing.
* Of `weathermap.py`, the layout of the page, JSON encoding and the wiring of the Dash callbacks;
  the functions that compute what is drawn, listed, highlighted and looked up are modelled.
* The auxiliary model of non-failed interfaces built by `update_simulation` (only its demand
  set, which is the model's own, is used), and the write-back of a configured metric during
  routing (unobservable there, see `Lsp.manualView`).
* `isinstance` checks: the arguments are typed.
* Mutation of a hashed attribute (`change_interface_name` on an element of a set).

## 2. Layout

* `Verif/Model/*`  – the model (each definition cites `/repo`).
* `Verif/Spec/*`   – small specifications, independent of the model's helpers.
* `Verif/Proof/*`  – lemmas.
* `Verif/Props/*`  – the property theorems, one file per group, with an `example`
  beside each theorem showing that its hypotheses are met by a concrete state;
  negative results (`..._false`) carry concrete witnesses.
* `seeded/LOG.jsonl` – wrong programs tried against the theorems.

Properties that the code violates are kept with their intended statement; the
violation is proved from a concrete witness (theorem suffix `_false`) and the
part that does hold is proved with suffix `_partial`.

## 3. Properties: what is modelled, how it is proved

Nothing on the list is inexpressible in the model.

| id | property | modelled in | proof | status | file |
|---|---|---|---|---|---|
| C01 | IGP demand paths are exactly the shortest paths (PerformanceModel) | Model/Graph, Circuits, Demand, Sim | the enumeration returns exactly the minimal walks (Proof/Enumerate); the edges of the graph are the usable interfaces; transfer through the conversion of node paths to interfaces | proved | Props/Routing |
| C02 | IGP demand paths are exactly the shortest paths over parallel links (FlexModel) | Model/Graph, Circuits, Demand, Sim, Paths | as C01, with the product over parallel interfaces of a hop (Proof/Expand) | proved | Props/Routing |
| C03 | A demand is unrouted exactly when it cannot be carried | Model/Graph, Circuits, Demand, Sim | reachability over usable interfaces decides both branches of `_route_demands` | proved | Props/Routing |
| C04 | Nothing is routed over a failed interface | Model/Lsp, Demand, Sim | invariant of the LSP phase (Proof/LspInv), frame of the demand phase; negation by evaluation | partial | Props/Routing |
| C05 | ECMP conserves a demand's traffic exactly (FlexModel) | Model/Demand | induction on the distance to the destination in the graph of cheapest paths: shares leaving a node add up to the share entering it (Proof/Ecmp) | proved | Props/Load |
| C06 | ECMP conserves a demand's traffic up to rounding (PerformanceModel) | Model/Demand | C05 and a rounding bound per path | proved | Props/Load |
| C07 | Hop-by-hop equal split | Model/Demand, Sim | the split of an item is a product of out-degrees along any path reaching it | partial | Props/Load |
| C08 | Flow balance at every transit node | Model/Demand | contiguity of paths: every path through a node enters and leaves it once | proved | Props/Load |
| C09 | Splits are cumulative products and path_traffic is the smallest item share | Model/Demand | loop invariant of the split computation | proved | Props/Load |
| C10 | Interface traffic is the sum of the demands' contributions (FlexModel) | Model/Demand, Sim | fold invariant over the list of demands (Proof/LoadPhase, LoadSum) | proved | Props/Load |
| C11 | Interface traffic is the sum of the demands' contributions (PerformanceModel) | Model/Demand, Sim | as C10 with rounding bounds | proved | Props/Load |
| C12 | IGP results do not depend on set iteration order | Model/Sim | the characterisations of paths and load do not mention order; sums over permuted lists | proved | Props/Invariance |
| C13 | Load scales linearly with demand | Model/Sim | the characterisations of paths and load are linear in traffic | proved | Props/Invariance |
| C14 | PerformanceModel and FlexModel agree on simple topologies | Model/Sim, Paths | lock-step relation between the two classes (Proof/Twist*) | proved | Props/Agree |
| C15 | LSP paths are contiguous and eligible | Model/Lsp | one-step correctness of signalling for every reservation state; invariant over the LSP phase | proved | Props/Lsp |
| C16 | LSP paths are cheapest, then shortest | Model/Lsp | minimum lemmas over the candidate list, for every draw; replay of the signalling order (Props/Lsp) | proved | Props/Lsp |
| C17 | An LSP is unrouted only when no eligible path exists | Model/Lsp | emptiness of the candidate list is unreachability over eligible interfaces | proved | Props/Lsp |
| C18 | LSP setup bandwidth | Model/Lsp | invariant over the groups: `setup` is the configured value or the share | proved | Props/Lsp |
| C19 | Reservation ledger | Model/Lsp | ledger invariant with exact rounding arithmetic over all signalling and re-signalling steps (Proof/Ledger) | proved | Props/Lsp |
| C20 | Reservations never exceed what is reservable | Model/Lsp | invariant: headroom tested before reserving | proved | Props/Lsp |
| C21 | Demands ride exactly the cheapest matching LSPs | Model/Demand | the riding decision unfolds to the minimum of the effective metrics of the routed LSPs | proved | Props/Riding |
| C22 | LSP-riding demands split evenly | Model/Demand, Sim | fold over LSP hops | proved | Props/Riding |
| C23 | Effective metric of an LSP | Model/Objects, Paths | case analysis and C57/C58 for the cost | proved | Props/Queries |
| C24 | Assigning manual_metric takes effect | Model/Objects | invariant over sequences of reads and assignments; negation by evaluation | partial | Props/Queries |
| C25 | Re-optimisation keeps the ledger and the limits | Model/Lsp | negation by evaluation; C19 without coincidence | partial | Props/Lsp |
| C26 | A configured setup bandwidth is never overridden | Model/Lsp | negation by evaluation; invariant when the group is fully routed | partial | Props/Lsp |
| C27 | LSP traffic accounting | Model/Objects, Demand | sums over groups | proved | Props/Riding |
| C28 | Circuits pair every usable interface with its reverse | Model/Circuits | fold invariants of the pairing loops (Proof/Pairing) | proved | Props/Validation |
| C29 | get_remote_interface is an involution | Model/Failures, Circuits | uniqueness of the opposite interface | partial | Props/Validation |
| C30 | PerformanceModel rejects parallel links | Model/Circuits | counting joined names | proved | Props/Validation |
| C31 | Duplicate interface names on a node are rejected | Model/Circuits | negation by evaluation | partial | Props/Registry |
| C32 | Every interface is validated into a circuit | Model/Circuits | the matching test raises on unmatched edges; negation by evaluation | partial | Props/Validation |
| C33 | Validation is repeatable | Model/Circuits | validation is complete for states that satisfy the checks (validate_complete) | partial | Props/Validation |
| C34 | Mismatched circuits are repaired or rejected | Model/Circuits | post-condition of validation | proved | Props/Validation |
| C35 | Accepted models have unique node names | Model/Circuits | counting names | proved | Props/Validation |
| C36 | fail_interface fails exactly one circuit | Model/Failures | exact post-state (Proof/Failure) | proved | Props/Failure |
| C37 | fail_node fails the node and all attached circuits | Model/Failures | loop over the node's interfaces with an invariant | proved | Props/Failure |
| C38 | No live interface on a dead node | Model/Failures, Sim | invariant over arbitrary lists of operations (Proof/FailHist, FailInvs) | partial | Props/Failure |
| C39 | Both ends of a circuit fail and recover together | Model/Failures, Sim | invariant over arbitrary lists of operations | proved | Props/Failure |
| C40 | Failing an SRLG fails every member | Model/Failures | exact post-state of the loops | proved | Props/Failure |
| C41 | A member of a failed SRLG cannot be brought up | Model/Failures, Objects | case analysis of the guards | proved | Props/Failure |
| C42 | Members of a failed SRLG are failed, in every history | Model/Failures, Sim | invariant over arbitrary lists of operations | partial | Props/Assign |
| C43 | Failing and restoring a circuit is a round trip | Model/Failures | validation of the failed model is complete (Proof/RoundTrip, Restore) | proved | Props/Failure |
| C44 | unfail_interface is refused on a dead node | Model/Failures | case analysis | proved | Props/Failure |
| C45 | unfail_srlg restores members not otherwise held down | Model/Failures | loop invariants with exceptions swallowed as in the code | proved | Props/Failure |
| C46 | SRLG membership is symmetric across a circuit | Model/Failures | invariant over histories (Proof/Membership, SrlgMatch) | proved | Props/Failure |
| C47 | Rejected additions leave the model unchanged | Model/Registry | frames of the additions; validation transfers (Proof/Additions) | partial | Props/Registry |
| C48 | Identity keys stay unique | Model/Registry | invariant over histories from the empty model | proved | Props/Registry |
| C49 | Lookups are exact | Model/Registry, Objects | specification of find/filter | proved | Props/Objects |
| C50 | Parallel groups partition LSPs and demands | Model/Objects | partition lemma for dictionaries keyed by joined names (Proof/Groups) | partial | Props/Registry |
| C51 | Parallel LSP groups are up to date | Model/Objects, Registry | cache invariant | partial | Props/Registry |
| C52 | simulation_diagnostics counts are a partition | Model/Objects | counting over filters | proved | Props/Registry |
| C53 | Cross-references agree | Model/Objects | specification of the readers (Proof/Readers) | proved | Props/Objects |
| C54 | add_circuit adds one circuit | Model/Registry | exact post-state | proved | Props/Lookup |
| C55 | update_simulation carries no state forward | Model/Sim | relational proof: two runs stay in a relation that ignores results (Proof/Rel, Twist*) | proved | Props/Carry |
| C56 | update_simulation succeeds on well-formed models | Model/Sim | total correctness: each phase runs without exception from the invariants of the one before (Proof/LspTotal, DmdTotal, SimTotal); negations by evaluation | partial | Props/Total |
| C57 | get_shortest_path returns all cheapest paths (PerformanceModel) | Model/Paths | as C01 for the query | proved | Props/Queries |
| C58 | get_shortest_path returns only cheapest usable paths (FlexModel) | Model/Paths | as C02; negation by evaluation | partial | Props/Queries |
| C59 | get_all_paths_reservable_bw enumerates simple paths | Model/Paths, Graph | the enumeration of simple paths is exact | proved | Props/Queries |
| C60 | Path normalisation is the product of the hops | Model/Paths | list combinatorics | proved | Props/Queries |
| C61 | Guardrails | Model/Objects | invariant over sequences of attempts | proved | Props/Objects |
| C62 | Utilization | Model/Objects | rounding arithmetic | proved | Props/Objects |
| C63 | find_end_index finds the first blank line | Model/Load | induction over lines | proved | Props/Objects |
| C64 | Loading yields unique nodes, interfaces, demands and LSPs | Model/Load | loop invariants over lines | partial | Props/File |
| C65 | Flex loader requires each circuit_id exactly twice | Model/Load | counting | proved | Props/File |
| C66 | Unknown nodes are rejected | Model/Load | loop invariants; exact set of accepted files | proved | Props/File |
| C67 | Model file round trip | Model/Load | print/parse round trip on the text (Proof/File*) | proved | Props/Decimal |
| C68 | A disregarded duplicate line has no effect | Model/Load | one-step lemma; negation by evaluation | partial | Props/File |
| C69 | IGP shortcut substitution preserves connectivity | Model/Demand | list surgery; induction over the substituted LSPs | proved | Props/Shortcut |
| C70 | Traffic is conserved with IGP shortcuts | Model/Demand | negation by evaluation; ranked graph argument (Proof/Ranked, ShortcutFan) | partial | Props/Shortcut |
| C71 | RSVP-disabled interfaces still carry IGP traffic | Model/Circuits, Sim | negation by evaluation; eligibility invariants | partial | Props/Rsvp |
| C72 | Independent models do not share state | Model/Shared | frame per collection cell; negations by evaluation | partial | Props/Shared |
| C73 | A simulation changes only results, even when it raises | Model/Sim | frame through all phases, exceptions included | proved | Props/Carry |
| C74 | Interface traffic with IGP shortcuts | Model/Demand, Sim | fold invariant with LSP items expanded | proved | Props/Shortcut |
| C75 | Hop-by-hop equal split with IGP shortcuts | Model/Demand | flow balance from contiguity; ranked graph argument | proved | Props/Shortcut |
| C77 | Impact of a failure on demands | Model/Sim | relates two runs through the exact sets of cheapest paths (Proof/Impact) | proved | Props/Impact |
| C78 | Superposition of demands | Model/Sim | both runs meet one specification; sums over demands split | proved | Props/Impact |
| C79 | Only the proportions of costs matter | Model/Sim | cheapest sets are invariant under scaling | proved | Props/Impact |
| C80 | Bounds on what a demand puts on an interface | Model/Sim | equal shares of a finite set of paths; rounding bounds | proved | Props/Balance |
| C81 | Balance of traffic at every node | Model/Sim | net flow of a contiguous path telescopes (Proof/Kirchhoff); negation by evaluation | partial | Props/Balance |
| C76 | Running a simulation again | Model/Sim | frame of a whole run, objects outside the model included (Proof/Rerun, Recfg); then C55 | proved | Props/Rerun |
| C82 | What-if analysis leaves no trace | Model/Sim, Failures | composition of frames (Proof/Recfg); then C55 | proved | Props/Rerun |
| C83 | The map draws the network | Model/Weather, Proof/Weather | The edges are a permutation of the interfaces by C28; halfway points and ids by computation and splitting at the first hyphen. | partial | Props/Weather |
| C84 | Map colours follow the legend | Model/Weather, Proof/Weather | Case analysis over the six ranges on rational utilizations. | partial | Props/Weather |
| C85 | Menus of the map page are exact | Model/Weather, Proof/Weather | The keys of the parallel groups (C50) split back into their end points. | partial | Props/Weather |
| C88 | Parallel demands take the same paths | Proof/Blind | The placement of a demand depends only on its ends: all of it is independent of the demand heap (`Blind`). | proved | Props/Repair |
| C89 | unfail_node restores the node and its circuits | Proof/RestoreNode | Loop invariant over the interfaces of the node, with a frame for the interfaces not touched. | proved | Props/Repair |
| C90 | Queries about circuits, nodes and demands agree | Model/Queries, Props/Repair | From C28, C34 and C50. | partial | Props/Repair |
| C86 | Selecting a demand or LSP highlights its path | Model/Weather, Props/Highlight | Parallel demands have the same paths (C88), the LSPs ridden are routed, and the circuit id pairs the two directions (C28). | partial | Props/Highlight |
| C87 | Clicking an edge names the right interface | Model/Weather, Props/Highlight | The midpoint label splits back into the two ends. | partial | Props/Highlight |
| C91 | The lists of the map page are exact | Model/Page, Props/Page | Unique keys make each entry's lookup return its object; the path lists reduce to C53. | proved | Props/Page |
| C92 | Floating point cannot move interface load far | Model/Float, Spec/Float, Proof/Float, Proof/FloatTotal, Props/Float | Lock-step induction over the exact and the floating point load phase, counting roundings per interface. | proved | Props/Float |
| C93 | Raising a cost moves only what it must | Spec/Change, Proof/Change, Props/Change | Order arguments on cheapest routes under two cost functions; uniqueness of the simulation's result (sim_spec). | proved | Props/Change |
| C94 | More demand never means less load | Spec/Change, Proof/Change, Props/Change | Monotonicity of each demand's contribution, summed over demands. | proved | Props/Change |
| C95 | Symmetric costs give symmetric routing | Spec/Change, Proof/Symmetry, Props/Symmetry | Mirroring of routes by induction; the costs agree, so cheapest goes to cheapest. | proved | Props/Symmetry |
| C96 | Forwarding is by destination | Spec/Change, Proof/Symmetry, Props/Symmetry | Exchange of suffixes of cheapest routes. | proved | Props/Symmetry |
| C97 | Adding a circuit never hurts routing | Spec/Change, Proof/Symmetry, Props/Symmetry | As C77 with the roles of the two models exchanged; add_circuit from C54. | proved | Props/Symmetry |
| C98 | LSPs do not disturb the demands that ride none | Props/Bystander | Reservations never close an interface to bandwidth 0 (C20), so open interfaces are the same before and after; then as C77/C78. | proved | Props/Bystander |
| C99 | Traffic across any cut balances | Spec/Cut, Props/Cut | Sum of the node balances of C81 over the set, per demand. | partial | Props/Cut |
| C100 | A cut carries at least the demand across it | Spec/Cut, Props/Cut | Every path of a demand leaves the set at least once and the shares of the paths add up to its traffic. | proved | Props/Cut |
| C101 | Whole numbers are simulated as if exactly | Model/FloatLsp, Spec/Float, Proof/FloatLsp, FloatDmd, FloatValid, FloatSim, FloatNum, FloatWhole, FloatId, Props/FloatLsp | Relational run of the floating point model against the exact one, related by equal rounded reservations; every comparison and rounding is decided by fractions with small denominators, which are equal or further apart than the accumulated error. | proved | Props/FloatLsp |
| C102 | Lists by status, node and circuit are exact | Model/Queries, Failures, Props/Lookup | Partition of lists by a predicate; circuits from C28, unrouted demands from C03. | proved | Props/Lookup |
| C103 | Additions add exactly what was asked for | Model/Registry, Spec/Adding, Proof/Adding, Props/Adding | Exact post-state of the creation of objects, with the frame of a successful validation; loop invariant over the list. | proved | Props/Adding |
| C104 | Renaming an interface | Model/Registry, Props/Lookup | Exact post-state; lookups from C49. | partial | Props/Lookup |
| C105 | Line ends of a model file do not matter | Model/File, Props/LineEnds | Induction over the lines on the splitter; the row reader is that of C43. | proved | Props/LineEnds |
| C106 | After what-if sessions the status of the objects decides the results | Proof/WhatIf, Props/WhatIf | Invariant over histories: only failed states and results differ from the first state; then C55. | proved | Props/WhatIf |
| C107 | Failing an SRLG is failing its members, and failures commute | Proof/FailCore, Props/Members | Each failure is a closed-form update (a set of interfaces and a set of nodes go down); such updates compose to the union, so order and repetition drop out. | proved | Props/Members |
| C108 | Everything can be repaired | Proof/Restore, Proof/RestoreNode, Props/Repaired | Sessions keep the invariants of C38, C42 and C46; each repair call keeps what is up and brings up its object once everything that holds it is up; induction over the calls of each class, then C106. | proved | Props/Repaired |
| C109 | Names do not matter | Spec/Iso, Props/Iso | The characterisation of paths (C01, C02) and loads (C10, C11) is carried over the correspondence: routes map to routes of the same cost, next-hop sets to next-hop sets of the same size. | proved | Props/Iso |
| C110 | Settings and status decide the results | Model/Settings, Spec/Tune, Proof/Tune, Props/Tune | Any state a session reaches is a retuned start followed by changes of results and failed states (`Retuned`, `Loose`); assignments commute with the latter. Equal settings make the retuned starts equal, and C55 closes the proof. | proved | Props/Tune |
| C111 | Only the traffic matrix matters (FlexModel) | Props/Matrix | Every demand puts its traffic times a factor on an interface, and the factor depends only on the network and the ends (`SimResult.perUnit`); the sum over demands is grouped by ends. | proved | Props/Matrix |
| C112 | Exactly which models validation accepts | Model/Circuits, Model/Sim | wp of validation (validate_ok, validate_complete) in both directions; fold of _make_int_info_dict as a flatMap; rules in Spec/Accept | proved | Props/Accept |
| C113 | Traffic times distance (FlexModel) | Model/Sim, Model/Demand | exchange of the sums over interfaces and paths (IgpLoad.sum, SimResult.lspLoad); equal costs of cheapest paths; vocabulary in Spec/Haul | proved | Props/Haul |
| C114 | Cheapest paths compose | Model/Sim | paths are exactly the cheapest ones (SimResult.placed); concatenation and splitting of routes | proved | Props/Triangle |
| C115 | Without ties the random seed does not matter | Model/Sim, Model/Lsp | relational Hoare logic over the LSP phases: at every choice there is at most one candidate | proved | Props/Seed |
| C116 | Paths have no loops, and stubs carry no transit traffic | Model/Sim, Model/Lsp | invariant of the LSP phases: paths follow cheapest, so simple, routes; induction over routes for the stub; cut balance (C99) for the traffic | proved | Props/Loop |
| C117 | A bridge carries exactly the traffic between its sides | Model/Sim | loop-free paths (C116) cross a bridge at most once; cut balance per demand (C99) | proved | Props/Bridge |
| C118 | What lies beyond a bridge does not matter | Model/Sim | cheapest paths are loop-free and so stay on their side (C117); the same cheapest paths give the same shares | proved | Props/Local |
| C119 | What is reserved on a bridge | Model/Sim | loop-free LSP paths (C116) cross once; the ledger validation accepts (C112) | proved | Props/BridgeRsvp |

## 4. Findings

Deviations from what a user would expect, found while modelling; the theorem in brackets
exhibits the deviation on a concrete model.

* F1 Duplicate interface names are never rejected: the check returns a non-empty message, which
  counts as true (C31).
* F2 An RSVP-disabled interface has reservable bandwidth -1 and disappears from IGP routing,
  circuit matching and validation (C71, C32, C56_rsvp_false).
* F3 FlexModel `get_shortest_path` expands every hop with all parallel interfaces, costlier and
  failed ones included (C58_flex_false).
* F4, F31 FlexModel re-optimisation treats parallel interfaces as consecutive hops and may route
  an LSP over a failed one (C04_flex_false).
* F5 Re-signalling an LSP for the bandwidth it already has can leave its reservation on the old
  path (C25_reopt_false), and overwrites a configured bandwidth (C26_configured_false).
* F6 Rounding ties unbalance the reservation ledger (C19_tie_breaks_ledger).
* F7 A demand or LSP from a node to itself makes the simulation raise ValueError.
* F8 Names with hyphens make "source-destination" keys collide (C50_hyphen_false, C69_hyphens_false,
  C30_hyphen_rejected).
* F9 With IGP shortcuts, traffic is lost when the cheapest paths disagree on the LSPs they meet
  (C70_traffic_lost_false).
* F10 Assigning `manual_metric` is ignored while a configured metric is unread (C24_assign_false).
* F11 `Interface.remove_from_srlg` un-fails one end of a circuit only (C39).
* F12 `add_circuit` ignores `failed=True` (C54); F37 it accepts a circuit from a node to itself
  (C54_self_circuit_false); F38 on a PerformanceModel a parallel circuit raises but stays
  (C47_rejected_false).
* F13 `unfail_node` can raise midway; F21 fail and unfail without a simulation in between raises
  when an LSP is routed (C43_with_lsp_false).
* F14 `path_detail` of an unrouted demand is stale (C55_path_detail_false).
* F15 `parallel_lsp_groups()` is cached across `add_rsvp_lsp` (C51_stale_false).
* F16 Some lookups construct a ModelException without raising it; F18 `get_remote_interface`
  runs into UnboundLocalError (C29_remote_false).
* F17 `add_network_interfaces_from_list` creates fresh Node objects and checks no keys
  (C48_from_list_false).
* F19 `simulation_diagnostics` counts never-signalled LSPs as routed (C52).
* F20, F33, F36 Adding to an already failed SRLG fails nothing (C42, C38).
* F22 A disregarded duplicate interface line still creates its remote node (C68); a line from a
  node to itself creates two node objects (C64_self_loop_false).
* F23 Mutable default arguments are shared between models (C72).
* F24 `all_simple_paths` raises when the target is not in the graph (C59).
* F25 A blank line after RSVP_LSP_TABLE makes the loader raise; F28 so does a fourth node field
  other than True/False.
* F26 `_make_circuits` renumbers circuit ids of a PerformanceModel at every validation (C73).
* F27 PerformanceModel `path_detail` uses the key "interfaces" where the FlexModel uses "items".
* F29, F32 The validation at the end of a simulation can fail interfaces after routing, and
  repairing a half-failed circuit that carries reservations makes the next validation raise
  (C33_validation_repeatable_false).
* F30 A FlexModel with parallel links and no circuit ids cannot be matched.
* F34 `traffic_on_lsp` raises ValueError when the demands of an LSP ride nothing (C27).
* F35 PerformanceModel rounds each path's share, so equal shares are reported unequal (C07).
* F39 A capacity that is not a multiple of 0.1 can be over-reserved by rounding, and the
  simulation raises (C56_fine_capacity_false).
* F42 An LSP re-signalled by a FlexModel over parallel links puts its whole traffic on each of
  them: six units of demand become twelve on the wire (C81_node_balance_false, C99_cut_balance_false, a consequence of F4).
* F40 Utilizations between two legend ranges, such as 24.5, get no colour on the map (C84_gap_false).
* F43 Nodes without interfaces and interfaces with negative reservable bandwidth are not drawn
  (C83_orphan_false, C83_rsvp_disabled_false).
* F44 The map page cannot be built when an end point has a hyphen in its name (C85_hyphen_false).
* F41 `find_demand_interfaces_and_lsps` returns the characters of "Unrouted" for an unrouted demand
  (C86_unrouted_false); F45 selecting an LSP that was never signalled raises TypeError
  (C86_unsignalled_false).
* F46 The destination of a clicked edge is wrong with hyphens in node names, and a self circuit
  raises IndexError (C87_hyphen_false, C87_self_circuit_false).
* F47 Circuit ids 1 and "1" of a FlexModel cannot be told apart on the map (C86_same_text_false).
* F48 `srlg.failed = True` marks the SRLG only, although the class documentation says that a failed
  SRLG takes its members down: they stay up and keep carrying traffic after the next simulation
  (C42_assigned_false).
* F49 In floating point a group of parallel LSPs can be denied bandwidth that is free: with 25.2
  reservable, ten of fifteen LSPs hold 2.4 and could grow to 3.6 on the 1.2 left, but
  1.2 + 2.4 < 3.6 in floats (C101_split_false).
* F50 A reservation limit of 0.65 (13% of 5) rounds to 0.6 exactly and to 0.7 in floats, so that an
  LSP of 0.69 is routed beyond the limit (C101_limit_tie_false).
* F51 `change_interface_name` does not check whether the name is taken: two interfaces of one node
  then share their name and the second one cannot be looked up (C104_rename_clash_false).
* F52 The `circuit_id` given to `PerformanceModel.add_circuit` is lost, validation numbers all circuits
  from 1 (C54_perf_circuit_id_false).
* F53 Repair calls in the order interfaces, nodes, SRLGs can leave a circuit failed although nothing holds
  it, because `unfail_node` stops at the first interface that a failed SRLG holds
  (C108_other_order_false); the opposite order repairs everything (C108_full_repair).
* F54 A PerformanceModel rounds the share of every demand to one decimal before adding it: two demands of
  0.04 leave no traffic where one of 0.08 leaves 0.1 (C111_performance_false).
* F55 `Node.igp_shortcuts_enabled` is documented as ignored by the PerformanceModel, but its
  validation rejects the model (C112_shortcuts_ignored_false).
* F56 Splitting node by node is not symmetric: with the same costs and the same demands in both directions the two
  directions of a circuit can carry different traffic (C95_load_false).
* F57 With IGP shortcuts a demand can be sent back through a node it has passed: its shortest path is
  substituted from the LSP's head on, whatever route the LSP takes (C116_shortcut_loop).
