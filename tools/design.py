"""Write DESIGN.md: head, property table, tail."""
import json, os, re, glob
root = os.path.dirname(os.path.dirname(os.path.abspath(__file__)))
here = os.path.dirname(os.path.abspath(__file__))
R = "Model/Graph, Circuits, Demand, Sim"
METHOD = {
 "C01": (R, "the enumeration returns exactly the minimal walks (Proof/Enumerate); the edges of the graph are the usable interfaces; transfer through the conversion of node paths to interfaces"),
 "C02": (R + ", Paths", "as C01, with the product over parallel interfaces of a hop (Proof/Expand)"),
 "C03": (R, "reachability over usable interfaces decides both branches of `_route_demands`"),
 "C04": ("Model/Lsp, Demand, Sim", "invariant of the LSP phase (Proof/LspInv), frame of the demand phase; negation by evaluation"),
 "C05": ("Model/Demand", "induction on the distance to the destination in the graph of cheapest paths: shares leaving a node add up to the share entering it (Proof/Ecmp)"),
 "C06": ("Model/Demand", "C05 and a rounding bound per path"),
 "C07": ("Model/Demand, Sim", "the split of an item is a product of out-degrees along any path reaching it"),
 "C08": ("Model/Demand", "contiguity of paths: every path through a node enters and leaves it once"),
 "C09": ("Model/Demand", "loop invariant of the split computation"),
 "C10": ("Model/Demand, Sim", "fold invariant over the list of demands (Proof/LoadPhase, LoadSum)"),
 "C11": ("Model/Demand, Sim", "as C10 with rounding bounds"),
 "C12": ("Model/Sim", "the characterisations of paths and load do not mention order; sums over permuted lists"),
 "C13": ("Model/Sim", "the characterisations of paths and load are linear in traffic"),
 "C14": ("Model/Sim, Paths", "lock-step relation between the two classes (Proof/Twist*)"),
 "C15": ("Model/Lsp", "one-step correctness of signalling for every reservation state; invariant over the LSP phase"),
 "C16": ("Model/Lsp", "minimum lemmas over the candidate list, for every draw; replay of the signalling order (Props/Lsp)"),
 "C17": ("Model/Lsp", "emptiness of the candidate list is unreachability over eligible interfaces"),
 "C18": ("Model/Lsp", "invariant over the groups: `setup` is the configured value or the share"),
 "C19": ("Model/Lsp", "ledger invariant with exact rounding arithmetic over all signalling and re-signalling steps (Proof/Ledger)"),
 "C20": ("Model/Lsp", "invariant: headroom tested before reserving"),
 "C21": ("Model/Demand", "the riding decision unfolds to the minimum of the effective metrics of the routed LSPs"),
 "C22": ("Model/Demand, Sim", "fold over LSP hops"),
 "C23": ("Model/Objects, Paths", "case analysis and C57/C58 for the cost"),
 "C24": ("Model/Objects", "invariant over sequences of reads and assignments; negation by evaluation"),
 "C25": ("Model/Lsp", "negation by evaluation; C19 without coincidence"),
 "C26": ("Model/Lsp", "negation by evaluation; invariant when the group is fully routed"),
 "C27": ("Model/Objects, Demand", "sums over groups"),
 "C28": ("Model/Circuits", "fold invariants of the pairing loops (Proof/Pairing)"),
 "C29": ("Model/Failures, Circuits", "uniqueness of the opposite interface"),
 "C30": ("Model/Circuits", "counting joined names"),
 "C31": ("Model/Circuits", "negation by evaluation"),
 "C32": ("Model/Circuits", "the matching test raises on unmatched edges; negation by evaluation"),
 "C33": ("Model/Circuits", "validation is complete for states that satisfy the checks (validate_complete)"),
 "C34": ("Model/Circuits", "post-condition of validation"),
 "C35": ("Model/Circuits", "counting names"),
 "C36": ("Model/Failures", "exact post-state (Proof/Failure)"),
 "C37": ("Model/Failures", "loop over the node's interfaces with an invariant"),
 "C38": ("Model/Failures, Sim", "invariant over arbitrary lists of operations (Proof/FailHist, FailInvs)"),
 "C39": ("Model/Failures, Sim", "invariant over arbitrary lists of operations"),
 "C40": ("Model/Failures", "exact post-state of the loops"),
 "C41": ("Model/Failures, Objects", "case analysis of the guards"),
 "C42": ("Model/Failures, Sim", "invariant over arbitrary lists of operations"),
 "C43": ("Model/Failures", "validation of the failed model is complete (Proof/RoundTrip, Restore)"),
 "C44": ("Model/Failures", "case analysis"),
 "C45": ("Model/Failures", "loop invariants with exceptions swallowed as in the code"),
 "C46": ("Model/Failures", "invariant over histories (Proof/Membership, SrlgMatch)"),
 "C47": ("Model/Registry", "frames of the additions; validation transfers (Proof/Additions)"),
 "C48": ("Model/Registry", "invariant over histories from the empty model"),
 "C49": ("Model/Registry, Objects", "specification of find/filter"),
 "C50": ("Model/Objects", "partition lemma for dictionaries keyed by joined names (Proof/Groups)"),
 "C51": ("Model/Objects, Registry", "cache invariant"),
 "C52": ("Model/Objects", "counting over filters"),
 "C53": ("Model/Objects", "specification of the readers (Proof/Readers)"),
 "C54": ("Model/Registry", "exact post-state"),
 "C55": ("Model/Sim", "relational proof: two runs stay in a relation that ignores results (Proof/Rel, Twist*)"),
 "C56": ("Model/Sim", "total correctness: each phase runs without exception from the invariants of the one before (Proof/LspTotal, DmdTotal, SimTotal); negations by evaluation"),
 "C57": ("Model/Paths", "as C01 for the query"),
 "C58": ("Model/Paths", "as C02; negation by evaluation"),
 "C59": ("Model/Paths, Graph", "the enumeration of simple paths is exact"),
 "C60": ("Model/Paths", "list combinatorics"),
 "C61": ("Model/Objects", "invariant over sequences of attempts"),
 "C62": ("Model/Objects", "rounding arithmetic"),
 "C63": ("Model/Load", "induction over lines"),
 "C64": ("Model/Load", "loop invariants over lines"),
 "C65": ("Model/Load", "counting"),
 "C66": ("Model/Load", "loop invariants; exact set of accepted files"),
 "C67": ("Model/Load", "print/parse round trip on the text (Proof/File*)"),
 "C68": ("Model/Load", "one-step lemma; negation by evaluation"),
 "C69": ("Model/Demand", "list surgery; induction over the substituted LSPs"),
 "C70": ("Model/Demand", "negation by evaluation; ranked graph argument (Proof/Ranked, ShortcutFan)"),
 "C71": ("Model/Circuits, Sim", "negation by evaluation; eligibility invariants"),
 "C72": ("Model/Shared", "frame per collection cell; negations by evaluation"),
 "C73": ("Model/Sim", "frame through all phases, exceptions included"),
 "C74": ("Model/Demand, Sim", "fold invariant with LSP items expanded"),
 "C75": ("Model/Demand", "flow balance from contiguity; ranked graph argument"),
 "C119": ("Model/Sim", "loop-free LSP paths (C116) cross once; the ledger validation accepts (C112)"),
 "C118": ("Model/Sim", "cheapest paths are loop-free and so stay on their side (C117); the same cheapest paths give the same shares"),
 "C117": ("Model/Sim", "loop-free paths (C116) cross a bridge at most once; cut balance per demand (C99)"),
 "C116": ("Model/Sim, Model/Lsp", "invariant of the LSP phases: paths follow cheapest, so simple, routes; induction over routes for the stub; cut balance (C99) for the traffic"),
 "C115": ("Model/Sim, Model/Lsp", "relational Hoare logic over the LSP phases: at every choice there is at most one candidate"),
 "C114": ("Model/Sim", "paths are exactly the cheapest ones (SimResult.placed); concatenation and splitting of routes"),
 "C113": ("Model/Sim, Model/Demand", "exchange of the sums over interfaces and paths (IgpLoad.sum, SimResult.lspLoad); equal costs of cheapest paths; vocabulary in Spec/Haul"),
 "C112": ("Model/Circuits, Model/Sim", "wp of validation (validate_ok, validate_complete) in both directions; fold of _make_int_info_dict as a flatMap; rules in Spec/Accept"),
 "C111": ("Props/Matrix", "Every demand puts its traffic times a factor on an interface, and the factor depends only on the network and the ends (`SimResult.perUnit`); the sum over demands is grouped by ends."),
 "C110": ("Model/Settings, Spec/Tune, Proof/Tune, Props/Tune", "Any state a session reaches is a retuned start followed by changes of results and failed states (`Retuned`, `Loose`); assignments commute with the latter. Equal settings make the retuned starts equal, and C55 closes the proof."),
 "C109": ("Spec/Iso, Props/Iso", "The characterisation of paths (C01, C02) and loads (C10, C11) is carried over the correspondence: routes map to routes of the same cost, next-hop sets to next-hop sets of the same size."),
 "C108": ("Proof/Restore, Proof/RestoreNode, Props/Repaired", "Sessions keep the invariants of C38, C42 and C46; each repair call keeps what is up and brings up its object once everything that holds it is up; induction over the calls of each class, then C106."),
 "C107": ("Proof/FailCore, Props/Members", "Each failure is a closed-form update (a set of interfaces and a set of nodes go down); such updates compose to the union, so order and repetition drop out."),
 "C105": ("Model/File, Props/LineEnds", "Induction over the lines on the splitter; the row reader is that of C43."),
 "C106": ("Proof/WhatIf, Props/WhatIf", "Invariant over histories: only failed states and results differ from the first state; then C55."),
 "C102": ("Model/Queries, Failures, Props/Lookup", "Partition of lists by a predicate; circuits from C28, unrouted demands from C03."),
 "C103": ("Model/Registry, Spec/Adding, Proof/Adding, Props/Adding", "Exact post-state of the creation of objects, with the frame of a successful validation; loop invariant over the list."),
 "C104": ("Model/Registry, Props/Lookup", "Exact post-state; lookups from C49."),
 "C101": ("Model/FloatLsp, Spec/Float, Proof/FloatLsp, FloatDmd, FloatValid, FloatSim, FloatNum, FloatWhole, FloatId, Props/FloatLsp", "Relational run of the floating point model against the exact one, related by equal rounded reservations; every comparison and rounding is decided by fractions with small denominators, which are equal or further apart than the accumulated error."),
 "C98": ("Props/Bystander", "Reservations never close an interface to bandwidth 0 (C20), so open interfaces are the same before and after; then as C77/C78."),
 "C99": ("Spec/Cut, Props/Cut", "Sum of the node balances of C81 over the set, per demand."),
 "C100": ("Spec/Cut, Props/Cut", "Every path of a demand leaves the set at least once and the shares of the paths add up to its traffic."),
 "C93": ("Spec/Change, Proof/Change, Props/Change", "Order arguments on cheapest routes under two cost functions; uniqueness of the simulation's result (sim_spec)."),
 "C94": ("Spec/Change, Proof/Change, Props/Change", "Monotonicity of each demand's contribution, summed over demands."),
 "C95": ("Spec/Change, Proof/Symmetry, Props/Symmetry", "Mirroring of routes by induction; the costs agree, so cheapest goes to cheapest."),
 "C96": ("Spec/Change, Proof/Symmetry, Props/Symmetry", "Exchange of suffixes of cheapest routes."),
 "C97": ("Spec/Change, Proof/Symmetry, Props/Symmetry", "As C77 with the roles of the two models exchanged; add_circuit from C54."),
 "C92": ("Model/Float, Spec/Float, Proof/Float, Proof/FloatTotal, Props/Float", "Lock-step induction over the exact and the floating point load phase, counting roundings per interface."),
 "C91": ("Model/Page, Props/Page", "Unique keys make each entry's lookup return its object; the path lists reduce to C53."),
 "C86": ("Model/Weather, Props/Highlight", "Parallel demands have the same paths (C88), the LSPs ridden are routed, and the circuit id pairs the two directions (C28)."),
 "C87": ("Model/Weather, Props/Highlight", "The midpoint label splits back into the two ends."),
 "C83": ("Model/Weather, Proof/Weather", "The edges are a permutation of the interfaces by C28; halfway points and ids by computation and splitting at the first hyphen."),
 "C84": ("Model/Weather, Proof/Weather", "Case analysis over the six ranges on rational utilizations."),
 "C85": ("Model/Weather, Proof/Weather", "The keys of the parallel groups (C50) split back into their end points."),
 "C88": ("Proof/Blind", "The placement of a demand depends only on its ends: all of it is independent of the demand heap (`Blind`)."),
 "C89": ("Proof/RestoreNode", "Loop invariant over the interfaces of the node, with a frame for the interfaces not touched."),
 "C90": ("Model/Queries, Props/Repair", "From C28, C34 and C50."),
 "C76": ("Model/Sim", "frame of a whole run, objects outside the model included (Proof/Rerun, Recfg); then C55"),
 "C82": ("Model/Sim, Failures", "composition of frames (Proof/Recfg); then C55"),
 "C77": ("Model/Sim", "relates two runs through the exact sets of cheapest paths (Proof/Impact)"),
 "C78": ("Model/Sim", "both runs meet one specification; sums over demands split"),
 "C79": ("Model/Sim", "cheapest sets are invariant under scaling"),
 "C80": ("Model/Sim", "equal shares of a finite set of paths; rounding bounds"),
 "C81": ("Model/Sim", "net flow of a contiguous path telescopes (Proof/Kirchhoff); negation by evaluation"),
}
EXTRA = {}
try:
    from design_extra import METHOD as EXTRA
except ImportError:
    pass
METHOD.update(EXTRA)
props = [json.loads(l) for l in open(root + "/properties.jsonl")]
claims = {c["property"]: c for c in json.load(open(root + "/MANIFEST.json"))["claims"]}
home = {}
for f in sorted(glob.glob(root + "/lean/Verif/Props/*.lean")):
    for m in re.finditer(r"^theorem (C\d\d+)_", open(f).read(), re.M):
        home.setdefault(m.group(1), "Props/" + os.path.basename(f)[:-5])
rows = ["| id | property | modelled in | proof | status | file |", "|---|---|---|---|---|---|"]
for p in props:
    i = p["id"]
    mod, how = METHOD[i]
    st = claims[i]["status"] if i in claims else "open"
    rows.append(f"| {i} | {p['title']} | {mod} | {how} | {st} | {home.get(i, '')} |")
open(root + "/DESIGN.md", "w").write(open(here + "/design_head.md").read() + "\n".join(rows) + "\n" +
    open(here + "/design_tail.md").read())
print(len(props), "properties")
