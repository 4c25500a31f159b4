import Verif.Model.Objects

/-!
# Graph construction, circuits and `validate_model`
-/

namespace NTM

namespace State

/-- The interfaces that become edges of the graph
(`pyNTM/performance_model.py:507-568`, `pyNTM/flex_model.py:960-1021`). -/
def considered (s : State) (inclFailed : Bool) (needed : ℚ) (rsvpRequired : Bool) : List ℕ :=
  s.ifs.filter fun i =>
    (inclFailed || !(s.ifc i).failed) && decide (needed ≤ s.reservable i) &&
      (!rsvpRequired || (s.ifc i).rsvpEnabled)

/-- nodes of the graph: endpoints of the edges and all model nodes
(`pyNTM/performance_model.py:571-575`, `pyNTM/flex_model.py:1024-1028`). -/
def graphNodes (s : State) (es : List ℕ) : List String :=
  es.flatMap (fun i => [s.tail i, s.head i]) ++ s.nodeNames

/-- interface costs -/
def costOf (s : State) (i : ℕ) : ℕ := (s.ifc i).cost

/-- `PerformanceModel._make_weighted_network_graph` (`pyNTM/performance_model.py:507-577`) -/
def graphPerf (s : State) (inclFailed : Bool) (needed : ℚ) (rsvpRequired : Bool) : NxG :=
  let es := s.considered inclFailed needed rsvpRequired
  { nodes := s.graphNodes es, w := weightDi s.tail s.head s.costOf es }

/-- `FlexModel._make_weighted_network_graph_mdg` (`pyNTM/flex_model.py:960-1030`) -/
def graphFlex (s : State) (inclFailed : Bool) (needed : ℚ) (rsvpRequired : Bool) : NxG :=
  let es := s.considered inclFailed needed rsvpRequired
  { nodes := s.graphNodes es, w := weightMulti s.tail s.head s.costOf es }

/-- `PerformanceModel.get_interface_object_from_nodes` (`pyNTM/performance_model.py:647-662`);
`none` is Python's `None`. -/
def ifcFromNodes (s : State) (u v : String) : Option ℕ :=
  s.ifs.find? fun i => s.tail i = u && s.head i = v

/-- `FlexModel.get_interface_object_from_nodes` (`pyNTM/flex_model.py:1184-1232`); `none` is
the returned (not raised) `ModelException` object. -/
def ifcsFromNodes (s : State) (u v : String) (ckt : CktId) : Option (List ℕ) :=
  match ckt with
  | .none => some (s.ifs.filter fun i => s.tail i = u && s.head i = v)
  | c =>
    let l := s.ifs.filter fun i => s.tail i = u && s.head i = v && (s.ifc i).cktId = c
    if 1 < l.length then none else some l

/-- `G.has_edge(u, v)` for the graph with these edges -/
def hasEdge (s : State) (es : List ℕ) (u v : String) : Bool :=
  es.any fun i => s.tail i = u && s.head i = v

/-- `G.edges` of the DiGraph: one representative per ordered node pair -/
def diEdges (s : State) : List ℕ → List ℕ
  | [] => []
  | i :: es => if s.hasEdge es (s.tail i) (s.head i) then diEdges s es else i :: diEdges s es

/-- `interface.in_ckt = False` for all interfaces of the model
(`pyNTM/performance_model.py:602-603`, `pyNTM/flex_model.py:1119-1120`) -/
def clearInCkt (s : State) : State :=
  { s with ifc := fun i => if i ∈ s.ifs then { s.ifc i with inCkt := false } else s.ifc i }

/-- `PerformanceModel._multiple_links_between_nodes` (`pyNTM/performance_model.py:1515-1545`):
names joined with a hyphen that occur more than once (unsorted). -/
def multipleLinks (s : State) : List String :=
  let l := s.ifs.map fun i => s.tail i ++ "-" ++ s.head i
  l.filter fun c => decide (1 < l.count c)

/-- `_make_int_info_dict` (`pyNTM/master_model.py:134-151`): for every hop of every routed
LSP the interface and the rounded reservation. -/
def lspHops (s : State) : Except Exn (List (ℕ × ℚ)) :=
  (s.lsps.filter fun l => !(s.lsp l).path.saysUnrouted).foldlM (init := []) fun acc l =>
    match (s.lsp l).path with
    | .routed ifs _ _ =>
      match ifs, (s.lsp l).reserved with
      | [], _ => .ok acc
      | _, .val q =>
        if ifs.all fun i => s.ifs.any fun j => s.ifcKey j = s.ifcKey i then
          .ok (acc ++ ifs.map fun i => (i, pyRound 1 q))
        else .error .keyError
      | _, _ => .error .typeError
    | _ => .error .keyError

/-- `int_info[key]["reserved_bandwidth"]` (`pyNTM/master_model.py:144-151`) -/
def infoReserved (s : State) (info : List (ℕ × ℚ)) (i : ℕ) : ℚ :=
  ((info.filter fun x => s.ifcKey x.1 = s.ifcKey i).map Prod.snd).sum

/-- `_reserved_bw_error_checks`, first test (`pyNTM/master_model.py:197-198`) -/
def resTooHigh (s : State) (i : ℕ) : Bool := decide ((s.ifc i).capacity < s.reservedBw i)

/-- `_reserved_bw_error_checks`, second test (`pyNTM/master_model.py:199-204`) -/
def resSumError (s : State) (info : List (ℕ × ℚ)) (i : ℕ) : Bool :=
  decide (pyRound 1 (s.reservedBw i) ≠ pyRound 1 (s.infoReserved info i))

/-- `_unique_interface_per_node` (`pyNTM/master_model.py:435-463`): `none` is `True`,
`some msg` the returned string. -/
def dupNameReport (s : State) : Option String :=
  if s.nodes.any fun n =>
      let l := (s.ifcsOn (s.node n).name).map fun i => (s.ifc i).name
      decide (l.dedup.length < l.length)
  then some "Interface names must be unique per node."
  else none

/-- Python truth value of the report: `True` and every non-empty string are truthy
(`pyNTM/performance_model.py:167-171`, `pyNTM/flex_model.py:159-163`). -/
def dupNameReportTruthy : Option String → Bool
  | none => true
  | some msg => decide (msg ≠ "")

end State

/-- The pairing loop of `PerformanceModel._make_circuits`
(`pyNTM/performance_model.py:604-625`). -/
def pairPerf : List ℕ → ℤ → List (ℕ × ℕ) → Py (List (ℕ × ℕ))
  | [], _, acc => pure acc
  | e :: es, k, acc => do
    let s ← get
    match s.ifcFromNodes (s.tail e) (s.head e), s.ifcFromNodes (s.head e) (s.tail e) with
    | some a, some b =>
      if (s.ifc a).inCkt = false ∧ (s.ifc b).inCkt = false then
        set ((s.updIfc a fun x => { x with inCkt := true, cktId := .num k }).updIfc b
          fun x => { x with inCkt := true, cktId := .num k })
        pairPerf es (k + 1) (acc ++ [(a, b)])
      else pairPerf es k acc
    | _, _ => raise .attributeError

/-- `PerformanceModel._make_circuits(return_exception=True)`
(`pyNTM/performance_model.py:579-645`).  Simplification: the set of circuits is the list
in creation order; the edges come in the arbitrary order `env.ordI`. -/
def makeCircuitsPerf (env : Env) : Py Unit := do
  let s0 ← get
  let es := s0.considered true 0 false
  let edges := env.ordI (s0.diEdges es)
  set s0.clearInCkt
  let circuits ← pairPerf (edges.filter fun e => s0.hasEdge es (s0.head e) (s0.tail e)) 1 []
  if edges.any fun e => !s0.hasEdge es (s0.head e) (s0.tail e) then
    raise (.model "WARNING: These interfaces were not matched into a circuit")
  else modify fun s => { s with circuits := circuits }

/-- The pairing loop of `FlexModel._make_circuits_multidigraph`
(`pyNTM/flex_model.py:1121-1163`). -/
def pairFlex : List ℕ → List (ℕ × ℕ) → Py (List (ℕ × ℕ))
  | [], acc => pure acc
  | e :: es, acc => do
    let s ← get
    match s.ifcsFromNodes (s.tail e) (s.head e) (s.ifc e).cktId,
          s.ifcsFromNodes (s.head e) (s.tail e) (s.ifc e).cktId with
    | some (a :: _), some (b :: _) =>
      if (s.ifc a).inCkt = false ∧ (s.ifc b).inCkt = false then
        set ((s.updIfc a fun x => { x with inCkt := true }).updIfc b
          fun x => { x with inCkt := true })
        pairFlex es (acc ++ [(a, b)])
      else pairFlex es acc
    | _, _ => raise (.model "No matching Interface Object found")

/-- `FlexModel._make_circuits_multidigraph(return_exception=True)`
(`pyNTM/flex_model.py:1092-1182`). -/
def makeCircuitsFlex (env : Env) : Py Unit := do
  let s0 ← get
  let es := s0.considered true 0 false
  let edges := env.ordI es
  set s0.clearInCkt
  let circuits ← pairFlex (edges.filter fun e => s0.hasEdge es (s0.head e) (s0.tail e)) []
  if edges.any fun e => !s0.hasEdge es (s0.head e) (s0.tail e) then
    raise (.model "WARNING: These interfaces were not matched into a circuit")
  else modify fun s => { s with circuits := circuits }

/-- `_validate_circuit_interface_capacity`, the failure part
(`pyNTM/master_model.py:163-169`). -/
def matchFailed (c : ℕ × ℕ) : Py Unit := do
  let s ← get
  if (s.ifc c.1).failed ≠ (s.ifc c.2).failed then
    setIfcFailed c.1 true
    setIfcFailed c.2 true
  else pure ()

/-- The entries of `error_data` in `validate_model`. -/
inductive VErr where
  | resTooHigh
  | resSum
  | dupIfcName
  | shortcutNodes
  | capacityMismatch
  | multipleLinks
  | dupNodes
  deriving DecidableEq

/-- `validate_model` of both classes (`pyNTM/performance_model.py:129-223`,
`pyNTM/flex_model.py:121-215`).  Simplification: the SRLG check is left out, it can never
report anything because `SRLG.node_objects` is defined by `srlg in node.srlgs`
(`pyNTM/srlg.py:49-52`). -/
def validate (env : Env) : Py Unit := do
  let k := (← get).kind
  match k with
  | .perf => makeCircuitsPerf env
  | .flex => makeCircuitsFlex env
  let s ← get
  let info ← liftE s.lspHops
  let e1 := if s.ifs.any s.resTooHigh then [VErr.resTooHigh] else []
  let e2 := if s.ifs.any (s.resSumError info) then [VErr.resSum] else []
  let e3 := if State.dupNameReportTruthy s.dupNameReport then [] else [VErr.dupIfcName]
  let e4 := if k = .perf ∧ s.nodes.any (fun n => (s.node n).shortcuts) then
    [VErr.shortcutNodes] else []
  forEach s.circuits matchFailed
  let s' ← get
  let e5 := if s'.circuits.any (fun c => decide ((s'.ifc c.1).capacity ≠ (s'.ifc c.2).capacity))
    then [VErr.capacityMismatch] else []
  let e6 := if k = .perf ∧ s'.multipleLinks ≠ [] then [VErr.multipleLinks] else []
  let e7 := if s'.nodes.length ≠ s'.nodeNames.dedup.length then [VErr.dupNodes] else []
  if e1 ++ e2 ++ e3 ++ e4 ++ e5 ++ e6 ++ e7 ≠ [] then
    raise (.model "network interface validation failed, see returned data")
  else pure ()

end NTM
