import Verif.Model.Float

/-!
# The whole simulation in floating point

`Float.lean` rounds the load computation.  Here LSP signalling, the choice of usable interfaces and
`validate_model` compute with a rounding `fl` after every operation too, and the numbers a user
supplies (capacities, reservable percentages, setup bandwidths) are rounded when they are read.
`round(x, 1)` of a Python `float` is the `float` nearest to the decimal nearest to `x`:
`fl (pyRound 1 x)`.  Simplifications: `traffic` of demands is read as it is given, and the
graph that gives the metric of an LSP during demand routing (`State.effMetric`) tests reservable
bandwidth with exact arithmetic.
-/

namespace NTM

variable (fl : ℚ → ℚ)

namespace State

/-- `Interface.reserved_bandwidth` getter (`pyNTM/interface.py:108-113`) -/
def reservedFl (s : State) (i : ℕ) : ℚ := fl (pyRound 1 (s.ifc i).reservedRaw)

/-- `Interface.reservable_bandwidth` (`pyNTM/interface.py:93-106`) -/
def reservableFl (s : State) (i : ℕ) : ℚ :=
  if (s.ifc i).rsvpEnabled then
    fl (pyRound 1 (fl (fl (fl (s.ifc i).capacity * fl (fl (s.ifc i).pct / 100)) - s.reservedFl fl i)))
  else -1

/-- `interface.reserved_bandwidth += v` (`pyNTM/interface.py:115-128`) -/
def addReservedFl (s : State) (i : ℕ) (v : ℚ) : State :=
  s.setReserved i (fl (s.reservedFl fl i + v))

/-- `interface.reserved_bandwidth += v` for every interface of a path -/
def reserveOnFl (s : State) (p : List ℕ) (v : ℚ) : State :=
  p.foldl (fun s i => s.addReservedFl fl i v) s

/-- The interfaces that become edges of the graph
(`pyNTM/performance_model.py:507-568`, `pyNTM/flex_model.py:960-1021`). -/
def consideredFl (s : State) (inclFailed : Bool) (needed : ℚ) (rsvpRequired : Bool) : List ℕ :=
  s.ifs.filter fun i =>
    (inclFailed || !(s.ifc i).failed) && decide (needed ≤ s.reservableFl fl i) &&
      (!rsvpRequired || (s.ifc i).rsvpEnabled)

/-- the graph with the edges `es` (`pyNTM/performance_model.py:570-577`,
`pyNTM/flex_model.py:1023-1030`) -/
def graphOn (s : State) (es : List ℕ) : NxG :=
  match s.kind with
  | .perf => { nodes := s.graphNodes es, w := weightDi s.tail s.head s.costOf es }
  | .flex => { nodes := s.graphNodes es, w := weightMulti s.tail s.head s.costOf es }

/-- interface paths for the node paths found (`pyNTM/performance_model.py:421`,
`pyNTM/flex_model.py:1620-1625`) -/
def lspCandidatesFl (s : State) (bw : ℚ) (nxSp : List (List String)) :
    Except Exn (List (List ℕ)) :=
  match s.kind with
  | .perf =>
    match allSome (nxSp.map fun p => (s.convertPerf p).toOption) with
    | some l => .ok l
    | none => .error .attributeError
  | .flex => .ok (normalize (nxSp.map (s.convertMdg (s.consideredFl fl false bw true))))

/-- smallest reservable bandwidth on a path -/
def pathHeadroomFl (s : State) (p : List ℕ) : Option ℚ := minQ (p.map (s.reservableFl fl))

/-- `candidate_path_info_w_reservable_bw` (`pyNTM/performance_model.py:428-437`,
`pyNTM/flex_model.py:1628-1636`) -/
def withHeadroomFl (s : State) (bw : ℚ) : List (List ℕ) → Except Exn (List (List ℕ))
  | [] => .ok []
  | p :: ps =>
    match s.pathHeadroomFl fl p with
    | none => .error .valueError
    | some h =>
      match s.withHeadroomFl bw ps with
      | .error e => .error e
      | .ok l => .ok (if bw ≤ h then p :: l else l)

/-- effective reservable bandwidth for an LSP that is already routed
(`pyNTM/performance_model.py:940-950`, `pyNTM/flex_model.py:1698-1708`) -/
def effReservableFl (s : State) (path : List ℕ) (res : ℚ) (i : ℕ) : ℚ :=
  if s.memIfc i path then fl (s.reservableFl fl i + res) else s.reservableFl fl i

/-- edges of the graph for an already routed LSP
(`pyNTM/performance_model.py:914-972`, `pyNTM/flex_model.py:1670-1730`) -/
def routedEdgesFl (s : State) (path : List ℕ) (res needed : ℚ) : List ℕ :=
  s.ifs.filter fun i => !(s.ifc i).failed && (s.ifc i).rsvpEnabled &&
    decide (needed ≤ s.effReservableFl fl path res i)

/-- `FlexModel._convert_nx_path_to_model_path_routed_lsp` (`pyNTM/flex_model.py:1514-1570`) -/
def convertRoutedFl (s : State) (path : List ℕ) (res needed : ℚ) (p : List String) :
    List (List ℕ) :=
  (hopsByIndex p).flatMap fun h =>
    ((s.ifs.filter fun i => s.tail i = h.1 && s.head i = h.2).filter fun i =>
      (s.memIfc i path && decide (needed ≤ fl (s.reservableFl fl i + res))) ||
        decide (needed ≤ s.reservableFl fl i)).map fun i => [i]

/-- `get_shortest_path_for_routed_lsp(...)["path"]` (`pyNTM/performance_model.py:833-879`,
`pyNTM/flex_model.py:1426-1468`); exceptions are swallowed. -/
def routedCandidatesFl (s : State) (env : Env) (src dst : String) (path : List ℕ)
    (res needed : ℚ) : List (List ℕ) :=
  let es := env.ordI (s.routedEdgesFl fl path res needed)
  match (s.graphOn es).allShortestPaths src dst with
  | .error _ => []
  | .ok ps =>
    match s.kind with
    | .perf =>
      match allSome (ps.map fun p => (s.convertPerf p).toOption) with
      | some l => l
      | none => []
    | .flex => State.normalize (ps.map (s.convertRoutedFl fl path res needed))

/-- headroom of a candidate with the LSP's own reservation added back
(`pyNTM/rsvp.py:82-110`) -/
def routedHeadroomFl (s : State) (path : List ℕ) (res : ℚ) (p : List ℕ) : Option ℚ :=
  minQ (p.map (s.effReservableFl fl path res))

/-- `_make_int_info_dict` (`pyNTM/master_model.py:134-151`) -/
def lspHopsFl (s : State) : Except Exn (List (ℕ × ℚ)) :=
  (s.lsps.filter fun l => !(s.lsp l).path.saysUnrouted).foldlM (init := []) fun acc l =>
    match (s.lsp l).path with
    | .routed ifs _ _ =>
      match ifs, (s.lsp l).reserved with
      | [], _ => .ok acc
      | _, .val q =>
        if ifs.all fun i => s.ifs.any fun j => s.ifcKey j = s.ifcKey i then
          .ok (acc ++ ifs.map fun i => (i, fl (pyRound 1 q)))
        else .error .keyError
      | _, _ => .error .typeError
    | _ => .error .keyError

/-- `int_info[key]["reserved_bandwidth"]` (`pyNTM/master_model.py:144-151`) -/
def infoReservedFl (s : State) (info : List (ℕ × ℚ)) (i : ℕ) : ℚ :=
  ((info.filter fun x => s.ifcKey x.1 = s.ifcKey i).map Prod.snd).foldl (fun acc q => fl (acc + q)) 0

/-- `_reserved_bw_error_checks`, first test (`pyNTM/master_model.py:197-198`) -/
def resTooHighFl (s : State) (i : ℕ) : Bool := decide (fl (s.ifc i).capacity < s.reservedFl fl i)

/-- `_reserved_bw_error_checks`, second test (`pyNTM/master_model.py:199-204`) -/
def resSumErrorFl (s : State) (info : List (ℕ × ℚ)) (i : ℕ) : Bool :=
  decide (fl (pyRound 1 (s.reservedFl fl i)) ≠ fl (pyRound 1 (s.infoReservedFl fl info i)))

end State

/-- `RSVP_LSP.setup_bandwidth` setter (`pyNTM/rsvp.py:122-138`) -/
def Lsp.setSetupFl (x : Lsp) (proposed : ℚ) : Except Exn Lsp :=
  match x.configured with
  | some c =>
    if c ≠ 0 then .ok { x with setup := some (fl c) }
    else if 0 ≤ proposed then .ok { x with setup := some proposed }
    else .error (.model "setup_bandwidth must be 0 or greater")
  | none =>
    if 0 ≤ proposed then .ok { x with setup := some proposed }
    else .error (.model "setup_bandwidth must be 0 or greater")

/-- The body of the loop of `_determine_lsp_state_info`
(`pyNTM/performance_model.py:384-469`, `pyNTM/flex_model.py:1584-1668`). -/
def signalLspFl (env : Env) (traff : ℚ) (l : ℕ) : Py Unit := do
  let s ← get
  let bw := ((s.lsp l).configured.map fl).getD traff
  let x ← liftE (Lsp.setSetupFl fl { s.lsp l with reserved := .val bw } bw)
  let b := x.setup.getD 0
  set (s.updLsp l fun _ => { x with path := .blank })
  match (s.graphOn (s.consideredFl fl false b true)).allShortestPaths (s.lspSrc l) (s.lspDst l) with
  | .error .noPath => modify fun s => s.unrouteLsp l
  | .error e => raise e
  | .ok nxSp => do
    let all ← liftE (s.lspCandidatesFl fl b nxSp)
    let cands ← liftE (s.withHeadroomFl fl b all)
    match cands with
    | [] => modify fun s => s.unrouteLsp l
    | cands => do
      let p ← choosePath env cands
      modify fun s =>
        (s.updLsp l fun y => { y with
          path := .routed p (s.pathCost p) ((s.pathHeadroomFl fl p).getD 0) }).reserveOnFl fl p bw

/-- `find_rsvp_path_w_bw` (`pyNTM/rsvp.py:208-251`), for a routed LSP. -/
def findPathWithBwFl (env : Env) (l : ℕ) (needed : ℚ) : Py Unit := do
  let s ← get
  let path ← liftE (s.lsp l).path.interfaces
  let res ← liftE (s.lsp l).reserved.num
  let cands := s.routedCandidatesFl fl env (s.lspSrc l) (s.lspDst l) path res needed
  if cands.any fun p => (s.routedHeadroomFl fl path res p).isNone then raise .valueError
  else do
    match cands with
    | [] => pure ()
    | _ => do
      let p ← pickCandidate env cands
      modify fun t => t.updLsp l fun y => { y with
        path := .routed p (s.pathCost p) ((s.routedHeadroomFl fl path res p).getD 0)
        reserved := .val needed }
      let t ← get
      let y ← liftE ((t.lsp l).setSetupFl fl needed)
      set (t.updLsp l fun _ => y)

/-- The loop body of `_optimize_parallel_lsp_group_res_bw` (`pyNTM/master_model.py:336-355`). -/
def reoptLspFl (env : Env) (needed : ℚ) (l : ℕ) : Py Unit := do
  let s ← get
  let before ← liftE (s.lsp l).path.interfaces
  let resBefore := (s.lsp l).reserved
  findPathWithBwFl fl env l needed
  let s ← get
  if resBefore ≠ (s.lsp l).reserved then do
    let old ← liftE resBefore.num
    modify fun s => s.reserveOnFl fl before (-old)
    let s ← get
    let after ← liftE (s.lsp l).path.interfaces
    let new ← liftE (s.lsp l).reserved.num
    modify fun s => s.reserveOnFl fl after new
  else pure ()

/-- `sum(...)` (`pyNTM/master_model.py:262-264`) -/
def sumFl (l : List ℚ) : ℚ := l.foldl (fun acc q => fl (acc + q)) 0

/-- `_route_parallel_lsp_groups`, one group (`pyNTM/master_model.py:247-287`) -/
def routeGroupFl (env : Env) (dmdGroups : List (String × List ℕ)) (grp : String × List ℕ) :
    Py Unit := do
  let s ← get
  let total : ℚ := match dictGet dmdGroups grp.1 with
    | some ds => sumFl fl (ds.map fun d => (s.dmd d).traffic)
    | none => 0
  let each := if 0 < total then fl (total / grp.2.length) else 0
  forEach grp.2 (signalLspFl fl env each)
  let s ← get
  let routed := grp.2.filter fun l => (s.lsp l).path ≠ .unrouted
  if routed.length ≠ grp.2.length ∧ 0 < routed.length then
    forEach routed (reoptLspFl fl env (fl (total / routed.length)))
  else pure ()

/-- `_route_lsps` with `_route_parallel_lsp_groups` (`pyNTM/master_model.py:208-287`) -/
def routeLspsFl (env : Env) : Py Unit := do
  modify State.clearReserved
  let groups ← lspGroups env
  let s ← get
  forEach groups (routeGroupFl fl env (s.demandGroups env))

/-- `_route_demands` (`pyNTM/performance_model.py:318-370`, `pyNTM/flex_model.py:287-347`) -/
def routeDemandsFull (env : Env) : Py Unit := do
  let s ← get
  let es := s.consideredFl fl false 0 false
  forEach s.dmds (routeDemand env (s.graphOn es) es)
  updateUtilizationFl fl env

/-- `PerformanceModel._make_circuits(return_exception=True)`
(`pyNTM/performance_model.py:579-645`) and `FlexModel._make_circuits_multidigraph`
(`pyNTM/flex_model.py:1092-1182`) -/
def makeCircuitsFl (env : Env) : Py Unit := do
  let s0 ← get
  let es := s0.consideredFl fl true 0 false
  let edges := env.ordI (match s0.kind with
    | .perf => s0.diEdges es
    | .flex => es)
  set s0.clearInCkt
  let paired := edges.filter fun e => s0.hasEdge es (s0.head e) (s0.tail e)
  let circuits ← match s0.kind with
    | .perf => pairPerf paired 1 []
    | .flex => pairFlex paired []
  if edges.any fun e => !s0.hasEdge es (s0.head e) (s0.tail e) then
    raise (.model "WARNING: These interfaces were not matched into a circuit")
  else modify fun s => { s with circuits := circuits }

/-- `validate_model` of both classes (`pyNTM/performance_model.py:129-223`,
`pyNTM/flex_model.py:121-215`), see `validate` -/
def validateFl (env : Env) : Py Unit := do
  makeCircuitsFl fl env
  let s ← get
  let info ← liftE (s.lspHopsFl fl)
  let e1 := if s.ifs.any (s.resTooHighFl fl) then [VErr.resTooHigh] else []
  let e2 := if s.ifs.any (s.resSumErrorFl fl info) then [VErr.resSum] else []
  let e3 := if State.dupNameReportTruthy s.dupNameReport then [] else [VErr.dupIfcName]
  let e4 := if s.kind = .perf ∧ s.nodes.any (fun n => (s.node n).shortcuts) then
    [VErr.shortcutNodes] else []
  forEach s.circuits matchFailed
  let s' ← get
  let e5 := if s'.circuits.any
      (fun c => decide (fl (s'.ifc c.1).capacity ≠ fl (s'.ifc c.2).capacity))
    then [VErr.capacityMismatch] else []
  let e6 := if s.kind = .perf ∧ s'.multipleLinks ≠ [] then [VErr.multipleLinks] else []
  let e7 := if s'.nodes.length ≠ s'.nodeNames.dedup.length then [VErr.dupNodes] else []
  if e1 ++ e2 ++ e3 ++ e4 ++ e5 ++ e6 ++ e7 ≠ [] then
    raise (.model "network interface validation failed, see returned data")
  else pure ()

/-- `update_simulation` (`pyNTM/performance_model.py:251-316`, `pyNTM/flex_model.py:217-283`) with
all the arithmetic in floating point -/
def updateSimulationFull (env : Env) : Py Unit := do
  modify State.resetSim
  routeLspsFl fl env
  routeDemandsFull fl env
  validateFl fl env

end NTM
