import Verif.Model.Paths

/-!
# Routing of RSVP LSPs
-/

namespace NTM

/-- `min(...)` over a list of numbers; `none` is Python's `ValueError` -/
def minQ (l : List ℚ) : Option ℚ := l.min?

namespace State

/-- the graph an LSP is signalled on (`pyNTM/performance_model.py:395-399`,
`pyNTM/flex_model.py:1595-1599`) -/
def lspGraph (s : State) (bw : ℚ) : NxG :=
  match s.kind with
  | .perf => s.graphPerf false bw true
  | .flex => s.graphFlex false bw true

/-- interface paths for the node paths found (`pyNTM/performance_model.py:421`,
`pyNTM/flex_model.py:1620-1625`) -/
def lspCandidates (s : State) (bw : ℚ) (nxSp : List (List String)) : Except Exn (List (List ℕ)) :=
  match s.kind with
  | .perf =>
    match allSome (nxSp.map fun p => (s.convertPerf p).toOption) with
    | some l => .ok l
    | none => .error .attributeError
  | .flex => .ok (normalize (nxSp.map (s.convertMdg (s.considered false bw true))))

/-- smallest reservable bandwidth on a path (`none`: empty path, `ValueError`) -/
def pathHeadroom (s : State) (p : List ℕ) : Option ℚ := minQ (p.map s.reservable)

/-- sum of interface costs -/
def pathCost (s : State) (p : List ℕ) : ℕ := (p.map s.costOf).sum

/-- `candidate_path_info_w_reservable_bw` (`pyNTM/performance_model.py:428-437`,
`pyNTM/flex_model.py:1628-1636`) -/
def withHeadroom (s : State) (bw : ℚ) : List (List ℕ) → Except Exn (List (List ℕ))
  | [] => .ok []
  | p :: ps =>
    match s.pathHeadroom p with
    | none => .error .valueError
    | some h =>
      match s.withHeadroom bw ps with
      | .error e => .error e
      | .ok l => .ok (if bw ≤ h then p :: l else l)

/-- `interface.reserved_bandwidth += v` for every interface of a path -/
def reserveOn (s : State) (p : List ℕ) (v : ℚ) : State := p.foldl (fun s i => s.addReserved i v) s

end State

/-- the shortest lists of a list of lists (`pyNTM/performance_model.py:446-453`,
`pyNTM/flex_model.py:1645-1652`) -/
def fewestHops (ps : List (List ℕ)) : List (List ℕ) :=
  ps.filter fun p => decide ((ps.map List.length).min? = some p.length)

/-- `random.choice` -/
def randomChoice {α : Type} (env : Env) (l : List α) : Py α := fun s =>
  match l[env.rand s.rngPos % l.length]? with
  | some x => .ok x { s with rngPos := s.rngPos + 1 }
  | none => .error .indexError s

/-- choice of the new path (`pyNTM/performance_model.py:445-459`,
`pyNTM/flex_model.py:1644-1658`), for a non-empty list of candidates -/
def choosePath (env : Env) (cands : List (List ℕ)) : Py (List ℕ) :=
  match cands with
  | [p] => pure p
  | _ =>
    match fewestHops cands with
    | [p] => pure p
    | ps => randomChoice env ps

/-- `lsp.path = "Unrouted"; lsp.reserved_bandwidth = "Unrouted"` -/
def State.unrouteLsp (s : State) (l : ℕ) : State :=
  s.updLsp l fun x => { x with path := .unrouted, reserved := .unrouted }

/-- The body of the loop of `_determine_lsp_state_info`
(`pyNTM/performance_model.py:384-469`, `pyNTM/flex_model.py:1584-1668`) with
`_add_lsp_path_data` (`pyNTM/master_model.py:289-308`). -/
def signalLsp (env : Env) (traff : ℚ) (l : ℕ) : Py Unit := do
  let s ← get
  let bw := (s.lsp l).configured.getD traff
  let x ← liftE (Lsp.setSetup { s.lsp l with reserved := .val bw } bw)
  let b := x.setup.getD 0
  set (s.updLsp l fun _ => { x with path := .blank })
  match (s.lspGraph b).allShortestPaths (s.lspSrc l) (s.lspDst l) with
  | .error .noPath => modify fun s => s.unrouteLsp l
  | .error e => raise e
  | .ok nxSp => do
    let all ← liftE (s.lspCandidates b nxSp)
    let cands ← liftE (s.withHeadroom b all)
    match cands with
    | [] => modify fun s => s.unrouteLsp l
    | cands => do
      let p ← choosePath env cands
      modify fun s =>
        (s.updLsp l fun y => { y with
          path := .routed p (s.pathCost p) ((s.pathHeadroom p).getD 0) }).reserveOn p bw

/-- effective reservable bandwidth for an LSP that is already routed
(`pyNTM/performance_model.py:940-950`, `pyNTM/flex_model.py:1698-1708`) -/
def State.effReservable (s : State) (path : List ℕ) (res : ℚ) (i : ℕ) : ℚ :=
  if s.memIfc i path then s.reservable i + res else s.reservable i

/-- edges of the graph for an already routed LSP
(`pyNTM/performance_model.py:914-972`, `pyNTM/flex_model.py:1670-1730`) -/
def State.routedEdges (s : State) (path : List ℕ) (res needed : ℚ) : List ℕ :=
  s.ifs.filter fun i => !(s.ifc i).failed && (s.ifc i).rsvpEnabled &&
    decide (needed ≤ s.effReservable path res i)

/-- `FlexModel._convert_nx_path_to_model_path_routed_lsp` (`pyNTM/flex_model.py:1514-1570`):
the hop list is re-created for every interface, so parallel interfaces become consecutive
one-element hops. -/
def State.convertRouted (s : State) (path : List ℕ) (res needed : ℚ) (p : List String) :
    List (List ℕ) :=
  (hopsByIndex p).flatMap fun h =>
    ((s.ifs.filter fun i => s.tail i = h.1 && s.head i = h.2).filter fun i =>
      (s.memIfc i path && decide (needed ≤ s.reservable i + res)) ||
        decide (needed ≤ s.reservable i)).map fun i => [i]

/-- `get_shortest_path_for_routed_lsp(...)["path"]` (`pyNTM/performance_model.py:833-879`,
`pyNTM/flex_model.py:1426-1468`); exceptions are swallowed. -/
def State.routedCandidates (s : State) (env : Env) (src dst : String) (path : List ℕ)
    (res needed : ℚ) : List (List ℕ) :=
  let es := env.ordI (s.routedEdges path res needed)
  match s.kind with
  | .perf =>
    let g : NxG := { nodes := s.graphNodes es, w := weightDi s.tail s.head s.costOf es }
    match g.allShortestPaths src dst with
    | .error _ => []
    | .ok ps =>
      match allSome (ps.map fun p => (s.convertPerf p).toOption) with
      | some l => l
      | none => []
  | .flex =>
    let g : NxG := { nodes := s.graphNodes es, w := weightMulti s.tail s.head s.costOf es }
    match g.allShortestPaths src dst with
    | .error _ => []
    | .ok ps => State.normalize (ps.map (s.convertRouted path res needed))

/-- headroom of a candidate with the LSP's own reservation added back
(`pyNTM/rsvp.py:82-110`) -/
def State.routedHeadroom (s : State) (path : List ℕ) (res : ℚ) (p : List ℕ) : Option ℚ :=
  minQ (p.map (s.effReservable path res))

/-- arithmetic with `lsp.reserved_bandwidth`: a string raises `TypeError` -/
def Bw.num : Bw → Except Exn ℚ
  | .val q => .ok q
  | _ => .error .typeError

/-- choice among the candidates of a routed LSP (`pyNTM/rsvp.py:241-247`) -/
def pickCandidate (env : Env) (cands : List (List ℕ)) : Py (List ℕ) :=
  match cands with
  | [p] => pure p
  | ps => randomChoice env ps

/-- `find_rsvp_path_w_bw` (`pyNTM/rsvp.py:208-251`), for a routed LSP. -/
def findPathWithBw (env : Env) (l : ℕ) (needed : ℚ) : Py Unit := do
  let s ← get
  let path ← liftE (s.lsp l).path.interfaces
  let res ← liftE (s.lsp l).reserved.num
  let cands := s.routedCandidates env (s.lspSrc l) (s.lspDst l) path res needed
  if cands.any fun p => (s.routedHeadroom path res p).isNone then raise .valueError
  else do
    match cands with
    | [] => pure ()
    | _ => do
      let p ← pickCandidate env cands
      modify fun t => t.updLsp l fun y => { y with
        path := .routed p (s.pathCost p) ((s.routedHeadroom path res p).getD 0)
        reserved := .val needed }
      let t ← get
      let y ← liftE ((t.lsp l).setSetup needed)
      set (t.updLsp l fun _ => y)

/-- The loop body of `_optimize_parallel_lsp_group_res_bw`
(`pyNTM/master_model.py:336-355`). -/
def reoptLsp (env : Env) (needed : ℚ) (l : ℕ) : Py Unit := do
  let s ← get
  let before ← liftE (s.lsp l).path.interfaces
  let resBefore := (s.lsp l).reserved
  findPathWithBw env l needed
  let s ← get
  if resBefore ≠ (s.lsp l).reserved then do
    let old ← liftE resBefore.num
    modify fun s => s.reserveOn before (-old)
    let s ← get
    let after ← liftE (s.lsp l).path.interfaces
    let new ← liftE (s.lsp l).reserved.num
    modify fun s => s.reserveOn after new
  else pure ()

/-- `_route_parallel_lsp_groups`, one group (`pyNTM/master_model.py:247-287`).  The test
`lsp.path != "Unrouted"` is on the exact string. -/
def routeGroup (env : Env) (dmdGroups : List (String × List ℕ)) (grp : String × List ℕ) :
    Py Unit := do
  let s ← get
  let total : ℚ := match dictGet dmdGroups grp.1 with
    | some ds => (ds.map fun d => (s.dmd d).traffic).sum
    | none => 0
  let each := if 0 < total then total / grp.2.length else 0
  forEach grp.2 (signalLsp env each)
  let s ← get
  let routed := grp.2.filter fun l => (s.lsp l).path ≠ .unrouted
  if routed.length ≠ grp.2.length ∧ 0 < routed.length then
    forEach routed (reoptLsp env (total / routed.length))
  else pure ()

/-- `interface.reserved_bandwidth = 0` for all interfaces of the model -/
def State.clearReserved (s : State) : State :=
  { s with ifc := fun i => if i ∈ s.ifs then { s.ifc i with reservedRaw := 0 } else s.ifc i }

/-- `_route_lsps` with `_route_parallel_lsp_groups` (`pyNTM/master_model.py:208-287`). -/
def routeLsps (env : Env) : Py Unit := do
  modify State.clearReserved
  let groups ← lspGroups env
  let s ← get
  forEach groups (routeGroup env (s.demandGroups env))

end NTM
