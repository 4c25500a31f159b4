import Verif.Model.Lsp

/-!
# Routing of demands and interface load
-/

namespace NTM

namespace State

/-- name of the node an item starts at (`pyNTM/flex_model.py:713-722`) -/
def itemTail (s : State) : Item → String
  | .ifc i => s.tail i
  | .lsp l => s.lspSrc l

/-- name of the node an item ends at -/
def itemHead (s : State) : Item → String
  | .ifc i => s.head i
  | .lsp l => s.lspDst l

end State

/-- `set(shortest_path_item_list)` (`pyNTM/performance_model.py:1378-1383`,
`pyNTM/flex_model.py:657-663`).  Simplification: members are compared by identity;
interfaces with different keys are never equal. -/
def itemSet (paths : List (List Item)) : List Item := paths.flatten.dedup

/-- `len(unique_next_hops[u])` (`pyNTM/performance_model.py:1386-1397`,
`pyNTM/flex_model.py:755-809`): items of the paths that start at `u`. -/
def outDeg (tail : Item → String) (paths : List (List Item)) (u : String) : ℕ :=
  ((itemSet paths).filter fun x => tail x = u).length

/-- the cumulative splits along a path (`pyNTM/performance_model.py:1480-1485`,
`pyNTM/flex_model.py:709-724`) -/
def cumSplits (deg : String → ℕ) (tail : Item → String) : ℕ → List Item → List (Item × ℕ)
  | _, [] => []
  | acc, x :: p => (x, acc * deg (tail x)) :: cumSplits deg tail (acc * deg (tail x)) p

/-- one entry of `shortest_path_info` (`pyNTM/performance_model.py:1471-1494`,
`pyNTM/flex_model.py:702-735`); `rnd` is `round(_, 4)` in the PerformanceModel and the
identity in the FlexModel.  An empty path makes `max([])` raise `ValueError`. -/
def pathInfo (rnd : ℚ → ℚ) (deg : String → ℕ) (tail : Item → String) (traffic : ℚ)
    (p : List Item) : Except Exn PathInfo :=
  let sp := cumSplits deg tail 1 p
  match (sp.map Prod.snd).max? with
  | none => .error .valueError
  | some m => .ok { items := p, splits := some sp, traffic := rnd (traffic / m) }

/-- all entries, in order -/
def pathInfos (rnd : ℚ → ℚ) (deg : String → ℕ) (tail : Item → String) (traffic : ℚ) :
    List (List Item) → Except Exn (List PathInfo)
  | [] => .ok []
  | p :: ps =>
    match pathInfo rnd deg tail traffic p with
    | .error e => .error e
    | .ok x =>
      match pathInfos rnd deg tail traffic ps with
      | .error e => .error e
      | .ok xs => .ok (x :: xs)

/-- `traff_per_int[item]` before rounding (`pyNTM/performance_model.py:1500-1503`,
`pyNTM/flex_model.py:741-744`) -/
def itemTraffic (infos : List PathInfo) (x : Item) : ℚ :=
  (infos.map fun p => (p.items.count x : ℚ) * p.traffic).sum

/-- `interface.traffic += q`; `"Down" += q` raises `TypeError` -/
def addTraffic (i : ℕ) (q : ℚ) : Py Unit := fun s =>
  match (s.ifc i).traffic with
  | .down => .error .typeError s
  | .val t => .ok () (s.updIfc i fun x => { x with traffic := .val (t + q) })

/-- all the metrics, in order -/
def State.effMetrics (s : State) : List ℕ → Except Exn (List Metric)
  | [] => .ok []
  | l :: ls =>
    match s.effMetric l with
    | .error e => .error e
    | .ok m =>
      match s.effMetrics ls with
      | .error e => .error e
      | .ok ms => .ok (m :: ms)

/-- LSPs whose metric equals `m` -/
def State.withMetric (s : State) (m : Metric) (ls : List ℕ) : List ℕ :=
  ls.filter fun l => match s.effMetric l with
    | .ok x => decide (x = m)
    | .error _ => false

/-- the LSPs a demand rides end to end (`pyNTM/performance_model.py:332-348`,
`pyNTM/flex_model.py:303-318`) -/
def ridingLsps (env : Env) (key : String) : Py (List ℕ) := do
  let groups ← lspGroups env
  let s ← get
  match (dictGet groups key).getD [] |>.filter fun l => !(s.lsp l).path.saysUnrouted with
  | [] => pure []
  | ls => do
    let ms ← liftE (s.effMetrics ls)
    let m ← liftE (pyMin ms)
    pure (s.withMetric m ls)

/-- `lsps_for_demand` of `_update_interface_utilization`
(`pyNTM/performance_model.py:1267-1285`, `pyNTM/flex_model.py:551-569`), also used by the
shortcut search (`pyNTM/flex_model.py:443-463`). -/
def bestLsps (env : Env) (key : String) : Py (List ℕ) := do
  let groups ← lspGroups env
  let s ← get
  match dictGet groups key with
  | none => pure []
  | some cands => do
    let routed := cands.filter fun l => !(s.lsp l).path.saysUnrouted
    let ms ← liftE (s.effMetrics routed)
    match pyMin ms with
    | .error .valueError => pure []
    | .error e => raise e
    | .ok m => do
      let _ ← liftE (s.effMetrics cands)
      pure ((s.withMetric m cands).filter fun l => !(s.lsp l).path.saysUnrouted)

/-! ### IGP shortcuts (FlexModel) -/

/-- first LSP group from `u` to one of the destinations, in the given order
(`pyNTM/flex_model.py:438-473`); returns the LSPs and the node where they end. -/
def findShortcut (env : Env) (s : State) (u : String) : List String → Py (Option (List ℕ × String))
  | [] => pure none
  | v :: vs => do
    let ls ← bestLsps env (pairKey u v)
    match ls with
    | [] => findShortcut env s u vs
    | l :: _ => pure (some (ls, s.lspDst l))

/-- `path_lsps` for one node path (`pyNTM/flex_model.py:417-473`): `path` is the whole node
path, the list argument the nodes still to visit, `skip` the end of the last LSP taken. -/
def shortcutLsps (env : Env) (path : List String) :
    List String → Option String → Py (List (List ℕ))
  | [], _ => pure []
  | u :: rest, skip => do
    let s ← get
    if (match skip with
        | some e => decide (path.idxOf u < path.idxOf e)
        | none => false) then shortcutLsps env path rest skip
    else do
      let n ← liftE (s.getNode u)
      if (s.node n).shortcuts then do
        let found ← findShortcut env s u (path.drop (path.idxOf u + 1)).reverse
        match found with
        | some (ls, e) => do
          let more ← shortcutLsps env path rest (some e)
          pure (ls :: more)
        | none => shortcutLsps env path rest skip
      else shortcutLsps env path rest skip

/-- `path[start:end] = [x]` -/
def sliceSet {α : Type} (l : List α) (a b : ℕ) (x : α) : List α :=
  l.take a ++ [x] ++ l.drop (max a b)

/-- the slice an LSP group replaces (`pyNTM/flex_model.py:849-877`); `none` when an end
point is not on the path.  Node objects are compared with `Node.__eq__`. -/
def State.lspSlice (s : State) (p : List ℕ) (grp : List ℕ) : Option (ℕ × ℕ) :=
  match grp with
  | [] => none
  | l :: _ =>
    match p.findIdx? fun i => s.nodeEq (s.ifc i).node (s.lsp l).src,
          p.findIdx? fun i => s.nodeEq (s.ifc i).remote (s.lsp l).dst with
    | some a, some b => some (a, b + 1)
    | _, _ => none

/-- `_insert_lsps_into_path` (`pyNTM/flex_model.py:811-894`); `none` is the code `-1`. -/
def State.insertLsps (s : State) (groups : List (List ℕ)) (p : List ℕ) :
    Option (List (List Item)) :=
  match allSome (groups.map fun g => (s.lspSlice p g).map fun ab =>
    g.map fun l => (ab.1, ab.2, l)) with
  | none => none
  | some slices =>
    some ((pyProduct slices.reverse).map fun combo =>
      combo.foldl (fun q (x : ℕ × ℕ × ℕ) => sliceSet q x.1 x.2.1 (Item.lsp x.2.2))
        (p.map Item.ifc))

/-- `_insert_lsp_shortcuts` (`pyNTM/flex_model.py:403-489`): only the LSPs found on the
*last* node path are substituted. -/
def insertShortcuts (env : Env) (nodePaths : List (List String)) (paths : List (List ℕ)) :
    Py (List (List Item)) := do
  let found ← nodePaths.foldlM (init := none) fun _ np => do
    let x ← shortcutLsps env np np none
    pure (some x)
  match found with
  | none => raise .unboundLocal
  | some groups => do
    let s ← get
    if groups = [] then pure (paths.map fun p => p.map Item.ifc)
    else pure (paths.foldl (init := []) fun acc p =>
      match s.insertLsps groups p with
      | some ps => ps.foldl (fun acc q => if q ∈ acc then acc else acc ++ [q]) acc
      | none => acc ++ [p.map Item.ifc])

/-- metric of a path with LSPs (`pyNTM/flex_model.py:502-508`) -/
def State.mixedMetric (s : State) : List Item → Except Exn ℕ
  | [] => .ok 0
  | .ifc i :: p => (s.mixedMetric p).map fun n => s.costOf i + n
  | .lsp l :: p =>
    match s.effMetric l with
    | .error e => .error e
    | .ok (.val m) => (s.mixedMetric p).map fun n => m + n
    | .ok _ => .error .typeError

/-- the metrics of all paths -/
def State.mixedMetrics (s : State) : List (List Item) → Except Exn (List ℕ)
  | [] => .ok []
  | p :: ps =>
    match s.mixedMetric p with
    | .error e => .error e
    | .ok m => (s.mixedMetrics ps).map fun ms => m :: ms

/-- `_inspect_for_lsp_metrics` (`pyNTM/flex_model.py:491-519`), for at least two paths. -/
def State.inspectMetrics (s : State) (ps : List (List Item)) : Except Exn (List (List Item)) :=
  match s.mixedMetrics ps with
  | .error e => .error e
  | .ok ms => .ok (ps.filter fun p => match s.mixedMetric p with
      | .ok m => decide (ms.min? = some m)
      | .error _ => false)

/-- `find_igp_shortcuts` (`pyNTM/flex_model.py:349-401`). -/
def findIgpShortcuts (env : Env) (paths : List (List ℕ)) (nodePaths : List (List String)) :
    Py (List (List Item)) := do
  let s ← get
  let ns ← liftE ((nodePaths.flatten.dedup).foldlM (init := []) fun acc u =>
    (s.getNode u).map fun n => acc ++ [n])
  if ns.all fun n => !(s.node n).shortcuts then
    pure (paths.map fun p => p.map Item.ifc)
  else do
    let ps ← insertShortcuts env nodePaths paths
    if ps.length = 1 then pure ps
    else if ps.length = 0 then raise .typeError
    else do
      let s ← get
      liftE (s.inspectMetrics ps)

/-! ### Routing -/

/-- The IGP part of `_route_demands` for one demand: node paths found, or `none` when there
is no path (`pyNTM/performance_model.py:350-366`, `pyNTM/flex_model.py:320-343`). -/
def igpPaths (env : Env) (g : NxG) (es : List ℕ) (src dst : String) :
    Py (Option (List (List Item))) := do
  let s ← get
  match g.allShortestPaths src dst with
  | .error .noPath => pure none
  | .error e => raise e
  | .ok nxSp =>
    match s.kind with
    | .perf =>
      match allSome (nxSp.map fun p => (s.convertPerf p).toOption) with
      | some l => pure (some (l.map fun p => p.map Item.ifc))
      | none => raise .attributeError
    | .flex => do
      let ps ← findIgpShortcuts env (State.normalize (nxSp.map (s.convertMdg es))) nxSp
      pure (some ps)

/-- The body of the loop of `_route_demands` (`pyNTM/performance_model.py:328-366`,
`pyNTM/flex_model.py:299-343`).  `g` is the graph built before the loop and `es` its
edges. -/
def routeDemand (env : Env) (g : NxG) (es : List ℕ) (d : ℕ) : Py Unit := do
  modify fun s => s.updDmd d fun x => { x with path := some [] }
  let s ← get
  let ls ← ridingLsps env (pairKey (s.dmdSrc d) (s.dmdDst d))
  match ls with
  | [] => do
    let p ← igpPaths env g es (s.dmdSrc d) (s.dmdDst d)
    modify fun s => s.updDmd d fun x => { x with path := p }
  | ls => modify fun s => s.updDmd d fun x =>
      { x with path := some (ls.map fun l => [Item.lsp l]) }

/-- `"Down" if failed else 0.0` (`pyNTM/performance_model.py:1242-1243`,
`pyNTM/flex_model.py:527-528`) -/
def State.resetTraffic (s : State) : State :=
  { s with ifc := fun i => if i ∈ s.ifs then
      { s.ifc i with traffic := if (s.ifc i).failed then .down else .val 0 } else s.ifc i }

/-- `path_detail` of a demand that rides LSPs end to end: `round(_, 4)` and splits in the
PerformanceModel (`pyNTM/performance_model.py:1328-1352`), neither in the FlexModel
(`pyNTM/flex_model.py:609-619`). -/
def lspDetail (k : Kind) (traffic : ℚ) (ls : List ℕ) : List PathInfo :=
  ls.map fun l => match k with
    | .perf => { items := [.lsp l], splits := some [(.lsp l, ls.length)],
                 traffic := pyRound 4 (traffic / ls.length) }
    | .flex => { items := [.lsp l], splits := none, traffic := traffic / ls.length }

/-- The load of an IGP-routed demand on the interfaces, PerformanceModel
(`pyNTM/performance_model.py:1308-1322`) and FlexModel (`pyNTM/flex_model.py:581-591`). -/
def applyItem (k : Kind) (infos : List PathInfo) (x : Item) : Py Unit :=
  match k, x with
  | .perf, .ifc i => addTraffic i (pyRound 1 (itemTraffic infos x))
  | .perf, .lsp _ => raise .attributeError
  | .flex, .ifc i =>
    forEach infos fun p => if x ∈ p.items then addTraffic i p.traffic else pure ()
  | .flex, .lsp l => do
    let s ← get
    let ifs ← liftE (s.lsp l).path.interfaces
    forEach ifs fun i => addTraffic i (pyRound 1 (itemTraffic infos x))

/-- The loop body of `_update_interface_utilization`
(`pyNTM/performance_model.py:1252-1324`, `pyNTM/flex_model.py:537-591`). -/
def loadDemand (env : Env) (d : ℕ) : Py Unit := do
  let s ← get
  match (s.dmd d).path with
  | none => pure ()
  | some paths => do
    let ls ← bestLsps env (pairKey (s.dmdSrc d) (s.dmdDst d))
    let s ← get
    match ls with
    | [] => do
      let tail := s.itemTail
      let infos ← liftE (pathInfos (match s.kind with
        | .perf => pyRound 4
        | .flex => id) (outDeg tail paths) tail (s.dmd d).traffic paths)
      modify fun s => s.updDmd d fun x => { x with detail := some infos }
      forEach (itemSet paths) (applyItem s.kind infos)
    | ls => do
      let q := (s.dmd d).traffic / ls.length
      forEach ls fun l => do
        let s ← get
        let ifs ← liftE (s.lsp l).path.interfaces
        forEach ifs fun i => addTraffic i q
      modify fun s => s.updDmd d fun x =>
        { x with detail := some (lspDetail s.kind x.traffic ls) }

/-- `_update_interface_utilization` (`pyNTM/performance_model.py:1236-1326`,
`pyNTM/flex_model.py:521-593`). -/
def updateUtilization (env : Env) : Py Unit := do
  modify State.resetTraffic
  let s ← get
  forEach s.dmds (loadDemand env)

/-- `_route_demands` (`pyNTM/performance_model.py:318-370`, `pyNTM/flex_model.py:287-347`). -/
def routeDemands (env : Env) : Py Unit := do
  let s ← get
  let g := match s.kind with
    | .perf => s.graphPerf false 0 false
    | .flex => s.graphFlex false 0 false
  forEach s.dmds (routeDemand env g (s.considered false 0 false))
  updateUtilization env

end NTM
