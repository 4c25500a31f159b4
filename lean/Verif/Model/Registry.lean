import Verif.Model.Failures

/-!
# Adding and finding objects; parallel groups
-/

namespace NTM

/-- `Node(name, lat, lon)` (`pyNTM/node.py:16-28`): allocates a node object that is not yet
in the model. -/
def newNode (name : String) (lat lon : ℚ) : Py ℕ := fun s =>
  .ok s.next { s with
    node := fun j => if j = s.next then { name := name, lat := lat, lon := lon } else s.node j
    next := s.next + 1 }

/-- `Interface(...)` (`pyNTM/interface.py:12-36` with the setters at `:186-192,198-202`). -/
def newIfc (name : String) (cost : ℤ) (capacity : ℚ) (n m : ℕ) (ckt : CktId) : Py ℕ := fun s =>
  if cost < 1 then .error (.model "Interface cost cannot be less than 1") s
  else if ¬ (0 < capacity) then .error (.model "Interface capacity must be greater than 0") s
  else .ok s.next { s with
    ifc := fun j => if j = s.next then
      { name := name, cost := cost.toNat, capacity := capacity, node := n, remote := m,
        cktId := ckt } else s.ifc j
    next := s.next + 1 }

/-- `self.interface_objects.add(i)` -/
def State.insIfc (s : State) (i : ℕ) : State :=
  if s.memIfc i s.ifs then s else { s with ifs := s.ifs ++ [i] }

/-- `self.node_objects.add(n)` -/
def State.insNode (s : State) (n : ℕ) : State :=
  if s.memNode n s.nodes then s else { s with nodes := s.nodes ++ [n] }

/-- `add_node` (`pyNTM/master_model.py:1083-1098`). -/
def addNode (env : Env) (n : ℕ) : Py Unit := do
  let s ← get
  if (s.node n).name ∈ s.nodeNames then
    raise (.model "A node with name already exists in the model")
  else do
    set (s.insNode n)
    validate env

/-- `Demand(...)` (`pyNTM/demand.py:10-20`) -/
def newDmd (src dst : ℕ) (traffic : ℚ) (name : String) : Py ℕ := fun s =>
  if traffic < 0 then .error .valueError s
  else .ok s.next { s with
    dmd := fun j => if j = s.next then
      { src := src, dst := dst, traffic := traffic, name := name } else s.dmd j
    next := s.next + 1 }

/-- `add_demand` (`pyNTM/master_model.py:472-491`). -/
def addDemand (env : Env) (srcName dstName : String) (traffic : ℚ) (name : String) : Py Unit := do
  let s ← get
  let src ← liftE (s.getNode srcName)
  let dst ← liftE (s.getNode dstName)
  let d ← newDmd src dst traffic name
  let s ← get
  if s.dmds.any fun e => s.dmdKey e = s.dmdKey d then
    raise (.model "already exists in demand_objects")
  else do
    set { s with dmds := s.dmds ++ [d] }
    validate env

/-- `RSVP_LSP(...)` (`pyNTM/rsvp.py:32-49`) -/
def newLsp (src dst : ℕ) (name : String) (configured : Option ℚ) (metric : Option ℤ) : Py ℕ :=
  fun s => .ok s.next { s with
    lsp := fun j => if j = s.next then
      { src := src, dst := dst, name := name, configured := configured,
        initialMetric := metric } else s.lsp j
    next := s.next + 1 }

/-- `add_rsvp_lsp` (`pyNTM/master_model.py:1115-1134`). -/
def addLsp (env : Env) (srcName dstName name : String) : Py Unit := do
  let s ← get
  let src ← liftE (s.getNode srcName)
  let dst ← liftE (s.getNode dstName)
  let l ← newLsp src dst name none none
  let s ← get
  if s.lsps.any fun e => s.lspKey e = s.lspKey l then
    raise (.model "already exists in rsvp_lsp_objects")
  else do
    set { s with lsps := s.lsps ++ [l] }
    validate env

/-- the automatic circuit id of `PerformanceModel.add_circuit`
(`pyNTM/performance_model.py:692-694`): `max(circuit_ids) + 1` raises `TypeError` unless all
ids are numbers. -/
def State.nextCktId (s : State) : Except Exn CktId :=
  match s.ifs with
  | [] => .ok (.num 1)
  | _ =>
    match allSome (s.ifs.map fun i => match (s.ifc i).cktId with
      | .num k => some k
      | _ => none) with
    | none => .error .typeError
    | some ks => .ok (.num (ks.foldl max (ks.headD 0) + 1))

/-- The circuit id step of `add_circuit`: `pyNTM/performance_model.py:692-694` (automatic
id) and `pyNTM/flex_model.py:1264-1273` (must be given and new). -/
def State.pickCktId (s : State) (ckt : CktId) : Except Exn CktId :=
  match s.kind with
  | .perf => if ckt = .none then s.nextCktId else .ok ckt
  | .flex =>
    if ckt = .none then .error (.model "circuit_id must be specified explicitly")
    else if s.ifs.any fun i => (s.ifc i).cktId = ckt then
      .error (.model "circuit_id value is already exists in model")
    else .ok ckt

/-- `add_circuit` (`pyNTM/performance_model.py:664-730`, `pyNTM/flex_model.py:1234-1306`).
The `failed` argument is never read. -/
def addCircuit (env : Env) (a b : ℕ) (nameA nameB : String) (costA costB : ℤ) (capacity : ℚ)
    (_failed : Bool) (ckt : CktId) : Py Unit := do
  let s ← get
  let id ← liftE (s.pickCktId ckt)
  let i ← newIfc nameA costA capacity a b id
  let j ← newIfc nameB costB capacity b a id
  let s ← get
  if s.ifs.any fun x => s.ifcKey x = s.ifcKey i then
    raise (.model "interface on node already exists in model")
  else if s.ifs.any fun x => s.ifcKey x = s.ifcKey j then
    raise (.model "interface on node already exists in model")
  else do
    set ((s.insIfc i).insIfc j)
    validate env

/-- One entry of the list given to `add_network_interfaces_from_list`. -/
structure IfcSpec where
  name : String
  cost : ℤ
  capacity : ℚ
  node : String
  remote : String
  ckt : CktId

/-- The loop of `_make_network_interfaces` (`pyNTM/master_model.py:1186-1217`): the new
interface and node references.  Every interface gets two fresh Node objects of its own. -/
def makeIfcs : List IfcSpec → List ℕ → List ℕ → Py (List ℕ × List ℕ)
  | [], is, ns => pure (is, ns)
  | x :: xs, is, ns => do
    let n ← newNode x.node 0 0
    let m ← newNode x.remote 0 0
    let i ← newIfc x.name x.cost x.capacity n m x.ckt
    let s ← get
    let is' := if s.memIfc i is then is else is ++ [i]
    let names := s.nodeNames
    let ns1 ← if x.node ∉ names then do
        let k ← newNode x.node 0 0
        let s ← get
        pure (if s.memNode k ns then ns else ns ++ [k])
      else pure ns
    let ns2 ← if x.remote ∉ names then do
        let k ← newNode x.remote 0 0
        let s ← get
        pure (if s.memNode k ns1 then ns1 else ns1 ++ [k])
      else pure ns1
    makeIfcs xs is' ns2

/-- `add_network_interfaces_from_list` (`pyNTM/performance_model.py:102-127`,
`pyNTM/flex_model.py:94-119`). -/
def addIfcsFromList (env : Env) (xs : List IfcSpec) : Py Unit := do
  let (is, ns) ← makeIfcs xs [] []
  modify fun s => ns.foldl State.insNode s
  modify fun s => is.foldl State.insIfc s
  validate env

/-- `change_interface_name` (`pyNTM/master_model.py:686-700`) -/
def changeIfcName (nodeName cur new : String) : Py ℕ := do
  let s ← get
  let i ← liftE (s.getIfc cur nodeName)
  set (s.updIfc i fun x => { x with name := new })
  pure i

namespace State

/-- `get_demand_object` (`pyNTM/master_model.py:1136-1160`) -/
def getDemand (s : State) (src dst name : String) : Except Exn ℕ :=
  match s.dmds.find? fun d => s.dmdKey d = (src, dst, name) with
  | some d => .ok d
  | none => .error (.model "no matching demand")

/-- `get_rsvp_lsp` (`pyNTM/master_model.py:1162-1184`) -/
def getLsp (s : State) (src dst name : String) : Except Exn ℕ :=
  match s.lsps.find? fun l => s.lspKey l = (src, dst, name) with
  | some l => .ok l
  | none => .error (.model "LSP does not exist in model")

/-- `get_demand_objects_source_node` (`pyNTM/master_model.py:925-938`) -/
def dmdsFrom (s : State) (name : String) : List ℕ :=
  s.dmds.filter fun d => (s.node (s.dmd d).src).name = name

/-- `get_demand_objects_dest_node` (`pyNTM/master_model.py:940-952`) -/
def dmdsTo (s : State) (name : String) : List ℕ :=
  s.dmds.filter fun d => (s.node (s.dmd d).dst).name = name

/-- `get_orphan_node_objects` (`pyNTM/master_model.py:1077-1081`) -/
def orphans (s : State) : List ℕ :=
  s.nodes.filter fun n => (s.ifcsOn (s.node n).name).length = 0

end State

/-- `d[key] = v` on an insertion-ordered dict -/
def dictSet {α : Type} : List (String × α) → String → α → List (String × α)
  | [], k, v => [(k, v)]
  | (k', v') :: d, k, v => if k' = k then (k, v) :: d else (k', v') :: dictSet d k v

/-- `del d[key]` -/
def dictDel {α : Type} (d : List (String × α)) (k : String) : List (String × α) :=
  d.filter fun x => x.1 ≠ k

/-- `d[key]` -/
def dictGet {α : Type} (d : List (String × α)) (k : String) : Option α :=
  (d.find? fun x => x.1 = k).map Prod.snd

/-- `"{}-{}".format(a, b)` -/
def pairKey (a b : String) : String := a ++ "-" ++ b

/-- The double loop that builds the parallel groups of LSPs
(`pyNTM/master_model.py:376-397`) and demands (`pyNTM/master_model.py:414-433`), generic in
the objects and their end points. -/
def buildGroups (env : Env) (objs : List ℕ) (src dst : ℕ → String) : List (String × List ℕ) :=
  let srcs := env.ordS (objs.map src).dedup
  let dsts := env.ordS (objs.map dst).dedup
  srcs.foldl (init := []) fun acc a =>
    dsts.foldl (init := acc) fun acc b =>
      let l := objs.filter fun o => src o = a && dst o = b
      let acc' := dictSet acc (pairKey a b) l
      if l = [] then dictDel acc' (pairKey a b) else acc'

namespace State

/-- source node name of an LSP -/
def lspSrc (s : State) (l : ℕ) : String := (s.node (s.lsp l).src).name
/-- destination node name of an LSP -/
def lspDst (s : State) (l : ℕ) : String := (s.node (s.lsp l).dst).name
/-- source node name of a demand -/
def dmdSrc (s : State) (d : ℕ) : String := (s.node (s.dmd d).src).name
/-- destination node name of a demand -/
def dmdDst (s : State) (d : ℕ) : String := (s.node (s.dmd d).dst).name

/-- `parallel_demand_groups` (`pyNTM/master_model.py:399-433`) -/
def demandGroups (s : State) (env : Env) : List (String × List ℕ) :=
  buildGroups env s.dmds s.dmdSrc s.dmdDst

end State

/-- `parallel_lsp_groups` (`pyNTM/master_model.py:357-397`): cached while non-empty. -/
def lspGroups (env : Env) : Py (List (String × List ℕ)) := fun s =>
  if s.groups ≠ [] then .ok s.groups s
  else
    let g := buildGroups env s.lsps s.lspSrc s.lspDst
    .ok g { s with groups := g }

end NTM
