import Verif.Model.Graph

/-!
# Methods of Interface, Node, SRLG and RSVP_LSP objects
-/

namespace NTM

namespace State

/-- `Interface.reserved_bandwidth` getter (`pyNTM/interface.py:108-113`) -/
def reservedBw (s : State) (i : ℕ) : ℚ := pyRound 1 (s.ifc i).reservedRaw

/-- `Interface.reservable_bandwidth` (`pyNTM/interface.py:93-106`) -/
def reservable (s : State) (i : ℕ) : ℚ :=
  if (s.ifc i).rsvpEnabled then
    pyRound 1 ((s.ifc i).capacity * ((s.ifc i).pct / 100) - s.reservedBw i)
  else -1

/-- `interface.reserved_bandwidth = v` (`pyNTM/interface.py:115-128`).
Simplification: the type test is a type here. -/
def setReserved (s : State) (i : ℕ) (v : ℚ) : State :=
  s.updIfc i fun x => { x with reservedRaw := v }

/-- `interface.reserved_bandwidth += v`: reads the rounded value. -/
def addReserved (s : State) (i : ℕ) (v : ℚ) : State := s.setReserved i (s.reservedBw i + v)

/-- `Node.__eq__` (`pyNTM/node.py:39-40`): equality of all attributes; `_srlgs` is compared
as a set. -/
def nodeEq (s : State) (a b : ℕ) : Bool :=
  a == b ||
  ((s.node a).name == (s.node b).name && (s.node a).failed == (s.node b).failed &&
   (s.node a).lat == (s.node b).lat && (s.node a).lon == (s.node b).lon &&
   (s.node a).srlgs.all (fun g => decide (g ∈ (s.node b).srlgs)) &&
   (s.node b).srlgs.all (fun g => decide (g ∈ (s.node a).srlgs)) &&
   (s.node a).shortcuts == (s.node b).shortcuts)

/-- `Interface.__eq__` (`pyNTM/interface.py:44-60`), identity first as in `in` tests. -/
def ifcEq (s : State) (i j : ℕ) : Bool :=
  i == j ||
  (s.nodeEq (s.ifc i).node (s.ifc j).node && s.nodeEq (s.ifc i).remote (s.ifc j).remote &&
   (s.ifc i).name == (s.ifc j).name && (s.ifc i).capacity == (s.ifc j).capacity &&
   (s.ifc i).cktId == (s.ifc j).cktId)

/-- `interface in l` -/
def memIfc (s : State) (i : ℕ) (l : List ℕ) : Bool := l.any (s.ifcEq i)

/-- `node in l` -/
def memNode (s : State) (n : ℕ) (l : List ℕ) : Bool := l.any (s.nodeEq n)

/-- `l1 == l2` for lists of interfaces -/
def ifcListEq (s : State) : List ℕ → List ℕ → Bool
  | [], [] => true
  | i :: l, j :: m => s.ifcEq i j && ifcListEq s l m
  | _, _ => false

/-- `Node(name).interfaces(model)` (`pyNTM/node.py:123-138`): depends on the name only. -/
def ifcsOn (s : State) (name : String) : List ℕ := s.ifs.filter fun i => s.tail i = name

/-- `Node.adjacent_nodes` (`pyNTM/node.py:140-155`), before set deduplication. -/
def adjacentNodes (s : State) (name : String) : List ℕ :=
  (s.ifcsOn name).map fun i => (s.ifc i).remote

/-- `Interface.get_remote_interface` (`pyNTM/interface.py:239-269`).  No match leaves the
local variable unbound. -/
def remoteIfc (s : State) (i : ℕ) : Except Exn ℕ :=
  match s.ifs.find? fun j => s.tail j = s.head i && (s.ifc j).cktId = (s.ifc i).cktId with
  | none => .error .unboundLocal
  | some j =>
    if s.ifcListEq (s.ifcsOn (s.head j)) (s.ifcsOn (s.tail i)) then .ok j
    else .error (.model "Internal Validation Error")

/-- is some SRLG of the interface failed? (`pyNTM/interface.py:157`) -/
def ifcHeld (s : State) (i : ℕ) : Bool := (s.ifc i).srlgs.any fun g => (s.srlg g).failed

/-- is some SRLG of the node failed? (`pyNTM/node.py:68`) -/
def nodeHeld (s : State) (n : ℕ) : Bool := (s.node n).srlgs.any fun g => (s.srlg g).failed

/-- the state change `self._failed = True; self.reserved_bandwidth = 0`
(`pyNTM/interface.py:160-161,175-180`) -/
def downIfc (s : State) (i : ℕ) : State :=
  s.updIfc i fun x => { x with failed := true, reservedRaw := 0 }

/-- `SRLG.node_objects` (`pyNTM/srlg.py:49-52`) -/
def srlgNodes (s : State) (g : ℕ) : List ℕ := s.nodes.filter fun n => g ∈ (s.node n).srlgs

/-- `SRLG.interface_objects` (`pyNTM/srlg.py:54-63`) -/
def srlgIfcs (s : State) (g : ℕ) : List ℕ := s.ifs.filter fun i => g ∈ (s.ifc i).srlgs

/-- `Interface.utilization` (`pyNTM/interface.py:341-348`); `none` is `"Int is down"`.
Simplification: `float("%.2f" % x)` is exact rounding to two decimals. -/
def utilization (s : State) (i : ℕ) : Option ℚ :=
  match (s.ifc i).traffic with
  | .down => none
  | .val t => some (pyRound 2 (t / (s.ifc i).capacity * 100))

end State

/-- `Interface.failed` setter (`pyNTM/interface.py:140-180`).
Simplification: `status` is a `Bool`, so the type test cannot fail. -/
def setIfcFailed (i : ℕ) (status : Bool) : Py Unit := fun s =>
  if status = false then
    if s.ifcHeld i then
      .error (.model "Interface must be failed since it is a member of failed SRLGs")
        (s.downIfc i)
    else if (s.node (s.ifc i).node).failed = false ∧ (s.node (s.ifc i).remote).failed = false
    then .ok () (s.updIfc i fun x => { x with failed := false })
    else .ok () (s.downIfc i)
  else .ok () (s.downIfc i)

/-- `Node.failed` setter (`pyNTM/node.py:60-78`). -/
def setNodeFailed (n : ℕ) (status : Bool) : Py Unit := fun s =>
  if status = false then
    if s.nodeHeld n then
      .error (.model "Node must be failed since it is a member of failed SRLGs")
        (s.updNode n fun x => { x with failed := true })
    else .ok () (s.updNode n fun x => { x with failed := false })
  else .ok () (s.updNode n fun x => { x with failed := true })

/-- `Interface.cost` setter (`pyNTM/interface.py:186-192`); integers only. -/
def setCost (i : ℕ) (c : ℤ) : Py Unit := fun s =>
  if c < 1 then .error (.model "Interface cost cannot be less than 1") s
  else .ok () (s.updIfc i fun x => { x with cost := c.toNat })

/-- `Interface.capacity` setter (`pyNTM/interface.py:198-202`). -/
def setCapacity (i : ℕ) (c : ℚ) : Py Unit := fun s =>
  if ¬ (0 < c) then .error (.model "Interface capacity must be greater than 0") s
  else .ok () (s.updIfc i fun x => { x with capacity := c })

/-- `Interface.fail_interface` (`pyNTM/interface.py:204-217`). -/
def ifcFail (i : ℕ) : Py Unit := do
  let s ← get
  let r ← liftE (s.remoteIfc i)
  setIfcFailed i true
  setIfcFailed r true

/-- `Interface.unfail_interface` (`pyNTM/interface.py:219-237`). -/
def ifcUnfail (i : ℕ) : Py Unit := do
  let s ← get
  let r ← liftE (s.remoteIfc i)
  if (s.node (s.ifc i).node).failed = false ∧ (s.node (s.ifc i).remote).failed = false then
    setIfcFailed i false
    setIfcFailed r false
  else raise (.model "Local and/or remote node are failed")

/-! ### LSP metrics -/

/-- `RSVP_LSP.manual_metric` getter (`pyNTM/rsvp.py:140-168`): the value and the object
after the read (a configured metric is moved into `_manual_metric` on first read).
A configured metric of `0` is falsy. -/
def Lsp.readMetric (l : Lsp) : Except Exn (Option ℕ × Lsp) :=
  match l.initialMetric with
  | some m =>
    if m = 0 then .ok (l.manual, l)
    else if 0 < m then
      .ok (some m.toNat, { l with manual := some m.toNat, initialMetric := none })
    else .error (.model "RSVP LSP metric must be positive integer value")
  | none => .ok (l.manual, l)

/-- `RSVP_LSP.manual_metric` setter (`pyNTM/rsvp.py:170-191`).  With a pending configured
metric that is not positive, nothing happens (and nothing is raised). -/
def Lsp.assignMetric (l : Lsp) (v : ℤ) : Except Exn Lsp :=
  match l.initialMetric with
  | some m =>
    if m ≠ 0 then
      if 0 < m then .ok { l with manual := some m.toNat, initialMetric := none }
      else .ok l
    else if 0 < v then .ok { l with initialMetric := none, manual := some v.toNat }
    else if v = -1 then .ok { l with initialMetric := none, manual := none }
    else .error (.model "RSVP LSP metric must be positive integer value")
  | none =>
    if 0 < v then .ok { l with initialMetric := none, manual := some v.toNat }
    else if v = -1 then .ok { l with initialMetric := none, manual := none }
    else .error (.model "RSVP LSP metric must be positive integer value")

/-- The value `manual_metric` reads as, without the write-back.  Routing uses this value:
the write-back of `readMetric` does not change it (`Lsp.manualView_readMetric`), so leaving
it out of the routing functions is unobservable there.  (Simplification.) -/
def Lsp.manualView (l : Lsp) : Except Exn (Option ℕ) := l.readMetric.map Prod.fst

/-- `RSVP_LSP.setup_bandwidth` setter (`pyNTM/rsvp.py:122-138`). -/
def Lsp.setSetup (l : Lsp) (proposed : ℚ) : Except Exn Lsp :=
  match l.configured with
  | some c =>
    if c ≠ 0 then .ok { l with setup := some c }
    else if 0 ≤ proposed then .ok { l with setup := some proposed }
    else .error (.model "setup_bandwidth must be 0 or greater")
  | none =>
    if 0 ≤ proposed then .ok { l with setup := some proposed }
    else .error (.model "setup_bandwidth must be 0 or greater")

/-- the test `"Unrouted" in lsp.path` (substring of a string, key of a dict) -/
def LspPath.saysUnrouted : LspPath → Bool
  | .initial => true
  | .unrouted => true
  | .blank => false
  | .routed _ _ _ => false

/-- `lsp.path["interfaces"]` -/
def LspPath.interfaces : LspPath → Except Exn (List ℕ)
  | .routed ifs _ _ => .ok ifs
  | .blank => .error .keyError
  | _ => .error .typeError

/-- `RSVP_LSP.topology_metric` (`pyNTM/rsvp.py:193-206`); `none` is `"Unrouted"`. -/
def State.topologyMetric (s : State) (l : ℕ) : Except Exn (Option ℕ) :=
  if (s.lsp l).path.saysUnrouted then .ok none
  else (s.lsp l).path.interfaces.map fun ifs => some ((ifs.map fun i => (s.ifc i).cost).sum)

/-- `Interface.lsps` (`pyNTM/interface.py:322-339`). -/
def State.lspsOn (s : State) (i : ℕ) : List ℕ :=
  s.lsps.filter fun l =>
    !(s.lsp l).path.saysUnrouted &&
      match (s.lsp l).path with
      | .routed ifs _ _ => s.memIfc i ifs
      | _ => false

/-- `Interface.demands` (`pyNTM/interface.py:282-320`). -/
def State.dmdsOn (s : State) (i : ℕ) : List ℕ :=
  s.dmds.filter fun d =>
    match (s.dmd d).path with
    | none => false
    | some ps => ps.any fun p => p.any fun it =>
        match it with
        | .lsp l =>
          match (s.lsp l).path with
          | .routed ifs _ _ => s.memIfc i ifs
          | _ => false
        | .ifc _ => p.any fun jt =>
          match jt with
          | .ifc j => s.ifcEq i j
          | .lsp _ => false

/-- `RSVP_LSP.demands_on_lsp` (`pyNTM/rsvp.py:253-268`). -/
def State.dmdsOnLsp (s : State) (l : ℕ) : List ℕ :=
  s.dmds.filter fun d =>
    match (s.dmd d).path with
    | none => false
    | some ps => ps.any fun p => decide (Item.lsp l ∈ p)

end NTM
