import Verif.Model.Circuits

/-!
# Lookups, failures and SRLGs
-/

namespace NTM

namespace State

/-- `get_node_object` (`pyNTM/master_model.py:1100-1113`) -/
def getNode (s : State) (name : String) : Except Exn ℕ :=
  match s.nodes.find? fun n => (s.node n).name = name with
  | some n => .ok n
  | none => .error (.model "No node with name exists in the model")

/-- `get_interface_object` with `_does_interface_exist`
(`pyNTM/master_model.py:623-637,772-790`) -/
def getIfc (s : State) (ifName nodeName : String) : Except Exn ℕ :=
  if s.ifs.any fun i => s.ifcKey i = (ifName, nodeName) then
    match s.getNode nodeName with
    | .error e => .error e
    | .ok n =>
      match (s.ifcsOn (s.node n).name).find? fun i => (s.ifc i).name = ifName with
      | some i => .ok i
      | none => .error .indexError
  else .error (.model "specified interface does not exist")

/-- `get_srlg_object` (`pyNTM/master_model.py:955-977`) -/
def getSrlg (s : State) (name : String) : Except Exn ℕ :=
  match s.srlgs.filter fun g => (s.srlg g).name = name with
  | [g] => .ok g
  | _ => .error (.model "No SRLG with name exists in Model")

/-- `get_circuit_object_from_interface` (`pyNTM/master_model.py:639-659`) -/
def getCircuit (s : State) (ifName nodeName : String) : Except Exn (ℕ × ℕ) :=
  match s.getIfc ifName nodeName with
  | .error e => .error e
  | .ok i =>
    match s.circuits.find? fun c => s.ifcEq i c.1 || s.ifcEq i c.2 with
    | some c => .ok c
    | none => .error .indexError

/-- `get_failed_interface_objects` (`pyNTM/master_model.py:661-667`) -/
def failedIfcs (s : State) : List ℕ := s.ifs.filter fun i => (s.ifc i).failed

/-- `get_unfailed_interface_objects` (`pyNTM/master_model.py:669-676`) -/
def unfailedIfcs (s : State) : List ℕ := s.ifs.filter fun i => !(s.ifc i).failed

/-- `get_unrouted_demand_objects` (`pyNTM/master_model.py:678-684`) -/
def unroutedDmds (s : State) : List ℕ := s.dmds.filter fun d => (s.dmd d).path = none

/-- `set.add` on the SRLG set of an interface -/
def ifcJoin (s : State) (i g : ℕ) : State :=
  s.updIfc i fun x => { x with srlgs := if g ∈ x.srlgs then x.srlgs else x.srlgs ++ [g] }

/-- `set.remove` on the SRLG set of an interface -/
def ifcLeave (s : State) (i g : ℕ) : State :=
  s.updIfc i fun x => { x with srlgs := x.srlgs.filter fun h => h ≠ g }

/-- `set.add` on the SRLG set of a node -/
def nodeJoin (s : State) (n g : ℕ) : State :=
  s.updNode n fun x => { x with srlgs := if g ∈ x.srlgs then x.srlgs else x.srlgs ++ [g] }

/-- `set.remove` on the SRLG set of a node -/
def nodeLeave (s : State) (n g : ℕ) : State :=
  s.updNode n fun x => { x with srlgs := x.srlgs.filter fun h => h ≠ g }

end State

/-- `fail_interface` (`pyNTM/master_model.py:702-722`).  The existence test after the
lookup constructs an exception without raising it. -/
def failInterface (ifName nodeName : String) : Py Unit := do
  let s ← get
  let i ← liftE (s.getIfc ifName nodeName)
  let r ← liftE (s.remoteIfc i)
  setIfcFailed r true
  setIfcFailed i true

/-- `unfail_interface` (`pyNTM/master_model.py:724-770`). -/
def unfailInterface (env : Env) (ifName nodeName : String) (raiseExc : Bool) : Py Unit := do
  let s ← get
  let i ← liftE (s.getIfc ifName nodeName)
  let r ← liftE (s.remoteIfc i)
  let n ← liftE (s.getNode (s.tail i))
  let localUp := (s.node n).failed = false
  let remoteUp ← if localUp then do
      let m ← liftE (s.getNode (s.tail r))
      pure (decide ((s.node m).failed = false))
    else pure false
  if remoteUp then
    setIfcFailed r false
    modify fun s => s.setReserved r 0
    setIfcFailed i false
    modify fun s => s.setReserved i 0
    validate env
  else if raiseExc then raise (.model "Local and/or remote node are failed")
  else pure ()

/-- `fail_node` (`pyNTM/master_model.py:797-807`). -/
def failNode (nodeName : String) : Py Unit := do
  let s ← get
  forEach (s.ifcsOn nodeName) fun i => do
    let s ← get
    failInterface (s.ifc i).name nodeName
  let s ← get
  let n ← liftE (s.getNode nodeName)
  setNodeFailed n true

/-- `unfail_node` (`pyNTM/master_model.py:809-829`). -/
def unfailNode (env : Env) (nodeName : String) : Py Unit := do
  let s ← get
  let n ← liftE (s.getNode nodeName)
  setNodeFailed n false
  let s ← get
  forEach (s.ifcsOn nodeName) fun i => do
    let s ← get
    if (s.node (s.ifc i).remote).failed = false then
      unfailInterface env (s.ifc i).name nodeName false
      let s ← get
      let r ← liftE (s.remoteIfc i)
      unfailInterface env (s.ifc r).name (s.tail r) false
    else pure ()

/-- `fail_srlg` (`pyNTM/master_model.py:979-1008`); the generators are evaluated lazily,
so membership is tested at each step. -/
def failSrlg (name : String) : Py Unit := do
  let s ← get
  let g ← liftE (s.getSrlg name)
  forEach s.nodes fun n => do
    let s ← get
    if s.memNode n (s.srlgNodes g) then failNode (s.node n).name else pure ()
  forEach s.ifs fun i => do
    let s ← get
    if s.memIfc i (s.srlgIfcs g) then failInterface (s.ifc i).name (s.tail i) else pure ()
  modify fun s => s.updSrlg g fun x => { x with failed := true }

/-- `except ModelException: pass` (`pyNTM/master_model.py:1030-1034,1046-1049`) -/
def ignoreModelExn (x : Py Unit) : Py Unit :=
  pyTry x fun e => match e with
    | .model _ => pure ()
    | e => raise e

/-- `unfail_srlg` (`pyNTM/master_model.py:1010-1049`). -/
def unfailSrlg (env : Env) (name : String) : Py Unit := do
  let s ← get
  let g ← liftE (s.getSrlg name)
  modify fun s => s.updSrlg g fun x => { x with failed := false }
  forEach s.nodes fun n => do
    let s ← get
    if s.memNode n (s.srlgNodes g) then
      ignoreModelExn (unfailNode env (s.node n).name)
    else pure ()
  forEach s.ifs fun i => do
    let s ← get
    if s.memIfc i (s.srlgIfcs g) then
      ignoreModelExn (unfailInterface env (s.ifc i).name (s.tail i) false)
    else pure ()

/-- `SRLG(srlg_name, model)` (`pyNTM/srlg.py:22-33`): returns the new reference. -/
def newSrlg (name : String) : Py ℕ := do
  let s ← get
  if s.srlgs.any fun g => (s.srlg g).name = name then
    raise (.model "SRLG with name already exists in Model")
  else
    let g := s.next
    set { s with
      srlg := fun j => if j = g then { name := name } else s.srlg j
      srlgs := s.srlgs ++ [g]
      next := g + 1 }
    pure g

/-- `add_srlg` (`pyNTM/master_model.py:1051-1065`). -/
def addSrlg (name : String) : Py Unit := do
  let s ← get
  if s.srlgs.any fun g => (s.srlg g).name = name then
    raise (.model "SRLG with name already exists in Model")
  else do
    let _ ← newSrlg name
    pure ()

/-- `Interface.add_to_srlg` (`pyNTM/interface.py:354-398`). -/
def ifcAddToSrlg (i : ℕ) (name : String) (create : Bool) : Py Unit := do
  let s ← get
  match s.getSrlg name with
  | .error _ =>
    if create then do
      let g ← newSrlg name
      modify fun s => s.ifcJoin i g
      let s ← get
      let r ← liftE (s.remoteIfc i)
      modify fun s => s.ifcJoin r g
    else raise (.model "An SRLG with name does not exist in the Model")
  | .ok g => do
    modify fun s => s.ifcJoin i g
    let s ← get
    let r ← liftE (s.remoteIfc i)
    modify fun s => s.ifcJoin r g

/-- `Interface.remove_from_srlg` (`pyNTM/interface.py:400-430`). -/
def ifcRemoveFromSrlg (i : ℕ) (name : String) : Py Unit := do
  let s ← get
  match s.getSrlg name with
  | .error _ => raise (.model "An SRLG with name does not exist in the Model")
  | .ok g => do
    if s.memIfc i (s.srlgIfcs g) then pure () else raise .keyError
    if g ∈ (s.ifc i).srlgs then set (s.ifcLeave i g) else raise .keyError
    let s ← get
    let r ← liftE (s.remoteIfc i)
    if s.memIfc r (s.srlgIfcs g) then pure () else raise .keyError
    if g ∈ (s.ifc r).srlgs then set (s.ifcLeave r g) else raise .keyError
    setIfcFailed i false

/-- `Node.add_to_srlg` (`pyNTM/node.py:157-191`). -/
def nodeAddToSrlg (n : ℕ) (name : String) (create : Bool) : Py Unit := do
  let s ← get
  match s.getSrlg name with
  | .error _ =>
    if create then do
      let g ← newSrlg name
      modify fun s => s.nodeJoin n g
    else raise (.model "An SRLG with name does not exist in the Model")
  | .ok g => modify fun s => s.nodeJoin n g

/-- `Node.remove_from_srlg` (`pyNTM/node.py:193-228`). -/
def nodeRemoveFromSrlg (n : ℕ) (name : String) : Py Unit := do
  let s ← get
  match s.getSrlg name with
  | .error _ => raise (.model "An SRLG with name does not exist in the Model")
  | .ok g => do
    if s.memNode n (s.srlgNodes g) then pure () else raise .keyError
    if g ∈ (s.node n).srlgs then set (s.nodeLeave n g) else raise .keyError
    setNodeFailed n false

end NTM
