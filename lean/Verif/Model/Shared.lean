import Verif.Model.Registry

/-!
# Several models in one program

The other model files describe one model object whose collections are part of the state.  Here
the collections are Python `set` objects of their own, which several model objects can share.
-/

namespace NTM

/-- A `PerformanceModel` or `FlexModel` object (`pyNTM/performance_model.py:71-88`,
`pyNTM/flex_model.py:67-84`): four attributes hold references to sets that may be shared;
`srlg_objects`, `circuit_objects` and `_parallel_lsp_groups` are created by the constructor. -/
structure Inst where
  kind : Kind
  nodes : ℕ
  ifs : ℕ
  dmds : ℕ
  lsps : ℕ
  srlgs : List ℕ := []
  circuits : List (ℕ × ℕ) := []
  groups : List (String × List ℕ) := []

/-- All model objects of a program, the set objects they refer to, and the nodes, interfaces,
demands, LSPs and SRLGs (the heaps of `objs`; its other fields are not used). -/
structure World where
  cells : ℕ → List ℕ
  nextCell : ℕ
  inst : ℕ → Inst
  count : ℕ
  objs : State

/-- The sets that are the default values of the constructor's parameters are created once, when
the class is defined (`pyNTM/performance_model.py:73-76`, `pyNTM/flex_model.py:69-72`): cells
0 to 3 for `PerformanceModel` and 4 to 7 for `FlexModel`, in the order interfaces, nodes,
demands, LSPs. -/
def defaultCell (k : Kind) (p : ℕ) : ℕ := match k with
  | .perf => p
  | .flex => 4 + p

/-- A program that has imported the library and created no model. -/
def World.start : World where
  cells := fun _ => []
  nextCell := 8
  inst := fun _ => { kind := .perf, nodes := 0, ifs := 0, dmds := 0, lsps := 0 }
  count := 0
  objs :=
    { kind := .perf, node := fun _ => { name := "" }
      ifc := fun _ => { name := "", cost := 1, capacity := 1, node := 0, remote := 0 }
      dmd := fun _ => { src := 0, dst := 0, traffic := 0, name := "" }
      lsp := fun _ => { src := 0, dst := 0, name := "" }, srlg := fun _ => { name := "" }
      nodes := [], ifs := [], dmds := [], lsps := [], srlgs := [], next := 0 }

/-- A constructor argument: the default set of the class, or a new set with these elements. -/
def World.arg (w : World) (k : Kind) (p : ℕ) : Option (List ℕ) → World × ℕ
  | none => (w, defaultCell k p)
  | some l => ({ w with cells := fun c => if c = w.nextCell then l else w.cells c,
                        nextCell := w.nextCell + 1 }, w.nextCell)

/-- `PerformanceModel(...)`, `FlexModel(...)` (`pyNTM/performance_model.py:71-88`,
`pyNTM/flex_model.py:67-84`).  Simplification: an explicit argument is a set made for this call. -/
def World.construct (w : World) (k : Kind) (ifs nodes dmds lsps : Option (List ℕ)) : World :=
  let (w, a) := w.arg k 0 ifs
  let (w, b) := w.arg k 1 nodes
  let (w, c) := w.arg k 2 dmds
  let (w, d) := w.arg k 3 lsps
  { w with inst := fun i => if i = w.count then
             { kind := k, ifs := a, nodes := b, dmds := c, lsps := d } else w.inst i
           count := w.count + 1 }

/-- model object `i` as the methods of the other model files see it -/
def World.view (w : World) (i : ℕ) : State :=
  let m := w.inst i
  { w.objs with
    kind := m.kind, nodes := w.cells m.nodes, ifs := w.cells m.ifs, dmds := w.cells m.dmds
    lsps := w.cells m.lsps, srlgs := m.srlgs, circuits := m.circuits, groups := m.groups }

/-- the attributes of model object `i` that belong to it alone, after a method -/
def World.setOwn (w : World) (i : ℕ) (t : State) : World :=
  { w with
    objs := t
    inst := fun j => if j = i then
      { w.inst i with srlgs := t.srlgs, circuits := t.circuits, groups := t.groups } else w.inst j }

/-- `model.method(...)` for the methods that change the sets in place with `.add`
(`pyNTM/master_model.py:489,1096,1132`, `pyNTM/performance_model.py:727-728`,
`pyNTM/flex_model.py:1303-1304`) or not at all. -/
def World.call (w : World) (i : ℕ) (m : Py Unit) : World :=
  let t := finalState m (w.view i)
  let x := w.inst i
  { w.setOwn i t with
    cells := fun c =>
      if c = x.nodes then t.nodes else if c = x.ifs then t.ifs
      else if c = x.dmds then t.dmds else if c = x.lsps then t.lsps else w.cells c }

/-- `model.add_network_interfaces_from_list(...)`, which binds `node_objects` and
`interface_objects` to new sets (`pyNTM/performance_model.py:125-126`,
`pyNTM/flex_model.py:117-118`).  Simplification: also when it raises before that point, in which
case the real sets stay shared. -/
def World.callRebind (w : World) (i : ℕ) (m : Py Unit) : World :=
  let t := finalState m (w.view i)
  let w' := w.setOwn i t
  { w' with
    cells := fun c => if c = w.nextCell then t.nodes else if c = w.nextCell + 1 then t.ifs
      else w.cells c
    nextCell := w.nextCell + 2
    inst := fun j => if j = i then
      { w'.inst i with nodes := w.nextCell, ifs := w.nextCell + 1 } else w'.inst j }

end NTM
