import Verif.Model.Num

/-!
# Objects, heap and exceptions

Python objects are records in heaps indexed by references (`Nat`); object identity is
equality of references.  A Python `set` of objects is the list of its references in
iteration order.
-/

namespace NTM

/-- `pyNTM/node.py:16-23`: the attributes of a `Node`. -/
structure Node where
  name : String
  failed : Bool := false
  lat : ℚ := 0
  lon : ℚ := 0
  /-- `_srlgs`: references to SRLG objects -/
  srlgs : List ℕ := []
  shortcuts : Bool := false

/-- `circuit_id` (`pyNTM/interface.py:27-29`): `None`, a number or a string. -/
inductive CktId where
  | none
  | num (n : ℤ)
  | str (s : String)
  deriving DecidableEq

/-- `interface.traffic` (`pyNTM/interface.py:30`): a number or the string `"Down"`
(`pyNTM/performance_model.py:1243`, `pyNTM/flex_model.py:528`). -/
inductive Traffic where
  | down
  | val (q : ℚ)
  deriving DecidableEq

/-- `pyNTM/interface.py:12-36`: the attributes of an `Interface`.  `inCkt` is the
attribute added by `_make_circuits` (`pyNTM/performance_model.py:602-603`). -/
structure Ifc where
  name : String
  cost : ℕ
  capacity : ℚ
  /-- `node_object`: reference into the node heap -/
  node : ℕ
  /-- `remote_node_object`: reference into the node heap -/
  remote : ℕ
  cktId : CktId := .none
  traffic : Traffic := .val 0
  failed : Bool := false
  /-- `_reserved_bandwidth` (not rounded) -/
  reservedRaw : ℚ := 0
  srlgs : List ℕ := []
  rsvpEnabled : Bool := true
  /-- `percent_reservable_bandwidth` -/
  pct : ℚ := 100
  inCkt : Bool := false

/-- An element of a demand path: an `Interface` or an `RSVP_LSP`. -/
inductive Item where
  | ifc (i : ℕ)
  | lsp (l : ℕ)
  deriving DecidableEq

/-- One entry of `demand._path_detail` (`pyNTM/performance_model.py:1469-1494`,
`pyNTM/flex_model.py:690-733`).  `splits` is `none` where the code omits the key
(`pyNTM/flex_model.py:612-617`). -/
structure PathInfo where
  items : List Item
  splits : Option (List (Item × ℕ))
  traffic : ℚ
  deriving DecidableEq

/-- `pyNTM/demand.py:10-16`.  `path = none` is the string `"Unrouted"`;
`detail = none` is `"Unrouted_detail"`. -/
structure Dmd where
  src : ℕ
  dst : ℕ
  traffic : ℚ
  name : String
  path : Option (List (List Item)) := none
  detail : Option (List PathInfo) := none

/-- `lsp.path`: `"Unrouted - initial"` (`pyNTM/rsvp.py:44`), `"Unrouted"`, the transient
`{}` (`pyNTM/performance_model.py:401`, `pyNTM/flex_model.py:1601`) or the dict of
`pyNTM/master_model.py:304-308`. -/
inductive LspPath where
  | initial
  | unrouted
  | blank
  | routed (ifs : List ℕ) (cost : ℕ) (headroom : ℚ)
  deriving DecidableEq

/-- `lsp.reserved_bandwidth`: `"Unrouted - initial"`, `"Unrouted"` or a number. -/
inductive Bw where
  | initial
  | unrouted
  | val (q : ℚ)
  deriving DecidableEq

/-- `pyNTM/rsvp.py:41-49`.  `setup = none` is `"Unrouted - initial"`;
`manual = none` is `"not set"`; `initialMetric = none` is `None`.
Simplification: metrics are integers (`isinstance(_, int)` is a type here). -/
structure Lsp where
  src : ℕ
  dst : ℕ
  name : String
  path : LspPath := .initial
  reserved : Bw := .initial
  setup : Option ℚ := none
  /-- `configured_setup_bandwidth` -/
  configured : Option ℚ := none
  /-- `_manual_metric` -/
  manual : Option ℕ := none
  /-- `initial_manual_metric` -/
  initialMetric : Option ℤ := none

/-- `pyNTM/srlg.py:30-32`. -/
structure Srlg where
  name : String
  failed : Bool := false

/-- Which subclass of `_MasterModel` the object is. -/
inductive Kind where
  | perf
  | flex
  deriving DecidableEq

/-- A model object together with the heaps its objects live in
(`pyNTM/master_model.py:29-43`).  `next` is the next unused reference and `rngPos` the
number of `random.choice` draws made so far. -/
structure State where
  kind : Kind
  node : ℕ → Node
  ifc : ℕ → Ifc
  dmd : ℕ → Dmd
  lsp : ℕ → Lsp
  srlg : ℕ → Srlg
  /-- `node_objects` -/
  nodes : List ℕ
  /-- `interface_objects` -/
  ifs : List ℕ
  /-- `demand_objects` -/
  dmds : List ℕ
  /-- `rsvp_lsp_objects` -/
  lsps : List ℕ
  /-- `srlg_objects` -/
  srlgs : List ℕ
  /-- `circuit_objects`: (interface_a, interface_b) -/
  circuits : List (ℕ × ℕ) := []
  /-- `_parallel_lsp_groups` -/
  groups : List (String × List ℕ) := []
  next : ℕ := 0
  rngPos : ℕ := 0

/-- Python exceptions raised by the modelled code. -/
inductive Exn where
  /-- `ModelException` -/
  | model (msg : String)
  | valueError
  | keyError
  | indexError
  | typeError
  | attributeError
  | unboundLocal
  /-- `networkx.NodeNotFound` -/
  | nodeNotFound
  /-- `networkx.NetworkXNoPath` -/
  | noPath
  deriving DecidableEq

/-- Sources of nondeterminism: the outcomes of `random.choice` and the iteration order
of sets of strings and of graph edges that are built on the fly.  Every theorem
quantifies over all environments. -/
structure Env where
  /-- index drawn by the `k`-th `random.choice` (taken modulo the length) -/
  rand : ℕ → ℕ
  /-- iteration order of a freshly built set of strings -/
  ordS : List String → List String
  ordS_perm : ∀ l, (ordS l).Perm l
  /-- iteration order of a freshly built collection of interfaces -/
  ordI : List ℕ → List ℕ
  ordI_perm : ∀ l, (ordI l).Perm l

/-- The environment that keeps list order and always draws the first candidate. -/
def Env.default : Env where
  rand := fun _ => 0
  ordS := id
  ordS_perm := fun _ => List.Perm.refl _
  ordI := id
  ordI_perm := fun _ => List.Perm.refl _

/-- Python computations on a model: an exception keeps the state reached so far. -/
abbrev Py := EStateM Exn State

/-- `raise` -/
def raise {α : Type} (e : Exn) : Py α := fun s => .error e s

/-- a pure computation that may raise -/
def liftE {α : Type} (x : Except Exn α) : Py α := fun s =>
  match x with
  | .ok a => .ok a s
  | .error e => .error e s

/-- `try: x except: h` (the state changes of `x` persist) -/
def pyTry {α : Type} (x : Py α) (h : Exn → Py α) : Py α := fun s =>
  match x s with
  | .ok a s' => .ok a s'
  | .error e s' => h e s'

/-- `for x in xs: f(x)` -/
def forEach {α : Type} : List α → (α → Py Unit) → Py Unit
  | [], _ => pure ()
  | x :: xs, f => do
    f x
    forEach xs f

/-- the state after a computation, whether or not it raised -/
def finalState {α : Type} (x : Py α) (s : State) : State :=
  match x s with
  | .ok _ s' => s'
  | .error _ s' => s'

/-- did the computation raise? -/
def raised {α : Type} (x : Py α) (s : State) : Option Exn :=
  match x s with
  | .ok _ _ => none
  | .error e _ => some e

namespace State

/-- attribute assignment on an interface object -/
def updIfc (s : State) (i : ℕ) (f : Ifc → Ifc) : State :=
  { s with ifc := fun j => if j = i then f (s.ifc j) else s.ifc j }

/-- attribute assignment on a node object -/
def updNode (s : State) (n : ℕ) (f : Node → Node) : State :=
  { s with node := fun j => if j = n then f (s.node j) else s.node j }

/-- attribute assignment on a demand object -/
def updDmd (s : State) (d : ℕ) (f : Dmd → Dmd) : State :=
  { s with dmd := fun j => if j = d then f (s.dmd j) else s.dmd j }

/-- attribute assignment on an LSP object -/
def updLsp (s : State) (l : ℕ) (f : Lsp → Lsp) : State :=
  { s with lsp := fun j => if j = l then f (s.lsp j) else s.lsp j }

/-- attribute assignment on an SRLG object -/
def updSrlg (s : State) (g : ℕ) (f : Srlg → Srlg) : State :=
  { s with srlg := fun j => if j = g then f (s.srlg j) else s.srlg j }

/-- `interface.node_object.name` -/
def tail (s : State) (i : ℕ) : String := (s.node (s.ifc i).node).name

/-- `interface.remote_node_object.name` -/
def head (s : State) (i : ℕ) : String := (s.node (s.ifc i).remote).name

/-- `Interface._key` (`pyNTM/interface.py:38-41`) -/
def ifcKey (s : State) (i : ℕ) : String × String := ((s.ifc i).name, s.tail i)

/-- `Demand._key` (`pyNTM/demand.py:22-25`) -/
def dmdKey (s : State) (d : ℕ) : String × String × String :=
  ((s.node (s.dmd d).src).name, (s.node (s.dmd d).dst).name, (s.dmd d).name)

/-- `RSVP_LSP._key` (`pyNTM/rsvp.py:51-54`) -/
def lspKey (s : State) (l : ℕ) : String × String × String :=
  ((s.node (s.lsp l).src).name, (s.node (s.lsp l).dst).name, (s.lsp l).name)

/-- names of the nodes of the model, in iteration order -/
def nodeNames (s : State) : List String := s.nodes.map fun n => (s.node n).name

end State

end NTM
