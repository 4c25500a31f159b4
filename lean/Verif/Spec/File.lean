import Verif.Model.Load
import Verif.Spec.Registry

/-!
# What a model file says

A reading of the file format that does not refer to the loader: tables of tab separated lines,
records, and what a model must contain for a list of records.
-/

namespace NTM.Spec

/-- `line` consists of the fields `fs`, separated by tabs -/
def HasFields (line : String) (fs : List String) : Prop :=
  fs ≠ [] ∧ (∀ f ∈ fs, '\t' ∉ f.toList) ∧
    line.toList = List.intercalate ['\t'] (fs.map String.toList)

/-- the lines after the first line `title` -/
def After (title : String) (lines post : List String) : Prop :=
  ∃ pre, lines = pre ++ title :: post ∧ title ∉ pre

/-- `rows` are the lines of the table called `title`: those after the title and one header line,
up to the first empty line -/
def Table (title : String) (lines rows : List String) : Prop :=
  ∃ post, After title lines post ∧ rows = (post.drop 1).takeWhile fun l => l ≠ ""

/-- the rows of the LSP table: everything after the title and the header line -/
def LspTable (lines rows : List String) : Prop :=
  (∃ post, After "RSVP_LSP_TABLE" lines post ∧ rows = post.drop 1) ∨
  ("RSVP_LSP_TABLE" ∉ lines ∧ rows = [])

/-- the data of an interface -/
structure IfcRec where
  node : String
  remote : String
  name : String
  cost : ℤ
  capacity : ℚ
  circuitId : CktId
  rsvp : Bool
  percent : ℚ
  deriving DecidableEq

/-- the data of a node -/
structure NodeRec where
  name : String
  lat : ℚ
  lon : ℚ
  shortcuts : Bool
  deriving DecidableEq

/-- the data of a demand -/
structure DmdRec where
  source : String
  dest : String
  name : String
  traffic : ℚ
  deriving DecidableEq

/-- the data of an LSP -/
structure LspRec where
  source : String
  dest : String
  name : String
  setupBw : Option ℚ
  metric : Option ℤ
  deriving DecidableEq

/-- the optional last columns of an interface line: `rsvp_enabled` (default `True`) and
`percent_reservable_bandwidth` (default 100) -/
def Options (rd : Reader) : List String → Bool → ℚ → Prop
  | [], e, p => e = true ∧ p = 100
  | [x], e, p => (e = true ↔ x ∈ ["T", "True", "true"]) ∧ p = 100
  | [x, y], e, p => (e = true ↔ x ∈ ["T", "True", "true"]) ∧ rd.float y = some p
  | _, _, _ => False

/-- the `circuit_id` column, which only the FlexModel has -/
def CircuitColumn : Kind → List String → CktId → Prop
  | .perf, col, c => col = [] ∧ c = .none
  | .flex, col, c => ∃ id, col = [id] ∧ c = .str id

/-- an interface line -/
def IfcLine (rd : Reader) (k : Kind) (line : String) (r : IfcRec) : Prop :=
  ∃ cost capacity col opts cap,
    HasFields line ([r.node, r.remote, r.name, cost, capacity] ++ col ++ opts) ∧
    rd.int cost = some r.cost ∧ 1 ≤ r.cost ∧
    rd.int capacity = some cap ∧ r.capacity = cap ∧ 0 < r.capacity ∧
    CircuitColumn k col r.circuitId ∧ Options rd opts r.rsvp r.percent

/-- the value of an optional integer column, 0 if missing or not a number -/
def Coordinate (rd : Reader) (f : Option String) (q : ℚ) : Prop :=
  (∃ x n, f = some x ∧ rd.int x = some n ∧ q = n) ∨
  ((∀ x, f = some x → rd.int x = none) ∧ q = 0)

/-- a node line: name, longitude, latitude, shortcuts; only the name is mandatory -/
def NodeLine (rd : Reader) (line : String) (r : NodeRec) : Prop :=
  ∃ fs, HasFields line (r.name :: fs) ∧ Coordinate rd fs[0]? r.lon ∧ Coordinate rd fs[1]? r.lat ∧
    (fs[2]? = none ∧ r.shortcuts = false ∨ fs[2]? = some "True" ∧ r.shortcuts = true ∨
      fs[2]? = some "False" ∧ r.shortcuts = false)

/-- a demand line; an empty name is read as "none" -/
def DmdLine (rd : Reader) (line : String) (r : DmdRec) : Prop :=
  ∃ t name more n, HasFields line (r.source :: r.dest :: t :: name :: more) ∧
    rd.int t = some n ∧ r.traffic = n ∧ 0 ≤ r.traffic ∧
    r.name = if name = "" then "none" else name

/-- an LSP line; a bandwidth or metric that is missing or not a number counts as not given -/
def LspLine (rd : Reader) (line : String) (r : LspRec) : Prop :=
  ∃ fs, HasFields line (r.source :: r.dest :: r.name :: fs) ∧
    r.setupBw = fs[0]?.bind rd.float ∧ r.metric = fs[1]?.bind rd.int

/-- the records of a file, line by line -/
structure FileData where
  ifs : List IfcRec
  nodes : List NodeRec
  dmds : List DmdRec
  lsps : List LspRec

/-- the node names in the order in which the file mentions them -/
def FileData.names (d : FileData) : List String :=
  (d.ifs.flatMap fun r => [r.node, r.remote]) ++ d.nodes.map fun r => r.name

/-- `lines` is a well-formed model file with these records -/
structure Reads (rd : Reader) (k : Kind) (lines : List String) (d : FileData) : Prop where
  ifs : ∃ rows, Table "INTERFACES_TABLE" lines rows ∧ List.Forall₂ (IfcLine rd k) rows d.ifs
  nodes : ∃ rows, Table "NODES_TABLE" lines rows ∧ List.Forall₂ (NodeLine rd) rows d.nodes
  dmds : ∃ rows, Table "DEMANDS_TABLE" lines rows ∧ List.Forall₂ (DmdLine rd) rows d.dmds
  lsps : ∃ rows, LspTable lines rows ∧ List.Forall₂ (LspLine rd) rows d.lsps
  ids : k = .flex → ∀ r ∈ d.ifs, (d.ifs.map IfcRec.circuitId).count r.circuitId = 2
  dmdEnds : ∀ r ∈ d.dmds, r.source ∈ d.names ∧ r.dest ∈ d.names
  lspEnds : ∀ r ∈ d.lsps, r.source ∈ d.names ∧ r.dest ∈ d.names

/-- the elements of `l` whose key does not occur earlier -/
def keepFirst {α κ : Type} [DecidableEq κ] (key : α → κ) : List α → List α
  | [] => []
  | x :: l => x :: (keepFirst key l).filter fun y => key y ≠ key x

/-- the node record that counts for a name: the last node line, or the defaults -/
def nodeData (nodes : List NodeRec) (name : String) : NodeRec :=
  ((nodes.filter fun r => r.name = name).getLast?).getD ⟨name, 0, 0, false⟩

/-- the data of the objects of a model -/
def ifcData (s : State) (i : ℕ) : IfcRec where
  node := (s.node (s.ifc i).node).name
  remote := (s.node (s.ifc i).remote).name
  name := (s.ifc i).name
  cost := (s.ifc i).cost
  capacity := (s.ifc i).capacity
  circuitId := (s.ifc i).cktId
  rsvp := (s.ifc i).rsvpEnabled
  percent := (s.ifc i).pct

def nodeDataOf (s : State) (n : ℕ) : NodeRec :=
  ⟨(s.node n).name, (s.node n).lat, (s.node n).lon, (s.node n).shortcuts⟩

def dmdData (s : State) (d : ℕ) : DmdRec :=
  ⟨(s.node (s.dmd d).src).name, (s.node (s.dmd d).dst).name, (s.dmd d).name, (s.dmd d).traffic⟩

def lspData (s : State) (l : ℕ) : LspRec :=
  ⟨(s.node (s.lsp l).src).name, (s.node (s.lsp l).dst).name, (s.lsp l).name,
    (s.lsp l).configured, (s.lsp l).initialMetric⟩

/-- everything is up, nothing is routed or reserved, and there are no SRLGs or circuits yet -/
structure Unused (s : State) : Prop where
  nodes : ∀ n ∈ s.nodes, (s.node n).failed = false ∧ (s.node n).srlgs = []
  ifs : ∀ i ∈ s.ifs, (s.ifc i).failed = false ∧ (s.ifc i).srlgs = [] ∧
    (s.ifc i).reservedRaw = 0 ∧ (s.ifc i).traffic = .val 0
  dmds : ∀ d ∈ s.dmds, (s.dmd d).path = none ∧ (s.dmd d).detail = none
  lsps : ∀ l ∈ s.lsps, (s.lsp l).path = .initial ∧ (s.lsp l).reserved = .initial ∧
    (s.lsp l).setup = none ∧ (s.lsp l).manual = none
  srlgs : s.srlgs = []
  circuits : s.circuits = []

/-- the model contains exactly what the records say, the first record winning for interfaces,
demands and LSPs with the same key -/
structure Holds (s : State) (d : FileData) : Prop where
  ifs : s.ifs.map (ifcData s) = keepFirst (fun r => (r.name, r.node)) d.ifs
  nodes : s.nodes.map (nodeDataOf s) = (keepFirst id d.names).map (nodeData d.nodes)
  dmds : s.dmds.map (dmdData s) = keepFirst (fun r => (r.source, r.dest, r.name)) d.dmds
  lsps : s.lsps.map (lspData s) = keepFirst (fun r => (r.source, r.dest, r.name)) d.lsps
  unused : Unused s

end NTM.Spec
