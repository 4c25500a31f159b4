import Verif.Spec.File

/-!
# Writing a model file

The documented layout of a model file (`pyNTM/performance_model.py:1066-1085`,
`pyNTM/flex_model.py:1780-1836`), as a printer of descriptions.  Nothing here refers to the loader.
-/

namespace NTM.Spec

/-- how numbers are printed -/
structure Writer where
  int : ℤ → String
  float : ℚ → String

/-- the characters that end a line -/
def LineBreak (c : Char) : Prop :=
  c ∈ ['\n', '\r', '\x0b', '\x0c', '\x1c', '\x1d', '\x1e', '\u0085', '\u2028', '\u2029']

/-- text that can stand in one field of a table -/
def FieldText (x : String) : Prop := ∀ c ∈ x.toList, c ≠ '\t' ∧ ¬ LineBreak c

/-- fields separated by tabs -/
def tsv (fs : List String) : String :=
  String.ofList (List.intercalate ['\t'] (fs.map String.toList))

def boolText (b : Bool) : String := if b then "True" else "False"

def idColumn : CktId → List String
  | .str x => [x]
  | _ => []

def ifcRow (w : Writer) (r : IfcRec) : String :=
  tsv ([r.node, r.remote, r.name, w.int r.cost, w.int r.capacity.num] ++ idColumn r.circuitId ++
    [boolText r.rsvp, w.float r.percent])

def nodeRow (w : Writer) (r : NodeRec) : String :=
  tsv [r.name, w.int r.lon.num, w.int r.lat.num, boolText r.shortcuts]

def dmdRow (w : Writer) (r : DmdRec) : String :=
  tsv [r.source, r.dest, w.int r.traffic.num, r.name]

def lspRow (w : Writer) (r : LspRec) : String :=
  tsv [r.source, r.dest, r.name, (r.setupBw.map w.float).getD "", (r.metric.map w.int).getD ""]

/-- the lines of the file -/
def fileLines (w : Writer) (d : FileData) : List String :=
  ["INTERFACES_TABLE",
    "node_object_name\tremote_node_object_name\tname\tcost\tcapacity\tcircuit_id\trsvp_enabled"
      ++ "\tpercent_reservable_bandwidth"] ++ d.ifs.map (ifcRow w) ++
  ["", "NODES_TABLE", "name\tlon\tlat\tigp_shortcuts_enabled"] ++ d.nodes.map (nodeRow w) ++
  ["", "DEMANDS_TABLE", "source\tdest\ttraffic\tname"] ++ d.dmds.map (dmdRow w) ++
  ["", "RSVP_LSP_TABLE", "source\tdest\tname\tconfigured_setup_bw\tmanual_metric"] ++
    d.lsps.map (lspRow w)

/-- the text of the file, every line ended by a newline -/
def fileText (w : Writer) (d : FileData) : String :=
  String.ofList ((fileLines w d).flatMap fun l => l.toList ++ ['\n'])

/-- printing the number `n` gives a field that is read back as `n` -/
def IntBack (rd : Reader) (w : Writer) (n : ℤ) : Prop :=
  rd.int (w.int n) = some n ∧ FieldText (w.int n)

def FloatBack (rd : Reader) (w : Writer) (q : ℚ) : Prop :=
  rd.float (w.float q) = some q ∧ FieldText (w.float q)

/-- a description of a model: names are text of one field, numbers are in range, keys are unique
and every end point is one of the nodes.  Capacities, coordinates and traffic are integers, which
is all that the file format can express. -/
structure WellFormed (rd : Reader) (w : Writer) (k : Kind) (d : FileData) : Prop where
  ifNames : ∀ r ∈ d.ifs, FieldText r.node ∧ FieldText r.remote ∧ FieldText r.name
  ifNumbers : ∀ r ∈ d.ifs, IntBack rd w r.cost ∧ 1 ≤ r.cost ∧ IntBack rd w r.capacity.num ∧
    r.capacity = r.capacity.num ∧ 0 < r.capacity ∧ FloatBack rd w r.percent
  ifIds : ∀ r ∈ d.ifs, match k with
    | .perf => r.circuitId = .none
    | .flex => (∃ x, r.circuitId = .str x ∧ FieldText x) ∧
        (d.ifs.map IfcRec.circuitId).count r.circuitId = 2
  ifEnds : ∀ r ∈ d.ifs, r.node ∈ d.nodes.map NodeRec.name ∧ r.remote ∈ d.nodes.map NodeRec.name
  ifKeys : (d.ifs.map fun r => (r.name, r.node)).Nodup
  nodeFields : ∀ r ∈ d.nodes, FieldText r.name ∧ IntBack rd w r.lon.num ∧ r.lon = r.lon.num ∧
    IntBack rd w r.lat.num ∧ r.lat = r.lat.num
  nodeKeys : (d.nodes.map NodeRec.name).Nodup
  dmdFields : ∀ r ∈ d.dmds, FieldText r.source ∧ FieldText r.dest ∧ FieldText r.name ∧ r.name ≠ "" ∧
    IntBack rd w r.traffic.num ∧ r.traffic = r.traffic.num ∧ 0 ≤ r.traffic
  dmdEnds : ∀ r ∈ d.dmds, r.source ∈ d.nodes.map NodeRec.name ∧ r.dest ∈ d.nodes.map NodeRec.name
  dmdKeys : (d.dmds.map fun r => (r.source, r.dest, r.name)).Nodup
  lspFields : ∀ r ∈ d.lsps, FieldText r.source ∧ FieldText r.dest ∧ FieldText r.name ∧
    (∀ q, r.setupBw = some q → FloatBack rd w q) ∧ (∀ n, r.metric = some n → IntBack rd w n)
  lspEnds : ∀ r ∈ d.lsps, r.source ∈ d.nodes.map NodeRec.name ∧ r.dest ∈ d.nodes.map NodeRec.name
  lspKeys : (d.lsps.map fun r => (r.source, r.dest, r.name)).Nodup

/-- an empty field is not a number -/
def NoEmptyNumber (rd : Reader) : Prop := rd.int "" = none ∧ rd.float "" = none

/-- the model consists of exactly the objects described -/
structure Contains (s : State) (d : FileData) : Prop where
  ifs : s.ifs.map (ifcData s) = d.ifs
  nodes : (s.nodes.map (nodeDataOf s)).Perm d.nodes
  dmds : s.dmds.map (dmdData s) = d.dmds
  lsps : s.lsps.map (lspData s) = d.lsps
  unused : Unused s

end NTM.Spec
