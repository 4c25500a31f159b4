import Verif.Spec.Registry

/-!
# Specification vocabulary for what a successful addition leaves behind
-/

namespace NTM.Spec

/-- the interfaces of `s` are unchanged in `t`, up to the numbering of circuits in a
PerformanceModel and the flag for being in a circuit -/
structure IfcsKept (s t : State) : Prop where
  ifc : ∀ i ∈ s.ifs, t.ifc i =
    { s.ifc i with cktId := (t.ifc i).cktId, inCkt := (t.ifc i).inCkt }
  ids : s.kind = .flex → ∀ i ∈ s.ifs, (t.ifc i).cktId = (s.ifc i).cktId

/-- the nodes of `s` are unchanged in `t` -/
def NodesKept (s t : State) : Prop :=
  ∀ n ∈ s.nodes, t.node n = s.node n

/-- the demands of `s` are unchanged in `t` -/
def DmdsKept (s t : State) : Prop :=
  ∀ d ∈ s.dmds, t.dmd d = s.dmd d

/-- the LSPs of `s` are unchanged in `t` -/
def LspsKept (s t : State) : Prop :=
  ∀ l ∈ s.lsps, t.lsp l = s.lsp l

/-- the SRLGs of `s` are unchanged in `t` -/
def SrlgsKept (s t : State) : Prop :=
  ∀ g ∈ s.srlgs, t.srlg g = s.srlg g

/-- every object of `s` is unchanged in `t` -/
structure AllKept (s t : State) : Prop where
  kind : t.kind = s.kind
  ifcs : IfcsKept s t
  nodes : NodesKept s t
  dmds : DmdsKept s t
  lsps : LspsKept s t
  srlgs : SrlgsKept s t

/-- an interface as described by an entry of `add_network_interfaces_from_list` -/
structure AsListed (t : State) (i : ℕ) (x : IfcSpec) : Prop where
  name : (t.ifc i).name = x.name
  cost : ((t.ifc i).cost : ℤ) = x.cost
  capacity : (t.ifc i).capacity = x.capacity
  tail : t.tail i = x.node
  head : t.head i = x.remote
  idle : (t.ifc i).failed = false ∧ (t.ifc i).reservedRaw = 0 ∧ (t.ifc i).traffic = .val 0 ∧
    (t.ifc i).srlgs = [] ∧ (t.ifc i).rsvpEnabled = true ∧ (t.ifc i).pct = 100
  id : t.kind = .flex → (t.ifc i).cktId = x.ckt

/-- the entries name new interfaces, each once -/
def FreshKeys (s : State) (xs : List IfcSpec) : Prop :=
  (xs.map fun x => (x.name, x.node)).Nodup ∧
  ∀ x ∈ xs, ∀ i ∈ s.ifs, ¬ ((s.ifc i).name = x.name ∧ s.tail i = x.node)

/-- no entry is the other direction of a failed interface of the model -/
def ApartFromFailed (s : State) (xs : List IfcSpec) : Prop :=
  ∀ x ∈ xs, ∀ i ∈ s.ifs, (s.ifc i).failed = true →
    ¬ (s.tail i = x.remote ∧ s.head i = x.node ∧ (s.kind = .flex → (s.ifc i).cktId = x.ckt))

end NTM.Spec
