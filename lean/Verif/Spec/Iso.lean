import Verif.Spec.Same

/-!
# Specification: the same network under other names
-/

namespace NTM.Spec

/-- a one-to-one correspondence of names of nodes, of interfaces and of demands -/
structure Renaming where
  node : String → String
  ifc : ℕ → ℕ
  dmd : ℕ → ℕ
  node_inj : Function.Injective node
  ifc_inj : Function.Injective ifc

/-- `t` is `s` under other names: interfaces lead between the corresponding nodes with the same
cost, status and bandwidth, and demands ask for the same between the corresponding nodes; names of
interfaces and demands, circuit ids, SRLGs, nodes without interfaces and earlier results may be
anything, and the objects may be listed in any order -/
structure Renamed (r : Renaming) (s t : State) : Prop where
  kind : t.kind = s.kind
  ifs : t.ifs.Perm (s.ifs.map r.ifc)
  tail : ∀ i ∈ s.ifs, t.tail (r.ifc i) = r.node (s.tail i)
  head : ∀ i ∈ s.ifs, t.head (r.ifc i) = r.node (s.head i)
  cost : ∀ i ∈ s.ifs, (t.ifc (r.ifc i)).cost = (s.ifc i).cost
  failed : ∀ i ∈ s.ifs, (t.ifc (r.ifc i)).failed = (s.ifc i).failed
  capacity : ∀ i ∈ s.ifs, (t.ifc (r.ifc i)).capacity = (s.ifc i).capacity
  pct : ∀ i ∈ s.ifs, (t.ifc (r.ifc i)).pct = (s.ifc i).pct
  rsvpEnabled : ∀ i ∈ s.ifs, (t.ifc (r.ifc i)).rsvpEnabled = (s.ifc i).rsvpEnabled
  dmds : t.dmds.Perm (s.dmds.map r.dmd)
  src : ∀ d ∈ s.dmds, t.dmdSrc (r.dmd d) = r.node (s.dmdSrc d)
  dst : ∀ d ∈ s.dmds, t.dmdDst (r.dmd d) = r.node (s.dmdDst d)
  traffic : ∀ d ∈ s.dmds, (t.dmd (r.dmd d)).traffic = (s.dmd d).traffic

/-- a path, item by item under the other names -/
def Renaming.path (r : Renaming) (p : List Item) : List Item :=
  p.map fun
    | .ifc i => .ifc (r.ifc i)
    | .lsp l => .lsp l

end NTM.Spec
