import Verif.Spec.Same
import Verif.Spec.Load

/-!
# Specification vocabulary: what a change of the model does to the results
-/

namespace NTM.Spec

/-- `t` is `s` with additional interfaces (and perhaps nodes) failed.  Results of simulations,
circuit numbering and the other collections may differ. -/
structure MoreFailures (s t : State) : Prop where
  kind : t.kind = s.kind
  nodes : t.nodes.Perm s.nodes
  node : ∀ n, t.node n = { s.node n with failed := (t.node n).failed }
  ifs : t.ifs.Perm s.ifs
  ifc : ∀ i, t.ifc i = { s.ifc i with
    failed := (t.ifc i).failed, traffic := (t.ifc i).traffic
    reservedRaw := (t.ifc i).reservedRaw, cktId := (t.ifc i).cktId, inCkt := (t.ifc i).inCkt }
  failed : ∀ i, (s.ifc i).failed = true → (t.ifc i).failed = true

/-- demand `d` is in both models, the same in everything but results -/
def InBoth (s t : State) (d : ℕ) : Prop :=
  d ∈ s.dmds ∧ d ∈ t.dmds ∧
    t.dmd d = { s.dmd d with path := (t.dmd d).path, detail := (t.dmd d).detail }

/-- does the path use no failed interface? -/
def survives (s : State) (p : List Item) : Bool :=
  p.all fun y => match y with
    | .ifc i => !(s.ifc i).failed
    | .lsp _ => true

/-- total cost of the interfaces of a path -/
def pathCost (s : State) (p : List Item) : ℕ :=
  (p.map fun y => match y with
    | .ifc i => (s.ifc i).cost
    | .lsp _ => 0).sum

/-- `t` is `s` with every cost multiplied by `k`; interface names, capacities and reservable
percentages may be anything, as long as no interface is left with negative bandwidth -/
structure Rerated (k : ℕ) (s t : State) : Prop where
  kind : t.kind = s.kind
  nodes : t.nodes.Perm s.nodes
  node : t.node = s.node
  ifs : t.ifs.Perm s.ifs
  ends : ∀ i, (t.ifc i).node = (s.ifc i).node ∧ (t.ifc i).remote = (s.ifc i).remote
  cost : ∀ i, (t.ifc i).cost = k * (s.ifc i).cost
  up : ∀ i, (t.ifc i).failed = (s.ifc i).failed ∧ (t.ifc i).rsvpEnabled = (s.ifc i).rsvpEnabled
  bandwidth : ∀ i ∈ s.ifs, 0 ≤ (s.ifc i).capacity * ((s.ifc i).pct / 100) ∧
    0 ≤ (t.ifc i).capacity * ((t.ifc i).pct / 100)

/-- the demands of `u` are those of `s` and those of `t` -/
structure Together (s t u : State) : Prop where
  dmds : u.dmds.Perm (s.dmds ++ t.dmds)
  left : ∀ d ∈ s.dmds, InBoth s u d
  right : ∀ d ∈ t.dmds, InBoth t u d

/-- the number a traffic value stands for; "Down" carries nothing -/
def trafficValue : Traffic → ℚ
  | .down => 0
  | .val q => q

/-- total traffic of the interfaces that leave node `u` -/
def outgoing (s : State) (u : String) : ℚ :=
  ((s.ifs.filter fun i => s.tail i = u).map fun i => trafficValue (s.ifc i).traffic).sum

/-- total traffic of the interfaces that enter node `u` -/
def incoming (s : State) (u : String) : ℚ :=
  ((s.ifs.filter fun i => s.head i = u).map fun i => trafficValue (s.ifc i).traffic).sum

/-- total traffic of the routed demands that start at node `u` -/
def sourced (s : State) (u : String) : ℚ :=
  ((s.dmds.filter fun d => (s.dmd d).path ≠ none ∧ s.dmdSrc d = u).map fun d =>
    (s.dmd d).traffic).sum

/-- total traffic of the routed demands that end at node `u` -/
def sunk (s : State) (u : String) : ℚ :=
  ((s.dmds.filter fun d => (s.dmd d).path ≠ none ∧ s.dmdDst d = u).map fun d =>
    (s.dmd d).traffic).sum

/-- does the path go over interface `i`, itself or inside an LSP? -/
def uses (s : State) (i : ℕ) (p : List Item) : Bool :=
  p.any fun y => match y with
    | .ifc j => decide (j = i)
    | .lsp l => crosses s l i

/-- does some path of demand `d` go over interface `i`? -/
def demandUses (s : State) (d i : ℕ) : Bool :=
  match (s.dmd d).path with
  | some ps => ps.any (uses s i)
  | none => false

/-- total traffic of the demands some path of which goes over interface `i` -/
def trafficVia (s : State) (i : ℕ) : ℚ :=
  ((s.dmds.filter fun d => demandUses s d i).map fun d => (s.dmd d).traffic).sum

end NTM.Spec
