import Verif.Spec.Results

/-!
# Specification vocabulary for comparing two models and two outcomes
-/

namespace NTM.Spec

/-- `s` and `t` have the same nodes and interfaces, listed in any order: the objects agree in
everything but results of simulations (traffic, reservations) and circuit numbering -/
structure SameNetwork (s t : State) : Prop where
  node : t.node = s.node
  nodes : t.nodes.Perm s.nodes
  ifs : t.ifs.Perm s.ifs
  ifc : ∀ i, t.ifc i = { s.ifc i with
    traffic := (t.ifc i).traffic, reservedRaw := (t.ifc i).reservedRaw
    cktId := (t.ifc i).cktId, inCkt := (t.ifc i).inCkt }

/-- `s` and `t` have the same demands, listed in any order, those of `t` with `k` times the
traffic -/
structure SameDemands (k : ℚ) (s t : State) : Prop where
  dmds : t.dmds.Perm s.dmds
  dmd : ∀ d, t.dmd d = { s.dmd d with
    traffic := k * (s.dmd d).traffic, path := (t.dmd d).path, detail := (t.dmd d).detail }

/-- two values of `demand.path` are the same set of paths (or both "Unrouted") -/
def SamePaths : Option (List (List Item)) → Option (List (List Item)) → Prop
  | none, none => True
  | some a, some b => a.Perm b
  | _, _ => False

/-- `k` times a traffic value; a failed interface stays "Down" -/
def Traffic.scale (k : ℚ) : Traffic → Traffic
  | .down => .down
  | .val q => .val (k * q)

/-- `t` is `s` with its sets of nodes, interfaces, demands, LSPs and SRLGs iterated in another
order -/
structure Reordered (s t : State) : Prop where
  nodes : t.nodes.Perm s.nodes
  ifs : t.ifs.Perm s.ifs
  dmds : t.dmds.Perm s.dmds
  lsps : t.lsps.Perm s.lsps
  srlgs : t.srlgs.Perm s.srlgs
  rest : t = { s with
    nodes := t.nodes, ifs := t.ifs, dmds := t.dmds, lsps := t.lsps, srlgs := t.srlgs }

/-- the LSPs of `s` and `t` are the same and have the same results, and so do the reservations
on the interfaces -/
structure SameLspResults (s t : State) : Prop where
  lsps : t.lsps.Perm s.lsps
  lsp : ∀ l ∈ s.lsps, t.lsp l = s.lsp l
  reserved : ∀ i ∈ s.ifs, t.reservedBw i = s.reservedBw i

end NTM.Spec
