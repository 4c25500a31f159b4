import Verif.Model.State

/-!
# Specification vocabulary: what a simulation reads and must not change
-/

namespace NTM.Spec

/-- `t` has the topology and configuration of `s`: they may differ in traffic, reservations, LSP
and demand paths, circuits and (PerformanceModel) circuit ids, and interfaces that are up in `s`
may have failed in `t`. -/
structure SameInputs (s t : State) : Prop where
  kind : t.kind = s.kind
  nodes : t.nodes = s.nodes
  ifs : t.ifs = s.ifs
  dmds : t.dmds = s.dmds
  lsps : t.lsps = s.lsps
  srlgs : t.srlgs = s.srlgs
  node : ∀ n, t.node n = s.node n
  srlg : ∀ g, t.srlg g = s.srlg g
  ifc : ∀ i, (t.ifc i).name = (s.ifc i).name ∧ (t.ifc i).cost = (s.ifc i).cost ∧
    (t.ifc i).capacity = (s.ifc i).capacity ∧ (t.ifc i).node = (s.ifc i).node ∧
    (t.ifc i).remote = (s.ifc i).remote ∧ (t.ifc i).srlgs = (s.ifc i).srlgs ∧
    (t.ifc i).rsvpEnabled = (s.ifc i).rsvpEnabled ∧ (t.ifc i).pct = (s.ifc i).pct
  failed : ∀ i, (s.ifc i).failed = true → (t.ifc i).failed = true
  cktId : s.kind = .flex → ∀ i, (t.ifc i).cktId = (s.ifc i).cktId
  lsp : ∀ l, (t.lsp l).src = (s.lsp l).src ∧ (t.lsp l).dst = (s.lsp l).dst ∧
    (t.lsp l).name = (s.lsp l).name ∧ (t.lsp l).configured = (s.lsp l).configured ∧
    (t.lsp l).manual = (s.lsp l).manual ∧ (t.lsp l).initialMetric = (s.lsp l).initialMetric
  dmd : ∀ d, (t.dmd d).src = (s.dmd d).src ∧ (t.dmd d).dst = (s.dmd d).dst ∧
    (t.dmd d).traffic = (s.dmd d).traffic ∧ (t.dmd d).name = (s.dmd d).name

end NTM.Spec
