import Verif.Proof.Wp
import Verif.Proof.Expand
import Verif.Spec.Network

/-!
# What the phases of a simulation leave unchanged
-/

namespace NTM

/-- same configuration: everything except computed results (traffic, reservations, LSP and
demand paths) -/
structure SameCfg (s t : State) : Prop where
  kind : t.kind = s.kind
  node : t.node = s.node
  srlg : t.srlg = s.srlg
  nodes : t.nodes = s.nodes
  ifs : t.ifs = s.ifs
  dmds : t.dmds = s.dmds
  lsps : t.lsps = s.lsps
  srlgs : t.srlgs = s.srlgs
  circuits : t.circuits = s.circuits
  next : t.next = s.next
  ifc : ∀ i, t.ifc i = { s.ifc i with
    reservedRaw := (t.ifc i).reservedRaw, traffic := (t.ifc i).traffic }
  lsp : ∀ l, t.lsp l = { s.lsp l with
    path := (t.lsp l).path, reserved := (t.lsp l).reserved, setup := (t.lsp l).setup }
  dmd : ∀ d, t.dmd d = { s.dmd d with path := (t.dmd d).path, detail := (t.dmd d).detail }

theorem SameCfg.frame : Frame SameCfg where
  refl s := ⟨rfl, rfl, rfl, rfl, rfl, rfl, rfl, rfl, rfl, rfl, fun _ => rfl, fun _ => rfl,
    fun _ => rfl⟩
  trans {s t u} h g :=
    { kind := g.kind.trans h.kind, node := g.node.trans h.node, srlg := g.srlg.trans h.srlg
      nodes := g.nodes.trans h.nodes, ifs := g.ifs.trans h.ifs, dmds := g.dmds.trans h.dmds
      lsps := g.lsps.trans h.lsps, srlgs := g.srlgs.trans h.srlgs
      circuits := g.circuits.trans h.circuits, next := g.next.trans h.next
      ifc := fun i => by rw [g.ifc i, h.ifc i]
      lsp := fun l => by rw [g.lsp l, h.lsp l]
      dmd := fun d => by rw [g.dmd d, h.dmd d] }

end NTM
