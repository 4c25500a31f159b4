import Verif.Spec.Failure
import Verif.Model.Settings

/-!
# Specification vocabulary: sessions that change settings
-/

namespace NTM.Spec

/-- the object belongs to the model; a metric is assigned to an LSP without a configured metric
that is still pending (see C24) -/
def _root_.NTM.Setting.OnModel (s : State) : Setting → Prop
  | .cost i _ | .capacity i _ | .rsvp i _ | .percent i _ => i ∈ s.ifs
  | .traffic d _ => d ∈ s.dmds
  | .configured l _ => l ∈ s.lsps
  | .metric l _ => l ∈ s.lsps ∧
    ((s.lsp l).initialMetric = none ∨ (s.lsp l).initialMetric = some 0)
  | .shortcuts n _ => n ∈ s.nodes

/-- what can be called in a session: a method of the model or an assignment to an attribute of one
of its objects -/
inductive Move where
  | call (c : Call)
  | set (x : Setting)

/-- the method or setter a move runs -/
def Move.run (env : Env) : Move → Py Unit
  | .call c => c.run env
  | .set x => x.assign

/-- `Session env allowed s t`: a sequence of allowed moves leads from `s` to `t`; a call or an
assignment that raises leaves its partial effect behind and the session goes on -/
inductive Session (env : Env) (allowed : State → Move → Prop) : State → State → Prop
  | start (s : State) : Session env allowed s s
  | move {s t : State} (m : Move) (h : Session env allowed s t) (hm : allowed t m) :
      Session env allowed s (finalState (m.run env) t)

/-- every attribute a session can assign has the same value in both -/
structure SameSettings (s t : State) : Prop where
  ifcs : ∀ i ∈ s.ifs, (t.ifc i).cost = (s.ifc i).cost ∧ (t.ifc i).capacity = (s.ifc i).capacity ∧
    (t.ifc i).rsvpEnabled = (s.ifc i).rsvpEnabled ∧ (t.ifc i).pct = (s.ifc i).pct
  dmds : ∀ d ∈ s.dmds, (t.dmd d).traffic = (s.dmd d).traffic
  lsps : ∀ l ∈ s.lsps, (t.lsp l).configured = (s.lsp l).configured ∧
    (t.lsp l).manual = (s.lsp l).manual ∧ (t.lsp l).initialMetric = (s.lsp l).initialMetric
  nodes : ∀ n ∈ s.nodes, (t.node n).shortcuts = (s.node n).shortcuts

theorem sameSettings_iff (s t : State) : SameSettings s t ↔
    (∀ i ∈ s.ifs, (t.ifc i).cost = (s.ifc i).cost ∧ (t.ifc i).capacity = (s.ifc i).capacity ∧
      (t.ifc i).rsvpEnabled = (s.ifc i).rsvpEnabled ∧ (t.ifc i).pct = (s.ifc i).pct) ∧
    (∀ d ∈ s.dmds, (t.dmd d).traffic = (s.dmd d).traffic) ∧
    (∀ l ∈ s.lsps, (t.lsp l).configured = (s.lsp l).configured ∧
      (t.lsp l).manual = (s.lsp l).manual ∧ (t.lsp l).initialMetric = (s.lsp l).initialMetric) ∧
    (∀ n ∈ s.nodes, (t.node n).shortcuts = (s.node n).shortcuts) :=
  ⟨fun h => ⟨h.1, h.2, h.3, h.4⟩, fun h => ⟨h.1, h.2.1, h.2.2.1, h.2.2.2⟩⟩

instance (s t : State) : Decidable (SameSettings s t) :=
  decidable_of_iff _ (sameSettings_iff s t).symm

end NTM.Spec
