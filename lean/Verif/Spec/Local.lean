import Verif.Spec.Loop

/-!
# Specification: two networks that agree on a part
-/

namespace NTM.Spec

/-- interface `i` leads from a node of the set `W` to a node of `W` -/
def Inside (s : State) (W : String → Bool) (i : ℕ) : Prop :=
  i ∈ s.ifs ∧ W (s.tail i) = true ∧ W (s.head i) = true

/-- the two models have the same interfaces within the set `W` of nodes, with the same end points,
cost, up/down state and RSVP setting; everything else may differ -/
def SameInside (s t : State) (W : String → Bool) : Prop :=
  (∀ i, Inside t W i ↔ Inside s W i) ∧ ∀ i, Inside s W i →
    t.tail i = s.tail i ∧ t.head i = s.head i ∧ (t.ifc i).cost = (s.ifc i).cost ∧
    (t.ifc i).failed = (s.ifc i).failed ∧ (t.ifc i).rsvpEnabled = (s.ifc i).rsvpEnabled

end NTM.Spec
