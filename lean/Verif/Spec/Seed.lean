import Verif.Spec.Results

/-!
# Specification: LSPs without a tie
-/

namespace NTM.Spec

/-- an interface of the model that is up and has RSVP enabled -/
def RsvpUp (s : State) (i : ℕ) : Prop :=
  i ∈ s.ifs ∧ (s.ifc i).failed = false ∧ (s.ifc i).rsvpEnabled = true

/-- no two different loop-free paths between the ends of an LSP have the same cost -/
def DistinctCosts (s : State) : Prop :=
  ∀ l ∈ s.lsps, ∀ p q,
    SimpleRoute s.tail s.head (RsvpUp s) (s.lspSrc l) p (s.lspDst l) →
    SimpleRoute s.tail s.head (RsvpUp s) (s.lspSrc l) q (s.lspDst l) →
    totalCost (fun i => (s.ifc i).cost) p = totalCost (fun i => (s.ifc i).cost) q → p = q

end NTM.Spec
