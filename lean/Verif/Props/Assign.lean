import Verif.Model.Assign
import Verif.Props.Failure

/-!
# C42: assigning the status of an SRLG
-/

namespace NTM

open Spec

/-- **C42** is false of the assignment `srlg.failed = True`: it succeeds in every state, and an
interface or node of the SRLG that is up stays up. -/
theorem C42_assigned_false (s : State) (g : ℕ) :
    ∃ t, assignSrlg g (.bool true) s = .ok () t ∧ (t.srlg g).failed = true ∧
      (∀ i, (t.ifc i).failed = (s.ifc i).failed ∧ (t.ifc i).srlgs = (s.ifc i).srlgs) ∧
      ∀ n, (t.node n).failed = (s.node n).failed ∧ (t.node n).srlgs = (s.node n).srlgs :=
  ⟨_, rfl, by simp [State.updSrlg], fun _ => ⟨rfl, rfl⟩, fun _ => ⟨rfl, rfl⟩⟩

/-- the assignment and the simulation that follows leave the members up and carrying traffic -/
example (k : Kind) :
    let s := finalState (updateSimulation Env.default)
      (finalState (assignSrlg 0 (.bool true)) (Ex.risk k))
    raised (updateSimulation Env.default)
      (finalState (assignSrlg 0 (.bool true)) (Ex.risk k)) = none ∧
    ¬ MemberIfcsDown s ∧ ¬ MemberNodesDown s ∧ (s.ifc 0).traffic = .val 5 := by
  cases k <;> exact ⟨by decide +kernel, by decide +kernel, by decide +kernel, by decide +kernel⟩

end NTM
