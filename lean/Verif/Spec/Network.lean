import Verif.Model.Objects
import Verif.Spec.Routes

/-!
# Specification vocabulary for model states

Everything here is phrased with what a user can observe on the objects: names, end points,
`cost`, `failed`, `reservable_bandwidth`, `circuit_id`.
-/

namespace NTM.Spec

/-- interface `i` of the model is not failed and has reservable bandwidth of at least `bw` -/
def Usable (s : State) (bw : ℚ) (i : ℕ) : Prop :=
  i ∈ s.ifs ∧ (s.ifc i).failed = false ∧ bw ≤ s.reservable i

/-- as `Usable`, and RSVP is enabled on the interface -/
def RsvpUsable (s : State) (bw : ℚ) (i : ℕ) : Prop :=
  Usable s bw i ∧ (s.ifc i).rsvpEnabled = true

/-- `p` leads contiguously from node `a` to node `b` over permitted interfaces -/
def PathOver (s : State) (ok : ℕ → Prop) (a : String) (p : List ℕ) (b : String) : Prop :=
  Route s.tail s.head ok a p b

/-- `p` is a cheapest path from node `a` to node `b` over permitted interfaces -/
def CheapestOver (s : State) (ok : ℕ → Prop) (a : String) (p : List ℕ) (b : String) : Prop :=
  Cheapest s.tail s.head (fun i => (s.ifc i).cost) ok a p b

/-- at most one interface per ordered pair of nodes -/
def SingleLinks (s : State) : Prop :=
  ∀ i ∈ s.ifs, ∀ j ∈ s.ifs, s.tail i = s.tail j → s.head i = s.head j → i = j

/-- every interface costs at least 1 (the setter enforces it, C61) -/
def PosCosts (s : State) : Prop := ∀ i ∈ s.ifs, 1 ≤ (s.ifc i).cost

/-- interfaces `i` and `j` are the two directions of one circuit: opposite end points and,
in a FlexModel, the same circuit id -/
def Opposite (s : State) (i j : ℕ) : Prop :=
  s.tail i = s.head j ∧ s.head i = s.tail j ∧
    (s.kind = .flex → (s.ifc i).cktId = (s.ifc j).cktId)

/-- a FlexModel's interfaces all carry a circuit id -/
def CktIdsSet (s : State) : Prop := s.kind = .flex → ∀ i ∈ s.ifs, (s.ifc i).cktId ≠ .none

/-- the two directions of every circuit have the same failed status -/
def EndsAgree (s : State) : Prop :=
  ∀ i ∈ s.ifs, ∀ j ∈ s.ifs, Opposite s i j → (s.ifc i).failed = (s.ifc j).failed

/-- a circuit id is used at most once on every node -/
def IdsUniquePerNode (s : State) : Prop :=
  ∀ i ∈ s.ifs, ∀ j ∈ s.ifs, s.tail i = s.tail j → (s.ifc i).cktId = (s.ifc j).cktId → i = j

/-- no node of the model has IGP shortcuts enabled -/
def NoShortcuts (s : State) : Prop := ∀ n ∈ s.nodes, (s.node n).shortcuts = false

/-- no two SRLGs of the model have the same name -/
def UniqueSrlgNames (s : State) : Prop :=
  s.srlgs.Nodup ∧ ∀ g ∈ s.srlgs, ∀ h ∈ s.srlgs, (s.srlg g).name = (s.srlg h).name → g = h

end NTM.Spec
