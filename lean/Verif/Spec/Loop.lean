import Verif.Spec.Cut

/-!
# Specification: paths without loops, and stubs
-/

namespace NTM.Spec

/-- `p` follows a loop-free path from `a` to `b` over interfaces that are up: it contains such a
path, and every other interface on it runs parallel to a hop of that path -/
def LoopFree (s : State) (a : String) (p : List ℕ) (b : String) : Prop :=
  ∃ q, SimpleRoute s.tail s.head (fun i => i ∈ s.ifs ∧ (s.ifc i).failed = false) a q b ∧
    (∀ i ∈ q, i ∈ p) ∧ ∀ i ∈ p, ∃ j ∈ q, s.tail i = s.tail j ∧ s.head i = s.head j

/-- the interfaces of a path, with LSPs replaced by their interfaces -/
def unfolded (s : State) (p : List Item) : List ℕ :=
  p.flatMap fun y => match y with
    | .ifc i => [i]
    | .lsp l => match (s.lsp l).path with
      | .routed ifs _ _ => ifs
      | _ => []

/-- all circuits of the node named `v` lead to the same other node -/
def Stub (s : State) (v : String) : Prop :=
  ∃ w, ∀ i ∈ s.ifs, (s.tail i = v → s.head i = w) ∧ (s.head i = v → s.tail i = w)

/-- all circuits between the set `W` of nodes and the rest of the network connect the same two
nodes -/
def Bridge (s : State) (W : String → Bool) : Prop :=
  ∃ x y, ∀ i ∈ s.ifs, (W (s.tail i) = true → W (s.head i) = false → s.tail i = x ∧ s.head i = y) ∧
    (W (s.tail i) = false → W (s.head i) = true → s.tail i = y ∧ s.head i = x)

end NTM.Spec
