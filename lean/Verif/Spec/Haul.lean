import Verif.Spec.Cut
import Verif.Spec.Load

/-!
# Specification vocabulary: traffic times distance

`w` assigns a length to every interface: its cost, 1 to count hops, or anything else.
-/

namespace NTM.Spec

/-- the length of an item of a demand's path: of the interface, or of all hops of the LSP -/
def stretch (s : State) (w : ℕ → ℚ) : Item → ℚ
  | .ifc i => w i
  | .lsp l => match (s.lsp l).path with
    | .routed hops _ _ => (hops.map w).sum
    | _ => 0

/-- the length of a demand's path -/
def pathLength (s : State) (w : ℕ → ℚ) (items : List Item) : ℚ := (items.map (stretch s w)).sum

/-- traffic times distance: for every path of the demand, its `path_traffic` times its length -/
def haul (s : State) (w : ℕ → ℚ) (d : ℕ) : ℚ :=
  match (s.dmd d).path, (s.dmd d).detail with
  | some _, some det => (det.map fun x => x.traffic * pathLength s w x.items).sum
  | _, _ => 0

/-- traffic times distance over all interfaces of the model -/
def totalHaul (s : State) (w : ℕ → ℚ) : ℚ :=
  (s.ifs.map fun i => w i * trafficValue (s.ifc i).traffic).sum

/-- the cost of an interface as a length -/
def costLength (s : State) (i : ℕ) : ℚ := (s.ifc i).cost

/-- the cost of the first path of a demand, 0 if it is unrouted -/
def firstPathCost (s : State) (d : ℕ) : ℚ :=
  match (s.dmd d).path with
  | some (p :: _) => pathLength s (costLength s) p
  | _ => 0

end NTM.Spec
