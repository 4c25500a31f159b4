import Verif.Spec.Results
import Verif.Spec.Load

/-!
# Specification: paths with LSP shortcuts

A path of a demand consists of interfaces and of LSPs (shortcuts).
-/

namespace NTM.Spec

/-- `ItemRoute s u r v`: the members of `r`, taken in order, lead contiguously from the node
named `u` to the node named `v`.  An interface leads from its own node to its remote node, an
LSP from its source to its destination. -/
inductive ItemRoute (s : State) : String → List Item → String → Prop
  | nil (u : String) : ItemRoute s u [] u
  | ifc {i : ℕ} {r : List Item} {v : String} :
      ItemRoute s (s.node (s.ifc i).remote).name r v →
      ItemRoute s (s.node (s.ifc i).node).name (.ifc i :: r) v
  | lsp {l : ℕ} {r : List Item} {v : String} :
      ItemRoute s (s.node (s.lsp l).dst).name r v →
      ItemRoute s (s.node (s.lsp l).src).name (.lsp l :: r) v

/-- a piece of an interface path: some interfaces to keep, then a stretch of interfaces to be
replaced by one of a group of parallel LSPs -/
structure Leg where
  keep : List ℕ
  stretch : List ℕ
  lsps : List ℕ

/-- the interface path made of the legs and a tail of interfaces to keep -/
def wholePath : List Leg → List ℕ → List ℕ
  | [], rest => rest
  | g :: gs, rest => g.keep ++ g.stretch ++ wholePath gs rest

/-- the same path with each stretch replaced by the LSP chosen for it -/
def substituted : List Leg → List ℕ → List ℕ → List Item
  | g :: gs, l :: choice, rest => g.keep.map Item.ifc ++ Item.lsp l :: substituted gs choice rest
  | _, _, rest => rest.map Item.ifc

/-- the stretch leads from the common source to the common destination of the LSPs -/
def Leg.Fits (s : State) (g : Leg) : Prop :=
  g.lsps ≠ [] ∧ ∃ i j, g.stretch.head? = some i ∧ g.stretch.getLast? = some j ∧
    ∀ l ∈ g.lsps, (s.node (s.lsp l).src).name = (s.node (s.ifc i).node).name ∧
      (s.node (s.lsp l).dst).name = (s.node (s.ifc j).remote).name

/-- the node objects of the LSPs equal those of the interfaces at the ends of the stretch (as
`Node.__eq__` has it: all attributes); names alone do not decide that when there are several
node objects of one name -/
def Leg.SameNodes (s : State) (g : Leg) : Prop :=
  ∀ l ∈ g.lsps, ∀ i ∈ g.stretch.head?, ∀ j ∈ g.stretch.getLast?,
    s.nodeEq (s.ifc i).node (s.lsp l).src = true ∧
      s.nodeEq (s.ifc j).remote (s.lsp l).dst = true

/-- one LSP chosen for every leg -/
def Choice (choice : List ℕ) (legs : List Leg) : Prop :=
  List.Forall₂ (fun l g => l ∈ g.lsps) choice legs

/-- `ls` are the routed LSPs from `a` to `b` of least effective metric -/
def BestLsps (s : State) (a b : String) (ls : List ℕ) : Prop :=
  ∀ l, l ∈ ls ↔ LspBetween s a b l ∧ IsRouted s l ∧
    ∀ l', LspBetween s a b l' → IsRouted s l' → ∀ n', s.effMetric l' = .ok (.val n') →
      ∃ n, s.effMetric l = .ok (.val n) ∧ n ≤ n'

/-- the LSPs of the leg are the routed LSPs of least metric between two nodes, the first of
which has `igp_shortcuts_enabled` -/
def Leg.Best (s : State) (g : Leg) : Prop :=
  ∃ n ∈ s.nodes, (s.node n).shortcuts = true ∧ ∃ b, BestLsps s (s.node n).name b g.lsps

/-- `r` is a cheapest usable interface path from `a` to `b` some stretches of which are
replaced by shortcuts -/
def ViaShortcuts (s : State) (a : String) (r : List Item) (b : String) : Prop :=
  ∃ legs choice rest, CheapestOver s (Usable s 0) a (wholePath legs rest) b ∧
    (∀ g ∈ legs, g.Fits s ∧ g.Best s) ∧ Choice choice legs ∧ r = substituted legs choice rest

/-- the names of the nodes and of the end points of LSPs and demands -/
def modelNames (s : State) : List String := s.nodes.map (fun n => (s.node n).name) ++ endNames s

/-- "name-name" spells every pair of names unambiguously; so it is if no name has a hyphen -/
def NamesDistinct (s : State) : Prop :=
  ∀ a ∈ modelNames s, ∀ b ∈ modelNames s, ∀ a' ∈ modelNames s, ∀ b' ∈ modelNames s,
    a ++ "-" ++ b = a' ++ "-" ++ b' → a = a' ∧ b = b'

instance (s : State) : Decidable (NamesDistinct s) := by unfold NamesDistinct; infer_instance

/-- the cheapest usable paths from `a` to `b` agree on the end points of LSPs they visit: if one
of them visits an end point of an LSP, all do -/
def SharedEnds (s : State) (a b : String) : Prop :=
  ∀ l ∈ s.lsps, ∀ n, n = (s.lsp l).src ∨ n = (s.lsp l).dst →
    ∀ p q, CheapestOver s (Usable s 0) a p b → CheapestOver s (Usable s 0) a q b →
      (s.node n).name ∈ visited s.head a p → (s.node n).name ∈ visited s.head a q

/-- where an interface and an LSP start, or end, at nodes of one name, the node objects are
equal -/
def NodesKnit (s : State) : Prop :=
  ∀ i ∈ s.ifs, ∀ l ∈ s.lsps,
    ((s.node (s.ifc i).node).name = (s.node (s.lsp l).src).name →
      s.nodeEq (s.ifc i).node (s.lsp l).src = true) ∧
    ((s.node (s.ifc i).remote).name = (s.node (s.lsp l).dst).name →
      s.nodeEq (s.ifc i).remote (s.lsp l).dst = true)

instance (s : State) : Decidable (NodesKnit s) := by unfold NodesKnit; infer_instance

/-- the traffic the entries of `path_detail` put on an interface or LSP -/
def itemCarried (det : List PathInfo) (x : Item) : ℚ :=
  (det.map fun e => if x ∈ e.items then e.traffic else 0).sum

/-- the traffic of the paths that leave node `u` -/
def through (s : State) (det : List PathInfo) (u : String) : ℚ :=
  (det.map fun e => if u ∈ e.items.map s.itemTail then e.traffic else 0).sum

/-- the interfaces and LSPs the paths take out of node `u` -/
def itemHops (s : State) (det : List PathInfo) (u : String) : List Item :=
  (det.flatMap fun e => e.items).dedup.filter fun x => s.itemTail x = u

/-- the interfaces and LSPs the paths take into node `u` -/
def itemsInto (s : State) (det : List PathInfo) (u : String) : List Item :=
  (det.flatMap fun e => e.items).dedup.filter fun x => s.itemHead x = u

/-- is the path a single LSP? -/
def soleLsp : List Item → Bool
  | [.lsp _] => true
  | _ => false

/-- What a demand adds to the traffic of interface `i` in a FlexModel, IGP shortcuts included.
If it rides `k` LSPs end to end: `1/k` of its traffic for each that crosses the interface.
Otherwise the `path_traffic` of its paths through the interface, and for every LSP on its paths
that crosses the interface the `path_traffic` of the paths that take the LSP, rounded to one
decimal. -/
def shortcutContribution (s : State) (d i : ℕ) : ℚ :=
  match (s.dmd d).path, (s.dmd d).detail with
  | some paths, some det =>
    if paths.all soleLsp then
      ((ridden paths).map fun l =>
        if crosses s l i then (s.dmd d).traffic / (ridden paths).length else 0).sum
    else carried det i + ((ridden paths).dedup.map fun l =>
      if crosses s l i then pyRound 1 (itemCarried det (.lsp l)) else 0).sum
  | _, _ => 0

end NTM.Spec
