import Verif.Spec.Impact

/-!
# Specification vocabulary: changing costs and traffic
-/

namespace NTM.Spec

/-- `t` is `s` with the costs of some interfaces raised.  Results of simulations, circuit
numbering and the other collections may differ. -/
structure Costlier (s t : State) : Prop where
  kind : t.kind = s.kind
  nodes : t.nodes.Perm s.nodes
  node : t.node = s.node
  ifs : t.ifs.Perm s.ifs
  ifc : ∀ i, t.ifc i = { s.ifc i with
    cost := (t.ifc i).cost, traffic := (t.ifc i).traffic
    reservedRaw := (t.ifc i).reservedRaw, cktId := (t.ifc i).cktId, inCkt := (t.ifc i).inCkt }
  cost : ∀ i, (s.ifc i).cost ≤ (t.ifc i).cost

/-- does every interface of the path cost the same in both models? -/
def costKept (s t : State) (p : List Item) : Bool :=
  p.all fun y => match y with
    | .ifc i => (t.ifc i).cost = (s.ifc i).cost
    | .lsp _ => true

/-- demand `d` is in both models, with the same ends, and with at least as much traffic in `t` -/
def NoLighter (s t : State) (d : ℕ) : Prop :=
  d ∈ s.dmds ∧ d ∈ t.dmds ∧ (t.dmd d).src = (s.dmd d).src ∧ (t.dmd d).dst = (s.dmd d).dst ∧
    (s.dmd d).traffic ≤ (t.dmd d).traffic

/-- every interface has a reverse with the same cost, capacity and RSVP settings -/
def Symmetric (s : State) : Prop :=
  ∀ i ∈ s.ifs, ∃ j ∈ s.ifs, Opposite s i j ∧ (s.ifc j).cost = (s.ifc i).cost ∧
    (s.ifc j).capacity = (s.ifc i).capacity ∧ (s.ifc j).rsvpEnabled = (s.ifc i).rsvpEnabled ∧
    (s.ifc j).pct = (s.ifc i).pct

/-- path `q` goes over the circuits of path `p` in the opposite direction and order -/
def Mirror (s : State) (p q : List Item) : Prop :=
  List.Forall₂ (fun x y => ∃ i j, x = Item.ifc i ∧ y = Item.ifc j ∧ Opposite s i j) p q.reverse

/-- does some path of the demand leave node `u` over interface `i`? -/
def nextHop (s : State) (d : ℕ) (u : String) (i : ℕ) : Prop :=
  s.tail i = u ∧ ∃ ps, (s.dmd d).path = some ps ∧ ∃ p ∈ ps, Item.ifc i ∈ p

/-- `t` is `s` with interfaces added.  Results of simulations, circuit numbering and the other
collections may differ. -/
structure MoreLinks (s t : State) : Prop where
  kind : t.kind = s.kind
  nodes : t.nodes.Perm s.nodes
  node : t.node = s.node
  ifs : ∀ i ∈ s.ifs, i ∈ t.ifs
  ifc : ∀ i ∈ s.ifs, t.ifc i = { s.ifc i with
    traffic := (t.ifc i).traffic, reservedRaw := (t.ifc i).reservedRaw
    cktId := (t.ifc i).cktId, inCkt := (t.ifc i).inCkt }

/-- does the path use only interfaces of the model? -/
def known (s : State) (p : List Item) : Bool :=
  p.all fun y => match y with
    | .ifc i => i ∈ s.ifs
    | .lsp _ => true

end NTM.Spec
