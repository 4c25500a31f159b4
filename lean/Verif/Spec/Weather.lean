import Verif.Model.Weather
import Verif.Spec.Results

/-!
# Specification vocabulary for the map page
-/

namespace NTM.Spec

/-- the edge `e` of the map shows interface `i`: its node, name, cost, capacity, circuit id and
utilization -/
structure Shows (s : State) (i : ℕ) (e : MapEdge) : Prop where
  source : e.source = s.tail i
  name : e.name = (s.ifc i).name
  cost : e.cost = (s.ifc i).cost
  capacity : e.capacity = (s.ifc i).capacity
  cktId : e.cktId = (s.ifc i).cktId.text
  utilization : e.utilization = s.utilization i

/-- the node `v` of the map shows node `n` -/
structure ShowsNode (s : State) (n : ℕ) (v : MapNode) : Prop where
  id : v.id = (s.node n).name
  label : v.label = (s.node n).name
  plain : v.group = ""
  failed : v.failed = (s.node n).failed
  position : v.x = (s.node n).lon * 5 ∧ v.y = -(s.node n).lat * 5

/-- the node `v` of the map is the midpoint of circuit `c`: halfway between its ends -/
structure Midpoint (s : State) (c : ℕ × ℕ) (v : MapNode) : Prop where
  group : v.group = "midpoint"
  neighbors : v.neighbors = [s.tail c.1, s.tail c.2]
  x : v.x = ((s.node (s.ifc c.1).node).lon * 5 + (s.node (s.ifc c.2).node).lon * 5) / 2
  y : v.y = (-(s.node (s.ifc c.1).node).lat * 5 + -(s.node (s.ifc c.2).node).lat * 5) / 2

/-- the colours of the legend: the range of utilization each stands for -/
inductive Legend : ℚ → String → Prop
  | royalblue {u : ℚ} : 0 ≤ u → u ≤ 24 → Legend u "royalblue"
  | green {u : ℚ} : 25 ≤ u → u ≤ 49 → Legend u "green"
  | yellow {u : ℚ} : 50 ≤ u → u ≤ 74 → Legend u "yellow"
  | orangered {u : ℚ} : 75 ≤ u → u ≤ 89 → Legend u "orangered"
  | darkred {u : ℚ} : 90 ≤ u → u ≤ 99 → Legend u "darkred"
  | darkviolet {u : ℚ} : 100 ≤ u → Legend u "darkviolet"

/-- no end point of a demand or LSP has a hyphen in its name -/
def NoHyphens (s : State) : Prop := ∀ a ∈ endNames s, '-' ∉ a.toList

/-- a menu: in ascending order, without repetitions, and holding exactly the names with `P` -/
def IsMenu (P : String → Prop) (l : List String) : Prop :=
  l.Pairwise (· < ·) ∧ ∀ a, a ∈ l ↔ P a

/-- some object of the list goes from `a` to `b` -/
def Joins (objs : List ℕ) (src dst : ℕ → String) (a b : String) : Prop :=
  ∃ o ∈ objs, src o = a ∧ dst o = b

/-- object `o` has the selected source and the selected destination, if any -/
def Fits (src dst : ℕ → String) (a b : Option String) (o : ℕ) : Prop :=
  (∀ x, a = some x → src o = x) ∧ ∀ y, b = some y → dst o = y

/-- the menus of the page for a kind of objects: without a selection they hold all sources and all
destinations, with one end selected exactly the other ends that go with it; the objects offered
are exactly those that fit the selection -/
structure MenusRight (env : Env) (ty : ObjType) (s : State) (objs : List ℕ)
    (src dst : ℕ → String) : Prop where
  all : ∃ t l m, endMenus env ty none none s = .ok (l, m) t ∧
    IsMenu (fun a => ∃ b, Joins objs src dst a b) l ∧
    IsMenu (fun b => ∃ a, Joins objs src dst a b) m
  sources : ∀ b, ∃ t l, endMenus env ty none (some b) s = .ok (l, [b]) t ∧
    IsMenu (fun a => Joins objs src dst a b) l
  dests : ∀ a, ∃ t m, endMenus env ty (some a) none s = .ok ([a], m) t ∧
    IsMenu (fun b => Joins objs src dst a b) m
  offered : ∀ a b, (a ≠ none ∨ b ≠ none) → (∃ o ∈ objs, Fits src dst a b o) →
    ∃ t l, offered env ty a b s = .ok l t ∧ ∀ o, o ∈ l ↔ o ∈ objs ∧ Fits src dst a b o

/-- no two interfaces on one node have circuit ids that read the same -/
def TextIdsUnique (s : State) : Prop :=
  ∀ i ∈ s.ifs, ∀ j ∈ s.ifs, s.tail i = s.tail j →
    (s.ifc i).cktId.text = (s.ifc j).cktId.text → i = j

end NTM.Spec
