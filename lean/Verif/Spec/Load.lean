import Verif.Spec.Results
import Verif.Model.Demand

/-!
# Specification vocabulary for the traffic a demand puts on the network

`det` is the `path_detail` of a demand: one entry per path, with the items of the path, the
number of splits at each item and the path traffic.
-/

namespace NTM.Spec

/-- the traffic the entries of `path_detail` put on interface `i` -/
def carried (det : List PathInfo) (i : ℕ) : ℚ :=
  (det.map fun x => if Item.ifc i ∈ x.items then x.traffic else 0).sum

/-- total of the `path_traffic` values -/
def totalTraffic (det : List PathInfo) : ℚ := (det.map fun x => x.traffic).sum

/-- the demand's traffic that leaves node `u` -/
def leaving (s : State) (det : List PathInfo) (u : String) : ℚ :=
  ((s.ifs.filter fun i => s.tail i = u).map (carried det)).sum

/-- the demand's traffic that enters node `u` -/
def entering (s : State) (det : List PathInfo) (u : String) : ℚ :=
  ((s.ifs.filter fun i => s.head i = u).map (carried det)).sum

/-- the interfaces the demand's paths take out of node `u` -/
def nextHops (s : State) (det : List PathInfo) (u : String) : List ℕ :=
  s.ifs.filter fun i => s.tail i = u ∧ ∃ x ∈ det, Item.ifc i ∈ x.items

/-- number of paths of the demand through interface `i` -/
def pathsThrough (det : List PathInfo) (i : ℕ) : ℕ :=
  (det.filter fun x => Item.ifc i ∈ x.items).length

/-- the share of the demand that hop-by-hop equal splitting sends along a path: 1 divided by
the number of next hops used at every node of the path -/
def exactShare (s : State) (det : List PathInfo) (items : List Item) : ℚ :=
  (items.map fun y => (1 : ℚ) / (nextHops s det (s.itemTail y)).length).prod

/-- the load hop-by-hop equal splitting puts on interface `i`, without any rounding -/
def exactLoad (s : State) (det : List PathInfo) (traffic : ℚ) (i : ℕ) : ℚ :=
  (det.map fun x => if Item.ifc i ∈ x.items then traffic * exactShare s det x.items else 0).sum

/-- the LSPs on a demand's paths -/
def ridden (paths : List (List Item)) : List ℕ :=
  paths.flatten.filterMap fun y => match y with
    | .lsp l => some l
    | .ifc _ => none

/-- does the path of LSP `l` cross interface `i`? -/
def crosses (s : State) (l i : ℕ) : Bool :=
  match (s.lsp l).path with
  | .routed ifs _ _ => decide (i ∈ ifs)
  | _ => false

/-- What a demand adds to the traffic of interface `i` (no IGP shortcuts).  If it rides `k`
LSPs: `1/k` of its traffic for each of them that crosses the interface.  Otherwise the
`path_traffic` of its paths through the interface, in a PerformanceModel rounded to one
decimal. -/
def contribution (s : State) (d i : ℕ) : ℚ :=
  match (s.dmd d).path, (s.dmd d).detail with
  | some paths, some det =>
    if ridden paths = [] then
      match s.kind with
      | .perf => pyRound 1 (carried det i)
      | .flex => carried det i
    else ((ridden paths).map fun l =>
      if crosses s l i then (s.dmd d).traffic / (ridden paths).length else 0).sum
  | _, _ => 0

end NTM.Spec
