import Verif.Model.State

/-!
# networkx graphs

`networkx` 2.4 is not part of `/repo`.  This file gives executable reference versions of
the calls the code makes.  They enumerate node paths naively; `Verif/Proof/Walks.lean`
proves that they return exactly the minimum-cost paths (resp. the simple paths).
That networkx returns these paths is part of the trusted base.
-/

namespace NTM

/-- A directed graph as the path functions see it: its nodes, and for each ordered pair
of nodes the weight a shortest-path computation assigns to the hop. -/
structure NxG where
  nodes : List String
  w : String → String → Option ℕ

section
variable (tail head : ℕ → String) (cost : ℕ → ℕ)

/-- edges of the graph that go from `u` to `v` -/
def edgesBetween (es : List ℕ) (u v : String) : List ℕ :=
  es.filter fun i => tail i = u && head i = v

/-- `nx.DiGraph.add_edges_from` (`pyNTM/performance_model.py:571`): a later edge between
the same nodes overwrites the attributes of an earlier one. -/
def weightDi (es : List ℕ) (u v : String) : Option ℕ :=
  (edgesBetween tail head es u v).getLast?.map cost

/-- `nx.MultiDiGraph` (`pyNTM/flex_model.py:1024`): the shortest-path weight of a hop is
the minimum over its parallel edges. -/
def weightMulti (es : List ℕ) (u v : String) : Option ℕ :=
  ((edgesBetween tail head es u v).map cost).min?

end

/-- total weight of a node path (`none` if some hop is missing) -/
def nodeWeight (w : String → String → Option ℕ) : List String → Option ℕ
  | [] => some 0
  | [_] => some 0
  | u :: v :: rest =>
    match w u v, nodeWeight w (v :: rest) with
    | some a, some b => some (a + b)
    | _, _ => none

/-- all node paths from `u` to `dst` whose later nodes are distinct members of `avail` -/
def nodePaths (w : String → String → Option ℕ) (dst : String) :
    ℕ → List String → String → List (List String)
  | 0, _, u => if u = dst then [[u]] else []
  | n + 1, avail, u =>
    if u = dst then [[u]]
    else (avail.filter fun v => (w u v).isSome).flatMap fun v =>
      (nodePaths w dst n (avail.erase v) v).map (u :: ·)

/-- all node-simple paths from `a` to `b` -/
def NxG.simplePaths (g : NxG) (a b : String) : List (List String) :=
  let ns := g.nodes.dedup
  nodePaths g.w b ns.length (ns.erase a) a

/-- the cheapest of a list of node paths -/
def NxG.cheapest (g : NxG) (ps : List (List String)) : List (List String) :=
  match (ps.filterMap (nodeWeight g.w)).min? with
  | none => []
  | some m => ps.filter fun p => nodeWeight g.w p = some m

/-- `list(nx.all_shortest_paths(G, a, b, weight="cost"))`
(used at `pyNTM/performance_model.py:352,406,817,868`,
`pyNTM/flex_model.py:323,1605,1408,1450`).
Unknown source: `NodeNotFound`; unreachable destination: `NetworkXNoPath`. -/
def NxG.allShortestPaths (g : NxG) (a b : String) : Except Exn (List (List String)) :=
  if a ∈ g.nodes then
    match g.cheapest (g.simplePaths a b) with
    | [] => .error .noPath
    | ps => .ok ps
  else .error .nodeNotFound

/-- `nx.shortest_path_length(G, a, b, weight="cost")`
(`pyNTM/performance_model.py:825,875`, `pyNTM/flex_model.py:1414,1458`). -/
def NxG.shortestLength (g : NxG) (a b : String) : Option ℕ :=
  ((g.simplePaths a b).filterMap (nodeWeight g.w)).min?

/-- `nx.all_simple_paths(G, a, b, cutoff)` (`pyNTM/performance_model.py:780`,
`pyNTM/flex_model.py:1357`), for a destination that is a node of the graph; networkx
returns nothing when `a = b`.  Unknown source: `NodeNotFound`.
Simplification: for a destination that is not a node, networkx 2.4 iterates over the
characters of the string; the model raises `NodeNotFound` instead. -/
def NxG.allSimplePaths (g : NxG) (a b : String) (cutoff : ℕ) :
    Except Exn (List (List String)) :=
  if a ∈ g.nodes ∧ b ∈ g.nodes then
    if a = b then .ok []
    else .ok ((g.simplePaths a b).filter fun p => p.length ≤ cutoff + 1)
  else .error .nodeNotFound

/-- `zip(p, p[1:])`: the hops of a node path. -/
def hops (p : List String) : List (String × String) := p.zip p.tail

/-- The hops of a node path as the PerformanceModel conversion loops find them:
`index = p.index(hop)`, next hop `p[index + 1]` if there is one
(`pyNTM/performance_model.py:497-503,903-910`, `pyNTM/flex_model.py:1496-1501`). -/
def hopsByIndex (p : List String) : List (String × String) :=
  p.filterMap fun h => (p[p.idxOf h + 1]?).map fun n => (h, n)

/-- `itertools.product(*choices)` (`pyNTM/flex_model.py:1085`, `:882`). -/
def pyProduct {α : Type} : List (List α) → List (List α)
  | [] => [[]]
  | xs :: rest => xs.flatMap fun x => (pyProduct rest).map (x :: ·)

/-- all elements present, or `none` -/
def allSome {α : Type} : List (Option α) → Option (List α)
  | [] => some []
  | none :: _ => none
  | some x :: rest => (allSome rest).map (x :: ·)

end NTM
