import Verif.Model.Registry

/-!
# Path queries and conversions
-/

namespace NTM

namespace State

/-- `PerformanceModel._convert_graph_path_to_model_path` / `_convert_nx_path_to_model_path`
for one node path (`pyNTM/performance_model.py:495-504,881-912`).  A hop without an
interface (`None` in Python) raises `AttributeError` here at once; every hop of a path
found in the graph has one. -/
def convertPerf (s : State) (p : List String) : Except Exn (List ℕ) :=
  match allSome ((hopsByIndex p).map fun h => s.ifcFromNodes h.1 h.2) with
  | some l => .ok l
  | none => .error .attributeError

/-- `FlexModel._get_all_paths_mdg` for one node path (`pyNTM/flex_model.py:936-956`): for
each hop the graph's cheapest parallel interfaces.  `es` are the edges of the graph. -/
def convertMdg (s : State) (es : List ℕ) (p : List String) : List (List ℕ) :=
  (hops p).map fun h =>
    let par := edgesBetween s.tail s.head es h.1 h.2
    par.filter fun i => (par.map s.costOf).min? = some (s.costOf i)

/-- `FlexModel._normalize_multidigraph_paths` (`pyNTM/flex_model.py:1032-1090`) -/
def normalize (paths : List (List (List ℕ))) : List (List ℕ) := paths.flatMap pyProduct

/-- `FlexModel._convert_nx_path_to_model_path` (`pyNTM/flex_model.py:1470-1512`): for each
hop *all* parallel interfaces of the model with enough reservable bandwidth. -/
def convertFlex (s : State) (needed : ℚ) (p : List String) : List (List ℕ) :=
  (hopsByIndex p).map fun h =>
    (s.ifs.filter fun i => s.tail i = h.1 && s.head i = h.2).filter fun i =>
      decide (needed ≤ s.reservable i)

/-- The result of `get_shortest_path`: `{'path': ..., 'cost': ...}`; `none` is `None`. -/
structure PathResult where
  paths : List (List ℕ)
  cost : Option ℕ

/-- `get_shortest_path` (`pyNTM/performance_model.py:794-831`,
`pyNTM/flex_model.py:1381-1424`).  Every exception is swallowed. -/
def getShortestPath (s : State) (src dst : String) (needed : ℚ) : PathResult :=
  match s.kind with
  | .perf =>
    let g := s.graphPerf false needed false
    match g.allShortestPaths src dst with
    | .error _ => ⟨[], none⟩
    | .ok ps =>
      match allSome (ps.map fun p => (s.convertPerf p).toOption) with
      | some l => ⟨l, g.shortestLength src dst⟩
      | none => ⟨[], none⟩
  | .flex =>
    let g := s.graphFlex false needed false
    match g.allShortestPaths src dst with
    | .error _ => ⟨[], none⟩
    | .ok ps => ⟨normalize (ps.map (s.convertFlex needed)), g.shortestLength src dst⟩

/-- `get_all_paths_reservable_bw` (`pyNTM/performance_model.py:732-792`,
`pyNTM/flex_model.py:1308-1379`).  The PerformanceModel swallows exceptions, the FlexModel
exhausts the generator outside the `try`.  Simplification: the order of the FlexModel's
deduplicated set of node paths is the enumeration order. -/
def getAllPaths (s : State) (src dst : String) (inclFailed : Bool) (cutoff : ℕ) (needed : ℚ) :
    Except Exn (List (List ℕ)) :=
  match s.kind with
  | .perf =>
    match (s.graphPerf inclFailed needed false).allSimplePaths src dst cutoff with
    | .error _ => .ok []
    | .ok ps =>
      match allSome (ps.map fun p => (s.convertPerf p).toOption) with
      | some l => .ok l
      | none => .ok []
  | .flex =>
    match (s.graphFlex inclFailed needed false).allSimplePaths src dst cutoff with
    | .error e => .error e
    | .ok ps => .ok (normalize (ps.map (s.convertFlex needed)))

end State

/-- A value of `effective_metric`: a number, `"Unrouted"` or `None`. -/
inductive Metric where
  | val (n : ℕ)
  | unrouted
  | none
  deriving DecidableEq

/-- `RSVP_LSP.effective_metric` (`pyNTM/rsvp.py:316-334`), without the write-back of the
configured metric (see `Lsp.manualView`). -/
def State.effMetric (s : State) (l : ℕ) : Except Exn Metric :=
  match (s.lsp l).manualView with
  | .error e => .error e
  | .ok (some m) => .ok (.val m)
  | .ok none =>
    if (s.lsp l).path.saysUnrouted then .ok .unrouted
    else match (s.getShortestPath (s.lspSrc l) (s.lspDst l) 0).cost with
      | some c => .ok (.val c)
      | none => .ok .none

/-- Python `min` over metrics: comparing a number with `None` or a string raises
`TypeError`, the empty sequence `ValueError`. -/
def pyMin : List Metric → Except Exn Metric
  | [] => .error .valueError
  | [m] => .ok m
  | ms =>
    match allSome (ms.map fun m => match m with
      | .val n => some n
      | _ => none) with
    | some (n :: ns) => .ok (.val (ns.foldl min n))
    | _ => if ms.all fun m => m = .unrouted then .ok .unrouted else .error .typeError

end NTM
