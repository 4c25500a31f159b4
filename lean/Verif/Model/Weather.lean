import Verif.Model.Registry
import Mathlib.Data.List.Sort

/-!
# The data behind the map page (`pyNTM/weathermap.py`)

The functions of the class `WeatherMap` that turn a model into map elements, menus and
highlighted paths.  The Dash layout and the transport of values as JSON text between the page
and the callbacks are not modelled: a menu entry is the record that `json.dumps` prints and
`json.loads` reads back.
-/

namespace NTM

/-- `str(circuit_id)` (`pyNTM/weathermap.py:476`) -/
def CktId.text : CktId → String
  | .none => "None"
  | .num n => toString n
  | .str s => s

/-- A node of the map (`pyNTM/weathermap.py:183-209`).  `group` is `"midpoint"` or `""`;
`neighbors` is empty where the code omits the key. -/
structure MapNode where
  x : ℚ
  y : ℚ
  id : String
  label : String
  group : String
  failed : Bool
  neighbors : List String
  deriving DecidableEq

/-- An edge of the map (`pyNTM/weathermap.py:260-271`).  `group = none` is `None` and
`utilization = none` is `"Int is down"`. -/
structure MapEdge where
  source : String
  target : String
  group : Option String
  cktId : String
  utilization : Option ℚ
  name : String
  capacity : ℚ
  cost : ℕ
  deriving DecidableEq

/-- `str.split("-")` on characters: the fields, the last one being accumulated -/
def splitDashAux : List Char → List Char → List (List Char)
  | [], cur => [cur]
  | c :: cs, cur => if c = '-' then cur :: splitDashAux cs [] else splitDashAux cs (cur ++ [c])

/-- `key.split("-")` -/
def splitDash (key : String) : List String := (splitDashAux key.toList []).map String.ofList

/-- `int(text)` on the bounds of a range; `none` is `ValueError`.  Simplification: only decimal
digits are read (signs, blanks and underscores do not occur in `util_ranges`). -/
def readBound (text : String) : Option ℕ :=
  if text.toList ≠ [] ∧ text.toList.all Char.isDigit then
    some (text.toList.foldl (fun n c => 10 * n + (c.toNat - '0'.toNat)) 0)
  else none

/-- `self.util_ranges` (`pyNTM/weathermap.py:113-121`): the insertion-ordered dict from
utilization ranges to colours; `failed_interface_color` is `"dimgrey"`
(`pyNTM/weathermap.py:43`). -/
def utilRanges : List (String × String) :=
  [("0-24", "royalblue"), ("25-49", "green"), ("50-74", "yellow"), ("75-89", "orangered"),
   ("90-99", "darkred"), ("100+", "darkviolet"), ("failed", "dimgrey")]

/-- the bounds of a range; `none` where `int` raises `ValueError` or the second bound is missing
(`pyNTM/weathermap.py:250-252,257`) -/
def rangeBounds (range : String) : Option (ℕ × ℕ) :=
  match splitDash range with
  | lo :: hi :: _ =>
    match readBound lo, readBound hi with
    | some a, some b => some (a, b)
    | _, _ => none
  | _ => none

/-- the loop over `util_ranges` (`pyNTM/weathermap.py:249-258`) -/
def rangeColor (u : ℚ) : List (String × String) → Option String
  | [] => none
  | (range, color) :: rest =>
    match rangeBounds range with
    | some (lo, hi) => if (lo : ℚ) ≤ u ∧ u ≤ (hi : ℚ) then some color else rangeColor u rest
    | none => rangeColor u rest

/-- the colour of an edge (`pyNTM/weathermap.py:242-258`) -/
def edgeColor : Option ℚ → Option String
  | none => some "dimgrey"
  | some u => if 100 ≤ u then some "darkviolet" else rangeColor u utilRanges

/-- `make_json_node` (`pyNTM/weathermap.py:183-209`) -/
def mapNode (x y : ℚ) (id label : String) (midpoint : Bool) (neighbors : List String)
    (failed : Bool) : MapNode :=
  { x := x, y := y, id := id, label := label, group := if midpoint then "midpoint" else "",
    failed := failed, neighbors := if midpoint then neighbors else [] }

/-- `make_json_edge` (`pyNTM/weathermap.py:211-271`) -/
def mapEdge (source target name : String) (capacity : ℚ) (cktId : String)
    (utilization : Option ℚ) (cost : ℕ) : MapEdge :=
  { source := source, target := target, group := edgeColor utilization, cktId := cktId,
    utilization := utilization, name := name, capacity := capacity, cost := cost }

namespace State

/-- the node of the map for a node of the model (`pyNTM/weathermap.py:464-471,499-509`);
`spacing_factor` is 5 (`pyNTM/weathermap.py:41`) -/
def drawnNode (s : State) (n : ℕ) : MapNode :=
  mapNode ((s.node n).lon * 5) (-(s.node n).lat * 5) (s.node n).name (s.node n).name false []
    (s.node n).failed

/-- the label of the midpoint of a circuit (`pyNTM/weathermap.py:484-487`) -/
def midLabel (s : State) (group : Bool) (c : ℕ × ℕ) : String :=
  if group then "midpoint-" ++ s.tail c.1 ++ "-" ++ s.tail c.2
  else "midpoint-" ++ (s.ifc c.1).cktId.text

/-- the midpoint of a circuit (`pyNTM/weathermap.py:480-497`) -/
def drawnMid (s : State) (group : Bool) (c : ℕ × ℕ) : MapNode :=
  let a := s.drawnNode (s.ifc c.1).node
  let b := s.drawnNode (s.ifc c.2).node
  mapNode ((a.x + b.x) / 2) ((a.y + b.y) / 2) (s.midLabel group c) (s.midLabel group c) true
    [a.label, b.label] false

/-- the edge of interface `i` of circuit `c` (`pyNTM/weathermap.py:473-476,511-535`): the capacity and
the circuit id are those of the first interface -/
def drawnEdge (s : State) (group : Bool) (c : ℕ × ℕ) (i : ℕ) : MapEdge :=
  mapEdge (s.tail i) (s.midLabel group c) (s.ifc i).name (s.ifc c.1).capacity
    (s.ifc c.1).cktId.text (s.utilization i) (s.ifc i).cost

/-- `create_elements` (`pyNTM/weathermap.py:441-537`): the nodes and the edges, which the code
concatenates -/
def mapElements (s : State) (group : Bool := true) : List MapNode × List MapEdge :=
  (s.circuits.flatMap fun c =>
      [s.drawnMid group c, s.drawnNode (s.ifc c.1).node, s.drawnNode (s.ifc c.2).node],
   s.circuits.flatMap fun c => [s.drawnEdge group c c.1, s.drawnEdge group c c.2])

end State

/-- the demand or LSP named in a menu entry (`pyNTM/weathermap.py:296-312`), which
`json.loads` reads back (`pyNTM/weathermap.py:1463,1603`) -/
structure Choice where
  source : String
  dest : String
  name : String
  deriving DecidableEq

/-- an element of the set of things to highlight: an interface, or a character of the string
`"Unrouted"`, over which the loops run when the demand is unrouted -/
inductive Lit where
  | ifc (i : ℕ)
  | char (c : Char)
  deriving DecidableEq

/-- `lsp.path["interfaces"]`: a string has no such index, the transient `{}` no such key -/
def lspHops (s : State) (l : ℕ) : Except Exn (List ℕ) :=
  match (s.lsp l).path with
  | .routed is _ _ => .ok is
  | .blank => .error .keyError
  | _ => .error .typeError

/-- the loop over the hops of one path (`pyNTM/weathermap.py:352-358`) -/
def litHops (s : State) : List Item → Except Exn (List Lit × List ℕ)
  | [] => .ok ([], [])
  | .ifc i :: rest => do
    let r ← litHops s rest
    .ok (.ifc i :: r.1, r.2)
  | .lsp l :: rest => do
    let hops ← lspHops s l
    let r ← litHops s rest
    .ok (hops.map .ifc ++ r.1, l :: r.2)

/-- the loop over the paths of one demand (`pyNTM/weathermap.py:351-358`) -/
def litPaths (s : State) : List (List Item) → Except Exn (List Lit × List ℕ)
  | [] => .ok ([], [])
  | p :: rest => do
    let r ← litHops s p
    let rs ← litPaths s rest
    .ok (r.1 ++ rs.1, r.2 ++ rs.2)

/-- `find_demand_interfaces_and_lsps` (`pyNTM/weathermap.py:340-361`).  The results are the
elements of the two sets, in the order of insertion and with repetitions. -/
def findLit (s : State) : List ℕ → Except Exn (List Lit × List ℕ)
  | [] => .ok ([], [])
  | d :: rest => do
    let r ← match (s.dmd d).path with
      | none => .ok ("Unrouted".toList.map .char, [])
      | some ps => litPaths s ps
    let rs ← findLit s rest
    .ok (r.1 ++ rs.1, r.2 ++ rs.2)

/-- the argument `object_type` of the menus -/
inductive ObjType where
  | demand
  | lsp
  | other

/-- the keys of the parallel groups of demands or LSPs
(`pyNTM/weathermap.py:380-387,410-417`); another type raises -/
def groupKeys (env : Env) : ObjType → Py (List String)
  | .demand => fun s => .ok ((s.demandGroups env).map Prod.fst) s
  | .lsp => do
    let g ← lspGroups env
    pure (g.map Prod.fst)
  | .other => raise (.model "'object_type' value must be 'demand'|'lsp'")

/-- `[pair[out] for pair in pairs if pair[by] == name]` with `IndexError` on a short pair
(`pyNTM/weathermap.py:389,419`) -/
def pickFrom (by_ out : ℕ) (name : String) : List String → Except Exn (List String)
  | [] => .ok []
  | key :: rest =>
    match (splitDash key)[by_]?, (splitDash key)[out]? with
    | some b, some o => do
      let r ← pickFrom by_ out name rest
      .ok (if b = name then o :: r else r)
    | _, _ => .error .indexError

/-- `get_sources` (`pyNTM/weathermap.py:363-391`) -/
def getSources (env : Env) (dest : String) (ty : ObjType) : Py (List String) := do
  let keys ← groupKeys env ty
  liftE (pickFrom 1 0 dest keys)

/-- `get_destinations` (`pyNTM/weathermap.py:393-421`) -/
def getDestinations (env : Env) (src : String) (ty : ObjType) : Py (List String) := do
  let keys ← groupKeys env ty
  liftE (pickFrom 0 1 src keys)

/-- `source, dest = entry.split("-")` for every key: `ValueError` unless there are exactly two
fields (`pyNTM/weathermap.py:871-874,893-896`) -/
def unpackKeys : List String → Except Exn (List String × List String)
  | [] => .ok ([], [])
  | key :: rest =>
    match splitDash key with
    | [a, b] => do
      let r ← unpackKeys rest
      .ok (a :: r.1, b :: r.2)
    | _ => .error .valueError

/-- `list(set(names))` followed by `sort()`: ascending by code points -/
def sortNames (names : List String) : List String :=
  names.dedup.insertionSort fun a b => a ≤ b

/-- `demand_sources_and_destinations` (`pyNTM/weathermap.py:860-880`) and
`lsp_sources_and_destinations` (`pyNTM/weathermap.py:882-903`) -/
def menuEnds (env : Env) (ty : ObjType) : Py (List String × List String) := do
  let keys ← groupKeys env ty
  let r ← liftE (unpackKeys keys)
  pure (sortNames r.1, sortNames r.2)

/-- `make_node_list` (`pyNTM/weathermap.py:905-916`) -/
def nodeMenu (s : State) : List String :=
  (s.nodes.map fun n => (s.node n).name).insertionSort fun a b => a ≤ b

/-- `get_lsp_interface_data` (`pyNTM/weathermap.py:423-439`): the interfaces of the LSP and the
set of the names of the nodes it visits -/
def lspData (s : State) (ch : Choice) : Except Exn (List ℕ × List String) := do
  let l ← s.getLsp ch.source ch.dest ch.name
  let hops ← lspHops s l
  .ok (hops, (hops.flatMap fun i => [s.tail i, s.head i]).dedup)

/-- the groups behind a menu: `parallel_demand_groups()` or `parallel_lsp_groups()` -/
def groupsOf (env : Env) : ObjType → Py (List (String × List ℕ))
  | .demand => fun s => .ok (s.demandGroups env) s
  | .lsp => lspGroups env
  | .other => raise (.model "'object_type' value must be 'demand'|'lsp'")

/-- the groups whose key has the field `name` at position `at_`
(`pyNTM/weathermap.py:1262-1272,1284-1294` and `pyNTM/weathermap.py:1372-1382,1395-1405`) -/
def groupsAt (at_ : ℕ) (name : String) : List (String × List ℕ) → Except Exn (List ℕ)
  | [] => .ok []
  | (key, objs) :: rest =>
    match (splitDash key)[at_]? with
    | some b => do
      let r ← groupsAt at_ name rest
      .ok (if b = name then objs ++ r else r)
    | none => .error .indexError

/-- `format_objects_for_display` (`pyNTM/weathermap.py:273-313`) looks at the first object and so
raises `IndexError` on an empty list.  Simplification: the text of the labels is left out. -/
def formatList (objs : List ℕ) : Py (List ℕ) :=
  if objs = [] then raise .indexError else pure objs

/-- the demands or LSPs offered by `display_demand_dropdowns`
(`pyNTM/weathermap.py:1324-1423`) and `display_lsp_dropdowns`
(`pyNTM/weathermap.py:1213-1309`) when a source and/or a destination is selected.
Simplification: the entry that clears the selection is left out. -/
def offered (env : Env) (ty : ObjType) (src dst : Option String) : Py (List ℕ) :=
  match src, dst with
  | none, none => pure []
  | some a, some b => do
    let g ← groupsOf env ty
    match dictGet g (pairKey a b) with
    | some objs => formatList objs
    | none => raise .keyError
  | none, some b => do
    let g ← groupsOf env ty
    let objs ← liftE (groupsAt 1 b g)
    formatList objs
  | some a, none => do
    let g ← groupsOf env ty
    let objs ← liftE (groupsAt 0 a g)
    formatList objs

/-- the source and destination menus of the same callbacks
(`pyNTM/weathermap.py:1233-1281,1344-1393`) -/
def endMenus (env : Env) (ty : ObjType) (src dst : Option String) :
    Py (List String × List String) :=
  match src, dst with
  | none, none => menuEnds env ty
  | some a, some b => pure ([a], [b])
  | none, some b => do
    let l ← getSources env b ty
    pure (l.insertionSort fun a b => a ≤ b, [b])
  | some a, none => do
    let l ← getDestinations env a ty
    pure ([a], l.insertionSort fun a b => a ≤ b)

/-- the destination shown for an edge clicked on the map: the first field of the midpoint label,
after `"midpoint"`, that is not the source (`pyNTM/weathermap.py:1520-1524`) -/
def clickedDest (e : MapEdge) : Except Exn String :=
  match ((splitDash e.target).drop 1).filter fun f => f ≠ e.source with
  | f :: _ => .ok f
  | [] => .error .indexError

/-- an edge selector `edge[circuit_id="..."][source="..."]` of the style sheet
(`pyNTM/weathermap.py:1064-1066,1135-1137,1185-1189`) -/
structure Selector where
  cktId : String
  source : String
  deriving DecidableEq

/-- does the selector match the edge? -/
def Selector.selects (x : Selector) (e : MapEdge) : Bool := e.cktId = x.cktId && e.source = x.source

/-- the two selectors for an interface on a highlighted path: its own edge and, by the name of
the node at the other end, the edge back (`pyNTM/weathermap.py:1060-1100,1133-1163`) -/
def ifcSelectors (s : State) (i : ℕ) : List Selector :=
  [⟨(s.ifc i).cktId.text, s.tail i⟩, ⟨(s.ifc i).cktId.text, s.head i⟩]

/-- the entries of the style sheet for a set of things to highlight, `f i` for interface `i`; a
character has no attribute `circuit_id` (`pyNTM/weathermap.py:1060-1118`) -/
def litEntries {α : Type} (f : ℕ → List α) : List Lit → Except Exn (List α)
  | [] => .ok []
  | .ifc i :: rest => do
    let r ← litEntries f rest
    .ok (f i ++ r)
  | .char _ :: _ => .error .attributeError

/-- the part of `update_stylesheet` for a selected demand (`pyNTM/weathermap.py:1037-1118`):
nothing for an unrouted demand or an unknown pair, otherwise the interfaces of *all* demands
with the same source and destination.  `display_selected_demand_data`
(`pyNTM/weathermap.py:1603-1611`) decides whether the demand counts as routed. -/
def demandEntries {α : Type} (f : ℕ → List α) (env : Env) (s : State) (ch : Choice) :
    Except Exn (List α) := do
  let d ← s.getDemand ch.source ch.dest ch.name
  match (s.dmd d).path with
  | none => .ok []
  | some _ =>
    match dictGet (s.demandGroups env) (pairKey ch.source ch.dest) with
    | none => .ok []
    | some ds => do
      let r ← findLit s ds
      litEntries f r.1

/-- the edge selectors for a selected demand (`pyNTM/weathermap.py:1060-1100`) -/
def demandSelectors (env : Env) (s : State) (ch : Choice) : Except Exn (List Selector) :=
  demandEntries (ifcSelectors s) env s ch

/-- the ids in the node selectors `node[id="..."]` for a selected demand
(`pyNTM/weathermap.py:1102-1118`) -/
def demandNodeIds (env : Env) (s : State) (ch : Choice) : Except Exn (List String) :=
  demandEntries (fun i => [s.tail i, s.head i]) env s ch

/-- the part of `update_stylesheet` for a selected LSP (`pyNTM/weathermap.py:1121-1178`): the edge
selectors and the ids in the node selectors.  `display_selected_lsp`
(`pyNTM/weathermap.py:1463-1471`) takes every path other than `"Unrouted"` for a route. -/
def lspStyles (s : State) (ch : Choice) : Except Exn (List Selector × List String) := do
  let l ← s.getLsp ch.source ch.dest ch.name
  match (s.lsp l).path with
  | .unrouted => .ok ([], [])
  | _ => do
    let r ← lspData s ch
    .ok (r.1.flatMap (ifcSelectors s), r.2)

end NTM
