import Verif.Model.Weather
import Verif.Model.Queries

/-!
# Model of the lists of the map page

The callbacks of `create_weathermap` that fill the lists of interfaces, demands and LSPs, and
those that turn an entry of a list into a selection.  Simplifications: the entry that clears the
selection and the placeholder that stands for an empty list are left out, and an entry is the
dictionary that `json.dumps` writes and `json.loads` reads back, without its label.
-/

namespace NTM

/-- the value of an interface entry (`pyNTM/weathermap.py:326-332`) -/
structure IfcChoice where
  source : String
  name : String
  dest : String
  cktId : CktId
  cost : ℕ
  deriving DecidableEq

namespace State

/-- the entry of a demand (`pyNTM/weathermap.py:303-312`) -/
def dmdChoice (s : State) (d : ℕ) : Choice := ⟨s.dmdSrc d, s.dmdDst d, (s.dmd d).name⟩

/-- the entry of an LSP (`pyNTM/weathermap.py:303-312`) -/
def lspChoice (s : State) (l : ℕ) : Choice := ⟨s.lspSrc l, s.lspDst l, (s.lsp l).name⟩

/-- the entry of an interface (`pyNTM/weathermap.py:321-335`) -/
def ifcChoice (s : State) (i : ℕ) : IfcChoice :=
  ⟨s.tail i, (s.ifc i).name, s.head i, (s.ifc i).cktId, (s.ifc i).cost⟩

end State

/-- `format_interfaces_for_display` (`pyNTM/weathermap.py:315-338`); a character has no
`node_object` -/
def litChoices (s : State) : List Lit → Except Exn (List IfcChoice)
  | [] => .ok []
  | .ifc i :: rest => do
    let r ← litChoices s rest
    .ok (s.ifcChoice i :: r)
  | .char _ :: _ => .error .attributeError

/-- `interfaces_on_node` (`pyNTM/weathermap.py:969-990`) -/
def interfacesOnNode (s : State) (name : String) : Except Exn (List IfcChoice) := do
  let n ← s.getNode name
  .ok ((s.ifcsOn (s.node n).name).map s.ifcChoice)

/-- `lsps_on_interface` (`pyNTM/weathermap.py:1620-1655`) -/
def lspsOnInterface (s : State) (ifName node : String) : Except Exn (List Choice) := do
  let i ← s.getIfc ifName node
  .ok ((s.lspsOn i).map s.lspChoice)

/-- `demands_on_interface` (`pyNTM/weathermap.py:1662-1700`) -/
def demandsOnInterface (s : State) (ifName node : String) : Except Exn (List Choice) := do
  let i ← s.getIfc ifName node
  .ok ((s.dmdsOn i).map s.dmdChoice)

/-- `demands_on_lsp` (`pyNTM/weathermap.py:1707-1746`) after `display_selected_lsp`
(`pyNTM/weathermap.py:1463-1471`), which marks the LSP as not routed if its path is
`"Unrouted"` -/
def demandsOnLsp (s : State) (ch : Choice) : Except Exn (List Choice) := do
  let l ← s.getLsp ch.source ch.dest ch.name
  match (s.lsp l).path with
  | .unrouted => .ok []
  | _ => .ok ((s.dmdsOnLsp l).map s.dmdChoice)

/-- `demand_interfaces` (`pyNTM/weathermap.py:1757-1808`) after `display_selected_demand_data`
(`pyNTM/weathermap.py:1603-1611`): the interfaces and the LSPs of the demand.  An unrouted demand
raises `PreventUpdate`, here an empty result. -/
def demandPath (s : State) (ch : Choice) : Except Exn (List IfcChoice × List Choice) := do
  let d ← s.getDemand ch.source ch.dest ch.name
  match (s.dmd d).path with
  | none => .ok ([], [])
  | some _ => do
    let r ← findLit s [d]
    let is ← litChoices s r.1
    .ok (is, r.2.map s.lspChoice)

/-- `lsp_interfaces` (`pyNTM/weathermap.py:1814-1842`) after `display_selected_lsp`
(`pyNTM/weathermap.py:1463-1471`).  An unrouted LSP raises `PreventUpdate`, here an empty
result. -/
def lspPathEntries (s : State) (ch : Choice) : Except Exn (List IfcChoice) := do
  let l ← s.getLsp ch.source ch.dest ch.name
  match (s.lsp l).path with
  | .unrouted => .ok []
  | _ => do
    let hops ← lspHops s l
    .ok (hops.map s.ifcChoice)

/-- what the page shows about a selected interface (`pyNTM/weathermap.py:1525-1534,1548-1557`) -/
structure Shown where
  source : String
  name : String
  dest : String
  cktId : CktId
  utilization : Option ℚ
  cost : ℕ
  deriving DecidableEq

/-- `display_selected_edge` for an entry of a list (`pyNTM/weathermap.py:1543-1559`) -/
def selectEntry (s : State) (ch : IfcChoice) : Except Exn Shown := do
  let i ← s.getIfc ch.name ch.source
  .ok ⟨ch.source, ch.name, ch.dest, ch.cktId, s.utilization i, ch.cost⟩

end NTM
