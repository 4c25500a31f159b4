import Verif.Model.Sim
import Mathlib.Data.Int.Log

/-!
# The load computation in floating point

The other files compute with exact rationals.  Here every arithmetic operation of the load phase
is followed by a rounding `fl`, as in a Python `float`.  `roundBits` is the rounding of IEEE 754
binary formats, so that `roundBits 53` is that of a Python `float` without overflow and underflow.
Simplification: LSP signalling stays exact here (see `FloatLsp.lean`), as do conversions of input
numbers.
-/

namespace NTM

/-- round to nearest with `p` significant bits, ties to even -/
def roundBits (p : ℕ) (x : ℚ) : ℚ :=
  if x = 0 then 0
  else
    let e : ℤ := Int.log 2 |x| - (p - 1)
    (roundHalfEven (x / 2 ^ e) : ℚ) * 2 ^ e

/-- `interface.traffic += q` in floating point -/
def addTrafficFl (fl : ℚ → ℚ) (i : ℕ) (q : ℚ) : Py Unit := fun s =>
  match (s.ifc i).traffic with
  | .down => .error .typeError s
  | .val t => .ok () (s.updIfc i fun x => { x with traffic := .val (fl (t + q)) })

/-- `traff_per_int[item]` before rounding (`pyNTM/performance_model.py:1500-1503`,
`pyNTM/flex_model.py:741-744`) -/
def itemTrafficFl (fl : ℚ → ℚ) (infos : List PathInfo) (x : Item) : ℚ :=
  infos.foldl (fun acc p => p.items.foldl
    (fun acc y => if y = x then fl (acc + p.traffic) else acc) acc) 0

/-- the loop body of `_update_interface_utilization` for one item
(`pyNTM/performance_model.py:1308-1322`, `pyNTM/flex_model.py:581-591`) -/
def applyItemFl (fl : ℚ → ℚ) (k : Kind) (infos : List PathInfo) (x : Item) : Py Unit :=
  match k, x with
  | .perf, .ifc i => addTrafficFl fl i (fl (pyRound 1 (itemTrafficFl fl infos x)))
  | .perf, .lsp _ => raise .attributeError
  | .flex, .ifc i =>
    forEach infos fun p => if x ∈ p.items then addTrafficFl fl i p.traffic else pure ()
  | .flex, .lsp l => do
    let s ← get
    let ifs ← liftE (s.lsp l).path.interfaces
    forEach ifs fun i => addTrafficFl fl i (fl (pyRound 1 (itemTrafficFl fl infos x)))

/-- `path_detail` of a demand that rides LSPs (`pyNTM/performance_model.py:1328-1352`,
`pyNTM/flex_model.py:609-619`) -/
def lspDetailFl (fl : ℚ → ℚ) (k : Kind) (traffic : ℚ) (ls : List ℕ) : List PathInfo :=
  ls.map fun l => match k with
    | .perf => { items := [.lsp l], splits := some [(.lsp l, ls.length)],
                 traffic := fl (pyRound 4 (fl (traffic / ls.length))) }
    | .flex => { items := [.lsp l], splits := none, traffic := fl (traffic / ls.length) }

/-- The loop body of `_update_interface_utilization`
(`pyNTM/performance_model.py:1252-1324`, `pyNTM/flex_model.py:537-591`). -/
def loadDemandFl (fl : ℚ → ℚ) (env : Env) (d : ℕ) : Py Unit := do
  let s ← get
  match (s.dmd d).path with
  | none => pure ()
  | some paths => do
    let ls ← bestLsps env (pairKey (s.dmdSrc d) (s.dmdDst d))
    let s ← get
    match ls with
    | [] => do
      let tail := s.itemTail
      let infos ← liftE (pathInfos (match s.kind with
        | .perf => fun x => fl (pyRound 4 (fl x))
        | .flex => fl) (outDeg tail paths) tail (s.dmd d).traffic paths)
      modify fun s => s.updDmd d fun x => { x with detail := some infos }
      forEach (itemSet paths) (applyItemFl fl s.kind infos)
    | ls => do
      let q := fl ((s.dmd d).traffic / ls.length)
      forEach ls fun l => do
        let s ← get
        let ifs ← liftE (s.lsp l).path.interfaces
        forEach ifs fun i => addTrafficFl fl i q
      modify fun s => s.updDmd d fun x =>
        { x with detail := some (lspDetailFl fl s.kind x.traffic ls) }

/-- `_update_interface_utilization` (`pyNTM/performance_model.py:1236-1326`,
`pyNTM/flex_model.py:521-593`) -/
def updateUtilizationFl (fl : ℚ → ℚ) (env : Env) : Py Unit := do
  modify State.resetTraffic
  let s ← get
  forEach s.dmds (loadDemandFl fl env)

/-- `_route_demands` (`pyNTM/performance_model.py:318-370`, `pyNTM/flex_model.py:287-347`) -/
def routeDemandsFl (fl : ℚ → ℚ) (env : Env) : Py Unit := do
  let s ← get
  let g := match s.kind with
    | .perf => s.graphPerf false 0 false
    | .flex => s.graphFlex false 0 false
  forEach s.dmds (routeDemand env g (s.considered false 0 false))
  updateUtilizationFl fl env

/-- `update_simulation` (`pyNTM/performance_model.py:251-316`, `pyNTM/flex_model.py:217-283`) -/
def updateSimulationFl (fl : ℚ → ℚ) (env : Env) : Py Unit := do
  modify State.resetSim
  routeLsps env
  routeDemandsFl fl env
  validate env

end NTM
