import Verif.Model.Demand

/-!
# `update_simulation`, diagnostics and derived reports
-/

namespace NTM

/-- The resets at the start of `update_simulation` (`pyNTM/performance_model.py:260-297`,
`pyNTM/flex_model.py:227-264`).  The auxiliary model of non-failed interfaces is left out:
only its demand set, which is the model's own, is used. -/
def State.resetSim (s : State) : State :=
  { s with
    groups := []
    ifc := fun i => if i ∈ s.ifs then
      { s.ifc i with reservedRaw := 0, traffic := .val 0 } else s.ifc i
    lsp := fun l => if l ∈ s.lsps then { s.lsp l with path := .unrouted } else s.lsp l
    dmd := fun d => if d ∈ s.dmds then { s.dmd d with path := none } else s.dmd d }

/-- `update_simulation` (`pyNTM/performance_model.py:251-316`,
`pyNTM/flex_model.py:217-283`). -/
def updateSimulation (env : Env) : Py Unit := do
  modify State.resetSim
  routeLsps env
  routeDemands env
  validate env

/-- The six counts and three lists of `simulation_diagnostics`
(`pyNTM/master_model.py:44-132`). -/
structure Diag where
  lspsWithDemands : List ℕ
  lspsNoDemands : List ℕ
  dmdsOnLsps : List ℕ
  nLspsWithDemands : ℕ
  nLspsNoDemands : ℕ
  nDmdsOnLsps : ℕ
  nDmdsNotOnLsps : ℕ
  nUnroutedLsps : ℕ
  nUnroutedDmds : ℕ

/-- `simulation_diagnostics` (`pyNTM/master_model.py:44-132`); the test for routed LSPs is
`lsp.path != "Unrouted"`, so a never-routed LSP (`"Unrouted - initial"`) counts as routed. -/
def State.diagnostics (s : State) : Diag :=
  let wd := s.lsps.filter fun l => decide ((s.lsp l).path ≠ .unrouted) &&
    !(s.dmdsOnLsp l).isEmpty
  let nd := s.lsps.filter fun l => decide ((s.lsp l).path ≠ .unrouted) &&
    (s.dmdsOnLsp l).isEmpty
  let ds := s.dmds.filter fun d => match (s.dmd d).path with
    | none => false
    | some ps => ps.any fun p => p.any fun x => match x with
      | .lsp _ => true
      | .ifc _ => false
  { lspsWithDemands := wd
    lspsNoDemands := nd
    dmdsOnLsps := ds
    nLspsWithDemands := wd.length
    nLspsNoDemands := nd.length
    nDmdsOnLsps := ds.length
    nDmdsNotOnLsps := s.dmds.length - ds.length
    nUnroutedLsps := (s.lsps.filter fun l => (s.lsp l).path = .unrouted).length
    nUnroutedDmds := s.unroutedDmds.length }

/-- `RSVP_LSP.traffic_on_lsp` (`pyNTM/rsvp.py:270-314`). -/
def trafficOnLsp (env : Env) (l : ℕ) : Py ℚ := do
  let groups ← lspGroups env
  let s ← get
  let ds := s.dmdsOnLsp l
  match dictGet groups (pairKey (s.lspSrc l) (s.lspDst l)) with
  | none => raise .keyError
  | some ls => do
    let routed := ls.filter fun l => !(s.lsp l).path.saysUnrouted
    let ms ← liftE (s.effMetrics routed)
    let m ← liftE (pyMin ms.dedup)
    let best := s.withMetric m routed
    match s.kind with
    | .perf => pure ((ds.map fun d => (s.dmd d).traffic).sum / best.length)
    | .flex =>
      if ds.any fun d => (s.dmd d).detail.isNone then raise .attributeError
      else pure ((ds.map fun d => (((s.dmd d).detail.getD []).map fun p =>
        if Item.lsp l ∈ p.items then p.traffic else 0).sum).sum)

end NTM
