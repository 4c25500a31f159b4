import Verif.Spec.Same

/-!
# Specification vocabulary: what a simulation may depend on
-/

namespace NTM.Spec

/-- `s` and `t` have the same configuration and differ at most in what earlier simulations
leave behind: demand paths and path details, LSP paths, reservations and set-up bandwidths,
interface traffic and reservations, circuits, cached LSP groups, and — in a PerformanceModel,
which numbers circuits itself — circuit ids.  The SRLGs may differ in any way (the failed states of
interfaces and nodes may not).  Objects outside the model have the same paths,
traffic and reservations. -/
structure SameConfig (s t : State) : Prop where
  rest : t = { s with
    ifc := t.ifc, dmd := t.dmd, lsp := t.lsp, circuits := t.circuits, groups := t.groups
    srlg := t.srlg, srlgs := t.srlgs }
  ifc : ∀ i ∈ s.ifs, t.ifc i = { s.ifc i with
    traffic := (t.ifc i).traffic, reservedRaw := (t.ifc i).reservedRaw
    cktId := (t.ifc i).cktId, inCkt := (t.ifc i).inCkt }
  ids : s.kind = .flex → ∀ i ∈ s.ifs, (t.ifc i).cktId = (s.ifc i).cktId
  dmd : ∀ d ∈ s.dmds, t.dmd d = { s.dmd d with
    path := (t.dmd d).path, detail := (t.dmd d).detail }
  lsp : ∀ l ∈ s.lsps, t.lsp l = { s.lsp l with
    path := (t.lsp l).path, reserved := (t.lsp l).reserved, setup := (t.lsp l).setup }
  outside : (∀ i, i ∉ s.ifs → t.ifc i = { s.ifc i with
      cktId := (t.ifc i).cktId, inCkt := (t.ifc i).inCkt }) ∧
    (∀ d, d ∉ s.dmds → t.dmd d = { s.dmd d with detail := (t.dmd d).detail }) ∧
    ∀ l, l ∉ s.lsps → t.lsp l = { s.lsp l with
      reserved := (t.lsp l).reserved, setup := (t.lsp l).setup }

/-- the two models show the same simulation results: paths, details of routed demands, traffic,
reservations, failure states, circuits, and the same use of the random generator -/
structure SameResults (s t : State) : Prop where
  dmds : t.dmds = s.dmds
  ifs : t.ifs = s.ifs
  lsps : t.lsps = s.lsps
  path : ∀ d ∈ s.dmds, (t.dmd d).path = (s.dmd d).path
  detail : ∀ d ∈ s.dmds, (s.dmd d).path ≠ none → (t.dmd d).detail = (s.dmd d).detail
  traffic : ∀ i ∈ s.ifs, (t.ifc i).traffic = (s.ifc i).traffic
  reserved : ∀ i ∈ s.ifs, (t.ifc i).reservedRaw = (s.ifc i).reservedRaw
  failed : ∀ i ∈ s.ifs, (t.ifc i).failed = (s.ifc i).failed
  lspPath : ∀ l ∈ s.lsps, (t.lsp l).path = (s.lsp l).path
  lsp : ∀ l ∈ s.lsps, (s.lsp l).path.saysUnrouted = false → t.lsp l = s.lsp l
  circuits : t.circuits = s.circuits
  draws : t.rngPos = s.rngPos

/-- both calls return, with the same results, or both raise the same exception -/
def SameOutcome (r r' : EStateM.Result Exn State Unit) : Prop :=
  match r, r' with
  | .ok _ s, .ok _ t => SameResults s t
  | .error e _, .error e' _ => e = e'
  | _, _ => False

end NTM.Spec
