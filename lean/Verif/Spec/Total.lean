import Verif.Spec.Results

/-!
# Well-formed models

What a user has to get right before a simulation.  Every clause is about what was configured,
none about results.
-/

namespace NTM.Spec

/-- a well-formed model -/
structure WellConfigured (s : State) : Prop where
  /-- collections without duplicates, costs at least 1, circuits up or down as a whole, circuit
  ids present -/
  tidy : Tidy s
  /-- node names are unique -/
  nodeNames : s.nodeNames.Nodup
  /-- interface names are unique on their node -/
  ifcNames : UniqueIfcKeys s
  /-- "source-destination" spells the end points of LSPs and demands unambiguously -/
  keys : KeysDistinct s
  /-- a PerformanceModel has no parallel links (the names of the ends are joined by a hyphen) -/
  links : s.kind = .perf → ∀ i ∈ s.ifs, ∀ j ∈ s.ifs,
    s.tail i ++ "-" ++ s.head i = s.tail j ++ "-" ++ s.head j → i = j
  /-- in a FlexModel, the circuit id tells parallel links apart -/
  ids : s.kind = .flex → ∀ i ∈ s.ifs, ∀ j ∈ s.ifs, s.tail i = s.tail j → s.head i = s.head j →
    (s.ifc i).cktId = (s.ifc j).cktId → i = j
  /-- a PerformanceModel has no IGP shortcuts -/
  shortcuts : s.kind = .perf → NoShortcuts s
  /-- interfaces lead to nodes of the model -/
  heads : ∀ i ∈ s.ifs, s.head i ∈ s.nodeNames
  /-- every interface has its opposite direction, with the same capacity and RSVP setting -/
  twin : ∀ i ∈ s.ifs, ∃ j ∈ s.ifs, Opposite s i j ∧ (s.ifc i).capacity = (s.ifc j).capacity ∧
    (s.ifc i).rsvpEnabled = (s.ifc j).rsvpEnabled
  /-- capacities are not negative -/
  capacity : ∀ i ∈ s.ifs, 0 ≤ (s.ifc i).capacity
  /-- between 0 and 100 percent of the capacity is reservable -/
  percent : ∀ i ∈ s.ifs, 0 ≤ (s.ifc i).pct ∧ (s.ifc i).pct ≤ 100
  /-- LSPs lead from a node of the model to another node -/
  lspEnds : ∀ l ∈ s.lsps, s.lspSrc l ∈ s.nodeNames ∧ s.lspSrc l ≠ s.lspDst l
  /-- demands lead from a node of the model to another node -/
  dmdEnds : ∀ d ∈ s.dmds, s.dmdSrc d ∈ s.nodeNames ∧ s.dmdSrc d ≠ s.dmdDst d
  /-- demands have non-negative traffic -/
  traffic : NonnegTraffic s
  /-- configured setup bandwidths are not negative -/
  setup : ∀ l ∈ s.lsps, ∀ c ∈ (s.lsp l).configured, 0 ≤ c
  /-- configured metrics are not negative -/
  metric : ∀ l ∈ s.lsps, ∀ m ∈ (s.lsp l).initialMetric, 0 ≤ m

/-- the capacity of every interface is a multiple of 0.1 -/
def CapacityTenths (s : State) : Prop := ∀ i ∈ s.ifs, ∃ n : ℤ, (s.ifc i).capacity = n / 10

/-- no two LSPs share both end points -/
def NoParallelLsps (s : State) : Prop :=
  ∀ l ∈ s.lsps, ∀ m ∈ s.lsps, s.lspSrc l = s.lspSrc m → s.lspDst l = s.lspDst m → l = m

end NTM.Spec
