import Verif.Spec.Results

/-!
# Which models are valid

Reads `validate_model()` as a list of rules on the configuration.
-/

namespace NTM.Spec

/-- the bandwidth the route of LSP `l` books on the interface with the node and name of `i` -/
def booked (s : State) (l i : ℕ) : ℚ :=
  match (s.lsp l).path, (s.lsp l).reserved with
  | .routed hops _ _, .val q => (hops.countP fun j => s.ifcKey j = s.ifcKey i) * pyRound 1 q
  | _, _ => 0

/-- LSP `l` has no route, or a route over interfaces of the model for which it holds a
bandwidth -/
def RouteFits (s : State) (l : ℕ) : Prop :=
  match (s.lsp l).path with
  | .initial => True
  | .unrouted => True
  | .blank => False
  | .routed hops _ _ => hops = [] ∨
      (∃ q, (s.lsp l).reserved = .val q) ∧ ∀ i ∈ hops, ∃ j ∈ s.ifs, s.ifcKey j = s.ifcKey i

/-- the rules of `validate_model()` -/
structure Accepted (s : State) : Prop where
  /-- node names are unique -/
  names : s.nodeNames.Nodup
  /-- no interface reserves more than its capacity -/
  within : ∀ i ∈ s.ifs, s.reservedBw i ≤ (s.ifc i).capacity
  /-- LSP routes make sense -/
  signalled : ∀ l ∈ s.lsps, RouteFits s l
  /-- reserved is what the LSPs hold -/
  booked : ∀ i ∈ s.ifs, s.reservedBw i = pyRound 1 (s.lsps.map fun l => booked s l i).sum
  /-- a PerformanceModel has no IGP shortcuts -/
  shortcuts : s.kind = .perf → NoShortcuts s
  /-- a PerformanceModel has no parallel links (the names of the ends are joined by a hyphen) -/
  links : s.kind = .perf → ∀ i ∈ s.ifs, ∀ j ∈ s.ifs,
    s.tail i ++ "-" ++ s.head i = s.tail j ++ "-" ++ s.head j → i = j
  /-- in a FlexModel, the circuit id of an RSVP interface differs from those of parallel ones -/
  ids : s.kind = .flex → ∀ i ∈ s.ifs, 0 ≤ s.reservable i → ∀ j ∈ s.ifs, s.tail i = s.tail j →
    s.head i = s.head j → (s.ifc i).cktId = (s.ifc j).cktId → i = j
  /-- opposite an RSVP interface there is some RSVP interface -/
  back : ∀ i ∈ s.ifs, 0 ≤ s.reservable i →
    ∃ j ∈ s.ifs, 0 ≤ s.reservable j ∧ s.tail j = s.head i ∧ s.head j = s.tail i
  /-- exactly one interface makes up a circuit with an RSVP interface; it has the same
  capacity -/
  twin : ∀ i ∈ s.ifs, 0 ≤ s.reservable i → ∃ j ∈ s.ifs, Opposite s i j ∧
    (s.ifc i).capacity = (s.ifc j).capacity ∧ ∀ k ∈ s.ifs, Opposite s i k → k = j

end NTM.Spec
