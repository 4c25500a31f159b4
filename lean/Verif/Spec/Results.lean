import Verif.Model.Sim
import Verif.Spec.Network

/-!
# Specification vocabulary for the results of a simulation
-/

namespace NTM.Spec

/-- LSP `l` currently has a path -/
def IsRouted (s : State) (l : ℕ) : Prop := ∃ ifs cost headroom, (s.lsp l).path = .routed ifs cost headroom

/-- interface `i` is on the path of LSP `l` -/
def OnPath (s : State) (l i : ℕ) : Prop :=
  ∃ ifs cost headroom, (s.lsp l).path = .routed ifs cost headroom ∧ i ∈ ifs

/-- LSP `l` goes from the node named `a` to the node named `b` -/
def LspBetween (s : State) (a b : String) (l : ℕ) : Prop :=
  l ∈ s.lsps ∧ s.lspSrc l = a ∧ s.lspDst l = b

/-- what LSP `l` reserves on interface `i`: its reserved bandwidth, to one decimal -/
def lspShare (s : State) (i l : ℕ) : ℚ :=
  match (s.lsp l).path, (s.lsp l).reserved with
  | .routed ifs _ _, .val q => if i ∈ ifs then pyRound 1 q else 0
  | _, _ => 0

/-- the collections of the model are sets, interfaces cost at least 1, the two directions of
every circuit have the same failed status, and FlexModel interfaces carry a circuit id -/
structure Tidy (s : State) : Prop where
  nodes : s.nodes.Nodup
  ifs : s.ifs.Nodup
  dmds : s.dmds.Nodup
  lsps : s.lsps.Nodup
  costs : PosCosts s
  ends : EndsAgree s
  ckts : CktIdsSet s

/-- no two interfaces of the model have the same name on the same node -/
def UniqueIfcKeys (s : State) : Prop :=
  ∀ i ∈ s.ifs, ∀ j ∈ s.ifs, s.ifcKey i = s.ifcKey j → i = j

/-- the names of the end points of LSPs and demands -/
def endNames (s : State) : List String :=
  s.lsps.map s.lspSrc ++ s.lsps.map s.lspDst ++ s.dmds.map s.dmdSrc ++ s.dmds.map s.dmdDst

/-- "source-destination" spells the pair of names unambiguously; in particular no end point
of an LSP or a demand has a hyphen in its name -/
def KeysDistinct (s : State) : Prop :=
  ∀ a ∈ endNames s, ∀ b ∈ endNames s, ∀ a' ∈ endNames s, ∀ b' ∈ endNames s,
    a ++ "-" ++ b = a' ++ "-" ++ b' → a = a' ∧ b = b'

/-- the LSPs between two nodes are either all routed or all unrouted -/
def AllOrNone (s : State) : Prop :=
  ∀ l ∈ s.lsps, ∀ l' ∈ s.lsps, s.lspSrc l = s.lspSrc l' → s.lspDst l = s.lspDst l' →
    IsRouted s l → IsRouted s l'

/-- `q` lies exactly halfway between two multiples of 0.1 -/
def RoundingTie (q : ℚ) : Prop := ∃ n : ℤ, q = n / 10 + 1 / 20

/-- total traffic of the demands that share the end points of LSP `l` -/
def groupTraffic (s : State) (l : ℕ) : ℚ :=
  ((s.dmds.filter fun d => s.dmdSrc d = s.lspSrc l ∧ s.dmdDst d = s.lspDst l).map fun d =>
    (s.dmd d).traffic).sum

/-- the LSPs that share the end points of LSP `l` -/
def groupLsps (s : State) (l : ℕ) : List ℕ :=
  s.lsps.filter fun m => s.lspSrc m = s.lspSrc l ∧ s.lspDst m = s.lspDst l

/-- the bandwidth LSP `l` is signalled with: the configured one if there is one, else an
equal share of the traffic of the demands between its end points -/
def setupBandwidth (s : State) (l : ℕ) : ℚ :=
  match (s.lsp l).configured with
  | some c => c
  | none => groupTraffic s l / (groupLsps s l).length

/-- no bandwidth an LSP may be signalled with (initially, or again for the traffic divided by
the number `r` of LSPs of a partly routed group) is a rounding tie -/
def NoTies (s : State) : Prop := ∀ l ∈ s.lsps, ¬ RoundingTie (setupBandwidth s l) ∧
  ∀ r : ℕ, 1 ≤ r → r < (groupLsps s l).length → ¬ RoundingTie (groupTraffic s l / r)

/-- no LSP asks at first for what it would be re-signalled with if only `r` LSPs of its group
were routed (unless that rounds to nothing) -/
def NoCoincidence (s : State) : Prop := ∀ l ∈ s.lsps, ∀ r : ℕ, 1 ≤ r →
  r < (groupLsps s l).length → setupBandwidth s l = groupTraffic s l / r →
  pyRound 1 (setupBandwidth s l) = 0

/-- reservations on every interface add up: its reserved bandwidth is the sum over the LSPs
that cross it of their reserved bandwidth, to one decimal -/
def LedgerBalanced (s : State) : Prop :=
  ∀ i ∈ s.ifs, s.reservedBw i = (s.lsps.map (lspShare s i)).sum

/-- what may be reserved on interface `i`: capacity times `percent_reservable_bandwidth` -/
def reservationLimit (s : State) (i : ℕ) : ℚ := (s.ifc i).capacity * ((s.ifc i).pct / 100)

/-- number of routed LSPs among those that share the end points of `l` -/
def routedInGroup (s : State) (l : ℕ) : ℕ :=
  ((groupLsps s l).filter fun m => (s.lsp m).path ≠ .unrouted).length

/-- demands have non-negative traffic (the constructor enforces it, C61) -/
def NonnegTraffic (s : State) : Prop := ∀ d ∈ s.dmds, 0 ≤ (s.dmd d).traffic

/-- bandwidth still reservable on interface `i` once the LSPs `pre` hold their reservations -/
def reservableAfter (s : State) (pre : List ℕ) (i : ℕ) : ℚ :=
  if (s.ifc i).rsvpEnabled then
    pyRound 1 ((s.ifc i).capacity * ((s.ifc i).pct / 100) - (pre.map (lspShare s i)).sum)
  else -1

/-- interface `i` can take an LSP asking for `bw` once the LSPs `pre` hold their reservations -/
def UsableAfter (s : State) (pre : List ℕ) (bw : ℚ) (i : ℕ) : Prop :=
  i ∈ s.ifs ∧ (s.ifc i).failed = false ∧ (s.ifc i).rsvpEnabled = true ∧
    bw ≤ reservableAfter s pre i

/-- LSP `l`, asking for `bw` after the LSPs `pre`, got what it should: unrouted if no path can
take it, and otherwise a path of least cost and, among those, of fewest hops -/
def Served (s : State) (pre : List ℕ) (bw : ℚ) (l : ℕ) : Prop :=
  ((s.lsp l).path = .unrouted ∧ (s.lsp l).reserved = .unrouted ∧
    ¬ Reachable s.tail s.head (UsableAfter s pre bw) (s.lspSrc l) (s.lspDst l)) ∨
  ∃ p cost headroom, (s.lsp l).path = .routed p cost headroom ∧ (s.lsp l).reserved = .val bw ∧
    CheapestOver s (UsableAfter s pre bw) (s.lspSrc l) p (s.lspDst l) ∧
    (∀ q, CheapestOver s (UsableAfter s pre bw) (s.lspSrc l) q (s.lspDst l) →
      p.length ≤ q.length) ∧
    cost = totalCost (fun i => (s.ifc i).cost) p ∧
    (∀ i ∈ p, headroom ≤ reservableAfter s pre i) ∧ ∃ i ∈ p, headroom = reservableAfter s pre i

end NTM.Spec
