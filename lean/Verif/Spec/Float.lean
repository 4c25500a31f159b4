import Verif.Spec.Results
import Mathlib.Algebra.Order.Field.Rat
import Mathlib.Algebra.Order.AbsoluteValue.Basic

/-!
# What floating point may change
-/

namespace NTM.Spec

open NTM

/-- rounding with relative error at most `u`; `u = 2⁻⁵³` for a Python `float` -/
structure FloatRounding (u : ℚ) (fl : ℚ → ℚ) : Prop where
  unit : 0 ≤ u
  close : ∀ x, |fl x - x| ≤ u * |x|

/-- how often a path puts traffic on interface `i`: once for each time `i` is on the path, directly
or inside an LSP of the path -/
def timesOver (s : State) (p : List Item) (i : ℕ) : ℕ :=
  (p.map fun x => match x with
    | .ifc j => if i = j then 1 else 0
    | .lsp l => match (s.lsp l).path with
      | .routed ifs _ _ => ifs.count i
      | _ => 0).sum

/-- the number of paths of demands over interface `i` -/
def pathsOver (s : State) (i : ℕ) : ℕ :=
  (s.dmds.map fun d => match (s.dmd d).path with
    | none => 0
    | some ps => (ps.map fun p => timesOver s p i).sum).sum

/-- both interfaces down, or two loads with relative error at most `r` -/
def CloseTo (r : ℚ) : Traffic → Traffic → Prop
  | .down, .down => True
  | .val x, .val y => |y - x| ≤ r * x
  | _, _ => False

/-- the numbers of the model are whole and of moderate size: capacities and configured bandwidths
up to 10 ^ 9, whole percentages, demands of whole traffic adding up to at most 10 ^ 9, at most
10000 LSPs, at most 100 of them between the same nodes -/
structure WholeNumbers (s : State) : Prop where
  capacity : ∀ i ∈ s.ifs, ∃ n : ℕ, n ≤ 10 ^ 9 ∧ (s.ifc i).capacity = n
  percent : ∀ i ∈ s.ifs, ∃ n : ℕ, (s.ifc i).pct = n
  traffic : ∀ d ∈ s.dmds, ∃ n : ℕ, (s.dmd d).traffic = n
  total : (s.dmds.map fun d => (s.dmd d).traffic).sum ≤ 10 ^ 9
  configured : ∀ l ∈ s.lsps, ∀ c, (s.lsp l).configured = some c → ∃ n : ℕ, n ≤ 10 ^ 9 ∧ c = n
  lsps : s.lsps.length ≤ 10000
  groups : ∀ l ∈ s.lsps, (groupLsps s l).length ≤ 100

/-- no limit on reservations is halfway between two tenths -/
def LimitsOffTies (s : State) : Prop :=
  ∀ i ∈ s.ifs, (s.ifc i).rsvpEnabled = true → ¬ RoundingTie (reservationLimit s i)

/-- when the bandwidth an LSP may be signalled again with differs from the first by a whole number
of tenths, both are whole numbers -/
def CleanSplits (s : State) : Prop := ∀ l ∈ s.lsps, ∀ r : ℕ, 1 ≤ r → r < (groupLsps s l).length →
  (∃ n : ℤ, groupTraffic s l / r - setupBandwidth s l = n / 10) →
  (∃ n : ℤ, groupTraffic s l / r = n) ∧ ∃ n : ℤ, setupBandwidth s l = n

/-- LSP `l` is routed over the interfaces `p` -/
def Takes (s : State) (l : ℕ) (p : List ℕ) : Prop := ∃ c h, (s.lsp l).path = .routed p c h

end NTM.Spec
