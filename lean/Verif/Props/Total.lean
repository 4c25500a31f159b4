import Verif.Proof.SimTotal
import Verif.Props.Routing

/-!
# C56: `update_simulation` succeeds on well-formed models
-/

namespace NTM

open Spec

/-- **C56** On a well-formed model whose capacities are multiples of 0.1 and without rounding
ties in the reservations, `update_simulation()` raises nothing, whatever the order of the
collections and the random choices, if no two LSPs share both end points, or if there are no
parallel links and no LSP may be re-signalled for the bandwidth it asked for at first.

Partial: the last two conditions and the one on the capacities are not in the English claim;
without them it is false (`C56_parallel_lsps_false`, `C56_fine_capacity_false`).  Nor is it said
there that both ends of a circuit agree on RSVP (`WellConfigured.twin`, `C56_rsvp_false`). -/
theorem C56_update_succeeds_partial (env : Env) {s : State} (h : WellConfigured s) (htie : NoTies s)
    (hten : CapacityTenths s) (hx : NoParallelLsps s ∨ (SingleLinks s ∧ NoCoincidence s)) :
    ∃ t, updateSimulation env s = .ok () t := updateSimulation_runs env h htie (.inl hten) hx

/-- **C56** Without LSPs, every well-formed model simulates: capacities, parallel links and
rounding do not matter. -/
theorem C56_update_succeeds_without_lsps (env : Env) {s : State} (h : WellConfigured s)
    (hl : s.lsps = []) : ∃ t, updateSimulation env s = .ok () t :=
  updateSimulation_runs env h (by intro l hm; rw [hl] at hm; cases hm) (.inr hl)
    (.inl (by intro l hm; rw [hl] at hm; cases hm))

instance (s : State) : Decidable (UniqueIfcKeys s) := by unfold UniqueIfcKeys; infer_instance
instance (s : State) (i j : ℕ) : Decidable (Opposite s i j) := by unfold Opposite; infer_instance
instance (s : State) : Decidable (NoParallelLsps s) := by unfold NoParallelLsps; infer_instance

/-- the clauses of `WellConfigured`, for evaluation on examples -/
def wellConfiguredB (s : State) : Bool :=
  decide (Tidy s) && decide s.nodeNames.Nodup && decide (UniqueIfcKeys s) &&
  decide (KeysDistinct s) &&
  decide (s.kind = .perf → ∀ i ∈ s.ifs, ∀ j ∈ s.ifs,
    s.tail i ++ "-" ++ s.head i = s.tail j ++ "-" ++ s.head j → i = j) &&
  decide (s.kind = .flex → ∀ i ∈ s.ifs, ∀ j ∈ s.ifs, s.tail i = s.tail j → s.head i = s.head j →
    (s.ifc i).cktId = (s.ifc j).cktId → i = j) &&
  decide (s.kind = .perf → NoShortcuts s) && decide (∀ i ∈ s.ifs, s.head i ∈ s.nodeNames) &&
  decide (∀ i ∈ s.ifs, ∃ j ∈ s.ifs, Opposite s i j ∧ (s.ifc i).capacity = (s.ifc j).capacity ∧
    (s.ifc i).rsvpEnabled = (s.ifc j).rsvpEnabled) &&
  decide (∀ i ∈ s.ifs, 0 ≤ (s.ifc i).capacity) &&
  decide (∀ i ∈ s.ifs, 0 ≤ (s.ifc i).pct ∧ (s.ifc i).pct ≤ 100) &&
  decide (∀ l ∈ s.lsps, s.lspSrc l ∈ s.nodeNames ∧ s.lspSrc l ≠ s.lspDst l) &&
  decide (∀ d ∈ s.dmds, s.dmdSrc d ∈ s.nodeNames ∧ s.dmdSrc d ≠ s.dmdDst d) &&
  decide (NonnegTraffic s) && decide (∀ l ∈ s.lsps, ∀ c ∈ (s.lsp l).configured, 0 ≤ c) &&
  decide (∀ l ∈ s.lsps, ∀ m ∈ (s.lsp l).initialMetric, 0 ≤ m)

theorem wellConfigured_of {s : State} (h : wellConfiguredB s = true) : WellConfigured s := by
  unfold wellConfiguredB at h
  simp only [Bool.and_eq_true, decide_eq_true_eq] at h
  obtain ⟨⟨⟨⟨⟨⟨⟨⟨⟨⟨⟨⟨⟨⟨⟨h1, h2⟩, h3⟩, h4⟩, h5⟩, h6⟩, h7⟩, h8⟩, h9⟩, h10⟩, h11⟩, h12⟩, h13⟩, h14⟩,
    h15⟩, h16⟩ := h
  exact ⟨h1, h2, h3, h4, h5, h6, h7, h8, h9, h10, h11, h12, h13, h14, h15, h16⟩

theorem tenths_of {s : State} (h : ∀ i ∈ s.ifs, ((s.ifc i).capacity * 10).den = 1) :
    CapacityTenths s := by
  intro i hi
  refine ⟨((s.ifc i).capacity * 10).num, ?_⟩
  rw [Rat.coe_int_num_of_den_eq_one (h i hi)]
  ring

/-- no ties when everything is a whole number and at most two LSPs are parallel -/
theorem noTies_of {s : State} (h : ∀ l ∈ s.lsps, (groupLsps s l).length ≤ 2 ∧
    setupBandwidth s l = (setupBandwidth s l).num ∧ groupTraffic s l = (groupTraffic s l).num) :
    NoTies s := by
  intro l hl
  obtain ⟨h1, h2, h3⟩ := h l hl
  refine ⟨by rw [h2]; exact not_roundingTie_int _, fun r hr hr' => ?_⟩
  have : r = 1 := by omega
  subst this
  rw [h3, Nat.cast_one, div_one]
  exact not_roundingTie_int _

theorem noCoincidence_of {s : State} (h : ∀ l ∈ s.lsps, (groupLsps s l).length ≤ 2 ∧
    ¬ setupBandwidth s l = groupTraffic s l / (1 : ℕ)) : NoCoincidence s := by
  intro l hl r h1 h2 h3
  have := (h l hl).1
  have : r = 1 := by omega
  subst this
  exact absurd h3 (h l hl).2

/-- the diamond (parallel LSPs, one of them unroutable LSPs) meets the hypotheses -/
example (k : Kind) : WellConfigured (Ex.diamond k) ∧ NoTies (Ex.diamond k) ∧
    CapacityTenths (Ex.diamond k) ∧ SingleLinks (Ex.diamond k) ∧ NoCoincidence (Ex.diamond k) := by
  cases k <;> exact ⟨wellConfigured_of (by decide +kernel), noTies_of (by decide +kernel),
    tenths_of (by decide +kernel), by decide +kernel, noCoincidence_of (by decide +kernel)⟩

/-- so do parallel links with one LSP per pair of nodes, a failed circuit and a node with IGP
shortcuts -/
def Ex.harbour : State := Ex.mk .flex
  [{ name := "A", shortcuts := true }, { name := "B" }, { name := "C" }]
  (Ex.link "p" 0 1 10 100 1 ++ Ex.link "q" 0 1 10 100 2 ++ Ex.link "r" 0 1 15 100 3 ++
    Ex.link "u" 1 2 7 100 4 ++ (Ex.link "v" 1 2 7 100 5).map ({ · with failed := true }))
  [{ src := 0, dst := 2, traffic := 12, name := "x" }, { src := 1, dst := 2, traffic := 5, name := "y" }]
  [{ src := 0, dst := 1, name := "l", configured := some 7 }, { src := 1, dst := 2, name := "m" }] []

example : WellConfigured Ex.harbour ∧ NoTies Ex.harbour ∧ CapacityTenths Ex.harbour ∧
    NoParallelLsps Ex.harbour ∧ ¬ SingleLinks Ex.harbour ∧ ¬ NoShortcuts Ex.harbour :=
  ⟨wellConfigured_of (by decide +kernel), noTies_of (by decide +kernel), tenths_of (by decide +kernel),
    by decide +kernel, by decide +kernel, by decide +kernel⟩

/-- the model of parallel links (C02) has no LSPs -/
example : WellConfigured Ex.bundle ∧ Ex.bundle.lsps = [] ∧ ¬ SingleLinks Ex.bundle :=
  ⟨wellConfigured_of (by decide +kernel), rfl, by decide +kernel⟩

/-- **C56** is false when one of two parallel LSPs does not fit: re-optimising the other one may
move it without moving its reservation, and validation raises. -/
theorem C56_parallel_lsps_false (k : Kind) : WellConfigured (Ex.flap k) ∧ NoTies (Ex.flap k) ∧
    CapacityTenths (Ex.flap k) ∧ SingleLinks (Ex.flap k) ∧
    raised (validate Ex.coin) (Ex.flap k) = none ∧
    raised (updateSimulation Ex.coin) (Ex.flap k) =
      some (.model "network interface validation failed, see returned data") := by
  cases k <;> exact ⟨wellConfigured_of (by decide +kernel), noTies_of (by decide +kernel),
    tenths_of (by decide +kernel), by decide +kernel, by decide +kernel, by decide +kernel⟩

/-- one link of capacity 10.06 and an LSP that asks for all of it -/
def Ex.snug (k : Kind) : State := Ex.mk k
  [{ name := "A" }, { name := "B" }] (Ex.link "ab" 0 1 10 (503 / 50) 1) []
  [{ src := 0, dst := 1, name := "l", configured := some (503 / 50) }] []

theorem snug_noTies (k : Kind) : NoTies (Ex.snug k) := by
  have h0 : ∀ l ∈ (Ex.snug k).lsps, (groupLsps (Ex.snug k) l).length = 1 ∧
      setupBandwidth (Ex.snug k) l = 503 / 50 := by
    cases k <;> decide +kernel
  intro l hl
  obtain ⟨h1, h2⟩ := h0 l hl
  refine ⟨?_, fun r hr hr' => by omega⟩
  rw [h2]
  rintro ⟨n, hn⟩
  have : (1006 : ℚ) = 10 * n + 5 := by linarith
  have : (1006 : ℤ) = 10 * n + 5 := by exact_mod_cast this
  omega

/-- **C56** is false when a capacity is not a multiple of 0.1: the LSP fits exactly, but its
reservation is rounded up past the capacity, and validation raises. -/
theorem C56_fine_capacity_false (k : Kind) : WellConfigured (Ex.snug k) ∧ NoTies (Ex.snug k) ∧
    NoParallelLsps (Ex.snug k) ∧ raised (validate Env.default) (Ex.snug k) = none ∧
    raised (updateSimulation Env.default) (Ex.snug k) =
      some (.model "network interface validation failed, see returned data") := by
  cases k <;> exact ⟨wellConfigured_of (by decide +kernel), snug_noTies _, by decide +kernel,
    by decide +kernel, by decide +kernel⟩

/-- one link with RSVP disabled in one direction -/
def Ex.lopsided (k : Kind) : State := Ex.mk k
  [{ name := "A" }, { name := "B" }]
  ((Ex.link "ab" 0 1 10 100 1).mapIdx fun n i => { i with rsvpEnabled := n == 0 }) [] [] []

/-- **C56** is false when only one direction of a circuit is RSVP-enabled: the other one is not
found when circuits are matched. -/
theorem C56_rsvp_false (k : Kind) : Tidy (Ex.lopsided k) ∧
    (∀ i ∈ (Ex.lopsided k).ifs, ∃ j ∈ (Ex.lopsided k).ifs, Opposite (Ex.lopsided k) i j ∧
      ((Ex.lopsided k).ifc i).capacity = ((Ex.lopsided k).ifc j).capacity) ∧
    (Ex.lopsided k).nodeNames.Nodup ∧ UniqueIfcKeys (Ex.lopsided k) ∧ SingleLinks (Ex.lopsided k) ∧
    (Ex.lopsided k).lsps = [] ∧ (Ex.lopsided k).dmds = [] ∧
    raised (updateSimulation Env.default) (Ex.lopsided k) ≠ none := by
  cases k <;> exact ⟨by decide +kernel, by decide +kernel, by decide +kernel, by decide +kernel,
    by decide +kernel, rfl, rfl, by decide +kernel⟩

end NTM
