import Verif.Proof.FloatWhole
import Verif.Proof.FloatId
import Verif.Props.Float
import Verif.Props.Total

/-!
# C101: floating point and RSVP signalling
-/

namespace NTM

open Spec

/-- rounding to 53 bits is monotone, keeps whole numbers and is close -/
theorem machine_double : Machine (roundBits 53) where
  mono := roundBits_mono (by norm_num)
  whole n h := roundBits_int n h
  close x := (roundBits_rounding 53).close x

theorem Spec.WholeNumbers.tenths {s : State} (h : WholeNumbers s) : CapacityTenths s := by
  intro i hi
  obtain ⟨n, -, hn⟩ := h.capacity i hi
  exact ⟨n * 10, by rw [hn]; push_cast; ring⟩

theorem withHd_takes {x : LspPath} {h : ℚ} {p : List ℕ} :
    (∃ c k, x.withHd h = .routed p c k) ↔ ∃ c k, x = .routed p c k := by
  cases x <;> simp [LspPath.withHd]

theorem fl_ifs {fl : ℚ → ℚ} {env : Env} {s t : State} (ht : Tidy s)
    (h : updateSimulationFl fl env s = .ok () t) : t.ifs = s.ifs := by
  rcases runs_alike (fl := fl) env ht.ckts with ⟨s3, t3, e1, e2, ha, c1, c2, hcfg⟩ |
    ⟨e, u, v, e1, e2⟩
  · rw [e2] at h
    have he1 : EndsAgree s3 := by
      intro i hi j hj ho
      have hfail : ∀ i, (s3.ifc i).failed = (s.ifc i).failed := by intro i; rw [hcfg.ifc i]
      have htl : ∀ i, s3.tail i = s.tail i := by
        intro i; unfold State.tail; rw [hcfg.ifc i, hcfg.node]
      have hhd : ∀ i, s3.head i = s.head i := by
        intro i; unfold State.head; rw [hcfg.ifc i, hcfg.node]
      rw [hfail, hfail]
      refine ht.ends i (hcfg.ifs ▸ hi) j (hcfg.ifs ▸ hj) ⟨?_, ?_, fun hk => ?_⟩
      · rw [← htl, ← hhd]; exact ho.1
      · rw [← htl, ← hhd]; exact ho.2.1
      · have := ho.2.2 (hcfg.kind.trans hk)
        rwa [hcfg.ifc i, hcfg.ifc j] at this
    have he2 : EndsAgree t3 := by
      have := ha.load.eq
      rw [this]
      exact he1
    obtain ⟨C', B', I', rfl⟩ := validate_still he2 c2 h
    show t3.ifs = s.ifs
    rw [ha.load.eq]
    exact hcfg.ifs
  · rw [e2] at h
    cases h

/-- **C101** The model of the simulation in floating point is the exact one when nothing is
rounded. -/
theorem C101_no_rounding (env : Env) : updateSimulationFull id env = updateSimulation env :=
  full_id env

/-- **C101** When all the numbers given are whole and of moderate size, and neither bandwidths nor
limits are halfway between tenths, `update_simulation()` computing in Python's floating point
completes, and it gives what exact arithmetic gives: every LSP and every demand takes the same
paths, the same interfaces are down, every interface reports the same reserved bandwidth, and
every LSP holds the bandwidth of the exact run rounded to a `float`. -/
theorem C101_whole_numbers (env : Env) {s : State} (hw : WellConfigured s) (hn : WholeNumbers s)
    (ht : NoTies s) (hlim : LimitsOffTies s) (hc : CleanSplits s)
    (hx : NoParallelLsps s ∨ (SingleLinks s ∧ NoCoincidence s)) :
    ∃ s' t', updateSimulation env s = .ok () s' ∧
      updateSimulationFull (roundBits 53) env s = .ok () t' ∧
      (∀ l p, Takes t' l p ↔ Takes s' l p) ∧
      (∀ d, (t'.dmd d).path = (s'.dmd d).path) ∧
      (∀ i, (t'.ifc i).traffic = .down ↔ (s'.ifc i).traffic = .down) ∧
      (∀ i ∈ s.ifs, t'.reservedBw i = s'.reservedBw i) ∧
      ∀ l ∈ s.lsps, ∀ q, (s'.lsp l).reserved = .val q →
        (t'.lsp l).reserved = .val (roundBits 53 q) := by
  obtain ⟨s', hs⟩ := updateSimulation_runs env hw ht (.inl hn.tenths) hx
  obtain ⟨h1, h2⟩ := C92_same_paths (roundBits 53) env hw.tidy
  obtain ⟨u, hu⟩ := h1.1 ⟨s', hs⟩
  obtain ⟨p1, p2, p3⟩ := h2 s' u hs hu
  obtain ⟨o, g1, g2, g3⟩ := whole_runs machine_double hw hn ht hlim hc hx hu
  refine ⟨s', u.gloss o, hs, g1, fun l p => ?_, p1, fun i => (p3 i).1, fun i hi => ?_,
    fun l hl q hq => ?_⟩
  · unfold Takes
    rw [← p2 l]
    exact withHd_takes
  · have hifs : u.ifs = s.ifs := fl_ifs hw.tidy hu
    have := g2 i (hifs ▸ hi)
    unfold State.reservedBw at this ⊢
    rw [← (p3 i).2]
    exact this
  · show o.res l = _
    rw [(g3 l hl).1, p2 l, hq]
    rfl

/-- **C101** In a FlexModel without IGP shortcuts, the load of an interface crossed by `n` paths is
then also that of exact arithmetic, up to `(n + 1) / 2 ^ 52` of it. -/
theorem C101_whole_load (env : Env) {s : State} (hw : WellConfigured s) (hn : WholeNumbers s)
    (ht : NoTies s) (hlim : LimitsOffTies s) (hc : CleanSplits s)
    (hx : NoParallelLsps s ∨ (SingleLinks s ∧ NoCoincidence s)) (hk : s.kind = .flex)
    (hsc : NoShortcuts s) :
    ∃ s' t', updateSimulation env s = .ok () s' ∧
      updateSimulationFull (roundBits 53) env s = .ok () t' ∧
      ∀ i ∈ s.ifs, pathsOver s' i < 2 ^ 52 →
        CloseTo ((pathsOver s' i + 1) / 2 ^ 52) (s'.ifc i).traffic (t'.ifc i).traffic := by
  obtain ⟨s', hs⟩ := updateSimulation_runs env hw ht (.inl hn.tenths) hx
  obtain ⟨u, hu, hload⟩ := C92_double hw.tidy hk hsc hn.nonneg hs
  obtain ⟨o, g1, -⟩ := whole_runs machine_double hw hn ht hlim hc hx hu
  exact ⟨s', u.gloss o, hs, g1, hload⟩

/-! ### Cases that meet the hypotheses -/

/-- `q` is halfway between two tenths -/
def tieB (q : ℚ) : Bool := (q * 20).den == 1 && (q * 20).num % 2 == 1

theorem not_tie_of {q : ℚ} (h : tieB q = false) : ¬ RoundingTie q := by
  rintro ⟨n, rfl⟩
  have e : ((n : ℚ) / 10 + 1 / 20) * 20 = ((2 * n + 1 : ℤ) : ℚ) := by push_cast; ring
  unfold tieB at h
  rw [e, Rat.den_intCast, Rat.num_intCast] at h
  simp only [beq_self_eq_true, Bool.true_and, beq_eq_false_iff_ne, ne_eq] at h
  omega

theorem noTies_ofB {s : State} (h : ∀ l ∈ s.lsps, tieB (setupBandwidth s l) = false ∧
    ∀ r ∈ List.range (groupLsps s l).length, tieB (groupTraffic s l / r) = false) : NoTies s :=
  fun l hl => ⟨not_tie_of (h l hl).1, fun r _ hr =>
    not_tie_of ((h l hl).2 r (List.mem_range.2 hr))⟩

theorem noCoincidence_ofB {s : State} (h : ∀ l ∈ s.lsps, ∀ r ∈ List.range (groupLsps s l).length,
    1 ≤ r → setupBandwidth s l ≠ groupTraffic s l / r) : NoCoincidence s :=
  fun l hl r h1 h2 h3 => absurd h3 (h l hl r (List.mem_range.2 h2) h1)

theorem limits_ofB {s : State} (h : ∀ i ∈ s.ifs, tieB (reservationLimit s i) = false) :
    LimitsOffTies s := fun i hi _ => not_tie_of (h i hi)

theorem cleanSplits_ofB {s : State} (h : ∀ l ∈ s.lsps, ∀ r ∈ List.range (groupLsps s l).length,
    1 ≤ r → ((groupTraffic s l / r - setupBandwidth s l) * 10).den = 1 →
      (groupTraffic s l / r).den = 1 ∧ (setupBandwidth s l).den = 1) : CleanSplits s := by
  rintro l hl r h1 h2 ⟨n, hn⟩
  obtain ⟨a, b⟩ := h l hl r (List.mem_range.2 h2) h1 (by
    rw [hn, div_mul_cancel₀ _ (by norm_num : (10 : ℚ) ≠ 0), Rat.den_intCast])
  exact ⟨⟨_, (Rat.coe_int_num_of_den_eq_one a).symm⟩, _, (Rat.coe_int_num_of_den_eq_one b).symm⟩

theorem whole_of {q : ℚ} (h : q.den = 1 ∧ 0 ≤ q) : ∃ n : ℕ, q = n := by
  refine ⟨q.num.toNat, ?_⟩
  have h1 := Rat.coe_int_num_of_den_eq_one h.1
  have h2 : 0 ≤ q.num := Rat.num_nonneg.2 h.2
  have h3 : (q.num.toNat : ℤ) = q.num := Int.toNat_of_nonneg h2
  calc q = (q.num : ℚ) := h1.symm
    _ = ((q.num.toNat : ℤ) : ℚ) := by rw [h3]
    _ = _ := Int.cast_natCast _

theorem wholeNumbers_of {s : State}
    (h1 : ∀ i ∈ s.ifs, (s.ifc i).capacity.den = 1 ∧ 0 ≤ (s.ifc i).capacity ∧
      (s.ifc i).capacity ≤ 10 ^ 9)
    (h2 : ∀ i ∈ s.ifs, (s.ifc i).pct.den = 1 ∧ 0 ≤ (s.ifc i).pct)
    (h3 : ∀ d ∈ s.dmds, (s.dmd d).traffic.den = 1 ∧ 0 ≤ (s.dmd d).traffic)
    (h4 : (s.dmds.map fun d => (s.dmd d).traffic).sum ≤ 10 ^ 9)
    (h5 : ∀ l ∈ s.lsps, ∀ c ∈ (s.lsp l).configured, c.den = 1 ∧ 0 ≤ c ∧ c ≤ 10 ^ 9)
    (h6 : s.lsps.length ≤ 10000) (h7 : ∀ l ∈ s.lsps, (groupLsps s l).length ≤ 100) :
    WholeNumbers s where
  capacity i hi := by
    obtain ⟨n, hn⟩ := whole_of ⟨(h1 i hi).1, (h1 i hi).2.1⟩
    have := (h1 i hi).2.2
    rw [hn] at this
    exact ⟨n, by exact_mod_cast this, hn⟩
  percent i hi := whole_of (h2 i hi)
  traffic d hd := whole_of (h3 d hd)
  total := h4
  configured l hl c hc := by
    obtain ⟨a, b, e⟩ := h5 l hl c hc
    obtain ⟨n, hn⟩ := whole_of ⟨a, b⟩
    rw [hn] at e
    exact ⟨n, by exact_mod_cast e, hn⟩
  lsps := h6
  groups := h7

/-- two ways from A to C with room for one of three LSPs each; together the LSPs carry 7 -/
def Ex.fork (k : Kind) : State := Ex.mk k
  [{ name := "A" }, { name := "B" }, { name := "C" }, { name := "D" }]
  (Ex.link "ab" 0 1 10 4 1 ++ Ex.link "bc" 1 2 10 4 2 ++ Ex.link "ad" 0 3 10 4 3 ++
    Ex.link "dc" 3 2 10 4 4)
  [{ src := 0, dst := 2, traffic := 7, name := "x" }, { src := 0, dst := 3, traffic := 5, name := "y" }]
  [{ src := 0, dst := 2, name := "l" }, { src := 0, dst := 2, name := "m" },
    { src := 0, dst := 2, name := "n" }] []

theorem fork_whole (k : Kind) : WellConfigured (Ex.fork k) ∧ WholeNumbers (Ex.fork k) ∧
    NoTies (Ex.fork k) ∧ LimitsOffTies (Ex.fork k) ∧ CleanSplits (Ex.fork k) ∧
    SingleLinks (Ex.fork k) ∧ NoCoincidence (Ex.fork k) ∧ NoShortcuts (Ex.fork k) := by
  cases k <;> exact ⟨wellConfigured_of (by decide +kernel), wholeNumbers_of (by decide +kernel)
    (by decide +kernel) (by decide +kernel) (by decide +kernel) (by decide +kernel)
    (by decide +kernel) (by decide +kernel), noTies_ofB (by decide +kernel),
    limits_ofB (by decide +kernel), cleanSplits_ofB (by decide +kernel), by decide +kernel,
    noCoincidence_ofB (by decide +kernel), by decide +kernel⟩

set_option maxRecDepth 20000 in
/-- the first two LSPs are signalled with 7/3 and then again with 7/2, the third stays unrouted -/
example (k : Kind) :
    let s' := finalState (updateSimulation Env.default) (Ex.fork k)
    let t' := finalState (updateSimulationFull (roundBits 53) Env.default) (Ex.fork k)
    raised (updateSimulationFull (roundBits 53) Env.default) (Ex.fork k) = none ∧
    (s'.lsps.map fun l => (s'.lsp l).reserved) = [.val (7 / 2), .val (7 / 2), .unrouted] ∧
    (t'.lsps.map fun l => (t'.lsp l).reserved) = [.val (7 / 2), .val (7 / 2), .unrouted] ∧
    (s'.ifs.map s'.reservedBw) = t'.ifs.map t'.reservedBw := by
  cases k <;> exact ⟨by decide +kernel, by decide +kernel, by decide +kernel, by decide +kernel⟩

/-- one link with a limit of 0.65 (13% of 5) and an LSP that asks for 0.69 -/
def Ex.brink (k : Kind) : State := Ex.mk k [{ name := "A" }, { name := "B" }]
  ((Ex.link "ab" 0 1 10 5 1).map ({ · with pct := 13 })) []
  [{ src := 0, dst := 1, name := "l", configured := some (69 / 100) }] []

/-- **C101** is false when a limit is halfway between two tenths.  In exact arithmetic 0.65 rounds
to 0.6 and the LSP does not fit, in floating point it rounds to 0.7 and the LSP is routed. -/
theorem C101_limit_tie_false (k : Kind) : WellConfigured (Ex.brink k) ∧ NoTies (Ex.brink k) ∧
    NoParallelLsps (Ex.brink k) ∧ SingleLinks (Ex.brink k) ∧
    raised (updateSimulation Env.default) (Ex.brink k) = none ∧
    raised (updateSimulationFull (roundBits 53) Env.default) (Ex.brink k) = none ∧
    ((finalState (updateSimulation Env.default) (Ex.brink k)).lsp 0).path = .unrouted ∧
    Takes (finalState (updateSimulationFull (roundBits 53) Env.default) (Ex.brink k)) 0 [0] := by
  cases k <;> exact ⟨wellConfigured_of (by decide +kernel), noTies_ofB (by decide +kernel),
    by decide +kernel, by decide +kernel, by decide +kernel, by decide +kernel, by decide +kernel,
    10, roundBits 53 (7 / 10), by decide +kernel⟩

/-- one link of which 25.2 may be reserved, and fifteen LSPs that share a demand of 36 -/
def Ex.brim (k : Kind) : State := Ex.mk k [{ name := "A" }, { name := "B" }]
  ((Ex.link "ab" 0 1 10 252 1).map ({ · with pct := 10 }))
  [{ src := 0, dst := 1, traffic := 36, name := "x" }]
  ((List.range 15).map fun n => { src := 0, dst := 1, name := "l" ++ toString n }) []

/-- key collisions need only be excluded for the names that occur -/
theorem wellConfigured_of_names {s : State} (names : List String)
    (h0 : ∀ a ∈ endNames s, a ∈ names)
    (h4 : ∀ a ∈ names, ∀ b ∈ names, ∀ c ∈ names, ∀ d ∈ names, pairKey a b = pairKey c d →
      a = c ∧ b = d)
    (h : wellConfiguredB { s with lsps := [], dmds := [] } = true)
    (h12 : ∀ l ∈ s.lsps, s.lspSrc l ∈ s.nodeNames ∧ s.lspSrc l ≠ s.lspDst l)
    (h13 : ∀ d ∈ s.dmds, s.dmdSrc d ∈ s.nodeNames ∧ s.dmdSrc d ≠ s.dmdDst d)
    (h14 : NonnegTraffic s) (h15 : ∀ l ∈ s.lsps, ∀ c ∈ (s.lsp l).configured, 0 ≤ c)
    (h16 : ∀ l ∈ s.lsps, ∀ m ∈ (s.lsp l).initialMetric, 0 ≤ m) (ht : Tidy s) : WellConfigured s := by
  have w := wellConfigured_of h
  exact ⟨ht, w.nodeNames, w.ifcNames, fun a ha b hb c hc d hd =>
      h4 a (h0 a ha) b (h0 b hb) c (h0 c hc) d (h0 d hd), w.links, w.ids, w.shortcuts, w.heads,
    w.twin, w.capacity, w.percent, h12, h13, h14, h15, h16⟩

set_option maxRecDepth 20000 in
/-- **C101** is false when the bandwidth an LSP may be signalled again with differs by tenths from
the first.  Ten LSPs fit with 2.4 each, and 1.2 is left, so that in exact arithmetic the first can
grow to 36 / 10 = 3.6.  In floating point 1.2 + 2.4 is less than 3.6, and no LSP grows. -/
theorem C101_split_false (k : Kind) : WellConfigured (Ex.brim k) ∧ WholeNumbers (Ex.brim k) ∧
    NoTies (Ex.brim k) ∧ LimitsOffTies (Ex.brim k) ∧ SingleLinks (Ex.brim k) ∧
    NoCoincidence (Ex.brim k) ∧ raised (updateSimulation Env.default) (Ex.brim k) = none ∧
    raised (updateSimulationFull (roundBits 53) Env.default) (Ex.brim k) = none ∧
    ((finalState (updateSimulation Env.default) (Ex.brim k)).lsp 0).reserved = .val (36 / 10) ∧
    ((finalState (updateSimulationFull (roundBits 53) Env.default) (Ex.brim k)).lsp 0).reserved =
      .val (roundBits 53 (24 / 10)) := by
  cases k <;> exact ⟨wellConfigured_of_names ["A", "B"] (by decide +kernel)
    (by decide +kernel) (by decide +kernel) (by decide +kernel) (by decide +kernel)
    (by decide +kernel) (by decide +kernel) (by decide +kernel) (by decide +kernel), wholeNumbers_of (by decide +kernel)
    (by decide +kernel) (by decide +kernel) (by decide +kernel) (by decide +kernel)
    (by decide +kernel) (by decide +kernel), noTies_ofB (by decide +kernel),
    limits_ofB (by decide +kernel), by decide +kernel, noCoincidence_ofB (by decide +kernel),
    by decide +kernel, by decide +kernel, by decide +kernel, by decide +kernel⟩

end NTM
