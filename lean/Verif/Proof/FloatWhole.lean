import Verif.Proof.FloatSim
import Verif.Proof.FloatNum
import Verif.Spec.Float

/-!
# Whole numbers are handled as if exactly
-/

namespace NTM

open Spec

section
variable {s : State} {fl : ℚ → ℚ} {env : Env}

theorem sum_whole {qs : List ℚ} (h : ∀ q ∈ qs, ∃ n : ℕ, q = n) : ∃ n : ℕ, qs.sum = n := by
  induction qs with
  | nil => exact ⟨0, by simp⟩
  | cons a as ih =>
    obtain ⟨n, hn⟩ := ih fun q hq => h q (by simp [hq])
    obtain ⟨m, hm⟩ := h a (by simp)
    exact ⟨m + n, by rw [List.sum_cons, hn, hm]; push_cast; rfl⟩

theorem filter_sum_le (f : ℕ → ℚ) (p : ℕ → Bool) : ∀ (ds : List ℕ), (∀ d ∈ ds, 0 ≤ f d) →
    ((ds.filter p).map f).sum ≤ (ds.map f).sum
  | [], _ => by simp
  | d :: ds, h => by
    have ih := filter_sum_le f p ds fun x hx => h x (by simp [hx])
    have h0 := h d (by simp)
    by_cases hp : p d = true
    · rw [List.filter_cons_of_pos hp, List.map_cons, List.map_cons, List.sum_cons, List.sum_cons]
      linarith
    · rw [List.filter_cons_of_neg (by simpa using hp), List.map_cons, List.sum_cons]
      linarith

theorem Spec.WholeNumbers.nonneg (h : WholeNumbers s) : NonnegTraffic s := by
  intro d hd
  obtain ⟨n, hn⟩ := h.traffic d hd
  rw [hn]
  exact Nat.cast_nonneg n

theorem Spec.WholeNumbers.group (h : WholeNumbers s) (l : ℕ) :
    ∃ n : ℕ, groupTraffic s l = n ∧ (n : ℚ) ≤ 10 ^ 9 := by
  obtain ⟨n, hn⟩ : ∃ n : ℕ, groupTraffic s l = n := by
    refine sum_whole fun q hq => ?_
    obtain ⟨d, hd, rfl⟩ := List.mem_map.1 hq
    exact h.traffic d (List.mem_filter.1 hd).1
  refine ⟨n, hn, ?_⟩
  rw [← hn]
  exact (filter_sum_le _ _ _ h.nonneg).trans h.total

theorem div_small {n : ℕ} {k : ℕ} (h : (n : ℚ) ≤ 10 ^ 9) (hk : 1 ≤ k) :
    0 ≤ (n : ℚ) / k ∧ (n : ℚ) / k ≤ 10 ^ 9 := by
  have hk' : (1 : ℚ) ≤ k := by exact_mod_cast hk
  have hn : (0 : ℚ) ≤ n := Nat.cast_nonneg n
  refine ⟨by positivity, ?_⟩
  rw [div_le_iff₀ (by linarith)]
  nlinarith

theorem mem_groupLsps {l : ℕ} (hl : l ∈ s.lsps) : 1 ≤ (groupLsps s l).length := by
  refine List.length_pos_of_mem (a := l) ?_
  unfold groupLsps
  simp [hl]

theorem Spec.WholeNumbers.setup (h : WholeNumbers s) {l : ℕ} (hl : l ∈ s.lsps) :
    ∃ k : ℕ, 1 ≤ k ∧ k ≤ 100 ∧ Frac k (setupBandwidth s l) ∧ 0 ≤ setupBandwidth s l ∧
      setupBandwidth s l ≤ 10 ^ 9 := by
  unfold setupBandwidth
  cases hc : (s.lsp l).configured with
  | some c =>
    obtain ⟨n, hn, rfl⟩ := h.configured l hl c hc
    refine ⟨1, le_rfl, by norm_num, by simpa using Frac.one n, Nat.cast_nonneg n, ?_⟩
    show (n : ℚ) ≤ _
    exact_mod_cast hn
  | none =>
    obtain ⟨n, hn, hb⟩ := h.group l
    have h1 := mem_groupLsps hl
    refine ⟨_, h1, h.groups l hl, ?_⟩
    simp only [hn]
    exact ⟨by simpa using Frac.div n h1, div_small hb h1⟩

theorem Spec.WholeNumbers.share (h : WholeNumbers s) {l : ℕ} (hl : l ∈ s.lsps) {r : ℕ} (h1 : 1 ≤ r)
    (hr : r < (groupLsps s l).length) :
    r ≤ 100 ∧ Frac r (groupTraffic s l / r) ∧ 0 ≤ groupTraffic s l / r ∧
      groupTraffic s l / r ≤ 10 ^ 9 := by
  obtain ⟨n, hn, hb⟩ := h.group l
  have := h.groups l hl
  refine ⟨by omega, ?_⟩
  rw [hn]
  exact ⟨by simpa using Frac.div n h1, div_small hb h1⟩

theorem asked_whole (hw : WholeNumbers s) (hk : KeysDistinct s) {l : ℕ} (hl : l ∈ s.lsps) :
    askedBw s.resetSim (shareOf env s.resetSim l) l = setupBandwidth s l := by
  rw [asked_eq ((cfg_resetSim s).keysDistinct hk) ((cfg_resetSim s).nonneg hw.nonneg) hl,
    (cfg_resetSim s).setupBandwidth]

theorem total_whole (hk : KeysDistinct s) {l : ℕ} (hl : l ∈ s.lsps) :
    totalFor env s.resetSim l = groupTraffic s l := by
  rw [totalFor_eq ((cfg_resetSim s).keysDistinct hk) hl, (cfg_resetSim s).groupTraffic]

theorem peers_whole (l : ℕ) : s.resetSim.peers l = groupLsps s l := by
  rw [peers_eq, (cfg_resetSim s).groupLsps]

/-- what is signalled -/
theorem signals_whole (hw : WholeNumbers s) (hk : KeysDistinct s) (ht : NoTies s) {b : ℚ}
    (h : Signals env s.resetSim b) :
    ∃ k : ℕ, 1 ≤ k ∧ k ≤ 100 ∧ Frac k b ∧ 0 ≤ b ∧ b ≤ 10 ^ 9 ∧ ¬ Tie 1 b := by
  rcases h with rfl | ⟨l, hl, rfl | ⟨r, h1, hr, rfl⟩⟩
  · refine ⟨1, le_rfl, by norm_num, by simpa using Frac.one 0, le_rfl, by norm_num, ?_⟩
    rintro ⟨n, hn⟩
    have : (2 * n + 1 : ℚ) = 0 := by linarith
    have : (2 * n + 1 : ℤ) = 0 := by exact_mod_cast this
    omega
  · have hl' : l ∈ s.lsps := hl
    rw [asked_whole hw hk hl']
    obtain ⟨k, a1, a2, a3, a4, a5⟩ := hw.setup hl'
    exact ⟨k, a1, a2, a3, a4, a5, fun h => (ht l hl').1 ((tie_iff _).1 h)⟩
  · have hl' : l ∈ s.lsps := hl
    rw [peers_whole] at hr
    rw [total_whole hk hl']
    obtain ⟨a2, a3, a4, a5⟩ := hw.share hl' h1 hr
    exact ⟨r, h1, a2, a3, a4, a5, fun h => (ht l hl').2 r h1 hr ((tie_iff _).1 h)⟩

theorem tie_add {T b : ℚ} (hT : Decimal 1 T) (h : ¬ Tie 1 b) : ¬ Tie 1 (T + b) := by
  rintro ⟨n, hn⟩
  obtain ⟨m, rfl⟩ := hT
  exact h ⟨n - m, by push_cast; linarith⟩

theorem frac_div_le {k D : ℕ} (h1 : 1 ≤ k) (h2 : k ≤ D) : 1 / (D : ℚ) ≤ 1 / k := by
  have : (0 : ℚ) < k := by exact_mod_cast h1
  exact one_div_le_one_div_of_le this (by exact_mod_cast h2)

theorem reset_capacity (i : ℕ) : (s.resetSim.ifc i).capacity = (s.ifc i).capacity := by
  rw [(cfg_resetSim s).ifc i]

theorem reset_pct (i : ℕ) : (s.resetSim.ifc i).pct = (s.ifc i).pct := by
  rw [(cfg_resetSim s).ifc i]

theorem reset_rsvp (i : ℕ) : (s.resetSim.ifc i).rsvpEnabled = (s.ifc i).rsvpEnabled := by
  rw [(cfg_resetSim s).ifc i]

theorem reset_ceiling (i : ℕ) :
    s.resetSim.ceiling i = (s.ifc i).capacity * ((s.ifc i).pct / 100) := by
  unfold State.ceiling
  rw [reset_capacity, reset_pct]

theorem reset_traffic (d : ℕ) : (s.resetSim.dmd d).traffic = (s.dmd d).traffic := by
  rw [(cfg_resetSim s).dmd d]

variable (hm : Machine fl)
include hm

/-- rounding the sum of a reservation and a bandwidth -/
theorem plus_whole {k : ℕ} {T b : ℚ} (h1 : 1 ≤ k) (h2 : k ≤ 100) (hb : Frac k b)
    (hs : |b| ≤ 10 ^ 9) (ht : ¬ Tie 1 b) (hT : Decimal 1 T) (hK : |T| ≤ 3 * 10 ^ 9) :
    pyRound 1 (fl (fl T + fl b)) = pyRound 1 (T + b) := by
  have a1 := hm.near (x := T) (by linarith)
  have a2 := hm.near (x := b) (by linarith)
  rw [abs_le] at a1 a2 hs hK
  have a3 := hm.near (x := fl T + fl b) (by
    rw [abs_le]; constructor <;> linarith [a1.1, a1.2, a2.1, a2.2, hs.1, hs.2, hK.1, hK.2])
  rw [abs_le] at a3
  refine Frac.round (D := 20 * k) ?_ (by omega) ⟨k, rfl⟩ (tie_add hT ht) ?_
  · refine Frac.add ?_ (hb.mul_left 20)
    have := (hT.frac.mul_left 2).mul_right k
    simpa using this
  · refine lt_of_lt_of_le ?_ (frac_div_le (D := 2000) (by omega) (by omega))
    rw [abs_lt]
    constructor <;> norm_num <;> linarith [a1.1, a1.2, a2.1, a2.2, a3.1, a3.2]

theorem self_whole {k : ℕ} {b : ℚ} (h1 : 1 ≤ k) (h2 : k ≤ 100) (hb : Frac k b)
    (hs : |b| ≤ 10 ^ 9) (ht : ¬ Tie 1 b) : pyRound 1 (fl b) = pyRound 1 b := by
  have a2 := hm.near (x := b) (by linarith)
  refine Frac.round (D := 20 * k) (hb.mul_left 20) (by omega) ⟨k, rfl⟩ ht ?_
  refine lt_of_lt_of_le ?_ (frac_div_le (D := 2000) (by omega) (by omega))
  refine lt_of_le_of_lt a2 (by norm_num)

omit hm in
/-- comparing values that are the same or well apart -/
theorem le_whole {x y x' y' g e : ℚ} (hg : x ≠ y → g ≤ |x - y|) (hx : |x' - x| ≤ e)
    (hy : |y' - y| ≤ e) (he : 2 * e < g) (heq : x = y → x' ≤ y') : x' ≤ y' ↔ x ≤ y := by
  rw [abs_le] at hx hy
  by_cases h : x = y
  · exact ⟨fun _ => h.le, fun _ => heq h⟩
  · have hg := hg h
    rcases le_total x y with hxy | hxy
    · rw [abs_of_nonpos (by linarith)] at hg
      exact ⟨fun _ => hxy, fun _ => by linarith [hx.2, hy.1]⟩
    · rw [abs_of_nonneg (by linarith)] at hg
      refine ⟨fun h' => ?_, fun h' => ?_⟩
      · linarith [hx.1, hy.2]
      · exact absurd (le_antisymm h' hxy) h

theorem exactly_whole (hw : WellConfigured s) (hn : WholeNumbers s) (ht : NoTies s)
    (hlim : LimitsOffTies s) (hc : CleanSplits s) :
    Exactly fl env s.resetSim (10 ^ 9 + 1) (3 * 10 ^ 9) where
  mono := hm.mono
  zero := hm.zero
  minus := by simpa using hm.whole (-1) (by norm_num)
  nonneg b hb := by
    obtain ⟨k, -, -, -, h, -⟩ := signals_whole hn hw.keys ht hb
    exact h
  limit i hi hr T hT hK := by
    obtain ⟨c, hc1, hc⟩ := hn.capacity i hi
    obtain ⟨p, hp⟩ := hn.percent i hi
    have hp1 := (hw.percent i hi).2
    rw [reset_rsvp] at hr
    rw [reset_capacity, reset_pct, reset_ceiling]
    have hct := hlim i hi hr
    unfold reservationLimit at hct
    rw [← tie_iff, hc, hp] at hct
    rw [hc, hp]
    rw [hp] at hp1
    have hc2 : (c : ℚ) ≤ 10 ^ 9 := by exact_mod_cast hc1
    have hc0 : (0 : ℚ) ≤ c := Nat.cast_nonneg c
    have hp0 : (0 : ℚ) ≤ p := Nat.cast_nonneg p
    have f1 : fl (c : ℚ) = c := by
      have := hm.wholeQ (n := (c : ℤ)) (by push_cast; rw [abs_of_nonneg hc0]; linarith)
      simpa using this
    have f2 : fl (p : ℚ) = p := by
      have := hm.wholeQ (n := (p : ℤ)) (by push_cast; rw [abs_of_nonneg hp0]; linarith)
      simpa using this
    rw [f1, f2]
    have q0 : (0 : ℚ) ≤ p / 100 := by positivity
    have q1 : (p : ℚ) / 100 ≤ 1 := by linarith
    have e1 : |fl ((p : ℚ) / 100) - p / 100| ≤ 1 / 2 ^ 53 := by
      refine (hm.close _).trans ?_
      rw [abs_of_nonneg q0]
      calc 1 / 2 ^ 53 * ((p : ℚ) / 100) ≤ 1 / 2 ^ 53 * 1 :=
            mul_le_mul_of_nonneg_left q1 (by norm_num)
        _ = _ := by norm_num
    have e2 : |(c : ℚ) * fl ((p : ℚ) / 100) - c * (p / 100)| ≤ 1 / 10 ^ 6 := by
      rw [← mul_sub, abs_mul, abs_of_nonneg hc0]
      calc (c : ℚ) * |fl ((p : ℚ) / 100) - p / 100| ≤ 10 ^ 9 * (1 / 2 ^ 53) :=
            mul_le_mul hc2 e1 (abs_nonneg _) (by norm_num)
        _ ≤ _ := by norm_num
    have c0 : 0 ≤ (c : ℚ) * (p / 100) := mul_nonneg hc0 q0
    have c1 : (c : ℚ) * (p / 100) ≤ 10 ^ 9 := by nlinarith
    rw [abs_le] at e2 hK
    have e3 := hm.near (x := (c : ℚ) * fl ((p : ℚ) / 100)) (by
      rw [abs_le]; constructor <;> linarith [e2.1, e2.2])
    have e4 := hm.near (x := T) (by rw [abs_le]; constructor <;> linarith [hK.1, hK.2])
    rw [abs_le] at e3 e4
    have e5 := hm.near (x := fl ((c : ℚ) * fl ((p : ℚ) / 100)) - fl T) (by
      rw [abs_le]
      constructor <;> linarith [e2.1, e2.2, hK.1, hK.2, e3.1, e3.2, e4.1, e4.2])
    rw [abs_le] at e5
    refine Frac.round (D := 100) (Frac.sub ⟨c * p, ?_⟩ ?_) (by norm_num) (by norm_num) ?_ ?_
    · push_cast; ring
    · exact hT.frac.mul_right 10
    · rw [sub_eq_neg_add]
      exact tie_add hT.neg hct
    · rw [abs_lt]
      constructor <;> norm_num <;>
        linarith [e2.1, e2.2, e3.1, e3.2, e4.1, e4.2, e5.1, e5.2]
  le b hb T hT hK := by
    obtain ⟨k, k1, k2, hf, b0, b1, -⟩ := signals_whole hn hw.keys ht hb
    have a1 := hm.near (x := T) (by linarith)
    have a2 := hm.near (x := b) (by rw [abs_of_nonneg b0]; linarith)
    refine le_whole (g := 1 / 1000) (fun h => ?_) a2 a1 (by norm_num) fun h => by rw [h]
    have : Frac (10 * k) (b - T) := (hf.mul_left 10).sub (hT.frac.mul_right k)
    refine le_trans ?_ (this.gap (by omega) (sub_ne_zero.2 h))
    have := frac_div_le (k := 10 * k) (D := 1000) (by omega) (by omega)
    exact_mod_cast this
  plus b hb T hT hK := by
    obtain ⟨k, k1, k2, hf, b0, b1, h⟩ := signals_whole hn hw.keys ht hb
    exact plus_whole hm k1 k2 hf (by rwa [abs_of_nonneg b0]) h hT hK
  sub b hb T hT hK := by
    obtain ⟨k, k1, k2, hf, b0, b1, h⟩ := signals_whole hn hw.keys ht hb
    have a1 := hm.near (x := T) (by linarith)
    have a2 := hm.near (x := b) (by rw [abs_of_nonneg b0]; linarith)
    rw [abs_le] at a1 a2 hK
    have a3 := hm.near (x := fl T + -fl b) (by
      rw [abs_le]; constructor <;> linarith [a1.1, a1.2, a2.1, a2.2, hK.1, hK.2])
    rw [abs_le] at a3
    refine Frac.round (D := 20 * k) ?_ (by omega) ⟨k, rfl⟩
      (tie_add hT fun h' => h (tie_neg_iff.1 h')) ?_
    · refine Frac.add ?_ (hf.neg.mul_left 20)
      have := (hT.frac.mul_left 2).mul_right k
      simpa using this
    · refine lt_of_lt_of_le ?_ (frac_div_le (D := 2000) (by omega) (by omega))
      rw [abs_lt]
      constructor <;> norm_num <;> linarith [a1.1, a1.2, a2.1, a2.2, a3.1, a3.2]
  more l hl r h1 hr T hT hK := by
    have hl' : l ∈ s.lsps := hl
    rw [peers_whole] at hr
    rw [asked_whole hn hw.keys hl', total_whole hw.keys hl']
    obtain ⟨r2, rf, r0, rb⟩ := hn.share hl' h1 hr
    obtain ⟨k, k1, k2, kf, b0, b1⟩ := hn.setup hl'
    have a1 := hm.near (x := T) (by linarith)
    have a2 := hm.near (x := setupBandwidth s l) (by rw [abs_of_nonneg b0]; linarith)
    have a3 := hm.near (x := groupTraffic s l / r) (by rw [abs_of_nonneg r0]; linarith)
    rw [abs_le] at hK
    have a4 := hm.near (x := fl T + fl (setupBandwidth s l)) (by
      rw [abs_le] at a1 a2 ⊢
      constructor <;> linarith [a1.1, a1.2, a2.1, a2.2, hK.1, hK.2])
    refine le_whole (g := 1 / 100000) (e := 3 / 10 ^ 6) (fun h => ?_)
      (a3.trans (by norm_num)) ?_ (by norm_num) fun h => ?_
    · have : Frac (10 * (r * k)) (groupTraffic s l / r - (T + setupBandwidth s l)) := by
        refine Frac.sub ((rf.mul_right k).mul_left 10) (Frac.add (hT.frac.mul_right _) ?_)
        exact (kf.mul_left r).mul_left 10
      have hrk : r * k ≤ 100 * 100 := Nat.mul_le_mul r2 k2
      have hrk1 : 1 ≤ r * k := Nat.mul_pos h1 k1
      refine le_trans ?_ (this.gap (by omega) (sub_ne_zero.2 h))
      have := frac_div_le (k := 10 * (r * k)) (D := 100000) (by omega) (by omega)
      exact_mod_cast this
    · rw [abs_le] at a1 a2 a4 ⊢
      constructor <;> linarith [a1.1, a1.2, a2.1, a2.2, a4.1, a4.2]
    · obtain ⟨m, rfl⟩ := hT
      obtain ⟨⟨x, hx⟩, y, hy⟩ := hc l hl' r h1 hr ⟨m, by rw [h]; norm_num⟩
      have hT' : ((m : ℚ) / 10 ^ 1) = ((x - y : ℤ) : ℚ) := by
        push_cast; rw [← hx, ← hy]; linarith
      rw [hT'] at h ⊢
      rw [hT'] at hK
      rw [hx] at h ⊢
      rw [hy] at h b0 b1 ⊢
      rw [hx] at r0 rb
      have g1 : fl (x : ℚ) = x := hm.wholeQ (by rw [abs_of_nonneg r0]; linarith)
      have g2 : fl (y : ℚ) = y := hm.wholeQ (by rw [abs_of_nonneg b0]; linarith)
      have g3 : fl ((x - y : ℤ) : ℚ) = ((x - y : ℤ) : ℚ) := hm.wholeQ (by
        rw [abs_le]; constructor <;> linarith [hK.1, hK.2])
      rw [g2, g3, ← h, g1]
  same l hl r h1 hr h := by
    have hl' : l ∈ s.lsps := hl
    rw [peers_whole] at hr
    rw [asked_whole hn hw.keys hl', total_whole hw.keys hl'] at h ⊢
    obtain ⟨r2, rf, r0, rb⟩ := hn.share hl' h1 hr
    obtain ⟨k, k1, k2, kf, b0, b1⟩ := hn.setup hl'
    have a2 := hm.near (x := setupBandwidth s l) (by rw [abs_of_nonneg b0]; linarith)
    have a3 := hm.near (x := groupTraffic s l / r) (by rw [abs_of_nonneg r0]; linarith)
    by_contra hne
    have : Frac (r * k) (groupTraffic s l / r - setupBandwidth s l) :=
      Frac.sub (rf.mul_right k) (kf.mul_left r)
    have hrk : r * k ≤ 100 * 100 := Nat.mul_le_mul r2 k2
    have hrk1 : 1 ≤ r * k := Nat.mul_pos h1 k1
    have hg := this.gap hrk1 (sub_ne_zero.2 hne)
    have hd := frac_div_le (k := r * k) (D := 10000) hrk1 (by omega)
    rw [h] at a3
    have : |groupTraffic s l / r - setupBandwidth s l| ≤ 2 / 10 ^ 6 := by
      rw [abs_le] at a2 a3 ⊢
      constructor <;> linarith [a2.1, a2.2, a3.1, a3.2]
    have := (hd.trans hg).trans this
    norm_num at this
  total key ds h := by
    obtain ⟨a, b, -, -, -, rfl, -⟩ := dictGet_buildGroups_some h
    simp only [reset_traffic]
    refine hm.wholeSum (fun q hq => ?_) ?_
    · obtain ⟨d, hd, rfl⟩ := List.mem_map.1 hq
      exact hn.traffic d (mem_between.1 hd).1
    · refine le_trans ?_ hn.total
      exact filter_sum_le _ _ _ hn.nonneg
  large := by norm_num
  one := by norm_num
  room i hi T hK := by
    obtain ⟨c, hc1, hc⟩ := hn.capacity i hi
    have hp := hw.percent i hi
    have hc2 : (c : ℚ) ≤ 10 ^ 9 := by exact_mod_cast hc1
    have hc0 : (0 : ℚ) ≤ c := Nat.cast_nonneg c
    have h1 := pyRound_close 1 (s.resetSim.ceiling i - T)
    have e : s.resetSim.ceiling i = c * ((s.ifc i).pct / 100) := by rw [← hc, reset_ceiling]
    rw [e] at h1 ⊢
    have q0 : 0 ≤ (s.ifc i).pct / 100 := by linarith [hp.1]
    have q1 : (s.ifc i).pct / 100 ≤ 1 := by linarith [hp.2]
    have c0 : 0 ≤ (c : ℚ) * ((s.ifc i).pct / 100) := mul_nonneg hc0 q0
    have c1 : (c : ℚ) * ((s.ifc i).pct / 100) ≤ 10 ^ 9 := by nlinarith
    rw [abs_le] at h1 hK ⊢
    constructor <;> linarith [h1.1, h1.2, hK.1, hK.2]
  less b hb T hK := by
    obtain ⟨k, -, -, -, b0, b1, -⟩ := signals_whole hn hw.keys ht hb
    have h1 := pyRound_close 1 (T + -b)
    rw [abs_le] at h1 hK ⊢
    constructor <;> linarith [h1.1, h1.2, hK.1, hK.2]

theorem sums_whole (hn : WholeNumbers s) : Sums fl s.lsps.length (10 ^ 9 + 1) where
  dec T hT hK := by
    have a := hm.near (x := T) (by linarith)
    rw [Frac.round (D := 20) (hT.frac.mul_right 2) (by norm_num) (by norm_num) ?_
      (a.trans_lt (by norm_num)), pyRound_of_decimal hT]
    rintro ⟨n, hn⟩
    obtain ⟨m, hm⟩ := hT
    rw [hm] at hn
    have : (2 * m : ℚ) = 2 * n + 1 := by linarith
    have : (2 * m : ℤ) = 2 * n + 1 := by exact_mod_cast this
    omega
  info qs hq hl hs := hm.sum hq (hl.trans hn.lsps) hs (by norm_num)

/-- **whole numbers: the floating point run follows the exact signalling** -/
theorem whole_runs (hw : WellConfigured s) (hn : WholeNumbers s) (ht : NoTies s)
    (hlim : LimitsOffTies s) (hc : CleanSplits s)
    (hx : NoParallelLsps s ∨ (SingleLinks s ∧ NoCoincidence s)) {s' : State}
    (hrun : updateSimulationFl fl env s = .ok () s') :
    ∃ o, updateSimulationFull fl env s = .ok () (s'.gloss o) ∧ Fits o s' ∧
      ∀ l ∈ s.lsps, o.res l = (s'.lsp l).reserved.fl fl ∧ o.setup l = (s'.lsp l).setup.map fl := by
  refine full_runs hw ht hx (exactly_whole hm hw hn ht hlim hc) (fun i hi => ?_)
    (sums_whole hm hn) (fun b hb => ?_) hrun
  · obtain ⟨c, hc1, hc⟩ := hn.capacity i hi
    have hp := hw.percent i hi
    have hc2 : (c : ℚ) ≤ 10 ^ 9 := by exact_mod_cast hc1
    have hc0 : (0 : ℚ) ≤ c := Nat.cast_nonneg c
    unfold reservationLimit
    rw [hc]
    have q1 : (s.ifc i).pct / 100 ≤ 1 := by linarith [hp.2]
    nlinarith
  · obtain ⟨k, k1, k2, hf, b0, b1, h⟩ := signals_whole hn hw.keys ht hb
    exact self_whole hm k1 k2 hf (by rwa [abs_of_nonneg b0]) h

end

end NTM
