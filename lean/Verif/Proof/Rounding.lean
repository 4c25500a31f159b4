import Verif.Model.Num
import Mathlib.Tactic.Linarith
import Mathlib.Tactic.Ring
import Mathlib.Tactic.FieldSimp
import Mathlib.Algebra.Order.Floor.Ring
import Mathlib.Algebra.Order.Ring.Rat

/-!
# Rounding
-/

namespace NTM

theorem roundHalfEven_spec (x : ℚ) :
    (x - 1 / 2 < roundHalfEven x ∧ (roundHalfEven x : ℚ) < x + 1 / 2) ∨
    (roundHalfEven x % 2 = 0 ∧ ((roundHalfEven x : ℚ) = x - 1 / 2 ∨
      (roundHalfEven x : ℚ) = x + 1 / 2)) := by
  have hf := Int.floor_le x
  have hf' := Int.lt_floor_add_one x
  have hfl : x.floor = ⌊x⌋ := rfl
  unfold roundHalfEven
  simp only [hfl]
  split_ifs with h1 h2 h3
  · left; constructor <;> linarith
  · left; push_cast; constructor <;> linarith
  · right; refine ⟨h3, .inl ?_⟩; linarith
  · right; refine ⟨by omega, .inr ?_⟩; push_cast; linarith

theorem roundHalfEven_close (x : ℚ) :
    x - 1 / 2 ≤ roundHalfEven x ∧ (roundHalfEven x : ℚ) ≤ x + 1 / 2 := by
  rcases roundHalfEven_spec x with h | ⟨-, h | h⟩
  · exact ⟨h.1.le, h.2.le⟩
  · constructor <;> linarith
  · constructor <;> linarith

theorem roundHalfEven_mono {x y : ℚ} (h : x ≤ y) : roundHalfEven x ≤ roundHalfEven y := by
  by_contra hlt
  push Not at hlt
  have h1 := (roundHalfEven_close x).2
  have h2 := (roundHalfEven_close y).1
  have h3 : (roundHalfEven y : ℚ) + 1 ≤ roundHalfEven x := by exact_mod_cast hlt
  have hxy : x = y := le_antisymm h (by linarith)
  subst hxy
  exact lt_irrefl _ hlt

/-- an integer strictly within one half is the rounded value -/
theorem roundHalfEven_unique {x : ℚ} {n : ℤ} (h1 : x - 1 / 2 < n) (h2 : (n : ℚ) < x + 1 / 2) :
    roundHalfEven x = n := by
  have h := roundHalfEven_close x
  have a : ((roundHalfEven x : ℤ) : ℚ) < ((n + 1 : ℤ) : ℚ) := by push_cast; linarith
  have b : ((n - 1 : ℤ) : ℚ) < ((roundHalfEven x : ℤ) : ℚ) := by push_cast; linarith
  have a' : roundHalfEven x < n + 1 := by exact_mod_cast a
  have b' : n - 1 < roundHalfEven x := by exact_mod_cast b
  omega

theorem roundHalfEven_int (n : ℤ) : roundHalfEven (n : ℚ) = n :=
  roundHalfEven_unique (by linarith) (by linarith)

/-- `x` is halfway between two integers -/
def Half (x : ℚ) : Prop := ∃ k : ℤ, x = k + 1 / 2

theorem roundHalfEven_strict {x : ℚ} (h : ¬ Half x) :
    x - 1 / 2 < roundHalfEven x ∧ (roundHalfEven x : ℚ) < x + 1 / 2 := by
  rcases roundHalfEven_spec x with h' | ⟨-, h' | h'⟩
  · exact h'
  · exact absurd ⟨roundHalfEven x, by linarith⟩ h
  · exact absurd ⟨roundHalfEven x - 1, by push_cast; linarith⟩ h

theorem roundHalfEven_int_add (n : ℤ) {x : ℚ} (h : ¬ Half x) :
    roundHalfEven (n + x) = n + roundHalfEven x := by
  obtain ⟨h1, h2⟩ := roundHalfEven_strict h
  exact roundHalfEven_unique (by push_cast; linarith) (by push_cast; linarith)

theorem roundHalfEven_neg (x : ℚ) : roundHalfEven (-x) = -roundHalfEven x := by
  by_cases hx : Half x
  · obtain ⟨k, rfl⟩ := hx
    have h1 := roundHalfEven_spec ((k : ℚ) + 1 / 2)
    have h2 := roundHalfEven_spec (-((k : ℚ) + 1 / 2))
    generalize roundHalfEven ((k : ℚ) + 1 / 2) = a at *
    generalize roundHalfEven (-((k : ℚ) + 1 / 2)) = b at *
    have ha : a % 2 = 0 ∧ (a = k ∨ a = k + 1) := by
      rcases h1 with ⟨h, h'⟩ | ⟨h, h' | h'⟩
      · have e1 : (k : ℚ) < a := by linarith
        have e2 : (a : ℚ) < k + 1 := by linarith
        have e1' : k < a := by exact_mod_cast e1
        have e2' : a < k + 1 := by exact_mod_cast e2
        omega
      · refine ⟨h, .inl ?_⟩
        have : (a : ℚ) = k := by linarith
        exact_mod_cast this
      · refine ⟨h, .inr ?_⟩
        have : (a : ℚ) = k + 1 := by linarith
        exact_mod_cast this
    have hb : b % 2 = 0 ∧ (b = -k ∨ b = -k - 1) := by
      rcases h2 with ⟨h, h'⟩ | ⟨h, h' | h'⟩
      · have e1 : -(k : ℚ) - 1 < b := by linarith
        have e2 : (b : ℚ) < -k := by linarith
        have e1' : -k - 1 < b := by exact_mod_cast e1
        have e2' : b < -k := by exact_mod_cast e2
        omega
      · refine ⟨h, .inr ?_⟩
        have : (b : ℚ) = -k - 1 := by linarith
        exact_mod_cast this
      · refine ⟨h, .inl ?_⟩
        have : (b : ℚ) = -k := by linarith
        exact_mod_cast this
    omega
  · obtain ⟨h1, h2⟩ := roundHalfEven_strict hx
    exact roundHalfEven_unique (by push_cast; linarith) (by push_cast; linarith)

/-! ### Decimal rounding -/

/-- `q` is a multiple of `10 ^ -d` -/
def Decimal (d : ℕ) (q : ℚ) : Prop := ∃ n : ℤ, q = n / 10 ^ d

/-- `q` lies exactly halfway between two multiples of `10 ^ -d` -/
def Tie (d : ℕ) (q : ℚ) : Prop := ∃ n : ℤ, q * 10 ^ d = n + 1 / 2

theorem pow10_pos (d : ℕ) : (0 : ℚ) < 10 ^ d := by positivity

theorem pyRound_decimal (d : ℕ) (x : ℚ) : Decimal d (pyRound d x) := ⟨_, rfl⟩

theorem pyRound_close (d : ℕ) (x : ℚ) : |pyRound d x - x| ≤ 1 / 2 / 10 ^ d := by
  obtain ⟨h1, h2⟩ := roundHalfEven_close (x * 10 ^ d)
  have hp := pow10_pos d
  unfold pyRound
  rw [abs_le]
  constructor
  · rw [neg_le_sub_iff_le_add, ← add_div, le_div_iff₀ hp]; linarith
  · rw [sub_le_iff_le_add, div_le_iff₀ hp, add_mul, div_mul_cancel₀ _ hp.ne']; linarith

theorem pyRound_mono (d : ℕ) {x y : ℚ} (h : x ≤ y) : pyRound d x ≤ pyRound d y := by
  have hp := pow10_pos d
  unfold pyRound
  refine div_le_div_of_nonneg_right ?_ hp.le
  exact_mod_cast roundHalfEven_mono (mul_le_mul_of_nonneg_right h hp.le)

theorem pyRound_of_decimal {d : ℕ} {x : ℚ} (h : Decimal d x) : pyRound d x = x := by
  obtain ⟨n, rfl⟩ := h
  unfold pyRound
  rw [div_mul_cancel₀ _ (pow10_pos d).ne', roundHalfEven_int]

theorem pyRound_zero (d : ℕ) : pyRound d 0 = 0 := pyRound_of_decimal ⟨0, by simp⟩

theorem pyRound_pyRound (d : ℕ) (x : ℚ) : pyRound d (pyRound d x) = pyRound d x :=
  pyRound_of_decimal (pyRound_decimal d x)

theorem pyRound_nonneg (d : ℕ) {x : ℚ} (h : 0 ≤ x) : 0 ≤ pyRound d x := by
  have := pyRound_mono d h
  rwa [pyRound_zero] at this

theorem pyRound_neg (d : ℕ) (x : ℚ) : pyRound d (-x) = -pyRound d x := by
  unfold pyRound
  rw [neg_mul, roundHalfEven_neg]
  push_cast
  ring

theorem pyRound_decimal_add {d : ℕ} {a x : ℚ} (ha : Decimal d a) (hx : ¬ Tie d x) :
    pyRound d (a + x) = a + pyRound d x := by
  obtain ⟨n, rfl⟩ := ha
  unfold pyRound
  rw [add_mul, div_mul_cancel₀ _ (pow10_pos d).ne', roundHalfEven_int_add n hx]
  push_cast
  ring

theorem Decimal.add {d : ℕ} {a b : ℚ} (ha : Decimal d a) (hb : Decimal d b) :
    Decimal d (a + b) := by
  obtain ⟨m, rfl⟩ := ha; obtain ⟨n, rfl⟩ := hb
  exact ⟨m + n, by push_cast; ring⟩

theorem Decimal.neg {d : ℕ} {a : ℚ} (ha : Decimal d a) : Decimal d (-a) := by
  obtain ⟨m, rfl⟩ := ha
  exact ⟨-m, by push_cast; ring⟩

theorem Decimal.sub {d : ℕ} {a b : ℚ} (ha : Decimal d a) (hb : Decimal d b) :
    Decimal d (a - b) := by rw [sub_eq_add_neg]; exact ha.add hb.neg

theorem Tie.neg {d : ℕ} {x : ℚ} (h : Tie d x) : Tie d (-x) := by
  obtain ⟨n, hn⟩ := h
  exact ⟨-n - 1, by push_cast; linarith⟩

theorem tie_neg_iff {d : ℕ} {x : ℚ} : Tie d (-x) ↔ Tie d x :=
  ⟨fun h => by simpa using h.neg, Tie.neg⟩

/-- rounding a value that is at least minus half a unit never gives a negative number -/
theorem pyRound_nonneg_of_slack {d : ℕ} {x : ℚ} (h : -(1 / 2 / 10 ^ d) ≤ x) : 0 ≤ pyRound d x := by
  have h0 : pyRound d (-(1 / 2 / 10 ^ d)) = 0 := by
    unfold pyRound
    rw [neg_mul, div_mul_cancel₀ _ (pow10_pos d).ne']
    have : roundHalfEven (-(1 / 2)) = 0 := by decide +kernel
    rw [this]; simp
  have := pyRound_mono d h
  rwa [h0] at this

theorem pyRound_strict {d : ℕ} {x : ℚ} (h : ¬ Tie d x) : |pyRound d x - x| < 1 / 2 / 10 ^ d := by
  obtain ⟨h1, h2⟩ := roundHalfEven_strict (x := x * 10 ^ d) h
  have hp := pow10_pos d
  unfold pyRound
  rw [abs_lt]
  constructor
  · rw [neg_lt_sub_iff_lt_add, ← add_div, lt_div_iff₀ hp]; linarith
  · rw [sub_lt_iff_lt_add, div_lt_iff₀ hp, add_mul, div_mul_cancel₀ _ hp.ne']; linarith

end NTM
