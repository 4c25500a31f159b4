import Verif.Model.Float
import Verif.Proof.Rounding
import Mathlib.Data.Int.Log
import Mathlib.Tactic.Positivity
import Mathlib.Tactic.NormNum

/-!
# Binary floating point: order, whole numbers and fractions
-/

namespace NTM

/-! ### The rounding of `p` bits -/

theorem roundBits_zero (p : ℕ) : roundBits p 0 = 0 := by simp [roundBits]

theorem roundBits_neg (p : ℕ) (x : ℚ) : roundBits p (-x) = -roundBits p x := by
  unfold roundBits
  by_cases h : x = 0
  · simp [h]
  · rw [if_neg h, if_neg (neg_ne_zero.2 h)]
    simp only [abs_neg, neg_div, roundHalfEven_neg]
    push_cast
    ring

theorem roundBits_nonneg (p : ℕ) {x : ℚ} (h : 0 ≤ x) : 0 ≤ roundBits p x := by
  unfold roundBits
  split
  · exact le_refl _
  · simp only []
    have h2 : (0 : ℚ) < 2 ^ (Int.log 2 |x| - ((p : ℤ) - 1)) := zpow_pos (by norm_num) _
    refine mul_nonneg ?_ h2.le
    have : roundHalfEven (0 : ℚ) ≤ roundHalfEven (x / 2 ^ (Int.log 2 |x| - ((p : ℤ) - 1))) :=
      roundHalfEven_mono (div_nonneg h h2.le)
    have h0 : roundHalfEven (0 : ℚ) = 0 := by simpa using roundHalfEven_int 0
    rw [h0] at this
    exact_mod_cast this

theorem roundBits_pos_mono {p : ℕ} (hp : 1 ≤ p) {x y : ℚ} (hx : 0 < x) (h : x ≤ y) :
    roundBits p x ≤ roundBits p y := by
  have hy := hx.trans_le h
  have ax : |x| = x := abs_of_pos hx
  have ay : |y| = y := abs_of_pos hy
  unfold roundBits
  rw [if_neg hx.ne', if_neg hy.ne', ax, ay]
  simp only []
  have hl : Int.log 2 x ≤ Int.log 2 y := Int.log_mono_right hx h
  rcases hl.lt_or_eq with hlt | heq
  · have e1 : (0 : ℚ) < 2 ^ (Int.log 2 x - ((p : ℤ) - 1)) := zpow_pos (by norm_num) _
    have e2 : (0 : ℚ) < 2 ^ (Int.log 2 y - ((p : ℤ) - 1)) := zpow_pos (by norm_num) _
    have u1 : x < 2 ^ (Int.log 2 x + 1) := Int.lt_zpow_succ_log_self (by norm_num) x
    have l1 : (2 : ℚ) ^ (Int.log 2 y) ≤ y := Int.zpow_log_le_self (by norm_num) hy
    have a1 : (roundHalfEven (x / 2 ^ (Int.log 2 x - ((p : ℤ) - 1))) : ℚ) ≤ (2 : ℚ) ^ p := by
      have : x / 2 ^ (Int.log 2 x - ((p : ℤ) - 1)) ≤ ((2 ^ p : ℤ) : ℚ) := by
        rw [div_le_iff₀ e1]
        push_cast
        rw [← zpow_natCast, ← zpow_add₀ (by norm_num)]
        refine u1.le.trans (le_of_eq ?_)
        congr 1; ring
      have := roundHalfEven_mono this
      rw [roundHalfEven_int] at this
      exact_mod_cast this
    have a2 : (2 : ℚ) ^ (p - 1) ≤ roundHalfEven (y / 2 ^ (Int.log 2 y - ((p : ℤ) - 1))) := by
      have : ((2 ^ (p - 1) : ℤ) : ℚ) ≤ y / 2 ^ (Int.log 2 y - ((p : ℤ) - 1)) := by
        rw [le_div_iff₀ e2]
        push_cast
        rw [← zpow_natCast, ← zpow_add₀ (by norm_num)]
        refine le_trans (le_of_eq ?_) l1
        congr 1
        push_cast [Nat.cast_sub hp]
        ring
      have := roundHalfEven_mono this
      rw [roundHalfEven_int] at this
      exact_mod_cast this
    calc _ ≤ (2 : ℚ) ^ p * 2 ^ (Int.log 2 x - ((p : ℤ) - 1)) :=
          mul_le_mul_of_nonneg_right a1 e1.le
      _ ≤ (2 : ℚ) ^ (p - 1) * 2 ^ (Int.log 2 y - ((p : ℤ) - 1)) := by
          rw [← zpow_natCast, ← zpow_natCast, ← zpow_add₀ (by norm_num),
            ← zpow_add₀ (by norm_num)]
          refine zpow_le_zpow_right₀ (by norm_num) ?_
          push_cast [Nat.cast_sub hp]
          omega
      _ ≤ _ := mul_le_mul_of_nonneg_right a2 e2.le
  · rw [heq]
    have e2 : (0 : ℚ) < 2 ^ (Int.log 2 y - ((p : ℤ) - 1)) := zpow_pos (by norm_num) _
    refine mul_le_mul_of_nonneg_right ?_ e2.le
    have := roundHalfEven_mono (div_le_div_of_nonneg_right h e2.le)
    exact_mod_cast this

/-- rounding never reverses an order -/
theorem roundBits_mono {p : ℕ} (hp : 1 ≤ p) : Monotone (roundBits p) := by
  intro x y h
  rcases lt_trichotomy x 0 with hx | rfl | hx
  · rcases lt_or_ge y 0 with hy | hy
    · have := roundBits_pos_mono hp (neg_pos.2 hy) (neg_le_neg h)
      rw [roundBits_neg, roundBits_neg] at this
      linarith
    · have h1 := roundBits_nonneg p (neg_nonneg.2 hx.le)
      rw [roundBits_neg] at h1
      linarith [roundBits_nonneg p hy]
  · rw [roundBits_zero]
    exact roundBits_nonneg p h
  · exact roundBits_pos_mono hp hx h

/-- whole numbers of at most `p` bits are kept -/
theorem roundBits_int {p : ℕ} (n : ℤ) (h : |n| < 2 ^ p) : roundBits p n = n := by
  unfold roundBits
  split
  · next h0 => exact h0.symm
  · next h0 =>
    simp only []
    have hn : (0 : ℚ) < |(n : ℚ)| := abs_pos.2 h0
    have l1 : (2 : ℚ) ^ (Int.log 2 |(n : ℚ)|) ≤ |(n : ℚ)| := Int.zpow_log_le_self (by norm_num) hn
    have hlt : Int.log 2 |(n : ℚ)| < p := by
      have : (2 : ℚ) ^ (Int.log 2 |(n : ℚ)|) < 2 ^ (p : ℤ) := by
        refine l1.trans_lt ?_
        rw [zpow_natCast]
        exact_mod_cast h
      exact (zpow_lt_zpow_iff_right₀ (by norm_num)).1 this
    obtain ⟨k, hk⟩ : ∃ k : ℕ, Int.log 2 |(n : ℚ)| - ((p : ℤ) - 1) = -(k : ℤ) :=
      ⟨((p : ℤ) - 1 - Int.log 2 |(n : ℚ)|).toNat, by omega⟩
    rw [hk, zpow_neg, zpow_natCast, div_inv_eq_mul]
    have : (n : ℚ) * 2 ^ k = ((n * 2 ^ k : ℤ) : ℚ) := by push_cast; rfl
    rw [this, roundHalfEven_int]
    push_cast
    field_simp

/-! ### Fractions with a known denominator -/

/-- `x` is a fraction with denominator `D` -/
def Frac (D : ℕ) (x : ℚ) : Prop := ∃ a : ℤ, x * D = a

section
variable {D E : ℕ} {x y : ℚ}

theorem Frac.add (h : Frac D x) (g : Frac D y) : Frac D (x + y) := by
  obtain ⟨a, h⟩ := h; obtain ⟨b, g⟩ := g
  exact ⟨a + b, by rw [add_mul, h, g]; push_cast; rfl⟩

theorem Frac.neg (h : Frac D x) : Frac D (-x) := by
  obtain ⟨a, h⟩ := h
  exact ⟨-a, by rw [neg_mul, h]; push_cast; rfl⟩

theorem Frac.sub (h : Frac D x) (g : Frac D y) : Frac D (x - y) := by
  rw [sub_eq_add_neg]; exact h.add g.neg

theorem Frac.mul_right (h : Frac D x) (E : ℕ) : Frac (D * E) x := by
  obtain ⟨a, h⟩ := h
  exact ⟨a * E, by push_cast; rw [← mul_assoc, h]⟩

theorem Frac.mul_left (h : Frac D x) (E : ℕ) : Frac (E * D) x := by
  rw [mul_comm]; exact h.mul_right E

theorem Frac.one (n : ℤ) : Frac 1 (n : ℚ) := ⟨n, by simp⟩

theorem Frac.div (n : ℤ) {k : ℕ} (hk : 1 ≤ k) : Frac k ((n : ℚ) / k) := by
  refine ⟨n, ?_⟩
  have : (k : ℚ) ≠ 0 := by positivity
  field_simp

theorem Decimal.frac (h : Decimal 1 x) : Frac 10 x := by
  obtain ⟨n, rfl⟩ := h
  exact ⟨n, by norm_num⟩

/-- a fraction other than 0 is not too small -/
theorem Frac.gap (h : Frac D x) (hD : 1 ≤ D) (hx : x ≠ 0) : 1 / (D : ℚ) ≤ |x| := by
  obtain ⟨a, h⟩ := h
  have hd : (0 : ℚ) < D := by positivity
  rw [div_le_iff₀ hd, ← abs_of_pos hd, ← abs_mul, h]
  have : a ≠ 0 := by
    rintro rfl
    have : x * D = 0 := by rw [h]; simp
    rcases mul_eq_zero.1 this with h | h
    · exact hx h
    · exact hd.ne' h
  have := Int.one_le_abs this
  exact_mod_cast this

/-- the values halfway between two tenths -/
theorem frac_half (n : ℤ) : Frac 20 ((n : ℚ) / 10 + 1 / 20) := ⟨2 * n + 1, by push_cast; ring⟩

/-- nearby values round alike, away from ties -/
theorem pyRound_stable (h : ∀ n : ℤ, |y - x| < |x - ((n : ℚ) / 10 + 1 / 20)|) :
    pyRound 1 y = pyRound 1 x := by
  have ht : ¬ Tie 1 x := by
    rintro ⟨n, hn⟩
    have h1 := h n
    have : x - ((n : ℚ) / 10 + 1 / 20) = 0 := by linarith
    rw [this, abs_zero] at h1
    exact absurd h1 (not_lt.2 (abs_nonneg _))
  have h1 := pyRound_strict ht
  unfold pyRound at h1 ⊢
  set N := roundHalfEven (x * 10 ^ 1) with hN
  have hd : ((N : ℚ) / 10 ^ 1) = N / 10 := by norm_num
  rw [hd] at h1
  have h2 : roundHalfEven (y * 10 ^ 1) = N := by
    rw [abs_lt] at h1
    have a := h N
    have b := h (N - 1)
    push_cast at b
    rw [abs_of_neg (show x - ((N : ℚ) / 10 + 1 / 20) < 0 by linarith [h1.1])] at a
    rw [abs_of_pos (show 0 < x - (((N : ℚ) - 1) / 10 + 1 / 20) by linarith [h1.2])] at b
    rw [abs_lt] at a b
    exact roundHalfEven_unique (by linarith [a.2]) (by linarith [b.1])
  rw [h2]

/-- a fraction that is not a tie rounds like everything nearby -/
theorem Frac.round (h : Frac D x) (hD : 1 ≤ D) (hd : 20 ∣ D) (ht : ¬ Tie 1 x)
    (hy : |y - x| < 1 / (D : ℚ)) : pyRound 1 y = pyRound 1 x := by
  refine pyRound_stable fun n => hy.trans_le ?_
  obtain ⟨E, rfl⟩ := hd
  refine (h.sub ((frac_half n).mul_right E)).gap hD fun h0 => ht ⟨n, ?_⟩
  linarith
end

/-! ### Arithmetic close to exact -/

/-- what is used of the rounding of a 64 bit float -/
structure Machine (fl : ℚ → ℚ) : Prop where
  mono : Monotone fl
  whole : ∀ n : ℤ, |n| < 2 ^ 53 → fl n = n
  close : ∀ x, |fl x - x| ≤ 1 / 2 ^ 53 * |x|

section
variable {fl : ℚ → ℚ} (hm : Machine fl)
include hm

theorem Machine.near {x : ℚ} (h : |x| ≤ 9 * 10 ^ 9) : |fl x - x| ≤ 1 / 10 ^ 6 := by
  have := hm.close x
  refine this.trans ?_
  have : 1 / 2 ^ 53 * |x| ≤ 1 / 2 ^ 53 * (9 * 10 ^ 9) :=
    mul_le_mul_of_nonneg_left h (by norm_num)
  refine this.trans (by norm_num)

theorem Machine.zero : fl 0 = 0 := by simpa using hm.whole 0 (by norm_num)

theorem Machine.wholeQ {n : ℤ} (h : |(n : ℚ)| ≤ 9 * 10 ^ 9) : fl n = n := by
  refine hm.whole n ?_
  have : |n| ≤ 9 * 10 ^ 9 := by exact_mod_cast h
  exact this.trans_lt (by norm_num)

/-- sums of at most 10000 tenths -/
theorem Machine.sum {qs : List ℚ} {K : ℚ} (hq : ∀ q ∈ qs, Decimal 1 q ∧ 0 ≤ q)
    (hn : qs.length ≤ 10000) (hs : qs.sum ≤ K) (hK : K ≤ 2 * 10 ^ 9) :
    pyRound 1 ((qs.map fl).foldl (fun acc q => fl (acc + q)) 0) = qs.sum := by
  have key : ∀ (qs : List ℚ) (acc S : ℚ) (k : ℕ), (∀ q ∈ qs, Decimal 1 q ∧ 0 ≤ q) →
      k + qs.length ≤ 10000 → 0 ≤ S → S + qs.sum ≤ K → |acc - S| ≤ k * (2 / 10 ^ 6) →
      |(qs.map fl).foldl (fun acc q => fl (acc + q)) acc - (S + qs.sum)| ≤
        (k + qs.length : ℕ) * (2 / 10 ^ 6) := by
    intro qs
    induction qs with
    | nil => intro acc S k _ _ _ _ h; simpa using h
    | cons q qs ih =>
      intro acc S k hq hn hS hs h
      simp only [List.map_cons, List.foldl_cons, List.sum_cons, List.length_cons] at hn hs ⊢
      have hq0 := (hq q (by simp)).2
      have hqs : 0 ≤ qs.sum := by
        clear ih hs hn
        induction qs with
        | nil => simp
        | cons a as ih =>
          rw [List.sum_cons]
          have := (hq a (by simp)).2
          have := ih fun b hb => hq b (by
            simp only [List.mem_cons] at hb ⊢
            tauto)
          linarith
      have hk : (k : ℚ) ≤ 10000 := by exact_mod_cast (by omega : k ≤ 10000)
      have e1 := hm.near (x := q) (by rw [abs_of_nonneg hq0]; linarith)
      rw [abs_le] at e1 h
      have e2 := hm.near (x := acc + fl q) (by
        rw [abs_le]
        constructor <;> linarith [e1.1, e1.2, h.1, h.2])
      rw [abs_le] at e2
      have := ih (fl (acc + fl q)) (S + q) (k + 1) (fun a ha => hq a (by simp [ha])) (by omega)
        (by linarith) (by linarith) (by
          rw [abs_le]; push_cast
          constructor <;> linarith [e1.1, e1.2, h.1, h.2, e2.1, e2.2])
      have e3 : S + (q + qs.sum) = S + q + qs.sum := by ring
      rw [e3]
      refine this.trans (le_of_eq ?_)
      push_cast; ring
  have h := key qs 0 0 0 hq (by omega) le_rfl (by linarith) (by simp)
  have hd : Decimal 1 qs.sum := by
    clear h hs hn key
    induction qs with
    | nil => exact ⟨0, by simp⟩
    | cons a as ih =>
      rw [List.sum_cons]
      exact (hq a (by simp)).1.add (ih fun b hb => hq b (by simp [hb]))
  have hN : ((0 + qs.length : ℕ) : ℚ) ≤ 10000 := by exact_mod_cast (by omega : 0 + qs.length ≤ 10000)
  rw [zero_add] at h
  rw [Frac.round (D := 20) (hd.frac.mul_right 2) (by norm_num) (by norm_num) ?_ ?_,
    pyRound_of_decimal hd]
  · rintro ⟨n, hn⟩
    obtain ⟨m, hm⟩ := hd
    rw [hm] at hn
    have : (2 * m : ℚ) = 2 * n + 1 := by linarith
    have : (2 * m : ℤ) = 2 * n + 1 := by exact_mod_cast this
    omega
  · refine lt_of_le_of_lt h ?_
    have : ((0 + qs.length : ℕ) : ℚ) * (2 / 10 ^ 6) ≤ 10000 * (2 / 10 ^ 6) :=
      mul_le_mul_of_nonneg_right hN (by norm_num)
    refine this.trans_lt (by norm_num)

/-- sums of whole numbers -/
theorem Machine.wholeSum {qs : List ℚ} (hq : ∀ q ∈ qs, ∃ n : ℕ, q = n) (hs : qs.sum ≤ 10 ^ 9) :
    qs.foldl (fun acc q => fl (acc + q)) 0 = qs.sum := by
  have key : ∀ (qs : List ℚ) (a : ℕ), (∀ q ∈ qs, ∃ n : ℕ, q = n) → (a : ℚ) + qs.sum ≤ 10 ^ 9 →
      qs.foldl (fun acc q => fl (acc + q)) (a : ℚ) = a + qs.sum := by
    intro qs
    induction qs with
    | nil => intro a _ _; simp
    | cons q qs ih =>
      intro a hq hs
      obtain ⟨n, rfl⟩ := hq q (by simp)
      rw [List.sum_cons] at hs ⊢
      have hqs : 0 ≤ qs.sum := by
        clear ih hs
        induction qs with
        | nil => simp
        | cons b bs ih =>
          rw [List.sum_cons]
          obtain ⟨m, rfl⟩ := hq b (by simp)
          have := ih fun c hc => hq c (by
            simp only [List.mem_cons] at hc ⊢
            tauto)
          have : (0 : ℚ) ≤ m := Nat.cast_nonneg m
          linarith
      have e : fl ((a : ℚ) + n) = ((a + n : ℕ) : ℚ) := by
        have := hm.wholeQ (n := ((a + n : ℕ) : ℤ)) (by
          push_cast
          rw [abs_of_nonneg (by positivity)]
          linarith)
        push_cast at this ⊢
        exact this
      rw [List.foldl_cons, e, ih (a + n) (fun c hc => hq c (by simp [hc])) (by push_cast; linarith)]
      push_cast
      ring
  have := key qs 0 hq (by simpa using hs)
  simpa using this

end

end NTM
