import Verif.Props.File

/-!
# C67: decimal fractions in model files
-/

namespace NTM

open Spec

namespace Spec

/-- the value of the digits after the decimal point -/
def fraction : List (Fin 10) → ℚ
  | [] => 0
  | d :: ds => ((d : ℕ) + fraction ds) / 10

/-- the text of the digits -/
def digitText (ds : List (Fin 10)) : String := String.ofList (ds.map fun d : Fin 10 => Nat.digitChar d.val)

end Spec

theorem digitChar_isDigit (d : Fin 10) : (Nat.digitChar d).isDigit ∧ Nat.digitChar d ≠ '.' ∧
    digitVal (Nat.digitChar d) = some (d : ℕ) := by
  revert d; decide

theorem digitsVal_digits (ds : List (Fin 10)) (acc : ℕ) :
    ∃ m : ℕ, digitsVal (ds.map fun d : Fin 10 => Nat.digitChar d.val) acc = some m ∧
      (m : ℚ) / 10 ^ ds.length = acc + fraction ds := by
  induction ds generalizing acc with
  | nil => exact ⟨acc, rfl, by simp [fraction]⟩
  | cons d ds ih =>
    obtain ⟨m, h1, h2⟩ := ih (10 * acc + d)
    refine ⟨m, ?_, ?_⟩
    · rw [List.map_cons, digitsVal, (digitChar_isDigit d).2.2]
      exact h1
    · rw [List.length_cons, pow_succ, ← div_div, h2, fraction]
      push_cast
      ring

theorem takeDrop_dot {a : List Char} (h : ∀ c ∈ a, c.isDigit) (f : List Char) :
    (a ++ '.' :: f).takeWhile (fun c => decide (c ≠ '.')) = a ∧
    (a ++ '.' :: f).dropWhile (fun c => decide (c ≠ '.')) = '.' :: f := by
  induction a with
  | nil => exact ⟨by simp, by simp⟩
  | cons c cs ih =>
    have hc := h c (by simp)
    have : c ≠ '.' := by rintro rfl; revert hc; decide
    obtain ⟨i1, i2⟩ := ih fun x hx => h x (List.mem_cons_of_mem _ hx)
    rw [List.cons_append, List.takeWhile_cons_of_pos (by simpa using this),
      List.dropWhile_cons_of_pos (by simpa using this), i1, i2]
    exact ⟨rfl, rfl⟩

/-- **C67** A decimal fraction is read with its value: `n.d₁d₂…` is `n + d₁/10 + d₂/100 + …`, and
with a minus sign its negative. -/
theorem C67_fraction (n : ℕ) (ds : List (Fin 10)) :
    Reader.plain.float (n.repr ++ "." ++ digitText ds) = some (n + fraction ds) ∧
    Reader.plain.float ("-" ++ n.repr ++ "." ++ digitText ds) = some (-(n + fraction ds)) := by
  have hd : ∀ c ∈ Nat.toDigits 10 n, c.isDigit :=
    fun c hc => Nat.isDigit_of_mem_toDigits (by decide) (by decide) hc
  obtain ⟨m, hm, hv⟩ := digitsVal_digits ds 0
  rw [Nat.cast_zero, zero_add] at hv
  have hn := digitsVal_repr n
  have ht : ∀ f : List Char, f = (ds.map fun d : Fin 10 => Nat.digitChar d.val) →
      (n.repr ++ "." ++ digitText ds).toList = Nat.toDigits 10 n ++ '.' :: f := by
    rintro f rfl
    simp [digitText, Nat.toList_repr]
  obtain ⟨w1, w2⟩ := takeDrop_dot hd (ds.map fun d : Fin 10 => Nat.digitChar d.val)
  have hne : ¬ (Nat.toDigits 10 n = [] ∧ (ds.map fun d : Fin 10 => Nat.digitChar d.val) = []) :=
    fun h => Nat.toDigits_ne_nil h.1
  constructor
  · show parseFloat _ = _
    unfold parseFloat
    rw [ht _ rfl]
    cases h : Nat.toDigits 10 n with
    | nil => exact absurd h Nat.toDigits_ne_nil
    | cons c cs =>
      have hc := hd c (by rw [h]; simp)
      have h1 : c ≠ '-' := by rintro rfl; revert hc; decide
      have h2 : c ≠ '+' := by rintro rfl; revert hc; decide
      rw [List.cons_append]
      split
      · rename_i e; cases e; exact absurd rfl h1
      · rename_i e; cases e; exact absurd rfl h2
      · rw [← List.cons_append, ← h]
        simp only [w1, w2]
        rw [if_neg hne, hn, hm]
        simp [hv]
  · show parseFloat _ = _
    have : ("-" ++ n.repr ++ "." ++ digitText ds).toList =
        '-' :: (Nat.toDigits 10 n ++ '.' :: (ds.map fun d : Fin 10 => Nat.digitChar d.val)) := by
      simp [digitText, Nat.toList_repr]
    unfold parseFloat
    rw [this]
    simp only [w1, w2]
    rw [if_neg hne, hn, hm]
    simp [hv]

/-- 12.05 and -12.05 -/
example : (12 : ℕ).repr ++ "." ++ digitText [0, 5] = "12.05" ∧
    (12 : ℕ) + fraction [0, 5] = 241 / 20 := by
  constructor
  · decide
  · show (12 : ℚ) + (((0 : ℕ) : ℚ) + (((5 : ℕ) : ℚ) + 0) / 10) / 10 = _
    norm_num

end NTM
