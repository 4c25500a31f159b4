import Mathlib.Data.Rat.Floor

/-!
# Numbers

Python numbers (`int`, `float`) are idealised as exact rationals; see DESIGN.md §1.
-/

namespace NTM

/-- Round-half-to-even of a rational to an integer: the rule of Python's built-in
`round`.  (Used by `round(x, n)` in `pyNTM/interface.py:104,113`,
`pyNTM/performance_model.py:1346,1489,1510`, `pyNTM/flex_model.py:748`,
`pyNTM/master_model.py:148,201`.)
Simplification: Python rounds the *binary* value of the float; here the value is exact. -/
def roundHalfEven (x : ℚ) : ℤ :=
  let f := x.floor
  let r := x - f
  if r < 1 / 2 then f
  else if 1 / 2 < r then f + 1
  else if f % 2 = 0 then f else f + 1

/-- Python's `round(x, d)` on exact rationals (same citations as `roundHalfEven`). -/
def pyRound (d : ℕ) (x : ℚ) : ℚ := (roundHalfEven (x * 10 ^ d) : ℚ) / 10 ^ d

end NTM
