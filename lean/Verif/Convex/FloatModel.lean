import Verif.Convex.LineModel
import Mathlib.Data.Int.Log
import Mathlib.Data.Rat.Floor

/-!
# The interpolation of `find_index` in floating point numbers
-/

namespace Verif.Convex

namespace Line

/-- The nearest integer, and the even one of two nearest integers.
Not in the code: the rounding of `f64` operations used in `src/algorithms/convex/line_convex_checker.rs` lines 473–479. -/
def roundEven (x : ℚ) : ℤ :=
  if x - ⌊x⌋ < 1 / 2 then ⌊x⌋ else if 1 / 2 < x - ⌊x⌋ then ⌊x⌋ + 1 else if ⌊x⌋ % 2 = 0 then ⌊x⌋ else ⌊x⌋ + 1

/-- The result of an `f64` operation with the exact result `x`, for `0 ≤ x < 2 ^ 1023`: the nearest
number with 53 binary digits, or the nearest multiple of `2 ^ (-1074)` for very small numbers, and
the even one of two nearest (IEEE 754, used in `find_index`, `src/algorithms/convex/line_convex_checker.rs` lines 478–479). -/
def f64 (x : ℚ) : ℚ :=
  if x ≤ 0 then 0
  else roundEven (x / (2 : ℚ) ^ max (Int.log 2 x - 52) (-1074)) * (2 : ℚ) ^ max (Int.log 2 x - 52) (-1074)

/-- The number added to `low` in `find_index`, `src/algorithms/convex/line_convex_checker.rs` lines 478–479, for `a = pos - low_pos`,
`b = high_pos - low_pos` and `w = high - low`: `alpha` is the rounded quotient of the numbers
converted to `f64`, the product with the converted `w` is rounded too, and `round` takes the nearest
integer, the larger one of two nearest. -/
def offset (a b w : Nat) : Nat := (⌊f64 (f64 (f64 a / f64 b) * f64 w) + 1 / 2⌋).toNat

/-- The guess of `find_index`, `src/algorithms/convex/line_convex_checker.rs` lines 473–479. -/
def floatGuess (c : Line) : Guess := fun l pos low high =>
  let line := (c.lines[l]?).getD []
  let lowPos := c.getPos (line.getD low 0)
  let highPos := c.getPos (line.getD high 0)
  low + offset (pos - lowPos) (highPos - lowPos) (high - low)

end Line

end Verif.Convex
