import Mathlib.Data.Int.Log
import Mathlib.Data.Rat.Floor
import Mathlib.Algebra.Order.Field.Rat

/-!
Floating point numbers with 53 bits (IEEE 754 double precision, round to nearest, ties to even), as numpy computes with. The range of
exponents is unbounded here: overflow, subnormal numbers, infinities and NaN are not modelled. A floating point operation is the exact
operation followed by `rnd`.
-/
set_option autoImplicit false

namespace Glimpse.Double

/-- A number with at most 53 significant bits. -/
def IsDouble (x : ℚ) : Prop := ∃ m e : ℤ, |m| < 2 ^ 53 ∧ x = m * (2 : ℚ) ^ e

/-- The distance between the numbers with 53 bits around `x` (for `x ≠ 0`). -/
def ulp (x : ℚ) : ℚ := (2 : ℚ) ^ (Int.log 2 |x| - 52)

/-- The nearest integer; of two equally near ones, the even one. -/
def halfEven (y : ℚ) : ℤ :=
  if y - ⌊y⌋ < 1 / 2 then ⌊y⌋ else if 1 / 2 < y - ⌊y⌋ then ⌊y⌋ + 1 else if ⌊y⌋ % 2 = 0 then ⌊y⌋ else ⌊y⌋ + 1

/-- Rounding to the nearest number with 53 bits, ties to even (IEEE 754 `roundTiesToEven`). -/
def rnd (x : ℚ) : ℚ := if x = 0 then 0 else halfEven (x / ulp x) * ulp x

end Glimpse.Double
