import Verif.Model.Double
import Verif.Model.Boxes
import Verif.Model.Grid

/-!
Model of one axis of `helpers.box_to_grid` (src/glimpse/helpers.py:1296-1302) in double precision. `r` rounds to the nearest double, as
every operation of numpy does; `fmod` of the C library is exact. (Exponents are unbounded, see `Model/Double.lean`.)
-/
set_option autoImplicit false

namespace Glimpse.FloatBoxGrid

/-- C's `fmod(a, b)`: the remainder of the division truncated towards zero, which is a double itself. -/
def fmod (a b : ℚ) : ℚ := a - b * truncInt (a / b)

/-- `a % b` of doubles, as numpy computes it (`npy_divmod`) (helpers.py:1295). -/
def remainder (r : ℚ → ℚ) (a b : ℚ) : ℚ :=
  let m := fmod a b
  if m = 0 then 0 else if decide (b < 0) ≠ decide (m < 0) then r (m + b) else m

/-- `a // b` of doubles, as numpy computes it (`npy_divmod`) (helpers.py:1296): the quotient is snapped to the nearest integer. -/
def floorDivide (r : ℚ → ℚ) (a b : ℚ) : ℤ :=
  let m := fmod a b
  let d := r (r (a - m) / b)
  let d := if m ≠ 0 ∧ decide (b < 0) ≠ decide (m < 0) then r (d - 1) else d
  if d = 0 then 0 else if r (d - ⌊d⌋) > 1 / 2 then ⌊d⌋ + 1 else ⌊d⌋

/-- `np.linspace(start, stop, num)` of doubles (helpers.py:1298): multiples of the rounded step are added to the start; the last value is
`stop` itself. -/
def linspace (r : ℚ → ℚ) (start stop : ℚ) (num : ℤ) : Except Err (List ℚ) :=
  if num < 0 then .error .valueError
  else if num = 1 then .ok [start]
  else
    let delta := r (stop - start)
    let step := r (delta / ((num : ℚ) - 1))
    .ok ((List.range num.toNat).map fun (i : Nat) =>
      if (i : ℤ) + 1 = num then stop
      else if step = 0 then r (start + r (r ((i : ℚ) / ((num : ℚ) - 1)) * delta))
      else r (start + r ((i : ℚ) * step)))

/-- One axis of `helpers.box_to_grid` (helpers.py:1295-1302). A zero step is an error. -/
def axis (r : ℚ → ℚ) (lo hi step snap : ℚ) : Except Err (List ℚ) :=
  if step = 0 then .error .valueError
  else
    let shift := remainder r (r (snap - lo)) step
    let n := floorDivide r (r (r (hi - lo) - shift)) step
    let start := r (lo + shift)
    linspace r start (r (start + r ((n : ℚ) * step))) (n + 1)

end Glimpse.FloatBoxGrid
