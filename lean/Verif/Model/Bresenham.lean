import Mathlib.Data.Int.Order.Basic

/-!
Model of `bresenham_line` in `src/glimpse/helpers.py`.
-/
set_option autoImplicit false

namespace Glimpse

/-- The loop of `helpers.bresenham_line` (helpers.py:919-934): `n` points from `(x, y)` with error `e`. The two copies
of the loop (steep and not) differ only in the order of the coordinates, see `bresenhamLine`. -/
def bresLoop (dx ady ystep : ℤ) : Nat → ℤ → ℤ → ℤ → List (ℤ × ℤ)
  | 0, _, _, _ => []
  | n + 1, x, y, e =>
    (x, y) :: (if e - ady < 0 then bresLoop dx ady ystep n (x + 1) (y + ystep) (e - ady + dx)
      else bresLoop dx ady ystep n (x + 1) y (e - ady))

/-- `helpers.bresenham_line` (helpers.py:898-939). `int(dx / 2)` (911) is modelled as floor division of a non-negative
integer (exact for |dx| < 2^53). -/
def bresenhamLine (start stop : ℤ × ℤ) : List (ℤ × ℤ) :=
  let steep : Bool := decide ((stop.1 - start.1).natAbs < (stop.2 - start.2).natAbs)   -- 901
  let p1 := if steep then start.swap else start                                          -- 903-905
  let p2 := if steep then stop.swap else stop
  let swapped : Bool := decide (p2.1 < p1.1)                                             -- 907-912
  let q1 := if swapped then p2 else p1
  let q2 := if swapped then p1 else p2
  let dx := q2.1 - q1.1
  let ady : ℤ := (q2.2 - q1.2).natAbs
  let error := dx / 2
  let ystep : ℤ := if q1.2 < q2.2 then 1 else -1
  let points := bresLoop dx ady ystep (q2.1 + 1 - q1.1).toNat q1.1 q1.2 error            -- 923-934
  let points := if steep then points.map Prod.swap else points
  if swapped then points.reverse else points                                             -- 936-938

end Glimpse
