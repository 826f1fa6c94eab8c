import Verif.Model.Basic
import Mathlib.Data.List.Sort
import Mathlib.Data.List.Dedup
import Mathlib.Data.Rat.Defs
import Mathlib.Algebra.Order.Ring.Unbundled.Rat
import Mathlib.Algebra.Order.Field.Rat

/-!
Model of `helpers.compute_cdf` and `helpers.match_cdf` (helpers.py:420-480) on flattened arrays.
-/
set_option autoImplicit false

namespace Glimpse

/-- `np.unique(a)` on a flattened array: the distinct values in ascending order. -/
def npUnique (a : List ℚ) : List ℚ := a.dedup.insertionSort (· ≤ ·)

/-- `np.cumsum`. -/
def cumsum (acc : ℚ) : List ℚ → List ℚ
  | [] => []
  | x :: xs => (acc + x) :: cumsum (acc + x) xs

/-- Result of `helpers.compute_cdf(a, return_inverse=True)`. -/
structure Cdf where
  values : List ℚ
  quantiles : List ℚ
  inverse : List Nat

/-- `helpers.compute_cdf` (helpers.py:445-451): unique values, cumulative counts divided by the size, and the
index of each element among the unique values. -/
def computeCdf (a : List ℚ) : Cdf :=
  let u := npUnique a
  let counts := u.map fun v => (a.count v : ℚ)
  { values := u
    quantiles := (cumsum 0 counts).map (· / (a.length : ℚ))
    inverse := a.map fun v => u.idxOf v }

/-- `np.interp(q, xp, fp)` for increasing `xp` (helpers.py:479), on the zipped sample points. numpy raises
`ValueError` for empty sample points. -/
def interp (q : ℚ) : List (ℚ × ℚ) → Except Err ℚ
  | [] => .error .valueError
  | [(_, f0)] => .ok f0
  | (x0, f0) :: (x1, f1) :: r =>
    if q < x1 then
      if q < x0 then .ok f0
      else .ok (f0 + (f1 - f0) / (x1 - x0) * (q - x0))
    else interp q ((x1, f1) :: r)

/-- `helpers.match_cdf` (helpers.py:476-480); `values` and `probs` are the target cdf (for an array target they
are computed with `compute_cdf`, 477-478). `np.interp` requires equal lengths. The result has one value per
element of `a`, i.e. the shape of `a`. -/
def matchCdf (a : List ℚ) (values probs : List ℚ) : Except Err (List ℚ) := do
  if values.length ≠ probs.length then throw .valueError
  if probs = [] then throw .valueError
  let c := computeCdf a
  let vals ← c.quantiles.mapM fun q => interp q (probs.zip values)
  c.inverse.mapM fun i =>
    match vals[i]? with
    | some v => .ok v
    | none => .error .indexError

end Glimpse
