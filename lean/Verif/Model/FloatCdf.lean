import Verif.Model.Double
import Verif.Model.Cdf

/-!
Model of `helpers.compute_cdf` and `helpers.match_cdf` (src/glimpse/helpers.py:420-480) with every floating point operation rounded by `r`, and of
`np.interp` as numpy 1.19.5 computes it.
-/
set_option autoImplicit false

namespace Glimpse.FloatCdf

/-- `helpers.compute_cdf` (helpers.py:445-451): sums of counts are integers, and quantiles are rounded quotients. -/
def computeCdfR (r : ℚ → ℚ) (a : List ℚ) : Cdf := { computeCdf a with quantiles := (computeCdf a).quantiles.map r }

/-- `np.interp(q, xp, fp)` for increasing `xp` (helpers.py:479), on the zipped sample points (at least one): the value of the first before it, of the
last from it on, of any other at it, and else `slope * (q - x0) + f0`. -/
def interpR (r : ℚ → ℚ) (q : ℚ) : List (ℚ × ℚ) → ℚ
  | [] => 0
  | [(_, f0)] => f0
  | (x0, f0) :: (x1, f1) :: l =>
    if q < x1 then
      if q < x0 then f0
      else if q = x0 then f0
      else r (r (r (r (f1 - f0) / r (x1 - x0)) * r (q - x0)) + f0)
    else interpR r q ((x1, f1) :: l)

/-- `helpers.match_cdf` (helpers.py:476-480) with the cumulative distribution of the target. -/
def matchCdfR (r : ℚ → ℚ) (a values probs : List ℚ) : Except Err (List ℚ) :=
  if values.length ≠ probs.length ∨ probs = [] then .error .valueError
  else
    let c := computeCdfR r a
    let vals := c.quantiles.map fun q => interpR r q (probs.zip values)
    .ok (c.inverse.map fun i => vals.getD i 0)

/-- `match_cdf(a, b)` for an array `b` (helpers.py:477-478). -/
def matchArrays (r : ℚ → ℚ) (a b : List ℚ) : Except Err (List ℚ) :=
  let c := computeCdfR r b
  matchCdfR r a c.values c.quantiles

end Glimpse.FloatCdf
