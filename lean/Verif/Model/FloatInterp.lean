import Verif.Model.Double

/-!
Model of one cell of `RasterInterpolant._interpolate` (src/glimpse/raster.py:1673-1700) with every floating point operation rounded by `r`. Positions
are numbers, or datetimes (`datetimes`): the quotient of two `datetime.timedelta` is that of integers of microseconds, rounded once.
-/
set_option autoImplicit false

namespace Glimpse.FloatInterp

/-- `scale = (xi - x[0]) / (x[1] - x[0])` (raster.py:1682-1683). -/
def scale (r : ℚ → ℚ) (datetimes : Bool) (x0 x1 xi : ℚ) : ℚ :=
  if datetimes then r ((xi - x0) / (x1 - x0)) else r (r (xi - x0) / r (x1 - x0))

/-- `z = means[0].array + dz * scale` with `dz = means[1].array - means[0].array` (raster.py:1681, 1684). -/
def mean (r : ℚ → ℚ) (datetimes : Bool) (x0 x1 xi z0 z1 : ℚ) : ℚ := r (z0 + r (r (z1 - z0) * scale r datetimes x0 x1 xi))

/-- `nearest_dx / dx` (raster.py:1694-1695). -/
def nearest (r : ℚ → ℚ) (datetimes : Bool) (x0 x1 xi : ℚ) : ℚ :=
  if datetimes then r (min |xi - x0| |xi - x1| / (x1 - x0)) else r (min |r (xi - x0)| |r (xi - x1)| / r (x1 - x0))

/-- The variance (raster.py:1690-1697), of which the result is the square root. (Simplification: squares are rounded products.) -/
def variance (r : ℚ → ℚ) (datetimes : Bool) (x0 x1 xi z0 z1 s0 s1 : ℚ) : ℚ :=
  let s := scale r datetimes x0 x1 xi
  let zvar := r (r (s0 * s0) + r (r (s * s) * r (r (s0 * s0) + r (s1 * s1))))
  let d := r (r (r (1 / 3) * r (z1 - z0)) * nearest r datetimes x0 x1 xi)
  r (zvar + r (d * d))

end Glimpse.FloatInterp
