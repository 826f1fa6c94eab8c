import Verif.Model.Double

/-!
Model of `helpers.elevation_corrections` (src/glimpse/helpers.py:1530-1549) with every floating point operation rounded by `r`.
-/
set_option autoImplicit false

namespace Glimpse.FloatCorrection

/-- `(refraction - 1) * squared_distances / (2 * radius)` for one squared distance (helpers.py:1549), in the order that Python evaluates it. -/
def correction (r : ℚ → ℚ) (d radius refraction : ℚ) : ℚ := r (r (r (refraction - 1) * d) / r (2 * radius))

/-- `elevation_corrections` for an array (helpers.py:1549). -/
def corrections (r : ℚ → ℚ) (ds : List ℚ) (radius refraction : ℚ) : List ℚ := ds.map fun d => correction r d radius refraction

end Glimpse.FloatCorrection
