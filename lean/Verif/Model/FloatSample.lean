import Verif.Model.Double
import Verif.Model.Sample

/-!
Model of `Raster.sample` at points with order 1 (src/glimpse/raster.py:1001-1009, 889-898) for rasters with more than one row and column, with every
floating point operation rounded by `r`: `RegularGridInterpolator` (scipy 1.4.1) `_find_indices` and `_evaluate_linear`, on ascending coordinates.
Also `interp1d` (linear), for rasters of one row or column (1027-1038).
-/
set_option autoImplicit false

namespace Glimpse.FloatSample
open Glimpse.Sample

/-- The interval of Model/Sample.lean (comparisons are exact), and the rounded fraction of it. -/
def intervalR (r : ℚ → ℚ) (xs : List ℚ) (x : ℚ) : Nat × ℚ :=
  let i := (interval xs x).1
  (i, r (r (x - xs.getD i 0) / r (xs.getD (i + 1) 0 - xs.getD i 0)))

/-- One of the four terms (`values[edge_indices] * weight`). -/
def term (r : ℚ → ℚ) (v a b : ℚ) : ℚ := r (v * r (a * b))

/-- `RegularGridInterpolator.__call__`, method linear. -/
def linear2R (r : ℚ → ℚ) (xs ys : List ℚ) (vals : List (List ℚ)) (p : ℚ × ℚ) : ℚ :=
  let a := intervalR r xs p.1
  let b := intervalR r ys p.2
  r (r (r (term r (at2 vals a.1 b.1) (r (1 - a.2)) (r (1 - b.2)) + term r (at2 vals a.1 (b.1 + 1)) (r (1 - a.2)) b.2) +
    term r (at2 vals (a.1 + 1) b.1) a.2 (r (1 - b.2))) + term r (at2 vals (a.1 + 1) (b.1 + 1)) a.2 b.2)

/-- `interp1d`, linear: `slope * (x - x_lo) + y_lo`. -/
def linear1R (r : ℚ → ℚ) (xs vs : List ℚ) (x : ℚ) : ℚ :=
  let i := (interval xs x).1
  let slope := r (r (vs.getD (i + 1) 0 - vs.getD i 0) / r (xs.getD (i + 1) 0 - xs.getD i 0))
  r (r (slope * r (x - xs.getD i 0)) + vs.getD i 0)

end Glimpse.FloatSample
