import Verif.Model.Sample
import Mathlib.Analysis.SpecialFunctions.Trigonometric.Basic

/-!
Model of `Raster.hillshade` (src/glimpse/raster.py:1247-1262) with what it uses of `matplotlib.colors.LightSource`
(matplotlib 3.2.1, poetry.lock): `direction`, `hillshade` (which negates the `dy` it is given, "because most image and
raster GIS data has the first row in the array as the top of the image") and `shade_normals`, with `vert_exag=1` and
`fraction=1`. Values are rationals, without missing cells; angles and intensities are real numbers.
-/
set_option autoImplicit false

namespace Glimpse.Hillshade

open Glimpse.Sample

/-- Radians of an angle in degrees (`np.radians`). -/
noncomputable def radians (deg : ℝ) : ℝ := deg * Real.pi / 180

/-- `LightSource.direction`: unit vector towards the light. -/
noncomputable def direction (azdeg altdeg : ℝ) : ℝ × ℝ × ℝ :=
  (Real.cos (radians (90 - azdeg)) * Real.cos (radians altdeg), Real.sin (radians (90 - azdeg)) * Real.cos (radians altdeg),
    Real.sin (radians altdeg))

/-- `np.gradient(elevation, -dy, dx)` with `dx=self.d[0], dy=self.d[1]` (raster.py:1262): the gradient on the grid with the
limits of y exchanged, which has the same number of rows and cells of size `-self.d[1]`. -/
def slopes (g : Grid) (arr : List (List ℚ)) : Except Err (List (List ℚ) × List (List ℚ)) :=
  gradient ⟨g.ax, ⟨g.ay.hi, g.ay.lo, g.ay.n⟩⟩ arr

/-- The normal of a cell, dotted with the direction of the light. -/
noncomputable def intensity (l : ℝ × ℝ × ℝ) (ex ey : ℚ) : ℝ :=
  (-(ex : ℝ) * l.1 + -(ey : ℝ) * l.2.1 + 1 * l.2.2) / Real.sqrt ((ex : ℝ) ^ 2 + (ey : ℝ) ^ 2 + 1)

/-- Intensities before they are rescaled. -/
noncomputable def intensities (azdeg altdeg : ℝ) (g : Grid) (arr : List (List ℚ)) : Except Err (List (List ℝ)) :=
  match slopes g arr with
  | .error e => .error e
  | .ok (ex, ey) => .ok (List.zipWith (fun rx ry => List.zipWith (intensity (direction azdeg altdeg)) rx ry) ex ey)

/-- `intensity.min()` and `intensity.max()` of values, the first of which is `v`. -/
noncomputable def minOf (v : ℝ) (vs : List ℝ) : ℝ := vs.foldl min v
/-- The largest. -/
noncomputable def maxOf (v : ℝ) (vs : List ℝ) : ℝ := vs.foldl max v

/-- One rescaled value of `shade_normals`: stretched to 0 to 1 if the range is more than 1e-6, and clipped. -/
noncomputable def rescale (lo hi v : ℝ) : ℝ :=
  max 0 (min 1 (if hi - lo > 1 / 1000000 then (v - lo) / (hi - lo) else v))

/-- `LightSource.shade_normals` of intensities. -/
noncomputable def shade (s : List (List ℝ)) : List (List ℝ) :=
  match s.flatten with
  | [] => s
  | v :: vs => s.map fun r => r.map (rescale (minOf v vs) (maxOf v vs))

/-- `Raster.hillshade(azimuth, altitude)` (raster.py:1247-1262). -/
noncomputable def hillshade (azdeg altdeg : ℝ) (g : Grid) (arr : List (List ℚ)) : Except Err (List (List ℝ)) :=
  match intensities azdeg altdeg g arr with
  | .error e => .error e
  | .ok s => .ok (shade s)

end Glimpse.Hillshade
