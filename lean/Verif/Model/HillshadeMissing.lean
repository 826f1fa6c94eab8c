import Verif.Model.Hillshade

/-!
Model of `Raster.gradient` (src/glimpse/raster.py:1465-1474) and `Raster.hillshade` (raster.py:1247-1262) of rasters with missing cells (NaN), with what
they use of numpy and of `matplotlib.colors.LightSource` (3.2.1): differences with NaN are NaN, `min` and `max` of an array with any NaN are NaN,
comparisons with NaN are false, and `np.clip` keeps NaN. `none` is NaN.
-/
set_option autoImplicit false

namespace Glimpse.Hillshade
open Glimpse.Sample

/-- `(a - b) / h`, NaN if either is. -/
def slopeM (h : ℚ) (a b : Option ℚ) : Option ℚ := a.bind fun a => b.map fun b => (a - b) / h

/-- `np.gradient` along one axis with `n` cells of size `h` (as `gradient1` of Model/Sample.lean). -/
def gradientM1 (h : ℚ) (n : Nat) (v : Nat → Option ℚ) (i : Nat) : Option ℚ :=
  if i = 0 then slopeM h (v 1) (v 0)
  else if i + 1 = n then slopeM h (v i) (v (i - 1))
  else slopeM (2 * h) (v (i + 1)) (v (i - 1))

/-- A cell of an array. -/
def at_ (arr : List (List (Option ℚ))) (r c : Nat) : Option ℚ := (arr.getD r []).getD c none

/-- `Raster.gradient` (raster.py:1465-1474): derivatives by x and y. -/
def gradientM (g : Grid) (arr : List (List (Option ℚ))) : Except Err (List (List (Option ℚ)) × List (List (Option ℚ))) :=
  if g.ax.n < 2 ∨ g.ay.n < 2 then .error .valueError
  else .ok ((List.range g.ay.n).map fun r => (List.range g.ax.n).map fun c => gradientM1 g.ax.d g.ax.n (fun k => at_ arr r k) c,
    (List.range g.ay.n).map fun r => (List.range g.ax.n).map fun c => gradientM1 g.ay.d g.ay.n (fun k => at_ arr k c) r)

/-- The normal of a cell, dotted with the direction of the light. -/
noncomputable def intensityM (l : ℝ × ℝ × ℝ) (ex ey : Option ℚ) : Option ℝ := ex.bind fun ex => ey.map fun ey => intensity l ex ey

/-- Intensities before they are rescaled (the gradient is by `-dy`, as in Model/Hillshade.lean). -/
noncomputable def intensitiesM (azdeg altdeg : ℝ) (g : Grid) (arr : List (List (Option ℚ))) : Except Err (List (List (Option ℝ))) :=
  match gradientM ⟨g.ax, ⟨g.ay.hi, g.ay.lo, g.ay.n⟩⟩ arr with
  | .error e => .error e
  | .ok (ex, ey) => .ok (List.zipWith (fun rx ry => List.zipWith (intensityM (direction azdeg altdeg)) rx ry) ex ey)

/-- `np.clip(intensity, 0, 1)`. -/
noncomputable def clip (v : ℝ) : ℝ := max 0 (min 1 v)

/-- `LightSource.shade_normals` of intensities: with any NaN, `imax - imin > 1e-6` is false, and nothing is stretched. -/
noncomputable def shadeM (s : List (List (Option ℝ))) : List (List (Option ℝ)) :=
  if s.flatten.all Option.isSome then (shade (s.map fun r => r.map fun v => v.getD 0)).map fun r => r.map some
  else s.map fun r => r.map fun v => v.map clip

/-- `Raster.hillshade(azimuth, altitude)` (raster.py:1247-1262). -/
noncomputable def hillshadeM (azdeg altdeg : ℝ) (g : Grid) (arr : List (List (Option ℚ))) : Except Err (List (List (Option ℝ))) :=
  match intensitiesM azdeg altdeg g arr with
  | .error e => .error e
  | .ok s => .ok (shadeM s)

end Glimpse.Hillshade
