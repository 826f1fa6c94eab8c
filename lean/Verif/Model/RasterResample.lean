import Verif.Model.Sample

/-!
Model of `Raster.resample` (src/glimpse/raster.py:1070-1081), over the model of `Raster.sample`. The memory shared with the
target grid is modelled in `RasterMemory`.
-/
set_option autoImplicit false

namespace Glimpse.RasterResample

open Glimpse.Sample

/-- A raster: limits (`xlim`, `ylim`), and the array that gives the number of cells (`Raster.size`, raster.py:868-874). -/
structure Ras where
  xlim : ℚ × ℚ
  ylim : ℚ × ℚ
  cells : Cells
deriving DecidableEq

/-- The grid of the raster (`Raster.size`, raster.py:868-874, for an array in memory). -/
def Ras.grid (r : Ras) : Grid :=
  ⟨⟨r.xlim.1, r.xlim.2, (r.cells.headD []).length⟩, ⟨r.ylim.1, r.ylim.2, r.cells.length⟩⟩

/-- `_sample_1d` (1027-1038) along the only long dimension, for an array without missing values. Orders above 1 are not
modelled: order 1 is used for them. -/
def thinLine (order : Nat) (r : Ras) (x : ℚ) : ℚ :=
  let arr := r.cells.map fun row => row.map fun v => v.getD 0
  match (if 1 < r.grid.ax.n then line1 (min order 1) r.grid.ax (arr.headD []) x
    else line1 (min order 1) r.grid.ay (arr.map fun row => row.headD 0) x) with
  | .ok v => v
  | .error _ => 0

/-- The only cell (`self.array.flat[0]`, 986). Simplified: a missing one is not modelled (0). -/
def thinConst (r : Ras) : ℚ := ((r.cells.headD []).headD none).getD 0

/-- `Raster.resample(grid, order=, bounds_error=, fill_value=)` (1070-1081): the exception if any, and the raster afterwards.
`spline` is the surface that scipy fits to the array of this raster. The arguments of `sample` are its own
(`order=1`, `bounds_error=True`, `fill_value=np.nan`, which is `some none`). -/
def Ras.resample (spline : List (List ℚ) → ℚ → ℚ → ℚ) (M : ℚ) (r : Ras) (g : Grid) (order : Nat) (boundsError : Bool)
    (fill : Option (Option ℚ)) : Ras × Option Err :=
  match g.ax.centers, g.ay.centers with
  | .ok xs, .ok ys =>
    match sampleGrid spline (thinLine order r) (thinConst r) M order r.grid r.cells xs ys boundsError fill with
    | (.ok s, _) => ({ xlim := (g.ax.lo, g.ax.hi), ylim := (g.ay.lo, g.ay.hi), cells := s }, none)
    | (.error e, c) => ({ xlim := r.xlim, ylim := r.ylim, cells := c }, some e)
  | .error e, _ => (r, some e)
  | .ok _, .error e => (r, some e)

end Glimpse.RasterResample
