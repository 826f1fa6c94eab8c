import Verif.Model.Grid

/-!
Model of what is drawn of rasters and images: `Raster.plot`, `Grid.set_plot_limits` (src/glimpse/raster.py:575-578, 1083-1099),
`Image.plot` (src/glimpse/image.py:224-248), `Camera.set_plot_limits` (src/glimpse/camera.py:1109-1112), `Observer.plot_tile`,
`Observer.plot_box` (src/glimpse/track/observer.py:216-258).

matplotlib is modelled by what its documentation says: `imshow(array, extent=(left, right, bottom, top), origin="upper")` divides the
rectangle into equal cells, the first row at the top and the first column at the left; `xlim` and `ylim` set the coordinates of the left and
right, and of the bottom and top of the axes. Numbers are rationals. Optional arguments to `imshow` are left out.
-/
set_option autoImplicit false

namespace Glimpse.PlotsMap

/-- The argument `extent` of `imshow`. -/
structure Extent where
  left : ℚ
  right : ℚ
  bottom : ℚ
  top : ℚ
deriving DecidableEq

/-- What `imshow` (with `origin="upper"`) draws at a point: the value of the cell in whose part of the rectangle the point is; nothing
outside. (A rectangle of no width or height, or an array without cells, shows nothing.) -/
def shown {α : Type} (array : List (List α)) (e : Extent) (p : ℚ × ℚ) : Option α :=
  let m := array.length
  let n := (array.headD []).length
  let u := (p.1 - e.left) / (e.right - e.left)
  let v := (p.2 - e.top) / (e.bottom - e.top)
  if e.left = e.right ∨ e.top = e.bottom ∨ u < 0 ∨ v < 0 then none
  else (array[⌊v * m⌋.toNat]?).bind fun row => row[⌊u * n⌋.toNat]?

/-- `Raster.plot` (raster.py:1083-1099): array and extent given to `imshow`; `default` is `self.array`. -/
def rasterPlot {α : Type} (g : Grid) (default : List (List α)) (array : Option (List (List α))) : List (List α) × Extent :=
  (array.getD default, ⟨g.ax.lo, g.ax.hi, g.ay.hi, g.ay.lo⟩)

/-- `Image.plot` (image.py:241-248): array and extent given to `imshow`, for the array that `Image.read()` returns. -/
def imagePlot {α : Type} (array : List (List α)) : List (List α) × Extent :=
  (array, ⟨0, (array.headD []).length, array.length, 0⟩)

/-- `Observer.plot_tile` (observer.py:234-239): array and extent given to `imshow`; without a box, `shape[0]` (the number of rows) is the
right and `shape[1]` (of columns) the bottom. -/
def plotTile {α : Type} (tile : List (List α)) (box : Option (ℚ × ℚ × ℚ × ℚ)) : List (List α) × Extent :=
  let b := box.getD (0, 0, tile.length, (tile.headD []).length)
  (tile, ⟨b.1, b.2.2.1, b.2.2.2, b.2.1⟩)

/-- Limits of the axes: left, right, bottom, top. -/
abbrev Axes := Extent

/-- `Grid.set_plot_limits` (raster.py:575-578). -/
def gridLimits (g : Grid) : Axes := ⟨g.ax.lo, g.ax.hi, g.ay.hi, g.ay.lo⟩

/-- `Camera.set_plot_limits` (camera.py:1109-1112), called by `Image.set_plot_limits` (image.py:250-270). -/
def cameraLimits (imgsz : Nat × Nat) : Axes := ⟨0, imgsz.1, imgsz.2, 0⟩

/-- Where a point is drawn in axes: fraction of their width from the left and of their height from the top. -/
def Extent.place (a : Axes) (p : ℚ × ℚ) : ℚ × ℚ := ((p.1 - a.left) / (a.right - a.left), (p.2 - a.top) / (a.bottom - a.top))

/-- `Observer.plot_box` (observer.py:252-258): the anchor, width and height given to `Rectangle`; IndexError for a short box. -/
def plotBox (box : List ℚ) : Except Err ((ℚ × ℚ) × ℚ × ℚ) :=
  match box with
  | x0 :: y0 :: x1 :: y1 :: _ => .ok ((x0, y0), x1 - x0, y1 - y0)
  | _ => .error .indexError

/-- The corners of a `Rectangle`. -/
def rectCorners (r : (ℚ × ℚ) × ℚ × ℚ) : List (ℚ × ℚ) :=
  [r.1, (r.1.1 + r.2.1, r.1.2), (r.1.1 + r.2.1, r.1.2 + r.2.2), (r.1.1, r.1.2 + r.2.2)]

end Glimpse.PlotsMap
