import Verif.Model.Boxes
import Verif.Model.Search

/-!
Model of `Grid` in `src/glimpse/raster.py` (22-609): coordinates, snapping, indexing, cropping and tiling.

numpy works on both axes at once and componentwise; the model has one `GAxis` per coordinate and a `Grid` of two axes.
Numbers are rationals: rounding of floating point is not modelled (in particular, `astype(int)` in `xy_to_rowcol` is
applied to an exact integer here).
-/
set_option autoImplicit false

namespace Glimpse

/-- One axis of a `Grid`: outer limits (`xlim[0]`, `xlim[1]`) and number of cells (raster.py:49-51, 87-109). -/
structure GAxis where
  /-- first outer limit (left or top) -/
  lo : ℚ
  /-- second outer limit (right or bottom) -/
  hi : ℚ
  /-- number of cells -/
  n : Nat
deriving DecidableEq

/-- `Grid` (raster.py:22-53) without caches: the x axis (`xlim`, `size[0]`) and the y axis (`ylim`, `size[1]`). -/
structure Grid where
  ax : GAxis
  ay : GAxis
deriving DecidableEq

/-- One component of `Grid.d` (raster.py:118-121). -/
def GAxis.d (a : GAxis) : ℚ := (a.hi - a.lo) / a.n
/-- One component of `Grid.min` (raster.py:123-126). -/
def GAxis.min (a : GAxis) : ℚ := Min.min a.lo a.hi
/-- One component of `Grid.max` (raster.py:128-131). -/
def GAxis.max (a : GAxis) : ℚ := Max.max a.lo a.hi

/-- `Grid.x` / `Grid.y` when not cached (raster.py:141-152, 164-175). -/
def GAxis.centers (a : GAxis) : Except Err (List ℚ) := do
  let value ← linspace (a.min + |a.d| / 2) (a.max - |a.d| / 2) a.n
  return if a.d < 0 then value.reverse else value

/-- `Grid.X` when not cached (raster.py:155-159): `np.tile(x, (ny, 1))`. -/
def tileRows (x : List ℚ) (ny : Nat) : List (List ℚ) := List.replicate ny x
/-- `Grid.Y` when not cached (raster.py:177-181): `np.tile(y, (nx, 1)).T`. -/
def tileCols (y : List ℚ) (nx : Nat) : List (List ℚ) := y.map (List.replicate nx)

/-- `Grid.inbounds_xy(xy, grid=False)` (raster.py:336) for one point. -/
def Grid.inboundsXy (g : Grid) (p : ℚ × ℚ) : Bool :=
  decide (g.ax.min ≤ p.1) && decide (g.ay.min ≤ p.2) && (decide (p.1 ≤ g.ax.max) && decide (p.2 ≤ g.ay.max))

/-- `Grid.inbounds_xy(xy, grid=True)` (raster.py:331-335). -/
def Grid.inboundsVectors (g : Grid) (xs ys : List ℚ) : List Bool × List Bool :=
  (xs.map fun x => decide (g.ax.min ≤ x) && decide (x ≤ g.ax.max),
   ys.map fun y => decide (g.ay.min ≤ y) && decide (y ≤ g.ay.max))

/-- One coordinate of `Grid.snap_xy` (raster.py:372-387). -/
def GAxis.snap (a : GAxis) (centers edges inbounds : Bool) (v : ℚ) : ℚ :=
  let t := (v - a.lo) / a.d                                            -- 373
  let t := if centers && !edges then t - 1 / 2                         -- 374-375
           else if centers && edges then t * 2 else t                  -- 376-377
  let t : ℚ := (⌊t + 1 / 2⌋ : ℤ)                                       -- 378
  let t := if !edges && inbounds && decide (v = a.hi) then t - 1 else t -- 379-382
  let t := if centers && !edges then t + 1 / 2                         -- 383-384
           else if centers && edges then t / 2 else t                  -- 385-386
  t * a.d + a.lo                                                       -- 387

/-- `Grid.snap_xy` (raster.py:342-387) for one point. -/
def Grid.snapXy (g : Grid) (centers edges inbounds : Bool) (p : ℚ × ℚ) : Except Err (ℚ × ℚ) :=
  if !centers && !edges then .error .valueError
  else .ok (g.ax.snap centers edges inbounds p.1, g.ay.snap centers edges inbounds p.2)

/-- `Grid.snap_box` (raster.py:389-420). -/
def Grid.snapBox (g : Grid) (xy size : ℚ × ℚ) (centers edges inbounds : Bool) : Except Err (List ℚ) := do
  let lo := (xy.1 - size.1 * (1 / 2), xy.2 - size.2 * (1 / 2))
  let hi := (xy.1 + size.1 * (1 / 2), xy.2 + size.2 * (1 / 2))
  if !g.inboundsXy lo || !g.inboundsXy hi then throw .indexError
  let a ← g.snapXy centers edges inbounds lo
  let b ← g.snapXy centers edges inbounds hi
  return [a.1, a.2, b.1, b.2]

/-- `Grid.xyz_to_uv` (raster.py:443-444) for one point. -/
def Grid.xyToUv (g : Grid) (p : ℚ × ℚ) : ℚ × ℚ :=
  ((p.1 - g.ax.lo) / g.ax.d, (p.2 - g.ay.lo) / g.ay.d)

/-- The x and y of `Grid.uv_to_xyz` (raster.py:456-458) for one point; z is NaN and not modelled. -/
def Grid.uvToXy (g : Grid) (p : ℚ × ℚ) : ℚ × ℚ :=
  (p.1 * g.ax.d + g.ax.lo, p.2 * g.ay.d + g.ay.lo)

/-- `Grid.rowcol_to_xy` (raster.py:474-475) for one (row, col). -/
def Grid.rowcolToXy (g : Grid) (rc : ℚ × ℚ) : ℚ × ℚ :=
  ((rc.2 + 1 / 2) * g.ax.d + g.ax.lo, (rc.1 + 1 / 2) * g.ay.d + g.ay.lo)

/-- `Grid.xy_to_rowcol(xy, snap=False)` (raster.py:495-499) for one point. -/
def Grid.xyToRowcol (g : Grid) (p : ℚ × ℚ) : ℚ × ℚ :=
  ((p.2 - g.ay.lo) / g.ay.d - 1 / 2, (p.1 - g.ax.lo) / g.ax.d - 1 / 2)

/-- `astype(int)`: truncation toward zero. -/
def truncInt (q : ℚ) : Int := if 0 ≤ q then ⌊q⌋ else ⌈q⌉

/-- `Grid.xy_to_rowcol(xy, snap=True, inbounds)` (raster.py:493-499) for one point. -/
def Grid.xyToRowcolSnap (g : Grid) (inbounds : Bool) (p : ℚ × ℚ) : Except Err (Int × Int) := do
  let p ← g.snapXy true false inbounds p
  let rc := g.xyToRowcol p
  return (truncInt rc.1, truncInt rc.2)

/-- `np.ravel_multi_index((row, col), (ny, nx))` (raster.py:501-511), which raises on indices outside the array. -/
def Grid.rowcolToIdx (g : Grid) (rc : Int × Int) : Except Err Int :=
  if 0 ≤ rc.1 ∧ rc.1 < g.ay.n ∧ 0 ≤ rc.2 ∧ rc.2 < g.ax.n then .ok (rc.1 * g.ax.n + rc.2) else .error .valueError

/-- `np.unravel_index(idx, (ny, nx))` (raster.py:513-523), which raises on indices outside the array. -/
def Grid.idxToRowcol (g : Grid) (i : Int) : Except Err (Int × Int) :=
  if 0 ≤ i ∧ i < g.ay.n * g.ax.n then .ok (i / g.ax.n, i % g.ax.n) else .error .valueError

/-- The row or column range of one axis in `Grid.crop_extent` (raster.py:553-572), given the clipped limits
`l ≤ r` of the box on this axis: flip (553-558), snap to indices (560-561), snap the far end down from interior edges
(564-568), limits of the cell range (569-572). -/
def GAxis.cropRange (a : GAxis) (l r : ℚ) : (ℚ × ℚ) × (Int × Int) :=
  let v0 := if a.lo > a.hi then r else l
  let v1 := if a.lo > a.hi then l else r
  let idx (v : ℚ) : Int := truncInt ((a.snap true false true v - a.lo) / a.d - 1 / 2)
  let c0 := idx v0
  let isEdge := decide (pyMod (a.hi - v1) a.d = 0)
  let isOuter := decide (v1 = a.hi)
  let c1 := if isEdge && !isOuter then idx v1 - 1 else idx v1
  let center (c : Int) : ℚ := ((c : ℚ) + 1 / 2) * a.d + a.lo
  ((center c0 + -(1 / 2) * a.d, center c1 + 1 / 2 * a.d), (c0, c1))

/-- Result of `Grid.crop_extent`. -/
structure CropExtent where
  xlim : ℚ × ℚ
  ylim : ℚ × ℚ
  rows : Int × Int
  cols : Int × Int
deriving DecidableEq

/-- `Grid.crop_extent` (raster.py:525-573). -/
def Grid.cropExtent (g : Grid) (xlim ylim : Option (ℚ × ℚ)) : Except Err CropExtent := do
  let xl := xlim.getD (g.ax.lo, g.ax.hi)                                   -- 541-542
  let yl := ylim.getD (g.ay.lo, g.ay.hi)                                   -- 543-544
  let box ← intersectBoxes
    [[Min.min xl.1 xl.2, Min.min yl.1 yl.2, Max.max xl.1 xl.2, Max.max yl.1 yl.2],
     [g.ax.min, g.ay.min, g.ax.max, g.ay.max]]                             -- 545-552
  match box with
  | [bx0, by0, bx1, by1] =>
    let x := g.ax.cropRange bx0 bx1
    let y := g.ay.cropRange by0 by1
    return { xlim := x.1, ylim := y.1, rows := y.2, cols := x.2 }
  | _ => throw .valueError

/-- `np.round` to the nearest integer, ties to even. -/
def roundHalfEven (q : ℚ) : Int :=
  let f := ⌊q⌋
  if q - f < 1 / 2 then f
  else if q - f > 1 / 2 then f + 1
  else if f % 2 = 0 then f else f + 1

/-- `np.unique` of a sorted vector: first of each run of equal elements. -/
def uniqueSorted : List ℚ → List ℚ
  | [] => []
  | [a] => [a]
  | a :: b :: l => if a = b then uniqueSorted (b :: l) else a :: uniqueSorted (b :: l)

/-- Tile number of each cell along one axis (raster.py:594-598): `floor(arange(n) / ceil(n / m))` with
`m = round(n / size)`; for `m = 0` the division gives infinity and every cell is in tile 0. -/
def tileNumbers (n : Nat) (size : ℚ) : List ℚ :=
  let m := roundHalfEven (n / size)
  (List.range n).map fun i : Nat => if m = 0 then 0 else ((⌊(i : ℚ) / (⌈(n : ℚ) / (m : ℚ)⌉ : ℤ)⌋ : ℤ) : ℚ)

/-- Tile ends along one axis (raster.py:599-600): `np.insert(np.searchsorted(xi, np.unique(xi), "right"), 0, 0)`. -/
def tileEnds (n : Nat) (size : ℚ) : List Int :=
  let xi := tileNumbers n size
  0 :: (uniqueSorted xi).map fun u => (searchRight xi u : Int)

/-- Tile starts along one axis (raster.py:602-605): the ends, with all but the first and last moved back by
`overlap`. -/
def tileStarts (ends : List Int) (overlap : Int) : List Int :=
  ends.take 1 ++ ((ends.drop 1).take (ends.length - 2)).map (· - overlap) ++ ends.drop (Max.max 1 (ends.length - 1))

/-- The slices (start, stop) along one axis (raster.py:606-609). -/
def tileSlices (n : Nat) (size : ℚ) (overlap : Int) : List (Int × Int) :=
  let ends := tileEnds n size
  ((tileStarts ends overlap).take (ends.length - 1)).zip (ends.drop 1)

/-- `Grid.tile_indices` (raster.py:580-609): pairs (row slice, column slice). `size` zero divides by zero: not
modelled. -/
def Grid.tileIndices (g : Grid) (size : ℚ × ℚ) (overlap : Int × Int) : List ((Int × Int) × (Int × Int)) :=
  (tileSlices g.ay.n size.2 overlap.2).flatMap fun r =>
    (tileSlices g.ax.n size.1 overlap.1).map fun c => (r, c)

/-- Cells selected along one axis of length `n` by a Python slice `start:stop` (negative bounds count from the end,
then bounds are clipped). -/
def sliceCells (n : Nat) (s : Int × Int) : List Nat :=
  let norm (i : Int) : Nat := if i < 0 then (i + n).toNat else Min.min i.toNat n
  (List.range n).filter fun i => norm s.1 ≤ i ∧ i < norm s.2

/-- Number of cells `(row, col)` of the grid selected by a pair of slices. -/
def Grid.tileHas (g : Grid) (t : (Int × Int) × (Int × Int)) (row col : Nat) : Bool :=
  decide (row ∈ sliceCells g.ay.n t.1) && decide (col ∈ sliceCells g.ax.n t.2)

end Glimpse
