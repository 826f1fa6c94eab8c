import Verif.Model.RasterWindow

/-!
Model of `RasterInterpolant` (src/glimpse/raster.py:1528-1781): `nearest` (1642-1671), `_interpolate` (1673-1700) and
`__call__` (1702-1781) for rasters that already share one grid of square cells and no crop bounds, in which case no
raster is cropped, resized or resampled (1745-1768), and the cell-size branch of `_parse_as_raster` (1575-1589).

Positions are rationals (numbers, or datetimes as numbers of seconds). A cell is `none` when it is not finite. numpy's
`argsort` of the distances is not a stable sort: the model takes its result as an argument (`order`), of which only the
definition of a sort is assumed in the theorems.
-/
set_option autoImplicit false

namespace Glimpse

/-- Indices of the positions that satisfy a test (`np.where(...)[0]`). -/
def whereIdx (x : List ℚ) (p : ℚ → Bool) : List Nat := (List.range x.length).filter fun i => p (x.getD i 0)

/-- `idx[np.argmin(f(idx))]`: first index of minimal value. -/
def argminOn (f : Nat → ℚ) : List Nat → Option Nat
  | [] => none
  | i :: l => some (l.foldl (fun b k => if f k < f b then k else b) i)

/-- The first two of the sorted indices (raster.py:1660). -/
def twoFirst (order : List Nat) : Except Err (Nat × Nat) :=
  match order.take 2 with
  | [i, j] => .ok (i, j)
  | _ => .error .valueError

/-- The nearest positions on either side (raster.py:1662-1668). -/
def bracketPair (x : List ℚ) (xi : ℚ) : Except Err (Nat × Nat) :=
  let before := whereIdx x fun v => decide (v - xi ≤ 0)                               -- 1663
  let after := whereIdx x fun v => decide (v - xi ≥ 0)                                -- 1664
  match argminOn (fun k => |x.getD k 0 - xi|) before, argminOn (fun k => x.getD k 0 - xi) after with
  | some i, some j => .ok (i, j)                                                      -- 1667-1668
  | _, _ => .error .valueError                                                        -- 1665-1666

/-- `RasterInterpolant.nearest` (raster.py:1656-1671). `order` is the result of `abs(dx).argsort()`. -/
def nearestPair (x : List ℚ) (xi : ℚ) (extrapolate : Bool) (order : List Nat) : Except Err (Nat × Nat) :=
  if x = [] then .error .indexError                                                   -- 1657: dx[0]
  else match (if extrapolate then twoFirst order else bracketPair x xi) with
    | .error e => .error e
    | .ok ij => .ok (if x.getD ij.2 0 < x.getD ij.1 0 then (ij.2, ij.1) else ij)      -- 1669-1671

/-- Combination of two cells; not finite if either is. -/
def zipCell (f : ℚ → ℚ → Option ℚ) (u v : Option ℚ) : Option ℚ := u.bind fun p => v.bind fun q => f p q

/-- Cell by cell combination of two arrays of the same shape. -/
def zipCells (f : ℚ → ℚ → Option ℚ) (a b : FArray) : FArray := List.zipWith (List.zipWith (zipCell f)) a b

/-- The mean part of `RasterInterpolant._interpolate` (raster.py:1680-1686). With equal positions the scale is 0 / 0 or
infinite: for datetimes that raises (`datetimes`), for numbers no cell is finite. -/
def interpolateMeans (datetimes : Bool) (m0 m1 : FArray) (x0 x1 xi : ℚ) : Except Err FArray :=
  let dx := x1 - x0
  if dx = 0 then
    if datetimes then .error .zeroDivision else .ok (zipCells (fun _ _ => none) m0 m1)
  else .ok (zipCells (fun p q => some (p + (q - p) * ((xi - x0) / dx))) m0 m1)

/-- Square of one cell of the sigma raster (raster.py:1690-1696), for positions that differ. -/
def sigmaSq (z0 z1 s0 s1 x0 x1 xi : ℚ) : ℚ :=
  let dz := z1 - z0
  let dx := x1 - x0
  let scale := (xi - x0) / dx
  let zvar := s0 ^ 2 + scale ^ 2 * (s0 ^ 2 + s1 ^ 2)
  let nearestDx := Min.min |xi - x0| |xi - x1|
  let zivar := ((1 / 3) * dz * (nearestDx / dx)) ^ 2
  zvar + zivar

/-- `RasterInterpolant.__call__` (raster.py:1743-1781) without `return_sigma`, for rasters on one grid. -/
def interpolantCall (datetimes : Bool) (x : List ℚ) (means : List FArray) (xi : ℚ) (extrapolate : Bool)
    (order : List Nat) : Except Err FArray := do
  let ij ← nearestPair x xi extrapolate order
  interpolateMeans datetimes (means.getD ij.1 []) (means.getD ij.2 []) (x.getD ij.1 0) (x.getD ij.2 0) xi

/-- Number of cells along an axis after `scipy.ndimage.zoom(array, zoom)` (called in raster.py:1185): `round(n * zoom)`,
ties to even. -/
def zoomSize (n : Nat) (zoom : ℚ) : Int := roundHalfEven (n * zoom)

/-- Cell size along an axis of a raster in memory after `_parse_as_raster(obj, d=d)` (raster.py:1578, 1585-1588): resized
by the fraction d / mean |cell size| if these differ; limits are kept (raster.py:1176-1185). -/
def parsedCellSize (g : Grid) (d : ℚ) : ℚ :=
  let mean := (|g.ax.d| + |g.ay.d|) / 2
  if d = mean then |g.ax.d| else |g.ax.hi - g.ax.lo| / zoomSize g.ax.n (d / mean)

end Glimpse
