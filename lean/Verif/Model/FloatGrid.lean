import Verif.Model.Grid
import Verif.Model.Double

/-!
`Grid` in floating point: the functions of `Model/Grid.lean` with every arithmetic operation rounded. `r` is the rounding after an
operation; `r = Double.rnd` is double precision. With `r = id` these are the exact functions of `Model/Grid.lean`
(`Props/FloatGrid.lean`). Limits and coordinates are taken to be floating point numbers already (integer limits are converted by numpy when
they meet a float).
-/
set_option autoImplicit false

namespace Glimpse.FloatGrid
open Glimpse

/-- One component of `Grid.d` (raster.py:118-121): a difference, then a quotient. -/
def d (r : ℚ → ℚ) (a : GAxis) : ℚ := r (r (a.hi - a.lo) / a.n)

/-- Number of cells (with a fraction) from the first limit: `(xy - origin) / self.d` (raster.py:373, 444, 496). -/
def ratio (r : ℚ → ℚ) (a : GAxis) (v : ℚ) : ℚ := r (r (v - a.lo) / d r a)

/-- Raster.py:374-378: the position that the coordinate is nearest to, before the rounded-down outer edge. -/
def steps (r : ℚ → ℚ) (a : GAxis) (centers edges : Bool) (v : ℚ) : ℚ :=
  let t := ratio r a v                                                 -- 373
  let t := if centers && !edges then r (t - 1 / 2)                     -- 374-375
           else if centers && edges then r (t * 2) else t              -- 376-377
  (⌊r (t + 1 / 2)⌋ : ℤ)                                                -- 378

/-- The step of the outer edge (raster.py:379-382). -/
def inner (r : ℚ → ℚ) (a : GAxis) (edges inbounds : Bool) (v t : ℚ) : ℚ :=
  if !edges && inbounds && decide (v = a.hi) then r (t - 1) else t

/-- From a position back to a coordinate (raster.py:383-387). -/
def back (r : ℚ → ℚ) (a : GAxis) (centers edges : Bool) (t : ℚ) : ℚ :=
  let t := if centers && !edges then r (t + 1 / 2)                     -- 383-384
           else if centers && edges then r (t / 2) else t              -- 385-386
  r (r (t * d r a) + a.lo)                                             -- 387

/-- One coordinate of `Grid.snap_xy` (raster.py:372-387). -/
def snap (r : ℚ → ℚ) (a : GAxis) (centers edges inbounds : Bool) (v : ℚ) : ℚ :=
  back r a centers edges (inner r a edges inbounds v (steps r a centers edges v))

/-- One coordinate of `Grid.xy_to_rowcol(xy, snap=False)` (raster.py:495-496). -/
def index (r : ℚ → ℚ) (a : GAxis) (v : ℚ) : ℚ := r (ratio r a v - 1 / 2)

/-- One coordinate of `Grid.xy_to_rowcol(xy, snap=True, inbounds)` (raster.py:493-498). -/
def cell (r : ℚ → ℚ) (a : GAxis) (inbounds : Bool) (v : ℚ) : ℤ := truncInt (index r a (snap r a true false inbounds v))

/-- One coordinate of `Grid.rowcol_to_xy` (raster.py:474-475). -/
def center (r : ℚ → ℚ) (a : GAxis) (c : ℚ) : ℚ := r (r (r (c + 1 / 2) * d r a) + a.lo)

/-- `Grid.snap_xy` (raster.py:342-387) for one point. -/
def snapXy (r : ℚ → ℚ) (g : Grid) (centers edges inbounds : Bool) (p : ℚ × ℚ) : Except Err (ℚ × ℚ) :=
  if !centers && !edges then .error .valueError
  else .ok (snap r g.ax centers edges inbounds p.1, snap r g.ay centers edges inbounds p.2)

/-- `Grid.xyz_to_uv` (raster.py:443-444) for one point. -/
def xyToUv (r : ℚ → ℚ) (g : Grid) (p : ℚ × ℚ) : ℚ × ℚ := (ratio r g.ax p.1, ratio r g.ay p.2)

/-- The x and y of `Grid.uv_to_xyz` (raster.py:456-458) for one point. -/
def uvToXy (r : ℚ → ℚ) (g : Grid) (p : ℚ × ℚ) : ℚ × ℚ :=
  (r (r (p.1 * d r g.ax) + g.ax.lo), r (r (p.2 * d r g.ay) + g.ay.lo))

/-- `Grid.rowcol_to_xy` (raster.py:474-475) for one (row, col). -/
def rowcolToXy (r : ℚ → ℚ) (g : Grid) (rc : ℚ × ℚ) : ℚ × ℚ := (center r g.ax rc.2, center r g.ay rc.1)

/-- `Grid.xy_to_rowcol(xy, snap=False)` (raster.py:495-499) for one point. -/
def xyToRowcol (r : ℚ → ℚ) (g : Grid) (p : ℚ × ℚ) : ℚ × ℚ := (index r g.ay p.2, index r g.ax p.1)

/-- `Grid.xy_to_rowcol(xy, snap=True, inbounds)` (raster.py:493-499) for one point. -/
def xyToRowcolSnap (r : ℚ → ℚ) (g : Grid) (inbounds : Bool) (p : ℚ × ℚ) : Except Err (ℤ × ℤ) := do
  let p ← snapXy r g true false inbounds p
  let rc := xyToRowcol r g p
  return (truncInt rc.1, truncInt rc.2)

/-- The row or column range of one axis in `Grid.crop_extent` (raster.py:553-572), given the clipped limits of the box on this axis.
`%` on floats is `fmod` (exact), with the divisor added if the signs differ. -/
def cropRange (r : ℚ → ℚ) (a : GAxis) (l h : ℚ) : (ℚ × ℚ) × (ℤ × ℤ) :=
  let v0 := if a.lo > a.hi then h else l
  let v1 := if a.lo > a.hi then l else h
  let c0 := cell r a true v0
  let isEdge := decide (r (pyMod (r (a.hi - v1)) (d r a)) = 0)
  let isOuter := decide (v1 = a.hi)
  let c1 := if isEdge && !isOuter then cell r a true v1 - 1 else cell r a true v1
  ((r (center r a c0 + r (-(1 / 2) * d r a)), r (center r a c1 + r (1 / 2 * d r a))), (c0, c1))

/-- `Grid.crop_extent` (raster.py:525-573). Intersecting boxes only compares: nothing is rounded. -/
def cropExtent (r : ℚ → ℚ) (g : Grid) (xlim ylim : Option (ℚ × ℚ)) : Except Err CropExtent := do
  let xl := xlim.getD (g.ax.lo, g.ax.hi)                                   -- 541-542
  let yl := ylim.getD (g.ay.lo, g.ay.hi)                                   -- 543-544
  let box ← intersectBoxes
    [[Min.min xl.1 xl.2, Min.min yl.1 yl.2, Max.max xl.1 xl.2, Max.max yl.1 yl.2],
     [g.ax.min, g.ay.min, g.ax.max, g.ay.max]]                             -- 545-552
  match box with
  | [bx0, by0, bx1, by1] =>
    let x := cropRange r g.ax bx0 bx1
    let y := cropRange r g.ay by0 by1
    return { xlim := x.1, ylim := y.1, rows := y.2, cols := x.2 }
  | _ => throw .valueError

end Glimpse.FloatGrid
