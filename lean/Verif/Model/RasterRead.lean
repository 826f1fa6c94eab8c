import Verif.Model.RasterWindow

/-!
Model of `Raster.read` (src/glimpse/raster.py:761-836) and `Raster.array` (838-843) on a raster opened from a file at full
resolution (`buf_xsize = win_xsize`, `buf_ysize = win_ysize`: raster.py:733-734), as a machine whose state is the cached
array. GDAL is modelled as: `ReadAsArray(xoff, yoff, win_xsize, win_ysize)` returns that window of the band, and raises if
it is empty or outside the band. Replacement of the no-data value is the function `clean` applied to each cell
(raster.py:826-830).
-/
set_option autoImplicit false

namespace Glimpse

/-- A raster opened from file: the band, the window read by default (`_gdal_kwargs`) and the cached `_array`. -/
structure RasterFile where
  band : FArray
  /-- columns of the band -/
  bandCols : Nat
  xoff : Nat
  yoff : Nat
  xsize : Nat
  ysize : Nat
  clean : Option ℚ → Option ℚ
  cached : Option FArray

/-- `band.ReadAsArray` (raster.py:825) at full resolution, then no-data replacement (826-830). -/
def RasterFile.readAsArray (r : RasterFile) (xoff yoff xs ys : Nat) : Except Err FArray :=
  if xs = 0 ∨ ys = 0 ∨ r.bandCols < xoff + xs ∨ r.band.length < yoff + ys then .error .other
  else .ok ((window r.band (yoff, yoff + ys) (xoff, xoff + xs)).map (·.map r.clean))

/-- `Raster.size` (raster.py:868-873). -/
def RasterFile.size (r : RasterFile) : Nat × Nat :=
  match r.cached with
  | none => (r.xsize, r.ysize)
  | some a => ((a.headD []).length, a.length)

/-- An image box (left, top, right, bottom). -/
structure IBox where
  x0 : Nat
  y0 : Nat
  x1 : Nat
  y1 : Nat
deriving DecidableEq

/-- `Raster.read` (raster.py:797-836). -/
def RasterFile.read (r : RasterFile) (box : Option IBox) (cache : Bool) : Except Err FArray × RasterFile :=
  let out : Bool := match box with                                                    -- 797-802
    | none => false
    | some b => ! (decide (b.x0 ≤ r.size.1) && decide (b.y0 ≤ r.size.2) && (decide (b.x1 ≤ r.size.1) && decide (b.y1 ≤ r.size.2)))
  if out then (.error .valueError, r)
  else
    match r.cached with
    | some a =>                                                                       -- 834-835
      match box with
      | none => (.ok a, r)
      | some b => (.ok (window a (b.y0, b.y1) (b.x0, b.x1)), r)
    | none =>
      let res := match box with                                                       -- 810-825
        | none => r.readAsArray r.xoff r.yoff r.xsize r.ysize
        | some b => r.readAsArray (b.x0 + r.xoff) (b.y0 + r.yoff) (b.x1 - b.x0) (b.y1 - b.y0)
      match res with
      | .error e => (.error e, r)
      | .ok a =>
        let r := if cache then { r with cached := some a } else r                     -- 831-833
        match box with
        | some b => (.ok (if cache then window a (b.y0, b.y1) (b.x0, b.x1) else a), r) -- 834-835
        | none => (.ok a, r)

/-- `Raster.array` (raster.py:838-843). -/
def RasterFile.array (r : RasterFile) : Except Err FArray × RasterFile :=
  match r.cached with
  | some a => (.ok a, r)
  | none => r.read none true

/-- Operations that read. -/
inductive ReadOp where
  | read (box : Option IBox) (cache : Bool)
  | array
  /-- `raster.array = None`: clears the cache -/
  | clear
deriving DecidableEq

/-- One operation: state after it. -/
def RasterFile.step (r : RasterFile) (op : ReadOp) : RasterFile :=
  match op with
  | .read b c => (r.read b c).2
  | .array => r.array.2
  | .clear => { r with cached := none }

/-- A history of operations. -/
def RasterFile.run (r : RasterFile) (ops : List ReadOp) : RasterFile := ops.foldl RasterFile.step r

end Glimpse
