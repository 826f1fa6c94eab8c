import Verif.Model.RasterIO

/-!
Model of `Raster.read` (src/glimpse/raster.py:761-836) on a raster opened at another cell size (`Raster.open` with `d`,
raster.py:731-757: `buf_xsize` and `buf_ysize` differ from `win_xsize` and `win_ysize`). `RasterRead` is the case of full resolution.

GDAL is modelled as: `ReadAsArray(xoff, yoff, win_xsize, win_ysize, buf_xsize, buf_ysize)` is nearest neighbour resampling (its default): the
value of a cell is that of the cell of the band at its center, of two cells at the same distance the one to the right or below. It raises if the
window or the buffer is empty or the window is outside of the band. (Simplification: GDAL adds `1e-10` to the center and works with doubles;
overviews are not modelled.)
-/
set_option autoImplicit false

namespace Glimpse

/-- A raster opened from file: the band, the arguments of `ReadAsArray` (`_gdal_kwargs`) and the cached `_array`. -/
structure ScaledFile where
  band : FArray
  /-- columns of the band -/
  bandCols : Nat
  xoff : Nat
  yoff : Nat
  winx : Nat
  winy : Nat
  bufx : Nat
  bufy : Nat
  clean : Option ℚ → Option ℚ
  cached : Option FArray

/-- The cell at the center `(i + 1/2) win / buf` of cell `i` of `buf` cells over a window of `win` cells. -/
def nearestCell (win buf i : Nat) : Nat := (2 * i + 1) * win / (2 * buf)

/-- `band.ReadAsArray` (raster.py:823), then no-data replacement (824-828). -/
def ScaledFile.readAsArray (r : ScaledFile) (xoff yoff wx wy bx byy : Nat) : Except Err FArray :=
  if wx = 0 ∨ wy = 0 ∨ bx = 0 ∨ byy = 0 ∨ r.bandCols < xoff + wx ∨ r.band.length < yoff + wy then .error .other
  else .ok ((List.range byy).map fun i => (List.range bx).map fun j =>
    r.clean ((r.band.getD (yoff + nearestCell wy byy i) []).getD (xoff + nearestCell wx bx j) none))

/-- `Raster.size` (raster.py:868-873). -/
def ScaledFile.size (r : ScaledFile) : Nat × Nat :=
  match r.cached with
  | none => (r.bufx, r.bufy)
  | some a => ((a.headD []).length, a.length)

/-- `Raster.read` (raster.py:795-836). The box in the cells of the file is `box * scale + offset`, truncated (809-822). -/
def ScaledFile.read (r : ScaledFile) (box : Option IBox) (cache : Bool) : Except Err FArray × ScaledFile :=
  let out : Bool := match box with                                                    -- 795-800
    | none => false
    | some b => ! (decide (b.x0 ≤ r.size.1) && decide (b.y0 ≤ r.size.2) && (decide (b.x1 ≤ r.size.1) && decide (b.y1 ≤ r.size.2)))
  if out then (.error .valueError, r)
  else
    match r.cached with
    | some a =>                                                                       -- 832-834
      match box with
      | none => (.ok a, r)
      | some b => (.ok (window a (b.y0, b.y1) (b.x0, b.x1)), r)
    | none =>
      let res := match box with                                                       -- 808-823
        | none => r.readAsArray r.xoff r.yoff r.winx r.winy r.bufx r.bufy
        | some b => r.readAsArray (b.x0 * r.winx / r.bufx + r.xoff) (b.y0 * r.winy / r.bufy + r.yoff)
          ((b.x1 - b.x0) * r.winx / r.bufx) ((b.y1 - b.y0) * r.winy / r.bufy) (b.x1 - b.x0) (b.y1 - b.y0)
      match res with
      | .error e => (.error e, r)
      | .ok a =>
        let r := if cache then { r with cached := some a } else r                     -- 829-831
        match box with
        | some b => (.ok (if cache then window a (b.y0, b.y1) (b.x0, b.x1) else a), r) -- 832-834
        | none => (.ok a, r)

/-- `Raster.array` (raster.py:838-843). -/
def ScaledFile.array (r : ScaledFile) : Except Err FArray × ScaledFile :=
  match r.cached with
  | some a => (.ok a, r)
  | none => r.read none true

/-- One operation: state after it. -/
def ScaledFile.step (r : ScaledFile) (op : ReadOp) : ScaledFile :=
  match op with
  | .read b c => (r.read b c).2
  | .array => r.array.2
  | .clear => { r with cached := none }

/-- A history of operations. -/
def ScaledFile.run (r : ScaledFile) (ops : List ReadOp) : ScaledFile := ops.foldl ScaledFile.step r

namespace RasterIO

/-- The opened raster (raster.py:745-759), at any cell size. -/
def Opened.scaled (o : Opened) (ds : Dataset) : ScaledFile where
  band := ds.bands.getD (o.band - 1) []
  bandCols := ds.nx
  xoff := o.xoff.toNat
  yoff := o.yoff.toNat
  winx := o.winx.toNat
  winy := o.winy.toNat
  bufx := o.bufx.toNat
  bufy := o.bufy.toNat
  clean := (o.file ds).clean
  cached := none

end RasterIO

end Glimpse
