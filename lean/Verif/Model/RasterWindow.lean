import Verif.Model.GridState
import Verif.Model.Grid

/-!
Model of the windowing functions of `Raster` (src/glimpse/raster.py): `__getitem__` (669-692), `crop` (1147-1174),
`data_extent` (1492-1514) and `crop_to_data` (1516-1525).

A raster is its grid (limits and size, without caches: see GridState and RasterState for these) and its array of floats,
in which `none` is NaN. Integer arrays and the metadata (datetime, crs) are not modelled.
-/
set_option autoImplicit false

namespace Glimpse

/-- Matrix of floats, row by row; `none` is NaN. -/
abbrev FArray := List (List (Option ℚ))

/-- A `Raster` with an array in memory (raster.py:635-660). The size of the axes is the shape of the array
(raster.py:868-873). -/
structure RasterV where
  g : Grid
  arr : FArray
deriving DecidableEq

/-- `np.argmax` of a boolean vector: index of the first `True`, 0 if there is none; an empty vector raises. -/
def argmaxBool (l : List Bool) : Except Err Nat :=
  if l = [] then .error .valueError
  else .ok (if l.findIdx id < l.length then l.findIdx id else 0)

/-- `np.any(~np.isnan(array), axis=1)` (raster.py:1502-1503). -/
def dataRows (a : FArray) : List Bool := a.map fun r => r.any (·.isSome)

/-- `np.any(~np.isnan(array), axis=0)` (raster.py:1502, 1508), for an array with `nx` columns. -/
def dataCols (nx : Nat) (a : FArray) : List Bool := (List.range nx).map fun c => a.any fun r => (r.getD c none).isSome

/-- `Raster.data_extent` (raster.py:1492-1514): row slice (start, stop) and column slice. -/
def dataExtent (nx : Nat) (a : FArray) : Except Err ((Nat × Nat) × (Nat × Nat)) := do
  let row := dataRows a
  let r0 ← argmaxBool row
  if r0 = 0 ∧ row.head? = some false then throw .valueError
  let r1 := row.length - (← argmaxBool row.reverse)
  let col := dataCols nx a
  let c0 ← argmaxBool col
  let c1 := col.length - (← argmaxBool col.reverse)
  return ((r0, r1), (c0, c1))

/-- `array[r0:r1, c0:c1]` for `r0 ≤ r1`, `c0 ≤ c1`. -/
def window (a : FArray) (r c : Nat × Nat) : FArray :=
  ((a.drop r.1).take (r.2 - r.1)).map fun row => (row.drop c.1).take (c.2 - c.1)

/-- `Raster.crop_to_data` (raster.py:1516-1525). `x[[0, -1]]` is the first and last element. The new size is the shape of
the new array. -/
def RasterV.cropToData (r : RasterV) : Except Err RasterV := do
  let (rows, cols) ← dataExtent r.g.ax.n r.arr
  let xs ← r.g.ax.centers
  let ys ← r.g.ay.centers
  let x := (xs.drop cols.1).take (cols.2 - cols.1)
  let y := (ys.drop rows.1).take (rows.2 - rows.1)
  match x.head?, x.getLast?, y.head?, y.getLast? with
  | some xa, some xb, some ya, some yb =>
    let xlim ← parseLimits [xa + -(1 / 2) * r.g.ax.d, xb + 1 / 2 * r.g.ax.d]
    let ylim ← parseLimits [ya + -(1 / 2) * r.g.ay.d, yb + 1 / 2 * r.g.ay.d]
    let arr := window r.arr rows cols
    return { g := ⟨⟨xlim.1, xlim.2, (arr.headD []).length⟩, ⟨ylim.1, ylim.2, arr.length⟩⟩, arr := arr }
  | _, _, _, _ => throw .indexError

/-- The z part of `Raster.crop` (raster.py:1169-1174) on a float array: values outside `zlim` become NaN (comparison
with NaN is false). -/
def RasterV.cropZ (r : RasterV) (zlim : Option (ℚ × ℚ)) : RasterV :=
  match zlim with
  | none => r
  | some z =>
    { r with arr := r.arr.map fun (row : List (Option ℚ)) => row.map fun (v : Option ℚ) =>
        match v with
        | none => none
        | some q => if q < Min.min z.1 z.2 ∨ q > Max.max z.1 z.2 then none else some q }

/-- `Raster.crop` (raster.py:1164-1174): spatial crop, then crop in z. -/
def RasterV.crop (r : RasterV) (xlim ylim : Option (ℚ × ℚ)) (zlim : Option (ℚ × ℚ)) : Except Err RasterV := do
  let r ← (if xlim.isSome || ylim.isSome then do
      let e ← r.g.cropExtent xlim ylim
      let arr := window r.arr (e.rows.1.toNat, (e.rows.2 + 1).toNat) (e.cols.1.toNat, (e.cols.2 + 1).toNat)
      let xl ← parseLimits [e.xlim.1, e.xlim.2]
      let yl ← parseLimits [e.ylim.1, e.ylim.2]
      return { g := ⟨⟨xl.1, xl.2, (arr.headD []).length⟩, ⟨yl.1, yl.2, arr.length⟩⟩, arr := arr }
    else return r : Except Err RasterV)
  return r.cropZ zlim

/-- A Python slice object with integer or `None` fields. -/
structure PySlice where
  start : Option Int
  stop : Option Int
  step : Option Int
deriving DecidableEq

/-- A slice bound relative to a sequence of length `n` (`slice.indices` of the Python language): negative bounds count
from the end, then bounds are clipped. -/
def sliceBound (n : Nat) (step i : Int) : Int :=
  if i < 0 then Max.max (i + n) (if step > 0 then 0 else -1) else Min.min i (if step > 0 then n else n - 1)

/-- First index of a slice. -/
def PySlice.first (s : PySlice) (n : Nat) : Int :=
  let step := s.step.getD 1
  s.start.elim (if step > 0 then 0 else n - 1) (sliceBound n step)

/-- End of a slice. -/
def PySlice.last (s : PySlice) (n : Nat) : Int :=
  let step := s.step.getD 1
  s.stop.elim (if step > 0 then n else -1) (sliceBound n step)

/-- Number of indices in a slice. -/
def sliceCount (step first last : Int) : Int :=
  if step > 0 then (if first < last then (last - first - 1) / step + 1 else 0)
  else (if last < first then (first - last - 1) / (-step) + 1 else 0)

/-- Indices of a sequence of length `n` selected by a slice; a zero step raises. -/
def PySlice.indices (s : PySlice) (n : Nat) : Except Err (List Nat) :=
  if s.step.getD 1 = 0 then .error .valueError
  else .ok ((List.range (sliceCount (s.step.getD 1) (s.first n) (s.last n)).toNat).map fun i : Nat =>
    (s.first n + i * s.step.getD 1).toNat)

/-- An index of `Raster.__getitem__`: an integer or a slice. -/
inductive PyIndex where
  | int (i : Int)
  | slice (s : PySlice)
deriving DecidableEq

/-- raster.py:678-681: an integer `i` becomes `slice(i, i + 1)`. -/
def PyIndex.toSlice : PyIndex → PySlice
  | .int i => ⟨some i, some (i + 1), none⟩
  | .slice s => s

/-- Limits of one axis of the subset (raster.py:682-691) and the constructor's `_parse_xy` (raster.py:241-267):
`xs` are the selected coordinates, `d` the cell size of the raster. -/
def subsetLimits (d : ℚ) (s : PySlice) (xs : List ℚ) : Except Err (ℚ × ℚ) := do
  let step := s.step.getD 0
  let d := if step ≠ 0 ∧ step > 1 then d * step else d                           -- 683-686
  let value ← (if xs.length < 3 then                                             -- 688-691
      match xs.head?, xs.getLast? with
      | some a, some b => .ok [a + -(1 / 2) * d, b + 1 / 2 * d]
      | _, _ => .error .indexError
    else .ok xs : Except Err (List ℚ))
  let (lim, _, _) ← parseVec value false
  return lim

/-- `array[i, j]` for index lists. -/
def takeRowsCols (a : FArray) (rows cols : List Nat) : FArray :=
  rows.map fun i => cols.map fun j => ((a.getD i []).getD j none)

/-- `Raster.__getitem__` (raster.py:669-692) with two indices. -/
def RasterV.getitem (r : RasterV) (i j : PyIndex) : Except Err RasterV := do
  let si := i.toSlice
  let sj := j.toSlice
  let xs ← r.g.ax.centers
  let cols ← sj.indices r.g.ax.n
  let ys ← r.g.ay.centers
  let rows ← si.indices r.g.ay.n
  let x := cols.map fun c => xs.getD c 0
  let y := rows.map fun c => ys.getD c 0
  let xlim ← subsetLimits r.g.ax.d sj x
  let ylim ← subsetLimits r.g.ay.d si y
  return { g := ⟨⟨xlim.1, xlim.2, cols.length⟩, ⟨ylim.1, ylim.2, rows.length⟩⟩, arr := takeRowsCols r.arr rows cols }

end Glimpse
