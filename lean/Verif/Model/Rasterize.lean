import Verif.Model.Basic
import Mathlib.Data.List.Sort
import Mathlib.Data.List.Dedup
import Mathlib.Data.Rat.Defs
import Mathlib.Algebra.Order.Field.Rat

/-!
Model of `helpers.rasterize_points` (`src/glimpse/helpers.py:1376-1457`) for one value per point (an array of `d` values per
point is handled column by column by the code, 1441-1446). A 2-d array of shape `(nrows, ncols)` is its row-major
flat list.
-/
set_option autoImplicit false

namespace Glimpse

/-- A point: row, column, value. -/
structure RPoint where
  row : ℤ
  col : ℤ
  value : ℚ
deriving DecidableEq

/-- `np.ravel_multi_index((row, col), shape)` (helpers.py:1436): row-major flat index; out-of-range indices raise. -/
def ravelIndex (nrows ncols : Nat) (row col : ℤ) : Except Err Nat :=
  if 0 ≤ row ∧ row < nrows ∧ 0 ≤ col ∧ col < ncols then .ok (row.toNat * ncols + col.toNat)
  else .error .valueError

/-- `np.unique(idx)` (helpers.py:1437): distinct values in ascending order. -/
def uniqueNat (l : List Nat) : List Nat := l.dedup.insertionSort (· ≤ ·)

/-- `np.bincount(labels, weights)` (helpers.py:1438-1440): for each label `k < n` the sum of the weights of the
elements labelled `k`. -/
def bincount (labels : List Nat) (weights : List ℚ) (n : Nat) : List ℚ :=
  (List.range n).map fun k => (((labels.zip weights).filter (fun p => p.1 = k)).map (·.2)).sum

/-- `helpers.rasterize_points(rows, cols, values, shape)` (helpers.py:1433-1450): distinct flat indices and their mean
values. -/
def rasterizePoints (pts : List RPoint) (nrows ncols : Nat) : Except Err (List Nat × List ℚ) := do
  let idx ← pts.mapM fun p => ravelIndex nrows ncols p.row p.col
  let uidx := uniqueNat idx
  let labels := idx.map fun i => uidx.idxOf i
  let counts := bincount labels (labels.map fun _ => 1) uidx.length
  let sums := bincount labels (pts.map (·.value)) uidx.length
  return (uidx, List.zipWith (fun s c => s * (1 / c)) sums counts)

/-- `a.flat[uidx] = means` (helpers.py:1451-1452). -/
def setFlat {α : Type} (a : List α) (uidx : List Nat) (means : List α) : List α :=
  (uidx.zip means).foldl (fun a p => a.set p.1 p.2) a

/-- `helpers.rasterize_points(rows, cols, values, a=a)` (helpers.py:1434-1457): the array after the call. -/
def rasterizeInto (pts : List RPoint) (nrows ncols : Nat) (a : List ℚ) : Except Err (List ℚ) := do
  let (uidx, means) ← rasterizePoints pts nrows ncols
  return setFlat a uidx means

end Glimpse
