import Verif.Model.Basic
import Mathlib.Analysis.SpecialFunctions.Sqrt
import Mathlib.Algebra.BigOperators.Fin
import Mathlib.Algebra.Order.Field.Rat

/-!
Model of the array filters: `helpers.normalize`, `helpers.gaussian_filter`, `helpers.maximum_filter` (helpers.py:311-417),
`Raster.fill_crevasses` (raster.py:1264-1289), `Tracker.extract_tile` (tracker.py:494-533) and `Observer.shift_tile`
(observer.py:146-176). The unmasked scipy filters, the median filter and the spline are parameters.
-/
set_option autoImplicit false

namespace Glimpse.Filt

/-! ### Normalization -/

noncomputable section

/-- `a.mean()` of the flattened array. -/
def rmean (a : List ℝ) : ℝ := a.sum / a.length

/-- `a.std()`: population standard deviation. -/
def rstd (a : List ℝ) : ℝ := Real.sqrt ((a.map fun x => (x - rmean a) ^ 2).sum / a.length)

/-- `helpers.normalize` (helpers.py:311-331); `none` stands for an array of NaN (the standard deviation is zero:
`0 * inf`). -/
def normalizeArr (a : List ℝ) : Option (List ℝ) :=
  if rstd a = 0 then none else some (a.map fun x => (x - rmean a) * (1 / rstd a))

/-- Grayscale of a tile (tracker.py:523-524): the mean over the bands of each pixel. -/
def grayTile (tile : List (List ℝ)) : List ℝ := tile.map rmean

/-- `Tracker.extract_tile` (tracker.py:494-533) from the pixels of the tile: normalized, matched to a histogram if one
is given (`hist`), and reduced by its low-pass filter (`low`, the median filter). `none` stands for an array of NaN. -/
def extractTile (hist : Option (List ℝ → List ℝ)) (low : List ℝ → List ℝ) (tile : List (List ℝ)) : Option (List ℝ) :=
  (normalizeArr (grayTile tile)).map fun t =>
    let t := match hist with
      | some h => h t
      | none => t
    List.zipWith (· - ·) t (low t)

/-- The histogram returned by `Tracker.extract_tile` (tracker.py:528-529) is taken from the tile before the low-pass
filter: this is that tile. -/
def histogramTile (hist : Option (List ℝ → List ℝ)) (tile : List (List ℝ)) : Option (List ℝ) :=
  (normalizeArr (grayTile tile)).map fun t => match hist with
    | some h => h t
    | none => t

end

/-! ### Masked filters -/

variable {n : Nat}

/-- `scipy.ndimage.filters.gaussian_filter`: the weights `w i j` with which cell `j` enters cell `i` (zero outside of
the kernel); a NaN (`none`) in the kernel makes NaN; `cast` is the conversion to the array's data type (the identity for
floats, truncation for integers). -/
def convolve (cast : ℚ → ℚ) (w : Fin n → Fin n → ℚ) (x : Fin n → Option ℚ) (i : Fin n) : Option ℚ :=
  if ∃ j, w i j ≠ 0 ∧ x j = none then none else some (cast (∑ j, w i j * (x j).getD 0))

/-- Division of arrays (helpers.py:371): NaN for NaN and for zero by zero. A nonzero numerator over zero (infinity) does
not occur for non-negative weights. -/
def divOpt (a b : Option ℚ) : Option ℚ :=
  match a, b with
  | some a, some b => if b = 0 then none else some (a / b)
  | _, _ => none

/-- `helpers.gaussian_filter` (helpers.py:334-374). -/
def gaussianFilter (cast : ℚ → ℚ) (w : Fin n → Fin n → ℚ) (a : Fin n → Option ℚ) (mask : Option (Fin n → Bool))
    (fill : Bool) : Fin n → Option ℚ :=
  match mask with
  | none => convolve cast w a
  | some mask =>
    let x : Fin n → Option ℚ := fun j => if mask j then a j else some 0
    let xf := convolve cast w x
    let x1 : Fin n → Option ℚ := fun j => if mask j then some 1 else x j
    let xs := convolve cast w x1
    fun i => if ¬ fill ∧ ¬ mask i then a i else divOpt (xf i) (xs i)

/-- `scipy.ndimage.filters.maximum_filter`: the greatest value in the window of each cell; NaN in the window gives NaN
(in scipy this depends on the position of the NaN). -/
def windowMax (window : Fin n → List (Fin n)) (x : Fin n → Option ℚ) (i : Fin n) : Option ℚ :=
  ((window i).mapM x).bind List.max?

/-- `helpers.maximum_filter` (helpers.py:377-417); `dtypeMin` is the smallest value of the array's data type
(helpers.py:84-115). -/
def maximumFilter (dtypeMin : ℚ) (window : Fin n → List (Fin n)) (a : Fin n → Option ℚ) (mask : Option (Fin n → Bool))
    (fill : Bool) : Fin n → Option ℚ :=
  match mask with
  | none => windowMax window a
  | some mask =>
    let x := windowMax window fun j => if mask j then a j else some dtypeMin
    fun i => if (if fill then x i = some dtypeMin else ¬ mask i) then a i else x i

/-- `Raster.fill_crevasses` (raster.py:1264-1289). -/
def fillCrevasses (dtypeMin : ℚ) (window : Fin n → List (Fin n)) (w : Fin n → Fin n → ℚ) (a : Fin n → Option ℚ)
    (mask : Option (Fin n → Bool)) (fill : Bool) : Fin n → Option ℚ :=
  gaussianFilter id w (maximumFilter dtypeMin window a mask fill) mask fill

/-! ### Shifting -/

/-- `Observer.shift_tile` (observer.py:146-176) for a 2-d tile: `spline` evaluates the spline through the tile at cell
centres moved by `(du, dv)`; `cast` converts to the tile's data type. The result is the returned tile and the content of
the array passed as argument after the call: `np.atleast_3d` is a view, so the assignment changes the argument. -/
def shiftTile (cast : ℚ → ℚ) (spline : (Nat → Nat → ℚ) → ℚ → ℚ → ℚ) (tile : Nat → Nat → ℚ) (duv : ℚ × ℚ) :
    Except Err ((Nat → Nat → ℚ) × (Nat → Nat → ℚ)) :=
  if |duv.1| > 1/2 ∨ |duv.2| > 1/2 then .error .valueError
  else
    let out : Nat → Nat → ℚ := fun r c => cast (spline tile (r + 1/2 + duv.2) (c + 1/2 + duv.1))
    .ok (out, out)

end Glimpse.Filt
