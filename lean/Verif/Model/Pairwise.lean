import Verif.Model.Basic
import Mathlib.Analysis.SpecialFunctions.Pow.Real

/-!
Model of `helpers.pairwise_distance` (helpers.py:1053-1078), with `scipy.spatial.distance.cdist`. Coordinates are exact reals.
-/
set_option autoImplicit false

namespace Glimpse.Pairwise

/-- A point. -/
abbrev Row := List ℝ

/-- What `np.asarray(x)` can be (helpers.py:1073), by its number of dimensions. A matrix has its number of columns, which an empty one
keeps, and its rows. Arrays of three dimensions and more are only told apart by being so. -/
inductive Arr where
  | scalar (a : ℝ)
  | vec (xs : List ℝ)
  | mat (cols : Nat) (rows : List Row)
  | deep

/-- An array that exists: the rows of a matrix are as long as it has columns. -/
def Arr.Ok : Arr → Prop
  | .mat c rows => ∀ r ∈ rows, r.length = c
  | _ => True

/-- `x if x.ndim > 1 else x.reshape(-1, 1)` (helpers.py:1075-1076). -/
def column : Arr → Arr
  | .scalar a => .mat 1 [[a]]
  | .vec xs => .mat 1 (xs.map fun a => [a])
  | a => a

/-- `scipy.spatial.distance.cdist(XA, XB, metric)` (called at helpers.py:1074): two matrices with as many columns, or a `ValueError`. -/
def cdist (metric : Row → Row → ℝ) : Arr → Arr → Except Err (List (List ℝ))
  | .mat c xs, .mat d ys => if c = d then .ok (xs.map fun a => ys.map fun b => metric a b) else .error .valueError
  | _, _ => .error .valueError

/-- `pairwise_distance(x, y, **kwargs)` (helpers.py:1073-1078), the arguments of `cdist` naming the metric. -/
def pairwiseDistance (metric : Row → Row → ℝ) (x y : Arr) : Except Err (List (List ℝ)) := cdist metric (column x) (column y)

/-- `metric='sqeuclidean'`. -/
def sqEuclidean (a b : Row) : ℝ := (List.zipWith (fun s t => (s - t) ^ 2) a b).sum

/-- `metric='euclidean'`, the default of `cdist`. -/
noncomputable def euclidean (a b : Row) : ℝ := Real.sqrt (sqEuclidean a b)

/-- `metric='minkowski', p=1` (as `pairwise_distance_datetimes` asks for, helpers.py:1578). -/
def cityblock (a b : Row) : ℝ := (List.zipWith (fun s t => |s - t|) a b).sum

/-- `datetime.timestamp()` of a datetime without time zone (helpers.py:1576-1577): the reading of the clock (in seconds) less the offset
of the local time zone at that reading. -/
def timestamp (offset : ℝ → ℝ) (t : ℝ) : ℝ := t - offset t

/-- `pairwise_distance_datetimes(x, y)` (helpers.py:1576-1578). -/
def pairwiseDatetimes (offset : ℝ → ℝ) (x y : List ℝ) : Except Err (List (List ℝ)) :=
  pairwiseDistance cityblock (.vec (x.map (timestamp offset))) (.vec (y.map (timestamp offset)))

end Glimpse.Pairwise
