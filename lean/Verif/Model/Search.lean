import Verif.Model.Basic
import Mathlib.Data.Rat.Defs
import Mathlib.Algebra.Order.Ring.Unbundled.Rat
import Mathlib.Algebra.Order.Group.Unbundled.Abs

/-!
Model of `helpers._sorted_neighbors` and `helpers.sorted_nearest` (helpers.py:160-201).
-/
set_option autoImplicit false

namespace Glimpse

/-- `np.searchsorted(x, y)` (side="left") for `x` sorted in ascending order: the number of leading elements
`< y`. numpy's behaviour on unsorted input is not modelled. -/
def searchLeft (x : List ℚ) (y : ℚ) : Nat := (x.takeWhile (· < y)).length

/-- `np.searchsorted(x, y, side="right")` for `x` sorted in ascending order: the number of leading elements
`<= y`. -/
def searchRight (x : List ℚ) (y : ℚ) : Nat := (x.takeWhile (· ≤ y)).length

/-- Left neighbour index of `helpers._sorted_neighbors` (helpers.py:171-177) for one query. -/
def leftNeighbor (x : List ℚ) (y : ℚ) : Int :=
  let index : Int := searchLeft x y
  let index := if 0 < index ∧ index < x.length then index - 1 else index   -- 174
  if index = x.length then index - 2 else index                            -- 176

/-- numpy/Python indexing `x[i]`, with negative indices counting from the end. -/
def pyIndex {α : Type} (x : List α) (i : Int) : Except Err α :=
  let j := if i < 0 then i + x.length else i
  if 0 ≤ j then
    match x[j.toNat]? with
    | some a => .ok a
    | none => .error .indexError
  else .error .indexError

/-- `helpers.sorted_nearest` (helpers.py:197-201) for one query `y`: the nearer of the two neighbours, the left
one on ties (`np.argmin` returns the first minimum). -/
def sortedNearest (x : List ℚ) (y : ℚ) : Except Err Int := do
  let l := leftNeighbor x y
  let a ← pyIndex x l
  let b ← pyIndex x (l + 1)
  return if |y - a| ≤ |y - b| then l else l + 1

end Glimpse
