import Verif.Model.Basic
import Mathlib.Data.Rat.Defs
import Mathlib.Algebra.Order.Ring.Rat
import Mathlib.Data.List.Sort
import Mathlib.Data.List.Basic

/-!
Model of `match_keypoints` (src/glimpse/optimize.py:2231-2294). The matcher of OpenCV is a parameter (`Matcher`); an exact
matcher (`brute`) is given for examples. Arithmetic is exact.
-/
set_option autoImplicit false

namespace Glimpse.MatchKp

/-- A `cv2.DMatch`. -/
structure DM where
  query : Nat
  train : Nat
  dist : ℚ
deriving DecidableEq

/-- `matcher.knnMatch(queries, trains, k, mask)`: from `a` to `b` (false) or from `b` to `a` (true). -/
abbrev Matcher := Bool → Nat → Option (Nat → Nat → Bool) → List (List DM)

/-- Arguments of `match_keypoints` other than the keypoints and the matcher. -/
structure Args where
  mask : Option (Nat → Nat → Bool) := none
  crossCheck : Bool := false
  maxRatio : Option ℚ := none
  maxDistance : Option ℚ := none
  returnRatios : Bool := false

/-- What is returned. `flat`: the arrays of coordinates have one dimension (`np.asarray([])`). -/
structure Out where
  uva : List (ℚ × ℚ)
  uvb : List (ℚ × ℚ)
  flat : Bool
  ratios : Option (List ℚ)
deriving DecidableEq

/-- Truth of an optional number. -/
def truthy (x : Option ℚ) : Option ℚ := x.filter fun y => decide (y ≠ 0)

/-- `m[0]`. -/
def first : List DM → Except Err DM
  | [] => .error .indexError
  | d :: _ => .ok d

/-- `m[1]`. -/
def second : List DM → Except Err DM
  | _ :: d :: _ => .ok d
  | _ => .error .indexError

/-- A list comprehension with a condition that may raise. -/
def filterE {α : Type} (f : α → Except Err Bool) : List α → Except Err (List α)
  | [] => .ok []
  | a :: l => do
    let b ← f a
    let r ← filterE f l
    .ok (if b then a :: r else r)

/-- 2274: best matches the other way, as (index in a, index in b). -/
def bestPairs (ms : List (List DM)) : Except Err (List (Nat × Nat)) :=
  ms.mapM fun m => do
    let d ← first m
    .ok (d.train, d.query)

/-- 2275. -/
def bothWays (ba : List (Nat × Nat)) (m : List DM) : Except Err Bool := do
  let d ← first m
  .ok (decide ((d.query, d.train) ∈ ba))

/-- 2272-2275. -/
def crossed (M : Matcher) (a : Args) (n : Nat) (ms : List (List DM)) : Except Err (List (List DM)) :=
  if a.crossCheck then do
    let ba ← bestPairs (M true n a.mask)
    filterE (bothWays ba) ms
  else .ok ms

/-- `m[0].distance / m[1].distance`: division of Python floats. -/
def ratioOf (m : List DM) : Except Err ℚ := do
  let p ← first m
  let q ← second m
  if q.dist = 0 then .error .zeroDivision else .ok (p.dist / q.dist)

/-- The condition of 2277. -/
def underRatio (r : ℚ) (m : List DM) : Except Err Bool := do
  let x ← ratioOf m
  .ok (decide (x < r))

/-- 2276-2277. -/
def byRatio (a : Args) (ms : List (List DM)) : Except Err (List (List DM)) :=
  match truthy a.maxRatio with
  | none => .ok ms
  | some r => filterE (underRatio r) ms

/-- Coordinates of a keypoint. -/
def point (pts : List (ℚ × ℚ)) (i : Nat) : Except Err (ℚ × ℚ) :=
  match pts[i]? with
  | none => .error .indexError
  | some p => .ok p

/-- 2278: coordinates of the query keypoint. -/
def queryPoint (pts : List (ℚ × ℚ)) (m : List DM) : Except Err (ℚ × ℚ) := do
  let d ← first m
  point pts d.query

/-- 2279: coordinates of the train keypoint. -/
def trainPoint (pts : List (ℚ × ℚ)) (m : List DM) : Except Err (ℚ × ℚ) := do
  let d ← first m
  point pts d.train

/-- 2281: `m.distance / n.distance for m, n in matches`. -/
def unpackRatio : List DM → Except Err ℚ
  | [p, q] => if q.dist = 0 then .error .zeroDivision else .ok (p.dist / q.dist)
  | _ => .error .valueError

/-- 2280-2281. -/
def ratiosOf (a : Args) (ms : List (List DM)) : Except Err (Option (List ℚ)) :=
  if a.returnRatios then do
    let r ← ms.mapM unpackRatio
    .ok (some r)
  else .ok none

/-- `np.linalg.norm(p - q) < m` (exact: squares are compared). -/
def closer (m : ℚ) (p q : ℚ × ℚ) : Bool := decide (0 < m ∧ (p.1 - q.1) ^ 2 + (p.2 - q.2) ^ 2 < m ^ 2)

/-- Select by a mask. -/
def select {α : Type} (mask : List Bool) (l : List α) : List α := ((mask.zip l).filter fun x => x.1).map (·.2)

/-- 2282-2286. The norm along axis 1 of an array with one dimension raises (AxisError, a ValueError). -/
def byDistance (a : Args) (o : Out) : Except Err Out :=
  match truthy a.maxDistance with
  | none => .ok o
  | some m =>
    if o.flat then .error .valueError
    else
      let valid := List.zipWith (closer m) o.uva o.uvb
      .ok { uva := select valid o.uva, uvb := select valid o.uvb, flat := false, ratios := o.ratios.map (select valid) }

/-- The number of neighbours (2268-2269). -/
def neighbors (a : Args) : Nat := if (truthy a.maxRatio).isSome || a.returnRatios then 2 else 1

/-- `match_keypoints` (2266-2294). -/
def matchKeypoints (ptsA ptsB : List (ℚ × ℚ)) (M : Matcher) (a : Args) : Except Err Out :=
  if neighbors a ≤ ptsA.length ∧ neighbors a ≤ ptsB.length then do
    let ms ← crossed M a (neighbors a) (M false (neighbors a) a.mask)
    let ms ← byRatio a ms
    let uva ← ms.mapM (queryPoint ptsA)
    let uvb ← ms.mapM (trainPoint ptsB)
    let ratios ← ratiosOf a ms
    byDistance a { uva := uva, uvb := uvb, flat := decide (ms = []), ratios := ratios }
  else .ok { uva := [], uvb := [], flat := false, ratios := if a.returnRatios then some [] else none }

/-- Exact nearest neighbours by descriptor distance `D` (`cv2.BFMatcher.knnMatch`): for each query the `k` nearest of the
trains allowed by the mask, nearest first; the mask is indexed by query and train. -/
def brute (D : Nat → Nat → ℚ) (nq nt k : Nat) (mask : Option (Nat → Nat → Bool)) : List (List DM) :=
  (List.range nq).map fun i =>
    let allowed := (List.range nt).filter fun j => match mask with
      | none => true
      | some m => m i j
    ((allowed.insertionSort fun x y => D i x ≤ D i y).take k).map fun j => ⟨i, j, D i j⟩

/-- The exact matcher for descriptor distances `D` between keypoints of `a` and `b`. -/
def bruteMatcher (D : Nat → Nat → ℚ) (na nb : Nat) : Matcher := fun swap k mask =>
  if swap then brute (fun j i => D i j) nb na k mask else brute D na nb k mask

end Glimpse.MatchKp
