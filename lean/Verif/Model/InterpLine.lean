import Verif.Model.Boxes
import Verif.Model.Cdf
import Verif.Model.Lists
import Mathlib.Data.Rat.Floor
import Mathlib.Algebra.Order.Round

/-!
Model of `helpers.interpolate_line` (helpers.py:1081-1170) and of `Lines.predicted` (optimize.py:309-370), over exact
rational numbers.
-/
set_option autoImplicit false

namespace Glimpse.Interp

/-- Argument `fill`: 'endpoints', or the values before the start and beyond the end (rows; a scalar or single value stands
for a row with equal elements, 1157-1158). -/
inductive Fill where
  | endpoints
  | values (first last : List ℚ)
deriving DecidableEq

/-- Column `i` of an array of rows. -/
def column (vertices : List (List ℚ)) (i : Nat) : List ℚ := vertices.map fun v => v.getD i 0

/-- Cumulative distance at each vertex (1133-1137), for a distance `dist` between vertices (the code: Euclidean). -/
def cumulative (dist : List ℚ → List ℚ → ℚ) (vertices : List (List ℚ)) : List ℚ :=
  0 :: cumsum 0 ((vertices.zip vertices.tail).map fun p => dist p.1 p.2)

/-- Python's `round`: to the nearest integer, halves to the even one. -/
def pyRound (q : ℚ) : ℤ :=
  if q - ⌊q⌋ < 1 / 2 then ⌊q⌋
  else if 1 / 2 < q - ⌊q⌋ then ⌊q⌋ + 1
  else if ⌊q⌋ % 2 = 0 then ⌊q⌋ else ⌊q⌋ + 1

/-- Number of points for a nominal spacing (1140-1143). A zero spacing gives inf, which `int` refuses (OverflowError). -/
def countFor (x0 x1 dx : ℚ) : Except Err ℤ :=
  if dx = 0 then .error .other
  else
    let n := |(x1 - x0) / dx|
    .ok (pyRound (if n = ⌊n⌋ then n + 1 else n))

/-- What `interpolate_line` is asked for (1130-1147): given distances, or a number of evenly-spaced points, or a nominal
distance between them. -/
inductive Ask where
  | nothing
  | xi (xi : List ℚ)
  | n (n : ℤ)
  | dx (dx : ℚ)

/-- The distances (1138-1144) and whether they come from `xi`. An empty `x` makes `x[-1]` raise IndexError. -/
def distances (x : List ℚ) : Ask → Except Err (List ℚ)
  | .nothing => .error .valueError
  | .xi xi => .ok xi
  | .n n => match x.head?, x.getLast? with
    | some a, some b => linspace a b n
    | _, _ => .error .indexError
  | .dx dx => match x.head?, x.getLast? with
    | some a, some b => do
      let n ← countFor a b dx
      linspace a b n
    | _, _ => .error .indexError

/-- Sorting of the vertices by distance if the second distance is less than the first (1148-1152). The order of equal
distances, which `np.argsort` does not specify, is kept. -/
def ordered (x : List ℚ) (vertices : List (List ℚ)) : List (ℚ × List ℚ) :=
  match x with
  | a :: b :: _ => if b < a then (x.zip vertices).insertionSort fun p q => p.1 ≤ q.1 else x.zip vertices
  | _ => x.zip vertices

/-- Each dimension interpolated (1153-1156). -/
def rowAt (d : Nat) (pts : List (ℚ × List ℚ)) (q : ℚ) : Except Err (List ℚ) :=
  (List.range d).mapM fun i => interp q (pts.map fun p => (p.1, p.2.getD i 0))

/-- Rows for distances before the start or beyond the end (1161-1170). The exchange of `left` and `right` (1163-1164) never
applies, since the distances are sorted by then; the model keeps the test. -/
def fillRow (x0 x1 : ℚ) (f : List ℚ × List ℚ) (q : ℚ) (row : List ℚ) : List ℚ :=
  let left := decide (q < x0)
  let right := decide (x1 < q)
  let lr := if x1 < x0 then (right, left) else (left, right)
  let row := if lr.1 then f.1 else row
  if lr.2 then f.2 else row

/-- Whether any distance is outside the range. -/
def outside (x0 x1 : ℚ) (qs : List ℚ) : Bool := qs.any fun q => decide (q < x0) || decide (x1 < q)

/-- After interpolation (1157-1170). -/
def finish (pts : List (ℚ × List ℚ)) (qs : List ℚ) (rows : List (List ℚ)) (error : Bool) (fill : Fill) :
    Except Err (List (List ℚ)) :=
  match pts.head?, pts.getLast? with
  | some a, some b =>
    if fill = .endpoints ∧ error = false then .ok rows
    else
      let f := match fill with
        | .endpoints => (a.2, b.2)
        | .values l r => (l, r)
      if error && outside a.1 b.1 qs then .error .valueError
      else .ok ((qs.zip rows).map fun p => fillRow a.1 b.1 f p.1 p.2)
  | _, _ => .error .valueError

/-- `helpers.interpolate_line` (1130-1170) for vertices of `d` dimensions and distances `x` (given, or `cumulative`).
`np.interp` raises ValueError for no vertices or if there are not as many distances as vertices. -/
def interpolateLine (d : Nat) (vertices : List (List ℚ)) (x : List ℚ) (ask : Ask) (error : Bool) (fill : Fill) :
    Except Err (List (List ℚ)) := do
  let qs ← distances x ask
  if x.length ≠ vertices.length ∨ vertices = [] then throw .valueError
  let pts := ordered x vertices
  let rows ← qs.mapM (rowAt d pts)
  match ask with
  | .xi _ => finish pts qs rows error fill
  | _ => finish pts qs rows false .endpoints

/-! ### Lines -/

variable {P : Type}

/-- Squared distance of image points. -/
def sq (a b : ℚ × ℚ) : ℚ := (a.1 - b.1) ^ 2 + (a.2 - b.2) ^ 2

/-- The parts of a projected world line in front of the camera (optimize.py:327-330): `boolean_split` at points that
project to nan. -/
def inFront (proj : P → Option (List ℚ)) (line : List P) : Except Err (List (List (List ℚ))) := do
  let xy := line.map proj
  let parts ← booleanSplit xy (xy.map Option.isNone) false .false
  .ok (parts.map fun part => part.filterMap id)

/-- The parts of these in view, interpolated and projected (331-341). -/
def inView (dist : List ℚ → List ℚ → ℚ) (toUv : List ℚ → ℚ × ℚ) (box : List ℚ) (step : ℚ) (part : List (List ℚ)) :
    Except Err (List (List (ℚ × ℚ))) := do
  let pieces ← clipPolyline part box
  pieces.mapM fun piece => do
    let rows ← interpolateLine 2 piece (cumulative dist piece) (.dx step) true .endpoints
    .ok (rows.map toUv)

/-- `Lines._xyzs_to_uvs` (309-345). `box` and `step` are those of the camera (316-319). -/
def projected (proj : P → Option (List ℚ)) (toUv : List ℚ → ℚ × ℚ) (dist : List ℚ → List ℚ → ℚ) (box : List ℚ) (step : ℚ)
    (xyzs : List (List P)) : Except Err (List (List (ℚ × ℚ))) := do
  let parts ← xyzs.mapM (inFront proj)
  let puvs ← parts.flatten.mapM (inView dist toUv box step)
  if puvs.flatten = [] then .ok (parts.flatten.map fun part => part.map toUv) else .ok puvs.flatten

/-- `np.argmin`: the first of the least; ValueError if there are none. -/
def argmin : List ℚ → Except Err Nat
  | [] => .error .valueError
  | x :: xs => .ok ((xs.zipIdx 1).foldl (fun (best : Nat × ℚ) y => if y.1 < best.2 then (y.2, y.1) else best) (0, x)).1

/-- `Lines.predicted` (347-370), from the position test and the projected lines. `np.row_stack` of no arrays raises
ValueError. -/
def linesPredicted (moved directions : Bool) (puvs : Except Err (List (List (ℚ × ℚ)))) (observed : List (ℚ × ℚ)) :
    Except Err (List (ℚ × ℚ)) := do
  if directions && moved then throw .valueError
  let puvs ← puvs
  if puvs = [] then throw .valueError
  observed.mapM fun p => do
    let k ← argmin (puvs.flatten.map (sq p))
    match puvs.flatten[k]? with
    | some q => .ok q
    | none => .error .indexError

end Glimpse.Interp
