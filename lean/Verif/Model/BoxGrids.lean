import Verif.Model.Boxes

/-!
Model of `helpers.box_to_grid` for any number of dimensions and all modes (helpers.py:1240-1310), `helpers.grid_to_points`
(helpers.py:1313-1329), `helpers.box_to_polygon` (helpers.py:1217-1237) and `helpers._parse_parallel` (helpers.py:1692-1701).
-/
set_option autoImplicit false

namespace Glimpse.BoxGrids

/-- An array of any number of dimensions: its shape, and its values with the last index fastest. -/
structure Nd where
  shape : List Nat
  flat : List ℚ
deriving DecidableEq

/-- All ways to take one value from each list, the last fastest. -/
def cart : List (List ℚ) → List (List ℚ)
  | [] => [[]]
  | a :: r => a.flatMap fun v => (cart r).map fun p => v :: p

/-- The first two swapped. -/
def swapFirst {α : Type} : List α → List α
  | a :: b :: r => b :: a :: r
  | l => l

/-- `np.meshgrid(*arrays)` (helpers.py:1304), with its default `indexing='xy'`: the first axis of the results is the second array's. -/
def meshgrid (arrays : List (List ℚ)) : List Nd :=
  (List.range arrays.length).map fun (i : Nat) =>
    { shape := swapFirst (arrays.map List.length), flat := (cart (swapFirst arrays)).map fun p => (swapFirst p).getD i 0 }

/-- `grid_to_points(grid)` (helpers.py:1329): `np.reshape(grid, (len(grid), -1)).T`. An empty grid cannot be reshaped. Arrays of differing
shapes (numpy 1.19 may make an array of objects) are an error here. -/
def gridToPoints (grid : List Nd) : Except Err (List (List ℚ)) :=
  match grid with
  | [] => .error .valueError
  | g :: r =>
    if r.all fun h => decide (h.shape = g.shape) then
      .ok ((List.range g.flat.length).map fun (k : Nat) => (g :: r).map fun h => h.flat.getD k 0)
    else .error .valueError

/-- The spacing: one for all, or one for each dimension. -/
inductive Step where
  | all (s : ℚ)
  | each (s : List ℚ)

/-- `step if np.iterable(step) else (step,) * ndim` (helpers.py:1293). -/
def Step.list (ndim : Nat) : Step → List ℚ
  | .all s => List.replicate ndim s
  | .each s => s

/-- What `box_to_grid` returns. -/
inductive Out where
  | vectors (v : List (List ℚ))
  | grids (g : List Nd)
  | points (p : List (List ℚ))
deriving DecidableEq

/-- One axis, given as (lower, upper, step, snap) (helpers.py:1296-1303). -/
def axisOf (a : (ℚ × ℚ) × (ℚ × ℚ)) : Except Err (List ℚ) := gridAxis a.1.1 a.1.2 a.2.1 a.2.2

/-- The coordinates along each axis (helpers.py:1291-1303). Steps or snap points of another number of dimensions are an error (numpy
broadcasts some of length 1). -/
def boxToVectors (box : List ℚ) (step : Step) (snap : Option (List ℚ)) : Except Err (List (List ℚ)) := do
  let (lo, hi) ← unravelBox box
  if (step.list lo.length).length ≠ lo.length then throw .valueError
  if (snap.getD lo).length ≠ lo.length then throw .valueError
  ((lo.zip hi).zip ((step.list lo.length).zip (snap.getD lo))).mapM axisOf

/-- Mode of the result of `box_to_grid` (helpers.py:1303-1310). -/
def asMode (mode : String) (arrays : List (List ℚ)) : Except Err Out :=
  if mode = "vectors" then .ok (.vectors arrays)
  else if mode = "grids" then .ok (.grids (meshgrid arrays))
  else if mode = "points" then (gridToPoints (meshgrid arrays)).map Out.points
  else .error .valueError

/-- `box_to_grid(box, step, snap, mode)` (helpers.py:1290-1310). -/
def boxToGrid (box : List ℚ) (step : Step) (snap : Option (List ℚ)) (mode : String) : Except Err Out := do
  let arrays ← boxToVectors box step snap
  asMode mode arrays

/-- `box_to_polygon(box)` (helpers.py:1236-1237): `box[(0, 0, 1, 1, 0), 0]` and `box[(0, 1, 1, 0, 0), 1]`; a box of one dimension has no
second column. -/
def boxToPolygon (box : List ℚ) : Except Err (List (ℚ × ℚ)) := do
  let (lo, hi) ← unravelBox box
  match lo, hi with
  | x0 :: y0 :: _, x1 :: y1 :: _ => return [(x0, y0), (x0, y1), (x1, y1), (x1, y0), (x0, y0)]
  | _, _ => throw .indexError

/-- The `parallel` argument: a bool or a number. -/
inductive Parallel where
  | flag (b : Bool)
  | number (n : Int)

/-- `_parse_parallel(parallel)` (helpers.py:1693-1701); `os.cpu_count()` may be unknown (`NotImplementedError`). -/
def parseParallel (cpuCount : Option Int) : Parallel → Except Err Int
  | .flag true => match cpuCount with
    | none => .error .other
    | some n => .ok n
  | .flag false => .ok 0
  | .number n => .ok n

end Glimpse.BoxGrids
