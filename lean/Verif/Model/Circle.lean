import Verif.Model.Basic
import Mathlib.Data.Nat.Sqrt
import Mathlib.Data.List.Dedup
import Mathlib.Data.List.Basic
import Mathlib.Data.Int.Interval
import Mathlib.Data.Rat.Floor
import Mathlib.Algebra.Order.Round

/-!
Model of `bresenham_circle` (src/glimpse/helpers.py:942-1020) and `Raster.fill_circle` (src/glimpse/raster.py:1219-1245).
Radii and centres are integers (in `fill_circle` the radius is rounded and the centre is a cell).
-/
set_option autoImplicit false

namespace Glimpse.Circle

/-- State of the loop (970-1009). -/
structure St where
  x : ℤ
  y : ℤ
  f : ℤ
  dx : ℤ
  dy : ℤ
deriving DecidableEq

/-- Before the loop (972-976). -/
def start (r : Nat) : St := { x := 0, y := r, f := 1 - r, dx := 1, dy := -2 * r }

/-- One iteration (995-1001). -/
def step (s : St) : St :=
  let s := if 0 < s.f then { s with y := s.y - 1, dy := s.dy + 2, f := s.f + (s.dy + 2) } else s
  { s with x := s.x + 1, dx := s.dx + 2, f := s.f + (s.dx + 2) }

/-- `octant_size` (970): the floor of `(sqrt(2) (r - 1) + 4) / 2`, as an integer square root. -/
def octantSize (r : Nat) : Nat := if r = 0 then 1 else 2 + Nat.sqrt ((r - 1) ^ 2 / 2)

/-- States from `s`, `n` of them. -/
def states : Nat → St → List St
  | 0, _ => []
  | n + 1, s => s :: states n (step s)

/-- Points of the first octant, relative to the centre. -/
def octant (r : Nat) : List (ℤ × ℤ) := (states (octantSize r) (start r)).map fun s => (s.x, s.y)

/-- The array of points before duplicates are removed (977-1017), relative to the centre: block by block, each octant
written in increasing or decreasing order of its index. -/
def ring (r : Nat) : List (ℤ × ℤ) :=
  octant r ++ ((octant r).map fun p => (p.2, p.1)).reverse ++
  (octant r).map (fun p => (p.2, -p.1)) ++ ((octant r).map fun p => (p.1, -p.2)).reverse ++
  (octant r).map (fun p => (-p.1, -p.2)) ++ ((octant r).map fun p => (-p.2, -p.1)).reverse ++
  (octant r).map (fun p => (-p.2, p.1)) ++ ((octant r).map fun p => (-p.1, p.2)).reverse

/-- Removal of duplicates (1019-1020): a point is removed if the sum of its differences from the point before it is zero. -/
def dedupe : List (ℤ × ℤ) → List (ℤ × ℤ)
  | [] => []
  | p :: l => p :: ((List.zip (p :: l) l).filter fun e => decide ((e.2.1 - e.1.1) + (e.2.2 - e.1.2) ≠ 0)).map (·.2)

/-- `bresenham_circle`. A negative radius gives an array without points, and raises. -/
def circle (center : ℤ × ℤ) (r : ℤ) : Except Err (List (ℤ × ℤ)) :=
  if r < 0 then .error .indexError
  else .ok (dedupe ((ring r.toNat).map fun p => (center.1 + p.1, center.2 + p.2)))

/-- Cells of one row (raster.py:1238-1242): from the least to the greatest column of the circle in the row, within the
raster. -/
def rowCells (nx : Nat) (pts : List (ℤ × ℤ)) (yi : ℤ) : List (ℤ × ℤ) :=
  let xb := (pts.filter fun p => decide (p.2 = yi)).map (·.1)
  match xb.min?, xb.max? with
  | some lo, some hi =>
    let a := max lo 0
    let b := min hi (nx - 1) + 1
    (List.range (b - a).toNat).map fun (k : Nat) => (yi, a + (k : ℤ))
  | _, _ => []

/-- Filled cells (row, column) (raster.py:1233-1243). -/
def fillCells (nx ny : Nat) (center : ℤ × ℤ) (r : ℤ) : Except Err (List (ℤ × ℤ)) := do
  let pts ← circle center r
  .ok ((((pts.map (·.2)).dedup).filter fun (y : ℤ) => decide (-1 < y ∧ y < (ny : ℤ))).flatMap (rowCells nx pts))

/-- `Raster.fill_circle` (raster.py:1219-1245): the array (row, column), the cell (column, row) of the centre, the radius and
the cell width (negative if x decreases). `np.round` rounds halves to even; here only the rounding of other numbers is
modelled. -/
def fillCircle {α : Type} (nx ny : Nat) (A : ℤ → ℤ → α) (center : ℤ × ℤ) (radius width : ℚ) (value : α) : Except Err (ℤ → ℤ → α) := do
  let cells ← fillCells nx ny center (round (radius / width))
  .ok fun i j => if (i, j) ∈ cells then value else A i j

end Glimpse.Circle
