import Verif.Model.RasterState

/-!
Model of `Raster.sample` (src/glimpse/raster.py:911-1068) and `Raster.gradient` (1465-1474). Facts used about scipy 1.4.1:
`RegularGridInterpolator` and `interp1d` (linear, nearest) find the interval with `searchsorted` and clip it to the first
and last. The bivariate spline of scipy (`RectBivariateSpline`) is a parameter. Arithmetic is exact.
-/
set_option autoImplicit false

namespace Glimpse.Sample

/-- Index of the interval of ascending coordinates and the fraction of it (outside [0, 1] beyond the first and last). -/
def interval (xs : List ℚ) (x : ℚ) : Nat × ℚ :=
  let k := (xs.takeWhile fun g => decide (g < x)).length
  let i := min (k - 1) (xs.length - 2)
  (i, (x - xs.getD i 0) / (xs.getD (i + 1) 0 - xs.getD i 0))

/-- Value by position. -/
def at2 (vals : List (List ℚ)) (a b : Nat) : ℚ := (vals.getD a []).getD b 0

/-- `RegularGridInterpolator.__call__`, method linear. -/
def linear2 (xs ys : List ℚ) (vals : List (List ℚ)) (p : ℚ × ℚ) : ℚ :=
  let a := interval xs p.1
  let b := interval ys p.2
  (1 - a.2) * (1 - b.2) * at2 vals a.1 b.1 + (1 - a.2) * b.2 * at2 vals a.1 (b.1 + 1) +
    a.2 * (1 - b.2) * at2 vals (a.1 + 1) b.1 + a.2 * b.2 * at2 vals (a.1 + 1) (b.1 + 1)

/-- Nearer end of an interval. -/
def nearer (a : Nat × ℚ) : Nat := if a.2 ≤ 1 / 2 then a.1 else a.1 + 1

/-- `RegularGridInterpolator.__call__`, method nearest. -/
def nearest2 (xs ys : List ℚ) (vals : List (List ℚ)) (p : ℚ × ℚ) : ℚ :=
  at2 vals (nearer (interval xs p.1)) (nearer (interval ys p.2))

/-- `interp1d`, linear. -/
def linear1 (xs vs : List ℚ) (x : ℚ) : ℚ :=
  let a := interval xs x
  (1 - a.2) * vs.getD a.1 0 + a.2 * vs.getD (a.1 + 1) 0

/-- `interp1d`, nearest. -/
def nearest1 (xs vs : List ℚ) (x : ℚ) : ℚ := vs.getD (nearer (interval xs x)) 0

/-- `_sample_1d` (1027-1038) for one coordinate, orders 0 and 1 (others are not modelled). -/
def line1 (order : Nat) (a : GAxis) (vs : List ℚ) (x : ℚ) : Except Err ℚ := do
  let xs ← a.centers
  let xs := orient (decide (a.d < 0)) xs
  let vs := orient (decide (a.d < 0)) vs
  match order with
  | 0 => .ok (nearest1 xs vs x)
  | 1 => .ok (linear1 xs vs x)
  | _ => .error .other

/-- 2D samples (1002-1009) for one point: `Zf` (889-898), orders 0 and 1 (the interpolator has no others). -/
def plane2 (order : Nat) (g : Grid) (arr : List (List ℚ)) (p : ℚ × ℚ) : Except Err ℚ := do
  let xs ← g.ax.centers
  let ys ← g.ay.centers
  let sx := decide (g.ax.d < 0)
  let sy := decide (g.ay.d < 0)
  let vals := orientT sx sy g.ax.n arr
  match order with
  | 0 => .ok (nearest2 (orient sx xs) (orient sy ys) vals p)
  | 1 => .ok (linear2 (orient sx xs) (orient sy ys) vals p)
  | _ => .error .valueError

/-- One sample (1001-1025) by the dimensions with more than one cell (966-967). -/
def valueAt (order : Nat) (g : Grid) (arr : List (List ℚ)) (p : ℚ × ℚ) : Except Err ℚ :=
  if 1 < g.ax.n ∧ 1 < g.ay.n then plane2 order g arr p
  else if 1 < g.ax.n then line1 order g.ax (arr.headD []) p.1
  else if 1 < g.ay.n then line1 order g.ay (arr.map fun r => r.headD 0) p.2
  else .ok ((arr.headD []).headD 0)

/-- Assignment to the array made by `np.full(len(xy), fill_value)` (1000): an integer array if the fill value is an
integer. -/
def store (isInt : Bool) (v : ℚ) : ℚ := if isInt then (truncInt v : ℤ) else v

/-- `Raster.sample(xy, grid=False)`. `fill`: whether the fill value is an integer, and the fill value. -/
def samplePoints (order : Nat) (g : Grid) (arr : List (List ℚ)) (pts : List (ℚ × ℚ)) (boundsError : Bool) (fill : Option (Bool × ℚ)) :
    Except Err (List ℚ) :=
  if boundsError && pts.any (fun p => !g.inboundsXy p) then .error .valueError
  else if boundsError then pts.mapM (valueAt order g arr)
  else match fill with
    | none => pts.mapM (valueAt order g arr)
    | some f => pts.mapM fun p => if g.inboundsXy p then do
        let v ← valueAt order g arr p
        .ok (store f.1 v) else .ok f.2

/-! ### Samples on a grid -/

/-- An array with missing values. -/
abbrev Cells := List (List (Option ℚ))

/-- `self.array[is_nan] = M` (1052). -/
def replaceMissing (M : ℚ) (c : Cells) : List (List ℚ) := c.map fun r => r.map fun v => v.getD M

/-- The same, as an array that may have missing values. -/
def corrupted (M : ℚ) (c : Cells) : Cells := (replaceMissing M c).map fun r => r.map some

/-- `np.nanmin`: none if all are missing. -/
def nanmin (c : Cells) : Option ℚ := (c.flatten.filterMap id).min?

/-- Whether coordinates are ascending in the direction of the first two (1062-1064; the spline raises for others). -/
def monotone (xs : List ℚ) : Bool := decide (xs.Pairwise (· ≤ ·)) || decide (xs.Pairwise (· ≥ ·))

/-- `_sample_grid` (1040-1068): the samples, and the array afterwards. `spline` is the value of the spline of the given
array at x and y. It raises if the order is not in 1 to 5 or is not less than the size, or if coordinates are not
monotone. -/
def sampleSpline (spline : List (List ℚ) → ℚ → ℚ → ℚ) (M : ℚ) (order : Nat) (g : Grid) (c : Cells) (xs ys : List ℚ) :
    Except Err Cells × Cells :=
  if order < 1 ∨ 5 < order ∨ g.ax.n ≤ order ∨ g.ay.n ≤ order ∨ monotone xs = false ∨ monotone ys = false then
    (.error .valueError, corrupted M c)
  else
    (.ok (ys.map fun y => xs.map fun x =>
      let v := spline (replaceMissing M c) x y
      match nanmin c with
      | some z => if v < z then none else some v
      | none => some v), c)

/-- `samples[yout, :] = fill; samples[:, xout] = fill` (987-990): the masks must have the size of the array. -/
def fillOut (g : Grid) (xs ys : List ℚ) (fill : Option ℚ) (s : Cells) : Except Err Cells :=
  let m := g.inboundsVectors xs ys
  if s.length ≠ m.2.length ∨ ∃ r ∈ s, r.length ≠ m.1.length then .error .indexError
  else .ok (List.zipWith (fun r iny => List.zipWith (fun v inx => if iny && inx then v else fill) r m.1) s m.2)

/-- Samples on a grid (970-990) for a raster with one dimension or none: `line` is the value along the dimension, `const`
the only value. -/
def sampleThin (g : Grid) (line : ℚ → ℚ) (const : ℚ) (xs ys : List ℚ) : Cells :=
  if 1 < g.ax.n then
    let z := xs.map line
    List.replicate z.length (z.map some)
  else if 1 < g.ay.n then
    let z := ys.map line
    z.map fun v => List.replicate z.length (some v)
  else List.replicate xs.length (List.replicate ys.length (some const))

/-- `Raster.sample(xy, grid=True)`: the samples, and the array afterwards. `fill`: none if there is no fill value
(`fill_value=None`), `some none` if it is NaN (the default). -/
def sampleGrid (spline : List (List ℚ) → ℚ → ℚ → ℚ) (line : ℚ → ℚ) (const : ℚ) (M : ℚ) (order : Nat) (g : Grid) (c : Cells)
    (xs ys : List ℚ) (boundsError : Bool) (fill : Option (Option ℚ)) : Except Err Cells × Cells :=
  let m := g.inboundsVectors xs ys
  if boundsError && (m.1.any (!·) || m.2.any (!·)) then (.error .valueError, c)
  else
    let r := if 1 < g.ax.n ∧ 1 < g.ay.n then sampleSpline spline M order g c xs ys else (.ok (sampleThin g line const xs ys), c)
    match r, boundsError, fill with
    | (.ok s, c'), false, some f => (fillOut g xs ys f s, c')
    | r, _, _ => r

/-! ### Gradient -/

/-- `np.gradient` along one axis with spacing `h`: central differences, one-sided at the ends. At least two values. -/
def gradient1 (h : ℚ) (v : List ℚ) : List ℚ :=
  (List.range v.length).map fun i =>
    if i = 0 then (v.getD 1 0 - v.getD 0 0) / h
    else if i + 1 = v.length then (v.getD i 0 - v.getD (i - 1) 0) / h
    else (v.getD (i + 1) 0 - v.getD (i - 1) 0) / (2 * h)

/-- `Raster.gradient` (1465-1474): derivatives by x and y of an array of `ny` rows and `nx` columns. -/
def gradient (g : Grid) (arr : List (List ℚ)) : Except Err (List (List ℚ) × List (List ℚ)) :=
  if g.ax.n < 2 ∨ g.ay.n < 2 then .error .valueError
  else
    let cols := (List.range g.ax.n).map fun c => gradient1 g.ay.d (arr.map fun r => r.getD c 0)
    .ok (arr.map (gradient1 g.ax.d), (List.range g.ay.n).map fun r => cols.map fun col => col.getD r 0)

end Glimpse.Sample
