import Verif.Model.Sample

/-!
Model of `Raster.sample(xy, grid=False)` (src/glimpse/raster.py:911-1038) for rasters with missing cells (NaN), which
`Model/Sample.lean` leaves out. A missing number is `none`; arithmetic with a missing number is missing, also if the
other factor is zero. Facts used about scipy 1.4.1: `RegularGridInterpolator` adds up the values of the four cells times
their weights, starting from zero; `interp1d` computes `slope * (x - x_lo) + y_lo`. Fill values are floating-point
numbers, or NaN. Orders are 0 and 1.
-/
set_option autoImplicit false

namespace Glimpse.Sample

/-- Cell by position. -/
def atM (vals : Cells) (a b : Nat) : Option ℚ := (vals.getD a []).getD b none

/-- Sum of values times weights: missing if any value is. -/
def wsum : List (ℚ × Option ℚ) → Option ℚ
  | [] => some 0
  | (w, v) :: l => do
    let s ← wsum l
    let v ← v
    some (v * w + s)

/-- `array.T[:: sx, :: sy]` (raster.py:896). -/
def orientTM (sx sy : Bool) (nx : Nat) (rows : Cells) : Cells :=
  orient sx ((List.range nx).map fun (c : Nat) => orient sy (rows.map fun r => r.getD c none))

/-- `RegularGridInterpolator.__call__`, method linear. -/
def linear2M (xs ys : List ℚ) (vals : Cells) (p : ℚ × ℚ) : Option ℚ :=
  let a := interval xs p.1
  let b := interval ys p.2
  wsum [((1 - a.2) * (1 - b.2), atM vals a.1 b.1), ((1 - a.2) * b.2, atM vals a.1 (b.1 + 1)),
    (a.2 * (1 - b.2), atM vals (a.1 + 1) b.1), (a.2 * b.2, atM vals (a.1 + 1) (b.1 + 1))]

/-- `RegularGridInterpolator.__call__`, method nearest. -/
def nearest2M (xs ys : List ℚ) (vals : Cells) (p : ℚ × ℚ) : Option ℚ :=
  atM vals (nearer (interval xs p.1)) (nearer (interval ys p.2))

/-- `interp1d`, linear: with `slope = (y_hi - y_lo) / (x_hi - x_lo)`. -/
def linear1M (xs : List ℚ) (vs : List (Option ℚ)) (x : ℚ) : Option ℚ := do
  let a := interval xs x
  let lo ← vs.getD a.1 none
  let hi ← vs.getD (a.1 + 1) none
  some ((hi - lo) / (xs.getD (a.1 + 1) 0 - xs.getD a.1 0) * (x - xs.getD a.1 0) + lo)

/-- `interp1d`, nearest. -/
def nearest1M (xs : List ℚ) (vs : List (Option ℚ)) (x : ℚ) : Option ℚ := vs.getD (nearer (interval xs x)) none

/-- `_sample_1d` (1027-1038) for one coordinate. -/
def line1M (order : Nat) (a : GAxis) (vs : List (Option ℚ)) (x : ℚ) : Except Err (Option ℚ) := do
  let xs ← a.centers
  let xs := orient (decide (a.d < 0)) xs
  let vs := orient (decide (a.d < 0)) vs
  match order with
  | 0 => .ok (nearest1M xs vs x)
  | 1 => .ok (linear1M xs vs x)
  | _ => .error .other

/-- 2D samples (1002-1009) for one point, with `Zf` (889-898). -/
def plane2M (order : Nat) (g : Grid) (c : Cells) (p : ℚ × ℚ) : Except Err (Option ℚ) := do
  let xs ← g.ax.centers
  let ys ← g.ay.centers
  let sx := decide (g.ax.d < 0)
  let sy := decide (g.ay.d < 0)
  let vals := orientTM sx sy g.ax.n c
  match order with
  | 0 => .ok (nearest2M (orient sx xs) (orient sy ys) vals p)
  | 1 => .ok (linear2M (orient sx xs) (orient sy ys) vals p)
  | _ => .error .valueError

/-- One sample (1001-1025) by the dimensions with more than one cell (966-967). -/
def valueAtM (order : Nat) (g : Grid) (c : Cells) (p : ℚ × ℚ) : Except Err (Option ℚ) :=
  if 1 < g.ax.n ∧ 1 < g.ay.n then plane2M order g c p
  else if 1 < g.ax.n then line1M order g.ax (c.headD []) p.1
  else if 1 < g.ay.n then line1M order g.ay (c.map fun r => r.headD none) p.2
  else .ok ((c.headD []).headD none)

/-- `Raster.sample(xy, grid=False)` (951-1025). `fill`: none if there is no fill value (`fill_value=None`), `some none` if
it is NaN (the default). -/
def samplePointsM (order : Nat) (g : Grid) (c : Cells) (pts : List (ℚ × ℚ)) (boundsError : Bool)
    (fill : Option (Option ℚ)) : Except Err (List (Option ℚ)) :=
  if boundsError && pts.any (fun p => !g.inboundsXy p) then .error .valueError
  else if boundsError then pts.mapM (valueAtM order g c)
  else match fill with
    | none => pts.mapM (valueAtM order g c)
    | some f => pts.mapM fun p => if g.inboundsXy p then valueAtM order g c p else .ok f

end Glimpse.Sample
