import Verif.Model.Grid
import Verif.Model.Rasterize
import Verif.Model.Bresenham
import Verif.Model.Lists
import Mathlib.Analysis.SpecialFunctions.Complex.Arg
import Mathlib.Analysis.Real.Sqrt
import Mathlib.Data.List.Sort

/-!
Model of `Raster.rasterize`, `Raster.horizon` and `Raster.viewshed` (src/glimpse/raster.py:1101-1117, 1389-1463,
1291-1387). Arrays are flat (row-major); a missing value is none. Arithmetic is exact.
-/
set_option autoImplicit false

namespace Glimpse.Terrain

/-! ### Points to raster -/

/-- `xy_to_rowcol(xy[mask, :], snap=True)` (1114) for one point and its value. -/
def toCell (g : Grid) (p : (ℚ × ℚ) × ℚ) : Except Err RPoint := do
  let rc ← g.xyToRowcolSnap true p.1
  .ok ⟨rc.1, rc.2, p.2⟩

/-- `Raster.rasterize` (1101-1117). `isInt`: whether the array of the raster (and so its copy) has an integer type. -/
def rasterize (isInt : Bool) (g : Grid) (arr : List (Option ℚ)) (pts : List ((ℚ × ℚ) × ℚ)) : Except Err (List (Option ℚ)) := do
  let inside := pts.filter fun p => g.inboundsXy p.1
  let cells ← inside.mapM (toCell g)
  let (uidx, means) ← rasterizePoints cells g.ay.n g.ax.n
  .ok (setFlat arr uidx (means.map fun m => some (if isInt then ((truncInt m : ℤ) : ℚ) else m)))

/-! ### Horizon -/

/-- `dz / np.sqrt(dxy)` (1444, 1446). -/
noncomputable def ratio (dz dxy : ℚ) : ℝ := (dz : ℝ) / Real.sqrt (dxy : ℝ)

open Classical in
/-- `np.nanargmax`: index and value of the first of the highest values; none (it raises) if there is none. -/
noncomputable def nanargmax : List (Option ℝ) → Option (Nat × ℝ)
  | [] => none
  | none :: l => (nanargmax l).map fun p => (p.1 + 1, p.2)
  | some v :: l =>
    match nanargmax l with
    | none => some (0, v)
    | some (k, w) => if v < w then some (k + 1, w) else some (0, v)

/-- Cells of the line without its first (1432-1435). -/
def sightline (start stop : ℤ × ℤ) : List (ℤ × ℤ) := (bresenhamLine start stop).tail

/-- Squared distance of a cell centre (1440). -/
def dist2 (g : Grid) (origin : ℚ × ℚ) (cell : ℤ × ℤ) : ℚ :=
  let p := g.rowcolToXy ((cell.2 : ℚ), (cell.1 : ℚ))
  (p.1 - origin.1) ^ 2 + (p.2 - origin.2) ^ 2

/-- `self.array.flat[idx] - origin[2]` (1438); a cell is (column, row). -/
def dzOf (g : Grid) (arr : List (Option ℚ)) (oz : ℚ) (cell : ℤ × ℤ) : Except Err (Option ℚ) := do
  let i ← g.rowcolToIdx (cell.2, cell.1)
  .ok ((arr.getD i.toNat none).map fun z => z - oz)

/-- The horizon along one line (1431-1450). `corr`: elevation correction by squared distance, zero if none. -/
noncomputable def horizonPoint (g : Grid) (arr : List (Option ℚ)) (origin : ℚ × ℚ × ℚ) (corr : ℚ → ℚ) (start stop : ℤ × ℤ) :
    Except Err (Option (ℚ × ℚ × ℚ)) := do
  let cells := sightline start stop
  let dz ← cells.mapM (dzOf g arr origin.2.2)
  let r := List.zipWith (fun (z : Option ℚ) c => z.map fun z => ratio (z + corr (dist2 g (origin.1, origin.2.1) c)) (dist2 g (origin.1, origin.2.1) c)) dz cells
  match nanargmax r with
  | none => .error .valueError
  | some (k, _) =>
    if k + 1 < dz.length ∧ (dz.drop (k + 1)).any Option.isSome = true then
      let c := cells.getD k 0
      let p := g.rowcolToXy ((c.2 : ℚ), (c.1 : ℚ))
      .ok (some (p.1, p.2, (dz.getD k none).getD 0 + origin.2.2))
    else .ok none

/-- Split at missing points (1452-1463): as `boolean_split(..., circular=True)` and every other part. -/
def segments (pts : List (Option (ℚ × ℚ × ℚ))) : Except Err (List (List (Option (ℚ × ℚ × ℚ)))) :=
  booleanSplit pts (pts.map Option.isNone) true .false

/-- `xy_to_rowcol(xy, snap=True)[:, ::-1]`: column and row of one point (1419-1427). -/
def snapCell (g : Grid) (p : ℚ × ℚ) : Except Err (ℤ × ℤ) := do
  let rc ← g.xyToRowcolSnap true p
  .ok (rc.2, rc.1)

/-- `Raster.horizon` (1389-1463). `ends`: where the ray of each heading leaves the bounding box (1407-1415, computed by
`intersect_rays_box`, modelled elsewhere). From outside, the start cells are floating-point numbers (1424), on which
`range` in `bresenham_line` raises (or, for rays that miss the box, `int(nan)`). -/
noncomputable def horizon (g : Grid) (arr : List (Option ℚ)) (origin : ℚ × ℚ × ℚ) (corr : ℚ → ℚ) (ends : List (ℚ × ℚ)) :
    Except Err (List (List (Option (ℚ × ℚ × ℚ)))) := do
  let inside := g.inboundsXy (origin.1, origin.2.1)
  if inside then
    let start ← snapCell g (origin.1, origin.2.1)
    let stops ← ends.mapM (snapCell g)
    let pts ← stops.mapM (horizonPoint g arr origin corr start)
    segments pts
  else if ends = [] then .error .indexError else .error .typeError

/-! ### Viewshed -/

/-- A cell as `viewshed` sees it: number, ring, heading and elevation ratio. -/
structure VCell where
  idx : Nat
  ring : ℤ
  heading : ℝ
  elev : Option ℝ

/-- Distance, ring, heading and elevation ratio of a cell (1318-1333, 1354). -/
noncomputable def vcell (g : Grid) (origin : ℚ × ℚ × ℚ) (corr : ℚ → ℚ) (idx : Nat) (row col : Nat) (z : Option ℚ) : VCell :=
  let p := g.rowcolToXy ((row : ℚ), (col : ℚ))
  let dx := p.1 - origin.1
  let dy := p.2 - origin.2.1
  let s := dx ^ 2 + dy ^ 2
  let dxy := Real.sqrt (s : ℝ)
  { idx := idx
    ring := ⌊dxy * (1 / |(g.ax.d : ℝ)|) + 1 / 2⌋
    heading := Complex.arg ⟨(dx : ℝ), (dy : ℝ)⟩
    elev := z.map fun z => ((z - origin.2.2 + corr s : ℚ) : ℝ) / dxy }

/-- All cells (1318-1333). -/
noncomputable def vcells (g : Grid) (arr : List (Option ℚ)) (origin : ℚ × ℚ × ℚ) (corr : ℚ → ℚ) : List VCell :=
  (List.range arr.length).map fun i => vcell g origin corr i (i / g.ax.n) (i % g.ax.n) (arr.getD i none)

/-- Highest elevation ratios of the previous ring: heading and value. -/
abbrev Profile := List (ℝ × Option ℝ)

/-- `np.interp(x, headings, values, period=2π)`: value at a heading, a parameter. -/
abbrev InterpFn := Profile → ℝ → Option ℝ

open Classical in
/-- `relev > max_elevations` (1372); false if either is missing. -/
noncomputable def above (e m : Option ℝ) : Bool :=
  match e, m with
  | some e, some m => decide (m < e)
  | _, _ => false

/-- Visibility of a cell of a later ring (1367-1381): value, and whether it is visible. -/
noncomputable def visible (hasNan : Bool) (e m : Option ℝ) : Bool := above e m || (hasNan && m.isNone && e.isSome)

/-- A later ring (1366-1385): visible cells, the new highest ratios, and whether some may be missing. -/
noncomputable def laterRing (interp : InterpFn) (prev : Profile) (hasNan : Bool) (ring : List VCell) : List Nat × Profile × Bool :=
  let ms := ring.map fun c => interp prev c.heading
  let vis := List.zipWith (fun c m => visible hasNan c.elev m) ring ms
  let isNan := ms.filter Option.isNone
  let newVis := (List.zipWith (fun c m => Option.isNone m && c.elev.isSome) ring ms).filter id
  let hasNan' := if hasNan then decide (isNan.length ≠ newVis.length) else false
  (((ring.zip vis).filter (·.2)).map (·.1.idx),
   List.zipWith (fun c (mv : Option ℝ × Bool) => (c.heading, if mv.2 then c.elev else mv.1)) ring (ms.zip vis), hasNan')

/-- The first ring (1386-1390). -/
def firstRing (ring : List VCell) : List Nat × Profile × Bool :=
  ((ring.filter fun c => c.elev.isSome).map (·.idx), ring.map fun c => (c.heading, c.elev), ring.any fun c => c.elev.isNone)

/-- The loop over rings after the first (1362-1392). -/
noncomputable def laterRings (interp : InterpFn) : Profile → Bool → List (List VCell) → List Nat
  | _, _, [] => []
  | prev, hasNan, ring :: rings =>
    let r := laterRing interp prev hasNan ring
    r.1 ++ laterRings interp r.2.1 r.2.2 rings

open Classical in
/-- Cells of one ring sorted by heading (`np.lexsort`, 1335). -/
noncomputable def ringCells (cells : List VCell) (k : ℤ) : List VCell :=
  (cells.filter fun c => decide (c.ring = k)).insertionSort fun a b => a.heading ≤ b.heading

/-- Ring numbers in order (1336-1338). -/
def ringNumbers (cells : List VCell) : List ℤ := (cells.map (·.ring)).dedup.insertionSort (· ≤ ·)

open Classical in
/-- The visible cells by number (1335-1393). Cells of ring 0 are skipped (1339-1349) unless all cells are in it. -/
noncomputable def visibleCells (interp : InterpFn) (cells : List VCell) : List Nat :=
  if ∀ c ∈ cells, c.ring = 0 then cells.map (·.idx)
  else
    match (ringNumbers cells).filter (fun k => decide (k ≠ 0)) with
    | [] => []
    | k :: ks =>
      let f := firstRing (ringCells cells k)
      f.1 ++ laterRings interp f.2.1 f.2.2 (ks.map (ringCells cells))

open Classical in
/-- `Raster.viewshed` (1291-1387): whether each cell is visible. Warnings are not modelled. -/
noncomputable def viewshed (interp : InterpFn) (g : Grid) (arr : List (Option ℚ)) (origin : ℚ × ℚ × ℚ) (corr : ℚ → ℚ) : List Bool :=
  let v := visibleCells interp (vcells g arr origin corr)
  (List.range arr.length).map fun i => decide (i ∈ v)

end Glimpse.Terrain
