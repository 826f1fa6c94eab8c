import Verif.Model.Camera
import Verif.Model.Grid
import Verif.Model.Rasterize

/-!
Model of `Camera.project_dem` (camera.py:945-1107): an image simulated from a digital elevation model, tile by tile.
One layer of values; image coordinates of the cells are rational or NaN (the projection itself is modelled in
`Model/Camera.lean`).
-/
set_option autoImplicit false

namespace Glimpse.Dem

/-- One cell of the elevation model as `process` sees it (camera.py:1033-1071): whether the mask selects it, its
elevation (`none` for NaN), where the camera projects a point of that elevation (`none` behind the camera) and its
value in the layer being drawn. -/
structure DemCell where
  selected : Bool
  elev : Option ℚ
  proj : Option (ℚ × ℚ)
  value : ℚ
  deriving DecidableEq

/-- Image coordinates of a cell (camera.py:1063-1071): NaN elevations project to NaN. -/
def DemCell.uv (c : DemCell) : Option (ℚ × ℚ) := c.elev.bind fun _ => c.proj

/-- Argument checks (camera.py:1012-1023): `values` and `mask` are given by their shapes, if any. -/
def projectArgs (dem : Nat × Nat) (values mask : Option (Nat × Nat)) (returnDepth : Bool) : Except Err Unit := do
  match values with
  | some s => if s ≠ dem then throw .valueError
  | none => if ¬ returnDepth then throw .valueError
  match mask with
  | some s => if s ≠ dem then throw .valueError
  | none => pure ()

/-- Default mask (camera.py:1020-1021): the cells which are not NaN. -/
def defaultMask (c : DemCell) : DemCell := { c with selected := c.elev.isSome }

/-- Scale of a tile (camera.py:1053-1055): `cell` is the mean cell size, `depth` the depth of the tile's centre and `f`
the mean focal length, limited to the smallest and the largest of `limits`. A depth of zero is not modelled. -/
def tileScale (scale cell depth f : ℚ) (limits : ℚ × ℚ) : ℚ :=
  min (max (scale * cell / (depth / f)) (min limits.1 limits.2)) (max limits.1 limits.2)

/-- The in-frame cells of a tile with their pixels (camera.py:1063-1079): `inframe` includes the borders. -/
def framePoints (nx ny : Nat) (cells : List DemCell) : List RPoint :=
  cells.filterMap fun c => match c.uv with
    | none => none
    | some (u, v) =>
      if 0 ≤ u ∧ u ≤ nx ∧ 0 ≤ v ∧ v ≤ ny then some (⟨v.floor, u.floor, c.value⟩ : RPoint) else none

/-- `process` (camera.py:1033-1096) for the tile of cells `cells` and its scale `ts`: nothing, or the flat indices of
the pixels and the means. `zoom` is `scipy.ndimage.zoom` of elevations, mask and values together (not modelled). The
values of the tile are only bound if `values` was given. -/
def projectTile (zoom : ℚ → List DemCell → List DemCell) (hasValues : Bool) (nx ny : Nat) (ts : ℚ)
    (cells : List DemCell) : Except Err (Option (List Nat × List ℚ)) :=
  if ¬ (cells.any (·.selected)) then .ok none
  else if (cells.filter (·.selected)).all (·.elev.isNone) then .ok none
  else if ts ≠ 1 ∧ ¬ hasValues then .error .unboundLocal
  else
    let zoomed := if ts ≠ 1 then zoom ts cells else cells
    let pts := framePoints nx ny (zoomed.filter (·.selected))
    if pts = [] then .ok none
    else (rasterizePoints pts ny nx).map some

/-- `reduce` (camera.py:1098-1104): assignment of the means to the pixels of the image. -/
def reduceTile (array : List (Option ℚ)) (r : Option (List Nat × List ℚ)) : List (Option ℚ) :=
  match r with
  | none => array
  | some (idx, means) => setFlat array idx (means.map some)

/-- `pool.map(process, reduce)` (camera.py:1025-1031, 1105-1107) over tiles with their scales, in the order in which
they arrive: the image is NaN where no tile wrote. -/
def projectTiles (zoom : ℚ → List DemCell → List DemCell) (hasValues : Bool) (nx ny : Nat)
    (tiles : List (ℚ × List DemCell)) : Except Err (List (Option ℚ)) := do
  let results ← tiles.mapM fun t => projectTile zoom hasValues nx ny t.1 t.2
  .ok (results.foldl reduceTile (List.replicate (ny * nx) none))

/-- The cells of the tile cut by a pair of slices, row by row (camera.py:1036-1042). -/
def tileCells (g : Grid) (cell : Nat → Nat → DemCell) (t : (Int × Int) × (Int × Int)) : List DemCell :=
  (sliceCells g.ay.n t.1).flatMap fun r => (sliceCells g.ax.n t.2).map fun c => cell r c

/-- `Camera.project_dem` (camera.py:945-1107) in one process, with the tiles of `dem.tile_indices` and the tile scale 1
which the default `scale_limits` impose. -/
def projectDem (g : Grid) (cell : Nat → Nat → DemCell) (nx ny : Nat) (size : ℚ × ℚ) (overlap : Int × Int)
    (hasValues : Bool) : Except Err (List (Option ℚ)) :=
  projectTiles (fun _ l => l) hasValues nx ny
    ((g.tileIndices size overlap).map fun t => ((1 : ℚ), tileCells g cell t))

end Glimpse.Dem
