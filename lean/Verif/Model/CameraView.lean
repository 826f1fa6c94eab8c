import Verif.Model.Undistort
import Verif.Model.Boxes
import Verif.Model.Grid

/-!
Model of `Camera.grid`, `Camera.edges`, `Camera.viewbox` and `Camera.viewpoly` (src/glimpse/camera.py:698-834).
-/
set_option autoImplicit false

namespace Glimpse.View

/-- `Camera.grid` (698-737), mode points, from the image size. -/
def imageGrid (w h : Nat) (step snap : ℚ × ℚ) : Except Err (List (ℚ × ℚ)) :=
  boxToPoints2 (0, 0) ((w : ℚ), (h : ℚ)) step (some snap)

/-- Coordinates along one side (762-765). A zero step gives inf, which `int` refuses (OverflowError). -/
def sideCoords (w : Nat) (step : ℚ) : Except Err (List ℚ) :=
  if step = 0 then .error .other else linspace 0 w (truncInt ((w : ℚ) / step + 1))

/-- The array stacked from the sides (766-772): `np.repeat` with a negative count raises ValueError, `u[-1]` of an empty
array IndexError. -/
def stackEdges (u v : List ℚ) : Except Err (List (ℚ × ℚ)) :=
  match u.getLast?, v.getLast? with
  | some ul, some vl =>
    if v.length < 2 then .error .valueError
    else .ok (u.map (fun x => (x, 0)) ++ (v.tail.dropLast).map (fun y => (ul, y)) ++ u.reverse.map (fun x => (x, vl)) ++
      (v.reverse.tail.dropLast).map fun y => (0, y))
  | _, _ => .error .indexError

/-- `Camera.edges` (739-772), from the image size. -/
def edges (w h : Nat) (step : ℚ × ℚ) : Except Err (List (ℚ × ℚ)) := do
  let u ← sideCoords w step.1
  let v ← sideCoords h step.2
  stackEdges u v

noncomputable section

/-- A rational image point as a real one. -/
def realPt (p : ℚ × ℚ) : V2 := ![(p.1 : ℝ), (p.2 : ℝ)]

/-- `helpers.bounding_box` (helpers.py:1198-1214) over the real numbers: minima and maxima. -/
def bbox (pts : List V3) : V3 × V3 :=
  (fun i => Undistort.listMin (pts.map fun p => p i), fun i => Undistort.listMax (pts.map fun p => p i))

/-- `Camera.viewbox` (774-797). The image size of a camera is not negative. -/
def viewbox (cam : Camera) (depth : ℝ) : Except Err (V3 × V3) := do
  let uv ← edges (cam.vec.imgsz 0).toNat (cam.vec.imgsz 1).toNat (1, 1)
  .ok (bbox (cam.vec.xyz :: uv.map fun p => cam.uvToXyz (realPt p) false depth))

/-- `Camera.viewpoly` (799-834). -/
def viewpoly (cam : Camera) (depth : ℝ) : List V3 :=
  let cy := (cam.vec.imgsz 1 : ℝ) / 2 + cam.vec.c 1
  [cam.vec.xyz, cam.uvToXyz ![0, cy] false depth, cam.uvToXyz ![(cam.vec.imgsz 0 : ℝ), cy] false depth, cam.vec.xyz]

end

end Glimpse.View
