import Verif.Model.Camera
import Verif.Model.CamsFit
import Mathlib.Analysis.SpecialFunctions.Log.Basic
import Mathlib.Analysis.SpecialFunctions.Trigonometric.Arctan
import Mathlib.Analysis.SpecialFunctions.Pow.Real

/-!
Model of `optimize.Cameras.camera_scales`, `camera_bounds` and `_build_scales` (src/glimpse/optimize.py:1325-1456,
1567-1577), over the real numbers.
-/
set_option autoImplicit false
noncomputable section

namespace Glimpse.Cams

/-- `cam.imgsz.mean()`, `cam.f.mean()`. -/
def mean2 (v : Fin 2 → ℝ) : ℝ := (v 0 + v 1) / 2

/-- `cam.imgsz` as real numbers. -/
def imgszR (cam : Camera) : V2 := fun i => (cam.vec.imgsz i : ℝ)

/-- `mean_r_uv` (optimize.py:1345). -/
def meanRuv (cam : Camera) : ℝ := mean2 (imgszR cam) / 6 * (√2 + Real.log (1 + √2))

/-- `mean_r_xy` (1346). -/
def meanRxy (cam : Camera) : ℝ := meanRuv cam / mean2 cam.vec.f

/-- `np.linalg.norm(np.vstack(xyz) - cam.xyz)` (1365): without `axis`, the norm of the whole matrix. -/
def normAll (cam : Camera) (pts : List V3) : ℝ :=
  √((pts.map fun q => (q 0 - cam.vec.xyz 0) ^ 2 + (q 1 - cam.vec.xyz 1) ^ 2 + (q 2 - cam.vec.xyz 2) ^ 2).sum)

/-- Pixels per unit of `xyz` (1347-1366): 1 if there are no world points. `pts` are the world coordinates of controls
(not directions) of this camera; the mean of a scalar is the scalar. -/
def dpixXyz (cam : Camera) (pts : List V3) : ℝ :=
  if pts.isEmpty then 1 else mean2 cam.vec.f / normAll cam pts

/-- Pixels per degree of the first two angles (1370-1371). -/
def dpixView (cam : Camera) (i : Fin 2) : ℝ :=
  imgszR cam i / ((2 * Real.arctan (imgszR cam i / (2 * cam.vec.f i))) * (180 / Real.pi))

/-- Pixels per degree of the third angle (1374-1375). -/
def dpixRoll (cam : Camera) : ℝ := 2 * meanRuv cam * Real.sin (Real.pi / 180 / 2)

/-- Pixels per unit of `k[0:3]` (1388-1390). -/
def dpixNum (cam : Camera) (i : Fin 3) : ℝ :=
  meanRxy cam ^ (2 * (i : ℕ) + 3) * mean2 cam.vec.f * (2 : ℝ) ^ ((2 * (i : ℕ) + 1 : ℝ) / 2)

/-- Pixels per unit of `k[3:6]` (1391-1402). -/
def dpixDen (cam : Camera) (i : Fin 3) : ℝ :=
  meanRxy cam ^ (2 * (i : ℕ) + 3) / (1 + cam.vec.k (Fin.natAdd 3 i) * meanRxy cam ^ (2 * (i : ℕ) + 2)) *
    mean2 cam.vec.f * (2 : ℝ) ^ ((2 * (i : ℕ) + 1 : ℝ) / 2)

/-- Pixels per unit of `p` (1406). -/
def dpixP (cam : Camera) : ℝ := √5 * meanRxy cam ^ 2 * mean2 cam.vec.f

/-- `dpixels` (1342-1406), 20 elements. -/
def dpixels (cam : Camera) (pts : List V3) : List ℝ :=
  [dpixXyz cam pts, dpixXyz cam pts, dpixXyz cam pts, dpixView cam 0, dpixView cam 1, dpixRoll cam, 0.5, 0.5,
   meanRxy cam, meanRxy cam, 1, 1, dpixNum cam 0, dpixNum cam 1, dpixNum cam 2, dpixDen cam 0, dpixDen cam 1,
   dpixDen cam 2, dpixP cam, dpixP cam]

/-- `Cameras.camera_scales` (1325-1408): the inverse, element by element. -/
def cameraScales (cam : Camera) (pts : List V3) (p : Nat) : ℝ := 1 / (dpixels cam pts).getD p 1

/-- `Cameras.camera_bounds` (1410-1456); `none` is infinite. -/
def cameraBounds (cam : Camera) : List (Option ℝ × Option ℝ) :=
  let k := mean2 cam.vec.f / 4000
  let p := mean2 cam.vec.f / 40000
  [(none, none), (none, none), (none, none), (none, none), (none, none), (none, none),
   (some 0, none), (some 0, none), (some 0, none), (some 0, none),
   (some (-0.5 * imgszR cam 0), some (0.5 * imgszR cam 0)), (some (-0.5 * imgszR cam 1), some (0.5 * imgszR cam 1)),
   (some (-k), some k), (some (-k / 2), some (k / 2)), (some (-k / 2), some (k / 2)),
   (some (-k), some k), (some (-k), some k), (some (-k), some k), (some (-p), some p), (some (-p), some p)]

/-- What `lmfit.Parameter` does with an initial value outside its bounds: it moves it to the nearest bound. -/
def clipTo (b : Option ℝ × Option ℝ) (x : ℝ) : ℝ :=
  let y := match b.1 with
    | none => x
    | some lo => max lo x
  match b.2 with
  | none => y
  | some hi => min hi y

/-- `Cameras._build_scales` (1567-1577), without NaN: scales of the parameters of groups (mean over the cameras of the
group), then of cameras. -/
def Layout.buildScales (L : Layout) (scales : Nat → Nat → ℝ) : List ℝ :=
  ((List.range L.groups.length).flatMap fun i => groupValues scales (L.groupMask i) (L.groups.getD i [])) ++
  ((List.range L.ncams).flatMap fun j => selectMask (L.camMask j) (vectorOf (scales j)))

end Glimpse.Cams
