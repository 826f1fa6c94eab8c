import Verif.Model.Basic
import Verif.Model.Rasterize
import Mathlib.Analysis.SpecialFunctions.Trigonometric.Basic
import Mathlib.Analysis.SpecialFunctions.Trigonometric.Inverse
import Mathlib.Analysis.SpecialFunctions.Complex.Arg
import Mathlib.Analysis.SpecialFunctions.Pow.Real
import Mathlib.Data.Matrix.Basic
import Mathlib.LinearAlgebra.Matrix.Notation

/-!
Model of `Camera` (`src/glimpse/camera.py`) over the real numbers. Floating-point rounding is not modelled.
Coordinates that the code sets to NaN are `none`. Array functions are modelled for one point (one row of the array)
unless said otherwise: all of them are elementwise in the rows.
-/
set_option autoImplicit false

namespace Glimpse

noncomputable section

/-- A row `(x, y)`. -/
abbrev V2 := Fin 2 → ℝ
/-- A row `(x, y, z)`. -/
abbrev V3 := Fin 3 → ℝ

/-- The 20 element state vector of a camera, split into the slices that the properties of camera.py:123-195 give
access to. `imgsz` (149-158) is integer because its setter rejects anything else. -/
structure CamVec where
  xyz : V3
  viewdir : V3
  imgsz : Fin 2 → ℤ
  f : V2
  c : V2
  k : Fin 6 → ℝ
  p : V2

/-- A camera object (camera.py:97-119): `_vector`, `_original_vector`, `_sensorsz` and `correction` (`none` for
`False`, otherwise `(radius, refraction)`). -/
structure Camera where
  vec : CamVec
  orig : CamVec
  sensorsz : Option V2
  correction : Option (ℝ × ℝ)

/-! ### Rotation -/

/-- `np.deg2rad` -/
def deg2rad (x : ℝ) : ℝ := x * (Real.pi / 180)

/-- `Camera.R` (camera.py:236-277) as a function of `viewdir`. -/
def rotR (v : V3) : Matrix (Fin 3) (Fin 3) ℝ :=
  let C := fun i => Real.cos (deg2rad (v i))
  let S := fun i => Real.sin (deg2rad (v i))
  !![C 0 * C 2 + S 0 * S 1 * S 2, C 0 * S 1 * S 2 - C 2 * S 0, -C 1 * S 2;
     C 2 * S 0 * S 1 - C 0 * S 2, S 0 * S 2 + C 0 * C 2 * S 1, -C 1 * C 2;
     C 1 * S 0, C 0 * C 1, S 1]

/-- The three nested lists stacked by `Camera.Rprime` (camera.py:290-322): yaw, pitch, roll. -/
def rprimeList (v : V3) : Fin 3 → Matrix (Fin 3) (Fin 3) ℝ :=
  let C := fun i => Real.cos (deg2rad (v i))
  let S := fun i => Real.sin (deg2rad (v i))
  ![!![C 0 * S 1 * S 2 - S 0 * C 2, S 0 * S 2 + C 0 * S 1 * C 2, C 0 * C 1;
       -S 0 * S 1 * S 2 - C 0 * C 2, C 0 * S 2 - S 0 * S 1 * C 2, -S 0 * C 1;
       0, 0, 0],
    !![S 0 * C 1 * S 2, S 0 * C 1 * C 2, -S 0 * S 1;
       C 0 * C 1 * S 2, C 0 * C 1 * C 2, -C 0 * S 1;
       S 1 * S 2, S 1 * C 2, C 1],
    !![S 0 * S 1 * C 2 - C 0 * S 2, -S 0 * S 1 * S 2 - C 0 * C 2, 0;
       S 0 * S 2 + C 0 * S 1 * C 2, S 0 * C 2 - C 0 * S 1 * S 2, 0;
       -C 1 * C 2, C 1 * S 2, 0]]

/-- `Camera.Rprime[i][a][j]` (camera.py:279-326): `np.stack(..., axis=1)` puts the list index second; the result is
scaled to degrees. -/
def rprime (v : V3) (i a j : Fin 3) : ℝ := rprimeList v a i j * (Real.pi / 180)

/-! ### Distortion -/

/-- `Camera._radial_distortion` (camera.py:1116-1141). The code skips terms whose coefficient is zero, which adds
zero, and skips the division when `k[3:6]` are all zero, where the denominator here is 1. -/
def radialDistortion (k : Fin 6 → ℝ) (r2 : ℝ) : ℝ :=
  (1 + k 0 * r2 + k 1 * r2 * r2 + k 2 * r2 * r2 * r2) /
    (1 + k 3 * r2 + k 4 * r2 * r2 + k 5 * r2 * r2 * r2)

/-- `Camera._tangential_distortion` (camera.py:1143-1156). -/
def tangentialDistortion (p : V2) (xy : V2) (r2 : ℝ) : V2 :=
  let xty := xy 0 * xy 1
  ![2 * xty * p 0 + p 1 * (r2 + 2 * xy 0 ^ 2), p 0 * (r2 + 2 * xy 1 ^ 2) + 2 * xty * p 1]

/-- `Camera._distort` (camera.py:1158-1174). -/
def distort (k : Fin 6 → ℝ) (p : V2) (xy : V2) : V2 :=
  open Classical in
  if k = 0 ∧ p = 0 then xy
  else
    let r2 := xy 0 ^ 2 + xy 1 ^ 2
    let dxy := if k ≠ 0 then fun i => xy i * radialDistortion k r2 else xy
    if p ≠ 0 then fun i => dxy i + tangentialDistortion p xy r2 i else dxy

/-- `np.arctan2(y, x)`, the argument of `x + iy` in `(-π, π]`. -/
def arctan2 (y x : ℝ) : ℝ := Complex.arg ⟨x, y⟩

/-- The undistorted radius in `Camera._undistort_k1` (camera.py:1225-1241), given `R` and `Q`. -/
def k1Radius (R Q : ℝ) : ℝ :=
  open Classical in
  if R ^ 2 < Q ^ 3 then
    let th := Real.arccos (R * Q ^ (-1.5 : ℝ));
    -2 * Real.sqrt Q * Real.cos ((th - 2 * Real.pi) / 3)
  else
    let A := -(SignType.sign R : ℝ) * (|R| + Real.sqrt (R ^ 2 - Q ^ 3)) ^ ((1.0 : ℝ) / 3)
    let B := if A ≠ 0 then Q / A else 0
    A + B

/-- `Camera._undistort_k1` (camera.py:1210-1242). For `x = 0`, `y ≠ 0` the code divides zero by the floating-point
`cos(arctan2(y, 0))`, a tiny non-zero number, and gets zero; here the cosine is zero and Lean's `0 / 0` is zero too. -/
def undistortK1 (k1 : ℝ) (xy : V2) : V2 :=
  let phi := arctan2 (xy 1) (xy 0)
  let Q := -1 / (3 * k1)
  let R := -xy 0 / (2 * k1 * Real.cos phi)
  let r := k1Radius R Q
  ![Real.cos phi * r, Real.sin phi * r]

/-- One iteration of `Camera._undistort_oulu` (camera.py:1302-1310). The second branch of the code
(`any(k) and not any(k)`) is never taken. -/
def ouluStep (k : Fin 6 → ℝ) (p : V2) (xy uxy : V2) : V2 :=
  open Classical in
  let r2 := uxy 0 ^ 2 + uxy 1 ^ 2
  if p ≠ 0 ∧ k = 0 then fun i => xy i - tangentialDistortion p uxy r2 i
  else fun i => (xy i - tangentialDistortion p uxy r2 i) * (1 / radialDistortion k r2)

/-- `Camera._undistort_oulu` (camera.py:1283-1315) on an array of points: all points are iterated together and the
early exit (1311-1314) needs all of them to be within tolerance. -/
def undistortOulu (k : Fin 6 → ℝ) (p : V2) (fmean tol : ℝ) (xys : List V2) : Nat → List V2 → List V2
  | 0, uxys => uxys
  | n + 1, uxys =>
    let uxys := List.zipWith (ouluStep k p) xys uxys
    open Classical in
    if 0 < tol ∧ ∀ q ∈ List.zip xys uxys, ∀ i, |distort k p q.2 i - q.1 i| < tol / fmean then uxys
    else undistortOulu k p fmean tol xys n uxys

/-- `Camera._undistort` with its default method and arguments (camera.py:1176-1208, 1283-1286) for one point: 20
iterations and no early exit. -/
def undistort (k : Fin 6 → ℝ) (p : V2) (xy : V2) : V2 :=
  open Classical in
  if k = 0 ∧ p = 0 then xy
  else if k 0 ≠ 0 ∧ (∀ i, i ≠ 0 → k i = 0) ∧ p = 0 then undistortK1 (k 0) xy
  else (ouluStep k p xy)^[20] xy

/-! ### Projection -/

/-- `helpers.elevation_corrections` (helpers.py:1530-1549). -/
def elevationCorrection (radius refraction d2 : ℝ) : ℝ := (refraction - 1) * d2 / (2 * radius)

/-- `dxyz` in `Camera._xyz_to_xy` (camera.py:1426-1433). -/
def Camera.dxyz (cam : Camera) (xyz : V3) (directions : Bool) : V3 :=
  if directions then xyz
  else
    let d : V3 := fun i => xyz i - cam.vec.xyz i
    match cam.correction with
    | none => d
    | some (radius, refraction) =>
      ![d 0, d 1, d 2 + elevationCorrection radius refraction (d 0 ^ 2 + d 1 ^ 2)]

/-- `Camera._xyz_to_xy` (camera.py:1413-1448): camera coordinates (`none` for NaN) and depth. -/
def Camera.xyzToXy (cam : Camera) (xyz : V3) (directions : Bool) : Option V2 × ℝ :=
  open Classical in
  let xyzc := (rotR cam.vec.viewdir).mulVec (cam.dxyz xyz directions)
  (if xyzc 2 ≤ 0 then none else some ![xyzc 0 / xyzc 2, xyzc 1 / xyzc 2], xyzc 2)

/-- `Camera._xy_to_xyz` (camera.py:1450-1475) for a scalar depth. -/
def Camera.xyToXyz (cam : Camera) (xy : V2) (directions : Bool) (depth : ℝ) : V3 :=
  open Classical in
  let R := rotR cam.vec.viewdir
  let xyz : V3 := fun i => (xy 0 * R 0 i + xy 1 * R 1 i) + R 2 i
  let xyz : V3 := if depth ≠ 1 then fun i => xyz i * depth else xyz
  if directions then xyz else fun i => xyz i + cam.vec.xyz i

/-- `Camera._xy_to_uv` (camera.py:1477-1486). -/
def Camera.xyToUv (cam : Camera) (xy : V2) : V2 :=
  fun i => distort cam.vec.k cam.vec.p xy i * cam.vec.f i + ((cam.vec.imgsz i : ℝ) / 2 + cam.vec.c i)

/-- `Camera._uv_to_xy` (camera.py:1488-1497). -/
def Camera.uvToXy (cam : Camera) (uv : V2) : V2 :=
  undistort cam.vec.k cam.vec.p
    fun i => (uv i - ((cam.vec.imgsz i : ℝ) * 0.5 + cam.vec.c i)) * (1 / cam.vec.f i)

/-- `Camera.xyz_to_uv` (camera.py:569-605): image coordinates (`none` for NaN) and depth. -/
def Camera.xyzToUv (cam : Camera) (xyz : V3) (directions : Bool) : Option V2 × ℝ :=
  let (xy, depth) := cam.xyzToXy xyz directions
  (xy.map cam.xyToUv, depth)

/-- `Camera.uv_to_xyz` (camera.py:607-641) for a scalar depth. -/
def Camera.uvToXyz (cam : Camera) (uv : V2) (directions : Bool) (depth : ℝ) : V3 :=
  cam.xyToXyz (cam.uvToXy uv) directions depth

/-- The `depth` argument of `Camera.uv_to_xyz`. -/
inductive Depth where
  | scalar (d : ℝ)
  | vector (ds : List ℝ)

/-- `Camera.uv_to_xyz` on an array of points (camera.py:607-641, 1450-1475): `if depth != 1` on an array of two or more
elements raises ValueError; an array of one element acts as a scalar; an empty array counts as false. -/
def Camera.uvToXyzArray (cam : Camera) (uvs : List V2) (directions : Bool) : Depth → Except Err (List V3)
  | .scalar d => .ok (uvs.map fun uv => cam.uvToXyz uv directions d)
  | .vector [] => .ok (uvs.map fun uv => cam.uvToXyz uv directions 1)
  | .vector [d] => .ok (uvs.map fun uv => cam.uvToXyz uv directions d)
  | .vector _ => .error .valueError

/-- `Camera.infront` (camera.py:643-676): the elevation correction is not applied. -/
def Camera.infront (cam : Camera) (xyz : V3) (directions : Bool) : Prop :=
  let d : V3 := if directions then xyz else fun i => xyz i - cam.vec.xyz i
  0 < ∑ i, d i * (rotR cam.vec.viewdir).transpose i 2

/-- `Camera.inframe` (camera.py:678-696); NaN compares false. -/
def Camera.inframe (cam : Camera) : Option V2 → Prop
  | none => False
  | some uv => ∀ i, 0 ≤ uv i ∧ uv i ≤ cam.vec.imgsz i

/-! ### Attributes and resizing -/

/-- `Camera.fmm` (camera.py:208-213). -/
def Camera.fmm (cam : Camera) : Option V2 :=
  cam.sensorsz.map fun s => fun i => cam.vec.f i * s i / cam.vec.imgsz i

/-- The setter of `Camera.fmm` (camera.py:215-219); a scalar is repeated by `format_list` (see `formatList`). -/
def Camera.setFmm (cam : Camera) (value : V2) : Except Err Camera :=
  match cam.sensorsz with
  | none => .error .valueError
  | some s => .ok { cam with vec := { cam.vec with f := fun i => value i * cam.vec.imgsz i / s i } }

/-- `Camera.cmm` (camera.py:221-226). -/
def Camera.cmm (cam : Camera) : Option V2 :=
  cam.sensorsz.map fun s => fun i => cam.vec.c i * s i / cam.vec.imgsz i

/-- The setter of `Camera.cmm` (camera.py:228-234). -/
def Camera.setCmm (cam : Camera) (value : V2) : Except Err Camera :=
  match cam.sensorsz with
  | none => .error .valueError
  | some s => .ok { cam with vec := { cam.vec with c := fun i => value i * cam.vec.imgsz i / s i } }

/-- `np.round`: nearest integer, ties to even. -/
def roundEven (x : ℝ) : ℤ :=
  open Classical in
  if x - ⌊x⌋ < 1 / 2 then ⌊x⌋ else if 1 / 2 < x - ⌊x⌋ then ⌊x⌋ + 1
  else if ⌊x⌋ % 2 = 0 then ⌊x⌋ else ⌊x⌋ + 1

/-- `helpers.get_scale_from_size` (helpers.py:1352-1370). The stochastic global optimizer
`scipy.optimize.differential_evolution` is the parameter `evolve`: the scale it proposes. It is accepted only if its
error is zero (1368-1369). -/
def getScaleFromSize (evolve : (Fin 2 → ℤ) → V2 → ℝ) (old : Fin 2 → ℤ) (new : V2) : Option ℝ :=
  open Classical in
  if ∀ i, new i = old i then some 1.0
  else
    let initial : V2 := fun i => new i / old i
    if ∀ i, initial 0 = initial i then some (initial 0)
    else
      let err := fun scale : ℝ => ∑ i, |(roundEven (scale * old i) : ℝ) - new i|
      if err (evolve old new) = 0 then some (evolve old new) else none

/-- The `size` argument of `Camera.resize`. -/
inductive Size where
  | factor (s : ℝ)
  | target (s : V2)

/-- The new size computed by `Camera.resize` (camera.py:548-562). -/
def Camera.resizeTarget (evolve : (Fin 2 → ℤ) → V2 → ℝ) (cam : Camera) (size : Size) (force : Bool) :
    Except Err V2 :=
  let byScale := fun scale : ℝ => (fun i => (⌊scale * cam.orig.imgsz i + 0.5⌋ : ℝ) : V2)
  match size with
  | .factor s => .ok (byScale s)
  | .target t =>
    if force then .ok t
    else match getScaleFromSize evolve cam.orig.imgsz t with
      | none => .error .valueError
      | some s => .ok (byScale s)

/-- `Camera.resize` (camera.py:510-567). -/
def Camera.resize (evolve : (Fin 2 → ℤ) → V2 → ℝ) (cam : Camera) (size : Size) (force : Bool) :
    Except Err Camera := do
  let new ← cam.resizeTarget evolve size force
  let scale2d : V2 := fun i => new i / cam.vec.imgsz i
  return { cam with vec := { cam.vec with
    imgsz := fun i => roundEven (new i)
    f := fun i => cam.vec.f i * scale2d i
    c := fun i => cam.vec.c i * scale2d i } }

/-- `Camera.copy` (camera.py:357-394): the copy's original state is the current state. -/
def Camera.copy (cam : Camera) : Camera := { cam with orig := cam.vec }

/-- `Camera.reset` (camera.py:396-407). -/
def Camera.reset (cam : Camera) : Camera := { cam with vec := cam.orig }

/-- `Camera.idealize` (camera.py:487-508). -/
def Camera.idealize (cam : Camera) : Camera :=
  { cam with vec := { cam.vec with k := 0, p := 0, c := 0 } }

/-! ### Spherical coordinates -/

/-- Python's `%` on floats with a positive modulus. -/
def fmod (x m : ℝ) : ℝ := x - m * ⌊x / m⌋

/-- `Camera.spherical_to_xyz` (camera.py:863-904) for one point; `distance` is the optional third column. -/
def Camera.sphericalToXyz (cam : Camera) (azimuth altitude : ℝ) (distance : Option ℝ) : V3 :=
  let az := fmod (Real.pi / 2 - azimuth * Real.pi / 180) (2 * Real.pi)
  let alt := fmod (Real.pi / 2 - altitude * Real.pi / 180) (2 * Real.pi)
  let xyz : V3 := ![Real.sin alt * Real.cos az, Real.sin alt * Real.sin az, Real.cos alt]
  match distance with
  | none => xyz
  | some d => fun i => xyz i * d + cam.vec.xyz i

/-- `Camera.xyz_to_spherical` (camera.py:906-943) for one point: azimuth, altitude and (unless `directions`)
distance. -/
def Camera.xyzToSpherical (cam : Camera) (xyz : V3) (directions : Bool) : ℝ × ℝ × Option ℝ :=
  let xyz : V3 := if directions then xyz else fun i => xyz i - cam.vec.xyz i
  let r := Real.sqrt (∑ i, xyz i ^ 2)
  let az := arctan2 (xyz 1) (xyz 0)
  let alt := Real.arccos (xyz 2 / r)
  (fmod (90 - az * 180 / Real.pi) 360, 90 - alt * 180 / Real.pi, if directions then none else some r)

end

/-! ### Rasterizing (rational coordinates) -/

/-- `Camera.rasterize` (camera.py:836-861) for one value per point and an image of `nx` by `ny` pixels. Image
coordinates are rational or NaN (`none`); `astype(int)` truncates, which for the in-frame (non-negative) coordinates
is the floor. The result is the row-major list of the `ny` by `nx` array, NaN being `none`. -/
def cameraRasterize (nx ny : Nat) (pts : List (Option (ℚ × ℚ) × ℚ)) : Except Err (List (Option ℚ)) := do
  let sel := pts.filterMap fun q => match q.1 with
    | none => none
    | some (u, v) =>
      if 0 ≤ u ∧ u ≤ nx ∧ 0 ≤ v ∧ v ≤ ny then some (⟨u.floor, v.floor, q.2⟩ : ℤ × ℤ × ℚ) else none
  let (uidx, means) ← rasterizePoints (sel.map fun q => ⟨q.2.1, q.1, q.2.2⟩) ny nx
  return setFlat (List.replicate (ny * nx) none) uidx (means.map some)

end Glimpse
