import Verif.Model.Camera

/-!
Model of the external camera models (`src/glimpse/convert/cameras/*.py`) over the real numbers: conversion from and to
`Camera`, and projection. Reading files and the least-squares optimization (`Converter.optimize_xcam`, `optimize_cam`)
are not modelled: the result of an optimization is a parameter.
-/
set_option autoImplicit false

namespace Glimpse.Convert

noncomputable section

/-- `Camera(imgsz, f, c, k, p, sensorsz)` (camera.py:77-119) with the default position, view direction and correction. -/
def newCamera (imgsz : Fin 2 → ℤ) (f c : V2) (k : Fin 6 → ℝ) (p : V2) (sensorsz : Option V2) : Camera :=
  let v : CamVec := ⟨0, 0, imgsz, f, c, k, p⟩
  ⟨v, v, sensorsz, none⟩

/-- `helpers.format_list(k, length=6, default=0)` of three coefficients (camera.py:176-185). -/
def pad3 (a b c : ℝ) : Fin 6 → ℝ := ![a, b, c, 0, 0, 0]

/-! ### Agisoft -/

/-- `Agisoft` (agisoft.py:36-56). -/
structure Agisoft where
  imgsz : Fin 2 → ℤ
  f : ℝ
  cx : ℝ
  cy : ℝ
  k1 : ℝ
  k2 : ℝ
  k3 : ℝ
  k4 : ℝ
  p1 : ℝ
  p2 : ℝ
  b1 : ℝ
  b2 : ℝ

/-- `Agisoft._from_camera_initial` (agisoft.py:97-110). -/
def Agisoft.ofCamera (cam : Camera) : Agisoft where
  imgsz := cam.vec.imgsz
  f := cam.vec.f 1
  cx := cam.vec.c 0
  cy := cam.vec.c 1
  k1 := cam.vec.k 0
  k2 := cam.vec.k 1
  k3 := cam.vec.k 2
  k4 := 0
  p1 := cam.vec.p 1
  p2 := cam.vec.p 0
  b1 := cam.vec.f 0 - cam.vec.f 1
  b2 := 0

/-- `Agisoft.from_camera` (agisoft.py:112-145): `fit` stands for the optimization. -/
def Agisoft.fromCamera (optimize : Bool) (fit : Agisoft → Agisoft) (cam : Camera) : Agisoft :=
  open Classical in
  if optimize = false ∨ (cam.vec.k 3 = 0 ∧ cam.vec.k 4 = 0 ∧ cam.vec.k 5 = 0) then .ofCamera cam
  else fit (.ofCamera cam)

/-- `Agisoft._xy_to_uv` (agisoft.py:147-169). -/
def Agisoft.xyToUv (x : Agisoft) (xy : V2) : V2 :=
  let r2 := xy 0 ^ 2 + xy 1 ^ 2
  let dr := x.k1 * r2 + x.k2 * r2 ^ 2 + x.k3 * r2 ^ 3 + x.k4 * r2 ^ 4
  let xty := xy 0 * xy 1
  let dtx := x.p1 * (r2 + 2 * xy 0 ^ 2) + 2 * x.p2 * xty
  let dty := x.p2 * (r2 + 2 * xy 1 ^ 2) + 2 * x.p1 * xty
  let d0 := xy 0 + (xy 0 * dr + dtx)
  let d1 := xy 1 + (xy 1 * dr + dty)
  ![(x.imgsz 0 : ℝ) * 0.5 + x.cx + d0 * (x.f + x.b1) + d1 * x.b2, (x.imgsz 1 : ℝ) * 0.5 + x.cy + d1 * x.f]

/-- `Agisoft._to_camera_initial` (agisoft.py:171-178). -/
def Agisoft.toCameraInitial (x : Agisoft) : Camera :=
  newCamera x.imgsz ![x.f + x.b1, x.f] ![x.cx, x.cy] (pad3 x.k1 x.k2 x.k3) ![x.p2, x.p1] none

/-- `Agisoft.to_camera` (agisoft.py:180-223). -/
def Agisoft.toCamera (optimize : Bool) (fit : Camera → Camera) (x : Agisoft) : Camera :=
  open Classical in
  if optimize = false ∨ (x.k4 = 0 ∧ x.b2 = 0) then x.toCameraInitial else fit x.toCameraInitial

/-! ### OpenCV -/

/-- `OpenCV` (opencv.py:43-71). -/
structure OpenCV where
  imgsz : Fin 2 → ℤ
  fx : ℝ
  fy : ℝ
  cx : ℝ
  cy : ℝ
  k1 : ℝ
  k2 : ℝ
  k3 : ℝ
  k4 : ℝ
  k5 : ℝ
  k6 : ℝ
  p1 : ℝ
  p2 : ℝ
  s1 : ℝ
  s2 : ℝ
  s3 : ℝ
  s4 : ℝ

/-- `OpenCV.from_camera` (opencv.py:166-196). -/
def OpenCV.ofCamera (cam : Camera) : OpenCV where
  imgsz := cam.vec.imgsz
  fx := cam.vec.f 0
  fy := cam.vec.f 1
  cx := cam.vec.c 0 + (cam.vec.imgsz 0 : ℝ) / 2
  cy := cam.vec.c 1 + (cam.vec.imgsz 1 : ℝ) / 2
  k1 := cam.vec.k 0
  k2 := cam.vec.k 1
  k3 := cam.vec.k 2
  k4 := cam.vec.k 3
  k5 := cam.vec.k 4
  k6 := cam.vec.k 5
  p1 := cam.vec.p 0
  p2 := cam.vec.p 1
  s1 := 0
  s2 := 0
  s3 := 0
  s4 := 0

/-- `OpenCV._xy_to_uv` (opencv.py:198-217). -/
def OpenCV.xyToUv (x : OpenCV) (xy : V2) : V2 :=
  let r2 := xy 0 ^ 2 + xy 1 ^ 2
  let dr := (1 + x.k1 * r2 + x.k2 * r2 ^ 2 + x.k3 * r2 ^ 3) / (1 + x.k4 * r2 + x.k5 * r2 ^ 2 + x.k6 * r2 ^ 3)
  let xty := xy 0 * xy 1
  let dtx := x.p2 * (r2 + 2 * xy 0 ^ 2) + 2 * x.p1 * xty
  let dty := x.p1 * (r2 + 2 * xy 1 ^ 2) + 2 * x.p2 * xty
  let d0 := dr * xy 0 + dtx + x.s1 * r2 + x.s2 * r2 ^ 2
  let d1 := dr * xy 1 + dty + x.s3 * r2 + x.s4 * r2 ^ 2
  ![x.fx * d0 + x.cx, x.fy * d1 + x.cy]

/-- `OpenCV._to_camera_initial` (opencv.py:219-226). -/
def OpenCV.toCameraInitial (x : OpenCV) : Camera :=
  newCamera x.imgsz ![x.fx, x.fy] ![x.cx - (x.imgsz 0 : ℝ) / 2, x.cy - (x.imgsz 1 : ℝ) / 2]
    ![x.k1, x.k2, x.k3, x.k4, x.k5, x.k6] ![x.p1, x.p2] none

/-- `OpenCV.to_camera` (opencv.py:228-263). -/
def OpenCV.toCamera (optimize : Bool) (fit : Camera → Camera) (x : OpenCV) : Camera :=
  open Classical in
  if optimize = false ∨ (x.s1 = 0 ∧ x.s2 = 0 ∧ x.s3 = 0 ∧ x.s4 = 0) then x.toCameraInitial else fit x.toCameraInitial

/-- `OpenCV.cameraMatrix` (opencv.py:73-79). -/
def OpenCV.cameraMatrix (x : OpenCV) : List (List ℝ) := [[x.fx, 0, x.cx], [0, x.fy, x.cy], [0, 0, 1]]

/-- `OpenCV.distCoeffs` (opencv.py:81-101). -/
def OpenCV.distCoeffs (x : OpenCV) : List ℝ :=
  [x.k1, x.k2, x.p1, x.p2, x.k3, x.k4, x.k5, x.k6, x.s1, x.s2, x.s3, x.s4]

/-- `OpenCV.from_arrays` (opencv.py:103-137) for a 3 x 3 matrix (a smaller one raises, not modelled): missing
coefficients default to zero, those beyond the twelfth are ignored. -/
def OpenCV.fromArrays (m : List (List ℝ)) (d : List ℝ) (imgsz : Fin 2 → ℤ) : OpenCV where
  imgsz := imgsz
  fx := (m.getD 0 []).getD 0 0
  fy := (m.getD 1 []).getD 1 0
  cx := (m.getD 0 []).getD 2 0
  cy := (m.getD 1 []).getD 2 0
  k1 := d.getD 0 0
  k2 := d.getD 1 0
  p1 := d.getD 2 0
  p2 := d.getD 3 0
  k3 := d.getD 4 0
  k4 := d.getD 5 0
  k5 := d.getD 6 0
  k6 := d.getD 7 0
  s1 := d.getD 8 0
  s2 := d.getD 9 0
  s3 := d.getD 10 0
  s4 := d.getD 11 0

/-! ### Matlab -/

/-- `Matlab` (matlab.py:30-45). -/
structure Matlab where
  imgsz : Fin 2 → ℤ
  fc : V2
  cc : V2
  kc : Fin 5 → ℝ
  alpha : ℝ

/-- `Matlab._from_camera_initial` (matlab.py:83-94). -/
def Matlab.ofCamera (cam : Camera) : Matlab where
  imgsz := cam.vec.imgsz
  fc := ![cam.vec.f 0, cam.vec.f 1]
  cc := ![(cam.vec.c 0 + 0.5 * (cam.vec.imgsz 0 : ℝ)) - 0.5, (cam.vec.c 1 + 0.5 * (cam.vec.imgsz 1 : ℝ)) - 0.5]
  kc := ![cam.vec.k 0, cam.vec.k 1, cam.vec.p 0, cam.vec.p 1, cam.vec.k 2]
  alpha := 0

/-- `Matlab.from_camera` (matlab.py:96-129). -/
def Matlab.fromCamera (optimize : Bool) (fit : Matlab → Matlab) (cam : Camera) : Matlab :=
  open Classical in
  if optimize = false ∨ (cam.vec.k 3 = 0 ∧ cam.vec.k 4 = 0 ∧ cam.vec.k 5 = 0) then .ofCamera cam
  else fit (.ofCamera cam)

/-- `Matlab._xy_to_uv` (matlab.py:131-151). -/
def Matlab.xyToUv (x : Matlab) (xy : V2) : V2 :=
  let r2 := xy 0 ^ 2 + xy 1 ^ 2
  let dr := x.kc 0 * r2 + x.kc 1 * r2 ^ 2 + x.kc 4 * r2 ^ 3
  let xty := xy 0 * xy 1
  let dtx := 2 * x.kc 2 * xty + x.kc 3 * (r2 + 2 * xy 0 ^ 2)
  let dty := x.kc 2 * (r2 + 2 * xy 1 ^ 2) + 2 * x.kc 3 * xty
  let d0 := xy 0 + (xy 0 * dr + dtx)
  let d1 := xy 1 + (xy 1 * dr + dty)
  ![x.fc 0 * (d0 + x.alpha * d1) + x.cc 0 + 0.5, x.fc 1 * d1 + x.cc 1 + 0.5]

/-- `Matlab._to_camera_initial` (matlab.py:153-163). -/
def Matlab.toCameraInitial (x : Matlab) : Camera :=
  newCamera x.imgsz x.fc ![(x.cc 0 + 0.5) - (x.imgsz 0 : ℝ) / 2, (x.cc 1 + 0.5) - (x.imgsz 1 : ℝ) / 2]
    (pad3 (x.kc 0) (x.kc 1) (x.kc 4)) ![x.kc 2, x.kc 3] none

/-- `Matlab.to_camera` (matlab.py:165-200). -/
def Matlab.toCamera (optimize : Bool) (fit : Camera → Camera) (x : Matlab) : Camera :=
  open Classical in
  if optimize = false ∨ x.alpha = 0 then x.toCameraInitial else fit x.toCameraInitial

/-! ### PhotoModeler -/

/-- `PhotoModeler` (photomodeler.py:34-52). -/
structure PhotoModeler where
  imgsz : Fin 2 → ℤ
  focal : ℝ
  xp : ℝ
  yp : ℝ
  fw : ℝ
  fh : ℝ
  k1 : ℝ
  k2 : ℝ
  k3 : ℝ
  p1 : ℝ
  p2 : ℝ

/-- `PhotoModeler._from_camera_initial` (photomodeler.py:90-101). -/
def PhotoModeler.ofCamera (cam : Camera) : Except Err PhotoModeler :=
  match cam.sensorsz, cam.fmm, cam.cmm with
  | some s, some fmm, some cmm => .ok
    { imgsz := cam.vec.imgsz
      focal := (fmm 0 + fmm 1) / 2
      xp := cmm 0 + s 0 / 2
      yp := cmm 1 + s 1 / 2
      fw := s 0
      fh := s 1
      k1 := 0, k2 := 0, k3 := 0, p1 := 0, p2 := 0 }
  | _, _, _ => .error .valueError

/-- `PhotoModeler.from_camera` (photomodeler.py:103-160). -/
def PhotoModeler.fromCamera (optimize : Bool) (fit : PhotoModeler → PhotoModeler) (cam : Camera) :
    Except Err PhotoModeler :=
  open Classical in
  match PhotoModeler.ofCamera cam with
  | .error e => .error e
  | .ok x =>
    if optimize = false ∨ ((∀ m ∈ cam.fmm, m 0 = m 1) ∧ cam.vec.k = 0 ∧ cam.vec.p = 0) then .ok x else .ok (fit x)

/-- `PhotoModeler._uv_to_xy` (photomodeler.py:162-185). -/
def PhotoModeler.uvToXy (x : PhotoModeler) (uv : V2) : V2 :=
  let a := uv 0 * x.fw / (x.imgsz 0 : ℝ) - x.xp
  let b := (uv 1 * x.fh / (x.imgsz 1 : ℝ) - x.yp) * (-1)
  let r2 := a ^ 2 + b ^ 2
  let dr := x.k1 * r2 + x.k2 * r2 ^ 2 + x.k3 * r2 ^ 3
  let xty := a * b
  let dtx := x.p1 * (r2 + 2 * a ^ 2) + 2 * x.p2 * xty
  let dty := x.p2 * (r2 + 2 * b ^ 2) + 2 * x.p1 * xty
  ![(a + (a * dr + dtx)) * (1 / x.focal), (b + (b * dr + dty)) * (-1) * (1 / x.focal)]

/-- `PhotoModeler._to_camera_initial` (photomodeler.py:187-193), through the constructor (camera.py:97-113). -/
def PhotoModeler.toCameraInitial (x : PhotoModeler) : Camera :=
  newCamera x.imgsz
    ![x.focal * (x.imgsz 0 : ℝ) / x.fw, x.focal * (x.imgsz 1 : ℝ) / x.fh]
    ![(x.xp - x.fw / 2) * (x.imgsz 0 : ℝ) / x.fw, (x.yp - x.fh / 2) * (x.imgsz 1 : ℝ) / x.fh]
    0 0 (some ![x.fw, x.fh])

/-- `PhotoModeler.to_camera` (photomodeler.py:195-238). -/
def PhotoModeler.toCamera (optimize : Bool) (fit : Camera → Camera) (x : PhotoModeler) : Camera :=
  open Classical in
  if optimize = false ∨ (x.k1 = 0 ∧ x.k2 = 0 ∧ x.k3 = 0 ∧ x.p1 = 0 ∧ x.p2 = 0) then x.toCameraInitial
  else fit x.toCameraInitial

/-- `Converter.residuals` (converter.py:65-85) for one point and an external camera with an outgoing distortion
model. -/
def residualOut (cam : Camera) (uvToXy : V2 → V2) (uv : V2) : V2 := fun i => cam.xyToUv (uvToXy uv) i - uv i

/-- `Converter.residuals` for one point and an external camera with an incoming distortion model. -/
def residualIn (cam : Camera) (xyToUv : V2 → V2) (uv : V2) : V2 :=
  let xy := cam.uvToXy uv
  fun i => cam.xyToUv xy i - xyToUv xy i

end

end Glimpse.Convert
