import Verif.Model.Converters
import Mathlib.Tactic.Linarith
import Mathlib.Tactic.Ring
import Mathlib.Tactic.FieldSimp
import Mathlib.Tactic.NormNum
import Mathlib.Tactic.FinCases

/-!
C30: conversion from and to other camera models.
-/
set_option autoImplicit false
set_option linter.unusedSimpArgs false

namespace Glimpse.Convert

/-- The internal parameters of two cameras agree (image size, focal length, principal point, distortion). -/
def SameInternal (a b : Camera) : Prop :=
  a.vec.imgsz = b.vec.imgsz ∧ a.vec.f = b.vec.f ∧ a.vec.c = b.vec.c ∧ a.vec.k = b.vec.k ∧ a.vec.p = b.vec.p

/-- No rational distortion coefficients (k4, k5, k6). -/
def NoK456 (cam : Camera) : Prop := cam.vec.k 3 = 0 ∧ cam.vec.k 4 = 0 ∧ cam.vec.k 5 = 0

private theorem distort_eq (k : Fin 6 → ℝ) (p xy : V2) (i : Fin 2) :
    distort k p xy i = xy i * radialDistortion k (xy 0 ^ 2 + xy 1 ^ 2) +
      tangentialDistortion p xy (xy 0 ^ 2 + xy 1 ^ 2) i := by
  have hr : ∀ r2, radialDistortion 0 r2 = 1 := by intro r2; simp [radialDistortion]
  have ht : ∀ (r2 : ℝ) (i : Fin 2), tangentialDistortion 0 xy r2 i = 0 := by
    intro r2 i; fin_cases i <;> simp [tangentialDistortion]
  unfold distort
  by_cases hk : k = 0
  · subst hk
    by_cases hp : p = 0
    · subst hp; simp [hr, ht]
    · simp [hp, hr]
  · by_cases hp : p = 0
    · subst hp; simp [hk, ht]
    · simp [hk, hp]

private theorem two {x y : V2} (h0 : x 0 = y 0) (h1 : x 1 = y 1) : x = y := by
  funext i; fin_cases i
  · exact h0
  · exact h1

/-! ### Agisoft -/

/-- C30 (Agisoft). Without k4-k6 the converted camera projects every normalized point to the same image coordinates
(whatever `optimize` is: no optimization is run). -/
theorem agisoft_from_exact (cam : Camera) (h : NoK456 cam) (optimize : Bool) (fit : Agisoft → Agisoft) (xy : V2) :
    (Agisoft.fromCamera optimize fit cam).xyToUv xy = cam.xyToUv xy := by
  obtain ⟨h3, h4, h5⟩ := h
  have : Agisoft.fromCamera optimize fit cam = .ofCamera cam := by
    unfold Agisoft.fromCamera; rw [if_pos (Or.inr ⟨h3, h4, h5⟩)]
  rw [this]
  apply two <;>
  · simp only [Agisoft.xyToUv, Agisoft.ofCamera, Camera.xyToUv, distort_eq, radialDistortion, tangentialDistortion,
      h3, h4, h5, Matrix.cons_val_zero, Matrix.cons_val_one]
    ring

/-- C30 (Agisoft, converse): without k4 and b2, the converted camera agrees with the Agisoft model on every point. -/
theorem agisoft_to_exact (x : Agisoft) (h4 : x.k4 = 0) (hb : x.b2 = 0) (optimize : Bool) (fit : Camera → Camera)
    (xy : V2) : (x.toCamera optimize fit).xyToUv xy = x.xyToUv xy := by
  have : x.toCamera optimize fit = x.toCameraInitial := by
    unfold Agisoft.toCamera; rw [if_pos (Or.inr ⟨h4, hb⟩)]
  rw [this]
  apply two <;>
  · simp only [Agisoft.xyToUv, Agisoft.toCameraInitial, newCamera, pad3, Camera.xyToUv, distort_eq, radialDistortion,
      tangentialDistortion, h4, hb, Matrix.cons_val_zero, Matrix.cons_val_one, Matrix.cons_val]
    ring

/-- C30 (Agisoft): conversion there and back recovers the internal parameters. -/
theorem agisoft_round_trip (cam : Camera) (h : NoK456 cam) (o o' : Bool) (fit : Agisoft → Agisoft)
    (fit' : Camera → Camera) : SameInternal ((Agisoft.fromCamera o fit cam).toCamera o' fit') cam := by
  obtain ⟨h3, h4, h5⟩ := h
  have e1 : Agisoft.fromCamera o fit cam = .ofCamera cam := by
    unfold Agisoft.fromCamera; rw [if_pos (Or.inr ⟨h3, h4, h5⟩)]
  have e2 : (Agisoft.ofCamera cam).toCamera o' fit' = (Agisoft.ofCamera cam).toCameraInitial := by
    unfold Agisoft.toCamera; rw [if_pos (Or.inr ⟨rfl, rfl⟩)]
  rw [e1, e2]
  refine ⟨rfl, two ?_ ?_, two ?_ ?_, ?_, two ?_ ?_⟩
  · simp [Agisoft.toCameraInitial, Agisoft.ofCamera, newCamera]
  · simp [Agisoft.toCameraInitial, Agisoft.ofCamera, newCamera]
  · simp [Agisoft.toCameraInitial, Agisoft.ofCamera, newCamera]
  · simp [Agisoft.toCameraInitial, Agisoft.ofCamera, newCamera]
  · funext i
    fin_cases i <;> simp [Agisoft.toCameraInitial, Agisoft.ofCamera, newCamera, pad3, h3, h4, h5]
  · simp [Agisoft.toCameraInitial, Agisoft.ofCamera, newCamera]
  · simp [Agisoft.toCameraInitial, Agisoft.ofCamera, newCamera]

/-! ### OpenCV -/

/-- C30 (OpenCV). For every camera, the converted camera projects every normalized point to the same image
coordinates. -/
theorem opencv_from_exact (cam : Camera) (xy : V2) : (OpenCV.ofCamera cam).xyToUv xy = cam.xyToUv xy := by
  have hr : ∀ k r2, radialDistortion k r2 =
      (1 + k 0 * r2 + k 1 * r2 ^ 2 + k 2 * r2 ^ 3) / (1 + k 3 * r2 + k 4 * r2 ^ 2 + k 5 * r2 ^ 3) := by
    intro k r2; unfold radialDistortion; congr 1 <;> ring
  apply two <;>
  · simp only [OpenCV.xyToUv, OpenCV.ofCamera, Camera.xyToUv, distort_eq, hr, tangentialDistortion,
      Matrix.cons_val_zero, Matrix.cons_val_one]
    ring

/-- C30 (OpenCV, converse): without thin prism coefficients, the converted camera agrees with the OpenCV model. -/
theorem opencv_to_exact (x : OpenCV) (h : x.s1 = 0 ∧ x.s2 = 0 ∧ x.s3 = 0 ∧ x.s4 = 0) (optimize : Bool)
    (fit : Camera → Camera) (xy : V2) : (x.toCamera optimize fit).xyToUv xy = x.xyToUv xy := by
  have hr : ∀ k r2, radialDistortion k r2 =
      (1 + k 0 * r2 + k 1 * r2 ^ 2 + k 2 * r2 ^ 3) / (1 + k 3 * r2 + k 4 * r2 ^ 2 + k 5 * r2 ^ 3) := by
    intro k r2; unfold radialDistortion; congr 1 <;> ring
  have : x.toCamera optimize fit = x.toCameraInitial := by unfold OpenCV.toCamera; rw [if_pos (Or.inr h)]
  obtain ⟨h1, h2, h3, h4⟩ := h
  rw [this]
  apply two <;>
  · simp only [OpenCV.xyToUv, OpenCV.toCameraInitial, newCamera, Camera.xyToUv, distort_eq, hr,
      tangentialDistortion, h1, h2, h3, h4, Matrix.cons_val_zero, Matrix.cons_val_one, Matrix.cons_val]
    ring

/-- C30 (OpenCV): conversion there and back recovers the internal parameters of every camera. -/
theorem opencv_round_trip (cam : Camera) (o : Bool) (fit : Camera → Camera) :
    SameInternal ((OpenCV.ofCamera cam).toCamera o fit) cam := by
  have e2 : (OpenCV.ofCamera cam).toCamera o fit = (OpenCV.ofCamera cam).toCameraInitial := by
    unfold OpenCV.toCamera; rw [if_pos (Or.inr ⟨rfl, rfl, rfl, rfl⟩)]
  rw [e2]
  refine ⟨rfl, two ?_ ?_, two ?_ ?_, ?_, two ?_ ?_⟩
  · simp [OpenCV.toCameraInitial, OpenCV.ofCamera, newCamera]
  · simp [OpenCV.toCameraInitial, OpenCV.ofCamera, newCamera]
  · simp [OpenCV.toCameraInitial, OpenCV.ofCamera, newCamera]
  · simp [OpenCV.toCameraInitial, OpenCV.ofCamera, newCamera]
  · funext i
    fin_cases i <;> simp [OpenCV.toCameraInitial, OpenCV.ofCamera, newCamera]
  · simp [OpenCV.toCameraInitial, OpenCV.ofCamera, newCamera]
  · simp [OpenCV.toCameraInitial, OpenCV.ofCamera, newCamera]

/-- C30 (OpenCV): the OpenCV arrays determine the camera: `from_arrays` inverts `cameraMatrix` and `distCoeffs`; longer
coefficient vectors give the same camera, and shorter ones that with zeros appended. -/
theorem opencv_arrays (x : OpenCV) (extra : List ℝ) :
    OpenCV.fromArrays x.cameraMatrix (x.distCoeffs ++ extra) x.imgsz = x ∧
      ∀ (m : List (List ℝ)) (d : List ℝ) (sz : Fin 2 → ℤ) (n : Nat),
        OpenCV.fromArrays m (d ++ List.replicate n 0) sz = OpenCV.fromArrays m d sz := by
  refine ⟨by simp [OpenCV.fromArrays, OpenCV.cameraMatrix, OpenCV.distCoeffs], ?_⟩
  intro m d sz n
  have : ∀ i, (d ++ List.replicate n (0 : ℝ)).getD i 0 = d.getD i 0 := by
    intro i
    rw [List.getD_eq_getElem?_getD, List.getD_eq_getElem?_getD, List.getElem?_append]
    split
    · rfl
    · rename_i h
      rw [List.getElem?_replicate, List.getElem?_eq_none (by omega)]
      split <;> rfl
  simp only [OpenCV.fromArrays, this]

/-- C30 (OpenCV): the camera matrix takes camera coordinates `(a, b, 1)` to the image coordinates `(fx a + cx, fy b + cy, 1)`. -/
theorem opencv_matrix (x : OpenCV) (a b : ℝ) : x.cameraMatrix.map (fun row => (List.zipWith (· * ·) row [a, b, 1]).sum) =
    [x.fx * a + x.cx, x.fy * b + x.cy, 1] := by
  simp [OpenCV.cameraMatrix]

/-! ### Matlab -/

/-- C30 (Matlab). Without k4-k6 the converted camera projects every normalized point to the same image coordinates. -/
theorem matlab_from_exact (cam : Camera) (h : NoK456 cam) (optimize : Bool) (fit : Matlab → Matlab) (xy : V2) :
    (Matlab.fromCamera optimize fit cam).xyToUv xy = cam.xyToUv xy := by
  obtain ⟨h3, h4, h5⟩ := h
  have : Matlab.fromCamera optimize fit cam = .ofCamera cam := by
    unfold Matlab.fromCamera; rw [if_pos (Or.inr ⟨h3, h4, h5⟩)]
  rw [this]
  apply two <;>
  · simp only [Matlab.xyToUv, Matlab.ofCamera, Camera.xyToUv, distort_eq, radialDistortion, tangentialDistortion,
      h3, h4, h5, Matrix.cons_val_zero, Matrix.cons_val_one, Matrix.cons_val]
    ring

/-- C30 (Matlab, converse): without skew, the converted camera agrees with the Matlab model on every point. -/
theorem matlab_to_exact (x : Matlab) (h : x.alpha = 0) (optimize : Bool) (fit : Camera → Camera) (xy : V2) :
    (x.toCamera optimize fit).xyToUv xy = x.xyToUv xy := by
  have : x.toCamera optimize fit = x.toCameraInitial := by unfold Matlab.toCamera; rw [if_pos (Or.inr h)]
  rw [this]
  apply two <;>
  · simp only [Matlab.xyToUv, Matlab.toCameraInitial, newCamera, pad3, Camera.xyToUv, distort_eq, radialDistortion,
      tangentialDistortion, h, Matrix.cons_val_zero, Matrix.cons_val_one, Matrix.cons_val]
    ring

/-- C30 (Matlab): conversion there and back recovers the internal parameters. -/
theorem matlab_round_trip (cam : Camera) (h : NoK456 cam) (o o' : Bool) (fit : Matlab → Matlab)
    (fit' : Camera → Camera) : SameInternal ((Matlab.fromCamera o fit cam).toCamera o' fit') cam := by
  obtain ⟨h3, h4, h5⟩ := h
  have e1 : Matlab.fromCamera o fit cam = .ofCamera cam := by
    unfold Matlab.fromCamera; rw [if_pos (Or.inr ⟨h3, h4, h5⟩)]
  have e2 : (Matlab.ofCamera cam).toCamera o' fit' = (Matlab.ofCamera cam).toCameraInitial := by
    unfold Matlab.toCamera; exact if_pos (Or.inr rfl)
  rw [e1, e2]
  refine ⟨rfl, two ?_ ?_, two ?_ ?_, ?_, two ?_ ?_⟩
  · simp [Matlab.toCameraInitial, Matlab.ofCamera, newCamera]
  · simp [Matlab.toCameraInitial, Matlab.ofCamera, newCamera]
  · simp [Matlab.toCameraInitial, Matlab.ofCamera, newCamera]; ring
  · simp [Matlab.toCameraInitial, Matlab.ofCamera, newCamera]; ring
  · funext i
    fin_cases i <;> simp [Matlab.toCameraInitial, Matlab.ofCamera, newCamera, pad3, h3, h4, h5]
  · simp [Matlab.toCameraInitial, Matlab.ofCamera, newCamera]
  · simp [Matlab.toCameraInitial, Matlab.ofCamera, newCamera]

/-! ### PhotoModeler -/

/-- A camera that PhotoModeler can represent: a sensor size, equal focal lengths in mm and no distortion (and a
non-degenerate image, sensor and focal length). -/
structure PmExact (cam : Camera) (s : V2) : Prop where
  sensor : cam.sensorsz = some s
  square : cam.vec.f 0 * s 0 / cam.vec.imgsz 0 = cam.vec.f 1 * s 1 / cam.vec.imgsz 1
  k0 : cam.vec.k = 0
  p0 : cam.vec.p = 0
  img : ∀ i, (cam.vec.imgsz i : ℝ) ≠ 0
  s0 : ∀ i, s i ≠ 0
  f0 : ∀ i, cam.vec.f i ≠ 0

private theorem pm_form (cam : Camera) (s : V2) (h : PmExact cam s) (o : Bool) (fit : PhotoModeler → PhotoModeler) :
    PhotoModeler.fromCamera o fit cam = .ok ⟨cam.vec.imgsz, cam.vec.f 0 * s 0 / cam.vec.imgsz 0,
      cam.vec.c 0 * s 0 / cam.vec.imgsz 0 + s 0 / 2, cam.vec.c 1 * s 1 / cam.vec.imgsz 1 + s 1 / 2, s 0, s 1,
      0, 0, 0, 0, 0⟩ := by
  have hsq : ∀ m ∈ cam.fmm, m 0 = m 1 := by
    intro m hm
    simp only [Camera.fmm, h.sensor, Option.map_some, Option.mem_def, Option.some.injEq] at hm
    rw [← hm]; exact h.square
  unfold PhotoModeler.fromCamera PhotoModeler.ofCamera
  simp only [Camera.fmm, Camera.cmm, h.sensor, Option.map_some] at hsq ⊢
  rw [if_pos (Or.inr ⟨hsq, h.k0, h.p0⟩), ← h.square]
  congr 2
  ring

private theorem pm_uvToXy (x : PhotoModeler) (hd : x.k1 = 0 ∧ x.k2 = 0 ∧ x.k3 = 0 ∧ x.p1 = 0 ∧ x.p2 = 0) (uv : V2) :
    x.uvToXy uv 0 = (uv 0 * x.fw / (x.imgsz 0 : ℝ) - x.xp) / x.focal ∧
      x.uvToXy uv 1 = (uv 1 * x.fh / (x.imgsz 1 : ℝ) - x.yp) / x.focal := by
  obtain ⟨d1, d2, d3, d4, d5⟩ := hd
  constructor <;>
  · simp only [PhotoModeler.uvToXy, d1, d2, d3, d4, d5, Matrix.cons_val_zero, Matrix.cons_val_one]
    ring

private theorem ideal_xyToUv (cam : Camera) (hk : cam.vec.k = 0) (hp : cam.vec.p = 0) (xy : V2) (i : Fin 2) :
    cam.xyToUv xy i = xy i * cam.vec.f i + ((cam.vec.imgsz i : ℝ) / 2 + cam.vec.c i) := by
  simp [Camera.xyToUv, distort, hk, hp]

/-- C30 (PhotoModeler). For every camera PhotoModeler can represent, its (outgoing) projection inverts the camera's on
every image point, so that the converter's residuals are zero. -/
theorem photomodeler_from_exact (cam : Camera) (s : V2) (h : PmExact cam s) (o : Bool)
    (fit : PhotoModeler → PhotoModeler) :
    ∃ x, PhotoModeler.fromCamera o fit cam = .ok x ∧ (∀ uv, cam.xyToUv (x.uvToXy uv) = uv) ∧
      (∀ xy, x.uvToXy (cam.xyToUv xy) = xy) := by
  have hi := h.img
  have hs := h.s0
  have hf := h.f0
  have hsq := h.square
  have d0 : ∀ a b : ℝ, a ≠ 0 → b ≠ 0 → a / b ≠ 0 := fun a b => div_ne_zero
  refine ⟨_, pm_form cam s h o fit, ?_, ?_⟩
  · intro uv
    obtain ⟨e0, e1⟩ := pm_uvToXy ⟨cam.vec.imgsz, cam.vec.f 0 * s 0 / cam.vec.imgsz 0,
      cam.vec.c 0 * s 0 / cam.vec.imgsz 0 + s 0 / 2, cam.vec.c 1 * s 1 / cam.vec.imgsz 1 + s 1 / 2, s 0, s 1,
      0, 0, 0, 0, 0⟩ ⟨rfl, rfl, rfl, rfl, rfl⟩ uv
    apply two
    · rw [ideal_xyToUv cam h.k0 h.p0, e0]
      have := hi 0; have := hs 0; have := hf 0
      field_simp
      ring
    · rw [ideal_xyToUv cam h.k0 h.p0, e1]
      simp only [hsq]
      have := hi 1; have := hs 1; have := hf 1
      field_simp
      ring
  · intro xy
    obtain ⟨e0, e1⟩ := pm_uvToXy ⟨cam.vec.imgsz, cam.vec.f 0 * s 0 / cam.vec.imgsz 0,
      cam.vec.c 0 * s 0 / cam.vec.imgsz 0 + s 0 / 2, cam.vec.c 1 * s 1 / cam.vec.imgsz 1 + s 1 / 2, s 0, s 1,
      0, 0, 0, 0, 0⟩ ⟨rfl, rfl, rfl, rfl, rfl⟩ (cam.xyToUv xy)
    apply two
    · rw [e0, ideal_xyToUv cam h.k0 h.p0]
      have := hi 0; have := hs 0; have := hf 0
      field_simp
      ring
    · rw [e1, ideal_xyToUv cam h.k0 h.p0]
      simp only [hsq]
      have := hi 1; have := hs 1; have := hf 1
      field_simp
      ring

/-- C30 (PhotoModeler, converse): without distortion, the converted camera inverts the PhotoModeler projection on every
image point: the converter's residuals are zero. -/
theorem photomodeler_to_exact (x : PhotoModeler) (hd : x.k1 = 0 ∧ x.k2 = 0 ∧ x.k3 = 0 ∧ x.p1 = 0 ∧ x.p2 = 0)
    (h0 : (x.imgsz 0 : ℝ) ≠ 0) (h1 : (x.imgsz 1 : ℝ) ≠ 0) (hw : x.fw ≠ 0) (hh : x.fh ≠ 0) (hf : x.focal ≠ 0)
    (o : Bool) (fit : Camera → Camera) (uv : V2) :
    (x.toCamera o fit).xyToUv (x.uvToXy uv) = uv ∧ residualOut (x.toCamera o fit) x.uvToXy uv = 0 := by
  have e : x.toCamera o fit = x.toCameraInitial := by unfold PhotoModeler.toCamera; rw [if_pos (Or.inr hd)]
  obtain ⟨e0, e1⟩ := pm_uvToXy x hd uv
  have key : (x.toCamera o fit).xyToUv (x.uvToXy uv) = uv := by
    rw [e]
    apply two
    · rw [ideal_xyToUv _ rfl rfl, e0]
      simp only [PhotoModeler.toCameraInitial, newCamera, Matrix.cons_val_zero]
      field_simp
      ring
    · rw [ideal_xyToUv _ rfl rfl, e1]
      simp only [PhotoModeler.toCameraInitial, newCamera, Matrix.cons_val_one, Matrix.cons_val_zero]
      field_simp
      ring
  refine ⟨key, ?_⟩
  funext i
  simp [residualOut, key]

/-- C30 (PhotoModeler): conversion there and back recovers the internal parameters and the sensor size. -/
theorem photomodeler_round_trip (cam : Camera) (s : V2) (h : PmExact cam s) (o o' : Bool)
    (fit : PhotoModeler → PhotoModeler) (fit' : Camera → Camera) :
    ∃ x, PhotoModeler.fromCamera o fit cam = .ok x ∧ SameInternal (x.toCamera o' fit') cam ∧
      (x.toCamera o' fit').sensorsz = cam.sensorsz := by
  have hi := h.img
  have hs := h.s0
  have hsq := h.square
  refine ⟨_, pm_form cam s h o fit, ?_, ?_⟩
  · rw [PhotoModeler.toCamera, if_pos (Or.inr ⟨rfl, rfl, rfl, rfl, rfl⟩)]
    refine ⟨rfl, two ?_ ?_, two ?_ ?_, ?_, ?_⟩
    · have := hi 0; have := hs 0
      simp only [PhotoModeler.toCameraInitial, newCamera, Matrix.cons_val_zero]
      field_simp
    · have := hi 1; have := hs 1
      simp only [PhotoModeler.toCameraInitial, newCamera, Matrix.cons_val_one, Matrix.cons_val_zero, hsq]
      field_simp
    · have := hi 0; have := hs 0
      simp only [PhotoModeler.toCameraInitial, newCamera, Matrix.cons_val_zero]
      field_simp
      ring
    · have := hi 1; have := hs 1
      simp only [PhotoModeler.toCameraInitial, newCamera, Matrix.cons_val_one, Matrix.cons_val_zero]
      field_simp
      ring
    · exact h.k0.symm
    · exact h.p0.symm
  · rw [PhotoModeler.toCamera, if_pos (Or.inr ⟨rfl, rfl, rfl, rfl, rfl⟩), h.sensor]
    exact congrArg some (two (y := s) rfl rfl)

/-- PhotoModeler needs a sensor size. -/
theorem photomodeler_no_sensor (cam : Camera) (h : cam.sensorsz = none) (o : Bool)
    (fit : PhotoModeler → PhotoModeler) : PhotoModeler.fromCamera o fit cam = .error .valueError := by
  simp [PhotoModeler.fromCamera, PhotoModeler.ofCamera, h]

/-- C30: the converter's residuals of an exact conversion to a model with incoming distortion are zero at every image
point (even where removing the distortion is not exact). -/
theorem converter_residuals_zero (cam : Camera) (f : V2 → V2) (h : ∀ xy, f xy = cam.xyToUv xy) (uv : V2) :
    residualIn cam f uv = 0 := by
  funext i
  simp [residualIn, h]

/-- The excluded cases are really not exact: with k4 the Agisoft and Matlab conversions (before optimization) differ. -/
theorem agisoft_k4_not_exact : ∃ cam : Camera, ∃ xy : V2,
    (Agisoft.ofCamera cam).xyToUv xy ≠ cam.xyToUv xy ∧ (Matlab.ofCamera cam).xyToUv xy ≠ cam.xyToUv xy := by
  refine ⟨newCamera ![10, 10] ![1, 1] 0 ![0, 0, 0, 1, 0, 0] 0 none, ![1, 0], ?_, ?_⟩
  · intro h
    have := congrFun h 0
    simp [Agisoft.xyToUv, Agisoft.ofCamera, newCamera, Camera.xyToUv, distort_eq, radialDistortion,
      tangentialDistortion] at this
    norm_num at this
  · intro h
    have := congrFun h 0
    simp [Matlab.xyToUv, Matlab.ofCamera, newCamera, Camera.xyToUv, distort_eq, radialDistortion,
      tangentialDistortion] at this
    norm_num at this

/-- Non-vacuity: a camera with non-square pixels in px, square in mm, with principal point and sensor. -/
example : PmExact (newCamera ![100, 50] ![200, 100] ![3, -2] 0 0 (some ![10, 10])) ![10, 10] := by
  refine ⟨rfl, ?_, rfl, rfl, ?_, ?_, ?_⟩
  · simp [newCamera]; norm_num
  · intro i; fin_cases i <;> simp [newCamera]
  · intro i; fin_cases i <;> simp [newCamera]
  · intro i; fin_cases i <;> simp [newCamera]

example : NoK456 (newCamera ![100, 50] ![200, 100] ![3, -2] ![1, 2, 3, 0, 0, 0] ![4, 5] none) := by
  refine ⟨?_, ?_, ?_⟩ <;> simp [newCamera]

/-- C30: without a fit, converted cameras are at the origin with a zero view direction and no correction, also as their original vector. -/
theorem converted_position (a : Agisoft) (o : OpenCV) (m : Matlab) (p : PhotoModeler) (fit : Camera → Camera) :
    ∀ cam ∈ [a.toCamera false fit, o.toCamera false fit, m.toCamera false fit, p.toCamera false fit],
      (∀ i, cam.vec.xyz i = 0) ∧ (∀ i, cam.vec.viewdir i = 0) ∧ cam.orig = cam.vec ∧ cam.correction = none := by
  intro cam h
  simp only [List.mem_cons, List.not_mem_nil, or_false] at h
  rcases h with rfl | rfl | rfl | rfl <;>
    simp [Agisoft.toCamera, OpenCV.toCamera, Matlab.toCamera, PhotoModeler.toCamera, Agisoft.toCameraInitial, OpenCV.toCameraInitial,
      Matlab.toCameraInitial, PhotoModeler.toCameraInitial, newCamera]

end Glimpse.Convert
