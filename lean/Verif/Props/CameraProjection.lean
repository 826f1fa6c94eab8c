import Verif.Model.Camera
import Verif.Props.CameraRotation
import Mathlib.Tactic.Linarith
import Mathlib.Tactic.Ring
import Mathlib.Tactic.FieldSimp
import Mathlib.Tactic.NormNum
import Mathlib.Tactic.Positivity

/-!
C15, C16: projecting world points to the image and image points to world rays.
-/
set_option autoImplicit false
set_option linter.unusedSimpArgs false

namespace Glimpse

private theorem inv_lens (cam : Camera) (hf : ∀ i, cam.vec.f i ≠ 0) (uv : V2)
    (hd : distort cam.vec.k cam.vec.p (cam.uvToXy uv) =
      fun i => (uv i - ((cam.vec.imgsz i : ℝ) / 2 + cam.vec.c i)) / cam.vec.f i) :
    cam.xyToUv (cam.uvToXy uv) = uv := by
  funext i
  unfold Camera.xyToUv
  rw [hd]
  have := hf i
  field_simp
  ring

private theorem R_rows (v : V3) (i j : Fin 3) : ∑ k, rotR v i k * rotR v j k = if i = j then 1 else 0 := by
  have := congrFun (congrFun (R_mul_transpose v) i) j
  simpa [Matrix.mul_apply, Matrix.one_apply] using this

private theorem R_cols (v : V3) (i j : Fin 3) : ∑ k, rotR v k i * rotR v k j = if i = j then 1 else 0 := by
  have h : (rotR v).transpose * rotR v = 1 := mul_eq_one_comm.mp (R_mul_transpose v)
  have := congrFun (congrFun h i) j
  simpa [Matrix.mul_apply, Matrix.one_apply] using this

private theorem mulVec_xyToXyz (cam : Camera) (xy : V2) (depth : ℝ) (i : Fin 3) :
    (rotR cam.vec.viewdir).mulVec (cam.xyToXyz xy true depth) i = (![xy 0, xy 1, 1] : V3) i * depth := by
  have e : cam.xyToXyz xy true depth = fun i => (∑ j, (![xy 0, xy 1, 1] : V3) j * rotR cam.vec.viewdir j i) * depth := by
    funext i
    unfold Camera.xyToXyz
    by_cases h : depth = 1
    · simp [h, Fin.sum_univ_three]
    · simp [h, Fin.sum_univ_three]
  rw [e]
  simp only [Matrix.mulVec, dotProduct]
  have h0 := R_rows cam.vec.viewdir i 0
  have h1 := R_rows cam.vec.viewdir i 1
  have h2 := R_rows cam.vec.viewdir i 2
  generalize rotR cam.vec.viewdir = M at *
  simp only [Fin.sum_univ_three] at *
  have : (![xy 0, xy 1, 1] : V3) i = xy 0 * (if i = 0 then 1 else 0) + xy 1 * (if i = 1 then 1 else 0) +
      (if i = 2 then 1 else 0) := by fin_cases i <;> simp
  rw [this, ← h0, ← h1, ← h2]
  simp
  ring

/-- C15: for any camera and any image point whose undistorted camera coordinates are exact (distorting them gives the
observed camera coordinates), the ray returned by `uv_to_xyz` at any positive depth is projected by
`xyz_to_uv(directions=True)` to that image point, and its depth along the optical axis is the one asked for. -/
theorem uv_to_xyz_to_uv (cam : Camera) (hf : ∀ i, cam.vec.f i ≠ 0) (uv : V2) (depth : ℝ) (hdep : 0 < depth)
    (hd : distort cam.vec.k cam.vec.p (cam.uvToXy uv) =
      fun i => (uv i - ((cam.vec.imgsz i : ℝ) / 2 + cam.vec.c i)) / cam.vec.f i) :
    cam.xyzToUv (cam.uvToXyz uv true depth) true = (some uv, depth) := by
  have hm := mulVec_xyToXyz cam (cam.uvToXy uv) depth
  have h2 := hm 2
  simp only [Camera.xyzToUv, Camera.xyzToXy, Camera.dxyz, if_true, Camera.uvToXyz]
  rw [hm 2, hm 1, hm 0]
  have e2 : (![cam.uvToXy uv 0, cam.uvToXy uv 1, 1] : V3) 2 * depth = depth := by simp
  have : (![(![cam.uvToXy uv 0, cam.uvToXy uv 1, 1] : V3) 0 * depth / depth,
      (![cam.uvToXy uv 0, cam.uvToXy uv 1, 1] : V3) 1 * depth / depth] : V2) = cam.uvToXy uv := by
    funext i
    fin_cases i <;> simp <;> field_simp
  rw [e2, if_neg (not_le.mpr hdep), this]
  simp [inv_lens cam hf uv hd]

/-- C15: without lens distortion `uv_to_xyz` and `xyz_to_uv(directions=True)` are exact inverses for every image
point, at any positive depth. -/
theorem uv_to_xyz_to_uv_ideal (cam : Camera) (hf : ∀ i, cam.vec.f i ≠ 0) (hk : cam.vec.k = 0) (hp : cam.vec.p = 0)
    (uv : V2) (depth : ℝ) (hdep : 0 < depth) :
    cam.xyzToUv (cam.uvToXyz uv true depth) true = (some uv, depth) := by
  apply uv_to_xyz_to_uv cam hf uv depth hdep
  funext i
  simp only [distort, Camera.uvToXy, undistort, hk, hp, and_self, if_true]
  have := hf i
  norm_num
  field_simp

/-- C15: an idealized camera looks along its view direction through the center of its image. -/
theorem idealize_center (cam : Camera) (depth : ℝ) :
    cam.idealize.uvToXyz (fun i => (cam.vec.imgsz i : ℝ) / 2) true depth = fun j => rotR cam.vec.viewdir 2 j * depth := by
  have h : cam.idealize.uvToXy (fun i => (cam.vec.imgsz i : ℝ) / 2) = fun _ => 0 := by
    funext i
    have e : ∀ x : V2, undistort 0 0 x = x := fun x => by simp [undistort]
    have : cam.idealize.uvToXy (fun i => (cam.vec.imgsz i : ℝ) / 2) i =
        undistort 0 0 (fun i => ((cam.vec.imgsz i : ℝ) / 2 - ((cam.vec.imgsz i : ℝ) * 0.5 + 0)) * (1 / cam.vec.f i)) i := rfl
    rw [this, e]
    ring
  unfold Camera.uvToXyz Camera.xyToXyz
  rw [h]
  funext j
  by_cases hd : depth = 1 <;> simp [hd, Camera.idealize]

/-- C15: without lens distortion and elevation correction, a world point in front of the camera is the point at its own
depth on the ray through its image point. -/
theorem xyz_to_uv_to_xyz_ideal (cam : Camera) (hf : ∀ i, cam.vec.f i ≠ 0) (hk : cam.vec.k = 0) (hp : cam.vec.p = 0)
    (hcor : cam.correction = none) (xyz : V3) (hfront : cam.infront xyz false) :
    ∃ uv depth, cam.xyzToUv xyz false = (some uv, depth) ∧ 0 < depth ∧ cam.uvToXyz uv false depth = xyz := by
  set d : V3 := fun i => xyz i - cam.vec.xyz i with hdef
  have hdx : cam.dxyz xyz false = d := by simp [Camera.dxyz, hcor, hdef]
  set z := (rotR cam.vec.viewdir).mulVec d with hz
  have hz2 : 0 < z 2 := by
    have : z 2 = ∑ i, d i * (rotR cam.vec.viewdir).transpose i 2 := by
      simp [hz, Matrix.mulVec, dotProduct, Fin.sum_univ_three]; ring
    rw [this]
    simpa [Camera.infront, hdef] using hfront
  set xy : V2 := ![z 0 / z 2, z 1 / z 2] with hxy
  refine ⟨cam.xyToUv xy, z 2, ?_, hz2, ?_⟩
  · simp only [Camera.xyzToUv, Camera.xyzToXy, hdx]
    rw [if_neg (not_le.mpr (by simpa [hz] using hz2))]
    simp [hxy, hz]
  · have hback : cam.uvToXy (cam.xyToUv xy) = xy := by
      funext i
      simp only [Camera.uvToXy, Camera.xyToUv, undistort, distort, hk, hp, and_self, if_true]
      have := hf i
      norm_num
      field_simp
      ring
    unfold Camera.uvToXyz
    rw [hback]
    have hc := R_cols cam.vec.viewdir
    have hray : ∀ i, (∑ j, rotR cam.vec.viewdir j i * z j) = d i := by
      intro i
      have h0 := hc i 0; have h1 := hc i 1; have h2 := hc i 2
      simp only [hz, Matrix.mulVec, dotProduct]
      generalize rotR cam.vec.viewdir = M at *
      simp only [Fin.sum_univ_three] at *
      have : d i = d 0 * (if i = 0 then 1 else 0) + d 1 * (if i = 1 then 1 else 0) +
          d 2 * (if i = 2 then 1 else 0) := by fin_cases i <;> simp
      rw [this, ← h0, ← h1, ← h2]
      ring
    funext i
    have hr := hray i
    unfold Camera.xyToXyz
    simp only [Fin.sum_univ_three] at hr
    have hne : z 2 ≠ 0 := hz2.ne'
    have : (xy 0 * rotR cam.vec.viewdir 0 i + xy 1 * rotR cam.vec.viewdir 1 i + rotR cam.vec.viewdir 2 i) * z 2 = d i := by
      rw [← hr]
      simp only [hxy, Matrix.cons_val_zero, Matrix.cons_val_one]
      field_simp
    by_cases h1 : z 2 = 1
    · rw [h1, mul_one] at this
      simp only [h1, ne_eq, not_true, if_false, this, Bool.false_eq_true]
      simp [hdef]
    · simp only [ne_eq, h1, not_false_iff, if_true, Bool.false_eq_true, if_false, this]
      simp [hdef]

/-- C16: without elevation correction `xyz_to_uv` gives NaN exactly for the points that `infront` reports as not in
front. -/
theorem xyz_to_uv_nan_iff (cam : Camera) (hcor : cam.correction = none) (xyz : V3) (directions : Bool) :
    (cam.xyzToUv xyz directions).1 = none ↔ ¬ cam.infront xyz directions := by
  have key : ∀ d : V3, (rotR cam.vec.viewdir).mulVec d 2 = ∑ i, d i * (rotR cam.vec.viewdir).transpose i 2 := by
    intro d; simp [Matrix.mulVec, dotProduct, Fin.sum_univ_three]; ring
  cases directions
  · simp [Camera.xyzToUv, Camera.xyzToXy, Camera.dxyz, Camera.infront, hcor, key]
  · simp [Camera.xyzToUv, Camera.xyzToXy, Camera.dxyz, Camera.infront, key]

/-- C16: ray directions are never elevation corrected, so the equivalence holds for every camera. -/
theorem directions_nan_iff (cam : Camera) (xyz : V3) :
    (cam.xyzToUv xyz true).1 = none ↔ ¬ cam.infront xyz true := by
  have key : ∀ d : V3, (rotR cam.vec.viewdir).mulVec d 2 = ∑ i, d i * (rotR cam.vec.viewdir).transpose i 2 := by
    intro d; simp [Matrix.mulVec, dotProduct, Fin.sum_univ_three]; ring
  simp [Camera.xyzToUv, Camera.xyzToXy, Camera.dxyz, Camera.infront, key]

/-- C16: everything `uv_to_xyz` returns for a positive depth is in front of the camera, as a direction and as an
absolute position, for any lens. -/
theorem uv_to_xyz_infront (cam : Camera) (uv : V2) (depth : ℝ) (hdep : 0 < depth) (directions : Bool) :
    cam.infront (cam.uvToXyz uv directions depth) directions := by
  have hm := mulVec_xyToXyz cam (cam.uvToXy uv) depth 2
  have key : ∀ d : V3, (rotR cam.vec.viewdir).mulVec d 2 = ∑ i, d i * (rotR cam.vec.viewdir).transpose i 2 := by
    intro d; simp [Matrix.mulVec, dotProduct, Fin.sum_univ_three]; ring
  cases directions
  · have : (fun i => cam.uvToXyz uv false depth i - cam.vec.xyz i) = cam.xyToXyz (cam.uvToXy uv) true depth := by
      funext i; simp [Camera.uvToXyz, Camera.xyToXyz]
    simp only [Camera.infront, Bool.false_eq_true, if_false, this, ← key, hm]
    simpa using hdep
  · simp only [Camera.infront, if_true, Camera.uvToXyz, ← key, hm]
    simpa using hdep

/-- C16: an in-frame image point is never NaN. -/
theorem inframe_not_nan (cam : Camera) (xyz : V3) (directions : Bool)
    (h : cam.inframe (cam.xyzToUv xyz directions).1) : ∃ uv, (cam.xyzToUv xyz directions).1 = some uv := by
  cases hq : (cam.xyzToUv xyz directions).1 with
  | none => rw [hq] at h; exact h.elim
  | some uv => exact ⟨uv, rfl⟩

/-- C16 (outside its domain): with an elevation correction `infront` and `xyz_to_uv` disagree: for a camera looking
straight up, a far point level with it is reported in front, but is projected to NaN. -/
theorem infront_correction_violated : ∃ (cam : Camera) (xyz : V3), cam.correction = some (6.3781e6, 0.13) ∧
    cam.infront xyz false ∧ (cam.xyzToUv xyz false).1 = none := by
  refine ⟨⟨⟨0, ![0, 90, 0], ![100, 100], ![100, 100], 0, 0, 0⟩, ⟨0, ![0, 90, 0], ![100, 100], ![100, 100], 0, 0, 0⟩, none,
    some (6.3781e6, 0.13)⟩, ![0, 10000, 1], rfl, ?_, ?_⟩
  · have h : deg2rad 90 = Real.pi / 2 := by unfold deg2rad; ring
    simp [Camera.infront, Fin.sum_univ_three, rotR, h]
  · have h : deg2rad 90 = Real.pi / 2 := by unfold deg2rad; ring
    have h0 : deg2rad 0 = 0 := by unfold deg2rad; ring
    simp [Camera.xyzToUv, Camera.xyzToXy, Camera.dxyz, Matrix.mulVec, dotProduct, Fin.sum_univ_three, rotR, h, h0,
      elevationCorrection]
    norm_num

/-- C15 (violated for a documented argument): `depth` may be documented as a vector `(n, )`, but two or more depths
always raise. -/
theorem uv_to_xyz_vector_depth_violated (cam : Camera) (uvs : List V2) (directions : Bool) (ds : List ℝ)
    (h : 2 ≤ ds.length) : cam.uvToXyzArray uvs directions (.vector ds) = .error .valueError := by
  match ds, h with
  | _ :: _ :: _, _ => rfl

/-! ### Non-vacuity -/

/-- The camera of the docstrings: 10 by 10 pixels, focal length 10, at the origin, looking north. -/
noncomputable def docCamera : Camera :=
  let v : CamVec := ⟨0, 0, ![10, 10], ![10, 10], 0, 0, 0⟩
  ⟨v, v, none, none⟩

/-- The world point (1000, 10, 0) is in front of the docstring camera and is seen at (1005, 5). -/
example : docCamera.infront ![1000, 10, 0] false ∧ docCamera.xyzToUv ![1000, 10, 0] false = (some ![1005, 5], 10) := by
  constructor
  · simp [Camera.infront, docCamera, Fin.sum_univ_three, rotR, deg2rad]
  · simp [Camera.xyzToUv, Camera.xyzToXy, Camera.dxyz, docCamera, Matrix.mulVec, dotProduct, Fin.sum_univ_three, rotR,
      deg2rad, Camera.xyToUv, distort]
    funext i
    fin_cases i <;> simp [Camera.xyToUv, distort] <;> norm_num

/-- (0, -10, 0) is behind it and NaN. -/
example : ¬ docCamera.infront ![0, -10, 0] false ∧ (docCamera.xyzToUv ![0, -10, 0] false).1 = none := by
  have : ¬ docCamera.infront ![0, -10, 0] false := by
    simp [Camera.infront, docCamera, Fin.sum_univ_three, rotR, deg2rad]
  exact ⟨this, (xyz_to_uv_nan_iff docCamera rfl _ _).mpr this⟩

example : docCamera.xyzToUv (docCamera.uvToXyz ![7, 2] true 3) true = (some ![7, 2], 3) :=
  uv_to_xyz_to_uv_ideal docCamera (by intro i; fin_cases i <;> simp [docCamera]) rfl rfl _ _ (by norm_num)

end Glimpse
