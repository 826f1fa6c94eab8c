import Verif.Model.CamsScales
import Verif.Props.CamsFit
import Mathlib.Analysis.Real.Pi.Bounds
import Mathlib.Tactic.Positivity
import Mathlib.Tactic.FieldSimp
import Mathlib.Tactic.Ring
import Mathlib.Tactic.NormNum
import Mathlib.Tactic.LinearCombination
import Mathlib.Tactic.FinCases

/-!
C99: scale factors and default bounds of camera parameters in `optimize.Cameras`.
-/
set_option autoImplicit false
set_option linter.unusedSimpArgs false
set_option linter.unusedSectionVars false

namespace Glimpse.Cams

/-! ### Specification -/

/-- Spec: distance between image points, in pixels. -/
noncomputable def pixDist (a b : V2) : ℝ := √((a 0 - b 0) ^ 2 + (a 1 - b 1) ^ 2)

/-- Spec: the camera with other internal parameters. -/
def withC (cam : Camera) (c : V2) : Camera := { cam with vec := { cam.vec with c := c } }
def withImgsz (cam : Camera) (s : Fin 2 → ℤ) : Camera := { cam with vec := { cam.vec with imgsz := s } }
def withF (cam : Camera) (f : V2) : Camera := { cam with vec := { cam.vec with f := f } }
def withK (cam : Camera) (k : Fin 6 → ℝ) : Camera := { cam with vec := { cam.vec with k := k } }
def withP (cam : Camera) (p : V2) : Camera := { cam with vec := { cam.vec with p := p } }
def withView (cam : Camera) (v : V3) : Camera := { cam with vec := { cam.vec with viewdir := v } }

/-! ### Lemmas -/

private theorem distort_eq' (k : Fin 6 → ℝ) (p xy : V2) (i : Fin 2) :
    distort k p xy i = xy i * radialDistortion k (xy 0 ^ 2 + xy 1 ^ 2) +
      tangentialDistortion p xy (xy 0 ^ 2 + xy 1 ^ 2) i := by
  have hr : ∀ r2, radialDistortion 0 r2 = 1 := by intro r2; simp [radialDistortion]
  have ht : ∀ (r2 : ℝ) (i : Fin 2), tangentialDistortion 0 xy r2 i = 0 := by
    intro r2 i; fin_cases i <;> simp [tangentialDistortion]
  unfold distort
  by_cases hk : k = 0
  · subst hk
    by_cases hp : p = 0
    · subst hp; simp [hr, ht]
    · simp [hp, hr]
  · by_cases hp : p = 0
    · subst hp; simp [hk, ht]
    · simp [hk, hp]

private theorem pixDist_of (a b : V2) (d : ℝ) (hd : 0 ≤ d) (h : (a 0 - b 0) ^ 2 + (a 1 - b 1) ^ 2 = d ^ 2) :
    pixDist a b = d := by
  unfold pixDist; rw [h, Real.sqrt_sq hd]

/-- C99 (principal point): changing either coordinate by its scale moves the image of every point by exactly one
pixel. -/
theorem scale_c (cam : Camera) (pts : List V3) (xy : V2) (i : Fin 2) :
    pixDist ((withC cam (Function.update cam.vec.c i (cam.vec.c i + cameraScales cam pts (10 + i)))).xyToUv xy)
      (cam.xyToUv xy) = 1 := by
  refine pixDist_of _ _ 1 zero_le_one ?_
  fin_cases i <;> simp [Camera.xyToUv, withC, cameraScales, dpixels, Function.update]

/-- C99 (image size): the scale is 2 pixels, and changing either dimension by it moves the image of every point by
exactly one pixel. -/
theorem scale_imgsz (cam : Camera) (pts : List V3) (xy : V2) (i : Fin 2) :
    cameraScales cam pts (6 + i) = 2 ∧
    pixDist ((withImgsz cam (Function.update cam.vec.imgsz i (cam.vec.imgsz i + 2))).xyToUv xy) (cam.xyToUv xy) = 1 := by
  constructor
  · fin_cases i <;> norm_num [cameraScales, dpixels]
  refine pixDist_of _ _ 1 zero_le_one ?_
  fin_cases i <;> simp [Camera.xyToUv, withImgsz, Function.update] <;> ring_nf <;> simp

/-- C99 (focal length): changing both focal lengths by the scale moves a point by its distance from the image center in
(distorted) camera coordinates relative to the mean distance: one pixel at the mean distance. -/
theorem scale_f (cam : Camera) (pts : List V3) (xy : V2) (hm : 0 < meanRxy cam) :
    pixDist ((withF cam fun i => cam.vec.f i + cameraScales cam pts (8 + i)).xyToUv xy) (cam.xyToUv xy) =
      √(distort cam.vec.k cam.vec.p xy 0 ^ 2 + distort cam.vec.k cam.vec.p xy 1 ^ 2) / meanRxy cam := by
  refine pixDist_of _ _ _ (by positivity) ?_
  rw [div_pow, Real.sq_sqrt (by positivity)]
  simp [Camera.xyToUv, withF, cameraScales, dpixels]
  field_simp
  ring

/-- C99 (tangential distortion): for equal focal lengths, changing either coefficient by its scale moves the point at the
mean distance on the diagonal by exactly one pixel. -/
theorem scale_p (cam : Camera) (pts : List V3) (i : Fin 2) (hf : cam.vec.f 0 = cam.vec.f 1) (hf0 : 0 < cam.vec.f 0)
    (hm : 0 < meanRxy cam) :
    pixDist ((withP cam (Function.update cam.vec.p i (cam.vec.p i + cameraScales cam pts (18 + i)))).xyToUv
        ![meanRxy cam / √2, meanRxy cam / √2]) (cam.xyToUv ![meanRxy cam / √2, meanRxy cam / √2]) = 1 := by
  have h2 : (√2 : ℝ) ^ 2 = 2 := Real.sq_sqrt (by norm_num)
  have h5 : (√5 : ℝ) ^ 2 = 5 := Real.sq_sqrt (by norm_num)
  have hs2 : (√2 : ℝ) ≠ 0 := by positivity
  have hs5 : (√5 : ℝ) ≠ 0 := by positivity
  have hmf : mean2 cam.vec.f = cam.vec.f 1 := by unfold mean2; rw [hf]; ring
  rw [hf] at hf0
  have hx : (meanRxy cam / √2) ^ 2 = meanRxy cam ^ 2 / 2 := by rw [div_pow, h2]
  refine pixDist_of _ _ 1 zero_le_one ?_
  have hs : cameraScales cam pts (18 + i) = 1 / (√5 * meanRxy cam ^ 2 * cam.vec.f 1) := by
    fin_cases i <;> simp [cameraScales, dpixels, dpixP, hmf]
  rw [hs]
  generalize hmm : meanRxy cam = m at *
  generalize hff : cam.vec.f 1 = f at *
  have hxx : m / √2 * (m / √2) = m ^ 2 / 2 := by rw [← hx]; ring
  fin_cases i
  · simp only [Camera.xyToUv, withP, distort_eq', tangentialDistortion, Matrix.cons_val_zero, Matrix.cons_val_one,
      Function.update, hx, hf, hff, hxx]
    simp
    field_simp
    linear_combination (-(√2 : ℝ) ^ 2) * h5
  · simp only [Camera.xyToUv, withP, distort_eq', tangentialDistortion, Matrix.cons_val_zero, Matrix.cons_val_one,
      Function.update, hx, hf, hff, hxx]
    simp
    field_simp
    linear_combination (-(√2 : ℝ) ^ 2) * h5

/-- The points at the mean distance from the center, in camera coordinates. -/
def AtMean (cam : Camera) (xy : V2) : Prop := xy 0 ^ 2 + xy 1 ^ 2 = meanRxy cam ^ 2

/-- C99 (violated, radial distortion): for equal focal lengths and no denominator, changing `k[i]` by its scale moves the
points at the mean distance by 1/√2, 1/√8 and 1/√32 pixels, not by one. -/
theorem scale_k_violated (cam : Camera) (pts : List V3) (xy : V2) (hxy : AtMean cam xy) (i : Fin 3)
    (hf : cam.vec.f 0 = cam.vec.f 1) (hf0 : 0 < cam.vec.f 0) (hm : 0 < meanRxy cam)
    (hk : ∀ j : Fin 3, cam.vec.k (Fin.natAdd 3 j) = 0) :
    pixDist ((withK cam (Function.update cam.vec.k (Fin.castAdd 3 i)
        (cam.vec.k (Fin.castAdd 3 i) + cameraScales cam pts (12 + i)))).xyToUv xy) (cam.xyToUv xy) =
      1 / (2 : ℝ) ^ ((2 * (i : ℕ) + 1 : ℝ) / 2) := by
  have hmf : mean2 cam.vec.f = cam.vec.f 1 := by unfold mean2; rw [hf]; ring
  rw [hf] at hf0
  have k3 : cam.vec.k 3 = 0 := hk 0
  have k4 : cam.vec.k 4 = 0 := hk 1
  have k5 : cam.vec.k 5 = 0 := hk 2
  have hr : (2 : ℝ) ^ ((2 * (i : ℕ) + 1 : ℝ) / 2) > 0 := by positivity
  refine pixDist_of _ _ _ (by positivity) ?_
  have hs : cameraScales cam pts (12 + i) =
      1 / (meanRxy cam ^ (2 * (i : ℕ) + 3) * cam.vec.f 1 * (2 : ℝ) ^ ((2 * (i : ℕ) + 1 : ℝ) / 2)) := by
    fin_cases i <;> simp [cameraScales, dpixels, dpixNum, hmf]
  rw [hs]
  generalize hpp : (2 : ℝ) ^ ((2 * (i : ℕ) + 1 : ℝ) / 2) = t at *
  have hxy' : xy 0 ^ 2 + xy 1 ^ 2 = meanRxy cam ^ 2 := hxy
  generalize hmm : meanRxy cam = m at *
  have hff := hf
  generalize hff2 : cam.vec.f 1 = f at *
  fin_cases i
  · simp only [Camera.xyToUv, withK, distort_eq', radialDistortion, hxy', hff, hff2]
    simp [Function.update, k3, k4, k5]
    field_simp
    linear_combination hxy'
  · simp only [Camera.xyToUv, withK, distort_eq', radialDistortion, hxy', hff, hff2]
    simp [Function.update, k3, k4, k5]
    field_simp
    linear_combination hxy'
  · simp only [Camera.xyToUv, withK, distort_eq', radialDistortion, hxy', hff, hff2]
    simp [Function.update, k3, k4, k5]
    field_simp
    linear_combination hxy'

/-- A roll of the camera rotates camera coordinates around the image center. -/
theorem roll_rotates (cam : Camera) (δ : ℝ) (xyz : V3) (directions : Bool) :
    (withView cam (Function.update cam.vec.viewdir 2 (cam.vec.viewdir 2 + δ))).xyzToXy xyz directions =
      ((cam.xyzToXy xyz directions).1.map fun xy : V2 =>
        ![Real.cos (deg2rad δ) * xy 0 + Real.sin (deg2rad δ) * xy 1,
          Real.cos (deg2rad δ) * xy 1 - Real.sin (deg2rad δ) * xy 0], (cam.xyzToXy xyz directions).2) := by
  have hd : deg2rad (cam.vec.viewdir 2 + δ) = deg2rad (cam.vec.viewdir 2) + deg2rad δ := by unfold deg2rad; ring
  have hdx : (withView cam (Function.update cam.vec.viewdir 2 (cam.vec.viewdir 2 + δ))).dxyz xyz directions =
      cam.dxyz xyz directions := rfl
  have r2 : ((rotR (Function.update cam.vec.viewdir 2 (cam.vec.viewdir 2 + δ))).mulVec (cam.dxyz xyz directions)) 2 =
      ((rotR cam.vec.viewdir).mulVec (cam.dxyz xyz directions)) 2 := by
    simp [rotR, Matrix.mulVec, dotProduct, Fin.sum_univ_three, Function.update]
  have r0 : ((rotR (Function.update cam.vec.viewdir 2 (cam.vec.viewdir 2 + δ))).mulVec (cam.dxyz xyz directions)) 0 =
      Real.cos (deg2rad δ) * ((rotR cam.vec.viewdir).mulVec (cam.dxyz xyz directions)) 0 +
      Real.sin (deg2rad δ) * ((rotR cam.vec.viewdir).mulVec (cam.dxyz xyz directions)) 1 := by
    simp [rotR, Matrix.mulVec, dotProduct, Fin.sum_univ_three, Function.update, hd, Real.cos_add, Real.sin_add]
    ring
  have r1 : ((rotR (Function.update cam.vec.viewdir 2 (cam.vec.viewdir 2 + δ))).mulVec (cam.dxyz xyz directions)) 1 =
      Real.cos (deg2rad δ) * ((rotR cam.vec.viewdir).mulVec (cam.dxyz xyz directions)) 1 -
      Real.sin (deg2rad δ) * ((rotR cam.vec.viewdir).mulVec (cam.dxyz xyz directions)) 0 := by
    simp [rotR, Matrix.mulVec, dotProduct, Fin.sum_univ_three, Function.update, hd, Real.cos_add, Real.sin_add]
    ring
  unfold Camera.xyzToXy
  rw [hdx]
  show (if ((rotR (Function.update cam.vec.viewdir 2 (cam.vec.viewdir 2 + δ))).mulVec (cam.dxyz xyz directions)) 2 ≤ 0
    then none else some _, _) = _
  simp only [r2]
  split_ifs with h
  · rfl
  · have hv : (withView cam (Function.update cam.vec.viewdir 2 (cam.vec.viewdir 2 + δ))).vec.viewdir =
      Function.update cam.vec.viewdir 2 (cam.vec.viewdir 2 + δ) := rfl
    simp only [hv, r0, r1, Option.map_some, Matrix.cons_val_zero, Matrix.cons_val_one]
    congr 2
    funext i
    fin_cases i
    · simp [r2]; ring
    · simp [r2]; ring

/-- C99 (third angle): for equal focal lengths and no distortion, one degree displaces the image of every point at the
mean distance from the principal point by the inverse of the scale, in pixels. -/
theorem scale_roll (cam : Camera) (pts : List V3) (hk : cam.vec.k = 0) (hp : cam.vec.p = 0)
    (hf : cam.vec.f 0 = cam.vec.f 1) (xyz : V3) (directions : Bool) (uv : V2) (d : ℝ)
    (h : cam.xyzToUv xyz directions = (some uv, d))
    (hr : pixDist uv (fun i => (cam.vec.imgsz i : ℝ) / 2 + cam.vec.c i) = meanRuv cam) :
    ∃ uv', (withView cam (Function.update cam.vec.viewdir 2 (cam.vec.viewdir 2 + 1))).xyzToUv xyz directions =
        (some uv', d) ∧
      pixDist uv' uv = 1 / cameraScales cam pts 5 := by
  unfold Camera.xyzToUv at h ⊢
  rw [roll_rotates]
  cases hxy : (cam.xyzToXy xyz directions).1 with
  | none => rw [show cam.xyzToXy xyz directions = (none, (cam.xyzToXy xyz directions).2) from Prod.ext hxy rfl] at h; simp at h
  | some xy =>
    rw [show cam.xyzToXy xyz directions = (some xy, (cam.xyzToXy xyz directions).2) from Prod.ext hxy rfl] at h ⊢
    simp only [Option.map_some, Prod.mk.injEq, Option.some.injEq] at h ⊢
    obtain ⟨rfl, rfl⟩ := h
    refine ⟨_, ⟨rfl, rfl⟩, ?_⟩
    have hs : 1 / cameraScales cam pts 5 = 2 * meanRuv cam * Real.sin (deg2rad 1 / 2) := by
      simp [cameraScales, dpixels, dpixRoll, deg2rad]
    have hsin : 0 ≤ Real.sin (deg2rad 1 / 2) := by
      apply Real.sin_nonneg_of_nonneg_of_le_pi
      · unfold deg2rad; positivity
      · unfold deg2rad; have := Real.pi_pos; linarith
    have hr0 : 0 ≤ meanRuv cam := by rw [← hr]; exact Real.sqrt_nonneg _
    rw [hs]
    refine pixDist_of _ _ _ (by positivity) ?_
    have hr2 : (cam.xyToUv xy 0 - ((cam.vec.imgsz 0 : ℝ) / 2 + cam.vec.c 0)) ^ 2 +
        (cam.xyToUv xy 1 - ((cam.vec.imgsz 1 : ℝ) / 2 + cam.vec.c 1)) ^ 2 = meanRuv cam ^ 2 := by
      rw [← hr]
      unfold pixDist
      rw [Real.sq_sqrt (by positivity)]
    have hdist : ∀ q : V2, distort cam.vec.k cam.vec.p q = q := by
      intro q; unfold distort; rw [if_pos ⟨hk, hp⟩]
    simp only [Camera.xyToUv, withView, hdist, hf] at hr2 ⊢
    have hc : Real.cos (deg2rad 1) = 1 - 2 * Real.sin (deg2rad 1 / 2) ^ 2 := by
      have := Real.cos_two_mul' (deg2rad 1 / 2)
      have h1 := Real.sin_sq_add_cos_sq (deg2rad 1 / 2)
      rw [show 2 * (deg2rad 1 / 2) = deg2rad 1 by ring] at this
      linarith
    have h1 := Real.sin_sq_add_cos_sq (deg2rad 1)
    simp only [Matrix.cons_val_zero, Matrix.cons_val_one]
    generalize Real.sin (deg2rad 1 / 2) = s at *
    generalize Real.sin (deg2rad 1) = S at *
    generalize Real.cos (deg2rad 1) = C at *
    have hm : meanRuv cam ^ 2 = (xy 0 ^ 2 + xy 1 ^ 2) * cam.vec.f 1 ^ 2 := by rw [← hr2]; ring
    have : (2 * meanRuv cam * s) ^ 2 = 4 * ((xy 0 ^ 2 + xy 1 ^ 2) * cam.vec.f 1 ^ 2) * s ^ 2 := by rw [← hm]; ring
    rw [this]
    linear_combination ((xy 0 ^ 2 + xy 1 ^ 2) * cam.vec.f 1 ^ 2) * h1 -
      2 * ((xy 0 ^ 2 + xy 1 ^ 2) * cam.vec.f 1 ^ 2) * hc

/-- C99 (violated, position): the scale is not the mean distance to the world points over the focal length: for `n` points
all at the distance `D` it is √n times that. -/
theorem scale_xyz_violated (cam : Camera) (pts : List V3) (D : ℝ) (hD : 0 ≤ D) (hne : pts ≠ [])
    (hpts : ∀ q ∈ pts, (q 0 - cam.vec.xyz 0) ^ 2 + (q 1 - cam.vec.xyz 1) ^ 2 + (q 2 - cam.vec.xyz 2) ^ 2 = D ^ 2)
    (i : Fin 3) : cameraScales cam pts i = √pts.length * (D / mean2 cam.vec.f) := by
  have hsum : (pts.map fun q => (q 0 - cam.vec.xyz 0) ^ 2 + (q 1 - cam.vec.xyz 1) ^ 2 + (q 2 - cam.vec.xyz 2) ^ 2).sum =
      pts.length * D ^ 2 := by
    have : (pts.map fun q => (q 0 - cam.vec.xyz 0) ^ 2 + (q 1 - cam.vec.xyz 1) ^ 2 + (q 2 - cam.vec.xyz 2) ^ 2) =
        pts.map fun _ => D ^ 2 := List.map_congr_left hpts
    rw [this]
    simp
  have hn : normAll cam pts = √pts.length * D := by
    unfold normAll
    rw [hsum, Real.sqrt_mul (by positivity), Real.sqrt_sq hD]
  have he : pts.isEmpty = false := by cases pts with
    | nil => exact absurd rfl hne
    | cons _ _ => rfl
  have : dpixXyz cam pts = mean2 cam.vec.f / (√pts.length * D) := by
    unfold dpixXyz; rw [he, hn]; simp
  fin_cases i <;> simp [cameraScales, dpixels, this] <;> ring

/-- C99 (no world points): without world points of its own, the scale of the position is 1. -/
theorem scale_xyz_none (cam : Camera) (i : Fin 3) : cameraScales cam [] i = 1 := by
  fin_cases i <;> simp [cameraScales, dpixels, dpixXyz]

/-- C99 (sign): for positive focal lengths and image size, with no point at the camera and no zero or negative
denominator at the mean distance, every scale is positive. -/
theorem scales_positive (cam : Camera) (pts : List V3) (hf : ∀ i, 0 < cam.vec.f i) (hs : ∀ i, 0 < cam.vec.imgsz i)
    (hpts : pts ≠ [] → ∃ q ∈ pts, q ≠ cam.vec.xyz)
    (hk : ∀ i : Fin 3, 0 < 1 + cam.vec.k (Fin.natAdd 3 i) * meanRxy cam ^ (2 * (i : ℕ) + 2)) (p : Nat) :
    0 < cameraScales cam pts p := by
  have hf2 : 0 < mean2 cam.vec.f := by have := hf 0; have := hf 1; unfold mean2; positivity
  have hi : ∀ i, 0 < imgszR cam i := fun i => by unfold imgszR; exact_mod_cast hs i
  have hsq : (0 : ℝ) < √2 := by positivity
  have hlog : 0 < Real.log (1 + √2) := Real.log_pos (by linarith)
  have hruv : 0 < meanRuv cam := by
    have := hi 0; have := hi 1
    unfold meanRuv mean2; positivity
  have hrxy : 0 < meanRxy cam := by unfold meanRxy; positivity
  have hx : 0 < dpixXyz cam pts := by
    unfold dpixXyz
    split_ifs with he
    · exact one_pos
    · have hne : pts ≠ [] := by rintro rfl; simp at he
      obtain ⟨q, hq, hqn⟩ := hpts hne
      have hpos : 0 < (q 0 - cam.vec.xyz 0) ^ 2 + (q 1 - cam.vec.xyz 1) ^ 2 + (q 2 - cam.vec.xyz 2) ^ 2 := by
        by_contra hc
        apply hqn
        have a0 := sq_nonneg (q 0 - cam.vec.xyz 0)
        have a1 := sq_nonneg (q 1 - cam.vec.xyz 1)
        have a2 := sq_nonneg (q 2 - cam.vec.xyz 2)
        have b0 : (q 0 - cam.vec.xyz 0) ^ 2 = 0 := by linarith
        have b1 : (q 1 - cam.vec.xyz 1) ^ 2 = 0 := by linarith
        have b2 : (q 2 - cam.vec.xyz 2) ^ 2 = 0 := by linarith
        funext i
        fin_cases i
        · exact sub_eq_zero.1 (by simpa using b0)
        · exact sub_eq_zero.1 (by simpa using b1)
        · exact sub_eq_zero.1 (by simpa using b2)
      refine div_pos hf2 (Real.sqrt_pos.2 (lt_of_lt_of_le hpos ?_))
      refine List.single_le_sum ?_ _ (List.mem_map.2 ⟨q, hq, rfl⟩)
      intro x hx
      obtain ⟨y, -, rfl⟩ := List.mem_map.1 hx
      positivity
  have hv : ∀ i, 0 < dpixView cam i := by
    intro i
    have h1 := hi i
    have h2 := hf i
    have h3 : 0 < Real.arctan (imgszR cam i / (2 * cam.vec.f i)) := by
      rw [Real.arctan_pos]; positivity
    have := Real.pi_pos
    unfold dpixView; positivity
  have hroll : 0 < dpixRoll cam := by
    have : 0 < Real.sin (Real.pi / 180 / 2) :=
      Real.sin_pos_of_pos_of_lt_pi (by have := Real.pi_pos; positivity) (by have := Real.pi_pos; linarith)
    unfold dpixRoll; positivity
  have hnum : ∀ i, 0 < dpixNum cam i := fun i => by unfold dpixNum; positivity
  have hden : ∀ i, 0 < dpixDen cam i := fun i => by have := hk i; unfold dpixDen; positivity
  have hp : 0 < dpixP cam := by unfold dpixP; positivity
  have hall : ∀ x ∈ dpixels cam pts, 0 < x := by
    intro x hxm
    have h05 : (0 : ℝ) < 0.5 := by norm_num
    simp only [dpixels, List.mem_cons, List.not_mem_nil, or_false] at hxm
    rcases hxm with rfl | rfl | rfl | rfl | rfl | rfl | rfl | rfl | rfl | rfl | rfl | rfl | rfl | rfl | rfl | rfl | rfl |
      rfl | rfl | rfl
    all_goals first | exact hx | exact hv _ | exact hroll | exact h05 | exact hrxy | exact one_pos | exact hnum _ | exact hden _ | exact hp
  unfold cameraScales
  refine one_div_pos.2 ?_
  rw [List.getD_eq_getElem?_getD]
  cases h : (dpixels cam pts)[p]? with
  | none => exact one_pos
  | some x => exact hall x (List.mem_of_getElem? h)

/-- C99 (violated, sign): if `1 + k[3] r²` is negative at the mean distance, the scale of `k[3]` is negative, which the
optimizer refuses. -/
theorem scale_k3_negative_violated (cam : Camera) (pts : List V3) (hf : 0 < mean2 cam.vec.f) (hm : 0 < meanRxy cam)
    (hk : 1 + cam.vec.k 3 * meanRxy cam ^ 2 < 0) : cameraScales cam pts 15 < 0 := by
  have e : (dpixels cam pts).getD 15 1 = meanRxy cam ^ 3 / (1 + cam.vec.k 3 * meanRxy cam ^ 2) * mean2 cam.vec.f *
      (2 : ℝ) ^ ((1 : ℝ) / 2) := by
    simp [dpixels, dpixDen, show (Fin.natAdd 3 (0 : Fin 3) : Fin 6) = 3 from rfl]
  unfold cameraScales
  rw [e]
  refine one_div_neg.2 ?_
  have h1 : meanRxy cam ^ 3 / (1 + cam.vec.k 3 * meanRxy cam ^ 2) < 0 := div_neg_of_pos_of_neg (by positivity) hk
  have h2 : (0 : ℝ) < (2 : ℝ) ^ ((1 : ℝ) / 2) := by positivity
  exact mul_neg_of_neg_of_pos (mul_neg_of_neg_of_pos h1 hf) h2

/-! ### Order and bounds -/

/-- C99 (order): there is one scale for each fitting parameter, in the order in which `set_cameras` applies them: that of
the element of the camera, or the mean over the cameras of the group. -/
theorem build_scales (L : Layout) (scales : Nat → Nat → ℝ) : L.buildScales scales =
    L.slots.map fun s => match s with
      | (.group i, p) => meanOf scales (L.groups.getD i []) p
      | (.cam j, p) => scales j p := by
  unfold Layout.buildScales Layout.slots
  rw [List.map_append, List.map_flatMap, List.map_flatMap]
  congr 1
  · congr 1
    funext i
    rw [groupValues_eq, List.map_map]
    rfl
  · congr 1
    funext j
    unfold vectorOf
    rw [selectMask_range, List.map_map]
    rfl

/-- The vector of a camera, in the order of `Camera.to_array`. -/
def vectorList (cam : Camera) : List ℝ :=
  [cam.vec.xyz 0, cam.vec.xyz 1, cam.vec.xyz 2, cam.vec.viewdir 0, cam.vec.viewdir 1, cam.vec.viewdir 2,
   imgszR cam 0, imgszR cam 1, cam.vec.f 0, cam.vec.f 1, cam.vec.c 0, cam.vec.c 1,
   cam.vec.k 0, cam.vec.k 1, cam.vec.k 2, cam.vec.k 3, cam.vec.k 4, cam.vec.k 5, cam.vec.p 0, cam.vec.p 1]

private theorem clip_none (x : ℝ) : clipTo (none, none) x = x := rfl
private theorem clip_low (x : ℝ) : clipTo (some 0, none) x = x ↔ 0 ≤ x := by simp [clipTo]
private theorem clip_both (lo hi x : ℝ) (h : lo ≤ hi) : clipTo (some lo, some hi) x = x ↔ lo ≤ x ∧ x ≤ hi := by
  simp only [clipTo]
  constructor
  · intro h'
    rcases le_total lo x with h1 | h1
    · rw [max_eq_right h1] at h'
      exact ⟨h1, by rw [← h']; exact min_le_left _ _⟩
    · rw [max_eq_left h1, min_eq_right h] at h'
      subst h'
      exact ⟨le_refl _, h⟩
  · rintro ⟨h1, h2⟩
    rw [max_eq_right h1, min_eq_right h2]

/-- C99 (default bounds): the fit starts from the camera as it is (`lmfit` changes none of its values) exactly when the
principal point is within the image and the coefficients are within the limits that depend on the focal length. -/
theorem default_bounds_keep_iff (cam : Camera) (hf : ∀ i, 0 < cam.vec.f i) (hs : ∀ i, 0 < cam.vec.imgsz i) :
    (∀ b x, (b, x) ∈ (cameraBounds cam).zip (vectorList cam) → clipTo b x = x) ↔
      (∀ i, |cam.vec.c i| ≤ imgszR cam i / 2) ∧
      |cam.vec.k 0| ≤ mean2 cam.vec.f / 4000 ∧ |cam.vec.k 1| ≤ mean2 cam.vec.f / 8000 ∧
      |cam.vec.k 2| ≤ mean2 cam.vec.f / 8000 ∧ |cam.vec.k 3| ≤ mean2 cam.vec.f / 4000 ∧
      |cam.vec.k 4| ≤ mean2 cam.vec.f / 4000 ∧ |cam.vec.k 5| ≤ mean2 cam.vec.f / 4000 ∧
      ∀ i, |cam.vec.p i| ≤ mean2 cam.vec.f / 40000 := by
  have hf2 : 0 < mean2 cam.vec.f := by have := hf 0; have := hf 1; unfold mean2; positivity
  have hi : ∀ i, 0 < imgszR cam i := fun i => by unfold imgszR; exact_mod_cast hs i
  have i0 := hi 0
  have i1 := hi 1
  have f0 := hf 0
  have f1 := hf 1
  have hall : (∀ b x, (b, x) ∈ (cameraBounds cam).zip (vectorList cam) → clipTo b x = x) ↔
      ∀ y ∈ (cameraBounds cam).zip (vectorList cam), clipTo y.1 y.2 = y.2 :=
    ⟨fun h y hy => h y.1 y.2 hy, fun h b x hy => h (b, x) hy⟩
  rw [hall]
  simp only [cameraBounds, vectorList, List.zip_cons_cons, List.zip_nil_right, List.forall_mem_cons, List.not_mem_nil,
    false_implies, implies_true, clip_none, clip_low, true_and, and_true, Fin.forall_fin_two]
  rw [clip_both _ _ _ (by linarith), clip_both _ _ _ (by linarith), clip_both _ _ _ (by linarith),
    clip_both _ _ _ (by linarith), clip_both _ _ _ (by linarith), clip_both _ _ _ (by linarith),
    clip_both _ _ _ (by linarith), clip_both _ _ _ (by linarith), clip_both _ _ _ (by linarith),
    clip_both _ _ _ (by linarith)]
  simp only [abs_le]
  constructor
  · rintro ⟨-, -, -, -, c0, c1, k0, k1, k2, k3, k4, k5, p0, p1⟩
    refine ⟨⟨⟨?_, ?_⟩, ?_, ?_⟩, ⟨?_, ?_⟩, ⟨?_, ?_⟩, ⟨?_, ?_⟩, ⟨?_, ?_⟩, ⟨?_, ?_⟩, ⟨?_, ?_⟩, ⟨?_, ?_⟩, ?_, ?_⟩ <;> linarith
  · rintro ⟨⟨c0, c1⟩, k0, k1, k2, k3, k4, k5, p0, p1⟩
    refine ⟨i0.le, i1.le, f0.le, f1.le, ⟨?_, ?_⟩, ⟨?_, ?_⟩, ⟨?_, ?_⟩, ⟨?_, ?_⟩, ⟨?_, ?_⟩, ⟨?_, ?_⟩, ⟨?_, ?_⟩, ⟨?_, ?_⟩,
      ⟨?_, ?_⟩, ?_, ?_⟩ <;> linarith

/-! ### Examples -/

/-- A camera of 600 by 600 pixels with focal length 600 and a radial distortion coefficient. -/
noncomputable def scaleCam (k0 : ℝ) : Camera where
  vec := ⟨0, 0, fun _ => 600, fun _ => 600, 0, ![k0, 0, 0, 0, 0, 0], 0⟩
  orig := ⟨0, 0, fun _ => 600, fun _ => 600, 0, ![k0, 0, 0, 0, 0, 0], 0⟩
  sensorsz := none
  correction := none

private theorem scaleCam_m (k0 : ℝ) : 0 < meanRxy (scaleCam k0) := by
  have hsq : (0 : ℝ) < √2 := by positivity
  have hlog : 0 < Real.log (1 + √2) := Real.log_pos (by linarith)
  have : meanRxy (scaleCam k0) = 600 / 6 * (√2 + Real.log (1 + √2)) / 600 := by
    simp [meanRxy, meanRuv, mean2, imgszR, scaleCam]
  rw [this]; positivity

/-- Non-vacuity of `scale_f`, `scale_p`, `scale_k_violated` and `scales_positive`. -/
example : 0 < meanRxy (scaleCam 0.1) ∧ AtMean (scaleCam 0.1) ![meanRxy (scaleCam 0.1), 0] ∧
    (∀ p, 0 < cameraScales (scaleCam 0.1) [![0, 1, 0]] p) := by
  refine ⟨scaleCam_m _, by simp [AtMean], ?_⟩
  refine scales_positive _ _ (by simp [scaleCam]) (by simp [scaleCam]) ?_ ?_
  · intro _
    refine ⟨_, List.mem_singleton_self _, ?_⟩
    intro h
    have := congrFun h 1
    simp [scaleCam] at this
  · intro i
    fin_cases i <;> simp [scaleCam]

/-- Non-vacuity of `scale_k3_negative_violated`: a coefficient of -100. -/
example : ∃ cam : Camera, 0 < mean2 cam.vec.f ∧ 0 < meanRxy cam ∧ 1 + cam.vec.k 3 * meanRxy cam ^ 2 < 0 := by
  have h0 := scaleCam_m 0
  have hm : meanRxy (withK (scaleCam 0) fun _ => -2 / meanRxy (scaleCam 0) ^ 2) = meanRxy (scaleCam 0) := rfl
  refine ⟨withK (scaleCam 0) fun _ => -2 / meanRxy (scaleCam 0) ^ 2, by norm_num [withK, scaleCam, mean2], by rw [hm]; exact h0, ?_⟩
  rw [hm]
  simp only [withK]
  field_simp
  norm_num

/-- C99 (violated, default bounds): a camera with focal length 600 and `k[0]` of 0.2 is fit from the value 0.15. -/
theorem default_bounds_violated : clipTo ((cameraBounds (scaleCam 0.2)).getD 12 (none, none)) 0.2 = 0.15 ∧
    (vectorList (scaleCam 0.2)).getD 12 0 = 0.2 := by
  constructor
  · simp [cameraBounds, scaleCam, mean2, clipTo]
    try norm_num
  · simp [vectorList, scaleCam]

end Glimpse.Cams
