import Verif.Props.CamsScales
import Mathlib.Analysis.SpecialFunctions.Trigonometric.ArctanDeriv
import Mathlib.Analysis.Calculus.MeanValue

/-!
C99: the scales of the first two angles of a camera.
-/
set_option autoImplicit false
set_option linter.unusedSimpArgs false
set_option linter.unusedSectionVars false

namespace Glimpse.Cams

/-- Half of the field of view along axis `i`, in radians. -/
noncomputable def halfView (cam : Camera) (i : Fin 2) : ℝ := Real.arctan (imgszR cam i / (2 * cam.vec.f i))

/-- The angle, in radians, that a turn by one scale makes: the field of view over the number of pixels. -/
theorem scale_view_angle (cam : Camera) (pts : List V3) (i : Fin 2) (hn : 0 < imgszR cam i) (hf : 0 < cam.vec.f i) :
    deg2rad (cameraScales cam pts (3 + i)) = 2 * halfView cam i / imgszR cam i := by
  have hA : 0 < Real.arctan (imgszR cam i / (2 * cam.vec.f i)) := Real.arctan_pos.2 (by positivity)
  have hpi := Real.pi_pos
  have : cameraScales cam pts (3 + i) = 1 / dpixView cam i := by
    fin_cases i <;> simp [cameraScales, dpixels]
  rw [this]
  unfold deg2rad dpixView halfView
  field_simp

/-- Turning the camera up (roll zero) rotates the y and z of camera coordinates. -/
theorem pitch_rotates (v : V3) (h2 : v 2 = 0) (δ : ℝ) (d : V3) :
    let q := (rotR v).mulVec d
    let q' := (rotR (Function.update v 1 (v 1 + δ))).mulVec d
    q' 0 = q 0 ∧ q' 1 = Real.cos (deg2rad δ) * q 1 + Real.sin (deg2rad δ) * q 2 ∧
      q' 2 = Real.cos (deg2rad δ) * q 2 - Real.sin (deg2rad δ) * q 1 := by
  have hd : deg2rad (v 1 + δ) = deg2rad (v 1) + deg2rad δ := by unfold deg2rad; ring
  have h0 : deg2rad 0 = 0 := by unfold deg2rad; ring
  refine ⟨?_, ?_, ?_⟩ <;>
    simp [rotR, Matrix.mulVec, dotProduct, Fin.sum_univ_three, Function.update, hd, h2, h0, Real.cos_add, Real.sin_add] <;> ring

/-- Turning the camera right (pitch and roll zero) rotates the x and z of camera coordinates. -/
theorem yaw_rotates (v : V3) (h1 : v 1 = 0) (h2 : v 2 = 0) (δ : ℝ) (d : V3) :
    let q := (rotR v).mulVec d
    let q' := (rotR (Function.update v 0 (v 0 + δ))).mulVec d
    q' 1 = q 1 ∧ q' 0 = Real.cos (deg2rad δ) * q 0 - Real.sin (deg2rad δ) * q 2 ∧
      q' 2 = Real.cos (deg2rad δ) * q 2 + Real.sin (deg2rad δ) * q 0 := by
  have hd : deg2rad (v 0 + δ) = deg2rad (v 0) + deg2rad δ := by unfold deg2rad; ring
  have h0 : deg2rad 0 = 0 := by unfold deg2rad; ring
  refine ⟨?_, ?_, ?_⟩ <;>
    simp [rotR, Matrix.mulVec, dotProduct, Fin.sum_univ_three, Function.update, hd, h1, h2, h0, Real.cos_add, Real.sin_add] <;> ring

/-- Spec: the camera turned right (`i = 0`) or up (`i = 1`) by `δ` degrees. -/
def turned (cam : Camera) (i : Fin 2) (δ : ℝ) : Camera :=
  withView cam (Function.update cam.vec.viewdir (i.castLE (by norm_num)) (cam.vec.viewdir (i.castLE (by norm_num)) + δ))

/-- Spec: without distortion, and so oriented that turning along axis `i` moves points along that axis of the image. -/
def Upright (cam : Camera) (i : Fin 2) : Prop :=
  cam.vec.k = 0 ∧ cam.vec.p = 0 ∧ cam.vec.viewdir 2 = 0 ∧ (i = 0 → cam.vec.viewdir 1 = 0)

/-- Spec: the point appears on axis `i` of the image, at the angle `α` from the center. -/
def OnAxis (cam : Camera) (i : Fin 2) (xyz : V3) (directions : Bool) (α : ℝ) : Prop :=
  ∃ d, 0 < d ∧ cam.xyzToXy xyz directions = (some (fun j => if j = i then Real.tan α else 0), d)

/-- Which way points move: turning right moves them left, turning up moves them down (positive v). -/
def way (i : Fin 2) : ℝ := if i = 0 then -1 else 1

private theorem mulVec_of_axis (cam : Camera) (i : Fin 2) (xyz : V3) (directions : Bool) (α : ℝ) (h : OnAxis cam i xyz directions α) :
    let q := (rotR cam.vec.viewdir).mulVec (cam.dxyz xyz directions)
    0 < q 2 ∧ q (i.castLE (by norm_num)) = q 2 * Real.tan α ∧ q ((1 - i).castLE (by norm_num)) = 0 := by
  intro q
  obtain ⟨d, hd, h⟩ := h
  have e : cam.xyzToXy xyz directions = (if q 2 ≤ 0 then none else some ![q 0 / q 2, q 1 / q 2], q 2) := by
    unfold Camera.xyzToXy
    rfl
  rw [e] at h
  obtain ⟨h1, h2⟩ := Prod.mk.inj h
  have hq : 0 < q 2 := by rw [h2]; exact hd
  rw [if_neg (not_le.2 hq)] at h1
  have h3 := Option.some.inj h1
  have a0 := congrFun h3 0
  have a1 := congrFun h3 1
  refine ⟨hq, ?_⟩
  fin_cases i
  · simp at a0 a1
    refine ⟨?_, ?_⟩
    · show q 0 = _
      field_simp at a0; linarith
    · show q 1 = 0
      rcases a1 with h | h
      · exact h
      · exact absurd h hq.ne'
  · simp at a0 a1
    refine ⟨?_, ?_⟩
    · show q 1 = _
      field_simp at a1; linarith
    · show q 0 = 0
      rcases a0 with h | h
      · exact h
      · exact absurd h hq.ne'

private theorem tan_turn (α δ z : ℝ) (hz : 0 < z) (hα : 0 < Real.cos α) (h : 0 < Real.cos (α + δ)) :
    0 < Real.cos δ * z - Real.sin δ * (z * Real.tan α) ∧
    (Real.cos δ * (z * Real.tan α) + Real.sin δ * z) / (Real.cos δ * z - Real.sin δ * (z * Real.tan α)) = Real.tan (α + δ) := by
  have e1 : Real.cos δ * z - Real.sin δ * (z * Real.tan α) = z * (Real.cos (α + δ) / Real.cos α) := by
    rw [Real.tan_eq_sin_div_cos, Real.cos_add]; field_simp
  have e2 : Real.cos δ * (z * Real.tan α) + Real.sin δ * z = z * (Real.sin (α + δ) / Real.cos α) := by
    rw [Real.tan_eq_sin_div_cos, Real.sin_add]; field_simp
  have hpos : 0 < z * (Real.cos (α + δ) / Real.cos α) := by positivity
  refine ⟨by rw [e1]; exact hpos, ?_⟩
  rw [e1, e2, Real.tan_eq_sin_div_cos]
  field_simp

/-- Turning the camera changes the angle at which points on the axis appear. -/
theorem turn_moves (cam : Camera) (i : Fin 2) (hc : Upright cam i) (δ : ℝ) (xyz : V3) (directions : Bool) (α : ℝ)
    (h : OnAxis cam i xyz directions α) (hα : 0 < Real.cos α) (hα' : 0 < Real.cos (α + way i * deg2rad δ)) :
    OnAxis (turned cam i δ) i xyz directions (α + way i * deg2rad δ) := by
  obtain ⟨hq, h1, h2⟩ := mulVec_of_axis cam i xyz directions α h
  obtain ⟨_, _, hroll, hpitch⟩ := hc
  have hdx : (turned cam i δ).dxyz xyz directions = cam.dxyz xyz directions := rfl
  have hv : (turned cam i δ).vec.viewdir = Function.update cam.vec.viewdir (i.castLE (by norm_num)) (cam.vec.viewdir (i.castLE (by norm_num)) + δ) := rfl
  set q := (rotR cam.vec.viewdir).mulVec (cam.dxyz xyz directions) with hqd
  have e : ∀ q' : V3, (rotR (turned cam i δ).vec.viewdir).mulVec (cam.dxyz xyz directions) = q' →
      (turned cam i δ).xyzToXy xyz directions = (if q' 2 ≤ 0 then none else some ![q' 0 / q' 2, q' 1 / q' 2], q' 2) := by
    intro q' hq'
    unfold Camera.xyzToXy
    rw [hdx, hq']
  fin_cases i
  · obtain ⟨p1, p0, p2⟩ := yaw_rotates cam.vec.viewdir (hpitch rfl) hroll δ (cam.dxyz xyz directions)
    rw [← hqd] at p1 p0 p2
    have h1' : q 0 = q 2 * Real.tan α := h1
    have h2' : q 1 = 0 := h2
    have hw : α + way 0 * deg2rad δ = α + (-deg2rad δ) := by simp [way]
    change 0 < Real.cos (α + way 0 * deg2rad δ) at hα'
    show OnAxis (turned cam 0 δ) 0 xyz directions (α + way 0 * deg2rad δ)
    rw [hw] at hα' ⊢
    obtain ⟨t1, t2⟩ := tan_turn α (-deg2rad δ) (q 2) hq hα hα'
    rw [Real.cos_neg, Real.sin_neg] at t1 t2
    have e' := e _ rfl
    have t1' : 0 < Real.cos (deg2rad δ) * q 2 + Real.sin (deg2rad δ) * (q 2 * Real.tan α) := by linarith
    refine ⟨_, t1', ?_⟩
    · refine e'.trans ?_
      change ((if ((rotR (Function.update cam.vec.viewdir 0 (cam.vec.viewdir 0 + δ))).mulVec (cam.dxyz xyz directions)) 2 ≤ 0 then none
        else some ![((rotR (Function.update cam.vec.viewdir 0 (cam.vec.viewdir 0 + δ))).mulVec (cam.dxyz xyz directions)) 0 / ((rotR (Function.update cam.vec.viewdir 0 (cam.vec.viewdir 0 + δ))).mulVec (cam.dxyz xyz directions)) 2,
          ((rotR (Function.update cam.vec.viewdir 0 (cam.vec.viewdir 0 + δ))).mulVec (cam.dxyz xyz directions)) 1 / ((rotR (Function.update cam.vec.viewdir 0 (cam.vec.viewdir 0 + δ))).mulVec (cam.dxyz xyz directions)) 2],
          ((rotR (Function.update cam.vec.viewdir 0 (cam.vec.viewdir 0 + δ))).mulVec (cam.dxyz xyz directions)) 2) : Option V2 × ℝ) = _
      rw [p0, p1, p2, h1', h2']
      rw [if_neg (not_le.2 t1')]
      refine Prod.ext ?_ rfl
      refine congrArg some ?_
      funext j
      fin_cases j
      · simp
        rw [← t2]
        congr 1 <;> ring
      · simp
  · obtain ⟨p0, p1, p2⟩ := pitch_rotates cam.vec.viewdir hroll δ (cam.dxyz xyz directions)
    rw [← hqd] at p1 p0 p2
    have h1' : q 1 = q 2 * Real.tan α := h1
    have h2' : q 0 = 0 := h2
    have hw : α + way 1 * deg2rad δ = α + deg2rad δ := by simp [way]
    change 0 < Real.cos (α + way 1 * deg2rad δ) at hα'
    show OnAxis (turned cam 1 δ) 1 xyz directions (α + way 1 * deg2rad δ)
    rw [hw] at hα' ⊢
    obtain ⟨t1, t2⟩ := tan_turn α (deg2rad δ) (q 2) hq hα hα'
    have e' := e _ rfl
    refine ⟨_, t1, ?_⟩
    refine e'.trans ?_
    change ((if ((rotR (Function.update cam.vec.viewdir 1 (cam.vec.viewdir 1 + δ))).mulVec (cam.dxyz xyz directions)) 2 ≤ 0 then none
      else some ![((rotR (Function.update cam.vec.viewdir 1 (cam.vec.viewdir 1 + δ))).mulVec (cam.dxyz xyz directions)) 0 / ((rotR (Function.update cam.vec.viewdir 1 (cam.vec.viewdir 1 + δ))).mulVec (cam.dxyz xyz directions)) 2,
        ((rotR (Function.update cam.vec.viewdir 1 (cam.vec.viewdir 1 + δ))).mulVec (cam.dxyz xyz directions)) 1 / ((rotR (Function.update cam.vec.viewdir 1 (cam.vec.viewdir 1 + δ))).mulVec (cam.dxyz xyz directions)) 2],
        ((rotR (Function.update cam.vec.viewdir 1 (cam.vec.viewdir 1 + δ))).mulVec (cam.dxyz xyz directions)) 2) : Option V2 × ℝ) = _
    rw [p0, p1, p2, h1', h2', if_neg (not_le.2 t1)]
    refine Prod.ext ?_ rfl
    refine congrArg some ?_
    funext j
    fin_cases j
    · simp
    · simp
      exact t2

/-- In pixels: along axis `i`, from the principal point. -/
theorem onAxis_uv (cam : Camera) (i : Fin 2) (hk : cam.vec.k = 0) (hp : cam.vec.p = 0) (xyz : V3) (directions : Bool) (α : ℝ)
    (h : OnAxis cam i xyz directions α) : ∃ uv d, 0 < d ∧ cam.xyzToUv xyz directions = (some uv, d) ∧
      ∀ j, uv j = (if j = i then Real.tan α * cam.vec.f i else 0) + ((cam.vec.imgsz j : ℝ) / 2 + cam.vec.c j) := by
  obtain ⟨d, hd, h⟩ := h
  refine ⟨_, d, hd, by unfold Camera.xyzToUv; rw [h]; rfl, fun j => ?_⟩
  have hdist : ∀ q : V2, distort cam.vec.k cam.vec.p q = q := by
    intro q; unfold distort; rw [if_pos ⟨hk, hp⟩]
  simp only [Camera.xyToUv, hdist]
  split_ifs with hj
  · rw [hj]
  · ring

theorem pixDist_of' (a b : V2) (d : ℝ) (hd : 0 ≤ d) (h : (a 0 - b 0) ^ 2 + (a 1 - b 1) ^ 2 = d ^ 2) : pixDist a b = d := by
  unfold pixDist; rw [h, Real.sqrt_sq hd]

/-- C99 (first two angles): how far a turn by `δ` degrees moves a point on the axis, in pixels. -/
theorem turn_pixels (cam : Camera) (i : Fin 2) (hc : Upright cam i) (δ : ℝ) (xyz : V3) (directions : Bool) (α : ℝ)
    (h : OnAxis cam i xyz directions α) (hα : 0 < Real.cos α) (hα' : 0 < Real.cos (α + way i * deg2rad δ)) :
    ∃ uv uv' d d', cam.xyzToUv xyz directions = (some uv, d) ∧ (turned cam i δ).xyzToUv xyz directions = (some uv', d') ∧
      pixDist uv' uv = |cam.vec.f i| * |Real.tan (α + way i * deg2rad δ) - Real.tan α| := by
  obtain ⟨uv, d, _, e1, u1⟩ := onAxis_uv cam i hc.1 hc.2.1 xyz directions α h
  obtain ⟨uv', d', _, e2, u2⟩ := onAxis_uv (turned cam i δ) i hc.1 hc.2.1 xyz directions _ (turn_moves cam i hc δ xyz directions α h hα hα')
  refine ⟨uv, uv', d, d', e1, e2, pixDist_of' _ _ _ (by positivity) ?_⟩
  have s : ∀ j, (turned cam i δ).vec.imgsz j = cam.vec.imgsz j ∧ (turned cam i δ).vec.c j = cam.vec.c j ∧ (turned cam i δ).vec.f j = cam.vec.f j :=
    fun j => ⟨rfl, rfl, rfl⟩
  rw [mul_pow, sq_abs, sq_abs, u1, u1, u2, u2, (s 0).1, (s 0).2.1, (s 1).1, (s 1).2.1, (s i).2.2]
  fin_cases i <;> simp <;> ring

private theorem halfView_bounds (cam : Camera) (i : Fin 2) (hn : 0 < imgszR cam i) (hf : 0 < cam.vec.f i) :
    0 < halfView cam i ∧ halfView cam i < Real.pi / 2 ∧ Real.tan (halfView cam i) = imgszR cam i / (2 * cam.vec.f i) :=
  ⟨Real.arctan_pos.2 (by positivity), Real.arctan_lt_pi_div_two _, Real.tan_arctan _⟩

/-- C99 (first two angles): the scale is one pixel on average over the image. A turn by as many scales as the image has pixels along the axis takes a
point from the one edge of the image to the other, and so moves it by exactly that many pixels. -/
theorem scale_view_edges (cam : Camera) (pts : List V3) (i : Fin 2) (hc : Upright cam i) (hn : 0 < imgszR cam i) (hf : 0 < cam.vec.f i) (xyz : V3)
    (directions : Bool) (h : OnAxis cam i xyz directions (-(way i * halfView cam i))) :
    OnAxis (turned cam i (imgszR cam i * cameraScales cam pts (3 + i))) i xyz directions (way i * halfView cam i) ∧
    ∃ uv uv' d d', cam.xyzToUv xyz directions = (some uv, d) ∧
      (turned cam i (imgszR cam i * cameraScales cam pts (3 + i))).xyzToUv xyz directions = (some uv', d') ∧ pixDist uv' uv = imgszR cam i := by
  obtain ⟨A0, A1, A2⟩ := halfView_bounds cam i hn hf
  have hpi := Real.pi_pos
  have hw : way i = 1 ∨ way i = -1 := by unfold way; split <;> simp
  have cw : Real.cos (way i * halfView cam i) = Real.cos (halfView cam i) := by
    rcases hw with h | h <;> rw [h] <;> simp
  have hcos : 0 < Real.cos (halfView cam i) := Real.cos_pos_of_mem_Ioo ⟨by linarith, A1⟩
  have hang : deg2rad (imgszR cam i * cameraScales cam pts (3 + i)) = 2 * halfView cam i := by
    have := scale_view_angle cam pts i hn hf
    unfold deg2rad at this ⊢
    rw [mul_assoc, this]
    field_simp
  have e : -(way i * halfView cam i) + way i * deg2rad (imgszR cam i * cameraScales cam pts (3 + i)) = way i * halfView cam i := by
    rw [hang]; ring
  have c1 : 0 < Real.cos (-(way i * halfView cam i)) := by rw [Real.cos_neg, cw]; exact hcos
  have c2 : 0 < Real.cos (-(way i * halfView cam i) + way i * deg2rad (imgszR cam i * cameraScales cam pts (3 + i))) := by rw [e, cw]; exact hcos
  refine ⟨?_, ?_⟩
  · have := turn_moves cam i hc _ xyz directions _ h c1 c2
    rwa [e] at this
  · obtain ⟨uv, uv', d, d', h1, h2, h3⟩ := turn_pixels cam i hc _ xyz directions _ h c1 c2
    refine ⟨uv, uv', d, d', h1, h2, ?_⟩
    rw [h3, e, Real.tan_neg, sub_neg_eq_add, abs_of_pos hf]
    have tw : |Real.tan (way i * halfView cam i) + Real.tan (way i * halfView cam i)| = 2 * Real.tan (halfView cam i) := by
      have tp : 0 < Real.tan (halfView cam i) := by rw [A2]; positivity
      rcases hw with h | h <;> rw [h]
      · rw [one_mul, abs_of_pos (by linarith)]; ring
      · rw [neg_one_mul, Real.tan_neg, ← neg_add, abs_neg, abs_of_pos (by linarith)]; ring
    rw [tw, A2]
    field_simp

/-- The arctangent grows ever more slowly. -/
theorem arctan_mul_lt (k t : ℝ) (hk : 1 < k) (ht : 0 < t) : Real.arctan (k * t) < k * Real.arctan t := by
  have key : StrictMonoOn (fun x => k * Real.arctan x - Real.arctan (k * x)) (Set.Ici 0) := by
    have hd : ∀ x, HasDerivAt (fun x => k * Real.arctan x - Real.arctan (k * x)) (k * (1 / (1 + x ^ 2)) - 1 / (1 + (k * x) ^ 2) * k) x := by
      intro x
      refine HasDerivAt.sub ((Real.hasDerivAt_arctan x).const_mul k) ?_
      have := ((hasDerivAt_id x).const_mul k).arctan
      simpa using this
    refine strictMonoOn_of_deriv_pos (convex_Ici 0) (fun x _ => (hd x).continuousAt.continuousWithinAt) fun x hx => ?_
    rw [(hd x).deriv]
    rw [interior_Ici] at hx
    have hx' : 0 < x := hx
    have : 1 / (1 + (k * x) ^ 2) < 1 / (1 + x ^ 2) := by
      apply one_div_lt_one_div_of_lt (by positivity)
      have : x ^ 2 < (k * x) ^ 2 := by
        have : x < k * x := by nlinarith
        exact pow_lt_pow_left₀ this hx'.le (by norm_num)
      linarith
    nlinarith
  have := key (Set.self_mem_Ici) (show t ∈ Set.Ici (0 : ℝ) from ht.le) ht
  simp at this
  linarith

/-- C99 (violated, first two angles): at the center of the image, a turn by the scale moves a point by less than one pixel, for every image of more than
two pixels along the axis. -/
theorem scale_view_center_violated (cam : Camera) (pts : List V3) (i : Fin 2) (hc : Upright cam i) (hn : 2 < imgszR cam i) (hf : 0 < cam.vec.f i)
    (xyz : V3) (directions : Bool) (h : OnAxis cam i xyz directions 0) :
    ∃ uv uv' d d', cam.xyzToUv xyz directions = (some uv, d) ∧
      (turned cam i (cameraScales cam pts (3 + i))).xyzToUv xyz directions = (some uv', d') ∧ 0 < pixDist uv' uv ∧ pixDist uv' uv < 1 := by
  have hn0 : 0 < imgszR cam i := by linarith
  obtain ⟨A0, A1, A2⟩ := halfView_bounds cam i hn0 hf
  have hang := scale_view_angle cam pts i hn0 hf
  set θ := deg2rad (cameraScales cam pts (3 + i)) with hθ
  have hw : way i = 1 ∨ way i = -1 := by unfold way; split <;> simp
  have θ0 : 0 < θ := by rw [hang]; positivity
  have θ1 : θ < Real.arctan (1 / cam.vec.f i) := by
    have := arctan_mul_lt (imgszR cam i / 2) (1 / cam.vec.f i) (by linarith) (by positivity)
    have e : imgszR cam i / 2 * (1 / cam.vec.f i) = imgszR cam i / (2 * cam.vec.f i) := by field_simp
    rw [e] at this
    change halfView cam i < _ at this
    rw [hang, div_lt_iff₀ hn0]
    linarith
  have θ2 := Real.arctan_lt_pi_div_two (1 / cam.vec.f i)
  have hcos : 0 < Real.cos θ := Real.cos_pos_of_mem_Ioo ⟨by linarith, by linarith⟩
  have cw : Real.cos (way i * θ) = Real.cos θ := by rcases hw with h | h <;> rw [h] <;> simp
  obtain ⟨uv, uv', d, d', h1, h2, h3⟩ := turn_pixels cam i hc (cameraScales cam pts (3 + i)) xyz directions 0 h (by simp) (by rw [zero_add, cw]; exact hcos)
  refine ⟨uv, uv', d, d', h1, h2, ?_⟩
  rw [h3, zero_add, Real.tan_zero, sub_zero, abs_of_pos hf]
  have tp : 0 < Real.tan θ := Real.tan_pos_of_pos_of_lt_pi_div_two θ0 (by linarith)
  have tw : |Real.tan (way i * θ)| = Real.tan θ := by
    rcases hw with h | h <;> rw [h]
    · rw [one_mul, abs_of_pos tp]
    · rw [neg_one_mul, Real.tan_neg, abs_neg, abs_of_pos tp]
  rw [tw]
  refine ⟨by positivity, ?_⟩
  have tl : Real.tan θ < 1 / cam.vec.f i := by
    have := Real.tan_lt_tan_of_lt_of_lt_pi_div_two (x := θ) (y := Real.arctan (1 / cam.vec.f i)) (by linarith) θ2 θ1
    rwa [Real.tan_arctan] at this
  calc cam.vec.f i * Real.tan θ < cam.vec.f i * (1 / cam.vec.f i) := by gcongr
    _ = 1 := by field_simp

/-- Concrete case: a level camera looking north sees the point straight ahead at the center of the image, and one to the right at its right edge. -/
example (cam : Camera) (hk : cam.vec.k = 0) (hp : cam.vec.p = 0) (hv : cam.vec.viewdir = 0) (hf : cam.vec.f 0 = 500) (hn : cam.vec.imgsz 0 = 1000) :
    Upright cam 0 ∧ OnAxis cam 0 ![0, 10, 0] true 0 ∧ OnAxis cam 0 ![1, 1, 0] true (-(way 0 * halfView cam 0)) ∧ 2 < imgszR cam 0 := by
  have h0 : deg2rad 0 = 0 := by unfold deg2rad; ring
  refine ⟨⟨hk, hp, by rw [hv]; rfl, fun _ => by rw [hv]; rfl⟩, ⟨10, by norm_num, ?_⟩, ⟨1, by norm_num, ?_⟩, by simp [imgszR, hn]; norm_num⟩
  · unfold Camera.xyzToXy
    simp [hv, rotR, h0, Camera.dxyz, Matrix.mulVec, dotProduct, Fin.sum_univ_three]
    funext j; fin_cases j <;> simp
  · have ht : Real.tan (halfView cam 0) = 1 := by
      unfold halfView; rw [Real.tan_arctan]; simp [imgszR, hn, hf]; norm_num
    have hw : -(way 0 * halfView cam 0) = halfView cam 0 := by simp [way]
    rw [hw, ht]
    unfold Camera.xyzToXy
    simp [hv, rotR, h0, Camera.dxyz, Matrix.mulVec, dotProduct, Fin.sum_univ_three]
    funext j; fin_cases j <;> simp

end Glimpse.Cams
