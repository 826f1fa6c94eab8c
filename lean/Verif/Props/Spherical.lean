import Verif.Model.Camera
import Mathlib.Analysis.SpecialFunctions.Complex.Arg
import Mathlib.Analysis.SpecialFunctions.Trigonometric.Inverse
import Mathlib.Tactic.Linarith
import Mathlib.Tactic.Ring
import Mathlib.Tactic.FieldSimp
import Mathlib.Tactic.NormNum
import Mathlib.Tactic.Positivity

/-!
C55: spherical coordinates.
-/
set_option autoImplicit false
set_option linter.unusedSimpArgs false

namespace Glimpse

private theorem cos_fmod (x : ℝ) : Real.cos (fmod x (2 * Real.pi)) = Real.cos x := by
  unfold fmod
  rw [mul_comm]
  exact Real.cos_sub_int_mul_two_pi x _

private theorem sin_fmod (x : ℝ) : Real.sin (fmod x (2 * Real.pi)) = Real.sin x := by
  unfold fmod
  rw [mul_comm]
  exact Real.sin_sub_int_mul_two_pi x _

/-- Spec: the world direction with the given azimuth (degrees clockwise from north, +y) and altitude (degrees above the
xy-plane): east, north, up. -/
noncomputable def directionOf (azimuth altitude : ℝ) : V3 :=
  ![Real.cos (altitude * Real.pi / 180) * Real.sin (azimuth * Real.pi / 180),
    Real.cos (altitude * Real.pi / 180) * Real.cos (azimuth * Real.pi / 180),
    Real.sin (altitude * Real.pi / 180)]

/-- C55: `spherical_to_xyz` gives the unit direction of the documented azimuth and altitude; with a distance, the point
at that distance from the camera in that direction. -/
theorem spherical_to_xyz_spec (cam : Camera) (az alt : ℝ) :
    cam.sphericalToXyz az alt none = directionOf az alt ∧
    ∀ d, cam.sphericalToXyz az alt (some d) = fun i => directionOf az alt i * d + cam.vec.xyz i := by
  have e : (![Real.sin (fmod (Real.pi / 2 - alt * Real.pi / 180) (2 * Real.pi)) *
        Real.cos (fmod (Real.pi / 2 - az * Real.pi / 180) (2 * Real.pi)),
      Real.sin (fmod (Real.pi / 2 - alt * Real.pi / 180) (2 * Real.pi)) *
        Real.sin (fmod (Real.pi / 2 - az * Real.pi / 180) (2 * Real.pi)),
      Real.cos (fmod (Real.pi / 2 - alt * Real.pi / 180) (2 * Real.pi))] : V3) = directionOf az alt := by
    simp only [cos_fmod, sin_fmod, Real.sin_pi_div_two_sub, Real.cos_pi_div_two_sub]
    rfl
  constructor
  · simp only [Camera.sphericalToXyz]; exact e
  · intro d
    simp only [Camera.sphericalToXyz]
    rw [e]

/-- C55: directions have unit length. -/
theorem directionOf_unit (az alt : ℝ) : ∑ i, directionOf az alt i ^ 2 = 1 := by
  have h1 := Real.sin_sq_add_cos_sq (az * Real.pi / 180)
  have h2 := Real.sin_sq_add_cos_sq (alt * Real.pi / 180)
  simp only [directionOf, Fin.sum_univ_three, Matrix.cons_val_zero, Matrix.cons_val_one, Matrix.cons_val]
  linear_combination (Real.cos (alt * Real.pi / 180)) ^ 2 * h1 + h2

private theorem fmod_range (x m : ℝ) (hm : 0 < m) : 0 ≤ fmod x m ∧ fmod x m < m := by
  unfold fmod
  have h1 := Int.floor_le (x / m)
  have h2 := Int.lt_floor_add_one (x / m)
  rw [le_div_iff₀ hm] at h1
  rw [div_lt_iff₀ hm] at h2
  constructor <;> linarith

private theorem xyz_norm_pos (d : V3) (h : d ≠ 0) : 0 < ∑ i, d i ^ 2 := by
  have : ∃ i, d i ≠ 0 := by
    by_contra hn
    push Not at hn
    exact h (funext hn)
  obtain ⟨i, hi⟩ := this
  exact Finset.sum_pos' (fun j _ => sq_nonneg _) ⟨i, Finset.mem_univ i, by positivity⟩

private theorem key (d : V3) (h : d ≠ 0) :
    let r := Real.sqrt (∑ i, d i ^ 2)
    ∀ i, directionOf (fmod (90 - arctan2 (d 1) (d 0) * 180 / Real.pi) 360)
      (90 - Real.arccos (d 2 / r) * 180 / Real.pi) i * r = d i := by
  intro r i
  have hpi := Real.pi_pos
  have hsum := xyz_norm_pos d h
  have hr : 0 < r := Real.sqrt_pos.mpr hsum
  have hr2 : r ^ 2 = d 0 ^ 2 + d 1 ^ 2 + d 2 ^ 2 := by
    rw [show r ^ 2 = ∑ i, d i ^ 2 from Real.sq_sqrt hsum.le, Fin.sum_univ_three]
  have hz : -1 ≤ d 2 / r ∧ d 2 / r ≤ 1 := by
    constructor
    · rw [le_div_iff₀ hr]; nlinarith [sq_nonneg (d 0), sq_nonneg (d 1)]
    · rw [div_le_iff₀ hr]; nlinarith [sq_nonneg (d 0), sq_nonneg (d 1)]
  have halt : ∀ x : ℝ, (90 - x * 180 / Real.pi) * Real.pi / 180 = Real.pi / 2 - x := by
    intro x; field_simp; ring
  have haz : ∀ x : ℝ, ∃ n : ℤ, fmod (90 - x * 180 / Real.pi) 360 * Real.pi / 180 = Real.pi / 2 - x - n * (2 * Real.pi) := by
    intro x
    refine ⟨⌊(90 - x * 180 / Real.pi) / 360⌋, ?_⟩
    unfold fmod
    generalize (⌊(90 - x * 180 / Real.pi) / 360⌋ : ℤ) = n
    field_simp
    ring
  obtain ⟨n, hn⟩ := haz (arctan2 (d 1) (d 0))
  simp only [directionOf, halt, hn, Real.sin_sub_int_mul_two_pi, Real.cos_sub_int_mul_two_pi, Real.sin_pi_div_two_sub,
    Real.cos_pi_div_two_sub, Real.cos_arccos hz.1 hz.2, Real.sin_arccos]
  have hxy : r * Real.sqrt (1 - (d 2 / r) ^ 2) = Real.sqrt (d 0 ^ 2 + d 1 ^ 2) := by
    have : d 0 ^ 2 + d 1 ^ 2 = r ^ 2 * (1 - (d 2 / r) ^ 2) := by field_simp; linarith
    rw [this, Real.sqrt_mul (by positivity), Real.sqrt_sq hr.le]
  have hnorm : ‖(⟨d 0, d 1⟩ : ℂ)‖ = Real.sqrt (d 0 ^ 2 + d 1 ^ 2) := by
    rw [Complex.norm_def, Complex.normSq_mk]; ring_nf
  have hc : Real.sqrt (d 0 ^ 2 + d 1 ^ 2) * Real.cos (arctan2 (d 1) (d 0)) = d 0 := by
    have := Complex.norm_mul_cos_arg (⟨d 0, d 1⟩ : ℂ)
    rw [hnorm] at this; exact this
  have hs : Real.sqrt (d 0 ^ 2 + d 1 ^ 2) * Real.sin (arctan2 (d 1) (d 0)) = d 1 := by
    have := Complex.norm_mul_sin_arg (⟨d 0, d 1⟩ : ℂ)
    rw [hnorm] at this; exact this
  rw [← hxy] at hc hs
  fin_cases i
  · show Real.sqrt (1 - (d 2 / r) ^ 2) * Real.cos (arctan2 (d 1) (d 0)) * r = d 0
    linarith
  · show Real.sqrt (1 - (d 2 / r) ^ 2) * Real.sin (arctan2 (d 1) (d 0)) * r = d 1
    linarith
  · show d 2 / r * r = d 2
    field_simp

/-- C55: converting a world point (other than the camera position) to spherical coordinates and back gives the point;
the azimuth is in [0, 360), the altitude in [-90, 90], the distance is the Euclidean one. -/
theorem xyz_to_spherical_to_xyz (cam : Camera) (xyz : V3) (h : xyz ≠ cam.vec.xyz) :
    ∃ az alt r, cam.xyzToSpherical xyz false = (az, alt, some r) ∧ cam.sphericalToXyz az alt (some r) = xyz ∧
      0 ≤ az ∧ az < 360 ∧ -90 ≤ alt ∧ alt ≤ 90 ∧ 0 < r ∧ r ^ 2 = ∑ i, (xyz i - cam.vec.xyz i) ^ 2 := by
  set d : V3 := fun i => xyz i - cam.vec.xyz i with hd
  have hne : d ≠ 0 := by
    intro h0
    apply h
    funext i
    have := congrFun h0 i
    simp only [hd, Pi.zero_apply] at this
    linarith
  refine ⟨_, _, _, rfl, ?_, ?_, ?_, ?_, ?_, ?_, ?_⟩
  · rw [(spherical_to_xyz_spec cam _ _).2]
    funext i
    have := key d hne i
    simp only [Bool.false_eq_true, if_false]
    simp only [hd] at this
    rw [this]; ring
  · exact (fmod_range _ 360 (by norm_num)).1
  · exact (fmod_range _ 360 (by norm_num)).2
  · have hpi := Real.pi_pos
    have := Real.arccos_le_pi (d 2 / Real.sqrt (∑ i, d i ^ 2))
    have h2 : Real.arccos (d 2 / Real.sqrt (∑ i, d i ^ 2)) * 180 / Real.pi ≤ 180 := by
      rw [div_le_iff₀ hpi]; nlinarith
    simp only [Bool.false_eq_true, if_false]
    simp only [hd] at h2
    linarith
  · have hpi := Real.pi_pos
    have h2 : 0 ≤ Real.arccos (d 2 / Real.sqrt (∑ i, d i ^ 2)) * 180 / Real.pi := by
      have := Real.arccos_nonneg (d 2 / Real.sqrt (∑ i, d i ^ 2))
      positivity
    simp only [Bool.false_eq_true, if_false]
    simp only [hd] at h2
    linarith
  · simp only [Bool.false_eq_true, if_false]
    exact Real.sqrt_pos.mpr (xyz_norm_pos d hne)
  · simp only [Bool.false_eq_true, if_false]
    exact Real.sq_sqrt (xyz_norm_pos d hne).le

/-- C55: a ray direction converted to spherical coordinates and back keeps its direction (it is scaled to unit
length). -/
theorem direction_to_spherical_to_xyz (cam : Camera) (xyz : V3) (h : xyz ≠ 0) :
    ∃ az alt, cam.xyzToSpherical xyz true = (az, alt, none) ∧
      ∀ i, cam.sphericalToXyz az alt none i * Real.sqrt (∑ i, xyz i ^ 2) = xyz i := by
  refine ⟨_, _, rfl, ?_⟩
  intro i
  rw [(spherical_to_xyz_spec cam _ _).1]
  exact key xyz h i

private theorem polar (ρ θ : ℝ) : (⟨ρ * Real.cos θ, ρ * Real.sin θ⟩ : ℂ) =
    (ρ : ℂ) * (Complex.cos (θ : ℂ) + Complex.sin (θ : ℂ) * Complex.I) := by
  have h1 : Complex.cos (θ : ℂ) = ((Real.cos θ : ℝ) : ℂ) := (Complex.ofReal_cos θ).symm
  have h2 : Complex.sin (θ : ℂ) = ((Real.sin θ : ℝ) : ℂ) := (Complex.ofReal_sin θ).symm
  rw [h1, h2]
  generalize Real.cos θ = c
  generalize Real.sin θ = t
  apply Complex.ext <;> simp

/-- C55: spherical coordinates in the documented range (distance positive, altitude strictly between the poles) are
recovered exactly. -/
theorem spherical_to_xyz_to_spherical (cam : Camera) (az alt d : ℝ) (haz : 0 ≤ az ∧ az < 360)
    (halt : -90 < alt ∧ alt < 90) (hd : 0 < d) :
    cam.xyzToSpherical (cam.sphericalToXyz az alt (some d)) false = (az, alt, some d) := by
  have hpi := Real.pi_pos
  rw [(spherical_to_xyz_spec cam _ _).2]
  have hunit := directionOf_unit az alt
  have hsub : (fun i => directionOf az alt i * d + cam.vec.xyz i - cam.vec.xyz i) = fun i => directionOf az alt i * d := by
    funext i; ring
  have hr : Real.sqrt (∑ i, (directionOf az alt i * d) ^ 2) = d := by
    have : ∑ i, (directionOf az alt i * d) ^ 2 = d ^ 2 := by
      simp only [mul_pow, ← Finset.sum_mul, hunit]; ring
    rw [this, Real.sqrt_sq hd.le]
  have hcos : 0 < Real.cos (alt * Real.pi / 180) := by
    apply Real.cos_pos_of_mem_Ioo
    constructor
    · rw [lt_div_iff₀ (by norm_num)]; nlinarith [halt.1]
    · rw [div_lt_iff₀ (by norm_num)]; nlinarith [halt.2]
  have h2 : Real.arccos (directionOf az alt 2 * d / d) = Real.pi / 2 - alt * Real.pi / 180 := by
    rw [mul_div_assoc, div_self hd.ne', mul_one]
    show Real.arccos (Real.sin (alt * Real.pi / 180)) = _
    rw [← Real.cos_pi_div_two_sub, Real.arccos_cos]
    · have : alt * Real.pi / 180 ≤ Real.pi / 2 := by rw [div_le_iff₀ (by norm_num)]; nlinarith [halt.2]
      linarith
    · have : -(Real.pi / 2) ≤ alt * Real.pi / 180 := by rw [le_div_iff₀ (by norm_num)]; nlinarith [halt.1]
      linarith
  -- azimuth
  have harg : ∃ n : ℤ, arctan2 (directionOf az alt 1 * d) (directionOf az alt 0 * d) =
      Real.pi / 2 - az * Real.pi / 180 + n * (2 * Real.pi) := by
    have hρ : 0 < Real.cos (alt * Real.pi / 180) * d := mul_pos hcos hd
    have hz : (⟨directionOf az alt 0 * d, directionOf az alt 1 * d⟩ : ℂ) =
        ((Real.cos (alt * Real.pi / 180) * d : ℝ) : ℂ) *
          (Complex.cos ((Real.pi / 2 - az * Real.pi / 180 : ℝ) : ℂ) + Complex.sin ((Real.pi / 2 - az * Real.pi / 180 : ℝ) : ℂ) * Complex.I) := by
      rw [← polar]
      have e0 : directionOf az alt 0 * d = Real.cos (alt * Real.pi / 180) * d * Real.cos (Real.pi / 2 - az * Real.pi / 180) := by
        rw [Real.cos_pi_div_two_sub]
        show Real.cos (alt * Real.pi / 180) * Real.sin (az * Real.pi / 180) * d = _
        ring
      have e1 : directionOf az alt 1 * d = Real.cos (alt * Real.pi / 180) * d * Real.sin (Real.pi / 2 - az * Real.pi / 180) := by
        rw [Real.sin_pi_div_two_sub]
        show Real.cos (alt * Real.pi / 180) * Real.cos (az * Real.pi / 180) * d = _
        ring
      rw [e0, e1]
    unfold arctan2
    rw [hz]
    rw [Complex.arg_mul_cos_add_sin_mul_I_eq_toIocMod hρ]
    refine ⟨-toIocDiv Real.two_pi_pos (-Real.pi) (Real.pi / 2 - az * Real.pi / 180), ?_⟩
    have := toIocMod_add_toIocDiv_zsmul Real.two_pi_pos (-Real.pi) (Real.pi / 2 - az * Real.pi / 180)
    simp only [zsmul_eq_mul] at this
    push_cast
    linarith
  obtain ⟨n, hn⟩ := harg
  have haz' : fmod (90 - arctan2 (directionOf az alt 1 * d) (directionOf az alt 0 * d) * 180 / Real.pi) 360 = az := by
    rw [hn]
    have : 90 - (Real.pi / 2 - az * Real.pi / 180 + n * (2 * Real.pi)) * 180 / Real.pi = az - n * 360 := by
      field_simp; ring
    rw [this]
    unfold fmod
    have hfl : ⌊(az - n * 360) / 360⌋ = -n := by
      rw [Int.floor_eq_iff]
      constructor
      · rw [le_div_iff₀ (by norm_num)]; push_cast; linarith [haz.1]
      · rw [div_lt_iff₀ (by norm_num)]; push_cast; linarith [haz.2]
    rw [hfl]; push_cast; ring
  simp only [Camera.xyzToSpherical, Bool.false_eq_true, if_false, hsub, hr, h2, haz']
  congr 2
  field_simp
  ring

/-! ### Non-vacuity -/

/-- A camera at (1, 2, 3) and the point 2 units east of it: azimuth 90, altitude 0, distance 2. -/
example (cam : Camera) (_h : cam.vec.xyz = ![1, 2, 3]) :
    cam.xyzToSpherical (cam.sphericalToXyz 90 0 (some 2)) false = (90, 0, some 2) :=
  spherical_to_xyz_to_spherical cam 90 0 2 ⟨by norm_num, by norm_num⟩ ⟨by norm_num, by norm_num⟩ (by norm_num)

end Glimpse
