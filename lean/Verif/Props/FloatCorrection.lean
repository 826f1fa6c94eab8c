import Verif.Model.FloatCorrection
import Verif.Props.FloatInterp

/-!
C148: elevation corrections in double precision.
-/
set_option autoImplicit false
set_option linter.unusedSimpArgs false
set_option linter.unusedSectionVars false

namespace Glimpse.FloatCorrection
open Glimpse.Double Glimpse.FloatInterp

variable {r : ℚ → ℚ}

theorem factor (hr : Nearest r) (x : ℚ) : ∃ e : ℚ, |e| ≤ 1 / 2 ^ 53 ∧ r x = x * (1 + e) := by
  by_cases h : x = 0
  · exact ⟨0, by norm_num, by rw [h, r_zero hr]; ring⟩
  · refine ⟨(r x - x) / x, ?_, by field_simp; ring⟩
    rw [abs_div, div_le_iff₀ (abs_pos.2 h)]
    linarith [hr.near x]

theorem four_factors {a b c d : ℚ} (ha : |a| ≤ 1 / 2 ^ 53) (hb : |b| ≤ 1 / 2 ^ 53) (hc : |c| ≤ 1 / 2 ^ 53) (hd : |d| ≤ 1 / 2 ^ 53) :
    |(1 + a) * (1 + b) * (1 + d) / (1 + c) - 1| ≤ 5 / 2 ^ 53 := by
  have a' := abs_le.1 ha
  have b' := abs_le.1 hb
  have c' := abs_le.1 hc
  have d' := abs_le.1 hd
  have u : (0 : ℚ) < 1 - 1 / 2 ^ 53 := by norm_num
  have pc : 0 < 1 + c := by linarith
  have hi : (1 + a) * (1 + b) * (1 + d) ≤ (1 + 1 / 2 ^ 53) * (1 + 1 / 2 ^ 53) * (1 + 1 / 2 ^ 53) := by
    have pa : 0 ≤ 1 + a := by linarith
    have pb : 0 ≤ 1 + b := by linarith
    have pd : 0 ≤ 1 + d := by linarith
    gcongr <;> linarith
  have lo : (1 - 1 / 2 ^ 53) * (1 - 1 / 2 ^ 53) * (1 - 1 / 2 ^ 53) ≤ (1 + a) * (1 + b) * (1 + d) := by
    have pa : 1 - 1 / 2 ^ 53 ≤ 1 + a := by linarith
    have pb : 1 - 1 / 2 ^ 53 ≤ 1 + b := by linarith
    have pd : 1 - 1 / 2 ^ 53 ≤ 1 + d := by linarith
    exact mul_le_mul (mul_le_mul pa pb u.le (u.le.trans pa)) pd u.le (mul_nonneg (u.le.trans pa) (u.le.trans pb))
  have k1 : ((1 + 1 / 2 ^ 53) * (1 + 1 / 2 ^ 53) * (1 + 1 / 2 ^ 53) : ℚ) ≤ (1 + 5 / 2 ^ 53) * (1 - 1 / 2 ^ 53) := by norm_num
  have k2 : (1 - 5 / 2 ^ 53 : ℚ) * (1 + 1 / 2 ^ 53) ≤ (1 - 1 / 2 ^ 53) * (1 - 1 / 2 ^ 53) * (1 - 1 / 2 ^ 53) := by norm_num
  rw [abs_le]
  constructor
  · have : 1 - 5 / 2 ^ 53 ≤ (1 + a) * (1 + b) * (1 + d) / (1 + c) := by
      rw [le_div_iff₀ pc]
      nlinarith
    linarith
  · have : (1 + a) * (1 + b) * (1 + d) / (1 + c) ≤ 1 + 5 / 2 ^ 53 := by
      rw [div_le_iff₀ pc]
      nlinarith
    linarith

/-- C148. Corrections are within `5 / 2^53` of their magnitude of the formula. -/
theorem correction_near (hr : Nearest r) (d radius refraction : ℚ) :
    |correction r d radius refraction - (refraction - 1) * d / (2 * radius)| ≤ 5 / 2 ^ 53 * |(refraction - 1) * d / (2 * radius)| := by
  unfold correction
  obtain ⟨a, ha, ea⟩ := factor hr (refraction - 1)
  obtain ⟨b, hb, eb⟩ := factor hr (r (refraction - 1) * d)
  obtain ⟨c, hc, ec⟩ := factor hr (2 * radius)
  obtain ⟨e, he, ee⟩ := factor hr (r (r (refraction - 1) * d) / r (2 * radius))
  rw [ee, eb, ea, ec]
  have pc : 1 + c ≠ 0 := by
    have := abs_le.1 hc
    have : (0 : ℚ) < 1 + c := by linarith [show (1 : ℚ) / 2 ^ 53 < 1 by norm_num]
    exact this.ne'
  have h := four_factors ha hb hc he
  have key : (refraction - 1) * (1 + a) * d * (1 + b) / (2 * radius * (1 + c)) * (1 + e) - (refraction - 1) * d / (2 * radius) =
      ((1 + a) * (1 + b) * (1 + e) / (1 + c) - 1) * ((refraction - 1) * d / (2 * radius)) := by
    by_cases h0 : radius = 0
    · simp [h0]
    · field_simp
  rw [key, abs_mul]
  exact mul_le_mul_of_nonneg_right h (abs_nonneg _)

/-- C148. Corrections are downward, if refraction is less than 1. -/
theorem correction_nonpos (hr : Nearest r) {d radius refraction : ℚ} (hd : 0 ≤ d) (hR : 0 < radius) (hf : refraction ≤ 1) :
    correction r d radius refraction ≤ 0 :=
  r_nonpos hr (div_nonpos_of_nonpos_of_nonneg (r_nonpos hr (mul_nonpos_of_nonpos_of_nonneg (r_nonpos hr (by linarith)) hd)) (r_nonneg hr (by linarith)))

/-- C148. At no distance other than zero is the correction zero, if refraction is less than 1. -/
theorem correction_neg (hr : Nearest r) {d radius refraction : ℚ} (hd : 0 < d) (hR : 0 < radius) (hf : refraction < 1) :
    correction r d radius refraction < 0 := by
  have h := abs_le.1 (correction_near hr d radius refraction)
  have hx : (refraction - 1) * d / (2 * radius) < 0 := div_neg_of_neg_of_pos (mul_neg_of_neg_of_pos (by linarith) hd) (by linarith)
  rw [abs_of_neg hx] at h
  linarith

theorem correction_zero (hr : Nearest r) (radius refraction : ℚ) : correction r 0 radius refraction = 0 := by
  unfold correction
  simp [r_zero hr]

/-- C148. With refraction as strong as the curvature there is no correction. -/
theorem correction_one (hr : Nearest r) (d radius : ℚ) : correction r d radius 1 = 0 := by
  unfold correction
  simp [r_zero hr]

/-- C148. Corrections do not decrease in size with distance. -/
theorem correction_mono (hr : Nearest r) {d d' radius refraction : ℚ} (h : d ≤ d') (hR : 0 < radius) (hf : refraction ≤ 1) :
    correction r d' radius refraction ≤ correction r d radius refraction := by
  have hc : r (refraction - 1) ≤ 0 := r_nonpos hr (by linarith)
  have hH : 0 ≤ r (2 * radius) := r_nonneg hr (by linarith)
  exact hr.mono _ _ (div_le_div_of_nonneg_right (hr.mono _ _ (mul_le_mul_of_nonpos_left h hc)) hH)

/-- C148. Nor increase in size with refraction (up to 1) or the radius. -/
theorem correction_mono_refraction (hr : Nearest r) {d radius f f' : ℚ} (hd : 0 ≤ d) (hR : 0 < radius) (h : f ≤ f') :
    correction r d radius f ≤ correction r d radius f' := by
  have hH : 0 ≤ r (2 * radius) := r_nonneg hr (by linarith)
  exact hr.mono _ _ (div_le_div_of_nonneg_right (hr.mono _ _ (mul_le_mul_of_nonneg_right (hr.mono _ _ (by linarith)) hd)) hH)

theorem correction_mono_radius (hr : Nearest r) {d R R' refraction : ℚ} (hd : 0 ≤ d) (hR : 0 < R) (h : R ≤ R') (hf : refraction ≤ 1) :
    correction r d R refraction ≤ correction r d R' refraction := by
  have hc : r (r (refraction - 1) * d) ≤ 0 := r_nonpos hr (mul_nonpos_of_nonpos_of_nonneg (r_nonpos hr (by linarith)) hd)
  have hp : 0 < r (2 * R) := r_pos hr (by linarith)
  have hle : r (2 * R) ≤ r (2 * R') := hr.mono _ _ (by linarith)
  refine hr.mono _ _ ?_
  rw [div_le_div_iff₀ hp (hp.trans_le hle)]
  exact mul_le_mul_of_nonpos_left hle hc

/-- C148. An array of squared distances: one correction for each. -/
theorem corrections_spec (r : ℚ → ℚ) (ds : List ℚ) (radius refraction : ℚ) :
    (corrections r ds radius refraction).length = ds.length ∧
    ∀ i (h : i < ds.length) (h' : i < (corrections r ds radius refraction).length),
      (corrections r ds radius refraction)[i] = correction r ds[i] radius refraction := by
  unfold corrections
  simp

/-- The hypotheses can be met: at ten kilometers, with the default radius and refraction. -/
example : correction rnd (10 ^ 8) 6378100 (rnd (13 / 100)) < 0 ∧
    correction rnd (4 * 10 ^ 8) 6378100 (rnd (13 / 100)) ≤ correction rnd (10 ^ 8) 6378100 (rnd (13 / 100)) :=
  ⟨correction_neg rnd_nearest (by norm_num) (by norm_num) (by
      have e : rnd (13 / 100) = 1170935903116329 / 9007199254740992 := by decide +kernel
      rw [e]; norm_num),
    correction_mono rnd_nearest (by norm_num) (by norm_num) (by
      have e : rnd (13 / 100) = 1170935903116329 / 9007199254740992 := by decide +kernel
      rw [e]; norm_num)⟩

end Glimpse.FloatCorrection
