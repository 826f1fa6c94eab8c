import Verif.Model.FloatProject
import Verif.Model.Camera
import Verif.Props.Double
import Verif.Props.CameraRotation
import Verif.Props.CameraProjection
import Mathlib.Analysis.Real.Pi.Bounds
import Mathlib.Analysis.SpecialFunctions.Trigonometric.Bounds
import Mathlib.Tactic.Linarith
import Mathlib.Tactic.NormNum
import Mathlib.Tactic.Positivity
import Mathlib.Tactic.FieldSimp
import Mathlib.Tactic.Ring
import Mathlib.Tactic.LinearCombination

/-!
C138: the projection of an undistorted camera and its inverse in double precision, compared with the exact `Camera.xyzToUv` and
`Camera.uvToXyz` (`Model/Camera.lean`, which the theorems of C13 and C15 tie to the documented rotation). Angles are up to 360 degrees;
`np.cos` and `np.sin` are within `2 ^ -50` of the cosine and sine of their argument, and a dot product is within `2 ^ -51` of the sum of
the absolute products, for any order of summation (`lib_exists` shows such a library).
-/
set_option autoImplicit false
set_option linter.unusedSimpArgs false
set_option linter.unusedSectionVars false

namespace Glimpse.FloatProject
open Glimpse.Double

variable {r : ℚ → ℚ} {lib : Lib}

/-- What is assumed about the library functions. -/
structure Accurate (lib : Lib) : Prop where
  cos : ∀ x : ℚ, |(lib.cos x : ℝ) - Real.cos x| ≤ 1 / 2 ^ 50
  sin : ∀ x : ℚ, |(lib.sin x : ℝ) - Real.sin x| ≤ 1 / 2 ^ 50
  dot : ∀ (n : Nat), n ≤ 3 → ∀ a b : Fin n → ℚ, |lib.dot n a b - ∑ i, a i * b i| ≤ (∑ i, |a i * b i|) / 2 ^ 51

/-- The exact camera: the same numbers, no distortion, no elevation correction. -/
noncomputable def exactCam (cam : Cam) : Camera :=
  let v : CamVec := ⟨fun i => cam.xyz i, fun i => cam.viewdir i, cam.imgsz, fun i => cam.f i, fun i => cam.c i, 0, 0⟩
  ⟨v, v, none, none⟩

/-! ### Errors of sums and products -/

theorem near_real (hr : Nearest r) (x : ℚ) : |((r x : ℚ) : ℝ) - x| ≤ |(x : ℝ)| / 2 ^ 53 := by
  have h := hr.near x
  have : ((|r x - x| : ℚ) : ℝ) ≤ ((|x| / 2 ^ 53 : ℚ) : ℝ) := by exact_mod_cast h
  push_cast at this
  exact this

theorem near_round (hr : Nearest r) {x : ℚ} {X ε B : ℝ} (h : |(x : ℝ) - X| ≤ ε) (hX : |X| ≤ B) :
    |((r x : ℚ) : ℝ) - X| ≤ ε + (B + ε) / 2 ^ 53 := by
  have h1 := near_real hr x
  have h2 : |(x : ℝ)| ≤ B + ε := by
    calc |(x : ℝ)| = |((x : ℝ) - X) + X| := by ring_nf
      _ ≤ |(x : ℝ) - X| + |X| := abs_add_le _ _
      _ ≤ B + ε := by linarith
  calc |((r x : ℚ) : ℝ) - X| = |(((r x : ℚ) : ℝ) - x) + (x - X)| := by ring_nf
    _ ≤ |((r x : ℚ) : ℝ) - x| + |(x : ℝ) - X| := abs_add_le _ _
    _ ≤ _ := by
      have : |(x : ℝ)| / 2 ^ 53 ≤ (B + ε) / 2 ^ 53 := by gcongr
      linarith

theorem near_mul {a A b B α β P Q : ℝ} (ha : |a - A| ≤ α) (hb : |b - B| ≤ β) (hA : |A| ≤ P) (hB : |B| ≤ Q) :
    |a * b - A * B| ≤ α * Q + P * β + α * β := by
  have e : a * b - A * B = (a - A) * B + A * (b - B) + (a - A) * (b - B) := by ring
  have hα : 0 ≤ α := (abs_nonneg _).trans ha
  have hP : 0 ≤ P := (abs_nonneg _).trans hA
  rw [e]
  calc |(a - A) * B + A * (b - B) + (a - A) * (b - B)|
      ≤ |(a - A) * B| + |A * (b - B)| + |(a - A) * (b - B)| := abs_add_three _ _ _
    _ = |a - A| * |B| + |A| * |b - B| + |a - A| * |b - B| := by rw [abs_mul, abs_mul, abs_mul]
    _ ≤ _ := by gcongr

theorem near_add {a A b B α β : ℝ} (ha : |a - A| ≤ α) (hb : |b - B| ≤ β) : |(a + b) - (A + B)| ≤ α + β := by
  calc |(a + b) - (A + B)| = |(a - A) + (b - B)| := by ring_nf
    _ ≤ _ := (abs_add_le _ _).trans (add_le_add ha hb)

theorem near_sub {a A b B α β : ℝ} (ha : |a - A| ≤ α) (hb : |b - B| ≤ β) : |(a - b) - (A - B)| ≤ α + β := by
  calc |(a - b) - (A - B)| = |(a - A) - (b - B)| := by ring_nf
    _ ≤ _ := (abs_sub _ _).trans (add_le_add ha hb)

theorem near_neg {a A α : ℝ} (ha : |a - A| ≤ α) : |(-a) - (-A)| ≤ α := by
  rwa [show (-a) - (-A) = -(a - A) by ring, abs_neg]

/-- A product of two numbers up to one, rounded; errors in units of `2 ^ -53`. -/
theorem near_unit_mul (hr : Nearest r) {a b : ℚ} {A B : ℝ} {m n : ℝ} (ha : |(a : ℝ) - A| ≤ m / 2 ^ 53) (hb : |(b : ℝ) - B| ≤ n / 2 ^ 53)
    (hA : |A| ≤ 1) (hB : |B| ≤ 1) (hm : m ≤ 2 ^ 10) (hn : n ≤ 2 ^ 10) :
    |((r (a * b) : ℚ) : ℝ) - A * B| ≤ (m + n + 2) / 2 ^ 53 := by
  have hm0 : 0 ≤ m := by have := (abs_nonneg _).trans ha; by_contra h; push_neg at h; have : m / 2 ^ 53 < 0 := by apply div_neg_of_neg_of_pos h; positivity
                         linarith
  have hn0 : 0 ≤ n := by have := (abs_nonneg _).trans hb; by_contra h; push_neg at h; have : n / 2 ^ 53 < 0 := by apply div_neg_of_neg_of_pos h; positivity
                         linarith
  have h1 := near_mul ha hb hA hB
  have h2 : |A * B| ≤ 1 := by rw [abs_mul]; exact mul_le_one₀ hA (abs_nonneg _) hB
  have h3 := near_round hr (x := a * b) (by push_cast; exact h1) h2
  refine h3.trans ?_
  have hmn : m * n ≤ 2 ^ 20 := by
    calc m * n ≤ 2 ^ 10 * 2 ^ 10 := by gcongr
      _ = 2 ^ 20 := by norm_num
  have e : m / 2 ^ 53 * 1 + 1 * (n / 2 ^ 53) + m / 2 ^ 53 * (n / 2 ^ 53) = (m + n + m * n / 2 ^ 53) / 2 ^ 53 := by ring
  rw [e]
  rw [show (m + n + m * n / 2 ^ 53) / 2 ^ 53 + (1 + (m + n + m * n / 2 ^ 53) / 2 ^ 53) / 2 ^ 53 =
    (m + n + m * n / 2 ^ 53 + 1 + (m + n + m * n / 2 ^ 53) / 2 ^ 53) / 2 ^ 53 by ring]
  gcongr ?_ / _
  have h4 : m * n / 2 ^ 53 ≤ 2 ^ 20 / 2 ^ 53 := by gcongr
  have h5 : (m + n + m * n / 2 ^ 53) / 2 ^ 53 ≤ (2 ^ 10 + 2 ^ 10 + 2 ^ 20 / 2 ^ 53) / 2 ^ 53 := by gcongr
  norm_num at h4 h5 ⊢
  linarith

/-! ### The rotation matrix -/

theorem pi_double : |(piDouble : ℝ) - Real.pi| ≤ 5 / 10 ^ 16 := by
  have h1 := Real.pi_gt_d20
  have h2 := Real.pi_lt_d20
  unfold piDouble
  push_cast
  rw [abs_le]
  constructor <;> norm_num at * <;> linarith

/-- The angle is accurate: the constant, and two roundings. -/
theorem radians_near (hr : Nearest r) (v : ℚ) (hv : |v| ≤ 360) : |((radians r v : ℚ) : ℝ) - deg2rad v| ≤ 24 / 2 ^ 53 := by
  have hp := pi_double
  have h1 := Real.pi_gt_d20
  have h2 := Real.pi_lt_d20
  have hk : |((r (piDouble / 180) : ℚ) : ℝ) - Real.pi / 180| ≤ 1 / 40 / 2 ^ 53 := by
    have a : |((piDouble / 180 : ℚ) : ℝ) - Real.pi / 180| ≤ (1246 / 10 ^ 19 : ℝ) / 180 := by
      push_cast
      rw [← sub_div, abs_div, abs_of_pos (by norm_num : (0 : ℝ) < 180)]
      gcongr
      unfold piDouble
      push_cast
      rw [abs_le]
      constructor <;> norm_num at * <;> linarith
    have b : |Real.pi / 180| ≤ (3.1416 : ℝ) / 180 := by
      rw [abs_of_pos (by positivity)]
      gcongr
      norm_num at *
      linarith
    refine (near_round hr a b).trans ?_
    norm_num
  have hv' : |(v : ℝ)| ≤ 360 := by exact_mod_cast hv
  have b : |Real.pi / 180| ≤ (3.1416 : ℝ) / 180 := by
    rw [abs_of_pos (by positivity)]
    gcongr
    norm_num at *
    linarith
  have h3 := near_mul (a := (v : ℝ)) (A := v) (α := 0) (by simp) hk hv' b
  have h4 : |(v : ℝ) * (Real.pi / 180)| ≤ 6.2832 := by
    rw [abs_mul]
    calc _ ≤ 360 * ((3.1416 : ℝ) / 180) := by gcongr
      _ = _ := by norm_num
  have h5 := near_round hr (x := v * r (piDouble / 180)) (by push_cast; exact h3) h4
  unfold radians deg2rad
  refine h5.trans ?_
  norm_num

theorem cos_near (hr : Nearest r) (hl : Accurate lib) (v : ℚ) (hv : |v| ≤ 360) :
    |((lib.cos (radians r v) : ℚ) : ℝ) - Real.cos (deg2rad v)| ≤ 32 / 2 ^ 53 := by
  have h1 := hl.cos (radians r v)
  have h2 := (Real.abs_cos_sub_cos_le (radians r v) (deg2rad v)).trans (radians_near hr v hv)
  calc _ = |(((lib.cos (radians r v) : ℚ) : ℝ) - Real.cos (radians r v)) + (Real.cos (radians r v) - Real.cos (deg2rad v))| := by ring_nf
    _ ≤ _ := abs_add_le _ _
    _ ≤ 1 / 2 ^ 50 + 24 / 2 ^ 53 := add_le_add h1 h2
    _ = _ := by norm_num

theorem sin_near (hr : Nearest r) (hl : Accurate lib) (v : ℚ) (hv : |v| ≤ 360) :
    |((lib.sin (radians r v) : ℚ) : ℝ) - Real.sin (deg2rad v)| ≤ 32 / 2 ^ 53 := by
  have h1 := hl.sin (radians r v)
  have h2 := (Real.abs_sin_sub_sin_le (radians r v) (deg2rad v)).trans (radians_near hr v hv)
  calc _ = |(((lib.sin (radians r v) : ℚ) : ℝ) - Real.sin (radians r v)) + (Real.sin (radians r v) - Real.sin (deg2rad v))| := by ring_nf
    _ ≤ _ := abs_add_le _ _
    _ ≤ 1 / 2 ^ 50 + 24 / 2 ^ 53 := add_le_add h1 h2
    _ = _ := by norm_num

/-- A sum of two numbers whose exact sum is up to one. -/
theorem near_unit_add (hr : Nearest r) {a b : ℚ} {A B : ℝ} {m n : ℝ} (ha : |(a : ℝ) - A| ≤ m / 2 ^ 53) (hb : |(b : ℝ) - B| ≤ n / 2 ^ 53)
    (hA : |A + B| ≤ 1) (hm : m ≤ 2 ^ 10) (hn : n ≤ 2 ^ 10) : |((r (a + b) : ℚ) : ℝ) - (A + B)| ≤ (m + n + 2) / 2 ^ 53 := by
  have h3 := near_round hr (x := a + b) (by push_cast; exact near_add ha hb) hA
  refine h3.trans ?_
  rw [show m / 2 ^ 53 + n / 2 ^ 53 + (1 + (m / 2 ^ 53 + n / 2 ^ 53)) / 2 ^ 53 = (m + n + 1 + (m + n) / 2 ^ 53) / 2 ^ 53 by ring]
  gcongr ?_ / _
  have : (m + n) / 2 ^ 53 ≤ (2 ^ 10 + 2 ^ 10) / 2 ^ 53 := by gcongr
  norm_num at this ⊢
  linarith

theorem near_unit_sub (hr : Nearest r) {a b : ℚ} {A B : ℝ} {m n : ℝ} (ha : |(a : ℝ) - A| ≤ m / 2 ^ 53) (hb : |(b : ℝ) - B| ≤ n / 2 ^ 53)
    (hA : |A - B| ≤ 1) (hm : m ≤ 2 ^ 10) (hn : n ≤ 2 ^ 10) : |((r (a - b) : ℚ) : ℝ) - (A - B)| ≤ (m + n + 2) / 2 ^ 53 := by
  have := near_unit_add hr (a := a) (b := -b) (A := A) (B := -B) ha (by push_cast; exact near_neg hb) (by rwa [← sub_eq_add_neg]) hm hn
  rwa [← sub_eq_add_neg, ← sub_eq_add_neg] at this

theorem R_entry (v : V3) (i j : Fin 3) : |rotR v i j| ≤ 1 := by
  have h : ∑ k, rotR v i k * rotR v i k = 1 := by
    have := congrFun (congrFun (R_mul_transpose v) i) i
    simpa [Matrix.mul_apply, Matrix.one_apply] using this
  have h2 : rotR v i j * rotR v i j ≤ ∑ k, rotR v i k * rotR v i k :=
    Finset.single_le_sum (f := fun k => rotR v i k * rotR v i k) (fun k _ => mul_self_nonneg _) (Finset.mem_univ j)
  rw [h] at h2
  exact abs_le_one_iff_mul_self_le_one.2 h2

/-- C138: the rotation matrix is within `2 ^ -45` of the exact one. -/
theorem float_rotation_near (hr : Nearest r) (hl : Accurate lib) (v : Fin 3 → ℚ) (hv : ∀ i, |v i| ≤ 360) (i j : Fin 3) :
    |((rot r lib v i j : ℚ) : ℝ) - rotR (fun i => v i) i j| ≤ 1 / 2 ^ 45 := by
  have c := fun i => cos_near hr hl (v i) (hv i)
  have s := fun i => sin_near hr hl (v i) (hv i)
  have bc := fun i => Real.abs_cos_le_one (deg2rad (v i))
  have bs := fun i => Real.abs_sin_le_one (deg2rad (v i))
  have one : ∀ {a b : ℝ}, |a| ≤ 1 → |b| ≤ 1 → |a * b| ≤ 1 := fun ha hb => by
    rw [abs_mul]; exact mul_le_one₀ ha (abs_nonneg _) hb
  have bR := R_entry (fun i => v i)
  have e : (1 : ℝ) / 2 ^ 45 = 256 / 2 ^ 53 := by norm_num
  rw [e]
  have two : ∀ {a b : ℚ} {A B : ℝ}, |(a : ℝ) - A| ≤ 32 / 2 ^ 53 → |(b : ℝ) - B| ≤ 32 / 2 ^ 53 → |A| ≤ 1 → |B| ≤ 1 →
      |((r (a * b) : ℚ) : ℝ) - A * B| ≤ 66 / 2 ^ 53 := fun ha hb hA hB =>
    (near_unit_mul hr ha hb hA hB (by norm_num) (by norm_num)).trans (by norm_num)
  have three : ∀ {a b c : ℚ} {A B C : ℝ}, |(a : ℝ) - A| ≤ 32 / 2 ^ 53 → |(b : ℝ) - B| ≤ 32 / 2 ^ 53 → |(c : ℝ) - C| ≤ 32 / 2 ^ 53 →
      |A| ≤ 1 → |B| ≤ 1 → |C| ≤ 1 → |((r (r (a * b) * c) : ℚ) : ℝ) - A * B * C| ≤ 100 / 2 ^ 53 := fun ha hb hc hA hB hC =>
    (near_unit_mul hr (two ha hb hA hB) hc (one hA hB) hC (by norm_num) (by norm_num)).trans (by norm_num)
  have fin : ∀ {x : ℝ}, x ≤ 168 / 2 ^ 53 → x ≤ 256 / 2 ^ 53 := fun h => h.trans (by norm_num)
  have neg : ∀ i, |((-lib.cos (radians r (v i)) : ℚ) : ℝ) - -Real.cos (deg2rad (v i))| ≤ 32 / 2 ^ 53 := fun i => by
    push_cast
    exact near_neg (c i)
  have nbc : ∀ i, |-Real.cos (deg2rad (v i))| ≤ 1 := fun i => by rw [abs_neg]; exact bc i
  fin_cases i <;> fin_cases j
  · have := near_unit_add hr (two (c 0) (c 2) (bc 0) (bc 2)) (three (s 0) (s 1) (s 2) (bs 0) (bs 1) (bs 2)) (bR 0 0) (by norm_num) (by norm_num)
    exact fin (this.trans (by norm_num))
  · have := near_unit_sub hr (three (c 0) (s 1) (s 2) (bc 0) (bs 1) (bs 2)) (two (c 2) (s 0) (bc 2) (bs 0)) (bR 0 1) (by norm_num) (by norm_num)
    exact fin (this.trans (by norm_num))
  · exact (two (neg 1) (s 2) (nbc 1) (bs 2)).trans (by norm_num)
  · have := near_unit_sub hr (three (c 2) (s 0) (s 1) (bc 2) (bs 0) (bs 1)) (two (c 0) (s 2) (bc 0) (bs 2)) (bR 1 0) (by norm_num) (by norm_num)
    exact fin (this.trans (by norm_num))
  · have := near_unit_add hr (two (s 0) (s 2) (bs 0) (bs 2)) (three (c 0) (c 2) (s 1) (bc 0) (bc 2) (bs 1)) (bR 1 1) (by norm_num) (by norm_num)
    exact fin (this.trans (by norm_num))
  · exact (two (neg 1) (c 2) (nbc 1) (bc 2)).trans (by norm_num)
  · exact (two (c 1) (s 0) (bc 1) (bs 0)).trans (by norm_num)
  · exact (two (c 0) (c 1) (bc 0) (bc 1)).trans (by norm_num)
  · exact (s 1).trans (by norm_num)

/-! ### From world to image -/

theorem dot_real (hl : Accurate lib) (n : Nat) (hn : n ≤ 3) (a b : Fin n → ℚ) :
    |((lib.dot n a b : ℚ) : ℝ) - ∑ i, (a i : ℝ) * b i| ≤ (∑ i, |(a i : ℝ) * b i|) / 2 ^ 51 := by
  have h := hl.dot n hn a b
  have : ((|lib.dot n a b - ∑ i, a i * b i| : ℚ) : ℝ) ≤ (((∑ i, |a i * b i|) / 2 ^ 51 : ℚ) : ℝ) := by exact_mod_cast h
  push_cast at this
  exact this

/-- A dot product of a row of the matrix with a vector that is known to within a relative error of `2 ^ -53`. -/
theorem dot_near (hl : Accurate lib) (a b : Fin 3 → ℚ) (A B : Fin 3 → ℝ) (ha : ∀ j, |(a j : ℝ) - A j| ≤ 1 / 2 ^ 45) (hA : ∀ j, |A j| ≤ 1)
    (hb : ∀ j, |(b j : ℝ) - B j| ≤ |B j| / 2 ^ 53) :
    |((lib.dot 3 a b : ℚ) : ℝ) - ∑ j, A j * B j| ≤ (∑ j, |B j|) / 2 ^ 44 := by
  have term : ∀ j, |(a j : ℝ) * b j - A j * B j| ≤ |B j| * (258 / 2 ^ 53) := fun j => by
    have h := near_mul (ha j) (hb j) (hA j) (le_refl |B j|)
    refine h.trans ?_
    have h0 := abs_nonneg (B j)
    rw [show (1 : ℝ) / 2 ^ 45 * |B j| + 1 * (|B j| / 2 ^ 53) + 1 / 2 ^ 45 * (|B j| / 2 ^ 53) = |B j| * (1 / 2 ^ 45 + 1 / 2 ^ 53 + 1 / 2 ^ 98) by ring]
    gcongr
    norm_num
  have size : ∀ j, |(a j : ℝ) * b j| ≤ |B j| * 2 := fun j => by
    have h0 := abs_nonneg (B j)
    have h1 : |A j * B j| ≤ |B j| := by
      rw [abs_mul]
      calc _ ≤ 1 * |B j| := by gcongr; exact hA j
        _ = _ := one_mul _
    calc |(a j : ℝ) * b j| = |((a j : ℝ) * b j - A j * B j) + A j * B j| := by ring_nf
      _ ≤ _ := abs_add_le _ _
      _ ≤ |B j| * (258 / 2 ^ 53) + |B j| := add_le_add (term j) h1
      _ = |B j| * (258 / 2 ^ 53 + 1) := by ring
      _ ≤ _ := by gcongr; norm_num
  have h1 := dot_real hl 3 le_rfl a b
  have h2 : (∑ i, |(a i : ℝ) * b i|) ≤ (∑ j, |B j|) * 2 := by
    rw [Finset.sum_mul]
    exact Finset.sum_le_sum fun j _ => size j
  have h3 : |(∑ i, (a i : ℝ) * b i) - ∑ j, A j * B j| ≤ (∑ j, |B j|) * (258 / 2 ^ 53) := by
    rw [← Finset.sum_sub_distrib, Finset.sum_mul]
    exact (Finset.abs_sum_le_sum_abs _ _).trans (Finset.sum_le_sum fun j _ => term j)
  have h0 : 0 ≤ ∑ j, |B j| := Finset.sum_nonneg fun j _ => abs_nonneg _
  calc _ = |(((lib.dot 3 a b : ℚ) : ℝ) - ∑ i, (a i : ℝ) * b i) + ((∑ i, (a i : ℝ) * b i) - ∑ j, A j * B j)| := by ring_nf
    _ ≤ _ := abs_add_le _ _
    _ ≤ (∑ j, |B j|) * 2 / 2 ^ 51 + (∑ j, |B j|) * (258 / 2 ^ 53) := add_le_add (h1.trans (by gcongr)) h3
    _ = (∑ j, |B j|) * (2 / 2 ^ 51 + 258 / 2 ^ 53) := by ring
    _ ≤ (∑ j, |B j|) * (1 / 2 ^ 44) := by gcongr; norm_num
    _ = _ := by ring

/-- A quotient. -/
theorem div_near {x z X Z e M : ℝ} (hZ : 0 < Z) (hz : |z - Z| ≤ e * Z) (hx : |x - X| ≤ e * Z) (hX : |X| ≤ M * Z) (he : e ≤ 1 / 2) :
    Z / 2 ≤ z ∧ |x / z - X / Z| ≤ 2 * e * (1 + M) := by
  obtain ⟨h1, h2⟩ := abs_le.1 hz
  have he' : e * Z ≤ 1 / 2 * Z := by gcongr
  have hz2 : Z / 2 ≤ z := by linarith
  have hz0 : 0 < z := by linarith
  refine ⟨hz2, ?_⟩
  have hM : 0 ≤ M := by
    have := (abs_nonneg X).trans hX
    by_contra h
    push_neg at h
    have : M * Z < 0 := mul_neg_of_neg_of_pos h hZ
    linarith
  have he0 : 0 ≤ e := by
    have := (abs_nonneg _).trans hz
    by_contra h
    push_neg at h
    have : e * Z < 0 := mul_neg_of_neg_of_pos h hZ
    linarith
  rw [div_sub_div _ _ hz0.ne' hZ.ne', abs_div, abs_of_pos (mul_pos hz0 hZ), div_le_iff₀ (mul_pos hz0 hZ)]
  have e1 : x * Z - z * X = (x - X) * Z - (z - Z) * X := by ring
  rw [e1]
  calc |(x - X) * Z - (z - Z) * X| ≤ |(x - X) * Z| + |(z - Z) * X| := abs_sub _ _
    _ = |x - X| * Z + |z - Z| * |X| := by rw [abs_mul, abs_mul, abs_of_pos hZ]
    _ ≤ (e * Z) * Z + (e * Z) * (M * Z) := by gcongr
    _ = 2 * e * (1 + M) * (Z / 2 * Z) := by ring
    _ ≤ 2 * e * (1 + M) * (z * Z) := by gcongr

/-- The camera coordinates of a point before division: `R (xyz - camera)`. -/
noncomputable def camXyz (cam : Cam) (xyz : Fin 3 → ℚ) (directions : Bool) : V3 :=
  (rotR (exactCam cam).vec.viewdir).mulVec ((exactCam cam).dxyz (fun i => xyz i) directions)

/-- The distance (sum of absolute coordinates) of a point from the camera. -/
noncomputable def reach (cam : Cam) (xyz : Fin 3 → ℚ) (directions : Bool) : ℝ :=
  ∑ j, |(exactCam cam).dxyz (fun i => xyz i) directions j|

/-- The rotated point is accurate. -/
theorem camera_point_near (hr : Nearest r) (hl : Accurate lib) (cam : Cam) (hv : ∀ i, |cam.viewdir i| ≤ 360) (xyz : Fin 3 → ℚ) (directions : Bool)
    (i : Fin 3) :
    |((lib.dot 3 (rot r lib cam.viewdir i) (if directions then xyz else fun j => r (xyz j - cam.xyz j)) : ℚ) : ℝ) - camXyz cam xyz directions i| ≤
      reach cam xyz directions / 2 ^ 44 := by
  have h := dot_near hl (rot r lib cam.viewdir i) (if directions then xyz else fun j => r (xyz j - cam.xyz j))
    (fun j => rotR (fun i => cam.viewdir i) i j) ((exactCam cam).dxyz (fun i => xyz i) directions)
    (fun j => float_rotation_near hr hl cam.viewdir hv i j) (fun j => R_entry _ i j) ?_
  · exact h
  · intro j
    cases directions with
    | true =>
      simp only [Camera.dxyz, if_true, sub_self, abs_zero]
      positivity
    | false =>
      have := near_real hr (xyz j - cam.xyz j)
      push_cast at this
      simpa [Camera.dxyz, exactCam] using this

theorem camXyz_back (cam : Cam) (xyz : Fin 3 → ℚ) (directions : Bool) (j : Fin 3) :
    (exactCam cam).dxyz (fun i => xyz i) directions j = ∑ i, rotR (exactCam cam).vec.viewdir i j * camXyz cam xyz directions i := by
  have h : (rotR (exactCam cam).vec.viewdir).transpose * rotR (exactCam cam).vec.viewdir = 1 := mul_eq_one_comm.mp (R_mul_transpose _)
  have e : (rotR (exactCam cam).vec.viewdir).transpose.mulVec (camXyz cam xyz directions) = (exactCam cam).dxyz (fun i => xyz i) directions := by
    unfold camXyz
    rw [Matrix.mulVec_mulVec, h, Matrix.one_mulVec]
  rw [← e]
  simp [Matrix.mulVec, dotProduct]

/-- A point whose camera coordinates are at most `M` is not much further away than its depth. -/
theorem reach_le (cam : Cam) (xyz : Fin 3 → ℚ) (directions : Bool) (M : ℝ) (hZ : 0 ≤ camXyz cam xyz directions 2)
    (h0 : |camXyz cam xyz directions 0| ≤ M * camXyz cam xyz directions 2) (h1 : |camXyz cam xyz directions 1| ≤ M * camXyz cam xyz directions 2) :
    reach cam xyz directions ≤ 3 * (1 + 2 * M) * camXyz cam xyz directions 2 := by
  have : ∀ j, |(exactCam cam).dxyz (fun i => xyz i) directions j| ≤ (1 + 2 * M) * camXyz cam xyz directions 2 := fun j => by
    rw [camXyz_back, Fin.sum_univ_three]
    have b := fun i => R_entry (exactCam cam).vec.viewdir i j
    have m : ∀ i, |rotR (exactCam cam).vec.viewdir i j * camXyz cam xyz directions i| ≤ |camXyz cam xyz directions i| := fun i => by
      rw [abs_mul]
      calc _ ≤ 1 * |camXyz cam xyz directions i| := by gcongr; exact b i
        _ = _ := one_mul _
    have h := abs_add_three (rotR (exactCam cam).vec.viewdir 0 j * camXyz cam xyz directions 0)
      (rotR (exactCam cam).vec.viewdir 1 j * camXyz cam xyz directions 1) (rotR (exactCam cam).vec.viewdir 2 j * camXyz cam xyz directions 2)
    have h2 := m 2
    rw [abs_of_nonneg hZ] at h2
    linarith [m 0, m 1]
  unfold reach
  rw [Fin.sum_univ_three]
  linarith [this 0, this 1, this 2]

/-- The center of the image. -/
theorem center_near (hr : Nearest r) (n : ℤ) (c : ℚ) :
    |((r (r ((n : ℚ) / 2) + c) : ℚ) : ℝ) - ((n : ℝ) / 2 + c)| ≤ 9 / 4 * (|(n : ℝ) / 2| + |(c : ℝ)|) / 2 ^ 53 := by
  have h1 := near_real hr ((n : ℚ) / 2)
  push_cast at h1
  have h2 := near_add h1 (by simp : |(c : ℝ) - c| ≤ 0)
  have h3 := near_round hr (x := r ((n : ℚ) / 2) + c) (by push_cast; exact h2) (abs_add_le ((n : ℝ) / 2) (c : ℝ))
  refine h3.trans ?_
  have a := abs_nonneg ((n : ℝ) / 2)
  have b := abs_nonneg (c : ℝ)
  rw [show |(n : ℝ) / 2| / 2 ^ 53 + 0 + (|(n : ℝ) / 2| + |(c : ℝ)| + (|(n : ℝ) / 2| / 2 ^ 53 + 0)) / 2 ^ 53 =
    (|(n : ℝ) / 2| * (2 + 1 / 2 ^ 53) + |(c : ℝ)|) / 2 ^ 53 by ring]
  gcongr ?_ / _
  have : |(n : ℝ) / 2| * (2 + 1 / 2 ^ 53) ≤ |(n : ℝ) / 2| * (9 / 4) := by gcongr; norm_num
  linarith

theorem exact_uv_eq (cam : Cam) (xyz : Fin 3 → ℚ) (directions : Bool) : (exactCam cam).xyzToUv (fun i => xyz i) directions =
      (Option.map (exactCam cam).xyToUv (if camXyz cam xyz directions 2 ≤ 0 then none else
        some ![camXyz cam xyz directions 0 / camXyz cam xyz directions 2, camXyz cam xyz directions 1 / camXyz cam xyz directions 2]),
        camXyz cam xyz directions 2) := by
  unfold Camera.xyzToUv Camera.xyzToXy camXyz
  rfl

theorem exact_uv (cam : Cam) (xyz : Fin 3 → ℚ) (directions : Bool) (UV : V2) (Z : ℝ)
    (h : (exactCam cam).xyzToUv (fun i => xyz i) directions = (some UV, Z)) :
    Z = camXyz cam xyz directions 2 ∧ 0 < Z ∧
    UV 0 = camXyz cam xyz directions 0 / Z * cam.f 0 + ((cam.imgsz 0 : ℝ) / 2 + cam.c 0) ∧
    UV 1 = camXyz cam xyz directions 1 / Z * cam.f 1 + ((cam.imgsz 1 : ℝ) / 2 + cam.c 1) := by
  rw [exact_uv_eq] at h
  obtain ⟨h1, h2⟩ := Prod.mk.inj h
  by_cases hz : camXyz cam xyz directions 2 ≤ 0
  · rw [if_pos hz] at h1; cases h1
  · rw [if_neg hz] at h1
    have h3 : (exactCam cam).xyToUv _ = UV := Option.some.inj h1
    refine ⟨h2.symm, by rw [← h2]; exact not_le.1 hz, ?_, ?_⟩ <;>
    · rw [← h3, ← h2]
      simp [Camera.xyToUv, exactCam, distort]

theorem abs_axis {x f C U M : ℝ} (hf : f ≠ 0) (h : U = x * f + C) (hU : |U - C| ≤ M * |f|) : |x| ≤ M := by
  rw [h, add_sub_cancel_right, abs_mul] at hU
  exact le_of_mul_le_mul_right hU (abs_pos.2 hf)

/-- From camera to image coordinates. -/
theorem uv_near (hr : Nearest r) (cam : Cam) (i : Fin 2) (xy : Fin 2 → ℚ) (x M e : ℝ) (hx : |(xy i : ℝ) - x| ≤ e) (hM : |x| ≤ M) :
    |((xyToUv r cam xy i : ℚ) : ℝ) - (x * cam.f i + ((cam.imgsz i : ℝ) / 2 + cam.c i))| ≤
      (5 / 4 * e + (3 * M) / 2 ^ 53) * |(cam.f i : ℝ)| + (|(cam.imgsz i : ℝ) / 2| + |(cam.c i : ℝ)|) / 2 ^ 51 := by
  have hM0 : 0 ≤ M := (abs_nonneg _).trans hM
  have he0 : 0 ≤ e := (abs_nonneg _).trans hx
  set F := |(cam.f i : ℝ)| with hF
  set G := |(cam.imgsz i : ℝ) / 2| + |(cam.c i : ℝ)| with hG
  have F0 : 0 ≤ F := abs_nonneg _
  have G0 : 0 ≤ G := by positivity
  have h1 := near_mul hx (by simp : |(cam.f i : ℝ) - cam.f i| ≤ 0) hM (le_refl F)
  have b1 : |x * cam.f i| ≤ M * F := by rw [abs_mul]; gcongr
  have h2 := near_round hr (x := xy i * cam.f i) (by push_cast; exact h1) b1
  have h3 := center_near hr (cam.imgsz i) (cam.c i)
  have h4 := near_add h2 h3
  have b2 : |x * cam.f i + ((cam.imgsz i : ℝ) / 2 + cam.c i)| ≤ M * F + G :=
    (abs_add_le _ _).trans (add_le_add b1 (abs_add_le _ _))
  have h5 := near_round hr (x := r (xy i * cam.f i) + r (r ((cam.imgsz i : ℚ) / 2) + cam.c i)) (by push_cast; push_cast at h4; exact h4) b2
  refine (show |((xyToUv r cam xy i : ℚ) : ℝ) - _| ≤ _ from h5).trans ?_
  rw [← hG]
  have a1 : 0 ≤ e * F := by positivity
  have a2 : 0 ≤ M * F := by positivity
  rw [show e * F + M * 0 + e * 0 + (M * F + (e * F + M * 0 + e * 0)) / 2 ^ 53 + 9 / 4 * G / 2 ^ 53 +
      (M * F + G + (e * F + M * 0 + e * 0 + (M * F + (e * F + M * 0 + e * 0)) / 2 ^ 53 + 9 / 4 * G / 2 ^ 53)) / 2 ^ 53 =
    (e * F) * (1 + 2 / 2 ^ 53 + 1 / 2 ^ 106) + (M * F) * (2 / 2 ^ 53 + 1 / 2 ^ 106) + G * (13 / 4 / 2 ^ 53 + 9 / 4 / 2 ^ 106) by ring,
    show (5 / 4 * e + 3 * M / 2 ^ 53) * F + G / 2 ^ 51 = (e * F) * (5 / 4) + (M * F) * (3 / 2 ^ 53) + G * (4 / 2 ^ 53) by ring]
  gcongr <;> norm_num

/-- C138: a point in front of the camera, whose exact image coordinates are up to `M` focal lengths from the center of the image, gets image
coordinates within a small distance of the exact ones. -/
theorem float_project_near (hr : Nearest r) (hl : Accurate lib) (cam : Cam) (hv : ∀ i, |cam.viewdir i| ≤ 360) (hf : ∀ i, cam.f i ≠ 0)
    (xyz : Fin 3 → ℚ) (directions : Bool) (UV : V2) (Z M : ℝ) (hM : M ≤ 2 ^ 40)
    (h : (exactCam cam).xyzToUv (fun i => xyz i) directions = (some UV, Z))
    (hUV : ∀ i, |UV i - ((cam.imgsz i : ℝ) / 2 + cam.c i)| ≤ M * |(cam.f i : ℝ)|) :
    ∃ uv depth, xyzToUv r lib cam xyz directions = (some uv, depth) ∧ |(depth : ℝ) - Z| ≤ (1 + M) * Z / 2 ^ 41 ∧
      ∀ i, |(uv i : ℝ) - UV i| ≤ (1 + M) ^ 2 * |(cam.f i : ℝ)| / 2 ^ 40 + (|(cam.imgsz i : ℝ) / 2| + |(cam.c i : ℝ)|) / 2 ^ 51 := by
  obtain ⟨hZ, hZ0, u0, u1⟩ := exact_uv cam xyz directions UV Z h
  have hfr : ∀ i, (cam.f i : ℝ) ≠ 0 := fun i => by exact_mod_cast hf i
  have x0 := abs_axis (hfr 0) u0 (hUV 0)
  have x1 := abs_axis (hfr 1) u1 (hUV 1)
  have hM0 : 0 ≤ M := (abs_nonneg _).trans x0
  have X0 : |camXyz cam xyz directions 0| ≤ M * Z := by rwa [abs_div, abs_of_pos hZ0, div_le_iff₀ hZ0] at x0
  have X1 : |camXyz cam xyz directions 1| ≤ M * Z := by rwa [abs_div, abs_of_pos hZ0, div_le_iff₀ hZ0] at x1
  have hreach := reach_le cam xyz directions M (by rw [← hZ]; exact hZ0.le) (by rw [← hZ]; exact X0) (by rw [← hZ]; exact X1)
  rw [← hZ] at hreach
  set e : ℝ := 3 * (1 + 2 * M) / 2 ^ 44 with he
  have he2 : e ≤ 1 / 2 := by
    rw [he, div_le_iff₀ (by positivity)]
    norm_num at *
    linarith
  set d : Fin 3 → ℚ := if directions then xyz else fun j => r (xyz j - cam.xyz j) with hd
  set p : Fin 3 → ℚ := fun i => lib.dot 3 (rot r lib cam.viewdir i) d with hp
  have near : ∀ i, |(p i : ℝ) - camXyz cam xyz directions i| ≤ e * Z := fun i => by
    refine (camera_point_near hr hl cam hv xyz directions i).trans ?_
    rw [he, div_mul_eq_mul_div]
    gcongr
  have n2 := near 2
  rw [← hZ] at n2
  obtain ⟨z1, q0⟩ := div_near hZ0 n2 (near 0) X0 he2
  obtain ⟨-, q1⟩ := div_near hZ0 n2 (near 1) X1 he2
  have hz : ¬ p 2 ≤ 0 := by
    intro hle
    have : (p 2 : ℝ) ≤ 0 := by exact_mod_cast hle
    linarith
  have he1 : 2 * e * (1 + M) ≤ 3 / 4 * (1 + M) ^ 2 / 2 ^ 40 := by
    rw [he]
    have : 3 * (1 + 2 * M) ≤ 3 * (2 * (1 + M)) := by gcongr; linarith
    calc 2 * (3 * (1 + 2 * M) / 2 ^ 44) * (1 + M) ≤ 2 * (3 * (2 * (1 + M)) / 2 ^ 44) * (1 + M) := by gcongr
      _ = _ := by ring
  have hsq : M ≤ (1 + M) ^ 2 := by nlinarith
  have hsq0 : 0 ≤ (1 + M) ^ 2 := by positivity
  have fin : ∀ (i : Fin 2) (xy : Fin 2 → ℚ) (x : ℝ) (q : ℚ), xy i = r q → |(q : ℝ) - x| ≤ 2 * e * (1 + M) → |x| ≤ M →
      |((xyToUv r cam xy i : ℚ) : ℝ) - (x * cam.f i + ((cam.imgsz i : ℝ) / 2 + cam.c i))| ≤
      (1 + M) ^ 2 * |(cam.f i : ℝ)| / 2 ^ 40 + (|(cam.imgsz i : ℝ) / 2| + |(cam.c i : ℝ)|) / 2 ^ 51 := fun i xy x q hq h1 h2 => by
    have h3 := near_round hr (h1.trans he1) h2
    rw [← hq] at h3
    refine (uv_near hr cam i xy x M _ h3 h2).trans ?_
    gcongr ?_ + _
    rw [show (1 + M) ^ 2 * |(cam.f i : ℝ)| / 2 ^ 40 = (1 + M) ^ 2 / 2 ^ 40 * |(cam.f i : ℝ)| by ring]
    refine mul_le_mul_of_nonneg_right ?_ (abs_nonneg _)
    have : (M + 3 / 4 * (1 + M) ^ 2 / 2 ^ 40) / 2 ^ 53 ≤ ((1 + M) ^ 2 + (1 + M) ^ 2) / 2 ^ 53 := by
      gcongr
      rw [div_le_iff₀ (by positivity)]
      nlinarith
    have h5 : 3 * M / 2 ^ 53 ≤ 3 * (1 + M) ^ 2 / 2 ^ 53 := by gcongr
    have h6 : 5 / 4 * (3 / 4 * (1 + M) ^ 2 / 2 ^ 40 + ((1 + M) ^ 2 + (1 + M) ^ 2) / 2 ^ 53) + 3 * (1 + M) ^ 2 / 2 ^ 53 ≤ (1 + M) ^ 2 / 2 ^ 40 := by
      rw [show 5 / 4 * (3 / 4 * (1 + M) ^ 2 / 2 ^ 40 + ((1 + M) ^ 2 + (1 + M) ^ 2) / 2 ^ 53) + 3 * (1 + M) ^ 2 / 2 ^ 53 =
        (1 + M) ^ 2 * (15 / 16 / 2 ^ 40 + 11 / 2 / 2 ^ 53) by ring, div_eq_mul_one_div ((1 + M) ^ 2)]
      gcongr
      norm_num
    linarith
  refine ⟨xyToUv r cam ![r (p 0 / p 2), r (p 1 / p 2)], p 2, ?_, ?_, ?_⟩
  · unfold xyzToUv xyzToXy
    simp only [← hd]
    show (Option.map (xyToUv r cam) (if p 2 ≤ 0 then none else some ![r (p 0 / p 2), r (p 1 / p 2)]), p 2) = _
    rw [if_neg hz]
    rfl
  · refine n2.trans ?_
    rw [he, div_mul_eq_mul_div, show (1 + M) * Z / 2 ^ 41 = 8 * (1 + M) * Z / 2 ^ 44 by ring]
    have : 3 * (1 + 2 * M) ≤ 8 * (1 + M) := by linarith
    gcongr
  · intro i
    fin_cases i
    · show |((xyToUv r cam ![r (p 0 / p 2), r (p 1 / p 2)] 0 : ℚ) : ℝ) - UV 0| ≤ _
      rw [u0]
      exact fin 0 _ _ _ rfl (by push_cast; exact q0) x0
    · show |((xyToUv r cam ![r (p 0 / p 2), r (p 1 / p 2)] 1 : ℚ) : ℝ) - UV 1| ≤ _
      rw [u1]
      exact fin 1 _ _ _ rfl (by push_cast; exact q1) x1

/-- C138: which side of the camera a point is on is decided correctly unless the point is within `2 ^ -44` of its distance from the plane of
the camera. -/
theorem float_behind (hr : Nearest r) (hl : Accurate lib) (cam : Cam) (hv : ∀ i, |cam.viewdir i| ≤ 360) (xyz : Fin 3 → ℚ) (directions : Bool) :
    (reach cam xyz directions / 2 ^ 44 < ((exactCam cam).xyzToUv (fun i => xyz i) directions).2 → (xyzToUv r lib cam xyz directions).1.isSome = true) ∧
    (((exactCam cam).xyzToUv (fun i => xyz i) directions).2 ≤ -(reach cam xyz directions / 2 ^ 44) → (xyzToUv r lib cam xyz directions).1 = none) := by
  have hz : ((exactCam cam).xyzToUv (fun i => xyz i) directions).2 = camXyz cam xyz directions 2 := rfl
  have h := abs_le.1 (camera_point_near hr hl cam hv xyz directions 2)
  rw [hz]
  unfold xyzToUv xyzToXy
  simp only
  constructor
  · intro h1
    rw [if_neg]
    · rfl
    · intro hle
      have : ((lib.dot 3 (rot r lib cam.viewdir 2) (if directions then xyz else fun j => r (xyz j - cam.xyz j)) : ℚ) : ℝ) ≤ 0 := by exact_mod_cast hle
      linarith [h.1]
  · intro h1
    rw [if_pos]
    · rfl
    · have : ((lib.dot 3 (rot r lib cam.viewdir 2) (if directions then xyz else fun j => r (xyz j - cam.xyz j)) : ℚ) : ℝ) ≤ 0 := by linarith [h.2]
      exact_mod_cast this

/-! ### From image to world -/

/-- From image to camera coordinates. -/
theorem xy_near (hr : Nearest r) (cam : Cam) (i : Fin 2) (hf : cam.f i ≠ 0) (uv : Fin 2 → ℚ) (W : ℝ)
    (hW : |(uv i : ℝ)| + (|(cam.imgsz i : ℝ) / 2| + |(cam.c i : ℝ)|) ≤ W * |(cam.f i : ℝ)|) :
    |((uv i : ℝ) - ((cam.imgsz i : ℝ) / 2 + cam.c i)) / cam.f i| ≤ W ∧
    |((uvToXy r cam uv i : ℚ) : ℝ) - ((uv i : ℝ) - ((cam.imgsz i : ℝ) / 2 + cam.c i)) / cam.f i| ≤ 8 * W / 2 ^ 53 := by
  have hfr : (cam.f i : ℝ) ≠ 0 := by exact_mod_cast hf
  have hF : 0 < |(cam.f i : ℝ)| := abs_pos.2 hfr
  set F := |(cam.f i : ℝ)| with hFd
  set G := |(cam.imgsz i : ℝ) / 2| + |(cam.c i : ℝ)| with hG
  have G0 : 0 ≤ G := by positivity
  have U0 := abs_nonneg (uv i : ℝ)
  have b0 : |(uv i : ℝ) - ((cam.imgsz i : ℝ) / 2 + cam.c i)| ≤ W * F :=
    ((abs_sub _ _).trans (add_le_add le_rfl (abs_add_le _ _))).trans hW
  have hWF : 0 ≤ W * F := (abs_nonneg _).trans b0
  have hW0 : 0 ≤ W := by by_contra h; push_neg at h; have := mul_neg_of_neg_of_pos h hF; linarith
  have hGW : G ≤ W * F := by linarith
  refine ⟨by rw [abs_div, div_le_iff₀ hF]; exact b0, ?_⟩
  have h1 := center_near hr (cam.imgsz i) (cam.c i)
  have h2 := near_sub (by simp : |(uv i : ℝ) - uv i| ≤ 0) h1
  have h2' : |((uv i : ℝ) - ((r (r ((cam.imgsz i : ℚ) / 2) + cam.c i) : ℚ) : ℝ)) - ((uv i : ℝ) - ((cam.imgsz i : ℝ) / 2 + cam.c i))| ≤
      W * F * (9 / 4 / 2 ^ 53) := by
    refine h2.trans ?_
    rw [← hG, zero_add, show 9 / 4 * G / 2 ^ 53 = G * (9 / 4 / 2 ^ 53) by ring]
    gcongr
  have h3 := near_round hr (x := uv i - r (r ((cam.imgsz i : ℚ) / 2) + cam.c i)) (by push_cast; exact h2') b0
  have h3' : |((r (uv i - r (r ((cam.imgsz i : ℚ) / 2) + cam.c i)) : ℚ) : ℝ) - ((uv i : ℝ) - ((cam.imgsz i : ℝ) / 2 + cam.c i))| ≤
      W * F * (7 / 2 / 2 ^ 53) := by
    refine h3.trans ?_
    rw [show W * F * (9 / 4 / 2 ^ 53) + (W * F + W * F * (9 / 4 / 2 ^ 53)) / 2 ^ 53 = W * F * (13 / 4 / 2 ^ 53 + 9 / 4 / 2 ^ 106) by ring]
    gcongr
    norm_num
  have h4 := near_real hr (1 / cam.f i)
  push_cast at h4
  have e1 : |1 / (cam.f i : ℝ)| = 1 / F := by rw [abs_div, abs_one]
  have h5 := near_mul h3' h4 b0 (le_of_eq e1)
  rw [e1] at h5
  have e2 : ((uv i : ℝ) - ((cam.imgsz i : ℝ) / 2 + cam.c i)) * (1 / cam.f i) = ((uv i : ℝ) - ((cam.imgsz i : ℝ) / 2 + cam.c i)) / cam.f i := by ring
  have h5' : |((r (uv i - r (r ((cam.imgsz i : ℚ) / 2) + cam.c i)) : ℚ) : ℝ) * ((r (1 / cam.f i) : ℚ) : ℝ) -
      ((uv i : ℝ) - ((cam.imgsz i : ℝ) / 2 + cam.c i)) / cam.f i| ≤ W * (5 / 2 ^ 53) := by
    rw [← e2]
    refine h5.trans ?_
    rw [show W * F * (7 / 2 / 2 ^ 53) * (1 / F) + W * F * (1 / F / 2 ^ 53) + W * F * (7 / 2 / 2 ^ 53) * (1 / F / 2 ^ 53) =
      W * (9 / 2 / 2 ^ 53 + 7 / 2 / 2 ^ 106) by field_simp; ring]
    gcongr
    norm_num
  have h6 := near_round hr (x := r (uv i - r (r ((cam.imgsz i : ℚ) / 2) + cam.c i)) * r (1 / cam.f i)) (by push_cast; exact h5')
    (by rw [abs_div, div_le_iff₀ hF]; exact b0)
  have e3 : uvToXy r cam uv i = r (r (uv i - r (r ((cam.imgsz i : ℚ) / 2) + cam.c i)) * r (1 / cam.f i)) := by
    unfold uvToXy
    rw [mul_one_div]
  rw [e3]
  refine h6.trans ?_
  rw [show W * (5 / 2 ^ 53) + (W + W * (5 / 2 ^ 53)) / 2 ^ 53 = W * (6 / 2 ^ 53 + 5 / 2 ^ 106) by ring, show 8 * W / 2 ^ 53 = W * (8 / 2 ^ 53) by ring]
  gcongr
  norm_num

/-- The direction of a ray. -/
theorem ray_near (hr : Nearest r) (hl : Accurate lib) (v : Fin 3 → ℚ) (hv : ∀ i, |v i| ≤ 360) (xy : Fin 2 → ℚ) (x y W : ℝ)
    (hx : |(xy 0 : ℝ) - x| ≤ 8 * W / 2 ^ 53) (hy : |(xy 1 : ℝ) - y| ≤ 8 * W / 2 ^ 53) (bx : |x| ≤ W) (bY : |y| ≤ W) (j : Fin 3) :
    |((r (lib.dot 2 ![rot r lib v 0 j, rot r lib v 1 j] xy + rot r lib v 2 j) : ℚ) : ℝ) -
      (x * rotR (fun i => v i) 0 j + y * rotR (fun i => v i) 1 j + rotR (fun i => v i) 2 j)| ≤ 600 * (1 + W) / 2 ^ 53 ∧
    |x * rotR (fun i => v i) 0 j + y * rotR (fun i => v i) 1 j + rotR (fun i => v i) 2 j| ≤ 1 + 2 * W := by
  have hW0 : 0 ≤ W := (abs_nonneg _).trans bx
  have n := fun i => float_rotation_near hr hl v hv i j
  have b := fun i => R_entry (fun i => (v i : ℝ)) i j
  set A := fun i => rotR (fun i => (v i : ℝ)) i j with hA
  have m0 : |(rot r lib v 0 j : ℝ) * xy 0 - A 0 * x| ≤ 265 * W / 2 ^ 53 := by
    refine (near_mul (n 0) hx (b 0) bx).trans ?_
    rw [show 1 / 2 ^ 45 * W + 1 * (8 * W / 2 ^ 53) + 1 / 2 ^ 45 * (8 * W / 2 ^ 53) = W * (264 / 2 ^ 53 + 8 / 2 ^ 98) by ring,
      show 265 * W / 2 ^ 53 = W * (265 / 2 ^ 53) by ring]
    gcongr
    norm_num
  have m1 : |(rot r lib v 1 j : ℝ) * xy 1 - A 1 * y| ≤ 265 * W / 2 ^ 53 := by
    refine (near_mul (n 1) hy (b 1) bY).trans ?_
    rw [show 1 / 2 ^ 45 * W + 1 * (8 * W / 2 ^ 53) + 1 / 2 ^ 45 * (8 * W / 2 ^ 53) = W * (264 / 2 ^ 53 + 8 / 2 ^ 98) by ring,
      show 265 * W / 2 ^ 53 = W * (265 / 2 ^ 53) by ring]
    gcongr
    norm_num
  have bA0 : |A 0 * x| ≤ W := by rw [abs_mul]; calc _ ≤ 1 * W := by gcongr; exact b 0
                                              _ = _ := one_mul _
  have bA1 : |A 1 * y| ≤ W := by rw [abs_mul]; calc _ ≤ 1 * W := by gcongr; exact b 1
                                              _ = _ := one_mul _
  have s0 : |(rot r lib v 0 j : ℝ) * xy 0| ≤ 265 * W / 2 ^ 53 + W := by
    calc _ = |((rot r lib v 0 j : ℝ) * xy 0 - A 0 * x) + A 0 * x| := by ring_nf
      _ ≤ _ := (abs_add_le _ _).trans (add_le_add m0 bA0)
  have s1 : |(rot r lib v 1 j : ℝ) * xy 1| ≤ 265 * W / 2 ^ 53 + W := by
    calc _ = |((rot r lib v 1 j : ℝ) * xy 1 - A 1 * y) + A 1 * y| := by ring_nf
      _ ≤ _ := (abs_add_le _ _).trans (add_le_add m1 bA1)
  have hd := dot_real hl 2 (by norm_num) ![rot r lib v 0 j, rot r lib v 1 j] xy
  rw [Fin.sum_univ_two, Fin.sum_univ_two] at hd
  simp only [Matrix.cons_val_zero, Matrix.cons_val_one] at hd
  have hd2 : |((lib.dot 2 ![rot r lib v 0 j, rot r lib v 1 j] xy : ℚ) : ℝ) - (x * A 0 + y * A 1)| ≤ 540 * W / 2 ^ 53 := by
    have h1 := near_add m0 m1
    calc _ = |(((lib.dot 2 ![rot r lib v 0 j, rot r lib v 1 j] xy : ℚ) : ℝ) - ((rot r lib v 0 j : ℝ) * xy 0 + (rot r lib v 1 j : ℝ) * xy 1)) +
          (((rot r lib v 0 j : ℝ) * xy 0 + (rot r lib v 1 j : ℝ) * xy 1) - (A 0 * x + A 1 * y))| := by ring_nf
      _ ≤ _ := abs_add_le _ _
      _ ≤ (265 * W / 2 ^ 53 + W + (265 * W / 2 ^ 53 + W)) / 2 ^ 51 + (265 * W / 2 ^ 53 + 265 * W / 2 ^ 53) :=
        add_le_add (hd.trans (by gcongr)) h1
      _ = W * (538 / 2 ^ 53 + 530 / 2 ^ 104) := by ring
      _ ≤ W * (540 / 2 ^ 53) := by gcongr; norm_num
      _ = _ := by ring
  have b3 : |x * A 0 + y * A 1 + A 2| ≤ 1 + 2 * W := by
    have h := abs_add_three (x * A 0) (y * A 1) (A 2)
    rw [mul_comm x, mul_comm y] at *
    have := b 2
    linarith
  refine ⟨?_, b3⟩
  have h4 := near_round hr (x := lib.dot 2 ![rot r lib v 0 j, rot r lib v 1 j] xy + rot r lib v 2 j)
    (by push_cast; exact near_add hd2 (n 2)) b3
  refine h4.trans ?_
  rw [show 540 * W / 2 ^ 53 + 1 / 2 ^ 45 + (1 + 2 * W + (540 * W / 2 ^ 53 + 1 / 2 ^ 45)) / 2 ^ 53 =
    (1 * (257 + 1 / 2 ^ 45) + W * (542 + 540 / 2 ^ 53)) / 2 ^ 53 by ring,
    show 600 * (1 + W) / 2 ^ 53 = (1 * 600 + W * 600) / 2 ^ 53 by ring]
  gcongr <;> norm_num

/-- The exact ray. -/
theorem exact_ray (cam : Cam) (uv : Fin 2 → ℚ) (directions : Bool) (t : ℚ) (j : Fin 3) :
    (exactCam cam).uvToXyz (fun i => uv i) directions t j =
      (((uv 0 : ℝ) - ((cam.imgsz 0 : ℝ) / 2 + cam.c 0)) / cam.f 0 * rotR (fun i => cam.viewdir i) 0 j +
        ((uv 1 : ℝ) - ((cam.imgsz 1 : ℝ) / 2 + cam.c 1)) / cam.f 1 * rotR (fun i => cam.viewdir i) 1 j + rotR (fun i => cam.viewdir i) 2 j) * t +
      (if directions then 0 else (cam.xyz j : ℝ)) := by
  have u : ∀ i, (exactCam cam).uvToXy (fun i => uv i) i = ((uv i : ℝ) - ((cam.imgsz i : ℝ) / 2 + cam.c i)) / cam.f i := fun i => by
    simp [Camera.uvToXy, exactCam, undistort]
    norm_num
    ring
  unfold Camera.uvToXyz Camera.xyToXyz
  simp only [u]
  by_cases ht : (t : ℝ) = 1
  · cases directions <;> simp [ht, exactCam]
  · cases directions <;> simp [ht, exactCam]

/-- C138: the world coordinates or ray of an image point are within a small distance of the exact ones. `W` bounds the image coordinates, in
focal lengths. -/
theorem float_ray_near (hr : Nearest r) (hl : Accurate lib) (cam : Cam) (hv : ∀ i, |cam.viewdir i| ≤ 360) (hf : ∀ i, cam.f i ≠ 0)
    (uv : Fin 2 → ℚ) (directions : Bool) (t : ℚ) (ht : 0 < t) (W : ℝ)
    (hW : ∀ i, |(uv i : ℝ)| + (|(cam.imgsz i : ℝ) / 2| + |(cam.c i : ℝ)|) ≤ W * |(cam.f i : ℝ)|) (j : Fin 3) :
    |((uvToXyz r lib cam uv directions t j : ℚ) : ℝ) - (exactCam cam).uvToXyz (fun i => uv i) directions t j| ≤
      (1 + W) * t / 2 ^ 43 + (if directions then 0 else |(cam.xyz j : ℝ)|) / 2 ^ 53 := by
  obtain ⟨bx, hx⟩ := xy_near hr cam 0 (hf 0) uv W (hW 0)
  obtain ⟨bY, hy⟩ := xy_near hr cam 1 (hf 1) uv W (hW 1)
  have hW0 : 0 ≤ W := (abs_nonneg _).trans bx
  have htr : (0 : ℝ) < t := by exact_mod_cast ht
  obtain ⟨h1, b1⟩ := ray_near hr hl cam.viewdir hv (uvToXy r cam uv) _ _ W hx hy bx bY j
  rw [exact_ray]
  set E := ((uv 0 : ℝ) - ((cam.imgsz 0 : ℝ) / 2 + cam.c 0)) / cam.f 0 * rotR (fun i => cam.viewdir i) 0 j +
        ((uv 1 : ℝ) - ((cam.imgsz 1 : ℝ) / 2 + cam.c 1)) / cam.f 1 * rotR (fun i => cam.viewdir i) 1 j + rotR (fun i => cam.viewdir i) 2 j with hE
  set w := r (lib.dot 2 ![rot r lib cam.viewdir 0 j, rot r lib cam.viewdir 1 j] (uvToXy r cam uv) + rot r lib cam.viewdir 2 j) with hw
  have b2 : |E * t| ≤ (1 + 2 * W) * t := by rw [abs_mul, abs_of_pos htr]; gcongr
  have scaled : |(((if t ≠ 1 then r (w * t) else w) : ℚ) : ℝ) - E * t| ≤ 603 * (1 + W) * t / 2 ^ 53 := by
    by_cases h : t = 1
    · rw [if_neg (by simpa using h), h]
      push_cast
      rw [mul_one, mul_one]
      refine h1.trans ?_
      gcongr
      norm_num
    · rw [if_pos h]
      have h2 := near_mul h1 (by simp : |(t : ℝ) - t| ≤ 0) b1 (le_of_eq (abs_of_pos htr))
      have h3 := near_round hr (x := w * t) (by push_cast; exact h2) b2
      refine h3.trans ?_
      have e : 600 * (1 + W) / 2 ^ 53 * ↑t + (1 + 2 * W) * 0 + 600 * (1 + W) / 2 ^ 53 * 0 +
          ((1 + 2 * W) * ↑t + (600 * (1 + W) / 2 ^ 53 * ↑t + (1 + 2 * W) * 0 + 600 * (1 + W) / 2 ^ 53 * 0)) / 2 ^ 53 =
        (600 * (1 + W) + (1 + 2 * W) + (1 + W) * (600 / 2 ^ 53)) * t / 2 ^ 53 := by ring
      rw [e]
      gcongr ?_ * _ / _
      have : (1 + W) * (600 / 2 ^ 53) ≤ (1 + W) * 1 := by gcongr; norm_num
      linarith
  cases directions with
  | true =>
    have e : uvToXyz r lib cam uv true t j = if t ≠ 1 then r (w * t) else w := by
      unfold uvToXyz xyToXyz
      by_cases h : t = 1 <;> simp [h, hw]
    rw [e]
    simp only [if_true, add_zero, zero_div]
    refine scaled.trans ?_
    rw [show (1 + W) * (t : ℝ) / 2 ^ 43 = 1024 * (1 + W) * t / 2 ^ 53 by ring]
    gcongr
    norm_num
  | false =>
    have e : uvToXyz r lib cam uv false t j = r ((if t ≠ 1 then r (w * t) else w) + cam.xyz j) := by
      unfold uvToXyz xyToXyz
      by_cases h : t = 1 <;> simp [h, hw]
    rw [e]
    simp only [Bool.false_eq_true, if_false]
    have h2 := near_add scaled (by simp : |(cam.xyz j : ℝ) - cam.xyz j| ≤ 0)
    have h3 := near_round hr (x := (if t ≠ 1 then r (w * t) else w) + cam.xyz j) (by push_cast; push_cast at h2; exact h2)
      ((abs_add_le (E * t) (cam.xyz j : ℝ)).trans (add_le_add b2 le_rfl))
    refine h3.trans ?_
    rw [show 603 * (1 + W) * ↑t / 2 ^ 53 + 0 + ((1 + 2 * W) * ↑t + |(cam.xyz j : ℝ)| + (603 * (1 + W) * ↑t / 2 ^ 53 + 0)) / 2 ^ 53 =
      (603 * (1 + W) + (1 + 2 * W) + (1 + W) * (603 / 2 ^ 53)) * t / 2 ^ 53 + |(cam.xyz j : ℝ)| / 2 ^ 53 by ring,
      show (1 + W) * (t : ℝ) / 2 ^ 43 = 1024 * (1 + W) * t / 2 ^ 53 by ring]
    have : (1 + W) * (603 / 2 ^ 53) ≤ (1 + W) * 1 := by gcongr; norm_num
    have : 603 * (1 + W) + (1 + 2 * W) + (1 + W) * (603 / 2 ^ 53) ≤ 1024 * (1 + W) := by linarith
    gcongr

/-! ### There and back -/

/-- C138: an image point, projected to any positive depth and back, is found again within a small distance. `W` bounds the image coordinates in
focal lengths; `P` bounds the position of the camera in depths of the point (if absolute coordinates are used). -/
theorem float_round_trip (hr : Nearest r) (hl : Accurate lib) (cam : Cam) (hv : ∀ i, |cam.viewdir i| ≤ 360) (hf : ∀ i, cam.f i ≠ 0)
    (uv : Fin 2 → ℚ) (directions : Bool) (t : ℚ) (ht : 0 < t) (W P : ℝ) (hW15 : W ≤ 2 ^ 15) (hP0 : 0 ≤ P) (hP30 : P ≤ 2 ^ 30)
    (hW : ∀ i, |(uv i : ℝ)| + (|(cam.imgsz i : ℝ) / 2| + |(cam.c i : ℝ)|) ≤ W * |(cam.f i : ℝ)|)
    (hP : directions = false → ∀ j, |(cam.xyz j : ℝ)| ≤ P * t) :
    ∃ uv' depth, xyzToUv r lib cam (uvToXyz r lib cam uv directions t) directions = (some uv', depth) ∧
      ∀ i, |(uv' i : ℝ) - uv i| ≤ ((1 + W) ^ 2 / 2 ^ 37 + P * (1 + W) / 2 ^ 50) * |(cam.f i : ℝ)| := by
  have bx := (xy_near hr cam 0 (hf 0) uv W (hW 0)).1
  have bY := (xy_near hr cam 1 (hf 1) uv W (hW 1)).1
  have hW0 : 0 ≤ W := (abs_nonneg _).trans bx
  have htr : (0 : ℝ) < t := by exact_mod_cast ht
  have hfr : ∀ i, (cam.f i : ℝ) ≠ 0 := fun i => by exact_mod_cast hf i
  set η : ℝ := (1 + W) / 2 ^ 43 + P / 2 ^ 53 with hη
  have η0 : 0 ≤ η := by positivity
  have η1 : η ≤ 1 / 2 ^ 22 := by
    have a : (1 + W) / 2 ^ 43 ≤ (1 + 2 ^ 15) / 2 ^ 43 := by gcongr
    have b : P / 2 ^ 53 ≤ 2 ^ 30 / 2 ^ 53 := by gcongr
    norm_num at a b ⊢
    linarith
  set q := uvToXyz r lib cam uv directions t with hq
  set x := ((uv 0 : ℝ) - ((cam.imgsz 0 : ℝ) / 2 + cam.c 0)) / cam.f 0 with hx
  set y := ((uv 1 : ℝ) - ((cam.imgsz 1 : ℝ) / 2 + cam.c 1)) / cam.f 1 with hy
  have near : ∀ j, |(q j : ℝ) - (exactCam cam).uvToXyz (fun i => uv i) directions t j| ≤ η * t := fun j => by
    refine (float_ray_near hr hl cam hv hf uv directions t ht W hW j).trans ?_
    rw [show η * (t : ℝ) = (1 + W) * t / 2 ^ 43 + P * t / 2 ^ 53 by rw [hη]; ring]
    gcongr
    cases directions with
    | true => simp; positivity
    | false => simpa using hP rfl j
  set δ : Fin 3 → ℝ := fun j => (q j : ℝ) - (exactCam cam).uvToXyz (fun i => uv i) directions t j with hδ
  have dq : ∀ j, (exactCam cam).dxyz (fun i => q i) directions j =
      (x * rotR (fun i => cam.viewdir i) 0 j + y * rotR (fun i => cam.viewdir i) 1 j + rotR (fun i => cam.viewdir i) 2 j) * t + δ j := fun j => by
    rw [hδ]
    simp only [exact_ray, ← hx, ← hy]
    cases directions with
    | true => simp [Camera.dxyz]
    | false => simp [Camera.dxyz, exactCam]; ring
  have rows : ∀ i k, ∑ j, rotR (fun i => (cam.viewdir i : ℝ)) i j * rotR (fun i => (cam.viewdir i : ℝ)) k j = if i = k then 1 else 0 := fun i k => by
    have := congrFun (congrFun (R_mul_transpose (fun i => (cam.viewdir i : ℝ))) i) k
    simpa [Matrix.mul_apply, Matrix.one_apply] using this
  have cq : ∀ i, camXyz cam q directions i = (![x, y, 1] : V3) i * t + ∑ j, rotR (fun i => (cam.viewdir i : ℝ)) i j * δ j := fun i => by
    have e : camXyz cam q directions i = ∑ j, rotR (fun i => (cam.viewdir i : ℝ)) i j * (exactCam cam).dxyz (fun i => q i) directions j := rfl
    have r0 := rows i 0
    have r1 := rows i 1
    have r2 := rows i 2
    rw [Fin.sum_univ_three] at r0 r1 r2
    rw [e, Fin.sum_univ_three, Fin.sum_univ_three, dq 0, dq 1, dq 2]
    have f : (![x, y, 1] : V3) i = x * (if i = 0 then 1 else 0) + y * (if i = 1 then 1 else 0) + (if i = 2 then 1 else 0) := by
      fin_cases i <;> simp
    rw [f]
    linear_combination (x * t) * r0 + (y * t) * r1 + t * r2
  have err : ∀ i, |camXyz cam q directions i - (![x, y, 1] : V3) i * t| ≤ 3 * η * t := fun i => by
    rw [cq, add_sub_cancel_left, Fin.sum_univ_three]
    have m : ∀ j, |rotR (fun i => (cam.viewdir i : ℝ)) i j * δ j| ≤ η * t := fun j => by
      rw [abs_mul]
      calc _ ≤ 1 * (η * t) := by gcongr; exact R_entry _ i j; exact near j
        _ = _ := one_mul _
    have h := abs_add_three (rotR (fun i => (cam.viewdir i : ℝ)) i 0 * δ 0) (rotR (fun i => (cam.viewdir i : ℝ)) i 1 * δ 1)
      (rotR (fun i => (cam.viewdir i : ℝ)) i 2 * δ 2)
    linarith [m 0, m 1, m 2]
  have e0 := err 0
  have e1 := err 1
  have e2 := err 2
  simp only [Matrix.cons_val_zero, Matrix.cons_val_one, Matrix.cons_val_two, Matrix.head_cons, Matrix.tail_cons, Matrix.cons_val, one_mul] at e0 e1 e2
  have hη2 : 3 * η ≤ 1 / 2 := by norm_num at η1 ⊢; linarith
  obtain ⟨z1, d0⟩ := div_near htr e2 e0 (show |x * t| ≤ W * t by rw [abs_mul, abs_of_pos htr]; gcongr) hη2
  obtain ⟨-, d1⟩ := div_near htr e2 e1 (show |y * t| ≤ W * t by rw [abs_mul, abs_of_pos htr]; gcongr) hη2
  rw [mul_div_cancel_right₀ _ htr.ne'] at d0 d1
  have small : 2 * (3 * η) * (1 + W) ≤ 1 := by
    calc 2 * (3 * η) * (1 + W) ≤ 2 * (3 * (1 / 2 ^ 22)) * (1 + 2 ^ 15) := by gcongr
      _ ≤ 1 := by norm_num
  set Z := camXyz cam q directions 2 with hZ
  have hZ0 : 0 < Z := by linarith
  set UV : V2 := fun i => (![camXyz cam q directions 0 / Z, camXyz cam q directions 1 / Z] : V2) i * cam.f i + ((cam.imgsz i : ℝ) / 2 + cam.c i) with hUV
  have hex : (exactCam cam).xyzToUv (fun i => q i) directions = (some UV, Z) := by
    rw [exact_uv_eq, ← hZ, if_neg (not_le.2 hZ0)]
    simp only [Option.map_some]
    congr 2
    funext i
    simp [Camera.xyToUv, exactCam, distort, hUV]
  have dd : ∀ i, |(![camXyz cam q directions 0 / Z, camXyz cam q directions 1 / Z] : V2) i -
      ((uv i : ℝ) - ((cam.imgsz i : ℝ) / 2 + cam.c i)) / cam.f i| ≤ 2 * (3 * η) * (1 + W) := fun i => by
    fin_cases i
    · exact d0
    · exact d1
  have bb : ∀ i, |((uv i : ℝ) - ((cam.imgsz i : ℝ) / 2 + cam.c i)) / cam.f i| ≤ W := fun i => by
    fin_cases i
    · exact bx
    · exact bY
  obtain ⟨uv', depth, h1, -, h2⟩ := float_project_near hr hl cam hv hf q directions UV Z (W + 1) (by norm_num at *; linarith) hex (fun i => by
    rw [hUV]
    simp only [add_sub_cancel_right]
    rw [abs_mul]
    gcongr
    set a := (![camXyz cam q directions 0 / Z, camXyz cam q directions 1 / Z] : V2) i
    set b := ((uv i : ℝ) - ((cam.imgsz i : ℝ) / 2 + cam.c i)) / cam.f i
    calc |a| = |(a - b) + b| := by ring_nf
      _ ≤ _ := abs_add_le _ _
      _ ≤ W + 1 := by linarith [dd i, bb i])
  refine ⟨uv', depth, h1, fun i => ?_⟩
  set F := |(cam.f i : ℝ)| with hF
  have F0 : 0 ≤ F := abs_nonneg _
  have h3 : |UV i - uv i| ≤ 2 * (3 * η) * (1 + W) * F := by
    have e : UV i - uv i = ((![camXyz cam q directions 0 / Z, camXyz cam q directions 1 / Z] : V2) i -
        ((uv i : ℝ) - ((cam.imgsz i : ℝ) / 2 + cam.c i)) / cam.f i) * cam.f i := by
      rw [hUV]
      have := hfr i
      field_simp
      ring
    rw [e, abs_mul]
    gcongr
    exact dd i
  have h4 := h2 i
  have h5 : |(cam.imgsz i : ℝ) / 2| + |(cam.c i : ℝ)| ≤ W * F := by linarith [hW i, abs_nonneg (uv i : ℝ)]
  calc |(uv' i : ℝ) - uv i| = |((uv' i : ℝ) - UV i) + (UV i - uv i)| := by ring_nf
    _ ≤ _ := abs_add_le _ _
    _ ≤ ((1 + (W + 1)) ^ 2 * F / 2 ^ 40 + W * F / 2 ^ 51) + 2 * (3 * η) * (1 + W) * F := add_le_add (h4.trans (by gcongr)) h3
    _ = ((1 + (W + 1)) ^ 2 / 2 ^ 40 + W / 2 ^ 51 + 6 / 2 ^ 43 * (1 + W) ^ 2 + 6 / 2 ^ 53 * (P * (1 + W))) * F := by rw [hη]; ring
    _ ≤ _ := by
      refine mul_le_mul_of_nonneg_right ?_ F0
      have a1 : (1 + (W + 1)) ^ 2 ≤ 4 * (1 + W) ^ 2 := by nlinarith
      have a2 : W ≤ (1 + W) ^ 2 := by nlinarith
      have a3 : 0 ≤ P * (1 + W) := by positivity
      have a4 : 0 ≤ (1 + W) ^ 2 := by positivity
      norm_num
      linarith

/-! ### Such a library, and where the claim fails -/

/-- A sum of rounded products, from left to right. -/
def sumDot : (n : Nat) → (Fin n → ℚ) → (Fin n → ℚ) → ℚ
  | 0, _, _ => 0
  | n + 1, a, b =>
    if n = 0 then rnd (a (Fin.last n) * b (Fin.last n))
    else rnd (sumDot n (fun i => a i.castSucc) (fun i => b i.castSucc) + rnd (a (Fin.last n) * b (Fin.last n)))

theorem near_rat (hr : Nearest r) {x X ε B : ℚ} (h : |x - X| ≤ ε) (hX : |X| ≤ B) : |r x - X| ≤ ε + (B + ε) / 2 ^ 53 := by
  have h1 := hr.near x
  have h2 : |x| ≤ B + ε := by
    calc |x| = |(x - X) + X| := by ring_nf
      _ ≤ |x - X| + |X| := abs_add_le _ _
      _ ≤ B + ε := by linarith
  calc |r x - X| = |(r x - x) + (x - X)| := by ring_nf
    _ ≤ |r x - x| + |x - X| := abs_add_le _ _
    _ ≤ _ := by
      have : |x| / 2 ^ 53 ≤ (B + ε) / 2 ^ 53 := by gcongr
      linarith

theorem sumDot_near (n : Nat) (hn : n ≤ 3) (a b : Fin n → ℚ) : |sumDot n a b - ∑ i, a i * b i| ≤ (∑ i, |a i * b i|) / 2 ^ 51 := by
  have hr := rnd_nearest
  have add2 : ∀ {x X y Y ε δ : ℚ}, |x - X| ≤ ε → |y - Y| ≤ δ → |(x + y) - (X + Y)| ≤ ε + δ := fun h1 h2 => by
    rw [add_sub_add_comm]
    exact (abs_add_le _ _).trans (add_le_add h1 h2)
  have one : ∀ p : ℚ, |rnd p - p| ≤ |p| / 2 ^ 53 := hr.near
  have two : ∀ p q : ℚ, |rnd (rnd p + rnd q) - (p + q)| ≤ (|p| + |q|) * (9 / 4) / 2 ^ 53 := fun p q => by
    refine (near_rat hr (add2 (one p) (one q)) (abs_add_le p q)).trans ?_
    rw [show |p| / 2 ^ 53 + |q| / 2 ^ 53 + (|p| + |q| + (|p| / 2 ^ 53 + |q| / 2 ^ 53)) / 2 ^ 53 = (|p| + |q|) * (2 + 1 / 2 ^ 53) / 2 ^ 53 by ring]
    gcongr
    norm_num
  match n, hn with
  | 0, _ => simp [sumDot]
  | 1, _ =>
    simp only [sumDot, if_true, Fin.sum_univ_one]
    refine (one _).trans ?_
    have := abs_nonneg (a 0 * b 0)
    rw [div_le_div_iff₀ (by positivity) (by positivity)]
    simp only [Fin.last, Fin.zero_eta, Fin.mk_zero] at *
    linarith
  | 2, _ =>
    rw [Fin.sum_univ_two, Fin.sum_univ_two]
    refine (two (a 0 * b 0) (a 1 * b 1)).trans ?_
    have := abs_nonneg (a 0 * b 0)
    have := abs_nonneg (a 1 * b 1)
    rw [div_le_div_iff₀ (by positivity) (by positivity)]
    linarith
  | 3, _ =>
    rw [Fin.sum_univ_three, Fin.sum_univ_three]
    have h := near_rat hr (add2 (two (a 0 * b 0) (a 1 * b 1)) (one (a 2 * b 2))) (abs_add_three (a 0 * b 0) (a 1 * b 1) (a 2 * b 2))
    refine (show |sumDot 3 a b - _| ≤ _ from h).trans ?_
    have h0 := abs_nonneg (a 0 * b 0)
    have h1 := abs_nonneg (a 1 * b 1)
    have h2 := abs_nonneg (a 2 * b 2)
    set p := |a 0 * b 0|
    set q := |a 1 * b 1|
    set s := |a 2 * b 2|
    rw [show (p + q) * (9 / 4) / 2 ^ 53 + s / 2 ^ 53 + (p + q + s + ((p + q) * (9 / 4) / 2 ^ 53 + s / 2 ^ 53)) / 2 ^ 53 =
      ((p + q) * (13 / 4 + 9 / 4 / 2 ^ 53) + s * (2 + 1 / 2 ^ 53)) / 2 ^ 53 by ring,
      show (p + q + s) / 2 ^ 51 = ((p + q) * 4 + s * 4) / 2 ^ 53 by ring]
    gcongr <;> norm_num

/-- The values of `np.cos` and `np.sin` at 0 and at the double of π / 2. -/
def tableLib : Lib := ⟨fun x => if x = 0 then 1 else 4967757600021511 / 2 ^ 106, fun x => if x = 0 then 0 else 1, sumDot⟩

theorem rot_congr {l l' : Lib} (v : Fin 3 → ℚ) (hc : ∀ i, l.cos (radians r (v i)) = l'.cos (radians r (v i)))
    (hs : ∀ i, l.sin (radians r (v i)) = l'.sin (radians r (v i))) : rot r l v = rot r l' v := by
  unfold rot
  simp only [hc, hs]

/-- There is an accurate library with these values. -/
theorem lib_exists : ∃ lib : Lib, Accurate lib ∧ lib.dot = sumDot ∧ (∀ v : ℚ, v = 0 ∨ v = 90 →
    lib.cos (radians rnd v) = tableLib.cos (radians rnd v) ∧ lib.sin (radians rnd v) = tableLib.sin (radians rnd v)) := by
  have dens : ∀ y : ℝ, ∃ q : ℚ, |(q : ℝ) - y| ≤ 1 / 2 ^ 50 := fun y => by
    obtain ⟨q, h1, h2⟩ := exists_rat_btwn (show y < y + 1 / 2 ^ 50 by linarith [show (0 : ℝ) < 1 / 2 ^ 50 by positivity])
    exact ⟨q, by rw [abs_le]; constructor <;> linarith [show (0 : ℝ) < 1 / 2 ^ 50 by positivity]⟩
  choose g hg using dens
  have hz : radians rnd 0 = 0 := by decide +kernel
  have hn : radians rnd 90 ≠ 0 := by decide +kernel
  have hd : radians rnd 90 = piDouble / 2 := by decide +kernel
  have hp : |((radians rnd 90 : ℚ) : ℝ) - Real.pi / 2| ≤ 5 / 10 ^ 16 := by
    have := pi_double
    rw [hd]
    push_cast
    rw [← sub_div, abs_div, abs_of_pos (by norm_num : (0 : ℝ) < 2)]
    linarith [abs_nonneg ((piDouble : ℝ) - Real.pi)]
  refine ⟨⟨fun x => if x = 0 then 1 else if x = radians rnd 90 then 4967757600021511 / 2 ^ 106 else g (Real.cos x),
    fun x => if x = 0 then 0 else if x = radians rnd 90 then 1 else g (Real.sin x), sumDot⟩, ⟨fun x => ?_, fun x => ?_, sumDot_near⟩, rfl, ?_⟩
  · by_cases h0 : x = 0
    · simp [h0]
    · by_cases h1 : x = radians rnd 90
      · simp only [h0, if_false, h1, if_true, hn]
        have h2 := Real.abs_cos_sub_cos_le (radians rnd 90 : ℚ) (Real.pi / 2)
        rw [Real.cos_pi_div_two, sub_zero] at h2
        have h3 := h2.trans hp
        rw [abs_le] at h3 ⊢
        push_cast
        constructor <;> norm_num at * <;> linarith
      · simpa [h0, h1] using hg (Real.cos x)
  · by_cases h0 : x = 0
    · simp [h0]
    · by_cases h1 : x = radians rnd 90
      · simp only [h0, if_false, h1, if_true, hn]
        have h2 := Real.abs_sin_sub_sin_le (radians rnd 90 : ℚ) (Real.pi / 2)
        rw [Real.sin_pi_div_two] at h2
        have h3 := h2.trans hp
        rw [abs_le] at h3 ⊢
        push_cast
        constructor <;> norm_num at * <;> linarith
      · simpa [h0, h1] using hg (Real.sin x)
  · rintro v (rfl | rfl)
    · simp [hz, tableLib]
    · simp [hn, tableLib]

theorem xyzToUv_congr {l l' : Lib} (cam : Cam) (xyz : Fin 3 → ℚ) (directions : Bool) (hd : l.dot = l'.dot)
    (hR : rot r l cam.viewdir = rot r l' cam.viewdir) : xyzToUv r l cam xyz directions = xyzToUv r l' cam xyz directions := by
  unfold xyzToUv xyzToXy
  rw [hd, hR]

theorem uvToXyz_congr {l l' : Lib} (cam : Cam) (uv : Fin 2 → ℚ) (directions : Bool) (t : ℚ) (hd : l.dot = l'.dot)
    (hR : rot r l cam.viewdir = rot r l' cam.viewdir) : uvToXyz r l cam uv directions t = uvToXyz r l' cam uv directions t := by
  unfold uvToXyz xyToXyz
  rw [hd, hR]

/-- C138 fails next to the plane of the camera: a camera that faces east (its cosine of 90 degrees is `6.1e-17`) gives image coordinates to a
point that is behind it. -/
theorem float_behind_violated : ∃ (lib : Lib) (cam : Cam) (xyz : Fin 3 → ℚ), Accurate lib ∧ (∀ i, |cam.viewdir i| ≤ 360) ∧
    ((exactCam cam).xyzToUv (fun i => xyz i) true).1 = none ∧ (xyzToUv rnd lib cam xyz true).1.isSome = true := by
  obtain ⟨lib, hl, hdot, hval⟩ := lib_exists
  refine ⟨lib, ⟨![0, 0, 0], ![90, 0, 0], ![10, 10], ![10, 10], ![0, 0]⟩, ![-1 / 10 ^ 17, 1, 0], hl, ?_, ?_, ?_⟩
  · intro i
    fin_cases i <;> norm_num
  · rw [xyz_to_uv_nan_iff _ rfl]
    intro h
    have : ¬ (0 : ℝ) < -1 / 10 ^ 17 := by norm_num
    apply this
    simpa [Camera.infront, exactCam, Fin.sum_univ_three, rotR, deg2rad, show (90 : ℝ) * (Real.pi / 180) = Real.pi / 2 by ring] using h
  · rw [xyzToUv_congr (l' := tableLib) _ _ _ hdot (rot_congr _ (fun i => ?_) (fun i => ?_))]
    · decide +kernel
    · fin_cases i <;> simp [hval]
    · fin_cases i <;> simp [hval]

/-- A default camera of 100 by 100 pixels with a focal length of 11 pixels. -/
def smallCam : Cam := ⟨![0, 0, 0], ![0, 0, 0], ![100, 100], ![11, 11], ![0, 0]⟩

/-- C138 fails to the last bit: the corner of the image, projected out of a default camera of 100 pixels and back, is outside of the image. -/
theorem float_round_trip_violated : ∃ (lib : Lib) (uv' : Fin 2 → ℚ) (depth : ℚ), Accurate lib ∧
    xyzToUv rnd lib smallCam (uvToXyz rnd lib smallCam ![0, 0] true 1) true = (some uv', depth) ∧ uv' 0 < 0 := by
  obtain ⟨lib, hl, hdot, hval⟩ := lib_exists
  have hR : rot rnd lib smallCam.viewdir = rot rnd tableLib smallCam.viewdir :=
    rot_congr _ (fun i => by fin_cases i <;> simp [hval, smallCam]) (fun i => by fin_cases i <;> simp [hval, smallCam])
  have key : (xyzToUv rnd tableLib smallCam (uvToXyz rnd tableLib smallCam ![0, 0] true 1) true).1.map (fun p => decide (p 0 < 0)) = some true := by
    decide +kernel
  have e : xyzToUv rnd lib smallCam (uvToXyz rnd lib smallCam ![0, 0] true 1) true =
      xyzToUv rnd tableLib smallCam (uvToXyz rnd tableLib smallCam ![0, 0] true 1) true := by
    rw [uvToXyz_congr smallCam _ _ _ hdot hR, xyzToUv_congr smallCam _ _ hdot hR]
  rw [← e] at key
  generalize ho : xyzToUv rnd lib smallCam (uvToXyz rnd lib smallCam ![0, 0] true 1) true = o at key
  obtain ⟨o, depth⟩ := o
  cases o with
  | none => cases key
  | some uv' => exact ⟨lib, uv', depth, hl, ho, by simpa using key⟩

/-- Non-vacuity: a camera of 4000 by 3000 pixels, 1000 m above the origin, and its corner at a depth of 5000 m: the round trip is accurate to
a millionth of a pixel. -/
example : ∃ lib : Lib, Accurate lib ∧ ∃ uv' depth,
    (let cam : Cam := ⟨![400, 7000, 1000], ![100, -10, 3], ![4000, 3000], ![5000, 5000], ![10, -20]⟩
     xyzToUv rnd lib cam (uvToXyz rnd lib cam ![0, 3000] false 5000) false = (some uv', depth)) ∧
    ∀ i, |((uv' i : ℚ) : ℝ) - ((![0, 3000] : Fin 2 → ℚ) i : ℚ)| ≤ 1 / 10 ^ 6 := by
  obtain ⟨lib, hl, -, -⟩ := lib_exists
  refine ⟨lib, hl, ?_⟩
  obtain ⟨uv', depth, h1, h2⟩ := float_round_trip rnd_nearest hl ⟨![400, 7000, 1000], ![100, -10, 3], ![4000, 3000], ![5000, 5000], ![10, -20]⟩
    (fun i => by fin_cases i <;> simp <;> norm_num) (fun i => by fin_cases i <;> norm_num) ![0, 3000] false 5000 (by norm_num) 1 2 (by norm_num)
    (by norm_num) (by norm_num) (fun i => by fin_cases i <;> norm_num) (fun _ j => by fin_cases j <;> norm_num)
  refine ⟨uv', depth, h1, fun i => (h2 i).trans ?_⟩
  fin_cases i <;> norm_num

end Glimpse.FloatProject
