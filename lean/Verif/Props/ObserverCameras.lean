import Verif.Model.ObserverCameras
import Verif.Props.CameraRotation
import Mathlib.Analysis.Calculus.Deriv.Add
import Mathlib.Analysis.Calculus.Deriv.Abs
import Mathlib.Analysis.SpecialFunctions.Trigonometric.Bounds
import Mathlib.Tactic.NormNum
import Mathlib.Tactic.Positivity

/-!
C54: the gradient that `ObserverCameras.fit` hands to the optimizer, against the derivative of its objective.
-/
set_option autoImplicit false
set_option linter.unusedSimpArgs false

namespace Glimpse

/-- Spec: Euclidean length of the ray direction `(x, y, 1)` in camera coordinates. -/
noncomputable def rayLength (xy : V2) : ℝ := Real.sqrt (xy 0 ^ 2 + xy 1 ^ 2 + 1)

private theorem ray_pos (xy : V2) : 0 < rayLength xy := Real.sqrt_pos.mpr (by positivity)

private theorem dir_eq (v : V3) (xy : V2) (i : Fin 3) :
    (xy 0 * rotR v 0 i + xy 1 * rotR v 1 i) + rotR v 2 i = ∑ j, (rotR v).transpose i j * (![xy 0, xy 1, 1] : V3) j := by
  simp [Fin.sum_univ_three]; ring

private theorem dir_norm (v : V3) (xy : V2) :
    Real.sqrt (∑ j, ((xy 0 * rotR v 0 j + xy 1 * rotR v 1 j) + rotR v 2 j) ^ 2) = rayLength xy := by
  unfold rayLength
  congr 1
  have h := R_mul_transpose v
  have e : ∀ i j, ∑ k, rotR v i k * rotR v j k = if i = j then 1 else 0 := by
    intro i j
    have := congrFun (congrFun h i) j
    simpa [Matrix.mul_apply, Matrix.one_apply] using this
  have e00 := e 0 0; have e01 := e 0 1; have e02 := e 0 2; have e11 := e 1 1; have e12 := e 1 2; have e22 := e 2 2
  simp [Fin.sum_univ_three] at e00 e01 e02 e11 e12 e22 ⊢
  linear_combination (xy 0) ^ 2 * e00 + (xy 1) ^ 2 * e11 + e22 + 2 * xy 0 * xy 1 * e01 + 2 * xy 0 * e02 + 2 * xy 1 * e12

/-- C54: the predicted world directions have unit length. -/
theorem predictedXyz_unit (v : V3) (xy : V2) : ∑ i, predictedXyz v xy i ^ 2 = 1 := by
  unfold predictedXyz
  simp only [dir_norm]
  have h := dir_norm v xy
  have hp := ray_pos xy
  have h2 : ∑ j, ((xy 0 * rotR v 0 j + xy 1 * rotR v 1 j) + rotR v 2 j) ^ 2 = rayLength xy ^ 2 := by
    rw [← h, Real.sq_sqrt (by positivity)]
  simp only [mul_pow, ← Finset.sum_mul, h2]
  field_simp

private theorem predicted_eq (v : V3) (xy : V2) (i : Fin 3) :
    predictedXyz v xy i = (∑ j, (rotR v).transpose i j * (![xy 0, xy 1, 1] : V3) j) * (1 / rayLength xy) := by
  unfold predictedXyz
  simp only [dir_norm]
  rw [dir_eq]

private theorem predicted_deriv (v : V3) (xy : V2) (a i : Fin 3) :
    HasDerivAt (fun t => predictedXyz (Function.update v a t) xy i)
      ((∑ j, rprime v i a j * (![xy 0, xy 1, 1] : V3) j) * (1 / rayLength xy)) (v a) := by
  have := HasDerivAt.fun_sum (u := (Finset.univ : Finset (Fin 3))) (x := v a)
    (A := fun j t => (rotR (Function.update v a t)).transpose i j * (![xy 0, xy 1, 1] : V3) j)
    (A' := fun j => rprime v i a j * (![xy 0, xy 1, 1] : V3) j)
    (fun j _ => (Rprime_deriv v i a j).mul_const _)
  have := this.mul_const (1 / rayLength xy)
  refine this.congr_of_eventuallyEq (Filter.Eventually.of_forall fun t => ?_)
  exact predicted_eq _ _ _

private theorem pair_deriv (v : V3) (xy : V2) (w : V3) (a : Fin 3) (hne : ∀ i, predictedXyz v xy i - w i ≠ 0) :
    HasDerivAt (fun t => ∑ i, |predictedXyz (Function.update v a t) xy i - w i|)
      ((1 / rayLength xy) * ∑ i, (∑ j, rprime v i a j * (![xy 0, xy 1, 1] : V3) j) *
        (SignType.sign (predictedXyz v xy i - w i) : ℝ)) (v a) := by
  have := HasDerivAt.fun_sum (u := (Finset.univ : Finset (Fin 3))) (x := v a)
    (A := fun i t => |predictedXyz (Function.update v a t) xy i - w i|)
    (A' := fun i => (SignType.sign (predictedXyz v xy i - w i) : ℝ) *
      ((∑ j, rprime v i a j * (![xy 0, xy 1, 1] : V3) j) * (1 / rayLength xy)))
    (fun i _ => by
      have h1 := (predicted_deriv v xy a i).sub_const (w i)
      have h2 := (hasDerivAt_abs (hne i))
      have h3 : HasDerivAt (fun x : ℝ => |x|) (SignType.sign (predictedXyz v xy i - w i) : ℝ)
          (predictedXyz (Function.update v a (v a)) xy i - w i) := by
        rw [Function.update_eq_self]; exact h2
      exact HasDerivAt.comp (v a) h3 h1)
  refine this.congr_deriv ?_
  rw [Finset.mul_sum]
  exact Finset.sum_congr rfl fun i _ => by ring

/-- C54 (partial): the gradient handed to the optimizer for the first camera of a matched pair is the derivative of the
pair's contribution to the objective multiplied by the length of the ray `(x, y, 1)`: the objective is computed from
unit vectors, the gradient is not. So it has the right direction for a single pair but the wrong magnitude. What is
missing for the full claim is false, see `observer_gradient_violated`. -/
theorem observer_gradient_partial (v0 v1 : V3) (xy0 xy1 : V2) (a : Fin 3)
    (hne : ∀ i, predictedXyz v0 xy0 i ≠ predictedXyz v1 xy1 i) :
    HasDerivAt (fun t => pairObjective (Function.update v0 a t) v1 xy0 xy1)
      (pairGradient v0 v1 xy0 xy1 a / rayLength xy0) (v0 a) := by
  have := pair_deriv v0 xy0 (predictedXyz v1 xy1) a (fun i => sub_ne_zero.mpr (hne i))
  unfold pairObjective pairGradient
  refine this.congr_deriv ?_
  ring

private theorem z3 : (0 : V3) = ![0, 0, 0] := by ext i; fin_cases i <;> rfl

private theorem ex0 : predictedXyz 0 ![3, 0] = ![3 / Real.sqrt 10, 1 / Real.sqrt 10, 0] := by
  ext i
  rw [predicted_eq]
  have : rayLength ![3, 0] = Real.sqrt 10 := by unfold rayLength; norm_num
  rw [this]
  fin_cases i <;> simp [rotR, deg2rad, Fin.sum_univ_three, div_eq_mul_inv]

private theorem ex1 : predictedXyz 0 ![0, 2] = ![0, 1 / Real.sqrt 5, -2 / Real.sqrt 5] := by
  ext i
  rw [predicted_eq]
  have : rayLength ![0, 2] = Real.sqrt 5 := by unfold rayLength; norm_num
  rw [this]
  fin_cases i <;> simp [rotR, deg2rad, Fin.sum_univ_three, div_eq_mul_inv]

private theorem lt510 : 1 / Real.sqrt 10 < 1 / Real.sqrt 5 := by
  apply one_div_lt_one_div_of_lt (Real.sqrt_pos.mpr (by norm_num))
  exact Real.sqrt_lt_sqrt (by norm_num) (by norm_num)

private theorem exne (i : Fin 3) : predictedXyz 0 ![3, 0] i ≠ predictedXyz 0 ![0, 2] i := by
  have h5 : 0 < Real.sqrt 5 := Real.sqrt_pos.mpr (by norm_num)
  have h10 : 0 < Real.sqrt 10 := Real.sqrt_pos.mpr (by norm_num)
  have hl := lt510
  rw [ex0, ex1]
  fin_cases i
  · simp
  · simp
  · simp [div_eq_mul_inv]

private theorem exgrad : pairGradient 0 0 ![3, 0] ![0, 2] 0 = 4 * (Real.pi / 180) := by
  unfold pairGradient
  have h5 : 0 < Real.sqrt 5 := Real.sqrt_pos.mpr (by norm_num)
  have h10 : 0 < Real.sqrt 10 := Real.sqrt_pos.mpr (by norm_num)
  have hl := lt510
  have s0 : SignType.sign (3 / Real.sqrt 10 - 0) = 1 := sign_pos (by rw [sub_zero]; positivity)
  have s1 : SignType.sign (1 / Real.sqrt 10 - 1 / Real.sqrt 5) = -1 := sign_neg (by linarith)
  rw [ex0, ex1]
  simp only [Fin.sum_univ_three, Matrix.cons_val_zero, Matrix.cons_val_one, Matrix.cons_val_two, Matrix.head_cons,
    Matrix.tail_cons, s0, s1]
  simp [rprime, rprimeList, deg2rad]
  ring

/-- C54 (violated): there are two cameras and a matched pair at which the objective is differentiable in the yaw of
each camera, and the values handed to the optimizer (`gradient` for the first, `-gradient` for the second) are neither
of the two derivatives. -/
theorem observer_gradient_violated : ∃ (v0 v1 : V3) (xy0 xy1 : V2) (d0 d1 : ℝ),
    HasDerivAt (fun t => pairObjective (Function.update v0 0 t) v1 xy0 xy1) d0 (v0 0) ∧
    HasDerivAt (fun t => pairObjective v0 (Function.update v1 0 t) xy0 xy1) d1 (v1 0) ∧
    pairGradient v0 v1 xy0 xy1 0 ≠ d0 ∧ -pairGradient v0 v1 xy0 xy1 0 ≠ d1 := by
  refine ⟨0, 0, ![3, 0], ![0, 2], _,
    (1 / rayLength ![0, 2]) * ∑ i, (∑ j, rprime 0 i 0 j * (![0, 2, 1] : V3) j) *
        (SignType.sign (predictedXyz 0 ![0, 2] i - predictedXyz 0 ![3, 0] i) : ℝ),
    observer_gradient_partial 0 0 ![3, 0] ![0, 2] 0 exne, ?_, ?_, ?_⟩
  · have := pair_deriv 0 ![0, 2] (predictedXyz 0 ![3, 0]) 0 (fun i => sub_ne_zero.mpr (exne i).symm)
    refine (this.congr_of_eventuallyEq (Filter.Eventually.of_forall fun t => ?_)).congr_deriv ?_
    · unfold pairObjective
      exact Finset.sum_congr rfl fun i _ => abs_sub_comm _ _
    · simp
  · rw [exgrad]
    have : rayLength ![3, 0] = Real.sqrt 10 := by unfold rayLength; norm_num
    rw [this]
    have h10 : 1 < Real.sqrt 10 := by
      rw [show (1 : ℝ) = Real.sqrt 1 by simp]; exact Real.sqrt_lt_sqrt (by norm_num) (by norm_num)
    have hp := Real.pi_pos
    intro h
    rw [eq_div_iff (by positivity)] at h
    nlinarith
  · rw [exgrad]
    have h5 : rayLength ![0, 2] = Real.sqrt 5 := by unfold rayLength; norm_num
    rw [h5, ex0, ex1]
    have p5 : 0 < Real.sqrt 5 := Real.sqrt_pos.mpr (by norm_num)
    have p10 : 0 < Real.sqrt 10 := Real.sqrt_pos.mpr (by norm_num)
    have hl := lt510
    have s0 : SignType.sign (0 - 3 / Real.sqrt 10) = -1 := sign_neg (by rw [zero_sub]; exact neg_lt_zero.mpr (by positivity))
    have s1 : SignType.sign (1 / Real.sqrt 5 - 1 / Real.sqrt 10) = 1 := sign_pos (by linarith)
    simp only [Fin.sum_univ_three, Matrix.cons_val_zero, Matrix.cons_val_one, Matrix.cons_val_two, Matrix.head_cons,
      Matrix.tail_cons, s0, s1]
    simp [rprime, rprimeList, deg2rad]
    have hp := Real.pi_pos
    have h1 : 1 < Real.sqrt 5 := by
      rw [show (1 : ℝ) = Real.sqrt 1 by simp]; exact Real.sqrt_lt_sqrt (by norm_num) (by norm_num)
    have h2 : (Real.sqrt 5)⁻¹ < 1 := inv_lt_one_of_one_lt₀ h1
    intro h
    nlinarith

end Glimpse
