import Verif.Model.Camera
import Mathlib.Analysis.SpecialFunctions.Trigonometric.Deriv
import Mathlib.LinearAlgebra.Matrix.Determinant.Basic
import Mathlib.LinearAlgebra.UnitaryGroup
import Mathlib.Tactic.Linarith
import Mathlib.Tactic.Ring
import Mathlib.Tactic.FinCases
import Mathlib.Tactic.LinearCombination

/-!
C13, C14: the rotation matrix of a camera and its derivative.
-/
set_option autoImplicit false
set_option linter.unusedSimpArgs false

namespace Glimpse

private theorem sc (x : ℝ) : Real.sin x ^ 2 + Real.cos x ^ 2 = 1 := Real.sin_sq_add_cos_sq x

/-- C13: for every view direction `R Rᵀ = I`. -/
theorem R_mul_transpose (v : V3) : rotR v * (rotR v).transpose = 1 := by
  have h0 := sc (deg2rad (v 0))
  have h1 := sc (deg2rad (v 1))
  have h2 := sc (deg2rad (v 2))
  ext i j
  simp only [rotR, Matrix.mul_apply, Fin.sum_univ_three, Matrix.transpose_apply]
  generalize Real.sin (deg2rad (v 0)) = s0 at *
  generalize Real.cos (deg2rad (v 0)) = c0 at *
  generalize Real.sin (deg2rad (v 1)) = s1 at *
  generalize Real.cos (deg2rad (v 1)) = c1 at *
  generalize Real.sin (deg2rad (v 2)) = s2 at *
  generalize Real.cos (deg2rad (v 2)) = c2 at *
  have e0 : s0 ^ 2 = 1 - c0 ^ 2 := by linarith
  have e1 : s1 ^ 2 = 1 - c1 ^ 2 := by linarith
  have e2 : s2 ^ 2 = 1 - c2 ^ 2 := by linarith
  fin_cases i <;> fin_cases j <;> simp [Matrix.one_apply] <;> ring_nf <;>
    simp only [e0, e1, e2] <;> ring

/-- C13: for every view direction `det R = 1`. -/
theorem R_det (v : V3) : (rotR v).det = 1 := by
  have h0 := sc (deg2rad (v 0))
  have h1 := sc (deg2rad (v 1))
  have h2 := sc (deg2rad (v 2))
  rw [Matrix.det_fin_three]
  simp only [rotR]
  generalize Real.sin (deg2rad (v 0)) = s0 at *
  generalize Real.cos (deg2rad (v 0)) = c0 at *
  generalize Real.sin (deg2rad (v 1)) = s1 at *
  generalize Real.cos (deg2rad (v 1)) = c1 at *
  generalize Real.sin (deg2rad (v 2)) = s2 at *
  generalize Real.cos (deg2rad (v 2)) = c2 at *
  have e0 : s0 ^ 2 = 1 - c0 ^ 2 := by linarith
  have e1 : s1 ^ 2 = 1 - c1 ^ 2 := by linarith
  have e2 : s2 ^ 2 = 1 - c2 ^ 2 := by linarith
  simp
  ring_nf
  simp only [e0, e1, e2]
  ring

/-- C13, spec: the documented composition of elementary rotations (`rr * rp * ry * ri`, comments in
camera.py:245-260), in terms of cosine and sine of yaw, pitch and roll in degrees. -/
noncomputable def documentedRotation (v : V3) : Matrix (Fin 3) (Fin 3) ℝ :=
  let c := fun i => Real.cos (v i * Real.pi / 180)
  let s := fun i => Real.sin (v i * Real.pi / 180)
  let rr : Matrix (Fin 3) (Fin 3) ℝ := !![c 2, s 2, 0; -s 2, c 2, 0; 0, 0, 1]
  let rp : Matrix (Fin 3) (Fin 3) ℝ := !![1, 0, 0; 0, c 1, s 1; 0, -s 1, c 1]
  let ry : Matrix (Fin 3) (Fin 3) ℝ := !![c 0, 0, -s 0; 0, 1, 0; s 0, 0, c 0]
  let ri : Matrix (Fin 3) (Fin 3) ℝ := !![1, 0, 0; 0, 0, -1; 0, 1, 0]
  rr * rp * ry * ri

/-- C13: `R` is the documented composition of rotations. -/
theorem R_eq_documented (v : V3) : rotR v = documentedRotation v := by
  have h : ∀ x : ℝ, deg2rad x = x * Real.pi / 180 := fun x => by unfold deg2rad; ring
  ext i j
  fin_cases i <;> fin_cases j <;>
    simp [rotR, documentedRotation, Matrix.mul_apply, Fin.sum_univ_three, h] <;> ring

/-- C13: the world-to-camera transformation preserves inner products, hence distances. -/
theorem R_preserves_inner (v : V3) (a b : V3) :
    ∑ i, (rotR v).mulVec a i * (rotR v).mulVec b i = ∑ i, a i * b i := by
  have h : (rotR v).transpose * rotR v = 1 := mul_eq_one_comm.mp (R_mul_transpose v)
  have e : (rotR v).mulVec a ⬝ᵥ (rotR v).mulVec b = a ⬝ᵥ b := by
    rw [Matrix.dotProduct_mulVec, ← Matrix.mulVec_transpose, Matrix.mulVec_mulVec, h, Matrix.one_mulVec]
  simpa [dotProduct] using e

private noncomputable def rotCS (C S : Fin 3 → ℝ) : Matrix (Fin 3) (Fin 3) ℝ :=
  !![C 0 * C 2 + S 0 * S 1 * S 2, C 0 * S 1 * S 2 - C 2 * S 0, -C 1 * S 2;
     C 2 * S 0 * S 1 - C 0 * S 2, S 0 * S 2 + C 0 * C 2 * S 1, -C 1 * C 2;
     C 1 * S 0, C 0 * C 1, S 1]

private theorem rotCS_affine (C S : Fin 3 → ℝ) (a i j : Fin 3) (c s : ℝ) :
    rotCS (Function.update C a c) (Function.update S a s) j i =
      (rotCS (Function.update C a 1) (Function.update S a 0) j i -
        rotCS (Function.update C a 0) (Function.update S a 0) j i) * c +
      (rotCS (Function.update C a 0) (Function.update S a 1) j i -
        rotCS (Function.update C a 0) (Function.update S a 0) j i) * s +
      rotCS (Function.update C a 0) (Function.update S a 0) j i := by
  fin_cases a <;> fin_cases i <;> fin_cases j <;> simp [rotCS, Function.update] <;> ring

private theorem rotR_eq (v : V3) :
    rotR v = rotCS (fun i => Real.cos (deg2rad (v i))) (fun i => Real.sin (deg2rad (v i))) := rfl

private theorem rotR_update (v : V3) (a : Fin 3) (t : ℝ) :
    rotR (Function.update v a t) =
      rotCS (Function.update (fun i => Real.cos (deg2rad (v i))) a (Real.cos (deg2rad t)))
        (Function.update (fun i => Real.sin (deg2rad (v i))) a (Real.sin (deg2rad t))) := by
  rw [rotR_eq]
  congr 1
  · funext i; by_cases h : i = a
    · subst h; simp
    · simp [Function.update_of_ne h]
  · funext i; by_cases h : i = a
    · subst h; simp
    · simp [Function.update_of_ne h]

/-- C14: slice `a` of `Rprime` is the partial derivative per degree of `Rᵀ` (which takes camera to world
directions), for yaw (`a = 0`), pitch (1) and roll (2). -/
theorem Rprime_deriv (v : V3) (i a j : Fin 3) :
    HasDerivAt (fun t => (rotR (Function.update v a t)).transpose i j) (rprime v i a j) (v a) := by
  have hd : HasDerivAt (fun t : ℝ => deg2rad t) (Real.pi / 180) (v a) := by
    simpa [deg2rad] using (hasDerivAt_id (v a)).mul_const (Real.pi / 180)
  have hc : HasDerivAt (fun t : ℝ => Real.cos (deg2rad t)) _ (v a) := hd.cos
  have hs : HasDerivAt (fun t : ℝ => Real.sin (deg2rad t)) _ (v a) := hd.sin
  have key : ∀ p q r : ℝ, HasDerivAt (fun t : ℝ => p * Real.cos (deg2rad t) + q * Real.sin (deg2rad t) + r)
      (p * (-Real.sin (deg2rad (v a)) * (Real.pi / 180)) + q * (Real.cos (deg2rad (v a)) * (Real.pi / 180))) (v a) :=
    fun p q r => ((hc.const_mul p).add (hs.const_mul q)).add_const r
  have hfun := fun t : ℝ => (congrArg (fun M : Matrix (Fin 3) (Fin 3) ℝ => M.transpose i j) (rotR_update v a t)).trans
    (rotCS_affine (fun i => Real.cos (deg2rad (v i))) (fun i => Real.sin (deg2rad (v i))) a i j
      (Real.cos (deg2rad t)) (Real.sin (deg2rad t)))
  rw [funext hfun]
  refine (key _ _ _).congr_deriv ?_
  clear hfun key hs hc hd
  simp only [rprime, rprimeList]
  fin_cases a <;> fin_cases i <;> fin_cases j <;> simp [rotCS, Function.update] <;> ring

end Glimpse
