import Verif.Props.Polynomial
import Mathlib.Analysis.InnerProductSpace.Projection.Minimal
import Mathlib.Analysis.InnerProductSpace.PiL2
import Mathlib.Topology.Algebra.Module.FiniteDimension

/-!
C102: least-squares polynomials exist over the real numbers, and an example of `ransac_polynomial`.
-/
set_option autoImplicit false
set_option linter.unusedSimpArgs false
set_option linter.unusedSectionVars false

namespace Glimpse.Ransac

/-- Values of the polynomial at the points, as a linear map in the coefficients. -/
private noncomputable def valueMap (pts : List (ℝ × ℝ)) (deg : Nat) :
    (Fin (deg + 1) → ℝ) →ₗ[ℝ] EuclideanSpace ℝ (Fin pts.length) where
  toFun c := WithLp.toLp 2 fun i => ∑ j, c j * pts[i].1 ^ (deg - j.val)
  map_add' c d := by
    ext i
    simp [add_mul, Finset.sum_add_distrib]
  map_smul' a c := by
    ext i
    simp [Finset.mul_sum, mul_assoc]

private theorem valueMap_apply (pts : List (ℝ × ℝ)) (deg : Nat) (c : Fin (deg + 1) → ℝ) (i : Fin pts.length) :
    valueMap pts deg c i = polyval (List.ofFn c) pts[i].1 := by
  rw [polyval_eq_sum]
  simp only [valueMap, LinearMap.coe_mk, AddHom.coe_mk]
  refine (Fintype.sum_equiv (finCongr (List.length_ofFn (f := c))) _ _ ?_).symm
  intro j
  simp only [finCongr_apply, Fin.getElem_fin, List.length_ofFn, Fin.val_cast, Nat.add_sub_cancel, List.getElem_ofFn]
  rfl

private theorem sumSq_eq (pts : List (ℝ × ℝ)) (l : List ℝ) :
    sumSq l pts = ∑ i : Fin pts.length, (polyval l pts[i].1 - pts[i].2) ^ 2 := by
  unfold sumSq
  rw [← Fin.sum_univ_getElem]
  refine Fintype.sum_equiv (finCongr (by simp)) _ _ ?_
  intro i
  simp

/-- C102. For every list of points and degree there are coefficients with the smallest sum of squares, so a function that
`LeastSquares` describes exists. -/
theorem least_squares_exists : ∃ polyfit : List (ℝ × ℝ) → Nat → List ℝ, LeastSquares polyfit := by
  have key : ∀ (pts : List (ℝ × ℝ)) (deg : Nat), ∃ p : List ℝ, p.length = deg + 1 ∧
      ∀ l : List ℝ, l.length = deg + 1 → sumSq p pts ≤ sumSq l pts := by
    intro pts deg
    let K := LinearMap.range (valueMap pts deg)
    let u : EuclideanSpace ℝ (Fin pts.length) := WithLp.toLp 2 fun i => pts[i].2
    have hK : IsComplete (K : Set (EuclideanSpace ℝ (Fin pts.length))) := K.complete_of_finiteDimensional
    obtain ⟨v, ⟨c, rfl⟩, hv⟩ := K.exists_norm_eq_iInf_of_complete_subspace hK u
    have hmin : ∀ d, ‖u - valueMap pts deg c‖ ≤ ‖u - valueMap pts deg d‖ := by
      intro d
      rw [hv]
      exact ciInf_le ⟨0, by rintro x ⟨w, rfl⟩; exact norm_nonneg _⟩
        (⟨valueMap pts deg d, ⟨d, rfl⟩⟩ : (K : Set (EuclideanSpace ℝ (Fin pts.length))))
    have hss : ∀ d, sumSq (List.ofFn d) pts = ‖u - valueMap pts deg d‖ ^ 2 := by
      intro d
      rw [EuclideanSpace.norm_sq_eq, sumSq_eq]
      refine Finset.sum_congr rfl fun i _ => ?_
      rw [← valueMap_apply, Real.norm_eq_abs, sq_abs]
      simp only [PiLp.sub_apply, u]
      ring
    refine ⟨List.ofFn c, by simp, ?_⟩
    intro l hl
    have e : l = List.ofFn (fun j : Fin (deg + 1) => l[j]'(by rw [hl]; exact j.2)) := by
      apply List.ext_getElem
      · simp [hl]
      · intro i h1 h2; rw [List.getElem_ofFn]; rfl
    rw [e, hss, hss]
    exact pow_le_pow_left₀ (norm_nonneg _) (hmin _) 2
  choose f h1 h2 using key
  exact ⟨f, fun pts deg _ => ⟨h1 pts deg, h2 pts deg⟩⟩

/-- Points 0 to 4 on `y = x`, and two others, as in the documentation of `Polynomial`. -/
noncomputable def demoPoly : Poly ℝ := ⟨[(0, 0), (1, 1), (2, 2), (3, 3), (4, 4), (3, 1/10), (1/10, 3)], 1⟩

private def dEnum (s : Finset Nat) : List Nat := s.sort (· ≤ ·)

/-- One shuffle suffices here: its first two are on the line. -/
example (polyfit : List (ℝ × ℝ) → Nat → List ℝ) (hp : LeastSquares polyfit) :
    ransac (demoPoly.fitter polyfit) 2 (1/5) 2 100 21 dEnum [[4, 5, 0, 1, 2, 3, 6], [2, 0, 1, 3, 4, 5, 6]] =
      .ok ([1, 0], [0, 1, 2, 3, 4]) := by
  have hsort : ({0, 1, 2, 3, 4} : Finset Nat).sort (· ≤ ·) = [0, 1, 2, 3, 4] := by
    have := (List.toFinset_sort (r := (· ≤ ·)) (l := [0, 1, 2, 3, 4]) (by decide)).2 (by decide)
    simpa using this
  rw [← hsort]
  refine ransac_polynomial_few_outliers polyfit hp demoPoly 2 (1/5) 2 100 21 dEnum
    (fun s => ⟨Finset.sort_nodup _ _, fun i => Finset.mem_sort _⟩) _ ?_ [1, 0] rfl {0, 1, 2, 3, 4} ?_ ?_ ?_
    (by norm_num) (by decide) ?_ ?_ [{4, 5}, {2, 0}] ?_ {2, 0} (by simp) (by decide)
  · unfold IsShuffle; decide
  · intro i hi
    simp only [Finset.mem_insert, Finset.mem_singleton] at hi
    rcases hi with rfl | rfl | rfl | rfl | rfl <;> simp [demoPoly, Poly.size, Through, polyval]
  · intro i hi j hj h
    simp only [Finset.mem_insert, Finset.mem_singleton] at hi hj
    rcases hi with rfl | rfl | rfl | rfl | rfl <;> rcases hj with rfl | rfl | rfl | rfl | rfl <;>
      first
      | rfl
      | (exfalso; simp [demoPoly] at h)
  · intro i hi hni
    have hi' : i < 7 := hi
    interval_cases i <;> simp at hni <;> norm_num [demoPoly, polyval, abs_of_pos, abs_of_neg]
  · decide
  · decide
  · have : demoPoly.size = 7 := rfl
    rw [this]
    decide +kernel

end Glimpse.Ransac
