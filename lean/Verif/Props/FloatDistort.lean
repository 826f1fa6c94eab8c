import Verif.Model.FloatDistort
import Verif.Props.FloatProject
import Mathlib.Analysis.Complex.Exponential

/-!
C139: the projection of a distorted camera in double precision.
-/
set_option autoImplicit false
set_option linter.unusedSimpArgs false
set_option linter.unusedSectionVars false

namespace Glimpse.FloatProject
open Glimpse.Double

variable {r : ℚ → ℚ} {lib : Lib}

/-! ### Errors after `n` roundings -/

/-- `x` is as accurate as after `n` roundings; the scale `S` bounds the exact value and all terms that it was added up from. -/
def Rel (n : Nat) (x : ℚ) (X S : ℝ) : Prop := |X| ≤ S ∧ |(x : ℝ) - X| ≤ ((1 + 1 / 2 ^ 53) ^ n - 1) * S

theorem one_le_growth (n : Nat) : (1 : ℝ) ≤ (1 + 1 / 2 ^ 53) ^ n := one_le_pow₀ (by norm_num)

theorem Rel.nonneg {n : Nat} {x : ℚ} {X S : ℝ} (h : Rel n x X S) : 0 ≤ S := (abs_nonneg _).trans h.1

theorem Rel.abs_le {n : Nat} {x : ℚ} {X S : ℝ} (h : Rel n x X S) : |(x : ℝ)| ≤ (1 + 1 / 2 ^ 53) ^ n * S := by
  calc |(x : ℝ)| = |((x : ℝ) - X) + X| := by ring_nf
    _ ≤ _ := (abs_add_le _ _).trans (add_le_add h.2 h.1)
    _ = _ := by ring

theorem Rel.exact (x : ℚ) : Rel 0 x x |(x : ℝ)| := ⟨le_rfl, by simp⟩

theorem Rel.mono {n m : Nat} {x : ℚ} {X S T : ℝ} (h : Rel n x X S) (hnm : n ≤ m) (hST : S ≤ T) : Rel m x X T := by
  refine ⟨h.1.trans hST, h.2.trans ?_⟩
  have h0 := h.nonneg
  have h1 : (1 + 1 / 2 ^ 53 : ℝ) ^ n ≤ (1 + 1 / 2 ^ 53) ^ m := pow_le_pow_right₀ (by norm_num) hnm
  have h2 := one_le_growth m
  calc _ ≤ ((1 + 1 / 2 ^ 53 : ℝ) ^ m - 1) * S := by gcongr
    _ ≤ _ := by
      apply mul_le_mul_of_nonneg_left hST
      linarith

theorem Rel.round (hr : Nearest r) {n : Nat} {x : ℚ} {X S : ℝ} (h : Rel n x X S) : Rel (n + 1) (r x) X S := by
  refine ⟨h.1, ?_⟩
  have h1 := near_real hr x
  have h2 := h.abs_le
  calc |((r x : ℚ) : ℝ) - X| = |(((r x : ℚ) : ℝ) - x) + (x - X)| := by ring_nf
    _ ≤ _ := abs_add_le _ _
    _ ≤ |(x : ℝ)| / 2 ^ 53 + ((1 + 1 / 2 ^ 53) ^ n - 1) * S := add_le_add h1 h.2
    _ ≤ (1 + 1 / 2 ^ 53) ^ n * S / 2 ^ 53 + ((1 + 1 / 2 ^ 53) ^ n - 1) * S := by gcongr
    _ = _ := by rw [pow_succ]; ring

theorem Rel.mul {n m : Nat} {x y : ℚ} {X Y S T : ℝ} (hx : Rel n x X S) (hy : Rel m y Y T) : Rel (n + m) (x * y) (X * Y) (S * T) := by
  have hS := hx.nonneg
  have hT := hy.nonneg
  refine ⟨by rw [abs_mul]; exact mul_le_mul hx.1 hy.1 (abs_nonneg _) hS, ?_⟩
  push_cast
  refine (near_mul hx.2 hy.2 hx.1 hy.1).trans (le_of_eq ?_)
  rw [pow_add]
  ring

theorem Rel.add {n : Nat} {x y : ℚ} {X Y S T : ℝ} (hx : Rel n x X S) (hy : Rel n y Y T) : Rel n (x + y) (X + Y) (S + T) := by
  refine ⟨(abs_add_le _ _).trans (add_le_add hx.1 hy.1), ?_⟩
  push_cast
  refine (near_add hx.2 hy.2).trans (le_of_eq ?_)
  ring

/-- The reciprocal of a number that is not small for its scale. -/
theorem Rel.inv {n : Nat} {x : ℚ} {X S c : ℝ} (h : Rel n x X S) (hc : 0 < c) (hX : c ≤ |X|) (hs : ((1 + 1 / 2 ^ 53) ^ n - 1) * S ≤ c / 2) :
    Rel n (1 / x) (1 / X) (2 * S / c ^ 2) := by
  have hS := h.nonneg
  have hcS : c ≤ S := hX.trans h.1
  have hX0 : X ≠ 0 := by rintro rfl; simp at hX; linarith
  have hx : c / 2 ≤ |(x : ℝ)| := by
    have : |X| ≤ |(x : ℝ)| + |(x : ℝ) - X| := by
      calc |X| = |(x : ℝ) - ((x : ℝ) - X)| := by ring_nf
        _ ≤ _ := abs_sub _ _
    linarith [h.2]
  have hx0 : (x : ℝ) ≠ 0 := by intro h0; rw [h0, abs_zero] at hx; linarith
  constructor
  · rw [abs_div, abs_one]
    calc 1 / |X| ≤ 1 / c := by gcongr
      _ = c / c ^ 2 := by field_simp
      _ ≤ 2 * S / c ^ 2 := by gcongr; linarith
  · push_cast
    have e : 1 / (x : ℝ) - 1 / X = -(((x : ℝ) - X) / ((x : ℝ) * X)) := by field_simp; ring
    rw [e, abs_neg, abs_div, abs_mul]
    have hg : (0 : ℝ) ≤ (1 + 1 / 2 ^ 53) ^ n - 1 := by linarith [one_le_growth n]
    have h2 := h.2
    generalize ((1 : ℝ) + 1 / 2 ^ 53) ^ n - 1 = g at *
    calc |(x : ℝ) - X| / (|(x : ℝ)| * |X|) ≤ g * S / (c / 2 * c) :=
          div_le_div₀ (mul_nonneg hg hS) h2 (by positivity) (mul_le_mul hx hX hc.le (abs_nonneg _))
      _ = g * (2 * S / c ^ 2) := by field_simp

set_option exponentiation.threshold 200000 in
theorem growth_le (n : Nat) (h : n ≤ 2 ^ 17) : ((1 : ℝ) + 1 / 2 ^ 53) ^ n - 1 ≤ 1 / 2 ^ 35 := by
  have h1 : ((1 : ℝ) + 1 / 2 ^ 53) ^ n ≤ (1 + 1 / 2 ^ 53) ^ (2 ^ 17) := pow_le_pow_right₀ (by norm_num) h
  have h2 : ((1 : ℝ) + 1 / 2 ^ 53) ^ (2 ^ 17) ≤ Real.exp (1 / 2 ^ 36) := by
    calc ((1 : ℝ) + 1 / 2 ^ 53) ^ (2 ^ 17) ≤ (Real.exp (1 / 2 ^ 53)) ^ (2 ^ 17) := by
          gcongr
          linarith [Real.add_one_le_exp ((1 : ℝ) / 2 ^ 53)]
      _ = Real.exp (1 / 2 ^ 36) := by rw [← Real.exp_nat_mul]; norm_num
  have h3 := Real.abs_exp_sub_one_le (x := 1 / 2 ^ 36) (by rw [abs_of_pos (by positivity)]; norm_num)
  rw [abs_of_pos (show (0 : ℝ) < 1 / 2 ^ 36 by positivity)] at h3
  have h4 := (abs_le.1 h3).2
  norm_num at *
  linarith

/-! ### Distortion -/

/-- The polynomial of the absolute values of its terms. -/
def absCubic (a b c A : ℝ) : ℝ := 1 + |a| * A + |b| * A ^ 2 + |c| * A ^ 3

theorem absCubic_mono_one (a b c A : ℝ) (hA : 0 ≤ A) : 1 ≤ absCubic a b c A := by
  unfold absCubic
  have h1 : 0 ≤ |a| * A := by positivity
  have h2 : 0 ≤ |b| * A ^ 2 := by positivity
  have h3 : 0 ≤ |c| * A ^ 3 := by positivity
  linarith

theorem addTerm_rel (hr : Nearest r) {n m : Nat} {s k t : ℚ} {X S Y T : ℝ} (hs : Rel n s X S) (ht : Rel m t Y T) (hmn : m ≤ n)
    (h0 : k = 0 → Y = 0) : Rel (n + 1) (addTerm r s k t) (X + Y) (S + T) := by
  unfold addTerm
  by_cases h : k = 0
  · rw [if_neg (by simpa using h), h0 h, add_zero]
    have := ht.nonneg
    exact hs.mono (by omega) (by linarith)
  · rw [if_pos h]
    exact (hs.add (ht.mono hmn le_rfl)).round hr

theorem cubic_rel (hr : Nearest r) (a b c : ℚ) {m : Nat} {r2 : ℚ} {R A : ℝ} (h : Rel m r2 R A) :
    Rel (3 * m + 6) (cubic r a b c r2) (1 + a * R + b * R ^ 2 + c * R ^ 3) (absCubic a b c A) := by
  have ta := ((Rel.exact a).mul h).round hr
  have tb := ((((Rel.exact b).mul h).round hr).mul h).round hr
  have tc := ((((((Rel.exact c).mul h).round hr).mul h).round hr).mul h).round hr
  have h1 : Rel (3 * m + 3) 1 (1 : ℝ) 1 := by
    have := Rel.exact 1
    simp only [Rat.cast_one, abs_one] at this
    exact this.mono (by omega) le_rfl
  have s1 := addTerm_rel hr (k := a) h1 (ta.mono (show _ ≤ 3 * m + 3 by omega) le_rfl) le_rfl (by rintro rfl; simp)
  have s2 := addTerm_rel hr (k := b) s1 (tb.mono (show _ ≤ 3 * m + 4 by omega) le_rfl) le_rfl (by rintro rfl; simp)
  have s3 := addTerm_rel hr (k := c) s2 (tc.mono (show _ ≤ 3 * m + 5 by omega) le_rfl) le_rfl (by rintro rfl; simp)
  unfold cubic absCubic
  have e1 : (1 + (a : ℝ) * R + b * R ^ 2 + c * R ^ 3) = 1 + a * R + b * R * R + c * R * R * R := by ring
  have e2 : (1 + |(a : ℝ)| * A + |(b : ℝ)| * A ^ 2 + |(c : ℝ)| * A ^ 3) = 1 + |(a : ℝ)| * A + |(b : ℝ)| * A * A + |(c : ℝ)| * A * A * A := by ring
  rw [e1, e2]
  exact s3

/-- The denominator of the radial distortion. -/
noncomputable def denominator (k : Fin 6 → ℚ) (R : ℝ) : ℝ := 1 + k 3 * R + k 4 * R ^ 2 + k 5 * R ^ 3

/-- The scale of the radial distortion: the polynomials of absolute values, and how small the denominator is. -/
noncomputable def radialScale (k : Fin 6 → ℚ) (c A : ℝ) : ℝ := absCubic (k 0) (k 1) (k 2) A * (2 * absCubic (k 3) (k 4) (k 5) A / c ^ 2)

theorem radial_rel (hr : Nearest r) (k : Fin 6 → ℚ) {m : Nat} {r2 : ℚ} {R A c : ℝ} (h : Rel m r2 R A) (hc : 0 < c) (hc1 : c ≤ 1)
    (hD : c ≤ |denominator k R|) (hm : 3 * m + 6 ≤ 2 ^ 17) (hs : absCubic (k 3) (k 4) (k 5) A ≤ 2 ^ 34 * c) :
    Rel (6 * m + 13) (radial r k r2) (radialDistortion (fun i => k i) R) (radialScale k c A) := by
  have hn := cubic_rel hr (k 0) (k 1) (k 2) h
  have hd := cubic_rel hr (k 3) (k 4) (k 5) h
  have hA := h.nonneg
  have hA1 := absCubic_mono_one (k 3) (k 4) (k 5) A hA
  have hA0 := absCubic_mono_one (k 0) (k 1) (k 2) A hA
  have e : radialDistortion (fun i => (k i : ℝ)) R = (1 + k 0 * R + k 1 * R ^ 2 + k 2 * R ^ 3) * (1 / denominator k R) := by
    unfold radialDistortion denominator
    rw [mul_one_div]
    congr 1 <;> ring
  rw [e]
  unfold radial radialScale
  by_cases hk : k 3 ≠ 0 ∨ k 4 ≠ 0 ∨ k 5 ≠ 0
  · simp only [hk, if_true]
    have hi := hd.inv hc hD (by
      have := growth_le _ hm
      calc _ ≤ 1 / 2 ^ 35 * (2 ^ 34 * c) := by
            have := one_le_growth (3 * m + 6)
            gcongr
        _ = c / 2 := by ring)
    have := (hn.mul hi).round hr
    rw [mul_one_div] at this
    exact this.mono (by omega) le_rfl
  · simp only [hk, if_false]
    push Not at hk
    obtain ⟨k3, k4, k5⟩ := hk
    have : denominator k R = 1 := by simp [denominator, k3, k4, k5]
    rw [this, div_one, mul_one]
    refine hn.mono (by omega) ?_
    have h1 : (1 : ℝ) ≤ 2 * absCubic (k 3) (k 4) (k 5) A / c ^ 2 := by
      rw [le_div_iff₀ (by positivity)]
      have : c ^ 2 ≤ 1 := pow_le_one₀ hc.le hc1
      linarith
    calc _ = absCubic (k 0) (k 1) (k 2) A * 1 := (mul_one _).symm
      _ ≤ _ := by gcongr

/-- The scale of the distorted coordinates. -/
noncomputable def distortScale (k : Fin 6 → ℚ) (p : Fin 2 → ℚ) (c S : ℝ) : ℝ :=
  S * radialScale k c (S * S + S * S) + (2 * (S * S) * |(p 0 : ℝ)| + 2 * (S * S) * |(p 1 : ℝ)| + |(p 0 : ℝ)| * (4 * (S * S)) + |(p 1 : ℝ)| * (4 * (S * S)))

/-- C139 (the distortion alone): of coordinates that are accurate to `n` roundings. -/
theorem distort_rel (hr : Nearest r) (k : Fin 6 → ℚ) (p : Fin 2 → ℚ) {n : Nat} {xy : Fin 2 → ℚ} {X : Fin 2 → ℝ} {S c : ℝ}
    (h : ∀ i, Rel n (xy i) (X i) S) (hc : 0 < c) (hc1 : c ≤ 1) (hn : 6 * n + 12 ≤ 2 ^ 17)
    (hD : c ≤ |denominator k (X 0 ^ 2 + X 1 ^ 2)|) (hs : absCubic (k 3) (k 4) (k 5) (S * S + S * S) ≤ 2 ^ 34 * c) (i : Fin 2) :
    Rel (13 * n + 27) (distort r k p xy i) (Glimpse.distort (fun i => k i) (fun i => p i) X i) (distortScale k p c S) := by
  have sq : ∀ i, Rel (2 * n + 1) (r (xy i * xy i)) (X i * X i) (S * S) := fun i => ((h i).mul (h i)).round hr |>.mono (by omega) le_rfl
  have hr2 : Rel (2 * n + 2) (r (r (xy 0 * xy 0) + r (xy 1 * xy 1))) (X 0 ^ 2 + X 1 ^ 2) (S * S + S * S) := by
    have := ((sq 0).add (sq 1)).round hr
    rwa [← pow_two (X 0), ← pow_two (X 1)] at this
  have hS := (h 0).nonneg
  have hrad := radial_rel hr k hr2 hc hc1 hD (by omega) hs
  have hG : 1 ≤ radialScale k c (S * S + S * S) := by
    have hA : 0 ≤ S * S + S * S := by positivity
    have h1 := absCubic_mono_one (k 0) (k 1) (k 2) _ hA
    have h2 := absCubic_mono_one (k 3) (k 4) (k 5) _ hA
    unfold radialScale
    have h3 : (1 : ℝ) ≤ 2 * absCubic (k 3) (k 4) (k 5) (S * S + S * S) / c ^ 2 := by
      rw [le_div_iff₀ (by positivity)]
      have : c ^ 2 ≤ 1 := pow_le_one₀ hc.le hc1
      linarith
    calc (1 : ℝ) = 1 * 1 := by ring
      _ ≤ _ := by gcongr
  have hxS : S ≤ S * radialScale k c (S * S + S * S) := le_mul_of_one_le_right hS hG
  have hT0 : 0 ≤ 2 * (S * S) * |(p 0 : ℝ)| + 2 * (S * S) * |(p 1 : ℝ)| + |(p 0 : ℝ)| * (4 * (S * S)) + |(p 1 : ℝ)| * (4 * (S * S)) := by positivity
  have ck : ((fun i => (k i : ℝ)) : Fin 6 → ℝ) = 0 ↔ k = 0 := by
    constructor
    · intro hk; funext i; have := congrFun hk i; simpa using this
    · rintro rfl; funext i; simp
  have cp : ((fun i => (p i : ℝ)) : Fin 2 → ℝ) = 0 ↔ p = 0 := by
    constructor
    · intro hk; funext i; have := congrFun hk i; simpa using this
    · rintro rfl; funext i; simp
  unfold distort Glimpse.distort distortScale
  by_cases h0 : k = 0 ∧ p = 0
  · rw [if_pos h0, if_pos (show (fun i => (k i : ℝ)) = 0 ∧ (fun i => (p i : ℝ)) = 0 from ⟨ck.2 h0.1, cp.2 h0.2⟩)]
    exact (h i).mono (by omega) (by linarith)
  · rw [if_neg h0, if_neg (show ¬ ((fun i => (k i : ℝ)) = 0 ∧ (fun i => (p i : ℝ)) = 0) from fun h1 => h0 ⟨ck.1 h1.1, cp.1 h1.2⟩)]
    have hd : Rel (13 * n + 26) ((if k ≠ 0 then fun i => r (xy i * radial r k (r (r (xy 0 * xy 0) + r (xy 1 * xy 1)))) else xy) i)
        ((if ((fun i => (k i : ℝ)) : Fin 6 → ℝ) ≠ 0 then fun i => X i * radialDistortion (fun i => k i) (X 0 ^ 2 + X 1 ^ 2) else X) i)
        (S * radialScale k c (S * S + S * S)) := by
      by_cases hk : k = 0
      · rw [if_neg (show ¬ k ≠ 0 from not_not.2 hk), if_neg (show ¬ (fun i => (k i : ℝ)) ≠ 0 from not_not.2 (ck.2 hk))]
        exact (h i).mono (by omega) hxS
      · rw [if_pos (show k ≠ 0 from hk), if_pos (show (fun i => (k i : ℝ)) ≠ 0 from fun h1 => hk (ck.1 h1))]
        exact (((h i).mul hrad).round hr).mono (by omega) le_rfl
    by_cases hp : p = 0
    · rw [if_neg (show ¬ p ≠ 0 from not_not.2 hp), if_neg (show ¬ (fun i => (p i : ℝ)) ≠ 0 from not_not.2 (cp.2 hp))]
      exact hd.mono (by omega) (by linarith)
    · rw [if_pos (show p ≠ 0 from hp), if_pos (show (fun i => (p i : ℝ)) ≠ 0 from fun h1 => hp (cp.1 h1))]
      have hxty := ((h 0).mul (h 1)).round hr
      have two : Rel 0 2 (2 : ℝ) 2 := by have := Rel.exact 2; simpa using this
      have h2xty := (two.mul hxty).round hr
      have q : ∀ i, Rel (2 * n + 3) (r (r (r (xy 0 * xy 0) + r (xy 1 * xy 1)) + r (2 * r (xy i * xy i)))) (X 0 ^ 2 + X 1 ^ 2 + 2 * X i ^ 2) (4 * (S * S)) := fun i => by
        have t := (two.mul (sq i)).round hr
        have := (hr2.add (t.mono (show _ ≤ 2 * n + 2 by omega) le_rfl)).round hr
        rw [show 2 * (X i * X i) = 2 * X i ^ 2 by ring] at this
        exact this.mono le_rfl (by linarith)
      have t : Rel (13 * n + 26) (tangential r p xy (r (r (xy 0 * xy 0) + r (xy 1 * xy 1))) i)
          (tangentialDistortion (fun i => p i) X (X 0 ^ 2 + X 1 ^ 2) i)
          (2 * (S * S) * |(p 0 : ℝ)| + 2 * (S * S) * |(p 1 : ℝ)| + |(p 0 : ℝ)| * (4 * (S * S)) + |(p 1 : ℝ)| * (4 * (S * S))) := by
        have n0 : 0 ≤ 2 * (S * S) * |(p 0 : ℝ)| := by positivity
        have n1 : 0 ≤ 2 * (S * S) * |(p 1 : ℝ)| := by positivity
        have n2 : 0 ≤ |(p 0 : ℝ)| * (4 * (S * S)) := by positivity
        have n3 : 0 ≤ |(p 1 : ℝ)| * (4 * (S * S)) := by positivity
        fin_cases i
        · have a := (h2xty.mul (Rel.exact (p 0))).round hr
          have b := ((Rel.exact (p 1)).mul (q 0)).round hr
          have := ((a.mono (show _ ≤ 2 * n + 4 by omega) le_rfl).add (b.mono (show _ ≤ 2 * n + 4 by omega) le_rfl)).round hr
          show Rel _ (r (r (r (2 * r (xy 0 * xy 1)) * p 0) + r (p 1 * r (r (r (xy 0 * xy 0) + r (xy 1 * xy 1)) + r (2 * r (xy 0 * xy 0))))))
            (2 * (X 0 * X 1) * p 0 + p 1 * (X 0 ^ 2 + X 1 ^ 2 + 2 * X 0 ^ 2)) _
          exact this.mono (by omega) (by linarith)
        · have a := (h2xty.mul (Rel.exact (p 1))).round hr
          have b := ((Rel.exact (p 0)).mul (q 1)).round hr
          have := ((b.mono (show _ ≤ 2 * n + 4 by omega) le_rfl).add (a.mono (show _ ≤ 2 * n + 4 by omega) le_rfl)).round hr
          show Rel _ (r (r (p 0 * r (r (r (xy 0 * xy 0) + r (xy 1 * xy 1)) + r (2 * r (xy 1 * xy 1)))) + r (r (2 * r (xy 0 * xy 1)) * p 1)))
            (p 0 * (X 0 ^ 2 + X 1 ^ 2 + 2 * X 1 ^ 2) + 2 * (X 0 * X 1) * p 1) _
          exact this.mono (by omega) (by linarith)
      exact (hd.add t).round hr

/-! ### The projection -/

/-- The exact camera: the same numbers, with distortion. -/
noncomputable def distCam (cam : Cam) (k : Fin 6 → ℚ) (p : Fin 2 → ℚ) : Camera :=
  let v : CamVec := ⟨fun i => cam.xyz i, fun i => cam.viewdir i, cam.imgsz, fun i => cam.f i, fun i => cam.c i, fun i => k i, fun i => p i⟩
  ⟨v, v, none, none⟩

theorem distCam_xy (cam : Cam) (k : Fin 6 → ℚ) (p : Fin 2 → ℚ) (xyz : Fin 3 → ℚ) (directions : Bool) :
    (distCam cam k p).xyzToXy (fun i => xyz i) directions = (if camXyz cam xyz directions 2 ≤ 0 then none else
        some ![camXyz cam xyz directions 0 / camXyz cam xyz directions 2, camXyz cam xyz directions 1 / camXyz cam xyz directions 2],
        camXyz cam xyz directions 2) := by
  unfold Camera.xyzToXy camXyz
  rfl

/-- The coordinates before distortion. -/
theorem float_xy_near (hr : Nearest r) (hl : Accurate lib) (cam : Cam) (hv : ∀ i, |cam.viewdir i| ≤ 360) (k : Fin 6 → ℚ) (p : Fin 2 → ℚ)
    (xyz : Fin 3 → ℚ) (directions : Bool) (X : V2) (Z M : ℝ) (hM : M ≤ 2 ^ 40)
    (h : (distCam cam k p).xyzToXy (fun i => xyz i) directions = (some X, Z)) (hX : ∀ i, |X i| ≤ M) :
    ∃ xy depth, xyzToXy r lib cam xyz directions = (some xy, depth) ∧ |(depth : ℝ) - Z| ≤ (1 + M) * Z / 2 ^ 41 ∧
      ∀ i, |(xy i : ℝ) - X i| ≤ (1 + M) ^ 2 / 2 ^ 40 := by
  rw [distCam_xy] at h
  obtain ⟨h1, hZ⟩ := Prod.mk.inj h
  by_cases hz0 : camXyz cam xyz directions 2 ≤ 0
  · rw [if_pos hz0] at h1; cases h1
  rw [if_neg hz0] at h1
  have hX' := Option.some.inj h1
  have hZ0 : 0 < Z := by rw [← hZ]; exact not_le.1 hz0
  have x0 := hX 0
  have x1 := hX 1
  rw [← hX'] at x0 x1
  simp only [Matrix.cons_val_zero, Matrix.cons_val_one] at x0 x1
  rw [hZ] at x0 x1
  have hM0 : 0 ≤ M := (abs_nonneg _).trans x0
  have X0 : |camXyz cam xyz directions 0| ≤ M * Z := by rwa [abs_div, abs_of_pos hZ0, div_le_iff₀ hZ0] at x0
  have X1 : |camXyz cam xyz directions 1| ≤ M * Z := by rwa [abs_div, abs_of_pos hZ0, div_le_iff₀ hZ0] at x1
  have hreach := reach_le cam xyz directions M (by rw [hZ]; exact hZ0.le) (by rw [hZ]; exact X0) (by rw [hZ]; exact X1)
  rw [hZ] at hreach
  set e : ℝ := 3 * (1 + 2 * M) / 2 ^ 44 with he
  have he2 : e ≤ 1 / 2 := by
    rw [he, div_le_iff₀ (by positivity)]
    norm_num at *
    linarith
  set d : Fin 3 → ℚ := if directions then xyz else fun j => r (xyz j - cam.xyz j) with hd
  set q : Fin 3 → ℚ := fun i => lib.dot 3 (rot r lib cam.viewdir i) d with hq
  have near : ∀ i, |(q i : ℝ) - camXyz cam xyz directions i| ≤ e * Z := fun i => by
    refine (camera_point_near hr hl cam hv xyz directions i).trans ?_
    rw [he, div_mul_eq_mul_div]
    gcongr
  have n2 := near 2
  rw [hZ] at n2
  obtain ⟨z1, q0⟩ := div_near hZ0 n2 (near 0) X0 he2
  obtain ⟨-, q1⟩ := div_near hZ0 n2 (near 1) X1 he2
  have hz : ¬ q 2 ≤ 0 := by
    intro hle
    have : (q 2 : ℝ) ≤ 0 := by exact_mod_cast hle
    linarith
  have he1 : 2 * e * (1 + M) ≤ 3 / 4 * (1 + M) ^ 2 / 2 ^ 40 := by
    rw [he]
    have : 3 * (1 + 2 * M) ≤ 3 * (2 * (1 + M)) := by gcongr; linarith
    calc 2 * (3 * (1 + 2 * M) / 2 ^ 44) * (1 + M) ≤ 2 * (3 * (2 * (1 + M)) / 2 ^ 44) * (1 + M) := by gcongr
      _ = _ := by ring
  have fin : ∀ (x : ℝ) (y : ℚ), |(y : ℝ) - x| ≤ 2 * e * (1 + M) → |x| ≤ M → |((r y : ℚ) : ℝ) - x| ≤ (1 + M) ^ 2 / 2 ^ 40 := fun x y h1 h2 => by
    refine (near_round hr (h1.trans he1) h2).trans ?_
    have hsq : M ≤ (1 + M) ^ 2 := by nlinarith
    have hsq0 : 0 ≤ (1 + M) ^ 2 := by positivity
    norm_num
    linarith
  refine ⟨![r (q 0 / q 2), r (q 1 / q 2)], q 2, ?_, ?_, ?_⟩
  · unfold xyzToXy
    simp only [← hd]
    show ((if q 2 ≤ 0 then none else some ![r (q 0 / q 2), r (q 1 / q 2)]), q 2) = _
    rw [if_neg hz]
  · refine n2.trans ?_
    rw [he, div_mul_eq_mul_div, show (1 + M) * Z / 2 ^ 41 = 8 * (1 + M) * Z / 2 ^ 44 by ring]
    have : 3 * (1 + 2 * M) ≤ 8 * (1 + M) := by linarith
    gcongr
  · intro i
    rw [← hX', hZ]
    fin_cases i
    · exact fin _ _ (by push_cast; exact q0) x0
    · exact fin _ _ (by push_cast; exact q1) x1

/-- C139: a point in front of a camera with distortion, whose coordinates before distortion are up to `M`, gets image coordinates within a small
distance of the exact ones. `c` is how small the denominator of the radial distortion is, and `distortScale` is the size of the terms of the
distortion. -/
theorem float_distorted_near (hr : Nearest r) (hl : Accurate lib) (cam : Cam) (hv : ∀ i, |cam.viewdir i| ≤ 360) (k : Fin 6 → ℚ) (p : Fin 2 → ℚ)
    (xyz : Fin 3 → ℚ) (directions : Bool) (X : V2) (Z M c : ℝ) (hM : M ≤ 2 ^ 40)
    (h : (distCam cam k p).xyzToXy (fun i => xyz i) directions = (some X, Z)) (hX : ∀ i, |X i| ≤ M) (hc : 0 < c) (hc1 : c ≤ 1)
    (hD : c ≤ |denominator k (X 0 ^ 2 + X 1 ^ 2)|) (hs : absCubic (k 3) (k 4) (k 5) (2 * (1 + M) ^ 4) ≤ 2 ^ 34 * c) :
    ∃ uv depth UV, xyzToUvDistorted r lib cam k p xyz directions = (some uv, depth) ∧
      (distCam cam k p).xyzToUv (fun i => xyz i) directions = (some UV, Z) ∧ |(depth : ℝ) - Z| ≤ (1 + M) * Z / 2 ^ 41 ∧
      ∀ i, |(uv i : ℝ) - UV i| ≤ (distortScale k p c ((1 + M) ^ 2) * |(cam.f i : ℝ)| + (|(cam.imgsz i : ℝ) / 2| + |(cam.c i : ℝ)|)) / 2 ^ 35 := by
  obtain ⟨xy, depth, e1, e2, e3⟩ := float_xy_near hr hl cam hv k p xyz directions X Z M hM h hX
  have hM0 : 0 ≤ M := (abs_nonneg _).trans (hX 0)
  have rel : ∀ i, Rel 8192 (xy i) (X i) ((1 + M) ^ 2) := fun i => by
    refine ⟨(hX i).trans (by nlinarith), (e3 i).trans ?_⟩
    have h1 := one_add_mul_le_pow (a := (1 / 2 ^ 53 : ℝ)) (by norm_num) 8192
    have h2 : (1 : ℝ) / 2 ^ 40 ≤ (1 + 1 / 2 ^ 53) ^ 8192 - 1 := by
      refine le_trans (le_of_eq ?_) (sub_le_sub_right h1 1)
      norm_num
    rw [div_eq_mul_one_div, mul_comm]
    exact mul_le_mul_of_nonneg_right h2 (by positivity)
  have hsq : (1 + M) ^ 2 * (1 + M) ^ 2 + (1 + M) ^ 2 * (1 + M) ^ 2 = 2 * (1 + M) ^ 4 := by ring
  have dist := distort_rel hr k p rel hc hc1 (by norm_num) hD (by rw [hsq]; exact hs)
  refine ⟨xyToUv r cam (distort r k p xy), depth, (distCam cam k p).xyToUv X, ?_, ?_, e2, fun i => ?_⟩
  · unfold xyzToUvDistorted
    rw [e1]
    rfl
  · unfold Camera.xyzToUv
    rw [h]
    rfl
  have f := ((dist i).mul (Rel.exact (cam.f i))).round hr
  have half : Rel 1 (r ((cam.imgsz i : ℚ) / 2)) ((cam.imgsz i : ℝ) / 2) |(cam.imgsz i : ℝ) / 2| := by
    have := (Rel.exact ((cam.imgsz i : ℚ) / 2)).round hr
    push_cast at this
    exact this
  have center := (half.add ((Rel.exact (cam.c i)).mono (show 0 ≤ 1 by omega) le_rfl)).round hr
  have all := ((f.mono (show _ ≤ 106524 by norm_num) le_rfl).add (center.mono (show _ ≤ 106524 by norm_num) le_rfl)).round hr
  have g := growth_le (106524 + 1) (by norm_num)
  have h0 := all.nonneg
  refine le_trans (le_of_eq ?_) (all.2.trans ((mul_le_mul_of_nonneg_right g h0).trans (le_of_eq (by ring))))
  simp [Camera.xyToUv, distCam, xyToUv]

/-- A camera of 4000 by 3000 pixels that faces north. -/
def northCam : Cam := ⟨![400, 7000, 1000], ![0, 0, 0], ![4000, 3000], ![5000, 5000], ![10, -20]⟩

/-- Radial distortion, also in the denominator. -/
def someK : Fin 6 → ℚ := ![-1 / 10, 1 / 20, 0, 1 / 100, 0, 0]

/-- Tangential distortion. -/
def someP : Fin 2 → ℚ := ![1 / 1000, -1 / 500]

/-- A direction to the north, east of and below the view direction. -/
def someDir : Fin 3 → ℚ := ![1 / 2, 1, -1 / 4]

/-- Non-vacuity: the image coordinates of this direction are accurate to a thousandth of a pixel. -/
example : ∃ lib : Lib, Accurate lib ∧ ∃ uv depth UV Z,
    (xyzToUvDistorted rnd lib northCam someK someP someDir true = (some uv, depth) ∧
      (distCam northCam someK someP).xyzToUv (fun i => someDir i) true = (some UV, Z)) ∧
    ∀ i, |((uv i : ℚ) : ℝ) - UV i| ≤ 1 / 1000 := by
  obtain ⟨lib, hl, -, -⟩ := lib_exists
  refine ⟨lib, hl, ?_⟩
  have k0 : someK 0 = -1 / 10 := rfl
  have k1 : someK 1 = 1 / 20 := rfl
  have k2 : someK 2 = 0 := rfl
  have k3 : someK 3 = 1 / 100 := rfl
  have k4 : someK 4 = 0 := rfl
  have k5 : someK 5 = 0 := rfl
  have p0 : someP 0 = 1 / 1000 := rfl
  have p1 : someP 1 = -1 / 500 := rfl
  have d0 : someDir 0 = 1 / 2 := rfl
  have d1 : someDir 1 = 1 := rfl
  have d2 : someDir 2 = -1 / 4 := rfl
  obtain ⟨uv, depth, UV, h1, h2, -, h3⟩ := float_distorted_near rnd_nearest hl northCam (fun i => by fin_cases i <;> norm_num [northCam]) someK someP
    someDir true ![1 / 2, 1 / 4] 1 1 1 (by norm_num)
    (by
      have e0 : camXyz northCam someDir true 0 = 1 / 2 := by
        simp [camXyz, exactCam, northCam, Camera.dxyz, Fin.sum_univ_three, rotR, deg2rad, Matrix.vecHead, Matrix.vecTail, d0, d1, d2]
      have e1 : camXyz northCam someDir true 1 = 1 / 4 := by
        simp [camXyz, exactCam, northCam, Camera.dxyz, Fin.sum_univ_three, rotR, deg2rad, Matrix.vecHead, Matrix.vecTail, d0, d1, d2]
        norm_num
      have e2 : camXyz northCam someDir true 2 = 1 := by
        simp [camXyz, exactCam, northCam, Camera.dxyz, Fin.sum_univ_three, rotR, deg2rad, Matrix.vecHead, Matrix.vecTail, d0, d1, d2]
      rw [distCam_xy, e0, e1, e2]
      norm_num)
    (fun i => by fin_cases i <;> norm_num [abs_le]) (by norm_num) le_rfl
    (by
      simp only [denominator, k3, k4, k5]
      rw [abs_of_pos] <;> norm_num)
    (by
      simp only [absCubic, k3, k4, k5]
      norm_num)
  refine ⟨uv, depth, UV, 1, ⟨h1, h2⟩, fun i => (h3 i).trans ?_⟩
  have hf : |((northCam.f i : ℚ) : ℝ)| = 5000 := by fin_cases i <;> norm_num [northCam]
  have hn : |((northCam.imgsz i : ℤ) : ℝ) / 2| ≤ 2000 := by fin_cases i <;> norm_num [northCam]
  have hc : |((northCam.c i : ℚ) : ℝ)| ≤ 20 := by fin_cases i <;> norm_num [northCam, abs_le]
  have hs : distortScale someK someP 1 ((1 + 1) ^ 2) ≤ 1000 := by
    have a0 : |((someK 0 : ℚ) : ℝ)| ≤ 1 / 10 := by rw [k0]; norm_num [abs_le]
    simp only [distortScale, radialScale, absCubic, k1, k2, k3, k4, k5, p0, p1]
    norm_num at a0 ⊢
    linarith
  rw [hf, div_le_iff₀ (by positivity)]
  calc _ ≤ (1000 : ℝ) * 5000 + (2000 + 20) := by gcongr
    _ ≤ _ := by norm_num

end Glimpse.FloatProject
