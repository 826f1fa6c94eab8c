import Verif.Model.Camera
import Verif.Props.CameraProjection
import Mathlib.Analysis.SpecialFunctions.Trigonometric.Basic
import Mathlib.Analysis.SpecialFunctions.Pow.Real
import Mathlib.Tactic.Linarith
import Mathlib.Tactic.Ring
import Mathlib.Tactic.FieldSimp
import Mathlib.Tactic.NormNum
import Mathlib.Tactic.Positivity
import Mathlib.Tactic.LinearCombination

/-!
C19, C20: removing lens distortion.
-/
set_option autoImplicit false
set_option linter.unusedSimpArgs false

namespace Glimpse

/-! ### The cubic -/

private theorem rpow_third_cube {x : ℝ} (hx : 0 ≤ x) : (x ^ ((1.0 : ℝ) / 3)) ^ 3 = x := by
  rw [← Real.rpow_natCast, ← Real.rpow_mul hx]
  norm_num

private theorem q_rpow {Q : ℝ} (hQ : 0 < Q) : Q ^ (-1.5 : ℝ) * (Q * Real.sqrt Q) = 1 := by
  have h : Q * Real.sqrt Q = Q ^ (1.5 : ℝ) := by
    rw [Real.sqrt_eq_rpow]
    nth_rewrite 1 [← Real.rpow_one Q]
    rw [← Real.rpow_add hQ]; norm_num
  rw [h, ← Real.rpow_add hQ]; norm_num

private theorem cube_pos_iff {Q : ℝ} (h : 0 < Q ^ 3) : 0 < Q := by
  by_contra hn
  have : Q ≤ 0 := not_lt.mp hn
  have : Q ^ 3 ≤ 0 := by
    have h2 : 0 ≤ Q ^ 2 := sq_nonneg Q
    nlinarith
  linarith

/-- The radius computed by the closed form is a root of the depressed cubic, for every `R` and `Q`. -/
private theorem k1Radius_root (R Q : ℝ) : k1Radius R Q ^ 3 - 3 * Q * k1Radius R Q + 2 * R = 0 := by
  unfold k1Radius
  split
  · rename_i h
    have hQ : 0 < Q := cube_pos_iff (lt_of_le_of_lt (sq_nonneg R) h)
    have hs : 0 < Real.sqrt Q := Real.sqrt_pos.mpr hQ
    have hss : Real.sqrt Q ^ 2 = Q := Real.sq_sqrt hQ.le
    have hq := q_rpow hQ
    set w := Q ^ (-1.5 : ℝ) with hw
    set q := Real.sqrt Q with hqd
    have hpos : 0 < Q * q := by positivity
    have hsq : (R * w) ^ 2 ≤ 1 := by
      have h1 : (Q * q) ^ 2 = Q ^ 3 := by rw [mul_pow, hss]; ring
      have h2 : (R * w) ^ 2 * Q ^ 3 = R ^ 2 := by
        rw [← h1]
        have : (R * w) ^ 2 * (Q * q) ^ 2 = (R * (w * (Q * q))) ^ 2 := by ring
        rw [this, hq]; ring
      have h3 : 0 < Q ^ 3 := by positivity
      by_contra hn
      have := not_le.mp hn
      nlinarith
    have hle := abs_le.mp (sq_le_one_iff_abs_le_one _ |>.mp hsq)
    simp only
    set th := Real.arccos (R * w) with hth
    have hcos : Real.cos th = R * w := Real.cos_arccos hle.1 hle.2
    have h3 := Real.cos_three_mul ((th - 2 * Real.pi) / 3)
    have h4 : Real.cos (3 * ((th - 2 * Real.pi) / 3)) = R * w := by
      rw [show 3 * ((th - 2 * Real.pi) / 3) = th - 2 * Real.pi by ring, Real.cos_sub_two_pi, hcos]
    rw [h4] at h3
    set c := Real.cos ((th - 2 * Real.pi) / 3) with hc
    have : (-2 * q * c) ^ 3 - 3 * Q * (-2 * q * c) + 2 * R = -2 * (Q * q) * (4 * c ^ 3 - 3 * c) + 2 * R + (-8 * q * c ^ 3) * (q ^ 2 - Q) := by
      ring
    rw [this, hss, sub_self, mul_zero, add_zero, ← h3]
    linear_combination (-2 * R) * hq
  · rename_i h
    have hD : 0 ≤ R ^ 2 - Q ^ 3 := by linarith [not_lt.mp h]
    by_cases hR : R = 0
    · subst hR; simp
    · have hsD := Real.sq_sqrt hD
      have hs0 := Real.sqrt_nonneg (R ^ 2 - Q ^ 3)
      set D := Real.sqrt (R ^ 2 - Q ^ 3) with hDd
      have habs : 0 < |R| := abs_pos.mpr hR
      have hbase : 0 < |R| + D := by linarith
      set t := (|R| + D) ^ ((1.0 : ℝ) / 3) with ht
      have ht3 : t ^ 3 = |R| + D := rpow_third_cube hbase.le
      have htpos : 0 < t := Real.rpow_pos_of_pos hbase _
      have key : ∀ s : ℝ, s ^ 2 = 1 → s * |R| = R →
          (-s * t + Q / (-s * t)) ^ 3 - 3 * Q * (-s * t + Q / (-s * t)) + 2 * R = 0 := by
        intro s hs hsR
        have hsne : s ≠ 0 := by rintro rfl; norm_num at hs
        have hA : -s * t ≠ 0 := mul_ne_zero (neg_ne_zero.mpr hsne) htpos.ne'
        have e1 : (-s * t + Q / (-s * t)) ^ 3 - 3 * Q * (-s * t + Q / (-s * t)) = (-s * t) ^ 3 + Q ^ 3 / (-s * t) ^ 3 := by
          field_simp
          ring
        have e2 : (-s * t) ^ 3 = -s * (|R| + D) := by
          have : (-s * t) ^ 3 = -(s * s ^ 2) * t ^ 3 := by ring
          rw [this, hs, ht3]; ring
        have e3 : Q ^ 3 = (|R| - D) * (|R| + D) := by
          have : (|R| - D) * (|R| + D) = |R| ^ 2 - D ^ 2 := by ring
          rw [this, hsD, sq_abs]; ring
        rw [e1, e2, e3]
        have : (|R| - D) * (|R| + D) / (-s * (|R| + D)) = -s * (|R| - D) := by
          have hb := hbase.ne'
          rw [div_eq_iff (mul_ne_zero (neg_ne_zero.mpr hsne) hb)]
          linear_combination (-(|R| - D) * (|R| + D)) * hs
        rw [this]
        linear_combination (-2) * hsR
      simp only
      have hsign : ((SignType.sign R : SignType) : ℝ) ^ 2 = 1 ∧ ((SignType.sign R : SignType) : ℝ) * |R| = R := by
        rcases lt_or_gt_of_ne hR with h0 | h0
        · rw [sign_neg h0, abs_of_neg h0]; simp
        · rw [sign_pos h0, abs_of_pos h0]; simp
      have hAne : -((SignType.sign R : SignType) : ℝ) * t ≠ 0 := by
        intro h0
        have := hsign.1
        rcases mul_eq_zero.mp h0 with h1 | h1
        · rw [neg_eq_zero.mp h1] at this; norm_num at this
        · exact htpos.ne' h1
      rw [if_pos hAne]
      exact key _ hsign.1 hsign.2

private theorem k1Radius_zero (Q : ℝ) : k1Radius 0 Q = 0 := by
  unfold k1Radius
  split
  · simp only [zero_mul, Real.arccos_zero]
    rw [show (Real.pi / 2 - 2 * Real.pi) / 3 = -(Real.pi / 2) by ring, Real.cos_neg, Real.cos_pi_div_two]
    simp
  · simp

/-- In the three-root case with `0 ≤ R` the root returned lies in `[0, √Q]`. -/
private theorem k1Radius_small (R Q : ℝ) (hR : 0 ≤ R) (h : R ^ 2 < Q ^ 3) :
    0 ≤ k1Radius R Q ∧ k1Radius R Q ≤ Real.sqrt Q := by
  have hQ : 0 < Q := cube_pos_iff (lt_of_le_of_lt (sq_nonneg R) h)
  unfold k1Radius
  rw [if_pos h]
  simp only
  set th := Real.arccos (R * Q ^ (-1.5 : ℝ)) with hth
  have hw : 0 ≤ R * Q ^ (-1.5 : ℝ) := mul_nonneg hR (Real.rpow_nonneg hQ.le _)
  have h0 : 0 ≤ th := Real.arccos_nonneg _
  have h1 : th ≤ Real.pi / 2 := Real.arccos_le_pi_div_two.mpr hw
  have hpi := Real.pi_pos
  set b := (2 * Real.pi - th) / 3 with hb
  have hcb : Real.cos ((th - 2 * Real.pi) / 3) = Real.cos b := by
    rw [show (th - 2 * Real.pi) / 3 = -b by rw [hb]; ring, Real.cos_neg]
  have hle : Real.cos b ≤ 0 := Real.cos_nonpos_of_pi_div_two_le_of_le (by rw [hb]; linarith) (by rw [hb]; linarith)
  have hge : -(1 / 2) ≤ Real.cos b := by
    have h2 : Real.cos (2 * Real.pi / 3) ≤ Real.cos b :=
      Real.cos_le_cos_of_nonneg_of_le_pi (by rw [hb]; linarith) (by linarith) (by rw [hb]; linarith)
    have h3 : Real.cos (2 * Real.pi / 3) = -(1 / 2) := by
      rw [show 2 * Real.pi / 3 = Real.pi - Real.pi / 3 by ring, Real.cos_pi_sub, Real.cos_pi_div_three]
    linarith
  rw [hcb]
  have hs := Real.sqrt_nonneg Q
  constructor <;> nlinarith

/-! ### Polar coordinates -/

private theorem cos_sin_arctan2 (x y : ℝ) (h : x ≠ 0 ∨ y ≠ 0) :
    Real.cos (arctan2 y x) = x / Real.sqrt (x ^ 2 + y ^ 2) ∧ Real.sin (arctan2 y x) = y / Real.sqrt (x ^ 2 + y ^ 2) := by
  have hne : (⟨x, y⟩ : ℂ) ≠ 0 := by
    intro h0
    have h1 := congrArg Complex.re h0
    have h2 := congrArg Complex.im h0
    simp at h1 h2
    rcases h with h | h
    · exact h h1
    · exact h h2
  have hn : ‖(⟨x, y⟩ : ℂ)‖ = Real.sqrt (x ^ 2 + y ^ 2) := by
    rw [Complex.norm_def, Complex.normSq_mk]; ring_nf
  unfold arctan2
  rw [Complex.cos_arg hne, Complex.sin_arg, hn]
  exact ⟨rfl, rfl⟩

private theorem sqrt_sum_pos (x y : ℝ) (h : x ≠ 0 ∨ y ≠ 0) : 0 < Real.sqrt (x ^ 2 + y ^ 2) := by
  apply Real.sqrt_pos.mpr
  rcases h with h | h
  · have := sq_pos_of_ne_zero h; positivity
  · have := sq_pos_of_ne_zero h; positivity

/-! ### C19 -/

/-- Spec: the only non-zero distortion coefficient is `k[0]`. -/
def OnlyK1 (k : Fin 6 → ℝ) (p : V2) : Prop := k 0 ≠ 0 ∧ (∀ i, i ≠ 0 → k i = 0) ∧ p = 0

private theorem distort_k1 (k : Fin 6 → ℝ) (p : V2) (h : OnlyK1 k p) (xy : V2) (i : Fin 2) :
    distort k p xy i = xy i * (1 + k 0 * (xy 0 ^ 2 + xy 1 ^ 2)) := by
  obtain ⟨h0, h1, h2⟩ := h
  have hk : k ≠ 0 := fun h => h0 (by rw [h]; rfl)
  unfold distort
  rw [if_neg (fun hh => hk hh.1)]
  simp only [hk, ne_eq, not_false_iff, if_true, h2, not_true, if_false]
  simp [radialDistortion, h1 1 (by decide), h1 2 (by decide), h1 3 (by decide), h1 4 (by decide), h1 5 (by decide)]

private theorem undistort_k1 (k : Fin 6 → ℝ) (p : V2) (h : OnlyK1 k p) (xy : V2) :
    undistort k p xy = undistortK1 (k 0) xy := by
  have hk : k ≠ 0 := fun hh => h.1 (by rw [hh]; rfl)
  unfold undistort
  rw [if_neg (fun hh => hk hh.1), if_pos (by exact h)]

/-- For a point off the vertical axis the closed form is: scale the direction by the root for `R = -ρ/(2 k1)`. -/
private theorem undistortK1_form (k1 : ℝ) (xy : V2) (hx : xy 0 ≠ 0) (i : Fin 2) :
    undistortK1 k1 xy i = xy i / Real.sqrt (xy 0 ^ 2 + xy 1 ^ 2) *
      k1Radius (-Real.sqrt (xy 0 ^ 2 + xy 1 ^ 2) / (2 * k1)) (-1 / (3 * k1)) := by
  obtain ⟨hc, hs⟩ := cos_sin_arctan2 (xy 0) (xy 1) (Or.inl hx)
  have hpos := sqrt_sum_pos (xy 0) (xy 1) (Or.inl hx)
  have hR : -xy 0 / (2 * k1 * Real.cos (arctan2 (xy 1) (xy 0))) = -Real.sqrt (xy 0 ^ 2 + xy 1 ^ 2) / (2 * k1) := by
    rw [hc]
    field_simp
  unfold undistortK1
  simp only [hR]
  fin_cases i
  · simp [hc]
  · simp [hs]

private theorem undistortK1_origin (k1 : ℝ) : undistortK1 k1 0 = 0 := by
  unfold undistortK1
  simp only [Pi.zero_apply, neg_zero, zero_div, k1Radius_zero]
  funext i; fin_cases i <;> simp

/-- C19 (partial): with `k[0]` as the only non-zero coefficient, distorting the undistorted point gives back the point,
for every value of `k[0]` and every point that is not on the vertical axis (or is the centre). Missing: points with
`x = 0`, see `undistort_k1_axis_violated`. -/
theorem distort_undistort_k1_partial (k : Fin 6 → ℝ) (p : V2) (h : OnlyK1 k p) (xy : V2) (hxy : xy 0 ≠ 0 ∨ xy = 0) :
    distort k p (undistort k p xy) = xy := by
  rw [undistort_k1 k p h]
  rcases hxy with hx | rfl
  · have hform := undistortK1_form (k 0) xy hx
    set ρ := Real.sqrt (xy 0 ^ 2 + xy 1 ^ 2) with hρ
    have hpos : 0 < ρ := sqrt_sum_pos _ _ (Or.inl hx)
    have hρ2 : ρ ^ 2 = xy 0 ^ 2 + xy 1 ^ 2 := Real.sq_sqrt (by positivity)
    have hroot := k1Radius_root (-ρ / (2 * k 0)) (-1 / (3 * k 0))
    set r := k1Radius (-ρ / (2 * k 0)) (-1 / (3 * k 0)) with hr
    have hk := h.1
    have hcub : r * (1 + k 0 * r ^ 2) = ρ := by
      field_simp at hroot
      linear_combination hroot
    funext i
    rw [distort_k1 k p h, hform 0, hform 1, hform i]
    have hsum : (xy 0 / ρ * r) ^ 2 + (xy 1 / ρ * r) ^ 2 = r ^ 2 := by
      have : (xy 0 / ρ * r) ^ 2 + (xy 1 / ρ * r) ^ 2 = (xy 0 ^ 2 + xy 1 ^ 2) / ρ ^ 2 * r ^ 2 := by
        field_simp
      rw [this, ← hρ2]
      field_simp
    rw [hsum]
    have : xy i / ρ * r * (1 + k 0 * r ^ 2) = xy i / ρ * (r * (1 + k 0 * r ^ 2)) := by ring
    rw [this, hcub]
    field_simp
  · rw [undistortK1_origin]
    funext i
    rw [distort_k1 k p h]; simp

/-- C19 (violated): every point on the vertical axis other than the centre is undistorted to the centre, which distorts
to the centre and not to the point. -/
theorem undistort_k1_axis_violated (k : Fin 6 → ℝ) (p : V2) (h : OnlyK1 k p) (y : ℝ) (hy : y ≠ 0) :
    undistort k p ![0, y] = 0 ∧ distort k p (undistort k p ![0, y]) ≠ ![0, y] := by
  have h0 : undistort k p ![0, y] = 0 := by
    rw [undistort_k1 k p h]
    unfold undistortK1
    simp only [Matrix.cons_val_zero, neg_zero, zero_div, k1Radius_zero, mul_zero]
    funext i; fin_cases i <;> simp
  refine ⟨h0, ?_⟩
  rw [h0]
  intro hh
  have := congrFun hh 1
  rw [distort_k1 k p h] at this
  simp at this
  exact hy this.symm

private theorem radius_unique_pos (k1 : ℝ) (hk : 0 < k1) (a b : ℝ) (h : a * (1 + k1 * a ^ 2) = b * (1 + k1 * b ^ 2)) :
    a = b := by
  have e : (a - b) * (1 + k1 * (a ^ 2 + a * b + b ^ 2)) = 0 := by linear_combination h
  rcases mul_eq_zero.mp e with h1 | h1
  · linarith
  · exfalso
    nlinarith [mul_nonneg hk.le (sq_nonneg (a + b)), mul_nonneg hk.le (sq_nonneg a), mul_nonneg hk.le (sq_nonneg b)]

/-- C19 (partial): undistorting a distorted point gives back the point, for every point off the vertical axis at which
the distortion is still increasing with the radius (`1 + 3 k1 r² > 0`; always so for `k1 > 0`). Missing: points with
`x = 0`. Beyond that radius distinct points are distorted to the same point. -/
theorem undistort_distort_k1_partial (k : Fin 6 → ℝ) (p : V2) (h : OnlyK1 k p) (xy : V2) (hx : xy 0 ≠ 0)
    (hmono : 0 < 1 + 3 * k 0 * (xy 0 ^ 2 + xy 1 ^ 2)) : undistort k p (distort k p xy) = xy := by
  have hk := h.1
  set r := Real.sqrt (xy 0 ^ 2 + xy 1 ^ 2) with hr
  have hrpos : 0 < r := sqrt_sum_pos _ _ (Or.inl hx)
  have hr2 : r ^ 2 = xy 0 ^ 2 + xy 1 ^ 2 := Real.sq_sqrt (by positivity)
  rw [← hr2] at hmono
  set g := 1 + k 0 * r ^ 2 with hg
  have hgpos : 0 < g := by rw [hg]; nlinarith
  have hd : ∀ i, distort k p xy i = xy i * g := fun i => by rw [distort_k1 k p h, hg, hr2]
  have hx' : distort k p xy 0 ≠ 0 := by rw [hd]; exact mul_ne_zero hx hgpos.ne'
  have hnorm : Real.sqrt (distort k p xy 0 ^ 2 + distort k p xy 1 ^ 2) = r * g := by
    rw [hd, hd, show (xy 0 * g) ^ 2 + (xy 1 * g) ^ 2 = (r * g) ^ 2 by rw [mul_pow r g, hr2]; ring,
      Real.sqrt_sq (by positivity)]
  have hroot := k1Radius_root (-(r * g) / (2 * k 0)) (-1 / (3 * k 0))
  have hrad : k1Radius (-(r * g) / (2 * k 0)) (-1 / (3 * k 0)) = r := by
    rcases lt_or_gt_of_ne hk with hneg | hpos
    · set Q := -1 / (3 * k 0) with hQ
      have hQpos : 0 < Q := by rw [hQ]; exact div_pos_of_neg_of_neg (by norm_num) (by linarith)
      have hkQ : k 0 * Q = -1 / 3 := by rw [hQ]; field_simp
      have hR : -(r * g) / (2 * k 0) = (3 * Q * r - r ^ 3) / 2 := by
        rw [div_eq_iff (by simpa using hk), hg]
        linear_combination (-3 * r) * hkQ
      have hlt : r ^ 2 < Q := by
        have : 0 < Q * (1 + 3 * k 0 * r ^ 2) := mul_pos hQpos hmono
        nlinarith
      rw [hR] at hroot ⊢
      have hR0 : 0 ≤ (3 * Q * r - r ^ 3) / 2 := by nlinarith
      have h3 : ((3 * Q * r - r ^ 3) / 2) ^ 2 < Q ^ 3 := by
        have : Q ^ 3 - ((3 * Q * r - r ^ 3) / 2) ^ 2 = (Q - r ^ 2) ^ 2 * (4 * Q - r ^ 2) / 4 := by ring
        have h4 : 0 < (Q - r ^ 2) ^ 2 * (4 * Q - r ^ 2) / 4 := by
          have : 0 < Q - r ^ 2 := by linarith
          have : 0 < 4 * Q - r ^ 2 := by linarith
          positivity
        linarith
      obtain ⟨hs0, hs1⟩ := k1Radius_small _ Q hR0 h3
      set s := k1Radius ((3 * Q * r - r ^ 3) / 2) Q with hs
      have hsq : s ^ 2 ≤ Q := by
        calc s ^ 2 ≤ Real.sqrt Q ^ 2 := by gcongr
          _ = Q := Real.sq_sqrt hQpos.le
      have e : (s - r) * (s ^ 2 + s * r + r ^ 2 - 3 * Q) = 0 := by linear_combination hroot
      rcases mul_eq_zero.mp e with h1 | h1
      · linarith
      · exfalso
        nlinarith [sq_nonneg (s - r)]
    · set s := k1Radius (-(r * g) / (2 * k 0)) (-1 / (3 * k 0)) with hs
      apply radius_unique_pos (k 0) hpos
      field_simp at hroot
      rw [← hg]
      linear_combination hroot
  rw [undistort_k1 k p h]
  funext i
  rw [undistortK1_form (k 0) _ hx' i, hnorm, hrad, hd]
  field_simp

/-- C19: for `k[0] > 0` every point is the distorted image of exactly one point. -/
theorem k1_pos_unique (k : Fin 6 → ℝ) (p : V2) (h : OnlyK1 k p) (hpos : 0 < k 0) (xy : V2) :
    ∃! u : V2, distort k p u = xy := by
  have hinj : ∀ u w : V2, distort k p u = distort k p w → u = w := by
    intro u w huw
    have e0 := congrFun huw 0
    have e1 := congrFun huw 1
    rw [distort_k1 k p h, distort_k1 k p h] at e0 e1
    set a := u 0 ^ 2 + u 1 ^ 2 with ha
    set b := w 0 ^ 2 + w 1 ^ 2 with hb
    have ha0 : 0 ≤ a := by positivity
    have hb0 : 0 ≤ b := by positivity
    have hsq : a * (1 + k 0 * a) ^ 2 = b * (1 + k 0 * b) ^ 2 := by
      have h1 : a * (1 + k 0 * a) ^ 2 = (u 0 * (1 + k 0 * a)) ^ 2 + (u 1 * (1 + k 0 * a)) ^ 2 := by rw [ha]; ring
      have h2 : b * (1 + k 0 * b) ^ 2 = (w 0 * (1 + k 0 * b)) ^ 2 + (w 1 * (1 + k 0 * b)) ^ 2 := by rw [hb]; ring
      rw [h1, h2, e0, e1]
    have hab : a = b := by
      have hr : Real.sqrt a * (1 + k 0 * Real.sqrt a ^ 2) = Real.sqrt b * (1 + k 0 * Real.sqrt b ^ 2) := by
        rw [Real.sq_sqrt ha0, Real.sq_sqrt hb0]
        have p1 : 0 ≤ Real.sqrt a * (1 + k 0 * a) := by positivity
        have p2 : 0 ≤ Real.sqrt b * (1 + k 0 * b) := by positivity
        rw [← Real.sqrt_sq p1, ← Real.sqrt_sq p2, mul_pow, mul_pow, Real.sq_sqrt ha0, Real.sq_sqrt hb0, hsq]
      have := radius_unique_pos (k 0) hpos _ _ hr
      rw [← Real.sq_sqrt ha0, ← Real.sq_sqrt hb0, this]
    have hg : 1 + k 0 * b ≠ 0 := by positivity
    rw [hab] at e0 e1
    funext i
    fin_cases i
    · exact mul_right_cancel₀ hg e0
    · exact mul_right_cancel₀ hg e1
  have hex : ∃ u : V2, distort k p u = xy := by
    by_cases hx : xy 0 ≠ 0 ∨ xy = 0
    · exact ⟨_, distort_undistort_k1_partial k p h xy hx⟩
    · push Not at hx
      -- swap the coordinates
      have hy : xy 1 ≠ 0 := by
        intro hy
        apply hx.2
        funext i; fin_cases i
        · exact hx.1
        · exact hy
      have hs := distort_undistort_k1_partial k p h ![xy 1, xy 0] (Or.inl (by simpa using hy))
      set u := undistort k p ![xy 1, xy 0] with hu
      refine ⟨![u 1, u 0], ?_⟩
      funext i
      have e0 := congrFun hs 0
      have e1 := congrFun hs 1
      rw [distort_k1 k p h] at e0 e1 ⊢
      simp only [Matrix.cons_val_zero, Matrix.cons_val_one] at e0 e1 ⊢
      fin_cases i
      · simpa [add_comm] using e1
      · simpa [add_comm] using e0
  obtain ⟨u, hu⟩ := hex
  exact ⟨u, hu, fun w hw => hinj w u (hw.trans hu.symm)⟩

/-- C15, C19: with `k[0]` as the only distortion, `uv_to_xyz` followed by `xyz_to_uv` is exact for every image point off
the principal column. -/
theorem uv_to_xyz_to_uv_k1 (cam : Camera) (hf : ∀ i, cam.vec.f i ≠ 0) (h : OnlyK1 cam.vec.k cam.vec.p)
    (uv : V2) (hu : uv 0 ≠ cam.vec.imgsz 0 / 2 + cam.vec.c 0) (depth : ℝ) (hdep : 0 < depth) :
    cam.xyzToUv (cam.uvToXyz uv true depth) true = (some uv, depth) := by
  have e : (fun i => (uv i - ((cam.vec.imgsz i : ℝ) * 0.5 + cam.vec.c i)) * (1 / cam.vec.f i)) =
      fun i => (uv i - ((cam.vec.imgsz i : ℝ) / 2 + cam.vec.c i)) / cam.vec.f i := by
    funext i
    have := hf i
    norm_num
    field_simp
  apply uv_to_xyz_to_uv cam hf uv depth hdep
  unfold Camera.uvToXy
  rw [e]
  apply distort_undistort_k1_partial _ _ h
  left
  exact div_ne_zero (sub_ne_zero.mpr hu) (hf 0)

/-! ### C20 -/

/-- C20: a point that one iteration leaves unchanged is an exact solution (where the radial factor is non-zero). -/
theorem oulu_fixed_is_solution (k : Fin 6 → ℝ) (p : V2) (hkp : k ≠ 0 ∨ p ≠ 0) (xy u : V2)
    (hr : radialDistortion k (u 0 ^ 2 + u 1 ^ 2) ≠ 0) (hfix : ouluStep k p xy u = u) : distort k p u = xy := by
  funext i
  have hf := congrFun hfix i
  by_cases hk : k = 0
  · have hp : p ≠ 0 := by rcases hkp with h | h; exact absurd hk h; exact h
    simp only [ouluStep, hk, hp, ne_eq, not_false_iff, and_self, if_true] at hf
    simp only [distort, hk, hp, and_false, if_false, ne_eq, not_true, not_false_iff, if_true]
    linarith
  · have hf' : (xy i - tangentialDistortion p u (u 0 ^ 2 + u 1 ^ 2) i) * (1 / radialDistortion k (u 0 ^ 2 + u 1 ^ 2)) = u i := by
      simpa [ouluStep, hk] using hf
    rw [mul_one_div, div_eq_iff hr] at hf'
    by_cases hp : p = 0
    · have ht : tangentialDistortion p u (u 0 ^ 2 + u 1 ^ 2) i = 0 := by
        subst hp; fin_cases i <;> simp [tangentialDistortion]
      simp only [distort, hk, hp, false_and, if_false, ne_eq, not_true, not_false_iff, if_true]
      rw [ht] at hf'; linarith
    · simp only [distort, hk, hp, false_and, if_false, ne_eq, not_false_iff, if_true]
      linarith

/-- C20: conversely the true undistorted point is left unchanged by an iteration. -/
theorem oulu_solution_is_fixed (k : Fin 6 → ℝ) (p : V2) (hkp : k ≠ 0 ∨ p ≠ 0) (u : V2)
    (hr : radialDistortion k (u 0 ^ 2 + u 1 ^ 2) ≠ 0) : ouluStep k p (distort k p u) u = u := by
  funext i
  by_cases hk : k = 0
  · have hp : p ≠ 0 := by rcases hkp with h | h; exact absurd hk h; exact h
    simp only [ouluStep, hk, hp, ne_eq, not_false_iff, and_self, if_true]
    simp only [distort, hk, hp, and_false, if_false, ne_eq, not_true, not_false_iff, if_true]
    ring
  · have hstep : ouluStep k p (distort k p u) u i =
        (distort k p u i - tangentialDistortion p u (u 0 ^ 2 + u 1 ^ 2) i) * (1 / radialDistortion k (u 0 ^ 2 + u 1 ^ 2)) := by
      simp [ouluStep, hk]
    rw [hstep, mul_one_div, div_eq_iff hr]
    by_cases hp : p = 0
    · have ht : tangentialDistortion p u (u 0 ^ 2 + u 1 ^ 2) i = 0 := by
        subst hp; fin_cases i <;> simp [tangentialDistortion]
      rw [ht]
      simp only [distort, hk, hp, false_and, if_false, ne_eq, not_true, not_false_iff, if_true]
      ring
    · simp only [distort, hk, hp, false_and, if_false, ne_eq, not_false_iff, if_true]
      ring

/-- C20: without distortion undistorting returns its input, and distorting too. -/
theorem undistort_none (xy : V2) : undistort 0 0 xy = xy ∧ distort 0 0 xy = xy := by
  simp [undistort, distort]

private theorem oulu_zip (k : Fin 6 → ℝ) (p : V2) (xys uxys : List V2) (h : uxys.length = xys.length) :
    (List.zipWith (ouluStep k p) xys uxys).length = xys.length := by simp [h]

/-- C20: with a tolerance and starting points `init`, the iteration ends after at most `n` steps; either every one of
its points distorts to within the tolerance (in camera units) of the observed one in both coordinates, or all `n`
steps were used. -/
theorem oulu_early_exit (k : Fin 6 → ℝ) (p : V2) (fmean tol : ℝ) (xys : List V2) (n : Nat) (init : List V2)
    (hlen : init.length = xys.length) :
    let res := undistortOulu k p fmean tol xys n init
    res.length = xys.length ∧ ((∀ q ∈ List.zip xys res, ∀ i, |distort k p q.2 i - q.1 i| < tol / fmean) ∨
      res = (List.zipWith (ouluStep k p) xys)^[n] init) := by
  induction n generalizing init with
  | zero => exact ⟨hlen, Or.inr rfl⟩
  | succ n ih =>
    simp only [undistortOulu]
    split
    · rename_i h
      exact ⟨by simp [hlen], Or.inl h.2⟩
    · have := ih (List.zipWith (ouluStep k p) xys init) (oulu_zip k p xys init hlen)
      simpa [Function.iterate_succ_apply] using this

/-- C20: the iteration stops at the first step at which all points are within a positive tolerance, and does not stop before the last step
without one. -/
theorem oulu_exit_first (k : Fin 6 → ℝ) (p : V2) (fmean tol : ℝ) (xys : List V2) (n : Nat) (init : List V2) :
    (tol ≤ 0 → undistortOulu k p fmean tol xys n init = (List.zipWith (ouluStep k p) xys)^[n] init) ∧
    (∀ m, 0 < tol → 1 ≤ m → m ≤ n →
      (∀ q ∈ List.zip xys ((List.zipWith (ouluStep k p) xys)^[m] init), ∀ i, |distort k p q.2 i - q.1 i| < tol / fmean) →
      (∀ j, 1 ≤ j → j < m →
        ¬ ∀ q ∈ List.zip xys ((List.zipWith (ouluStep k p) xys)^[j] init), ∀ i, |distort k p q.2 i - q.1 i| < tol / fmean) →
      undistortOulu k p fmean tol xys n init = (List.zipWith (ouluStep k p) xys)^[m] init) := by
  induction n generalizing init with
  | zero => exact ⟨fun _ => rfl, fun m _ h1 h2 => by omega⟩
  | succ n ih =>
    obtain ⟨ih1, ih2⟩ := ih (List.zipWith (ouluStep k p) xys init)
    constructor
    · intro h
      simp only [undistortOulu]
      rw [if_neg (fun hc => absurd hc.1 (not_lt.mpr h)), ih1 h, Function.iterate_succ_apply]
    · intro m ht h1 h2 hm hj
      simp only [undistortOulu]
      obtain ⟨m, rfl⟩ : ∃ m', m = m' + 1 := ⟨m - 1, by omega⟩
      rcases Nat.eq_zero_or_pos m with rfl | hpos
      · rw [if_pos ⟨ht, by simpa using hm⟩]
        rfl
      · have := hj 1 le_rfl (by omega)
        rw [Function.iterate_one] at this
        rw [if_neg (fun hc => this hc.2), ih2 m ht hpos (by omega) (by simpa [Function.iterate_succ_apply] using hm)
          (fun j hj1 hj2 => by simpa [Function.iterate_succ_apply] using hj (j + 1) (by omega) (by omega)), Function.iterate_succ_apply]

/-- C20 (limit of the scheme): the default 20 iterations without early exit need not converge, and nothing tells the
caller: for `p = (0, 1/3)` the point `(1, 0)` is undistorted to itself although distorting it gives `(2, 0)`. -/
theorem oulu_default_violated : undistort 0 ![0, 1 / 3] ![1, 0] = ![1, 0] ∧
    distort 0 ![0, 1 / 3] (undistort 0 ![0, 1 / 3] ![1, 0]) = ![2, 0] := by
  have hp : (![0, 1 / 3] : V2) ≠ 0 := by
    intro h; have := congrFun h 1; simp at this
  have s1 : ouluStep 0 ![0, 1 / 3] ![1, 0] ![1, 0] = ![0, 0] := by
    funext i
    simp only [ouluStep, hp, ne_eq, not_false_iff, and_self, if_true]
    fin_cases i <;> simp [tangentialDistortion] <;> norm_num
  have s0 : ouluStep 0 ![0, 1 / 3] ![1, 0] ![0, 0] = ![1, 0] := by
    funext i
    simp only [ouluStep, hp, ne_eq, not_false_iff, and_self, if_true]
    fin_cases i <;> simp [tangentialDistortion]
  have hu : undistort 0 ![0, 1 / 3] ![1, 0] = ![1, 0] := by
    unfold undistort
    rw [if_neg (fun h => hp h.2), if_neg (fun h => h.1 rfl)]
    simp only [Function.iterate_succ_apply, Function.iterate_zero, id, s1, s0]
  refine ⟨hu, ?_⟩
  rw [hu]
  funext i
  simp only [distort, hp, and_false, if_false, ne_eq, not_true, not_false_iff, if_true]
  fin_cases i <;> simp [tangentialDistortion] <;> norm_num

/-! ### Non-vacuity -/

/-- A typical lens, `k1 = -0.1`, and the off-axis point `(0.5, 0.25)`. -/
example : OnlyK1 ![-0.1, 0, 0, 0, 0, 0] 0 ∧ (![0.5, 0.25] : V2) 0 ≠ 0 ∧
    0 < 1 + 3 * (![-0.1, 0, 0, 0, 0, 0] : Fin 6 → ℝ) 0 * ((![0.5, 0.25] : V2) 0 ^ 2 + (![0.5, 0.25] : V2) 1 ^ 2) := by
  refine ⟨⟨by norm_num, fun i hi => ?_, rfl⟩, by norm_num, by norm_num⟩
  fin_cases i <;> simp_all

/-- The radial factor of such a lens with `k2` as well is non-zero at `(0.5, 0.25)`. -/
example : radialDistortion ![-0.1, 0.01, 0, 0, 0, 0] (0.5 ^ 2 + 0.25 ^ 2) ≠ 0 := by
  unfold radialDistortion
  simp [show (![-0.1, 0.01, 0, 0, 0, 0] : Fin 6 → ℝ) 2 = 0 from rfl, show (![-0.1, 0.01, 0, 0, 0, 0] : Fin 6 → ℝ) 3 = 0 from rfl,
    show (![-0.1, 0.01, 0, 0, 0, 0] : Fin 6 → ℝ) 4 = 0 from rfl, show (![-0.1, 0.01, 0, 0, 0, 0] : Fin 6 → ℝ) 5 = 0 from rfl]
  norm_num

end Glimpse
