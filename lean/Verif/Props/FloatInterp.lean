import Verif.Model.FloatInterp
import Verif.Model.RasterInterp
import Verif.Props.FloatMotion

/-!
C143: rasters interpolated in time in double precision.
-/
set_option autoImplicit false
set_option linter.unusedSimpArgs false
set_option linter.unusedSectionVars false

namespace Glimpse.FloatInterp
open Glimpse.Double Glimpse.FloatProject Glimpse.FloatMotion

variable {r : ℚ → ℚ}

theorem r_zero (hr : Nearest r) : r 0 = 0 := hr.exact 0 ⟨0, 0, by norm_num, by norm_num⟩

theorem r_nonneg (hr : Nearest r) {x : ℚ} (h : 0 ≤ x) : 0 ≤ r x := by
  rw [← r_zero hr]; exact hr.mono _ _ h

theorem r_nonpos (hr : Nearest r) {x : ℚ} (h : x ≤ 0) : r x ≤ 0 := by
  rw [← r_zero hr]; exact hr.mono _ _ h

theorem r_pos (hr : Nearest r) {x : ℚ} (h : 0 < x) : 0 < r x := by
  have h1 := hr.near x
  rw [abs_of_pos h] at h1
  have h2 := (abs_le.1 h1).1
  have : x / 2 ^ 53 < x := div_lt_self h (by norm_num)
  linarith

/-! ### Order -/

theorem scale_mono (hr : Nearest r) (dt : Bool) (x0 x1 : ℚ) (hx : x0 < x1) {a b : ℚ} (h : a ≤ b) : scale r dt x0 x1 a ≤ scale r dt x0 x1 b := by
  unfold scale
  have hp : 0 < x1 - x0 := by linarith
  split
  · exact hr.mono _ _ (div_le_div_of_nonneg_right (by linarith) hp.le)
  · exact hr.mono _ _ (div_le_div_of_nonneg_right (hr.mono _ _ (by linarith)) (r_pos hr hp).le)

theorem scale_start (hr : Nearest r) (dt : Bool) (x0 x1 : ℚ) : scale r dt x0 x1 x0 = 0 := by
  unfold scale
  split <;> simp [r_zero hr]

theorem scale_end (hr : Nearest r) (dt : Bool) (x0 x1 : ℚ) (hx : x0 < x1) : scale r dt x0 x1 x1 = 1 := by
  have hp : 0 < x1 - x0 := by linarith
  have h1 : r 1 = 1 := hr.exact 1 ⟨1, 0, by norm_num, by norm_num⟩
  unfold scale
  split
  · rw [div_self hp.ne', h1]
  · rw [div_self (r_pos hr hp).ne', h1]

/-- C143: the result is the first value at the first position, exactly. -/
theorem float_interpolate_start (hr : Nearest r) (dt : Bool) (x0 x1 z0 z1 : ℚ) (hz : IsDouble z0) : mean r dt x0 x1 x0 z0 z1 = z0 := by
  unfold mean
  rw [scale_start hr, mul_zero, r_zero hr, add_zero, hr.exact z0 hz]

/-- C143: two equal values give that value, anywhere. -/
theorem float_interpolate_equal (hr : Nearest r) (dt : Bool) (x0 x1 xi z : ℚ) (hz : IsDouble z) : mean r dt x0 x1 xi z z = z := by
  unfold mean
  rw [sub_self, r_zero hr, zero_mul, r_zero hr, add_zero, hr.exact z hz]

/-- C143: results never go against the direction from the first value to the second, within or beyond the positions. -/
theorem float_interpolate_mono (hr : Nearest r) (dt : Bool) (x0 x1 z0 z1 : ℚ) (hx : x0 < x1) {a b : ℚ} (h : a ≤ b) :
    (z0 ≤ z1 → mean r dt x0 x1 a z0 z1 ≤ mean r dt x0 x1 b z0 z1) ∧ (z1 ≤ z0 → mean r dt x0 x1 b z0 z1 ≤ mean r dt x0 x1 a z0 z1) := by
  have hs := scale_mono hr dt x0 x1 hx h
  unfold mean
  constructor
  · intro hz
    have hd : 0 ≤ r (z1 - z0) := r_nonneg hr (by linarith)
    have := hr.mono _ _ (mul_le_mul_of_nonneg_left hs hd)
    exact hr.mono _ _ (by linarith)
  · intro hz
    have hd : r (z1 - z0) ≤ 0 := r_nonpos hr (by linarith)
    have := hr.mono _ _ (mul_le_mul_of_nonpos_left hs hd)
    exact hr.mono _ _ (by linarith)

/-- C143: if the difference of the values is a double (as for values within a factor of two, or small multiples of a power of two), the result is the
second value at the second position, and between the values everywhere between the positions. -/
theorem float_interpolate_end (hr : Nearest r) (dt : Bool) (x0 x1 z0 z1 : ℚ) (hx : x0 < x1) (h0 : IsDouble z0) (h1 : IsDouble z1)
    (hd : IsDouble (z1 - z0)) :
    mean r dt x0 x1 x1 z0 z1 = z1 ∧ ∀ xi, x0 ≤ xi → xi ≤ x1 →
      min z0 z1 ≤ mean r dt x0 x1 xi z0 z1 ∧ mean r dt x0 x1 xi z0 z1 ≤ max z0 z1 := by
  have he : mean r dt x0 x1 x1 z0 z1 = z1 := by
    unfold mean
    rw [scale_end hr dt x0 x1 hx, mul_one, hr.exact _ hd, hr.exact _ hd, show z0 + (z1 - z0) = z1 by ring, hr.exact _ h1]
  refine ⟨he, fun xi ha hb => ?_⟩
  have hs := float_interpolate_start hr dt x0 x1 z0 z1 h0
  have m1 := float_interpolate_mono hr dt x0 x1 z0 z1 hx ha
  have m2 := float_interpolate_mono hr dt x0 x1 z0 z1 hx hb
  rw [hs] at m1
  rw [he] at m2
  rcases le_total z0 z1 with h | h
  · rw [min_eq_left h, max_eq_right h]
    exact ⟨m1.1 h, m2.1 h⟩
  · rw [min_eq_right h, max_eq_left h]
    exact ⟨m2.2 h, m1.2 h⟩

/-- A double below one is below it by `2 ^ -53` at least. -/
theorem double_below_one {s : ℚ} (hs : IsDouble s) (h : s < 1) : s ≤ 1 - 1 / 2 ^ 53 := by
  obtain ⟨m, e, hm, rfl⟩ := hs
  have hm' : (m : ℚ) < 2 ^ 53 := by exact_mod_cast (abs_lt.1 hm).2
  rcases le_or_gt (-53) e with he | he
  · obtain ⟨k, hk⟩ : ∃ k : ℕ, e = -53 + k := ⟨(e + 53).toNat, by omega⟩
    have e1 : (m : ℚ) * 2 ^ e = ((m * 2 ^ k : ℤ) : ℚ) / 2 ^ 53 := by
      rw [hk, zpow_split]
      push_cast
      rw [zpow_natCast]
      norm_num
      ring
    rw [e1] at h ⊢
    rw [div_lt_one (by norm_num)] at h
    have h2 : m * 2 ^ k ≤ 2 ^ 53 - 1 := by
      have : m * 2 ^ k < 2 ^ 53 := by exact_mod_cast h
      omega
    have h3 : ((m * 2 ^ k : ℤ) : ℚ) ≤ 2 ^ 53 - 1 := by exact_mod_cast h2
    rw [div_le_iff₀ (by norm_num)]
    norm_num at h3 ⊢
    linarith
  · have h1 : (2 : ℚ) ^ e ≤ 2 ^ (-54 : ℤ) := zpow_le_zpow_right₀ (by norm_num) (by omega)
    have h0 : (0 : ℚ) < 2 ^ e := by positivity
    have : (m : ℚ) * 2 ^ e ≤ 2 ^ 53 * 2 ^ (-54 : ℤ) := by
      calc (m : ℚ) * 2 ^ e ≤ 2 ^ 53 * 2 ^ e := mul_le_mul_of_nonneg_right hm'.le h0.le
        _ ≤ _ := by gcongr
    refine this.trans ?_
    norm_num

theorem step_below (hr : Nearest r) {z0 z1 s : ℚ} (hz : z0 ≤ z1) (h1 : IsDouble z1) (hs : IsDouble s) (h0 : 0 ≤ s) (hlt : s < 1) :
    r (z0 + r (r (z1 - z0) * s)) ≤ z1 := by
  suffices h : r (r (z1 - z0) * s) ≤ z1 - z0 by
    have := hr.mono _ _ (show z0 + r (r (z1 - z0) * s) ≤ z1 by linarith)
    rwa [hr.exact z1 h1] at this
  have hd : 0 ≤ r (z1 - z0) := r_nonneg hr (by linarith)
  have hle : r (r (z1 - z0) * s) ≤ r (z1 - z0) := by
    have := hr.mono _ _ (mul_le_of_le_one_right hd hlt.le)
    rwa [hr.exact _ (hr.double _)] at this
  rcases le_or_gt (r (z1 - z0)) (z1 - z0) with h | h
  · exact hle.trans h
  · by_contra hc
    push Not at hc
    have hp : 0 < r (z1 - z0) := by linarith
    have hs' := double_below_one hs hlt
    have hn := hr.near (r (z1 - z0) * s)
    rw [abs_of_nonneg (mul_nonneg hd h0)] at hn
    have hn' := (abs_le.1 hn).2
    have hbelow : r (r (z1 - z0) * s) < r (z1 - z0) := by
      have h2 : r (z1 - z0) * s + r (z1 - z0) * s / 2 ^ 53 = r (z1 - z0) * (s * (1 + 1 / 2 ^ 53)) := by ring
      have h3 : s * (1 + 1 / 2 ^ 53) < 1 := by
        have : s * (1 + 1 / 2 ^ 53) ≤ (1 - 1 / 2 ^ 53) * (1 + 1 / 2 ^ 53) := mul_le_mul_of_nonneg_right hs' (by norm_num)
        refine lt_of_le_of_lt this ?_
        norm_num
      have h4 := mul_lt_mul_of_pos_left h3 hp
      linarith
    have := hr.mono _ _ hc.le
    rw [hr.exact _ (hr.double _)] at this
    linarith

/-- Rounding with the signs exchanged. -/
theorem nearest_neg (hr : Nearest r) : Nearest (fun x => -r (-x)) where
  mono := fun x y h => neg_le_neg (hr.mono _ _ (neg_le_neg h))
  exact := fun x h => by rw [hr.exact _ (isDouble_neg x h), neg_neg]
  double := fun x => isDouble_neg _ (hr.double _)
  near := fun x => by
    have := hr.near (-x)
    rw [abs_neg] at this
    rwa [show -r (-x) - x = -(r (-x) - -x) by ring, abs_neg]

/-- C143: as long as the fraction of the way is less than one after rounding, the result is between the values. -/
theorem float_interpolate_between (hr : Nearest r) (dt : Bool) (x0 x1 xi z0 z1 : ℚ) (hx : x0 < x1) (h0 : IsDouble z0) (h1 : IsDouble z1) (hi : x0 ≤ xi)
    (hs : scale r dt x0 x1 xi < 1) : min z0 z1 ≤ mean r dt x0 x1 xi z0 z1 ∧ mean r dt x0 x1 xi z0 z1 ≤ max z0 z1 := by
  have hst := float_interpolate_start hr dt x0 x1 z0 z1 h0
  have m1 := float_interpolate_mono hr dt x0 x1 z0 z1 hx hi
  rw [hst] at m1
  have hnn : 0 ≤ scale r dt x0 x1 xi := by rw [← scale_start hr dt x0 x1]; exact scale_mono hr dt x0 x1 hx hi
  have hsd : IsDouble (scale r dt x0 x1 xi) := by unfold scale; split <;> exact hr.double _
  rcases le_total z0 z1 with h | h
  · rw [min_eq_left h, max_eq_right h]
    exact ⟨m1.1 h, step_below hr h h1 hsd hnn hs⟩
  · rw [min_eq_right h, max_eq_left h]
    refine ⟨?_, m1.2 h⟩
    have := step_below (nearest_neg hr) (neg_le_neg h) (isDouble_neg _ h1) hsd hnn hs
    unfold mean
    rw [show -(-z1 - -z0) = z1 - z0 by ring] at this
    rw [show -(-r (z1 - z0) * scale r dt x0 x1 xi) = r (z1 - z0) * scale r dt x0 x1 xi by ring] at this
    rw [show -(-z0 + -r (r (z1 - z0) * scale r dt x0 x1 xi)) = z0 + r (r (z1 - z0) * scale r dt x0 x1 xi) by ring] at this
    linarith

/-- C143: between two datetimes (of microseconds) at most 285 years apart, results are between the values. -/
theorem float_interpolate_datetimes (hr : Nearest r) (t0 t1 t : ℤ) (ht : t0 ≤ t) (ht' : t < t1) (hl : t1 - t0 ≤ 2 ^ 53) (z0 z1 : ℚ) (h0 : IsDouble z0)
    (h1 : IsDouble z1) : min z0 z1 ≤ mean r true t0 t1 t z0 z1 ∧ mean r true t0 t1 t z0 z1 ≤ max z0 z1 := by
  have hp : (0 : ℚ) < t1 - t0 := by
    have : t0 < t1 := by omega
    have : (t0 : ℚ) < t1 := by exact_mod_cast this
    linarith
  refine float_interpolate_between hr true t0 t1 t z0 z1 (by linarith) h0 h1 (by exact_mod_cast ht) ?_
  unfold scale
  rw [if_pos rfl]
  have hle : ((t : ℚ) - t0) / (t1 - t0) ≤ 1 - 1 / 2 ^ 53 := by
    rw [div_le_iff₀ hp]
    have e1 : (t : ℚ) + 1 ≤ t1 := by exact_mod_cast ht'
    have e2 : (t1 : ℚ) - t0 ≤ 2 ^ 53 := by exact_mod_cast hl
    have : ((t1 : ℚ) - t0) / 2 ^ 53 ≤ 1 := by rw [div_le_one (by norm_num)]; exact e2
    linarith
  have hd : IsDouble (1 - 1 / 2 ^ 53) := ⟨2 ^ 53 - 1, -53, by norm_num, by norm_num⟩
  have := hr.mono _ _ hle
  rw [hr.exact _ hd] at this
  refine lt_of_le_of_lt this (by norm_num)

/-! ### Errors -/

theorem scale_rel (hr : Nearest r) (dt : Bool) (x0 x1 xi : ℚ) (hx : x0 < x1) :
    Rel 4 (scale r dt x0 x1 xi) ((xi - x0) / (x1 - x0) : ℚ) |(((xi - x0) / (x1 - x0) : ℚ) : ℝ)| := by
  unfold scale
  split
  · exact ((Rel.exact _).round hr).mono (by norm_num) le_rfl
  · have h1 := (Rel.exact (xi - x0)).round hr
    have h2 := inv_rel hr (x1 - x0) (by linarith)
    have h := (h1.mul h2).round hr
    rw [mul_one_div, mul_one_div, ← abs_mul, mul_one_div] at h
    push_cast at h ⊢
    exact h

/-- C143: the result is within `7 / 2 ^ 52` of the exact one (that of C29), relative to the sizes of the first value and of the change from it. -/
theorem float_interpolate_near (hr : Nearest r) (dt : Bool) (x0 x1 xi z0 z1 : ℚ) (hx : x0 < x1) :
    |mean r dt x0 x1 xi z0 z1 - (z0 + (z1 - z0) * ((xi - x0) / (x1 - x0)))| ≤
      7 / 2 ^ 52 * (|z0| + |(z1 - z0) * ((xi - x0) / (x1 - x0))|) := by
  have hs := scale_rel hr dt x0 x1 xi hx
  have hd := ((Rel.exact (z1 - z0)).round hr)
  have hm := (hd.mul hs).round hr
  have h := (((Rel.exact z0).mono (show 0 ≤ 6 by omega) le_rfl).add hm).round hr
  have h2 := h.2.trans (mul_le_mul_of_nonneg_right ((growth_le_mul 7 (by norm_num)).trans (show ((7 : ℕ) : ℝ) / 2 ^ 52 ≤ 7 / 2 ^ 52 by norm_num)) h.nonneg)
  rw [← abs_mul] at h2
  unfold mean
  have : ((|r (z0 + r (r (z1 - z0) * scale r dt x0 x1 xi)) - (z0 + (z1 - z0) * ((xi - x0) / (x1 - x0)))| : ℚ) : ℝ) ≤
      ((7 / 2 ^ 52 * (|z0| + |(z1 - z0) * ((xi - x0) / (x1 - x0))|) : ℚ) : ℝ) := by
    push_cast at h2 ⊢
    exact h2
  exact_mod_cast this

theorem min_rel {n : Nat} {x y : ℚ} {X Y : ℝ} (h0 : 0 ≤ x) (h0' : 0 ≤ y) (hX : 0 ≤ X) (hY : 0 ≤ Y) (hx : Rel n x X X) (hy : Rel n y Y Y) :
    Rel n (min x y) (min X Y) (min X Y) := by
  refine ⟨by rw [abs_of_nonneg (le_min hX hY)], ?_⟩
  have g : (0 : ℝ) ≤ (1 + 1 / 2 ^ 53) ^ n - 1 := by linarith [one_le_growth n]
  have k1 : (0 : ℝ) ≤ x := by exact_mod_cast h0
  have k2 : (0 : ℝ) ≤ y := by exact_mod_cast h0'
  have h1 := abs_le.1 hx.2
  have h2 := abs_le.1 hy.2
  rw [Rat.cast_min]
  generalize ((1 : ℝ) + 1 / 2 ^ 53) ^ n - 1 = e at *
  have low : ∀ {a A B : ℝ}, 0 ≤ a → 0 ≤ A → A ≤ B → -(e * B) ≤ a - B → -(e * A) ≤ a - A := by
    intro a A B ha hA hAB hB
    by_cases he : e ≤ 1
    · have := mul_nonneg (sub_nonneg.2 he) (sub_nonneg.2 hAB)
      nlinarith
    · have := mul_nonneg (sub_nonneg.2 (not_le.1 he).le) hA
      nlinarith
  rw [abs_le]
  rcases le_total X Y with h | h
  · rw [min_eq_left h]
    rcases le_total (x : ℝ) y with k | k
    · rw [min_eq_left k]; exact h1
    · rw [min_eq_right k]
      exact ⟨low k2 hX h h2.1, by linarith [h1.2]⟩
  · rw [min_eq_right h]
    rcases le_total (x : ℝ) y with k | k
    · rw [min_eq_left k]
      exact ⟨low k1 hY h h1.1, by linarith [h2.2]⟩
    · rw [min_eq_right k]; exact h2

theorem abs_rel {n : Nat} {x : ℚ} {X : ℝ} (h : Rel n x X |X|) : Rel n |x| |X| |X| := by
  refine ⟨by rw [abs_abs], le_trans ?_ h.2⟩
  rw [Rat.cast_abs]
  exact abs_abs_sub_abs_le _ _

theorem nearest_rel (hr : Nearest r) (dt : Bool) (x0 x1 xi : ℚ) (hx : x0 < x1) :
    Rel 4 (nearest r dt x0 x1 xi) (min |xi - x0| |xi - x1| / (x1 - x0) : ℚ) ((min |xi - x0| |xi - x1| / (x1 - x0) : ℚ) : ℝ) := by
  have hp : 0 < x1 - x0 := by linarith
  have hn : (0 : ℚ) ≤ min |xi - x0| |xi - x1| / (x1 - x0) := div_nonneg (le_min (abs_nonneg _) (abs_nonneg _)) hp.le
  have hn' : (0 : ℝ) ≤ ((min |xi - x0| |xi - x1| / (x1 - x0) : ℚ) : ℝ) := by exact_mod_cast hn
  unfold nearest
  split
  · have := ((Rel.exact (min |xi - x0| |xi - x1| / (x1 - x0))).round hr).mono (show 0 + 1 ≤ 4 by norm_num) le_rfl
    rwa [abs_of_nonneg hn'] at this
  · have h1 := abs_rel ((Rel.exact (xi - x0)).round hr)
    have h2 := abs_rel ((Rel.exact (xi - x1)).round hr)
    have h3 := min_rel (abs_nonneg _) (abs_nonneg _) (abs_nonneg _) (abs_nonneg _) h1 h2
    have h4 := inv_rel hr (x1 - x0) hp.ne'
    have hp' : (0 : ℝ) < ((x1 - x0 : ℚ) : ℝ) := by exact_mod_cast hp
    rw [abs_of_pos (one_div_pos.2 hp')] at h4
    have h := (h3.mul h4).round hr
    rw [mul_one_div, mul_one_div] at h
    push_cast at h ⊢
    exact h

/-- The variance is within `18 / 2 ^ 52` of the exact one, relative to itself. -/
theorem float_variance_near (hr : Nearest r) (dt : Bool) (x0 x1 xi z0 z1 s0 s1 : ℚ) (hx : x0 < x1) :
    |variance r dt x0 x1 xi z0 z1 s0 s1 - sigmaSq z0 z1 s0 s1 x0 x1 xi| ≤
      18 / 2 ^ 52 * sigmaSq z0 z1 s0 s1 x0 x1 xi := by
  have sq : ∀ {n : Nat} {x : ℚ} {X : ℝ}, Rel n x X |X| → Rel (n + n + 1) (r (x * x)) (X ^ 2) (X ^ 2) := by
    intro n x X h
    have := (h.mul h).round hr
    rw [abs_mul_abs_self, ← _root_.sq X] at this
    exact this
  have hs := sq (scale_rel hr dt x0 x1 xi hx)
  have h0 := sq (Rel.exact s0)
  have h1 := sq (Rel.exact s1)
  have h01 := (h0.add h1).round hr
  have hz := (((h0.mono (show 0 + 0 + 1 ≤ 12 by omega) le_rfl).add (((hs.mul h01).round hr).mono (show 4 + 4 + 1 + (0 + 0 + 1 + 1) + 1 ≤ 12 by omega) le_rfl)).round hr)
  have third : Rel 1 (r (1 / 3)) ((1 / 3 : ℚ) : ℝ) |((1 / 3 : ℚ) : ℝ)| := (Rel.exact (1 / 3)).round hr
  have hd := (third.mul ((Rel.exact (z1 - z0)).round hr)).round hr
  have hnn : (0 : ℝ) ≤ ((min |xi - x0| |xi - x1| / (x1 - x0) : ℚ) : ℝ) := by
    exact_mod_cast div_nonneg (le_min (abs_nonneg _) (abs_nonneg _)) (by linarith)
  have hdn := (hd.mul (nearest_rel hr dt x0 x1 xi hx)).round hr
  rw [← abs_mul] at hdn
  have hdn := hdn.mono le_rfl (mul_le_mul_of_nonneg_left (le_abs_self _) (abs_nonneg _))
  rw [← abs_mul] at hdn
  have hq := sq hdn
  have h := ((hz.mono (show 12 + 1 ≤ 17 by omega) le_rfl).add (hq.mono (by norm_num) le_rfl)).round hr
  have h2 := h.2.trans (mul_le_mul_of_nonneg_right ((growth_le_mul _ (by norm_num)).trans (show _ ≤ (18 : ℝ) / 2 ^ 52 by norm_num)) h.nonneg)
  have : ((|variance r dt x0 x1 xi z0 z1 s0 s1 - sigmaSq z0 z1 s0 s1 x0 x1 xi| : ℚ) : ℝ) ≤
      ((18 / 2 ^ 52 * sigmaSq z0 z1 s0 s1 x0 x1 xi : ℚ) : ℝ) := by
    unfold variance sigmaSq
    simp only
    push_cast at h2 ⊢
    exact h2
  exact_mod_cast this

/-- C143: the standard deviation (a rounded square root of the variance) is within `19 / 2 ^ 52` of the exact one, relative to itself. -/
theorem float_sigma_near (hr : Nearest r) (dt : Bool) (x0 x1 xi z0 z1 s0 s1 : ℚ) (hx : x0 < x1) (σ : ℝ)
    (hσ : |σ - Real.sqrt (variance r dt x0 x1 xi z0 z1 s0 s1 : ℚ)| ≤ Real.sqrt (variance r dt x0 x1 xi z0 z1 s0 s1 : ℚ) / 2 ^ 53) :
    |σ - Real.sqrt (sigmaSq z0 z1 s0 s1 x0 x1 xi : ℚ)| ≤ 19 / 2 ^ 52 * Real.sqrt (sigmaSq z0 z1 s0 s1 x0 x1 xi : ℚ) := by
  have hv := float_variance_near hr dt x0 x1 xi z0 z1 s0 s1 hx
  have hV : 0 ≤ sigmaSq z0 z1 s0 s1 x0 x1 xi := by
    unfold sigmaSq
    simp only
    positivity
  generalize variance r dt x0 x1 xi z0 z1 s0 s1 = v at *
  generalize sigmaSq z0 z1 s0 s1 x0 x1 xi = V at *
  have hv' : |(v : ℝ) - V| ≤ 18 / 2 ^ 52 * V := by
    have : ((|v - V| : ℚ) : ℝ) ≤ ((18 / 2 ^ 52 * V : ℚ) : ℝ) := by exact_mod_cast hv
    push_cast at this
    exact this
  have hV' : (0 : ℝ) ≤ V := by exact_mod_cast hV
  have h1 := abs_le.1 hv'
  have hv0 : (0 : ℝ) ≤ v := by
    have : (18 : ℝ) / 2 ^ 52 * V ≤ V := by
      have : (18 : ℝ) / 2 ^ 52 ≤ 1 := by norm_num
      nlinarith
    linarith [h1.1]
  have hd : |Real.sqrt v - Real.sqrt V| ≤ 18 / 2 ^ 52 * Real.sqrt V := by
    rcases eq_or_lt_of_le hV' with e | hp
    · have hv00 : (v : ℝ) = 0 := by
        rw [← e] at h1
        exact le_antisymm (by linarith [h1.2]) hv0
      rw [hv00, ← e]
      simp
    · have hS : 0 < Real.sqrt V := Real.sqrt_pos.2 hp
      have hs : 0 ≤ Real.sqrt (v : ℝ) := Real.sqrt_nonneg _
      have e1 : (Real.sqrt v - Real.sqrt V) * (Real.sqrt v + Real.sqrt V) = v - V := by
        have a := Real.mul_self_sqrt hv0
        have b := Real.mul_self_sqrt hV'
        nlinarith
      have e2 : |Real.sqrt v - Real.sqrt V| * (Real.sqrt v + Real.sqrt V) = |(v : ℝ) - V| := by
        rw [← e1, abs_mul, abs_of_nonneg (a := Real.sqrt v + Real.sqrt V) (by linarith)]
      have e3 : |Real.sqrt v - Real.sqrt V| * Real.sqrt V ≤ 18 / 2 ^ 52 * Real.sqrt V * Real.sqrt V := by
        calc _ ≤ |Real.sqrt v - Real.sqrt V| * (Real.sqrt v + Real.sqrt V) := by
              apply mul_le_mul_of_nonneg_left (by linarith) (abs_nonneg _)
          _ = |(v : ℝ) - V| := e2
          _ ≤ 18 / 2 ^ 52 * V := hv'
          _ = _ := by rw [mul_assoc, Real.mul_self_sqrt hV']
      exact le_of_mul_le_mul_right e3 hS
  have h2 := (abs_le.1 hd).2
  have hS := Real.sqrt_nonneg (V : ℝ)
  calc |σ - Real.sqrt V| = |(σ - Real.sqrt v) + (Real.sqrt v - Real.sqrt V)| := by ring_nf
    _ ≤ |σ - Real.sqrt v| + |Real.sqrt v - Real.sqrt V| := abs_add_le _ _
    _ ≤ Real.sqrt v / 2 ^ 53 + 18 / 2 ^ 52 * Real.sqrt V := add_le_add hσ hd
    _ ≤ 19 / 2 ^ 52 * Real.sqrt V := by
      norm_num at h2 ⊢
      linarith

/-- Exactness at the second position fails: the result may be past the second value, or lose it altogether. -/
theorem float_interpolate_end_violated :
    rnd (-9 / 10) < mean rnd false 0 1 1 (-4) (rnd (-9 / 10)) ∧ mean rnd true 0 1 1 (2 ^ 60) 1 = 0 := by decide +kernel

/-- ... and numbers may be so large that a position before the second counts as the second. -/
theorem float_interpolate_before_violated : scale rnd false (-1) (2 ^ 53) (2 ^ 53 - 1) = 1 := by decide +kernel

/-- Non-vacuity: a third of the way between two days, from -4 to the double nearest to -0.9. -/
example : min (-4) (rnd (-9 / 10)) ≤ mean rnd true 0 86400000000 28800000000 (-4) (rnd (-9 / 10)) ∧
    mean rnd true 0 86400000000 28800000000 (-4) (rnd (-9 / 10)) ≤ max (-4) (rnd (-9 / 10)) := by
  have h := float_interpolate_datetimes rnd_nearest 0 86400000000 28800000000 (by norm_num) (by norm_num) (by norm_num) (-4) (rnd (-9 / 10))
    ⟨-4, 0, by norm_num, by norm_num⟩ (rnd_double _)
  exact_mod_cast h

end Glimpse.FloatInterp
