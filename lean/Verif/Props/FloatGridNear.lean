import Verif.Props.FloatGrid

/-!
C123: `Grid` in double precision, for any limits: how far off indices can be.
-/
set_option autoImplicit false
set_option linter.unusedSimpArgs false
set_option linter.unusedSectionVars false

namespace Glimpse.FloatGrid
open Glimpse Glimpse.Double

/-- Rounding, in units of `D`. -/
theorem Nearest.rel {r : ℚ → ℚ} (hr : Nearest r) (x D y ε B : ℚ) (h : |x / D - y| ≤ ε) (hB : |y| + ε ≤ B) :
    |r x / D - y| ≤ ε + B / 2 ^ 53 := by
  have h1 : |r x / D - x / D| ≤ |x / D| / 2 ^ 53 := by
    rw [← sub_div, abs_div, abs_div, div_right_comm]
    have := hr.near x
    gcongr
  have h2 : |x / D| ≤ B := by
    calc |x / D| = |(x / D - y) + y| := by ring_nf
      _ ≤ |x / D - y| + |y| := abs_add_le _ _
      _ ≤ B := by linarith
  calc |r x / D - y| = |(r x / D - x / D) + (x / D - y)| := by ring_nf
    _ ≤ |r x / D - x / D| + |x / D - y| := abs_add_le _ _
    _ ≤ ε + B / 2 ^ 53 := by
      have : |x / D| / 2 ^ 53 ≤ B / 2 ^ 53 := by gcongr
      linarith

theorem d_ne {r : ℚ → ℚ} (hr : Nearest r) {a : GAxis} (hn : 0 < a.n) (hne : a.lo ≠ a.hi) : FloatGrid.d r a ≠ 0 := by
  unfold FloatGrid.d
  have hn' : (a.n : ℚ) ≠ 0 := by exact_mod_cast hn.ne'
  rw [Ne, hr.eq_zero_iff, div_eq_zero_iff, hr.eq_zero_iff, sub_eq_zero]
  rintro (h | h)
  · exact hne h.symm
  · exact hn' h

section
variable {r : ℚ → ℚ} (hr : Nearest r) {a : GAxis} (hn : 0 < a.n) (hne : a.lo ≠ a.hi)
include hr hn hne

/-- Number of cells from the first limit, at the computed centre of cell `k`. -/
theorem ratio_center_near (k : ℤ) (B : ℚ) (hB : |a.lo / FloatGrid.d r a| + |(k : ℚ)| + 1 ≤ B) (hBs : B ≤ 2 ^ 47) :
    |ratio r a (center r a k) - (k + 1 / 2)| ≤ 5 * B / 2 ^ 53 := by
  have hD := d_ne hr hn hne
  set D := FloatGrid.d r a with hDdef
  set l := a.lo / D with hl
  have l0 := abs_nonneg l
  have k0 := abs_nonneg (k : ℚ)
  have hB1 : 1 ≤ B := by linarith
  have hk : |k| ≤ 2 ^ 47 := by
    have : |(k : ℚ)| ≤ 2 ^ 47 := by linarith
    exact_mod_cast this
  obtain ⟨k1, k2⟩ := abs_le.mp hk
  have rk : r ((k : ℚ) + 1 / 2) = k + 1 / 2 := by
    apply hr.half _ (2 * k + 1) (by push_cast; ring)
    rw [abs_le]; constructor <;> omega
  have kh : |(k : ℚ) + 1 / 2| ≤ |(k : ℚ)| + 1 / 2 := (abs_add_le _ _).trans (by norm_num)
  unfold center
  rw [rk, ← hDdef]
  -- the product
  have e1 : |r (((k : ℚ) + 1 / 2) * D) / D - (k + 1 / 2)| ≤ 0 + B / 2 ^ 53 := by
    apply Nearest.rel hr
    · rw [mul_div_cancel_right₀ _ hD]; simp
    · linarith
  have e2 : |(r (((k : ℚ) + 1 / 2) * D) + a.lo) / D - (k + 1 / 2 + l)| ≤ 0 + B / 2 ^ 53 := by
    rw [add_div]
    have : r (((k : ℚ) + 1 / 2) * D) / D + a.lo / D - (k + 1 / 2 + l) = r (((k : ℚ) + 1 / 2) * D) / D - (k + 1 / 2) := by rw [hl]; ring
    rw [this]; exact e1
  have b2 : |(k : ℚ) + 1 / 2 + l| + (0 + B / 2 ^ 53) ≤ 5 / 4 * B := by
    have : |(k : ℚ) + 1 / 2 + l| ≤ |(k : ℚ) + 1 / 2| + |l| := abs_add_le _ _
    have : B / 2 ^ 53 ≤ B / 4 := by gcongr; norm_num
    linarith
  have e3 := Nearest.rel hr _ D _ _ _ e2 b2
  have e4 : |(r (r (((k : ℚ) + 1 / 2) * D) + a.lo) - a.lo) / D - (k + 1 / 2)| ≤ 0 + B / 2 ^ 53 + 5 / 4 * B / 2 ^ 53 := by
    rw [sub_div]
    have : r (r (((k : ℚ) + 1 / 2) * D) + a.lo) / D - a.lo / D - (k + 1 / 2) =
        r (r (((k : ℚ) + 1 / 2) * D) + a.lo) / D - (k + 1 / 2 + l) := by rw [hl]; ring
    rw [this]; exact e3
  have b4 : |(k : ℚ) + 1 / 2| + (0 + B / 2 ^ 53 + 5 / 4 * B / 2 ^ 53) ≤ 5 / 4 * B := by
    have : 0 + B / 2 ^ 53 + 5 / 4 * B / 2 ^ 53 ≤ B / 4 := by
      have : 0 + B / 2 ^ 53 + 5 / 4 * B / 2 ^ 53 = B * (9 / 2 ^ 55) := by ring
      rw [this]
      have : B * (9 / 2 ^ 55) ≤ B * (1 / 4) := mul_le_mul_of_nonneg_left (by norm_num) (by linarith)
      linarith
    linarith
  have e5 := Nearest.rel hr _ D _ _ _ e4 b4
  unfold ratio
  rw [← hDdef]
  have b5 : |r (r (r (((k : ℚ) + 1 / 2) * D) + a.lo) - a.lo) / D| ≤ 3 / 2 * B := by
    have h1 : |r (r (r (((k : ℚ) + 1 / 2) * D) + a.lo) - a.lo) / D| ≤
        |r (r (r (((k : ℚ) + 1 / 2) * D) + a.lo) - a.lo) / D - (k + 1 / 2)| + |(k : ℚ) + 1 / 2| := by
      calc _ = |(r (r (r (((k : ℚ) + 1 / 2) * D) + a.lo) - a.lo) / D - (k + 1 / 2)) + (k + 1 / 2)| := by ring_nf
        _ ≤ _ := abs_add_le _ _
    have : 0 + B / 2 ^ 53 + 5 / 4 * B / 2 ^ 53 + 5 / 4 * B / 2 ^ 53 = B * (14 / 2 ^ 55) := by ring
    have : B * (14 / 2 ^ 55) ≤ B * (1 / 4) := mul_le_mul_of_nonneg_left (by norm_num) (by linarith)
    linarith
  have e6 := hr.near_of _ _ _ _ e5 b5
  refine e6.trans ?_
  have : 0 + B / 2 ^ 53 + 5 / 4 * B / 2 ^ 53 + 5 / 4 * B / 2 ^ 53 + 3 / 2 * B / 2 ^ 53 = 5 * B / 2 ^ 53 := by ring
  linarith

/-- Number of cells from the first limit, at the second limit. -/
theorem ratio_hi_near (hns : (a.n : ℚ) ≤ 2 ^ 47) : |ratio r a a.hi - a.n| ≤ 4 * a.n / 2 ^ 53 := by
  have hD := d_ne hr hn hne
  have hn' : (0 : ℚ) < a.n := by exact_mod_cast hn
  have hDn : |FloatGrid.d r a - r (a.hi - a.lo) / a.n| ≤ |r (a.hi - a.lo) / a.n| / 2 ^ 53 := hr.near _
  have hid : ratio r a a.hi = r (r (a.hi - a.lo) / FloatGrid.d r a) := rfl
  rw [hid]
  generalize FloatGrid.d r a = D at *
  generalize r (a.hi - a.lo) = W at *
  set z := W / a.n with hz
  have hW : W = z * a.n := by rw [hz]; field_simp
  have hzD : |z / D - 1| ≤ 2 / 2 ^ 53 := by
    have hDp : 0 < |D| := abs_pos.mpr hD
    have h1 : |z| ≤ |D - z| + |D| := by
      calc |z| = |-(D - z) + D| := by ring_nf
        _ ≤ |-(D - z)| + |D| := abs_add_le _ _
        _ = _ := by rw [abs_neg]
    have h2 : |z| ≤ 2 * |D| := by
      have : |z| / 2 ^ 53 ≤ |z| / 2 := by gcongr; norm_num
      linarith
    have h3 : z / D - 1 = -(D - z) / D := by field_simp; ring
    rw [h3, abs_div, abs_neg, div_le_iff₀ hDp]
    have : |z| / 2 ^ 53 ≤ 2 * |D| / 2 ^ 53 := by gcongr
    linarith
  have h4 : |W / D - a.n| ≤ 2 * a.n / 2 ^ 53 := by
    have : W / D - a.n = (z / D - 1) * a.n := by rw [hW]; ring
    rw [this, abs_mul, abs_of_pos hn']
    calc _ ≤ 2 / 2 ^ 53 * (a.n : ℚ) := by gcongr
      _ = _ := by ring
  have b4 : |W / D| ≤ 2 * a.n := by
    calc |W / D| = |(W / D - a.n) + a.n| := by ring_nf
      _ ≤ |W / D - a.n| + |(a.n : ℚ)| := abs_add_le _ _
      _ ≤ 2 * a.n / 2 ^ 53 + a.n := by rw [abs_of_pos hn']; linarith
      _ ≤ 2 * a.n := by
        have : 2 * (a.n : ℚ) / 2 ^ 53 ≤ 2 * a.n / 2 := by gcongr; norm_num
        linarith
  have := hr.near_of _ _ _ _ h4 b4
  refine this.trans ?_
  have : 2 * (a.n : ℚ) / 2 ^ 53 + 2 * a.n / 2 ^ 53 = 4 * a.n / 2 ^ 53 := by ring
  linarith

end

/-- The two shifts by half a cell. -/
theorem shift_near {r : ℚ → ℚ} (hr : Nearest r) (x : ℚ) (B : ℚ) (hB1 : 1 ≤ B) (hx : |x| ≤ B) : |r (r (x - 1 / 2) + 1 / 2) - x| ≤ 4 * B / 2 ^ 53 := by
  have e1 : |x - 1 / 2 - (x - 1 / 2)| ≤ (0 : ℚ) := by simp
  have b1 : |x - 1 / 2| ≤ 3 / 2 * B := (abs_sub _ _).trans (by norm_num at *; linarith)
  have e2 := hr.near_of _ _ _ _ e1 b1
  have e3 : |r (x - 1 / 2) + 1 / 2 - x| ≤ 0 + 3 / 2 * B / 2 ^ 53 := by
    have : r (x - 1 / 2) + 1 / 2 - x = r (x - 1 / 2) - (x - 1 / 2) := by ring
    rw [this]; exact e2
  have b3 : |r (x - 1 / 2) + 1 / 2| ≤ 2 * B := by
    calc |r (x - 1 / 2) + 1 / 2| = |(r (x - 1 / 2) + 1 / 2 - x) + x| := by ring_nf
      _ ≤ |r (x - 1 / 2) + 1 / 2 - x| + |x| := abs_add_le _ _
      _ ≤ 2 * B := by
        have : 3 / 2 * B / 2 ^ 53 ≤ 3 / 2 * B / 2 := by gcongr; norm_num
        linarith
  have := hr.near_of _ _ _ _ e3 b3
  refine this.trans ?_
  have : 0 + 3 / 2 * B / 2 ^ 53 + 2 * B / 2 ^ 53 = 7 / 2 * B / 2 ^ 53 := by ring
  rw [this]; gcongr; norm_num

/-- The computed index of a computed centre, unsnapped: near to the number of the cell. -/
theorem index_center_near {r : ℚ → ℚ} (hr : Nearest r) {a : GAxis} (hn : 0 < a.n) (hne : a.lo ≠ a.hi) (k : ℤ) (B : ℚ)
    (hB : |a.lo / FloatGrid.d r a| + |(k : ℚ)| + 1 ≤ B) (hBs : B ≤ 2 ^ 47) :
    |index r a (center r a k) - k| ≤ B / 2 ^ 50 := by
  have h1 := ratio_center_near hr hn hne k B hB hBs
  have l0 := abs_nonneg (a.lo / FloatGrid.d r a)
  have k0 := abs_nonneg (k : ℚ)
  have e1 : |ratio r a (center r a k) - 1 / 2 - k| ≤ 5 * B / 2 ^ 53 := by
    have : ratio r a (center r a k) - 1 / 2 - k = ratio r a (center r a k) - (k + 1 / 2) := by ring
    rw [this]; exact h1
  have b1 : |ratio r a (center r a k) - 1 / 2| ≤ 2 * B := by
    calc _ = |(ratio r a (center r a k) - 1 / 2 - k) + k| := by ring_nf
      _ ≤ |ratio r a (center r a k) - 1 / 2 - k| + |(k : ℚ)| := abs_add_le _ _
      _ ≤ 2 * B := by
        have : 5 * B / 2 ^ 53 ≤ 5 * B / 5 := by
          have : 0 ≤ 5 * B := by linarith
          gcongr; norm_num
        linarith
  have := hr.near_of _ _ _ _ e1 b1
  refine this.trans ?_
  have h2 : 5 * B / 2 ^ 53 + 2 * B / 2 ^ 53 = 7 * B / 2 ^ 53 := by ring
  have h3 : B / 2 ^ 50 = 8 * B / 2 ^ 53 := by ring
  rw [h2, h3]
  gcongr
  · linarith
  · norm_num

theorem truncInt_near (x : ℚ) (k : ℤ) (hk : 0 ≤ k) (h : |x - k| < 1) : (truncInt x = k ∨ truncInt x = k - 1) ∧ (k = 0 → truncInt x = 0) := by
  obtain ⟨h1, h2⟩ := abs_lt.mp h
  unfold truncInt
  have hkq : (0 : ℚ) ≤ k := by exact_mod_cast hk
  split
  · rename_i h0
    rcases lt_or_ge x k with hx | hx
    · have : ⌊x⌋ = k - 1 := by rw [Int.floor_eq_iff]; push_cast; constructor <;> linarith
      refine ⟨Or.inr this, ?_⟩
      rintro rfl
      exfalso; norm_num at hx; linarith
    · have : ⌊x⌋ = k := by rw [Int.floor_eq_iff]; constructor <;> linarith
      exact ⟨Or.inl this, fun hh => by rw [this, hh]⟩
  · rename_i h0
    push Not at h0
    have hk0 : k = 0 := by
      have : (k : ℚ) < 1 := by linarith
      have : k < 1 := by exact_mod_cast this
      omega
    subst hk0
    have : ⌈x⌉ = 0 := by rw [Int.ceil_eq_iff]; push_cast at *; constructor <;> linarith
    exact ⟨Or.inl this, fun _ => this⟩

theorem back_center {r : ℚ → ℚ} {a : GAxis} (k : ℤ) : back r a true false k = center r a k := rfl

/-- Size of a grid: the offset of its origin and the number of cells, both in cells, are at most `2 ^ 40`. -/
structure Moderate (a : GAxis) : Prop where
  pos : 0 < a.n
  ne : a.lo ≠ a.hi
  n : a.n ≤ 2 ^ 40
  lo : |a.lo| ≤ 2 ^ 40 * |a.d|

/-- The computed cell size is near to the exact one. -/
theorem d_near {r : ℚ → ℚ} (hr : Nearest r) {a : GAxis} (hn : 0 < a.n) (hne : a.lo ≠ a.hi) : |FloatGrid.d r a / a.d - 1| ≤ 3 / 2 ^ 53 := by
  have hd := GAxis.d_ne hn hne
  have hn' : (a.n : ℚ) ≠ 0 := by exact_mod_cast hn.ne'
  have h0 : |(a.hi - a.lo) / (a.hi - a.lo) - 1| ≤ (0 : ℚ) := by
    rw [div_self (sub_ne_zero.mpr (Ne.symm hne))]; simp
  have h1 := Nearest.rel hr _ _ _ _ 1 h0 (by norm_num)
  have h2 : |r (a.hi - a.lo) / a.n / a.d - 1| ≤ 0 + 1 / 2 ^ 53 := by
    have : r (a.hi - a.lo) / a.n / a.d = r (a.hi - a.lo) / (a.hi - a.lo) := by
      unfold GAxis.d
      have hs := sub_ne_zero.mpr (Ne.symm hne)
      field_simp
    rw [this]; exact h1
  have h3 := Nearest.rel hr _ _ _ _ 2 h2 (by norm_num)
  refine h3.trans ?_
  norm_num

theorem lo_over_d {r : ℚ → ℚ} (hr : Nearest r) {a : GAxis} (h : Moderate a) : |a.lo / FloatGrid.d r a| ≤ 2 ^ 41 := by
  have hd := GAxis.d_ne h.pos h.ne
  have hD := d_ne hr h.pos h.ne
  have hdp : 0 < |a.d| := abs_pos.mpr hd
  have hDp : 0 < |FloatGrid.d r a| := abs_pos.mpr hD
  have h1 := d_near hr h.pos h.ne
  have h2 : |a.d| ≤ 2 * |FloatGrid.d r a| := by
    obtain ⟨h3, h4⟩ := abs_le.mp h1
    have h5 : (1 / 2 : ℚ) ≤ FloatGrid.d r a / a.d := by norm_num at h3 ⊢; linarith
    have h6 : (1 / 2 : ℚ) ≤ |FloatGrid.d r a| / |a.d| := by rw [← abs_div]; exact h5.trans (le_abs_self _)
    rw [le_div_iff₀ hdp] at h6
    linarith
  rw [abs_div, div_le_iff₀ hDp]
  have := h.lo
  nlinarith

/-- C123: for any grid of moderate size, the index `xy_to_rowcol(snap=False)` of the computed centre of a cell is within `2 ^ -8` of the number of
the cell; snapped, it is that cell or the one before (never anything but the first for the first). -/
theorem float_center_near (r : ℚ → ℚ) (hr : Nearest r) (a : GAxis) (h : Moderate a) (k : ℤ) (h0 : 0 ≤ k) (h1 : k ≤ a.n) :
    |index r a (center r a k) - k| ≤ 1 / 2 ^ 8 ∧
    (truncInt (index r a (center r a k)) = k ∨ truncInt (index r a (center r a k)) = k - 1) ∧
    (k = 0 → truncInt (index r a (center r a k)) = 0) := by
  have hl := lo_over_d hr h
  have hk : |(k : ℚ)| ≤ 2 ^ 40 := by
    have h2 := h.n
    rw [abs_of_nonneg (by exact_mod_cast h0)]
    have : k ≤ 2 ^ 40 := by omega
    exact_mod_cast this
  have h3 := index_center_near hr h.pos h.ne k (2 ^ 42) (by norm_num at *; linarith) (by norm_num)
  have h4 : |index r a (center r a k) - k| ≤ 1 / 2 ^ 8 := h3.trans (by norm_num)
  exact ⟨h4, truncInt_near _ k h0 (lt_of_le_of_lt h4 (by norm_num))⟩

/-- C123: for any grid of moderate size and any point between the limits, `snap_xy(centers=True)` gives the computed centre of a cell, numbered `j`,
that contains the point up to `2 ^ -8` of a cell; at the outer edge it is the last cell or the one before. `xy_to_rowcol(snap=True)` is cell
`j` or the one before, not below 0. (`j = n`, the cell after the last, is possible: `float_xy_to_rowcol_outside_violated`.) -/
theorem float_cell_near (r : ℚ → ℚ) (hr : Nearest r) (a : GAxis) (h : Moderate a) (v : ℚ) (hv : Between a.lo a.hi v) :
    ∃ j : ℤ, 0 ≤ j ∧ j ≤ a.n ∧ FloatGrid.snap r a true false true v = center r a j ∧
      (v ≠ a.hi → |(v - a.lo) / a.d - (j + 1 / 2)| ≤ 1 / 2 + 1 / 2 ^ 8) ∧
      (v = a.hi → j = a.n - 1 ∨ j = a.n - 2) ∧
      (cell r a true v = j ∨ cell r a true v = j - 1) ∧ 0 ≤ cell r a true v := by
  have hnQ : (a.n : ℚ) ≤ 2 ^ 40 := by exact_mod_cast h.n
  have hn1 : (1 : ℚ) ≤ a.n := by exact_mod_cast h.pos
  have hd := GAxis.d_ne h.pos h.ne
  have hD := d_ne hr h.pos h.ne
  have hdn := d_near hr h.pos h.ne
  obtain ⟨q1, q2⟩ := abs_le.mp hdn
  have hnd := GAxis.n_mul_d (a := a) h.pos
  -- the exact ratio is between 0 and n
  set q := (v - a.lo) / a.d with hq
  have hqb : 0 ≤ q ∧ q ≤ a.n := by
    have := GAxis.ratio_bounds h.pos h.ne v hv
    exact ⟨this.1, this.2.1⟩
  obtain ⟨q3, q4⟩ := hqb
  -- the computed ratio
  have hinv : |a.d / FloatGrid.d r a - 1| ≤ 6 / 2 ^ 53 := by
    have hp : (1 / 2 : ℚ) ≤ FloatGrid.d r a / a.d := by norm_num at q1 ⊢; linarith
    have e : a.d / FloatGrid.d r a - 1 = -(FloatGrid.d r a / a.d - 1) / (FloatGrid.d r a / a.d) := by field_simp; ring
    rw [e, abs_div, abs_neg, abs_of_pos (by linarith : 0 < FloatGrid.d r a / a.d), div_le_iff₀ (by linarith)]
    refine hdn.trans ?_
    have := mul_le_mul_of_nonneg_left hp (by norm_num : (0 : ℚ) ≤ 6 / 2 ^ 53)
    refine le_trans ?_ this
    norm_num
  have e0 : |(v - a.lo) / FloatGrid.d r a - q| ≤ 6 * a.n / 2 ^ 53 := by
    have : (v - a.lo) / FloatGrid.d r a - q = q * (a.d / FloatGrid.d r a - 1) := by rw [hq]; field_simp
    rw [this, abs_mul, abs_of_nonneg q3]
    calc _ ≤ (a.n : ℚ) * (6 / 2 ^ 53) := by gcongr
      _ = _ := by ring
  have s6 : 6 * (a.n : ℚ) / 2 ^ 53 ≤ a.n / 4 := by
    have : 6 * (a.n : ℚ) / 2 ^ 53 = a.n * (6 / 2 ^ 53) := by ring
    rw [this]
    have : (a.n : ℚ) * (6 / 2 ^ 53) ≤ a.n * (1 / 4) := mul_le_mul_of_nonneg_left (by norm_num) (by linarith)
    linarith
  have e1 := Nearest.rel hr _ (FloatGrid.d r a) _ _ (2 * a.n) e0 (by rw [abs_of_nonneg q3]; linarith)
  have b1 : |r (v - a.lo) / FloatGrid.d r a| ≤ 2 * a.n := by
    calc _ = |(r (v - a.lo) / FloatGrid.d r a - q) + q| := by ring_nf
      _ ≤ |r (v - a.lo) / FloatGrid.d r a - q| + |q| := abs_add_le _ _
      _ ≤ 2 * a.n := by
        rw [abs_of_nonneg q3]
        have : 2 * (a.n : ℚ) / 2 ^ 53 ≤ 2 * a.n / 4 := by gcongr; norm_num
        linarith
  have e2 : |ratio r a v - q| ≤ 6 * a.n / 2 ^ 53 + 2 * a.n / 2 ^ 53 + 2 * a.n / 2 ^ 53 := hr.near_of _ _ _ _ e1 b1
  have e2' : |ratio r a v - q| ≤ 10 * a.n / 2 ^ 53 := e2.trans (le_of_eq (by ring))
  have s10 : 10 * (a.n : ℚ) / 2 ^ 53 ≤ a.n := by
    have : 10 * (a.n : ℚ) / 2 ^ 53 = a.n * (10 / 2 ^ 53) := by ring
    rw [this]
    have : (a.n : ℚ) * (10 / 2 ^ 53) ≤ a.n * 1 := mul_le_mul_of_nonneg_left (by norm_num) (by linarith)
    linarith
  have b2 : |ratio r a v| ≤ 2 * a.n := by
    calc _ = |(ratio r a v - q) + q| := by ring_nf
      _ ≤ |ratio r a v - q| + |q| := abs_add_le _ _
      _ ≤ 2 * a.n := by rw [abs_of_nonneg q3]; linarith
  -- it is not negative
  have ratio0 : 0 ≤ ratio r a v := by
    have hz : r 0 = 0 := (hr.eq_zero_iff 0).mpr rfl
    have hsg : 0 ≤ r (v - a.lo) / FloatGrid.d r a := by
      rcases lt_or_gt_of_ne hd with hneg | hpos
      · have hD' : FloatGrid.d r a < 0 := by
          by_contra hc
          push Not at hc
          have : FloatGrid.d r a / a.d ≤ 0 := div_nonpos_of_nonneg_of_nonpos hc hneg.le
          norm_num at q1; linarith
        have hv' : v - a.lo ≤ 0 := by
          have : v - a.lo = q * a.d := by rw [hq]; field_simp
          rw [this]; exact mul_nonpos_of_nonneg_of_nonpos q3 hneg.le
        have := hr.mono _ _ hv'
        rw [hz] at this
        exact div_nonneg_of_nonpos this hD'.le
      · have hD' : 0 < FloatGrid.d r a := by
          by_contra hc
          push Not at hc
          have : FloatGrid.d r a / a.d ≤ 0 := div_nonpos_of_nonpos_of_nonneg hc hpos.le
          norm_num at q1; linarith
        have hv' : 0 ≤ v - a.lo := by
          have : v - a.lo = q * a.d := by rw [hq]; field_simp
          rw [this]; exact mul_nonneg q3 hpos.le
        have := hr.mono _ _ hv'
        rw [hz] at this
        exact div_nonneg this hD'.le
    have := hr.mono _ _ hsg
    rw [hz] at this
    exact this
  -- the two shifts
  have e3 := shift_near hr (ratio r a v) (2 * a.n) (by linarith) b2
  set y := r (r (ratio r a v - 1 / 2) + 1 / 2) with hy
  have y0 : 0 ≤ y := by
    have m1 : r (-(1 / 2)) = -(1 / 2) := hr.half _ (-1) (by norm_num) (by norm_num)
    have := hr.mono _ _ (by linarith : (-(1 / 2) : ℚ) ≤ ratio r a v - 1 / 2)
    rw [m1] at this
    have := hr.mono _ _ (by linarith : (0 : ℚ) ≤ r (ratio r a v - 1 / 2) + 1 / 2)
    rwa [(hr.eq_zero_iff 0).mpr rfl] at this
  have hyq : |y - q| ≤ 1 / 2 ^ 8 := by
    calc |y - q| = |(y - ratio r a v) + (ratio r a v - q)| := by ring_nf
      _ ≤ |y - ratio r a v| + |ratio r a v - q| := abs_add_le _ _
      _ ≤ 4 * (2 * a.n) / 2 ^ 53 + 10 * a.n / 2 ^ 53 := by linarith
      _ = 18 * a.n / 2 ^ 53 := by ring
      _ ≤ 18 * 2 ^ 40 / 2 ^ 53 := by gcongr
      _ ≤ 1 / 2 ^ 8 := by norm_num
  obtain ⟨y1, y2⟩ := abs_le.mp hyq
  have hst : steps r a true false v = (⌊y⌋ : ℤ) := by
    unfold steps; simp [hy]
  have f1 := Int.floor_le y
  have f2 := Int.lt_floor_add_one y
  have f0 : 0 ≤ ⌊y⌋ := Int.floor_nonneg.mpr y0
  have fn : ⌊y⌋ ≤ a.n := by
    have : (⌊y⌋ : ℚ) < a.n + 1 := by norm_num at y2 ⊢; linarith
    have : ⌊y⌋ < a.n + 1 := by exact_mod_cast this
    omega
  have fin : ∀ j : ℤ, 0 ≤ j → j ≤ a.n → FloatGrid.snap r a true false true v = center r a j →
      (cell r a true v = j ∨ cell r a true v = j - 1) ∧ 0 ≤ cell r a true v := by
    intro j j0 jn hs
    obtain ⟨_, c1, c2⟩ := float_center_near r hr a h j j0 jn
    unfold cell
    rw [hs]
    refine ⟨c1, ?_⟩
    rcases eq_or_ne j 0 with hj | hj
    · rw [c2 hj]
    · rcases c1 with hh | hh <;> omega
  by_cases hvh : v = a.hi
  · -- the outer edge
    have hqn : q = a.n := by
      rw [hq, hvh]
      have : a.hi - a.lo = a.n * a.d := hnd.symm
      rw [this, mul_div_cancel_right₀ _ hd]
    have g1 : a.n - 1 ≤ ⌊y⌋ := by
      have : (a.n : ℚ) - 2 < ⌊y⌋ := by norm_num at y1 ⊢; linarith
      have : ((a.n - 2 : ℤ) : ℚ) < ⌊y⌋ := by push_cast; exact this
      have : (a.n : ℤ) - 2 < ⌊y⌋ := by exact_mod_cast this
      omega
    have g2 : a.n = 1 → ⌊y⌋ = 1 := by
      intro h1
      have hW : FloatGrid.d r a = r (a.hi - a.lo) := by
        unfold FloatGrid.d
        rw [h1]; simp only [Nat.cast_one, div_one]
        exact hr.exact _ (hr.double _)
      have hr1 : ratio r a v = 1 := by
        unfold ratio
        rw [hvh, ← hW, div_self hD]
        have := hr.exact ((1 : ℤ) : ℚ) (isDouble_int 1 (by norm_num))
        simpa using this
      have : y = 1 := by
        rw [hy, hr1]
        have i1 : r (1 - 1 / 2) = 1 / 2 := by
          have := hr.half (1 - 1 / 2) 1 (by norm_num) (by norm_num)
          rw [this]; norm_num
        rw [i1]
        have := hr.exact ((1 : ℤ) : ℚ) (isDouble_int 1 (by norm_num))
        norm_num at this ⊢
        exact this
      rw [this]; norm_num
    have hin : inner r a false true v (⌊y⌋ : ℤ) = ((⌊y⌋ - 1 : ℤ) : ℚ) := by
      unfold inner
      simp only [Bool.not_false, Bool.and_self, hvh, decide_true, if_true]
      have e : ((⌊y⌋ : ℤ) : ℚ) - 1 = ((⌊y⌋ - 1 : ℤ) : ℚ) := by push_cast; rfl
      rw [e]
      apply hr.exact _ (isDouble_int _ _)
      have := h.n
      rw [abs_le]; constructor <;> omega
    have hs : FloatGrid.snap r a true false true v = center r a ((⌊y⌋ - 1 : ℤ) : ℚ) := by
      unfold FloatGrid.snap
      rw [hst, hin]; rfl
    have hpos := h.pos
    have j0 : 0 ≤ ⌊y⌋ - 1 := by
      rcases Nat.lt_or_ge a.n 2 with h2 | h2
      · have := g2 (by omega); omega
      · omega
    refine ⟨⌊y⌋ - 1, j0, by omega, hs, fun hh => absurd hvh hh, fun _ => by omega, ?_⟩
    exact fin _ j0 (by omega) hs
  · have hin : inner r a false true v (⌊y⌋ : ℤ) = ((⌊y⌋ : ℤ) : ℚ) := by
      unfold inner
      simp [hvh]
    have hs : FloatGrid.snap r a true false true v = center r a ((⌊y⌋ : ℤ) : ℚ) := by
      unfold FloatGrid.snap
      rw [hst, hin]; rfl
    refine ⟨⌊y⌋, f0, fn, hs, fun _ => ?_, fun hh => absurd hh hvh, fin _ f0 fn hs⟩
    rw [abs_le]
    constructor <;> linarith

/-- Concrete case: the grid of `float_rowcol_round_trip_violated`. -/
example : Moderate ⟨0, 7, 5⟩ := ⟨by norm_num, by norm_num, by norm_num, by norm_num [GAxis.d]⟩

/-- C123: both ways of being off by one happen at once: the right limit of 225 columns from 0 to 3 is in the last column but two. -/
theorem float_outer_edge_two_off : cell rnd ⟨0, 3, 225⟩ true 3 = 222 := by decide +kernel

end Glimpse.FloatGrid
