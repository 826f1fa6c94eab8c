import Verif.Model.FloatGrid
import Verif.Props.Double
import Verif.Props.GridCrop
import Mathlib.Tactic.Linarith
import Mathlib.Tactic.Ring
import Mathlib.Tactic.FieldSimp

/-!
C123: `Grid` in double precision.
-/
set_option autoImplicit false
set_option linter.unusedSimpArgs false
set_option linter.unusedSectionVars false

namespace Glimpse.FloatGrid
open Glimpse Glimpse.Double

/-! ### Without rounding these are the exact functions -/

theorem snap_id (a : GAxis) (c e i : Bool) (v : ℚ) : snap id a c e i v = a.snap c e i v := rfl
theorem snapXy_id (g : Grid) (c e i : Bool) (p : ℚ × ℚ) : snapXy id g c e i p = g.snapXy c e i p := rfl
theorem xyToRowcol_id (g : Grid) (p : ℚ × ℚ) : xyToRowcol id g p = g.xyToRowcol p := rfl
theorem xyToRowcolSnap_id (g : Grid) (i : Bool) (p : ℚ × ℚ) : xyToRowcolSnap id g i p = g.xyToRowcolSnap i p := rfl
theorem rowcolToXy_id (g : Grid) (p : ℚ × ℚ) : rowcolToXy id g p = g.rowcolToXy p := rfl
theorem xyToUv_id (g : Grid) (p : ℚ × ℚ) : xyToUv id g p = g.xyToUv p := rfl
theorem uvToXy_id (g : Grid) (p : ℚ × ℚ) : uvToXy id g p = g.uvToXy p := rfl
theorem cropExtent_id (g : Grid) (x y : Option (ℚ × ℚ)) : cropExtent id g x y = g.cropExtent x y := rfl

/-! ### Numbers on a lattice of a power of two -/

/-- A multiple of `2 ^ e` by at most `2 ^ 46`: for example any whole number of millionths of a metre (rounded to a power of two) up to the
size of the Earth. -/
def OnLattice (e : ℤ) (x : ℚ) : Prop := ∃ m : ℤ, |m| ≤ 2 ^ 46 ∧ x = m * (2 : ℚ) ^ e

/-- An axis whose limits and exact cell size are on the lattice. -/
structure AxisOnLattice (e : ℤ) (a : GAxis) : Prop where
  pos : 0 < a.n
  ne : a.lo ≠ a.hi
  lo : OnLattice e a.lo
  hi : OnLattice e a.hi
  d : OnLattice e a.d

/-- The same in numbers. -/
structure Lat (a : GAxis) (e L H D : ℤ) : Prop where
  pos : 0 < a.n
  lo : a.lo = L * (2 : ℚ) ^ e
  hi : a.hi = H * (2 : ℚ) ^ e
  d : a.d = D * (2 : ℚ) ^ e
  n : (a.n : ℤ) * D = H - L
  ne : D ≠ 0
  bL : |L| ≤ 2 ^ 46
  bH : |H| ≤ 2 ^ 46
  bD : |D| ≤ 2 ^ 46

theorem two_pos (e : ℤ) : (0 : ℚ) < 2 ^ e := by positivity

theorem AxisOnLattice.lat {e : ℤ} {a : GAxis} (h : AxisOnLattice e a) : ∃ L H D : ℤ, Lat a e L H D := by
  obtain ⟨pos, ne, ⟨L, bL, lo⟩, ⟨H, bH, hi⟩, ⟨D, bD, d⟩⟩ := h
  have hs := two_pos e
  have hd := GAxis.n_mul_d (a := a) pos
  refine ⟨L, H, D, pos, lo, hi, d, ?_, ?_, bL, bH, bD⟩
  · rw [d, lo, hi] at hd
    have : ((a.n : ℚ) * D) * 2 ^ e = (H - L) * 2 ^ e := by linarith
    have := mul_right_cancel₀ hs.ne' this
    exact_mod_cast this
  · rintro rfl
    have := GAxis.d_ne pos ne
    apply this; rw [d]; simp

theorem half_zpow (e : ℤ) : (2 : ℚ) ^ (e - 1) = 2 ^ e / 2 := by
  rw [sub_eq_add_neg, zpow_split, zpow_neg_one]; ring

section
variable {r : ℚ → ℚ} (hr : Nearest r) {a : GAxis} {e L H D : ℤ} (h : Lat a e L H D)
include hr h

theorem Lat.d_eq : FloatGrid.d r a = a.d := by
  have h1 : r (a.hi - a.lo) = a.hi - a.lo := by
    apply hr.ex _ (H - L) e
    · rw [h.hi, h.lo]; push_cast; ring
    · calc |H - L| ≤ |H| + |L| := abs_sub _ _
        _ ≤ 2 ^ 53 := by have := h.bL; have := h.bH; omega
  unfold FloatGrid.d
  rw [h1]
  show r a.d = a.d
  exact hr.ex _ D e h.d (h.bD.trans (by norm_num))

theorem Lat.ratio_eq (V : ℤ) (hV : |V - L| ≤ 2 ^ 53) : ratio r a (V * 2 ^ e) = r (((V - L : ℤ) : ℚ) / D) := by
  have hs := two_pos e
  have hD : (D : ℚ) ≠ 0 := by exact_mod_cast h.ne
  have h1 : r (V * 2 ^ e - a.lo) = ((V - L : ℤ) : ℚ) * 2 ^ e := by
    have : (V : ℚ) * 2 ^ e - a.lo = ((V - L : ℤ) : ℚ) * 2 ^ e := by rw [h.lo]; push_cast; ring
    rw [this]
    exact hr.ex _ (V - L) e rfl hV
  unfold ratio
  rw [h1, Lat.d_eq hr h, h.d, mul_div_mul_right _ _ hs.ne']

theorem Lat.ratio_exact (V : ℤ) : (V * 2 ^ e - a.lo) / a.d = ((V - L : ℤ) : ℚ) / D := by
  have hs := two_pos e
  rw [h.lo, h.d, ← sub_mul, mul_div_mul_right _ _ hs.ne']
  push_cast; rfl

end

/-- The floor of a rounded number: the same as that of the exact quotient of integers `N / M`, if it is not below the floor of the latter
and not off by `1 / |M|`. -/
theorem floor_eq_of_near (y y' : ℚ) (N M : ℤ) (hM : M ≠ 0) (hy : y = N / M) (h1 : (⌊y⌋ : ℚ) ≤ y') (h2 : |y' - y| * |(M : ℚ)| < 1) :
    ⌊y'⌋ = ⌊y⌋ := by
  rw [Int.floor_eq_iff]
  refine ⟨h1, ?_⟩
  have hM' : (0 : ℚ) < |(M : ℚ)| := abs_pos.mpr (by exact_mod_cast hM)
  have h3 : (y - ⌊y⌋) * |(M : ℚ)| ≤ |(M : ℚ)| - 1 := by
    have h4 : y < ⌊y⌋ + 1 := Int.lt_floor_add_one y
    have h5 : y * |(M : ℚ)| = (N * M.sign : ℤ) := by
      rw [hy]
      have hMq : (M : ℚ) ≠ 0 := by exact_mod_cast hM
      push_cast
      rw [← Int.cast_abs, ← Int.sign_mul_self_eq_abs]
      push_cast
      field_simp
    have h6 : ((N * M.sign - ⌊y⌋ * |M| : ℤ) : ℚ) < ((|M| : ℤ) : ℚ) := by
      push_cast at h5 ⊢
      nlinarith
    have h7 : N * M.sign - ⌊y⌋ * |M| ≤ |M| - 1 := by
      have : N * M.sign - ⌊y⌋ * |M| < |M| := by exact_mod_cast h6
      omega
    have h8 : ((N * M.sign - ⌊y⌋ * |M| : ℤ) : ℚ) ≤ ((|M| - 1 : ℤ) : ℚ) := by exact_mod_cast h7
    push_cast at h5 h8
    linarith
  have h4 : (y' - y) * |(M : ℚ)| < 1 := lt_of_le_of_lt (mul_le_mul_of_nonneg_right (le_abs_self _) hM'.le) h2
  by_contra hc
  push Not at hc
  have : 1 * |(M : ℚ)| ≤ (y' - ⌊y⌋) * |(M : ℚ)| := mul_le_mul_of_nonneg_right (by linarith) hM'.le
  linarith

/-! ### On a lattice every operation is exact, or rounds to the same cell -/

section
variable {r : ℚ → ℚ} (hr : Nearest r) {a : GAxis} {e L H D : ℤ} (h : Lat a e L H D)
include hr h

theorem Lat.q_bound (V : ℤ) (hV : |V| ≤ 2 ^ 46) : |((V - L : ℤ) : ℚ) / D| * |(D : ℚ)| ≤ 2 ^ 47 := by
  have hD : |(D : ℚ)| ≠ 0 := abs_ne_zero.mpr (by exact_mod_cast h.ne)
  rw [abs_div, div_mul_cancel₀ _ hD]
  have : |V - L| ≤ 2 ^ 47 := by
    calc |V - L| ≤ |V| + |L| := abs_sub _ _
      _ ≤ 2 ^ 47 := by have := h.bL; omega
  exact_mod_cast this

theorem Lat.steps_eq (c ed : Bool) (V : ℤ) (hV : |V| ≤ 2 ^ 46) : steps r a c ed (V * 2 ^ e) = steps id a c ed (V * 2 ^ e) := by
  have hVL : |V - L| ≤ 2 ^ 47 := by
    calc |V - L| ≤ |V| + |L| := abs_sub _ _
      _ ≤ 2 ^ 47 := by have := h.bL; omega
  have hq := Lat.q_bound hr h V hV
  have hD1 : (1 : ℚ) ≤ |(D : ℚ)| := by
    have : 1 ≤ |D| := Int.one_le_abs h.ne
    exact_mod_cast this
  have hD2 : |(D : ℚ)| ≤ 2 ^ 46 := by exact_mod_cast h.bD
  have hDn : (D : ℚ) ≠ 0 := by exact_mod_cast h.ne
  unfold steps
  rw [Lat.ratio_eq hr h V (hVL.trans (by norm_num))]
  have hid : ratio id a (V * 2 ^ e) = ((V - L : ℤ) : ℚ) / D := Lat.ratio_exact hr h V
  rw [hid]
  have hqn : |((V - L : ℤ) : ℚ) / D| ≤ 2 ^ 47 := by
    have := mul_le_mul_of_nonneg_left hD1 (abs_nonneg (((V - L : ℤ) : ℚ) / D))
    linarith
  set q : ℚ := ((V - L : ℤ) : ℚ) / D with hqdef
  have hflo : ∀ (y : ℚ), |y| ≤ 2 ^ 49 → |⌊y⌋| ≤ 2 ^ 50 := by
    intro y hy
    have h1 := Int.floor_le y
    have h2 := Int.lt_floor_add_one y
    obtain ⟨h3, h4⟩ := abs_le.mp hy
    rw [abs_le]
    constructor
    · have : (-(2 : ℚ) ^ 50) < ⌊y⌋ := by norm_num at h3 ⊢; linarith
      exact_mod_cast this.le
    · have : (⌊y⌋ : ℚ) ≤ 2 ^ 50 := by norm_num at h4 ⊢; linarith
      exact_mod_cast this
  obtain ⟨ql, qu⟩ := abs_le.mp hqn
  have hn1 : |r q - q| ≤ 0 + |q| / 2 ^ 53 := hr.near_of q q 0 |q| (by simp) le_rfl
  have hb1 : |r q| ≤ 2 * |q| := by
    have : |r q| ≤ |r q - q| + |q| := by
      calc |r q| = |(r q - q) + q| := by ring_nf
        _ ≤ _ := abs_add_le _ _
    have : |q| / 2 ^ 53 ≤ |q| := div_le_self (abs_nonneg _) (by norm_num)
    linarith
  have q0 := abs_nonneg q
  have ht : |(1 / 2 : ℚ)| = 1 / 2 := by norm_num
  cases c <;> cases ed
  · -- neither: the same as edges
    simp only [Bool.not_false, Bool.and_true, Bool.and_false, Bool.false_eq_true, if_false, Bool.and_self, id]
    congr 1
    have e1 : |(r q + 1 / 2) - (q + 1 / 2)| ≤ 0 + |q| / 2 ^ 53 := by
      have : (r q + 1 / 2) - (q + 1 / 2) = r q - q := by ring
      rw [this]; exact hn1
    have b1 : |r q + 1 / 2| ≤ 2 * |q| + 1 / 2 := (abs_add_le _ _).trans (by rw [ht]; linarith)
    have e2 := hr.near_of _ _ _ _ e1 b1
    refine floor_eq_of_near (q + 1 / 2) _ (2 * (V - L) + D) (2 * D) (by simpa using h.ne) ?_ ?_ ?_
    · rw [hqdef]; push_cast; field_simp
    · have hf := hflo (q + 1 / 2) ((abs_add_le _ _).trans (by rw [ht]; norm_num at *; linarith))
      have h1 := Int.floor_le (q + 1 / 2)
      have h2 : r ((⌊q + 1 / 2⌋ : ℚ) - 1 / 2) = ⌊q + 1 / 2⌋ - 1 / 2 := by
        apply hr.half _ (2 * ⌊q + 1 / 2⌋ - 1) (by push_cast; ring)
        obtain ⟨a1, a2⟩ := abs_le.mp hf
        rw [abs_le]; constructor <;> omega
      have h3 := hr.mono _ _ (by linarith : (⌊q + 1 / 2⌋ : ℚ) - 1 / 2 ≤ q)
      rw [h2] at h3
      have h4 : r (⌊q + 1 / 2⌋ : ℚ) = ⌊q + 1 / 2⌋ := hr.exact _ (isDouble_int _ (hf.trans (by norm_num)))
      have h5 := hr.mono _ _ (by linarith : (⌊q + 1 / 2⌋ : ℚ) ≤ r q + 1 / 2)
      rwa [h4] at h5
    · push_cast
      rw [abs_mul, abs_two]
      calc _ ≤ (0 + |q| / 2 ^ 53 + (2 * |q| + 1 / 2) / 2 ^ 53) * (2 * |(D : ℚ)|) := by gcongr
        _ = (6 * (|q| * |(D : ℚ)|) + |(D : ℚ)|) / 2 ^ 53 := by ring
        _ ≤ (6 * 2 ^ 47 + 2 ^ 46) / 2 ^ 53 := by gcongr
        _ < 1 := by norm_num
  · simp only [Bool.not_true, Bool.and_true, Bool.and_false, Bool.false_eq_true, if_false, Bool.and_self, id]
    congr 1
    have e1 : |(r q + 1 / 2) - (q + 1 / 2)| ≤ 0 + |q| / 2 ^ 53 := by
      have : (r q + 1 / 2) - (q + 1 / 2) = r q - q := by ring
      rw [this]; exact hn1
    have b1 : |r q + 1 / 2| ≤ 2 * |q| + 1 / 2 := (abs_add_le _ _).trans (by rw [ht]; linarith)
    have e2 := hr.near_of _ _ _ _ e1 b1
    refine floor_eq_of_near (q + 1 / 2) _ (2 * (V - L) + D) (2 * D) (by simpa using h.ne) ?_ ?_ ?_
    · rw [hqdef]; push_cast; field_simp
    · have hf := hflo (q + 1 / 2) ((abs_add_le _ _).trans (by rw [ht]; norm_num at *; linarith))
      have h1 := Int.floor_le (q + 1 / 2)
      have h2 : r ((⌊q + 1 / 2⌋ : ℚ) - 1 / 2) = ⌊q + 1 / 2⌋ - 1 / 2 := by
        apply hr.half _ (2 * ⌊q + 1 / 2⌋ - 1) (by push_cast; ring)
        obtain ⟨a1, a2⟩ := abs_le.mp hf
        rw [abs_le]; constructor <;> omega
      have h3 := hr.mono _ _ (by linarith : (⌊q + 1 / 2⌋ : ℚ) - 1 / 2 ≤ q)
      rw [h2] at h3
      have h4 : r (⌊q + 1 / 2⌋ : ℚ) = ⌊q + 1 / 2⌋ := hr.exact _ (isDouble_int _ (hf.trans (by norm_num)))
      have h5 := hr.mono _ _ (by linarith : (⌊q + 1 / 2⌋ : ℚ) ≤ r q + 1 / 2)
      rwa [h4] at h5
    · push_cast
      rw [abs_mul, abs_two]
      calc _ ≤ (0 + |q| / 2 ^ 53 + (2 * |q| + 1 / 2) / 2 ^ 53) * (2 * |(D : ℚ)|) := by gcongr
        _ = (6 * (|q| * |(D : ℚ)|) + |(D : ℚ)|) / 2 ^ 53 := by ring
        _ ≤ (6 * 2 ^ 47 + 2 ^ 46) / 2 ^ 53 := by gcongr
        _ < 1 := by norm_num
  · -- centers
    simp only [Bool.not_false, Bool.and_true, Bool.and_self, if_true, id]
    congr 1
    have e1 : |(r q - 1 / 2) - (q - 1 / 2)| ≤ 0 + |q| / 2 ^ 53 := by
      have : (r q - 1 / 2) - (q - 1 / 2) = r q - q := by ring
      rw [this]; exact hn1
    have b1 : |r q - 1 / 2| ≤ 2 * |q| + 1 / 2 := (abs_sub _ _).trans (by rw [ht]; linarith)
    have e2 := hr.near_of _ _ _ _ e1 b1
    have b2 : |r (r q - 1 / 2)| ≤ 4 * |q| + 2 := by
      have : |r (r q - 1 / 2)| ≤ |r (r q - 1 / 2) - (q - 1 / 2)| + |q - 1 / 2| := by
        calc |r (r q - 1 / 2)| = |(r (r q - 1 / 2) - (q - 1 / 2)) + (q - 1 / 2)| := by ring_nf
          _ ≤ _ := abs_add_le _ _
      have h2 : |q - 1 / 2| ≤ |q| + 1 / 2 := (abs_sub _ _).trans (by rw [ht])
      have h3 : |q| / 2 ^ 53 ≤ |q| / 4 := by gcongr; norm_num
      have h4 : (2 * |q| + 1 / 2) / 2 ^ 53 ≤ (2 * |q| + 1 / 2) / 2 := by gcongr; norm_num
      linarith
    have e3 : |(r (r q - 1 / 2) + 1 / 2) - (q - 1 / 2 + 1 / 2)| ≤ 0 + |q| / 2 ^ 53 + (2 * |q| + 1 / 2) / 2 ^ 53 := by
      have : (r (r q - 1 / 2) + 1 / 2) - (q - 1 / 2 + 1 / 2) = r (r q - 1 / 2) - (q - 1 / 2) := by ring
      rw [this]; exact e2
    have b3 : |r (r q - 1 / 2) + 1 / 2| ≤ 4 * |q| + 5 / 2 := (abs_add_le _ _).trans (by rw [ht]; linarith)
    have e4 := hr.near_of _ _ _ _ e3 b3
    refine floor_eq_of_near (q - 1 / 2 + 1 / 2) _ (V - L) D h.ne (by rw [hqdef]; ring) ?_ ?_
    · have hh : q - 1 / 2 + 1 / 2 = q := by ring
      rw [hh]
      have hf := hflo q (by norm_num at *; linarith)
      have h1 := Int.floor_le q
      have h2 : r (⌊q⌋ : ℚ) = ⌊q⌋ := hr.exact _ (isDouble_int _ (hf.trans (by norm_num)))
      have h3 := hr.mono _ _ h1
      rw [h2] at h3
      have h4 : r ((⌊q⌋ : ℚ) - 1 / 2) = ⌊q⌋ - 1 / 2 := by
        apply hr.half _ (2 * ⌊q⌋ - 1) (by push_cast; ring)
        obtain ⟨a1, a2⟩ := abs_le.mp hf
        rw [abs_le]; constructor <;> omega
      have h5 := hr.mono _ _ (by linarith : (⌊q⌋ : ℚ) - 1 / 2 ≤ r q - 1 / 2)
      rw [h4] at h5
      have h6 := hr.mono _ _ (by linarith : (⌊q⌋ : ℚ) ≤ r (r q - 1 / 2) + 1 / 2)
      rwa [h2] at h6
    · calc _ ≤ (0 + |q| / 2 ^ 53 + (2 * |q| + 1 / 2) / 2 ^ 53 + (4 * |q| + 5 / 2) / 2 ^ 53) * |(D : ℚ)| := by gcongr
        _ = (7 * (|q| * |(D : ℚ)|) + 3 * |(D : ℚ)|) / 2 ^ 53 := by ring
        _ ≤ (7 * 2 ^ 47 + 3 * 2 ^ 46) / 2 ^ 53 := by gcongr
        _ < 1 := by norm_num
  · -- both
    simp only [Bool.not_true, Bool.and_true, Bool.and_false, Bool.false_eq_true, if_false, Bool.and_self, if_true, id]
    congr 1
    have e1 : |(r q * 2) - (q * 2)| ≤ 2 * |q| / 2 ^ 53 := by
      have : (r q * 2) - (q * 2) = (r q - q) * 2 := by ring
      rw [this, abs_mul, abs_two]; linarith
    have b1 : |r q * 2| ≤ 4 * |q| := by rw [abs_mul, abs_two]; linarith
    have e2 := hr.near_of _ _ _ _ e1 b1
    have b2 : |r (r q * 2)| ≤ 8 * |q| := by
      have : |r (r q * 2)| ≤ |r (r q * 2) - q * 2| + |q * 2| := by
        calc |r (r q * 2)| = |(r (r q * 2) - q * 2) + q * 2| := by ring_nf
          _ ≤ _ := abs_add_le _ _
      have h2 : |q * 2| = |q| * 2 := by rw [abs_mul, abs_two]
      have h3 : 2 * |q| / 2 ^ 53 ≤ 2 * |q| / 4 := by gcongr; norm_num
      have h4 : (4 * |q|) / 2 ^ 53 ≤ (4 * |q|) / 2 := by gcongr; norm_num
      linarith
    have e3 : |(r (r q * 2) + 1 / 2) - (q * 2 + 1 / 2)| ≤ 2 * |q| / 2 ^ 53 + (4 * |q|) / 2 ^ 53 := by
      have : (r (r q * 2) + 1 / 2) - (q * 2 + 1 / 2) = r (r q * 2) - (q * 2) := by ring
      rw [this]; exact e2
    have b3 : |r (r q * 2) + 1 / 2| ≤ 8 * |q| + 1 / 2 := (abs_add_le _ _).trans (by rw [ht]; linarith)
    have e4 := hr.near_of _ _ _ _ e3 b3
    refine floor_eq_of_near (q * 2 + 1 / 2) _ (4 * (V - L) + D) (2 * D) (by simpa using h.ne) ?_ ?_ ?_
    · rw [hqdef]; push_cast; field_simp; ring
    · have hf := hflo (q * 2 + 1 / 2) ((abs_add_le _ _).trans (by rw [ht, abs_mul, abs_two]; norm_num at *; linarith))
      have h1 := Int.floor_le (q * 2 + 1 / 2)
      set k := ⌊q * 2 + 1 / 2⌋
      obtain ⟨a1, a2⟩ := abs_le.mp hf
      have h2 : r (((k : ℚ) - 1 / 2) / 2) = ((k : ℚ) - 1 / 2) / 2 := by
        apply hr.ex _ (2 * k - 1) (-2)
        · push_cast; rw [show (2 : ℚ) ^ (-2 : ℤ) = 1 / 4 by norm_num]; ring
        · rw [abs_le]; constructor <;> omega
      have h3 := hr.mono _ _ (by linarith : ((k : ℚ) - 1 / 2) / 2 ≤ q)
      rw [h2] at h3
      have h4 : r ((k : ℚ) - 1 / 2) = k - 1 / 2 := by
        apply hr.half _ (2 * k - 1) (by push_cast; ring)
        rw [abs_le]; constructor <;> omega
      have h5 := hr.mono _ _ (by linarith : (k : ℚ) - 1 / 2 ≤ r q * 2)
      rw [h4] at h5
      have h6 := hr.mono _ _ (by linarith : (k : ℚ) ≤ r (r q * 2) + 1 / 2)
      have h7 : r (k : ℚ) = k := hr.exact _ (isDouble_int _ (hf.trans (by norm_num)))
      rwa [h7] at h6
    · push_cast
      rw [abs_mul, abs_two]
      calc _ ≤ (2 * |q| / 2 ^ 53 + (4 * |q|) / 2 ^ 53 + (8 * |q| + 1 / 2) / 2 ^ 53) * (2 * |(D : ℚ)|) := by gcongr
        _ = (28 * (|q| * |(D : ℚ)|) + |(D : ℚ)|) / 2 ^ 53 := by ring
        _ ≤ (28 * 2 ^ 47 + 2 ^ 46) / 2 ^ 53 := by gcongr
        _ < 1 := by norm_num

theorem Lat.mulD_bound (K : ℤ) (B : ℤ) (hB : 0 ≤ B) (hK : |K * D| ≤ B) : |K| ≤ B := by
  rw [abs_mul] at hK
  have : 1 ≤ |D| := Int.one_le_abs h.ne
  nlinarith [abs_nonneg K]

theorem Lat.back_eq (c ed : Bool) (K : ℤ) (hK : |K * D| ≤ 2 ^ 50) : back r a c ed K = back id a c ed K := by
  have hK1 := Lat.mulD_bound hr h K _ (by norm_num) hK
  obtain ⟨k1, k2⟩ := abs_le.mp hK
  obtain ⟨k3, k4⟩ := abs_le.mp hK1
  obtain ⟨d1, d2⟩ := abs_le.mp h.bD
  obtain ⟨l1, l2⟩ := abs_le.mp h.bL
  have hz := half_zpow e
  have hid : FloatGrid.d id a = a.d := rfl
  unfold back
  rw [Lat.d_eq hr h, hid]
  have halfK : r ((K : ℚ) + 1 / 2) = K + 1 / 2 := by
    apply hr.half _ (2 * K + 1) (by push_cast; ring)
    rw [abs_le]; constructor <;> omega
  have halfK' : r ((K : ℚ) / 2) = K / 2 := by
    apply hr.half _ K rfl
    rw [abs_le]; constructor <;> omega
  -- `N` half steps
  have fin : ∀ (t : ℚ) (N : ℤ), t = N / 2 → |N * D| ≤ 2 ^ 51 + 2 ^ 46 → r (r (t * a.d) + a.lo) = t * a.d + a.lo := by
    intro t N ht hN
    have e1 : t * a.d = ((N * D : ℤ) : ℚ) * 2 ^ (e - 1) := by
      rw [ht, h.d, hz]; push_cast; ring
    have h1 : r (t * a.d) = t * a.d := hr.ex _ _ _ e1 (hN.trans (by norm_num))
    rw [h1]
    have e2 : t * a.d + a.lo = ((N * D + 2 * L : ℤ) : ℚ) * 2 ^ (e - 1) := by
      rw [e1, h.lo, hz]; push_cast; ring
    refine hr.ex _ _ _ e2 ?_
    obtain ⟨n1, n2⟩ := abs_le.mp hN
    rw [abs_le]; constructor <;> omega
  cases c <;> cases ed
  · simp only [Bool.not_false, Bool.and_true, Bool.and_false, Bool.false_eq_true, if_false, Bool.and_self, id]
    refine fin _ (2 * K) (by push_cast; ring) ?_
    rw [abs_le]; constructor <;> linarith
  · simp only [Bool.not_true, Bool.and_true, Bool.and_false, Bool.false_eq_true, if_false, Bool.and_self, id]
    refine fin _ (2 * K) (by push_cast; ring) ?_
    rw [abs_le]; constructor <;> linarith
  · simp only [Bool.not_false, Bool.and_true, Bool.and_self, if_true, id, halfK]
    refine fin _ (2 * K + 1) (by push_cast; ring) ?_
    rw [abs_le]; constructor <;> linarith
  · simp only [Bool.not_true, Bool.and_true, Bool.and_false, Bool.false_eq_true, if_false, Bool.and_self, if_true, id, halfK']
    refine fin _ K (by push_cast; ring) ?_
    rw [abs_le]; constructor <;> linarith

theorem Lat.steps_int (c ed : Bool) (V : ℤ) (hV : |V| ≤ 2 ^ 46) :
    ∃ K : ℤ, steps id a c ed (V * 2 ^ e) = K ∧ |K * D| ≤ 2 ^ 49 := by
  have hq := Lat.q_bound hr h V hV
  have hD2 : |(D : ℚ)| ≤ 2 ^ 46 := by exact_mod_cast h.bD
  have hid : ratio id a (V * 2 ^ e) = ((V - L : ℤ) : ℚ) / D := Lat.ratio_exact hr h V
  unfold steps
  rw [hid]
  generalize ((V - L : ℤ) : ℚ) / D = q at hq
  refine ⟨_, rfl, ?_⟩
  have key : ∀ y : ℚ, |y| ≤ 2 * |q| + 1 / 2 → |⌊y⌋ * D| ≤ 2 ^ 49 := by
    intro y hy
    have h1 := Int.floor_le y
    have h2 := Int.lt_floor_add_one y
    have h3 : |(⌊y⌋ : ℚ)| ≤ 2 * |q| + 2 := by
      obtain ⟨y1, y2⟩ := abs_le.mp hy
      rw [abs_le]; constructor <;> linarith
    have h4 : |(⌊y⌋ : ℚ)| * |(D : ℚ)| ≤ (2 * |q| + 2) * |(D : ℚ)| := by gcongr
    have h5 : ((|⌊y⌋ * D| : ℤ) : ℚ) ≤ ((2 ^ 49 : ℤ) : ℚ) := by
      push_cast
      rw [abs_mul]
      calc _ ≤ 2 * (|q| * |(D : ℚ)|) + 2 * |(D : ℚ)| := by linarith
        _ ≤ 2 * 2 ^ 47 + 2 * 2 ^ 46 := by gcongr
        _ ≤ 2 ^ 49 := by norm_num
    exact_mod_cast h5
  have ht : |(1 / 2 : ℚ)| = 1 / 2 := by norm_num
  have q0 := abs_nonneg q
  apply key
  simp only [id]
  cases c <;> cases ed
  · simp only [Bool.not_false, Bool.and_true, Bool.and_false, Bool.false_eq_true, if_false, Bool.and_self]
    exact (abs_add_le _ _).trans (by rw [ht]; linarith)
  · simp only [Bool.not_true, Bool.and_true, Bool.and_false, Bool.false_eq_true, if_false, Bool.and_self]
    exact (abs_add_le _ _).trans (by rw [ht]; linarith)
  · simp only [Bool.not_false, Bool.and_true, Bool.and_self, if_true]
    rw [sub_add_cancel]; linarith
  · simp only [Bool.not_true, Bool.and_true, Bool.and_false, Bool.false_eq_true, if_false, Bool.and_self, if_true]
    exact (abs_add_le _ _).trans (by rw [ht, abs_mul, abs_two]; linarith)

/-- The position after the step of the outer edge. -/
theorem Lat.inner_int (c ed inb : Bool) (V : ℤ) (hV : |V| ≤ 2 ^ 46) :
    ∃ K : ℤ, |K * D| ≤ 2 ^ 50 ∧ inner r a ed inb (V * 2 ^ e) (steps r a c ed (V * 2 ^ e)) = K ∧
      inner id a ed inb (V * 2 ^ e) (steps id a c ed (V * 2 ^ e)) = K := by
  rw [Lat.steps_eq hr h c ed V hV]
  obtain ⟨K, hK, hb⟩ := Lat.steps_int hr h c ed V hV
  rw [hK]
  unfold inner
  have hK1 := Lat.mulD_bound hr h K _ (by norm_num) hb
  obtain ⟨k1, k2⟩ := abs_le.mp hb
  obtain ⟨k3, k4⟩ := abs_le.mp hK1
  obtain ⟨d1, d2⟩ := abs_le.mp h.bD
  split
  · refine ⟨K - 1, ?_, ?_, by push_cast; rfl⟩
    · rw [sub_mul, one_mul, abs_le]; constructor <;> omega
    · have : ((K : ℚ) - 1) = ((K - 1 : ℤ) : ℚ) := by push_cast; rfl
      rw [this]
      exact hr.exact _ (isDouble_int _ (by rw [abs_le]; constructor <;> omega))
  · exact ⟨K, hb.trans (by norm_num), rfl, rfl⟩

theorem Lat.snap_eq (c ed inb : Bool) (V : ℤ) (hV : |V| ≤ 2 ^ 46) :
    FloatGrid.snap r a c ed inb (V * 2 ^ e) = a.snap c ed inb (V * 2 ^ e) := by
  rw [← snap_id]
  unfold FloatGrid.snap
  obtain ⟨K, hb, h1, h2⟩ := Lat.inner_int hr h c ed inb V hV
  rw [h1, h2, Lat.back_eq hr h c ed K hb]

theorem Lat.index_center (K : ℤ) (hK : |K * D| ≤ 2 ^ 50) : index r a (((K : ℚ) + 1 / 2) * a.d + a.lo) = K := by
  have hz := half_zpow e
  have hs := two_pos e
  have hDn : (D : ℚ) ≠ 0 := by exact_mod_cast h.ne
  obtain ⟨k1, k2⟩ := abs_le.mp hK
  have hK1 := Lat.mulD_bound hr h K _ (by norm_num) hK
  obtain ⟨k3, k4⟩ := abs_le.mp hK1
  obtain ⟨d1, d2⟩ := abs_le.mp h.bD
  unfold index ratio
  rw [Lat.d_eq hr h]
  have hdn : a.d ≠ 0 := by rw [h.d]; exact mul_ne_zero hDn hs.ne'
  have e1 : ((K : ℚ) + 1 / 2) * a.d + a.lo - a.lo = ((K : ℚ) + 1 / 2) * a.d := by ring
  have h1 : r (((K : ℚ) + 1 / 2) * a.d) = ((K : ℚ) + 1 / 2) * a.d := by
    apply hr.ex _ ((2 * K + 1) * D) (e - 1)
    · rw [h.d, hz]; push_cast; ring
    · have : (2 * K + 1) * D = 2 * (K * D) + D := by ring
      rw [this, abs_le]; constructor <;> omega
  rw [e1, h1, mul_div_cancel_right₀ _ hdn]
  have h2 : r ((K : ℚ) + 1 / 2) = K + 1 / 2 := by
    apply hr.half _ (2 * K + 1) (by push_cast; ring)
    rw [abs_le]; constructor <;> omega
  rw [h2, add_sub_cancel_right]
  exact hr.exact _ (isDouble_int _ (by rw [abs_le]; constructor <;> omega))

theorem Lat.cell_eq (inb : Bool) (V : ℤ) (hV : |V| ≤ 2 ^ 46) :
    ∃ K : ℤ, |K * D| ≤ 2 ^ 50 ∧ cell r a inb (V * 2 ^ e) = K ∧ cell id a inb (V * 2 ^ e) = K := by
  obtain ⟨K, hb, h1, h2⟩ := Lat.inner_int hr h true false inb V hV
  have hdn : a.d ≠ 0 := by
    rw [h.d]; exact mul_ne_zero (by exact_mod_cast h.ne) (two_pos e).ne'
  have hbk : back id a true false K = ((K : ℚ) + 1 / 2) * a.d + a.lo := rfl
  refine ⟨K, hb, ?_, ?_⟩
  · unfold cell FloatGrid.snap
    rw [h1, Lat.back_eq hr h _ _ K hb, hbk, Lat.index_center hr h K hb, truncInt_int]
  · unfold cell FloatGrid.snap
    rw [h2, hbk]
    have : index id a (((K : ℚ) + 1 / 2) * a.d + a.lo) = K := by
      show (((K : ℚ) + 1 / 2) * a.d + a.lo - a.lo) / a.d - 1 / 2 = K
      rw [add_sub_cancel_right, mul_div_cancel_right₀ _ hdn, add_sub_cancel_right]
    rw [this, truncInt_int]

theorem Lat.center_eq (K : ℤ) (hK : |K * D| ≤ 2 ^ 50) : center r a K = ((K : ℚ) + 1 / 2) * a.d + a.lo := by
  have := Lat.back_eq hr h true false K hK
  exact this

theorem Lat.limit_eq (K s : ℤ) (hs : s = 1 ∨ s = -1) (hK : |K * D| ≤ 2 ^ 51) :
    r (((K : ℚ) + 1 / 2) * a.d + a.lo + r ((s : ℚ) / 2 * a.d)) = ((K : ℚ) + 1 / 2) * a.d + a.lo + (s : ℚ) / 2 * a.d := by
  have hz := half_zpow e
  obtain ⟨k1, k2⟩ := abs_le.mp hK
  obtain ⟨d1, d2⟩ := abs_le.mp h.bD
  obtain ⟨l1, l2⟩ := abs_le.mp h.bL
  have h1 : r ((s : ℚ) / 2 * a.d) = (s : ℚ) / 2 * a.d := by
    apply hr.ex _ (s * D) (e - 1)
    · rw [h.d, hz]; push_cast; ring
    · rcases hs with rfl | rfl <;> rw [abs_le] <;> constructor <;> omega
  rw [h1]
  apply hr.ex _ (2 * (K * D) + D + 2 * L + s * D) (e - 1)
  · rw [h.d, h.lo, hz]; push_cast; ring
  · rcases hs with rfl | rfl <;> rw [abs_le] <;> constructor <;> omega

theorem Lat.cropRange_eq (U V : ℤ) (hU : |U| ≤ 2 ^ 46) (hV : |V| ≤ 2 ^ 46) :
    FloatGrid.cropRange r a (U * 2 ^ e) (V * 2 ^ e) = FloatGrid.cropRange id a (U * 2 ^ e) (V * 2 ^ e) := by
  -- the two ends, in the direction of the axis
  obtain ⟨P, Q, hP, hQ, e0, e1⟩ : ∃ P Q : ℤ, |P| ≤ 2 ^ 46 ∧ |Q| ≤ 2 ^ 46 ∧
      (if a.lo > a.hi then (V : ℚ) * 2 ^ e else U * 2 ^ e) = P * 2 ^ e ∧
      (if a.lo > a.hi then (U : ℚ) * 2 ^ e else V * 2 ^ e) = Q * 2 ^ e := by
    split
    · exact ⟨V, U, hV, hU, rfl, rfl⟩
    · exact ⟨U, V, hU, hV, rfl, rfl⟩
  unfold FloatGrid.cropRange
  simp only [e0, e1]
  obtain ⟨K, kb, k1, k2⟩ := Lat.cell_eq hr h true P hP
  obtain ⟨M, mb, m1, m2⟩ := Lat.cell_eq hr h true Q hQ
  rw [k1, k2, m1, m2, Lat.d_eq hr h]
  have hid : FloatGrid.d id a = a.d := rfl
  have hH : r (a.hi - Q * 2 ^ e) = a.hi - Q * 2 ^ e := by
    apply hr.ex _ (H - Q) e
    · rw [h.hi]; push_cast; ring
    · obtain ⟨a1, a2⟩ := abs_le.mp h.bH
      obtain ⟨b1, b2⟩ := abs_le.mp hQ
      rw [abs_le]; constructor <;> omega
  have hedge : decide (r (pyMod (r (a.hi - Q * 2 ^ e)) a.d) = 0) = decide (id (pyMod (id (a.hi - Q * 2 ^ e)) (FloatGrid.d id a)) = 0) := by
    rw [hH, hid]
    exact decide_eq_decide.mpr (hr.eq_zero_iff _)
  rw [hedge]
  obtain ⟨d1, d2⟩ := abs_le.mp h.bD
  obtain ⟨s1, s2⟩ := abs_le.mp mb
  set c1 : ℤ := if (decide (id (pyMod (id (a.hi - Q * 2 ^ e)) (FloatGrid.d id a)) = 0) && !decide ((Q : ℚ) * 2 ^ e = a.hi)) = true
      then M - 1 else M with hc1
  have c1b' : c1 = M ∨ c1 = M - 1 := by rw [hc1]; split <;> simp
  have c1b : |c1 * D| ≤ 2 ^ 50 + 2 ^ 46 := by
    rcases c1b' with hh | hh <;> rw [hh]
    · exact mb.trans (by norm_num)
    · rw [sub_mul, one_mul, abs_le]; constructor <;> omega
  have cen : ∀ J : ℤ, |J * D| ≤ 2 ^ 50 + 2 ^ 46 → center r a J = ((J : ℚ) + 1 / 2) * a.d + a.lo := by
    intro J hJ
    have hz := half_zpow e
    obtain ⟨j1, j2⟩ := abs_le.mp hJ
    have hJ1 := Lat.mulD_bound hr h J _ (by norm_num) hJ
    obtain ⟨j3, j4⟩ := abs_le.mp hJ1
    obtain ⟨l1, l2⟩ := abs_le.mp h.bL
    unfold center
    rw [Lat.d_eq hr h]
    have h1 : r ((J : ℚ) + 1 / 2) = J + 1 / 2 := by
      apply hr.half _ (2 * J + 1) (by push_cast; ring)
      rw [abs_le]; constructor <;> omega
    have h2 : r (((J : ℚ) + 1 / 2) * a.d) = ((J : ℚ) + 1 / 2) * a.d := by
      apply hr.ex _ (2 * (J * D) + D) (e - 1)
      · rw [h.d, hz]; push_cast; ring
      · rw [abs_le]; constructor <;> omega
    rw [h1, h2]
    apply hr.ex _ (2 * (J * D) + D + 2 * L) (e - 1)
    · rw [h.d, h.lo, hz]; push_cast; ring
    · rw [abs_le]; constructor <;> omega
  have cid : ∀ J : ℤ, center id a J = ((J : ℚ) + 1 / 2) * a.d + a.lo := fun J => rfl
  rw [cen K (kb.trans (by norm_num)), cen c1 c1b, cid, cid, hid]
  have lim0 := Lat.limit_eq hr h K (-1) (Or.inr rfl) (kb.trans (by norm_num))
  have lim1 := Lat.limit_eq hr h c1 1 (Or.inl rfl) (c1b.trans (by norm_num))
  have n1 : (-(1 / 2) : ℚ) = ((-1 : ℤ) : ℚ) / 2 := by norm_num
  have n2 : ((1 / 2) : ℚ) * a.d = ((1 : ℤ) : ℚ) / 2 * a.d := by norm_num
  rw [n1, n2, lim0, lim1]
  rfl

end

/-! ### C123: what is relied on -/

/-- A grid whose limits and cell sizes are multiples of a power of two on each axis (every grid of whole pixels; a map grid with limits in
whole metres and cells of 0.5, 2 or 10 m). -/
def GridOnLattice (ex ey : ℤ) (g : Grid) : Prop := AxisOnLattice ex g.ax ∧ AxisOnLattice ey g.ay

theorem snap_lattice {r : ℚ → ℚ} (hr : Nearest r) {e : ℤ} {a : GAxis} (h : AxisOnLattice e a) (c ed inb : Bool) (v : ℚ) (hv : OnLattice e v) :
    FloatGrid.snap r a c ed inb v = a.snap c ed inb v := by
  obtain ⟨L, H, D, hl⟩ := h.lat
  obtain ⟨V, hV, rfl⟩ := hv
  exact Lat.snap_eq hr hl c ed inb V hV

theorem cell_lattice {r : ℚ → ℚ} (hr : Nearest r) {e : ℤ} {a : GAxis} (h : AxisOnLattice e a) (inb : Bool) (v : ℚ) (hv : OnLattice e v) :
    cell r a inb v = cell id a inb v := by
  obtain ⟨L, H, D, hl⟩ := h.lat
  obtain ⟨V, hV, rfl⟩ := hv
  obtain ⟨K, _, h1, h2⟩ := Lat.cell_eq hr hl inb V hV
  rw [h1, h2]

theorem Lat.valid_bound {a : GAxis} {e L H D : ℤ} (h : Lat a e L H D) (k : ℤ) (h0 : 0 ≤ k) (h1 : k < a.n) : |k * D| ≤ 2 ^ 50 := by
  have hn := h.n
  have : |k * D| ≤ |(a.n : ℤ) * D| := by
    rw [abs_mul, abs_mul]
    have : |k| ≤ |(a.n : ℤ)| := by rw [abs_of_nonneg h0, abs_of_nonneg (by omega)]; omega
    gcongr
  rw [hn] at this
  refine this.trans ?_
  obtain ⟨a1, a2⟩ := abs_le.mp h.bH
  obtain ⟨b1, b2⟩ := abs_le.mp h.bL
  rw [abs_le]; constructor <;> omega

theorem center_lattice {r : ℚ → ℚ} (hr : Nearest r) {e : ℤ} {a : GAxis} (h : AxisOnLattice e a) (k : ℤ) (h0 : 0 ≤ k) (h1 : k < a.n) :
    center r a k = ((k : ℚ) + 1 / 2) * a.d + a.lo ∧ index r a (center r a k) = k ∧ ∀ inb, cell r a inb (center r a k) = k := by
  obtain ⟨L, H, D, hl⟩ := h.lat
  have hb := hl.valid_bound k h0 h1
  have hc := Lat.center_eq hr hl k hb
  refine ⟨hc, ?_, fun inb => ?_⟩
  · rw [hc, Lat.index_center hr hl k hb]
  · -- the same axis on the lattice of half the spacing
    have hdn : a.d ≠ 0 := by rw [hl.d]; exact mul_ne_zero (by exact_mod_cast hl.ne) (two_pos e).ne'
    have hz := half_zpow e
    have hq : ratio r a (((k : ℚ) + 1 / 2) * a.d + a.lo) = k + 1 / 2 := by
      have hi := Lat.index_center hr hl k hb
      have hK1 := Lat.mulD_bound hr hl k _ (by norm_num) hb
      obtain ⟨k1, k2⟩ := abs_le.mp hb
      obtain ⟨k3, k4⟩ := abs_le.mp hK1
      obtain ⟨d1, d2⟩ := abs_le.mp hl.bD
      unfold ratio
      rw [Lat.d_eq hr hl]
      have e1 : ((k : ℚ) + 1 / 2) * a.d + a.lo - a.lo = ((k : ℚ) + 1 / 2) * a.d := by ring
      have h1 : r (((k : ℚ) + 1 / 2) * a.d) = ((k : ℚ) + 1 / 2) * a.d := by
        apply hr.ex _ ((2 * k + 1) * D) (e - 1)
        · rw [hl.d, hz]; push_cast; ring
        · have : (2 * k + 1) * D = 2 * (k * D) + D := by ring
          rw [this, abs_le]; constructor <;> omega
      rw [e1, h1, mul_div_cancel_right₀ _ hdn]
      apply hr.half _ (2 * k + 1) (by push_cast; ring)
      rw [abs_le]; constructor <;> omega
    have hK1 := Lat.mulD_bound hr hl k _ (by norm_num) hb
    obtain ⟨k3, k4⟩ := abs_le.mp hK1
    have rk : r (k : ℚ) = k := hr.exact _ (isDouble_int _ (by rw [abs_le]; constructor <;> omega))
    have rkh : r ((k : ℚ) + 1 / 2) = k + 1 / 2 := by
      apply hr.half _ (2 * k + 1) (by push_cast; ring)
      rw [abs_le]; constructor <;> omega
    have hst : steps r a true false (((k : ℚ) + 1 / 2) * a.d + a.lo) = k := by
      unfold steps
      simp only [Bool.not_false, Bool.and_self, if_true]
      rw [hq, add_sub_cancel_right, rk, rkh]
      congr 1
      rw [Int.floor_eq_iff]; constructor <;> linarith
    have hin : inner r a false inb (((k : ℚ) + 1 / 2) * a.d + a.lo) k = k := by
      unfold inner
      have hne : ((k : ℚ) + 1 / 2) * a.d + a.lo ≠ a.hi := by
        intro hh
        have hd := GAxis.n_mul_d (a := a) hl.pos
        have : ((k : ℚ) + 1 / 2) * a.d = a.n * a.d := by linarith
        have := mul_right_cancel₀ hdn this
        have h2 : ((2 * k + 1 : ℤ) : ℚ) = ((2 * a.n : ℤ) : ℚ) := by push_cast; linarith
        have : 2 * k + 1 = 2 * (a.n : ℤ) := by exact_mod_cast h2
        omega
      rw [decide_eq_false hne]; simp
    unfold cell FloatGrid.snap
    rw [hc, hst, hin, Lat.back_eq hr hl _ _ k hb]
    have hbk : back id a true false k = ((k : ℚ) + 1 / 2) * a.d + a.lo := rfl
    rw [hbk, Lat.index_center hr hl k hb, truncInt_int]

/-- C123: in double precision (or with any other rounding to nearest with 53 bits), for a grid on a lattice and a point on the same lattice, `snap_xy`
gives the exact result in every mode. -/
theorem float_snap_xy_exact (r : ℚ → ℚ) (hr : Nearest r) (ex ey : ℤ) (g : Grid) (hg : GridOnLattice ex ey g) (c ed inb : Bool)
    (p : ℚ × ℚ) (hx : OnLattice ex p.1) (hy : OnLattice ey p.2) : snapXy r g c ed inb p = g.snapXy c ed inb p := by
  unfold snapXy Grid.snapXy
  rw [snap_lattice hr hg.1 c ed inb _ hx, snap_lattice hr hg.2 c ed inb _ hy]

/-- C123: … and `xy_to_rowcol(snap=True)` gives the exact row and column. -/
theorem float_xy_to_rowcol_exact (r : ℚ → ℚ) (hr : Nearest r) (ex ey : ℤ) (g : Grid) (hg : GridOnLattice ex ey g) (inb : Bool)
    (p : ℚ × ℚ) (hx : OnLattice ex p.1) (hy : OnLattice ey p.2) : xyToRowcolSnap r g inb p = g.xyToRowcolSnap inb p := by
  have key : ∀ r' : ℚ → ℚ, xyToRowcolSnap r' g inb p = .ok (cell r' g.ay inb p.2, cell r' g.ax inb p.1) := by
    intro r'
    unfold xyToRowcolSnap snapXy cell xyToRowcol
    simp [bind, Except.bind, pure, Except.pure]
  rw [← xyToRowcolSnap_id, key, key, cell_lattice hr hg.1 inb _ hx, cell_lattice hr hg.2 inb _ hy]

/-- C123: … `rowcol_to_xy` of a cell is its exact centre, and `xy_to_rowcol` of it (snapped or not) is the cell. -/
theorem float_rowcol_round_trip (r : ℚ → ℚ) (hr : Nearest r) (ex ey : ℤ) (g : Grid) (hg : GridOnLattice ex ey g) (row col : ℤ)
    (h : 0 ≤ row ∧ row < g.ay.n ∧ 0 ≤ col ∧ col < g.ax.n) :
    rowcolToXy r g (row, col) = (cellCenter g.ax.lo g.ax.hi g.ax.n col, cellCenter g.ay.lo g.ay.hi g.ay.n row) ∧
    xyToRowcol r g (rowcolToXy r g (row, col)) = ((row : ℚ), (col : ℚ)) ∧
    ∀ inb, xyToRowcolSnap r g inb (rowcolToXy r g (row, col)) = .ok (row, col) := by
  obtain ⟨h1, h2, h3, h4⟩ := h
  obtain ⟨x1, x2, x3⟩ := center_lattice hr hg.1 col h3 h4
  obtain ⟨y1, y2, y3⟩ := center_lattice hr hg.2 row h1 h2
  refine ⟨?_, ?_, fun inb => ?_⟩
  · unfold rowcolToXy
    rw [x1, y1, GAxis.cellCenter_eq hg.1.pos, GAxis.cellCenter_eq hg.2.pos]
  · unfold xyToRowcol rowcolToXy
    rw [x2, y2]
  · have key : ∀ p : ℚ × ℚ, xyToRowcolSnap r g inb p = .ok (cell r g.ay inb p.2, cell r g.ax inb p.1) := by
      intro p
      unfold xyToRowcolSnap snapXy cell xyToRowcol
      simp [bind, Except.bind, pure, Except.pure]
    rw [key]
    unfold rowcolToXy
    rw [x3, y3]

theorem cropExtent_eq (r : ℚ → ℚ) (g : Grid) (xlim ylim : Option (ℚ × ℚ)) :
    FloatGrid.cropExtent r g xlim ylim =
      (let x := request xlim g.ax
       let y := request ylim g.ay
       let x0 := max (min x.1 x.2) g.ax.min
       let y0 := max (min y.1 y.2) g.ay.min
       let x1 := min (max x.1 x.2) g.ax.max
       let y1 := min (max y.1 y.2) g.ay.max
       if x1 - x0 ≤ 0 ∨ y1 - y0 ≤ 0 then .error .valueError
       else .ok { xlim := (FloatGrid.cropRange r g.ax x0 x1).1, ylim := (FloatGrid.cropRange r g.ay y0 y1).1,
                  rows := (FloatGrid.cropRange r g.ay y0 y1).2, cols := (FloatGrid.cropRange r g.ax x0 x1).2 }) := by
  unfold FloatGrid.cropExtent request intersectBoxes colMax colMin
  simp only [List.any_cons, List.any_nil, List.length_cons, List.length_nil, List.map_cons, List.map_nil,
    List.take, List.drop, List.foldl, List.zipWith, Bool.or_false, id, ne_eq, not_true_eq_false, decide_false,
    Bool.false_eq_true, if_false, bind, Except.bind, pure, Except.pure, Bool.or_eq_true, decide_eq_true_eq,
    Nat.reduceAdd, Nat.reduceMod, Nat.reduceDiv]
  split_ifs <;> rfl

theorem OnLattice.max {e : ℤ} {x y : ℚ} (hx : OnLattice e x) (hy : OnLattice e y) : OnLattice e (max x y) := by
  rcases max_choice x y with h | h <;> rw [h] <;> assumption
theorem OnLattice.min {e : ℤ} {x y : ℚ} (hx : OnLattice e x) (hy : OnLattice e y) : OnLattice e (min x y) := by
  rcases min_choice x y with h | h <;> rw [h] <;> assumption

/-- C123: … and `crop_extent` with limits on the lattice (or none) gives the exact window and limits. -/
theorem float_crop_extent_exact (r : ℚ → ℚ) (hr : Nearest r) (ex ey : ℤ) (g : Grid) (hg : GridOnLattice ex ey g)
    (xlim ylim : Option (ℚ × ℚ)) (hx : ∀ l ∈ xlim, OnLattice ex l.1 ∧ OnLattice ex l.2)
    (hy : ∀ l ∈ ylim, OnLattice ey l.1 ∧ OnLattice ey l.2) : FloatGrid.cropExtent r g xlim ylim = g.cropExtent xlim ylim := by
  have one : ∀ (e : ℤ) (a : GAxis) (ha : AxisOnLattice e a) (o : Option (ℚ × ℚ)) (ho : ∀ l ∈ o, OnLattice e l.1 ∧ OnLattice e l.2),
      let q := request o a
      FloatGrid.cropRange r a (max (min q.1 q.2) a.min) (min (max q.1 q.2) a.max) =
      FloatGrid.cropRange id a (max (min q.1 q.2) a.min) (min (max q.1 q.2) a.max) := by
    intro e a ha o ho q
    have hq : OnLattice e q.1 ∧ OnLattice e q.2 := by
      cases o with
      | none => exact ⟨ha.lo, ha.hi⟩
      | some l => exact ho l rfl
    have h1 : OnLattice e (max (min q.1 q.2) a.min) := (hq.1.min hq.2).max (ha.lo.min ha.hi)
    have h2 : OnLattice e (min (max q.1 q.2) a.max) := (hq.1.max hq.2).min (ha.lo.max ha.hi)
    obtain ⟨U, hU, e1⟩ := h1
    obtain ⟨V, hV, e2⟩ := h2
    obtain ⟨L, H, D, hl⟩ := ha.lat
    rw [e1, e2]
    exact Lat.cropRange_eq hr hl U V hU hV
  rw [← cropExtent_id, cropExtent_eq, cropExtent_eq]
  simp only [one ex g.ax hg.1 xlim hx, one ey g.ay hg.2 ylim hy]

/-- C123: … so the whole grid is its own crop. -/
theorem float_crop_extent_none (r : ℚ → ℚ) (hr : Nearest r) (ex ey : ℤ) (g : Grid) (hg : GridOnLattice ex ey g) :
    FloatGrid.cropExtent r g none none = .ok { xlim := (g.ax.lo, g.ax.hi), ylim := (g.ay.lo, g.ay.hi),
                                               rows := (0, g.ay.n - 1), cols := (0, g.ax.n - 1) } := by
  rw [float_crop_extent_exact r hr ex ey g hg none none (by simp) (by simp)]
  exact crop_extent_none g ⟨hg.1.pos, hg.2.pos, hg.1.ne, hg.2.ne⟩

/-! ### C123: otherwise rounding shows -/

/-- C123 (violated for other cell sizes): the centre of column 1 of five columns from 0 to 7, as `rowcol_to_xy` computes it in double precision,
is in column 0 according to `xy_to_rowcol(snap=True)`. -/
theorem float_rowcol_round_trip_violated :
    let g : Grid := ⟨⟨0, 7, 5⟩, ⟨0, 5, 5⟩⟩
    xyToRowcolSnap rnd g true (rowcolToXy rnd g (2, 1)) = .ok (2, 0) := by
  decide +kernel

/-- C123 (violated): a point inside a grid of six columns from 0 to 1 gets column number 6, which does not exist. -/
theorem float_xy_to_rowcol_outside_violated :
    let g : Grid := ⟨⟨0, 1, 6⟩, ⟨0, 6, 6⟩⟩
    let p : ℚ × ℚ := (1 - 1 / 2 ^ 53, 3)
    g.inboundsXy p = true ∧ IsDouble p.1 ∧ xyToRowcolSnap rnd g true p = .ok (3, 6) := by
  refine ⟨by decide +kernel, ⟨2 ^ 53 - 1, -53, by norm_num, by norm_num⟩, by decide +kernel⟩

/-- C123 (violated): cropping a grid of eleven columns from 0 to 100 to its own limits drops the last column. -/
theorem float_crop_extent_none_violated :
    let g : Grid := ⟨⟨0, 100, 11⟩, ⟨0, 22, 11⟩⟩
    (FloatGrid.cropExtent rnd g none none).toOption.map (fun e => (e.rows, e.cols)) = some ((0, 10), (0, 9)) := by
  decide +kernel

/-- Concrete case: a map of 20 m cells in metres, with the y axis downwards. -/
example : GridOnLattice 0 0 ⟨⟨500000, 502000, 100⟩, ⟨6780000, 6779000, 50⟩⟩ :=
  ⟨⟨by norm_num, by norm_num, ⟨500000, by norm_num, by norm_num⟩, ⟨502000, by norm_num, by norm_num⟩, ⟨20, by norm_num, by norm_num [GAxis.d]⟩⟩,
   ⟨by norm_num, by norm_num, ⟨6780000, by norm_num, by norm_num⟩, ⟨6779000, by norm_num, by norm_num⟩, ⟨-20, by norm_num, by norm_num [GAxis.d]⟩⟩⟩

end Glimpse.FloatGrid
