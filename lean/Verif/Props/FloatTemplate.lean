import Verif.Model.FloatTemplate
import Verif.Props.Double
import Verif.Props.Tiles

/-!
C134: placement of template and search tiles in double precision.
-/
set_option autoImplicit false
set_option linter.unusedSimpArgs false
set_option linter.unusedSectionVars false

namespace Glimpse.FloatTemplate
open Glimpse Glimpse.Tiles Glimpse.Double

/-! ### Without rounding -/

theorem tileBox_id (nx ny : Nat) (uv : ℚ × ℚ) (size : Nat × Nat) : tileBox id nx ny uv size = Tiles.tileBox nx ny uv size := rfl

/-! ### Numbers that are exact -/

theorem isDouble_half (K : ℤ) (h : |K| ≤ 2 ^ 53) : IsDouble ((K : ℚ) / 2) := by
  have := isDouble_scale K (-1) h
  rwa [show (2 : ℚ) ^ (-1 : ℤ) = 1 / 2 by norm_num, mul_one_div] at this

/-- A number of half units is subtracted exactly from a larger double. -/
theorem isDouble_sub_half (u : ℚ) (hu : IsDouble u) (H : ℤ) (h0 : 0 ≤ H) (h1 : (H : ℚ) / 2 ≤ u) (h2 : u ≤ 2 ^ 40) : IsDouble (u - (H : ℚ) / 2) := by
  obtain ⟨m, e, hm, rfl⟩ := hu
  have hpos : (0 : ℚ) < 2 ^ e := by positivity
  have hH : (0 : ℚ) ≤ H := by exact_mod_cast h0
  rcases le_total e (-1) with he | he
  · obtain ⟨k, hk⟩ : ∃ k : Nat, -1 - e = k := ⟨(-1 - e).toNat, by omega⟩
    have e1 : (H : ℚ) / 2 = ((H * 2 ^ k : ℤ) : ℚ) * 2 ^ e := by
      push_cast
      rw [mul_assoc, ← zpow_natCast, ← zpow_add₀ (by norm_num), ← hk, show -1 - e + e = (-1 : ℤ) by ring]
      norm_num
      ring
    have e2 : (m : ℚ) * 2 ^ e - (H : ℚ) / 2 = ((m - H * 2 ^ k : ℤ) : ℚ) * 2 ^ e := by
      rw [e1]
      push_cast
      ring
    rw [e2]
    refine isDouble_scale _ _ ?_
    rw [e1] at h1
    have h3 : ((H * 2 ^ k : ℤ) : ℚ) ≤ m := le_of_mul_le_mul_right h1 hpos
    have h3' : H * 2 ^ k ≤ m := by exact_mod_cast h3
    have h4 : 0 ≤ H * 2 ^ k := by positivity
    have h5 := (abs_lt.mp hm).2
    rw [abs_le]
    constructor
    · have : (0 : ℤ) < 2 ^ 53 := by positivity
      omega
    · omega
  · obtain ⟨k, hk⟩ : ∃ k : Nat, e + 1 = k := ⟨(e + 1).toNat, by omega⟩
    have e1 : (m : ℚ) * 2 ^ e = ((m * 2 ^ k : ℤ) : ℚ) / 2 := by
      push_cast
      rw [← zpow_natCast, ← hk, zpow_add₀ (by norm_num)]
      norm_num
      ring
    have e2 : (m : ℚ) * 2 ^ e - (H : ℚ) / 2 = ((m * 2 ^ k - H : ℤ) : ℚ) / 2 := by
      rw [e1]
      push_cast
      ring
    rw [e2]
    refine isDouble_half _ ?_
    rw [e1] at h1 h2
    have a : (H : ℚ) ≤ ((m * 2 ^ k : ℤ) : ℚ) := by linarith
    have a' : H ≤ m * 2 ^ k := by exact_mod_cast a
    have b : ((m * 2 ^ k : ℤ) : ℚ) ≤ ((2 ^ 41 : ℤ) : ℚ) := by push_cast; push_cast at h2; linarith
    have b' : m * 2 ^ k ≤ 2 ^ 41 := by exact_mod_cast b
    rw [abs_le]
    constructor
    · have : (0 : ℤ) < 2 ^ 53 := by positivity
      omega
    · have : (2 : ℤ) ^ 41 ≤ 2 ^ 53 := by norm_num
      omega

section
variable {r : ℚ → ℚ} (hr : Nearest r)
include hr

theorem r_half (K : ℤ) (h : |K| ≤ 2 ^ 53) : r ((K : ℚ) / 2) = (K : ℚ) / 2 := hr.exact _ (isDouble_half K h)

theorem r_int (K : ℤ) (h : |K| ≤ 2 ^ 53) : r (K : ℚ) = (K : ℚ) := hr.exact _ (isDouble_int K h)

theorem r_zero : r 0 = 0 := by simpa using r_int hr 0 (by norm_num)

theorem r_neg_of_neg (x : ℚ) (h : x < 0) : r x < 0 := by
  have h1 := hr.near x
  rw [abs_of_neg h] at h1
  have h2 := (abs_le.mp h1).2
  have : -x / 2 ^ 53 < -x := div_lt_self (by linarith) (by norm_num)
  linarith

/-- Error of one operation on numbers in the range of an image of `n` pixels. -/
def unit (n : Nat) : ℚ := ((n : ℚ) + 1) / 2 ^ 50

omit hr in
theorem unit_pos (n : Nat) : 0 < unit n := by unfold unit; positivity

omit hr in
theorem unit_le (n : Nat) (hn : n ≤ 2 ^ 20) : unit n ≤ 1 / 2 ^ 29 := by
  unfold unit
  have h' : n ≤ 1048576 := by norm_num at hn; exact hn
  have : (n : ℚ) ≤ 1048576 := by exact_mod_cast h'
  rw [div_le_div_iff₀ (by positivity) (by positivity)]
  norm_num
  linarith

theorem near_unit (n : Nat) (x : ℚ) (h : |x| ≤ 8 * ((n : ℚ) + 1)) : |r x - x| ≤ unit n := by
  refine (hr.near x).trans ?_
  unfold unit
  rw [div_le_div_iff₀ (by positivity) (by positivity)]
  norm_num at h ⊢
  linarith

/-! ### The template -/

theorem d_unit (n : Nat) (hn : 0 < n) (hb : n ≤ 2 ^ 40) : FloatGrid.d r ⟨0, n, n⟩ = 1 := by
  unfold FloatGrid.d
  have h1 : r ((n : ℚ) - 0) = n := by
    rw [sub_zero]
    have := r_int hr (n : ℤ) (by rw [abs_of_nonneg (by positivity)]; have : ((n : ℕ) : ℤ) ≤ 2 ^ 40 := by exact_mod_cast hb
                                 norm_num at this ⊢; omega)
    exact_mod_cast this
  simp only [h1]
  rw [div_self (by exact_mod_cast hn.ne')]
  simpa using r_int hr 1 (by norm_num)

theorem snap_unitF (n : Nat) (hn : 0 < n) (hb : n ≤ 2 ^ 40) (v : ℚ) (hv : IsDouble v) (h0 : 0 ≤ v) (h1 : v ≤ n) :
    FloatGrid.snap r ⟨0, n, n⟩ false true true v = ((⌊r (v + 1 / 2)⌋ : ℤ) : ℚ) ∧ 0 ≤ ⌊r (v + 1 / 2)⌋ ∧ ⌊r (v + 1 / 2)⌋ ≤ n := by
  have hd := d_unit hr n hn hb
  have hN : ((n : ℕ) : ℤ) ≤ 2 ^ 40 := by exact_mod_cast hb
  have hlow : 0 ≤ r (v + 1 / 2) := by
    have := hr.mono 0 (v + 1 / 2) (by linarith)
    rwa [r_zero hr] at this
  have hup : r (v + 1 / 2) ≤ (n : ℚ) + 1 / 2 := by
    have h2 := hr.mono (v + 1 / 2) (((2 * n + 1 : ℤ) : ℚ) / 2) (by push_cast; linarith)
    rw [r_half hr _ (by rw [abs_of_nonneg (by positivity)]; norm_num at hN ⊢; omega)] at h2
    push_cast at h2
    linarith
  have f0 : 0 ≤ ⌊r (v + 1 / 2)⌋ := Int.floor_nonneg.2 hlow
  have f1 : ⌊r (v + 1 / 2)⌋ ≤ n := by
    have : ⌊r (v + 1 / 2)⌋ < (n : ℤ) + 1 := by
      rw [Int.floor_lt]
      push_cast
      linarith
    omega
  refine ⟨?_, f0, f1⟩
  have hv' : r v = v := hr.exact v hv
  have hF : r ((⌊r (v + 1 / 2)⌋ : ℤ) : ℚ) = ((⌊r (v + 1 / 2)⌋ : ℤ) : ℚ) := r_int hr _ (by rw [abs_of_nonneg f0]; norm_num at hN ⊢; omega)
  unfold FloatGrid.snap FloatGrid.back FloatGrid.inner FloatGrid.steps FloatGrid.ratio
  simp only [hd, Bool.false_and, Bool.and_true, Bool.not_true, Bool.not_false, Bool.false_eq_true, if_false, sub_zero, div_one, hv', mul_one,
    add_zero, hF]

/-- A tile of `s` pixels in an image of `n` pixels, for a center at `u`: as placed in exact arithmetic, or one pixel longer (if the center is less
than `4 (n + 1) / 2 ^ 50` pixels before the center of that tile). -/
def PlacedF (n : Nat) (u : ℚ) (s : Nat) (x0 x1 : ℤ) : Prop :=
  Placed u s x0 x1 ∨ (Placed u s x0 (x1 - 1) ∧ -(4 * unit n) ≤ u - ((x0 : ℚ) + x1) / 2 ∧ u - ((x0 : ℚ) + x1) / 2 < 0)

theorem axis_spec (n : Nat) (hn : 0 < n) (hb : n ≤ 2 ^ 20) (u : ℚ) (hu : IsDouble u) (s : Nat) (hs : 0 < s) (hs' : s ≤ 2 ^ 40)
    (hlo : 0 ≤ r (u - r ((s : ℚ) * (1 / 2)))) (hhi : r (u + r ((s : ℚ) * (1 / 2))) ≤ n) :
    ∃ x0 x1 : ℤ, FloatGrid.snap r ⟨0, n, n⟩ false true true (r (u - r ((s : ℚ) * (1 / 2)))) = (x0 : ℚ) ∧
      FloatGrid.snap r ⟨0, n, n⟩ false true true (r (u + r ((s : ℚ) * (1 / 2)))) = (x1 : ℚ) ∧ 0 ≤ x0 ∧ x1 ≤ n ∧ PlacedF n u s x0 x1 := by
  have hb40 : n ≤ 2 ^ 40 := hb.trans (by norm_num)
  have hnq : (n : ℚ) ≤ 2 ^ 20 := by exact_mod_cast hb
  have hsz : ((s : ℕ) : ℤ) ≤ 2 ^ 40 := by exact_mod_cast hs'
  have hs1 : (1 : ℚ) ≤ s := by exact_mod_cast hs
  have hS : r ((s : ℚ) * (1 / 2)) = (s : ℚ) / 2 := by
    have := r_half hr (s : ℤ) (by rw [abs_of_nonneg (by positivity)]; norm_num at hsz ⊢; omega)
    rw [show (s : ℚ) * (1 / 2) = ((s : ℤ) : ℚ) / 2 by push_cast; ring, this]
    push_cast
    rfl
  rw [hS] at hlo hhi ⊢
  -- the number is at least half the size
  have hge : (s : ℚ) / 2 ≤ u := by
    by_contra hc
    push Not at hc
    exact absurd hlo (not_le.mpr (r_neg_of_neg hr _ (by linarith)))
  have hule : u ≤ 2 ^ 40 := by
    by_contra hc
    push Not at hc
    have h1 := hr.mono (((2 ^ 40 : ℤ)) : ℚ) (u + s / 2) (by push_cast; linarith)
    rw [r_int hr _ (by norm_num)] at h1
    push_cast at h1
    have : (2 : ℚ) ^ 20 < 2 ^ 40 := by norm_num
    linarith
  have hloE : r (u - (s : ℚ) / 2) = u - (s : ℚ) / 2 := by
    have := hr.exact _ (isDouble_sub_half u hu (s : ℤ) (by positivity) (by push_cast; exact hge) hule)
    push_cast at this
    exact this
  have hloE2 : r (u - (s : ℚ) / 2 + 1 / 2) = u - (s : ℚ) / 2 + 1 / 2 := by
    have := hr.exact _ (isDouble_sub_half u hu ((s : ℤ) - 1) (by omega) (by push_cast; linarith) hule)
    push_cast at this
    rw [show u - (s : ℚ) / 2 + 1 / 2 = u - ((s : ℚ) - 1) / 2 by ring]
    exact this
  have hhi0 : u - (s : ℚ) / 2 ≤ r (u + (s : ℚ) / 2) := by
    have := hr.mono (u - (s : ℚ) / 2) (u + (s : ℚ) / 2) (by linarith)
    rwa [hloE] at this
  obtain ⟨a1, a2, a3⟩ := snap_unitF hr n hn hb40 (r (u - (s : ℚ) / 2)) (hr.double _) hlo (by rw [hloE]; linarith)
  obtain ⟨b1, b2, b3⟩ := snap_unitF hr n hn hb40 (r (u + (s : ℚ) / 2)) (hr.double _) (by linarith) hhi
  rw [hloE, hloE2] at a1 a2 a3
  refine ⟨⌊u - (s : ℚ) / 2 + 1 / 2⌋, ⌊r (r (u + (s : ℚ) / 2) + 1 / 2)⌋, by rw [hloE]; exact a1, b1, a2, b3, ?_⟩
  set L := ⌊u - (s : ℚ) / 2 + 1 / 2⌋ with hL
  have l1 := Int.floor_le (u - (s : ℚ) / 2 + 1 / 2)
  have l2 := Int.lt_floor_add_one (u - (s : ℚ) / 2 + 1 / 2)
  rw [← hL] at l1 l2
  have hLn : L + s ≤ 2 ^ 21 + 2 ^ 41 := by
    have : (L : ℚ) ≤ 2 ^ 40 + 1 := by linarith
    have : ((L : ℤ) : ℚ) ≤ ((2 ^ 40 + 1 : ℤ) : ℚ) := by push_cast; norm_num at this ⊢; exact this
    have : L ≤ 2 ^ 40 + 1 := by exact_mod_cast this
    norm_num at this hsz ⊢
    omega
  have hLs : 0 ≤ L + s := by omega
  -- the upper end is between
  have u1 : ((L + s : ℤ) : ℚ) ≤ r (r (u + (s : ℚ) / 2) + 1 / 2) := by
    have h1 := hr.mono (((2 * (L + s) - 1 : ℤ) : ℚ) / 2) (u + (s : ℚ) / 2) (by push_cast; linarith)
    rw [r_half hr _ (by rw [abs_le]; norm_num at hLn ⊢; omega)] at h1
    have h2 := hr.mono ((L + s : ℤ) : ℚ) (r (u + (s : ℚ) / 2) + 1 / 2) (by push_cast at h1 ⊢; linarith)
    rwa [r_int hr _ (by rw [abs_le]; norm_num at hLn ⊢; omega)] at h2
  have u2 : r (r (u + (s : ℚ) / 2) + 1 / 2) ≤ ((L + s + 1 : ℤ) : ℚ) := by
    have h1 := hr.mono (u + (s : ℚ) / 2) (((2 * (L + s) + 1 : ℤ) : ℚ) / 2) (by push_cast; linarith)
    rw [r_half hr _ (by rw [abs_le]; norm_num at hLn ⊢; omega)] at h1
    have h2 := hr.mono (r (u + (s : ℚ) / 2) + 1 / 2) ((L + s + 1 : ℤ) : ℚ) (by push_cast at h1 ⊢; linarith)
    rwa [r_int hr _ (by rw [abs_le]; norm_num at hLn ⊢; omega)] at h2
  rcases lt_or_eq_of_le u2 with u3 | u3
  · have : ⌊r (r (u + (s : ℚ) / 2) + 1 / 2)⌋ = L + s := by
      rw [Int.floor_eq_iff]
      exact ⟨u1, by push_cast at u3 ⊢; linarith⟩
    rw [this]
    refine .inl ⟨by omega, ?_, ?_⟩ <;> push_cast <;> linarith
  · have hf : ⌊r (r (u + (s : ℚ) / 2) + 1 / 2)⌋ = L + s + 1 := by
      rw [u3, Int.floor_intCast]
    rw [hf]
    refine .inr ⟨⟨by omega, ?_, ?_⟩, ?_, ?_⟩
    · push_cast; linarith
    · push_cast; linarith
    · -- rounded up from just below
      have hx0 : 0 ≤ u + (s : ℚ) / 2 := by linarith
      have hx : u + (s : ℚ) / 2 ≤ 2 * n := by
        have h1 := hr.near (u + (s : ℚ) / 2)
        rw [abs_of_nonneg hx0] at h1
        have h2 := (abs_le.mp h1).1
        have h3 : (u + (s : ℚ) / 2) / 2 ^ 53 ≤ (u + (s : ℚ) / 2) / 2 := by
          apply div_le_div_of_nonneg_left hx0 (by norm_num) (by norm_num)
        linarith
      have hn0 : (0 : ℚ) ≤ n := Nat.cast_nonneg n
      have e1 := (abs_le.mp (near_unit hr n (u + (s : ℚ) / 2) (by rw [abs_of_nonneg hx0]; linarith))).2
      have e2 := (abs_le.mp (near_unit hr n (r (u + (s : ℚ) / 2) + 1 / 2) (by
        rw [abs_of_nonneg (by linarith)]; linarith))).2
      rw [u3] at e2
      push_cast at e2 ⊢
      have := unit_pos n
      linarith
    · push_cast; linarith

omit hr in
theorem inbounds_iff (nx ny : Nat) (q : ℚ × ℚ) :
    (imageGrid nx ny).inboundsXy q = true ↔ (0 ≤ q.1 ∧ q.1 ≤ nx ∧ 0 ≤ q.2 ∧ q.2 ≤ ny) := by
  have h1 : (min (0 : ℚ) (nx : ℚ)) = 0 := min_eq_left (by positivity)
  have h2 : (min (0 : ℚ) (ny : ℚ)) = 0 := min_eq_left (by positivity)
  have h3 : (max (0 : ℚ) (nx : ℚ)) = nx := max_eq_right (by positivity)
  have h4 : (max (0 : ℚ) (ny : ℚ)) = ny := max_eq_right (by positivity)
  simp only [Grid.inboundsXy, imageGrid, GAxis.min, GAxis.max, h1, h2, h3, h4, Bool.and_eq_true, decide_eq_true_eq]
  tauto

omit hr in
theorem trunc_int (z : ℤ) : truncInt (z : ℚ) = z := by simp [truncInt]

theorem r_size (s : Nat) (hs' : s ≤ 2 ^ 40) : r ((s : ℚ) * (1 / 2)) = (s : ℚ) / 2 := by
  have hsz : ((s : ℕ) : ℤ) ≤ 2 ^ 40 := by exact_mod_cast hs'
  have := r_half hr (s : ℤ) (by rw [abs_of_nonneg (by positivity)]; norm_num at hsz ⊢; omega)
  rw [show (s : ℚ) * (1 / 2) = ((s : ℤ) : ℚ) / 2 by push_cast; ring, this]
  push_cast
  rfl

theorem offset_spec (u : ℚ) (n : Nat) (hb : n ≤ 2 ^ 20) (x0 x1 : ℤ) (h0 : 0 ≤ x0) (h01 : x0 ≤ x1) (h1 : x1 ≤ n)
    (hd : |u - ((x0 : ℚ) + x1) / 2| ≤ 1 / 2) :
    |r (u - r (((x0 + x1 : ℤ) : ℚ) / 2)) - (u - ((x0 : ℚ) + x1) / 2)| ≤ 1 / 2 ^ 54 ∧
    |r (u - r (((x0 + x1 : ℤ) : ℚ) / 2))| ≤ 1 / 2 := by
  have hN : ((n : ℕ) : ℤ) ≤ 2 ^ 20 := by exact_mod_cast hb
  have e1 : r (((x0 + x1 : ℤ) : ℚ) / 2) = ((x0 : ℚ) + x1) / 2 := by
    rw [r_half hr _ (by rw [abs_of_nonneg (by omega)]; norm_num at hN ⊢; omega)]
    push_cast
    rfl
  rw [e1]
  constructor
  · refine (hr.near _).trans ?_
    rw [show (1 : ℚ) / 2 ^ 54 = (1 / 2) / 2 ^ 53 by norm_num]
    exact div_le_div_of_nonneg_right hd (by positivity)
  · rw [abs_le] at hd ⊢
    have a := hr.mono (((-1 : ℤ) : ℚ) / 2) _ (by push_cast; linarith [hd.1] : ((-1 : ℤ) : ℚ) / 2 ≤ u - ((x0 : ℚ) + x1) / 2)
    have b := hr.mono _ (((1 : ℤ) : ℚ) / 2) (by push_cast; linarith [hd.2] : u - ((x0 : ℚ) + x1) / 2 ≤ ((1 : ℤ) : ℚ) / 2)
    rw [r_half hr _ (by norm_num)] at a b
    push_cast at a b
    constructor <;> linarith

/-- C134 (template). In double precision (any rounding to a nearest double), the template tile lies within the image and starts at the same pixel
as in exact arithmetic. It has the requested size, or is one pixel longer: then the mean is less than `4 (n + 1) / 2 ^ 50` before the centre of
the longer tile. The recorded offset is that of the mean from the centre of the tile as it is, within `2 ^ -54`, and at most half a pixel. Wherever the
tile is placed in exact arithmetic it is placed in double precision; the only error is IndexError, and not raising it means that the tile
centred on the mean reaches out of the image by at most `(n + 1) / 2 ^ 50` pixels, and only at the upper limit. -/
theorem float_template_spec (nx ny : Nat) (hx : 0 < nx) (hy : 0 < ny) (bx : nx ≤ 2 ^ 20) (bY : ny ≤ 2 ^ 20) (uv : ℚ × ℚ)
    (hu : IsDouble uv.1) (hv : IsDouble uv.2) (size : Nat × Nat) (s1 : 0 < size.1) (s2 : 0 < size.2) (b1 : size.1 ≤ 2 ^ 40) (b2 : size.2 ≤ 2 ^ 40) :
    (∀ t, initTemplate r nx ny uv size = .ok t →
      ∃ x0 y0 x1 y1 : ℤ, t.box = [x0, y0, x1, y1] ∧
        PlacedF nx uv.1 size.1 x0 x1 ∧ PlacedF ny uv.2 size.2 y0 y1 ∧
        (0 ≤ x0 ∧ x1 ≤ nx ∧ 0 ≤ y0 ∧ y1 ≤ ny) ∧
        ((t.size.1 : ℤ) = x1 - x0 ∧ (t.size.2 : ℤ) = y1 - y0) ∧
        (|t.duv.1 - (uv.1 - ((x0 : ℚ) + x1) / 2)| ≤ 1 / 2 ^ 54 ∧ |t.duv.2 - (uv.2 - ((y0 : ℚ) + y1) / 2)| ≤ 1 / 2 ^ 54) ∧
        (|t.duv.1| ≤ 1 / 2 ∧ |t.duv.2| ≤ 1 / 2)) ∧
    ((0 ≤ uv.1 - size.1 / 2 ∧ uv.1 + size.1 / 2 ≤ nx ∧ 0 ≤ uv.2 - size.2 / 2 ∧ uv.2 + size.2 / 2 ≤ ny) →
      ∃ t, initTemplate r nx ny uv size = .ok t) ∧
    ((∃ t, initTemplate r nx ny uv size = .ok t) →
      0 ≤ uv.1 - size.1 / 2 ∧ uv.1 + size.1 / 2 ≤ nx + unit nx ∧ 0 ≤ uv.2 - size.2 / 2 ∧ uv.2 + size.2 / 2 ≤ ny + unit ny) ∧
    (∀ e, initTemplate r nx ny uv size = .error e → e = .indexError) := by
  have mono0 : ∀ (u : ℚ) (s : Nat), 0 ≤ u - s / 2 → 0 ≤ r (u - s / 2) := by
    intro u s h
    have := hr.mono 0 _ h
    rwa [r_zero hr] at this
  have rn : ∀ n : Nat, n ≤ 2 ^ 20 → r (n : ℚ) = n := by
    intro n hn
    have hN : ((n : ℕ) : ℤ) ≤ 2 ^ 20 := by exact_mod_cast hn
    have := r_int hr (n : ℤ) (by rw [abs_of_nonneg (by positivity)]; norm_num at hN ⊢; omega)
    exact_mod_cast this
  have mono1 : ∀ (u : ℚ) (s n : Nat), n ≤ 2 ^ 20 → u + s / 2 ≤ n → r (u + s / 2) ≤ n := by
    intro u s n hn h
    have := hr.mono _ _ h
    rwa [rn n hn] at this
  have back0 : ∀ (u : ℚ) (s : Nat), 0 ≤ r (u - s / 2) → 0 ≤ u - s / 2 := by
    intro u s h
    by_contra hc
    exact absurd h (not_le.mpr (r_neg_of_neg hr _ (not_le.mp hc)))
  have back1 : ∀ (u : ℚ) (s n : Nat), 0 ≤ u - s / 2 → r (u + s / 2) ≤ n → u + s / 2 ≤ n + unit n := by
    intro u s n h0 h
    have hs0 : (0 : ℚ) ≤ s := Nat.cast_nonneg s
    have hn0 : (0 : ℚ) ≤ n := Nat.cast_nonneg n
    have hx0 : 0 ≤ u + (s : ℚ) / 2 := by linarith
    have h1 := hr.near (u + (s : ℚ) / 2)
    rw [abs_of_nonneg hx0] at h1
    have h2 := (abs_le.mp h1).1
    have h3 : (u + (s : ℚ) / 2) / 2 ^ 53 ≤ (u + (s : ℚ) / 2) / 2 := by
      apply div_le_div_of_nonneg_left hx0 (by norm_num) (by norm_num)
    have e1 := (abs_le.mp (near_unit hr n (u + (s : ℚ) / 2) (by rw [abs_of_nonneg hx0]; linarith))).1
    linarith
  by_cases hb : (0 ≤ r (uv.1 - size.1 / 2) ∧ r (uv.1 + size.1 / 2) ≤ nx) ∧ (0 ≤ r (uv.2 - size.2 / 2) ∧ r (uv.2 + size.2 / 2) ≤ ny)
  · obtain ⟨⟨h1, h2⟩, h3, h4⟩ := hb
    have e1 := r_size hr size.1 b1
    have e2 := r_size hr size.2 b2
    obtain ⟨x0, x1, p1, p2, p3, p4, p5⟩ := axis_spec hr nx hx bx uv.1 hu size.1 s1 b1 (by rw [e1]; exact h1) (by rw [e1]; exact h2)
    obtain ⟨y0, y1, q1, q2, q3, q4, q5⟩ := axis_spec hr ny hy bY uv.2 hv size.2 s2 b2 (by rw [e2]; exact h3) (by rw [e2]; exact h4)
    rw [e1] at p1 p2
    rw [e2] at q1 q2
    have m1 := hr.mono (uv.1 - size.1 / 2) (uv.1 + size.1 / 2) (by have : (0 : ℚ) ≤ size.1 := Nat.cast_nonneg _; linarith)
    have m2 := hr.mono (uv.2 - size.2 / 2) (uv.2 + size.2 / 2) (by have : (0 : ℚ) ≤ size.2 := Nat.cast_nonneg _; linarith)
    have hbox : tileBox r nx ny uv size = .ok [x0, y0, x1, y1] := by
      unfold tileBox snapBox
      simp only [e1, e2]
      have i1 := (inbounds_iff nx ny (r (uv.1 - (size.1 : ℚ) / 2), r (uv.2 - (size.2 : ℚ) / 2))).2
        ⟨h1, m1.trans h2, h3, m2.trans h4⟩
      have i2 := (inbounds_iff nx ny (r (uv.1 + (size.1 : ℚ) / 2), r (uv.2 + (size.2 : ℚ) / 2))).2
        ⟨h1.trans m1, h2, h3.trans m2, h4⟩
      rw [i1, i2]
      simp only [FloatGrid.snapXy, imageGrid, bind, Except.bind, pure, Except.pure, Bool.not_false, Bool.not_true, Bool.or_false,
        Bool.and_false, Bool.false_eq_true, if_false, p1, p2, q1, q2, List.map_cons, List.map_nil, trunc_int]
    have hinit : initTemplate r nx ny uv size = .ok ⟨[x0, y0, x1, y1], offset r uv [x0, y0, x1, y1], ((x1 - x0).toNat, (y1 - y0).toNat)⟩ := by
      unfold initTemplate
      rw [hbox]
      rfl
    rw [hinit]
    have hsz : ∀ (n : Nat) (u : ℚ) (s : Nat) (a b : ℤ), n ≤ 2 ^ 20 → PlacedF n u s a b → a ≤ b ∧ |u - ((a : ℚ) + b) / 2| ≤ 1 / 2 := by
      intro n u s a b hn h
      rcases h with ⟨c1, c2, c3⟩ | ⟨⟨c1, -, -⟩, c2, c3⟩
      · exact ⟨by omega, by rw [abs_le]; constructor <;> linarith⟩
      · have := unit_le n hn
        have : (4 : ℚ) * (1 / 2 ^ 29) ≤ 1 / 2 := by norm_num
        exact ⟨by omega, by rw [abs_le]; constructor <;> linarith⟩
    obtain ⟨g1, g2⟩ := hsz nx uv.1 size.1 x0 x1 bx p5
    obtain ⟨k1, k2⟩ := hsz ny uv.2 size.2 y0 y1 bY q5
    have o1 := offset_spec hr uv.1 nx bx x0 x1 p3 g1 p4 g2
    have o2 := offset_spec hr uv.2 ny bY y0 y1 q3 k1 q4 k2
    refine ⟨?_, fun _ => ⟨_, rfl⟩, fun _ => ⟨back0 _ _ h1, back1 _ _ _ (back0 _ _ h1) h2, back0 _ _ h3, back1 _ _ _ (back0 _ _ h3) h4⟩, fun e he => by cases he⟩
    intro t ht
    cases ht
    refine ⟨x0, y0, x1, y1, rfl, p5, q5, ⟨p3, p4, q3, q4⟩, ⟨?_, ?_⟩, ⟨o1.1, o2.1⟩, o1.2, o2.2⟩
    · simp only; omega
    · simp only; omega
  · have hno : initTemplate r nx ny uv size = .error .indexError := by
      unfold initTemplate tileBox snapBox
      simp only [r_size hr size.1 b1, r_size hr size.2 b2]
      have : (!(imageGrid nx ny).inboundsXy (r (uv.1 - (size.1 : ℚ) / 2), r (uv.2 - (size.2 : ℚ) / 2)) ||
        !(imageGrid nx ny).inboundsXy (r (uv.1 + (size.1 : ℚ) / 2), r (uv.2 + (size.2 : ℚ) / 2))) = true := by
        rw [Bool.or_eq_true, Bool.not_eq_true', Bool.not_eq_true', ← Bool.not_eq_true, ← Bool.not_eq_true, inbounds_iff, inbounds_iff,
          ← not_and_or]
        rintro ⟨⟨a, _, b, _⟩, ⟨_, c, _, d⟩⟩
        exact hb ⟨⟨a, c⟩, b, d⟩
      rw [this]
      rfl
    rw [hno]
    refine ⟨fun t ht => (by cases ht), ?_, fun ⟨t, ht⟩ => (by cases ht), fun e he => by cases he; rfl⟩
    rintro ⟨a, b, c, d⟩
    exact absurd ⟨⟨mono0 _ _ a, mono1 _ _ _ bx b⟩, mono0 _ _ c, mono1 _ _ _ bY d⟩ hb

end

/-- In an image of 300 by 200 pixels, for double precision: a mean on the lattice of quarter pixels is placed as in exact arithmetic. -/
example : (initTemplate Double.rnd 300 200 (401 / 4, 303 / 4) (15, 15)).toOption.map (fun t => (t.box, t.duv, t.size)) =
    some ([93, 68, 108, 83], (-1 / 4, 1 / 4), (15, 15)) := by decide +kernel

/-- C134 (violated). The template may be one pixel wider than requested: a mean just below 121, requested 15 pixels, is given 16 (113 to 129). -/
theorem float_template_size_violated :
    (initTemplate Double.rnd 300 200 (121 - 1 / 2 ^ 46, 100) (15, 15)).toOption.map (fun t => (t.box, t.size)) =
      some ([113, 93, 129, 108], (16, 15)) ∧
    (Tiles.initTemplate 300 200 (121 - 1 / 2 ^ 46, 100) (15, 15)).toOption.map (fun t => (t.box, t.size)) =
      some ([113, 93, 128, 108], (15, 15)) := by decide +kernel

end Glimpse.FloatTemplate
