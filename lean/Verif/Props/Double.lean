import Verif.Model.Double
import Mathlib.Tactic.Linarith
import Mathlib.Tactic.Ring
import Mathlib.Tactic.NormNum
import Mathlib.Tactic.FieldSimp
import Mathlib.Tactic.Positivity
import Mathlib.Algebra.Order.Field.Power

/-!
Rounding to 53 bits: what the theorems about floating point use of it.
-/
set_option autoImplicit false
set_option linter.unusedSimpArgs false
set_option linter.unusedSectionVars false

namespace Glimpse.Double

/-- What is known of a rounding to nearest: monotone, exact for numbers with 53 bits (and only such are returned), and with a relative
error of at most `2 ^ -53`. -/
structure Nearest (r : ℚ → ℚ) : Prop where
  mono : ∀ x y : ℚ, x ≤ y → r x ≤ r y
  exact : ∀ x : ℚ, IsDouble x → r x = x
  double : ∀ x : ℚ, IsDouble (r x)
  near : ∀ x : ℚ, |r x - x| ≤ |x| / 2 ^ 53

/-! ### Rounding to integers -/

theorem halfEven_near (y : ℚ) : |(halfEven y : ℚ) - y| ≤ 1 / 2 := by
  have h1 := Int.floor_le y
  have h2 := Int.lt_floor_add_one y
  unfold halfEven
  split
  · rw [abs_le]; constructor <;> linarith
  · split
    · push_cast; rw [abs_le]; constructor <;> linarith
    · split
      · rw [abs_le]; constructor <;> linarith
      · push_cast; rw [abs_le]; constructor <;> linarith

theorem halfEven_int (n : ℤ) : halfEven (n : ℚ) = n := by
  unfold halfEven
  rw [Int.floor_intCast, if_pos (by norm_num)]

theorem halfEven_mono (x y : ℚ) (h : x ≤ y) : halfEven x ≤ halfEven y := by
  rcases lt_or_eq_of_le (Int.floor_mono h) with hf | hf
  · have hx : halfEven x ≤ ⌊x⌋ + 1 := by
      unfold halfEven; split
      · omega
      · split
        · omega
        · split <;> omega
    have hy : ⌊y⌋ ≤ halfEven y := by
      unfold halfEven; split
      · omega
      · split
        · omega
        · split <;> omega
    omega
  · unfold halfEven
    rw [hf]
    by_cases h1 : y - ⌊y⌋ < 1 / 2
    · rw [if_pos (by linarith), if_pos h1]
    · rw [if_neg h1]
      by_cases h2 : 1 / 2 < y - ⌊y⌋
      · rw [if_pos h2]
        split
        · omega
        · split
          · omega
          · split <;> omega
      · rw [if_neg h2]
        by_cases h3 : x - ⌊y⌋ < 1 / 2
        · rw [if_pos h3]; split <;> omega
        · rw [if_neg h3, if_neg (by linarith)]

theorem halfEven_neg (y : ℚ) : halfEven (-y) = -halfEven y := by
  by_cases hint : (⌊y⌋ : ℚ) = y
  · have : halfEven (-y) = -⌊y⌋ := by
      rw [← hint]
      have := halfEven_int (-⌊y⌋)
      push_cast at this
      simpa using this
    rw [this, ← hint, halfEven_int, hint]
  · have hlt : (⌊y⌋ : ℚ) < y := lt_of_le_of_ne (Int.floor_le y) hint
    have h2 := Int.lt_floor_add_one y
    have hneg : ⌊-y⌋ = -⌊y⌋ - 1 := by
      rw [Int.floor_eq_iff]
      push_cast
      constructor <;> linarith
    unfold halfEven
    rw [hneg]
    push_cast
    by_cases h3 : y - ⌊y⌋ < 1 / 2
    · rw [if_pos h3, if_neg (by linarith), if_pos (by linarith)]; ring
    · rw [if_neg h3]
      by_cases h4 : 1 / 2 < y - ⌊y⌋
      · rw [if_pos h4, if_pos (by linarith)]; ring
      · rw [if_neg h4, if_neg (by linarith), if_neg (by linarith)]
        by_cases h5 : ⌊y⌋ % 2 = 0
        · rw [if_pos h5, if_neg (by omega)]; ring
        · rw [if_neg h5, if_pos (by omega)]; ring

/-! ### Rounding to 53 bits -/

theorem ulp_pos (x : ℚ) : 0 < ulp x := by unfold ulp; positivity

theorem log_le (x : ℚ) (h : x ≠ 0) : (2 : ℚ) ^ Int.log 2 |x| ≤ |x| := by
  have := Int.zpow_log_le_self (R := ℚ) (b := 2) (by norm_num) (abs_pos.mpr h)
  exact_mod_cast this

theorem lt_log (x : ℚ) : |x| < (2 : ℚ) ^ (Int.log 2 |x| + 1) := by
  have := Int.lt_zpow_succ_log_self (R := ℚ) (b := 2) (by norm_num) |x|
  exact_mod_cast this

theorem zpow_split (a b : ℤ) : (2 : ℚ) ^ (a + b) = 2 ^ a * 2 ^ b := zpow_add₀ (by norm_num) a b

/-- In units of its last place, a number has 53 bits. -/
theorem scaled (x : ℚ) (h : x ≠ 0) : (2 : ℚ) ^ 52 ≤ |x / ulp x| ∧ |x / ulp x| < 2 ^ 53 := by
  have hp := ulp_pos x
  rw [abs_div, abs_of_pos hp]
  have e1 : (2 : ℚ) ^ 52 * ulp x = 2 ^ Int.log 2 |x| := by
    unfold ulp
    have : (2 : ℚ) ^ (52 : ℕ) = (2 : ℚ) ^ (52 : ℤ) := by norm_num
    rw [this, ← zpow_split]; congr 1; ring
  have e2 : (2 : ℚ) ^ 53 * ulp x = 2 ^ (Int.log 2 |x| + 1) := by
    unfold ulp
    have : (2 : ℚ) ^ (53 : ℕ) = (2 : ℚ) ^ (53 : ℤ) := by norm_num
    rw [this, ← zpow_split]; congr 1; ring
  constructor
  · rw [le_div_iff₀ hp, e1]; exact log_le x h
  · rw [div_lt_iff₀ hp, e2]; exact lt_log x

theorem rnd_neg (x : ℚ) : rnd (-x) = -rnd x := by
  unfold rnd
  by_cases h : x = 0
  · simp [h]
  · rw [if_neg h, if_neg (by simpa using h)]
    have : ulp (-x) = ulp x := by unfold ulp; rw [abs_neg]
    rw [this, neg_div, halfEven_neg]
    push_cast; ring

theorem rnd_near (x : ℚ) : |rnd x - x| ≤ |x| / 2 ^ 53 := by
  unfold rnd
  by_cases h : x = 0
  · simp [h]
  · rw [if_neg h]
    have hp := ulp_pos x
    have h1 := halfEven_near (x / ulp x)
    have h2 := (scaled x h).1
    have e : (halfEven (x / ulp x) : ℚ) * ulp x - x = ((halfEven (x / ulp x) : ℚ) - x / ulp x) * ulp x := by
      field_simp
    rw [e, abs_mul, abs_of_pos hp]
    rw [abs_div, abs_of_pos hp, le_div_iff₀ hp] at h2
    rw [le_div_iff₀ (by norm_num)]
    have := mul_le_mul_of_nonneg_right h1 hp.le
    nlinarith

theorem rnd_exact (x : ℚ) (hx : IsDouble x) : rnd x = x := by
  obtain ⟨m, k, hm, rfl⟩ := hx
  unfold rnd
  by_cases h : (m : ℚ) * 2 ^ k = 0
  · rw [if_pos h, h]
  · rw [if_neg h]
    set x := (m : ℚ) * 2 ^ k with hx
    have hp := ulp_pos x
    have hk : Int.log 2 |x| - 52 ≤ k := by
      by_contra hc
      push Not at hc
      have h1 := log_le x h
      have h2 : |x| < 2 ^ 53 * 2 ^ k := by
        rw [hx, abs_mul, abs_of_pos (by positivity : (0 : ℚ) < 2 ^ k)]
        have : (|m| : ℚ) < 2 ^ 53 := by exact_mod_cast hm
        exact mul_lt_mul_of_pos_right this (by positivity)
      have h3 : (2 : ℚ) ^ 53 * 2 ^ k = 2 ^ (53 + k) := by
        rw [zpow_split]; norm_num
      have h4 : (2 : ℚ) ^ (53 + k) ≤ 2 ^ Int.log 2 |x| := zpow_le_zpow_right₀ (by norm_num) (by omega)
      linarith
    have hint : ∃ n : ℤ, x / ulp x = n := by
      refine ⟨m * 2 ^ (k - (Int.log 2 |x| - 52)).toNat, ?_⟩
      rw [div_eq_iff hp.ne']
      push_cast
      rw [mul_assoc]
      have : ((2 : ℚ) ^ (k - (Int.log 2 |x| - 52)).toNat) * ulp x = 2 ^ k := by
        unfold ulp
        rw [← zpow_natCast, ← zpow_split]
        congr 1
        rw [Int.toNat_of_nonneg (by omega)]; ring
      rw [this]
    obtain ⟨n, hn⟩ := hint
    rw [hn, halfEven_int, ← hn]
    field_simp

theorem rnd_double (x : ℚ) : IsDouble (rnd x) := by
  unfold rnd
  by_cases h : x = 0
  · rw [if_pos h]; exact ⟨0, 0, by norm_num, by norm_num⟩
  · rw [if_neg h]
    have h2 := (scaled x h).2
    have hle : |halfEven (x / ulp x)| ≤ 2 ^ 53 := by
      rw [abs_lt] at h2
      rw [abs_le]
      constructor
      · have := halfEven_mono ((-(2 ^ 53) : ℤ) : ℚ) (x / ulp x) (by push_cast; exact h2.1.le)
        rwa [halfEven_int] at this
      · have := halfEven_mono (x / ulp x) ((2 ^ 53 : ℤ) : ℚ) (by push_cast; exact h2.2.le)
        rwa [halfEven_int] at this
    rcases lt_or_eq_of_le hle with hlt | heq
    · exact ⟨_, _, hlt, rfl⟩
    · rcases abs_eq (by norm_num : (0 : ℤ) ≤ 2 ^ 53) |>.mp heq with e | e
      · refine ⟨1, 53 + (Int.log 2 |x| - 52), by norm_num, ?_⟩
        rw [e, zpow_split, ulp]; push_cast; norm_num
      · refine ⟨-1, 53 + (Int.log 2 |x| - 52), by norm_num, ?_⟩
        rw [e, zpow_split, ulp]; push_cast; norm_num

theorem rnd_pos_bounds (x : ℚ) (h : 0 < x) : (2 : ℚ) ^ Int.log 2 |x| ≤ rnd x ∧ rnd x ≤ 2 ^ (Int.log 2 |x| + 1) := by
  have hp := ulp_pos x
  obtain ⟨h1, h2⟩ := scaled x h.ne'
  rw [abs_of_pos (div_pos h hp)] at h1 h2
  unfold rnd
  rw [if_neg h.ne']
  have e1 : (2 : ℚ) ^ Int.log 2 |x| = (2 ^ 52 : ℤ) * ulp x := by
    unfold ulp
    rw [show Int.log 2 |x| = 52 + (Int.log 2 |x| - 52) by ring, zpow_split]; norm_num
  have e2 : (2 : ℚ) ^ (Int.log 2 |x| + 1) = (2 ^ 53 : ℤ) * ulp x := by
    unfold ulp
    rw [show Int.log 2 |x| + 1 = 53 + (Int.log 2 |x| - 52) by ring, zpow_split]; norm_num
  rw [e1, e2]
  constructor
  · apply mul_le_mul_of_nonneg_right _ hp.le
    have := halfEven_mono ((2 ^ 52 : ℤ) : ℚ) (x / ulp x) (by push_cast; exact h1)
    rw [halfEven_int] at this
    exact_mod_cast this
  · apply mul_le_mul_of_nonneg_right _ hp.le
    have := halfEven_mono (x / ulp x) ((2 ^ 53 : ℤ) : ℚ) (by push_cast; exact h2.le)
    rw [halfEven_int] at this
    exact_mod_cast this

theorem rnd_pos_mono (x y : ℚ) (h : 0 < x) (hxy : x ≤ y) : rnd x ≤ rnd y := by
  have hy : 0 < y := lt_of_lt_of_le h hxy
  have hlog : Int.log 2 |x| ≤ Int.log 2 |y| := by
    rw [abs_of_pos h, abs_of_pos hy]
    exact Int.log_mono_right h hxy
  rcases lt_or_eq_of_le hlog with hlt | heq
  · calc rnd x ≤ 2 ^ (Int.log 2 |x| + 1) := (rnd_pos_bounds x h).2
      _ ≤ 2 ^ Int.log 2 |y| := zpow_le_zpow_right₀ (by norm_num) (by omega)
      _ ≤ rnd y := (rnd_pos_bounds y hy).1
  · have hu : ulp x = ulp y := by unfold ulp; rw [heq]
    have hp := ulp_pos y
    unfold rnd
    rw [if_neg h.ne', if_neg hy.ne', hu]
    apply mul_le_mul_of_nonneg_right _ hp.le
    exact_mod_cast halfEven_mono _ _ (div_le_div_of_nonneg_right hxy hp.le)

theorem rnd_zero : rnd 0 = 0 := by simp [rnd]

theorem rnd_nonneg (x : ℚ) (h : 0 ≤ x) : 0 ≤ rnd x := by
  rcases lt_or_eq_of_le h with h | h
  · exact le_trans (by positivity) (rnd_pos_bounds x h).1
  · rw [← h, rnd_zero]

theorem rnd_mono (x y : ℚ) (h : x ≤ y) : rnd x ≤ rnd y := by
  rcases lt_trichotomy x 0 with hx | hx | hx
  · rcases le_or_gt 0 y with hy | hy
    · have h1 := rnd_nonneg (-x) (by linarith)
      rw [rnd_neg] at h1
      linarith [rnd_nonneg y hy]
    · have := rnd_pos_mono (-y) (-x) (by linarith) (by linarith)
      rw [rnd_neg, rnd_neg] at this
      linarith
  · subst hx; rw [rnd_zero]; exact rnd_nonneg y h
  · exact rnd_pos_mono x y hx h

/-- Rounding to the nearest number with 53 bits is a rounding to nearest in the sense used. -/
theorem rnd_nearest : Nearest rnd := ⟨rnd_mono, rnd_exact, rnd_double, rnd_near⟩

theorem halfEven_closest (v : ℚ) (n : ℤ) : |(halfEven v : ℚ) - v| ≤ |(n : ℚ) - v| := by
  by_contra hc
  push Not at hc
  have h1 := halfEven_near v
  have h2 : |((halfEven v - n : ℤ) : ℚ)| < 1 := by
    push_cast
    have : |(halfEven v : ℚ) - n| ≤ |(halfEven v : ℚ) - v| + |(n : ℚ) - v| := by
      have := abs_sub_le (halfEven v : ℚ) v n
      rwa [abs_sub_comm v (n : ℚ)] at this
    linarith
  have h3 : halfEven v - n = 0 := by
    rw [← Int.cast_abs] at h2
    have : |halfEven v - n| < 1 := by exact_mod_cast h2
    exact Int.abs_lt_one_iff.mp this
  have : halfEven v = n := by omega
  rw [this] at hc
  exact lt_irrefl _ hc

/-- No number with 53 bits is nearer than the one returned. -/
theorem rnd_closest (x y : ℚ) (hy : IsDouble y) : |rnd x - x| ≤ |y - x| := by
  by_cases h0 : x = 0
  · subst h0; rw [rnd_zero]; simp
  have hp := ulp_pos x
  obtain ⟨n, hn⟩ : ∃ n : ℤ, |(n : ℚ) * ulp x - x| ≤ |y - x| := by
    by_cases hlow : |y| < 2 ^ Int.log 2 |x|
    · have e1 : (2 : ℚ) ^ Int.log 2 |x| = (2 ^ 52 : ℤ) * ulp x := by
        unfold ulp
        rw [show Int.log 2 |x| = 52 + (Int.log 2 |x| - 52) by ring, zpow_split]; norm_num
      have h1 := log_le x h0
      rw [abs_lt] at hlow
      rcases lt_or_gt_of_ne h0 with hx | hx
      · refine ⟨-2 ^ 52, ?_⟩
        rw [abs_of_neg hx] at h1 hlow e1
        have : (((-2 ^ 52 : ℤ)) : ℚ) * ulp x = -2 ^ Int.log 2 (-x) := by rw [e1]; push_cast; ring
        rw [this, abs_of_nonneg (by linarith), abs_of_nonneg (by linarith)]
        linarith
      · refine ⟨2 ^ 52, ?_⟩
        rw [abs_of_pos hx] at h1 hlow e1
        rw [← e1, abs_of_nonpos (by linarith), abs_of_nonpos (by linarith)]
        linarith
    · push Not at hlow
      obtain ⟨m, k, hm, rfl⟩ := hy
      have hk : Int.log 2 |x| - 52 ≤ k := by
        by_contra hc
        push Not at hc
        have h2 : |(m : ℚ) * 2 ^ k| < 2 ^ 53 * 2 ^ k := by
          rw [abs_mul, abs_of_pos (by positivity : (0 : ℚ) < 2 ^ k)]
          have : (|m| : ℚ) < 2 ^ 53 := by exact_mod_cast hm
          exact mul_lt_mul_of_pos_right this (by positivity)
        have h3 : (2 : ℚ) ^ 53 * 2 ^ k = 2 ^ (53 + k) := by
          rw [zpow_split]; norm_num
        have h4 : (2 : ℚ) ^ (53 + k) ≤ 2 ^ Int.log 2 |x| := zpow_le_zpow_right₀ (by norm_num) (by omega)
        linarith
      refine ⟨m * 2 ^ (k - (Int.log 2 |x| - 52)).toNat, le_of_eq ?_⟩
      congr 2
      push_cast
      rw [mul_assoc]
      congr 1
      unfold ulp
      rw [← zpow_natCast, ← zpow_split]
      congr 1
      rw [Int.toNat_of_nonneg (by omega)]; ring
  refine le_trans ?_ hn
  have e : ∀ j : ℤ, |(j : ℚ) * ulp x - x| = |(j : ℚ) - x / ulp x| * ulp x := by
    intro j
    have : (j : ℚ) * ulp x - x = ((j : ℚ) - x / ulp x) * ulp x := by field_simp
    rw [this, abs_mul, abs_of_pos hp]
  unfold rnd
  rw [if_neg h0, e, e]
  exact mul_le_mul_of_nonneg_right (halfEven_closest _ n) hp.le

/-! ### Numbers with 53 bits -/

theorem isDouble_int (n : ℤ) (h : |n| ≤ 2 ^ 53) : IsDouble (n : ℚ) := by
  rcases lt_or_eq_of_le h with h | h
  · exact ⟨n, 0, h, by simp⟩
  · rcases abs_eq (by norm_num : (0 : ℤ) ≤ 2 ^ 53) |>.mp h with e | e
    · exact ⟨1, 53, by norm_num, by rw [e]; norm_num⟩
    · exact ⟨-1, 53, by norm_num, by rw [e]; norm_num⟩

theorem isDouble_scale (n k : ℤ) (h : |n| ≤ 2 ^ 53) : IsDouble ((n : ℚ) * 2 ^ k) := by
  obtain ⟨m, e, hm, hn⟩ := isDouble_int n h
  exact ⟨m, e + k, hm, by rw [hn, zpow_split]; ring⟩

theorem isDouble_neg (x : ℚ) (h : IsDouble x) : IsDouble (-x) := by
  obtain ⟨m, e, hm, rfl⟩ := h
  exact ⟨-m, e, by rwa [abs_neg], by push_cast; ring⟩

/-- A sequence of checks of the definition against IEEE 754: one tenth, one third, ties. -/
example : rnd (1 / 10) = 3602879701896397 / 36028797018963968 := by decide +kernel
example : rnd (-1 / 3) = -6004799503160661 / 18014398509481984 := by decide +kernel
example : rnd (2 ^ 53 + 1) = 2 ^ 53 ∧ rnd (2 ^ 53 + 3) = 2 ^ 53 + 4 := by decide +kernel

/-! ### Uses of a rounding to nearest -/

theorem Nearest.eq_zero_iff {r : ℚ → ℚ} (hr : Nearest r) (x : ℚ) : r x = 0 ↔ x = 0 := by
  constructor
  · intro h
    have := hr.near x
    rw [h] at this
    have h2 : |(0 : ℚ) - x| = |x| := by rw [zero_sub, abs_neg]
    rw [h2] at this
    have h3 := abs_nonneg x
    have : |x| = 0 := by
      have h4 : |x| / 2 ^ 53 ≤ |x| / 2 := by gcongr; norm_num
      linarith
    exact abs_eq_zero.mp this
  · rintro rfl
    exact hr.exact 0 ⟨0, 0, by norm_num, by simp⟩

theorem Nearest.ex {r : ℚ → ℚ} (hr : Nearest r) (x : ℚ) (n k : ℤ) (hx : x = n * (2 : ℚ) ^ k) (h : |n| ≤ 2 ^ 53) : r x = x := by
  apply hr.exact
  rw [hx]
  exact isDouble_scale n k h

theorem Nearest.half {r : ℚ → ℚ} (hr : Nearest r) (x : ℚ) (n : ℤ) (hx : x = n / 2) (h : |n| ≤ 2 ^ 53) : r x = x := by
  apply hr.ex x n (-1) _ h
  rw [hx, zpow_neg_one]; ring

/-- Rounding a number that is near to `y`. -/
theorem Nearest.near_of {r : ℚ → ℚ} (hr : Nearest r) (x y ε B : ℚ) (h : |x - y| ≤ ε) (hB : |x| ≤ B) : |r x - y| ≤ ε + B / 2 ^ 53 := by
  have := hr.near x
  calc |r x - y| = |(r x - x) + (x - y)| := by ring_nf
    _ ≤ |r x - x| + |x - y| := abs_add_le _ _
    _ ≤ ε + B / 2 ^ 53 := by
      have : |x| / 2 ^ 53 ≤ B / 2 ^ 53 := by gcongr
      linarith

end Glimpse.Double
