import Verif.Model.FloatBoxGrid
import Verif.Props.Double
import Verif.Props.Boxes

/-!
C137: grids of points in a box, in double precision.
-/
set_option autoImplicit false
set_option linter.unusedSimpArgs false
set_option linter.unusedSectionVars false

namespace Glimpse.FloatBoxGrid

open Double

variable {r : ℚ → ℚ}

/-! ### Division -/

private theorem trunc_pos (q : ℚ) (h : 0 ≤ q) : truncInt q = ⌊q⌋ := by simp [truncInt, h]

private theorem trunc_neg (q : ℚ) (h : q < 0) : truncInt q = ⌈q⌉ := by simp [truncInt, not_le.2 h]

private theorem abs_trunc (q : ℚ) : |(truncInt q : ℚ)| ≤ |q| := by
  unfold truncInt
  split
  · rename_i h
    have h0 : (0 : ℚ) ≤ (⌊q⌋ : ℚ) := by exact_mod_cast Int.floor_nonneg.2 h
    rw [abs_of_nonneg h0, abs_of_nonneg h]
    exact Int.floor_le q
  · rename_i h
    have h' : q < 0 := not_le.1 h
    have h0 : (⌈q⌉ : ℚ) ≤ 0 := by
      have : ⌈q⌉ ≤ 0 := Int.ceil_le.2 (by push_cast; linarith)
      exact_mod_cast this
    rw [abs_of_nonpos h0, abs_of_neg h']
    have := Int.le_ceil q
    linarith

/-- A number within a quarter of an integer is snapped to it. -/
private theorem snapped (hr : Nearest r) (d : ℚ) (q : ℤ) (h : |d - q| ≤ 1 / 4) :
    (if d = 0 then 0 else if r (d - ⌊d⌋) > 1 / 2 then ⌊d⌋ + 1 else ⌊d⌋) = q := by
  obtain ⟨h1, h2⟩ := abs_le.1 h
  split
  · rename_i h0
    rw [h0] at h1 h2
    have a : (q : ℚ) < ((1 : ℤ) : ℚ) := by push_cast; linarith
    have b : ((-1 : ℤ) : ℚ) < (q : ℚ) := by push_cast; linarith
    have a' : q < 1 := by exact_mod_cast a
    have b' : -1 < q := by exact_mod_cast b
    omega
  · have half : r (1 / 2) = 1 / 2 := hr.half _ 1 (by norm_num) (by norm_num)
    have three : r (3 / 4) = 3 / 4 := hr.ex _ 3 (-2) (by norm_num) (by norm_num)
    by_cases hd : (q : ℚ) ≤ d
    · have hf : ⌊d⌋ = q := by
        rw [Int.floor_eq_iff]
        exact ⟨hd, by linarith⟩
      rw [hf, if_neg]
      have := hr.mono (d - q) (1 / 2) (by linarith)
      rw [half] at this
      exact not_lt.2 this
    · have hf : ⌊d⌋ = q - 1 := by
        rw [Int.floor_eq_iff]
        push_cast
        exact ⟨by linarith, by linarith [not_le.1 hd]⟩
      rw [hf, if_pos]
      · ring
      · have := hr.mono (3 / 4) (d - ((q - 1 : ℤ) : ℚ)) (by push_cast; linarith)
        rw [three] at this
        linarith

/-- The rounded quotient is near the whole number of times. -/
private theorem quotient_near (hr : Nearest r) (b : ℚ) (hb : 0 < b) (t : ℤ) (ht : |(t : ℚ)| ≤ 2 ^ 48) :
    |r (r (b * t) / b) - t| ≤ 1 / 8 := by
  have h1 := hr.near (b * t)
  rw [abs_mul, abs_of_pos hb] at h1
  have h2 : |r (b * t) / b - t| ≤ |(t : ℚ)| / 2 ^ 53 := by
    have : r (b * t) / b - t = (r (b * t) - b * t) / b := by field_simp
    rw [this, abs_div, abs_of_pos hb, div_le_iff₀ hb]
    calc |r (b * t) - b * t| ≤ b * |(t : ℚ)| / 2 ^ 53 := h1
      _ = |(t : ℚ)| / 2 ^ 53 * b := by ring
  have h3 : |(t : ℚ)| / 2 ^ 53 ≤ 1 / 16 := by
    rw [div_le_iff₀ (by norm_num)]
    calc |(t : ℚ)| ≤ 2 ^ 48 := ht
      _ ≤ 1 / 16 * 2 ^ 53 := by norm_num
  have h4 : |r (b * t) / b| ≤ 2 ^ 48 + 1 / 16 := by
    calc |r (b * t) / b| = |(r (b * t) / b - t) + t| := by ring_nf
      _ ≤ |r (b * t) / b - t| + |(t : ℚ)| := abs_add_le _ _
      _ ≤ _ := by linarith
  have := hr.near_of (r (b * t) / b) t (1 / 16) (2 ^ 48 + 1 / 16) (by linarith) h4
  calc _ ≤ _ := this
    _ ≤ 1 / 8 := by norm_num

/-- numpy's floor division of doubles by a positive one is exact, for quotients up to `2 ^ 48`. -/
theorem floor_divide_exact (hr : Nearest r) (a b : ℚ) (hb : 0 < b) (h : |a / b| ≤ 2 ^ 48) : floorDivide r a b = ⌊a / b⌋ := by
  have ht : |((truncInt (a / b) : ℤ) : ℚ)| ≤ 2 ^ 48 := by
    have := abs_trunc (a / b)
    linarith
  have hn := quotient_near hr b hb _ ht
  have e : a - fmod a b = b * truncInt (a / b) := by unfold fmod; ring
  have hb' : decide (b < 0) = false := by simp [hb.le]
  have hm : fmod a b = b * (a / b - truncInt (a / b)) := by unfold fmod; field_simp
  have hne : fmod a b ≠ 0 ↔ a / b - truncInt (a / b) ≠ 0 := by
    rw [hm, Ne, mul_eq_zero, not_or]
    exact ⟨fun h => h.2, fun h => ⟨hb.ne', h⟩⟩
  have hlt : fmod a b < 0 ↔ a / b - truncInt (a / b) < 0 := by
    rw [hm]
    constructor
    · intro h'
      by_contra hc
      have := mul_nonneg hb.le (not_lt.1 hc)
      linarith
    · intro h'
      exact mul_neg_of_pos_of_neg hb h'
  unfold floorDivide
  simp only [e, hb']
  by_cases hs : fmod a b ≠ 0 ∧ false ≠ decide (fmod a b < 0)
  · rw [if_pos hs]
    have hneg : a / b - truncInt (a / b) < 0 := hlt.1 (by simpa using hs.2)
    have hq : a / b < 0 := by
      by_contra hc
      rw [trunc_pos _ (not_lt.1 hc)] at hneg
      have := Int.floor_le (a / b)
      linarith
    have hf : ⌊a / b⌋ = truncInt (a / b) - 1 := by
      rw [trunc_neg _ hq] at hneg ⊢
      rw [Int.floor_eq_iff]
      have := Int.ceil_lt_add_one (a / b)
      push_cast
      exact ⟨by linarith, by linarith⟩
    rw [hf]
    apply snapped hr
    set d := r (r (b * (truncInt (a / b) : ℚ)) / b) with hd
    obtain ⟨d1, d2⟩ := abs_le.1 hn
    have hB : |d - 1| ≤ 2 ^ 48 + 2 := by
      obtain ⟨t1, t2⟩ := abs_le.1 ht
      rw [abs_le]
      constructor <;> linarith
    have := hr.near_of (d - 1) ((truncInt (a / b) - 1 : ℤ) : ℚ) (1 / 8) (2 ^ 48 + 2)
      (by push_cast; rw [show d - 1 - ((truncInt (a / b) : ℚ) - 1) = d - truncInt (a / b) by ring]; exact hn) hB
    calc _ ≤ _ := this
      _ ≤ 1 / 4 := by norm_num
  · rw [if_neg hs]
    have hnn : 0 ≤ a / b - truncInt (a / b) := by
      by_contra hc
      have hc' := not_le.1 hc
      exact hs ⟨hne.2 hc'.ne, by simpa using hlt.2 hc'⟩
    have hf : ⌊a / b⌋ = truncInt (a / b) := by
      by_cases hq : 0 ≤ a / b
      · rw [trunc_pos _ hq]
      · rw [trunc_neg _ (not_le.1 hq)] at hnn ⊢
        rw [Int.floor_eq_iff]
        exact ⟨by linarith, by have := Int.le_ceil (a / b); linarith⟩
    rw [hf]
    apply snapped hr
    linarith

/-- The remainder by a positive double is between zero and it, and is a whole number of times from the dividend (up to one rounding). -/
theorem remainder_spec (hr : Nearest r) (a b : ℚ) (hb : 0 < b) (hd : IsDouble b) :
    0 ≤ remainder r a b ∧ remainder r a b ≤ b ∧ ∃ j : ℤ, |remainder r a b - (a + j * b)| ≤ b / 2 ^ 53 := by
  have hb' : decide (b < 0) = false := by simp [hb.le]
  have hm : fmod a b = b * (a / b - truncInt (a / b)) := by unfold fmod; field_simp
  have hbe : 0 ≤ b / 2 ^ 53 := by positivity
  unfold remainder
  simp only [hb']
  by_cases h0 : fmod a b = 0
  · rw [if_pos h0]
    refine ⟨le_refl _, hb.le, -truncInt (a / b), ?_⟩
    have : (0 : ℚ) - (a + ((-truncInt (a / b) : ℤ) : ℚ) * b) = -fmod a b := by unfold fmod; push_cast; ring
    rw [this, h0]; simpa using hbe
  · rw [if_neg h0]
    have hr1 : -b < fmod a b ∧ fmod a b < b := by
      have hlt : -1 < a / b - truncInt (a / b) ∧ a / b - truncInt (a / b) < 1 := by
        unfold truncInt
        split
        · have h1 := Int.floor_le (a / b)
          have h2 := Int.lt_floor_add_one (a / b)
          constructor <;> linarith
        · have h1 := Int.le_ceil (a / b)
          have h2 := Int.ceil_lt_add_one (a / b)
          constructor <;> linarith
      rw [hm]
      constructor <;> nlinarith [hlt.1, hlt.2]
    by_cases hs : false ≠ decide (fmod a b < 0)
    · rw [if_pos hs]
      have hneg : fmod a b < 0 := by simpa using hs
      have z : r 0 = 0 := (hr.eq_zero_iff 0).2 rfl
      have m1 := hr.mono 0 (fmod a b + b) (by linarith)
      have m2 := hr.mono (fmod a b + b) b (by linarith)
      rw [z] at m1
      rw [hr.exact b hd] at m2
      refine ⟨m1, m2, 1 - truncInt (a / b), ?_⟩
      have : a + ((1 - truncInt (a / b) : ℤ) : ℚ) * b = fmod a b + b := by unfold fmod; push_cast; ring
      rw [this]
      refine le_trans (hr.near _) ?_
      rw [abs_of_nonneg (by linarith)]
      gcongr
      linarith
    · rw [if_neg hs]
      have hpos : 0 ≤ fmod a b := by simpa using hs
      refine ⟨hpos, hr1.2.le, -truncInt (a / b), ?_⟩
      have : fmod a b - (a + ((-truncInt (a / b) : ℤ) : ℚ) * b) = 0 := by unfold fmod; push_cast; ring
      rw [this]; simpa using hbe

/-! ### Grids in general -/

/-- C137. For all doubles, a positive step and up to `2 ^ 47` steps in the box: with `δ = (|lo| + |hi| + |snap| + step) / 2 ^ 48`, the
coordinates returned are, in order and one for each, those of a range of successive multiples of the step from the snap
coordinate, to within `δ`. None is below the box, none is above it by more than `δ`, and none that is in the box by at least `δ` is
left out. -/
theorem float_box_axis (hr : Nearest r) (lo hi step snap : ℚ) (hlo : IsDouble lo) (hst : IsDouble step) (hpos : 0 < step) (hle : lo ≤ hi)
    (hn : hi - lo ≤ 2 ^ 47 * step) :
    ∃ (xs : List ℚ) (k0 : ℤ), axis r lo hi step snap = .ok xs ∧
      (∀ (i : Nat) (x : ℚ), xs[i]? = some x → lo ≤ x ∧ x ≤ hi + (|lo| + |hi| + |snap| + step) / 2 ^ 48 ∧
        |x - (snap + (k0 + i) * step)| ≤ (|lo| + |hi| + |snap| + step) / 2 ^ 48) ∧
      ∀ k : ℤ, lo + (|lo| + |hi| + |snap| + step) / 2 ^ 48 ≤ snap + k * step →
        snap + k * step ≤ hi - (|lo| + |hi| + |snap| + step) / 2 ^ 48 → ∃ i : Nat, i < xs.length ∧ k = k0 + i := by
  set B := |lo| + |hi| + |snap| + step with hB
  have n1 := neg_abs_le lo
  have n2 := neg_abs_le hi
  have n3 := neg_abs_le snap
  have p1 := le_abs_self lo
  have p2 := le_abs_self hi
  have p3 := le_abs_self snap
  have q1 := abs_nonneg lo
  have q2 := abs_nonneg hi
  have q3 := abs_nonneg snap
  have hB0 : 0 < B := by rw [hB]; linarith
  set u := B / 2 ^ 53 with hu
  have hu0 : 0 < u := by rw [hu]; positivity
  have huB : u ≤ B / 1024 := by rw [hu]; gcongr; norm_num
  have hδ : B / 2 ^ 48 = 32 * u := by rw [hu]; ring
  rw [hδ]
  -- a rounding of a number of at most c B is off by at most c u
  have near : ∀ (c x : ℚ), |x| ≤ c * B → -(c * u) ≤ r x - x ∧ r x - x ≤ c * u := by
    intro c x hx
    have h := hr.near x
    have h2 : |x| / 2 ^ 53 ≤ c * u := by
      rw [hu, ← mul_div_assoc]; gcongr
    exact abs_le.1 (le_trans h h2)
  have z : r 0 = 0 := (hr.eq_zero_iff 0).2 rfl
  have nonneg : ∀ x, 0 ≤ x → 0 ≤ r x := fun x hx => by have := hr.mono 0 x hx; rwa [z] at this
  -- shift
  set D := r (snap - lo) with hD
  have hD1 := near 1 (snap - lo) (by rw [abs_le]; constructor <;> linarith)
  rw [← hD] at hD1
  obtain ⟨s0, s1, j, hj⟩ := remainder_spec hr D step hpos hst
  set s := remainder r D step with hs
  have hj' : |s - (D + j * step)| ≤ u := by
    refine le_trans hj ?_
    rw [hu]; gcongr; linarith
  obtain ⟨j1, j2⟩ := abs_le.1 hj'
  -- start
  set start := r (lo + s) with hstart
  have a1 := near 1 (lo + s) (by rw [abs_le]; constructor <;> linarith)
  rw [← hstart] at a1
  have a2 : lo ≤ start := by
    have := hr.mono lo (lo + s) (by linarith)
    rwa [hr.exact lo hlo] at this
  have a3 : r start = start := hr.exact _ (hr.double _)
  -- number
  set W := r (hi - lo) with hW
  have w0 : 0 ≤ W := nonneg _ (by linarith)
  have w1 := near 1 (hi - lo) (by rw [abs_le]; constructor <;> linarith)
  rw [← hW] at w1
  set a := r (W - s) with ha
  have b1 := near 3 (W - s) (by rw [abs_le]; constructor <;> linarith)
  rw [← ha] at b1
  have b2 : -step ≤ a := by
    have := hr.mono (-step) (W - s) (by linarith)
    rwa [hr.exact _ (isDouble_neg _ hst)] at this
  have b3 : a ≤ W := by
    have := hr.mono (W - s) W (by linarith)
    rwa [hr.exact W (hr.double _)] at this
  have w2 : W ≤ 2 ^ 48 * step := by
    have h := abs_le.1 (hr.near (hi - lo))
    rw [abs_of_nonneg (by linarith : 0 ≤ hi - lo), ← hW] at h
    have h3 : (hi - lo) / 2 ^ 53 ≤ hi - lo := div_le_self (by linarith) (by norm_num)
    have : (2 : ℚ) ^ 48 * step = 2 ^ 47 * step + 2 ^ 47 * step := by ring
    linarith [h.2]
  have hq : |a / step| ≤ 2 ^ 48 := by
    rw [abs_le]
    constructor
    · rw [le_div_iff₀ hpos]
      have : (1 : ℚ) * step ≤ 2 ^ 48 * step := by gcongr; norm_num
      linarith
    · rw [div_le_iff₀ hpos]; linarith
  set n := ⌊a / step⌋ with hnn
  have hfd : floorDivide r a step = n := floor_divide_exact hr a step hpos hq
  have c1 : (n : ℚ) * step ≤ a := by
    have := Int.floor_le (a / step)
    rwa [← hnn, le_div_iff₀ hpos] at this
  have c2 : a < ((n : ℚ) + 1) * step := by
    have := Int.lt_floor_add_one (a / step)
    rwa [← hnn, div_lt_iff₀ hpos] at this
  have c3 : -1 ≤ n := by
    rw [hnn, Int.le_floor, le_div_iff₀ hpos]
    push_cast
    linarith
  have hax : axis r lo hi step snap = linspace r start (r (start + r ((n : ℚ) * step))) (n + 1) := by
    unfold axis
    simp only [← hD, ← hs, ← hW, ← ha, hfd, ← hstart, if_neg hpos.ne']
  -- completeness, given the number of coordinates
  have complete : ∀ (xs : List ℚ), (xs.length : ℤ) = n + 1 → ∀ k : ℤ, lo + 32 * u ≤ snap + k * step → snap + k * step ≤ hi - 32 * u →
      ∃ i : Nat, i < xs.length ∧ k = j + i := by
    intro xs hl k h1 h2
    have k1 : j ≤ k := by
      by_contra hc
      have : k + 1 ≤ j := by omega
      have h' : ((k : ℚ) + 1) * step ≤ j * step := by
        apply mul_le_mul_of_nonneg_right _ hpos.le
        exact_mod_cast this
      rw [add_mul, one_mul] at h'
      linarith
    have k2 : k ≤ j + n := by
      by_contra hc
      have : j + n + 1 ≤ k := by omega
      have h' : ((j : ℚ) + ((n : ℚ) + 1)) * step ≤ k * step := by
        apply mul_le_mul_of_nonneg_right _ hpos.le
        have : ((j + n + 1 : ℤ) : ℚ) ≤ k := by exact_mod_cast this
        push_cast at this
        linarith
      rw [add_mul] at h'
      linarith
    exact ⟨(k - j).toNat, by omega, by omega⟩
  rw [hax]
  unfold linspace
  rw [if_neg (by omega)]
  by_cases hn0 : n = -1
  · refine ⟨[], j, ?_, by simp, complete [] (by rw [hn0]; simp)⟩
    rw [if_neg (by omega), hn0]
    simp
  by_cases hn1 : n = 0
  · refine ⟨[start], j, by rw [if_pos (by omega)], ?_, complete [start] (by rw [hn1]; simp)⟩
    intro i x hx
    cases i with
    | succ i => simp at hx
    | zero =>
      simp only [List.getElem?_cons_zero, Option.some.injEq] at hx
      subst hx
      rw [hn1] at c1
      simp only [Int.cast_zero, zero_mul] at c1
      refine ⟨a2, by linarith, ?_⟩
      rw [abs_le]
      simp only [Nat.cast_zero, add_zero]
      constructor <;> linarith
  have hnpos : 1 ≤ n := by omega
  have hnq : (1 : ℚ) ≤ n := by exact_mod_cast hnpos
  have hnst : 0 ≤ (n : ℚ) * step := by positivity
  set P := r ((n : ℚ) * step) with hP
  have P0 : 0 ≤ P := nonneg _ hnst
  have P1 := near 2 ((n : ℚ) * step) (by rw [abs_of_nonneg hnst]; linarith)
  rw [← hP] at P1
  set stop := r (start + P) with hstop
  have t1 := near 5 (start + P) (by rw [abs_le]; constructor <;> linarith)
  rw [← hstop] at t1
  have t2 : start ≤ stop := by
    have := hr.mono start (start + P) (by linarith)
    rwa [a3] at this
  set delta := r (stop - start) with hdelta
  have d0 : 0 ≤ delta := nonneg _ (by linarith)
  have d1 := near 3 (stop - start) (by rw [abs_le]; constructor <;> linarith)
  rw [← hdelta] at d1
  have hcast : (((n + 1 : ℤ) : ℚ) - 1) = n := by push_cast; ring
  set st := r (delta / (n : ℚ)) with hstt
  have hn' : (0 : ℚ) < n := by linarith
  have st0 : 0 ≤ st := nonneg _ (by positivity)
  -- n times the step
  have st1 : |n * st - n * step| ≤ 13 * u := by
    have h := hr.near (delta / n)
    rw [abs_of_nonneg (by positivity : 0 ≤ delta / (n : ℚ)), ← hstt] at h
    have e1 : (n : ℚ) * (delta / n) = delta := by field_simp
    have e2 : |n * st - delta| ≤ 3 * u := by
      have : n * st - delta = n * (st - delta / n) := by rw [mul_sub, e1]
      rw [this, abs_mul, abs_of_pos hn']
      calc (n : ℚ) * |st - delta / n| ≤ n * (delta / n / 2 ^ 53) := by gcongr
        _ = delta / 2 ^ 53 := by rw [← mul_div_assoc, e1]
        _ ≤ (3 * B) / 2 ^ 53 := by gcongr; linarith
        _ = 3 * u := by rw [hu]; ring
    obtain ⟨e3, e4⟩ := abs_le.1 e2
    rw [abs_le]
    constructor <;> linarith
  refine ⟨_, j, by rw [if_neg (by omega)], ?_, complete _ (by simp; omega)⟩
  intro i x hx
  rw [List.getElem?_map] at hx
  have hi' : i < (n + 1).toNat := by
    by_contra hc
    rw [List.getElem?_eq_none (by simpa using hc)] at hx
    simp at hx
  rw [List.getElem?_range hi'] at hx
  simp only [Option.map_some, Option.some.injEq, hcast, ← hstt] at hx
  -- whatever is returned is near start + i step
  have key : start ≤ x ∧ -(22 * u) ≤ x - (start + i * step) ∧ x - (start + i * step) ≤ 22 * u := by
    by_cases hlast : (i : ℤ) + 1 = n + 1
    · rw [if_pos hlast] at hx
      have hin : (i : ℚ) = n := by
        have : (i : ℤ) = n := by omega
        exact_mod_cast this
      rw [← hx, hin]
      exact ⟨t2, by linarith, by linarith⟩
    · rw [if_neg hlast] at hx
      have hx' : r (start + r ((i : ℚ) * st)) = x := by
        by_cases h0 : st = 0
        · rw [if_pos h0] at hx
          have hd0 : delta = 0 := by
            have := (hr.eq_zero_iff (delta / (n : ℚ))).1 (by rw [← hstt]; exact h0)
            rcases div_eq_zero_iff.1 this with h | h
            · exact h
            · exact absurd h hn'.ne'
          rw [hd0, mul_zero, z] at hx
          rw [h0, mul_zero, z]
          exact hx
        · rwa [if_neg h0] at hx
      have hin : (i : ℚ) ≤ n := by
        have : (i : ℤ) ≤ n := by omega
        exact_mod_cast this
      have hi0 : (0 : ℚ) ≤ i := Nat.cast_nonneg i
      have i1 : |i * st - i * step| ≤ 13 * u := by
        have e1 : ((i : ℚ) * st - i * step) = i * (st - step) := by ring
        have e2 : ((n : ℚ) * st - n * step) = n * (st - step) := by ring
        rw [e2, abs_mul, abs_of_pos hn'] at st1
        rw [e1, abs_mul, abs_of_nonneg hi0]
        exact le_trans (mul_le_mul_of_nonneg_right hin (abs_nonneg _)) st1
      obtain ⟨i2, i3⟩ := abs_le.1 i1
      have i4 : (i : ℚ) * step ≤ n * step := mul_le_mul_of_nonneg_right hin hpos.le
      have i5 : 0 ≤ (i : ℚ) * st := mul_nonneg hi0 st0
      have Q1 := near 3 ((i : ℚ) * st) (by rw [abs_of_nonneg i5]; linarith)
      have Q0 : 0 ≤ r ((i : ℚ) * st) := nonneg _ i5
      set Q := r ((i : ℚ) * st) with hQ
      have y1 := near 6 (start + Q) (by rw [abs_le]; constructor <;> linarith)
      have y0 : start ≤ r (start + Q) := by
        have := hr.mono start (start + Q) (by linarith)
        rwa [a3] at this
      rw [hx'] at y1 y0
      exact ⟨y0, by linarith, by linarith⟩
  have hin : (i : ℚ) * step ≤ n * step := by
    apply mul_le_mul_of_nonneg_right _ hpos.le
    have : (i : ℤ) ≤ n := by omega
    exact_mod_cast this
  obtain ⟨k1, k2, k3⟩ := key
  refine ⟨by linarith, by linarith, ?_⟩
  rw [add_mul, abs_le]
  constructor <;> linarith

/-- C137: the coordinates are strictly increasing if the step is more than `2 δ`. -/
theorem float_box_sorted (hr : Nearest r) (lo hi step snap : ℚ) (hlo : IsDouble lo) (hst : IsDouble step) (hpos : 0 < step) (hle : lo ≤ hi)
    (hn : hi - lo ≤ 2 ^ 47 * step) (hd : 2 * ((|lo| + |hi| + |snap| + step) / 2 ^ 48) < step) (xs : List ℚ)
    (h : axis r lo hi step snap = .ok xs) : xs.Pairwise (· < ·) := by
  obtain ⟨ys, k0, e, hv, -⟩ := float_box_axis hr lo hi step snap hlo hst hpos hle hn
  rw [h] at e
  cases e
  rw [List.pairwise_iff_getElem]
  intro i j hi' hj hij
  obtain ⟨-, -, a⟩ := hv i _ (List.getElem?_eq_getElem hi')
  obtain ⟨-, -, b⟩ := hv j _ (List.getElem?_eq_getElem hj)
  obtain ⟨-, a⟩ := abs_le.1 a
  obtain ⟨b, -⟩ := abs_le.1 b
  have : ((k0 : ℚ) + i + 1) * step ≤ (k0 + j) * step := by
    apply mul_le_mul_of_nonneg_right _ hpos.le
    have : (i : ℚ) + 1 ≤ j := by exact_mod_cast hij
    linarith
  rw [add_mul _ 1 step, one_mul] at this
  linarith

/-! ### Exact grids -/

private theorem floor_int (a b : ℤ) (hb : 0 < b) : ⌊(a : ℚ) / (b : ℚ)⌋ = a / b := by
  have hbq : (0 : ℚ) < b := by exact_mod_cast hb
  rw [Int.floor_eq_iff, le_div_iff₀ hbq, div_lt_iff₀ hbq]
  constructor
  · exact_mod_cast Int.ediv_mul_le a hb.ne'
  · exact_mod_cast Int.lt_ediv_add_one_mul_self a hb

private theorem remainder_eq (a b : ℚ) (hb : 0 < b) (h : r (pyMod a b) = pyMod a b) : remainder r a b = pyMod a b := by
  have hb' : decide (b < 0) = false := by simp [hb.le]
  have hm : fmod a b = b * (a / b - truncInt (a / b)) := by unfold fmod; field_simp
  have hp : pyMod a b = b * (a / b - ⌊a / b⌋) := by unfold pyMod; field_simp
  unfold remainder
  simp only [hb']
  by_cases hq : 0 ≤ a / b
  · have e : fmod a b = pyMod a b := by rw [hm, hp, trunc_pos _ hq]
    have hnn : 0 ≤ pyMod a b := by
      rw [hp]
      exact mul_nonneg hb.le (by have := Int.floor_le (a / b); linarith)
    rw [e]
    by_cases h0 : pyMod a b = 0
    · rw [if_pos h0, h0]
    · rw [if_neg h0, if_neg (by simpa using hnn)]
  · have hc := trunc_neg _ (not_le.1 hq)
    rw [hc] at hm
    have h1 := Int.le_ceil (a / b)
    have h2 := Int.ceil_lt_add_one (a / b)
    by_cases h0 : fmod a b = 0
    · rw [if_pos h0]
      have hz : a / b = ⌈a / b⌉ := by
        rw [hm] at h0
        rcases mul_eq_zero.1 h0 with h | h
        · exact absurd h hb.ne'
        · linarith
      rw [hp, hz, Int.floor_intCast, sub_self, mul_zero]
    · have hlt : a / b < ⌈a / b⌉ := by
        rcases lt_or_eq_of_le h1 with h | h
        · exact h
        · rw [hm, ← h, sub_self, mul_zero] at h0
          exact absurd rfl h0
      have hneg : fmod a b < 0 := by
        rw [hm]
        exact mul_neg_of_pos_of_neg hb (by linarith)
      have hf : ⌊a / b⌋ = ⌈a / b⌉ - 1 := by
        rw [Int.floor_eq_iff]; push_cast; exact ⟨by linarith, by linarith⟩
      rw [if_neg h0, if_pos (by simpa using hneg)]
      have : fmod a b + b = pyMod a b := by
        rw [hm, hp, hf]; push_cast; ring
      rw [this, h]

/-- C137 (exact). If the limits, the step and the snap coordinate are multiples of one power of two, by at most `2 ^ 46` (such as whole
numbers), the coordinates are exactly those of exact arithmetic: by C07, all multiples of the step from the snap coordinate in the
box. -/
theorem float_box_axis_exact (hr : Nearest r) (e L H T N : ℤ) (hL : |L| ≤ 2 ^ 46) (hH : |H| ≤ 2 ^ 46) (hT : |T| ≤ 2 ^ 46) (hN : |N| ≤ 2 ^ 46)
    (hpos : 0 < T) (hle : L ≤ H) :
    axis r (L * 2 ^ e) (H * 2 ^ e) (T * 2 ^ e) (N * 2 ^ e) = gridAxis (L * 2 ^ e) (H * 2 ^ e) (T * 2 ^ e) (N * 2 ^ e) := by
  have hp : (0 : ℚ) < 2 ^ e := by positivity
  have ex : ∀ k : ℤ, |k| ≤ 2 ^ 53 → r (k * 2 ^ e) = k * 2 ^ e := fun k hk => hr.ex _ k e rfl hk
  have hTq : (0 : ℚ) < T := by exact_mod_cast hpos
  have hst : (0 : ℚ) < T * 2 ^ e := by positivity
  obtain ⟨l1, l2⟩ := abs_le.1 hL
  obtain ⟨h1, h2⟩ := abs_le.1 hH
  obtain ⟨t1, t2⟩ := abs_le.1 hT
  obtain ⟨m1, m2⟩ := abs_le.1 hN
  have r1 : r (N * 2 ^ e - L * 2 ^ e) = N * 2 ^ e - L * 2 ^ e := by
    have := ex (N - L) (by rw [abs_le]; constructor <;> omega)
    push_cast at this
    rwa [sub_mul] at this
  -- the shift is a multiple
  obtain ⟨S, hS, S0, S1⟩ : ∃ S : ℤ, pyMod (N * 2 ^ e - L * 2 ^ e) (T * 2 ^ e) = S * 2 ^ e ∧ 0 ≤ S ∧ S < T := by
    have hq : ((N : ℚ) * 2 ^ e - L * 2 ^ e) / (T * 2 ^ e) = ((N - L : ℤ) : ℚ) / ((T : ℤ) : ℚ) := by
      push_cast
      rw [← sub_mul, mul_div_mul_right _ _ hp.ne']
    refine ⟨(N - L) % T, ?_, Int.emod_nonneg _ hpos.ne', Int.emod_lt_of_pos _ hpos⟩
    unfold pyMod
    rw [hq, floor_int (N - L) T hpos]
    have hmod := Int.emod_add_mul_ediv (N - L) T
    have hmq : (((N - L) % T : ℤ) : ℚ) + T * (((N - L) / T : ℤ) : ℚ) = N - L := by exact_mod_cast hmod
    have : ((N : ℚ) * 2 ^ e - L * 2 ^ e) = (N - L) * 2 ^ e := by ring
    rw [this, ← hmq]
    ring
  have r2 : remainder r (N * 2 ^ e - L * 2 ^ e) (T * 2 ^ e) = S * 2 ^ e := by
    rw [remainder_eq _ _ hst, hS]
    rw [hS]
    exact ex S (by rw [abs_le]; constructor <;> omega)
  have r3 : r (H * 2 ^ e - L * 2 ^ e) = H * 2 ^ e - L * 2 ^ e := by
    have := ex (H - L) (by rw [abs_le]; constructor <;> omega)
    push_cast at this
    rwa [sub_mul] at this
  have r4 : r (H * 2 ^ e - L * 2 ^ e - S * 2 ^ e) = H * 2 ^ e - L * 2 ^ e - S * 2 ^ e := by
    have := ex (H - L - S) (by rw [abs_le]; constructor <;> omega)
    push_cast at this
    rwa [sub_mul, sub_mul] at this
  have hquot : ((H : ℚ) * 2 ^ e - L * 2 ^ e - S * 2 ^ e) / (T * 2 ^ e) = ((H - L - S : ℤ) : ℚ) / ((T : ℤ) : ℚ) := by
    push_cast
    rw [← sub_mul, ← sub_mul, mul_div_mul_right _ _ hp.ne']
  set n := ⌊((H : ℚ) * 2 ^ e - L * 2 ^ e - S * 2 ^ e) / (T * 2 ^ e)⌋ with hn
  have hn' : n = (H - L - S) / T := by rw [hn, hquot, floor_int _ _ hpos]
  have n1 : n * T ≤ H - L - S := by rw [hn']; exact Int.ediv_mul_le _ hpos.ne'
  have n2 : H - L - S < (n + 1) * T := by
    rw [hn']
    exact Int.lt_ediv_add_one_mul_self _ hpos
  have r5 : floorDivide r (H * 2 ^ e - L * 2 ^ e - S * 2 ^ e) (T * 2 ^ e) = n := by
    apply floor_divide_exact hr _ _ hst
    rw [hquot, abs_div, abs_of_pos (by exact_mod_cast hpos : (0 : ℚ) < ((T : ℤ) : ℚ)), div_le_iff₀ (by exact_mod_cast hpos)]
    have a1 : |H - L - S| ≤ 2 ^ 48 := by rw [abs_le]; constructor <;> omega
    have a2 : ((|H - L - S| : ℤ) : ℚ) ≤ ((2 ^ 48 : ℤ) : ℚ) := by exact_mod_cast a1
    rw [Int.cast_abs] at a2
    have a3 : (1 : ℚ) ≤ ((T : ℤ) : ℚ) := by exact_mod_cast hpos
    push_cast at a2 ⊢
    nlinarith
  have nb : -1 ≤ n ∧ n ≤ 2 ^ 47 ∧ -(2 ^ 46) ≤ n * T ∧ n * T ≤ 2 ^ 47 := by
    have b1 : -1 ≤ n := by
      by_contra hc
      have : (n + 1) * T ≤ -1 * T := by
        apply mul_le_mul_of_nonneg_right _ hpos.le
        omega
      omega
    have b2 : n * T ≤ 2 ^ 47 := by omega
    refine ⟨b1, ?_, ?_, b2⟩
    · by_contra hc
      have hc' : 2 ^ 47 + 1 ≤ n := by omega
      have : (2 ^ 47 + 1) * 1 ≤ n * T := mul_le_mul hc' (by omega) (by norm_num) (by omega)
      omega
    · have : -1 * T ≤ n * T := mul_le_mul_of_nonneg_right b1 hpos.le
      omega
  obtain ⟨nb1, nb2, nb3, nb4⟩ := nb
  have r6 : r (L * 2 ^ e + S * 2 ^ e) = L * 2 ^ e + S * 2 ^ e := by
    have := ex (L + S) (by rw [abs_le]; constructor <;> omega)
    push_cast at this
    rwa [add_mul] at this
  have mulT : ∀ k : ℤ, -1 ≤ k → k ≤ n → -(2 ^ 46) ≤ k * T ∧ k * T ≤ 2 ^ 47 ∧ k * T ≤ n * T := by
    intro k k1 k2
    have c1 : -1 * T ≤ k * T := mul_le_mul_of_nonneg_right k1 hpos.le
    have c2 : k * T ≤ n * T := mul_le_mul_of_nonneg_right k2 hpos.le
    omega
  have r7 : ∀ k : ℤ, -1 ≤ k → k ≤ n → r ((k : ℚ) * (T * 2 ^ e)) = k * (T * 2 ^ e) := by
    intro k k1 k2
    obtain ⟨c1, c2, -⟩ := mulT k k1 k2
    have := ex (k * T) (by rw [abs_le]; constructor <;> omega)
    push_cast at this
    rwa [mul_assoc] at this
  have r8 : ∀ k : ℤ, -1 ≤ k → k ≤ n → r (L * 2 ^ e + S * 2 ^ e + (k : ℚ) * (T * 2 ^ e)) = L * 2 ^ e + S * 2 ^ e + k * (T * 2 ^ e) := by
    intro k k1 k2
    obtain ⟨c1, c2, -⟩ := mulT k k1 k2
    have := ex (L + S + k * T) (by rw [abs_le]; constructor <;> omega)
    push_cast at this
    rw [add_mul, add_mul, mul_assoc] at this
    exact this
  unfold axis gridAxis
  simp only [if_neg hst.ne', r1, r2, r3, r4, r5, r6, hS, ← hn, r7 n nb1 le_rfl, r8 n nb1 le_rfl]
  unfold linspace Glimpse.linspace
  by_cases hm : n + 1 < 0
  · rw [if_pos hm, if_pos hm]
  rw [if_neg hm, if_neg hm]
  by_cases hm1 : n + 1 = 1
  · rw [if_pos hm1, if_pos hm1]
  rw [if_neg hm1, if_neg hm1]
  refine congrArg Except.ok ?_
  apply List.map_congr_left
  intro i hi
  have hi' : i < (n + 1).toNat := List.mem_range.1 hi
  have hnp : (0 : ℚ) < n := by
    have : 0 < n := by omega
    exact_mod_cast this
  have hcast : (((n + 1 : ℤ) : ℚ) - 1) = n := by push_cast; ring
  have hdel : (L : ℚ) * 2 ^ e + S * 2 ^ e + n * (T * 2 ^ e) - (L * 2 ^ e + S * 2 ^ e) = n * (T * 2 ^ e) := by ring
  have hquo : (n : ℚ) * (T * 2 ^ e) / n = T * 2 ^ e := by field_simp
  have hstep : r (T * 2 ^ e) = T * 2 ^ e := ex T (by rw [abs_le]; constructor <;> omega)
  simp only [hcast, hdel, r7 n nb1 le_rfl, hquo, hstep, if_neg hst.ne']
  have hi2 : ((i : ℤ) : ℚ) = (i : ℚ) := by push_cast; rfl
  by_cases hl : (i : ℤ) + 1 = n + 1
  · rw [if_pos hl]
    have : (i : ℚ) = n := by
      have : (i : ℤ) = n := by omega
      exact_mod_cast this
    rw [this]
  · rw [if_neg hl, ← hi2, r7 i (by omega) (by omega), r8 i (by omega) (by omega)]

/-! ### Where the claim fails -/

/-- C137 fails for decimal steps: a box from 0 to 1 with the double nearest to 0.1 as step has ten coordinates and ends at 0.9: the one
at 1 is left out. -/
theorem float_box_decimal_violated : (axis rnd 0 1 (rnd (1 / 10)) 0).toOption.map List.length = some 10 ∧
    (axis rnd 0 1 (rnd (1 / 10)) 0).toOption.bind List.getLast? = some (rnd (9 / 10)) ∧
    (gridAxis 0 1 (1 / 10) 0).toOption.map List.length = some 11 := by decide +kernel

/-- C137 fails by rounding: all numbers are doubles, but the last coordinate is outside of the box. -/
theorem float_box_outside_violated : ∃ lo hi step x : ℚ, IsDouble lo ∧ IsDouble hi ∧ IsDouble step ∧ lo ≤ hi ∧ 0 < step ∧
    axis rnd lo hi step lo = .ok [lo, x] ∧ hi < x := by
  refine ⟨-(1 / 2 ^ 53), 1 + 1 / 2 ^ 52, 1 + 1 / 2 ^ 51, 1 + 1 / 2 ^ 51, ⟨-1, -53, by norm_num, by norm_num⟩,
    ⟨2 ^ 52 + 1, -52, by norm_num, by norm_num⟩, ⟨2 ^ 52 + 2, -52, by norm_num, by norm_num⟩, by norm_num, by norm_num, ?_, by norm_num⟩
  have h : (axis rnd (-(1 / 2 ^ 53)) (1 + 1 / 2 ^ 52) (1 + 1 / 2 ^ 51) (-(1 / 2 ^ 53))).toOption =
    some [-(1 / 2 ^ 53), 1 + 1 / 2 ^ 51] := by decide +kernel
  cases hx : axis rnd (-(1 / 2 ^ 53)) (1 + 1 / 2 ^ 52) (1 + 1 / 2 ^ 51) (-(1 / 2 ^ 53)) with
  | error e => rw [hx] at h; cases h
  | ok l => rw [hx] at h; cases h; rfl

/-- Non-vacuity: the examples of the documentation, and decimal numbers. -/
example : (axis rnd 0 10 4 1).toOption = some [1, 5, 9] ∧ (axis rnd 0 10 4 2).toOption = some [2, 6, 10] := by decide +kernel

example : (axis rnd 0 (rnd (7 / 10)) (rnd (1 / 5)) (rnd (-1 / 3))).toOption.map List.length = some 4 := by decide +kernel

end Glimpse.FloatBoxGrid
