import Verif.Props.FloatTemplate

/-!
C134, continued: placement of the search tile and of the cells of the error image in double precision.
-/
set_option autoImplicit false
set_option linter.unusedSimpArgs false
set_option linter.unusedSectionVars false

namespace Glimpse.FloatTemplate
open Glimpse Glimpse.Tiles Glimpse.Double

theorem unit_add (n : Nat) (hn : n ≤ 2 ^ 20) : unit n ≤ 1 / 536870912 := by
  have := unit_le n hn
  norm_num at this ⊢
  exact this

section
variable {r : ℚ → ℚ} (hr : Nearest r)
include hr

theorem near_unit2 (n : Nat) (x y e : ℚ) (hx : |x - y| ≤ e) (he : e ≤ 1) (hy : |y| ≤ 8 * ((n : ℚ) + 1) - 1) : |r x - y| ≤ e + unit n := by
  have h1 : |x| ≤ 8 * ((n : ℚ) + 1) := by
    have := abs_sub_abs_le_abs_sub x y
    linarith
  have h2 := near_unit hr n x h1
  have h3 : |r x - y| ≤ |r x - x| + |x - y| := by
    have := abs_add_le (r x - x) (x - y)
    rwa [sub_add_sub_cancel] at this
  linarith

theorem r_nonpos (x : ℚ) (h : x ≤ 0) : r x ≤ 0 := by
  have := hr.mono x 0 h
  rwa [r_zero hr] at this

theorem r_nonneg (x : ℚ) (h : 0 ≤ x) : 0 ≤ r x := by
  have := hr.mono 0 x h
  rwa [r_zero hr] at this

/-- The ends of the search box before they are rounded to pixels. -/
def ends (r : ℚ → ℚ) (umin umax : ℚ) (s k : Nat) : ℚ × ℚ :=
  let lo := r (umin - (s : ℚ) / 2)
  let hi := r (umax + (s : ℚ) / 2)
  let m := r ((k : ℚ) - r (r (hi - lo) - (s : ℚ)))
  (if m > 0 then r (lo + r (-m * (1 / 2))) else lo, if m > 0 then r (hi + r (m * (1 / 2))) else hi)

theorem searchAxis_eq (umin umax : ℚ) (s k : Nat) (hs' : s ≤ 2 ^ 40) :
    searchAxis r umin umax s k = (⌊(ends r umin umax s k).1⌋, ⌈(ends r umin umax s k).2⌉) := by
  unfold searchAxis ends
  simp only [r_size hr s hs']

theorem ends_lo_le (umin umax : ℚ) (s k : Nat) : (ends r umin umax s k).1 ≤ r (umin - (s : ℚ) / 2) := by
  unfold ends
  simp only
  split
  · rename_i h
    have h1 := r_nonpos hr (-(r ((k : ℚ) - r (r (r (umax + (s : ℚ) / 2) - r (umin - (s : ℚ) / 2)) - (s : ℚ)))) * (1 / 2)) (by linarith)
    have h2 := hr.mono _ _ (add_le_of_nonpos_right (a := r (umin - (s : ℚ) / 2)) h1)
    rwa [hr.exact _ (hr.double _)] at h2
  · exact le_rfl

theorem le_ends_hi (umin umax : ℚ) (s k : Nat) : r (umax + (s : ℚ) / 2) ≤ (ends r umin umax s k).2 := by
  unfold ends
  simp only
  split
  · rename_i h
    have h1 := r_nonneg hr (r ((k : ℚ) - r (r (r (umax + (s : ℚ) / 2) - r (umin - (s : ℚ) / 2)) - (s : ℚ))) * (1 / 2)) (by linarith)
    have h2 := hr.mono _ _ (le_add_of_nonneg_right (a := r (umax + (s : ℚ) / 2)) h1)
    rwa [hr.exact _ (hr.double _)] at h2
  · exact le_rfl

theorem ends_spec (n : Nat) (hb : n ≤ 2 ^ 20) (umin umax : ℚ) (hu : IsDouble umin) (s k : Nat) (hk : k ≤ 5) (h0 : (s : ℚ) / 2 ≤ umin) (h01 : umin ≤ umax)
    (h1 : umax + (s : ℚ) / 2 ≤ n + 1) :
    (ends r umin umax s k).1 ≤ umin - s / 2 ∧ umax + s / 2 - unit n ≤ (ends r umin umax s k).2 ∧
    (s : ℚ) + k - 9 * unit n ≤ (ends r umin umax s k).2 - (ends r umin umax s k).1 ∧
    umin - s / 2 - k / 2 - 4 * unit n ≤ (ends r umin umax s k).1 ∧ (ends r umin umax s k).2 ≤ umax + s / 2 + k / 2 + 5 * unit n := by
  have hs0 : (0 : ℚ) ≤ s := Nat.cast_nonneg s
  have hn0 : (0 : ℚ) ≤ n := Nat.cast_nonneg n
  have hk0 : (0 : ℚ) ≤ k := Nat.cast_nonneg k
  have hk5 : (k : ℚ) ≤ 5 := by exact_mod_cast hk
  have hnq : (n : ℚ) ≤ 2 ^ 20 := by exact_mod_cast hb
  have hd := unit_pos n
  have hd' := unit_add n hb
  have hule : umin ≤ 2 ^ 40 := by
    have : (2 : ℚ) ^ 20 + 1 ≤ 2 ^ 40 := by norm_num
    linarith
  have hlo : r (umin - (s : ℚ) / 2) = umin - (s : ℚ) / 2 := by
    have := hr.exact _ (isDouble_sub_half umin hu (s : ℤ) (by positivity) (by push_cast; exact h0) hule)
    push_cast at this
    exact this
  have a1 := ends_lo_le hr umin umax s k
  have a2 := le_ends_hi hr umin umax s k
  rw [hlo] at a1
  have e1 := near_unit hr n (umax + (s : ℚ) / 2) (by rw [abs_of_nonneg (by linarith)]; linarith)
  have e1' := abs_le.mp e1
  set hi := r (umax + (s : ℚ) / 2) with hhi
  have e2 := near_unit2 hr n (hi - (umin - (s : ℚ) / 2)) (umax - umin + s) (unit n) (by
    rw [show hi - (umin - (s : ℚ) / 2) - (umax - umin + s) = hi - (umax + (s : ℚ) / 2) by ring]; exact e1) (by linarith)
    (by rw [abs_of_nonneg (by linarith)]; linarith)
  set A := r (hi - (umin - (s : ℚ) / 2)) with hA
  have e3 := near_unit2 hr n (A - s) (umax - umin) (unit n + unit n) (by
    rw [show A - (s : ℚ) - (umax - umin) = A - (umax - umin + s) by ring]; exact e2) (by linarith)
    (by rw [abs_of_nonneg (by linarith)]; linarith)
  set B := r (A - s) with hB
  have e4 := near_unit2 hr n ((k : ℚ) - B) (k - (umax - umin)) (unit n + unit n + unit n) (by
    rw [show (k : ℚ) - B - (k - (umax - umin)) = -(B - (umax - umin)) by ring, abs_neg]; exact e3) (by linarith)
    (by rw [abs_le]; constructor <;> linarith)
  have e4' := abs_le.mp e4
  have hends : ends r umin umax s k = (if r ((k : ℚ) - B) > 0 then r ((umin - (s : ℚ) / 2) + r (-r ((k : ℚ) - B) * (1 / 2))) else (umin - (s : ℚ) / 2),
      if r ((k : ℚ) - B) > 0 then r (hi + r (r ((k : ℚ) - B) * (1 / 2))) else hi) := by
    unfold ends
    simp only [hlo, ← hhi, ← hA, ← hB]
  rw [hends] at a1 a2 ⊢
  set m := r ((k : ℚ) - B) with hm
  refine ⟨a1, by linarith, ?_⟩
  clear a1 a2
  by_cases hp : m > 0
  · simp only [if_pos hp]
    have f1 := near_unit hr n (-m * (1 / 2)) (by rw [abs_le]; constructor <;> linarith)
    have f1' := abs_le.mp f1
    have f2 := near_unit hr n (umin - (s : ℚ) / 2 + r (-m * (1 / 2))) (by rw [abs_le]; constructor <;> linarith)
    have f2' := abs_le.mp f2
    have g1 := near_unit hr n (m * (1 / 2)) (by rw [abs_le]; constructor <;> linarith)
    have g1' := abs_le.mp g1
    have g2 := near_unit hr n (hi + r (m * (1 / 2))) (by rw [abs_le]; constructor <;> linarith)
    have g2' := abs_le.mp g2
    refine ⟨by linarith, by linarith, by linarith⟩
  · simp only [if_neg hp]
    have hp' := not_lt.mp hp
    refine ⟨by linarith, by linarith, by linarith⟩

/-- The search box along an axis, if it is in the image. -/
theorem search_axis (n : Nat) (hb : n ≤ 2 ^ 20) (umin umax : ℚ) (hu : IsDouble umin) (s k : Nat) (hk : k ≤ 5) (hs' : s ≤ 2 ^ 40) (h01 : umin ≤ umax)
    (hl : 0 ≤ (searchAxis r umin umax s k).1) (hh : (searchAxis r umin umax s k).2 ≤ n) :
    ((searchAxis r umin umax s k).1 : ℚ) ≤ umin - s / 2 ∧ umax + s / 2 ≤ ((searchAxis r umin umax s k).2 : ℚ) + unit n ∧
      (s : ℤ) + k ≤ (searchAxis r umin umax s k).2 - (searchAxis r umin umax s k).1 := by
  rw [searchAxis_eq hr _ _ _ _ hs'] at hl hh ⊢
  simp only at hl hh ⊢
  have a1 := ends_lo_le hr umin umax s k
  have a2 := le_ends_hi hr umin umax s k
  have b1 := Int.floor_le (ends r umin umax s k).1
  have b2 := Int.le_ceil (ends r umin umax s k).2
  have hl' : (0 : ℚ) ≤ ((⌊(ends r umin umax s k).1⌋ : ℤ) : ℚ) := by exact_mod_cast hl
  have hh' : ((⌈(ends r umin umax s k).2⌉ : ℤ) : ℚ) ≤ n := by exact_mod_cast hh
  have h0 : (s : ℚ) / 2 ≤ umin := by
    by_contra hc
    push Not at hc
    have := r_neg_of_neg hr (umin - (s : ℚ) / 2) (by linarith)
    linarith
  have hs0 : (0 : ℚ) ≤ s := Nat.cast_nonneg s
  have hn0 : (0 : ℚ) ≤ n := Nat.cast_nonneg n
  have hd := unit_pos n
  have hd' := unit_add n hb
  have h1 : umax + (s : ℚ) / 2 ≤ n + 1 := by
    have hx0 : 0 ≤ umax + (s : ℚ) / 2 := by linarith
    have h1 := hr.near (umax + (s : ℚ) / 2)
    rw [abs_of_nonneg hx0] at h1
    have h2 := (abs_le.mp h1).1
    have h3 : (umax + (s : ℚ) / 2) / 2 ^ 53 ≤ (umax + (s : ℚ) / 2) / 2 := by
      apply div_le_div_of_nonneg_left hx0 (by norm_num) (by norm_num)
    have e1 := (abs_le.mp (near_unit hr n (umax + (s : ℚ) / 2) (by rw [abs_of_nonneg hx0]; linarith))).1
    linarith
  obtain ⟨c1, c2, c3, -, -⟩ := ends_spec hr n hb umin umax hu s k hk h0 h01 h1
  refine ⟨by linarith, by linarith, ?_⟩
  have : (((s : ℤ) + k - 1 : ℤ) : ℚ) < ((⌈(ends r umin umax s k).2⌉ - ⌊(ends r umin umax s k).1⌋ : ℤ) : ℚ) := by
    push_cast
    linarith
  have : ((s : ℤ) + k - 1 : ℤ) < ⌈(ends r umin umax s k).2⌉ - ⌊(ends r umin umax s k).1⌋ := by exact_mod_cast this
  omega

/-- The search box is in the image if no particle is near the limits. -/
theorem search_inside (n : Nat) (hb : n ≤ 2 ^ 20) (umin umax : ℚ) (hu : IsDouble umin) (s k : Nat) (hk : k ≤ 5) (hs' : s ≤ 2 ^ 40) (h01 : umin ≤ umax)
    (hl : unit n * 4 ≤ umin - s / 2 - k / 2) (hh : umax + s / 2 + k / 2 + unit n * 5 ≤ n) :
    0 ≤ (searchAxis r umin umax s k).1 ∧ (searchAxis r umin umax s k).2 ≤ n := by
  rw [searchAxis_eq hr _ _ _ _ hs']
  have hk0 : (0 : ℚ) ≤ k := Nat.cast_nonneg k
  have hd := unit_pos n
  obtain ⟨-, -, -, c4, c5⟩ := ends_spec hr n hb umin umax hu s k hk (by linarith) h01 (by linarith)
  constructor
  · exact Int.floor_nonneg.2 (by linarith)
  · exact Int.ceil_le.2 (by push_cast; linarith)

/-- The error box along an axis: one rounding. -/
theorem sse_eq (n : Nat) (hb : n ≤ 2 ^ 20) (b : ℤ × ℤ) (s : Nat) (hs' : s ≤ n) (d : ℚ) (h0 : 0 ≤ b.1) (h01 : b.1 ≤ b.2) (h1 : b.2 ≤ n) :
    sseAxis r b s d = (r ((b.1 : ℚ) + ((s : ℚ) - 1) / 2 + d), r ((b.2 : ℚ) - ((s : ℚ) - 1) / 2 + d)) := by
  have hN : ((n : ℕ) : ℤ) ≤ 2 ^ 20 := by exact_mod_cast hb
  have hsn : ((s : ℕ) : ℤ) ≤ n := by exact_mod_cast hs'
  have hs40 : s ≤ 2 ^ 40 := hs'.trans (hb.trans (by norm_num))
  have e0 : r ((s : ℚ) / 2 - 1 / 2) = ((s : ℚ) - 1) / 2 := by
    have := r_half hr ((s : ℤ) - 1) (by rw [abs_le]; norm_num at hN ⊢; omega)
    push_cast at this
    rw [show (s : ℚ) / 2 - 1 / 2 = ((s : ℚ) - 1) / 2 by ring]
    exact this
  have e1 : r ((b.1 : ℚ) + ((s : ℚ) - 1) / 2) = (b.1 : ℚ) + ((s : ℚ) - 1) / 2 := by
    have := r_half hr (2 * b.1 + ((s : ℤ) - 1)) (by rw [abs_le]; norm_num at hN ⊢; omega)
    push_cast at this
    rw [show (b.1 : ℚ) + ((s : ℚ) - 1) / 2 = (2 * b.1 + ((s : ℚ) - 1)) / 2 by ring]
    exact this
  have e2 : r ((b.2 : ℚ) + -(((s : ℚ) - 1) / 2)) = (b.2 : ℚ) - ((s : ℚ) - 1) / 2 := by
    have := r_half hr (2 * b.2 - ((s : ℤ) - 1)) (by rw [abs_le]; norm_num at hN ⊢; omega)
    push_cast at this
    rw [show (b.2 : ℚ) + -(((s : ℚ) - 1) / 2) = (2 * b.2 - ((s : ℚ) - 1)) / 2 by ring, this]
    ring
  unfold sseAxis
  simp only [r_size hr s hs40, e0, e1, e2]

/-- Values of `np.arange`. -/
theorem arange_val (n : Nat) (hb : n ≤ 2 ^ 20) (start stop c0 : ℚ) (N : Nat) (hN : 1 ≤ N) (hNn : N ≤ n + 1) (hc0 : 0 ≤ c0 + 1) (hc1 : c0 ≤ n + 1)
    (hs : |start - c0| ≤ 5 * unit n) (he : |stop - (c0 + N - 1 / 2)| ≤ unit n) :
    (arange r start stop).length = N ∧
    ∀ (i : Nat) (c : ℚ), (arange r start stop)[i]? = some c → |c - (c0 + i)| ≤ (7 + 2 * i) * unit n := by
  have hn0 : (0 : ℚ) ≤ n := Nat.cast_nonneg n
  have hd := unit_pos n
  have hd' := unit_add n hb
  have hnq : (n : ℚ) ≤ 2 ^ 20 := by exact_mod_cast hb
  have hNq : (N : ℚ) ≤ n + 1 := by exact_mod_cast hNn
  have hN1 : (1 : ℚ) ≤ N := by exact_mod_cast hN
  have s1 := abs_le.mp hs
  have t1 := abs_le.mp he
  have q1 := near_unit2 hr n (stop - start) (N - 1 / 2) (6 * unit n) (by rw [abs_le]; constructor <;> linarith) (by linarith)
    (by rw [abs_le]; constructor <;> linarith)
  have q2 := near_unit2 hr n (r (stop - start) / 1) (N - 1 / 2) (6 * unit n + unit n) (by rw [div_one]; exact q1) (by linarith)
    (by rw [abs_le]; constructor <;> linarith)
  have q2' := abs_le.mp q2
  have hlen : ⌈r (r (stop - start) / 1)⌉.toNat = N := by
    have : ⌈r (r (stop - start) / 1)⌉ = (N : ℤ) := by
      rw [Int.ceil_eq_iff]; push_cast; constructor <;> linarith
    rw [this]; simp
  have p1 := near_unit hr n (start + 1) (by rw [abs_le]; constructor <;> linarith)
  have p1' := abs_le.mp p1
  have p2 := near_unit2 hr n (r (start + 1) - start) 1 (unit n) (by
    rw [show r (start + 1) - start - 1 = r (start + 1) - (start + 1) by ring]; exact p1) (by linarith) (by rw [abs_one]; linarith)
  unfold arange
  rw [hlen]
  refine ⟨by simp, ?_⟩
  intro i c hc
  rw [List.getElem?_map] at hc
  by_cases hi : i < N
  · rw [List.getElem?_range hi] at hc
    simp only [Option.map_some, Option.some.injEq] at hc
    have hiq : (i : ℚ) + 1 ≤ N := by exact_mod_cast hi
    have hi0 : (0 : ℚ) ≤ i := Nat.cast_nonneg i
    by_cases i0 : i = 0
    · subst i0
      rw [if_pos rfl] at hc
      subst hc
      rw [abs_le]
      push_cast
      constructor <;> linarith
    · by_cases i1 : i = 1
      · subst i1
        rw [if_neg (by norm_num), if_pos rfl] at hc
        subst hc
        rw [abs_le]
        push_cast
        constructor <;> linarith
      · rw [if_neg i0, if_neg i1] at hc
        subst hc
        set D := r (r (start + 1) - start) with hD
        have hmul : |(i : ℚ) * D - i| ≤ i * (unit n + unit n) := by
          rw [show (i : ℚ) * D - i = i * (D - 1) by ring, abs_mul, abs_of_nonneg hi0]
          exact mul_le_mul_of_nonneg_left p2 hi0
        have hsm : (i : ℚ) * (unit n + unit n) ≤ 1 / 2 := by
          have h3 : (i : ℚ) * (unit n + unit n) ≤ 2 ^ 20 * (1 / 536870912 + 1 / 536870912) :=
            mul_le_mul (by linarith) (by linarith) (by linarith) (by norm_num)
          refine h3.trans ?_
          norm_num
        have v1 := near_unit2 hr n ((i : ℚ) * D) i _ hmul (by linarith) (by rw [abs_of_nonneg hi0]; linarith)
        have v1' := abs_le.mp v1
        have v2 := near_unit2 hr n (start + r ((i : ℚ) * D)) (c0 + i) (5 * unit n + (i * (unit n + unit n) + unit n))
          (by rw [abs_le]; constructor <;> linarith) (by linarith) (by rw [abs_le]; constructor <;> linarith)
        refine v2.trans (le_of_eq ?_)
        ring
  · rw [List.getElem?_eq_none (by simpa using hi)] at hc
    simp at hc

/-- Cell coordinates along an axis. -/
theorem cells_axis (n : Nat) (hb : n ≤ 2 ^ 20) (b : ℤ × ℤ) (s : Nat) (d : ℚ) (hd2 : |d| ≤ 1 / 2) (h0 : 0 ≤ b.1) (h1 : b.2 ≤ n)
    (hs : (s : ℤ) ≤ b.2 - b.1) (hs1 : 1 ≤ s) :
    (cellCoords r (sseAxis r b s d) (b.2 - b.1 - s + 1).toNat).length = (b.2 - b.1 - s + 1).toNat ∧
    (∀ (i : Nat) (c : ℚ), (cellCoords r (sseAxis r b s d) (b.2 - b.1 - s + 1).toNat)[i]? = some c →
      |c - ((b.1 : ℚ) + i + s / 2 + d)| ≤ (7 + 2 * i) * unit n) ∧
    (cellCoords r (sseAxis r b s d) (b.2 - b.1 - s + 1).toNat).Pairwise (· < ·) := by
  have hsn : s ≤ n := by omega
  have hn0 : (0 : ℚ) ≤ n := Nat.cast_nonneg n
  have hu := unit_pos n
  have hu' := unit_add n hb
  have hdd := abs_le.mp hd2
  have hnq : (n : ℚ) ≤ 2 ^ 20 := by exact_mod_cast hb
  rw [sse_eq hr n hb b s hsn d h0 (by omega) h1]
  set N := (b.2 - b.1 - s + 1).toNat with hN
  have hNz : (N : ℤ) = b.2 - b.1 - s + 1 := by omega
  have hNq : (N : ℚ) = b.2 - b.1 - s + 1 := by
    have : ((N : ℤ) : ℚ) = ((b.2 - b.1 - s + 1 : ℤ) : ℚ) := by rw [hNz]
    push_cast at this; exact this
  have hN1 : 1 ≤ N := by omega
  have hN1q : (1 : ℚ) ≤ N := by exact_mod_cast hN1
  have hNn : N ≤ n + 1 := by omega
  have hb0 : (0 : ℚ) ≤ b.1 := by exact_mod_cast h0
  have hbn : (b.2 : ℚ) ≤ n := by exact_mod_cast h1
  have hs1q : (1 : ℚ) ≤ s := by exact_mod_cast hs1
  have hsq : (s : ℚ) ≤ b.2 - b.1 := by
    have : ((s : ℤ) : ℚ) ≤ ((b.2 - b.1 : ℤ) : ℚ) := by exact_mod_cast hs
    push_cast at this; exact this
  have S0 := near_unit hr n ((b.1 : ℚ) + ((s : ℚ) - 1) / 2 + d) (by rw [abs_le]; constructor <;> linarith)
  have S1 := near_unit hr n ((b.2 : ℚ) - ((s : ℚ) - 1) / 2 + d) (by rw [abs_le]; constructor <;> linarith)
  set x0 := r ((b.1 : ℚ) + ((s : ℚ) - 1) / 2 + d) with hx0
  set x1 := r ((b.2 : ℚ) - ((s : ℚ) - 1) / 2 + d) with hx1
  have S0' := abs_le.mp S0
  have S1' := abs_le.mp S1
  have D1 := near_unit2 hr n (x1 - x0) N (2 * unit n) (by rw [abs_le]; constructor <;> linarith) (by linarith)
    (by rw [abs_le]; constructor <;> linarith)
  have D2 : |r (x1 - x0) / N - 1| ≤ 3 * unit n := by
    rw [show r (x1 - x0) / N - 1 = (r (x1 - x0) - N) / N by field_simp, abs_div, abs_of_pos (by linarith : (0 : ℚ) < N),
      div_le_iff₀ (by linarith)]
    nlinarith
  have D3 := near_unit2 hr n (r (x1 - x0) / N) 1 (3 * unit n) D2 (by linarith) (by rw [abs_one]; linarith)
  have D3' := abs_le.mp D3
  set du := r (r (x1 - x0) / N) with hdu
  have D4 := near_unit2 hr n (du * (1 / 2)) (1 / 2) (2 * unit n) (by rw [abs_le]; constructor <;> linarith) (by linarith)
    (by rw [abs_le]; constructor <;> linarith)
  have D4' := abs_le.mp D4
  have D5 := near_unit2 hr n (x0 + r (du * (1 / 2))) ((b.1 : ℚ) + s / 2 + d) (4 * unit n) (by rw [abs_le]; constructor <;> linarith) (by linarith)
    (by rw [abs_le]; constructor <;> linarith)
  obtain ⟨hl, hv⟩ := arange_val hr n hb (r (x0 + r (du * (1 / 2)))) x1 ((b.1 : ℚ) + s / 2 + d) N hN1 hNn (by linarith) (by linarith)
    (by linarith [D5]) (by
      rw [hNq, show (b.1 : ℚ) + s / 2 + d + (b.2 - b.1 - s + 1) - 1 / 2 = b.2 - ((s : ℚ) - 1) / 2 + d by ring]
      exact S1)
  have hcc : cellCoords r (x0, x1) N = arange r (r (x0 + r (du * (1 / 2)))) x1 := rfl
  rw [hcc]
  refine ⟨hl, fun i c hc => ?_, ?_⟩
  · have := hv i c hc
    rwa [show (b.1 : ℚ) + i + s / 2 + d = b.1 + s / 2 + d + i by ring]
  · rw [List.pairwise_iff_getElem]
    intro i j hi hj hij
    have vi := abs_le.mp (hv i _ (List.getElem?_eq_getElem hi))
    have vj := abs_le.mp (hv j _ (List.getElem?_eq_getElem hj))
    rw [hl] at hi hj
    have hijq : (i : ℚ) + 1 ≤ j := by exact_mod_cast hij
    have hi0 : (0 : ℚ) ≤ i := Nat.cast_nonneg i
    have hjn : (j : ℚ) ≤ n := by
      have : j ≤ n := by omega
      exact_mod_cast this
    have k1 : (7 + 2 * (j : ℚ)) * unit n ≤ (7 + 2 * 2 ^ 20) * (1 / 536870912) :=
      mul_le_mul (by linarith) hu' hu.le (by norm_num)
    have k2 : (7 + 2 * (i : ℚ)) * unit n ≤ (7 + 2 * 2 ^ 20) * (1 / 536870912) :=
      mul_le_mul (by linarith) hu' hu.le (by norm_num)
    have k3 : (7 + 2 * (2 : ℚ) ^ 20) * (1 / 536870912) < 1 / 2 := by norm_num
    linarith [vi.2, vj.1]

omit hr in
theorem minOf_spec (us : List ℚ) (u : ℚ) : minOf u us ∈ u :: us ∧ ∀ x ∈ u :: us, minOf u us ≤ x := by
  unfold minOf
  induction us generalizing u with
  | nil => simp
  | cons a l ih =>
    obtain ⟨h1, h2⟩ := ih (min u a)
    rw [List.foldl_cons]
    constructor
    · rcases List.mem_cons.1 h1 with h | h
      · rw [h]
        rcases min_choice u a with h' | h' <;> rw [h'] <;> simp
      · simp [h]
    · intro x hx
      have h0 := h2 (min u a) (by simp)
      rcases List.mem_cons.1 hx with rfl | hx
      · exact h0.trans (min_le_left _ _)
      · rcases List.mem_cons.1 hx with rfl | hx
        · exact h0.trans (min_le_right _ _)
        · exact h2 x (by simp [hx])

omit hr in
theorem maxOf_spec (us : List ℚ) (u : ℚ) : maxOf u us ∈ u :: us ∧ ∀ x ∈ u :: us, x ≤ maxOf u us := by
  unfold maxOf
  induction us generalizing u with
  | nil => simp
  | cons a l ih =>
    obtain ⟨h1, h2⟩ := ih (max u a)
    rw [List.foldl_cons]
    constructor
    · rcases List.mem_cons.1 h1 with h | h
      · rw [h]
        rcases max_choice u a with h' | h' <;> rw [h'] <;> simp
      · simp [h]
    · intro x hx
      have h0 := h2 (max u a) (by simp)
      rcases List.mem_cons.1 hx with rfl | hx
      · exact (le_max_left _ _).trans h0
      · rcases List.mem_cons.1 hx with rfl | hx
        · exact (le_max_right _ _).trans h0
        · exact h2 x (by simp [hx])

/-- One axis of the plan: everything the function needs. -/
theorem axis_plan (n : Nat) (hb : n ≤ 2 ^ 20) (u : ℚ) (us : List ℚ) (hus : ∀ x ∈ u :: us, IsDouble x) (s k : Nat) (hk : k ≤ 5) (hs1 : 1 ≤ s)
    (hs' : s ≤ 2 ^ 40) (d : ℚ) (hd : -(1 / 2) + unit n ≤ d) (hd' : d ≤ 1 / 2) (b : ℤ × ℤ)
    (hbe : b = searchAxis r (minOf u us) (maxOf u us) s k) (hl : 0 ≤ b.1) (hh : b.2 ≤ n) :
    (∀ x ∈ u :: us, (b.1 : ℚ) ≤ x - s / 2 ∧ x + s / 2 ≤ b.2 + unit n) ∧ (s : ℤ) + k ≤ b.2 - b.1 ∧
    (∀ x ∈ u :: us, (sseAxis r b s d).1 ≤ x ∧ x ≤ (sseAxis r b s d).2) := by
  obtain ⟨m1, m2⟩ := minOf_spec us u
  obtain ⟨M1, M2⟩ := maxOf_spec us u
  obtain ⟨a1, a2, a3⟩ := search_axis hr n hb (minOf u us) (maxOf u us) (hus _ m1) s k hk hs' (m2 _ M1) (by rw [← hbe]; exact hl)
    (by rw [← hbe]; exact hh)
  rw [← hbe] at a1 a2 a3
  refine ⟨fun x hx => ⟨by linarith [m2 x hx], by linarith [M2 x hx]⟩, a3, fun x hx => ?_⟩
  rw [sse_eq hr n hb b s (by omega) d hl (by omega) hh]
  have hm := m2 x hx
  have hM := M2 x hx
  have e := hr.exact x (hus x hx)
  constructor
  · have := hr.mono ((b.1 : ℚ) + ((s : ℚ) - 1) / 2 + d) x (by linarith)
    rwa [e] at this
  · have := hr.mono x ((b.2 : ℚ) - ((s : ℚ) - 1) / 2 + d) (by linarith)
    rwa [e] at this

/-- C134 (search). In double precision, for a template made from a mean `uv0` whose recorded offset is not within `(n + 1) / 2 ^ 50` of -1/2, and
all particles (doubles): the call never raises; it skips the image exactly when the search box reaches out of it. It does not
skip the image if all particles are at least half the template size, half the degree of the spline and `5 (n + 1) / 2 ^ 50` pixels from its limits.
Otherwise the box is a box of whole pixels in the image that contains the template centred on any particle (at the upper limits,
up to `(n + 1) / 2 ^ 50` pixels); the error image has `search - template + 1` cells, more than the degree of the spline, and as many
coordinates, strictly increasing; and the cell for the template moved to pixel `(boxU.1 + i, boxV.1 + j)` is given the
coordinates to which that moves the mean, within `(8 + 2 i) (n + 1) / 2 ^ 50` pixels. -/
theorem float_search_spec (nx ny mx my : Nat) (bx : nx ≤ 2 ^ 20) (bY : ny ≤ 2 ^ 20)
    (hmx : 0 < mx) (hmy : 0 < my) (bmx : mx ≤ 2 ^ 20) (bmy : my ≤ 2 ^ 20)
    (uv0 : ℚ × ℚ) (hu : IsDouble uv0.1) (hv : IsDouble uv0.2) (size : Nat × Nat) (s1 : 0 < size.1) (s2 : 0 < size.2) (b1 : size.1 ≤ 2 ^ 39) (b2 : size.2 ≤ 2 ^ 39)
    (t : Template) (ht : initTemplate r mx my uv0 size = .ok t) (ho : -(1 / 2) + unit nx ≤ t.duv.1) (ho' : -(1 / 2) + unit ny ≤ t.duv.2)
    (kx ky : Nat) (hkx : kx ≤ 5) (hky : ky ≤ 5) (p : ℚ × ℚ) (ps : List (ℚ × ℚ)) (hp : ∀ q ∈ p :: ps, IsDouble q.1 ∧ IsDouble q.2) :
    ∃ (x0 y0 x1 y1 : ℤ) (bu bv : ℤ × ℤ), t.box = [x0, y0, x1, y1] ∧
      (plan r nx ny t kx ky p ps = .ok none ↔ ¬ (0 ≤ bu.1 ∧ bu.2 ≤ nx ∧ 0 ≤ bv.1 ∧ bv.2 ≤ ny)) ∧
      ((∀ q ∈ p :: ps, (5 * unit nx ≤ q.1 - t.size.1 / 2 - ky / 2 ∧ q.1 + t.size.1 / 2 + ky / 2 + 5 * unit nx ≤ nx) ∧
          (5 * unit ny ≤ q.2 - t.size.2 / 2 - kx / 2 ∧ q.2 + t.size.2 / 2 + kx / 2 + 5 * unit ny ≤ ny)) →
        (0 ≤ bu.1 ∧ bu.2 ≤ nx ∧ 0 ≤ bv.1 ∧ bv.2 ≤ ny)) ∧
      ((0 ≤ bu.1 ∧ bu.2 ≤ nx ∧ 0 ≤ bv.1 ∧ bv.2 ≤ ny) → ∃ w, plan r nx ny t kx ky p ps = .ok (some w) ∧
        w.boxU = bu ∧ w.boxV = bv ∧
        (∀ q ∈ p :: ps, (bu.1 ≤ q.1 - t.size.1 / 2 ∧ q.1 + t.size.1 / 2 ≤ bu.2 + unit nx) ∧
          (bv.1 ≤ q.2 - t.size.2 / 2 ∧ q.2 + t.size.2 / 2 ≤ bv.2 + unit ny)) ∧
        (w.cols : ℤ) = bu.2 - bu.1 - t.size.1 + 1 ∧ (w.rows : ℤ) = bv.2 - bv.1 - t.size.2 + 1 ∧
        ky < w.cols ∧ kx < w.rows ∧ w.cu.length = w.cols ∧ w.cv.length = w.rows ∧
        w.cu.Pairwise (· < ·) ∧ w.cv.Pairwise (· < ·) ∧
        (∀ (i : Nat) (c : ℚ), w.cu[i]? = some c → |c - (uv0.1 + ((bu.1 + i : ℚ) - x0))| ≤ (8 + 2 * i) * unit nx) ∧
        (∀ (j : Nat) (c : ℚ), w.cv[j]? = some c → |c - (uv0.2 + ((bv.1 + j : ℚ) - y0))| ≤ (8 + 2 * j) * unit ny)) := by
  have hs40 : ∀ m : Nat, m ≤ 2 ^ 39 → m + 1 ≤ 2 ^ 40 := by intro m h; norm_num at h ⊢; omega
  obtain ⟨x0, y0, x1, y1, hbox, px, py, hin, hsz, hoff, habs⟩ :=
    (float_template_spec hr mx my hmx hmy bmx bmy uv0 hu hv size s1 s2 (by have := hs40 _ b1; omega) (by have := hs40 _ b2; omega)).1 t ht
  have hsize : ∀ (m : Nat) (u : ℚ) (s : Nat) (a b : ℤ), PlacedF m u s a b → b - a = s ∨ b - a = s + 1 := by
    intro m u s a b h
    rcases h with ⟨h, -, -⟩ | ⟨⟨h, -, -⟩, -, -⟩
    · exact .inl h
    · right; omega
  have z1 : 1 ≤ t.size.1 ∧ t.size.1 ≤ 2 ^ 40 := by
    have := hsize _ _ _ _ _ px
    have := hs40 _ b1
    omega
  have z2 : 1 ≤ t.size.2 ∧ t.size.2 ≤ 2 ^ 40 := by
    have := hsize _ _ _ _ _ py
    have := hs40 _ b2
    omega
  set us := ps.map Prod.fst with hus
  set vs := ps.map Prod.snd with hvs
  set bu := searchAxis r (minOf p.1 us) (maxOf p.1 us) t.size.1 ky with hbu
  set bv := searchAxis r (minOf p.2 vs) (maxOf p.2 vs) t.size.2 kx with hbv
  have memu : ∀ q ∈ p :: ps, q.1 ∈ p.1 :: us := by
    intro q hq
    rcases List.mem_cons.1 hq with rfl | h
    · simp
    · exact List.mem_cons_of_mem _ (List.mem_map.2 ⟨q, h, rfl⟩)
  have memv : ∀ q ∈ p :: ps, q.2 ∈ p.2 :: vs := by
    intro q hq
    rcases List.mem_cons.1 hq with rfl | h
    · simp
    · exact List.mem_cons_of_mem _ (List.mem_map.2 ⟨q, h, rfl⟩)
  have rep : ∀ x ∈ p.1 :: us, ∃ q ∈ p :: ps, q.1 = x := by
    intro x hx
    rcases List.mem_cons.1 hx with rfl | h
    · exact ⟨p, by simp, rfl⟩
    · obtain ⟨q, hq, rfl⟩ := List.mem_map.1 h
      exact ⟨q, by simp [hq], rfl⟩
  have rep2 : ∀ x ∈ p.2 :: vs, ∃ q ∈ p :: ps, q.2 = x := by
    intro x hx
    rcases List.mem_cons.1 hx with rfl | h
    · exact ⟨p, by simp, rfl⟩
    · obtain ⟨q, hq, rfl⟩ := List.mem_map.1 h
      exact ⟨q, by simp [hq], rfl⟩
  have du : ∀ x ∈ p.1 :: us, IsDouble x := fun x hx => by obtain ⟨q, hq, rfl⟩ := rep x hx; exact (hp q hq).1
  have dv : ∀ x ∈ p.2 :: vs, IsDouble x := fun x hx => by obtain ⟨q, hq, rfl⟩ := rep2 x hx; exact (hp q hq).2
  have c0 : (x1 : ℚ) - x0 = t.size.1 := by
    have : ((t.size.1 : ℤ) : ℚ) = ((x1 - x0 : ℤ) : ℚ) := by rw [hsz.1]
    push_cast at this; linarith
  have c0' : (y1 : ℚ) - y0 = t.size.2 := by
    have : ((t.size.2 : ℤ) : ℚ) = ((y1 - y0 : ℤ) : ℚ) := by rw [hsz.2]
    push_cast at this; linarith
  have h54 : ∀ n : Nat, (1 : ℚ) / 2 ^ 54 ≤ unit n := by
    intro n
    unfold unit
    have : (0 : ℚ) ≤ n := Nat.cast_nonneg n
    rw [div_le_div_iff₀ (by positivity) (by positivity)]
    norm_num
    linarith
  have key : (0 ≤ bu.1 ∧ bu.2 ≤ nx ∧ 0 ≤ bv.1 ∧ bv.2 ≤ ny) → ∃ w, plan r nx ny t kx ky p ps = .ok (some w) ∧
        w.boxU = bu ∧ w.boxV = bv ∧
        (∀ q ∈ p :: ps, (bu.1 ≤ q.1 - t.size.1 / 2 ∧ q.1 + t.size.1 / 2 ≤ bu.2 + unit nx) ∧
          (bv.1 ≤ q.2 - t.size.2 / 2 ∧ q.2 + t.size.2 / 2 ≤ bv.2 + unit ny)) ∧
        (w.cols : ℤ) = bu.2 - bu.1 - t.size.1 + 1 ∧ (w.rows : ℤ) = bv.2 - bv.1 - t.size.2 + 1 ∧
        ky < w.cols ∧ kx < w.rows ∧ w.cu.length = w.cols ∧ w.cv.length = w.rows ∧
        w.cu.Pairwise (· < ·) ∧ w.cv.Pairwise (· < ·) ∧
        (∀ (i : Nat) (c : ℚ), w.cu[i]? = some c → |c - (uv0.1 + ((bu.1 + i : ℚ) - x0))| ≤ (8 + 2 * i) * unit nx) ∧
        (∀ (j : Nat) (c : ℚ), w.cv[j]? = some c → |c - (uv0.2 + ((bv.1 + j : ℚ) - y0))| ≤ (8 + 2 * j) * unit ny) := by
    rintro ⟨g1, g2, g3, g4⟩
    obtain ⟨A1, A2, A3⟩ := axis_plan hr nx bx p.1 us du t.size.1 ky hky z1.1 z1.2 t.duv.1 ho (abs_le.mp habs.1).2 bu hbu g1 g2
    obtain ⟨B1, B2, B3⟩ := axis_plan hr ny bY p.2 vs dv t.size.2 kx hkx z2.1 z2.2 t.duv.2 ho' (abs_le.mp habs.2).2 bv hbv g3 g4
    obtain ⟨C1, C2, C3⟩ := cells_axis hr nx bx bu t.size.1 t.duv.1 habs.1 g1 g2 (by omega) z1.1
    obtain ⟨D1, D2, D3⟩ := cells_axis hr ny bY bv t.size.2 t.duv.2 habs.2 g3 g4 (by omega) z2.1
    have hplan : plan r nx ny t kx ky p ps =
        .ok (some ⟨bu, bv, (bu.2 - bu.1 - t.size.1 + 1).toNat, (bv.2 - bv.1 - t.size.2 + 1).toNat,
          cellCoords r (sseAxis r bu t.size.1 t.duv.1) (bu.2 - bu.1 - t.size.1 + 1).toNat,
          cellCoords r (sseAxis r bv t.size.2 t.duv.2) (bv.2 - bv.1 - t.size.2 + 1).toNat⟩) := by
      unfold plan
      simp only [← hus, ← hvs, ← hbu, ← hbv]
      rw [if_neg (not_not.2 (by omega)), if_neg (not_not.2 (fun q hq =>
        ⟨(A3 _ (memu q hq)).1, (B3 _ (memv q hq)).1, (A3 _ (memu q hq)).2, (B3 _ (memv q hq)).2⟩)), if_neg]
      rw [C1, D1]
      push Not
      exact ⟨rfl, rfl, by omega, by omega, C3, D3⟩
    refine ⟨_, hplan, rfl, rfl, fun q hq => ⟨A1 _ (memu q hq), B1 _ (memv q hq)⟩, ?_, ?_, ?_, ?_, C1, D1, C3, D3, ?_, ?_⟩
    · simp only; omega
    · simp only; omega
    · simp only; omega
    · simp only; omega
    · intro i c hc
      have e := abs_le.mp (C2 i c hc)
      have f := abs_le.mp hoff.1
      have := h54 nx
      rw [abs_le]
      constructor <;> linarith [e.1, e.2, f.1, f.2]
    · intro i c hc
      have e := abs_le.mp (D2 i c hc)
      have f := abs_le.mp hoff.2
      have := h54 ny
      rw [abs_le]
      constructor <;> linarith [e.1, e.2, f.1, f.2]
  refine ⟨x0, y0, x1, y1, bu, bv, hbox, ?_, ?_, key⟩
  · constructor
    · intro h hc
      obtain ⟨w, hw, -⟩ := key hc
      rw [hw] at h
      cases h
    · intro h
      unfold plan
      simp only [← hus, ← hvs, ← hbu, ← hbv]
      rw [if_pos (by omega)]
  · intro h
    obtain ⟨m1, m2⟩ := minOf_spec us p.1
    obtain ⟨M1, M2⟩ := maxOf_spec us p.1
    obtain ⟨k1, k2⟩ := minOf_spec vs p.2
    obtain ⟨K1, K2⟩ := maxOf_spec vs p.2
    obtain ⟨qa, ha, ea⟩ := rep _ m1
    obtain ⟨qb, hb, eb⟩ := rep _ M1
    obtain ⟨qc, hc, ec⟩ := rep2 _ k1
    obtain ⟨qd, hd, ed⟩ := rep2 _ K1
    have u1 := unit_pos nx
    have u2 := unit_pos ny
    have f1 := search_inside hr nx bx (minOf p.1 us) (maxOf p.1 us) (du _ m1) t.size.1 ky hky z1.2 (m2 _ M1)
      (by rw [← ea]; linarith [(h qa ha).1.1]) (by rw [← eb]; linarith [(h qb hb).1.2])
    have f2 := search_inside hr ny bY (minOf p.2 vs) (maxOf p.2 vs) (dv _ k1) t.size.2 kx hkx z2.2 (k2 _ K1)
      (by rw [← ec]; linarith [(h qc hc).2.1]) (by rw [← ed]; linarith [(h qd hd).2.2])
    exact ⟨f1.1, f1.2, f2.1, f2.2⟩

end

/-- Non-vacuity: a template of 15 by 15 pixels around (100.25, 75.75), and two particles in a later image. -/
example : ((plan Double.rnd 300 200 ⟨[93, 68, 108, 83], (-1 / 4, 1 / 4), (15, 15)⟩ 3 3 (101, 77) [(205 / 2, 315 / 4)]).toOption.map fun w =>
      w.map fun w => (w.boxU, w.boxV, w.cu, w.cv)) =
    some (some ((92, 111), (68, 87), [397 / 4, 401 / 4, 405 / 4, 409 / 4, 413 / 4], [303 / 4, 307 / 4, 311 / 4, 315 / 4, 319 / 4])) := by decide +kernel

example : -(1 / 2) + unit 300 ≤ (-1 / 4 : ℚ) ∧ -(1 / 2) + unit 200 ≤ (1 / 4 : ℚ) := by norm_num [unit]

/-- C134 (violated). With an offset of exactly -1/2 (a template of 16 pixels centred on a half pixel), a particle can be rounded out of the error
box: the upper limit of the search box is 128, of the error box 120, and the particle at `120 + 2 ^ -46` is above it. Sampling raises
ValueError. In exact arithmetic it does not. -/
theorem float_search_raises_violated :
    (initTemplate Double.rnd 300 200 (201 / 2, 303 / 4) (16, 15)).toOption.map (fun t => (t.duv, (t.size, t.box))) =
      some ((-1 / 2, 1 / 4), ((16, 15), [93, 68, 109, 83])) ∧
    (plan Double.rnd 300 200 ⟨[93, 68, 109, 83], (-1 / 2, 1 / 4), (16, 15)⟩ 3 3 (100, 77) [(120 + 1 / 2 ^ 46, 77)]).toOption.isNone = true ∧
    (Tiles.plan 300 200 ⟨[93, 68, 109, 83], (-1 / 2, 1 / 4), (16, 15)⟩ 3 3 (100, 77) [(120 + 1 / 2 ^ 46, 77)]).toOption.map
      (fun w => w.map fun w => w.boxU) = some (some (92, 129)) := by decide +kernel

end Glimpse.FloatTemplate
