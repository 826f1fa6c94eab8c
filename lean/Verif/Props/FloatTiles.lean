import Verif.Model.FloatTiles
import Verif.Props.GridTiles
import Verif.Props.Double
import Verif.Props.FloatGrid

/-!
C132: `Grid.tile_indices` in floating point.
-/
set_option autoImplicit false
set_option linter.unusedSimpArgs false
set_option linter.unusedSectionVars false

namespace Glimpse.FloatTiles
open Glimpse Glimpse.Double Glimpse.FloatGrid

variable {r : ℚ → ℚ}

/-- The ceiling of a rounded quotient of positive integers is that of the quotient. -/
theorem ceil_round (hr : Nearest r) (n m : Nat) (hm : 0 < m) (hn : n < 2 ^ 53) : ⌈r ((n : ℚ) / m)⌉ = ⌈(n : ℚ) / m⌉ := by
  have hm0 : (0 : ℚ) < m := by exact_mod_cast hm
  have hn0 : (0 : ℚ) ≤ n := Nat.cast_nonneg n
  set y : ℚ := (n : ℚ) / m with hy
  have hy0 : 0 ≤ y := by positivity
  have hym : y * m = n := by rw [hy]; field_simp
  have hcn : ⌈y⌉ ≤ n := by
    rw [Int.ceil_le]
    push_cast
    have : (1 : ℚ) ≤ m := by exact_mod_cast hm
    nlinarith
  have hc0 : 0 ≤ ⌈y⌉ := Int.ceil_nonneg hy0
  have hup : r y ≤ ⌈y⌉ := by
    have h := hr.mono _ _ (Int.le_ceil y)
    rwa [hr.exact _ (isDouble_int ⌈y⌉ (by rw [abs_of_nonneg hc0]; have : (n : ℤ) < 2 ^ 53 := by exact_mod_cast hn
                                          omega))] at h
  have hlow : (⌈y⌉ : ℚ) - 1 < r y := by
    have h1 : (⌈y⌉ : ℚ) - 1 < y := by have := Int.ceil_lt_add_one y; linarith
    have h2 : ((⌈y⌉ - 1) * m + 1 : ℤ) ≤ n := by
      have : ((⌈y⌉ : ℚ) - 1) * m < n := by rw [← hym]; exact mul_lt_mul_of_pos_right h1 hm0
      have : (⌈y⌉ - 1) * m < n := by exact_mod_cast this
      omega
    have h3 : ((⌈y⌉ : ℚ) - 1) * m + 1 ≤ y * m := by rw [hym]; exact_mod_cast h2
    have h4 := (abs_le.mp (hr.near y)).1
    rw [abs_of_nonneg hy0] at h4
    have h5 : y / 2 ^ 53 * m < 1 := by
      rw [div_mul_eq_mul_div, hym, div_lt_one (by positivity)]
      exact_mod_cast hn
    by_contra hc
    push Not at hc
    have : r y * m ≤ ((⌈y⌉ : ℚ) - 1) * m := mul_le_mul_of_nonneg_right hc hm0.le
    have : (y - y / 2 ^ 53) * m ≤ r y * m := mul_le_mul_of_nonneg_right (by linarith) hm0.le
    nlinarith
  rw [Int.ceil_eq_iff]
  exact ⟨hlow, hup⟩

/-- The floor of a rounded quotient of natural numbers is that of the quotient. -/
theorem floor_round (hr : Nearest r) (i w : Nat) (hw : 0 < w) (hi : i < 2 ^ 53) : ⌊r ((i : ℚ) / w)⌋ = ⌊(i : ℚ) / w⌋ := by
  have hw0 : (0 : ℚ) < w := by exact_mod_cast hw
  have hi0 : (0 : ℚ) ≤ i := Nat.cast_nonneg i
  have hy0 : (0 : ℚ) ≤ (i : ℚ) / w := by positivity
  have hym : (i : ℚ) / w * w = i := by field_simp
  refine floor_eq_of_near _ _ (i : ℤ) (w : ℤ) (by omega) (by push_cast; rfl) ?_ ?_
  · have h := hr.mono _ _ (Int.floor_le ((i : ℚ) / w))
    have hle : ⌊(i : ℚ) / w⌋ ≤ i := by
      have h1 : (⌊(i : ℚ) / w⌋ : ℚ) ≤ (i : ℚ) / w := Int.floor_le _
      have h2 : (i : ℚ) / w ≤ i := by
        have : (1 : ℚ) ≤ w := by exact_mod_cast hw
        exact div_le_self hi0 this
      exact_mod_cast h1.trans h2
    rwa [hr.exact _ (isDouble_int _ (by
      rw [abs_of_nonneg (Int.floor_nonneg.mpr hy0)]
      have : (i : ℤ) < 2 ^ 53 := by exact_mod_cast hi
      omega))] at h
  · have h4 := hr.near ((i : ℚ) / w)
    rw [abs_of_nonneg hy0] at h4
    push_cast
    rw [abs_of_pos hw0]
    calc |r ((i : ℚ) / w) - (i : ℚ) / w| * w ≤ (i : ℚ) / w / 2 ^ 53 * w := mul_le_mul_of_nonneg_right h4 hw0.le
      _ = i / 2 ^ 53 := by rw [div_mul_eq_mul_div, hym]
      _ < 1 := by rw [div_lt_one (by positivity)]; exact_mod_cast hi

/-- The number of tiles is not negative. -/
theorem countF_nonneg (hr : Nearest r) (n : Nat) (size : ℚ) (hs : 0 < size) : 0 ≤ countF r n size := by
  have h1 : 0 ≤ r (n / size) := by
    have := hr.mono 0 (n / size) (by positivity)
    rwa [hr.exact 0 ⟨0, 0, by norm_num, by simp⟩] at this
  have h2 := (abs_le.mp (roundHalfEven_spec (r (n / size))).1).1
  have h3 : (-1 : ℚ) < countF r n size := by unfold countF; linarith
  have : (-1 : ℤ) < countF r n size := by exact_mod_cast h3
  omega

/-- The tiles depend on the number of tiles only. -/
theorem slices_of_count (hr : Nearest r) (n : Nat) (hn : 0 < n) (hn2 : n < 2 ^ 53) (size size' : ℚ) (hs : 0 < size)
    (h : roundHalfEven (n / size') = countF r n size) (o : Int) : tileSlicesF r n size o = tileSlices n size' o := by
  have hnum : tileNumbersF r n size = tileNumbers n size' := by
    unfold tileNumbersF tileNumbers
    simp only
    rw [h]
    have h0 := countF_nonneg hr n size hs
    obtain ⟨m, hm⟩ := Int.eq_ofNat_of_zero_le h0
    rw [hm]
    apply List.map_congr_left
    intro i hi
    by_cases hz : (m : ℤ) = 0
    · rw [if_pos hz, if_pos hz]
    · rw [if_neg hz, if_neg hz]
      have hmp : 0 < m := by omega
      have hmc : ((m : ℤ) : ℚ) = (m : ℚ) := by push_cast; rfl
      have hn0 : (0 : ℚ) < n := by exact_mod_cast hn
      have hm0 : (0 : ℚ) < m := by exact_mod_cast hmp
      rw [hmc, ceil_round hr n m hmp hn2]
      have hcp : 0 < ⌈(n : ℚ) / m⌉ := Int.ceil_pos.mpr (by positivity)
      obtain ⟨w, hw⟩ := Int.eq_ofNat_of_zero_le hcp.le
      rw [hw]
      have hwc : ((w : ℤ) : ℚ) = (w : ℚ) := by push_cast; rfl
      rw [hwc, floor_round hr i w (by omega) (by have := List.mem_range.mp hi; omega)]
  unfold tileSlicesF tileSlices tileEndsF tileEnds
  rw [hnum]

/-- C132: for a tile size that is a whole number (as documented) the tiles in floating point, with any rounding to nearest, are those of exact
arithmetic, for axes of fewer than 2^52 cells. -/
theorem float_tiles_exact (hr : Nearest r) (n : Nat) (hn : 0 < n) (hn2 : n < 2 ^ 52) (s : Nat) (hs : 0 < s) (o : Int) :
    tileSlicesF r n s o = tileSlices n s o := by
  have hs0 : (0 : ℚ) < s := by exact_mod_cast hs
  have hn0 : (0 : ℚ) < n := by exact_mod_cast hn
  refine slices_of_count hr n hn (by omega) s s hs0 ?_ o
  unfold countF
  set q : ℚ := (n : ℚ) / s with hq
  have hq0 : 0 < q := by positivity
  have hqs : q * s = n := by rw [hq]; field_simp
  obtain ⟨m1, m2⟩ := roundHalfEven_spec q
  set m := roundHalfEven q with hm
  symm
  by_cases ht : |(m : ℚ) - q| = 1 / 2
  · -- half a number is exact
    have he : r q = q := by
      have h2q : ∃ k : ℤ, q = k / 2 := by
        rcases (abs_eq (by norm_num)).mp ht with h | h
        · exact ⟨2 * m - 1, by push_cast; linarith⟩
        · exact ⟨2 * m + 1, by push_cast; linarith⟩
      obtain ⟨k, hk⟩ := h2q
      refine hr.half q k hk ?_
      have hk2 : (k : ℚ) = 2 * q := by linarith
      have hk0 : 0 ≤ k := by
        have : (0 : ℚ) ≤ k := by rw [hk2]; linarith
        exact_mod_cast this
      rw [abs_of_nonneg hk0]
      have hle : q ≤ n := by
        have : (1 : ℚ) ≤ s := by exact_mod_cast hs
        nlinarith
      have hn2' : (n : ℚ) < 2 ^ 52 := by exact_mod_cast hn2
      have : (k : ℚ) ≤ 2 ^ 53 := by rw [hk2]; linarith
      exact_mod_cast this
    rw [he]
  · have hlt : |(m : ℚ) - q| < 1 / 2 := lt_of_le_of_ne m1 ht
    have hstep : |(m : ℚ) - q| * (2 * s) + 1 ≤ s := by
      have e1 : |(m : ℚ) - q| * (2 * s) = ((|2 * (m * s - n)| : ℤ) : ℚ) := by
        have : (2 * s : ℚ) = |(2 * s : ℚ)| := (abs_of_pos (by positivity)).symm
        rw [this, ← abs_mul]
        push_cast
        congr 1
        rw [← hqs]
        ring
      have e2 : |(m : ℚ) - q| * (2 * s) < s := by
        have : |(m : ℚ) - q| * (2 * s) < 1 / 2 * (2 * s) := mul_lt_mul_of_pos_right hlt (by positivity)
        linarith
      rw [e1] at e2 ⊢
      have : |2 * (m * s - n : ℤ)| < s := by exact_mod_cast e2
      have h3 : |2 * (m * s - n : ℤ)| + 1 ≤ s := by omega
      exact_mod_cast h3
    have hnear : |r q - q| * (2 * s) < 1 := by
      have h4 := hr.near q
      rw [abs_of_pos hq0] at h4
      have hn2' : (n : ℚ) < 2 ^ 52 := by exact_mod_cast hn2
      calc |r q - q| * (2 * s) ≤ q / 2 ^ 53 * (2 * s) := mul_le_mul_of_nonneg_right h4 (by positivity)
        _ = n / 2 ^ 52 := by rw [← hqs]; ring
        _ < 1 := by rw [div_lt_one (by positivity)]; exact hn2'
    have hin : |(m : ℚ) - r q| < 1 / 2 := by
      have h5 : |(m : ℚ) - r q| ≤ |(m : ℚ) - q| + |r q - q| := by
        have : (m : ℚ) - r q = (m - q) - (r q - q) := by ring
        rw [this]
        exact abs_sub _ _
      have h6 : |(m : ℚ) - r q| * (2 * s) < s := by
        have : |(m : ℚ) - r q| * (2 * s) ≤ (|(m : ℚ) - q| + |r q - q|) * (2 * s) := mul_le_mul_of_nonneg_right h5 (by positivity)
        linarith
      by_contra hc
      push Not at hc
      have : 1 / 2 * (2 * (s : ℚ)) ≤ |(m : ℚ) - r q| * (2 * s) := mul_le_mul_of_nonneg_right hc (by positivity)
      linarith
    exact nearest_even_unique _ m hin.le (fun h => absurd h hin.ne)

/-- C132: for any positive tile size the tiles in floating point are those of a number `m` of tiles that is nearest to `n / size` up to the error of
the division: all in one tile if it is zero, otherwise the tiles of exact arithmetic for the size `n / m`. -/
theorem float_tiles_any (hr : Nearest r) (n : Nat) (hn : 0 < n) (hn2 : n < 2 ^ 53) (size : ℚ) (hs : 0 < size) (o : Int) :
    ∃ m : Nat, |(m : ℚ) - n / size| ≤ 1 / 2 + n / size / 2 ^ 53 ∧
      tileSlicesF r n size o = if m = 0 then [(0, (n : Int))] else tileSlices n (n / m) o := by
  have hn0 : (0 : ℚ) < n := by exact_mod_cast hn
  obtain ⟨m, hm⟩ := Int.eq_ofNat_of_zero_le (countF_nonneg hr n size hs)
  refine ⟨m, ?_, ?_⟩
  · have h1 := (roundHalfEven_spec (r (n / size))).1
    have h2 := hr.near (n / size)
    rw [abs_of_pos (show (0 : ℚ) < n / size by positivity)] at h2
    have h3 : (roundHalfEven (r (n / size)) : ℚ) = m := by
      have : roundHalfEven (r (n / size)) = (m : ℤ) := hm
      rw [this]; push_cast; rfl
    rw [h3] at h1
    have : (m : ℚ) - n / size = (m - r (n / size)) + (r (n / size) - n / size) := by ring
    rw [this]
    exact (abs_add_le _ _).trans (add_le_add h1 h2)
  · by_cases h0 : m = 0
    · rw [if_pos h0, ← tile_whole n hn (2 * n) (le_refl _) o]
      refine slices_of_count hr n hn hn2 size (2 * n) hs ?_ o
      rw [hm, h0]
      refine nearest_even_unique _ 0 ?_ (fun _ => ⟨0, rfl⟩)
      rw [show (n : ℚ) / (2 * n) = 1 / 2 by field_simp]
      norm_num [abs_of_nonneg]
    · rw [if_neg h0]
      have hm0 : (0 : ℚ) < m := by exact_mod_cast Nat.pos_of_ne_zero h0
      refine slices_of_count hr n hn hn2 size (n / m) hs ?_ o
      rw [hm, show (n : ℚ) / (n / m) = m by field_simp]
      exact nearest_even_unique _ _ (by simp) (by simp)

/-- C132: in floating point, without overlap, every cell of the grid is in exactly one tile, for any positive tile size (whole or not). -/
theorem float_tiles_partition (hr : Nearest r) (g : Grid) (hx : g.ax.n < 2 ^ 53) (hy : g.ay.n < 2 ^ 53) (size : ℚ × ℚ) (h1 : 0 < size.1)
    (h2 : 0 < size.2) (row col : Nat) (hrow : row < g.ay.n) (hcol : col < g.ax.n) :
    (tileIndicesF r g size (0, 0)).countP (fun t => g.tileHas t row col) = 1 := by
  have key : ∀ (n : Nat) (s : ℚ), 0 < n → n < 2 ^ 53 → 0 < s → ∃ s' : ℚ, 0 < s' ∧ tileSlicesF r n s 0 = tileSlices n s' 0 := by
    intro n s hn hn2 hs
    have hn0 : (0 : ℚ) < n := by exact_mod_cast hn
    obtain ⟨m, -, e⟩ := float_tiles_any hr n hn hn2 s hs 0
    by_cases h0 : m = 0
    · rw [if_pos h0] at e
      exact ⟨2 * n, by positivity, by rw [e, tile_whole n hn (2 * n) (le_refl _) 0]⟩
    · rw [if_neg h0] at e
      have hm0 : (0 : ℚ) < m := by exact_mod_cast Nat.pos_of_ne_zero h0
      exact ⟨n / m, by positivity, e⟩
  obtain ⟨sx, hsx, ex⟩ := key g.ax.n size.1 (by omega) hx h1
  obtain ⟨sy, hsy, ey⟩ := key g.ay.n size.2 (by omega) hy h2
  have : tileIndicesF r g size (0, 0) = g.tileIndices (sx, sy) (0, 0) := by
    unfold tileIndicesF Grid.tileIndices
    simp only [ex, ey]
  rw [this]
  exact tiles_partition g (sx, sy) hsx hsy row col hrow hcol

/-- Without rounding it is the model of C25. -/
theorem tileIndicesF_id (g : Grid) (size : ℚ × ℚ) (overlap : Int × Int) : tileIndicesF id g size overlap = g.tileIndices size overlap := rfl

/-- C132: whole tile sizes, for the grid. -/
theorem float_tile_indices_exact (hr : Nearest r) (g : Grid) (hx0 : 0 < g.ax.n) (hy0 : 0 < g.ay.n) (hx : g.ax.n < 2 ^ 52) (hy : g.ay.n < 2 ^ 52)
    (sx sy : Nat) (h1 : 0 < sx) (h2 : 0 < sy) (overlap : Int × Int) :
    tileIndicesF r g (sx, sy) overlap = g.tileIndices (sx, sy) overlap := by
  unfold tileIndicesF Grid.tileIndices
  simp only [float_tiles_exact hr _ hx0 hx sx h1, float_tiles_exact hr _ hy0 hy sy h2]

/-- A tile size that is not whole can give another number of tiles than exact arithmetic: the double nearest to 2.4 is just below it, so that 6 cells
are just over 2.5 tiles, which rounds to three; in floating point `6 / 2.4` is 2.5, which rounds to two. -/
theorem float_tiles_fraction : tileSlices 6 (rnd (12 / 5)) 0 = [(0, 2), (2, 4), (4, 6)] ∧ tileSlicesF rnd 6 (rnd (12 / 5)) 0 = [(0, 3), (3, 6)] := by
  decide +kernel

/-- Hypotheses met. -/
example : tileSlicesF rnd 7 2 0 = [(0, 2), (2, 4), (4, 6), (6, 7)] ∧
    tileIndicesF rnd ⟨⟨0, 7, 7⟩, ⟨5, 0, 5⟩⟩ (3, 2) (1, 0) = [((0, 3), (0, 4)), ((0, 3), (3, 7)), ((3, 5), (0, 4)), ((3, 5), (3, 7))] := by
  decide +kernel

end Glimpse.FloatTiles
