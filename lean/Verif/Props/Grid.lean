import Verif.Model.Grid
import Mathlib.Tactic.Linarith
import Mathlib.Tactic.FieldSimp
import Mathlib.Tactic.Ring
import Mathlib.Tactic.NormNum
import Mathlib.Tactic.Push
import Mathlib.Data.Rat.Floor

/-!
C22: grid indices and coordinates are inverse; `x`, `y`, `X`, `Y` are the cell centres.
C23: snapping goes to the nearest cell centre (or edge) inside the grid.
-/
set_option autoImplicit false
set_option linter.unusedSimpArgs false

namespace Glimpse

/-- A grid as the constructor accepts it: positive numbers of cells and distinct limits on each axis, in any
direction. -/
structure Grid.Valid (g : Grid) : Prop where
  nx : 0 < g.ax.n
  ny : 0 < g.ay.n
  x : g.ax.lo ≠ g.ax.hi
  y : g.ay.lo ≠ g.ay.hi

/-- `v` is between the two limits of an axis, in whichever order they are. -/
def Between (a b v : ℚ) : Prop := (a ≤ v ∧ v ≤ b) ∨ (b ≤ v ∧ v ≤ a)

/-- Specification: centre of cell number `c` of `n` equal cells between `lo` and `hi`. -/
def cellCenter (lo hi : ℚ) (n : Nat) (c : ℤ) : ℚ := lo + (2 * c + 1) * (hi - lo) / (2 * n)

/-- Specification: edge number `k` (0 to n) of `n` equal cells between `lo` and `hi`. -/
def cellEdge (lo hi : ℚ) (n : Nat) (k : ℤ) : ℚ := lo + k * (hi - lo) / n

theorem GAxis.d_ne {a : GAxis} (hn : 0 < a.n) (h : a.lo ≠ a.hi) : a.d ≠ 0 := by
  unfold GAxis.d
  have : (a.n : ℚ) ≠ 0 := by exact_mod_cast hn.ne'
  exact div_ne_zero (sub_ne_zero.mpr h.symm) this

theorem GAxis.n_mul_d {a : GAxis} (hn : 0 < a.n) : (a.n : ℚ) * a.d = a.hi - a.lo := by
  unfold GAxis.d
  have : (a.n : ℚ) ≠ 0 := by exact_mod_cast hn.ne'
  field_simp

theorem GAxis.cellCenter_eq {a : GAxis} (hn : 0 < a.n) (c : ℤ) :
    cellCenter a.lo a.hi a.n c = ((c : ℚ) + 1 / 2) * a.d + a.lo := by
  unfold cellCenter GAxis.d
  have : (a.n : ℚ) ≠ 0 := by exact_mod_cast hn.ne'
  field_simp
  ring

theorem GAxis.cellEdge_eq {a : GAxis} (k : ℤ) :
    cellEdge a.lo a.hi a.n k = (k : ℚ) * a.d + a.lo := by
  unfold cellEdge GAxis.d
  ring

theorem GAxis.between_iff {a : GAxis} (v : ℚ) : Between a.lo a.hi v ↔ a.min ≤ v ∧ v ≤ a.max := by
  unfold Between GAxis.min GAxis.max
  constructor
  · rintro (⟨h1, h2⟩ | ⟨h1, h2⟩)
    · exact ⟨(min_le_left _ _).trans h1, h2.trans (le_max_right _ _)⟩
    · exact ⟨(min_le_right _ _).trans h1, h2.trans (le_max_left _ _)⟩
  · rintro ⟨h1, h2⟩
    rcases le_total a.lo a.hi with h | h
    · rw [min_eq_left h] at h1; rw [max_eq_right h] at h2; exact Or.inl ⟨h1, h2⟩
    · rw [min_eq_right h] at h1; rw [max_eq_left h] at h2; exact Or.inr ⟨h1, h2⟩

/-- In bounds means between the limits on both axes, borders included. -/
theorem inbounds_xy_iff (g : Grid) (p : ℚ × ℚ) :
    g.inboundsXy p = true ↔ Between g.ax.lo g.ax.hi p.1 ∧ Between g.ay.lo g.ay.hi p.2 := by
  rw [GAxis.between_iff, GAxis.between_iff]
  simp only [Grid.inboundsXy, Bool.and_eq_true, decide_eq_true_eq]
  tauto

example : (⟨⟨0, 30, 3⟩, ⟨4, 0, 2⟩⟩ : Grid).inboundsXy (30, 4) = true := by decide +kernel

/-- `inbounds_xy(grid=True)` agrees with the test of individual points. -/
theorem inbounds_vectors_agree (g : Grid) (xs ys : List ℚ) (i j : Nat) (hi : i < xs.length) (hj : j < ys.length) :
    g.inboundsXy (xs[i], ys[j]) =
      ((g.inboundsVectors xs ys).1.getD i false && (g.inboundsVectors xs ys).2.getD j false) := by
  have h1 : (g.inboundsVectors xs ys).1.getD i false = (decide (g.ax.min ≤ xs[i]) && decide (xs[i] ≤ g.ax.max)) := by
    simp [Grid.inboundsVectors, List.getD_eq_getElem?_getD, List.getElem?_map, List.getElem?_eq_getElem hi]
  have h2 : (g.inboundsVectors xs ys).2.getD j false = (decide (g.ay.min ≤ ys[j]) && decide (ys[j] ≤ g.ay.max)) := by
    simp [Grid.inboundsVectors, List.getD_eq_getElem?_getD, List.getElem?_map, List.getElem?_eq_getElem hj]
  rw [h1, h2]
  simp only [Grid.inboundsXy]
  cases decide (g.ax.min ≤ xs[i]) <;> cases decide (xs[i] ≤ g.ax.max) <;> cases decide (g.ay.min ≤ ys[j]) <;> simp

/-! ### C22 -/

/-- `rowcol_to_xy` of an integer cell is the centre of that cell: column along x, row along y. -/
theorem rowcol_to_xy_center (g : Grid) (hg : g.Valid) (row col : ℤ) :
    g.rowcolToXy ((row : ℚ), (col : ℚ)) =
      (cellCenter g.ax.lo g.ax.hi g.ax.n col, cellCenter g.ay.lo g.ay.hi g.ay.n row) := by
  rw [GAxis.cellCenter_eq hg.nx, GAxis.cellCenter_eq hg.ny]
  rfl

private theorem center_between {a : GAxis} (hn : 0 < a.n) (c : ℤ) (h0 : 0 ≤ c) (h1 : c < a.n) :
    Between a.lo a.hi (cellCenter a.lo a.hi a.n c) := by
  rw [GAxis.cellCenter_eq hn]
  have hnd := GAxis.n_mul_d hn
  have c0 : (0 : ℚ) ≤ c := by exact_mod_cast h0
  have c1 : (c : ℚ) + 1 ≤ a.n := by exact_mod_cast h1
  rcases le_total 0 a.d with hd | hd
  · left
    constructor
    · have : 0 ≤ ((c : ℚ) + 1 / 2) * a.d := mul_nonneg (by linarith) hd
      linarith
    · have : ((c : ℚ) + 1 / 2) * a.d ≤ a.n * a.d := mul_le_mul_of_nonneg_right (by linarith) hd
      linarith
  · right
    constructor
    · have : (a.n : ℚ) * a.d ≤ ((c : ℚ) + 1 / 2) * a.d := mul_le_mul_of_nonpos_right (by linarith) hd
      linarith
    · have : ((c : ℚ) + 1 / 2) * a.d ≤ 0 := mul_nonpos_of_nonneg_of_nonpos (by linarith) hd
      linarith

/-- C22: the coordinates of a valid cell lie inside the grid. -/
theorem rowcol_to_xy_inbounds (g : Grid) (hg : g.Valid) (row col : ℤ)
    (hr : 0 ≤ row ∧ row < g.ay.n) (hc : 0 ≤ col ∧ col < g.ax.n) :
    g.inboundsXy (g.rowcolToXy ((row : ℚ), (col : ℚ))) = true := by
  rw [inbounds_xy_iff, rowcol_to_xy_center g hg]
  exact ⟨center_between hg.nx _ hc.1 hc.2, center_between hg.ny _ hr.1 hr.2⟩

/-- C22: array indices → coordinates → array indices is the identity, for fractional indices too. -/
theorem xy_to_rowcol_of_rowcol (g : Grid) (hg : g.Valid) (rc : ℚ × ℚ) :
    g.xyToRowcol (g.rowcolToXy rc) = rc := by
  have hx := GAxis.d_ne hg.nx hg.x
  have hy := GAxis.d_ne hg.ny hg.y
  unfold Grid.xyToRowcol Grid.rowcolToXy
  ext
  · simp only []; field_simp; ring
  · simp only []; field_simp; ring

/-- C22: coordinates → array indices → coordinates is the identity. -/
theorem rowcol_to_xy_of_xy (g : Grid) (hg : g.Valid) (p : ℚ × ℚ) :
    g.rowcolToXy (g.xyToRowcol p) = p := by
  have hx := GAxis.d_ne hg.nx hg.x
  have hy := GAxis.d_ne hg.ny hg.y
  unfold Grid.xyToRowcol Grid.rowcolToXy
  ext
  · simp only []; field_simp; ring
  · simp only []; field_simp; ring

theorem truncInt_int (z : ℤ) : truncInt (z : ℚ) = z := by
  unfold truncInt
  split <;> simp

/-- The cell number that `xy_to_rowcol(snap=True)` computes on one axis. -/
theorem GAxis.snap_center_eq {a : GAxis} (hn : 0 < a.n) (inb : Bool) (v : ℚ) :
    a.snap true false inb v =
      cellCenter a.lo a.hi a.n (⌊(v - a.lo) / a.d⌋ - if inb && decide (v = a.hi) then 1 else 0) := by
  rw [GAxis.cellCenter_eq hn]
  unfold GAxis.snap
  simp only [Bool.not_false, Bool.and_true, Bool.true_and, if_true, Bool.and_false]
  rw [show (v - a.lo) / a.d - 1 / 2 + 1 / 2 = (v - a.lo) / a.d by ring]
  split <;> · push_cast; ring

theorem GAxis.index_of_center {a : GAxis} (hn : 0 < a.n) (h : a.lo ≠ a.hi) (c : ℤ) :
    (cellCenter a.lo a.hi a.n c - a.lo) / a.d - 1 / 2 = (c : ℚ) := by
  have hd := GAxis.d_ne hn h
  rw [GAxis.cellCenter_eq hn]
  field_simp
  ring

theorem xyToRowcolSnap_eq (g : Grid) (hg : g.Valid) (inb : Bool) (p : ℚ × ℚ) :
    g.xyToRowcolSnap inb p = .ok
      (⌊(p.2 - g.ay.lo) / g.ay.d⌋ - (if inb && decide (p.2 = g.ay.hi) then 1 else 0),
       ⌊(p.1 - g.ax.lo) / g.ax.d⌋ - (if inb && decide (p.1 = g.ax.hi) then 1 else 0)) := by
  unfold Grid.xyToRowcolSnap Grid.snapXy
  simp only [Bool.not_true, Bool.false_and, Bool.false_eq_true, if_false, bind, Except.bind, pure, Except.pure]
  rw [GAxis.snap_center_eq hg.nx, GAxis.snap_center_eq hg.ny]
  unfold Grid.xyToRowcol
  simp only []
  rw [GAxis.index_of_center hg.nx hg.x, GAxis.index_of_center hg.ny hg.y, truncInt_int, truncInt_int]

private theorem floor_index_of_center {a : GAxis} (hn : 0 < a.n) (h : a.lo ≠ a.hi) (c : ℤ) :
    ⌊(cellCenter a.lo a.hi a.n c - a.lo) / a.d⌋ = c := by
  have := GAxis.index_of_center hn h c
  have e : (cellCenter a.lo a.hi a.n c - a.lo) / a.d = (c : ℚ) + 1 / 2 := by linarith
  rw [e, Int.floor_eq_iff]
  constructor <;> linarith

private theorem center_ne_hi {a : GAxis} (hn : 0 < a.n) (h : a.lo ≠ a.hi) (c : ℤ) :
    cellCenter a.lo a.hi a.n c ≠ a.hi := by
  intro e
  have h1 := GAxis.index_of_center hn h c
  rw [e] at h1
  have hd := GAxis.d_ne hn h
  have h2 := GAxis.n_mul_d hn
  rw [show a.hi - a.lo = a.n * a.d from h2.symm, mul_div_assoc, div_self hd] at h1
  have h3 : (2 * a.n : ℤ) - 1 = 2 * c := by
    have : (2 * (a.n : ℚ)) - 1 = 2 * c := by linarith
    exact_mod_cast this
  omega

/-- C22: `xy_to_rowcol(snap=True)` of the centre of any cell (inside the grid or not) is that cell. -/
theorem xy_to_rowcol_snap_of_rowcol (g : Grid) (hg : g.Valid) (inb : Bool) (row col : ℤ) :
    g.xyToRowcolSnap inb (g.rowcolToXy ((row : ℚ), (col : ℚ))) = .ok (row, col) := by
  rw [rowcol_to_xy_center g hg, xyToRowcolSnap_eq g hg]
  simp only [floor_index_of_center hg.nx hg.x, floor_index_of_center hg.ny hg.y,
    center_ne_hi hg.nx hg.x, center_ne_hi hg.ny hg.y, decide_false, Bool.and_false, Bool.false_eq_true, if_false,
    sub_zero]

/-- C22: flat indices and (row, column) indices are mutually inverse, and exactly the cells of the grid have flat
indices, in row-major order. -/
theorem idx_to_rowcol_of_rowcol (g : Grid) (row col : ℤ) (i : ℤ) (h : g.rowcolToIdx (row, col) = .ok i) :
    g.idxToRowcol i = .ok (row, col) ∧ (0 ≤ row ∧ row < g.ay.n ∧ 0 ≤ col ∧ col < g.ax.n) ∧ i = row * g.ax.n + col := by
  unfold Grid.rowcolToIdx at h
  split at h
  · rename_i hc
    obtain ⟨h1, h2, h3, h4⟩ := hc
    simp only [] at h1 h2 h3 h4
    cases h
    refine ⟨?_, ⟨h1, h2, h3, h4⟩, rfl⟩
    have hn : (0 : ℤ) < g.ax.n := by omega
    unfold Grid.idxToRowcol
    have e1 : 0 ≤ row * (g.ax.n : ℤ) + col := by positivity
    have e2 : row * (g.ax.n : ℤ) + col < g.ay.n * g.ax.n := by nlinarith
    rw [if_pos ⟨e1, e2⟩]
    congr 2
    · rw [Int.add_comm, Int.add_mul_ediv_right _ _ hn.ne', Int.ediv_eq_zero_of_lt h3 h4, zero_add]
    · rw [Int.add_comm, Int.add_mul_emod_self_right, Int.emod_eq_of_lt h3 h4]
  · cases h

theorem rowcol_to_idx_of_idx (g : Grid) (i row col : ℤ) (h : g.idxToRowcol i = .ok (row, col)) :
    g.rowcolToIdx (row, col) = .ok i := by
  unfold Grid.idxToRowcol at h
  split at h
  · rename_i hc
    obtain ⟨h1, h2⟩ := hc
    cases h
    have hn : (0 : ℤ) < g.ax.n := by
      rcases Nat.eq_zero_or_pos g.ax.n with h0 | h0
      · rw [h0] at h2; simp at h2; omega
      · exact_mod_cast h0
    unfold Grid.rowcolToIdx
    rw [if_pos ⟨Int.ediv_nonneg h1 hn.le, (Int.ediv_lt_iff_lt_mul hn).mpr h2, Int.emod_nonneg _ hn.ne',
      Int.emod_lt_of_pos _ hn⟩]
    congr 1
    simp only []
    rw [mul_comm]
    exact Int.mul_ediv_add_emod i g.ax.n
  · cases h

/-- C22: every valid cell has a flat index below the number of cells, and every such number is an index. -/
theorem rowcol_to_idx_returns_iff (g : Grid) (row col : ℤ) :
    Returns (g.rowcolToIdx (row, col)) ↔ 0 ≤ row ∧ row < g.ay.n ∧ 0 ≤ col ∧ col < g.ax.n := by
  unfold Grid.rowcolToIdx Returns
  simp only []
  split
  · simp_all
  · simp_all

/-- An index out of range raises ValueError. -/
theorem idx_to_rowcol_raises (g : Grid) (i : ℤ) (h : i < 0 ∨ (g.ay.n * g.ax.n : ℕ) ≤ i) : g.idxToRowcol i = .error .valueError := by
  unfold Grid.idxToRowcol
  push_cast at h
  rw [if_neg (by omega)]

theorem idx_to_rowcol_returns_iff (g : Grid) (i : ℤ) :
    Returns (g.idxToRowcol i) ↔ 0 ≤ i ∧ i < (g.ay.n * g.ax.n : ℕ) := by
  unfold Grid.idxToRowcol Returns
  push_cast
  split
  · simp_all
  · simp_all

/-- C22: image coordinates count cells from the top left corner, and `uv_to_xyz` undoes `xyz_to_uv`. -/
theorem uv_to_xy_of_xy (g : Grid) (hg : g.Valid) (p : ℚ × ℚ) : g.uvToXy (g.xyToUv p) = p := by
  have hx := GAxis.d_ne hg.nx hg.x
  have hy := GAxis.d_ne hg.ny hg.y
  unfold Grid.xyToUv Grid.uvToXy
  ext
  · simp only []; field_simp; ring
  · simp only []; field_simp; ring

theorem xy_to_uv_of_uv (g : Grid) (hg : g.Valid) (p : ℚ × ℚ) : g.xyToUv (g.uvToXy p) = p := by
  have hx := GAxis.d_ne hg.nx hg.x
  have hy := GAxis.d_ne hg.ny hg.y
  unfold Grid.xyToUv Grid.uvToXy
  ext
  · simp only []; field_simp; ring
  · simp only []; field_simp; ring

/-- C22: `uv = (0, 0)` is the first corner, `uv = size` the opposite one, and the (fractional) cell of an image
coordinate is half a cell less. -/
theorem uv_corners (g : Grid) (hg : g.Valid) :
    g.uvToXy (0, 0) = (g.ax.lo, g.ay.lo) ∧ g.uvToXy (g.ax.n, g.ay.n) = (g.ax.hi, g.ay.hi) ∧
      ∀ p, g.xyToRowcol p = ((g.xyToUv p).2 - 1 / 2, (g.xyToUv p).1 - 1 / 2) := by
  refine ⟨by simp [Grid.uvToXy], ?_, fun p => rfl⟩
  unfold Grid.uvToXy
  simp only [GAxis.n_mul_d hg.nx, GAxis.n_mul_d hg.ny]
  ext <;> simp

example : (⟨⟨0, 30, 3⟩, ⟨4, 0, 2⟩⟩ : Grid).Valid := ⟨by decide, by decide, by decide +kernel, by decide +kernel⟩
/-- The documented example (raster.py:433-441). -/
example : [(5, 3), (15, 2), (30, 0)].map (⟨⟨0, 30, 3⟩, ⟨4, 0, 2⟩⟩ : Grid).xyToUv = [(1 / 2, 1 / 2), (3 / 2, 1), (3, 2)] := by
  decide +kernel

/-! ### Cell centre vectors -/

private theorem linspace_ok (s t : ℚ) (n : Nat) : ∃ l, linspace s t n = .ok l ∧ l.length = n ∧
    ∀ i : Nat, i < n → l[i]? = some (s + (i : ℚ) * ((t - s) / ((n : ℚ) - 1))) := by
  unfold linspace
  rw [if_neg (by omega)]
  split
  · rename_i h
    have h : n = 1 := by exact_mod_cast h
    subst h
    refine ⟨_, rfl, rfl, fun i hi => ?_⟩
    have : i = 0 := by omega
    subst this
    simp
  · refine ⟨_, rfl, by simp, fun i hi => ?_⟩
    simp [hi]

/-- C22: `Grid.x` (and `Grid.y`) lists the cell centres in index order, for either direction of the axis. -/
theorem axis_centers_spec (a : GAxis) (hn : 0 < a.n) :
    ∃ l, a.centers = .ok l ∧ l.length = a.n ∧ ∀ i : Nat, i < a.n → l[i]? = some (cellCenter a.lo a.hi a.n i) := by
  obtain ⟨l, hl, hlen, hget⟩ := linspace_ok (a.min + |a.d| / 2) (a.max - |a.d| / 2) a.n
  have hnd := GAxis.n_mul_d hn
  have hn0 : (0 : ℚ) < a.n := by exact_mod_cast hn
  unfold GAxis.centers
  rw [hl]
  simp only [bind, Except.bind, pure, Except.pure]
  refine ⟨_, rfl, by split <;> simp [hlen], fun i hi => ?_⟩
  rw [GAxis.cellCenter_eq hn]
  split
  · rename_i hd
    have hlt : a.hi < a.lo := by nlinarith
    rw [List.getElem?_reverse (by omega), hlen, hget _ (by omega)]
    congr 1
    have e1 : a.min = a.hi := min_eq_right hlt.le
    have e2 : a.max = a.lo := max_eq_left hlt.le
    rw [e1, e2, abs_of_neg hd]
    by_cases h1 : a.n = 1
    · have : i = 0 := by omega
      subst this
      rw [h1] at hnd
      push_cast at hnd
      have ez : ((a.n - 1 - 0 : ℕ) : ℚ) = 0 := by rw [h1]; norm_num
      rw [ez, zero_mul]
      push_cast
      linarith
    · have h2 : (a.n : ℚ) - 1 ≠ 0 := by
        intro h
        apply h1
        have : (a.n : ℚ) = 1 := by linarith
        exact_mod_cast this
      have e3 : (a.lo - -a.d / 2 - (a.hi + -a.d / 2)) / ((a.n : ℚ) - 1) = -a.d := by
        rw [div_eq_iff h2]
        linarith
      rw [e3]
      have e4 : ((a.n - 1 - i : ℕ) : ℚ) = (a.n : ℚ) - 1 - i := by
        rw [Nat.sub_sub, Nat.cast_sub (by omega)]
        push_cast
        ring
      rw [e4]
      push_cast
      linarith
  · rename_i hd
    have hd := not_lt.mp hd
    have hle : a.lo ≤ a.hi := by nlinarith
    rw [hget _ hi]
    congr 1
    have e1 : a.min = a.lo := min_eq_left hle
    have e2 : a.max = a.hi := max_eq_right hle
    rw [e1, e2, abs_of_nonneg hd]
    by_cases h1 : a.n = 1
    · have : i = 0 := by omega
      subst this
      push_cast
      linarith
    · have h2 : (a.n : ℚ) - 1 ≠ 0 := by
        intro h
        apply h1
        have : (a.n : ℚ) = 1 := by linarith
        exact_mod_cast this
      have e3 : (a.hi - a.d / 2 - (a.lo + a.d / 2)) / ((a.n : ℚ) - 1) = a.d := by
        rw [div_eq_iff h2]
        linarith
      rw [e3]
      push_cast
      linarith

/-- C22: entry `[row][col]` of `Grid.X` and `Grid.Y` is `rowcol_to_xy` of that cell. -/
theorem grid_XY_spec (g : Grid) (hg : g.Valid) (x y : List ℚ) (hx : g.ax.centers = .ok x) (hy : g.ay.centers = .ok y)
    (row col : Nat) (hr : row < g.ay.n) (hc : col < g.ax.n) :
    ((tileRows x g.ay.n)[row]?.bind (·[col]?), (tileCols y g.ax.n)[row]?.bind (·[col]?)) =
      (some (g.rowcolToXy (row, col)).1, some (g.rowcolToXy (row, col)).2) := by
  obtain ⟨x', hx', hxl, hxg⟩ := axis_centers_spec g.ax hg.nx
  obtain ⟨y', hy', hyl, hyg⟩ := axis_centers_spec g.ay hg.ny
  rw [hx] at hx'; rw [hy] at hy'
  cases hx'; cases hy'
  have key := rowcol_to_xy_center g hg row col
  push_cast at key
  rw [key]
  simp only [tileRows, tileCols, List.getElem?_replicate, hr, if_true, Option.bind_some, List.getElem?_map, hxg col hc,
    hyg row hr, Option.map_some, hc]

example : (⟨0, 30, 3⟩ : GAxis).centers = .ok [5, 15, 25] ∧ (⟨4, 0, 2⟩ : GAxis).centers = .ok [3, 1] := by
  constructor <;> decide +kernel

/-! ### C23 -/

theorem GAxis.ratio_bounds {a : GAxis} (hn : 0 < a.n) (h : a.lo ≠ a.hi) (v : ℚ) (hv : Between a.lo a.hi v) :
    0 ≤ (v - a.lo) / a.d ∧ (v - a.lo) / a.d ≤ a.n ∧ ((v - a.lo) / a.d = a.n ↔ v = a.hi) := by
  have hd := GAxis.d_ne hn h
  have hnd := GAxis.n_mul_d hn
  have e : v - a.lo = ((v - a.lo) / a.d) * a.d := by field_simp
  set t := (v - a.lo) / a.d with ht
  have hn0 : (0 : ℚ) < a.n := by exact_mod_cast hn
  have key : t = a.n ↔ v = a.hi := by
    constructor
    · intro h; rw [h] at e; linarith
    · intro h; rw [h, ← hnd] at e; exact (mul_right_cancel₀ hd e).symm
  rcases lt_or_gt_of_ne hd with hneg | hpos
  · rcases hv with ⟨h1, h2⟩ | ⟨h1, h2⟩
    · exfalso
      have : (a.n : ℚ) * a.d < 0 := mul_neg_of_pos_of_neg hn0 hneg
      linarith
    · refine ⟨?_, ?_, key⟩
      · by_contra hc
        have : 0 < t * a.d := mul_pos_of_neg_of_neg (not_le.mp hc) hneg
        linarith
      · by_contra hc
        have : t * a.d < a.n * a.d := mul_lt_mul_of_neg_right (not_le.mp hc) hneg
        linarith
  · rcases hv with ⟨h1, h2⟩ | ⟨h1, h2⟩
    · refine ⟨?_, ?_, key⟩
      · by_contra hc
        have : t * a.d < 0 := mul_neg_of_neg_of_pos (not_le.mp hc) hpos
        linarith
      · by_contra hc
        have : a.n * a.d < t * a.d := mul_lt_mul_of_pos_right (not_le.mp hc) hpos
        linarith
    · exfalso
      have : 0 < (a.n : ℚ) * a.d := mul_pos hn0 hpos
      linarith

/-- One axis of C23: the snapped position is the centre of a cell of the grid at most half a cell away. -/
private theorem snap_axis {a : GAxis} (hn : 0 < a.n) (h : a.lo ≠ a.hi) (v : ℚ) (hv : Between a.lo a.hi v) :
    let c := ⌊(v - a.lo) / a.d⌋ - (if true && decide (v = a.hi) then 1 else 0)
    (0 ≤ c ∧ c < a.n) ∧ |cellCenter a.lo a.hi a.n c - v| ≤ |a.d| / 2 ∧
      ∀ k : ℤ, |cellCenter a.lo a.hi a.n c - v| ≤ |cellCenter a.lo a.hi a.n k - v| ∨ ¬ (0 ≤ k ∧ k < a.n) := by
  obtain ⟨h0, h1, h2⟩ := GAxis.ratio_bounds hn h v hv
  have hd := GAxis.d_ne hn h
  have e : v = ((v - a.lo) / a.d) * a.d + a.lo := by field_simp; ring
  set t := (v - a.lo) / a.d with ht
  intro c
  have dist : ∀ k : ℤ, |cellCenter a.lo a.hi a.n k - v| = |(k : ℚ) + 1 / 2 - t| * |a.d| := by
    intro k
    rw [GAxis.cellCenter_eq hn, ← abs_mul]
    congr 1
    rw [e]
    ring
  have hfl := Int.floor_le t
  have hfl2 := Int.lt_floor_add_one t
  have hdp : 0 < |a.d| := abs_pos.mpr hd
  by_cases hb : v = a.hi
  · have ht1 : t = a.n := h2.mpr hb
    have hc : c = a.n - 1 := by
      simp only [c, hb, decide_true, Bool.and_self, if_true]
      rw [ht1]
      simp
    have hcq : (c : ℚ) = a.n - 1 := by rw [hc]; push_cast; ring
    have d1 : |cellCenter a.lo a.hi a.n c - v| = 1 / 2 * |a.d| := by
      rw [dist, hcq, ht1]
      congr 1
      rw [show (a.n : ℚ) - 1 + 1 / 2 - a.n = -(1 / 2) by ring, abs_neg]
      norm_num
    refine ⟨by omega, by rw [d1]; linarith, fun k => ?_⟩
    by_cases hk : 0 ≤ k ∧ k < a.n
    · left
      rw [d1, dist]
      apply mul_le_mul_of_nonneg_right _ hdp.le
      have : (k : ℚ) + 1 ≤ a.n := by exact_mod_cast hk.2
      rw [ht1, abs_of_nonpos (by linarith)]
      linarith
    · exact Or.inr hk
  · have hc : c = ⌊t⌋ := by simp [c, hb]
    have hlt : t < a.n := lt_of_le_of_ne h1 (fun h => hb (h2.mp h))
    have d1 : |cellCenter a.lo a.hi a.n c - v| ≤ 1 / 2 * |a.d| := by
      rw [dist, hc]
      apply mul_le_mul_of_nonneg_right _ hdp.le
      rw [abs_le]
      constructor <;> linarith
    refine ⟨⟨hc ▸ Int.floor_nonneg.mpr h0, ?_⟩, by linarith, fun k => ?_⟩
    · rw [hc]
      exact Int.floor_lt.mpr (by exact_mod_cast hlt)
    · left
      rw [dist, dist, hc]
      apply mul_le_mul_of_nonneg_right _ hdp.le
      rcases lt_trichotomy k ⌊t⌋ with hk | hk | hk
      · have : (k : ℚ) + 1 ≤ ⌊t⌋ := by exact_mod_cast hk
        rw [abs_of_nonpos (a := (k : ℚ) + 1 / 2 - t) (by linarith)]
        rw [abs_le]
        constructor <;> linarith
      · rw [hk]
      · have : (⌊t⌋ : ℚ) + 1 ≤ k := by exact_mod_cast hk
        rw [abs_of_nonneg (a := (k : ℚ) + 1 / 2 - t) (by linarith)]
        rw [abs_le]
        constructor <;> linarith

/-- C23: for every grid and every point in (or on) bounds, `snap_xy(centers=True)` is the centre of a cell of the grid,
`xy_to_rowcol(snap=True)` is that cell, it is at most half a cell away on each axis, and no cell of the grid has its
centre closer on either axis. -/
theorem snap_centers_spec (g : Grid) (hg : g.Valid) (p : ℚ × ℚ) (hp : g.inboundsXy p = true) :
    ∃ row col : ℤ, (0 ≤ row ∧ row < g.ay.n) ∧ (0 ≤ col ∧ col < g.ax.n) ∧
      g.xyToRowcolSnap true p = .ok (row, col) ∧
      ∃ q, g.snapXy true false true p = .ok q ∧ q = g.rowcolToXy ((row : ℚ), (col : ℚ)) ∧
        |q.1 - p.1| ≤ |(g.ax.hi - g.ax.lo) / g.ax.n| / 2 ∧ |q.2 - p.2| ≤ |(g.ay.hi - g.ay.lo) / g.ay.n| / 2 ∧
        ∀ r c : ℤ, (0 ≤ r ∧ r < g.ay.n) → (0 ≤ c ∧ c < g.ax.n) →
          |q.1 - p.1| ≤ |(g.rowcolToXy ((r : ℚ), (c : ℚ))).1 - p.1| ∧
          |q.2 - p.2| ≤ |(g.rowcolToXy ((r : ℚ), (c : ℚ))).2 - p.2| := by
  rw [inbounds_xy_iff] at hp
  obtain ⟨hcx, hdx, hmx⟩ := snap_axis hg.nx hg.x p.1 hp.1
  obtain ⟨hcy, hdy, hmy⟩ := snap_axis hg.ny hg.y p.2 hp.2
  refine ⟨_, _, hcy, hcx, xyToRowcolSnap_eq g hg true p, _, ?_, rfl, ?_⟩
  · unfold Grid.snapXy
    simp only [Bool.not_true, Bool.false_and, Bool.false_eq_true, if_false]
    rw [GAxis.snap_center_eq hg.nx, GAxis.snap_center_eq hg.ny, rowcol_to_xy_center g hg]
  · rw [rowcol_to_xy_center g hg]
    refine ⟨hdx, hdy, fun r c hr hc => ?_⟩
    rw [rowcol_to_xy_center g hg]
    exact ⟨(hmx c).resolve_right (fun h => h hc), (hmy r).resolve_right (fun h => h hr)⟩

/-- C23: which cell a tie goes to: a point on the edge between two cells (or on the first border) goes to the cell with
the higher index; a point on the last border to the last cell. -/
theorem snap_ties (g : Grid) (hg : g.Valid) (kx ky : ℕ) (hkx : kx ≤ g.ax.n) (hky : ky ≤ g.ay.n) :
    g.xyToRowcolSnap true (cellEdge g.ax.lo g.ax.hi g.ax.n kx, cellEdge g.ay.lo g.ay.hi g.ay.n ky) =
      .ok (min (ky : ℤ) (g.ay.n - 1), min (kx : ℤ) (g.ax.n - 1)) := by
  have ax : ∀ (a : GAxis) (hn : 0 < a.n) (h : a.lo ≠ a.hi) (k : ℕ) (hk : k ≤ a.n),
      ⌊(cellEdge a.lo a.hi a.n k - a.lo) / a.d⌋ - (if true && decide (cellEdge a.lo a.hi a.n k = a.hi) then 1 else 0) =
        min (k : ℤ) (a.n - 1) := by
    intro a hn h k hk
    have hd := GAxis.d_ne hn h
    have hnd := GAxis.n_mul_d hn
    rw [GAxis.cellEdge_eq, show ((k : ℤ) : ℚ) * a.d + a.lo - a.lo = ((k : ℤ) : ℚ) * a.d by ring, mul_div_assoc, div_self hd, mul_one,
      Int.floor_intCast]
    by_cases hkn : k = a.n
    · have : ((k : ℤ) : ℚ) * a.d + a.lo = a.hi := by rw [hkn]; push_cast; linarith
      simp only [this, decide_true, Bool.and_self, if_true]
      omega
    · have : ((k : ℤ) : ℚ) * a.d + a.lo ≠ a.hi := by
        intro hh
        apply hkn
        have : (k : ℚ) * a.d = a.n * a.d := by push_cast at hh; linarith
        exact_mod_cast mul_right_cancel₀ hd this
      simp only [this, decide_false, Bool.and_false, Bool.false_eq_true, if_false]
      omega
  rw [xyToRowcolSnap_eq g hg]
  have h1 := ax g.ax hg.nx hg.x kx hkx
  have h2 := ax g.ay hg.ny hg.y ky hky
  simp only [] at h1 h2 ⊢
  rw [h1, h2]

/-- C23: with `inbounds=False`, a point on the last border goes to the cell beyond it. -/
theorem snap_not_inbounds_border (g : Grid) (hg : g.Valid) :
    g.xyToRowcolSnap false (g.ax.hi, g.ay.hi) = .ok ((g.ay.n : ℤ), (g.ax.n : ℤ)) := by
  rw [xyToRowcolSnap_eq g hg]
  have hx := GAxis.d_ne hg.nx hg.x
  have hy := GAxis.d_ne hg.ny hg.y
  simp only [Bool.false_and, Bool.false_eq_true, if_false, sub_zero]
  rw [← GAxis.n_mul_d hg.nx, ← GAxis.n_mul_d hg.ny, mul_div_assoc, mul_div_assoc, div_self hx, div_self hy]
  simp

private theorem floor_near (t : ℚ) : |((⌊t + 1 / 2⌋ : ℤ) : ℚ) - t| ≤ 1 / 2 := by
  have h1 := Int.floor_le (t + 1 / 2)
  have h2 := Int.lt_floor_add_one (t + 1 / 2)
  rw [abs_le]
  constructor <;> linarith

/-- C23: for a point in bounds, `snap_xy(edges=True)` is a cell edge of the grid (0 to n) on each axis, at most half a
cell away. -/
theorem snap_edges_spec (g : Grid) (hg : g.Valid) (inb : Bool) (p : ℚ × ℚ) (hp : g.inboundsXy p = true) :
    ∃ q, g.snapXy false true inb p = .ok q ∧
      (∃ k : ℤ, (0 ≤ k ∧ k ≤ g.ax.n) ∧ q.1 = cellEdge g.ax.lo g.ax.hi g.ax.n k) ∧
      (∃ k : ℤ, (0 ≤ k ∧ k ≤ g.ay.n) ∧ q.2 = cellEdge g.ay.lo g.ay.hi g.ay.n k) ∧
      |q.1 - p.1| ≤ |(g.ax.hi - g.ax.lo) / g.ax.n| / 2 ∧ |q.2 - p.2| ≤ |(g.ay.hi - g.ay.lo) / g.ay.n| / 2 := by
  rw [inbounds_xy_iff] at hp
  have ax : ∀ (a : GAxis) (hn : 0 < a.n) (h : a.lo ≠ a.hi) (v : ℚ) (hv : Between a.lo a.hi v),
      (∃ k : ℤ, (0 ≤ k ∧ k ≤ a.n) ∧ a.snap false true inb v = cellEdge a.lo a.hi a.n k) ∧
        |a.snap false true inb v - v| ≤ |(a.hi - a.lo) / a.n| / 2 := by
    intro a hn h v hv
    obtain ⟨h0, h1, -⟩ := GAxis.ratio_bounds hn h v hv
    have hd := GAxis.d_ne hn h
    have e : v = ((v - a.lo) / a.d) * a.d + a.lo := by field_simp; ring
    have hs : a.snap false true inb v = cellEdge a.lo a.hi a.n ⌊(v - a.lo) / a.d + 1 / 2⌋ := by
      rw [GAxis.cellEdge_eq]
      simp [GAxis.snap]
    refine ⟨⟨_, ⟨?_, ?_⟩, hs⟩, ?_⟩
    · exact Int.floor_nonneg.mpr (by linarith)
    · have : ⌊(v - a.lo) / a.d + 1 / 2⌋ < (a.n : ℤ) + 1 := Int.floor_lt.mpr (by push_cast; linarith)
      omega
    · rw [hs, GAxis.cellEdge_eq]
      set t := (v - a.lo) / a.d
      have := floor_near t
      rw [e, show ((⌊t + 1 / 2⌋ : ℤ) : ℚ) * a.d + a.lo - (t * a.d + a.lo) = (((⌊t + 1 / 2⌋ : ℤ) : ℚ) - t) * a.d by ring,
        abs_mul]
      change _ ≤ |a.d| / 2
      have := mul_le_mul_of_nonneg_right this (abs_nonneg a.d)
      linarith
  obtain ⟨hx1, hx2⟩ := ax g.ax hg.nx hg.x p.1 hp.1
  obtain ⟨hy1, hy2⟩ := ax g.ay hg.ny hg.y p.2 hp.2
  exact ⟨(g.ax.snap false true inb p.1, g.ay.snap false true inb p.2), rfl, hx1, hy1, hx2, hy2⟩

/-- C23: with both centers and edges, points snap to the nearest multiple of half a cell. -/
theorem snap_both_spec (g : Grid) (hg : g.Valid) (inb : Bool) (p : ℚ × ℚ) (hp : g.inboundsXy p = true) :
    ∃ q, g.snapXy true true inb p = .ok q ∧
      (∃ k : ℤ, (0 ≤ k ∧ k ≤ 2 * g.ax.n) ∧ q.1 = cellEdge g.ax.lo g.ax.hi (2 * g.ax.n) k) ∧
      (∃ k : ℤ, (0 ≤ k ∧ k ≤ 2 * g.ay.n) ∧ q.2 = cellEdge g.ay.lo g.ay.hi (2 * g.ay.n) k) ∧
      |q.1 - p.1| ≤ |(g.ax.hi - g.ax.lo) / g.ax.n| / 4 ∧ |q.2 - p.2| ≤ |(g.ay.hi - g.ay.lo) / g.ay.n| / 4 := by
  rw [inbounds_xy_iff] at hp
  have ax : ∀ (a : GAxis) (hn : 0 < a.n) (h : a.lo ≠ a.hi) (v : ℚ) (hv : Between a.lo a.hi v),
      (∃ k : ℤ, (0 ≤ k ∧ k ≤ 2 * a.n) ∧ a.snap true true inb v = cellEdge a.lo a.hi (2 * a.n) k) ∧
        |a.snap true true inb v - v| ≤ |(a.hi - a.lo) / a.n| / 4 := by
    intro a hn h v hv
    obtain ⟨h0, h1, -⟩ := GAxis.ratio_bounds hn h v hv
    have hd := GAxis.d_ne hn h
    have hn0 : (a.n : ℚ) ≠ 0 := by exact_mod_cast hn.ne'
    have e : v = ((v - a.lo) / a.d) * a.d + a.lo := by field_simp; ring
    have hs : a.snap true true inb v = ((⌊(v - a.lo) / a.d * 2 + 1 / 2⌋ : ℤ) : ℚ) / 2 * a.d + a.lo := by
      simp [GAxis.snap]
    refine ⟨⟨⌊(v - a.lo) / a.d * 2 + 1 / 2⌋, ⟨?_, ?_⟩, ?_⟩, ?_⟩
    · exact Int.floor_nonneg.mpr (by linarith)
    · have : ⌊(v - a.lo) / a.d * 2 + 1 / 2⌋ < (2 * a.n : ℤ) + 1 := Int.floor_lt.mpr (by push_cast; linarith)
      omega
    · rw [hs]
      generalize ⌊(v - a.lo) / a.d * 2 + 1 / 2⌋ = z
      unfold cellEdge GAxis.d
      push_cast
      field_simp
      ring
    · rw [hs]
      set t := (v - a.lo) / a.d
      have := floor_near (t * 2)
      rw [e, show ((⌊t * 2 + 1 / 2⌋ : ℤ) : ℚ) / 2 * a.d + a.lo - (t * a.d + a.lo) =
        (((⌊t * 2 + 1 / 2⌋ : ℤ) : ℚ) - t * 2) * (a.d / 2) by ring, abs_mul]
      change _ ≤ |a.d| / 4
      have := mul_le_mul_of_nonneg_right this (abs_nonneg (a.d / 2))
      rw [abs_div, abs_two] at this ⊢
      linarith
  obtain ⟨hx1, hx2⟩ := ax g.ax hg.nx hg.x p.1 hp.1
  obtain ⟨hy1, hy2⟩ := ax g.ay hg.ny hg.y p.2 hp.2
  exact ⟨(g.ax.snap true true inb p.1, g.ay.snap true true inb p.2), rfl, hx1, hy1, hx2, hy2⟩

/-- C23: snapping is idempotent (for every point, in or out of bounds). -/
theorem snap_centers_idempotent (g : Grid) (hg : g.Valid) (inb : Bool) (p q : ℚ × ℚ)
    (h : g.snapXy true false inb p = .ok q) : g.snapXy true false inb q = .ok q := by
  unfold Grid.snapXy at h ⊢
  simp only [Bool.not_true, Bool.false_and, Bool.false_eq_true, if_false] at h ⊢
  rw [GAxis.snap_center_eq hg.nx, GAxis.snap_center_eq hg.ny] at h ⊢
  cases h
  simp only [floor_index_of_center hg.nx hg.x, floor_index_of_center hg.ny hg.y,
    center_ne_hi hg.nx hg.x, center_ne_hi hg.ny hg.y, decide_false, Bool.and_false, Bool.false_eq_true, if_false,
    sub_zero]

/-- C23: `snap_xy` raises exactly when neither centres nor edges are asked for. -/
theorem snap_raises_iff (g : Grid) (centers edges inb : Bool) (p : ℚ × ℚ) :
    Raises (g.snapXy centers edges inb p) ↔ centers = false ∧ edges = false := by
  unfold Grid.snapXy Raises
  cases centers <;> cases edges <;> simp

/-- A descending grid and a point on its last border: hypotheses of `snap_centers_spec` hold. -/
example : (⟨⟨0, 30, 3⟩, ⟨4, 0, 2⟩⟩ : Grid).inboundsXy (30, 2) = true ∧
    (⟨⟨0, 30, 3⟩, ⟨4, 0, 2⟩⟩ : Grid).xyToRowcolSnap true (30, 2) = .ok (1, 2) := by
  decide +kernel

/-- C23: `snap_box` raises exactly when the box reaches outside the grid, and otherwise returns the snapped corners,
which are grid edges at most half a cell from the box. -/
theorem snap_box_spec (g : Grid) (hg : g.Valid) (inb : Bool) (xy size : ℚ × ℚ) :
    (Raises (g.snapBox xy size false true inb) ↔
      ¬ (g.inboundsXy (xy.1 - size.1 / 2, xy.2 - size.2 / 2) = true ∧
         g.inboundsXy (xy.1 + size.1 / 2, xy.2 + size.2 / 2) = true)) ∧
    ∀ b, g.snapBox xy size false true inb = .ok b →
      ∃ x0 y0 x1 y1 : ℤ,
        b = [cellEdge g.ax.lo g.ax.hi g.ax.n x0, cellEdge g.ay.lo g.ay.hi g.ay.n y0,
             cellEdge g.ax.lo g.ax.hi g.ax.n x1, cellEdge g.ay.lo g.ay.hi g.ay.n y1] ∧
        (0 ≤ x0 ∧ x0 ≤ g.ax.n) ∧ (0 ≤ y0 ∧ y0 ≤ g.ay.n) ∧ (0 ≤ x1 ∧ x1 ≤ g.ax.n) ∧ (0 ≤ y1 ∧ y1 ≤ g.ay.n) ∧
        |cellEdge g.ax.lo g.ax.hi g.ax.n x0 - (xy.1 - size.1 / 2)| ≤ |(g.ax.hi - g.ax.lo) / g.ax.n| / 2 ∧
        |cellEdge g.ay.lo g.ay.hi g.ay.n y0 - (xy.2 - size.2 / 2)| ≤ |(g.ay.hi - g.ay.lo) / g.ay.n| / 2 ∧
        |cellEdge g.ax.lo g.ax.hi g.ax.n x1 - (xy.1 + size.1 / 2)| ≤ |(g.ax.hi - g.ax.lo) / g.ax.n| / 2 ∧
        |cellEdge g.ay.lo g.ay.hi g.ay.n y1 - (xy.2 + size.2 / 2)| ≤ |(g.ay.hi - g.ay.lo) / g.ay.n| / 2 := by
  unfold Grid.snapBox
  simp only [mul_one_div]
  by_cases h1 : g.inboundsXy (xy.1 - size.1 / 2, xy.2 - size.2 / 2) = true
  · by_cases h2 : g.inboundsXy (xy.1 + size.1 / 2, xy.2 + size.2 / 2) = true
    · obtain ⟨q, hq, ⟨k1, hk1, e1⟩, ⟨k2, hk2, e2⟩, d1, d2⟩ := snap_edges_spec g hg inb _ h1
      obtain ⟨q', hq', ⟨k1', hk1', e1'⟩, ⟨k2', hk2', e2'⟩, d1', d2'⟩ := snap_edges_spec g hg inb _ h2
      rw [hq, hq']
      simp only [bind, Except.bind, pure, Except.pure, h1, h2, Raises, Bool.not_true, Bool.or_self,
        Bool.false_eq_true, if_false]
      refine ⟨by simp, fun b hb => ?_⟩
      cases hb
      rw [e1] at d1; rw [e2] at d2; rw [e1'] at d1'; rw [e2'] at d2'
      exact ⟨k1, k2, k1', k2', by rw [e1, e2, e1', e2'], hk1, hk2, hk1', hk2', d1, d2, d1', d2'⟩
    · simp [h1, h2, Raises, bind, Except.bind, throw, throwThe, MonadExceptOf.throw]
  · simp [h1, Raises, bind, Except.bind, throw, throwThe, MonadExceptOf.throw]

example : (⟨⟨0, 30, 3⟩, ⟨4, 0, 2⟩⟩ : Grid).snapBox (12, 2) (10, 3) false true true = .ok [10, 0, 20, 4] := by
  decide +kernel

end Glimpse
