import Verif.Model.PlotsMap
import Verif.Props.Grid
import Mathlib.Tactic.FieldSimp
import Mathlib.Tactic.Ring
import Mathlib.Tactic.Linarith
import Mathlib.Tactic.NormNum
import Mathlib.Tactic.Positivity

/-!
C125: plots of rasters, images and boxes show each value where it belongs.
-/
set_option autoImplicit false
set_option linter.unusedSimpArgs false
set_option linter.unusedSectionVars false

namespace Glimpse.PlotsMap
open Glimpse

/-- Specification: an array of `m` rows of `n` values each. -/
def Shape {α : Type} (array : List (List α)) (m n : Nat) : Prop := array.length = m ∧ ∀ row ∈ array, row.length = n

/-- Specification: `v` is strictly inside of cell number `c` of `n` equal cells from `lo` to `hi`. -/
def InCell (lo hi : ℚ) (n : Nat) (c : ℤ) (v : ℚ) : Prop := |v - cellCenter lo hi n c| < |(hi - lo) / n| / 2

/-- The number of the cell from the fraction of the way. -/
theorem floor_of_inCell (lo hi : ℚ) (n : Nat) (hn : 0 < n) (hne : lo ≠ hi) (c : Nat) (v : ℚ) (h : InCell lo hi n c v) :
    0 < (v - lo) / (hi - lo) ∧ ⌊(v - lo) / (hi - lo) * n⌋.toNat = c := by
  unfold InCell cellCenter at h
  have hd : hi - lo ≠ 0 := sub_ne_zero.mpr (Ne.symm hne)
  have hn' : (0 : ℚ) < n := by exact_mod_cast hn
  have hc : (0 : ℚ) ≤ c := by positivity
  set t := (v - lo) / (hi - lo) with ht
  have hv : v = lo + t * (hi - lo) := by rw [ht]; field_simp; ring
  have e : v - (lo + (2 * ((c : ℤ) : ℚ) + 1) * (hi - lo) / (2 * n)) = (t * n - (c + 1 / 2)) * ((hi - lo) / n) := by
    rw [hv]; push_cast; field_simp; ring
  rw [e, abs_mul] at h
  have hp : 0 < |(hi - lo) / n| := abs_pos.mpr (div_ne_zero hd hn'.ne')
  have h' : |t * n - (c + 1 / 2)| < 1 / 2 := by
    have : |t * n - (c + 1 / 2)| * |(hi - lo) / n| < 1 / 2 * |(hi - lo) / n| := by linarith
    exact lt_of_mul_lt_mul_right this hp.le
  obtain ⟨h1, h2⟩ := abs_lt.mp h'
  have h3 : (c : ℚ) < t * n := by linarith
  refine ⟨?_, ?_⟩
  · by_contra hc'
    push Not at hc'
    have : t * n ≤ 0 := mul_nonpos_of_nonpos_of_nonneg hc' hn'.le
    linarith
  · have : ⌊t * n⌋ = (c : ℤ) := by
      rw [Int.floor_eq_iff]
      constructor
      · push_cast; linarith
      · push_cast; linarith
    rw [this]; simp

theorem headD_length {α : Type} (array : List (List α)) (m n : Nat) (hm : 0 < m) (h : Shape array m n) : (array.headD []).length = n := by
  obtain ⟨h1, h2⟩ := h
  cases array with
  | nil => simp at h1; omega
  | cons r l => exact h2 r List.mem_cons_self

theorem shown_inCell {α : Type} (array : List (List α)) (m n : Nat) (h : Shape array m n) (e : Extent) (hx : e.left ≠ e.right)
    (hy : e.top ≠ e.bottom) (i j : Nat) (hi : i < m) (hj : j < n) (p : ℚ × ℚ) (h1 : InCell e.left e.right n j p.1)
    (h2 : InCell e.top e.bottom m i p.2) : shown array e p = (array[i]?).bind fun row => row[j]? := by
  obtain ⟨u0, u1⟩ := floor_of_inCell _ _ n (by omega) hx j _ h1
  obtain ⟨v0, v1⟩ := floor_of_inCell _ _ m (by omega) hy i _ h2
  unfold shown
  rw [headD_length array m n (by omega) h, h.1]
  have : ¬ (e.left = e.right ∨ e.top = e.bottom ∨ (p.1 - e.left) / (e.right - e.left) < 0 ∨ (p.2 - e.top) / (e.bottom - e.top) < 0) := by
    push Not
    exact ⟨hx, hy, u0.le, v0.le⟩
  simp only [this, if_false, u1, v1]

/-- C125: `Raster.plot` shows, at every point strictly inside of a cell of the grid, the value of that cell, whatever the direction of the
axes: of the array of the raster, or of an array of the same shape if given. -/
theorem raster_plot_shows {α : Type} (g : Grid) (hg : g.Valid) (default : List (List α)) (array : Option (List (List α)))
    (h : Shape (array.getD default) g.ay.n g.ax.n) (row col : Nat) (hr : row < g.ay.n) (hc : col < g.ax.n) (p : ℚ × ℚ)
    (hx : InCell g.ax.lo g.ax.hi g.ax.n col p.1) (hy : InCell g.ay.lo g.ay.hi g.ay.n row p.2) :
    shown (rasterPlot g default array).1 (rasterPlot g default array).2 p = ((array.getD default)[row]?).bind fun r => r[col]? :=
  shown_inCell _ g.ay.n g.ax.n h _ hg.x hg.y row col hr hc p hx hy

theorem frac_not (lo hi v : ℚ) (hne : lo ≠ hi) (n : Nat) (hout : v < min lo hi ∨ max lo hi < v) :
    (v - lo) / (hi - lo) < 0 ∨ n ≤ ⌊(v - lo) / (hi - lo) * n⌋.toNat := by
  rcases lt_or_gt_of_ne hne with hlt | hlt
  · rw [min_eq_left hlt.le, max_eq_right hlt.le] at hout
    rcases hout with h | h
    · left; exact div_neg_of_neg_of_pos (by linarith) (by linarith)
    · right
      have h1 : (1 : ℚ) ≤ (v - lo) / (hi - lo) := by rw [le_div_iff₀ (by linarith)]; linarith
      have h2 : ((n : ℤ) : ℚ) ≤ (v - lo) / (hi - lo) * n := by
        have : (1 : ℚ) * n ≤ (v - lo) / (hi - lo) * n := mul_le_mul_of_nonneg_right h1 (by positivity)
        push_cast; linarith
      have := Int.le_floor.mpr h2
      omega
  · rw [min_eq_right hlt.le, max_eq_left hlt.le] at hout
    rcases hout with h | h
    · right
      have h1 : (1 : ℚ) ≤ (v - lo) / (hi - lo) := by rw [le_div_iff_of_neg (by linarith)]; linarith
      have h2 : ((n : ℤ) : ℚ) ≤ (v - lo) / (hi - lo) * n := by
        have : (1 : ℚ) * n ≤ (v - lo) / (hi - lo) * n := mul_le_mul_of_nonneg_right h1 (by positivity)
        push_cast; linarith
      have := Int.le_floor.mpr h2
      omega
    · left; exact div_neg_of_pos_of_neg (by linarith) (by linarith)

/-- C125: … and nothing outside of the grid. -/
theorem raster_plot_outside {α : Type} (g : Grid) (hg : g.Valid) (default : List (List α)) (array : Option (List (List α)))
    (h : Shape (array.getD default) g.ay.n g.ax.n) (p : ℚ × ℚ) (hp : g.inboundsXy p = false) :
    shown (rasterPlot g default array).1 (rasterPlot g default array).2 p = none := by
  have hout : (p.1 < min g.ax.lo g.ax.hi ∨ max g.ax.lo g.ax.hi < p.1) ∨ (p.2 < min g.ay.lo g.ay.hi ∨ max g.ay.lo g.ay.hi < p.2) := by
    by_contra hc
    push Not at hc
    obtain ⟨⟨a, b⟩, c, d⟩ := hc
    have : g.inboundsXy p = true := by
      unfold Grid.inboundsXy GAxis.min GAxis.max
      simp [a, b, c, d]
    rw [this] at hp
    exact absurd hp (by simp)
  unfold shown rasterPlot
  simp only
  rw [headD_length _ g.ay.n g.ax.n hg.ny h, h.1]
  split_ifs with hif
  · rfl
  · push Not at hif
    obtain ⟨_, _, u, v⟩ := hif
    rcases hout with ho | ho
    · rcases frac_not _ _ _ hg.x g.ax.n ho with h1 | h1
      · linarith
      · cases hrow : (array.getD default)[⌊(p.2 - g.ay.lo) / (g.ay.hi - g.ay.lo) * g.ay.n⌋.toNat]? with
        | none => rfl
        | some r =>
          have hr := h.2 r (List.mem_of_getElem? hrow)
          simp only [Option.bind_some]
          exact List.getElem?_eq_none (by rw [hr]; exact h1)
    · rcases frac_not _ _ _ hg.y g.ay.n ho with h1 | h1
      · linarith
      · rw [List.getElem?_eq_none (by rw [h.1]; exact h1)]
        rfl

/-- C125: `Image.plot` shows, strictly inside of the square with the upper left corner `(j, i)` and sides of one pixel, the value of the pixel in
row `i` and column `j`. -/
theorem image_plot_shows {α : Type} (array : List (List α)) (m n : Nat) (h : Shape array m n) (i j : Nat) (hi : i < m) (hj : j < n)
    (p : ℚ × ℚ) (hx : (j : ℚ) < p.1 ∧ p.1 < j + 1) (hy : (i : ℚ) < p.2 ∧ p.2 < i + 1) :
    shown (imagePlot array).1 (imagePlot array).2 p = (array[i]?).bind fun row => row[j]? := by
  have one : ∀ (n j : Nat), 0 < n → ∀ v : ℚ, (j : ℚ) < v → v < j + 1 → InCell 0 n n j v := by
    intro n j hn v h1 h2
    have hn' : (0 : ℚ) < n := by exact_mod_cast hn
    unfold InCell cellCenter
    have e1 : (0 : ℚ) + (2 * ((j : ℤ) : ℚ) + 1) * ((n : ℚ) - 0) / (2 * n) = j + 1 / 2 := by push_cast; field_simp; ring
    have e2 : ((n : ℚ) - 0) / n = 1 := by rw [sub_zero, div_self hn'.ne']
    rw [e1, e2, abs_one, abs_lt]
    constructor <;> linarith
  have hn : (array.headD []).length = n := headD_length array m n (by omega) h
  have hm0 : (0 : ℚ) < m := by exact_mod_cast (by omega : 0 < m)
  have hn0 : (0 : ℚ) < n := by exact_mod_cast (by omega : 0 < n)
  unfold imagePlot
  simp only [hn, h.1]
  exact shown_inCell array m n h ⟨0, n, m, 0⟩ hn0.ne hm0.ne i j hi hj p (one n j (by omega) _ hx.1 hx.2) (one m i (by omega) _ hy.1 hy.2)

/-- C125: `Observer.plot_tile` with the box that the tile was read from (as many columns and rows of pixels as the tile has) shows each pixel
in its own square of image coordinates. -/
theorem plot_tile_partial {α : Type} (tile : List (List α)) (m n : Nat) (h : Shape tile m n) (left top : ℤ) (i j : Nat) (hi : i < m)
    (hj : j < n) (p : ℚ × ℚ) (hx : (left : ℚ) + j < p.1 ∧ p.1 < left + j + 1) (hy : (top : ℚ) + i < p.2 ∧ p.2 < top + i + 1) :
    shown (plotTile tile (some (left, top, left + n, top + m))).1 (plotTile tile (some (left, top, left + n, top + m))).2 p =
      (tile[i]?).bind fun row => row[j]? := by
  have one : ∀ (l : ℤ) (n j : Nat), 0 < n → ∀ v : ℚ, (l : ℚ) + j < v → v < l + j + 1 → InCell l (l + n) n j v := by
    intro l n j hn v h1 h2
    have hn' : (0 : ℚ) < n := by exact_mod_cast hn
    unfold InCell cellCenter
    have e1 : (l : ℚ) + (2 * ((j : ℤ) : ℚ) + 1) * ((l + n : ℚ) - l) / (2 * n) = l + j + 1 / 2 := by push_cast; field_simp; ring
    have e2 : ((l + n : ℚ) - l) / n = 1 := by rw [add_sub_cancel_left, div_self hn'.ne']
    rw [e1, e2, abs_one, abs_lt]
    constructor <;> linarith
  have hm0 : (0 : ℚ) < m := by exact_mod_cast (by omega : 0 < m)
  have hn0 : (0 : ℚ) < n := by exact_mod_cast (by omega : 0 < n)
  exact shown_inCell tile m n h ⟨left, left + n, top + m, top⟩ (by simp only; linarith) (by simp only; linarith) i j hi hj p
    (one left n j (by omega) _ hx.1 hx.2) (one top m i (by omega) _ hy.1 hy.2)

/-- C125 (violated): without a box, a tile of `m` rows and `n` columns is drawn `m` wide and `n` high, so that unless it is square its pixels
are not squares of one pixel from `(0, 0)`. -/
theorem plot_tile_default_violated {α : Type} (tile : List (List α)) (m n : Nat) (hm : 0 < m) (h : Shape tile m n) (hne : m ≠ n) :
    (plotTile tile none).2 = ⟨0, m, n, 0⟩ ∧ (plotTile tile none).2 ≠ ⟨0, n, m, 0⟩ := by
  have e : (plotTile tile none).2 = ⟨0, m, n, 0⟩ := by
    simp only [plotTile, Option.getD_none, headD_length tile m n hm h, h.1]
  refine ⟨e, ?_⟩
  rw [e]
  intro he
  have : (m : ℚ) = n := congrArg Extent.right he
  exact hne (by exact_mod_cast this)

/-- C125: with `Grid.set_plot_limits`, the axes show exactly the grid: a point is in the axes exactly if it is in (or on the edges of) the grid,
and the centre of the cell in row `r` and column `c` is `c + 1/2` of `nx` parts from the left and `r + 1/2` of `ny` parts from the top. -/
theorem grid_limits_show (g : Grid) (hg : g.Valid) (p : ℚ × ℚ) :
    (g.inboundsXy p = true ↔ 0 ≤ ((gridLimits g).place p).1 ∧ ((gridLimits g).place p).1 ≤ 1 ∧
      0 ≤ ((gridLimits g).place p).2 ∧ ((gridLimits g).place p).2 ≤ 1) ∧
    ∀ row col : ℤ, (gridLimits g).place (g.rowcolToXy ((row : ℚ), (col : ℚ))) = (((col : ℚ) + 1 / 2) / g.ax.n, ((row : ℚ) + 1 / 2) / g.ay.n) := by
  have one : ∀ lo hi v : ℚ, lo ≠ hi → ((min lo hi ≤ v ∧ v ≤ max lo hi) ↔ 0 ≤ (v - lo) / (hi - lo) ∧ (v - lo) / (hi - lo) ≤ 1) := by
    intro lo hi v hne
    rcases lt_or_gt_of_ne hne with hlt | hlt
    · rw [min_eq_left hlt.le, max_eq_right hlt.le, le_div_iff₀ (by linarith), div_le_iff₀ (by linarith)]
      constructor <;> rintro ⟨a, b⟩ <;> constructor <;> linarith
    · rw [min_eq_right hlt.le, max_eq_left hlt.le, le_div_iff_of_neg (by linarith), div_le_iff_of_neg (by linarith)]
      constructor <;> rintro ⟨a, b⟩ <;> constructor <;> linarith
  constructor
  · unfold gridLimits Extent.place
    have a := one g.ax.lo g.ax.hi p.1 hg.x
    have b := one g.ay.lo g.ay.hi p.2 hg.y
    simp only
    rw [show (0 ≤ (p.1 - g.ax.lo) / (g.ax.hi - g.ax.lo) ∧ (p.1 - g.ax.lo) / (g.ax.hi - g.ax.lo) ≤ 1 ∧
      0 ≤ (p.2 - g.ay.lo) / (g.ay.hi - g.ay.lo) ∧ (p.2 - g.ay.lo) / (g.ay.hi - g.ay.lo) ≤ 1) ↔
      ((0 ≤ (p.1 - g.ax.lo) / (g.ax.hi - g.ax.lo) ∧ (p.1 - g.ax.lo) / (g.ax.hi - g.ax.lo) ≤ 1) ∧
      (0 ≤ (p.2 - g.ay.lo) / (g.ay.hi - g.ay.lo) ∧ (p.2 - g.ay.lo) / (g.ay.hi - g.ay.lo) ≤ 1)) from by tauto, ← a, ← b]
    unfold Grid.inboundsXy GAxis.min GAxis.max
    simp only [Bool.and_eq_true, decide_eq_true_eq]
    tauto
  · intro row col
    rw [rowcol_to_xy_center g hg]
    have f : ∀ (lo hi : ℚ) (n : Nat) (c : ℤ), lo ≠ hi → 0 < n → (cellCenter lo hi n c - lo) / (hi - lo) = (c + 1 / 2) / n := by
      intro lo hi n c hne hn
      have hd : hi - lo ≠ 0 := sub_ne_zero.mpr (Ne.symm hne)
      have hn' : (n : ℚ) ≠ 0 := by exact_mod_cast hn.ne'
      unfold cellCenter
      field_simp
      ring
    unfold gridLimits Extent.place
    simp only
    rw [f _ _ _ _ hg.x hg.nx, f _ _ _ _ hg.y hg.ny]

/-- C125: with `Camera.set_plot_limits` (or `Image.set_plot_limits`), the axes show exactly the image, x to the right and y downwards. -/
theorem camera_limits_show (imgsz : Nat × Nat) (h1 : 0 < imgsz.1) (h2 : 0 < imgsz.2) (p : ℚ × ℚ) :
    (cameraLimits imgsz).place p = (p.1 / imgsz.1, p.2 / imgsz.2) ∧
    ((0 ≤ p.1 ∧ p.1 ≤ imgsz.1 ∧ 0 ≤ p.2 ∧ p.2 ≤ imgsz.2) ↔
      0 ≤ ((cameraLimits imgsz).place p).1 ∧ ((cameraLimits imgsz).place p).1 ≤ 1 ∧
      0 ≤ ((cameraLimits imgsz).place p).2 ∧ ((cameraLimits imgsz).place p).2 ≤ 1) := by
  have a : (0 : ℚ) < imgsz.1 := by exact_mod_cast h1
  have b : (0 : ℚ) < imgsz.2 := by exact_mod_cast h2
  have e : (cameraLimits imgsz).place p = (p.1 / imgsz.1, p.2 / imgsz.2) := by simp [cameraLimits, Extent.place]
  refine ⟨e, ?_⟩
  rw [e]
  simp only
  rw [le_div_iff₀ a, le_div_iff₀ b, div_le_iff₀ a, div_le_iff₀ b]
  simp

/-- C125: the image that `Image.plot` draws, of the size of the camera, fills the axes set by `Camera.set_plot_limits`. -/
theorem image_fills_limits {α : Type} (array : List (List α)) (imgsz : Nat × Nat) (h : Shape array imgsz.2 imgsz.1) (hm : 0 < imgsz.2) :
    (imagePlot array).2 = cameraLimits imgsz := by
  unfold imagePlot cameraLimits
  rw [headD_length array _ _ hm h, h.1]

/-- C125: `Observer.plot_box` draws the rectangle with the corners of the box. -/
theorem plot_box_corners (x0 y0 x1 y1 : ℚ) :
    (plotBox [x0, y0, x1, y1]).map rectCorners = .ok [(x0, y0), (x1, y0), (x1, y1), (x0, y1)] := by
  simp [plotBox, rectCorners, Except.map]

/-- Concrete case: a raster of two rows and three columns, y upwards in the figure. -/
example : let g : Grid := ⟨⟨0, 30, 3⟩, ⟨20, 0, 2⟩⟩
    g.Valid ∧ Shape [[1, 2, 3], [4, 5, 6]] 2 3 ∧ InCell 0 30 3 2 25 ∧ InCell 20 0 2 1 4 ∧
    shown (rasterPlot g [[1, 2, 3], [4, 5, 6]] none).1 (rasterPlot g [[1, 2, 3], [4, 5, 6]] none).2 (25, 4) = some 6 := by
  refine ⟨⟨by norm_num, by norm_num, by norm_num, by norm_num⟩, ⟨rfl, by decide⟩, ?_, ?_, by decide +kernel⟩
  · norm_num [InCell, cellCenter]
  · norm_num [InCell, cellCenter, abs_lt]

end Glimpse.PlotsMap
