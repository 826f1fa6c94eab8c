import Verif.Model.RasterResample
import Verif.Props.Sample
import Mathlib.Data.List.GetD

/-!
C112: `Raster.resample`.
-/
set_option autoImplicit false
set_option linter.unusedSimpArgs false
set_option linter.unusedSectionVars false

namespace Glimpse.RasterResample

open Glimpse.Sample

/-! ### Specification -/

/-- The raster has at least two rows and columns, all rows equally long, and limits that differ. -/
structure Ras.Plane (r : Ras) : Prop where
  rows : 2 ≤ r.cells.length
  cols : ∃ n, 2 ≤ n ∧ ∀ row ∈ r.cells, row.length = n
  x : r.xlim.1 ≠ r.xlim.2
  y : r.ylim.1 ≠ r.ylim.2

/-- Value in a row and column: none if missing. -/
def cellAt (c : Cells) (i j : Nat) : Option ℚ := (c.getD i []).getD j none

/-- The raster is on the grid: the same limits and number of cells. -/
def OnGrid (r : Ras) (g : Grid) : Prop :=
  r.xlim = (g.ax.lo, g.ax.hi) ∧ r.ylim = (g.ay.lo, g.ay.hi) ∧ r.cells.length = g.ay.n ∧ ∀ row ∈ r.cells, row.length = g.ax.n

/-- The fitted surface goes through the cell values: it interpolates. -/
def Interpolates (spline : List (List ℚ) → ℚ → ℚ → ℚ) (xlim ylim : ℚ × ℚ) : Prop :=
  ∀ arr : List (List ℚ), ∀ n, (∀ row ∈ arr, row.length = n) → ∀ i < arr.length, ∀ j < n,
    spline arr (cellCenter xlim.1 xlim.2 n j) (cellCenter ylim.1 ylim.2 arr.length i) = (arr.getD i []).getD j 0

/-! ### Proofs -/

private theorem centers_monotone (a : GAxis) (hn : 0 < a.n) (xs : List ℚ) (hxs : a.centers = .ok xs) : monotone xs = true := by
  obtain ⟨l, h1, h2, h3⟩ := axis_centers_spec a hn
  rw [hxs] at h1; cases h1
  have hget : ∀ (i : Nat) (hi : i < xs.length), xs[i] = ((i : ℚ) + 1 / 2) * a.d + a.lo := by
    intro i hi
    have := h3 i (by omega)
    rw [List.getElem?_eq_getElem hi, GAxis.cellCenter_eq hn] at this
    simpa using this
  unfold monotone
  rw [Bool.or_eq_true, decide_eq_true_eq, decide_eq_true_eq]
  rcases le_total 0 a.d with hd | hd
  · left
    rw [List.pairwise_iff_getElem]
    intro i j hi hj hij
    rw [hget i hi, hget j hj]
    have : (i : ℚ) ≤ j := by exact_mod_cast hij.le
    nlinarith
  · right
    rw [List.pairwise_iff_getElem]
    intro i j hi hj hij
    rw [hget i hi, hget j hj]
    have : (i : ℚ) ≤ j := by exact_mod_cast hij.le
    nlinarith

private theorem centers_mem (a : GAxis) (hn : 0 < a.n) (xs : List ℚ) (hxs : a.centers = .ok xs) (x : ℚ) :
    x ∈ xs ↔ ∃ c : Nat, c < a.n ∧ x = cellCenter a.lo a.hi a.n c := by
  obtain ⟨l, h1, h2, h3⟩ := axis_centers_spec a hn
  rw [hxs] at h1; cases h1
  constructor
  · intro h
    obtain ⟨i, hi, rfl⟩ := List.mem_iff_getElem.1 h
    refine ⟨i, by omega, ?_⟩
    have := h3 i (by omega)
    rw [List.getElem?_eq_getElem hi] at this
    simpa using this
  · rintro ⟨c, hc, rfl⟩
    exact List.mem_of_getElem? (h3 c hc)

private theorem plane_grid (r : Ras) (h : r.Plane) : 1 < r.grid.ax.n ∧ 1 < r.grid.ay.n ∧ r.grid.Valid ∧
    ∀ row ∈ r.cells, row.length = r.grid.ax.n := by
  obtain ⟨n, hn, hrow⟩ := h.cols
  have hr := h.rows
  have e : (r.cells.headD []).length = n := by
    cases hc : r.cells with
    | nil => rw [hc] at hr; simp at hr
    | cons a t => exact hrow a (by rw [hc]; exact List.mem_cons_self)
  have h1 : r.grid.ax.n = n := e
  have h2 : r.grid.ay.n = r.cells.length := rfl
  refine ⟨by omega, by omega, ⟨by omega, by omega, h.x, h.y⟩, fun row hr => by rw [hrow row hr, h1]⟩

private theorem forall2_get {α β : Type} {R : α → β → Prop} {xs : List α} {ys : List β} (h : List.Forall₂ R xs ys) (i : Nat)
    (hi : i < xs.length) (dx : α) (dy : β) : R (xs.getD i dx) (ys.getD i dy) := by
  induction h generalizing i with
  | nil => simp at hi
  | cons h1 _ ih =>
    cases i with
    | zero => simpa using h1
    | succ i => simpa using ih i (by simpa using hi)

/-- C112: resampling a raster with at least two rows and columns, to a grid within it (or anywhere, with a fill value or
without bounds error), returns the raster on exactly that grid, and every cell has the value of the surface at the centre
of the cell of the grid, missing where this is less than all values of the raster, and the fill value where the centre is
outside. -/
theorem resample_partial (spline : List (List ℚ) → ℚ → ℚ → ℚ) (M : ℚ) (r : Ras) (h : r.Plane) (g : Grid) (hg : g.Valid) (order : Nat)
    (boundsError : Bool) (fill : Option (Option ℚ)) (ho : 1 ≤ order ∧ order ≤ 5) (hox : order < r.grid.ax.n) (hoy : order < r.grid.ay.n)
    (hin : boundsError = true → (∀ j < g.ax.n, Between r.xlim.1 r.xlim.2 (cellCenter g.ax.lo g.ax.hi g.ax.n j)) ∧
      ∀ i < g.ay.n, Between r.ylim.1 r.ylim.2 (cellCenter g.ay.lo g.ay.hi g.ay.n i)) :
    ∃ r', r.resample spline M g order boundsError fill = (r', none) ∧ OnGrid r' g ∧
      ∀ i < g.ay.n, ∀ j < g.ax.n, GridValue spline M r.grid r.cells boundsError fill (cellCenter g.ax.lo g.ax.hi g.ax.n j)
        (cellCenter g.ay.lo g.ay.hi g.ay.n i) (cellAt r'.cells i j) := by
  obtain ⟨xs, hxs, hxl, hxg⟩ := axis_centers_spec g.ax hg.nx
  obtain ⟨ys, hys, hyl, hyg⟩ := axis_centers_spec g.ay hg.ny
  obtain ⟨p1, p2, -, -⟩ := plane_grid r h
  obtain ⟨s, hs, hv⟩ := sample_grid_partial spline (thinLine order r) (thinConst r) M order r.grid r.cells xs ys boundsError fill p1 p2 ho
    hox hoy (centers_monotone g.ax hg.nx xs hxs) (centers_monotone g.ay hg.ny ys hys) (fun hb => by
      obtain ⟨q1, q2⟩ := hin hb
      constructor
      · intro x hx
        obtain ⟨c, hc, rfl⟩ := (centers_mem g.ax hg.nx xs hxs x).1 hx
        exact q1 c hc
      · intro y hy
        obtain ⟨c, hc, rfl⟩ := (centers_mem g.ay hg.ny ys hys y).1 hy
        exact q2 c hc)
  refine ⟨⟨(g.ax.lo, g.ax.hi), (g.ay.lo, g.ay.hi), s⟩, ?_, ⟨rfl, rfl, ?_, ?_⟩, ?_⟩
  · unfold Ras.resample
    simp only [hxs, hys, hs]
  · exact hv.length_eq.symm.trans hyl
  · intro row hrow
    obtain ⟨i, hi, rfl⟩ := List.mem_iff_getElem.1 hrow
    have hi' : i < ys.length := by rw [hv.length_eq]; exact hi
    have := forall2_get hv i hi' 0 []
    rw [List.getD_eq_getElem _ _ hi] at this
    rw [← this.length_eq, hxl]
  · intro i hi j hj
    have h1 := forall2_get hv i (by omega) 0 []
    have h2 := forall2_get h1 j (by omega) 0 none
    have ex : xs.getD j 0 = cellCenter g.ax.lo g.ax.hi g.ax.n j := by
      rw [List.getD_eq_getElem?_getD, hxg j hj]; rfl
    have ey : ys.getD i 0 = cellCenter g.ay.lo g.ay.hi g.ay.n i := by
      rw [List.getD_eq_getElem?_getD, hyg i hi]; rfl
    rw [ex, ey] at h2
    exact h2

/-- C112: by default, resampling to a grid with a cell centre outside the raster raises and changes nothing. -/
theorem resample_raises (spline : List (List ℚ) → ℚ → ℚ → ℚ) (M : ℚ) (r : Ras) (g : Grid) (hg : g.Valid) (order : Nat)
    (fill : Option (Option ℚ))
    (hout : (∃ j < g.ax.n, ¬ Between r.xlim.1 r.xlim.2 (cellCenter g.ax.lo g.ax.hi g.ax.n j)) ∨
      ∃ i < g.ay.n, ¬ Between r.ylim.1 r.ylim.2 (cellCenter g.ay.lo g.ay.hi g.ay.n i)) :
    r.resample spline M g order true fill = (r, some .valueError) := by
  obtain ⟨xs, hxs, hxl, hxg⟩ := axis_centers_spec g.ax hg.nx
  obtain ⟨ys, hys, hyl, hyg⟩ := axis_centers_spec g.ay hg.ny
  have := sample_grid_raises spline (thinLine order r) (thinConst r) M order r.grid r.cells xs ys fill (by
    rcases hout with ⟨j, hj, hb⟩ | ⟨i, hi, hb⟩
    · exact Or.inl ⟨_, (centers_mem g.ax hg.nx xs hxs _).2 ⟨j, hj, rfl⟩, hb⟩
    · exact Or.inr ⟨_, (centers_mem g.ay hg.ny ys hys _).2 ⟨i, hi, rfl⟩, hb⟩)
  unfold Ras.resample
  simp only [hxs, hys, this]

/-- C112: resampling a raster to its own grid changes nothing, if the surface goes through the cell values, at least one
cell is not missing, and the number that stands for missing is less than all values. -/
theorem resample_own_grid (spline : List (List ℚ) → ℚ → ℚ → ℚ) (M : ℚ) (r : Ras) (h : r.Plane) (order : Nat)
    (boundsError : Bool) (fill : Option (Option ℚ)) (ho : 1 ≤ order ∧ order ≤ 5) (hox : order < r.grid.ax.n) (hoy : order < r.grid.ay.n)
    (hs : Interpolates spline r.xlim r.ylim) (hsome : ∃ row ∈ r.cells, ∃ z, some z ∈ row)
    (hM : ∀ row ∈ r.cells, ∀ z, some z ∈ row → M < z) :
    r.resample spline M r.grid order boundsError fill = (r, none) := by
  obtain ⟨p1, p2, p3, p4⟩ := plane_grid r h
  have hbx : ∀ j < r.grid.ax.n, Between r.xlim.1 r.xlim.2 (cellCenter r.grid.ax.lo r.grid.ax.hi r.grid.ax.n j) := by
    intro j hj
    have := rowcol_to_xy_inbounds r.grid p3 0 j ⟨le_refl _, by exact_mod_cast p3.ny⟩ ⟨by positivity, by exact_mod_cast hj⟩
    rw [inbounds_xy_iff, rowcol_to_xy_center r.grid p3] at this
    exact this.1
  have hby : ∀ i < r.grid.ay.n, Between r.ylim.1 r.ylim.2 (cellCenter r.grid.ay.lo r.grid.ay.hi r.grid.ay.n i) := by
    intro i hi
    have := rowcol_to_xy_inbounds r.grid p3 i 0 ⟨by positivity, by exact_mod_cast hi⟩ ⟨le_refl _, by exact_mod_cast p3.nx⟩
    rw [inbounds_xy_iff, rowcol_to_xy_center r.grid p3] at this
    exact this.2
  obtain ⟨r', e, ⟨g1, g2, g3, g4⟩, hv⟩ := resample_partial spline M r h r.grid p3 order boundsError fill ho hox hoy (fun _ => ⟨hbx, hby⟩)
  rw [e]
  have hcells : r'.cells = r.cells := by
    apply List.ext_getElem
    · rw [g3]; rfl
    intro i hi hi'
    have hin : i < r.grid.ay.n := hi'
    apply List.ext_getElem
    · rw [g4 _ (List.getElem_mem _), p4 _ (List.getElem_mem _)]
    intro j hj hj'
    have hjn : j < r.grid.ax.n := by rw [← p4 _ (List.getElem_mem hi')]; exact hj'
    have key := hv i hin j hjn
    have ec : cellAt r'.cells i j = r'.cells[i][j] := by
      unfold cellAt
      rw [List.getD_eq_getElem _ _ hi, List.getD_eq_getElem _ _ hj]
    rw [ec] at key
    have hsp : spline (replaceMissing M r.cells) (cellCenter r.grid.ax.lo r.grid.ax.hi r.grid.ax.n j)
        (cellCenter r.grid.ay.lo r.grid.ay.hi r.grid.ay.n i) = (r.cells[i][j]).getD M := by
      have := hs (replaceMissing M r.cells) r.grid.ax.n (by
        intro row hrow
        unfold replaceMissing at hrow
        obtain ⟨row', h', rfl⟩ := List.mem_map.1 hrow
        rw [List.length_map, p4 _ h']) i (by unfold replaceMissing; rw [List.length_map]; exact hi') j hjn
      have el : (replaceMissing M r.cells).length = r.grid.ay.n := by unfold replaceMissing; rw [List.length_map]; rfl
      rw [el] at this
      refine this.trans ?_
      unfold replaceMissing
      rw [List.getD_eq_getElem (l := r.cells.map _) _ (by simpa using hi')]
      rw [List.getElem_map, List.getD_eq_getElem _ _ (by simpa using hj'), List.getElem_map]
      rfl
    unfold GridValue at key
    rw [hsp] at key
    have hrow := List.getElem_mem hi'
    have hcell := List.getElem_mem hj'
    rcases key with ⟨f, -, -, hno, -⟩ | ⟨-, ⟨hv1, hv2⟩ | ⟨hv1, -, hv2⟩⟩
    · exact absurd ⟨hbx j hjn, hby i hin⟩ hno
    · rw [hv1]
      cases hc : r.cells[i][j] with
      | some z => rfl
      | none =>
        rw [hc] at hv2
        obtain ⟨row, hr1, z, hz⟩ := hsome
        obtain ⟨row', hr2, z', hz', hle⟩ := hv2 row hr1 z hz
        have := hM row' hr2 z' hz'
        simp at hle
        linarith
    · rw [hv1]
      cases hc : r.cells[i][j] with
      | none => rfl
      | some z =>
        rw [hc] at hv2
        have hcell' : some z ∈ r.cells[i] := by rw [← hc]; exact hcell
        exact absurd (hv2 _ hrow z hcell') (by simp)
  have : r' = r := by
    cases r'; cases r
    simp only at hcells g1 g2
    subst hcells
    simp only [Ras.grid] at g1 g2
    rw [g1, g2]
  rw [this]

/-- The bilinear surface of C78: what `Raster.sample(order=1)` gives at points. -/
def bilinear (xlim ylim : ℚ × ℚ) (arr : List (List ℚ)) (x y : ℚ) : ℚ :=
  match valueAt 1 ⟨⟨xlim.1, xlim.2, (arr.headD []).length⟩, ⟨ylim.1, ylim.2, arr.length⟩⟩ arr (x, y) with
  | .ok v => v
  | .error _ => 0

private theorem around_center (a : GAxis) (j : Nat) (hj : j < a.n) :
    ∃ c u, Around a (cellCenter a.lo a.hi a.n j) c u ∧ ∀ f : Nat → ℚ, (1 - u) * f c + u * f (c + 1) = f j := by
  unfold Around
  by_cases h1 : a.n = 1
  · simp only [if_pos h1]
    refine ⟨0, 0, ⟨rfl, rfl⟩, fun f => ?_⟩
    rw [show j = 0 by omega]; ring
  · simp only [if_neg h1]
    by_cases h2 : j + 1 < a.n
    · refine ⟨j, 0, ⟨h2, by ring, Or.inl (le_refl _), Or.inl (by norm_num)⟩, fun f => by ring⟩
    · obtain ⟨k, rfl⟩ : ∃ k, j = k + 1 := ⟨j - 1, by omega⟩
      refine ⟨k, 1, ⟨hj, ?_, Or.inl (by norm_num), Or.inl (le_refl _)⟩, fun f => by ring⟩
      push_cast; ring

/-- The bilinear surface goes through the cell values. -/
theorem bilinear_interpolates (xlim ylim : ℚ × ℚ) (hx : xlim.1 ≠ xlim.2) (hy : ylim.1 ≠ ylim.2) :
    Interpolates (bilinear xlim ylim) xlim ylim := by
  intro arr n hrow i hi j hj
  have hn : (arr.headD []).length = n := by
    cases arr with
    | nil => simp at hi
    | cons a t => exact hrow a List.mem_cons_self
  unfold bilinear
  rw [hn]
  obtain ⟨v, h1, h2⟩ := value_linear ⟨⟨xlim.1, xlim.2, n⟩, ⟨ylim.1, ylim.2, arr.length⟩⟩
    ⟨by simp only []; omega, by simp only []; omega, hx, hy⟩ arr ⟨rfl, hrow⟩
    (cellCenter xlim.1 xlim.2 n j, cellCenter ylim.1 ylim.2 arr.length i)
  rw [h1]
  obtain ⟨c, u, hc, fc⟩ := around_center ⟨xlim.1, xlim.2, n⟩ j hj
  obtain ⟨r, w, hr, fr⟩ := around_center ⟨ylim.1, ylim.2, arr.length⟩ i hi
  have := h2 c u r w hc hr
  rw [fc (cell arr r), fc (cell arr (r + 1)), fr (fun k => cell arr k j)] at this
  exact this

/-- C112: with the bilinear surface, resampling a raster to its own grid changes nothing, missing cells included. -/
theorem resample_own_grid_bilinear (M : ℚ) (r : Ras) (h : r.Plane) (boundsError : Bool) (fill : Option (Option ℚ))
    (hsome : ∃ row ∈ r.cells, ∃ z, some z ∈ row) (hM : ∀ row ∈ r.cells, ∀ z, some z ∈ row → M < z) :
    r.resample (bilinear r.xlim r.ylim) M r.grid 1 boundsError fill = (r, none) := by
  obtain ⟨p1, p2, -, -⟩ := plane_grid r h
  exact resample_own_grid _ M r h 1 boundsError fill ⟨le_refl _, by norm_num⟩ p1 p2 (bilinear_interpolates _ _ h.x h.y) hsome hM

/-- C112 fails for a raster without any value: the missing cells get the lowest number of the type (here -1000). -/
theorem resample_all_missing_violated (spline : List (List ℚ) → ℚ → ℚ → ℚ) (M : ℚ) (r : Ras) (h : r.Plane)
    (hnone : ∀ row ∈ r.cells, ∀ v ∈ row, v = none) (hconst : ∀ x y, spline (replaceMissing M r.cells) x y = M) (i j : Nat)
    (hi : i < r.cells.length) (hj : j < r.grid.ax.n) :
    ∃ r', r.resample spline M r.grid 1 true (some none) = (r', none) ∧ cellAt r'.cells i j = some M := by
  obtain ⟨p1, p2, p3, p4⟩ := plane_grid r h
  obtain ⟨r', e, -, hv⟩ := resample_partial spline M r h r.grid p3 1 true (some none) ⟨le_refl _, by norm_num⟩ p1 p2 (fun _ => by
    constructor
    · intro j hj
      have := rowcol_to_xy_inbounds r.grid p3 0 j ⟨le_refl _, by exact_mod_cast p3.ny⟩ ⟨by positivity, by exact_mod_cast hj⟩
      rw [inbounds_xy_iff, rowcol_to_xy_center r.grid p3] at this
      exact this.1
    · intro i hi
      have := rowcol_to_xy_inbounds r.grid p3 i 0 ⟨by positivity, by exact_mod_cast hi⟩ ⟨le_refl _, by exact_mod_cast p3.nx⟩
      rw [inbounds_xy_iff, rowcol_to_xy_center r.grid p3] at this
      exact this.2)
  have key := hv i hi j hj
  refine ⟨r', e, ?_⟩
  rcases key with ⟨f, hf, -⟩ | ⟨-, ⟨hv1, -⟩ | ⟨-, ⟨row, hr, z, hz⟩, -⟩⟩
  · cases hf
  · rw [hv1, hconst]
  · exact absurd (hnone row hr _ hz) (by simp)

/-- C112 fails for a raster with one row: resampled to a grid with three columns and two rows, it has the limits of the
grid and three rows, not two. -/
theorem resample_row_violated (spline : List (List ℚ) → ℚ → ℚ → ℚ) :
    (⟨(0, 3), (2, 0), [[some 1, some 2, some 3]]⟩ : Ras).resample spline (-1000) ⟨⟨0, 3, 3⟩, ⟨2, 0, 2⟩⟩ 1 true (some none) =
      (⟨(0, 3), (2, 0), [[some 1, some 2, some 3], [some 1, some 2, some 3], [some 1, some 2, some 3]]⟩, none) := by
  have h1 : (⟨0, 3, 3⟩ : GAxis).centers = .ok [1 / 2, 3 / 2, 5 / 2] := by decide +kernel
  have h2 : (⟨2, 0, 2⟩ : GAxis).centers = .ok [3 / 2, 1 / 2] := by decide +kernel
  have h3 : (Ras.grid ⟨(0, 3), (2, 0), [[some 1, some 2, some 3]]⟩).inboundsVectors [1 / 2, 3 / 2, 5 / 2] [3 / 2, 1 / 2] =
      ([true, true, true], [true, true]) := by decide +kernel
  have h4 : ∀ x ∈ [((1 / 2, 1) : ℚ × ℚ), (3 / 2, 2), (5 / 2, 3)],
      thinLine 1 ⟨(0, 3), (2, 0), [[some 1, some 2, some 3]]⟩ x.1 = x.2 := by decide +kernel
  have e1 := h4 (1 / 2, 1) (by simp)
  have e2 := h4 (3 / 2, 2) (by simp)
  have e3 := h4 (5 / 2, 3) (by simp)
  unfold Ras.resample
  simp only [h1, h2]
  unfold sampleGrid
  simp only [h3]
  simp only [Ras.grid, sampleThin, List.headD, List.length]
  simp at e1 e2 e3
  simp [e1, e2, e3, List.replicate]

/-- C112 fails for a raster with one cell: rows and columns of the target are exchanged. -/
theorem resample_cell_violated (spline : List (List ℚ) → ℚ → ℚ → ℚ) :
    (⟨(0, 4), (2, 0), [[some 7]]⟩ : Ras).resample spline (-1000) ⟨⟨0, 3, 3⟩, ⟨2, 0, 2⟩⟩ 1 true (some none) =
      (⟨(0, 3), (2, 0), [[some 7, some 7], [some 7, some 7], [some 7, some 7]]⟩, none) := by
  have h1 : (⟨0, 3, 3⟩ : GAxis).centers = .ok [1 / 2, 3 / 2, 5 / 2] := by decide +kernel
  have h2 : (⟨2, 0, 2⟩ : GAxis).centers = .ok [3 / 2, 1 / 2] := by decide +kernel
  have h3 : (Ras.grid ⟨(0, 4), (2, 0), [[some 7]]⟩).inboundsVectors [1 / 2, 3 / 2, 5 / 2] [3 / 2, 1 / 2] =
      ([true, true, true], [true, true]) := by decide +kernel
  unfold Ras.resample
  simp only [h1, h2]
  unfold sampleGrid
  simp only [h3]
  simp [Ras.grid, sampleThin, thinConst, List.replicate]

/-- C112 fails when resampling raises for the order (here nearest, order 0): the missing cells of the raster have been
replaced by the lowest number of the type. -/
theorem resample_failed_violated (spline : List (List ℚ) → ℚ → ℚ → ℚ) :
    (⟨(0, 2), (2, 0), [[some 1, none], [some 2, some 3]]⟩ : Ras).resample spline (-1000) ⟨⟨0, 2, 2⟩, ⟨2, 0, 2⟩⟩ 0 true (some none) =
      (⟨(0, 2), (2, 0), [[some 1, some (-1000)], [some 2, some 3]]⟩, some .valueError) := by
  have h1 : (⟨0, 2, 2⟩ : GAxis).centers = .ok [1 / 2, 3 / 2] := by decide +kernel
  have h2 : (⟨2, 0, 2⟩ : GAxis).centers = .ok [3 / 2, 1 / 2] := by decide +kernel
  have h3 : (Ras.grid ⟨(0, 2), (2, 0), [[some 1, none], [some 2, some 3]]⟩).inboundsVectors [1 / 2, 3 / 2] [3 / 2, 1 / 2] =
      ([true, true], [true, true]) := by decide +kernel
  unfold Ras.resample
  simp only [h1, h2]
  unfold sampleGrid
  simp only [h3]
  simp [Ras.grid, sampleSpline, corrupted, replaceMissing]

/-- A raster with at least two rows and columns, a grid inside it, and a surface through its cells. -/
example : (⟨(0, 2), (2, 0), [[some 1, none], [some 2, some 3]]⟩ : Ras).Plane ∧ (⟨⟨0, 2, 4⟩, ⟨0, 2, 2⟩⟩ : Grid).Valid :=
  ⟨⟨by decide, ⟨2, by decide, by decide⟩, by norm_num, by norm_num⟩, ⟨by norm_num, by norm_num, by norm_num, by norm_num⟩⟩

end Glimpse.RasterResample
