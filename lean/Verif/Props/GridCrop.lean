import Verif.Props.Grid
import Verif.Props.Boxes

/-!
C24: `Grid.crop_extent` returns the smallest window of whole cells covering the requested box clipped to the grid.
-/
set_option autoImplicit false
set_option linter.unusedSimpArgs false

namespace Glimpse

/-- The request `[l, r]` clipped to the axis limits, as an interval: `v` is in it. -/
def InClipped (req : ℚ × ℚ) (a : GAxis) (v : ℚ) : Prop := Between req.1 req.2 v ∧ Between a.lo a.hi v

/-- `v` is in the closed range of cells `c0 .. c1` of an axis. -/
def InCells (a : GAxis) (c0 c1 : ℤ) (v : ℚ) : Prop :=
  Between (cellEdge a.lo a.hi a.n c0) (cellEdge a.lo a.hi a.n (c1 + 1)) v

/-- The request and the grid overlap in an interval of positive length on this axis. -/
def Overlaps (req : ℚ × ℚ) (a : GAxis) : Prop := ∃ v w, v < w ∧ InClipped req a v ∧ InClipped req a w

private theorem between_minmax (a b v : ℚ) : Between a b v ↔ min a b ≤ v ∧ v ≤ max a b := by
  have := GAxis.between_iff (a := ⟨a, b, 1⟩) v
  exact this

private theorem overlaps_iff (req : ℚ × ℚ) (a : GAxis) :
    Overlaps req a ↔ max (min req.1 req.2) a.min < min (max req.1 req.2) a.max := by
  unfold Overlaps InClipped
  simp only [between_minmax]
  constructor
  · rintro ⟨v, w, h, ⟨⟨h1, h2⟩, h3, h4⟩, ⟨h5, h6⟩, h7, h8⟩
    have e1 : max (min req.1 req.2) a.min ≤ v := max_le h1 h3
    have e2 : w ≤ min (max req.1 req.2) a.max := le_min h6 h8
    linarith
  · intro h
    refine ⟨max (min req.1 req.2) a.min, min (max req.1 req.2) a.max, h, ⟨⟨le_max_left _ _, ?_⟩, le_max_right _ _, ?_⟩,
      ⟨?_, min_le_left _ _⟩, ?_, min_le_right _ _⟩
    · exact h.le.trans (min_le_left _ _)
    · exact h.le.trans (min_le_right _ _)
    · exact (le_max_left _ _).trans h.le
    · exact (le_max_right _ _).trans h.le

private theorem pyMod_zero_iff (b d : ℚ) (hd : d ≠ 0) : pyMod b d = 0 ↔ ∃ z : ℤ, b / d = z := by
  unfold pyMod
  constructor
  · intro h
    refine ⟨⌊b / d⌋, ?_⟩
    rw [div_eq_iff hd]
    linarith
  · rintro ⟨z, hz⟩
    rw [hz, Int.floor_intCast, ← hz]
    field_simp
    ring

private theorem idx_eq {a : GAxis} (hn : 0 < a.n) (h : a.lo ≠ a.hi) (v : ℚ) :
    truncInt ((a.snap true false true v - a.lo) / a.d - 1 / 2) =
      ⌊(v - a.lo) / a.d⌋ - if v = a.hi then 1 else 0 := by
  rw [GAxis.snap_center_eq hn, GAxis.index_of_center hn h, truncInt_int]
  simp

/-- One axis: everything C24 says about the range of cells. -/
private theorem cropRange_spec {a : GAxis} (hn : 0 < a.n) (h : a.lo ≠ a.hi) (l r : ℚ) (hlr : l < r)
    (hl : a.min ≤ l) (hr : r ≤ a.max) :
    let c := (a.cropRange l r).2
    (0 ≤ c.1 ∧ c.1 ≤ c.2 ∧ c.2 < a.n) ∧
    (a.cropRange l r).1 = (cellEdge a.lo a.hi a.n c.1, cellEdge a.lo a.hi a.n (c.2 + 1)) ∧
    (InCells a c.1 c.2 l ∧ InCells a c.1 c.2 r) ∧
    ∀ i j : ℤ, i ≤ j → InCells a i j l → InCells a i j r → i ≤ c.1 ∧ c.2 ≤ j := by
  have hd := GAxis.d_ne hn h
  have hnd := GAxis.n_mul_d hn
  have bl : Between a.lo a.hi l := (GAxis.between_iff l).mpr ⟨hl, hlr.le.trans hr⟩
  have br : Between a.lo a.hi r := (GAxis.between_iff r).mpr ⟨hl.trans hlr.le, hr⟩
  -- positions in cells
  have hn0 : (0 : ℚ) < a.n := by exact_mod_cast hn
  set v0 := (if a.lo > a.hi then r else l) with hv0
  set v1 := (if a.lo > a.hi then l else r) with hv1
  have b0 : Between a.lo a.hi v0 := by rw [hv0]; split <;> assumption
  have b1 : Between a.lo a.hi v1 := by rw [hv1]; split <;> assumption
  obtain ⟨p0, p1, p2⟩ := GAxis.ratio_bounds hn h v0 b0
  obtain ⟨q0, q1, q2⟩ := GAxis.ratio_bounds hn h v1 b1
  have e0 : v0 = ((v0 - a.lo) / a.d) * a.d + a.lo := by field_simp; ring
  have e1 : v1 = ((v1 - a.lo) / a.d) * a.d + a.lo := by field_simp; ring
  have hlt : (v0 - a.lo) / a.d < (v1 - a.lo) / a.d := by
    by_cases hdir : a.lo > a.hi
    · have hneg : a.d < 0 := by
        by_contra hc
        have := mul_nonneg hn0.le (not_lt.mp hc)
        linarith
      have h0 : v0 = r := by rw [hv0, if_pos hdir]
      have h1 : v1 = l := by rw [hv1, if_pos hdir]
      rw [h0, h1]
      exact div_lt_div_of_neg_of_lt hneg (by linarith)
    · have hpos : 0 < a.d := by
        by_contra hc
        have h3 := mul_nonpos_of_nonneg_of_nonpos hn0.le (not_lt.mp hc)
        have h4 : a.lo < a.hi := lt_of_le_of_ne (not_lt.mp hdir) h
        linarith
      have h0 : v0 = l := by rw [hv0, if_neg hdir]
      have h1 : v1 = r := by rw [hv1, if_neg hdir]
      rw [h0, h1]
      exact div_lt_div_of_pos_right (by linarith) hpos
  set s := (v0 - a.lo) / a.d with hs
  set t := (v1 - a.lo) / a.d with ht
  have hedge : pyMod (a.hi - v1) a.d = 0 ↔ ∃ z : ℤ, t = z := by
    rw [pyMod_zero_iff _ _ hd]
    have : (a.hi - v1) / a.d = a.n - t := by
      rw [div_eq_iff hd]
      rw [e1]
      linarith
    rw [this]
    constructor
    · rintro ⟨z, hz⟩; exact ⟨a.n - z, by push_cast; linarith⟩
    · rintro ⟨z, hz⟩; exact ⟨a.n - z, by push_cast; linarith⟩
  have hv0hi : v0 ≠ a.hi := by
    intro hh
    have := p2.mpr hh
    linarith
  have hc0 : (a.cropRange l r).2.1 = ⌊s⌋ := by
    unfold GAxis.cropRange
    simp only []
    rw [idx_eq hn h]
    rw [← hv0, if_neg hv0hi]
    simp [hs]
  have hc1 : (a.cropRange l r).2.2 = ⌈t⌉ - 1 := by
    unfold GAxis.cropRange
    simp only []
    rw [idx_eq hn h]
    rw [← hv1, ← ht]
    by_cases ho : v1 = a.hi
    · have htn := q2.mpr ho
      simp [ho, htn]
    · by_cases hez : ∃ z : ℤ, t = z
      · have hm := hedge.mpr hez
        obtain ⟨z, hz⟩ := hez
        simp [ho, hm, hz]
      · have hm : ¬ pyMod (a.hi - v1) a.d = 0 := fun hh => hez (hedge.mp hh)
        simp only [ho, hm, decide_false, Bool.false_and, Bool.false_eq_true, if_false, sub_zero]
        have h1 := Int.floor_le t
        have h2 := Int.lt_floor_add_one t
        have h3 : (⌊t⌋ : ℚ) ≠ t := fun hh => hez ⟨_, hh.symm⟩
        have : ⌈t⌉ = ⌊t⌋ + 1 := by
          rw [Int.ceil_eq_iff]
          push_cast
          exact ⟨by have := lt_of_le_of_ne h1 h3; linarith, h2.le⟩
        omega
  have hfs := Int.floor_le s
  have hfs2 := Int.lt_floor_add_one s
  have hct := Int.le_ceil t
  have hct2 := Int.ceil_lt_add_one t
  have hrange : 0 ≤ ⌊s⌋ ∧ ⌊s⌋ ≤ ⌈t⌉ - 1 ∧ ⌈t⌉ - 1 < a.n := by
    refine ⟨Int.floor_nonneg.mpr p0, ?_, ?_⟩
    · have : (⌊s⌋ : ℚ) < ⌈t⌉ := by linarith
      have : ⌊s⌋ < ⌈t⌉ := by exact_mod_cast this
      omega
    · have : ⌈t⌉ ≤ a.n := Int.ceil_le.mpr (by exact_mod_cast q1)
      omega
  -- membership in a cell range in terms of s, t
  have mem : ∀ (i j : ℤ) (v : ℚ), i ≤ j → (InCells a i j v ↔ (i : ℚ) ≤ (v - a.lo) / a.d ∧ (v - a.lo) / a.d ≤ j + 1) := by
    intro i j v hij
    unfold InCells Between
    rw [GAxis.cellEdge_eq, GAxis.cellEdge_eq]
    have e : v = ((v - a.lo) / a.d) * a.d + a.lo := by field_simp; ring
    set w := (v - a.lo) / a.d
    have hij' : (i : ℚ) ≤ j := by exact_mod_cast hij
    push_cast
    rw [e]
    rcases lt_or_gt_of_ne hd with hneg | hpos
    · constructor
      · rintro (⟨h1, h2⟩ | ⟨h1, h2⟩)
        · exfalso
          have : (i : ℚ) * a.d ≤ (j + 1) * a.d := by linarith
          have := (mul_le_mul_right_of_neg hneg).mp this
          linarith
        · exact ⟨(mul_le_mul_right_of_neg hneg).mp (by linarith), (mul_le_mul_right_of_neg hneg).mp (by linarith)⟩
      · rintro ⟨h1, h2⟩
        right
        have := (mul_le_mul_right_of_neg hneg).mpr h1
        have := (mul_le_mul_right_of_neg hneg).mpr h2
        constructor <;> linarith
    · constructor
      · rintro (⟨h1, h2⟩ | ⟨h1, h2⟩)
        · exact ⟨(mul_le_mul_iff_left₀ hpos).mp (by linarith), (mul_le_mul_iff_left₀ hpos).mp (by linarith)⟩
        · exfalso
          have : ((j : ℚ) + 1) * a.d ≤ i * a.d := by linarith
          have := (mul_le_mul_iff_left₀ hpos).mp this
          linarith
      · rintro ⟨h1, h2⟩
        left
        have := (mul_le_mul_iff_left₀ hpos).mpr h1
        have := (mul_le_mul_iff_left₀ hpos).mpr h2
        constructor <;> linarith
  have two : ∀ P : ℚ → Prop, (P l ∧ P r ↔ P v0 ∧ P v1) := by
    intro P
    by_cases hdir : a.lo > a.hi
    · rw [hv0, hv1, if_pos hdir, if_pos hdir]
      exact And.comm
    · rw [hv0, hv1, if_neg hdir, if_neg hdir]
  have hlims : (a.cropRange l r).1 =
        (((((a.cropRange l r).2.1 : ℚ) + 1 / 2) * a.d + a.lo) + -(1 / 2) * a.d,
         ((((a.cropRange l r).2.2 : ℚ) + 1 / 2) * a.d + a.lo) + 1 / 2 * a.d) := rfl
  rw [hc0, hc1] at hlims
  have hc : (a.cropRange l r).2 = (⌊s⌋, ⌈t⌉ - 1) := Prod.ext hc0 hc1
  generalize a.cropRange l r = w at hc hlims ⊢
  obtain ⟨w1, w2⟩ := w
  simp only at hc hlims ⊢
  subst hc
  refine ⟨hrange, ?_, ?_, ?_⟩
  · rw [hlims, GAxis.cellEdge_eq, GAxis.cellEdge_eq]
    ext
    · simp only []; ring
    · simp only []; push_cast; ring
  · rw [two (InCells a ⌊s⌋ (⌈t⌉ - 1)), mem _ _ _ hrange.2.1, mem _ _ _ hrange.2.1]
    rw [← hs, ← ht]
    push_cast
    refine ⟨⟨by linarith, by linarith⟩, by linarith, by linarith⟩
  · intro i j hij h1 h2
    obtain ⟨h3, h4⟩ := (two (InCells a i j)).mp ⟨h1, h2⟩
    rw [mem _ _ _ hij] at h3 h4
    rw [← hs] at h3
    rw [← ht] at h4
    refine ⟨Int.le_floor.mpr h3.1, ?_⟩
    have : ⌈t⌉ ≤ j + 1 := Int.ceil_le.mpr (by push_cast; exact h4.2)
    simp only []
    omega

/-- The request on each axis: the given limits, or the whole axis. -/
def request (r : Option (ℚ × ℚ)) (a : GAxis) : ℚ × ℚ := r.getD (a.lo, a.hi)

private theorem cropExtent_eq (g : Grid) (xlim ylim : Option (ℚ × ℚ)) :
    g.cropExtent xlim ylim =
      (let x := request xlim g.ax
       let y := request ylim g.ay
       let x0 := max (min x.1 x.2) g.ax.min
       let y0 := max (min y.1 y.2) g.ay.min
       let x1 := min (max x.1 x.2) g.ax.max
       let y1 := min (max y.1 y.2) g.ay.max
       if x1 - x0 ≤ 0 ∨ y1 - y0 ≤ 0 then .error .valueError
       else .ok { xlim := (g.ax.cropRange x0 x1).1, ylim := (g.ay.cropRange y0 y1).1,
                  rows := (g.ay.cropRange y0 y1).2, cols := (g.ax.cropRange x0 x1).2 }) := by
  unfold Grid.cropExtent request intersectBoxes colMax colMin
  simp only [List.any_cons, List.any_nil, List.length_cons, List.length_nil, List.map_cons, List.map_nil,
    List.take, List.drop, List.foldl, List.zipWith, Bool.or_false, id, ne_eq, not_true_eq_false, decide_false,
    Bool.false_eq_true, if_false, bind, Except.bind, pure, Except.pure, Bool.or_eq_true, decide_eq_true_eq,
    Nat.reduceAdd, Nat.reduceMod, Nat.reduceDiv]
  split_ifs <;> rfl

/-- C24: `crop_extent` raises exactly when the request and the grid do not overlap. -/
theorem crop_extent_raises_iff (g : Grid) (xlim ylim : Option (ℚ × ℚ)) :
    Raises (g.cropExtent xlim ylim) ↔ ¬ (Overlaps (request xlim g.ax) g.ax ∧ Overlaps (request ylim g.ay) g.ay) := by
  rw [cropExtent_eq, overlaps_iff, overlaps_iff]
  simp only [Raises]
  split
  · rename_i h
    simp only [Except.error.injEq, exists_eq', true_iff, not_and_or, not_lt]
    rcases h with h | h
    · left; linarith
    · right; linarith
  · rename_i h
    push Not at h
    simp only [reduceCtorEq, exists_false, false_iff, not_not]
    exact ⟨by linarith, by linarith⟩

/-- C24: otherwise, on each axis and for every orientation, the result is a non-empty range of cells of the grid; the
limits returned are the outer edges of that range, in the grid's direction; the range covers every point of the
request that is in the grid; and every aligned range of cells that covers them contains it. -/
theorem crop_extent_spec (g : Grid) (hg : g.Valid) (xlim ylim : Option (ℚ × ℚ)) (e : CropExtent)
    (h : g.cropExtent xlim ylim = .ok e) :
    (0 ≤ e.cols.1 ∧ e.cols.1 ≤ e.cols.2 ∧ e.cols.2 < g.ax.n) ∧
    (0 ≤ e.rows.1 ∧ e.rows.1 ≤ e.rows.2 ∧ e.rows.2 < g.ay.n) ∧
    e.xlim = (cellEdge g.ax.lo g.ax.hi g.ax.n e.cols.1, cellEdge g.ax.lo g.ax.hi g.ax.n (e.cols.2 + 1)) ∧
    e.ylim = (cellEdge g.ay.lo g.ay.hi g.ay.n e.rows.1, cellEdge g.ay.lo g.ay.hi g.ay.n (e.rows.2 + 1)) ∧
    (∀ v, InClipped (request xlim g.ax) g.ax v → InCells g.ax e.cols.1 e.cols.2 v) ∧
    (∀ v, InClipped (request ylim g.ay) g.ay v → InCells g.ay e.rows.1 e.rows.2 v) ∧
    (∀ i j : ℤ, i ≤ j → (∀ v, InClipped (request xlim g.ax) g.ax v → InCells g.ax i j v) →
      i ≤ e.cols.1 ∧ e.cols.2 ≤ j) ∧
    (∀ i j : ℤ, i ≤ j → (∀ v, InClipped (request ylim g.ay) g.ay v → InCells g.ay i j v) →
      i ≤ e.rows.1 ∧ e.rows.2 ≤ j) := by
  rw [cropExtent_eq] at h
  simp only at h
  split at h
  · cases h
  rename_i hno
  push Not at hno
  cases h
  -- shared facts about one axis
  have ax : ∀ (a : GAxis) (hn : 0 < a.n) (hne : a.lo ≠ a.hi) (q : ℚ × ℚ)
      (hlt : max (min q.1 q.2) a.min < min (max q.1 q.2) a.max),
      let c := (a.cropRange (max (min q.1 q.2) a.min) (min (max q.1 q.2) a.max))
      (0 ≤ c.2.1 ∧ c.2.1 ≤ c.2.2 ∧ c.2.2 < a.n) ∧
      c.1 = (cellEdge a.lo a.hi a.n c.2.1, cellEdge a.lo a.hi a.n (c.2.2 + 1)) ∧
      (∀ v, InClipped q a v → InCells a c.2.1 c.2.2 v) ∧
      (∀ i j : ℤ, i ≤ j → (∀ v, InClipped q a v → InCells a i j v) → i ≤ c.2.1 ∧ c.2.2 ≤ j) := by
    intro a hn hne q hlt c
    obtain ⟨h1, h2, ⟨h3, h4⟩, h5⟩ := cropRange_spec hn hne _ _ hlt (le_max_right _ _) (min_le_right _ _)
    refine ⟨h1, h2, fun v hv => ?_, fun i j hij hcov => ?_⟩
    · have hv' : max (min q.1 q.2) a.min ≤ v ∧ v ≤ min (max q.1 q.2) a.max := by
        unfold InClipped at hv
        simp only [between_minmax] at hv
        exact ⟨max_le hv.1.1 hv.2.1, le_min hv.1.2 hv.2.2⟩
      unfold InCells at h3 h4 ⊢
      rw [between_minmax] at h3 h4 ⊢
      exact ⟨h3.1.trans hv'.1, hv'.2.trans h4.2⟩
    · refine h5 i j hij (hcov _ ?_) (hcov _ ?_)
      · unfold InClipped
        simp only [between_minmax]
        exact ⟨⟨le_max_left _ _, hlt.le.trans (min_le_left _ _)⟩, le_max_right _ _, hlt.le.trans (min_le_right _ _)⟩
      · unfold InClipped
        simp only [between_minmax]
        exact ⟨⟨(le_max_left _ _).trans hlt.le, min_le_left _ _⟩, (le_max_right _ _).trans hlt.le, min_le_right _ _⟩
  obtain ⟨x1, x2, x3, x4⟩ := ax g.ax hg.nx hg.x (request xlim g.ax) (by linarith [hno.1])
  obtain ⟨y1, y2, y3, y4⟩ := ax g.ay hg.ny hg.y (request ylim g.ay) (by linarith [hno.2])
  exact ⟨x1, y1, x2, y2, x3, y3, x4, y4⟩

/-- C24: without a request the crop is the whole grid. -/
theorem crop_extent_none (g : Grid) (hg : g.Valid) :
    g.cropExtent none none = .ok { xlim := (g.ax.lo, g.ax.hi), ylim := (g.ay.lo, g.ay.hi),
                                   rows := (0, g.ay.n - 1), cols := (0, g.ax.n - 1) } := by
  have ov : ∀ a : GAxis, a.lo ≠ a.hi → Overlaps (request none a) a := by
    intro a h
    rw [overlaps_iff]
    simp only [request, Option.getD_none, GAxis.min, GAxis.max, max_self, min_self]
    exact min_lt_max.mpr h
  cases hr : g.cropExtent none none with
  | error er =>
    exact absurd ⟨ov _ hg.x, ov _ hg.y⟩ ((crop_extent_raises_iff g none none).mp ⟨er, hr⟩)
  | ok e =>
    obtain ⟨c1, r1, hx, hy, cx, cy, mx, my⟩ := crop_extent_spec g hg none none e hr
    have full : ∀ (a : GAxis), 0 < a.n → a.lo ≠ a.hi → ∀ c0 c1 : ℤ, (0 ≤ c0 ∧ c0 ≤ c1 ∧ c1 < a.n) →
        (∀ v, InClipped (request none a) a v → InCells a c0 c1 v) → c0 = 0 ∧ c1 = a.n - 1 := by
      intro a hn hne c0 c1 hc hcov
      have hd := GAxis.d_ne hn hne
      have hnd := GAxis.n_mul_d hn
      have hlo := hcov a.lo ⟨by unfold Between request; rcases le_total a.lo a.hi with h | h <;> simp [h],
        by unfold Between; rcases le_total a.lo a.hi with h | h <;> simp [h]⟩
      have hhi := hcov a.hi ⟨by unfold Between request; rcases le_total a.lo a.hi with h | h <;> simp [h],
        by unfold Between; rcases le_total a.lo a.hi with h | h <;> simp [h]⟩
      unfold InCells at hlo hhi
      rw [GAxis.cellEdge_eq, GAxis.cellEdge_eq] at hlo hhi
      have hh : a.hi = a.n * a.d + a.lo := by linarith
      unfold Between at hlo hhi
      rw [hh] at hhi
      push_cast at hlo hhi
      have q0 : (0 : ℚ) ≤ c0 := by exact_mod_cast hc.1
      have q1 : (c0 : ℚ) ≤ c1 := by exact_mod_cast hc.2.1
      have q2 : (c1 : ℚ) + 1 ≤ a.n := by exact_mod_cast hc.2.2
      rcases lt_or_gt_of_ne hd with hneg | hpos
      · have k1 : (c0 : ℚ) = 0 := by
          rcases hlo with ⟨h1, h2⟩ | ⟨h1, h2⟩
          · nlinarith
          · nlinarith
        have k2 : (c1 : ℚ) + 1 = a.n := by
          rcases hhi with ⟨h1, h2⟩ | ⟨h1, h2⟩
          · nlinarith
          · nlinarith
        have k1 : c0 = 0 := by exact_mod_cast k1
        have k2 : c1 + 1 = a.n := by exact_mod_cast k2
        omega
      · have k1 : (c0 : ℚ) = 0 := by
          rcases hlo with ⟨h1, h2⟩ | ⟨h1, h2⟩
          · nlinarith
          · nlinarith
        have k2 : (c1 : ℚ) + 1 = a.n := by
          rcases hhi with ⟨h1, h2⟩ | ⟨h1, h2⟩
          · nlinarith
          · nlinarith
        have k1 : c0 = 0 := by exact_mod_cast k1
        have k2 : c1 + 1 = a.n := by exact_mod_cast k2
        omega
    obtain ⟨a1, a2⟩ := full g.ax hg.nx hg.x _ _ c1 cx
    obtain ⟨b1, b2⟩ := full g.ay hg.ny hg.y _ _ r1 cy
    obtain ⟨exl, eyl, ⟨er0, er1⟩, ⟨ec0, ec1⟩⟩ := e
    simp only at a1 a2 b1 b2 hx hy
    subst a1 a2 b1 b2
    rw [hx, hy, GAxis.cellEdge_eq, GAxis.cellEdge_eq, GAxis.cellEdge_eq, GAxis.cellEdge_eq]
    have n1 := GAxis.n_mul_d hg.nx
    have n2 := GAxis.n_mul_d hg.ny
    congr 3
    · push_cast; ring
    · push_cast; linarith
    · push_cast; ring
    · push_cast; linarith

/-- A descending grid cropped to a box that ends on an interior edge: non-trivial case. -/
example : (⟨⟨0, 30, 3⟩, ⟨4, 0, 2⟩⟩ : Grid).cropExtent (some (12, 20)) (some (1, 100)) =
    .ok { xlim := (10, 20), ylim := (4, 0), rows := (0, 1), cols := (1, 1) } := by decide +kernel
example : Raises ((⟨⟨0, 30, 3⟩, ⟨4, 0, 2⟩⟩ : Grid).cropExtent (some (30, 40)) none) := ⟨.valueError, by decide +kernel⟩

end Glimpse
