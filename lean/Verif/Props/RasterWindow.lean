import Verif.Model.RasterWindow
import Verif.Props.Grid
import Verif.Props.GridCrop
import Verif.Props.GridState

/-!
C28: `Raster.data_extent`, and C56: windows of a raster (`crop_to_data`, `crop`, indexing) do not move data.
-/
set_option autoImplicit false
set_option linter.unusedSimpArgs false

namespace Glimpse

/-! ### Specification -/

/-- Content of a cell (`none`: outside the array; `some none`: missing; `some (some v)`: value v). -/
def cellAt (a : FArray) (i j : Nat) : Option (Option ℚ) := a[i]?.bind fun r => r[j]?

/-- The cell holds a value. -/
def HasData (a : FArray) (i j : Nat) : Prop := ∃ v, cellAt a i j = some (some v)

/-- All rows have `nx` cells. -/
def Rect (nx : Nat) (a : FArray) : Prop := ∀ r ∈ a, r.length = nx

/-- A raster whose array has the size of its grid. -/
structure RasterV.Valid (r : RasterV) : Prop where
  grid : r.g.Valid
  rows : r.arr.length = r.g.ay.n
  cols : Rect r.g.ax.n r.arr

/-- Position of the centre of a cell. -/
def RasterV.center (r : RasterV) (i j : Nat) : ℚ × ℚ :=
  (cellCenter r.g.ax.lo r.g.ax.hi r.g.ax.n j, cellCenter r.g.ay.lo r.g.ay.hi r.g.ay.n i)

/-- Every cell of `w` has the content and the position of the cell of `r` given by `f`. -/
def CellsOf (w r : RasterV) (fi fj : Nat → Nat) : Prop :=
  ∀ i j, i < w.g.ay.n → j < w.g.ax.n →
    cellAt w.arr i j = cellAt r.arr (fi i) (fj j) ∧ w.center i j = r.center (fi i) (fj j)

/-! ### data_extent -/

private theorem argmaxBool_spec {l : List Bool} {k : Nat} (h : argmaxBool l = .ok k) :
    (∀ i : Nat, l[i]? = some true → k ≤ i) ∧ ((∃ i : Nat, l[i]? = some true) → l[k]? = some true) ∧
    ((∀ i : Nat, l[i]? ≠ some true) → k = 0) := by
  unfold argmaxBool at h
  split at h
  · cases h
  · simp only [Except.ok.injEq] at h
    subst h
    refine ⟨fun i hi => ?_, fun ⟨i, hi⟩ => ?_, fun hn => ?_⟩
    · obtain ⟨hlt, hi⟩ := List.getElem?_eq_some_iff.mp hi
      have : l.findIdx id ≤ i := by
        by_contra hc
        have := List.not_of_lt_findIdx (p := id) (xs := l) (i := i) (by omega)
        simp [hi] at this
      split
      · exact this
      · omega
    · obtain ⟨hlt, hi⟩ := List.getElem?_eq_some_iff.mp hi
      have hlt2 : l.findIdx id < l.length := List.findIdx_lt_length.mpr ⟨l[i], List.getElem_mem _, by simp [hi]⟩
      rw [if_pos hlt2]
      rw [List.getElem?_eq_getElem hlt2]
      have := List.findIdx_getElem (p := id) (xs := l) (w := hlt2)
      simpa using this
    · rw [if_neg]
      intro hlt
      have := List.findIdx_getElem (p := id) (xs := l) (w := hlt)
      exact hn _ (by rw [List.getElem?_eq_getElem hlt]; simpa using this)

private theorem argmaxBool_rev {l : List Bool} {k : Nat} (h : argmaxBool l.reverse = .ok k) (hex : ∃ i : Nat, l[i]? = some true) :
    k < l.length ∧ (∀ i : Nat, l[i]? = some true → i < l.length - k) ∧ l[l.length - k - 1]? = some true := by
  obtain ⟨h1, h2, -⟩ := argmaxBool_spec h
  have hrev : ∀ i : Nat, l[i]? = some true → l.reverse[l.length - 1 - i]? = some true := by
    intro i hi
    obtain ⟨hlt, -⟩ := List.getElem?_eq_some_iff.mp hi
    rw [List.getElem?_reverse (by omega)]
    rw [show l.length - 1 - (l.length - 1 - i) = i by omega, hi]
  obtain ⟨i0, hi0⟩ := hex
  have hk := h2 ⟨_, hrev i0 hi0⟩
  obtain ⟨hlt, -⟩ := List.getElem?_eq_some_iff.mp hk
  rw [List.length_reverse] at hlt
  refine ⟨hlt, fun i hi => ?_, ?_⟩
  · obtain ⟨hl, -⟩ := List.getElem?_eq_some_iff.mp hi
    have := h1 _ (hrev i hi)
    omega
  · rw [List.getElem?_reverse hlt] at hk
    rw [show l.length - k - 1 = l.length - 1 - k by omega, hk]

private theorem dataRows_true {a : FArray} {i : Nat} : (dataRows a)[i]? = some true ↔ ∃ j, HasData a i j := by
  unfold dataRows HasData cellAt
  rw [List.getElem?_map]
  cases h : a[i]? with
  | none => simp
  | some r =>
    simp only [Option.map_some, Option.some.injEq, List.any_eq_true, Option.bind_some]
    constructor
    · rintro ⟨x, hx, hs⟩
      obtain ⟨v, rfl⟩ := Option.isSome_iff_exists.mp hs
      obtain ⟨j, hj⟩ := List.getElem?_of_mem hx
      exact ⟨j, v, hj⟩
    · rintro ⟨j, v, hj⟩
      exact ⟨some v, List.mem_of_getElem? hj, rfl⟩

private theorem dataCols_true {nx : Nat} {a : FArray} (hr : Rect nx a) {j : Nat} :
    (dataCols nx a)[j]? = some true ↔ ∃ i, HasData a i j := by
  unfold dataCols HasData cellAt
  rw [List.getElem?_map]
  by_cases hj : j < nx
  · rw [List.getElem?_range hj]
    simp only [Option.map_some, Option.some.injEq, List.any_eq_true]
    constructor
    · rintro ⟨r, hx, hs⟩
      obtain ⟨i, hi⟩ := List.getElem?_of_mem hx
      refine ⟨i, ?_⟩
      rw [hi]
      simp only [Option.bind_some]
      have hl := hr r hx
      rw [List.getD_eq_getElem?_getD, List.getElem?_eq_getElem (by omega)] at hs
      obtain ⟨v, hv⟩ := Option.isSome_iff_exists.mp hs
      exact ⟨v, by rw [List.getElem?_eq_getElem (by omega)]; simpa using hv⟩
    · rintro ⟨i, v, hv⟩
      cases h : a[i]? with
      | none => rw [h] at hv; cases hv
      | some r =>
        rw [h] at hv
        refine ⟨r, List.mem_of_getElem? h, ?_⟩
        simp only [Option.bind_some] at hv
        rw [List.getD_eq_getElem?_getD, hv]; rfl
  · rw [List.getElem?_eq_none (by simpa using Nat.le_of_not_lt hj)]
    simp only [Option.map_none, reduceCtorEq, false_iff, not_exists]
    intro i v hv
    cases h : a[i]? with
    | none => rw [h] at hv; cases hv
    | some r =>
      rw [h] at hv
      simp only [Option.bind_some] at hv
      have hl := hr r (List.mem_of_getElem? h)
      obtain ⟨hlt, -⟩ := List.getElem?_eq_some_iff.mp hv
      omega

private theorem argmaxBool_ok {l : List Bool} (h : l ≠ []) : ∃ k, argmaxBool l = .ok k := by
  unfold argmaxBool; rw [if_neg h]; exact ⟨_, rfl⟩

/-- C28: `data_extent` raises exactly when there is no non-missing cell. -/
theorem data_extent_raises_iff (nx : Nat) (a : FArray) (hr : Rect nx a) :
    Raises (dataExtent nx a) ↔ ∀ i j, ¬ HasData a i j := by
  unfold dataExtent
  by_cases hex : ∃ i j, HasData a i j
  · obtain ⟨i, j, hd⟩ := hex
    have h1 : (dataRows a)[i]? = some true := dataRows_true.mpr ⟨j, hd⟩
    have h2 : (dataCols nx a)[j]? = some true := (dataCols_true hr).mpr ⟨i, hd⟩
    have n1 : dataRows a ≠ [] := by intro h; rw [h] at h1; cases h1
    have n2 : dataCols nx a ≠ [] := by intro h; rw [h] at h2; cases h2
    obtain ⟨r0, e1⟩ := argmaxBool_ok n1
    obtain ⟨r1, e2⟩ := argmaxBool_ok (l := (dataRows a).reverse) (by simpa using n1)
    obtain ⟨c0, e3⟩ := argmaxBool_ok n2
    obtain ⟨c1, e4⟩ := argmaxBool_ok (l := (dataCols nx a).reverse) (by simpa using n2)
    have hne : ¬ (r0 = 0 ∧ (dataRows a).head? = some false) := by
      rintro ⟨rfl, hh⟩
      have := (argmaxBool_spec e1).2.1 ⟨i, h1⟩
      rw [List.head?_eq_getElem?, this] at hh
      cases hh
    constructor
    · rintro ⟨e, he⟩
      simp [e1, e2, e3, e4, hne, bind, Except.bind, pure, Except.pure] at he
    · intro hn; exact absurd hd (hn i j)
  · push Not at hex
    refine ⟨fun _ => hex, fun _ => ?_⟩
    have h0 : ∀ i : Nat, (dataRows a)[i]? ≠ some true := by
      intro i hi
      obtain ⟨j, hd⟩ := dataRows_true.mp hi
      exact hex i j hd
    by_cases n1 : dataRows a = []
    · exact ⟨.valueError, by simp [n1, argmaxBool, bind, Except.bind]⟩
    · obtain ⟨r0, e1⟩ := argmaxBool_ok n1
      have hz := (argmaxBool_spec e1).2.2 h0
      subst hz
      have hh : (dataRows a).head? = some false := by
        cases hl : dataRows a with
        | nil => exact absurd hl n1
        | cons b l =>
          cases b with
          | true => exact absurd (by rw [hl]; rfl) (h0 0)
          | false => rfl
      exact ⟨.valueError, by simp [e1, hh, bind, Except.bind, throw, throwThe, MonadExceptOf.throw]⟩

private theorem dataExtent_cases {nx : Nat} {a : FArray} {r c : Nat × Nat} (h : dataExtent nx a = .ok (r, c)) :
    ∃ r0 r1 c0 c1, argmaxBool (dataRows a) = .ok r0 ∧ argmaxBool (dataRows a).reverse = .ok r1 ∧
      argmaxBool (dataCols nx a) = .ok c0 ∧ argmaxBool (dataCols nx a).reverse = .ok c1 ∧
      r = (r0, (dataRows a).length - r1) ∧ c = (c0, (dataCols nx a).length - c1) := by
  unfold dataExtent at h
  simp only [bind, Except.bind, pure, Except.pure, throw, throwThe, MonadExceptOf.throw] at h
  cases e1 : argmaxBool (dataRows a) with
  | error e => rw [e1] at h; cases h
  | ok r0 =>
    rw [e1] at h
    simp only at h
    split at h
    · cases h
    · cases e2 : argmaxBool (dataRows a).reverse with
      | error e => rw [e2] at h; cases h
      | ok r1 =>
        cases e3 : argmaxBool (dataCols nx a) with
        | error e => rw [e2, e3] at h; cases h
        | ok c0 =>
          cases e4 : argmaxBool (dataCols nx a).reverse with
          | error e => rw [e2, e3, e4] at h; cases h
          | ok c1 =>
            rw [e2, e3, e4] at h
            cases h
            exact ⟨r0, r1, c0, c1, rfl, rfl, rfl, rfl, rfl, rfl⟩

/-- C28: the window covers every non-missing cell, and its first and last row and column each contain one. -/
theorem data_extent_spec (nx : Nat) (a : FArray) (hr : Rect nx a) (r c : Nat × Nat) (h : dataExtent nx a = .ok (r, c)) :
    r.1 < r.2 ∧ r.2 ≤ a.length ∧ c.1 < c.2 ∧ c.2 ≤ nx ∧
    (∀ i j, HasData a i j → (r.1 ≤ i ∧ i < r.2) ∧ (c.1 ≤ j ∧ j < c.2)) ∧
    (∃ j, HasData a r.1 j) ∧ (∃ j, HasData a (r.2 - 1) j) ∧
    (∃ i, HasData a i c.1) ∧ (∃ i, HasData a i (c.2 - 1)) := by
  have hex : ∃ i j, HasData a i j := by
    by_contra hc
    push Not at hc
    obtain ⟨e, he⟩ := (data_extent_raises_iff nx a hr).mpr hc
    rw [h] at he; cases he
  obtain ⟨i, j, hd⟩ := hex
  obtain ⟨r0, r1, c0, c1, e1, e2, e3, e4, rfl, rfl⟩ := dataExtent_cases h
  have h1 : (dataRows a)[i]? = some true := dataRows_true.mpr ⟨j, hd⟩
  have h2 : (dataCols nx a)[j]? = some true := (dataCols_true hr).mpr ⟨i, hd⟩
  obtain ⟨a1, a2, -⟩ := argmaxBool_spec e1
  obtain ⟨b1, b2, b3⟩ := argmaxBool_rev e2 ⟨i, h1⟩
  obtain ⟨c1', c2', -⟩ := argmaxBool_spec e3
  obtain ⟨d1, d2, d3⟩ := argmaxBool_rev e4 ⟨j, h2⟩
  have lr : (dataRows a).length = a.length := by simp [dataRows]
  have lc : (dataCols nx a).length = nx := by simp [dataCols]
  have p1 := b2 _ (a2 ⟨i, h1⟩)
  have p2 := d2 _ (c2' ⟨j, h2⟩)
  refine ⟨p1, by simp only; omega, p2, by simp only; omega, fun i' j' hd' => ?_, ?_, ?_, ?_, ?_⟩
  · have k1 : (dataRows a)[i']? = some true := dataRows_true.mpr ⟨j', hd'⟩
    have k2 : (dataCols nx a)[j']? = some true := (dataCols_true hr).mpr ⟨i', hd'⟩
    exact ⟨⟨a1 _ k1, b2 _ k1⟩, c1' _ k2, d2 _ k2⟩
  · exact dataRows_true.mp (a2 ⟨i, h1⟩)
  · exact dataRows_true.mp b3
  · exact (dataCols_true hr).mp (c2' ⟨j, h2⟩)
  · exact (dataCols_true hr).mp d3

/-- A case with missing borders and missing cells inside. -/
example : dataExtent 4 [[none, none, none, none], [none, some 1, none, none], [none, none, some 2, none],
    [none, none, none, none]] = .ok ((1, 3), (1, 3)) := by decide +kernel

/-! ### Windows -/

/-- Centres of `k` cells between limits half a cell beyond an arithmetic sequence are that sequence. -/
private theorem cellCenter_affine (p e : ℚ) (k : Nat) (hk : 0 < k) (i : Nat) :
    cellCenter (p - e / 2) (p + (k - 1) * e + e / 2) k i = p + i * e := by
  unfold cellCenter
  have hk0 : (k : ℚ) ≠ 0 := by exact_mod_cast hk.ne'
  push_cast
  field_simp
  ring

private theorem window_cell (a : FArray) (r c : Nat × Nat) (i j : Nat) (hi : i < r.2 - r.1) (hj : j < c.2 - c.1) :
    cellAt (window a r c) i j = cellAt a (r.1 + i) (c.1 + j) := by
  unfold cellAt window
  rw [List.getElem?_map, List.getElem?_take_of_lt hi, List.getElem?_drop]
  cases h : a[r.1 + i]? with
  | none => rfl
  | some row =>
    simp only [Option.map_some, Option.bind_some]
    rw [List.getElem?_take_of_lt hj, List.getElem?_drop]

private theorem window_rows (a : FArray) (r c : Nat × Nat) (h : r.2 ≤ a.length) :
    (window a r c).length = r.2 - r.1 := by
  simp [window]; omega

private theorem window_rect {nx : Nat} {a : FArray} (hr : Rect nx a) (r c : Nat × Nat) (h : c.2 ≤ nx) :
    Rect (c.2 - c.1) (window a r c) := by
  intro row hrow
  unfold window at hrow
  obtain ⟨row', hm, rfl⟩ := List.mem_map.mp hrow
  have := hr row' (List.mem_of_mem_drop (List.mem_of_mem_take hm))
  simp; omega

private theorem rect_head {nx : Nat} {a : FArray} (hr : Rect nx a) (h : 0 < a.length) : (a.headD []).length = nx := by
  cases a with
  | nil => simp at h
  | cons r l => exact hr r List.mem_cons_self

/-- The window of an axis: cells c0 ≤ c < c1. -/
private theorem sub_axis {a : GAxis} (hn : 0 < a.n) (h : a.lo ≠ a.hi) (c0 c1 : Nat) (hc : c0 < c1) (lo hi : ℚ)
    (hlo : lo = cellCenter a.lo a.hi a.n c0 - a.d / 2)
    (hhi : hi = cellCenter a.lo a.hi a.n ((c1 - 1 : Nat) : ℤ) + a.d / 2) :
    lo ≠ hi ∧ ∀ i : Nat, cellCenter lo hi (c1 - c0) i = cellCenter a.lo a.hi a.n ((c0 + i : Nat) : ℤ) := by
  have hk : 0 < c1 - c0 := by omega
  have e : hi = cellCenter a.lo a.hi a.n c0 + (((c1 - c0 : Nat) : ℚ) - 1) * a.d + a.d / 2 := by
    rw [hhi, GAxis.cellCenter_eq hn, GAxis.cellCenter_eq hn]
    rw [Nat.cast_sub hc.le, Int.cast_natCast, Nat.cast_sub (by omega)]
    push_cast
    ring
  have hd := GAxis.d_ne hn h
  refine ⟨?_, fun i => ?_⟩
  · rw [hlo, e]
    intro hh
    have h0 : ((c1 - c0 : Nat) : ℚ) * a.d = 0 := by linarith
    rcases mul_eq_zero.mp h0 with h0 | h0
    · have : c1 - c0 = 0 := by exact_mod_cast h0
      omega
    · exact hd h0
  · rw [hlo, e, cellCenter_affine _ _ _ hk, GAxis.cellCenter_eq hn, GAxis.cellCenter_eq hn]
    push_cast
    ring

private theorem slice_ends {a : GAxis} {l : List ℚ} (hl : IsCenters a l) (c0 c1 : Nat) (hc : c0 < c1) (h : c1 ≤ a.n) :
    ((l.drop c0).take (c1 - c0)).head? = some (cellCenter a.lo a.hi a.n c0) ∧
    ((l.drop c0).take (c1 - c0)).getLast? = some (cellCenter a.lo a.hi a.n ((c1 - 1 : Nat) : ℤ)) := by
  constructor
  · rw [List.head?_eq_getElem?, List.getElem?_take_of_lt (by omega), List.getElem?_drop]
    exact hl.2 _ (by omega)
  · rw [List.getLast?_eq_getElem?]
    have hlen : ((l.drop c0).take (c1 - c0)).length = c1 - c0 := by
      simp [hl.1]; omega
    rw [hlen, List.getElem?_take_of_lt (by omega), List.getElem?_drop, show c0 + (c1 - c0 - 1) = c1 - 1 by omega]
    exact hl.2 _ (by omega)

private theorem centers_ok {a : GAxis} (hn : 0 < a.n) : ∃ l, a.centers = .ok l ∧ IsCenters a l := by
  obtain ⟨l, h1, h2, h3⟩ := axis_centers_spec a hn
  exact ⟨l, h1, h2, h3⟩

private theorem parseLimits_ne {a b : ℚ} (h : a ≠ b) : parseLimits [a, b] = .ok (a, b) := by
  simp [parseLimits, h]

/-- C56: `crop_to_data` raises exactly when there is no data; otherwise every cell of the result is a cell of the original
with the same content at the same position, and every cell with data is kept. -/
theorem crop_to_data_spec (r : RasterV) (hr : r.Valid) :
    (Raises r.cropToData ↔ ∀ i j, ¬ HasData r.arr i j) ∧
    ∀ w, r.cropToData = .ok w → w.Valid ∧ ∃ r0 c0, CellsOf w r (r0 + ·) (c0 + ·) ∧
      (∀ i j, HasData r.arr i j → r0 ≤ i ∧ i - r0 < w.g.ay.n ∧ c0 ≤ j ∧ j - c0 < w.g.ax.n) ∧
      (∃ j, HasData w.arr 0 j) ∧ (∃ j, HasData w.arr (w.g.ay.n - 1) j) ∧
      (∃ i, HasData w.arr i 0) ∧ (∃ i, HasData w.arr i (w.g.ax.n - 1)) := by
  have hext := data_extent_raises_iff r.g.ax.n r.arr hr.cols
  cases he : dataExtent r.g.ax.n r.arr with
  | error e =>
    have hd := hext.mp ⟨e, he⟩
    have e1 : r.cropToData = .error e := by unfold RasterV.cropToData; rw [he]; rfl
    rw [e1]
    exact ⟨⟨fun _ => hd, fun _ => ⟨e, rfl⟩⟩, fun w hw => by cases hw⟩
  | ok p =>
    obtain ⟨rr, cc⟩ := p
    obtain ⟨p1, p2, p3, p4, p5, p6, p7, p8, p9⟩ := data_extent_spec _ _ hr.cols rr cc he
    obtain ⟨xs, hxs, hxc⟩ := centers_ok hr.grid.nx
    obtain ⟨ys, hys, hyc⟩ := centers_ok hr.grid.ny
    rw [hr.rows] at p2
    obtain ⟨x1, x2⟩ := slice_ends hxc cc.1 cc.2 p3 p4
    obtain ⟨y1, y2⟩ := slice_ends hyc rr.1 rr.2 p1 p2
    obtain ⟨nx, fx⟩ := sub_axis hr.grid.nx hr.grid.x cc.1 cc.2 p3 _ _ rfl rfl
    obtain ⟨ny, fy⟩ := sub_axis hr.grid.ny hr.grid.y rr.1 rr.2 p1 _ _ rfl rfl
    have ex : ∀ q d : ℚ, q + -(1 / 2) * d = q - d / 2 := fun q d => by ring
    have ex2 : ∀ q d : ℚ, q + 1 / 2 * d = q + d / 2 := fun q d => by ring
    have hwl := window_rows r.arr rr cc (by rw [hr.rows]; exact p2)
    have hwr := window_rect hr.cols rr cc p4
    have hwh := rect_head hwr (by rw [hwl]; omega)
    have e1 : r.cropToData = .ok
        { g := ⟨⟨cellCenter r.g.ax.lo r.g.ax.hi r.g.ax.n cc.1 - r.g.ax.d / 2,
                 cellCenter r.g.ax.lo r.g.ax.hi r.g.ax.n ((cc.2 - 1 : Nat) : ℤ) + r.g.ax.d / 2, cc.2 - cc.1⟩,
                ⟨cellCenter r.g.ay.lo r.g.ay.hi r.g.ay.n rr.1 - r.g.ay.d / 2,
                 cellCenter r.g.ay.lo r.g.ay.hi r.g.ay.n ((rr.2 - 1 : Nat) : ℤ) + r.g.ay.d / 2, rr.2 - rr.1⟩⟩,
          arr := window r.arr rr cc } := by
      unfold RasterV.cropToData
      simp only [he, hxs, hys, bind, Except.bind, pure, Except.pure, x1, x2, y1, y2, ex, ex2]
      rw [parseLimits_ne nx, parseLimits_ne ny]
      simp only [hwl, hwh]
    rw [e1]
    refine ⟨⟨fun ⟨e, h⟩ => (by cases h), fun hn => ?_⟩, fun w hw => ?_⟩
    · obtain ⟨j, hj⟩ := p6
      exact absurd hj (hn _ _)
    · cases hw
      have cw : ∀ i j, i < rr.2 - rr.1 → j < cc.2 - cc.1 →
          cellAt (window r.arr rr cc) i j = cellAt r.arr (rr.1 + i) (cc.1 + j) := window_cell _ _ _
      refine ⟨⟨⟨by simp only; omega, by simp only; omega, nx, ny⟩, hwl, hwr⟩, rr.1, cc.1, fun i j hi hj => ⟨cw i j hi hj, ?_⟩,
        fun i j hd => ?_, ?_, ?_, ?_, ?_⟩
      · unfold RasterV.center
        simp only
        rw [fx, fy]
      · obtain ⟨⟨q1, q2⟩, q3, q4⟩ := p5 i j hd
        simp only
        omega
      · obtain ⟨j, hj⟩ := p6
        have := (p5 _ _ hj).2
        refine ⟨j - cc.1, ?_⟩
        unfold HasData
        rw [cw 0 (j - cc.1) (by omega) (by omega)]
        rw [show cc.1 + (j - cc.1) = j by omega]
        exact hj
      · obtain ⟨j, hj⟩ := p7
        have := (p5 _ _ hj).2
        refine ⟨j - cc.1, ?_⟩
        unfold HasData
        simp only
        rw [cw _ (j - cc.1) (by omega) (by omega)]
        rw [show cc.1 + (j - cc.1) = j by omega, show rr.1 + (rr.2 - rr.1 - 1) = rr.2 - 1 by omega]
        exact hj
      · obtain ⟨i, hi⟩ := p8
        have := (p5 _ _ hi).1
        refine ⟨i - rr.1, ?_⟩
        unfold HasData
        rw [cw (i - rr.1) 0 (by omega) (by omega)]
        rw [show rr.1 + (i - rr.1) = i by omega]
        exact hi
      · obtain ⟨i, hi⟩ := p9
        have := (p5 _ _ hi).1
        refine ⟨i - rr.1, ?_⟩
        unfold HasData
        simp only
        rw [cw (i - rr.1) _ (by omega) (by omega)]
        rw [show rr.1 + (i - rr.1) = i by omega, show cc.1 + (cc.2 - cc.1 - 1) = cc.2 - 1 by omega]
        exact hi

/-- A raster with a border of missing cells on a descending y axis. -/
example : (⟨⟨⟨0, 6, 3⟩, ⟨4, 0, 2⟩⟩, [[none, some 1, none], [none, none, none]]⟩ : RasterV).cropToData =
    .ok ⟨⟨⟨2, 4, 1⟩, ⟨4, 2, 1⟩⟩, [[some 1]]⟩ := by decide +kernel

private theorem sub_axis_edges {a : GAxis} (hn : 0 < a.n) (h : a.lo ≠ a.hi) (c0 c1 : ℤ) (h0 : 0 ≤ c0) (hc : c0 ≤ c1) :
    cellEdge a.lo a.hi a.n c0 ≠ cellEdge a.lo a.hi a.n (c1 + 1) ∧
    ∀ i : Nat, cellCenter (cellEdge a.lo a.hi a.n c0) (cellEdge a.lo a.hi a.n (c1 + 1)) ((c1 + 1).toNat - c0.toNat) i =
      cellCenter a.lo a.hi a.n ((c0.toNat + i : Nat) : ℤ) := by
  have e0 : ((c0.toNat : ℤ)) = c0 := Int.toNat_of_nonneg h0
  have e1 : (((c1 + 1).toNat - 1 : Nat) : ℤ) = c1 := by omega
  refine sub_axis hn h c0.toNat (c1 + 1).toNat (by omega) _ _ ?_ ?_
  · rw [e0, GAxis.cellCenter_eq hn, GAxis.cellEdge_eq]; ring
  · rw [e1, GAxis.cellCenter_eq hn, GAxis.cellEdge_eq]; push_cast; ring

private theorem center_in_range {a : GAxis} (hn : 0 < a.n) (h : a.lo ≠ a.hi) (c0 c1 c : ℤ)
    (hin : InCells a c0 c1 (cellCenter a.lo a.hi a.n c)) (h01 : c0 ≤ c1) : c0 ≤ c ∧ c ≤ c1 := by
  have hd := GAxis.d_ne hn h
  unfold InCells Between at hin
  rw [GAxis.cellCenter_eq hn, GAxis.cellEdge_eq, GAxis.cellEdge_eq] at hin
  have key : ∀ p q : ℤ, ((p : ℚ) - q - 1 / 2) * a.d ≤ 0 → 0 < a.d → p ≤ q := by
    intro p q hpq hpos
    have : (p : ℚ) - q - 1 / 2 ≤ 0 := by
      by_contra hc
      push Not at hc
      nlinarith [mul_pos hc hpos]
    have : (p : ℚ) < q + 1 := by linarith
    have : p < q + 1 := by exact_mod_cast this
    omega
  have key' : ∀ p q : ℤ, 0 ≤ ((p : ℚ) - q - 1 / 2) * a.d → a.d < 0 → p ≤ q := by
    intro p q hpq hneg
    have : (p : ℚ) - q - 1 / 2 ≤ 0 := by
      by_contra hc
      push Not at hc
      nlinarith [mul_neg_of_pos_of_neg hc hneg]
    have : (p : ℚ) < q + 1 := by linarith
    have : p < q + 1 := by exact_mod_cast this
    omega
  have hcast : (c0 : ℚ) ≤ c1 := by exact_mod_cast h01
  push_cast at hin
  rcases lt_or_gt_of_ne hd with hneg | hpos
  · rcases hin with ⟨h1, h2⟩ | ⟨h1, h2⟩
    · exfalso
      have : ((c1 : ℚ) + 1 - c0) * a.d < 0 := mul_neg_of_pos_of_neg (by linarith) hneg
      nlinarith
    · exact ⟨key' c0 c (by nlinarith) hneg, key' c c1 (by nlinarith) hneg⟩
  · rcases hin with ⟨h1, h2⟩ | ⟨h1, h2⟩
    · exact ⟨key c0 c (by nlinarith) hpos, key c c1 (by nlinarith) hpos⟩
    · exfalso
      have : 0 < ((c1 : ℚ) + 1 - c0) * a.d := mul_pos (by linarith) hpos
      nlinarith

instance (a b v : ℚ) : Decidable (Between a b v) := by unfold Between; infer_instance

/-- Specification of the z filter: a value outside the range becomes missing. -/
def zCrop (zlim : Option (ℚ × ℚ)) (v : Option ℚ) : Option ℚ :=
  match zlim with
  | none => v
  | some z => v.filter fun q => decide (Between z.1 z.2 q)

private theorem between_iff_not (a b v : ℚ) : Between a b v ↔ ¬ (v < min a b ∨ v > max a b) := by
  have := GAxis.between_iff (a := ⟨a, b, 1⟩) v
  simp only [GAxis.min, GAxis.max] at this
  rw [this]
  push Not
  exact Iff.rfl

private theorem zstep_cell (zlim : Option (ℚ × ℚ)) (r : RasterV) (hr : r.Valid) :
    let w := r.cropZ zlim
    w.Valid ∧ w.g = r.g ∧ ∀ i j, cellAt w.arr i j = (cellAt r.arr i j).map (zCrop zlim) := by
  cases zlim with
  | none =>
    refine ⟨hr, rfl, fun i j => ?_⟩
    unfold RasterV.cropZ
    simp only
    cases cellAt r.arr i j <;> rfl
  | some z =>
    refine ⟨⟨hr.grid, by simpa [RasterV.cropZ] using hr.rows, ?_⟩, rfl, fun i j => ?_⟩
    · intro row hrow
      unfold RasterV.cropZ at hrow
      obtain ⟨row', hm, rfl⟩ := List.mem_map.mp hrow
      rw [List.length_map]
      exact hr.cols row' hm
    · unfold cellAt RasterV.cropZ
      simp only [List.getElem?_map]
      cases r.arr[i]? with
      | none => rfl
      | some row =>
        simp only [Option.map_some, Option.bind_some, List.getElem?_map]
        cases row[j]? with
        | none => rfl
        | some v =>
          cases v with
          | none => rfl
          | some q =>
            simp only [Option.map_some, zCrop, Option.filter]
            by_cases hq : q < min z.1 z.2 ∨ q > max z.1 z.2
            · have hb : ¬ Between z.1 z.2 q := fun hb => (between_iff_not _ _ _).mp hb hq
              rw [if_pos hq, if_neg (by simpa using hb)]
            · have hb : Between z.1 z.2 q := (between_iff_not _ _ _).mpr hq
              rw [if_neg hq, if_pos (by simpa using hb)]

/-- C56: `crop(xlim, ylim, zlim)` raises exactly when a spatial bound is given that does not overlap the raster; otherwise
every cell of the result is a cell of the original at the same position, with the same content unless it is outside zlim
(then missing), and every cell whose centre is within the bounds is kept. -/
theorem crop_spec (r : RasterV) (hr : r.Valid) (xlim ylim zlim : Option (ℚ × ℚ)) :
    (Raises (r.crop xlim ylim zlim) ↔ (xlim.isSome ∨ ylim.isSome) ∧
      ¬ (Overlaps (request xlim r.g.ax) r.g.ax ∧ Overlaps (request ylim r.g.ay) r.g.ay)) ∧
    ∀ w, r.crop xlim ylim zlim = .ok w → w.Valid ∧ ∃ r0 c0,
      (∀ i j, i < w.g.ay.n → j < w.g.ax.n →
        cellAt w.arr i j = (cellAt r.arr (r0 + i) (c0 + j)).map (zCrop zlim) ∧
        w.center i j = r.center (r0 + i) (c0 + j)) ∧
      ∀ i j, i < r.g.ay.n → j < r.g.ax.n →
        (∀ l, xlim = some l → Between l.1 l.2 (r.center i j).1) →
        (∀ l, ylim = some l → Between l.1 l.2 (r.center i j).2) →
        r0 ≤ i ∧ i - r0 < w.g.ay.n ∧ c0 ≤ j ∧ j - c0 < w.g.ax.n := by
  by_cases hs : xlim.isSome ∨ ylim.isSome
  · have hs' : (xlim.isSome || ylim.isSome) = true := by simpa using hs
    have hcr := crop_extent_raises_iff r.g xlim ylim
    cases he : r.g.cropExtent xlim ylim with
    | error e =>
      have e1 : r.crop xlim ylim zlim = .error e := by
        unfold RasterV.crop; rw [if_pos hs', he]; rfl
      rw [e1]
      exact ⟨⟨fun _ => ⟨hs, hcr.mp ⟨e, he⟩⟩, fun _ => ⟨e, rfl⟩⟩, fun w hw => by cases hw⟩
    | ok e =>
      obtain ⟨c1, c2, c3, c4, c5, c6, -, -⟩ := crop_extent_spec r.g hr.grid xlim ylim e he
      obtain ⟨nx, fx⟩ := sub_axis_edges hr.grid.nx hr.grid.x e.cols.1 e.cols.2 c1.1 c1.2.1
      obtain ⟨ny, fy⟩ := sub_axis_edges hr.grid.ny hr.grid.y e.rows.1 e.rows.2 c2.1 c2.2.1
      set rr : Nat × Nat := (e.rows.1.toNat, (e.rows.2 + 1).toNat) with hrr
      set cc : Nat × Nat := (e.cols.1.toNat, (e.cols.2 + 1).toNat) with hcc
      have hwl := window_rows r.arr rr cc (by rw [hr.rows, hrr]; simp only; omega)
      have hwr := window_rect hr.cols rr cc (by rw [hcc]; simp only; omega)
      have hpos : 0 < rr.2 - rr.1 := by rw [hrr]; simp only; omega
      have hposc : 0 < cc.2 - cc.1 := by rw [hcc]; simp only; omega
      have hwh := rect_head hwr (by rw [hwl]; exact hpos)
      let m : RasterV := { g := ⟨⟨cellEdge r.g.ax.lo r.g.ax.hi r.g.ax.n e.cols.1,
            cellEdge r.g.ax.lo r.g.ax.hi r.g.ax.n (e.cols.2 + 1), cc.2 - cc.1⟩,
          ⟨cellEdge r.g.ay.lo r.g.ay.hi r.g.ay.n e.rows.1,
            cellEdge r.g.ay.lo r.g.ay.hi r.g.ay.n (e.rows.2 + 1), rr.2 - rr.1⟩⟩, arr := window r.arr rr cc }
      have hm : m.Valid := ⟨⟨hposc, hpos, nx, ny⟩, hwl, hwr⟩
      obtain ⟨z1, z2, z3⟩ := zstep_cell zlim m hm
      have e1 : r.crop xlim ylim zlim = .ok (m.cropZ zlim) := by
        unfold RasterV.crop
        rw [if_pos hs', he]
        simp only [bind, Except.bind, pure, Except.pure, c3, c4]
        rw [parseLimits_ne nx, parseLimits_ne ny]
        simp only [← hrr, ← hcc, hwl, hwh, m]
      rw [e1]
      refine ⟨⟨fun ⟨_, h⟩ => (by cases h), fun ⟨_, hn⟩ => ?_⟩, fun w hw => ?_⟩
      · obtain ⟨e', he'⟩ := hcr.mpr hn
        rw [he] at he'; cases he'
      · simp only [Except.ok.injEq] at hw
        rw [hw] at z1 z2 z3
        refine ⟨z1, rr.1, cc.1, fun i j hi hj => ?_, fun i j hi hj hx hy => ?_⟩
        · rw [z2] at hi hj
          refine ⟨?_, ?_⟩
          · rw [z3, window_cell r.arr rr cc i j hi hj]
          · unfold RasterV.center
            rw [z2]
            have := fx j
            have := fy i
            simp only [m, hrr, hcc]
            rw [fx, fy]
        · rw [z2]
          have ge : ∀ (a : GAxis) (hn : 0 < a.n) (hne : a.lo ≠ a.hi) (q : Option (ℚ × ℚ)) (c0 c1 : ℤ) (c : Nat), c < a.n →
              c0 ≤ c1 → (∀ v, InClipped (request q a) a v → InCells a c0 c1 v) →
              (∀ l, q = some l → Between l.1 l.2 (cellCenter a.lo a.hi a.n c)) → c0 ≤ c ∧ (c : ℤ) ≤ c1 := by
            intro a hn hne q c0 c1 c hc h01 hin hq
            have hb : Between a.lo a.hi (cellCenter a.lo a.hi a.n c) := by
              rw [GAxis.cellCenter_eq hn]
              have hnd := GAxis.n_mul_d hn
              have h1 : (0 : ℚ) < (c : ℚ) + 1 / 2 := by positivity
              have h2 : (c : ℚ) + 1 ≤ a.n := by exact_mod_cast hc
              rcases lt_or_gt_of_ne (GAxis.d_ne hn hne) with hneg | hpos
              · right; push_cast; constructor <;> nlinarith
              · left; push_cast; constructor <;> nlinarith
            refine center_in_range hn hne _ _ _ (hin _ ⟨?_, hb⟩) h01
            cases q with
            | none => exact hb
            | some l => exact hq l rfl
          have g1 := ge r.g.ax hr.grid.nx hr.grid.x xlim _ _ j hj c1.2.1 c5 hx
          have g2 := ge r.g.ay hr.grid.ny hr.grid.y ylim _ _ i hi c2.2.1 c6 hy
          simp only [m, hrr, hcc]
          omega
  · have hs' : ¬ ((xlim.isSome || ylim.isSome) = true) := by simpa using hs
    obtain ⟨z1, z2, z3⟩ := zstep_cell zlim r hr
    have e1 : r.crop xlim ylim zlim = .ok (r.cropZ zlim) := by
      unfold RasterV.crop
      rw [if_neg hs']
      rfl
    rw [e1]
    refine ⟨⟨fun ⟨_, h⟩ => (by cases h), fun ⟨h, _⟩ => absurd h hs⟩, fun w hw => ?_⟩
    simp only [Except.ok.injEq] at hw
    rw [hw] at z1 z2 z3
    refine ⟨z1, 0, 0, fun i j hi hj => ⟨?_, ?_⟩, fun i j hi hj _ _ => ?_⟩
    · simpa using z3 i j
    · unfold RasterV.center; rw [z2]; simp
    · rw [z2]; omega

/-- A crop in x and z. -/
example : (⟨⟨⟨0, 6, 3⟩, ⟨4, 0, 2⟩⟩, [[none, some 1, some 2], [some 3, some 4, some 5]]⟩ : RasterV).crop
    (some (3, 6)) none (some (1, 4)) = .ok ⟨⟨⟨2, 6, 2⟩, ⟨4, 0, 2⟩⟩, [[some 1, some 2], [some 4, none]]⟩ := by decide +kernel

/-! ### Indexing -/

private theorem slice_bounds (s : PySlice) (n : Nat) :
    (s.step.getD 1 > 0 → 0 ≤ s.first n ∧ s.last n ≤ n) ∧ (¬ s.step.getD 1 > 0 → s.first n ≤ n - 1 ∧ -1 ≤ s.last n) := by
  unfold PySlice.first PySlice.last sliceBound
  refine ⟨fun hst => ⟨?_, ?_⟩, fun hst => ⟨?_, ?_⟩⟩
  · cases s.start with
    | none => simp [hst]
    | some k => simp only [Option.elim_some, hst, if_true]; split <;> omega
  · cases s.stop with
    | none => simp [hst]
    | some k => simp only [Option.elim_some, hst, if_true]; split <;> omega
  · cases s.start with
    | none => simp [hst]
    | some k => simp only [Option.elim_some, hst, if_false]; split <;> omega
  · cases s.stop with
    | none => simp [hst]
    | some k => simp only [Option.elim_some, hst, if_false]; split <;> omega

private theorem slice_in (n : Nat) (st a b : ℤ) (h0 : st ≠ 0) (hp : st > 0 → 0 ≤ a ∧ b ≤ n)
    (hm : ¬ st > 0 → a ≤ n - 1 ∧ -1 ≤ b) (i : Nat) (hi : i < (sliceCount st a b).toNat) :
    0 ≤ a + i * st ∧ a + i * st < n := by
  unfold sliceCount at hi
  split at hi
  · rename_i hst
    split at hi
    · rename_i hab
      have h1 : (i : ℤ) ≤ (b - a - 1) / st := by omega
      have h2 : (i : ℤ) * st ≤ b - a - 1 := by
        calc (i : ℤ) * st ≤ (b - a - 1) / st * st := by nlinarith
          _ ≤ b - a - 1 := Int.ediv_mul_le _ h0
      have := hp hst
      have : 0 ≤ (i : ℤ) * st := by positivity
      omega
    · simp at hi
  · rename_i hst
    split at hi
    · rename_i hab
      have h1 : (i : ℤ) ≤ (a - b - 1) / (-st) := by omega
      have hst' : 0 ≤ -st := by omega
      have h2 : (i : ℤ) * (-st) ≤ a - b - 1 := by
        calc (i : ℤ) * (-st) ≤ (a - b - 1) / (-st) * (-st) := by nlinarith
          _ ≤ a - b - 1 := Int.ediv_mul_le _ (by omega)
      have := hm hst
      have : 0 ≤ (i : ℤ) * (-st) := by positivity
      have e : (i : ℤ) * (-st) = -((i : ℤ) * st) := by ring
      omega
    · simp at hi

private theorem indices_spec {s : PySlice} {n : Nat} {l : List Nat} (h : s.indices n = .ok l) :
    s.step.getD 1 ≠ 0 ∧ ∀ i, i < l.length →
      ∃ c : Nat, l[i]? = some c ∧ (c : ℤ) = s.first n + i * s.step.getD 1 ∧ c < n := by
  unfold PySlice.indices at h
  split at h
  · cases h
  rename_i hne
  simp only [Except.ok.injEq] at h
  refine ⟨hne, fun i hi => ?_⟩
  rw [← h] at hi ⊢
  rw [List.length_map, List.length_range] at hi
  obtain ⟨b1, b2⟩ := slice_in n _ _ _ hne (slice_bounds s n).1 (slice_bounds s n).2 i hi
  refine ⟨_, by rw [List.getElem?_map, List.getElem?_range hi]; rfl, Int.toNat_of_nonneg b1, by omega⟩

/-- Limits of the selected cells: half a step beyond the first and last. -/
private theorem subsetLimits_spec (d p : ℚ) (hd : d ≠ 0) (s : PySlice) (hs : s.step.getD 1 ≠ 0) (xs : List ℚ)
    (hx : ∀ i, i < xs.length → xs[i]? = some (p + i * (d * s.step.getD 1))) (hk : 0 < xs.length)
    (h2 : s.step.getD 1 < 0 → xs.length ≠ 2) :
    ∃ lo hi, subsetLimits d s xs = .ok (lo, hi) ∧ lo ≠ hi ∧
      ∀ i, i < xs.length → cellCenter lo hi xs.length i = p + i * (d * s.step.getD 1) := by
  have hsq : ((s.step.getD 1 : ℤ) : ℚ) ≠ 0 := by exact_mod_cast hs
  have hmul : d * (s.step.getD 1 : ℤ) ≠ 0 := mul_ne_zero hd hsq
  set d' : ℚ := if s.step.getD 0 ≠ 0 ∧ s.step.getD 0 > 1 then d * (s.step.getD 0 : ℤ) else d with hd'
  have hd'0 : d' ≠ 0 := by
    rw [hd']
    split
    · rename_i h
      exact mul_ne_zero hd (by exact_mod_cast h.1)
    · exact hd
  have hpos : ¬ s.step.getD 1 < 0 → d' = d * (s.step.getD 1 : ℤ) := by
    intro hn
    rw [hd']
    cases hst : s.step with
    | none => simp
    | some st =>
      rw [hst] at hn hs
      simp only [Option.getD_some] at hn hs ⊢
      split
      · rfl
      · have : st = 1 := by omega
        subst this; simp
  have h0 := hx 0 hk
  simp only [Nat.cast_zero, zero_mul, add_zero] at h0
  have hlast := hx (xs.length - 1) (by omega)
  rw [← List.getLast?_eq_getElem?] at hlast
  rw [← List.head?_eq_getElem?] at h0
  have kcast : ((xs.length - 1 : Nat) : ℚ) = (xs.length : ℚ) - 1 := by
    rw [Nat.cast_sub (by omega)]; simp
  have hkq : (xs.length : ℚ) ≠ 0 := by exact_mod_cast hk.ne'
  -- the limits for a step e between centres
  have fin : ∀ e : ℚ, e ≠ 0 → (p - e / 2 ≠ p + (xs.length - 1) * e + e / 2) := by
    intro e he hh
    have : (xs.length : ℚ) * e = 0 := by linarith
    rcases mul_eq_zero.mp this with h | h
    · exact hkq h
    · exact he h
  by_cases hlt : xs.length < 3
  · have hval : subsetLimits d s xs = (do
        let (lim, _, _) ← parseVec [p + -(1 / 2) * d', p + (xs.length - 1) * (d * s.step.getD 1) + 1 / 2 * d'] false
        return lim : Except Err (ℚ × ℚ)) := by
      unfold subsetLimits
      simp only [hlt, if_true, h0, hlast, ← hd', bind, Except.bind, kcast]
    -- in both cases the span is length * d'
    have hspan : (xs.length - 1) * (d * s.step.getD 1) = ((xs.length : ℚ) - 1) * d' := by
      by_cases h1 : xs.length = 1
      · rw [h1]; simp
      · have : ¬ s.step.getD 1 < 0 := fun hneg => h2 hneg (by omega)
        rw [hpos this]
    refine ⟨p - d' / 2, p + (xs.length - 1) * d' + d' / 2, ?_, fin d' hd'0, fun i hi => ?_⟩
    · rw [hval, hspan]
      unfold parseVec
      rw [if_neg (by simp)]
      rw [show p + -(1 / 2) * d' = p - d' / 2 by ring, show p + ((xs.length : ℚ) - 1) * d' + 1 / 2 * d' = p + ((xs.length : ℚ) - 1) * d' + d' / 2 by ring,
        parseLimits_ne (fin d' hd'0)]
      rfl
    · rw [cellCenter_affine _ _ _ hk]
      by_cases h1 : xs.length = 1
      · have : i = 0 := by omega
        subst this; simp
      · have : ¬ s.step.getD 1 < 0 := fun hneg => h2 hneg (by omega)
        rw [hpos this]
  · have h1 := hx 1 (by omega)
    refine ⟨p - (d * s.step.getD 1) / 2, p + (xs.length - 1) * (d * s.step.getD 1) + (d * s.step.getD 1) / 2, ?_,
      fin _ hmul, fun i hi => cellCenter_affine _ _ _ hk i⟩
    have g0 : xs.getD 0 0 = p := by
      rw [List.getD_eq_getElem?_getD, ← List.head?_eq_getElem?, h0]; rfl
    have g1 : xs.getD 1 0 = p + d * s.step.getD 1 := by
      rw [List.getD_eq_getElem?_getD, h1]; simp
    have g2 : xs.getLastD 0 = p + (xs.length - 1) * (d * s.step.getD 1) := by
      rw [List.getLastD_eq_getLast?, hlast, kcast]; rfl
    unfold subsetLimits
    simp only [hlt, if_false, bind, Except.bind, parseVec]
    rw [if_pos (by omega)]
    rw [g0, g1, g2, show p + d * (s.step.getD 1 : ℚ) - p = d * s.step.getD 1 by ring, parseLimits_ne (fin _ hmul)]
    rfl

/-- The cells an index selects. -/
def PyIndex.cells (i : PyIndex) (n : Nat) : Except Err (List Nat) := i.toSlice.indices n

/-- The indices a raster can be subset with: a slice whose step is not negative, or does not select exactly two cells;
an integer that is not negative. -/
def PyIndex.Good (i : PyIndex) (n : Nat) : Prop :=
  match i with
  | .int k => 0 ≤ k
  | .slice s => s.step.getD 1 < 0 → ∀ l, s.indices n = .ok l → l.length ≠ 2

private theorem good_slice {i : PyIndex} {n : Nat} (h : i.Good n) :
    i.toSlice.step.getD 1 < 0 → ∀ l, i.toSlice.indices n = .ok l → l.length ≠ 2 := by
  cases i with
  | int k => intro hh; simp [PyIndex.toSlice] at hh
  | slice s => exact h

/-- One axis of a subset. -/
private theorem subset_axis {a : GAxis} (hn : 0 < a.n) (hne : a.lo ≠ a.hi) {i : PyIndex} (hg : i.Good a.n) {l : List Nat}
    (hl : i.toSlice.indices a.n = .ok l) {xs : List ℚ} (hxs : IsCenters a xs) (hk : 0 < l.length) :
    ∃ lo hi, subsetLimits a.d i.toSlice (l.map fun c => xs.getD c 0) = .ok (lo, hi) ∧ lo ≠ hi ∧
      ∀ k, k < l.length → cellCenter lo hi l.length k = cellCenter a.lo a.hi a.n ((l.getD k 0 : Nat) : ℤ) := by
  obtain ⟨s0, s1⟩ := indices_spec hl
  have hget : ∀ k, k < l.length → ∃ c : Nat, l[k]? = some c ∧ (c : ℤ) = i.toSlice.first a.n + k * i.toSlice.step.getD 1 ∧
      cellCenter a.lo a.hi a.n c = cellCenter a.lo a.hi a.n (i.toSlice.first a.n) + k * (a.d * i.toSlice.step.getD 1) := by
    intro k hk
    obtain ⟨c, c1, c2, c3⟩ := s1 k hk
    refine ⟨c, c1, c2, ?_⟩
    rw [GAxis.cellCenter_eq hn, GAxis.cellCenter_eq hn, c2]
    push_cast
    ring
  have hx : ∀ k, k < (l.map fun c => xs.getD c 0).length → (l.map fun c => xs.getD c 0)[k]? =
      some (cellCenter a.lo a.hi a.n (i.toSlice.first a.n) + k * (a.d * i.toSlice.step.getD 1)) := by
    intro k hk
    rw [List.length_map] at hk
    obtain ⟨c, c1, c2, c3⟩ := s1 k hk
    obtain ⟨c', c1', -, c3'⟩ := hget k hk
    rw [c1] at c1'
    cases c1'
    rw [List.getElem?_map, c1]
    simp only [Option.map_some, Option.some.injEq]
    rw [List.getD_eq_getElem?_getD, hxs.2 c c3, ← c3']
    rfl
  obtain ⟨lo, hi, e1, e2, e3⟩ := subsetLimits_spec a.d _ (GAxis.d_ne hn hne) i.toSlice s0 _ hx
    (by rw [List.length_map]; exact hk) (fun hneg => by rw [List.length_map]; exact good_slice hg hneg l hl)
  refine ⟨lo, hi, e1, e2, fun k hk => ?_⟩
  rw [List.length_map] at e3
  obtain ⟨c, c1, -, c3⟩ := hget k hk
  rw [e3 k hk, ← c3, List.getD_eq_getElem?_getD, c1]
  rfl

/-- C56: subsetting a raster with integers that are not negative or slices (not selecting two cells backwards) raises
exactly when an axis has no selected cell (or a step is zero); otherwise cell (i, j) of the result has the content and
the position of the cell selected as i-th row and j-th column. -/
theorem getitem_spec_partial (r : RasterV) (hr : r.Valid) (i j : PyIndex) (hi : i.Good r.g.ay.n) (hj : j.Good r.g.ax.n) :
    (Returns (r.getitem i j) ↔
      ∃ rows cols, i.cells r.g.ay.n = .ok rows ∧ j.cells r.g.ax.n = .ok cols ∧ rows ≠ [] ∧ cols ≠ []) ∧
    ∀ w, r.getitem i j = .ok w → ∃ rows cols, i.cells r.g.ay.n = .ok rows ∧ j.cells r.g.ax.n = .ok cols ∧
      w.g.ay.n = rows.length ∧ w.g.ax.n = cols.length ∧ w.Valid ∧ CellsOf w r (rows.getD · 0) (cols.getD · 0) := by
  obtain ⟨xs, hxs, hxc⟩ := centers_ok hr.grid.nx
  obtain ⟨ys, hys, hyc⟩ := centers_ok hr.grid.ny
  cases hc : j.toSlice.indices r.g.ax.n with
  | error e =>
    have e1 : r.getitem i j = .error e := by
      unfold RasterV.getitem; simp only [hxs, hc, bind, Except.bind]
    rw [e1]
    refine ⟨⟨fun ⟨_, h⟩ => (by cases h), fun ⟨_, _, _, h, _⟩ => ?_⟩, fun w hw => by cases hw⟩
    rw [PyIndex.cells, hc] at h; cases h
  | ok cols =>
    cases hrw : i.toSlice.indices r.g.ay.n with
    | error e =>
      have e1 : r.getitem i j = .error e := by
        unfold RasterV.getitem; simp only [hxs, hc, hys, hrw, bind, Except.bind]
      rw [e1]
      refine ⟨⟨fun ⟨_, h⟩ => (by cases h), fun ⟨_, _, h, _⟩ => ?_⟩, fun w hw => by cases hw⟩
      rw [PyIndex.cells, hrw] at h; cases h
    | ok rows =>
      have e0 : r.getitem i j = (do
          let xlim ← subsetLimits r.g.ax.d j.toSlice (cols.map fun c => xs.getD c 0)
          let ylim ← subsetLimits r.g.ay.d i.toSlice (rows.map fun c => ys.getD c 0)
          return { g := ⟨⟨xlim.1, xlim.2, cols.length⟩, ⟨ylim.1, ylim.2, rows.length⟩⟩,
                   arr := takeRowsCols r.arr rows cols }) := by
        unfold RasterV.getitem; simp only [hxs, hc, hys, hrw, bind, Except.bind]
      have empty : ∀ (d : ℚ) (s : PySlice), subsetLimits d s [] = .error .indexError := by
        intro d s; simp [subsetLimits, bind, Except.bind]
      by_cases hce : cols = []
      · subst hce
        have e1 : r.getitem i j = .error .indexError := by rw [e0, List.map_nil, empty]; rfl
        rw [e1]
        refine ⟨⟨fun ⟨_, h⟩ => (by cases h), fun ⟨_, _, _, h, _, hn⟩ => ?_⟩, fun w hw => by cases hw⟩
        rw [PyIndex.cells, hc] at h; cases h; exact absurd rfl hn
      · obtain ⟨xl, xh, x1, x2, x3⟩ := subset_axis hr.grid.nx hr.grid.x hj hc hxc (List.length_pos_iff.mpr hce)
        by_cases hre : rows = []
        · subst hre
          have e1 : r.getitem i j = .error .indexError := by rw [e0, x1, List.map_nil, empty]; rfl
          rw [e1]
          refine ⟨⟨fun ⟨_, h⟩ => (by cases h), fun ⟨_, _, h, _, hn, _⟩ => ?_⟩, fun w hw => by cases hw⟩
          rw [PyIndex.cells, hrw] at h; cases h; exact absurd rfl hn
        · obtain ⟨yl, yh, y1, y2, y3⟩ := subset_axis hr.grid.ny hr.grid.y hi hrw hyc (List.length_pos_iff.mpr hre)
          have e1 : r.getitem i j = .ok ⟨⟨⟨xl, xh, cols.length⟩, ⟨yl, yh, rows.length⟩⟩,
              takeRowsCols r.arr rows cols⟩ := by
            rw [e0, x1, y1]; rfl
          rw [e1]
          refine ⟨⟨fun _ => ⟨rows, cols, hrw, hc, hre, hce⟩, fun _ => ⟨_, rfl⟩⟩, fun w hw => ?_⟩
          cases hw
          refine ⟨rows, cols, hrw, hc, rfl, rfl,
            ⟨⟨List.length_pos_iff.mpr hce, List.length_pos_iff.mpr hre, x2, y2⟩, by simp [takeRowsCols], ?_⟩, ?_⟩
          · intro row hrow
            obtain ⟨k, -, rfl⟩ := List.mem_map.mp hrow
            simp
          · intro a b ha hb
            simp only at ha hb
            refine ⟨?_, ?_⟩
            · obtain ⟨cr, cr1, -, cr3⟩ := (indices_spec hrw).2 a ha
              obtain ⟨cb, cb1, -, cb3⟩ := (indices_spec hc).2 b hb
              have g1 : rows.getD a 0 = cr := by rw [List.getD_eq_getElem?_getD, cr1]; rfl
              have g2 : cols.getD b 0 = cb := by rw [List.getD_eq_getElem?_getD, cb1]; rfl
              simp only [g1, g2]
              unfold cellAt takeRowsCols
              simp only [List.getElem?_map, cr1, Option.map_some, Option.bind_some, cb1]
              have hlt : cr < r.arr.length := by rw [hr.rows]; exact cr3
              have hrow : r.arr[cr]? = some r.arr[cr] := List.getElem?_eq_getElem hlt
              have hrowD : r.arr.getD cr [] = r.arr[cr] := by rw [List.getD_eq_getElem?_getD, hrow]; rfl
              have hlt2 : cb < (r.arr[cr]).length := by rw [hr.cols _ (List.getElem_mem hlt)]; exact cb3
              rw [hrow, hrowD, List.getD_eq_getElem?_getD]
              simp only [Option.bind_some]
              rw [List.getElem?_eq_getElem hlt2]
              rfl
            · unfold RasterV.center
              simp only
              rw [x3 b hb, y3 a ha]

/-- Every second column of the last rows. -/
example : (⟨⟨⟨0, 6, 3⟩, ⟨4, 0, 2⟩⟩, [[none, some 1, some 2], [some 3, some 4, some 5]]⟩ : RasterV).getitem
    (.int 1) (.slice ⟨none, none, some 2⟩) = .ok ⟨⟨⟨-1, 7, 2⟩, ⟨2, 0, 1⟩⟩, [[some 3, some 5]]⟩ := by decide +kernel

/-- C56 fails: the index -1 (the last row) raises on every raster. -/
theorem getitem_minus_one_violated (r : RasterV) (hr : r.Valid) (j : PyIndex) : Raises (r.getitem (.int (-1)) j) := by
  obtain ⟨xs, hxs, hxc⟩ := centers_ok hr.grid.nx
  obtain ⟨ys, hys, hyc⟩ := centers_ok hr.grid.ny
  have hrw : (PyIndex.int (-1)).toSlice.indices r.g.ay.n = .ok [] := by
    have hny : (r.g.ay.n : ℤ) > 0 := by exact_mod_cast hr.grid.ny
    simp only [PyIndex.toSlice, PySlice.indices, PySlice.first, PySlice.last, sliceBound, sliceCount, Option.getD_none,
      Option.elim_some]
    simp [hny.le]
  unfold RasterV.getitem
  cases hc : j.toSlice.indices r.g.ax.n with
  | error e => exact ⟨e, by simp only [hxs, hc, bind, Except.bind]⟩
  | ok cols =>
    cases hx : subsetLimits r.g.ax.d j.toSlice (cols.map fun c => xs.getD c 0) with
    | error e => exact ⟨e, by simp only [hxs, hc, hys, hrw, hx, bind, Except.bind]⟩
    | ok l =>
      have hy : subsetLimits r.g.ay.d (PyIndex.int (-1)).toSlice [] = .error .indexError := by
        simp [subsetLimits, bind, Except.bind]
      exact ⟨.indexError, by simp only [hxs, hc, hys, hrw, hx, List.map_nil, hy, bind, Except.bind]⟩

/-- C56 fails: reversing the columns of a raster with two columns raises, and taking two columns backwards with a step of
two puts them half as far apart as they are. -/
theorem getitem_reverse_violated :
    Raises ((⟨⟨⟨0, 4, 2⟩, ⟨2, 0, 1⟩⟩, [[some 1, some 2]]⟩ : RasterV).getitem (.int 0) (.slice ⟨none, none, some (-1)⟩)) ∧
    ∃ w, (⟨⟨⟨0, 3, 3⟩, ⟨2, 0, 1⟩⟩, [[some 1, some 2, some 3]]⟩ : RasterV).getitem (.int 0) (.slice ⟨none, none, some (-2)⟩)
      = .ok w ∧ w.arr = [[some 3, some 1]] ∧ w.center 0 0 = (7 / 4, 1) ∧ w.center 0 1 = (5 / 4, 1) := by
  refine ⟨⟨.valueError, by decide +kernel⟩, ⟨⟨⟨2, 1, 2⟩, ⟨2, 0, 1⟩⟩, [[some 3, some 1]]⟩, by decide +kernel, rfl, ?_, ?_⟩
  · norm_num [RasterV.center, cellCenter]
  · norm_num [RasterV.center, cellCenter]

end Glimpse
