import Verif.Model.Terrain
import Verif.Props.Grid
import Verif.Props.Rasterize
import Verif.Props.Bresenham
import Verif.Props.BooleanSplit
import Verif.Lemmas.ExceptList
import Mathlib.Tactic.Linarith
import Mathlib.Tactic.FieldSimp
import Mathlib.Tactic.Ring
import Mathlib.Tactic.NormNum
import Mathlib.Tactic.Push

/-!
C81: `Raster.rasterize`. C82: `Raster.horizon`.
-/
set_option autoImplicit false
set_option linter.unusedSimpArgs false
set_option linter.unusedSectionVars false

namespace Glimpse.Terrain

/-! ### C81 -/

/-- The coordinate is in cell number `c` of an axis: from its first edge (included) to its second (excluded, except for
the last cell). -/
def InCell (a : GAxis) (v : ℚ) (c : Nat) : Prop :=
  c < a.n ∧ ((∃ t : ℚ, 0 ≤ t ∧ t < 1 ∧ v = (1 - t) * cellEdge a.lo a.hi a.n c + t * cellEdge a.lo a.hi a.n ((c : ℤ) + 1)) ∨
    (c + 1 = a.n ∧ v = a.hi))

open Classical in
/-- The values of the points in a cell. -/
noncomputable def valuesIn (g : Grid) (pts : List ((ℚ × ℚ) × ℚ)) (r c : Nat) : List ℚ :=
  (pts.filter fun p => decide (InCell g.ax p.1.1 c ∧ InCell g.ay p.1.2 r)).map (·.2)

private theorem between_of_ratio (a : GAxis) (hn : 0 < a.n) (v s : ℚ) (hv : v = a.lo + s * a.d) (h0 : 0 ≤ s) (h1 : s ≤ a.n) :
    Between a.lo a.hi v := by
  have hnd := GAxis.n_mul_d hn
  unfold Between
  rcases le_total 0 a.d with hd | hd
  · left; constructor
    · have := mul_nonneg h0 hd; linarith
    · have := mul_le_mul_of_nonneg_right h1 hd; linarith
  · right; constructor
    · have := mul_le_mul_of_nonpos_right h1 hd; linarith
    · have := mul_nonpos_of_nonneg_of_nonpos h0 hd; linarith

theorem inCell_iff (a : GAxis) (hn : 0 < a.n) (hne : a.lo ≠ a.hi) (v : ℚ) (c : Nat) :
    InCell a v c ↔ Between a.lo a.hi v ∧ ⌊(v - a.lo) / a.d⌋ - (if v = a.hi then 1 else 0) = (c : ℤ) := by
  have hd := GAxis.d_ne hn hne
  have hnd := GAxis.n_mul_d hn
  have hn0 : (0 : ℚ) < a.n := by exact_mod_cast hn
  constructor
  · rintro ⟨hc, ⟨t, h0, h1, hv⟩ | ⟨hc', hv⟩⟩
    · rw [GAxis.cellEdge_eq, GAxis.cellEdge_eq] at hv
      have hv' : v = a.lo + ((c : ℚ) + t) * a.d := by rw [hv]; push_cast; ring
      have hcn : (c : ℚ) + 1 ≤ a.n := by exact_mod_cast hc
      have hc0 : (0 : ℚ) ≤ c := Nat.cast_nonneg _
      have hs : (v - a.lo) / a.d = (c : ℚ) + t := by rw [hv']; field_simp; ring
      refine ⟨between_of_ratio a hn v _ hv' (by linarith) (by linarith), ?_⟩
      rw [if_neg, hs, sub_zero, Int.floor_eq_iff]
      · push_cast; constructor <;> linarith
      · intro h
        have : ((c : ℚ) + t) * a.d = a.n * a.d := by rw [hnd]; linarith
        have := mul_right_cancel₀ hd this
        linarith
    · refine ⟨between_of_ratio a hn v a.n (by rw [hnd, hv]; ring) hn0.le le_rfl, ?_⟩
      rw [if_pos hv, hv, ← hnd, mul_div_assoc, div_self hd, mul_one]
      have : ⌊(a.n : ℚ)⌋ = (a.n : ℤ) := by exact Int.floor_natCast _
      rw [this]; omega
  · rintro ⟨hb, hf⟩
    obtain ⟨h0, h1, h2⟩ := GAxis.ratio_bounds hn hne v hb
    have hv' : v = a.lo + (v - a.lo) / a.d * a.d := by field_simp; ring
    by_cases hv : v = a.hi
    · rw [if_pos hv, h2.2 hv] at hf
      have : ⌊(a.n : ℚ)⌋ = (a.n : ℤ) := by exact Int.floor_natCast _
      rw [this] at hf
      exact ⟨by omega, Or.inr ⟨by omega, hv⟩⟩
    · rw [if_neg hv, sub_zero, Int.floor_eq_iff] at hf
      have hlt : (v - a.lo) / a.d < a.n := lt_of_le_of_ne h1 fun h => hv (h2.1 h)
      obtain ⟨f1, f2⟩ := hf
      push_cast at f1 f2
      have hc : c < a.n := by
        have : (c : ℚ) < a.n := lt_of_le_of_lt f1 hlt
        exact_mod_cast this
      refine ⟨hc, Or.inl ⟨(v - a.lo) / a.d - c, by linarith, by linarith, ?_⟩⟩
      rw [GAxis.cellEdge_eq, GAxis.cellEdge_eq]
      push_cast
      linear_combination hv'

/-- Every coordinate inside is in one cell. -/
theorem inCell_exists (a : GAxis) (hn : 0 < a.n) (hne : a.lo ≠ a.hi) (v : ℚ) :
    Between a.lo a.hi v ↔ ∃! c, InCell a v c := by
  constructor
  · intro hb
    obtain ⟨h0, h1, h2⟩ := GAxis.ratio_bounds hn hne v hb
    have h3 : (0 : ℤ) ≤ ⌊(v - a.lo) / a.d⌋ - (if v = a.hi then 1 else 0) := by
      by_cases hv : v = a.hi
      · rw [if_pos hv, h2.2 hv]
        have : ⌊(a.n : ℚ)⌋ = (a.n : ℤ) := by exact Int.floor_natCast _
        rw [this]; omega
      · rw [if_neg hv, sub_zero]; exact Int.floor_nonneg.2 h0
    refine ⟨(⌊(v - a.lo) / a.d⌋ - (if v = a.hi then 1 else 0)).toNat, ?_, ?_⟩
    · show InCell a v _
      rw [inCell_iff a hn hne]; exact ⟨hb, (Int.toNat_of_nonneg h3).symm⟩
    · intro c hc
      have := ((inCell_iff a hn hne v c).1 hc).2
      omega
  · rintro ⟨c, hc, -⟩
    exact ((inCell_iff a hn hne v c).1 hc).1

private theorem toCell_eq (g : Grid) (hg : g.Valid) (p : (ℚ × ℚ) × ℚ) (hp : g.inboundsXy p.1 = true) :
    ∃ q, toCell g p = .ok q ∧ InShape g.ay.n g.ax.n q ∧ q.value = p.2 ∧
      ∀ r c : Nat, (q.row = (r : ℤ) ∧ q.col = (c : ℤ)) ↔ InCell g.ax p.1.1 c ∧ InCell g.ay p.1.2 r := by
  have hb := (inbounds_xy_iff g p.1).1 hp
  unfold toCell
  rw [xyToRowcolSnap_eq g hg]
  simp only [bind, Except.bind, Bool.true_and, decide_eq_true_eq]
  refine ⟨_, rfl, ?_, rfl, ?_⟩
  · obtain ⟨cx, hcx, -⟩ := (inCell_exists g.ax hg.nx hg.x p.1.1).1 hb.1
    obtain ⟨cy, hcy, -⟩ := (inCell_exists g.ay hg.ny hg.y p.1.2).1 hb.2
    have h1 := ((inCell_iff g.ax hg.nx hg.x _ _).1 hcx).2
    have h2 := ((inCell_iff g.ay hg.ny hg.y _ _).1 hcy).2
    have h3 := hcx.1
    have h4 := hcy.1
    unfold InShape
    simp only [h1, h2]
    omega
  · intro r c
    rw [inCell_iff g.ax hg.nx hg.x, inCell_iff g.ay hg.ny hg.y]
    simp only []
    tauto

/-- C81, as far as it holds: every cell with points gets the mean of their values; points outside are ignored; **cells
without points keep the value of the raster**. (Floating-point rasters.) -/
theorem rasterize_partial (g : Grid) (hg : g.Valid) (arr : List (Option ℚ)) (ha : arr.length = g.ay.n * g.ax.n)
    (pts : List ((ℚ × ℚ) × ℚ)) :
    ∃ out, rasterize false g arr pts = .ok out ∧ out.length = arr.length ∧
      ∀ r c, r < g.ay.n → c < g.ax.n →
        out[r * g.ax.n + c]? = if valuesIn g pts r c = [] then arr[r * g.ax.n + c]? else some (some (meanOf (valuesIn g pts r c))) := by
  classical
  have hchoose : ∀ p : (ℚ × ℚ) × ℚ, ∃ q, g.inboundsXy p.1 = true → toCell g p = .ok q ∧ InShape g.ay.n g.ax.n q ∧ q.value = p.2 ∧
      ∀ r c : Nat, (q.row = (r : ℤ) ∧ q.col = (c : ℤ)) ↔ InCell g.ax p.1.1 c ∧ InCell g.ay p.1.2 r := by
    intro p
    by_cases h : g.inboundsXy p.1 = true
    · obtain ⟨q, hq⟩ := toCell_eq g hg p h; exact ⟨q, fun _ => hq⟩
    · exact ⟨⟨0, 0, 0⟩, fun h' => absurd h' h⟩
  choose q hq using hchoose
  set inside := pts.filter fun p => g.inboundsXy p.1 with hin
  have hmem : ∀ p ∈ inside, g.inboundsXy p.1 = true := fun p hp => (List.mem_filter.1 hp).2
  have hcells : inside.mapM (toCell g) = .ok (inside.map q) := mapM_ok _ _ _ fun p hp => (hq p (hmem p hp)).1
  have hshape : ∀ p ∈ inside.map q, InShape g.ay.n g.ax.n p := by
    intro p hp
    obtain ⟨p', hp', rfl⟩ := List.mem_map.1 hp
    exact (hq p' (hmem p' hp')).2.1
  have hvals : ∀ r c, cellValues (inside.map q) r c = valuesIn g pts r c := by
    intro r c
    unfold cellValues valuesIn
    rw [List.filter_map, List.map_map, hin, List.filter_filter]
    have : ∀ p ∈ pts, ((decide ((q p).row = (r : ℤ) ∧ (q p).col = (c : ℤ))) && g.inboundsXy p.1) =
        decide (InCell g.ax p.1.1 c ∧ InCell g.ay p.1.2 r) := by
      intro p _
      by_cases hb : g.inboundsXy p.1 = true
      · rw [hb, Bool.and_true, decide_eq_decide]
        exact (hq p hb).2.2.2 r c
      · have : ¬ (InCell g.ax p.1.1 c ∧ InCell g.ay p.1.2 r) := by
          rintro ⟨h1, h2⟩
          exact hb ((inbounds_xy_iff g p.1).2 ⟨((inCell_iff g.ax hg.nx hg.x _ _).1 h1).1, ((inCell_iff g.ay hg.ny hg.y _ _).1 h2).1⟩)
        rw [decide_eq_false this]
        cases hbb : g.inboundsXy p.1 with
        | true => exact absurd hbb hb
        | false => rw [Bool.and_false]
    rw [List.filter_congr (q := fun p => decide (InCell g.ax p.1.1 c ∧ InCell g.ay p.1.2 r)) (by
      intro p hp; exact this p hp)]
    apply List.map_congr_left
    intro p hp
    obtain ⟨h1, h2⟩ := List.mem_filter.1 hp
    have h2 := of_decide_eq_true h2
    exact (hq p ((inbounds_xy_iff g p.1).2 ⟨((inCell_iff g.ax hg.nx hg.x _ _).1 h2.1).1, ((inCell_iff g.ay hg.ny hg.y _ _).1 h2.2).1⟩)).2.2.1
  obtain ⟨uidx, means, hr, hlen, hasc, hpairs⟩ := rasterize_points_pairs (inside.map q) g.ay.n g.ax.n hshape
  have hzip : uidx.zip (means.map some) = (uidx.zip means).map fun x => (x.1, some x.2) := by
    rw [List.zip_map_right]; rfl
  have hfst : ((uidx.zip means).map fun x => (x.1, some x.2)).map (·.1) = uidx := by
    rw [List.map_map]
    show (uidx.zip means).map Prod.fst = uidx
    exact List.map_fst_zip (by omega)
  obtain ⟨s1, s2, s3⟩ := setFlat_get arr ((uidx.zip means).map fun x => (x.1, some x.2)) (by
    rw [hfst]; exact hasc.imp fun h => Nat.ne_of_lt h)
  refine ⟨setFlat arr uidx (means.map some), ?_, ?_, ?_⟩
  · unfold rasterize
    simp only [← hin, hcells, hr, bind, Except.bind, Bool.false_eq_true, if_false]
  · unfold setFlat; rw [hzip, s1]
  · intro r c hrr hc
    unfold setFlat
    rw [hzip]
    have hlt : r * g.ax.n + c < arr.length := by
      rw [ha]
      have := Nat.mul_le_mul_right g.ax.n (show r + 1 ≤ g.ay.n from hrr)
      rw [Nat.add_mul] at this; omega
    rw [← hvals]
    by_cases he : cellValues (inside.map q) r c = []
    · rw [if_pos he, s3]
      rw [hfst]
      intro hmem'
      have hlt' : uidx.idxOf (r * g.ax.n + c) < uidx.length := List.idxOf_lt_length_iff.2 hmem'
      have : (r * g.ax.n + c, means[uidx.idxOf (r * g.ax.n + c)]'(by omega)) ∈ uidx.zip means := by
        rw [List.mem_iff_getElem]
        refine ⟨uidx.idxOf (r * g.ax.n + c), by rw [List.length_zip]; omega, ?_⟩
        rw [List.getElem_zip, List.getElem_idxOf]
      exact ((hpairs r c hrr hc _).1 this).1 he
    · rw [if_neg he]
      have := (hpairs r c hrr hc _).2 ⟨he, rfl⟩
      exact s2 _ _ (List.mem_map.2 ⟨_, this, rfl⟩) hlt

/-- C81 fails: pixels without points are not missing but hold the values of the raster. -/
theorem rasterize_empty_violated :
    rasterize false ⟨⟨0, 2, 2⟩, ⟨1, 0, 1⟩⟩ [some 7, some 8] [((1 / 2, 1 / 2), 3)] = .ok [some 3, some 8] := by decide +kernel

/-- C81 fails for rasters of integers: means are truncated. -/
theorem rasterize_integer_violated :
    rasterize true ⟨⟨0, 2, 2⟩, ⟨1, 0, 1⟩⟩ [some 7, some 8] [((1 / 2, 1 / 2), 1), ((1 / 4, 1 / 2), 2)] = .ok [some 1, some 8] := by decide +kernel

example : rasterize false ⟨⟨0, 2, 2⟩, ⟨1, 0, 1⟩⟩ [none, none] [((1 / 2, 1 / 2), 1), ((1 / 4, 1), 2), ((3, 0), 9), ((2, 0), 5)] =
    .ok [some (3 / 2), some 5] := by decide +kernel

/-! ### C82 -/

/-- A cell (column, row) of the grid. -/
def InGrid (g : Grid) (c : ℤ × ℤ) : Prop := 0 ≤ c.1 ∧ c.1 < g.ax.n ∧ 0 ≤ c.2 ∧ c.2 < g.ay.n

/-- Value of the raster in a cell. -/
def valueOf (g : Grid) (arr : List (Option ℚ)) (c : ℤ × ℤ) : Option ℚ := arr.getD (c.2 * g.ax.n + c.1).toNat none

/-- Squared horizontal distance from a point to the centre of a cell. -/
def centreDist2 (g : Grid) (origin : ℚ × ℚ) (c : ℤ × ℤ) : ℚ :=
  (cellCenter g.ax.lo g.ax.hi g.ax.n c.1 - origin.1) ^ 2 + (cellCenter g.ay.lo g.ay.hi g.ay.n c.2 - origin.2) ^ 2

/-- Tangent of the elevation angle at which the origin sees height `z` at the centre of a cell. -/
noncomputable def tangent (g : Grid) (origin : ℚ × ℚ × ℚ) (corr : ℚ → ℚ) (c : ℤ × ℤ) (z : ℚ) : ℝ :=
  ((z - origin.2.2 + corr (centreDist2 g (origin.1, origin.2.1) c) : ℚ) : ℝ) / Real.sqrt (centreDist2 g (origin.1, origin.2.1) c : ℝ)

/-- Cell number `k` of a line, with height `z`, is seen at the highest angle of all not missing, and is the first of
these. -/
def Highest (g : Grid) (arr : List (Option ℚ)) (origin : ℚ × ℚ × ℚ) (corr : ℚ → ℚ) (cells : List (ℤ × ℤ)) (k : Nat) (c : ℤ × ℤ) (z : ℚ) :
    Prop :=
  cells[k]? = some c ∧ valueOf g arr c = some z ∧ ∀ (j : Nat) c' z', cells[j]? = some c' → valueOf g arr c' = some z' →
    tangent g origin corr c' z' ≤ tangent g origin corr c z ∧ (j < k → tangent g origin corr c' z' < tangent g origin corr c z)

/-- Some cell after number `k` is not missing. -/
def SeenBehind (g : Grid) (arr : List (Option ℚ)) (cells : List (ℤ × ℤ)) (k : Nat) : Prop :=
  ∃ (j : Nat) (c : ℤ × ℤ), k < j ∧ cells[j]? = some c ∧ (valueOf g arr c).isSome = true

/-- What the horizon is along a line: the highest cell, or none if nothing is seen behind it. -/
def HorizonAt (g : Grid) (arr : List (Option ℚ)) (origin : ℚ × ℚ × ℚ) (corr : ℚ → ℚ) (cells : List (ℤ × ℤ)) (p : Option (ℚ × ℚ × ℚ)) :
    Prop :=
  ∃ k c z, Highest g arr origin corr cells k c z ∧
    ((SeenBehind g arr cells k ∧ p = some (cellCenter g.ax.lo g.ax.hi g.ax.n c.1, cellCenter g.ay.lo g.ay.hi g.ay.n c.2, z)) ∨
     (¬ SeenBehind g arr cells k ∧ p = none))

private theorem nanargmax_none (l : List (Option ℝ)) : nanargmax l = none ↔ ∀ v ∈ l, v = none := by
  induction l with
  | nil => simp [nanargmax]
  | cons a l ih =>
    cases a with
    | none => simp only [nanargmax, Option.map_eq_none_iff, ih]; simp
    | some v =>
      constructor
      · intro h
        unfold nanargmax at h
        cases hl : nanargmax l with
        | none => rw [hl] at h; cases h
        | some p => rw [hl] at h; simp only [] at h; split at h <;> cases h
      · intro h; have := h (some v) List.mem_cons_self; cases this

private theorem nanargmax_some (l : List (Option ℝ)) (k : Nat) (w : ℝ) (h : nanargmax l = some (k, w)) :
    l[k]? = some (some w) ∧ ∀ (j : Nat) v, l[j]? = some (some v) → v ≤ w ∧ (j < k → v < w) := by
  induction l generalizing k w with
  | nil => cases h
  | cons a l ih =>
    cases a with
    | none =>
      simp only [nanargmax, Option.map_eq_some_iff] at h
      obtain ⟨⟨k', w'⟩, h1, h2⟩ := h
      simp only [Prod.mk.injEq] at h2
      obtain ⟨rfl, rfl⟩ := h2
      obtain ⟨h3, h4⟩ := ih k' w' h1
      refine ⟨by simpa using h3, fun j v hj => ?_⟩
      cases j with
      | zero => simp at hj
      | succ j =>
        obtain ⟨h5, h6⟩ := h4 j v (by simpa using hj)
        exact ⟨h5, fun h => h6 (by omega)⟩
    | some u =>
      unfold nanargmax at h
      cases hl : nanargmax l with
      | none =>
        rw [hl] at h
        simp only [Option.some.injEq, Prod.mk.injEq] at h
        obtain ⟨rfl, rfl⟩ := h
        refine ⟨rfl, fun j v hj => ?_⟩
        cases j with
        | zero =>
          simp only [List.getElem?_cons_zero, Option.some.injEq] at hj
          exact ⟨by rw [hj], fun h => absurd h (Nat.lt_irrefl _)⟩
        | succ j =>
          have := (nanargmax_none l).1 hl (some v) (List.mem_of_getElem? (by simpa using hj))
          cases this
      | some p =>
        obtain ⟨k', w'⟩ := p
        obtain ⟨h3, h4⟩ := ih k' w' hl
        rw [hl] at h
        simp only [] at h
        split at h
        · rename_i hlt
          simp only [Option.some.injEq, Prod.mk.injEq] at h
          obtain ⟨rfl, rfl⟩ := h
          refine ⟨by simpa using h3, fun j v hj => ?_⟩
          cases j with
          | zero =>
            simp only [List.getElem?_cons_zero, Option.some.injEq] at hj
            rw [← hj]; exact ⟨hlt.le, fun _ => hlt⟩
          | succ j =>
            obtain ⟨h5, h6⟩ := h4 j v (by simpa using hj)
            exact ⟨h5, fun h => h6 (by omega)⟩
        · rename_i hlt
          simp only [Option.some.injEq, Prod.mk.injEq] at h
          obtain ⟨rfl, rfl⟩ := h
          push Not at hlt
          refine ⟨rfl, fun j v hj => ⟨?_, fun h => absurd h (Nat.not_lt_zero _)⟩⟩
          cases j with
          | zero =>
            simp only [List.getElem?_cons_zero, Option.some.injEq] at hj
            rw [hj]
          | succ j => exact le_trans (h4 j v (by simpa using hj)).1 hlt

private theorem dzOf_eq (g : Grid) (arr : List (Option ℚ)) (oz : ℚ) (c : ℤ × ℤ) (hc : InGrid g c) :
    dzOf g arr oz c = .ok ((valueOf g arr c).map fun z => z - oz) := by
  obtain ⟨h1, h2, h3, h4⟩ := hc
  unfold dzOf Grid.rowcolToIdx
  rw [if_pos ⟨h3, h4, h1, h2⟩]; rfl

private theorem sightline_inGrid (g : Grid) (a b : ℤ × ℤ) (ha : InGrid g a) (hb : InGrid g b) : ∀ c ∈ sightline a b, InGrid g c := by
  intro c hc
  obtain ⟨⟨h1, h2⟩, h3, h4⟩ := (bresenham_line_nodup_bbox a b).2 c (List.mem_of_mem_tail hc)
  obtain ⟨a1, a2, a3, a4⟩ := ha
  obtain ⟨b1, b2, b3, b4⟩ := hb
  refine ⟨le_trans (le_min a1 b1) h1, lt_of_le_of_lt h2 (max_lt a2 b2), le_trans (le_min a3 b3) h3, lt_of_le_of_lt h4 (max_lt a4 b4)⟩

private theorem point_form (g : Grid) (hg : g.Valid) (arr : List (Option ℚ)) (origin : ℚ × ℚ × ℚ) (corr : ℚ → ℚ) (a b : ℤ × ℤ)
    (ha : InGrid g a) (hb : InGrid g b) :
    ((∀ c ∈ sightline a b, valueOf g arr c = none) ∧ horizonPoint g arr origin corr a b = .error .valueError) ∨
    ∃ p, horizonPoint g arr origin corr a b = .ok p ∧ HorizonAt g arr origin corr (sightline a b) p := by
  unfold horizonPoint
  have hdz : (sightline a b).mapM (dzOf g arr origin.2.2) = .ok ((sightline a b).map fun c => (valueOf g arr c).map fun z => z - origin.2.2) :=
    mapM_ok _ _ _ fun c hc => dzOf_eq g arr _ c (sightline_inGrid g a b ha hb c hc)
  simp only [hdz, bind, Except.bind]
  generalize sightline a b = cells
  have hr : List.zipWith (fun (z : Option ℚ) c => z.map fun z => ratio (z + corr (dist2 g (origin.1, origin.2.1) c)) (dist2 g (origin.1, origin.2.1) c))
      (cells.map fun c => (valueOf g arr c).map fun z => z - origin.2.2) cells =
      cells.map fun c => (valueOf g arr c).map fun z => tangent g origin corr c z := by
    rw [List.zipWith_map_left, List.zipWith_self]
    apply List.map_congr_left
    intro c _
    have hd : dist2 g (origin.1, origin.2.1) c = centreDist2 g (origin.1, origin.2.1) c := by
      unfold dist2 centreDist2
      rw [rowcol_to_xy_center g hg]
    rw [Option.map_map, hd]; rfl
  rw [hr]
  cases hm : nanargmax (cells.map fun c => (valueOf g arr c).map fun z => tangent g origin corr c z) with
  | none =>
    left
    refine ⟨fun c hc => ?_, rfl⟩
    have := (nanargmax_none _).1 hm _ (List.mem_map.2 ⟨c, hc, rfl⟩)
    simpa using this
  | some kw =>
    obtain ⟨k, w⟩ := kw
    right
    obtain ⟨h1, h2⟩ := nanargmax_some _ k w hm
    rw [List.getElem?_map, Option.map_eq_some_iff] at h1
    obtain ⟨c, hc, hv⟩ := h1
    rw [Option.map_eq_some_iff] at hv
    obtain ⟨z, hz, rfl⟩ := hv
    have hhigh : Highest g arr origin corr cells k c z := by
      refine ⟨hc, hz, fun j c' z' hj hz' => ?_⟩
      exact h2 j _ (by rw [List.getElem?_map, hj, Option.map_some, hz', Option.map_some])
    have hlen : (cells.map fun c => (valueOf g arr c).map fun z => z - origin.2.2).length = cells.length := List.length_map _
    have hseen : (k + 1 < (cells.map fun c => (valueOf g arr c).map fun z => z - origin.2.2).length ∧
        ((cells.map fun c => (valueOf g arr c).map fun z => z - origin.2.2).drop (k + 1)).any Option.isSome = true) ↔ SeenBehind g arr cells k := by
      rw [← List.map_drop, List.any_map, List.any_eq_true]
      constructor
      · rintro ⟨-, c', hc', hs⟩
        obtain ⟨i, hi⟩ := List.mem_iff_getElem?.1 hc'
        rw [List.getElem?_drop] at hi
        exact ⟨k + 1 + i, c', by omega, hi, by simpa using hs⟩
      · rintro ⟨j, c', hkj, hj, hs⟩
        have hjl := (List.getElem?_eq_some_iff.1 hj).1
        refine ⟨by omega, c', List.mem_iff_getElem?.2 ⟨j - (k + 1), ?_⟩, by simpa using hs⟩
        rw [List.getElem?_drop, show k + 1 + (j - (k + 1)) = j by omega, hj]
    simp only []
    have hcd : cells.getD k 0 = c := by rw [List.getD_eq_getElem?_getD, hc]; rfl
    by_cases hs : SeenBehind g arr cells k
    · rw [if_pos (hseen.2 hs)]
      refine ⟨_, rfl, k, c, z, hhigh, Or.inl ⟨hs, ?_⟩⟩
      have hd : (cells.map fun c => (valueOf g arr c).map fun z => z - origin.2.2).getD k none = some (z - origin.2.2) := by
        rw [List.getD_eq_getElem?_getD, List.getElem?_map, hc, Option.map_some, hz]; rfl
      rw [hd, hcd, rowcol_to_xy_center g hg, Option.getD_some, sub_add_cancel]
    · rw [if_neg fun h => hs (hseen.1 h)]
      exact ⟨_, rfl, k, c, z, hhigh, Or.inr ⟨hs, rfl⟩⟩

/-- C82: along one line. -/
theorem horizon_point_spec (g : Grid) (hg : g.Valid) (arr : List (Option ℚ)) (origin : ℚ × ℚ × ℚ) (corr : ℚ → ℚ) (a b : ℤ × ℤ)
    (ha : InGrid g a) (hb : InGrid g b) (hsome : ∃ c ∈ sightline a b, valueOf g arr c ≠ none) :
    ∃ p, horizonPoint g arr origin corr a b = .ok p ∧ HorizonAt g arr origin corr (sightline a b) p := by
  rcases point_form g hg arr origin corr a b ha hb with ⟨h, -⟩ | h
  · obtain ⟨c, hc, hn⟩ := hsome
    exact absurd (h c hc) hn
  · exact h

/-- The cell of a point. -/
def CellOf (g : Grid) (p : ℚ × ℚ) (c : ℤ × ℤ) : Prop := ∃ i j : Nat, c = ((i : ℤ), (j : ℤ)) ∧ InCell g.ax p.1 i ∧ InCell g.ay p.2 j

private theorem snapCell_eq (g : Grid) (hg : g.Valid) (p : ℚ × ℚ) (hp : g.inboundsXy p = true) :
    ∃ c, snapCell g p = .ok c ∧ CellOf g p c ∧ InGrid g c := by
  obtain ⟨q, h1, h2, -, h4⟩ := toCell_eq g hg (p, 0) hp
  unfold toCell at h1
  unfold snapCell
  cases hx : g.xyToRowcolSnap true p with
  | error e => simp only [hx, bind, Except.bind] at h1; cases h1
  | ok rc =>
    simp only [hx, bind, Except.bind, Except.ok.injEq] at h1
    subst h1
    obtain ⟨r1, r2, c1, c2⟩ := h2
    simp only [] at r1 r2 c1 c2 h4
    refine ⟨(rc.2, rc.1), rfl, ⟨rc.2.toNat, rc.1.toNat, ?_, ?_⟩, c1, c2, r1, r2⟩
    · rw [Int.toNat_of_nonneg c1, Int.toNat_of_nonneg r1]
    · exact (h4 rc.1.toNat rc.2.toNat).1 ⟨(Int.toNat_of_nonneg r1).symm, (Int.toNat_of_nonneg c1).symm⟩

private theorem mapM_rel {α β : Type} (f : α → Except Err β) (R : α → β → Prop) (l : List α)
    (h : ∀ a ∈ l, ∃ b, f a = .ok b ∧ R a b) : ∃ r, l.mapM f = .ok r ∧ List.Forall₂ R l r := by
  induction l with
  | nil => exact ⟨[], rfl, List.Forall₂.nil⟩
  | cons a l ih =>
    obtain ⟨b, hb, hR⟩ := h a List.mem_cons_self
    obtain ⟨r, hr, hF⟩ := ih fun c hc => h c (List.mem_cons_of_mem _ hc)
    exact ⟨b :: r, by rw [List.mapM_cons, hb, hr]; rfl, List.Forall₂.cons hR hF⟩

/-- The points along each heading. -/
private theorem horizon_points (g : Grid) (hg : g.Valid) (arr : List (Option ℚ)) (origin : ℚ × ℚ × ℚ) (corr : ℚ → ℚ) (ends : List (ℚ × ℚ))
    (hin : g.inboundsXy (origin.1, origin.2.1) = true) (hends : ∀ e ∈ ends, g.inboundsXy e = true)
    (hsome : ∀ a, CellOf g (origin.1, origin.2.1) a → ∀ e ∈ ends, ∀ b, CellOf g e b → ∃ c ∈ sightline a b, valueOf g arr c ≠ none) :
    ∃ pts, horizon g arr origin corr ends = segments pts ∧
      List.Forall₂ (fun e p => ∃ a b, CellOf g (origin.1, origin.2.1) a ∧ CellOf g e b ∧ HorizonAt g arr origin corr (sightline a b) p) ends pts := by
  obtain ⟨a, ha, hca, hga⟩ := snapCell_eq g hg _ hin
  obtain ⟨stops, hs, hsF⟩ := mapM_rel (snapCell g) (fun e b => CellOf g e b ∧ InGrid g b) ends fun e he => by
    obtain ⟨b, h1, h2, h3⟩ := snapCell_eq g hg e (hends e he)
    exact ⟨b, h1, h2, h3⟩
  have hp : ∀ b ∈ stops, ∃ p, horizonPoint g arr origin corr a b = .ok p ∧ HorizonAt g arr origin corr (sightline a b) p := by
    intro b hb
    obtain ⟨i, hi, rfl⟩ := List.mem_iff_getElem.1 hb
    have hlen := hsF.length_eq
    have := hsF.get (by omega : i < ends.length) hi
    simp only [List.get_eq_getElem] at this
    exact horizon_point_spec g hg arr origin corr a _ hga this.2 (hsome a hca _ (List.getElem_mem _) _ this.1)
  obtain ⟨pts, hpts, hF⟩ := mapM_rel _ _ stops hp
  refine ⟨pts, ?_, ?_⟩
  · unfold horizon
    rw [hin]
    simp only [if_true, ha, hs, hpts, bind, Except.bind]
  · have : ∀ {es : List (ℚ × ℚ)} {st : List (ℤ × ℤ)} {ps : List (Option (ℚ × ℚ × ℚ))},
        List.Forall₂ (fun e b => CellOf g e b ∧ InGrid g b) es st → List.Forall₂ (fun b p => HorizonAt g arr origin corr (sightline a b) p) st ps →
        List.Forall₂ (fun e p => ∃ a b, CellOf g (origin.1, origin.2.1) a ∧ CellOf g e b ∧ HorizonAt g arr origin corr (sightline a b) p) es ps := by
      intro es st ps h1
      induction h1 generalizing ps with
      | nil => intro h2; cases h2; exact List.Forall₂.nil
      | cons h h1 ih =>
        intro h2
        cases h2 with
        | cons h' h2 => exact List.Forall₂.cons ⟨a, _, hca, h.1, h'⟩ (ih h2)
    exact this hsF hF

/-- C82, as far as it holds: from inside the raster, if each line has a cell that is not missing, the horizon of each
heading is the cell seen at the highest angle along the line of cells to the border (none if nothing is seen behind it), and
what is returned are the runs of headings with a horizon, in order, the last run joined to the first if both have one. -/
theorem horizon_partial (g : Grid) (hg : g.Valid) (arr : List (Option ℚ)) (origin : ℚ × ℚ × ℚ) (corr : ℚ → ℚ) (ends : List (ℚ × ℚ))
    (hne : ends ≠ []) (hin : Between g.ax.lo g.ax.hi origin.1 ∧ Between g.ay.lo g.ay.hi origin.2.1)
    (hends : ∀ e ∈ ends, Between g.ax.lo g.ax.hi e.1 ∧ Between g.ay.lo g.ay.hi e.2)
    (hsome : ∀ a, CellOf g (origin.1, origin.2.1) a → ∀ e ∈ ends, ∀ b, CellOf g e b → ∃ c ∈ sightline a b, valueOf g arr c ≠ none) :
    ∃ pts, List.Forall₂ (fun e p => ∃ a b, CellOf g (origin.1, origin.2.1) a ∧ CellOf g e b ∧ HorizonAt g arr origin corr (sightline a b) p) ends pts ∧
      ((∃ v s runs t, IsRuns pts (pts.map Option.isNone) ((v, s) :: (runs ++ [(v, t)])) ∧
        horizon g arr origin corr ends = .ok ((((v, t ++ s) :: runs).filter fun r => r.1 == false).map (·.2))) ∨
       (∃ runs, IsRuns pts (pts.map Option.isNone) runs ∧ (runs.length = 1 ∨ runs.head?.map (·.1) ≠ runs.getLast?.map (·.1)) ∧
        horizon g arr origin corr ends = .ok ((runs.filter fun r => r.1 == false).map (·.2)))) := by
  obtain ⟨pts, h1, h2⟩ := horizon_points g hg arr origin corr ends ((inbounds_xy_iff g _).2 hin) (fun e he => (inbounds_xy_iff g e).2 (hends e he)) hsome
  refine ⟨pts, h2, ?_⟩
  rw [h1]
  have hl := h2.length_eq
  have hpne : pts.map Option.isNone ≠ [] := by
    intro h
    rw [List.map_eq_nil_iff] at h
    rw [h] at hl
    exact hne (List.length_eq_zero_iff.1 hl)
  exact boolean_split_circular pts (pts.map Option.isNone) (by simp) hpne .false

/-- C82 fails from outside the raster: the call raises. -/
theorem horizon_outside_violated (g : Grid) (arr : List (Option ℚ)) (origin : ℚ × ℚ × ℚ) (corr : ℚ → ℚ) (ends : List (ℚ × ℚ))
    (hne : ends ≠ []) (hout : ¬ (Between g.ax.lo g.ax.hi origin.1 ∧ Between g.ay.lo g.ay.hi origin.2.1)) :
    horizon g arr origin corr ends = .error .typeError := by
  unfold horizon
  have : g.inboundsXy (origin.1, origin.2.1) = false := by
    rw [← Bool.not_eq_true, inbounds_xy_iff]; exact hout
  rw [this]
  simp [hne]

/-- C82 fails if along some heading all cells but the first are missing, or there are none (an origin in a border cell that
looks outward): the call raises for all headings. -/
theorem horizon_missing_violated (g : Grid) (hg : g.Valid) (arr : List (Option ℚ)) (origin : ℚ × ℚ × ℚ) (corr : ℚ → ℚ) (ends : List (ℚ × ℚ))
    (hin : Between g.ax.lo g.ax.hi origin.1 ∧ Between g.ay.lo g.ay.hi origin.2.1)
    (hends : ∀ e ∈ ends, Between g.ax.lo g.ax.hi e.1 ∧ Between g.ay.lo g.ay.hi e.2)
    (hbad : ∃ e ∈ ends, ∀ a, CellOf g (origin.1, origin.2.1) a → ∀ b, CellOf g e b → ∀ c ∈ sightline a b, valueOf g arr c = none) :
    ∃ err, horizon g arr origin corr ends = .error err := by
  have hin' := (inbounds_xy_iff g (origin.1, origin.2.1)).2 hin
  obtain ⟨a, ha, hca, hga⟩ := snapCell_eq g hg _ hin'
  obtain ⟨stops, hs, hsF⟩ := mapM_rel (snapCell g) (fun e b => CellOf g e b ∧ InGrid g b) ends fun e he => by
    obtain ⟨b, h1, h2, h3⟩ := snapCell_eq g hg e ((inbounds_xy_iff g e).2 (hends e he))
    exact ⟨b, h1, h2, h3⟩
  obtain ⟨e, he, hbad⟩ := hbad
  obtain ⟨i, hi, rfl⟩ := List.mem_iff_getElem.1 he
  have hlen := hsF.length_eq
  have hR := hsF.get hi (by omega : i < stops.length)
  simp only [List.get_eq_getElem] at hR
  have herr : horizonPoint g arr origin corr a stops[i] = .error .valueError := by
    rcases point_form g hg arr origin corr a stops[i] hga hR.2 with ⟨-, h⟩ | ⟨p, -, k, c, z, ⟨h1, h2, -⟩, -⟩
    · exact h
    · have := hbad a hca _ hR.1 c (List.mem_of_getElem? h1)
      rw [this] at h2; cases h2
  obtain ⟨e', he'⟩ := mapM_error_of_mem (horizonPoint g arr origin corr a) stops stops[i] (List.getElem_mem _) ⟨_, herr⟩
  refine ⟨e', ?_⟩
  unfold horizon
  rw [hin']
  simp only [if_true, ha, hs, he', bind, Except.bind]

/-- A border cell that looks outward: the line has no cells after the first. -/
example : sightline (0, 0) (0, 0) = [] := by decide +kernel

/-- C82 fails for headings that do not go around: the last run of headings is joined to the first, though there is a gap
between them (also if the last heading is far from the first), in the order last, first. -/
theorem horizon_sector_violated (p q : ℚ × ℚ × ℚ) : segments [some p, none, some q] = .ok [[some q, some p]] := by
  rfl

example : segments [none, some (1, 2, 3), some (2, 2, 3), none, some (3, 3, 3)] = .ok [[some (1, 2, 3), some (2, 2, 3)], [some (3, 3, 3)]] := by
  decide +kernel

/-- The hypotheses of `horizon_partial` in a raster of one row, looking along it. -/
example : ∃ p, horizonPoint ⟨⟨0, 4, 4⟩, ⟨1, 0, 1⟩⟩ [some 0, some 5, none, some 1] (1 / 2, 1 / 2, 2) (fun _ => 0) (0, 0) (3, 0) = .ok p := by
  obtain ⟨p, h, -⟩ := horizon_point_spec ⟨⟨0, 4, 4⟩, ⟨1, 0, 1⟩⟩ ⟨by decide, by decide, by norm_num, by norm_num⟩ [some 0, some 5, none, some 1]
    (1 / 2, 1 / 2, 2) (fun _ => 0) (0, 0) (3, 0) (by unfold InGrid; decide) (by unfold InGrid; decide)
    ⟨(1, 0), by decide +kernel, by decide +kernel⟩
  exact ⟨p, h⟩

end Glimpse.Terrain
