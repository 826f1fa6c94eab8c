import Verif.Model.PolygonMask
import Verif.Props.Grid
import Mathlib.Tactic.Ring
import Mathlib.Tactic.NormNum
import Mathlib.Tactic.Linarith
import Mathlib.Tactic.FieldSimp
import Mathlib.Data.List.GetD
import Mathlib.Topology.Instances.Rat
import Mathlib.Topology.Order.Basic
import Mathlib.Topology.Algebra.Field

/-!
C110: polygons as masks.
-/
set_option autoImplicit false
set_option linter.unusedSimpArgs false
set_option linter.unusedSectionVars false

namespace Glimpse.PolygonMask

/-! ### Specification -/

/-- An edge passes strictly over the height `y`. -/
def Passes (y : ℚ) (e : Pt × Pt) : Prop := (e.1.2 < y ∧ y < e.2.2) ∨ (e.2.2 < y ∧ y < e.1.2)

instance (y : ℚ) (e : Pt × Pt) : Decidable (Passes y e) := by unfold Passes; infer_instance

/-- `x` is where the segment `e` is at height `y`. -/
def AtHeight (y : ℚ) (e : Pt × Pt) (x : ℚ) : Prop := (x - e.1.1) * (e.2.2 - e.1.2) = (y - e.1.2) * (e.2.1 - e.1.1)

/-- The edge is to the east of the point: it passes over its height with a larger `x`. (Written without division: the sign
of the edge's direction decides.) -/
def East (p : Pt) (e : Pt × Pt) : Prop := Passes p.2 e ∧ ∀ x, AtHeight p.2 e x → p.1 < x

/-- Edges of a ring: consecutive points, and the last with the first. -/
def ringEdges (poly : List Pt) : List (Pt × Pt) := poly.zip (poly.tail ++ poly.head?.toList)

open Classical in
/-- The point is inside of the ring: a ray to the east crosses an odd number of edges. -/
def Inside (poly : List Pt) (p : Pt) : Prop := ((ringEdges poly).filter fun e => decide (East p e)).length % 2 = 1

/-- The point is in general position: at the height of no vertex, and on no edge. -/
def Generic (poly : List Pt) (p : Pt) : Prop :=
  (∀ q ∈ poly, q.2 ≠ p.2) ∧ ∀ e ∈ ringEdges poly, Passes p.2 e → ¬ AtHeight p.2 e p.1

/-- The point is on the segment. -/
def OnEdge (p : Pt) (e : Pt × Pt) : Prop :=
  ∃ t : ℚ, 0 ≤ t ∧ t ≤ 1 ∧ p = ((1 - t) * e.1.1 + t * e.2.1, (1 - t) * e.1.2 + t * e.2.2)

/-- The point is on no edge of the ring (but may be at the height of vertices). -/
def OffBoundary (poly : List Pt) (p : Pt) : Prop := ∀ e ∈ ringEdges poly, ¬ OnEdge p e

open Topology in
/-- The point is inside, together with all points around it: all close points in general position are inside. -/
def Within (poly : List Pt) (p : Pt) : Prop := ∀ᶠ q in 𝓝 p, Generic poly q → Inside poly q

/-! ### Edges -/

private theorem path_zip (p : Pt) (l : List Pt) : path p l = (p :: l).dropLast.zip l := by
  induction l generalizing p with
  | nil => rfl
  | cons q r ih =>
    rw [path, ih]
    rfl

private theorem edges_eq (poly : List Pt) : edges poly = ringEdges poly := by
  cases poly with
  | nil => rfl
  | cons p r =>
    simp only [edges, ringEdges, path_zip, List.tail_cons, List.head?_cons, Option.toList_some]
    congr 1
    rw [← List.cons_append, List.dropLast_concat]

private theorem ring_mem (poly : List Pt) (e : Pt × Pt) (h : e ∈ ringEdges poly) : e.1 ∈ poly ∧ e.2 ∈ poly := by
  unfold ringEdges at h
  refine ⟨(List.of_mem_zip h).1, ?_⟩
  have := (List.of_mem_zip h).2
  rcases List.mem_append.1 this with h | h
  · exact List.mem_of_mem_tail h
  · cases poly with
    | nil => simp at h
    | cons p r => simp at h; simp [h]

/-! ### Parity of crossings -/

private theorem path_parity (b : Pt → Bool) (p : Pt) (l : List Pt) :
    ((path p l).filter fun e => b e.1 != b e.2).length % 2 = if b p = b ((p :: l).getLast (by simp)) then 0 else 1 := by
  induction l generalizing p with
  | nil => simp [path]
  | cons q r ih =>
    have h := ih q
    rw [List.getLast_cons (by simp)]
    simp only [path, List.filter_cons]
    generalize b ((q :: r).getLast (by simp)) = z at h ⊢
    cases hp : b p <;> cases hq : b q <;> cases z <;> simp [hp, hq] at h ⊢ <;> omega

private theorem ring_parity (b : Pt → Bool) (poly : List Pt) : ((ringEdges poly).filter fun e => b e.1 != b e.2).length % 2 = 0 := by
  rw [← edges_eq]
  cases poly with
  | nil => rfl
  | cons p r =>
    rw [edges, path_parity]
    simp

private theorem passes_iff (y : ℚ) (e : Pt × Pt) (h1 : e.1.2 ≠ y) (h2 : e.2.2 ≠ y) :
    Passes y e ↔ (decide (y < e.1.2) != decide (y < e.2.2)) = true := by
  unfold Passes
  rcases lt_or_gt_of_ne h1 with a | a <;> rcases lt_or_gt_of_ne h2 with c | c <;>
    simp [a, c, a.le, c.le, not_lt.2 a.le, not_lt.2 c.le]

/-- An even number of edges of a ring pass over any height at which it has no vertex. -/
private theorem passes_even (y : ℚ) (poly : List Pt) (h : ∀ q ∈ poly, q.2 ≠ y) :
    ((ringEdges poly).filter fun e => decide (Passes y e)).length % 2 = 0 := by
  have := ring_parity (fun p => decide (y < p.2)) poly
  have e : (ringEdges poly).filter (fun e => decide (Passes y e)) =
      (ringEdges poly).filter fun e => decide (y < e.1.2) != decide (y < e.2.2) := by
    apply List.filter_congr
    intro e he
    obtain ⟨m1, m2⟩ := ring_mem poly e he
    have := passes_iff y e (h _ m1) (h _ m2)
    by_cases hp : Passes y e
    · simp only [hp, decide_true]; exact (this.1 hp).symm
    · simp only [hp, decide_false]
      by_contra hc
      exact hp (this.2 (by simpa using hc))
  rw [e]; exact this

private theorem at_height (y : ℚ) (e : Pt × Pt) (h : Passes y e) (x : ℚ) : AtHeight y e x ↔ x = meets y e := by
  have hd : e.2.2 - e.1.2 ≠ 0 := by
    rcases h with h | h
    · exact sub_ne_zero.2 (by linarith [h.1, h.2])
    · exact sub_ne_zero.2 (by linarith [h.1, h.2])
  unfold AtHeight meets
  constructor
  · intro he
    rw [eq_comm, ← eq_sub_iff_add_eq, div_eq_iff hd]
    linarith
  · rintro rfl
    field_simp
    ring

private theorem east_iff (p : Pt) (e : Pt × Pt) : East p e ↔ Passes p.2 e ∧ p.1 < meets p.2 e := by
  unfold East
  constructor
  · rintro ⟨h, hx⟩
    exact ⟨h, hx _ ((at_height _ _ h _).2 rfl)⟩
  · rintro ⟨h, hx⟩
    exact ⟨h, fun x hx' => by rw [(at_height _ _ h _).1 hx']; exact hx⟩

private theorem split_parity {α : Type} (l : List α) (a w o : α → Bool) (h : ∀ x ∈ l, a x = (w x || o x)) (hd : ∀ x ∈ l, ¬ (w x = true ∧ o x = true)) :
    (l.filter a).length = (l.filter w).length + (l.filter o).length := by
  induction l with
  | nil => rfl
  | cons x l ih =>
    have := ih (fun y hy => h y (List.mem_cons_of_mem _ hy)) (fun y hy => hd y (List.mem_cons_of_mem _ hy))
    have hx := h x List.mem_cons_self
    have hdx := hd x List.mem_cons_self
    simp only [List.filter_cons, hx]
    cases hw : w x <;> cases ho : o x <;> simp_all <;> omega

/-- As many edges (up to an even number) are to the west as to the east. -/
private theorem west_east (poly : List Pt) (p : Pt) (hg : Generic poly p) :
    ((ringEdges poly).filter fun e => decide (Passes p.2 e) && decide (meets p.2 e < p.1)).length % 2 =
      ((ringEdges poly).filter fun e => decide (Passes p.2 e) && decide (p.1 < meets p.2 e)).length % 2 := by
  have ht := passes_even p.2 poly hg.1
  have := split_parity (ringEdges poly) (fun e => decide (Passes p.2 e)) (fun e => decide (Passes p.2 e) && decide (meets p.2 e < p.1))
    (fun e => decide (Passes p.2 e) && decide (p.1 < meets p.2 e)) (by
      intro e he
      by_cases hp : Passes p.2 e
      · have hne : meets p.2 e ≠ p.1 := fun h => hg.2 e he hp ((at_height _ _ hp _).2 h.symm)
        rcases lt_or_gt_of_ne hne with h | h
        · simp [hp, h]
        · have : ¬ meets p.2 e < p.1 := not_lt.2 h.le
          simp [hp, h, this]
      · simp [hp]) (by
      rintro e he ⟨h1, h2⟩
      simp only [Bool.and_eq_true, decide_eq_true_eq] at h1 h2
      exact lt_asymm h1.2 h2.2)
  omega

private theorem inside_iff (poly : List Pt) (p : Pt) (hg : Generic poly p) :
    Inside poly p ↔ ((ringEdges poly).filter fun e => decide (Passes p.2 e) && decide (meets p.2 e < p.1)).length % 2 = 1 := by
  rw [west_east poly p hg]
  unfold Inside
  have : (ringEdges poly).filter (fun e => @decide (East p e) (Classical.propDecidable _)) =
      (ringEdges poly).filter fun e => decide (Passes p.2 e) && decide (p.1 < meets p.2 e) := by
    apply List.filter_congr
    intro e _
    have := east_iff p e
    by_cases h : East p e
    · simp [h, this.1 h]
    · rw [@decide_eq_false _ (Classical.propDecidable _) h]
      symm
      rw [Bool.eq_false_iff]
      intro hc
      simp only [Bool.and_eq_true, decide_eq_true_eq] at hc
      exact h (this.2 hc)
  rw [this]

/-- C110: in image coordinates, a cell is filled exactly if its centre is inside of the polygon. -/
theorem fills_iff (poly : List Pt) (c : Pt) (hg : Generic poly c) : fills c poly = true ↔ Inside poly c := by
  rw [inside_iff poly c hg]
  unfold fills
  have hno : (edges poly).any (along c) = false := by
    rw [List.any_eq_false, edges_eq]
    intro e he ha
    have := hg.1 _ (ring_mem poly e he).1
    unfold along at ha
    exact this (of_decide_eq_true ha).1
  rw [hno, Bool.or_false, edges_eq, decide_eq_true_eq]
  have : (ringEdges poly).filter (fun e => crosses c.2 e && decide (meets c.2 e < c.1)) =
      (ringEdges poly).filter fun e => decide (Passes c.2 e) && decide (meets c.2 e < c.1) := by
    apply List.filter_congr
    intro e he
    obtain ⟨m1, m2⟩ := ring_mem poly e he
    have n1 := hg.1 _ m1
    have n2 := hg.1 _ m2
    congr 1
    unfold crosses Passes
    congr 1
    rw [eq_iff_iff]
    constructor
    · rintro (⟨a, b⟩ | ⟨a, b⟩)
      · exact Or.inl ⟨lt_of_le_of_ne a n1, b⟩
      · exact Or.inr ⟨lt_of_le_of_ne a n2, b⟩
    · rintro (⟨a, b⟩ | ⟨a, b⟩)
      · exact Or.inl ⟨a.le, b⟩
      · exact Or.inr ⟨a.le, b⟩
  rw [this]

/-! ### Masks -/

/-- The value of a cell of a mask. -/
def cellOf (m : List (List Bool)) (row col : Nat) : Bool := (m.getD row []).getD col false

private theorem mask_cell (polys : List (List Pt)) (size : Nat × Nat) (holes : Option (List (List Pt))) (row col : Nat)
    (hr : row < size.2) (hc : col < size.1) :
    cellOf (polygonsToMask polys size holes) row col =
      (polys.any (fills (center row col)) && !(holes.getD []).any (fills (center row col))) := by
  have getMap : ∀ {α : Type} (f : Nat → α) (n i : Nat) (d : α), i < n → ((List.range n).map f).getD i d = f i := by
    intro α f n i d hi
    rw [List.getD_eq_getElem _ _ (by simpa using hi)]
    simp
  unfold cellOf polygonsToMask
  rw [getMap _ _ _ _ hr, getMap _ _ _ _ hc]
  cases holes with
  | none => cases h : polys.any (fills (center row col)) <;> simp [burn, h]
  | some h =>
    cases h with
    | nil => cases h : polys.any (fills (center row col)) <;> simp [burn, h]
    | cons a h =>
      simp only [List.isEmpty_cons, Bool.false_eq_true, if_false, Option.getD_some, burn]
      cases (a :: h).any (fills (center row col)) <;> cases polys.any (fills (center row col)) <;> rfl

/-- C110: the mask has one row per row of the image and one value per column. -/
theorem mask_shape (polys : List (List Pt)) (size : Nat × Nat) (holes : Option (List (List Pt))) :
    (polygonsToMask polys size holes).length = size.2 ∧ ∀ r ∈ polygonsToMask polys size holes, r.length = size.1 := by
  refine ⟨by simp [polygonsToMask], fun r hr => ?_⟩
  unfold polygonsToMask at hr
  obtain ⟨i, _, rfl⟩ := List.mem_map.1 hr
  simp

/-- C110: a cell of the mask is true exactly if its centre is inside of some polygon and of no hole. -/
theorem mask_spec (polys : List (List Pt)) (size : Nat × Nat) (holes : Option (List (List Pt))) (row col : Nat)
    (hr : row < size.2) (hc : col < size.1)
    (hp : ∀ q ∈ polys, Generic q ((col : ℚ) + 1 / 2, (row : ℚ) + 1 / 2))
    (hh : ∀ h, holes = some h → ∀ q ∈ h, Generic q ((col : ℚ) + 1 / 2, (row : ℚ) + 1 / 2)) :
    cellOf (polygonsToMask polys size holes) row col = true ↔
      (∃ q ∈ polys, Inside q ((col : ℚ) + 1 / 2, (row : ℚ) + 1 / 2)) ∧
        ∀ h, holes = some h → ∀ q ∈ h, ¬ Inside q ((col : ℚ) + 1 / 2, (row : ℚ) + 1 / 2) := by
  rw [mask_cell polys size holes row col hr hc]
  simp only [Bool.and_eq_true, List.any_eq_true, Bool.not_eq_true', List.any_eq_false]
  have h1 : (∃ x ∈ polys, fills (center row col) x = true) ↔ ∃ q ∈ polys, Inside q ((col : ℚ) + 1 / 2, (row : ℚ) + 1 / 2) := by
    constructor
    · rintro ⟨q, hq, h⟩
      exact ⟨q, hq, (fills_iff q _ (hp q hq)).1 h⟩
    · rintro ⟨q, hq, h⟩
      exact ⟨q, hq, (fills_iff q _ (hp q hq)).2 h⟩
  rw [h1]
  refine and_congr_right fun _ => ?_
  cases holes with
  | none => simp
  | some h =>
    simp only [Option.getD_some, Option.some.injEq, forall_eq']
    constructor
    · intro hx q hq hi
      exact hx q hq ((fills_iff q _ (hh h rfl q hq)).2 hi)
    · intro hx q hq hi
      exact hx q hq ((fills_iff q _ (hh h rfl q hq)).1 hi)

/-! ### Rasters -/

/-- Map coordinates to image coordinates. -/
private def tr (g : Grid) (p : Pt) : Pt := ((p.1 - g.ax.lo) / g.ax.d, (p.2 - g.ay.lo) / g.ay.d)

private theorem toImage_eq (g : Grid) (poly : List Pt) : toImage g poly = poly.map (tr g) := by
  unfold toImage
  apply List.map_congr_left
  intro p _
  simp [tr, Grid.xyToRowcol]

private theorem ring_map (f : Pt → Pt) (poly : List Pt) : ringEdges (poly.map f) = (ringEdges poly).map fun e => (f e.1, f e.2) := by
  unfold ringEdges
  have : (poly.map f).tail ++ (poly.map f).head?.toList = (poly.tail ++ poly.head?.toList).map f := by
    cases poly <;> simp
  rw [this, List.zip_map]
  rfl

private theorem d_ne (a : GAxis) (hn : 0 < a.n) (h : a.lo ≠ a.hi) : a.d ≠ 0 := by
  unfold GAxis.d
  have : (a.n : ℚ) ≠ 0 := by exact_mod_cast hn.ne'
  exact div_ne_zero (sub_ne_zero.2 h.symm) this

private theorem tr_passes (g : Grid) (hg : g.Valid) (p : Pt) (e : Pt × Pt) : Passes (tr g p).2 (tr g e.1, tr g e.2) ↔ Passes p.2 e := by
  have hd := d_ne g.ay hg.ny hg.y
  unfold Passes tr
  simp only
  rcases lt_or_gt_of_ne hd with h | h
  · simp only [div_lt_div_right_of_neg h, sub_lt_sub_iff_right]
    tauto
  · simp only [div_lt_div_iff_of_pos_right h, sub_lt_sub_iff_right]

private theorem tr_height (g : Grid) (hg : g.Valid) (p : Pt) (e : Pt × Pt) (x : ℚ) :
    AtHeight (tr g p).2 (tr g e.1, tr g e.2) ((x - g.ax.lo) / g.ax.d) ↔ AtHeight p.2 e x := by
  have hx := d_ne g.ax hg.nx hg.x
  have hy := d_ne g.ay hg.ny hg.y
  unfold AtHeight tr
  simp only
  rw [div_sub_div_same, div_sub_div_same, div_sub_div_same, div_sub_div_same, div_mul_div_comm, div_mul_div_comm, mul_comm g.ay.d g.ax.d,
    div_left_inj' (mul_ne_zero hx hy)]
  constructor <;> intro h <;> linarith

private theorem tr_meets (g : Grid) (hg : g.Valid) (p : Pt) (e : Pt × Pt) (h : Passes p.2 e) :
    meets (tr g p).2 (tr g e.1, tr g e.2) = (meets p.2 e - g.ax.lo) / g.ax.d := by
  symm
  rw [← at_height _ _ ((tr_passes g hg p e).2 h), tr_height g hg, at_height _ _ h]

private theorem tr_generic (g : Grid) (hg : g.Valid) (poly : List Pt) (p : Pt) (h : Generic poly p) : Generic (poly.map (tr g)) (tr g p) := by
  have hy := d_ne g.ay hg.ny hg.y
  constructor
  · intro q hq
    obtain ⟨r, hr, rfl⟩ := List.mem_map.1 hq
    have := h.1 r hr
    unfold tr
    simp only
    rw [Ne, div_left_inj' hy]
    intro hc
    exact this (by linarith)
  · intro e he hp
    rw [ring_map] at he
    obtain ⟨f, hf, rfl⟩ := List.mem_map.1 he
    have hp' := (tr_passes g hg p f).1 hp
    intro hc
    exact h.2 f hf hp' ((tr_height g hg p f p.1).1 hc)

/-- The inside of a polygon is the same in map and image coordinates, for either direction of the axes. -/
private theorem tr_inside (g : Grid) (hg : g.Valid) (poly : List Pt) (p : Pt) (h : Generic poly p) :
    Inside (poly.map (tr g)) (tr g p) ↔ Inside poly p := by
  have hx := d_ne g.ax hg.nx hg.x
  rw [inside_iff _ _ (tr_generic g hg poly p h), ring_map, List.filter_map, List.length_map]
  rcases lt_or_gt_of_ne hx with hneg | hpos
  · rw [inside_iff _ _ h, west_east poly p h]
    have : (ringEdges poly).filter ((fun e => decide (Passes (tr g p).2 e) && decide (meets (tr g p).2 e < (tr g p).1)) ∘ fun e => (tr g e.1, tr g e.2)) =
        (ringEdges poly).filter fun e => decide (Passes p.2 e) && decide (p.1 < meets p.2 e) := by
      apply List.filter_congr
      intro e _
      simp only [Function.comp]
      by_cases hp : Passes p.2 e
      · have hp' := (tr_passes g hg p e).2 hp
        simp only [hp, hp', decide_true, Bool.true_and]
        rw [tr_meets g hg p e hp]
        congr 1
        simp only [tr, div_lt_div_right_of_neg hneg, sub_lt_sub_iff_right]
      · have hp' : ¬ Passes (tr g p).2 (tr g e.1, tr g e.2) := fun c => hp ((tr_passes g hg p e).1 c)
        simp [hp, hp']
    rw [this]
  · rw [inside_iff _ _ h]
    have : (ringEdges poly).filter ((fun e => decide (Passes (tr g p).2 e) && decide (meets (tr g p).2 e < (tr g p).1)) ∘ fun e => (tr g e.1, tr g e.2)) =
        (ringEdges poly).filter fun e => decide (Passes p.2 e) && decide (meets p.2 e < p.1) := by
      apply List.filter_congr
      intro e _
      simp only [Function.comp]
      by_cases hp : Passes p.2 e
      · have hp' := (tr_passes g hg p e).2 hp
        simp only [hp, hp', decide_true, Bool.true_and]
        rw [tr_meets g hg p e hp]
        congr 1
        simp only [tr, div_lt_div_iff_of_pos_right hpos, sub_lt_sub_iff_right]
      · have hp' : ¬ Passes (tr g p).2 (tr g e.1, tr g e.2) := fun c => hp ((tr_passes g hg p e).1 c)
        simp [hp, hp']
    rw [this]

private theorem tr_center (g : Grid) (hg : g.Valid) (row col : Nat) :
    tr g (cellCenter g.ax.lo g.ax.hi g.ax.n col, cellCenter g.ay.lo g.ay.hi g.ay.n row) = ((col : ℚ) + 1 / 2, (row : ℚ) + 1 / 2) := by
  have hx := d_ne g.ax hg.nx hg.x
  have hy := d_ne g.ay hg.ny hg.y
  have e1 := GAxis.cellCenter_eq (a := g.ax) hg.nx (col : ℤ)
  have e2 := GAxis.cellCenter_eq (a := g.ay) hg.ny (row : ℤ)
  unfold tr
  simp only
  rw [e1, e2, add_sub_cancel_right, add_sub_cancel_right, mul_div_assoc, mul_div_assoc, div_self hx, div_self hy]
  simp

/-- C110: `rasterize_polygons` returns for each cell of the raster whether its centre (in map coordinates) is inside of some polygon and
of no hole, for rasters with either direction of either axis; if no centre is at the height of a vertex or on an edge. -/
theorem rasterize_polygons_partial (g : Grid) (hg : g.Valid) (polys : List (List Pt)) (holes : Option (List (List Pt))) (row col : Nat)
    (hr : row < g.ay.n) (hc : col < g.ax.n)
    (hp : ∀ q ∈ polys, Generic q (cellCenter g.ax.lo g.ax.hi g.ax.n col, cellCenter g.ay.lo g.ay.hi g.ay.n row))
    (hh : ∀ h, holes = some h → ∀ q ∈ h, Generic q (cellCenter g.ax.lo g.ax.hi g.ax.n col, cellCenter g.ay.lo g.ay.hi g.ay.n row)) :
    cellOf (rasterizePolygons g polys holes) row col = true ↔
      (∃ q ∈ polys, Inside q (cellCenter g.ax.lo g.ax.hi g.ax.n col, cellCenter g.ay.lo g.ay.hi g.ay.n row)) ∧
        ∀ h, holes = some h → ∀ q ∈ h, ¬ Inside q (cellCenter g.ax.lo g.ax.hi g.ax.n col, cellCenter g.ay.lo g.ay.hi g.ay.n row) := by
  have hcen := tr_center g hg row col
  unfold rasterizePolygons
  rw [mask_spec _ _ _ row col hr hc]
  · rw [← hcen]
    constructor
    · rintro ⟨⟨q, hq, hi⟩, h2⟩
      obtain ⟨q', hq', rfl⟩ := List.mem_map.1 hq
      rw [toImage_eq, tr_inside g hg _ _ (hp q' hq')] at hi
      refine ⟨⟨q', hq', hi⟩, fun h e q hq hi => ?_⟩
      have := h2 (h.map (toImage g)) (by rw [e]; rfl) (toImage g q) (List.mem_map.2 ⟨q, hq, rfl⟩)
      rw [toImage_eq, tr_inside g hg _ _ (hh h e q hq)] at this
      exact this hi
    · rintro ⟨⟨q, hq, hi⟩, h2⟩
      refine ⟨⟨toImage g q, List.mem_map.2 ⟨q, hq, rfl⟩, ?_⟩, fun h e q hq => ?_⟩
      · rw [toImage_eq, tr_inside g hg _ _ (hp q hq)]; exact hi
      · cases holes with
        | none => simp at e
        | some h0 =>
          simp only [Option.map_some, Option.some.injEq] at e
          subst e
          obtain ⟨q', hq', rfl⟩ := List.mem_map.1 hq
          rw [toImage_eq, tr_inside g hg _ _ (hh h0 rfl q' hq')]
          exact h2 h0 rfl q' hq'
  · intro q hq
    obtain ⟨q', hq', rfl⟩ := List.mem_map.1 hq
    rw [toImage_eq, ← hcen]
    exact tr_generic g hg _ _ (hp q' hq')
  · intro h e q hq
    cases holes with
    | none => simp at e
    | some h0 =>
      simp only [Option.map_some, Option.some.injEq] at e
      subst e
      obtain ⟨q', hq', rfl⟩ := List.mem_map.1 hq
      rw [toImage_eq, ← hcen]
      exact tr_generic g hg _ _ (hh h0 rfl q' hq')

/-- C110: the mask of a raster has the shape of the raster. -/
theorem rasterize_polygons_shape (g : Grid) (polys : List (List Pt)) (holes : Option (List (List Pt))) :
    (rasterizePolygons g polys holes).length = g.ay.n ∧ ∀ r ∈ rasterizePolygons g polys holes, r.length = g.ax.n :=
  mask_shape _ _ _

/-- C110: the side to which the ray is drawn makes no difference, so that `Inside` is a property of the polygon: counting the
edges to the west gives the same answer. -/
theorem inside_either_side (poly : List Pt) (p : Pt) (hg : Generic poly p) :
    Inside poly p ↔ ((ringEdges poly).filter fun e => decide (Passes p.2 e) && decide (meets p.2 e < p.1)).length % 2 = 1 :=
  inside_iff poly p hg

/-! ### Points at the height of vertices -/

/-- Crossing counted with the other end of the edge. -/
private def crossesDn (y : ℚ) (e : Pt × Pt) : Bool := decide ((e.1.2 < y ∧ y ≤ e.2.2) ∨ (e.2.2 < y ∧ y ≤ e.1.2))

private theorem xor_parity {α : Type} (l : List α) (a b c : α → Bool) (h : ∀ x ∈ l, (a x ^^ b x) = c x) :
    ((l.filter a).length + (l.filter b).length) % 2 = (l.filter c).length % 2 := by
  induction l with
  | nil => rfl
  | cons x l ih =>
    have hx := h x List.mem_cons_self
    have := ih fun y hy => h y (List.mem_cons_of_mem _ hy)
    simp only [List.filter_cons]
    cases ha : a x <;> cases hb : b x <;> rw [ha, hb] at hx <;> rw [← hx] <;> simp <;> omega

/-- An edge that does not contain the point meets its height elsewhere. -/
private theorem meets_ne (p : Pt) (e : Pt × Pt) (h : ¬ OnEdge p e) (hl : (e.1.2 ≤ p.2 ∧ p.2 ≤ e.2.2) ∨ (e.2.2 ≤ p.2 ∧ p.2 ≤ e.1.2))
    (hne : e.1.2 ≠ e.2.2) : meets p.2 e ≠ p.1 := by
  intro hm
  apply h
  have hd : e.2.2 - e.1.2 ≠ 0 := sub_ne_zero.2 hne.symm
  refine ⟨(p.2 - e.1.2) / (e.2.2 - e.1.2), ?_, ?_, ?_⟩
  · rcases hl with ⟨a, b⟩ | ⟨a, b⟩
    · exact div_nonneg (by linarith) (by linarith)
    · exact div_nonneg_of_nonpos (by linarith) (by linarith)
  · rcases hl with ⟨a, b⟩ | ⟨a, b⟩
    · have : 0 < e.2.2 - e.1.2 := lt_of_le_of_ne (by linarith) (Ne.symm hd)
      rw [div_le_one this]; linarith
    · have : e.2.2 - e.1.2 < 0 := lt_of_le_of_ne (by linarith) hd
      rw [div_le_one_of_neg this]; linarith
  · unfold meets at hm
    apply Prod.ext
    · simp only
      rw [← hm]; field_simp; ring
    · simp only
      field_simp; ring

/-- A horizontal edge that does not contain the point is on one side of it. -/
private theorem side_eq (p : Pt) (e : Pt × Pt) (h : ¬ OnEdge p e) (h1 : e.1.2 = p.2) (h2 : e.2.2 = p.2) :
    decide (e.1.1 < p.1) = decide (e.2.1 < p.1) := by
  by_contra hc
  have hx : (e.1.1 < p.1 ∧ p.1 ≤ e.2.1) ∨ (e.2.1 < p.1 ∧ p.1 ≤ e.1.1) := by
    rw [decide_eq_decide] at hc
    by_cases a : e.1.1 < p.1 <;> by_cases b : e.2.1 < p.1
    · exact absurd (iff_of_true a b) hc
    · exact .inl ⟨a, not_lt.1 b⟩
    · exact .inr ⟨b, not_lt.1 a⟩
    · exact absurd (iff_of_false a b) hc
  apply h
  have hd : e.2.1 - e.1.1 ≠ 0 := by rcases hx with ⟨a, b⟩ | ⟨a, b⟩ <;> intro hz <;> linarith
  refine ⟨(p.1 - e.1.1) / (e.2.1 - e.1.1), ?_, ?_, ?_⟩
  · rcases hx with ⟨a, b⟩ | ⟨a, b⟩
    · exact div_nonneg (by linarith) (by linarith)
    · exact div_nonneg_of_nonpos (by linarith) (by linarith)
  · rcases hx with ⟨a, b⟩ | ⟨a, b⟩
    · have : 0 < e.2.1 - e.1.1 := by linarith
      rw [div_le_one this]; linarith
    · have : e.2.1 - e.1.1 < 0 := by linarith
      rw [div_le_one_of_neg this]; linarith
  · apply Prod.ext
    · simp only
      field_simp; ring
    · simp only [h1, h2]
      ring

/-- Counting with either end gives the same parity. -/
private theorem up_dn (poly : List Pt) (p : Pt) (h : OffBoundary poly p) :
    ((ringEdges poly).filter fun e => crosses p.2 e && decide (meets p.2 e < p.1)).length % 2 =
      ((ringEdges poly).filter fun e => crossesDn p.2 e && decide (meets p.2 e < p.1)).length % 2 := by
  have hr := ring_parity (fun v => decide (v.2 = p.2) && decide (v.1 < p.1)) poly
  have hx := xor_parity (ringEdges poly) (fun e => crosses p.2 e && decide (meets p.2 e < p.1))
    (fun e => crossesDn p.2 e && decide (meets p.2 e < p.1))
    (fun e => (decide (e.1.2 = p.2) && decide (e.1.1 < p.1)) != (decide (e.2.2 = p.2) && decide (e.2.1 < p.1))) (by
      intro e he
      have hoff := h e he
      by_cases h1 : e.1.2 = p.2 <;> by_cases h2 : e.2.2 = p.2
      · have hs := side_eq p e hoff h1 h2
        have c1 : crosses p.2 e = false := by unfold crosses; rw [h1, h2]; simp
        have c2 : crossesDn p.2 e = false := by unfold crossesDn; rw [h1, h2]; simp
        rw [c1, c2, hs]
        simp [h1, h2]
      · have hm : meets p.2 e = e.1.1 := by unfold meets; rw [h1]; ring
        rw [hm]
        simp only [h1, h2, decide_true, decide_false, Bool.true_and, Bool.false_and]
        unfold crosses crossesDn
        rw [h1]
        rcases lt_or_gt_of_ne h2 with a | a
        · have b1 : ¬ ((p.2 ≤ p.2 ∧ p.2 < e.2.2) ∨ (e.2.2 ≤ p.2 ∧ p.2 < p.2)) := by rintro (⟨_, b⟩ | ⟨_, b⟩) <;> linarith
          have b2 : (p.2 < p.2 ∧ p.2 ≤ e.2.2) ∨ (e.2.2 < p.2 ∧ p.2 ≤ p.2) := .inr ⟨a, le_rfl⟩
          rw [decide_eq_false b1, decide_eq_true b2]; cases decide (e.1.1 < p.1) <;> rfl
        · have b1 : ((p.2 ≤ p.2 ∧ p.2 < e.2.2) ∨ (e.2.2 ≤ p.2 ∧ p.2 < p.2)) := .inl ⟨le_rfl, a⟩
          have b2 : ¬ ((p.2 < p.2 ∧ p.2 ≤ e.2.2) ∨ (e.2.2 < p.2 ∧ p.2 ≤ p.2)) := by rintro (⟨b, _⟩ | ⟨b, _⟩) <;> linarith
          rw [decide_eq_true b1, decide_eq_false b2]; cases decide (e.1.1 < p.1) <;> rfl
      · have hd : e.2.2 - e.1.2 ≠ 0 := by rw [h2]; exact sub_ne_zero.2 (Ne.symm h1)
        have hm : meets p.2 e = e.2.1 := by unfold meets; rw [← h2]; field_simp; ring
        rw [hm]
        simp only [h1, h2, decide_true, decide_false, Bool.true_and, Bool.false_and]
        unfold crosses crossesDn
        rw [h2]
        rcases lt_or_gt_of_ne h1 with a | a
        · have b1 : ¬ ((e.1.2 ≤ p.2 ∧ p.2 < p.2) ∨ (p.2 ≤ p.2 ∧ p.2 < e.1.2)) := by rintro (⟨_, b⟩ | ⟨_, b⟩) <;> linarith
          have b2 : (e.1.2 < p.2 ∧ p.2 ≤ p.2) ∨ (p.2 < p.2 ∧ p.2 ≤ e.1.2) := .inl ⟨a, le_rfl⟩
          rw [decide_eq_false b1, decide_eq_true b2]; cases decide (e.2.1 < p.1) <;> rfl
        · have b1 : ((e.1.2 ≤ p.2 ∧ p.2 < p.2) ∨ (p.2 ≤ p.2 ∧ p.2 < e.1.2)) := .inr ⟨le_rfl, a⟩
          have b2 : ¬ ((e.1.2 < p.2 ∧ p.2 ≤ p.2) ∨ (p.2 < p.2 ∧ p.2 ≤ e.1.2)) := by rintro (⟨b, _⟩ | ⟨b, _⟩) <;> linarith
          rw [decide_eq_true b1, decide_eq_false b2]; cases decide (e.2.1 < p.1) <;> rfl
      · have : crossesDn p.2 e = crosses p.2 e := by
          unfold crosses crossesDn
          rw [decide_eq_decide]
          constructor
          · rintro (⟨a, b⟩ | ⟨a, b⟩)
            · exact .inl ⟨a.le, lt_of_le_of_ne b (Ne.symm h2)⟩
            · exact .inr ⟨a.le, lt_of_le_of_ne b (Ne.symm h1)⟩
          · rintro (⟨a, b⟩ | ⟨a, b⟩)
            · exact .inl ⟨lt_of_le_of_ne a h1, b.le⟩
            · exact .inr ⟨lt_of_le_of_ne a h2, b.le⟩
        rw [this]
        simp [h1, h2])
  omega

open Topology Filter

private theorem eventually_list {l : List (Pt × Pt)} {f : Filter Pt} {P : Pt × Pt → Pt → Prop} (h : ∀ e ∈ l, ∀ᶠ q in f, P e q) :
    ∀ᶠ q in f, ∀ e ∈ l, P e q := by
  induction l with
  | nil => exact Eventually.of_forall fun q e he => by simp at he
  | cons a l ih =>
    filter_upwards [h a List.mem_cons_self, ih fun e he => h e (List.mem_cons_of_mem _ he)] with q h1 h2 e he
    rcases List.mem_cons.1 he with rfl | he
    · exact h1
    · exact h2 e he

private theorem meets_continuous (e : Pt × Pt) : Continuous fun q : Pt => meets q.2 e := by
  unfold meets
  fun_prop

private theorem side_eventually (p : Pt) (e : Pt × Pt) (h : meets p.2 e ≠ p.1) :
    ∀ᶠ q in 𝓝 p, (meets q.2 e < q.1 ↔ meets p.2 e < p.1) := by
  rcases lt_or_gt_of_ne h with a | a
  · have := (meets_continuous e).continuousAt.eventually_lt continuous_fst.continuousAt a
    filter_upwards [this] with q hq
    exact iff_of_true hq a
  · have := continuous_fst.continuousAt.eventually_lt (meets_continuous e).continuousAt a
    filter_upwards [this] with q hq
    exact iff_of_false (not_lt.2 hq.le) (not_lt.2 (le_of_lt a))

private theorem height_eventually (p : Pt) (y : ℚ) : ∀ᶠ q : Pt in 𝓝 p, (p.2 < y → q.2 < y) ∧ (y < p.2 → y < q.2) := by
  have c : ContinuousAt (fun q : Pt => q.2) p := continuous_snd.continuousAt
  have k : ∀ z : ℚ, ContinuousAt (fun _ : Pt => z) p := fun z => continuousAt_const
  rcases lt_trichotomy p.2 y with a | a | a
  · filter_upwards [c.eventually_lt (k y) a] with q hq
    exact ⟨fun _ => hq, fun b => absurd a (not_lt.2 b.le)⟩
  · exact Eventually.of_forall fun q => ⟨fun b => absurd b (by rw [a]; exact lt_irrefl _), fun b => absurd b (by rw [a]; exact lt_irrefl _)⟩
  · filter_upwards [(k y).eventually_lt c a] with q hq
    exact ⟨fun b => absurd a (not_lt.2 b.le), fun _ => hq⟩

/-- Around a point that is not on an edge, the edge counts as at the point: by the lower end for points above, by the upper for points
below. -/
private theorem edge_eventually (p : Pt) (e : Pt × Pt) (h : ¬ OnEdge p e) : ∀ᶠ q : Pt in 𝓝 p,
    (p.2 ≤ q.2 → (crosses q.2 e && decide (meets q.2 e < q.1)) = (crosses p.2 e && decide (meets p.2 e < p.1))) ∧
    (q.2 < p.2 → (crosses q.2 e && decide (meets q.2 e < q.1)) = (crossesDn p.2 e && decide (meets p.2 e < p.1))) := by
  have k1 := height_eventually p e.1.2
  have k2 := height_eventually p e.2.2
  have up : ∀ q : Pt, (p.2 < e.1.2 → q.2 < e.1.2) ∧ (e.1.2 < p.2 → e.1.2 < q.2) → (p.2 < e.2.2 → q.2 < e.2.2) ∧ (e.2.2 < p.2 → e.2.2 < q.2) →
      p.2 ≤ q.2 → crosses q.2 e = crosses p.2 e := by
    intro q a b hq
    unfold crosses
    rw [decide_eq_decide]
    constructor
    · rintro (⟨c, d⟩ | ⟨c, d⟩)
      · refine .inl ⟨?_, lt_of_le_of_lt hq d⟩
        by_contra hc; exact absurd (a.1 (not_le.1 hc)) (not_lt.2 c)
      · refine .inr ⟨?_, lt_of_le_of_lt hq d⟩
        by_contra hc; exact absurd (b.1 (not_le.1 hc)) (not_lt.2 c)
    · rintro (⟨c, d⟩ | ⟨c, d⟩)
      · exact .inl ⟨c.trans hq, b.1 d⟩
      · exact .inr ⟨c.trans hq, a.1 d⟩
  have dn : ∀ q : Pt, (p.2 < e.1.2 → q.2 < e.1.2) ∧ (e.1.2 < p.2 → e.1.2 < q.2) → (p.2 < e.2.2 → q.2 < e.2.2) ∧ (e.2.2 < p.2 → e.2.2 < q.2) →
      q.2 < p.2 → crosses q.2 e = crossesDn p.2 e := by
    intro q a b hq
    unfold crosses crossesDn
    rw [decide_eq_decide]
    constructor
    · rintro (⟨c, d⟩ | ⟨c, d⟩)
      · refine .inl ⟨lt_of_le_of_lt c hq, ?_⟩
        by_contra hc; exact absurd (b.2 (not_le.1 hc)) (not_lt.2 d.le)
      · refine .inr ⟨lt_of_le_of_lt c hq, ?_⟩
        by_contra hc; exact absurd (a.2 (not_le.1 hc)) (not_lt.2 d.le)
    · rintro (⟨c, d⟩ | ⟨c, d⟩)
      · exact .inl ⟨(a.2 c).le, lt_of_lt_of_le hq d⟩
      · exact .inr ⟨(b.2 c).le, lt_of_lt_of_le hq d⟩
  by_cases hl : ((e.1.2 ≤ p.2 ∧ p.2 ≤ e.2.2) ∨ (e.2.2 ≤ p.2 ∧ p.2 ≤ e.1.2)) ∧ e.1.2 ≠ e.2.2
  · filter_upwards [k1, k2, side_eventually p e (meets_ne p e h hl.1 hl.2)] with q a b c
    exact ⟨fun hq => by rw [up q a b hq, decide_eq_decide.2 c], fun hq => by rw [dn q a b hq, decide_eq_decide.2 c]⟩
  · have c1 : crosses p.2 e = false := by
      unfold crosses
      apply decide_eq_false
      rintro (⟨c, d⟩ | ⟨c, d⟩)
      · exact hl ⟨.inl ⟨c, d.le⟩, ne_of_lt (lt_of_le_of_lt c d)⟩
      · exact hl ⟨.inr ⟨c, d.le⟩, ne_of_gt (lt_of_le_of_lt c d)⟩
    have c2 : crossesDn p.2 e = false := by
      unfold crossesDn
      apply decide_eq_false
      rintro (⟨c, d⟩ | ⟨c, d⟩)
      · exact hl ⟨.inl ⟨c.le, d⟩, ne_of_lt (lt_of_lt_of_le c d)⟩
      · exact hl ⟨.inr ⟨c.le, d⟩, ne_of_gt (lt_of_lt_of_le c d)⟩
    filter_upwards [k1, k2] with q a b
    exact ⟨fun hq => by rw [up q a b hq, c1]; rfl, fun hq => by rw [dn q a b hq, c2]; rfl⟩

private theorem fills_off (poly : List Pt) (p : Pt) (h : OffBoundary poly p) :
    fills p poly = decide (((ringEdges poly).filter fun e => crosses p.2 e && decide (meets p.2 e < p.1)).length % 2 = 1) := by
  unfold fills
  have hno : (edges poly).any (along p) = false := by
    rw [List.any_eq_false, edges_eq]
    intro e he ha
    unfold along at ha
    obtain ⟨a, b, c, d⟩ := of_decide_eq_true ha
    have hs := side_eq p e (h e he) a b
    rw [decide_eq_decide] at hs
    exact absurd (hs.2 c) (not_lt.2 d)
  rw [hno, Bool.or_false, edges_eq]

private theorem generic_off (poly : List Pt) (p : Pt) (hg : Generic poly p) : OffBoundary poly p := by
  intro e he ⟨t, h0, h1, ht⟩
  obtain ⟨m1, m2⟩ := ring_mem poly e he
  have n1 := hg.1 _ m1
  have n2 := hg.1 _ m2
  have hx : p.1 = (1 - t) * e.1.1 + t * e.2.1 := congrArg Prod.fst ht
  have hy : p.2 = (1 - t) * e.1.2 + t * e.2.2 := congrArg Prod.snd ht
  have t0 : t ≠ 0 := by rintro rfl; apply n1; rw [hy]; ring
  have t1 : t ≠ 1 := by rintro rfl; apply n2; rw [hy]; ring
  have tp : 0 < t := lt_of_le_of_ne h0 (Ne.symm t0)
  have tq : t < 1 := lt_of_le_of_ne h1 t1
  have hne : e.1.2 ≠ e.2.2 := by intro hq; apply n1; rw [hy, hq]; ring
  refine hg.2 e he ?_ ?_
  · rcases lt_or_gt_of_ne hne with a | a
    · left; rw [hy]; constructor <;> nlinarith
    · right; rw [hy]; constructor <;> nlinarith
  · unfold AtHeight; rw [hx, hy]; ring

/-- Around a point that is on no edge, the answer does not change. -/
private theorem fills_locally (poly : List Pt) (p : Pt) (h : OffBoundary poly p) :
    ∀ᶠ q in 𝓝 p, Generic poly q → fills q poly = fills p poly := by
  filter_upwards [eventually_list fun e he => edge_eventually p e (h e he)] with q hq hg
  rw [fills_off poly p h, fills_off poly q (generic_off poly q hg)]
  rcases le_or_gt p.2 q.2 with a | a
  · rw [List.filter_congr fun e he => (hq e he).1 a]
  · rw [up_dn poly p h, List.filter_congr fun e he => (hq e he).2 a]

/-- C110: there are points in general position arbitrarily close to every point (so that `Within` and its negation exclude each other). -/
theorem generic_frequently (poly : List Pt) (p : Pt) : ∃ᶠ q in 𝓝 p, Generic poly q := by
  rw [Filter.Frequently, nhds_prod_eq]
  intro hev
  obtain ⟨pa, hpa, pb, hpb, hab⟩ := Filter.eventually_prod_iff.1 hev
  have hfin : (((poly.map Prod.snd).toFinset : Finset ℚ) : Set ℚ).Finite := Finset.finite_toSet _
  obtain ⟨y, hy1, hy2⟩ := ((dense_univ.diff_finite hfin).inter_nhds_nonempty hpb : _)
  have hfin2 : (((((ringEdges poly).map fun e => meets y e)).toFinset : Finset ℚ) : Set ℚ).Finite := Finset.finite_toSet _
  obtain ⟨x, hx1, hx2⟩ := ((dense_univ.diff_finite hfin2).inter_nhds_nonempty hpa : _)
  refine hab hx2 hy2 ⟨fun q hq e => hy1.2 ?_, fun e he hp hh => hx1.2 ?_⟩
  · simp only [List.coe_toFinset, List.mem_map, Set.mem_setOf_eq]
    exact ⟨q, hq, e⟩
  · simp only [List.coe_toFinset, List.mem_map, Set.mem_setOf_eq]
    exact ⟨e, he, ((at_height y e hp x).1 hh).symm⟩

/-- C110: a point on no edge that is at the height of vertices is inside or outside together with all close points: the points close to it
in general position are all inside, or all outside. -/
theorem within_or_not (poly : List Pt) (p : Pt) (h : OffBoundary poly p) :
    ¬ Within poly p ↔ ∀ᶠ q in 𝓝 p, Generic poly q → ¬ Inside poly q := by
  have hl := fills_locally poly p h
  constructor
  · intro hn
    cases hf : fills p poly with
    | true =>
      exfalso
      apply hn
      unfold Within
      filter_upwards [hl] with q hq hg
      rw [← fills_iff poly q hg, hq hg, hf]
    | false =>
      filter_upwards [hl] with q hq hg
      rw [← fills_iff poly q hg, hq hg, hf]
      simp
  · intro hn hw
    obtain ⟨q, hg, h1, h2⟩ := ((generic_frequently poly p).and_eventually (hw.and hn)).exists
    exact h2 hg (h1 hg)

/-- C110: in general position, being within is being inside. -/
theorem within_generic (poly : List Pt) (p : Pt) (h : Generic poly p) : Within poly p ↔ Inside poly p := by
  have hl := fills_locally poly p (generic_off poly p h)
  constructor
  · intro hw
    obtain ⟨q, hg, h1, h2⟩ := ((generic_frequently poly p).and_eventually (hw.and hl)).exists
    rw [← fills_iff poly p h, ← h2 hg, fills_iff poly q hg]
    exact h1 hg
  · intro hi
    filter_upwards [hl] with q hq hg
    rw [← fills_iff poly q hg, hq hg, fills_iff poly p h]
    exact hi

/-- C110: in image coordinates, a cell whose centre is on no edge is filled exactly if its centre is within the polygon, also at the
height of vertices. -/
theorem fills_within (poly : List Pt) (p : Pt) (h : OffBoundary poly p) : fills p poly = true ↔ Within poly p := by
  have hl := fills_locally poly p h
  constructor
  · intro hf
    unfold Within
    filter_upwards [hl] with q hq hg
    rw [← fills_iff poly q hg, hq hg, hf]
  · intro hw
    obtain ⟨q, hg, h1, h2⟩ := ((generic_frequently poly p).and_eventually (hw.and hl)).exists
    rw [← h2 hg, fills_iff poly q hg]
    exact h1 hg

/-- C110: a cell of the mask whose centre is on no edge is true exactly if its centre is within some polygon and no hole. -/
theorem mask_within (polys : List (List Pt)) (size : Nat × Nat) (holes : Option (List (List Pt))) (row col : Nat)
    (hr : row < size.2) (hc : col < size.1)
    (hp : ∀ q ∈ polys, OffBoundary q ((col : ℚ) + 1 / 2, (row : ℚ) + 1 / 2))
    (hh : ∀ h, holes = some h → ∀ q ∈ h, OffBoundary q ((col : ℚ) + 1 / 2, (row : ℚ) + 1 / 2)) :
    cellOf (polygonsToMask polys size holes) row col = true ↔
      (∃ q ∈ polys, Within q ((col : ℚ) + 1 / 2, (row : ℚ) + 1 / 2)) ∧
        ∀ h, holes = some h → ∀ q ∈ h, ¬ Within q ((col : ℚ) + 1 / 2, (row : ℚ) + 1 / 2) := by
  rw [mask_cell polys size holes row col hr hc]
  simp only [Bool.and_eq_true, List.any_eq_true, Bool.not_eq_true', List.any_eq_false]
  have h1 : (∃ x ∈ polys, fills (center row col) x = true) ↔ ∃ q ∈ polys, Within q ((col : ℚ) + 1 / 2, (row : ℚ) + 1 / 2) := by
    constructor
    · rintro ⟨q, hq, h⟩
      exact ⟨q, hq, (fills_within q _ (hp q hq)).1 h⟩
    · rintro ⟨q, hq, h⟩
      exact ⟨q, hq, (fills_within q _ (hp q hq)).2 h⟩
  rw [h1]
  refine and_congr_right fun _ => ?_
  cases holes with
  | none => simp
  | some h =>
    simp only [Option.getD_some, Option.some.injEq, forall_eq']
    constructor
    · intro hx q hq hi
      exact hx q hq ((fills_within q _ (hh h rfl q hq)).2 hi)
    · intro hx q hq hi
      exact hx q hq ((fills_within q _ (hh h rfl q hq)).1 hi)

private theorem tr_continuous (g : Grid) : Continuous (tr g) := by
  unfold tr
  fun_prop

private theorem tr_off (g : Grid) (hg : g.Valid) (poly : List Pt) (p : Pt) (h : OffBoundary poly p) : OffBoundary (poly.map (tr g)) (tr g p) := by
  have hx := d_ne g.ax hg.nx hg.x
  have hy := d_ne g.ay hg.ny hg.y
  rw [OffBoundary, ring_map]
  intro e he ⟨t, h0, h1, ht⟩
  obtain ⟨e', he', rfl⟩ := List.mem_map.1 he
  refine h e' he' ⟨t, h0, h1, ?_⟩
  have a1 := congrArg Prod.fst ht
  have a2 := congrArg Prod.snd ht
  simp only [tr] at a1 a2
  field_simp at a1 a2
  apply Prod.ext <;> simp only <;> linarith

private theorem tr_within (g : Grid) (hg : g.Valid) (poly : List Pt) (p : Pt) (h : OffBoundary poly p) :
    Within (poly.map (tr g)) (tr g p) ↔ Within poly p := by
  have key : ∀ b : Prop, (∀ᶠ q in 𝓝 (tr g p), Generic (poly.map (tr g)) q → (Inside (poly.map (tr g)) q ↔ b)) →
      ∀ᶠ q in 𝓝 p, Generic poly q → (Inside poly q ↔ b) := by
    intro b hb
    have := (tr_continuous g).continuousAt.eventually hb
    filter_upwards [this] with q hq hgen
    rw [← tr_inside g hg poly q hgen]
    exact hq (tr_generic g hg poly q hgen)
  constructor
  · intro hw
    have := key True (by filter_upwards [hw] with q hq hgen; simpa using hq hgen)
    unfold Within
    filter_upwards [this] with q hq hgen
    simpa using hq hgen
  · intro hw
    by_contra hn
    rw [within_or_not _ _ (tr_off g hg poly p h)] at hn
    have := key False (by filter_upwards [hn] with q hq hgen; simpa using hq hgen)
    have h2 : ¬ Within poly p := (within_or_not poly p h).2 (by filter_upwards [this] with q hq hgen; simpa using hq hgen)
    exact h2 hw

/-- C110: `rasterize_polygons` returns for each cell of the raster whose centre (in map coordinates) is on no edge whether it is within some
polygon and no hole, for rasters with either direction of either axis. -/
theorem rasterize_polygons_spec (g : Grid) (hg : g.Valid) (polys : List (List Pt)) (holes : Option (List (List Pt))) (row col : Nat)
    (hr : row < g.ay.n) (hc : col < g.ax.n)
    (hp : ∀ q ∈ polys, OffBoundary q (cellCenter g.ax.lo g.ax.hi g.ax.n col, cellCenter g.ay.lo g.ay.hi g.ay.n row))
    (hh : ∀ h, holes = some h → ∀ q ∈ h, OffBoundary q (cellCenter g.ax.lo g.ax.hi g.ax.n col, cellCenter g.ay.lo g.ay.hi g.ay.n row)) :
    cellOf (rasterizePolygons g polys holes) row col = true ↔
      (∃ q ∈ polys, Within q (cellCenter g.ax.lo g.ax.hi g.ax.n col, cellCenter g.ay.lo g.ay.hi g.ay.n row)) ∧
        ∀ h, holes = some h → ∀ q ∈ h, ¬ Within q (cellCenter g.ax.lo g.ax.hi g.ax.n col, cellCenter g.ay.lo g.ay.hi g.ay.n row) := by
  have hcen := tr_center g hg row col
  unfold rasterizePolygons
  rw [mask_within _ _ _ row col hr hc]
  · rw [← hcen]
    constructor
    · rintro ⟨⟨q, hq, hi⟩, h2⟩
      obtain ⟨q', hq', rfl⟩ := List.mem_map.1 hq
      rw [toImage_eq, tr_within g hg _ _ (hp q' hq')] at hi
      refine ⟨⟨q', hq', hi⟩, fun h e q hq hi => ?_⟩
      have := h2 (h.map (toImage g)) (by rw [e]; rfl) (toImage g q) (List.mem_map.2 ⟨q, hq, rfl⟩)
      rw [toImage_eq, tr_within g hg _ _ (hh h e q hq)] at this
      exact this hi
    · rintro ⟨⟨q, hq, hi⟩, h2⟩
      refine ⟨⟨toImage g q, List.mem_map.2 ⟨q, hq, rfl⟩, ?_⟩, fun h e q hq => ?_⟩
      · rw [toImage_eq, tr_within g hg _ _ (hp q hq)]; exact hi
      · cases holes with
        | none => simp at e
        | some h0 =>
          simp only [Option.map_some, Option.some.injEq] at e
          subst e
          obtain ⟨q', hq', rfl⟩ := List.mem_map.1 hq
          rw [toImage_eq, tr_within g hg _ _ (hh h0 rfl q' hq')]
          exact h2 h0 rfl q' hq'
  · intro q hq
    obtain ⟨q', hq', rfl⟩ := List.mem_map.1 hq
    rw [toImage_eq, ← hcen]
    exact tr_off g hg _ _ (hp q' hq')
  · intro h e q hq
    cases holes with
    | none => simp at e
    | some h0 =>
      simp only [Option.map_some, Option.some.injEq] at e
      subst e
      obtain ⟨q', hq', rfl⟩ := List.mem_map.1 hq
      rw [toImage_eq, ← hcen]
      exact tr_off g hg _ _ (hh h0 rfl q' hq')

/-! ### Examples -/

/-- The example of the documentation of `polygons_to_mask`. -/
example : polygonsToMask [[(1, 1), (4, 1), (4, 4), (1, 4)], [(0, 0), (3 / 5, 0), (3 / 5, 3 / 5), (0, 3 / 5)]] (5, 5)
    (some [[(2, 2), (3, 2), (3, 3), (2, 3)]]) =
    [[true, false, false, false, false], [false, true, true, true, false], [false, true, false, true, false], [false, true, true, true, false],
      [false, false, false, false, false]] := by decide +kernel

/-- The example of the documentation of `rasterize_polygons`. -/
example : rasterizePolygons ⟨⟨0, 3, 3⟩, ⟨0, 3, 3⟩⟩ [[(1 / 10, 1 / 10), (19 / 10, 1 / 10), (19 / 10, 19 / 10), (1 / 10, 19 / 10)]] none =
    [[true, true, false], [true, true, false], [false, false, false]] := by decide +kernel

/-- A triangle and a centre in general position. -/
example : Generic [(0, 0), (4, 0), (0, 4)] ((1 : ℚ), (1 : ℚ)) := by
  refine ⟨by simp, ?_⟩
  simp only [ringEdges, List.tail_cons, List.head?_cons, Option.toList_some, List.cons_append, List.nil_append, List.zip_cons_cons, List.zip_nil_right,
    List.mem_cons, List.not_mem_nil, or_false, forall_eq_or_imp, forall_eq]
  refine ⟨?_, ?_, ?_⟩ <;> norm_num [Passes, AtHeight]

/-- A centre at the height of a vertex, on no edge: it is within the polygon. -/
example : OffBoundary [(0, 1), (2, 0), (4, 1), (2, 3)] ((1 : ℚ), (1 : ℚ)) ∧ Within [(0, 1), (2, 0), (4, 1), (2, 3)] ((1 : ℚ), (1 : ℚ)) := by
  have h : OffBoundary [(0, 1), (2, 0), (4, 1), (2, 3)] ((1 : ℚ), (1 : ℚ)) := by
    intro e he ⟨t, h0, h1, ht⟩
    simp only [ringEdges, List.tail_cons, List.head?_cons, Option.toList_some, List.cons_append, List.nil_append, List.zip_cons_cons,
      List.zip_nil_right, List.mem_cons, List.not_mem_nil, or_false] at he
    have a1 := congrArg Prod.fst ht
    have a2 := congrArg Prod.snd ht
    rcases he with rfl | rfl | rfl | rfl <;> simp only at a1 a2 <;> linarith
  exact ⟨h, (fills_within _ _ h).1 (by decide +kernel)⟩

end Glimpse.PolygonMask
