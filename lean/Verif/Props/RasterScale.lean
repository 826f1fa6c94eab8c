import Verif.Model.RasterScale
import Verif.Props.RasterRead
import Verif.Props.RasterIO
import Mathlib.Data.Nat.Cast.Order.Field
import Mathlib.Tactic.FieldSimp
import Mathlib.Tactic.Ring
import Mathlib.Tactic.Linarith
import Mathlib.Tactic.Positivity

/-!
C140: rasters opened at another cell size: the value of each cell is that of the file at its center; which boxes can be read from the file.
-/
set_option autoImplicit false
set_option linter.unusedSimpArgs false
set_option linter.unusedSectionVars false

namespace Glimpse

/-- A raster opened on a non-empty window inside its band. -/
structure ScaledFile.Valid (r : ScaledFile) : Prop where
  rect : Rect r.bandCols r.band
  xpos : 0 < r.winx
  ypos : 0 < r.winy
  bxpos : 0 < r.bufx
  bypos : 0 < r.bufy
  xin : r.xoff + r.winx ≤ r.bandCols
  yin : r.yoff + r.winy ≤ r.band.length

/-- The element of an array. -/
def arrayAt (a : FArray) (i j : Nat) : Option (Option ℚ) := (a[i]?).bind (·[j]?)

/-- Specification: what a raster opened at another cell size holds: as many rows and columns as asked for, and in each cell the value of the
cell of the band which contains its center (or whose left or upper edge does). Cells of the band have size one here. -/
def ScaledFile.Holds (r : ScaledFile) (a : FArray) : Prop :=
  a.length = r.bufy ∧ Rect r.bufx a ∧ ∀ i < r.bufy, ∀ j < r.bufx, ∃ row col : Nat, ∃ v,
    (row : ℚ) ≤ r.yoff + (i + 1 / 2) * (r.winy / r.bufy) ∧ r.yoff + (i + 1 / 2) * ((r.winy : ℚ) / r.bufy) < row + 1 ∧
    (col : ℚ) ≤ r.xoff + (j + 1 / 2) * (r.winx / r.bufx) ∧ r.xoff + (j + 1 / 2) * ((r.winx : ℚ) / r.bufx) < col + 1 ∧
    arrayAt r.band row col = some v ∧ arrayAt a i j = some (r.clean v)

/-- A box whose edges are edges of cells of the file. -/
structure IBox.Aligned (b : IBox) (r : ScaledFile) : Prop where
  x0 : r.bufx ∣ b.x0 * r.winx
  x1 : r.bufx ∣ b.x1 * r.winx
  y0 : r.bufy ∣ b.y0 * r.winy
  y1 : r.bufy ∣ b.y1 * r.winy

theorem nearestCell_lt (win buf i : Nat) (hw : 0 < win) (hi : i < buf) : nearestCell win buf i < win := by
  unfold nearestCell
  rw [Nat.div_lt_iff_lt_mul (by omega)]
  have : 2 * i + 1 < 2 * buf := by omega
  calc (2 * i + 1) * win < (2 * buf) * win := Nat.mul_lt_mul_of_pos_right this hw
    _ = win * (2 * buf) := Nat.mul_comm _ _

theorem nearestCell_spec (win buf i off : Nat) (hb : 0 < buf) :
    ((off + nearestCell win buf i : Nat) : ℚ) ≤ off + (i + 1 / 2) * ((win : ℚ) / buf) ∧
    off + (i + 1 / 2) * ((win : ℚ) / buf) < ((off + nearestCell win buf i : Nat) : ℚ) + 1 := by
  have e : ((i : ℚ) + 1 / 2) * ((win : ℚ) / buf) = ((((2 * i + 1) * win : Nat) : ℚ)) / ((2 * buf : Nat) : ℚ) := by
    push_cast
    have : (buf : ℚ) ≠ 0 := by exact_mod_cast hb.ne'
    field_simp
  have h1 : ((nearestCell win buf i : Nat) : ℚ) ≤ ((i : ℚ) + 1 / 2) * ((win : ℚ) / buf) := by
    rw [e]
    exact Nat.cast_div_le
  have h2 : ((i : ℚ) + 1 / 2) * ((win : ℚ) / buf) < (nearestCell win buf i : Nat) + 1 := by
    rw [e, div_lt_iff₀ (by exact_mod_cast (show 0 < 2 * buf by omega))]
    have : (2 * i + 1) * win < (nearestCell win buf i + 1) * (2 * buf) := by
      unfold nearestCell
      rw [← Nat.div_lt_iff_lt_mul (by omega)]
      exact Nat.lt_succ_self _
    exact_mod_cast this
  push_cast
  constructor <;> linarith

/-- The cell of a part of the window. -/
theorem nearestCell_part (win buf a k i : Nat) (hb : 0 < buf) (hk : 0 < k) (ha : buf ∣ a * win) (hk' : buf ∣ (a + k) * win) :
    nearestCell win buf (a + i) = a * win / buf + nearestCell (k * win / buf) k i := by
  obtain ⟨A, hA⟩ := ha
  obtain ⟨B, hB⟩ := hk'
  have hAB : buf * A ≤ buf * B := by rw [← hA, ← hB]; exact Nat.mul_le_mul_right _ (by omega)
  have hAB' : A ≤ B := Nat.le_of_mul_le_mul_left hAB hb
  have hK : k * win = buf * (B - A) := by
    rw [Nat.mul_sub, ← hB, ← hA, Nat.add_mul]
    omega
  unfold nearestCell
  rw [hA, hK, Nat.mul_div_cancel_left _ hb, Nat.mul_div_cancel_left _ hb]
  have h1 : (2 * (a + i) + 1) * win = (2 * i + 1) * win + A * (2 * buf) := by
    have : (2 * (a + i) + 1) * win = (2 * i + 1) * win + 2 * (a * win) := by ring
    rw [this, hA]
    ring
  rw [h1, Nat.add_mul_div_right _ _ (by omega), Nat.add_comm]
  congr 1
  have h2 : (2 * i + 1) * win * k = (2 * i + 1) * (B - A) * buf := by
    calc (2 * i + 1) * win * k = (2 * i + 1) * (k * win) := by ring
      _ = _ := by rw [hK]; ring
  calc (2 * i + 1) * win / (2 * buf) = (2 * i + 1) * win * k / (2 * buf * k) := (Nat.mul_div_mul_right _ _ hk).symm
    _ = (2 * i + 1) * (B - A) * buf / (2 * k * buf) := by rw [h2]; congr 1; ring
    _ = _ := Nat.mul_div_mul_right _ _ hb

/-- Specification: the full array. -/
def ScaledFile.pixels (r : ScaledFile) : FArray :=
  (List.range r.bufy).map fun i => (List.range r.bufx).map fun j =>
    r.clean ((r.band.getD (r.yoff + nearestCell r.winy r.bufy i) []).getD (r.xoff + nearestCell r.winx r.bufx j) none)

theorem ScaledFile.holds_pixels (r : ScaledFile) (h : r.Valid) : r.Holds r.pixels := by
  refine ⟨by simp [ScaledFile.pixels], ?_, fun i hi j hj => ?_⟩
  · intro row hrow
    unfold ScaledFile.pixels at hrow
    obtain ⟨i, -, rfl⟩ := List.mem_map.1 hrow
    simp
  · have hr := nearestCell_lt r.winy r.bufy i h.ypos hi
    have hc := nearestCell_lt r.winx r.bufx j h.xpos hj
    have hy := h.yin
    have hx := h.xin
    have hrl : r.yoff + nearestCell r.winy r.bufy i < r.band.length := by omega
    have hcl : r.xoff + nearestCell r.winx r.bufx j < (r.band[r.yoff + nearestCell r.winy r.bufy i]).length := by
      rw [h.rect _ (List.getElem_mem hrl)]; omega
    obtain ⟨y1, y2⟩ := nearestCell_spec r.winy r.bufy i r.yoff h.bypos
    obtain ⟨x1, x2⟩ := nearestCell_spec r.winx r.bufx j r.xoff h.bxpos
    refine ⟨_, _, (r.band[r.yoff + nearestCell r.winy r.bufy i])[r.xoff + nearestCell r.winx r.bufx j], y1, y2, x1, x2, ?_, ?_⟩
    · unfold arrayAt
      rw [List.getElem?_eq_getElem hrl]
      exact List.getElem?_eq_getElem hcl
    · unfold arrayAt ScaledFile.pixels
      rw [List.getElem?_map, List.getElem?_range hi]
      simp only [Option.map_some, Option.bind_some, List.getElem?_map, List.getElem?_range hj]
      rw [List.getD_eq_getElem _ _ hrl, List.getD_eq_getElem _ _ hcl]

/-- The array is determined by what it holds. -/
theorem ScaledFile.Holds.unique {r : ScaledFile} {a b : FArray} (ha : r.Holds a) (hb : r.Holds b) : a = b := by
  have nat : ∀ {m n : Nat} {x : ℚ}, (m : ℚ) ≤ x → x < m + 1 → (n : ℚ) ≤ x → x < n + 1 → m = n := by
    intro m n x h1 h2 h3 h4
    have a1 : (m : ℚ) < n + 1 := h1.trans_lt h4
    have a2 : (n : ℚ) < m + 1 := h3.trans_lt h2
    have b1 : m < n + 1 := by exact_mod_cast a1
    have b2 : n < m + 1 := by exact_mod_cast a2
    omega
  apply List.ext_getElem (ha.1.trans hb.1.symm)
  intro i h1 h2
  apply List.ext_getElem ((ha.2.1 _ (List.getElem_mem h1)).trans (hb.2.1 _ (List.getElem_mem h2)).symm)
  intro j g1 g2
  have hi : i < r.bufy := ha.1 ▸ h1
  have hj : j < r.bufx := ha.2.1 _ (List.getElem_mem h1) ▸ g1
  obtain ⟨y, x, v, p1, p2, p3, p4, p5, p6⟩ := ha.2.2 i hi j hj
  obtain ⟨y', x', v', q1, q2, q3, q4, q5, q6⟩ := hb.2.2 i hi j hj
  obtain rfl := nat p1 p2 q1 q2
  obtain rfl := nat p3 p4 q3 q4
  rw [p5] at q5
  obtain rfl := Option.some.inj q5
  rw [← q6] at p6
  unfold arrayAt at p6
  rw [List.getElem?_eq_getElem h1, List.getElem?_eq_getElem h2] at p6
  simp only [Option.bind_some] at p6
  rw [List.getElem?_eq_getElem g1, List.getElem?_eq_getElem g2] at p6
  exact Option.some.inj p6

/-- The pixels of a box, or all pixels. -/
def boxOf (a : FArray) (box : Option IBox) : FArray :=
  match box with
  | none => a
  | some b => window a (b.y0, b.y1) (b.x0, b.x1)

/-- A history in which boxes are inside of the raster, none is read with caching while nothing is cached, and without, only if its edges are
edges of cells of the file. -/
def SafeScaled (r : ScaledFile) : List ReadOp → Prop
  | [] => True
  | op :: ops => (match op with
      | .read (some b) cache => b.In r.bufx r.bufy ∧ (r.cached = none → cache = false ∧ b.Aligned r)
      | _ => True) ∧ SafeScaled (r.step op) ops

private structure SOk (r0 r : ScaledFile) : Prop where
  eq : r = { r0 with cached := r.cached }
  cache : r.cached = none ∨ r.cached = some r0.pixels

private theorem range_part {α : Type} (f : Nat → α) (n a b : Nat) (hb : b ≤ n) :
    (((List.range n).map f).drop a).take (b - a) = (List.range (b - a)).map fun i => f (a + i) := by
  apply List.ext_getElem
  · simp; omega
  · intro i h1 h2
    simp

private theorem window_pixels (r : ScaledFile) (h : r.Valid) (b : IBox) (hb : b.In r.bufx r.bufy) (ha : b.Aligned r) :
    r.readAsArray (b.x0 * r.winx / r.bufx + r.xoff) (b.y0 * r.winy / r.bufy + r.yoff)
      ((b.x1 - b.x0) * r.winx / r.bufx) ((b.y1 - b.y0) * r.winy / r.bufy) (b.x1 - b.x0) (b.y1 - b.y0) =
      .ok (window r.pixels (b.y0, b.y1) (b.x0, b.x1)) := by
  have part : ∀ (lo hi win buf : Nat), 0 < win → 0 < buf → lo < hi → hi ≤ buf → buf ∣ lo * win → buf ∣ hi * win →
      0 < (hi - lo) * win / buf ∧ lo * win / buf + (hi - lo) * win / buf ≤ win := by
    intro lo hi win buf hw hbuf h1 h2 ⟨A, hA⟩ ⟨B, hB⟩
    have e : (hi - lo) * win = buf * (B - A) := by rw [Nat.sub_mul, hA, hB, Nat.mul_sub]
    rw [hA, e, Nat.mul_div_cancel_left _ hbuf, Nat.mul_div_cancel_left _ hbuf]
    have p : 0 < (hi - lo) * win := Nat.mul_pos (by omega) hw
    rw [e] at p
    have p' : 0 < B - A := Nat.pos_of_mul_pos_left p
    have q : buf * B ≤ buf * win := by rw [← hB]; exact Nat.mul_le_mul_right _ h2
    have q' := Nat.le_of_mul_le_mul_left q hbuf
    omega
  obtain ⟨x1, x2⟩ := part b.x0 b.x1 r.winx r.bufx h.xpos h.bxpos hb.x hb.xin ha.x0 ha.x1
  obtain ⟨y1, y2⟩ := part b.y0 b.y1 r.winy r.bufy h.ypos h.bypos hb.y hb.yin ha.y0 ha.y1
  have hxin := h.xin
  have hyin := h.yin
  have hbx := hb.x
  have hby := hb.y
  unfold ScaledFile.readAsArray
  rw [if_neg (by omega)]
  unfold window ScaledFile.pixels
  simp only
  rw [range_part _ _ _ _ hb.yin, List.map_map]
  congr 1
  apply List.map_congr_left
  intro i hi
  simp only [Function.comp_apply]
  rw [range_part _ _ _ _ hb.xin]
  apply List.map_congr_left
  intro j hj
  rw [nearestCell_part r.winy r.bufy b.y0 (b.y1 - b.y0) i h.bypos (by omega) ha.y0 (by rw [Nat.add_sub_cancel' hby.le]; exact ha.y1),
    nearestCell_part r.winx r.bufx b.x0 (b.x1 - b.x0) j h.bxpos (by omega) ha.x0 (by rw [Nat.add_sub_cancel' hbx.le]; exact ha.x1)]
  simp only [Nat.add_assoc, Nat.add_comm, Nat.add_left_comm]

private theorem sread_none {r0 r : ScaledFile} (h0 : r0.Valid) (h : SOk r0 r) (cache : Bool) :
    (r.read none cache).1 = .ok r0.pixels ∧ SOk r0 (r.read none cache).2 := by
  rcases h.cache with hc | hc
  · have hr : r.readAsArray r.xoff r.yoff r.winx r.winy r.bufx r.bufy = .ok r0.pixels := by
      rw [h.eq]
      unfold ScaledFile.readAsArray
      rw [if_neg]
      · rfl
      · have := h0.xpos; have := h0.ypos; have := h0.xin; have := h0.yin; have := h0.bxpos; have := h0.bypos
        simp only
        omega
    unfold ScaledFile.read
    simp only [hc, hr, Bool.false_eq_true, if_false]
    refine ⟨trivial, ?_⟩
    cases cache
    · exact h
    · refine ⟨?_, Or.inr rfl⟩
      rw [h.eq]; rfl
  · unfold ScaledFile.read
    simp only [hc, Bool.false_eq_true, if_false]
    exact ⟨trivial, h⟩

private theorem ssize_ok {r0 r : ScaledFile} (h0 : r0.Valid) (h : SOk r0 r) : r.size = (r0.bufx, r0.bufy) := by
  unfold ScaledFile.size
  rcases h.cache with hc | hc
  · rw [hc, h.eq]
  · rw [hc]
    have hp := r0.holds_pixels h0
    simp only
    rw [hp.1]
    congr 1
    cases e : r0.pixels with
    | nil => have := hp.1; rw [e] at this; have := h0.bypos; simp at *; omega
    | cons a l => exact hp.2.1 a (by rw [e]; exact List.mem_cons_self)

private theorem sread_box {r0 r : ScaledFile} (h0 : r0.Valid) (h : SOk r0 r) (b : IBox) (hb : b.In r0.bufx r0.bufy)
    (cache : Bool) (hs : r.cached = none → cache = false ∧ b.Aligned r0) :
    (r.read (some b) cache).1 = .ok (boxOf r0.pixels (some b)) ∧ SOk r0 (r.read (some b) cache).2 := by
  have hin : (! (decide (b.x0 ≤ r0.bufx) && decide (b.y0 ≤ r0.bufy) &&
      (decide (b.x1 ≤ r0.bufx) && decide (b.y1 ≤ r0.bufy)))) = false := by
    have := hb.x; have := hb.y; have := hb.xin; have := hb.yin
    simp; omega
  unfold ScaledFile.read
  simp only [ssize_ok h0 h, hin, Bool.false_eq_true, if_false]
  rcases h.cache with hc | hc
  · obtain ⟨rfl, ha⟩ := hs hc
    have hr := window_pixels r0 h0 b hb ha
    have hr' : r.readAsArray (b.x0 * r.winx / r.bufx + r.xoff) (b.y0 * r.winy / r.bufy + r.yoff)
        ((b.x1 - b.x0) * r.winx / r.bufx) ((b.y1 - b.y0) * r.winy / r.bufy) (b.x1 - b.x0) (b.y1 - b.y0) =
        .ok (window r0.pixels (b.y0, b.y1) (b.x0, b.x1)) := by
      rw [h.eq]
      exact hr
    simp only [hc, hr', Bool.false_eq_true, if_false]
    exact ⟨rfl, h⟩
  · simp only [hc]
    exact ⟨rfl, h⟩

private theorem srun {r0 r : ScaledFile} (h0 : r0.Valid) (h : SOk r0 r) (ops : List ReadOp) (hs : SafeScaled r ops) :
    SOk r0 (r.run ops) := by
  induction ops generalizing r with
  | nil => exact h
  | cons op ops ih =>
    refine ih ?_ hs.2
    have hop := hs.1
    cases op with
    | read box cache =>
      cases box with
      | none => exact (sread_none h0 h cache).2
      | some b =>
        simp only at hop
        obtain ⟨h1, h2⟩ := hop
        rw [h.eq] at h1
        exact (sread_box h0 h b h1 cache (fun hc => by
          obtain ⟨c1, c2⟩ := h2 hc
          refine ⟨c1, ?_⟩
          rw [h.eq] at c2
          exact ⟨c2.x0, c2.x1, c2.y0, c2.y1⟩)).2
    | array =>
      unfold ScaledFile.step ScaledFile.array
      cases hc : r.cached with
      | some a => exact h
      | none => exact (sread_none h0 h true).2
    | clear =>
      refine ⟨?_, Or.inl rfl⟩
      unfold ScaledFile.step
      simp only
      rw [h.eq]

/-- C140 (partial): after every history in which no box is read with caching while nothing is cached, and boxes read without a cache have edges
of cells of the file, `read` and `array` give the array that holds in each cell the value of the file at the center of the cell, or a box of it. -/
theorem raster_scaled_partial (r : ScaledFile) (hr : r.Valid) (hc : r.cached = none) (ops : List ReadOp) (hs : SafeScaled r ops)
    (box : Option IBox) (cache : Bool)
    (hb : ∀ b, box = some b → b.In r.bufx r.bufy ∧ ((r.run ops).cached = none → cache = false ∧ b.Aligned r)) :
    ∃ a, r.Holds a ∧ ((r.run ops).read box cache).1 = .ok (boxOf a box) ∧ (r.run ops).array.1 = .ok a := by
  have h := srun hr ⟨rfl, Or.inl hc⟩ ops hs
  refine ⟨r.pixels, r.holds_pixels hr, ?_, ?_⟩
  · cases box with
    | none => exact (sread_none hr h cache).1
    | some b => exact (sread_box hr h b (hb b rfl).1 cache (hb b rfl).2).1
  · unfold ScaledFile.array
    rcases h.cache with hcc | hcc
    · rw [hcc]; exact (sread_none hr h true).1
    · rw [hcc]

/-- All boxes have edges of cells of the file if each cell is made of whole cells of the file. -/
theorem raster_scaled_coarse (r : ScaledFile) (b : IBox) (hx : r.bufx ∣ r.winx) (hy : r.bufy ∣ r.winy) : b.Aligned r :=
  ⟨hx.mul_left _, hx.mul_left _, hy.mul_left _, hy.mul_left _⟩

/-- C140 fails for other boxes: three cells read as two, the right one has the value of the third cell, but read from the file as a box that of
the second. -/
theorem raster_scaled_box_violated :
    let r : ScaledFile := ⟨[[some 1, some 2, some 3]], 3, 0, 0, 3, 1, 2, 1, id, none⟩
    (r.read none false).1 = .ok [[some 1, some 3]] ∧ (r.read (some ⟨1, 0, 2, 1⟩) false).1 = .ok [[some 2]] ∧
      (r.array.2.read (some ⟨1, 0, 2, 1⟩) false).1 = .ok [[some 3]] := by
  decide +kernel

/-- C140 fails for boxes smaller than a cell of the file, which raise, when a raster is opened at a finer cell size. -/
theorem raster_scaled_fine_violated (r : ScaledFile) (hc : r.cached = none) (b : IBox) (hb : b.In r.bufx r.bufy)
    (h : (b.x1 - b.x0) * r.winx < r.bufx) : (r.read (some b) false).1 = .error .other := by
  have hin : (! (decide (b.x0 ≤ r.bufx) && decide (b.y0 ≤ r.bufy) &&
      (decide (b.x1 ≤ r.bufx) && decide (b.y1 ≤ r.bufy)))) = false := by
    have := hb.x; have := hb.y; have := hb.xin; have := hb.yin
    simp; omega
  have hs : r.size = (r.bufx, r.bufy) := by simp [ScaledFile.size, hc]
  unfold ScaledFile.read
  simp only [hs, hin, Bool.false_eq_true, if_false, hc]
  unfold ScaledFile.readAsArray
  rw [if_pos (Or.inl (Nat.div_eq_of_lt h))]

/-- Hypotheses met: four by two cells read as two by one, with boxes before and after caching. -/
example : ∃ r : ScaledFile, r.Valid ∧ r.cached = none ∧ r.bufx = 2 ∧
    SafeScaled r [.read (some ⟨1, 0, 2, 1⟩) false, .array, .read (some ⟨1, 0, 2, 1⟩) true, .clear] := by
  refine ⟨⟨[[some 1, some 2, some 3, some 4], [some 5, none, some 6, some 7]], 4, 0, 0, 4, 2, 2, 1, id, none⟩, ⟨?_, by decide, by decide, by decide,
    by decide, by decide, by decide⟩, rfl, rfl, ?_⟩
  · intro row hrow
    simp only [List.mem_cons, List.not_mem_nil, or_false] at hrow
    rcases hrow with rfl | rfl <;> rfl
  · refine ⟨⟨⟨by decide, by decide, by decide, by decide⟩, fun _ => ⟨rfl, raster_scaled_coarse _ _ (by decide) (by decide)⟩⟩, trivial,
      ⟨⟨by decide, by decide, by decide, by decide⟩, ?_⟩, trivial, trivial⟩
    intro h
    exact absurd h (by decide)

/-! ### From the file -/

namespace RasterIO

/-- The center of cell `i` of `n` cells between two limits. -/
def centerAt (lim : ℚ × ℚ) (n : ℤ) (i : Nat) : ℚ := lim.1 + (i + 1 / 2) * (lim.2 - lim.1) / n

private theorem center_axis (x0 dx : ℚ) (n w b : Nat) (off : Nat) (i c : Nat) (lim : ℚ × ℚ) (hn : 0 < n) (hb : 0 < b)
    (h1 : lim = (cellEdge x0 (x0 + dx * n) n off, cellEdge x0 (x0 + dx * n) n ((off + w : Nat) : ℤ)))
    (l : (c : ℚ) ≤ off + (i + 1 / 2) * ((w : ℚ) / b)) (u : off + (i + 1 / 2) * ((w : ℚ) / b) < (c : ℚ) + 1) :
    Between (cellEdge x0 (x0 + dx * n) n c) (cellEdge x0 (x0 + dx * n) n ((c + 1 : Nat) : ℤ)) (centerAt lim b i) := by
  have hn' : (n : ℚ) ≠ 0 := by exact_mod_cast hn.ne'
  have hb' : (b : ℚ) ≠ 0 := by exact_mod_cast hb.ne'
  have edge : ∀ k : ℤ, cellEdge x0 (x0 + dx * n) n k = x0 + dx * k := fun k => by
    unfold cellEdge
    field_simp
    ring
  have e : centerAt lim b i = x0 + dx * (off + (i + 1 / 2) * ((w : ℚ) / b)) := by
    rw [h1]
    unfold centerAt
    simp only [edge]
    push_cast
    field_simp
    ring
  rw [e, edge, edge]
  generalize (off : ℚ) + (i + 1 / 2) * ((w : ℚ) / b) = m at *
  push_cast
  unfold Between
  rcases le_total 0 dx with h | h
  · left
    constructor
    · have := mul_le_mul_of_nonneg_left l h; linarith
    · have := mul_le_mul_of_nonneg_left u.le h; linarith
  · right
    constructor
    · have := mul_le_mul_of_nonpos_left u.le h; linarith
    · have := mul_le_mul_of_nonpos_left l h; linarith

/-- C140: a raster opened at a target cell size has in each cell the value of the cell of the file that contains its center, but for missing
values. -/
theorem open_scaled_cells (fs : Files) (path : List Char) (ds : Dataset) (hfs : fs path = some ds) (h : ds.Valid)
    (band : Nat) (d : ℚ) (hd : d ≠ 0) (xlim ylim : Option (ℚ × ℚ)) (nan : Option ℚ) (o : Opened)
    (ho : openRaster fs path band (some d) xlim ylim nan = .ok o) :
    ∃ (a : FArray) (nx ny : Nat), (o.scaled ds).array.1 = .ok a ∧ o.bufx = nx ∧ o.bufy = ny ∧ a.length = ny ∧ Rect nx a ∧
      ∀ i < ny, ∀ j < nx, ∃ row col : Nat, row < ds.ny ∧ col < ds.nx ∧
        Between (cellEdge ds.grid.ay.lo ds.grid.ay.hi ds.ny row) (cellEdge ds.grid.ay.lo ds.grid.ay.hi ds.ny ((row + 1 : Nat) : ℤ))
          (centerAt o.ylim ny i) ∧
        Between (cellEdge ds.grid.ax.lo ds.grid.ax.hi ds.nx col) (cellEdge ds.grid.ax.lo ds.grid.ax.hi ds.nx ((col + 1 : Nat) : ℤ))
          (centerAt o.xlim nx j) ∧
        CellRead ds nan (((ds.bands.getD (band - 1) []).getD row []).getD col none) ((a.getD i []).getD j none) := by
  obtain ⟨⟨bx0, -, -⟩, by0, -, -⟩ := open_cell_size fs path ds hfs h band d hd xlim ylim nan o ho
  obtain ⟨_, hg⟩ := fileGrid_eq ds h
  rw [open_eq fs path ds hfs h] at ho
  cases hc : ds.grid.cropExtent xlim ylim with
  | error er => rw [hc] at ho; cases ho
  | ok e =>
    rw [hc] at ho
    simp only at ho
    unfold openWith at ho
    split at ho
    · cases ho
    rename_i hb
    push Not at hb
    have ho := (Except.ok.inj ho).symm
    obtain ⟨⟨c1, c2, c3⟩, ⟨r1, r2, r3⟩, hx, hy, -⟩ := crop_extent_spec ds.grid hg xlim ylim e hc
    obtain ⟨c0, hc0⟩ := Int.eq_ofNat_of_zero_le c1
    obtain ⟨r0, hr0⟩ := Int.eq_ofNat_of_zero_le r1
    obtain ⟨nx, hnx⟩ : ∃ n : Nat, e.cols.2 - e.cols.1 + 1 = n := Int.eq_ofNat_of_zero_le (by omega)
    obtain ⟨ny, hny⟩ : ∃ n : Nat, e.rows.2 - e.rows.1 + 1 = n := Int.eq_ofNat_of_zero_le (by omega)
    obtain ⟨bx, hbx⟩ : ∃ n : Nat, o.bufx = n := Int.eq_ofNat_of_zero_le (by omega)
    obtain ⟨byy, hby⟩ : ∃ n : Nat, o.bufy = n := Int.eq_ofNat_of_zero_le (by omega)
    have hcols : c0 + nx ≤ ds.nx := by
      have : (e.cols.2 : ℤ) < ds.nx := c3
      omega
    have hrows : r0 + ny ≤ ds.ny := by
      have : (e.rows.2 : ℤ) < ds.ny := r3
      omega
    have hbm : ds.bands.getD (band - 1) [] ∈ ds.bands := by
      have : band - 1 < ds.bands.length := by omega
      rw [List.getD_eq_getElem _ _ this]
      exact List.getElem_mem _
    set B := ds.bands.getD (band - 1) [] with hB
    have hBl := h.rows B hbm
    have hBr := h.cols B hbm
    have hfile : (o.scaled ds).xoff = c0 ∧ (o.scaled ds).yoff = r0 ∧ (o.scaled ds).winx = nx ∧ (o.scaled ds).winy = ny ∧
        (o.scaled ds).band = B ∧ (o.scaled ds).bandCols = ds.nx := by
      subst ho
      rw [hc0] at hnx
      rw [hr0] at hny
      simp only [Opened.scaled, hc0, hr0, hnx, hny, Int.toNat_natCast]
      exact ⟨by trivial, by trivial, by trivial, by trivial, rfl, by trivial⟩
    have fbx : (o.scaled ds).bufx = bx := by simp [Opened.scaled, hbx]
    have fby : (o.scaled ds).bufy = byy := by simp [Opened.scaled, hby]
    have fc : (o.scaled ds).cached = none := rfl
    have honan : o.nan = nanOf ds nan := by subst ho; rfl
    have hxl : o.xlim = e.xlim := by subst ho; rfl
    have hyl : o.ylim = e.ylim := by subst ho; rfl
    obtain ⟨f1, f2, f3, f4, f5, f6⟩ := hfile
    have hvalid : (o.scaled ds).Valid := by
      refine ⟨?_, ?_, ?_, ?_, ?_, ?_, ?_⟩
      · rw [f5, f6]; exact hBr
      · rw [f3]; omega
      · rw [f4]; omega
      · rw [fbx]; omega
      · rw [fby]; omega
      · rw [f1, f3, f6]; exact hcols
      · rw [f2, f4, f5, hBl]; exact hrows
    obtain ⟨a, ⟨h1, h2, h3⟩, -, harr⟩ := raster_scaled_partial (o.scaled ds) hvalid fc [] trivial none true (by simp)
    rw [f1, f2, f3, f4, f5, fbx, fby] at h3
    rw [fbx] at h2
    rw [fby] at h1
    refine ⟨a, bx, byy, harr, hbx, hby, h1, h2, fun i hi j hj => ?_⟩
    obtain ⟨row, col, v, y1, y2, x1, x2, hv, ha⟩ := h3 i hi j hj
    unfold arrayAt at hv ha
    have hrow : row < B.length := by
      by_contra hcon
      rw [List.getElem?_eq_none (by omega)] at hv
      cases hv
    rw [List.getElem?_eq_getElem hrow] at hv
    simp only [Option.bind_some] at hv
    have hcol : col < B[row].length := by
      by_contra hcon
      rw [List.getElem?_eq_none (by omega)] at hv
      cases hv
    have hil : i < a.length := by omega
    have hjl : j < a[i].length := by rw [h2 _ (List.getElem_mem hil)]; exact hj
    rw [List.getElem?_eq_getElem hil] at ha
    simp only [Option.bind_some] at ha
    rw [List.getElem?_eq_getElem hjl] at ha
    rw [List.getElem?_eq_getElem hcol] at hv
    refine ⟨row, col, by omega, by rw [← hBr _ (List.getElem_mem hrow)]; exact hcol, ?_, ?_, ?_⟩
    · refine center_axis ds.transform.y0 ds.transform.dy ds.ny ny byy r0 i row o.ylim h.ny (by omega) ?_ y1 y2
      rw [hyl, hy, hr0]
      have : e.rows.2 + 1 = ((r0 + ny : Nat) : ℤ) := by push_cast; omega
      rw [this]
      rfl
    · refine center_axis ds.transform.x0 ds.transform.dx ds.nx nx bx c0 j col o.xlim h.nx (by omega) ?_ x1 x2
      rw [hxl, hx, hc0]
      have : e.cols.2 + 1 = ((c0 + nx : Nat) : ℤ) := by push_cast; omega
      rw [this]
      rfl
    · rw [List.getD_eq_getElem _ _ hrow, List.getD_eq_getElem _ _ hcol, List.getD_eq_getElem _ _ hil, List.getD_eq_getElem _ _ hjl,
        Option.some.inj ha, Option.some.inj hv]
      exact clean_spec ds nan _ o honan

/-- Hypotheses met: a file of three cells of size two opened at a cell size of three. -/
example : (openRaster (fun _ => some ⟨⟨0, 2, 0, 10, 0, -1⟩, [], 3, 1, true, none, [[[some 1, some 2, some 3]]]⟩) [] 1 (some 3) none none none).toOption.map
    (fun o => (o.bufx, o.bufy)) = some (2, 1) := by
  decide +kernel

end RasterIO

end Glimpse
