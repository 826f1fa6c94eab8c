import Verif.Model.RasterRead
import Verif.Props.RasterWindow

/-!
C57: what `Raster.read` returns does not depend on what has been cached.
-/
set_option autoImplicit false
set_option linter.unusedSimpArgs false

namespace Glimpse

/-- A raster opened on a non-empty window inside its band. -/
structure RasterFile.Valid (r : RasterFile) : Prop where
  rect : Rect r.bandCols r.band
  xpos : 0 < r.xsize
  ypos : 0 < r.ysize
  xin : r.xoff + r.xsize ≤ r.bandCols
  yin : r.yoff + r.ysize ≤ r.band.length

/-- Specification: the pixels of the opened window. -/
def RasterFile.pixels (r : RasterFile) : FArray :=
  (window r.band (r.yoff, r.yoff + r.ysize) (r.xoff, r.xoff + r.xsize)).map (·.map r.clean)

/-- A box inside the raster with positive width and height. -/
structure IBox.In (b : IBox) (nx ny : Nat) : Prop where
  x : b.x0 < b.x1
  y : b.y0 < b.y1
  xin : b.x1 ≤ nx
  yin : b.y1 ≤ ny

/-- Specification: the pixels of a box, or all pixels. -/
def RasterFile.wanted (r : RasterFile) (box : Option IBox) : FArray :=
  match box with
  | none => r.pixels
  | some b => window r.pixels (b.y0, b.y1) (b.x0, b.x1)

/-- A history in which a box is never read with caching while nothing is cached. -/
def SafeReads (r : RasterFile) : List ReadOp → Prop
  | [] => True
  | op :: ops => (match op with
      | .read (some b) cache => b.In r.xsize r.ysize ∧ (cache = true → r.cached ≠ none)
      | _ => True) ∧ SafeReads (r.step op) ops

private theorem pixels_rows {r : RasterFile} (h : r.Valid) : r.pixels.length = r.ysize := by
  have := h.yin
  simp [RasterFile.pixels, window]; omega

private theorem pixels_rect {r : RasterFile} (h : r.Valid) : Rect r.xsize r.pixels := by
  intro row hrow
  unfold RasterFile.pixels window at hrow
  rw [List.map_map] at hrow
  obtain ⟨row', hm, rfl⟩ := List.mem_map.mp hrow
  have := h.rect row' (List.mem_of_mem_drop (List.mem_of_mem_take hm))
  have := h.xin
  simp; omega

private theorem pixels_head {r : RasterFile} (h : r.Valid) : (r.pixels.headD []).length = r.xsize := by
  have h1 := pixels_rect h
  have h2 := pixels_rows h
  have h3 := h.ypos
  cases hp : r.pixels with
  | nil => rw [hp] at h2; simp at h2; omega
  | cons a l => rw [hp] at h1; exact h1 a List.mem_cons_self

private theorem window_window (a : FArray) (y x : Nat) (b : IBox) (ys xs : Nat) (hy : b.y1 ≤ ys) (hx : b.x1 ≤ xs)
    (f : Option ℚ → Option ℚ) :
    window ((window a (y, y + ys) (x, x + xs)).map (·.map f)) (b.y0, b.y1) (b.x0, b.x1) =
      (window a (b.y0 + y, b.y0 + y + (b.y1 - b.y0)) (b.x0 + x, b.x0 + x + (b.x1 - b.x0))).map (·.map f) := by
  unfold window
  simp only [List.map_map, ← List.map_drop, ← List.map_take, List.drop_take, List.take_take, List.drop_drop]
  have e1 : min (b.y1 - b.y0) (y + ys - y - b.y0) = b.y0 + y + (b.y1 - b.y0) - (b.y0 + y) := by omega
  rw [e1, Nat.add_comm y b.y0]
  apply List.map_congr_left
  intro row _
  simp only [Function.comp_apply, ← List.map_drop, ← List.map_take, List.drop_take, List.take_take, List.drop_drop]
  have e2 : min (b.x1 - b.x0) (x + xs - x - b.x0) = b.x0 + x + (b.x1 - b.x0) - (b.x0 + x) := by omega
  rw [e2, Nat.add_comm x b.x0]

/-- Invariant: same file and window, and the cache is empty or holds all pixels. -/
private structure RFOk (r0 r : RasterFile) : Prop where
  eq : r = { r0 with cached := r.cached }
  cache : r.cached = none ∨ r.cached = some r0.pixels

private theorem read_none {r0 r : RasterFile} (h0 : r0.Valid) (h : RFOk r0 r) (cache : Bool) :
    (r.read none cache).1 = .ok r0.pixels ∧ RFOk r0 (r.read none cache).2 := by
  rcases h.cache with hc | hc
  · have hr : r.readAsArray r.xoff r.yoff r.xsize r.ysize = .ok r0.pixels := by
      rw [h.eq]
      unfold RasterFile.readAsArray
      rw [if_neg]
      · rfl
      · have := h0.xpos; have := h0.ypos; have := h0.xin; have := h0.yin
        simp only
        omega
    unfold RasterFile.read
    simp only [hc, hr, Bool.false_eq_true, if_false]
    refine ⟨trivial, ?_⟩
    cases cache
    · exact h
    · refine ⟨?_, Or.inr rfl⟩
      rw [h.eq]; rfl
  · unfold RasterFile.read
    simp only [hc, Bool.false_eq_true, if_false]
    exact ⟨trivial, h⟩

private theorem size_ok {r0 r : RasterFile} (h0 : r0.Valid) (h : RFOk r0 r) : r.size = (r0.xsize, r0.ysize) := by
  unfold RasterFile.size
  rcases h.cache with hc | hc
  · rw [hc, h.eq]
  · rw [hc]
    simp only
    rw [pixels_head h0, pixels_rows h0]

private theorem read_box {r0 r : RasterFile} (h0 : r0.Valid) (h : RFOk r0 r) (b : IBox) (hb : b.In r0.xsize r0.ysize)
    (cache : Bool) (hs : cache = true → r.cached ≠ none) :
    (r.read (some b) cache).1 = .ok (r0.wanted (some b)) ∧ RFOk r0 (r.read (some b) cache).2 := by
  have hin : (! (decide (b.x0 ≤ r0.xsize) && decide (b.y0 ≤ r0.ysize) &&
      (decide (b.x1 ≤ r0.xsize) && decide (b.y1 ≤ r0.ysize)))) = false := by
    have := hb.x; have := hb.y; have := hb.xin; have := hb.yin
    simp; omega
  unfold RasterFile.read
  simp only [size_ok h0 h, hin, Bool.false_eq_true, if_false]
  rcases h.cache with hc | hc
  · have hcf : cache = false := by
      cases cache
      · rfl
      · exact absurd hc (hs rfl)
    subst hcf
    have hr : r.readAsArray (b.x0 + r.xoff) (b.y0 + r.yoff) (b.x1 - b.x0) (b.y1 - b.y0) = .ok (r0.wanted (some b)) := by
      rw [h.eq]
      unfold RasterFile.readAsArray RasterFile.wanted RasterFile.pixels
      rw [if_neg]
      · simp only
        rw [window_window _ _ _ _ _ _ hb.yin hb.xin]
      · have := hb.x; have := hb.y; have := hb.xin; have := hb.yin
        have := h0.xin; have := h0.yin
        simp only
        omega
    simp only [hc, hr, Bool.false_eq_true, if_false]
    exact ⟨trivial, h⟩
  · simp only [hc]
    exact ⟨rfl, h⟩

private theorem step_rf {r0 r : RasterFile} (h0 : r0.Valid) (h : RFOk r0 r) (op : ReadOp)
    (hop : match op with
      | .read (some b) cache => b.In r.xsize r.ysize ∧ (cache = true → r.cached ≠ none)
      | _ => True) : RFOk r0 (r.step op) := by
  cases op with
  | read box cache =>
    cases box with
    | none => exact (read_none h0 h cache).2
    | some b =>
      have hx : r.xsize = r0.xsize := by rw [h.eq]
      have hy : r.ysize = r0.ysize := by rw [h.eq]
      simp only [hx, hy] at hop
      exact (read_box h0 h b hop.1 cache hop.2).2
  | array =>
    unfold RasterFile.step RasterFile.array
    cases hc : r.cached with
    | some a => exact h
    | none => exact (read_none h0 h true).2
  | clear =>
    refine ⟨?_, Or.inl rfl⟩
    unfold RasterFile.step
    simp only
    rw [h.eq]

private theorem run_rf {r0 r : RasterFile} (h0 : r0.Valid) (h : RFOk r0 r) (ops : List ReadOp) (hs : SafeReads r ops) :
    RFOk r0 (r.run ops) := by
  induction ops generalizing r with
  | nil => exact h
  | cons op ops ih => exact ih (step_rf h0 h op hs.1) hs.2

/-- C57 (partial): after every history of reads, `array` accesses and cache clearings in which no box is read with
`cache=True` while nothing is cached, `read(box, cache)` returns the pixels of that box of the opened window (all of them
without a box), whether or not anything is cached. -/
theorem raster_read_partial (r : RasterFile) (hr : r.Valid) (hc : r.cached = none) (ops : List ReadOp) (hs : SafeReads r ops)
    (box : Option IBox) (cache : Bool)
    (hb : ∀ b, box = some b → b.In r.xsize r.ysize ∧ (cache = true → (r.run ops).cached ≠ none)) :
    ((r.run ops).read box cache).1 = .ok (r.wanted box) ∧ (r.run ops).array.1 = .ok r.pixels := by
  have hok : RFOk r r := ⟨rfl, Or.inl hc⟩
  have h := run_rf hr hok ops hs
  constructor
  · cases box with
    | none => exact (read_none hr h cache).1
    | some b => exact (read_box hr h b (hb b rfl).1 cache (hb b rfl).2).1
  · unfold RasterFile.array
    rcases h.cache with hcc | hcc
    · rw [hcc]; exact (read_none hr h true).1
    · rw [hcc]

/-- C57: reading a box that is out of bounds raises and changes nothing. -/
theorem raster_read_out_raises (r : RasterFile) (b : IBox) (cache : Bool)
    (h : r.size.1 < b.x0 ∨ r.size.2 < b.y0 ∨ r.size.1 < b.x1 ∨ r.size.2 < b.y1) :
    r.read (some b) cache = (.error .valueError, r) := by
  unfold RasterFile.read
  simp only
  rw [if_pos]
  simp; omega

/-- Hypotheses met by a history reading boxes before and after the array is cached. -/
example : ∃ r : RasterFile, r.Valid ∧ r.cached = none ∧ r.xsize = 2 ∧
    SafeReads r [.read (some ⟨1, 0, 2, 1⟩) false, .array, .read (some ⟨1, 0, 2, 1⟩) true, .clear] := by
  refine ⟨⟨[[some 1, some 2, some 3], [some 4, none, some 6]], 3, 1, 0, 2, 2, id, none⟩, ⟨?_, by decide, by decide, by decide,
    by decide⟩, rfl, rfl, ?_⟩
  · intro row hrow
    simp only [List.mem_cons, List.not_mem_nil, or_false] at hrow
    rcases hrow with rfl | rfl <;> rfl
  · refine ⟨⟨⟨by decide, by decide, by decide, by decide⟩, by simp⟩, trivial, ⟨⟨by decide, by decide, by decide, by decide⟩, ?_⟩,
      trivial, trivial⟩
    intro _
    simp [RasterFile.step, RasterFile.read, RasterFile.array, RasterFile.readAsArray, RasterFile.size]

/-- C57 fails: on a raster with nothing cached, `read(box, cache=True)` with a box smaller than the raster caches only that
box as if it were the whole array: the raster then has the size of the box and `array` returns only the box. -/
theorem raster_read_box_cached_violated (r : RasterFile) (hr : r.Valid) (hc : r.cached = none) (b : IBox)
    (hb : b.In r.xsize r.ysize) :
    (r.read (some b) true).2.array.1 = .ok (r.wanted (some b)) ∧
    (r.read (some b) true).2.size = (b.x1 - b.x0, b.y1 - b.y0) ∧
    (r.read (some b) true).1 = .ok (window (r.wanted (some b)) (b.y0, b.y1) (b.x0, b.x1)) := by
  have hok : RFOk r r := ⟨rfl, Or.inl hc⟩
  have hin : (! (decide (b.x0 ≤ r.xsize) && decide (b.y0 ≤ r.ysize) &&
      (decide (b.x1 ≤ r.xsize) && decide (b.y1 ≤ r.ysize)))) = false := by
    have := hb.x; have := hb.y; have := hb.xin; have := hb.yin
    simp; omega
  have hra : r.readAsArray (b.x0 + r.xoff) (b.y0 + r.yoff) (b.x1 - b.x0) (b.y1 - b.y0) = .ok (r.wanted (some b)) := by
    unfold RasterFile.readAsArray RasterFile.wanted RasterFile.pixels
    rw [if_neg]
    · simp only
      rw [window_window _ _ _ _ _ _ hb.yin hb.xin]
    · have := hb.x; have := hb.y; have := hb.xin; have := hb.yin
      have := hr.xin; have := hr.yin
      omega
  have e : r.read (some b) true = (.ok (window (r.wanted (some b)) (b.y0, b.y1) (b.x0, b.x1)),
      { r with cached := some (r.wanted (some b)) }) := by
    unfold RasterFile.read
    simp only [size_ok hr hok, hin, Bool.false_eq_true, if_false, hc, hra, if_true]
  rw [e]
  refine ⟨rfl, ?_, rfl⟩
  unfold RasterFile.size RasterFile.wanted
  have hl : (window r.pixels (b.y0, b.y1) (b.x0, b.x1)).length = b.y1 - b.y0 := by
    have := pixels_rows hr
    have := hb.yin
    simp [window]; omega
  have hrect : Rect (b.x1 - b.x0) (window r.pixels (b.y0, b.y1) (b.x0, b.x1)) := by
    intro row hrow
    unfold window at hrow
    obtain ⟨row', hm, rfl⟩ := List.mem_map.mp hrow
    have := pixels_rect hr row' (List.mem_of_mem_drop (List.mem_of_mem_take hm))
    have := hb.xin
    simp; omega
  simp only
  rw [hl]
  have : ((window r.pixels (b.y0, b.y1) (b.x0, b.x1)).headD []).length = b.x1 - b.x0 := by
    cases hw : window r.pixels (b.y0, b.y1) (b.x0, b.x1) with
    | nil => rw [hw] at hl; simp at hl; have := hb.y; omega
    | cons a l => rw [hw] at hrect; exact hrect a List.mem_cons_self
  rw [this]

/-- ... and the pixels returned are wrong: reading the lower right pixel of a 2 by 2 raster this way returns no pixel. -/
theorem raster_read_box_empty_violated :
    (RasterFile.mk [[some 1, some 2], [some 3, some 4]] 2 0 0 2 2 id none).wanted (some ⟨1, 1, 2, 2⟩) = [[some 4]] ∧
    ((RasterFile.mk [[some 1, some 2], [some 3, some 4]] 2 0 0 2 2 id none).read (some ⟨1, 1, 2, 2⟩) true).1 = .ok [] := by
  constructor
  · simp [RasterFile.wanted, RasterFile.pixels, window]
  · simp [RasterFile.read, RasterFile.readAsArray, RasterFile.size, window]

end Glimpse
