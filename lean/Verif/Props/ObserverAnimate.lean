import Verif.Model.ObserverAnimate
import Verif.Props.Tiles
import Mathlib.Tactic.Linarith
import Mathlib.Tactic.NormNum
import Mathlib.Tactic.Positivity

/-!
C117: what `Observer.animate` and `Observer.track` show: the part of each image within a window centered on the projected point.
-/
set_option autoImplicit false
set_option linter.unusedSimpArgs false
set_option linter.unusedSectionVars false

namespace Glimpse.ObserverAnimate

open Glimpse.Tiles

/-! ### Specification -/

/-- Spec: the whole pixels from `x0` to `x1` are those of the window from `lo` to `hi` within the image, up to half a pixel. -/
def Covers (n : Nat) (lo hi : ℚ) (x0 x1 : ℤ) : Prop :=
  0 ≤ x0 ∧ x1 ≤ n ∧ |(x0 : ℚ) - max lo 0| ≤ 1 / 2 ∧ |(x1 : ℚ) - min hi n| ≤ 1 / 2

/-- Spec: the interiors of the window from `lo` to `hi` and of the image of `n` pixels have a point in common. -/
def Meets (n : Nat) (lo hi : ℚ) : Prop := lo < n ∧ 0 < hi

/-! ### Proofs -/

private theorem snap_int (n : Nat) (hn : 0 < n) (v : ℚ) (h0 : 0 ≤ v) (h1 : v ≤ n) :
    ∃ k : ℤ, (⟨0, n, n⟩ : GAxis).snap false true true v = (k : ℚ) ∧ 0 ≤ k ∧ k ≤ n ∧ |(k : ℚ) - v| ≤ 1 / 2 := by
  have hn' : (n : ℚ) ≠ 0 := by exact_mod_cast hn.ne'
  have hd : (⟨0, n, n⟩ : GAxis).d = 1 := by simp [GAxis.d, hn']
  refine ⟨⌊v + 1 / 2⌋, by simp [GAxis.snap, hd], Int.floor_nonneg.2 (by linarith), ?_, ?_⟩
  · have : ⌊v + 1 / 2⌋ < (n : ℤ) + 1 := Int.floor_lt.2 (by push_cast; linarith)
    omega
  · have a := Int.floor_le (v + 1 / 2)
    have b := Int.lt_floor_add_one (v + 1 / 2)
    rw [abs_le]
    constructor <;> linarith

private theorem intersect_image (nx ny : Nat) (a b c d : ℚ) (h1 : max a 0 < min c nx) (h2 : max b 0 < min d ny) :
    intersectBoxes [[a, b, c, d], [0, 0, (nx : ℚ), (ny : ℚ)]] = .ok [max a 0, max b 0, min c nx, min d ny] := by
  have e1 : ¬ min c nx - max a 0 ≤ 0 := by linarith
  have e2 : ¬ min d ny - max b 0 ≤ 0 := by linarith
  simp only [intersectBoxes, colMax, colMin, List.length_cons, List.length_nil, List.any_cons, List.any_nil, ne_eq, not_true_eq_false,
    decide_false, Bool.or_self, Bool.false_eq_true, if_false, List.map_cons, List.map_nil, List.take_succ_cons, List.take_zero,
    List.drop_succ_cons, List.drop_zero, List.foldl_cons, List.foldl_nil, List.zipWith_cons_cons, List.zipWith_nil_left, id_eq, e1, e2,
    Nat.reduceAdd, Nat.reduceMod, Nat.reduceDiv, List.cons_append, List.nil_append]

private theorem tile_meets (nx ny : Nat) (hx : 0 < nx) (hy : 0 < ny) (lo hi : ℚ × ℚ) (w1 : lo.1 < hi.1) (w2 : lo.2 < hi.2)
    (s1 : hi.1 - lo.1 ≤ nx) (s2 : hi.2 - lo.2 ≤ ny) (m1 : Meets nx lo.1 hi.1) (m2 : Meets ny lo.2 hi.2) (cached : Bool) :
    ∃ x0 y0 x1 y1 : ℤ, Covers nx lo.1 hi.1 x0 x1 ∧ Covers ny lo.2 hi.2 y0 y1 ∧
      tileOf nx ny cached lo hi = if cached then .error .typeError else .ok (some [(x0 : ℚ), (y0 : ℚ), (x1 : ℚ), (y1 : ℚ)]) := by
  obtain ⟨a, b⟩ := lo
  obtain ⟨c, d⟩ := hi
  simp only at w1 w2 s1 s2 m1 m2 ⊢
  obtain ⟨m1, m1'⟩ := m1
  obtain ⟨m2, m2'⟩ := m2
  have hnx : (0 : ℚ) < nx := by exact_mod_cast hx
  have hny : (0 : ℚ) < ny := by exact_mod_cast hy
  have g1 : max a 0 < min c nx := max_lt (lt_min w1 m1) (lt_min m1' hnx)
  have g2 : max b 0 < min d ny := max_lt (lt_min w2 m2) (lt_min m2' hny)
  obtain ⟨x0, ex0, x0l, x0u, x0d⟩ := snap_int nx hx (max a 0) (le_max_right _ _) (by have := min_le_right c (nx : ℚ); linarith)
  obtain ⟨x1, ex1, x1l, x1u, x1d⟩ := snap_int nx hx (min c nx) (by have := le_max_right a (0 : ℚ); linarith) (min_le_right _ _)
  obtain ⟨y0, ey0, y0l, y0u, y0d⟩ := snap_int ny hy (max b 0) (le_max_right _ _) (by have := min_le_right d (ny : ℚ); linarith)
  obtain ⟨y1, ey1, y1l, y1u, y1d⟩ := snap_int ny hy (min d ny) (by have := le_max_right b (0 : ℚ); linarith) (min_le_right _ _)
  refine ⟨x0, y0, x1, y1, ⟨x0l, x1u, x0d, x1d⟩, ⟨y0l, y1u, y0d, y1d⟩, ?_⟩
  -- some corner is in the image
  have hany : ((boxToPolygon (a, b) (c, d)).map (inframe nx ny)).any id = true := by
    rcases le_or_gt 0 a with ha | ha
    · rcases le_or_gt 0 b with hb | hb
      · have : inframe nx ny (a, b) = true := by simp [inframe, ha, hb, m1.le, m2.le]
        simp [boxToPolygon, this]
      · have : inframe nx ny (a, d) = true := by simp [inframe, ha, m1.le, m2'.le]; linarith
        simp [boxToPolygon, this]
    · rcases le_or_gt 0 b with hb | hb
      · have : inframe nx ny (c, b) = true := by simp [inframe, hb, m2.le, m1'.le]; linarith
        simp [boxToPolygon, this]
      · have : inframe nx ny (c, d) = true := by
          simp [inframe, m1'.le, m2'.le]; exact ⟨by linarith, by linarith⟩
        simp [boxToPolygon, this]
  have hbox : clipWindow nx ny (a, b) (c, d) (((boxToPolygon (a, b) (c, d)).map (inframe nx ny)).all id) =
      .ok [max a 0, max b 0, min c nx, min d ny] := by
    unfold clipWindow
    by_cases hall : ((boxToPolygon (a, b) (c, d)).map (inframe nx ny)).all id = true
    · rw [if_pos hall]
      simp [boxToPolygon, inframe] at hall
      obtain ⟨⟨⟨q1, q2⟩, -⟩, -, ⟨-, q3, q4⟩, -⟩ := hall
      rw [max_eq_left q1, max_eq_left q2, min_eq_left q3, min_eq_left q4]
    · rw [if_neg hall, intersect_image nx ny a b c d g1 g2]
  unfold tileOf
  simp only [hany, if_true, hbox, bind, Except.bind, Grid.snapXy, imageGrid, Bool.not_false, Bool.not_true, Bool.and_false, Bool.and_self,
    List.getD_cons_zero, List.getD_cons_succ, Bool.false_eq_true, if_false]
  rw [ex0, ex1, ey0, ey1]
  cases cached <;> rfl

/-- C117 (partial: uncached images, windows no larger than the image): where the window around the projected point overlaps the image,
the tile shown is the part of the image in the window, to half a pixel, placed where it was read. -/
theorem animate_tile_partial (nx ny : Nat) (hx : 0 < nx) (hy : 0 < ny) (size : Nat × Nat) (w1 : 0 < size.1) (w2 : 0 < size.2)
    (s1 : size.1 ≤ nx) (s2 : size.2 ≤ ny) (puv : ℚ × ℚ)
    (m1 : Meets nx (puv.1 - size.1 / 2) (puv.1 + size.1 / 2)) (m2 : Meets ny (puv.2 - size.2 / 2) (puv.2 + size.2 / 2)) :
    ∃ s, animateFrame nx ny false size puv = .ok s ∧ ∃ x0 y0 x1 y1 : ℤ,
      Covers nx (puv.1 - size.1 / 2) (puv.1 + size.1 / 2) x0 x1 ∧ Covers ny (puv.2 - size.2 / 2) (puv.2 + size.2 / 2) y0 y1 ∧
      s.tile = some [(x0 : ℚ), (y0 : ℚ), (x1 : ℚ), (y1 : ℚ)] ∧ s.extent = [(x0 : ℚ), (y0 : ℚ), (x1 : ℚ), (y1 : ℚ)] := by
  have q1 : (0 : ℚ) < size.1 := by exact_mod_cast w1
  have q2 : (0 : ℚ) < size.2 := by exact_mod_cast w2
  have q3 : (size.1 : ℚ) ≤ nx := by exact_mod_cast s1
  have q4 : (size.2 : ℚ) ≤ ny := by exact_mod_cast s2
  have e : ∀ z : ℚ, z * (1 / 2) = z / 2 := fun z => by ring
  obtain ⟨x0, y0, x1, y1, c1, c2, ht⟩ := tile_meets nx ny hx hy (puv.1 - size.1 / 2, puv.2 - size.2 / 2)
    (puv.1 + size.1 / 2, puv.2 + size.2 / 2) (by simp only; linarith) (by simp only; linarith) (by simp only; linarith)
    (by simp only; linarith) m1 m2 false
  unfold animateFrame
  simp only [e, ht, Bool.false_eq_true, if_false]
  exact ⟨_, rfl, x0, y0, x1, y1, c1, c2, rfl, rfl⟩

/-- C117: where the window is apart from the image, a white tile fills it. -/
theorem animate_outside (nx ny : Nat) (cached : Bool) (size : Nat × Nat) (puv : ℚ × ℚ)
    (h : puv.1 + size.1 / 2 < 0 ∨ nx < puv.1 - size.1 / 2 ∨ puv.2 + size.2 / 2 < 0 ∨ ny < puv.2 - size.2 / 2) :
    ∃ s, animateFrame nx ny cached size puv = .ok s ∧ s.tile = none ∧
      s.extent = [puv.1 - size.1 / 2, puv.2 - size.2 / 2, puv.1 + size.1 / 2, puv.2 + size.2 / 2] := by
  have e : ∀ z : ℚ, z * (1 / 2) = z / 2 := fun z => by ring
  have q1 : (0 : ℚ) ≤ size.1 := Nat.cast_nonneg _
  have q2 : (0 : ℚ) ≤ size.2 := Nat.cast_nonneg _
  have ht : tileOf nx ny cached (puv.1 - size.1 / 2, puv.2 - size.2 / 2) (puv.1 + size.1 / 2, puv.2 + size.2 / 2) = .ok none := by
    have hf : ∀ p : ℚ × ℚ, (p.1 = puv.1 - size.1 / 2 ∨ p.1 = puv.1 + size.1 / 2) → (p.2 = puv.2 - size.2 / 2 ∨ p.2 = puv.2 + size.2 / 2) →
        inframe nx ny p = false := by
      rintro ⟨u, v⟩ hu hv
      simp only at hu hv
      rw [Bool.eq_false_iff]
      intro hc
      simp [inframe] at hc
      obtain ⟨⟨k1, k2⟩, k3, k4⟩ := hc
      rcases hu with rfl | rfl <;> rcases hv with rfl | rfl <;> rcases h with h | h | h | h <;> linarith
    unfold tileOf
    simp only [boxToPolygon, List.map_cons, List.map_nil]
    rw [hf _ (.inl rfl) (.inl rfl), hf _ (.inl rfl) (.inr rfl), hf _ (.inr rfl) (.inr rfl), hf _ (.inr rfl) (.inl rfl)]
    rfl
  unfold animateFrame
  simp only [e, ht]
  exact ⟨_, rfl, rfl, rfl⟩

/-- C117, exactly when the left axes are centered on the point: their lower limit is half the height below the point, the upper one half
the width above it. -/
theorem animate_window (nx ny : Nat) (cached : Bool) (size : Nat × Nat) (puv : ℚ × ℚ) (s : Shown)
    (h : animateFrame nx ny cached size puv = .ok s) :
    s.xlim = (puv.1 - size.1 / 2, puv.1 + size.1 / 2) ∧ (s.ylim = (puv.2 + size.2 / 2, puv.2 - size.2 / 2) ↔ size.1 = size.2) := by
  have e : ∀ z : ℚ, z * (1 / 2) = z / 2 := fun z => by ring
  unfold animateFrame at h
  simp only [e] at h
  split at h
  · cases h
  · simp only [Except.ok.injEq] at h
    subst h
    refine ⟨rfl, ?_⟩
    simp only [Prod.mk.injEq, true_and]
    constructor
    · intro he
      have : (size.1 : ℚ) = size.2 := by linarith
      exact_mod_cast this
    · intro he; rw [he]

/-- C117 fails for every window that is not square. -/
theorem animate_window_violated (nx ny : Nat) (cached : Bool) (size : Nat × Nat) (puv : ℚ × ℚ) (s : Shown)
    (h : animateFrame nx ny cached size puv = .ok s) (hs : size.1 ≠ size.2) :
    s.ylim ≠ (puv.2 + size.2 / 2, puv.2 - size.2 / 2) :=
  fun hc => hs ((animate_window nx ny cached size puv s h).2.1 hc)

/-- C117 fails for cached images (the default): every frame in which the window overlaps the image raises. -/
theorem animate_cached_violated (nx ny : Nat) (hx : 0 < nx) (hy : 0 < ny) (size : Nat × Nat) (w1 : 0 < size.1) (w2 : 0 < size.2)
    (s1 : size.1 ≤ nx) (s2 : size.2 ≤ ny) (puv : ℚ × ℚ)
    (m1 : Meets nx (puv.1 - size.1 / 2) (puv.1 + size.1 / 2)) (m2 : Meets ny (puv.2 - size.2 / 2) (puv.2 + size.2 / 2)) :
    animateFrame nx ny true size puv = .error .typeError := by
  have q1 : (0 : ℚ) < size.1 := by exact_mod_cast w1
  have q2 : (0 : ℚ) < size.2 := by exact_mod_cast w2
  have q3 : (size.1 : ℚ) ≤ nx := by exact_mod_cast s1
  have q4 : (size.2 : ℚ) ≤ ny := by exact_mod_cast s2
  have e : ∀ z : ℚ, z * (1 / 2) = z / 2 := fun z => by ring
  obtain ⟨x0, y0, x1, y1, c1, c2, ht⟩ := tile_meets nx ny hx hy (puv.1 - size.1 / 2, puv.2 - size.2 / 2)
    (puv.1 + size.1 / 2, puv.2 + size.2 / 2) (by simp only; linarith) (by simp only; linarith) (by simp only; linarith)
    (by simp only; linarith) m1 m2 true
  unfold animateFrame
  simp only [e, ht, if_true]

/-- C117 fails for windows larger than the image: with the whole image in the window, nothing of it is shown. -/
theorem animate_large_violated (nx ny : Nat) (cached : Bool) (size : Nat × Nat) (puv : ℚ × ℚ)
    (h1 : puv.1 - size.1 / 2 < 0) (h2 : nx < puv.1 + size.1 / 2) :
    ∃ s, animateFrame nx ny cached size puv = .ok s ∧ s.tile = none := by
  have e : ∀ z : ℚ, z * (1 / 2) = z / 2 := fun z => by ring
  have ht : tileOf nx ny cached (puv.1 - size.1 / 2, puv.2 - size.2 / 2) (puv.1 + size.1 / 2, puv.2 + size.2 / 2) = .ok none := by
    have hf : ∀ v : ℚ, inframe nx ny (puv.1 - size.1 / 2, v) = false ∧ inframe nx ny (puv.1 + size.1 / 2, v) = false := by
      intro v
      constructor
      · rw [Bool.eq_false_iff]
        intro hc
        simp [inframe] at hc
        linarith [hc.1.1]
      · rw [Bool.eq_false_iff]
        intro hc
        simp [inframe] at hc
        linarith [hc.2.1]
    unfold tileOf
    simp only [boxToPolygon, List.map_cons, List.map_nil]
    rw [(hf _).1, (hf _).1, (hf _).2, (hf _).2]
    rfl
  unfold animateFrame
  simp only [e, ht]
  exact ⟨_, rfl, rfl⟩

/-- C117 fails for a window that just touches the image: it raises. -/
theorem animate_touch_violated : animateFrame 100 100 false (10, 10) (-5, 50) = .error .valueError := by decide +kernel

/-! ### Observer.track -/

/-- C117: with an array of different images, the frame of image `frames[j]` shows the points until the `j`-th as this image sees them, and
the tile of the requested size around the `j`-th; it raises exactly if that tile reaches out of the image. -/
theorem track_frame_spec {P : Type} (sizes : Nat → Nat × Nat) (hs : ∀ i, 0 < (sizes i).1 ∧ 0 < (sizes i).2) (proj : Nat → P → ℚ × ℚ)
    (frames : List Nat) (hn : frames.Nodup) (xyz : List P) (tile : Nat × Nat) (j : Nat) (hj : j < frames.length) (p : P)
    (hp : xyz[j]? = some p) :
    let i := frames[j]
    let uv := proj i p
    ((∃ s, trackFrame sizes proj (.array frames) xyz tile i = .ok s) ↔
      (tile.1 : ℚ) / 2 ≤ uv.1 ∧ uv.1 ≤ (sizes i).1 - (tile.1 : ℚ) / 2 ∧ (tile.2 : ℚ) / 2 ≤ uv.2 ∧ uv.2 ≤ (sizes i).2 - (tile.2 : ℚ) / 2) ∧
    ∀ s, trackFrame sizes proj (.array frames) xyz tile i = .ok s →
      s.track = (xyz.take (j + 1)).map (proj i) ∧ ∃ x0 y0 x1 y1 : ℤ, s.box = [x0, y0, x1, y1] ∧
        Placed uv.1 tile.1 x0 x1 ∧ Placed uv.2 tile.2 y0 y1 ∧ 0 ≤ x0 ∧ x1 ≤ (sizes i).1 ∧ 0 ≤ y0 ∧ y1 ≤ (sizes i).2 := by
  intro i uv
  have hlt : j < xyz.length := by
    by_contra hc
    rw [List.getElem?_eq_none (by omega)] at hp
    cases hp
  have hpos : position (.array frames) i = .ok j := by
    unfold position
    simp only
    rw [if_pos (List.getElem_mem hj), List.Nodup.idxOf_getElem hn j hj]
  have hlast : ((xyz.take (j + 1)).map (proj i)).getLast? = some uv := by
    rw [List.getLast?_map, List.getLast?_take]
    simp only [Nat.add_eq_zero_iff, Nat.one_ne_zero, and_false, if_false, Nat.add_sub_cancel, hp, Option.some_or, Option.map_some]
    rfl
  have hred : trackFrame sizes proj (.array frames) xyz tile i = (tileBox (sizes i).1 (sizes i).2 uv tile).bind fun box =>
      .ok ⟨(xyz.take (j + 1)).map (proj i), box⟩ := by
    unfold trackFrame
    simp only [hpos, bind, Except.bind, hlast]
  obtain ⟨t1, t2⟩ := template_spec (sizes i).1 (sizes i).2 (hs i).1 (hs i).2 uv tile
  have hinit : ∀ box, tileBox (sizes i).1 (sizes i).2 uv tile = .ok box → ∃ t, initTemplate (sizes i).1 (sizes i).2 uv tile = .ok t ∧ t.box = box := by
    intro box hb
    unfold initTemplate
    rw [hb]
    exact ⟨_, rfl, rfl⟩
  have hinit' : ∀ t, initTemplate (sizes i).1 (sizes i).2 uv tile = .ok t → tileBox (sizes i).1 (sizes i).2 uv tile = .ok t.box := by
    intro t ht
    unfold initTemplate at ht
    split at ht
    · cases ht
    · rename_i b hb
      rw [hb]
      simp only [Except.ok.injEq] at ht
      rw [← ht]
  have hq : (∃ s, trackFrame sizes proj (.array frames) xyz tile i = .ok s) ↔ ∃ t, initTemplate (sizes i).1 (sizes i).2 uv tile = .ok t := by
    rw [hred]
    constructor
    · rintro ⟨s, h⟩
      cases hb : tileBox (sizes i).1 (sizes i).2 uv tile with
      | error e => rw [hb] at h; cases h
      | ok box => obtain ⟨t, ht, -⟩ := hinit box hb; exact ⟨t, ht⟩
    · rintro ⟨t, h⟩
      rw [hinit' t h]
      exact ⟨_, rfl⟩
  constructor
  · rw [hq, t2.1]
    constructor
    · rintro ⟨a, b, c, d⟩
      refine ⟨?_, ?_, ?_, ?_⟩ <;> linarith
    · rintro ⟨a, b, c, d⟩
      refine ⟨?_, ?_, ?_, ?_⟩ <;> linarith
  · intro s h
    rw [hred] at h
    cases hb : tileBox (sizes i).1 (sizes i).2 uv tile with
    | error e => rw [hb] at h; cases h
    | ok box =>
      rw [hb] at h
      have h' := (Except.ok.inj h).symm
      obtain ⟨t, ht, hbox⟩ := hinit box hb
      obtain ⟨x0, y0, x1, y1, k1, -, k2, k3, k4, -⟩ := t1 t ht
      rw [h']
      exact ⟨rfl, x0, y0, x1, y1, by rw [← hbox]; exact k1, k2, k3, k4⟩

/-- C117: by default the `j`-th image is shown with the `j`-th point. -/
theorem track_default {P : Type} (xyz : List P) : defaultFrames xyz = .array (List.range xyz.length) ∧ (List.range xyz.length).Nodup :=
  ⟨rfl, List.nodup_range⟩

/-- C117 fails for frames that are not an array (the documentation says iterable): every frame raises. -/
theorem track_sequence_violated {P : Type} (sizes : Nat → Nat × Nat) (proj : Nat → P → ℚ × ℚ) (frames : List Nat) (xyz : List P)
    (tile : Nat × Nat) (i : Nat) : trackFrame sizes proj (.sequence frames) xyz tile i = .error .indexError := rfl

/-- C117 fails for an image that is shown twice: the second time it is shown with the point of the first. -/
theorem track_repeated_violated :
    trackFrame (fun _ => (100, 100)) (fun _ p => p) (.array [0, 0]) [((50, 50) : ℚ × ℚ), (60, 60)] (10, 10) 0 =
      .ok ⟨[(50, 50)], [45, 45, 55, 55]⟩ := by decide +kernel

/-- Cases of the theorems: a window half out of the image, and a tile around the second of two points. -/
example : animateFrame 100 100 false (10, 10) (1, 50) = .ok ⟨some [0, 45, 6, 55], [0, 45, 6, 55], (-4, 6), (55, 45)⟩ := by decide +kernel
example : trackFrame (fun _ => (100, 100)) (fun _ p => p) (.array [3, 5]) [((50, 50) : ℚ × ℚ), (60, 60)] (10, 10) 5 =
    .ok ⟨[(50, 50), (60, 60)], [55, 55, 65, 65]⟩ := by decide +kernel

end Glimpse.ObserverAnimate
