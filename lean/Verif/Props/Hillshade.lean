import Verif.Model.Hillshade
import Verif.Props.Sample
import Mathlib.Data.List.GetD

/-!
C114: `Raster.hillshade`.
-/
set_option autoImplicit false
set_option linter.unusedSimpArgs false
set_option linter.unusedSectionVars false

namespace Glimpse.Hillshade

open Glimpse.Sample

/-! ### Specification -/

/-- Unit vector (east, north, up) towards a light at an azimuth clockwise from north and an altitude, in degrees. -/
noncomputable def towards (azimuth altitude : ℝ) : ℝ × ℝ × ℝ :=
  (Real.sin (azimuth * Real.pi / 180) * Real.cos (altitude * Real.pi / 180),
   Real.cos (azimuth * Real.pi / 180) * Real.cos (altitude * Real.pi / 180), Real.sin (altitude * Real.pi / 180))

/-- Illumination of a surface with slopes `gx` towards east and `gy` towards north: cosine of the angle between its upward
normal and the light. -/
noncomputable def lambert (l : ℝ × ℝ × ℝ) (gx gy : ℚ) : ℝ :=
  (l.1 * -(gx : ℝ) + l.2.1 * -(gy : ℝ) + l.2.2) / Real.sqrt ((gx : ℝ) ^ 2 + (gy : ℝ) ^ 2 + 1)

/-- Value in a row and column. -/
def val (s : List (List ℝ)) (r c : Nat) : ℝ := (s.getD r []).getD c 0

/-- The array has the size of the grid. -/
def RealShape (g : Grid) (s : List (List ℝ)) : Prop := s.length = g.ay.n ∧ ∀ r ∈ s, r.length = g.ax.n

/-! ### Proofs -/

/-- The direction of the light is the compass direction. -/
theorem direction_compass (az alt : ℝ) : direction az alt = towards az alt := by
  unfold direction towards radians
  rw [show (90 - az) * Real.pi / 180 = Real.pi / 2 - az * Real.pi / 180 by ring, Real.cos_pi_div_two_sub, Real.sin_pi_div_two_sub]

private theorem towards_mirror (az alt : ℝ) : towards (180 - az) alt = ((towards az alt).1, -(towards az alt).2.1, (towards az alt).2.2) := by
  unfold towards
  rw [show (180 - az) * Real.pi / 180 = Real.pi - az * Real.pi / 180 by ring, Real.sin_pi_sub, Real.cos_pi_sub]
  simp

private theorem gradient1_neg (h : ℚ) (v : List ℚ) (i : Nat) : (gradient1 (-h) v).getD i 0 = -(gradient1 h v).getD i 0 := by
  by_cases hi : i < v.length
  · rw [gradient1_get _ _ _ hi, gradient1_get _ _ _ hi]
    split
    · rw [div_neg]
    · split
      · rw [div_neg]
      · rw [mul_neg, div_neg]
  · have : ∀ h, (gradient1 h v).getD i 0 = 0 := by
      intro h
      rw [List.getD_eq_getElem?_getD, List.getElem?_eq_none (by simp [gradient1]; omega)]; rfl
    rw [this, this]; simp

theorem zip_val (f : ℚ → ℚ → ℝ) (g : Grid) (a b : List (List ℚ)) (ha : Shape g a) (hb : Shape g b) :
    RealShape g (List.zipWith (fun x y => List.zipWith f x y) a b) ∧ ∀ r < g.ay.n, ∀ c < g.ax.n,
      val (List.zipWith (fun x y => List.zipWith f x y) a b) r c = f (cell a r c) (cell b r c) := by
  constructor
  · constructor
    · rw [List.length_zipWith, ha.rows, hb.rows, Nat.min_self]
    · intro row hrow
      obtain ⟨i, hi, rfl⟩ := List.mem_iff_getElem.1 hrow
      rw [List.getElem_zipWith, List.length_zipWith, ha.cols _ (List.getElem_mem _), hb.cols _ (List.getElem_mem _), Nat.min_self]
  · intro r hr c hc
    have h1 : r < a.length := by rw [ha.rows]; exact hr
    have h2 : r < b.length := by rw [hb.rows]; exact hr
    have h3 : c < a[r].length := by rw [ha.cols _ (List.getElem_mem _)]; exact hc
    have h4 : c < b[r].length := by rw [hb.cols _ (List.getElem_mem _)]; exact hc
    unfold val cell
    rw [List.getD_eq_getElem (l := List.zipWith (fun x y => List.zipWith f x y) a b) _ (by rw [List.length_zipWith]; omega), List.getElem_zipWith]
    rw [List.getD_eq_getElem (l := List.zipWith f a[r] b[r]) _ (by rw [List.length_zipWith]; omega), List.getElem_zipWith]
    rw [List.getD_eq_getElem _ _ h1, List.getD_eq_getElem _ _ h2, List.getD_eq_getElem _ _ h3, List.getD_eq_getElem _ _ h4]

/-- The intensity computed for every cell, whatever the raster and its orientation: the illumination of the surface by a
light at the azimuth mirrored north to south (180 degrees minus the azimuth asked for). -/
theorem hillshade_mirrored (az alt : ℝ) (g : Grid) (arr : List (List ℚ)) (hs : Shape g arr) (hx : 2 ≤ g.ax.n) (hy : 2 ≤ g.ay.n) :
    ∃ s gx gy, gradient g arr = .ok (gx, gy) ∧ intensities az alt g arr = .ok s ∧ RealShape g s ∧
      ∀ r < g.ay.n, ∀ c < g.ax.n, val s r c = lambert (towards (180 - az) alt) (cell gx r c) (cell gy r c) := by
  obtain ⟨gx, gy, h1, h2, h3, h4⟩ := gradient_cells g arr hs hx hy
  obtain ⟨ex, ey, k1, k2, k3, k4⟩ := gradient_cells ⟨g.ax, ⟨g.ay.hi, g.ay.lo, g.ay.n⟩⟩ arr ⟨hs.rows, hs.cols⟩ hx hy
  obtain ⟨z1, z2⟩ := zip_val (intensity (direction az alt)) g ex ey ⟨k2.rows, k2.cols⟩ ⟨k3.rows, k3.cols⟩
  refine ⟨List.zipWith (fun x y => List.zipWith (intensity (direction az alt)) x y) ex ey, gx, gy, h1, ?_, z1, fun r hr c hc => ?_⟩
  · unfold intensities slopes
    rw [k1]
  · rw [z2 r hr c hc]
    obtain ⟨a1, a2⟩ := h4 r hr c hc
    obtain ⟨b1, b2⟩ := k4 r hr c hc
    have hd : (⟨g.ay.hi, g.ay.lo, g.ay.n⟩ : GAxis).d = -g.ay.d := by unfold GAxis.d; simp only []; ring
    simp only [hd, gradient1_neg] at b2
    rw [b1, b2, a1, a2, towards_mirror, direction_compass]
    unfold intensity lambert
    push_cast
    ring_nf

private theorem foldl_min_le (vs : List ℝ) : ∀ v, vs.foldl min v ≤ v ∧ ∀ w ∈ vs, vs.foldl min v ≤ w := by
  induction vs with
  | nil => intro v; exact ⟨le_refl _, fun w h => by cases h⟩
  | cons a vs ih =>
    intro v
    obtain ⟨h1, h2⟩ := ih (min v a)
    refine ⟨h1.trans (min_le_left _ _), fun w hw => ?_⟩
    rcases List.mem_cons.1 hw with rfl | hw
    · exact h1.trans (min_le_right _ _)
    · exact h2 w hw

private theorem le_foldl_max (vs : List ℝ) : ∀ v, v ≤ vs.foldl max v ∧ ∀ w ∈ vs, w ≤ vs.foldl max v := by
  induction vs with
  | nil => intro v; exact ⟨le_refl _, fun w h => by cases h⟩
  | cons a vs ih =>
    intro v
    obtain ⟨h1, h2⟩ := ih (max v a)
    refine ⟨(le_max_left _ _).trans h1, fun w hw => ?_⟩
    rcases List.mem_cons.1 hw with rfl | hw
    · exact (le_max_right _ _).trans h1
    · exact h2 w hw

private theorem rescale_mono (lo hi a b : ℝ) (h : a ≤ b) : rescale lo hi a ≤ rescale lo hi b := by
  unfold rescale
  apply max_le_max (le_refl _)
  apply min_le_min (le_refl _)
  split
  · rename_i h1
    apply div_le_div_of_nonneg_right (by linarith) (by linarith)
  · exact h

private theorem rescale_strict (lo hi a b : ℝ) (h : a < b) (ha : lo ≤ a) (hb : b ≤ hi) (hr : 1 / 1000000 < b - a) : rescale lo hi a < rescale lo hi b := by
  have hpos : 0 < hi - lo := by linarith
  have hbig : hi - lo > 1 / 1000000 := by linarith
  unfold rescale
  rw [if_pos hbig, if_pos hbig]
  have e1 : 0 ≤ (a - lo) / (hi - lo) := div_nonneg (by linarith) hpos.le
  have e2 : (b - lo) / (hi - lo) ≤ 1 := by rw [div_le_one hpos]; linarith
  have e3 : (a - lo) / (hi - lo) < (b - lo) / (hi - lo) := div_lt_div_of_pos_right (by linarith) hpos
  rw [min_eq_right e2, min_eq_right (e3.le.trans e2), max_eq_right e1, max_eq_right (e1.trans e3.le)]
  exact e3

private theorem shade_cells (g : Grid) (hx : 0 < g.ax.n) (hy : 0 < g.ay.n) (s : List (List ℝ)) (hs : RealShape g s) :
    ∃ lo hi, RealShape g (shade s) ∧ (∀ r < g.ay.n, ∀ c < g.ax.n, lo ≤ val s r c ∧ val s r c ≤ hi) ∧
      ∀ r < g.ay.n, ∀ c < g.ax.n, val (shade s) r c = rescale lo hi (val s r c) := by
  have hmem : ∀ r < g.ay.n, ∀ c < g.ax.n, val s r c ∈ s.flatten := by
    intro r hr c hc
    have h1 : r < s.length := by rw [hs.1]; exact hr
    have h2 : c < s[r].length := by rw [hs.2 _ (List.getElem_mem _)]; exact hc
    unfold val
    rw [List.getD_eq_getElem _ _ h1, List.getD_eq_getElem _ _ h2]
    exact List.mem_flatten.2 ⟨s[r], List.getElem_mem _, List.getElem_mem _⟩
  cases hf : s.flatten with
  | nil =>
    have := hmem 0 hy 0 hx
    rw [hf] at this; cases this
  | cons v vs =>
    have e : shade s = s.map fun r => r.map (rescale (minOf v vs) (maxOf v vs)) := by
      unfold shade; rw [hf]
    refine ⟨minOf v vs, maxOf v vs, ?_, ?_, ?_⟩
    · rw [e]
      refine ⟨by rw [List.length_map]; exact hs.1, fun r hr => ?_⟩
      obtain ⟨r', hr', rfl⟩ := List.mem_map.1 hr
      rw [List.length_map]; exact hs.2 r' hr'
    · intro r hr c hc
      have := hmem r hr c hc
      rw [hf] at this
      unfold minOf maxOf
      rcases List.mem_cons.1 this with h | h
      · rw [h]; exact ⟨(foldl_min_le vs v).1, (le_foldl_max vs v).1⟩
      · exact ⟨(foldl_min_le vs v).2 _ h, (le_foldl_max vs v).2 _ h⟩
    · intro r hr c hc
      have h1 : r < s.length := by rw [hs.1]; exact hr
      have h2 : c < s[r].length := by rw [hs.2 _ (List.getElem_mem _)]; exact hc
      rw [e]
      unfold val
      rw [List.getD_eq_getElem (l := s.map _) _ (by simpa using h1), List.getElem_map, List.getD_eq_getElem _ _ (by simpa using h2), List.getElem_map,
        List.getD_eq_getElem _ _ h1, List.getD_eq_getElem _ _ h2]

private theorem foldl_mem (f : ℝ → ℝ → ℝ) (hf : ∀ a b, f a b = a ∨ f a b = b) (vs : List ℝ) : ∀ v, vs.foldl f v ∈ v :: vs := by
  induction vs with
  | nil => intro v; simp
  | cons a vs ih =>
    intro v
    rw [List.foldl_cons]
    rcases List.mem_cons.1 (ih (f v a)) with h | h
    · rw [h]
      rcases hf v a with e | e <;> rw [e] <;> simp
    · exact List.mem_cons_of_mem _ (List.mem_cons_of_mem _ h)

/-- The least and greatest are values of cells. -/
private theorem shade_range (g : Grid) (hx : 0 < g.ax.n) (hy : 0 < g.ay.n) (s : List (List ℝ)) (hs : RealShape g s) :
    ∃ r0 < g.ay.n, ∃ c0 < g.ax.n, ∃ r1 < g.ay.n, ∃ c1 < g.ax.n, ∀ r < g.ay.n, ∀ c < g.ax.n,
      val s r0 c0 ≤ val s r c ∧ val s r c ≤ val s r1 c1 ∧ val (shade s) r c = rescale (val s r0 c0) (val s r1 c1) (val s r c) := by
  have hmem : ∀ v ∈ s.flatten, ∃ r < g.ay.n, ∃ c < g.ax.n, v = val s r c := by
    intro v hv
    obtain ⟨row, hrow, hv⟩ := List.mem_flatten.1 hv
    obtain ⟨r, hr, rfl⟩ := List.mem_iff_getElem.1 hrow
    obtain ⟨c, hc, rfl⟩ := List.mem_iff_getElem.1 hv
    refine ⟨r, by rw [← hs.1]; exact hr, c, by rw [← hs.2 _ (List.getElem_mem hr)]; exact hc, ?_⟩
    unfold val
    rw [List.getD_eq_getElem _ _ hr, List.getD_eq_getElem _ _ hc]
  have hin : ∀ r < g.ay.n, ∀ c < g.ax.n, val s r c ∈ s.flatten := by
    intro r hr c hc
    have h1 : r < s.length := by rw [hs.1]; exact hr
    have h2 : c < s[r].length := by rw [hs.2 _ (List.getElem_mem _)]; exact hc
    unfold val
    rw [List.getD_eq_getElem _ _ h1, List.getD_eq_getElem _ _ h2]
    exact List.mem_flatten.2 ⟨s[r], List.getElem_mem _, List.getElem_mem _⟩
  cases hf : s.flatten with
  | nil =>
    have := hin 0 hy 0 hx
    rw [hf] at this; cases this
  | cons v vs =>
    have e : shade s = s.map fun r => r.map (rescale (minOf v vs) (maxOf v vs)) := by
      unfold shade; rw [hf]
    obtain ⟨r0, hr0, c0, hc0, m0⟩ := hmem (minOf v vs) (by rw [hf]; exact foldl_mem min (fun a b => min_choice a b) vs v)
    obtain ⟨r1, hr1, c1, hc1, m1⟩ := hmem (maxOf v vs) (by rw [hf]; exact foldl_mem max (fun a b => max_choice a b) vs v)
    refine ⟨r0, hr0, c0, hc0, r1, hr1, c1, hc1, fun r hr c hc => ?_⟩
    rw [← m0, ← m1]
    have h3 := hin r hr c hc
    rw [hf] at h3
    refine ⟨?_, ?_, ?_⟩
    · rcases List.mem_cons.1 h3 with h | h
      · rw [h]; exact (foldl_min_le vs v).1
      · exact (foldl_min_le vs v).2 _ h
    · rcases List.mem_cons.1 h3 with h | h
      · rw [h]; exact (le_foldl_max vs v).1
      · exact (le_foldl_max vs v).2 _ h
    · have h1 : r < s.length := by rw [hs.1]; exact hr
      have h2 : c < s[r].length := by rw [hs.2 _ (List.getElem_mem _)]; exact hc
      rw [e]
      unfold val
      rw [List.getD_eq_getElem (l := s.map _) _ (by simpa using h1), List.getElem_map, List.getD_eq_getElem _ _ (by simpa using h2), List.getElem_map,
        List.getD_eq_getElem _ _ h1, List.getD_eq_getElem _ _ h2]

/-- C114: the value of every cell: with `lo` and `hi` the illumination of the darkest and the brightest cell, it is the illumination stretched from
`lo` to `hi` to 0 to 1, or clipped to 0 to 1 if these are not more than a millionth apart. -/
theorem hillshade_values (az alt : ℝ) (g : Grid) (arr : List (List ℚ)) (hs : Shape g arr) (hx : 2 ≤ g.ax.n) (hy : 2 ≤ g.ay.n) :
    ∃ t gx gy, gradient g arr = .ok (gx, gy) ∧ hillshade az alt g arr = .ok t ∧ RealShape g t ∧
      let f := fun r c => lambert (towards (180 - az) alt) (cell gx r c) (cell gy r c)
      ∃ r0 < g.ay.n, ∃ c0 < g.ax.n, ∃ r1 < g.ay.n, ∃ c1 < g.ax.n, ∀ r < g.ay.n, ∀ c < g.ax.n,
        f r0 c0 ≤ f r c ∧ f r c ≤ f r1 c1 ∧
        (1 / 1000000 < f r1 c1 - f r0 c0 → val t r c = (f r c - f r0 c0) / (f r1 c1 - f r0 c0)) ∧
        (f r1 c1 - f r0 c0 ≤ 1 / 1000000 → val t r c = max 0 (min 1 (f r c))) := by
  obtain ⟨s, gx, gy, h1, h2, h3, h4⟩ := hillshade_mirrored az alt g arr hs hx hy
  obtain ⟨r0, hr0, c0, hc0, r1, hr1, c1, hc1, h⟩ := shade_range g (by omega) (by omega) s h3
  obtain ⟨_, _, k1, -, -⟩ := shade_cells g (by omega) (by omega) s h3
  refine ⟨shade s, gx, gy, h1, by unfold hillshade; rw [h2], k1, r0, hr0, c0, hc0, r1, hr1, c1, hc1, fun r hr c hc => ?_⟩
  obtain ⟨a, b, e⟩ := h r hr c hc
  simp only
  rw [← h4 r hr c hc, ← h4 r0 hr0 c0 hc0, ← h4 r1 hr1 c1 hc1]
  refine ⟨a, b, fun hgt => ?_, fun hle => ?_⟩
  · rw [e]
    unfold rescale
    rw [if_pos hgt]
    have hp : 0 < val s r1 c1 - val s r0 c0 := lt_trans (by norm_num) hgt
    rw [min_eq_right (by rw [div_le_one hp]; linarith), max_eq_right (div_nonneg (by linarith) hp.le)]
  · rw [e]
    unfold rescale
    rw [if_neg (not_lt.2 hle)]

/-- C114: the result has the size of the raster and values from 0 to 1, and is never darker where the computed intensity is
higher (and is brighter if it is higher by more than 1e-6). -/
theorem hillshade_order (az alt : ℝ) (g : Grid) (arr : List (List ℚ)) (hs : Shape g arr) (hx : 2 ≤ g.ax.n) (hy : 2 ≤ g.ay.n) :
    ∃ t gx gy, gradient g arr = .ok (gx, gy) ∧ hillshade az alt g arr = .ok t ∧ RealShape g t ∧
      (∀ r < g.ay.n, ∀ c < g.ax.n, 0 ≤ val t r c ∧ val t r c ≤ 1) ∧
      ∀ r < g.ay.n, ∀ c < g.ax.n, ∀ r' < g.ay.n, ∀ c' < g.ax.n,
        (lambert (towards (180 - az) alt) (cell gx r c) (cell gy r c) ≤ lambert (towards (180 - az) alt) (cell gx r' c') (cell gy r' c') →
          val t r c ≤ val t r' c') ∧
        (lambert (towards (180 - az) alt) (cell gx r c) (cell gy r c) + 1 / 1000000 <
          lambert (towards (180 - az) alt) (cell gx r' c') (cell gy r' c') → val t r c < val t r' c') := by
  obtain ⟨s, gx, gy, h1, h2, h3, h4⟩ := hillshade_mirrored az alt g arr hs hx hy
  obtain ⟨lo, hi, k1, k2, k3⟩ := shade_cells g (by omega) (by omega) s h3
  refine ⟨shade s, gx, gy, h1, by unfold hillshade; rw [h2], k1, fun r hr c hc => ?_, fun r hr c hc r' hr' c' hc' => ⟨fun h => ?_, fun h => ?_⟩⟩
  · rw [k3 r hr c hc]
    unfold rescale
    exact ⟨le_max_left _ _, max_le zero_le_one (min_le_left _ _)⟩
  · rw [k3 r hr c hc, k3 r' hr' c' hc', h4 r hr c hc, h4 r' hr' c' hc']
    exact rescale_mono lo hi _ _ h
  · have b1 := k2 r hr c hc
    have b2 := k2 r' hr' c' hc'
    rw [k3 r hr c hc, k3 r' hr' c' hc']
    rw [h4 r hr c hc] at b1 ⊢
    rw [h4 r' hr' c' hc'] at b2 ⊢
    exact rescale_strict lo hi _ _ (by linarith) b1.1 b2.2 (by linarith)

/-- C114: the intensity is that of the light asked for if the light is due east or west, or the surface has no slope
northwards there. -/
theorem hillshade_partial (az alt : ℝ) (gx gy : ℚ) (h : Real.cos (az * Real.pi / 180) = 0 ∨ gy = 0) :
    lambert (towards (180 - az) alt) gx gy = lambert (towards az alt) gx gy := by
  rw [towards_mirror]
  unfold lambert towards
  rcases h with h | h
  · simp [h]
  · simp [h]

/-- C114: a flat raster has the intensity of the sine of the altitude everywhere, whatever the azimuth. -/
theorem hillshade_flat (az alt : ℝ) (g : Grid) (hg : g.Valid) (arr : List (List ℚ)) (hs : Shape g arr) (hx : 2 ≤ g.ax.n) (hy : 2 ≤ g.ay.n)
    (A : ℚ) (hA : ∀ r < g.ay.n, ∀ c < g.ax.n, cell arr r c = A) :
    ∃ s, intensities az alt g arr = .ok s ∧ ∀ r < g.ay.n, ∀ c < g.ax.n, val s r c = Real.sin (alt * Real.pi / 180) := by
  obtain ⟨s, gx, gy, h1, h2, h3, h4⟩ := hillshade_mirrored az alt g arr hs hx hy
  obtain ⟨gx', gy', k1, -, -, k4⟩ := gradient_plane g hg hx hy arr hs A 0 0 (fun r hr c hc => by rw [hA r hr c hc]; ring)
  rw [h1] at k1
  simp only [Except.ok.injEq, Prod.mk.injEq] at k1
  refine ⟨s, h2, fun r hr c hc => ?_⟩
  rw [h4 r hr c hc, k1.1, k1.2, (k4 r hr c hc).1, (k4 r hr c hc).2]
  unfold lambert towards
  simp

/-- C114: rasters with a single row or column raise. -/
theorem hillshade_raises (az alt : ℝ) (g : Grid) (arr : List (List ℚ)) (h : g.ax.n < 2 ∨ g.ay.n < 2) :
    hillshade az alt g arr = .error .valueError := by
  unfold hillshade intensities slopes
  rw [gradient_raises ⟨g.ax, ⟨g.ay.hi, g.ay.lo, g.ay.n⟩⟩ arr h]

/-- C114 fails: two cells on the sides of a ridge from west to east, one sloping down to the north and one to the south, in a
raster of any orientation: with light from the north, the side away from it is the brighter one. -/
theorem hillshade_north_violated (g : Grid) (arr gx gy : List (List ℚ)) (hs : Shape g arr) (hx : 2 ≤ g.ax.n) (hy : 2 ≤ g.ay.n)
    (hgrad : gradient g arr = .ok (gx, gy)) (r c r' c' : Nat) (hr : r < g.ay.n) (hc : c < g.ax.n) (hr' : r' < g.ay.n) (hc' : c' < g.ax.n)
    (h1 : cell gx r c = 0 ∧ cell gy r c = -1) (h2 : cell gx r' c' = 0 ∧ cell gy r' c' = 1) :
    lambert (towards 0 45) (cell gx r' c') (cell gy r' c') < lambert (towards 0 45) (cell gx r c) (cell gy r c) ∧
    ∃ t, hillshade 0 45 g arr = .ok t ∧ val t r c < val t r' c' := by
  have e45 : (45 : ℝ) * Real.pi / 180 = Real.pi / 4 := by ring
  have hsq : Real.sqrt 2 * Real.sqrt 2 = 2 := Real.mul_self_sqrt (by norm_num)
  have h2pos : 0 < Real.sqrt 2 := Real.sqrt_pos.2 (by norm_num)
  have v1 : lambert (towards 0 45) 0 (-1) = 1 := by
    unfold lambert towards
    rw [e45, Real.cos_pi_div_four, Real.sin_pi_div_four]
    norm_num
  have v2 : lambert (towards 0 45) 0 1 = 0 := by
    unfold lambert towards
    rw [e45, Real.cos_pi_div_four, Real.sin_pi_div_four]
    norm_num
  have w1 : lambert (towards (180 - 0) 45) 0 (-1) = 0 := by
    rw [towards_mirror]
    unfold lambert towards
    rw [e45, Real.cos_pi_div_four, Real.sin_pi_div_four]
    norm_num
  have w2 : lambert (towards (180 - 0) 45) 0 1 = 1 := by
    rw [towards_mirror]
    unfold lambert towards
    rw [e45, Real.cos_pi_div_four, Real.sin_pi_div_four]
    norm_num
  refine ⟨by rw [h1.1, h1.2, h2.1, h2.2, v1, v2]; norm_num, ?_⟩
  obtain ⟨t, gx', gy', k1, k2, -, -, k5⟩ := hillshade_order 0 45 g arr hs hx hy
  rw [hgrad] at k1
  simp only [Except.ok.injEq, Prod.mk.injEq] at k1
  obtain ⟨rfl, rfl⟩ := k1
  refine ⟨t, k2, (k5 r hr c hc r' hr' c' hc').2 ?_⟩
  rw [h1.1, h1.2, h2.1, h2.2, w1, w2]; norm_num

/-- Such a raster: the first row is the most northern, the ridge is in the middle. -/
example : gradient ⟨⟨0, 2, 2⟩, ⟨5, 0, 5⟩⟩ [[0, 0], [1, 1], [2, 2], [1, 1], [0, 0]] =
    .ok ([[0, 0], [0, 0], [0, 0], [0, 0], [0, 0]], [[-1, -1], [-1, -1], [0, 0], [1, 1], [1, 1]]) := by decide +kernel

end Glimpse.Hillshade
