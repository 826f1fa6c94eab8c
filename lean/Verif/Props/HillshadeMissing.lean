import Verif.Model.HillshadeMissing
import Verif.Props.Hillshade

/-!
C142: gradients and shades of rasters with missing cells.
-/
set_option autoImplicit false
set_option linter.unusedSimpArgs false
set_option linter.unusedSectionVars false

namespace Glimpse.Hillshade
open Glimpse.Sample

/-! ### Specification -/

/-- The array has the size of the grid. -/
structure SizeM (g : Grid) {α : Type} (arr : List (List α)) : Prop where
  rows : arr.length = g.ay.n
  cols : ∀ r ∈ arr, r.length = g.ax.n

/-- A result in a row and column. -/
def out {α : Type} (s : List (List (Option α))) (r c : Nat) : Option α := (s.getD r []).getD c none

/-- The raster has this value there, if any: missing cells filled with anything. -/
def Fills (g : Grid) (arr : List (List (Option ℚ))) (full : List (List ℚ)) : Prop :=
  Shape g full ∧ ∀ r < g.ay.n, ∀ c < g.ax.n, at_ arr r c = none ∨ at_ arr r c = some (cell full r c)

/-- One of the two neighbours along x, or the cell itself at an edge without one, is missing. -/
def BesideMissing (g : Grid) (arr : List (List (Option ℚ))) (r c : Nat) : Prop :=
  at_ arr r (c - 1) = none ∨ at_ arr r (min (c + 1) (g.ax.n - 1)) = none

/-- The same along y. -/
def AboveMissing (g : Grid) (arr : List (List (Option ℚ))) (r c : Nat) : Prop :=
  at_ arr (r - 1) c = none ∨ at_ arr (min (r + 1) (g.ay.n - 1)) c = none

/-! ### Proofs -/

theorem slopeM_none (h : ℚ) (a b : Option ℚ) : slopeM h a b = none ↔ a = none ∨ b = none := by
  unfold slopeM
  cases a <;> cases b <;> simp

theorem gradientM1_none (h : ℚ) (n : Nat) (hn : 2 ≤ n) (v : Nat → Option ℚ) (i : Nat) (hi : i < n) :
    gradientM1 h n v i = none ↔ v (i - 1) = none ∨ v (min (i + 1) (n - 1)) = none := by
  unfold gradientM1
  split
  · subst i
    rw [slopeM_none, Nat.zero_sub, Nat.min_eq_left (by omega), or_comm]
  · split
    · rw [slopeM_none, show min (i + 1) (n - 1) = i by omega, or_comm]
    · rw [slopeM_none, show min (i + 1) (n - 1) = i + 1 by omega, or_comm]

theorem gradientM1_some (h : ℚ) (n : Nat) (v : Nat → Option ℚ) (w : List ℚ) (hw : w.length = n) (hn : 2 ≤ n)
    (hv : ∀ k < n, v k = none ∨ v k = some (w.getD k 0)) (i : Nat) (hi : i < n) (y : ℚ) (hy : gradientM1 h n v i = some y) :
    y = (gradient1 h w).getD i 0 := by
  have hs : ∀ (d : ℚ) (j k : Nat), j < n → k < n → slopeM d (v j) (v k) = some y → y = (w.getD j 0 - w.getD k 0) / d := by
    intro d j k hj hk e
    unfold slopeM at e
    rcases hv j hj with a | a <;> rcases hv k hk with b | b <;> rw [a, b] at e <;> simp at e
    simp only [List.getD_eq_getElem?_getD]
    exact e.symm
  rw [gradient1_get h w i (by omega), hw]
  unfold gradientM1 at hy
  split at hy
  · rename_i e
    rw [if_pos e]
    exact hs h 1 0 (by omega) (by omega) hy
  · rename_i e
    rw [if_neg e]
    split at hy
    · rename_i e'
      rw [if_pos e']
      exact hs h i (i - 1) hi (by omega) hy
    · rename_i e'
      rw [if_neg e']
      exact hs (2 * h) (i + 1) (i - 1) (by omega) (by omega) hy

theorem out_range {α : Type} (ny nx : Nat) (f : Nat → Nat → Option α) (r c : Nat) (hr : r < ny) (hc : c < nx) :
    out ((List.range ny).map fun r => (List.range nx).map fun c => f r c) r c = f r c := by
  unfold out
  simp [List.getD_eq_getElem?_getD, hr, hc]

theorem size_range {α : Type} (g : Grid) (f : Nat → Nat → α) : SizeM g ((List.range g.ay.n).map fun r => (List.range g.ax.n).map fun c => f r c) := by
  constructor
  · simp
  · intro r hr
    obtain ⟨k, -, rfl⟩ := List.mem_map.1 hr
    simp

/-- C142: `Raster.gradient`: exactly which slopes are missing, and the others are those of the raster with any values in its missing cells. -/
theorem gradient_missing (g : Grid) (arr : List (List (Option ℚ))) (hx : 2 ≤ g.ax.n) (hy : 2 ≤ g.ay.n) :
    ∃ gx gy, gradientM g arr = .ok (gx, gy) ∧ SizeM g gx ∧ SizeM g gy ∧ ∀ r < g.ay.n, ∀ c < g.ax.n,
      (out gx r c = none ↔ BesideMissing g arr r c) ∧ (out gy r c = none ↔ AboveMissing g arr r c) ∧
      ∀ full fx fy, Fills g arr full → gradient g full = .ok (fx, fy) →
        (out gx r c = none ∨ out gx r c = some (cell fx r c)) ∧ (out gy r c = none ∨ out gy r c = some (cell fy r c)) := by
  refine ⟨_, _, by unfold gradientM; rw [if_neg (by omega)], size_range g _, size_range g _, fun r hr c hc => ?_⟩
  rw [out_range _ _ _ r c hr hc, out_range _ _ _ r c hr hc]
  refine ⟨gradientM1_none _ _ hx _ c hc, gradientM1_none _ _ hy _ r hr, fun full fx fy hf hg => ?_⟩
  obtain ⟨fx', fy', e, -, -, hcell⟩ := gradient_cells g full hf.1 hx hy
  rw [hg] at e
  obtain ⟨rfl, rfl⟩ := Prod.mk.inj (Except.ok.inj e)
  obtain ⟨h1, h2⟩ := hcell r hr c hc
  have hrow : (full.getD r []).length = g.ax.n := by
    rw [List.getD_eq_getElem _ _ (by rw [hf.1.rows]; exact hr)]
    exact hf.1.cols _ (List.getElem_mem _)
  constructor
  · cases q : gradientM1 g.ax.d g.ax.n (fun k => at_ arr r k) c with
    | none => exact Or.inl rfl
    | some y =>
      right
      rw [h1, gradientM1_some _ _ _ (full.getD r []) hrow hx (fun k hk => hf.2 r hr k hk) c hc y q]
  · cases q : gradientM1 g.ay.d g.ay.n (fun k => at_ arr k c) r with
    | none => exact Or.inl rfl
    | some y =>
      right
      rw [h2, gradientM1_some _ _ _ (full.map fun r => r.getD c 0) (by rw [List.length_map, hf.1.rows]) hy (fun k hk => ?_) r hr y q]
      have := hf.2 k hk c hc
      have e2 : (full.map fun r => r.getD c 0).getD k 0 = cell full k c := by
        unfold cell
        rw [List.getD_eq_getElem _ _ (by rw [List.length_map, hf.1.rows]; exact hk), List.getElem_map,
          List.getD_eq_getElem full _ (by rw [hf.1.rows]; exact hk)]
      rw [e2]
      exact this

theorem out_zip {α β γ : Type} (g : Grid) (a : List (List (Option α))) (b : List (List (Option β))) (f : Option α → Option β → Option γ) (ha : SizeM g a)
    (hb : SizeM g b) : SizeM g (List.zipWith (fun x y => List.zipWith f x y) a b) ∧ ∀ r < g.ay.n, ∀ c < g.ax.n,
      out (List.zipWith (fun x y => List.zipWith f x y) a b) r c = f (out a r c) (out b r c) := by
  constructor
  · constructor
    · rw [List.length_zipWith, ha.rows, hb.rows, Nat.min_self]
    · intro row hrow
      obtain ⟨i, hi, rfl⟩ := List.mem_iff_getElem.1 hrow
      rw [List.getElem_zipWith, List.length_zipWith, ha.cols _ (List.getElem_mem _), hb.cols _ (List.getElem_mem _), Nat.min_self]
  · intro r hr c hc
    have h1 : r < a.length := by rw [ha.rows]; exact hr
    have h2 : r < b.length := by rw [hb.rows]; exact hr
    have h3 : c < a[r].length := by rw [ha.cols _ (List.getElem_mem _)]; exact hc
    have h4 : c < b[r].length := by rw [hb.cols _ (List.getElem_mem _)]; exact hc
    unfold out
    rw [List.getD_eq_getElem (l := List.zipWith (fun x y => List.zipWith f x y) a b) _ (by rw [List.length_zipWith]; omega), List.getElem_zipWith]
    rw [List.getD_eq_getElem (l := List.zipWith f a[r] b[r]) _ (by rw [List.length_zipWith]; omega), List.getElem_zipWith]
    rw [List.getD_eq_getElem _ _ h1, List.getD_eq_getElem _ _ h2, List.getD_eq_getElem _ _ h3, List.getD_eq_getElem _ _ h4]

theorem out_map {α β : Type} (g : Grid) (a : List (List (Option α))) (f : α → β) (ha : SizeM g a) :
    SizeM g (a.map fun r => r.map fun v => v.map f) ∧ ∀ r < g.ay.n, ∀ c < g.ax.n, out (a.map fun r => r.map fun v => v.map f) r c = (out a r c).map f := by
  constructor
  · constructor
    · rw [List.length_map, ha.rows]
    · intro row hrow
      obtain ⟨x, hx, rfl⟩ := List.mem_map.1 hrow
      rw [List.length_map, ha.cols x hx]
  · intro r hr c hc
    have h1 : r < a.length := by rw [ha.rows]; exact hr
    have h3 : c < a[r].length := by rw [ha.cols _ (List.getElem_mem _)]; exact hc
    unfold out
    rw [List.getD_eq_getElem (l := a.map _) _ (by rw [List.length_map]; omega), List.getElem_map]
    rw [List.getD_eq_getElem (l := a[r].map _) _ (by rw [List.length_map]; omega), List.getElem_map]
    rw [List.getD_eq_getElem _ _ h1, List.getD_eq_getElem _ _ h3]

/-- Intensities before they are rescaled. -/
theorem intensities_missing (az alt : ℝ) (g : Grid) (arr : List (List (Option ℚ))) (hx : 2 ≤ g.ax.n) (hy : 2 ≤ g.ay.n) :
    ∃ s, intensitiesM az alt g arr = .ok s ∧ SizeM g s ∧ ∀ r < g.ay.n, ∀ c < g.ax.n,
      (out s r c = none ↔ BesideMissing g arr r c ∨ AboveMissing g arr r c) ∧
      ∀ full fx fy, Fills g arr full → gradient g full = .ok (fx, fy) →
        out s r c = none ∨ out s r c = some (lambert (towards (180 - az) alt) (cell fx r c) (cell fy r c)) := by
  obtain ⟨ex, ey, e, sx, sy, he⟩ := gradient_missing ⟨g.ax, ⟨g.ay.hi, g.ay.lo, g.ay.n⟩⟩ arr hx hy
  obtain ⟨z1, z2⟩ := out_zip g ex ey (intensityM (direction az alt)) ⟨sx.rows, sx.cols⟩ ⟨sy.rows, sy.cols⟩
  refine ⟨_, by unfold intensitiesM; rw [e], z1, fun r hr c hc => ?_⟩
  rw [z2 r hr c hc]
  obtain ⟨n1, n2, h3⟩ := he r hr c hc
  constructor
  · rw [show BesideMissing g arr r c ↔ out ex r c = none from n1.symm, show AboveMissing g arr r c ↔ out ey r c = none from n2.symm]
    unfold intensityM
    cases out ex r c <;> cases out ey r c <;> simp
  · intro full fx fy hf hg
    obtain ⟨s', gx', gy', k1, k2, k3, k4⟩ := hillshade_mirrored az alt g full hf.1 hx hy
    rw [hg] at k1
    obtain ⟨rfl, rfl⟩ := Prod.mk.inj (Except.ok.inj k1)
    obtain ⟨fx', fy', m1, m2, m3, m4⟩ := gradient_cells ⟨g.ax, ⟨g.ay.hi, g.ay.lo, g.ay.n⟩⟩ full ⟨hf.1.rows, hf.1.cols⟩ hx hy
    have k5 := k4 r hr c hc
    have hz : val s' r c = intensity (direction az alt) (cell fx' r c) (cell fy' r c) := by
      unfold intensities slopes at k2
      rw [m1] at k2
      rw [← Except.ok.inj k2]
      exact (zip_val _ g fx' fy' ⟨m2.rows, m2.cols⟩ ⟨m3.rows, m3.cols⟩).2 r hr c hc
    obtain ⟨a, b⟩ := h3 full fx' fy' ⟨⟨hf.1.rows, hf.1.cols⟩, hf.2⟩ m1
    rcases a with a | a
    · left; rw [a]; rfl
    · rcases b with b | b
      · left; rw [a, b]; rfl
      · right
        rw [a, b, ← k5, hz]
        rfl

theorem all_iff {α : Type} (g : Grid) (s : List (List (Option α))) (hs : SizeM g s) :
    s.flatten.all Option.isSome = true ↔ ∀ r < g.ay.n, ∀ c < g.ax.n, out s r c ≠ none := by
  rw [List.all_eq_true]
  constructor
  · intro h r hr c hc
    have h1 : r < s.length := by rw [hs.rows]; exact hr
    have h3 : c < s[r].length := by rw [hs.cols _ (List.getElem_mem _)]; exact hc
    have := h (s[r][c]) (List.mem_flatten.2 ⟨s[r], List.getElem_mem _, List.getElem_mem _⟩)
    unfold out
    rw [List.getD_eq_getElem _ _ h1, List.getD_eq_getElem _ _ h3]
    intro e
    rw [e] at this
    simp at this
  · intro h v hv
    obtain ⟨row, hrow, hv⟩ := List.mem_flatten.1 hv
    obtain ⟨r, hr, rfl⟩ := List.mem_iff_getElem.1 hrow
    obtain ⟨c, hc, rfl⟩ := List.mem_iff_getElem.1 hv
    have := h r (by rw [← hs.rows]; exact hr) c (by rw [← hs.cols _ (List.getElem_mem hr)]; exact hc)
    unfold out at this
    rw [List.getD_eq_getElem _ _ hr, List.getD_eq_getElem _ _ hc] at this
    exact Option.isSome_iff_ne_none.2 this

/-- Every missing cell is used by some cell. -/
theorem missing_used (g : Grid) (arr : List (List (Option ℚ))) (hx : 2 ≤ g.ax.n) (r c : Nat) (hc : c < g.ax.n) (h : at_ arr r c = none) :
    ∃ c' < g.ax.n, BesideMissing g arr r c' := by
  rcases Nat.eq_zero_or_pos c with rfl | hp
  · exact ⟨0, hc, Or.inl h⟩
  · refine ⟨c - 1, by omega, Or.inr ?_⟩
    rw [show min (c - 1 + 1) (g.ax.n - 1) = c by omega]
    exact h

/-- C142: shades of a raster with missing cells: a shade is missing exactly if one of the four cells beside, above and below is (the cell itself
counts only at an edge). The others are the illumination of the surface (the light mirrored north to south, C114) clipped to 0 to 1, without the
stretch over the raster. -/
theorem hillshade_missing (az alt : ℝ) (g : Grid) (arr : List (List (Option ℚ))) (hx : 2 ≤ g.ax.n) (hy : 2 ≤ g.ay.n)
    (hm : ∃ r < g.ay.n, ∃ c < g.ax.n, at_ arr r c = none) :
    ∃ t, hillshadeM az alt g arr = .ok t ∧ SizeM g t ∧ ∀ r < g.ay.n, ∀ c < g.ax.n,
      (out t r c = none ↔ BesideMissing g arr r c ∨ AboveMissing g arr r c) ∧
      ∀ full fx fy, Fills g arr full → gradient g full = .ok (fx, fy) →
        out t r c = none ∨ out t r c = some (max 0 (min 1 (lambert (towards (180 - az) alt) (cell fx r c) (cell fy r c)))) := by
  obtain ⟨s, e, hs, h⟩ := intensities_missing az alt g arr hx hy
  have hn : ¬ s.flatten.all Option.isSome = true := by
    rw [all_iff g s hs]
    intro hall
    obtain ⟨r, hr, c, hc, hm⟩ := hm
    obtain ⟨c', hc', hb⟩ := missing_used g arr hx r c hc hm
    exact hall r hr c' hc' ((h r hr c' hc').1.2 (Or.inl hb))
  obtain ⟨m1, m2⟩ := out_map g s clip hs
  refine ⟨_, by unfold hillshadeM; rw [e]; simp only; unfold shadeM; rw [if_neg hn], m1, fun r hr c hc => ?_⟩
  rw [m2 r hr c hc]
  obtain ⟨h1, h2⟩ := h r hr c hc
  refine ⟨by rw [Option.map_eq_none_iff, h1], fun full fx fy hf hg => ?_⟩
  rcases h2 full fx fy hf hg with q | q
  · left; rw [q]; rfl
  · right; rw [q]; rfl

/-- C142: a raster without missing cells has the shades of C114. -/
theorem hillshade_complete (az alt : ℝ) (g : Grid) (arr : List (List ℚ)) (hs : Shape g arr) (hx : 2 ≤ g.ax.n) (hy : 2 ≤ g.ay.n) :
    ∃ t t', hillshade az alt g arr = .ok t ∧ hillshadeM az alt g (arr.map fun r => r.map some) = .ok t' ∧ t' = t.map fun r => r.map some := by
  obtain ⟨s', gx, gy, k1, k2, k3, k4⟩ := hillshade_mirrored az alt g arr hs hx hy
  obtain ⟨s, e, hs2, h⟩ := intensities_missing az alt g (arr.map fun r => r.map some) hx hy
  have hat : ∀ r < g.ay.n, ∀ c < g.ax.n, at_ (arr.map fun r => r.map some) r c = some (cell arr r c) := by
    intro r hr c hc
    have h1 : r < arr.length := by rw [hs.rows]; exact hr
    have h3 : c < arr[r].length := by rw [hs.cols _ (List.getElem_mem _)]; exact hc
    unfold at_ cell
    rw [List.getD_eq_getElem (l := arr.map _) _ (by rw [List.length_map]; exact h1), List.getElem_map,
      List.getD_eq_getElem (l := arr[r].map _) _ (by rw [List.length_map]; exact h3), List.getElem_map, List.getD_eq_getElem _ _ h1,
      List.getD_eq_getElem _ _ h3]
  have hf : Fills g (arr.map fun r => r.map some) arr := ⟨hs, fun r hr c hc => Or.inr (hat r hr c hc)⟩
  have hne : ∀ r < g.ay.n, ∀ c < g.ax.n, out s r c = some (val s' r c) := by
    intro r hr c hc
    obtain ⟨h1, h2⟩ := h r hr c hc
    rcases h2 arr gx gy hf k1 with q | q
    · exfalso
      have := h1.1 q
      unfold BesideMissing AboveMissing at this
      rw [hat r hr _ (by omega), hat r hr _ (by omega), hat _ (by omega) c hc, hat _ (by omega) c hc] at this
      simp at this
    · rw [q, k4 r hr c hc]
  have hall : s.flatten.all Option.isSome = true := (all_iff g s hs2).2 fun r hr c hc => by rw [hne r hr c hc]; simp
  have hss : (s.map fun r => r.map fun v => v.getD 0) = s' := by
    apply List.ext_getElem
    · rw [List.length_map, hs2.rows, k3.1]
    · intro r h1 h2
      rw [List.length_map, hs2.rows] at h1
      rw [List.getElem_map]
      have l1 : r < s.length := by rw [hs2.rows]; exact h1
      apply List.ext_getElem
      · rw [List.length_map, hs2.cols _ (List.getElem_mem _), k3.2 _ (List.getElem_mem _)]
      · intro c h3 h4
        rw [List.getElem_map]
        have hc : c < g.ax.n := by rw [← k3.2 _ (List.getElem_mem h2)]; exact h4
        have := hne r h1 c hc
        unfold out val at this
        rw [List.getD_eq_getElem _ _ l1, List.getD_eq_getElem _ _ (by rw [hs2.cols _ (List.getElem_mem _)]; exact hc), List.getD_eq_getElem _ _ h2,
          List.getD_eq_getElem _ _ h4] at this
        rw [this]
        rfl
  refine ⟨shade s', (shade s').map fun r => r.map some, by unfold hillshade; rw [k2], ?_, rfl⟩
  unfold hillshadeM
  rw [e]
  simp only
  unfold shadeM
  rw [if_pos hall, hss]

theorem hillshade_missing_raises (az alt : ℝ) (g : Grid) (arr : List (List (Option ℚ))) (h : g.ax.n < 2 ∨ g.ay.n < 2) :
    gradientM g arr = .error .valueError ∧ hillshadeM az alt g arr = .error .valueError := by
  refine ⟨by unfold gradientM; rw [if_pos h], ?_⟩
  unfold hillshadeM intensitiesM gradientM
  rw [if_pos h]

/-- The shade of a missing cell: a missing cell within the raster whose neighbours are not missing has a shade, and slopes, while the four cells
around it have none. -/
theorem hillshade_hole_violated (az alt : ℝ) (g : Grid) (arr : List (List (Option ℚ))) (r c : Nat) (hr : 0 < r) (hr' : r + 1 < g.ay.n) (hc : 0 < c)
    (hc' : c + 1 < g.ax.n) (hm : ∀ r' < g.ay.n, ∀ c' < g.ax.n, at_ arr r' c' = none ↔ r' = r ∧ c' = c) :
    ∃ t, hillshadeM az alt g arr = .ok t ∧ out t r c ≠ none ∧ out t (r - 1) c = none ∧ out t (r + 1) c = none ∧ out t r (c - 1) = none ∧
      out t r (c + 1) = none := by
  obtain ⟨t, e, -, h⟩ := hillshade_missing az alt g arr (by omega) (by omega) ⟨r, by omega, c, by omega, (hm r (by omega) c (by omega)).2 ⟨rfl, rfl⟩⟩
  have hself : at_ arr r c = none := (hm r (by omega) c (by omega)).2 ⟨rfl, rfl⟩
  refine ⟨t, e, ?_, ?_, ?_, ?_, ?_⟩
  · rw [ne_eq, (h r (by omega) c (by omega)).1]
    unfold BesideMissing AboveMissing
    rw [hm r (by omega) _ (by omega), hm r (by omega) _ (by omega), hm _ (by omega) c (by omega), hm _ (by omega) c (by omega)]
    omega
  · rw [(h (r - 1) (by omega) c (by omega)).1]
    right; right
    rw [show min (r - 1 + 1) (g.ay.n - 1) = r by omega]; exact hself
  · rw [(h (r + 1) (by omega) c (by omega)).1]
    right; left
    exact hself
  · rw [(h r (by omega) (c - 1) (by omega)).1]
    left; right
    rw [show min (c - 1 + 1) (g.ax.n - 1) = c by omega]; exact hself
  · rw [(h r (by omega) (c + 1) (by omega)).1]
    left; left
    exact hself

private theorem west_light (gx : ℚ) (h0 : 0 ≤ gx) : lambert (towards (180 - 270) 45) 0 0 ≤ lambert (towards (180 - 270) 45) gx 0 := by
  unfold lambert towards
  have e1 : Real.sin ((180 - 270) * Real.pi / 180) = -1 := by
    rw [show (180 - 270) * Real.pi / 180 = -(Real.pi / 2) by ring, Real.sin_neg, Real.sin_pi_div_two]
  have e2 : Real.cos (45 * Real.pi / 180) = Real.sin (45 * Real.pi / 180) := by
    rw [show 45 * Real.pi / 180 = Real.pi / 4 by ring, Real.sin_pi_div_four, Real.cos_pi_div_four]
  have hs : 0 ≤ Real.sin (45 * Real.pi / 180) := by
    rw [show 45 * Real.pi / 180 = Real.pi / 4 by ring, Real.sin_pi_div_four]; positivity
  rw [e1, e2]
  have hg : (0 : ℝ) ≤ gx := by exact_mod_cast h0
  have hq : Real.sqrt ((gx : ℝ) ^ 2 + ((0 : ℚ) : ℝ) ^ 2 + 1) ≤ gx + 1 := by
    rw [Real.sqrt_le_left (by linarith)]
    push_cast
    nlinarith
  have hp : 0 < Real.sqrt ((gx : ℝ) ^ 2 + ((0 : ℚ) : ℝ) ^ 2 + 1) := Real.sqrt_pos.2 (by positivity)
  rw [le_div_iff₀ hp]
  norm_num
  norm_num at hq
  nlinarith

/-- One missing cell changes the shades of all others: the flat part of a raster (light from the west, first slope facing it) is black, but is 0.7 with a
missing cell at the other end of the raster. -/
theorem hillshade_stretch_violated : let g : Grid := ⟨⟨0, 5, 5⟩, ⟨7, 0, 7⟩⟩
    let arr : List (List ℚ) := List.replicate 7 [0, 1, 2, 2, 2]
    let holed : List (List (Option ℚ)) := (List.replicate 6 [0, 1, 2, 2, 2]).map (fun r => r.map some) ++ [[none, some 1, some 2, some 2, some 2]]
    (∃ t, hillshade 270 45 g arr = .ok t ∧ val t 1 4 = 0) ∧
    ∃ t, hillshadeM 270 45 g holed = .ok t ∧ out t 1 4 = some (Real.sqrt 2 / 2) := by
  intro g arr holed
  have hs : Shape g arr := ⟨by decide, by decide⟩
  have hg : gradient g arr = .ok (List.replicate 7 [1, 1, 1 / 2, 0, 0], List.replicate 7 [0, 0, 0, 0, 0]) := by decide +kernel
  constructor
  · obtain ⟨t, gx, gy, h1, h2, -, r0, hr0, c0, hc0, r1, hr1, c1, hc1, h⟩ := hillshade_values 270 45 g arr hs (by decide) (by decide)
    rw [hg] at h1
    obtain ⟨rfl, rfl⟩ := Prod.mk.inj (Except.ok.inj h1)
    refine ⟨t, h2, ?_⟩
    have hb : ∀ r < 7, ∀ c < 5, 0 ≤ cell (List.replicate 7 [1, 1, 1 / 2, 0, 0]) r c ∧ cell (List.replicate 7 [0, 0, 0, 0, 0]) r c = 0 := by decide +kernel
    have hz : cell (List.replicate 7 [1, 1, 1 / 2, 0, 0]) 1 4 = 0 := by decide +kernel
    have ho : cell (List.replicate 7 [1, 1, 1 / 2, 0, 0]) 1 0 = 1 := by decide +kernel
    obtain ⟨a, b, e, -⟩ := h 1 (by decide) 4 (by decide)
    obtain ⟨a', b', -, -⟩ := h 1 (by decide) 0 (by decide)
    have p := west_light _ (hb r0 hr0 c0 hc0).1
    simp only at a b e a' b'
    rw [(hb 1 (by decide) 4 (by decide)).2, hz] at a b e
    rw [(hb r0 hr0 c0 hc0).2] at a e
    rw [(hb 1 (by decide) 0 (by decide)).2, ho] at b'
    have heq := le_antisymm p a
    have hsin : Real.sin (45 * Real.pi / 180) = Real.sqrt 2 / 2 := by
      rw [show 45 * Real.pi / 180 = Real.pi / 4 by ring, Real.sin_pi_div_four]
    have hcos : Real.cos (45 * Real.pi / 180) = Real.sqrt 2 / 2 := by
      rw [show 45 * Real.pi / 180 = Real.pi / 4 by ring, Real.cos_pi_div_four]
    have e1 : Real.sin ((180 - 270) * Real.pi / 180) = -1 := by
      rw [show (180 - 270) * Real.pi / 180 = -(Real.pi / 2) by ring, Real.sin_neg, Real.sin_pi_div_two]
    have v1 : lambert (towards (180 - 270) 45) 1 0 = 1 := by
      unfold lambert towards
      rw [e1, hsin, hcos]
      norm_num
    have v0 : lambert (towards (180 - 270) 45) 0 0 = Real.sqrt 2 / 2 := by
      unfold lambert towards
      rw [hsin]
      norm_num
    have hlt : Real.sqrt 2 < 1.5 := by
      rw [Real.sqrt_lt' (by norm_num)]; norm_num
    rw [e ?_, ← heq, sub_self, zero_div]
    rw [← heq, v0]
    rw [v1] at b'
    have : (1 : ℝ) / 1000000 < 1 - Real.sqrt 2 / 2 := by norm_num at hlt ⊢; linarith
    linarith
  · obtain ⟨t, h1, -, h⟩ := hillshade_missing 270 45 g holed (by decide) (by decide) ⟨6, by decide, 0, by decide, by decide +kernel⟩
    refine ⟨t, h1, ?_⟩
    obtain ⟨h2, h3⟩ := h 1 (by decide) 4 (by decide)
    have hf : Fills g holed arr := ⟨hs, by decide +kernel⟩
    have hn : out t 1 4 ≠ none := by
      rw [ne_eq, h2]
      unfold BesideMissing AboveMissing
      decide +kernel
    rw [((h3 arr _ _ hf hg).resolve_left hn)]
    have hz : cell (List.replicate 7 [1, 1, 1 / 2, 0, 0]) 1 4 = 0 := by decide +kernel
    have hz' : cell (List.replicate 7 [0, 0, 0, 0, 0]) 1 4 = 0 := by decide +kernel
    rw [hz, hz']
    have v0 : lambert (towards (180 - 270) 45) 0 0 = Real.sqrt 2 / 2 := by
      unfold lambert towards
      rw [show 45 * Real.pi / 180 = Real.pi / 4 by ring, Real.sin_pi_div_four]
      norm_num
    have hlt : Real.sqrt 2 ≤ 2 := by
      rw [Real.sqrt_le_left (by norm_num)]; norm_num
    rw [v0, min_eq_right (by linarith), max_eq_right (by positivity)]

end Glimpse.Hillshade
