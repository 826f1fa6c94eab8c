import Verif.Model.ProjectDem
import Verif.Props.Rasterize
import Verif.Props.GridTiles
import Verif.Lemmas.ExceptList
import Mathlib.Data.Rat.Floor
import Mathlib.Tactic.Linarith
import Mathlib.Tactic.NormNum

/-!
C93: `Camera.project_dem`.
-/
set_option autoImplicit false
set_option linter.unusedSimpArgs false
set_option linter.unusedSectionVars false

namespace Glimpse.Dem

/-! ### Specification -/

/-- Spec: the cell is drawn in the pixel of row `r` and column `c`: it is selected, has an elevation, and projects into
the half-open unit square `[c, c+1) × [r, r+1)`. -/
def InPixel (r c : Nat) (q : DemCell) : Prop :=
  q.selected = true ∧ q.elev ≠ none ∧
    ∃ u v, q.proj = some (u, v) ∧ (c : ℚ) ≤ u ∧ u < c + 1 ∧ (r : ℚ) ≤ v ∧ v < r + 1

/-- Spec: the values of the cells drawn in a pixel. -/
noncomputable def pixelCells (cells : List DemCell) (r c : Nat) : List ℚ :=
  open Classical in (cells.filter fun q => decide (InPixel r c q)).map (·.value)

/-- Spec: the cell is selected and projects on the right or lower border of the image. -/
def CellOnFarBorder (nx ny : Nat) (q : DemCell) : Prop :=
  q.selected = true ∧ q.elev ≠ none ∧
    ∃ u v, q.proj = some (u, v) ∧ 0 ≤ u ∧ u ≤ nx ∧ 0 ≤ v ∧ v ≤ ny ∧ (u = nx ∨ v = ny)

/-- Spec: all cells of the elevation model, row by row. -/
def allCells (g : Grid) (cell : Nat → Nat → DemCell) : List DemCell :=
  (List.range g.ay.n).flatMap fun r => (List.range g.ax.n).map fun c => cell r c

/-! ### Lemmas -/

private theorem dfloor_eq (u : ℚ) (n : ℤ) : u.floor = n ↔ (n : ℚ) ≤ u ∧ u < n + 1 := by
  rw [show u.floor = ⌊u⌋ from rfl]; exact Int.floor_eq_iff

private theorem uv_eq (q : DemCell) (u v : ℚ) : q.uv = some (u, v) ↔ q.elev ≠ none ∧ q.proj = some (u, v) := by
  unfold DemCell.uv
  cases q.elev <;> simp

private theorem mem_framePoints (nx ny : Nat) (cells : List DemCell) (p : RPoint) :
    p ∈ framePoints nx ny cells ↔ ∃ q ∈ cells, ∃ u v, q.uv = some (u, v) ∧ (0 ≤ u ∧ u ≤ nx ∧ 0 ≤ v ∧ v ≤ ny) ∧
      p = ⟨v.floor, u.floor, q.value⟩ := by
  unfold framePoints
  simp only [List.mem_filterMap]
  constructor
  · rintro ⟨q, hq, ht⟩
    cases ho : q.uv with
    | none => simp [ho] at ht
    | some uv =>
      obtain ⟨u, v⟩ := uv
      simp only [ho] at ht
      by_cases h : 0 ≤ u ∧ u ≤ nx ∧ 0 ≤ v ∧ v ≤ ny
      · rw [if_pos h] at ht
        exact ⟨q, hq, u, v, ho, h, (Option.some.inj ht).symm⟩
      · rw [if_neg h] at ht; cases ht
  · rintro ⟨q, hq, u, v, ho, h, rfl⟩
    exact ⟨q, hq, by simp [ho, h]⟩

private theorem inPixel_frame (nx ny r c : Nat) (hr : r < ny) (hc : c < nx) (q : DemCell) (u v : ℚ)
    (ho : q.uv = some (u, v)) (hs : q.selected = true) :
    InPixel r c q ↔ (0 ≤ u ∧ u ≤ nx ∧ 0 ≤ v ∧ v ≤ ny) ∧ v.floor = (r : ℤ) ∧ u.floor = (c : ℤ) := by
  have hr' : (r : ℚ) + 1 ≤ ny := by exact_mod_cast hr
  have hc' : (c : ℚ) + 1 ≤ nx := by exact_mod_cast hc
  have hc0 : (0 : ℚ) ≤ c := by positivity
  have hr0 : (0 : ℚ) ≤ r := by positivity
  obtain ⟨h1, h2⟩ := (uv_eq q u v).mp ho
  rw [dfloor_eq, dfloor_eq]
  push_cast
  constructor
  · rintro ⟨-, -, u', v', e, a1, a2, a3, a4⟩
    rw [h2] at e
    cases e
    exact ⟨⟨by linarith, by linarith, by linarith, by linarith⟩, ⟨a3, a4⟩, a1, a2⟩
  · rintro ⟨-, ⟨a3, a4⟩, a1, a2⟩
    exact ⟨hs, h1, u, v, h2, a1, a2, a3, a4⟩

private theorem values_frame (nx ny : Nat) (cells : List DemCell) (r c : Nat) (hr : r < ny) (hc : c < nx) :
    cellValues (framePoints nx ny (cells.filter (·.selected))) r c = pixelCells cells r c := by
  classical
  unfold cellValues pixelCells framePoints
  induction cells with
  | nil => rfl
  | cons q cells ih =>
    by_cases hs : q.selected = true
    · rw [List.filter_cons_of_pos (by simpa using hs)]
      cases ho : q.uv with
      | none =>
        have hn : ¬ InPixel r c q := by
          rintro ⟨-, h1, u, v, h2, -⟩
          have := (uv_eq q u v).mpr ⟨h1, h2⟩
          rw [ho] at this; cases this
        rw [List.filterMap_cons]
        simp only [ho]
        rw [List.filter_cons_of_neg (by simpa using hn)]
        exact ih
      | some uv =>
        obtain ⟨u, v⟩ := uv
        have hiff := inPixel_frame nx ny r c hr hc q u v ho hs
        rw [List.filterMap_cons]
        simp only [ho]
        by_cases h : 0 ≤ u ∧ u ≤ nx ∧ 0 ≤ v ∧ v ≤ ny
        · simp only [h, and_self, if_true]
          by_cases hin : v.floor = (r : ℤ) ∧ u.floor = (c : ℤ)
          · rw [List.filter_cons_of_pos (by simpa using hin), List.filter_cons_of_pos (by simpa using hiff.mpr ⟨h, hin⟩)]
            simp only [List.map_cons]
            exact congrArg _ ih
          · rw [List.filter_cons_of_neg (by simpa using hin),
              List.filter_cons_of_neg (by simpa using fun hh => hin (hiff.mp hh).2)]
            exact ih
        · simp only [h, if_false]
          rw [List.filter_cons_of_neg (by simpa using fun hh => h (hiff.mp hh).1)]
          exact ih
    · rw [List.filter_cons_of_neg (by simpa using hs), List.filter_cons_of_neg]
      · exact ih
      · simpa using fun hh : InPixel r c q => hs hh.1

private theorem inShape_frame (nx ny : Nat) (cells : List DemCell) (h : ∀ q ∈ cells, ¬ CellOnFarBorder nx ny q) :
    ∀ p ∈ framePoints nx ny (cells.filter (·.selected)), InShape ny nx p := by
  intro p hp
  obtain ⟨q, hq, u, v, hq1, ⟨h1, h2, h3, h4⟩, rfl⟩ := (mem_framePoints nx ny _ p).mp hp
  obtain ⟨hq, hs⟩ := List.mem_filter.mp hq
  obtain ⟨e1, e2⟩ := (uv_eq q u v).mp hq1
  have hb := h q hq
  have hu : u ≠ nx := fun he => hb ⟨hs, e1, u, v, e2, h1, h2, h3, h4, Or.inl he⟩
  have hv : v ≠ ny := fun he => hb ⟨hs, e1, u, v, e2, h1, h2, h3, h4, Or.inr he⟩
  have hu' := lt_of_le_of_ne h2 hu
  have hv' := lt_of_le_of_ne h4 hv
  refine ⟨Int.floor_nonneg.mpr h3, Int.floor_lt.mpr (by exact_mod_cast hv'), Int.floor_nonneg.mpr h1,
    Int.floor_lt.mpr (by exact_mod_cast hu')⟩

private theorem frame_nil_pixel (nx ny : Nat) (cells : List DemCell) (r c : Nat) (hr : r < ny) (hc : c < nx)
    (h : framePoints nx ny (cells.filter (·.selected)) = []) : pixelCells cells r c = [] := by
  rw [← values_frame nx ny cells r c hr hc, h]; rfl

private theorem noSel_frame (nx ny : Nat) (cells : List DemCell)
    (h : (cells.filter (·.selected)).all (·.elev.isNone) = true) :
    framePoints nx ny (cells.filter (·.selected)) = [] := by
  rw [List.eq_nil_iff_forall_not_mem]
  intro p hp
  obtain ⟨q, hq, u, v, hq1, -⟩ := (mem_framePoints nx ny _ p).mp hp
  have := List.all_eq_true.mp h q hq
  have h2 := ((uv_eq q u v).mp hq1).1
  simp at this
  exact h2 this

private theorem tile_frame (zoom : ℚ → List DemCell → List DemCell) (hv : Bool) (nx ny : Nat) (cells : List DemCell) :
    projectTile zoom hv nx ny 1 cells =
      if framePoints nx ny (cells.filter (·.selected)) = [] then .ok none
      else (rasterizePoints (framePoints nx ny (cells.filter (·.selected))) ny nx).map some := by
  unfold projectTile
  by_cases h1 : ¬ (cells.any (·.selected)) = true
  · rw [if_pos h1, if_pos]
    apply noSel_frame
    have : cells.filter (·.selected) = [] := by
      rw [List.filter_eq_nil_iff]
      intro q hq hs
      exact h1 (List.any_eq_true.mpr ⟨q, hq, hs⟩)
    rw [this]; rfl
  · rw [if_neg h1]
    by_cases h2 : (cells.filter (·.selected)).all (·.elev.isNone) = true
    · rw [if_pos h2, if_pos (noSel_frame nx ny cells h2)]
    · rw [if_neg h2, if_neg (by simp)]
      simp only [ne_eq, not_true_eq_false, if_false]

private theorem tile_write (zoom : ℚ → List DemCell → List DemCell) (hv : Bool) (nx ny : Nat) (cells : List DemCell)
    (h : ∀ q ∈ cells, ¬ CellOnFarBorder nx ny q) :
    ∃ res, projectTile zoom hv nx ny 1 cells = .ok res ∧
      ∀ a : List (Option ℚ), a.length = ny * nx → (reduceTile a res).length = ny * nx ∧
        ∀ r c, r < ny → c < nx → (reduceTile a res)[r * nx + c]? =
          if pixelCells cells r c = [] then a[r * nx + c]? else some (some (meanOf (pixelCells cells r c))) := by
  rw [tile_frame]
  by_cases hnil : framePoints nx ny (cells.filter (·.selected)) = []
  · rw [if_pos hnil]
    refine ⟨none, rfl, fun a ha => ⟨ha, fun r c hr hc => ?_⟩⟩
    rw [if_pos (frame_nil_pixel nx ny cells r c hr hc hnil)]
    rfl
  · rw [if_neg hnil]
    obtain ⟨uidx, means, hok, hlen, hpw, hz⟩ := rasterize_points_pairs _ ny nx (inShape_frame nx ny cells h)
    have hnd : uidx.Nodup := hpw.imp (fun h => Nat.ne_of_lt h)
    have hnd' : ((uidx.zip (means.map some)).map (·.1)).Nodup := by
      rw [List.map_fst_zip (by simp [hlen])]; exact hnd
    refine ⟨some (uidx, means), by rw [hok]; rfl, fun a ha => ?_⟩
    obtain ⟨hl, hset, hkeep⟩ := setFlat_get a (uidx.zip (means.map some)) hnd'
    refine ⟨by rw [← ha, ← hl]; rfl, fun r c hr hc => ?_⟩
    have hidx : r * nx + c < ny * nx := by
      calc r * nx + c < r * nx + nx := by omega
        _ = (r + 1) * nx := by ring
        _ ≤ ny * nx := Nat.mul_le_mul_right _ hr
    have hz := hz r c hr hc
    rw [values_frame nx ny cells r c hr hc] at hz
    by_cases he : pixelCells cells r c = []
    · rw [if_pos he]
      have hnot : r * nx + c ∉ uidx := by
        intro hmem
        obtain ⟨i, hi, hget⟩ := List.getElem_of_mem hmem
        have : (r * nx + c, means[i]'(by omega)) ∈ uidx.zip means := by
          rw [← hget, List.mem_iff_getElem]
          exact ⟨i, by simp; omega, by simp⟩
        exact ((hz _).mp this).1 he
      exact hkeep (r * nx + c) (by rw [List.map_fst_zip (by simp [hlen])]; exact hnot)
    · rw [if_neg he]
      have hm : (r * nx + c, meanOf (pixelCells cells r c)) ∈ uidx.zip means := (hz _).mpr ⟨he, rfl⟩
      have hm' : (r * nx + c, some (meanOf (pixelCells cells r c))) ∈ uidx.zip (means.map some) := by
        rw [List.zip_map_right]
        exact List.mem_map.mpr ⟨_, hm, rfl⟩
      exact hset _ _ hm' (by omega)

/-! ### Theorems -/

/-- Spec: the mean of the last tile that has a cell in the pixel, or NaN. -/
noncomputable def lastMean (tiles : List (List DemCell)) (r c : Nat) : Option ℚ :=
  match tiles with
  | [] => none
  | t :: ts =>
    match lastMean ts r c with
    | some m => some m
    | none => open Classical in if pixelCells t r c = [] then none else some (meanOf (pixelCells t r c))

/-- C93 (what the image is): when no selected cell projects on the right or lower border, the call succeeds, the image
has `ny * nx` pixels, and every pixel holds the mean of the cells which the *last* tile to arrive with any cell in the
pixel has there, and NaN when no tile has one. -/
theorem project_last_tile_wins (zoom : ℚ → List DemCell → List DemCell) (hv : Bool) (nx ny : Nat)
    (tiles : List (List DemCell)) (h : ∀ t ∈ tiles, ∀ q ∈ t, ¬ CellOnFarBorder nx ny q) :
    ∃ a, projectTiles zoom hv nx ny (tiles.map fun t => (1, t)) = .ok a ∧ a.length = ny * nx ∧
      ∀ r c, r < ny → c < nx → a[r * nx + c]? = some (lastMean tiles r c) := by
  choose! res hres hw using fun t ht => tile_write zoom hv nx ny t (h t ht)
  have hm : (tiles.map fun t => ((1 : ℚ), t)).mapM (fun t => projectTile zoom hv nx ny t.1 t.2) =
      .ok (tiles.map res) := by
    have := mapM_ok (fun t : ℚ × List DemCell => projectTile zoom hv nx ny t.1 t.2) (fun t => res t.2)
      (tiles.map fun t => ((1 : ℚ), t)) (by
        intro x hx
        obtain ⟨t, ht, rfl⟩ := List.mem_map.mp hx
        exact hres t ht)
    rw [this, List.map_map]; rfl
  unfold projectTiles
  simp only [hm, bind, Except.bind]
  have key : ∀ (ts : List (List DemCell)), (∀ t ∈ ts, t ∈ tiles) → ∀ a : List (Option ℚ), a.length = ny * nx →
      ((ts.map res).foldl reduceTile a).length = ny * nx ∧
      ∀ r c, r < ny → c < nx → ((ts.map res).foldl reduceTile a)[r * nx + c]? =
        match lastMean ts r c with | some m => some (some m) | none => a[r * nx + c]? := by
    intro ts
    induction ts with
    | nil => exact fun _ a ha => ⟨ha, fun r c _ _ => rfl⟩
    | cons t ts ih =>
      intro hmem a ha
      obtain ⟨hl, hp⟩ := hw t (hmem t List.mem_cons_self) a ha
      obtain ⟨hl2, hp2⟩ := ih (fun t ht => hmem t (List.mem_cons_of_mem _ ht)) _ hl
      simp only [List.map_cons, List.foldl_cons]
      refine ⟨hl2, fun r c hr hc => ?_⟩
      rw [hp2 r c hr hc, hp r c hr hc]
      cases hlm : lastMean ts r c with
      | some m => simp [lastMean, hlm]
      | none =>
        by_cases he : pixelCells t r c = [] <;> simp [lastMean, hlm, he]
  obtain ⟨hl, hp⟩ := key tiles (fun _ h => h) (List.replicate (ny * nx) none) (by simp)
  refine ⟨_, rfl, hl, fun r c hr hc => ?_⟩
  have hidx : r * nx + c < ny * nx := by
    calc r * nx + c < r * nx + nx := by omega
      _ = (r + 1) * nx := by ring
      _ ≤ ny * nx := Nat.mul_le_mul_right _ hr
  rw [hp r c hr hc]
  cases lastMean tiles r c with
  | some m => rfl
  | none => simp [List.getElem?_replicate, hidx]

private theorem lastMean_const (tiles : List (List DemCell)) (r c : Nat) (vals : List ℚ) (hne : vals ≠ [])
    (h : ∀ t ∈ tiles, pixelCells t r c = [] ∨ pixelCells t r c = vals)
    (hex : ∃ t ∈ tiles, pixelCells t r c = vals) : lastMean tiles r c = some (meanOf vals) := by
  induction tiles with
  | nil => obtain ⟨t, ht, -⟩ := hex; cases ht
  | cons t ts ih =>
    by_cases hts : ∃ t ∈ ts, pixelCells t r c = vals
    · have := ih (fun t ht => h t (List.mem_cons_of_mem _ ht)) hts
      simp [lastMean, this]
    · have hnone : lastMean ts r c = none := by
        have hall : ∀ t ∈ ts, pixelCells t r c = [] := by
          intro t' ht'
          rcases h t' (List.mem_cons_of_mem _ ht') with he | he
          · exact he
          · exact absurd ⟨t', ht', he⟩ hts
        clear ih hts h hex
        induction ts with
        | nil => rfl
        | cons s ss ih =>
          simp [lastMean, ih (fun t ht => hall t (List.mem_cons_of_mem _ ht)), hall s List.mem_cons_self]
      obtain ⟨t', ht', he⟩ := hex
      rcases List.mem_cons.mp ht' with rfl | ht'
      · simp [lastMean, hnone, he, hne]
      · exact absurd ⟨t', ht', he⟩ hts

private theorem lastMean_none (tiles : List (List DemCell)) (r c : Nat) (h : ∀ t ∈ tiles, pixelCells t r c = []) :
    lastMean tiles r c = none := by
  induction tiles with
  | nil => rfl
  | cons s ss ih => simp [lastMean, ih (fun t ht => h t (List.mem_cons_of_mem _ ht)), h s List.mem_cons_self]

private theorem filter_subgrid {β : Type} (L M : List Nat) (A B : Nat → Bool) (f : Nat → Nat → β) (p : β → Bool)
    (h : ∀ r ∈ L, ∀ c ∈ M, p (f r c) = true → A r = true ∧ B c = true) :
    ((L.filter A).flatMap fun r => (M.filter B).map (f r)).filter p =
      (L.flatMap fun r => M.map (f r)).filter p := by
  have hrow : ∀ r ∈ L, A r = true → ((M.filter B).map (f r)).filter p = (M.map (f r)).filter p := by
    intro r hr _
    have hM : ∀ M' : List Nat, (∀ c ∈ M', c ∈ M) → ((M'.filter B).map (f r)).filter p = (M'.map (f r)).filter p := by
      intro M' hM'
      induction M' with
      | nil => rfl
      | cons c M' ih =>
        have ih := ih (fun c hc => hM' c (List.mem_cons_of_mem _ hc))
        by_cases hB : B c = true
        · rw [List.filter_cons_of_pos hB, List.map_cons, List.map_cons]
          by_cases hp : p (f r c) = true
          · rw [List.filter_cons_of_pos hp, List.filter_cons_of_pos hp, ih]
          · rw [List.filter_cons_of_neg hp, List.filter_cons_of_neg hp, ih]
        · rw [List.filter_cons_of_neg hB, List.map_cons, List.filter_cons_of_neg, ih]
          exact fun hp => hB (h r hr c (hM' c List.mem_cons_self) hp).2
    exact hM M (fun _ h => h)
  have hL : ∀ L' : List Nat, (∀ r ∈ L', r ∈ L) → ((L'.filter A).flatMap fun r => (M.filter B).map (f r)).filter p =
      (L'.flatMap fun r => M.map (f r)).filter p := by
    intro L' hL'
    induction L' with
    | nil => rfl
    | cons r L' ih =>
      have ih := ih (fun c hc => hL' c (List.mem_cons_of_mem _ hc))
      have hr := hL' r List.mem_cons_self
      by_cases hA : A r = true
      · rw [List.filter_cons_of_pos hA, List.flatMap_cons, List.flatMap_cons, List.filter_append, List.filter_append,
          ih, hrow r hr hA]
      · rw [List.filter_cons_of_neg hA, List.flatMap_cons, List.filter_append, ih]
        have : (M.map (f r)).filter p = [] := by
          rw [List.filter_eq_nil_iff]
          intro x hx hp
          obtain ⟨c, hc, rfl⟩ := List.mem_map.mp hx
          exact hA (h r hr c hc hp).1
        rw [this]; rfl
  exact hL L (fun _ h => h)

private theorem mem_tileCells (g : Grid) (cell : Nat → Nat → DemCell) (t : (Int × Int) × (Int × Int)) (q : DemCell) :
    q ∈ tileCells g cell t ↔ ∃ row col, row < g.ay.n ∧ col < g.ax.n ∧ g.tileHas t row col = true ∧ q = cell row col := by
  unfold tileCells Grid.tileHas
  simp only [List.mem_flatMap, List.mem_map, Bool.and_eq_true, decide_eq_true_eq]
  constructor
  · rintro ⟨r, hr, c, hc, rfl⟩
    refine ⟨r, c, ?_, ?_, ⟨hr, hc⟩, rfl⟩
    · unfold sliceCells at hr; exact List.mem_range.mp (List.mem_filter.mp hr).1
    · unfold sliceCells at hc; exact List.mem_range.mp (List.mem_filter.mp hc).1
  · rintro ⟨r, c, -, -, ⟨hr, hc⟩, rfl⟩
    exact ⟨r, hr, c, hc, rfl⟩

private theorem pixel_tile_all (g : Grid) (cell : Nat → Nat → DemCell) (t : (Int × Int) × (Int × Int)) (r c : Nat)
    (h : ∀ row col, row < g.ay.n → col < g.ax.n → InPixel r c (cell row col) → g.tileHas t row col = true) :
    pixelCells (tileCells g cell t) r c = pixelCells (allCells g cell) r c := by
  classical
  unfold pixelCells tileCells allCells
  congr 1
  have e1 : sliceCells g.ay.n t.1 = (List.range g.ay.n).filter fun i => decide (i ∈ sliceCells g.ay.n t.1) := by
    unfold sliceCells
    apply List.filter_congr
    intro x hx
    rw [Bool.eq_iff_iff]
    simp only [decide_eq_true_eq, List.mem_filter, hx, true_and]
  have e2 : sliceCells g.ax.n t.2 = (List.range g.ax.n).filter fun i => decide (i ∈ sliceCells g.ax.n t.2) := by
    unfold sliceCells
    apply List.filter_congr
    intro x hx
    rw [Bool.eq_iff_iff]
    simp only [decide_eq_true_eq, List.mem_filter, hx, true_and]
  rw [e1, e2]
  apply filter_subgrid
  intro row hrow col hcol hp
  have := h row col (List.mem_range.mp hrow) (List.mem_range.mp hcol) (by simpa using hp)
  unfold Grid.tileHas at this
  simpa [Bool.and_eq_true] using this

private theorem pixel_nil (cells : List DemCell) (r c : Nat) :
    pixelCells cells r c = [] ↔ ∀ q ∈ cells, ¬ InPixel r c q := by
  classical
  unfold pixelCells
  rw [List.map_eq_nil_iff, List.filter_eq_nil_iff]
  simp

private theorem mem_allCells (g : Grid) (cell : Nat → Nat → DemCell) (q : DemCell) :
    q ∈ allCells g cell ↔ ∃ row col, row < g.ay.n ∧ col < g.ax.n ∧ q = cell row col := by
  unfold allCells
  simp only [List.mem_flatMap, List.mem_map, List.mem_range]
  constructor
  · rintro ⟨r, hr, c, hc, rfl⟩; exact ⟨r, c, hr, hc, rfl⟩
  · rintro ⟨r, c, hr, hc, rfl⟩; exact ⟨r, hr, c, hc, rfl⟩

/-- The tiles cover the grid for an overlap of at most one cell (the default). -/
private theorem tiles_cover (g : Grid) (size : ℚ × ℚ) (h1 : 0 < size.1) (h2 : 0 < size.2) (o : Nat × Nat)
    (ho : o.1 ≤ 1 ∧ o.2 ≤ 1) (row col : Nat) (hr : row < g.ay.n) (hc : col < g.ax.n) :
    ∃ t ∈ g.tileIndices size (o.1, o.2), g.tileHas t row col = true := by
  have hpos : ∀ (n : Nat) (s : ℚ), 0 < n → 0 < s → ∀ (o : Nat), o ≤ 1 → ∀ t ∈ tileSlices n s 0,
      (o : Int) ≤ t.2 ∨ t.2 = n := by
    intro n s hn hs o ho t ht
    obtain ⟨-, hk⟩ := tiles_overlap n hn s hs 0 (by
      intro t ht
      obtain ⟨k, hk⟩ := List.mem_iff_getElem?.mp ht
      left
      -- all ends are nonnegative
      unfold tileSlices tileEnds at ht
      have := (List.of_mem_zip (a := t.1) (b := t.2) ht).2
      simp only [List.drop_succ_cons, List.drop_zero, List.mem_map] at this
      obtain ⟨x, -, hx⟩ := this
      rw [← hx]; exact Int.natCast_nonneg _)
    obtain ⟨k, hkt⟩ := List.mem_iff_getElem?.mp ht
    obtain ⟨-, -, -, e4, e5, -⟩ := hk k t t hkt (by simpa using hkt)
    left; omega
  obtain ⟨s, hs, hrs⟩ := tiles_overlap_cover g.ay.n size.2 h2 o.2 (hpos _ _ (by omega) h2 _ ho.2) row hr
  obtain ⟨t, ht, hct⟩ := tiles_overlap_cover g.ax.n size.1 h1 o.1 (hpos _ _ (by omega) h1 _ ho.1) col hc
  refine ⟨(s, t), ?_, by unfold Grid.tileHas; simp [hrs, hct]⟩
  unfold Grid.tileIndices
  exact List.mem_flatMap.mpr ⟨s, hs, List.mem_map.mpr ⟨t, ht, rfl⟩⟩

/-- C93 (partial): for any tile size, an overlap of at most one cell (the default) and the default scale, in one process
or with the tiles arriving in any order: when no selected cell projects on the right or lower border, the call succeeds,
and every pixel whose cells are not divided between tiles (each tile has all of them or none) holds the mean of the
values of all cells drawn in it, or NaN when there are none. Missing: pixels with cells from several tiles, see
`project_seam_violated`. -/
theorem project_dem_partial (g : Grid) (cell : Nat → Nat → DemCell) (nx ny : Nat) (size : ℚ × ℚ) (h1 : 0 < size.1)
    (h2 : 0 < size.2) (o : Nat × Nat) (ho : o.1 ≤ 1 ∧ o.2 ≤ 1) (hv : Bool) (zoom : ℚ → List DemCell → List DemCell)
    (hb : ∀ row col, row < g.ay.n → col < g.ax.n → ¬ CellOnFarBorder nx ny (cell row col))
    (arrival : List ((Int × Int) × (Int × Int))) (hperm : arrival.Perm (g.tileIndices size (o.1, o.2))) :
    ∃ a, projectTiles zoom hv nx ny (arrival.map fun t => (1, tileCells g cell t)) = .ok a ∧ a.length = ny * nx ∧
      ∀ r c, r < ny → c < nx →
        (∀ t ∈ g.tileIndices size (o.1, o.2),
          (∀ row col, row < g.ay.n → col < g.ax.n → InPixel r c (cell row col) → g.tileHas t row col = true) ∨
          (∀ row col, row < g.ay.n → col < g.ax.n → InPixel r c (cell row col) → g.tileHas t row col = false)) →
        a[r * nx + c]? = some (if pixelCells (allCells g cell) r c = [] then none
          else some (meanOf (pixelCells (allCells g cell) r c))) := by
  obtain ⟨a, ha, hl, hp⟩ := project_last_tile_wins zoom hv nx ny (arrival.map (tileCells g cell)) (by
    intro t ht q hq
    obtain ⟨t, -, rfl⟩ := List.mem_map.mp ht
    obtain ⟨row, col, hr, hc, -, rfl⟩ := (mem_tileCells g cell t q).mp hq
    exact hb row col hr hc)
  rw [List.map_map] at ha
  refine ⟨a, ha, hl, fun r c hr hc hall => ?_⟩
  rw [hp r c hr hc]
  congr 1
  have hcases : ∀ t ∈ arrival.map (tileCells g cell),
      pixelCells t r c = [] ∨ pixelCells t r c = pixelCells (allCells g cell) r c := by
    intro t ht
    obtain ⟨t, ht', rfl⟩ := List.mem_map.mp ht
    rcases hall t (hperm.mem_iff.mp ht') with h | h
    · right; exact pixel_tile_all g cell t r c h
    · left
      rw [pixel_nil]
      intro q hq hin
      obtain ⟨row, col, hr', hc', hhas, rfl⟩ := (mem_tileCells g cell t q).mp hq
      rw [h row col hr' hc' hin] at hhas; cases hhas
  by_cases he : pixelCells (allCells g cell) r c = []
  · rw [if_pos he]
    apply lastMean_none
    intro t ht
    rcases hcases t ht with h | h
    · exact h
    · rw [h, he]
  · rw [if_neg he]
    apply lastMean_const _ _ _ _ he hcases
    have : ∃ q ∈ allCells g cell, InPixel r c q := by
      by_contra hn
      exact he ((pixel_nil _ r c).mpr fun q hq hin => hn ⟨q, hq, hin⟩)
    obtain ⟨q, hq, hin⟩ := this
    obtain ⟨row, col, hr', hc', rfl⟩ := (mem_allCells g cell q).mp hq
    obtain ⟨t, ht, hhas⟩ := tiles_cover g size h1 h2 o ho row col hr' hc'
    refine ⟨_, List.mem_map.mpr ⟨t, hperm.mem_iff.mpr ht, rfl⟩, ?_⟩
    rcases hall t ht with h | h
    · exact pixel_tile_all g cell t r c h
    · rw [h row col hr' hc' hin] at hhas; cases hhas

/-- In one process `project_dem` is the case in which tiles arrive in the order of `tile_indices`. -/
theorem project_dem_serial (g : Grid) (cell : Nat → Nat → DemCell) (nx ny : Nat) (size : ℚ × ℚ) (o : Int × Int)
    (hv : Bool) : projectDem g cell nx ny size o hv =
      projectTiles (fun _ l => l) hv nx ny ((g.tileIndices size o).map fun t => (1, tileCells g cell t)) := rfl

/-- C93 (violated, border): the call raises exactly when some selected cell is in (or on) the frame, by `inframe`, and
on its right or lower border (default scale). -/
theorem project_raises_iff (zoom : ℚ → List DemCell → List DemCell) (hv : Bool) (nx ny : Nat)
    (tiles : List (List DemCell)) :
    Raises (projectTiles zoom hv nx ny (tiles.map fun t => (1, t))) ↔
      ∃ t ∈ tiles, ∃ q ∈ t, CellOnFarBorder nx ny q := by
  constructor
  · rintro ⟨e, he⟩
    by_contra hn
    obtain ⟨a, ha, -⟩ := project_last_tile_wins zoom hv nx ny tiles
      (fun t ht q hq hb => hn ⟨t, ht, q, hq, hb⟩)
    rw [ha] at he; cases he
  · rintro ⟨t, ht, q, hq, hs, he, u, v, hp, h1, h2, h3, h4, hb⟩
    have huv := (uv_eq q u v).mpr ⟨he, hp⟩
    have hmem : (⟨v.floor, u.floor, q.value⟩ : RPoint) ∈ framePoints nx ny (t.filter (·.selected)) :=
      (mem_framePoints nx ny _ _).mpr ⟨q, List.mem_filter.mpr ⟨hq, hs⟩, u, v, huv, ⟨h1, h2, h3, h4⟩, rfl⟩
    have hout : ¬ InShape ny nx (⟨v.floor, u.floor, q.value⟩ : RPoint) := by
      rintro ⟨_, a2, _, a4⟩
      rcases hb with hb | hb
      · have : u.floor = (nx : ℤ) := by rw [hb]; exact_mod_cast Int.floor_natCast (R := ℚ) nx
        simp only [this] at a4; omega
      · have : v.floor = (ny : ℤ) := by rw [hb]; exact_mod_cast Int.floor_natCast (R := ℚ) ny
        simp only [this] at a2; omega
    obtain ⟨e, he⟩ := (rasterize_raises_iff (framePoints nx ny (t.filter (·.selected))) ny nx
      (List.replicate (ny * nx) 0)).mpr ⟨_, hmem, hout⟩
    have htile : ∃ e, projectTile zoom hv nx ny 1 t = .error e := by
      rw [tile_frame, if_neg (List.ne_nil_of_mem hmem)]
      unfold rasterizeInto at he
      cases hr : rasterizePoints (framePoints nx ny (t.filter (·.selected))) ny nx with
      | error e' => exact ⟨e', rfl⟩
      | ok um => rw [hr] at he; simp [bind, Except.bind, pure, Except.pure] at he
    obtain ⟨e', he'⟩ := mapM_error_of_mem (fun t : ℚ × List DemCell => projectTile zoom hv nx ny t.1 t.2)
      (tiles.map fun t => ((1 : ℚ), t)) (1, t) (List.mem_map.mpr ⟨t, ht, rfl⟩) htile
    refine ⟨e', ?_⟩
    unfold projectTiles
    simp only [he', bind, Except.bind]

/-- C93 (tile scale): with the default `scale_limits` of (1, 1) every tile has scale 1, whatever the requested `scale`,
the cell size, the depth and the focal length. In general the scale lies between the smallest and the largest limit. -/
theorem tile_scale_limits (scale cell depth f : ℚ) (limits : ℚ × ℚ) :
    min limits.1 limits.2 ≤ tileScale scale cell depth f limits ∧
    tileScale scale cell depth f limits ≤ max limits.1 limits.2 ∧
    tileScale scale cell depth f (1, 1) = 1 := by
  refine ⟨?_, min_le_right _ _, ?_⟩
  · unfold tileScale
    exact le_min (le_max_right _ _) (le_trans (min_le_left _ _) (le_max_left _ _))
  · unfold tileScale
    simp

/-- C93 (tile scale, within limits): a requested scale within the limits is used unchanged. -/
theorem tile_scale_exact (scale cell depth f : ℚ) (limits : ℚ × ℚ)
    (h1 : min limits.1 limits.2 ≤ scale * cell / (depth / f)) (h2 : scale * cell / (depth / f) ≤ max limits.1 limits.2) :
    tileScale scale cell depth f limits = scale * cell * f / depth := by
  unfold tileScale
  rw [max_eq_left h1, min_eq_left h2, div_div_eq_mul_div]

/-- C93 (violated, depth only): without `values`, a tile with an elevation whose scale is not 1 raises
UnboundLocalError, although a depth map was requested and `values` may be missing. -/
theorem project_depth_scaled_violated (zoom : ℚ → List DemCell → List DemCell) (nx ny : Nat) (ts : ℚ) (hts : ts ≠ 1)
    (cells : List DemCell) (hsel : ∃ q ∈ cells, q.selected = true ∧ q.elev ≠ none) :
    projectTile zoom false nx ny ts cells = .error .unboundLocal := by
  obtain ⟨q, hq, hs, he⟩ := hsel
  unfold projectTile
  rw [if_neg (by simpa using ⟨q, hq, hs⟩), if_neg, if_pos ⟨hts, by simp⟩]
  simp only [List.all_eq_true, not_forall]
  exact ⟨q, List.mem_filter.mpr ⟨hq, hs⟩, by cases h : q.elev with
    | none => exact absurd h he
    | some e => simp⟩

/-- C93 (arguments): the checks pass exactly when `values` has the shape of the raster, or is missing and a depth map is
requested, and the mask, if given, has the shape of the raster; otherwise ValueError. -/
theorem project_args (dem : Nat × Nat) (values mask : Option (Nat × Nat)) (returnDepth : Bool) :
    (projectArgs dem values mask returnDepth = .ok () ↔
      (values = some dem ∨ values = none ∧ returnDepth = true) ∧ (mask = some dem ∨ mask = none)) ∧
    (projectArgs dem values mask returnDepth = .ok () ∨ projectArgs dem values mask returnDepth = .error .valueError) := by
  unfold projectArgs
  cases values with
  | none =>
    cases returnDepth
    · simp [throw, throwThe, MonadExceptOf.throw, bind, Except.bind]
    · cases mask with
      | none => simp [bind, Except.bind, pure, Except.pure]
      | some m =>
        by_cases hm : m = dem <;>
          simp [hm, throw, throwThe, MonadExceptOf.throw, bind, Except.bind, pure, Except.pure]
  | some s =>
    by_cases hs : s = dem
    · cases mask with
      | none => simp [hs, bind, Except.bind, pure, Except.pure]
      | some m =>
        by_cases hm : m = dem <;>
          simp [hs, hm, throw, throwThe, MonadExceptOf.throw, bind, Except.bind, pure, Except.pure]
    · simp [hs, throw, throwThe, MonadExceptOf.throw, bind, Except.bind]

/-- C93 (default mask): without a mask, a cell is drawn in a pixel iff it has an elevation and projects there. -/
theorem default_mask_draws (r c : Nat) (q : DemCell) :
    InPixel r c (defaultMask q) ↔ q.elev ≠ none ∧
      ∃ u v, q.proj = some (u, v) ∧ (c : ℚ) ≤ u ∧ u < c + 1 ∧ (r : ℚ) ≤ v ∧ v < r + 1 := by
  unfold InPixel defaultMask
  simp only [Option.isSome_iff_ne_none]
  tauto

/-! ### Counterexamples and non-vacuity -/

private def strip (n : Nat) : Grid := ⟨⟨0, n, n⟩, ⟨1, 0, 1⟩⟩

/-- Four cells in a row, two to a pixel, with values 1, 2, 3, 4; the camera sees cell `i` at `u = (2 i + 1) / 4`. -/
private def row4 (_ c : Nat) : DemCell := ⟨true, some 0, some ((2 * c + 1) / 4, 1 / 2), c + 1⟩

/-- Six cells in a row in one pixel. -/
private def row6 (_ c : Nat) : DemCell := ⟨true, some 0, some ((2 * c + 1) / 12, 1 / 2), c + 1⟩

/-- Non-vacuity of `project_dem_partial`: with the whole raster in one tile, or tiles ending on pixel borders, the
image is the means. -/
example : projectDem (strip 4) row4 2 1 (256, 256) (1, 1) true = .ok [some (3/2), some (7/2)] := by decide +kernel
example : projectDem (strip 4) row4 2 1 (2, 1) (0, 0) true = .ok [some (3/2), some (7/2)] := by decide +kernel

/-- C93 (violated, seams): with tiles that divide the cells of a pixel, the tile that arrives last overwrites the
others: six cells with mean 7/2 in one pixel give 5 in one process with tiles of three cells; the result depends on the
tile size and, in parallel, on which tile arrives last. -/
theorem project_seam_violated :
    (pixelCells (allCells (strip 6) row6) 0 0 = [1, 2, 3, 4, 5, 6]) ∧
    projectDem (strip 6) row6 1 1 (6, 1) (0, 0) true = .ok [some (7/2)] ∧
    projectDem (strip 6) row6 1 1 (3, 1) (0, 0) true = .ok [some 5] ∧
    ∃ arrival : List ((Int × Int) × (Int × Int)), arrival.Perm ((strip 6).tileIndices (3, 1) (0, 0)) ∧
      projectTiles (fun _ l => l) true 1 1 (arrival.map fun t => (1, tileCells (strip 6) row6 t)) = .ok [some 2] := by
  refine ⟨?_, by decide +kernel, by decide +kernel, ((strip 6).tileIndices (3, 1) (0, 0)).reverse,
    List.reverse_perm _, by decide +kernel⟩
  classical
  unfold pixelCells
  rw [List.filter_eq_self.mpr]
  · decide +kernel
  · intro q hq
    obtain ⟨row, col, hr, hc, rfl⟩ := (mem_allCells _ _ q).mp hq
    have hc' : col < 6 := hc
    rw [decide_eq_true_eq]
    refine ⟨rfl, by simp [row6], (2 * (col : ℚ) + 1) / 12, 1 / 2, rfl, ?_, ?_, ?_, ?_⟩
    · push_cast; positivity
    · have : (col : ℚ) ≤ 5 := by exact_mod_cast Nat.lt_succ_iff.mp hc'
      push_cast; linarith
    · norm_num
    · norm_num

/-- With the default overlap of one cell, cells are drawn in both tiles as well: same effect. -/
example : projectDem (strip 6) row6 1 1 (3, 1) (1, 1) true = .ok [some (9/2)] := by decide +kernel
/-- A cell on the lower border of the image. -/
example : projectDem (strip 1) (fun _ _ => ⟨true, some 0, some (1/2, 1), 3⟩) 1 1 (1, 1) (0, 0) true = .error .valueError := by
  decide +kernel
/-- A masked cell, a NaN cell, and a cell behind the camera are not drawn. -/
example : projectDem (strip 3) (fun _ c => if c = 0 then ⟨false, some 0, some (1/2, 1/2), 3⟩
    else if c = 1 then ⟨true, none, some (1/2, 1/2), 3⟩ else ⟨true, some 1, none, 3⟩) 1 1 (3, 1) (0, 0) true =
    .ok [none] := by decide +kernel
example : projectTile (fun _ l => l) false 1 1 2 [⟨true, some 0, some (1/2, 1/2), 3⟩] = .error .unboundLocal := by
  decide +kernel
example : tileScale 1 2 8 2 (1/4, 1) = 1/2 := by decide +kernel

end Glimpse.Dem
