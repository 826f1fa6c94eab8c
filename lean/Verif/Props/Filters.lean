import Verif.Model.Filters
import Verif.Model.Grid
import Mathlib.Tactic.Linarith
import Mathlib.Tactic.NormNum
import Mathlib.Tactic.FieldSimp
import Mathlib.Tactic.Positivity

/-!
C94: normalized tiles. C95: filters with masks.
-/
set_option autoImplicit false
set_option linter.unusedSimpArgs false
set_option linter.unusedSectionVars false

namespace Glimpse.Filt

/-! ### C94: normalization -/

private theorem sum_sub_const (a : List ℝ) (m : ℝ) : (a.map fun x => x - m).sum = a.sum - a.length * m := by
  induction a with
  | nil => simp
  | cons x a ih => simp only [List.map_cons, List.sum_cons, List.length_cons, ih]; push_cast; ring

private theorem sum_mul_const (a : List ℝ) (f : ℝ → ℝ) (k : ℝ) : (a.map fun x => f x * k).sum = (a.map f).sum * k := by
  induction a with
  | nil => simp
  | cons x a ih => simp only [List.map_cons, List.sum_cons, ih]; ring

private theorem std_ne_nil (a : List ℝ) (h : rstd a ≠ 0) : a ≠ [] := by
  rintro rfl; simp [rstd] at h

/-- C94: the normalized array has as many elements, mean 0 and standard deviation 1, whenever the array is not
constant. -/
theorem normalize_mean_std (a : List ℝ) (h : ∃ x ∈ a, ∃ y ∈ a, x ≠ y) :
    ∃ b, normalizeArr a = some b ∧ b.length = a.length ∧ rmean b = 0 ∧ rstd b = 1 ∧
      ∀ (i : Nat) (x y : ℝ), a[i]? = some x → b[i]? = some y → y * rstd a = x - rmean a := by
  have hsum : 0 ≤ (a.map fun x => (x - rmean a) ^ 2).sum := List.sum_nonneg (by
    intro x hx; obtain ⟨y, _, rfl⟩ := List.mem_map.mp hx; positivity)
  have hstd : rstd a ≠ 0 := by
    intro h0
    obtain ⟨x, hx, y, hy, hxy⟩ := h
    have hne : a ≠ [] := List.ne_nil_of_mem hx
    have hl : (0 : ℝ) < a.length := by exact_mod_cast List.length_pos_iff.mpr hne
    unfold rstd at h0
    rw [Real.sqrt_eq_zero (by positivity)] at h0
    have hz : (a.map fun x => (x - rmean a) ^ 2).sum = 0 := by
      rcases div_eq_zero_iff.mp h0 with h | h
      · exact h
      · exact absurd h hl.ne'
    have hall : ∀ z ∈ a, z = rmean a := by
      intro z hz'
      have := List.all_zero_of_le_zero_le_of_sum_eq_zero (l := a.map fun x => (x - rmean a) ^ 2) (by
        intro x hx; obtain ⟨y, _, rfl⟩ := List.mem_map.mp hx; positivity) hz
        (List.mem_map.mpr ⟨z, hz', rfl⟩)
      have := pow_eq_zero_iff (two_ne_zero) |>.mp this
      linarith
    exact hxy ((hall x hx).trans (hall y hy).symm)
  have hne : a ≠ [] := std_ne_nil a hstd
  have hl : (0 : ℝ) < a.length := by exact_mod_cast List.length_pos_iff.mpr hne
  have hmean : rmean (a.map fun x => (x - rmean a) * (1 / rstd a)) = 0 := by
    unfold rmean
    rw [sum_mul_const a (fun x => x - a.sum / a.length) _, sum_sub_const, mul_div_cancel₀ _ hl.ne']
    simp
  refine ⟨_, by unfold normalizeArr; rw [if_neg hstd], by simp, hmean, ?_, ?_⟩
  · rw [show rstd (a.map fun x => (x - rmean a) * (1 / rstd a)) = Real.sqrt (((a.map fun x => (x - rmean a) * (1 / rstd a)).map
      fun x => (x - rmean (a.map fun x => (x - rmean a) * (1 / rstd a))) ^ 2).sum /
        (a.map fun x => (x - rmean a) * (1 / rstd a)).length) from rfl]
    rw [hmean, List.map_map, List.length_map]
    have e : ((fun x => (x - 0) ^ 2) ∘ fun x => (x - rmean a) * (1 / rstd a)) =
        fun x => (x - rmean a) ^ 2 * (1 / rstd a) ^ 2 := by
      funext x; simp only [Function.comp]; ring
    rw [e, sum_mul_const a (fun x => (x - rmean a) ^ 2)]
    have hsq : (a.map fun x => (x - rmean a) ^ 2).sum / a.length = rstd a ^ 2 := by
      unfold rstd; rw [Real.sq_sqrt]; positivity
    rw [mul_div_right_comm, hsq, ← mul_pow, mul_one_div_cancel hstd]
    simp
  · intro i x y hx hy
    rw [List.getElem?_map, hx] at hy
    simp only [Option.map_some, Option.some.injEq] at hy
    rw [← hy]
    field_simp

private theorem mean_affine (a : List ℝ) (hne : a ≠ []) (k m : ℝ) : rmean (a.map fun x => k * x + m) = k * rmean a + m := by
  have hl : (0 : ℝ) < a.length := by exact_mod_cast List.length_pos_iff.mpr hne
  have : (a.map fun x => k * x + m).sum = k * a.sum + a.length * m := by
    clear hne hl
    induction a with
    | nil => simp
    | cons x a ih => simp only [List.map_cons, List.sum_cons, List.length_cons, ih]; push_cast; ring
  unfold rmean
  rw [this, List.length_map, add_div, mul_div_assoc, mul_div_cancel_left₀ _ hl.ne']

private theorem std_affine (a : List ℝ) (hne : a ≠ []) (k m : ℝ) : rstd (a.map fun x => k * x + m) = |k| * rstd a := by
  unfold rstd
  rw [mean_affine a hne, List.map_map, List.length_map]
  have e : ((fun x => (x - (k * rmean a + m)) ^ 2) ∘ fun x => k * x + m) = fun x => (x - rmean a) ^ 2 * k ^ 2 := by
    funext x; simp only [Function.comp]; ring
  rw [e, sum_mul_const a (fun x => (x - rmean a) ^ 2), mul_comm, mul_div_assoc, Real.sqrt_mul (sq_nonneg k),
    Real.sqrt_sq_eq_abs]

/-- C94: normalization removes brightness and contrast: for a positive factor the result is the same, for a negative
one (a negative of the image) it is the opposite. -/
theorem normalize_affine (a : List ℝ) (k m : ℝ) (hk : k ≠ 0) :
    normalizeArr (a.map fun x => k * x + m) = (normalizeArr a).map fun b => b.map fun x => (if 0 < k then 1 else -1) * x := by
  by_cases hne : a = []
  · subst hne; simp [normalizeArr, rstd]
  · unfold normalizeArr
    rw [std_affine a hne, mean_affine a hne]
    by_cases hs : rstd a = 0
    · simp [hs]
    · rw [if_neg hs, if_neg (by simp [hs, hk]), Option.map_some, List.map_map, List.map_map]
      congr 1
      apply List.map_congr_left
      intro x _
      simp only [Function.comp]
      by_cases hp : 0 < k
      · rw [abs_of_pos hp, if_pos hp]; field_simp; ring
      · rw [abs_of_neg (lt_of_le_of_ne (not_lt.mp hp) hk), if_neg hp]; field_simp; ring

/-- C94 (violated): an array of equal values gives NaN (division by zero), not an array of mean 0. -/
theorem normalize_constant_violated (a : List ℝ) (c : ℝ) (h : ∀ x ∈ a, x = c) : normalizeArr a = none := by
  unfold normalizeArr
  rw [if_pos]
  by_cases hne : a = []
  · subst hne; simp [rstd]
  · have ha : a = List.replicate a.length c := List.eq_replicate_iff.mpr ⟨rfl, h⟩
    have hl : (0 : ℝ) < a.length := by exact_mod_cast List.length_pos_iff.mpr hne
    have hm : rmean a = c := by
      unfold rmean
      rw [show a.sum = a.length * c from by conv_lhs => rw [ha]; simp [List.sum_replicate]]
      exact mul_div_cancel_left₀ _ hl.ne'
    unfold rstd
    rw [hm]
    have : (a.map fun x => (x - c) ^ 2) = List.replicate a.length 0 := by
      rw [List.eq_replicate_iff]
      refine ⟨by simp, fun y hy => ?_⟩
      obtain ⟨x, hx, rfl⟩ := List.mem_map.mp hy
      rw [h x hx]; simp
    rw [this]; simp

private theorem gray_affine (tile : List (List ℝ)) (hb : ∀ p ∈ tile, p ≠ []) (k m : ℝ) :
    grayTile (tile.map fun p => p.map fun x => k * x + m) = (grayTile tile).map fun x => k * x + m := by
  unfold grayTile
  rw [List.map_map, List.map_map]
  apply List.map_congr_left
  intro p hp
  exact mean_affine p (hb p hp) k m

/-- C94: the tile used for tracking, and its histogram, do not change with the brightness and the contrast of the image
(any positive factor and any offset of all bands), with or without histogram matching. -/
theorem extract_tile_brightness (hist : Option (List ℝ → List ℝ)) (low : List ℝ → List ℝ) (tile : List (List ℝ))
    (hb : ∀ p ∈ tile, p ≠ []) (k m : ℝ) (hk : 0 < k) :
    extractTile hist low (tile.map fun p => p.map fun x => k * x + m) = extractTile hist low tile ∧
    histogramTile hist (tile.map fun p => p.map fun x => k * x + m) = histogramTile hist tile := by
  unfold extractTile histogramTile
  rw [gray_affine tile hb, normalize_affine _ _ _ hk.ne', if_pos hk]
  have : (fun b : List ℝ => b.map fun x => 1 * x) = id := by funext b; simp
  rw [this, Option.map_id]
  simp

/-- C94: the tile is what the histogram is made of, minus its low-pass filter, cell by cell; a low-pass filter that
returns constants for constants and the tile itself for no smoothing gives the expected. -/
theorem extract_tile_highpass (hist : Option (List ℝ → List ℝ)) (low : List ℝ → List ℝ)
    (hlow : ∀ t, (low t).length = t.length) (tile : List (List ℝ)) :
    (extractTile hist low tile = none ↔ histogramTile hist tile = none) ∧
    ∀ t out, histogramTile hist tile = some t → extractTile hist low tile = some out →
      out.length = t.length ∧ ∀ (i : Nat) (x y z : ℝ), t[i]? = some x → (low t)[i]? = some y → out[i]? = some z → z = x - y := by
  unfold extractTile histogramTile
  cases hn : normalizeArr (grayTile tile) with
  | none => simp
  | some b =>
    refine ⟨by simp, fun t out ht hout => ?_⟩
    simp only [Option.map_some, Option.some.injEq] at ht hout
    cases hist <;>
    · subst ht; subst hout
      refine ⟨by simp [hlow], fun i x y z hx hy hz => ?_⟩
      simp only at hx hy hz
      rw [List.getElem?_zipWith, hx, hy] at hz
      simpa using hz.symm

/-! ### C95: masked Gaussian filter -/

variable {n : Nat}

/-- Spec: `r` is the weighted mean of the values `v` of the included cells around cell `i`. -/
def IsWeightedMean (w : Fin n → Fin n → ℚ) (mask : Fin n → Bool) (v : Fin n → ℚ) (i : Fin n) (r : ℚ) : Prop :=
  r * (∑ j with mask j = true, w i j) = ∑ j with mask j = true, w i j * v j

private theorem conv_x (w : Fin n → Fin n → ℚ) (a : Fin n → Option ℚ) (mask : Fin n → Bool) (v : Fin n → ℚ)
    (hv : ∀ j, mask j = true → a j = some (v j)) (i : Fin n) :
    convolve id w (fun j => if mask j then a j else some 0) i = some (∑ j with mask j = true, w i j * v j) := by
  unfold convolve
  rw [if_neg]
  · simp only [id_eq, Option.some.injEq]
    rw [Finset.sum_filter]
    apply Finset.sum_congr rfl
    intro j _
    by_cases hm : mask j = true
    · simp [hm, hv j hm]
    · simp [hm]
  · rintro ⟨j, -, hj⟩
    by_cases hm : mask j = true
    · simp [hm, hv j hm] at hj
    · simp [hm] at hj

private theorem conv_s (w : Fin n → Fin n → ℚ) (a : Fin n → Option ℚ) (mask : Fin n → Bool) (i : Fin n) :
    convolve id w (fun j => if mask j then some 1 else if mask j then a j else some 0) i =
      some (∑ j with mask j = true, w i j) := by
  unfold convolve
  rw [if_neg]
  · simp only [id_eq, Option.some.injEq]
    rw [Finset.sum_filter]
    apply Finset.sum_congr rfl
    intro j _
    by_cases hm : mask j = true <;> simp [hm]
  · rintro ⟨j, -, hj⟩
    by_cases hm : mask j = true <;> simp [hm] at hj

private theorem gauss_eq (w : Fin n → Fin n → ℚ) (a : Fin n → Option ℚ) (mask : Fin n → Bool) (v : Fin n → ℚ)
    (hv : ∀ j, mask j = true → a j = some (v j)) (fill : Bool) (i : Fin n) (hi : fill = true ∨ mask i = true) :
    gaussianFilter id w a (some mask) fill i =
      divOpt (some (∑ j with mask j = true, w i j * v j)) (some (∑ j with mask j = true, w i j)) := by
  unfold gaussianFilter
  simp only
  rw [if_neg (by rcases hi with h | h <;> simp [h]), conv_x w a mask v hv, conv_s]

/-- C95: for a floating-point array and a mask, with non-negative weights of the kernel: every cell that is filtered
(every cell if `fill`, else the included ones) with an included cell in its kernel becomes the weighted mean of the
included cells, and lies between the least and the greatest of the included values in its kernel; a filtered cell
without any becomes NaN; other cells keep their values. Values of excluded cells, NaN or not, have no influence on the
filtered cells. -/
theorem gaussian_masked (w : Fin n → Fin n → ℚ) (hw : ∀ i j, 0 ≤ w i j) (a : Fin n → Option ℚ) (mask : Fin n → Bool)
    (v : Fin n → ℚ) (hv : ∀ j, mask j = true → a j = some (v j)) (fill : Bool) (i : Fin n) :
    (fill = false → mask i = false → gaussianFilter id w a (some mask) fill i = a i) ∧
    ((fill = true ∨ mask i = true) →
      ((∃ j, mask j = true ∧ 0 < w i j) → ∃ r, gaussianFilter id w a (some mask) fill i = some r ∧
        IsWeightedMean w mask v i r ∧
        ∀ lo hi, (∀ j, mask j = true → 0 < w i j → lo ≤ v j ∧ v j ≤ hi) → lo ≤ r ∧ r ≤ hi) ∧
      ((∀ j, mask j = true → w i j = 0) → gaussianFilter id w a (some mask) fill i = none)) := by
  refine ⟨fun h1 h2 => by unfold gaussianFilter; simp [h1, h2], fun hi => ⟨?_, ?_⟩⟩
  · rintro ⟨j, hj, hwj⟩
    have hpos : 0 < ∑ j with mask j = true, w i j :=
      Finset.sum_pos' (fun j _ => hw i j) ⟨j, by simp [hj], hwj⟩
    refine ⟨(∑ j with mask j = true, w i j * v j) / (∑ j with mask j = true, w i j), ?_, ?_, ?_⟩
    · rw [gauss_eq w a mask v hv fill i hi]
      unfold divOpt
      simp only
      rw [if_neg hpos.ne']
    · unfold IsWeightedMean
      exact div_mul_cancel₀ _ hpos.ne'
    · intro lo hi' hb
      rw [le_div_iff₀ hpos, div_le_iff₀ hpos, Finset.mul_sum, Finset.mul_sum]
      constructor
      · apply Finset.sum_le_sum
        intro k hk
        rcases (hw i k).lt_or_eq with h | h
        · rw [mul_comm]; exact mul_le_mul_of_nonneg_left (hb k (by simpa using hk) h).1 h.le
        · rw [← h]; simp
      · apply Finset.sum_le_sum
        intro k hk
        rcases (hw i k).lt_or_eq with h | h
        · rw [mul_comm hi']; exact mul_le_mul_of_nonneg_left (hb k (by simpa using hk) h).2 h.le
        · rw [← h]; simp
  · intro hz
    rw [gauss_eq w a mask v hv fill i hi]
    have : ∑ j with mask j = true, w i j = 0 := Finset.sum_eq_zero (fun j hj => hz j (by simpa using hj))
    unfold divOpt
    simp only
    rw [if_pos this]

/-- C95: the values of excluded cells have no influence on the filtered cells (whatever the data type). -/
theorem gaussian_excluded (cast : ℚ → ℚ) (w : Fin n → Fin n → ℚ) (a a' : Fin n → Option ℚ) (mask : Fin n → Bool)
    (h : ∀ j, mask j = true → a j = a' j) (fill : Bool) (i : Fin n) (hi : fill = true ∨ mask i = true) :
    gaussianFilter cast w a (some mask) fill i = gaussianFilter cast w a' (some mask) fill i := by
  have e : (fun j => if mask j then a j else some 0) = (fun j => if mask j then a' j else some (0 : ℚ)) := by
    funext j; by_cases hm : mask j = true
    · simp [hm, h j hm]
    · simp [hm]
  unfold gaussianFilter
  simp only
  rw [if_neg (by rcases hi with h | h <;> simp [h]), if_neg (by rcases hi with h | h <;> simp [h])]
  have e2 : (fun j => if mask j then some 1 else if mask j then a j else some (0 : ℚ)) =
      fun j => if mask j then some 1 else if mask j then a' j else some (0 : ℚ) := by
    funext j; by_cases hm : mask j = true <;> simp [hm]
  rw [e, e2]

/-- C95: with every cell included and weights that sum to one, the mask makes no difference. -/
theorem gaussian_full_mask (w : Fin n → Fin n → ℚ) (hw : ∀ i, ∑ j, w i j = 1) (v : Fin n → ℚ) (fill : Bool) (i : Fin n) :
    gaussianFilter id w (fun j => some (v j)) (some fun _ => true) fill i =
      gaussianFilter id w (fun j => some (v j)) none fill i := by
  rw [gauss_eq w _ _ v (fun _ _ => rfl) fill i (Or.inr rfl)]
  simp only [gaussianFilter, convolve, divOpt]
  simp [hw]

/-- C95: missing values. Without a mask, exactly the cells with a missing value in their kernel become missing; with a mask, a filtered cell with an
included missing value in its kernel becomes missing. -/
theorem gaussian_missing (cast : ℚ → ℚ) (w : Fin n → Fin n → ℚ) (a : Fin n → Option ℚ) (fill : Bool) (i : Fin n) :
    (gaussianFilter cast w a none fill i = none ↔ ∃ j, w i j ≠ 0 ∧ a j = none) ∧
    (∀ mask : Fin n → Bool, (fill = true ∨ mask i = true) → (∃ j, mask j = true ∧ w i j ≠ 0 ∧ a j = none) →
      gaussianFilter cast w a (some mask) fill i = none) := by
  refine ⟨?_, fun mask hi ⟨j, hm, hw, hj⟩ => ?_⟩
  · unfold gaussianFilter convolve
    simp only
    split <;> simp_all
  · unfold gaussianFilter
    simp only
    rw [if_neg (by rcases hi with h | h <;> simp [h])]
    have : convolve cast w (fun j => if mask j then a j else some 0) i = none := by
      unfold convolve
      rw [if_pos ⟨j, hw, by simp [hm, hj]⟩]
    rw [this]
    rfl

/-- C95 (violated): for an array of integers the sums of weights are truncated: here every filtered cell becomes NaN
although all included values are 5 and every kernel has an included cell. -/
theorem gaussian_integer_violated :
    let w : Fin 3 → Fin 3 → ℚ := fun _ _ => 1/3
    let mask : Fin 3 → Bool := fun i => i ≠ 2
    let a : Fin 3 → Option ℚ := fun _ => some 5
    (∀ i, gaussianFilter (fun q => (truncInt q : ℚ)) w a (some mask) true i = none) ∧
    (∀ i, gaussianFilter id w a (some mask) true i = some 5) := by
  decide +kernel

/-! ### C95: masked maximum filter -/

/-- Spec: `m` is the greatest of the values `v` of the included cells in the window. -/
def IsWindowMax (window : List (Fin n)) (mask : Fin n → Bool) (v : Fin n → ℚ) (m : ℚ) : Prop :=
  (∃ j ∈ window, mask j = true ∧ m = v j) ∧ ∀ j ∈ window, mask j = true → v j ≤ m

private theorem mapM_some (l : List (Fin n)) (f : Fin n → Option ℚ) (v : Fin n → ℚ) (h : ∀ j ∈ l, f j = some (v j)) :
    l.mapM f = some (l.map v) := by
  induction l with
  | nil => rfl
  | cons x l ih =>
    rw [List.mapM_cons, h x List.mem_cons_self, ih (fun j hj => h j (List.mem_cons_of_mem _ hj))]
    rfl

private theorem window_eq (dmin : ℚ) (window : Fin n → List (Fin n)) (a : Fin n → Option ℚ) (mask : Fin n → Bool)
    (v : Fin n → ℚ) (hv : ∀ j, mask j = true → a j = some (v j)) (i : Fin n) :
    windowMax window (fun j => if mask j then a j else some dmin) i =
      ((window i).map fun j => if mask j then v j else dmin).max? := by
  unfold windowMax
  rw [mapM_some (window i) _ (fun j => if mask j then v j else dmin) (by
    intro j _
    by_cases hm : mask j = true
    · simp [hm, hv j hm]
    · simp [hm])]
  rfl

private theorem max?_spec (l : List ℚ) (m : ℚ) : l.max? = some m ↔ m ∈ l ∧ ∀ x ∈ l, x ≤ m := by
  rw [List.max?_eq_some_iff]

private theorem window_max_incl (dmin : ℚ) (window : Fin n → List (Fin n)) (a : Fin n → Option ℚ) (mask : Fin n → Bool)
    (v : Fin n → ℚ) (hv : ∀ j, mask j = true → a j = some (v j)) (hmin : ∀ j, mask j = true → dmin ≤ v j) (i : Fin n)
    (hex : ∃ j ∈ window i, mask j = true) :
    ∃ m, windowMax window (fun j => if mask j then a j else some dmin) i = some m ∧ IsWindowMax (window i) mask v m := by
  rw [window_eq dmin window a mask v hv i]
  obtain ⟨j, hj, hm⟩ := hex
  cases hmax : ((window i).map fun j => if mask j then v j else dmin).max? with
  | none =>
    rw [List.max?_eq_none_iff, List.map_eq_nil_iff] at hmax
    rw [hmax] at hj; cases hj
  | some m =>
    obtain ⟨h1, h2⟩ := (max?_spec _ m).mp hmax
    have hall : ∀ j ∈ window i, mask j = true → v j ≤ m := by
      intro k hk hmk
      have := h2 _ (List.mem_map.mpr ⟨k, hk, rfl⟩)
      simpa [hmk] using this
    refine ⟨m, rfl, ?_, hall⟩
    obtain ⟨k, hk, hkm⟩ := List.mem_map.mp h1
    by_cases hmk : mask k = true
    · exact ⟨k, hk, hmk, by simpa [hmk] using hkm.symm⟩
    · refine ⟨j, hj, hm, le_antisymm ?_ (hall j hj hm)⟩
      simp only [hmk] at hkm
      rw [← hkm]; exact hmin j hm

/-- C95: every included cell (each window contains its own cell) becomes the greatest included value in its window,
with or without `fill`; excluded cells keep their values unless `fill`. The values of excluded cells have no
influence. -/
theorem maximum_masked (dmin : ℚ) (window : Fin n → List (Fin n)) (hself : ∀ i, i ∈ window i) (a : Fin n → Option ℚ)
    (mask : Fin n → Bool) (v : Fin n → ℚ) (hv : ∀ j, mask j = true → a j = some (v j))
    (hmin : ∀ j, mask j = true → dmin ≤ v j) (fill : Bool) (i : Fin n) :
    (mask i = true → ∃ m, maximumFilter dmin window a (some mask) fill i = some m ∧ IsWindowMax (window i) mask v m) ∧
    (mask i = false → fill = false → maximumFilter dmin window a (some mask) fill i = a i) := by
  refine ⟨fun hm => ?_, fun hm hf => by unfold maximumFilter; simp [hm, hf]⟩
  obtain ⟨m, h1, h2⟩ := window_max_incl dmin window a mask v hv hmin i ⟨i, hself i, hm⟩
  refine ⟨m, ?_, h2⟩
  unfold maximumFilter
  simp only
  cases fill with
  | false => simp [hm, h1]
  | true =>
    simp only [h1, if_true, Option.some.injEq]
    by_cases he : m = dmin
    · rw [if_pos he, hv i hm]
      have := h2.2 i (hself i) hm
      have := hmin i hm
      congr 1; linarith
    · rw [if_neg he]

/-- C95 (partial): with `fill`, an excluded cell with an included cell in its window becomes the greatest of them,
provided that this is not the least value of the data type; without any it keeps its value. Missing: see
`maximum_fill_violated`. -/
theorem maximum_fill_partial (dmin : ℚ) (window : Fin n → List (Fin n)) (a : Fin n → Option ℚ)
    (mask : Fin n → Bool) (v : Fin n → ℚ) (hv : ∀ j, mask j = true → a j = some (v j))
    (hmin : ∀ j, mask j = true → dmin ≤ v j) (i : Fin n) (hi : mask i = false) (hself : i ∈ window i) :
    ((∃ j ∈ window i, mask j = true ∧ v j ≠ dmin) →
      ∃ m, maximumFilter dmin window a (some mask) true i = some m ∧ IsWindowMax (window i) mask v m) ∧
    ((∀ j ∈ window i, mask j = false) → maximumFilter dmin window a (some mask) true i = a i) := by
  constructor
  · rintro ⟨j, hj, hm, hne⟩
    obtain ⟨m, h1, h2⟩ := window_max_incl dmin window a mask v hv hmin i ⟨j, hj, hm⟩
    refine ⟨m, ?_, h2⟩
    unfold maximumFilter
    simp only [h1, if_true, Option.some.injEq]
    rw [if_neg]
    rintro rfl
    exact hne (le_antisymm (h2.2 j hj hm) (hmin j hm))
  · intro hall
    have : windowMax window (fun j => if mask j then a j else some dmin) i = some dmin := by
      rw [window_eq dmin window a mask v hv i, max?_spec]
      refine ⟨List.mem_map.mpr ⟨i, hself, by simp [hi]⟩, fun x hx => ?_⟩
      obtain ⟨k, hk, rfl⟩ := List.mem_map.mp hx
      simp [hall k hk]
    unfold maximumFilter
    simp [this]

/-- C95 (violated): unsigned integers (least value 0): an excluded cell of value 7 whose neighbours are 0 keeps its own
excluded value 7 instead of being filled with 0. -/
theorem maximum_fill_violated :
    maximumFilter (n := 3) 0 (fun _ => [0, 1, 2]) (fun i => if i = 1 then some 7 else some 0) (some fun i => i ≠ 1) true 1 =
      some 7 := by decide +kernel

/-- C95: `fill_crevasses` for a floating-point raster with a mask: included cells become values between the least and
the greatest included value, and excluded cells keep their values unless `fill`. -/
theorem fill_crevasses_bounds (dmin : ℚ) (window : Fin n → List (Fin n)) (hself : ∀ i, i ∈ window i)
    (w : Fin n → Fin n → ℚ) (hw : ∀ i j, 0 ≤ w i j) (hw0 : ∀ i, 0 < w i i) (a : Fin n → Option ℚ)
    (mask : Fin n → Bool) (v : Fin n → ℚ) (hv : ∀ j, mask j = true → a j = some (v j))
    (hmin : ∀ j, mask j = true → dmin ≤ v j) (fill : Bool) (i : Fin n) :
    (mask i = true → ∃ r, fillCrevasses dmin window w a (some mask) fill i = some r ∧
      ∀ lo hi, (∀ j, mask j = true → lo ≤ v j ∧ v j ≤ hi) → lo ≤ r ∧ r ≤ hi) ∧
    (mask i = false → fill = false → fillCrevasses dmin window w a (some mask) fill i = a i) := by
  have hmx := maximum_masked dmin window hself a mask v hv hmin fill
  have hex : ∀ j, ∃ x, mask j = true → maximumFilter dmin window a (some mask) fill j = some x ∧
      IsWindowMax (window j) mask v x := by
    intro j
    by_cases hm : mask j = true
    · obtain ⟨m, h⟩ := (hmx j).1 hm
      exact ⟨m, fun _ => h⟩
    · exact ⟨0, fun h => absurd h hm⟩
  choose x hx using hex
  have hg := gaussian_masked w hw (maximumFilter dmin window a (some mask) fill) mask x (fun j hj => (hx j hj).1) fill i
  refine ⟨fun hm => ?_, fun hm hf => ?_⟩
  · obtain ⟨r, h1, -, h3⟩ := (hg.2 (Or.inr hm)).1 ⟨i, hm, hw0 i⟩
    refine ⟨r, h1, fun lo hi hb => h3 lo hi (fun j hj _ => ?_)⟩
    obtain ⟨k, -, hk, he⟩ := (hx j hj).2.1
    rw [he]; exact hb k hk
  · unfold fillCrevasses
    rw [hg.1 hf hm]
    exact (hmx i).2 hm hf

/-! ### Shifted tiles -/

/-- C94 (shift): a shift of more than half a pixel in either dimension raises ValueError, any other succeeds; with no
shift, a floating-point tile and a spline through the values, the tile is returned unchanged. -/
theorem shift_tile (cast : ℚ → ℚ) (spline : (Nat → Nat → ℚ) → ℚ → ℚ → ℚ) (tile : Nat → Nat → ℚ) (duv : ℚ × ℚ) :
    ((1/2 < |duv.1| ∨ 1/2 < |duv.2|) → shiftTile cast spline tile duv = .error .valueError) ∧
    ((|duv.1| ≤ 1/2 ∧ |duv.2| ≤ 1/2) → ∃ out arg, shiftTile cast spline tile duv = .ok (out, arg) ∧
      ∀ r c, out r c = cast (spline tile (r + 1/2 + duv.2) (c + 1/2 + duv.1))) ∧
    ((∀ r c : Nat, spline tile (r + 1/2) (c + 1/2) = tile r c) → duv = (0, 0) → cast = id →
      ∃ arg, shiftTile cast spline tile duv = .ok (tile, arg)) := by
  refine ⟨fun h => by unfold shiftTile; rw [if_pos h], fun h => ?_, fun h1 h2 h3 => ?_⟩
  · refine ⟨_, _, by unfold shiftTile; rw [if_neg]; push Not; exact h, fun r c => rfl⟩
  · subst h2; subst h3
    refine ⟨tile, ?_⟩
    unfold shiftTile
    rw [if_neg (by norm_num)]
    simp only [id_eq, add_zero, h1]

/-- C94 (shift, violated): the tile passed as argument is overwritten with the shifted one: after any successful call it
equals the result. -/
theorem shift_tile_argument_violated (cast : ℚ → ℚ) (spline : (Nat → Nat → ℚ) → ℚ → ℚ → ℚ) (tile : Nat → Nat → ℚ)
    (duv : ℚ × ℚ) (out arg : Nat → Nat → ℚ) (h : shiftTile cast spline tile duv = .ok (out, arg)) : arg = out := by
  unfold shiftTile at h
  split at h
  · cases h
  · have := Except.ok.inj h
    exact (congrArg Prod.snd this).symm.trans (congrArg Prod.fst this)

/-! ### Non-vacuity -/

example : ∃ x ∈ [(0 : ℝ), 1], ∃ y ∈ [(0 : ℝ), 1], x ≠ y := ⟨0, by simp, 1, by simp, by norm_num⟩
example : maximumFilter (n := 3) (-1000) (fun _ => [0, 1, 2]) (fun i => if i = 1 then none else some i) (some fun i => i ≠ 1)
    false = fun i => if i = 1 then none else some 2 := by
  funext i; revert i; decide +kernel
example : gaussianFilter (n := 2) id (fun i j => if i = j then 3/4 else 1/4) (fun i => if i = 0 then none else some 4)
    (some fun i => i ≠ 0) true = fun _ => some 4 := by
  funext i; revert i; decide +kernel
example : ∃ out arg, shiftTile id (fun t y x => t y.floor.toNat x.floor.toNat) (fun r c => r + c) (1/4, 1/2) = .ok (out, arg) :=
  ((shift_tile _ _ _ _).2.1 (by norm_num [abs_le])).elim fun o h => h.elim fun a h => ⟨o, a, h.1⟩

end Glimpse.Filt
