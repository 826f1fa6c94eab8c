import Verif.Props.Grid
import Mathlib.Data.Nat.Cast.Order.Field
import Mathlib.Algebra.Order.Floor.Semiring

/-!
C25: `Grid.tile_indices` partitions the grid; with an overlap, tiles only grow backwards.
-/
set_option autoImplicit false
set_option linter.unusedSimpArgs false

namespace Glimpse

private theorem unique_div (w : Nat) (n s : Nat) :
    uniqueSorted ((List.range' s (n + 1)).map fun i : Nat => ((i / w : ℕ) : ℚ)) =
      (List.range' (s / w) ((s + n) / w - s / w + 1)).map fun k : Nat => (k : ℚ) := by
  induction n generalizing s with
  | zero => simp [uniqueSorted]
  | succ n ih =>
    have h1 := ih (s + 1)
    rw [List.range'_succ, List.map_cons]
    rw [List.range'_succ, List.map_cons] at h1 ⊢
    have hle : (s + 1) / w ≤ (s + 1 + n) / w := Nat.div_le_div_right (by omega)
    have hstep : (s + 1) / w = s / w ∨ (s + 1) / w = s / w + 1 := by
      rw [Nat.succ_div]
      split <;> simp
    simp only [uniqueSorted]
    rw [h1]
    rcases hstep with e | e
    · rw [e, if_pos rfl]
      rw [show s + (n + 1) = s + 1 + n by omega]
    · rw [e, if_neg (by push_cast; intro h; linarith)]
      rw [show s + (n + 1) = s + 1 + n by omega]
      rw [show (s + 1 + n) / w - s / w + 1 = ((s + 1 + n) / w - (s / w + 1) + 1) + 1 by omega]
      rw [List.range'_succ (s := s / w), List.map_cons]

private theorem takeWhile_range' (t n s : Nat) :
    ((List.range' s n).takeWhile fun i => decide (i < t)).length = min (t - s) n := by
  induction n generalizing s with
  | zero => simp
  | succ n ih =>
    rw [List.range'_succ, List.takeWhile_cons]
    by_cases h : s < t
    · simp only [h, decide_true, if_true, List.length_cons, ih (s + 1)]
      omega
    · simp only [h, decide_false, Bool.false_eq_true, if_false, List.length_nil]
      omega

private theorem search_div (w n k : Nat) (hw : 0 < w) :
    searchRight ((List.range n).map fun i : Nat => ((i / w : ℕ) : ℚ)) (k : ℚ) = min ((k + 1) * w) n := by
  unfold searchRight
  rw [List.takeWhile_map, List.length_map, List.range_eq_range']
  have : ((fun x : ℚ => decide (x ≤ (k : ℚ))) ∘ fun i : Nat => ((i / w : ℕ) : ℚ)) = fun i => decide (i < (k + 1) * w) := by
    funext i
    simp only [Function.comp, decide_eq_decide, Nat.cast_le]
    rw [← Nat.lt_add_one_iff, Nat.div_lt_iff_lt_mul hw]
  rw [this, takeWhile_range']
  omega

/-- The width of the tiles along one axis. -/
private theorem tileNumbers_eq (n : Nat) (hn : 0 < n) (size : ℚ) (hs : 0 < size) :
    ∃ w : Nat, 0 < w ∧ w ≤ n ∧ (tileNumbers n size = (List.range n).map fun i : Nat => ((i / w : ℕ) : ℚ)) ∧
      (w : ℤ) = if roundHalfEven (n / size) = 0 then (n : ℤ) else ⌈(n : ℚ) / (roundHalfEven (n / size) : ℚ)⌉ := by
  unfold tileNumbers
  simp only
  have hn0 : (0 : ℚ) < n := by exact_mod_cast hn
  have hm : 0 ≤ roundHalfEven (n / size) := by
    have : 0 ≤ ⌊(n : ℚ) / size⌋ := Int.floor_nonneg.mpr (by positivity)
    unfold roundHalfEven
    simp only
    split_ifs <;> omega
  by_cases h0 : roundHalfEven (n / size) = 0
  · refine ⟨n, hn, le_refl _, ?_, by rw [if_pos h0]⟩
    simp only [h0, if_true]
    apply List.map_congr_left
    intro i hi
    rw [Nat.div_eq_of_lt (List.mem_range.mp hi)]
    simp
  · obtain ⟨m, hm'⟩ := Int.eq_ofNat_of_zero_le hm
    rw [hm'] at h0 ⊢
    have hmpos : 0 < m := by omega
    have hm0 : (0 : ℚ) < m := by exact_mod_cast hmpos
    refine ⟨⌈(n : ℚ) / m⌉₊, Nat.ceil_pos.mpr (by positivity), ?_, ?_, ?_⟩
    · rw [Nat.ceil_le]
      rw [div_le_iff₀ hm0]
      have : (1 : ℚ) ≤ m := by exact_mod_cast hmpos
      nlinarith
    · simp only [h0, if_false]
      apply List.map_congr_left
      intro i hi
      have e : ((⌈(n : ℚ) / ((m : ℤ) : ℚ)⌉ : ℤ) : ℚ) = ((⌈(n : ℚ) / m⌉₊ : ℕ) : ℚ) := by
        rw [Int.cast_natCast]
        have := Int.natCast_ceil_eq_ceil (a := (n : ℚ) / m) (by positivity)
        rw [← this]
        push_cast
        rfl
      change ((⌊(i : ℚ) / ((⌈(n : ℚ) / ((m : ℤ) : ℚ)⌉ : ℤ) : ℚ)⌋ : ℤ) : ℚ) = _
      rw [e]
      have : ⌊(i : ℚ) / ((⌈(n : ℚ) / m⌉₊ : ℕ) : ℚ)⌋ = ((i / ⌈(n : ℚ) / m⌉₊ : ℕ) : ℤ) := by
        rw [Rat.floor_natCast_div_natCast]
        exact (Int.natCast_div _ _).symm
      rw [this]
      exact Int.cast_natCast _
    · rw [if_neg h0]
      exact Int.natCast_ceil_eq_ceil (a := (n : ℚ) / m) (by positivity)

private theorem tileStarts_get (first : Int) (rest : List Int) (o : Int) (i : Nat) (hi : i < rest.length) :
    (tileStarts (first :: rest) o)[i]? = ((first :: rest)[i]?).map (fun e => e - if i = 0 then 0 else o) := by
  unfold tileStarts
  simp only [List.take_succ_cons, List.take_zero, List.drop_succ_cons, List.drop_zero, List.length_cons]
  cases i with
  | zero => simp
  | succ i =>
    have h1 : rest.length + 1 - 2 = rest.length - 1 := by omega
    rw [h1]
    simp only [List.singleton_append, List.cons_append, List.nil_append, List.getElem?_cons_succ]
    rw [List.getElem?_append_left (by simp; omega)]
    rw [List.getElem?_map, List.getElem?_take, if_pos (by omega)]
    simp

/-- The slices along one axis, in closed form: tile `k` of `m` covers `k*w .. min((k+1)*w, n)`, starting `overlap`
cells earlier except for the first. -/
private theorem tileSlices_eq (n : Nat) (hn : 0 < n) (size : ℚ) (hs : 0 < size) (o : Int) :
    ∃ w m : Nat, 0 < w ∧ (m - 1) * w < n ∧ n ≤ m * w ∧ 0 < m ∧
      ((w : ℤ) = if roundHalfEven (n / size) = 0 then (n : ℤ) else ⌈(n : ℚ) / (roundHalfEven (n / size) : ℚ)⌉) ∧
      tileEnds n size = (0 : Int) :: (List.range m).map (fun k : Nat => ((min ((k + 1) * w) n : ℕ) : Int)) ∧
      tileSlices n size o = (List.range m).map fun k : Nat =>
        (((k * w : ℕ) : Int) - (if k = 0 then 0 else o), ((min ((k + 1) * w) n : ℕ) : Int)) := by
  obtain ⟨w, hw, hwn, hx, hwe⟩ := tileNumbers_eq n hn size hs
  have hu : uniqueSorted (tileNumbers n size) = (List.range ((n - 1) / w + 1)).map fun k : Nat => (k : ℚ) := by
    rw [hx, List.range_eq_range', show n = n - 1 + 1 by omega, unique_div]
    simp [List.range_eq_range']
  have hends : tileEnds n size =
      (0 : Int) :: (List.range ((n - 1) / w + 1)).map (fun k : Nat => ((min ((k + 1) * w) n : ℕ) : Int)) := by
    unfold tileEnds
    simp only
    rw [hu, List.map_map]
    congr 1
    apply List.map_congr_left
    intro k hk
    simp only [Function.comp]
    rw [hx, search_div w n k hw]
  have hlow : (n - 1) / w * w ≤ n - 1 := Nat.div_mul_le_self _ _
  have hhigh : n - 1 < ((n - 1) / w + 1) * w := by
    rw [Nat.add_mul, one_mul]
    have h1 := Nat.mod_lt (n - 1) hw
    have h2 := Nat.div_add_mod (n - 1) w
    rw [mul_comm w] at h2
    omega
  refine ⟨w, (n - 1) / w + 1, hw, by rw [Nat.add_sub_cancel]; omega, by omega, Nat.succ_pos _, hwe, hends, ?_⟩
  unfold tileSlices
  simp only
  rw [hends]
  generalize hm : (n - 1) / w + 1 = m at *
  apply List.ext_getElem?
  intro i
  simp only [List.length_cons, List.length_map, List.length_range, Nat.add_sub_cancel, List.drop_succ_cons, List.drop_zero]
  by_cases hi : i < m
  · have e1 : ((tileStarts ((0 : Int) :: (List.range m).map fun k : Nat => ((min ((k + 1) * w) n : ℕ) : Int)) o).take m)[i]? =
        some (((i * w : ℕ) : Int) - if i = 0 then 0 else o) := by
      rw [List.getElem?_take, if_pos hi, tileStarts_get _ _ _ _ (by simpa using hi)]
      cases i with
      | zero => simp
      | succ i =>
        have hle : (i + 1) * w ≤ n := by
          have : (i + 1) * w ≤ (m - 1) * w := Nat.mul_le_mul_right w (by omega)
          have h4 : (m - 1) * w ≤ n - 1 := by rw [← hm, Nat.add_sub_cancel]; exact hlow
          omega
        rw [List.getElem?_cons_succ, List.getElem?_map, List.getElem?_range (by omega)]
        simp only [Option.map_some, Nat.min_eq_left hle]
    have e2 : ((List.range m).map fun k : Nat => ((min ((k + 1) * w) n : ℕ) : Int))[i]? =
        some (((min ((i + 1) * w) n : ℕ) : Int)) := by
      rw [List.getElem?_map, List.getElem?_range hi]
      rfl
    rw [List.getElem?_zip_eq_some (z := (_, _)) |>.mpr ⟨e1, e2⟩, List.getElem?_map, List.getElem?_range hi]
    rfl
  · rw [List.getElem?_eq_none, List.getElem?_eq_none]
    · simp; omega
    · simp only [List.length_zip, List.length_take, List.length_map, List.length_range]
      omega

private theorem mem_sliceCells (n : Nat) (a b : Nat) (hb : b ≤ n) (i : Nat) :
    i ∈ sliceCells n ((a : Int), (b : Int)) ↔ a ≤ i ∧ i < b := by
  unfold sliceCells
  simp only [List.mem_filter, List.mem_range, decide_eq_true_eq]
  rw [if_neg (by omega), if_neg (by omega)]
  simp only [Int.toNat_natCast]
  omega

private theorem countP_range_one (m : Nat) (p : Nat → Bool) (j : Nat) (hj : j < m) (hp : ∀ k < m, p k = true ↔ k = j) :
    (List.range m).countP p = 1 := by
  have h2 : List.count j (List.range m) = 1 := by
    rw [List.nodup_range.count, if_pos (List.mem_range.mpr hj)]
  rw [← h2, List.count]
  apply List.countP_congr
  intro k hk
  rw [hp k (List.mem_range.mp hk)]
  simp

/-- Along one axis each cell is in exactly one tile. -/
private theorem axis_partition (n : Nat) (size : ℚ) (hs : 0 < size) (i : Nat) (hi : i < n) :
    (tileSlices n size 0).countP (fun s => decide (i ∈ sliceCells n s)) = 1 := by
  obtain ⟨w, m, hw, h1, h2, hm, -, -, e⟩ := tileSlices_eq n (by omega) size hs 0
  rw [e, List.countP_map]
  apply countP_range_one m _ (i / w)
  · exact (Nat.div_lt_iff_lt_mul hw).mpr (by omega)
  · intro k hk
    simp only [Function.comp, ite_self, sub_zero, decide_eq_true_eq]
    rw [mem_sliceCells n _ _ (by omega)]
    rw [lt_min_iff]
    constructor
    · rintro ⟨h3, h4, -⟩
      apply Nat.le_antisymm
      · exact (Nat.le_div_iff_mul_le hw).mpr h3
      · exact Nat.lt_add_one_iff.mp ((Nat.div_lt_iff_lt_mul hw).mpr h4)
    · rintro rfl
      have h5 := Nat.mod_lt i hw
      have h6 := Nat.div_add_mod i w
      rw [mul_comm w] at h6
      rw [Nat.add_mul, one_mul]
      omega

/-- C25: without overlap, every cell of the grid is in exactly one tile, for every grid and target tile size. -/
theorem tiles_partition (g : Grid) (size : ℚ × ℚ) (h1 : 0 < size.1) (h2 : 0 < size.2) (row col : Nat)
    (hr : row < g.ay.n) (hc : col < g.ax.n) :
    (g.tileIndices size (0, 0)).countP (fun t => g.tileHas t row col) = 1 := by
  unfold Grid.tileIndices Grid.tileHas
  rw [List.countP_flatMap]
  have h3 := axis_partition g.ay.n size.2 h2 row hr
  have h4 := axis_partition g.ax.n size.1 h1 col hc
  have key : ∀ r : Int × Int,
      ((List.countP fun t : (Int × Int) × (Int × Int) => decide (row ∈ sliceCells g.ay.n t.1) && decide (col ∈ sliceCells g.ax.n t.2)) ∘
        fun r => (tileSlices g.ax.n size.1 0).map fun c => (r, c)) r =
      if decide (row ∈ sliceCells g.ay.n r) = true then 1 else 0 := by
    intro r
    simp only [Function.comp, List.countP_map]
    by_cases hrr : row ∈ sliceCells g.ay.n r
    · rw [if_pos (by simpa using hrr), ← h4]
      congr 1
      funext c
      simp [hrr]
    · simp [hrr]
  rw [List.map_congr_left (g := fun r => if decide (row ∈ sliceCells g.ay.n r) = true then 1 else 0) (fun r _ => key r)]
  refine Eq.trans ?_ h3
  clear h3
  generalize tileSlices g.ay.n size.2 0 = l
  induction l with
  | nil => rfl
  | cons a l ih =>
    rw [List.map_cons, List.sum_cons, ih, List.countP_cons]
    simp only [decide_eq_true_eq]
    omega

/-- C25: the tiles are at least one cell and the number of tiles and all their borders stay in the grid; with an
overlap not larger than the tile, tile `k` starts at most `overlap` cells before the tile without overlap, ends where
that ends, and never reaches outside the grid. -/
theorem tiles_overlap (n : Nat) (hn : 0 < n) (size : ℚ) (hs : 0 < size) (o : Nat)
    (ho : ∀ s ∈ tileSlices n size 0, (o : Int) ≤ s.2 ∨ s.2 = n) :
    (tileSlices n size o).length = (tileSlices n size 0).length ∧
    ∀ (k : Nat) (s t : Int × Int), (tileSlices n size 0)[k]? = some s → (tileSlices n size o)[k]? = some t →
      t.2 = s.2 ∧ s.1 - o ≤ t.1 ∧ t.1 ≤ s.1 ∧ 0 ≤ t.1 ∧ t.1 < t.2 ∧ t.2 ≤ n := by
  obtain ⟨w, m, hw, h1, h2, hm, -, hends, e0⟩ := tileSlices_eq n hn size hs 0
  obtain ⟨w', m', hw', h1', h2', hm', -, hends', e1⟩ := tileSlices_eq n hn size hs o
  have hmm : m = m' := by
    have := congrArg List.length (hends.symm.trans hends')
    simpa using this
  subst hmm
  have hwEq : ∀ k, k < m → min ((k + 1) * w) n = min ((k + 1) * w') n := by
    intro k hk
    have := congrArg (fun l => l[k + 1]?) (hends.symm.trans hends')
    simp only [List.getElem?_cons_succ, List.getElem?_map, List.getElem?_range hk, Option.map_some,
      Option.some.injEq] at this
    exact_mod_cast this
  have hstart : ∀ k, k < m → k * w = k * w' := by
    intro k hk
    cases k with
    | zero => simp
    | succ k =>
      have h3 := hwEq k (by omega)
      have a1 : (k + 1) * w ≤ (m - 1) * w := Nat.mul_le_mul_right w (by omega)
      have a2 : (k + 1) * w' ≤ (m - 1) * w' := Nat.mul_le_mul_right w' (by omega)
      omega
  refine ⟨by rw [e0, e1]; simp, fun k s t hks hkt => ?_⟩
  have hk : k < m := by
    by_contra hc
    rw [e0, List.getElem?_eq_none (by simp; omega)] at hks
    cases hks
  rw [e0, List.getElem?_map, List.getElem?_range hk] at hks
  rw [e1, List.getElem?_map, List.getElem?_range hk] at hkt
  cases hks
  cases hkt
  simp only [ite_self, sub_zero]
  rw [← hwEq k hk, ← hstart k hk]
  have hkw : k * w ≤ (m - 1) * w := Nat.mul_le_mul_right w (by omega)
  have hlt : k * w < min ((k + 1) * w) n := by
    rw [lt_min_iff]
    refine ⟨by rw [Nat.add_mul]; omega, by omega⟩
  refine ⟨rfl, ?_, ?_, ?_, ?_, ?_⟩
  · split <;> omega
  · split <;> omega
  · split
    · omega
    · rename_i hk0
      -- the first tile ends at `w`, so `o ≤ w`
      have hfirst := ho (((0 * w : ℕ) : Int) - (if (0 : ℕ) = 0 then 0 else 0), ((min ((0 + 1) * w) n : ℕ) : Int)) (by
        rw [e0]
        exact List.mem_map.mpr ⟨0, List.mem_range.mpr hm, rfl⟩)
      simp only [zero_add, one_mul] at hfirst
      have : w ≤ k * w := Nat.le_mul_of_pos_left w (by omega)
      omega
  · split <;> omega
  · omega

/-- C25 fails for an overlap larger than a tile: slices get negative bounds, which Python counts from the end, and cells
of the grid are in no tile. Four cells, tiles of two, overlap three: cell 2 is lost. -/
theorem tiles_overlap_violated :
    ∃ (n : Nat) (size : ℚ) (o : Int), 0 < n ∧ 0 < size ∧ 0 ≤ o ∧ o < n ∧
      ∃ i, i < n ∧ ∀ s ∈ tileSlices n size o, i ∉ sliceCells n s := by
  refine ⟨4, 2, 3, by decide, by decide +kernel, by decide, by decide, 2, by decide, ?_⟩
  decide +kernel

/-- With a permitted overlap every cell is still covered. -/
theorem tiles_overlap_cover (n : Nat) (size : ℚ) (hs : 0 < size) (o : Nat)
    (ho : ∀ s ∈ tileSlices n size 0, (o : Int) ≤ s.2 ∨ s.2 = n) (i : Nat) (hi : i < n) :
    ∃ t ∈ tileSlices n size o, i ∈ sliceCells n t := by
  obtain ⟨hlen, hk⟩ := tiles_overlap n (by omega) size hs o ho
  have h1 := axis_partition n size hs i hi
  have h2 : 0 < (tileSlices n size 0).countP (fun s => decide (i ∈ sliceCells n s)) := by omega
  rw [List.countP_pos_iff] at h2
  obtain ⟨s, hsm, his⟩ := h2
  obtain ⟨k, hks⟩ := List.mem_iff_getElem?.mp hsm
  have hklt : k < (tileSlices n size 0).length := by
    by_contra hc
    rw [List.getElem?_eq_none (by omega)] at hks
    cases hks
  have hkt : (tileSlices n size o)[k]? = some ((tileSlices n size o)[k]'(by omega)) := List.getElem?_eq_getElem _
  refine ⟨_, List.mem_of_getElem? hkt, ?_⟩
  obtain ⟨e1, e2, e3, e4, e5, e6⟩ := hk k s _ hks hkt
  generalize (tileSlices n size o)[k]'(by omega) = t at *
  obtain ⟨t1, t2⟩ := t
  obtain ⟨s1, s2⟩ := s
  simp only [decide_eq_true_eq] at *
  obtain ⟨a, ha⟩ := Int.eq_ofNat_of_zero_le e4
  obtain ⟨b, hb⟩ := Int.eq_ofNat_of_zero_le (show 0 ≤ t2 by omega)
  obtain ⟨c, hc⟩ := Int.eq_ofNat_of_zero_le (show 0 ≤ s1 by omega)
  rw [hc, ← e1, hb, mem_sliceCells n _ _ (by omega)] at his
  rw [ha, hb, mem_sliceCells n _ _ (by omega)]
  omega

/-- `np.round` gives the nearest integer, and the even one on a tie. -/
theorem roundHalfEven_spec (q : ℚ) : |(roundHalfEven q : ℚ) - q| ≤ 1 / 2 ∧ (|(roundHalfEven q : ℚ) - q| = 1 / 2 → Even (roundHalfEven q)) := by
  have h1 := Int.floor_le q
  have h2 := Int.lt_floor_add_one q
  unfold roundHalfEven
  simp only
  split_ifs with a b c
  · rw [abs_le, abs_eq (by norm_num)]
    refine ⟨⟨by linarith, by linarith⟩, ?_⟩
    rintro (h | h) <;> linarith
  · push_cast
    rw [abs_le, abs_eq (by norm_num)]
    refine ⟨⟨by linarith, by linarith⟩, ?_⟩
    rintro (h | h) <;> linarith
  · rw [abs_le]
    exact ⟨⟨by linarith, by linarith⟩, fun _ => Int.even_iff.mpr c⟩
  · push_cast
    rw [abs_le]
    refine ⟨⟨by linarith, by linarith⟩, fun _ => ?_⟩
    rw [Int.even_iff]
    omega

/-- Only one integer is nearest with ties to even. -/
theorem nearest_even_unique (q : ℚ) (m : ℤ) (h1 : |(m : ℚ) - q| ≤ 1 / 2) (h2 : |(m : ℚ) - q| = 1 / 2 → Even m) : roundHalfEven q = m := by
  obtain ⟨r1, r2⟩ := roundHalfEven_spec q
  generalize roundHalfEven q = r at *
  rw [abs_le] at h1 r1
  by_contra hne
  have hc : r + 1 ≤ m ∨ m + 1 ≤ r := by omega
  rcases hc with hc | hc
  · have hq : (r : ℚ) + 1 ≤ m := by exact_mod_cast hc
    have e1 : (m : ℚ) - q = 1 / 2 := by linarith
    have e2 : (r : ℚ) - q = -(1 / 2) := by linarith
    have e3 : m = r + 1 := by
      have : (m : ℚ) = r + 1 := by linarith
      exact_mod_cast this
    have a := h2 (by rw [e1]; norm_num)
    have b := r2 (by rw [e2]; norm_num)
    rw [Int.even_iff] at a b
    omega
  · have hq : (m : ℚ) + 1 ≤ r := by exact_mod_cast hc
    have e1 : (m : ℚ) - q = -(1 / 2) := by linarith
    have e2 : (r : ℚ) - q = 1 / 2 := by linarith
    have e3 : r = m + 1 := by
      have : (r : ℚ) = m + 1 := by linarith
      exact_mod_cast this
    have a := h2 (by rw [e1]; norm_num)
    have b := r2 (by rw [e2]; norm_num)
    rw [Int.even_iff] at a b
    omega

/-- C25: the size of the tiles. With `m ≥ 1` the integer nearest to `n / size` (the even one on a tie), every tile is `w = ⌈n / m⌉` cells wide,
except the last, which has the rest: tile `k` ends at `min((k + 1) w, n)`, and each but the first starts `overlap` cells before `k w`. -/
theorem tile_widths (n : Nat) (hn : 0 < n) (size : ℚ) (hs : 0 < size) (o : Int) (m : ℤ) (h1 : |(m : ℚ) - n / size| ≤ 1 / 2)
    (h2 : |(m : ℚ) - n / size| = 1 / 2 → Even m) (hm : 1 ≤ m) (w : Nat) (hw1 : (n : ℚ) / m ≤ w) (hw2 : (w : ℚ) < n / m + 1) :
    ∃ count : Nat, 0 < count ∧ (count - 1) * w < n ∧ n ≤ count * w ∧
      tileSlices n size o = (List.range count).map fun k : Nat =>
        (((k * w : ℕ) : Int) - (if k = 0 then 0 else o), ((min ((k + 1) * w) n : ℕ) : Int)) := by
  have hr := nearest_even_unique _ m h1 h2
  obtain ⟨w', c, hw', a1, a2, hc, hwe, -, e⟩ := tileSlices_eq n hn size hs o
  rw [hr, if_neg (by omega)] at hwe
  have : w' = w := by
    have : ⌈(n : ℚ) / (m : ℚ)⌉ = (w : ℤ) := by
      rw [Int.ceil_eq_iff]
      push_cast
      exact ⟨by linarith, hw1⟩
    rw [this] at hwe
    exact_mod_cast hwe
  subst this
  exact ⟨c, hc, a1, a2, e⟩

/-- C25: a tile size more than twice the number of cells gives one tile. -/
theorem tile_whole (n : Nat) (hn : 0 < n) (size : ℚ) (hs : 2 * n ≤ size) (o : Int) : tileSlices n size o = [(0, (n : Int))] := by
  have hn0 : (0 : ℚ) < n := by exact_mod_cast hn
  have hs0 : 0 < size := by linarith
  have hr : roundHalfEven (n / size) = 0 := by
    have hq : (n : ℚ) / size ≤ 1 / 2 := by
      rw [div_le_iff₀ hs0]
      linarith
    have hq0 : 0 < (n : ℚ) / size := by positivity
    refine nearest_even_unique _ 0 ?_ (fun _ => ⟨0, rfl⟩)
    rw [abs_le]
    push_cast
    exact ⟨by linarith, by linarith⟩
  obtain ⟨w, c, hw, a1, a2, hc, hwe, -, e⟩ := tileSlices_eq n hn size hs0 o
  rw [hr, if_pos rfl] at hwe
  have hwn : w = n := by exact_mod_cast hwe
  subst hwn
  have : c = 1 := by
    by_contra hne
    have : w ≤ (c - 1) * w := Nat.le_mul_of_pos_left w (by omega)
    omega
  subst this
  rw [e]
  simp

/-- C25: a tile size that divides the grid is kept: `n / s` tiles of `s` cells. -/
theorem tile_exact (c s : Nat) (hc : 0 < c) (hs : 0 < s) (o : Int) :
    tileSlices (c * s) s o = (List.range c).map fun k : Nat => (((k * s : ℕ) : Int) - (if k = 0 then 0 else o), (((k + 1) * s : ℕ) : Int)) := by
  have hs0 : (0 : ℚ) < s := by exact_mod_cast hs
  have hc0 : (0 : ℚ) < c := by exact_mod_cast hc
  have hq : ((c * s : ℕ) : ℚ) / s = c := by
    push_cast
    field_simp
  have hq2 : ((c * s : ℕ) : ℚ) / ((c : ℤ) : ℚ) = s := by
    push_cast
    field_simp
  obtain ⟨d, hd, a1, a2, e⟩ := tile_widths (c * s) (Nat.mul_pos hc hs) s hs0 o c (by rw [hq]; simp) (by rw [hq]; norm_num) (by omega) s
    (by rw [hq2]) (by rw [hq2]; linarith)
  have h1 : d - 1 < c := Nat.lt_of_mul_lt_mul_right a1
  have h2 : c ≤ d := Nat.le_of_mul_le_mul_right a2 hs
  have : d = c := by omega
  subst this
  rw [e]
  apply List.map_congr_left
  intro k hk
  rw [min_eq_left (Nat.mul_le_mul_right s (by have := List.mem_range.mp hk; omega))]

/-- A grid of 7 by 5 cells with tiles of 3 by 2: non-trivial case. -/
example : (⟨⟨0, 7, 7⟩, ⟨5, 0, 5⟩⟩ : Grid).tileIndices (3, 2) (1, 0) =
    [((0, 3), (0, 4)), ((0, 3), (3, 7)), ((3, 5), (0, 4)), ((3, 5), (3, 7))] := by decide +kernel
example : ∀ s ∈ tileSlices 7 3 0, ((1 : ℕ) : Int) ≤ s.2 ∨ s.2 = (7 : ℕ) := by decide +kernel
/-- Ties go to the even number: 7 / 2 = 3.5 gives four tiles, of two cells; 5 / 2 = 2.5 gives two, of three. -/
example : tileSlices 7 2 0 = [(0, 2), (2, 4), (4, 6), (6, 7)] ∧ tileSlices 5 2 0 = [(0, 3), (3, 5)] ∧ tileSlices 9 6 0 = [(0, 5), (5, 9)] := by
  decide +kernel
example : tileSlices 12 4 1 = [(0, 4), (3, 8), (7, 12)] := by decide +kernel

end Glimpse
