import Verif.Model.FloatSample
import Verif.Props.FloatInterp
import Mathlib.Data.List.GetD
import Mathlib.Data.List.TakeWhile

/-!
C144: samples of rasters in double precision.
-/
set_option autoImplicit false
set_option linter.unusedSimpArgs false
set_option linter.unusedSectionVars false

namespace Glimpse.FloatSample
open Glimpse.Double Glimpse.FloatProject Glimpse.FloatMotion Glimpse.FloatInterp Glimpse.Sample

variable {r : ℚ → ℚ}

/-- Ascending coordinates, two or more. -/
structure Ascending (xs : List ℚ) : Prop where
  two : 2 ≤ xs.length
  lt : xs.Pairwise (· < ·)

theorem Ascending.get {xs : List ℚ} (h : Ascending xs) {i j : Nat} (hij : i < j) (hj : j < xs.length) : xs.getD i 0 < xs.getD j 0 := by
  rw [List.getD_eq_getElem _ _ (by omega), List.getD_eq_getElem _ _ hj]
  exact List.pairwise_iff_getElem.1 h.lt i j (by omega) hj hij

theorem takeWhile_below (xs : List ℚ) (x : ℚ) : ∀ i < (xs.takeWhile fun g => decide (g < x)).length, xs.getD i 0 < x := by
  intro i hi
  have h1 := List.takeWhile_prefix (fun g => decide (g < x)) (l := xs)
  have h2 : xs.getD i 0 = (xs.takeWhile fun g => decide (g < x))[i] := by
    rw [List.getD_eq_getElem _ _ (lt_of_lt_of_le hi h1.length_le)]
    exact (h1.getElem hi).symm
  have h3 := List.mem_takeWhile_imp (List.getElem_mem hi)
  rw [h2]
  exact of_decide_eq_true h3

theorem takeWhile_stop (xs : List ℚ) (x : ℚ) (h : (xs.takeWhile fun g => decide (g < x)).length < xs.length) :
    x ≤ xs.getD (xs.takeWhile fun g => decide (g < x)).length 0 := by
  induction xs with
  | nil => simp at h
  | cons a l ih =>
    by_cases ha : a < x
    · rw [List.takeWhile_cons_of_pos (by simpa using ha)] at h ⊢
      rw [List.length_cons, List.getD_cons_succ]
      exact ih (by simpa using h)
    · rw [List.takeWhile_cons_of_neg (by simpa using ha)]
      exact not_lt.1 ha

theorem interval_lt {xs : List ℚ} (h : Ascending xs) (x : ℚ) : (interval xs x).1 + 1 < xs.length := by
  unfold interval
  simp only
  have := h.two
  omega

/-- Within the coordinates the interval is around the point. -/
theorem interval_around {xs : List ℚ} (h : Ascending xs) (x : ℚ) (h0 : xs.getD 0 0 ≤ x) (h1 : x ≤ xs.getD (xs.length - 1) 0) :
    xs.getD (interval xs x).1 0 ≤ x ∧ x ≤ xs.getD ((interval xs x).1 + 1) 0 := by
  have hb := takeWhile_below xs x
  have hs := takeWhile_stop xs x
  have hl := (List.takeWhile_prefix (fun g => decide (g < x)) (l := xs)).length_le
  have h2 := h.two
  unfold interval
  simp only
  generalize (xs.takeWhile fun g => decide (g < x)).length = k at *
  rcases Nat.eq_zero_or_pos k with rfl | hk
  · rw [show min (0 - 1) (xs.length - 2) = 0 by omega]
    exact ⟨h0, (hs (by omega)).trans (h.get (by omega) (by omega)).le⟩
  · refine ⟨(hb _ (by omega)).le, ?_⟩
    rcases lt_or_ge k xs.length with hlt | hge
    · rw [show min (k - 1) (xs.length - 2) + 1 = k by omega]
      exact hs hlt
    · rw [show min (k - 1) (xs.length - 2) + 1 = xs.length - 1 by omega]
      exact h1

theorem interval_frac (xs : List ℚ) (x : ℚ) : (interval xs x).2 =
    (x - xs.getD (interval xs x).1 0) / (xs.getD ((interval xs x).1 + 1) 0 - xs.getD (interval xs x).1 0) := rfl

theorem interval_unit {xs : List ℚ} (h : Ascending xs) (x : ℚ) (h0 : xs.getD 0 0 ≤ x) (h1 : x ≤ xs.getD (xs.length - 1) 0) :
    0 ≤ (interval xs x).2 ∧ (interval xs x).2 ≤ 1 := by
  obtain ⟨a, b⟩ := interval_around h x h0 h1
  have hp := h.get (Nat.lt_succ_self _) (interval_lt h x)
  rw [interval_frac]
  refine ⟨div_nonneg (by linarith) (by linarith), (div_le_one (by linarith)).2 (by linarith)⟩

/-- At a coordinate the interval begins or ends there. -/
theorem interval_node {xs : List ℚ} (h : Ascending xs) (k : Nat) (hk : k < xs.length) :
    (interval xs (xs.getD k 0)).1 = k ∨ (interval xs (xs.getD k 0)).1 + 1 = k := by
  have hb := takeWhile_below xs (xs.getD k 0)
  have hs := takeWhile_stop xs (xs.getD k 0)
  have hl := (List.takeWhile_prefix (fun g => decide (g < xs.getD k 0)) (l := xs)).length_le
  have h2 := h.two
  unfold interval
  simp only
  generalize (xs.takeWhile fun g => decide (g < xs.getD k 0)).length = n at *
  have e : n = k := by
    rcases lt_trichotomy n k with hlt | heq | hgt
    · have := hs (by omega)
      have := h.get hlt hk
      linarith
    · exact heq
    · have := hb k hgt
      exact absurd this (lt_irrefl _)
  subst e
  omega

theorem frac_rel (hr : Nearest r) {xs : List ℚ} (h : Ascending xs) (x : ℚ) :
    Rel 4 (intervalR r xs x).2 ((interval xs x).2 : ℚ) |((interval xs x).2 : ℝ)| := by
  have hp := h.get (Nat.lt_succ_self _) (interval_lt h x)
  have h1 := (Rel.exact (x - xs.getD (interval xs x).1 0)).round hr
  have h2 := inv_rel hr (xs.getD ((interval xs x).1 + 1) 0 - xs.getD (interval xs x).1 0) (by linarith)
  have h3 := (h1.mul h2).round hr
  rw [mul_one_div, mul_one_div, ← abs_mul, mul_one_div] at h3
  rw [interval_frac]
  push_cast at h3 ⊢
  exact h3

theorem rest_rel (hr : Nearest r) {xs : List ℚ} (h : Ascending xs) (x : ℚ) :
    Rel 5 (r (1 - (intervalR r xs x).2)) (1 - ((interval xs x).2 : ℚ)) (1 + |((interval xs x).2 : ℝ)|) := by
  have h1 := frac_rel hr h x
  have hneg : Rel 4 (-(intervalR r xs x).2) (-((interval xs x).2 : ℝ)) |((interval xs x).2 : ℝ)| := by
    refine ⟨by rw [abs_neg], ?_⟩
    have := h1.2
    push_cast
    rwa [show -((intervalR r xs x).2 : ℝ) - -((interval xs x).2 : ℝ) = -((intervalR r xs x).2 - (interval xs x).2) by ring, abs_neg]
  have one : Rel 4 1 (1 : ℝ) 1 := by
    have := (Rel.exact 1).mono (show 0 ≤ 4 by omega) le_rfl
    norm_num at this ⊢
    exact this
  have := (one.add hneg).round hr
  rw [← sub_eq_add_neg, ← sub_eq_add_neg] at this
  exact this

/-- C144: a sample is within `15 / 2 ^ 52` of the exact one, relative to the largest value and to how far outside the point is. -/
theorem float_sample_near (hr : Nearest r) {xs ys : List ℚ} (hx : Ascending xs) (hy : Ascending ys) (vals : List (List ℚ)) (M : ℚ)
    (hM : ∀ i j, |at2 vals i j| ≤ M) (p : ℚ × ℚ) :
    |linear2R r xs ys vals p - linear2 xs ys vals p| ≤ 15 / 2 ^ 52 * (M * ((1 + 2 * |(interval xs p.1).2|) * (1 + 2 * |(interval ys p.2).2|))) := by
  have a := frac_rel hr hx p.1
  have b := frac_rel hr hy p.2
  have a' := rest_rel hr hx p.1
  have b' := rest_rel hr hy p.2
  have tm : ∀ (v : ℚ) {x y : ℚ} {X Y S T : ℝ}, |v| ≤ M → Rel 5 x X S → Rel 5 y Y T → Rel 12 (term r v x y) (v * (X * Y)) (M * (S * T)) := by
    intro v x y X Y S T hv h1 h2
    have hw := (h1.mul h2).round hr
    have := ((Rel.exact v).mul hw).round hr
    refine this.mono (by norm_num) (mul_le_mul_of_nonneg_right ?_ hw.nonneg)
    exact_mod_cast hv
  have t00 := tm (at2 vals (interval xs p.1).1 (interval ys p.2).1) (hM _ _) a' b'
  have t01 := tm (at2 vals (interval xs p.1).1 ((interval ys p.2).1 + 1)) (hM _ _) a' (b.mono (show 4 ≤ 5 by omega) le_rfl)
  have t10 := tm (at2 vals ((interval xs p.1).1 + 1) (interval ys p.2).1) (hM _ _) (a.mono (show 4 ≤ 5 by omega) le_rfl) b'
  have t11 := tm (at2 vals ((interval xs p.1).1 + 1) ((interval ys p.2).1 + 1)) (hM _ _) (a.mono (show 4 ≤ 5 by omega) le_rfl)
    (b.mono (show 4 ≤ 5 by omega) le_rfl)
  have s1 := (t00.add t01).round hr
  have s2 := (s1.add (t10.mono (show 12 ≤ 12 + 1 by omega) le_rfl)).round hr
  have s3 := (s2.add (t11.mono (show 12 ≤ 12 + 1 + 1 by omega) le_rfl)).round hr
  have h := s3.2.trans (mul_le_mul_of_nonneg_right ((growth_le_mul _ (by norm_num)).trans (show _ ≤ (15 : ℝ) / 2 ^ 52 by norm_num)) s3.nonneg)
  have : ((|linear2R r xs ys vals p - linear2 xs ys vals p| : ℚ) : ℝ) ≤
      ((15 / 2 ^ 52 * (M * ((1 + 2 * |(interval xs p.1).2|) * (1 + 2 * |(interval ys p.2).2|))) : ℚ) : ℝ) := by
    push_cast
    refine le_trans (le_of_eq ?_) (h.trans (le_of_eq ?_))
    · unfold linear2R linear2
      push_cast
      congr 1
      simp only [intervalR]
      ring
    · ring
  exact_mod_cast this

/-- C144: within the centers of the cells of the border, a sample is within `135 / 2 ^ 52` of the largest value of the exact one. -/
theorem float_sample_inside (hr : Nearest r) {xs ys : List ℚ} (hx : Ascending xs) (hy : Ascending ys) (vals : List (List ℚ)) (M : ℚ)
    (hM : ∀ i j, |at2 vals i j| ≤ M) (x y : ℚ) (hx0 : xs.getD 0 0 ≤ x) (hx1 : x ≤ xs.getD (xs.length - 1) 0) (hy0 : ys.getD 0 0 ≤ y)
    (hy1 : y ≤ ys.getD (ys.length - 1) 0) : |linear2R r xs ys vals (x, y) - linear2 xs ys vals (x, y)| ≤ 135 / 2 ^ 52 * M := by
  have h := float_sample_near hr hx hy vals M hM (x, y)
  obtain ⟨a0, a1⟩ := interval_unit hx x hx0 hx1
  obtain ⟨b0, b1⟩ := interval_unit hy y hy0 hy1
  refine h.trans ?_
  have hM0 : 0 ≤ M := (abs_nonneg _).trans (hM 0 0)
  rw [abs_of_nonneg a0, abs_of_nonneg b0]
  have : (1 + 2 * (interval xs x).2) * (1 + 2 * (interval ys y).2) ≤ 3 * 3 := by
    apply mul_le_mul <;> linarith
  calc _ ≤ 15 / 2 ^ 52 * (M * (3 * 3)) := by gcongr
    _ = _ := by ring

/-- A fraction at a coordinate. -/
theorem frac_node (hr : Nearest r) {xs : List ℚ} (h : Ascending xs) (k : Nat) (hk : k < xs.length) :
    ((intervalR r xs (xs.getD k 0)).1 = k ∧ (intervalR r xs (xs.getD k 0)).2 = 0) ∨
    ((intervalR r xs (xs.getD k 0)).1 + 1 = k ∧ (intervalR r xs (xs.getD k 0)).2 = 1) := by
  unfold intervalR
  simp only
  rcases interval_node h k hk with e | e
  · left
    refine ⟨e, ?_⟩
    rw [e, sub_self, r_zero hr, zero_div, r_zero hr]
  · right
    refine ⟨e, ?_⟩
    have hp := h.get (show k - 1 < k by omega) hk
    rw [e, show (interval xs (xs.getD k 0)).1 = k - 1 by omega, div_self (r_pos hr (by linarith)).ne']
    exact hr.exact 1 ⟨1, 0, by norm_num, by norm_num⟩

/-- C144: at the center of a cell the sample is the value of the cell, exactly. -/
theorem float_sample_center (hr : Nearest r) {xs ys : List ℚ} (hx : Ascending xs) (hy : Ascending ys) (vals : List (List ℚ))
    (hd : ∀ i j, IsDouble (at2 vals i j)) (i j : Nat) (hi : i < xs.length) (hj : j < ys.length) :
    linear2R r xs ys vals (xs.getD i 0, ys.getD j 0) = at2 vals i j := by
  have h1 : r 1 = 1 := hr.exact 1 ⟨1, 0, by norm_num, by norm_num⟩
  have h0 := r_zero hr
  unfold linear2R term
  simp only
  rcases frac_node hr hx i hi with ⟨a1, a2⟩ | ⟨a1, a2⟩ <;> rcases frac_node hr hy j hj with ⟨b1, b2⟩ | ⟨b1, b2⟩ <;>
    rw [a2, b2] <;> simp only [sub_zero, sub_self, h0, h1, mul_zero, zero_mul, mul_one, add_zero, zero_add, a1, b1] <;>
    simp only [hr.exact _ (hd i j)]

/-- The largest value is within the values of all: a flat raster does not stay flat. Of a raster of ones, samples are below and above one. -/
theorem float_sample_flat_violated :
    linear2R rnd [0, 1] [0, 1] [[1, 1], [1, 1]] (rnd (1 / 20), rnd (1 / 20)) < 1 ∧
    1 < linear2R rnd [0, 1] [0, 1] [[1, 1], [1, 1]] (rnd (1 / 10), rnd (1 / 5)) := by decide +kernel

/-- C144: a sample of a raster of one row or column is within `7 / 2 ^ 52` of the exact one, relative to the first value of the interval and the change
from it. -/
theorem float_line_near (hr : Nearest r) {xs : List ℚ} (hx : Ascending xs) (vs : List ℚ) (x : ℚ) :
    let i := (interval xs x).1
    |linear1R r xs vs x - linear1 xs vs x| ≤ 7 / 2 ^ 52 * (|vs.getD i 0| + |(vs.getD (i + 1) 0 - vs.getD i 0) * (interval xs x).2|) := by
  intro i
  have hp := hx.get (Nat.lt_succ_self _) (interval_lt hx x)
  have h1 := (Rel.exact (vs.getD (i + 1) 0 - vs.getD i 0)).round hr
  have h2 := inv_rel hr (xs.getD (i + 1) 0 - xs.getD i 0) (by linarith)
  have h3 := (h1.mul h2).round hr
  rw [mul_one_div] at h3
  have h4 := (h3.mul ((Rel.exact (x - xs.getD i 0)).round hr)).round hr
  have h5 := (h4.add ((Rel.exact (vs.getD i 0)).mono (show 0 ≤ 0 + 1 + 2 + 1 + (0 + 1) + 1 by omega) le_rfl)).round hr
  have h := h5.2.trans (mul_le_mul_of_nonneg_right ((growth_le_mul _ (by norm_num)).trans (show _ ≤ (7 : ℝ) / 2 ^ 52 by norm_num)) h5.nonneg)
  have : ((|linear1R r xs vs x - linear1 xs vs x| : ℚ) : ℝ) ≤
      ((7 / 2 ^ 52 * (|vs.getD i 0| + |(vs.getD (i + 1) 0 - vs.getD i 0) * (interval xs x).2|) : ℚ) : ℝ) := by
    rw [interval_frac xs x] 
    unfold linear1R linear1
    simp only
    rw [interval_frac xs x]
    push_cast
    rw [← abs_mul, ← abs_mul] at h
    push_cast at h
    refine le_trans (le_of_eq ?_) (h.trans (le_of_eq ?_))
    · congr 1
      simp only [i]
      ring
    · simp only [i]
      rw [add_comm]
      congr 2
      congr 1
      ring
  exact_mod_cast this

/-- The sample at the center of a cell is not always its value: in a raster of one row, the center of the second of two cells. -/
theorem float_line_center_violated : linear1R rnd [0, 49] [0, 1] 49 < 1 := by decide +kernel

/-- Non-vacuity. -/
example : Ascending [(0 : ℚ), 1, 3] := ⟨by decide, by decide +kernel⟩

end Glimpse.FloatSample
