import Verif.Model.Search
import Mathlib.Tactic.Linarith
import Mathlib.Tactic.NormNum
import Mathlib.Data.List.TakeWhile
import Mathlib.Data.List.Pairwise

/-!
C04: `sorted_nearest`.
-/
set_option autoImplicit false
set_option linter.unusedSimpArgs false

namespace Glimpse

theorem takeWhile_length_not {α : Type} (p : α → Bool) (x : List α)
    (h : (x.takeWhile p).length < x.length) : p (x[(x.takeWhile p).length]) = false := by
  induction x with
  | nil => simp at h
  | cons a x ih =>
    cases hp : p a with
    | false =>
      have : (List.takeWhile p (a :: x)).length = 0 := by simp [List.takeWhile_cons, hp]
      simp [this, hp]
    | true =>
      have e : (List.takeWhile p (a :: x)).length = (List.takeWhile p x).length + 1 := by
        simp [List.takeWhile_cons, hp]
      have h' : (List.takeWhile p x).length < x.length := by
        rw [e] at h; simpa using h
      have := ih h'
      simpa [e] using this

theorem searchLeft_le (x : List ℚ) (y : ℚ) : searchLeft x y ≤ x.length :=
  (List.takeWhile_prefix _).length_le

theorem searchLeft_lt_of_lt (x : List ℚ) (y : ℚ) (i : Nat) (h : i < searchLeft x y)
    (hi : i < x.length) : x[i] < y := by
  have h1 : (x.takeWhile (· < y))[i]'h = x[i] :=
    (List.takeWhile_prefix (p := fun a => decide (a < y))).getElem h
  have h2 := List.mem_takeWhile_imp (List.getElem_mem h)
  rw [h1] at h2
  simpa using h2

theorem searchLeft_le_of_ge (x : List ℚ) (hx : x.Pairwise (· ≤ ·)) (y : ℚ) (i : Nat)
    (h : searchLeft x y ≤ i) (hi : i < x.length) : y ≤ x[i] := by
  unfold searchLeft at h
  have hlt : (x.takeWhile (· < y)).length < x.length := lt_of_le_of_lt h hi
  have h0 : ¬ (x[(x.takeWhile (· < y)).length] < y) := by
    simpa using takeWhile_length_not (fun a => decide (a < y)) x hlt
  rcases Nat.lt_or_ge (x.takeWhile (· < y)).length i with hlt' | hge
  · exact le_trans (not_lt.mp h0) (List.pairwise_iff_getElem.mp hx _ _ hlt hi hlt')
  · have : i = (x.takeWhile (· < y)).length := le_antisymm hge h
    subst this; exact not_lt.mp h0

private theorem pyIndex_nat {α : Type} (x : List α) (i : Nat) (h : i < x.length) :
    pyIndex x (i : Int) = .ok x[i] := by
  have h1 : ¬ ((i : Int) < 0) := by omega
  simp only [pyIndex, h1, if_false]
  rw [if_pos (by omega)]
  simp [h]

/-- The left neighbour `l` is valid, and everything left of it is below, everything right of `l + 1` above. -/
private theorem leftNeighbor_spec (x : List ℚ) (hx : x.Pairwise (· ≤ ·)) (h2 : 2 ≤ x.length) (y : ℚ) :
    ∃ l : Nat, leftNeighbor x y = l ∧ ∃ hl : l + 1 < x.length,
      (∀ j (hj : j < x.length), j ≤ l → |x[l] - y| ≤ |x[j] - y| ∨ |x[l + 1] - y| ≤ |x[j] - y|) ∧
      (∀ j (hj : j < x.length), l < j → |x[l] - y| ≤ |x[j] - y| ∨ |x[l + 1] - y| ≤ |x[j] - y|) := by
  have hs := searchLeft_le x y
  have mono : ∀ i j (hi : i < x.length) (hj : j < x.length), i ≤ j → x[i] ≤ x[j] := by
    intro i j hi hj hij
    rcases Nat.lt_or_ge i j with h | h
    · exact List.pairwise_iff_getElem.mp hx _ _ hi hj h
    · have : i = j := le_antisymm hij h
      subst this; exact le_refl _
  rcases Nat.eq_zero_or_pos (searchLeft x y) with h0 | hpos
  · refine ⟨0, ?_, by omega, ?_, ?_⟩
    · have : ¬ ((0 : Int) = x.length) := by omega
      simp [leftNeighbor, h0, this]
    · intro j hj hj0
      left
      have hy := searchLeft_le_of_ge x hx y 0 (by omega) (by omega)
      have := mono 0 j (by omega) hj (by omega)
      rw [abs_of_nonneg (by linarith), abs_of_nonneg (by linarith)]; linarith
    · intro j hj hj0
      left
      have hy := searchLeft_le_of_ge x hx y 0 (by omega) (by omega)
      have := mono 0 j (by omega) hj (by omega)
      rw [abs_of_nonneg (by linarith), abs_of_nonneg (by linarith)]; linarith
  · rcases Nat.lt_or_ge (searchLeft x y) x.length with hlt | hge
    · refine ⟨searchLeft x y - 1, ?_, by omega, ?_, ?_⟩
      · have e1 : (0 : Int) < searchLeft x y ∧ (searchLeft x y : Int) < x.length := by omega
        have e2 : ¬ ((searchLeft x y : Int) - 1 = x.length) := by omega
        simp only [leftNeighbor, e1, and_self, if_true, e2, if_false]
        omega
      · intro j hj hj0
        left
        have a1 := searchLeft_lt_of_lt x y (searchLeft x y - 1) (by omega) (by omega)
        have := mono j (searchLeft x y - 1) hj (by omega) hj0
        rw [abs_of_nonpos (by linarith), abs_of_nonpos (by linarith)]; linarith
      · intro j hj hj0
        right
        have a1 := searchLeft_le_of_ge x hx y (searchLeft x y - 1 + 1) (by omega) (by omega)
        have := mono (searchLeft x y - 1 + 1) j (by omega) hj (by omega)
        rw [abs_of_nonneg (by linarith), abs_of_nonneg (by linarith)]; linarith
    · have he : searchLeft x y = x.length := le_antisymm hs hge
      refine ⟨x.length - 2, ?_, by omega, ?_, ?_⟩
      · have e1 : ¬ ((0 : Int) < x.length ∧ (x.length : Int) < x.length) := by omega
        simp only [leftNeighbor, he, e1, if_false, if_true]
        omega
      · intro j hj hj0
        right
        have a1 := searchLeft_lt_of_lt x y (x.length - 2 + 1) (by omega) (by omega)
        have := mono j (x.length - 2 + 1) hj (by omega) (by omega)
        rw [abs_of_nonpos (by linarith), abs_of_nonpos (by linarith)]; linarith
      · intro j hj hj0
        right
        have a1 := searchLeft_lt_of_lt x y (x.length - 2 + 1) (by omega) (by omega)
        have := mono j (x.length - 2 + 1) hj (by omega) (by omega)
        rw [abs_of_nonpos (by linarith), abs_of_nonpos (by linarith)]; linarith

/-- C04. For sorted `x` with at least two elements, `sorted_nearest` returns a valid (non-negative) index
whose element is nearest to the query among *all* elements. -/
theorem sorted_nearest_minimal (x : List ℚ) (hx : x.Pairwise (· ≤ ·)) (h2 : 2 ≤ x.length) (y : ℚ) :
    ∃ i : Nat, ∃ hi : i < x.length, sortedNearest x y = .ok (i : Int) ∧
      ∀ j (hj : j < x.length), |x[i] - y| ≤ |x[j] - y| := by
  obtain ⟨l, hl, hlt, hle, hgt⟩ := leftNeighbor_spec x hx h2 y
  have hall : ∀ j (hj : j < x.length), |x[l] - y| ≤ |x[j] - y| ∨ |x[l + 1] - y| ≤ |x[j] - y| := by
    intro j hj
    rcases Nat.lt_or_ge l j with h | h
    · exact hgt j hj h
    · exact hle j hj h
  have e : sortedNearest x y = .ok (if |y - x[l]| ≤ |y - x[l + 1]| then (l : Int) else (l : Int) + 1) := by
    have p1 := pyIndex_nat x l (by omega)
    have p2 := pyIndex_nat x (l + 1) hlt
    unfold sortedNearest
    simp only [hl, p1, bind, Except.bind]
    have : ((l : Int) + 1) = ((l + 1 : Nat) : Int) := by omega
    rw [this, p2]; rfl
  rw [abs_sub_comm y, abs_sub_comm y] at e
  by_cases hc : |x[l] - y| ≤ |x[l + 1] - y|
  · refine ⟨l, by omega, by rw [e, if_pos hc], fun j hj => ?_⟩
    rcases hall j hj with h | h
    · exact h
    · exact le_trans hc h
  · refine ⟨l + 1, hlt, by rw [e, if_neg hc]; simp, fun j hj => ?_⟩
    rcases hall j hj with h | h
    · exact le_trans (le_of_lt (not_le.mp hc)) h
    · exact h

-- Non-vacuity: the docstring's example (queries below, on, at the end of, and between the elements).
example : sortedNearest [0, 1, 3] (-1) = .ok 0 := by decide +kernel
example : sortedNearest [0, 1, 3] 3 = .ok 2 := by decide +kernel
example : sortedNearest [0, 1, 3] (11/10) = .ok 1 := by decide +kernel

/-- C04 (excluded case). With a single element the function does not return a valid non-negative index: it
raises `IndexError` for queries at or below it and returns -1 above it. -/
theorem sorted_nearest_singleton_violated (a y : ℚ) :
    sortedNearest [a] y = if y ≤ a then .error .indexError else .ok (-1) := by
  by_cases h : y ≤ a
  · have : searchLeft [a] y = 0 := by simp [searchLeft, List.takeWhile_cons, not_lt.mpr h]
    simp [sortedNearest, leftNeighbor, this, h, pyIndex, bind, Except.bind]
  · have : searchLeft [a] y = 1 := by simp [searchLeft, List.takeWhile_cons, not_le.mp h]
    simp [sortedNearest, leftNeighbor, this, h, pyIndex, bind, Except.bind, pure, Except.pure]

end Glimpse
