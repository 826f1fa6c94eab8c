import Verif.Model.Bresenham
import Mathlib.Tactic.Linarith
import Mathlib.Tactic.Ring
import Mathlib.Data.List.Nodup
import Mathlib.Algebra.Order.Ring.Abs
import Mathlib.Algebra.Order.Ring.Int

/-!
C09: `bresenham_line`.
-/
set_option autoImplicit false
set_option linter.unusedSimpArgs false

namespace Glimpse

/-- Spec: number of steps of a digital line, the larger of the two coordinate distances. -/
def lineSteps (a b : ℤ × ℤ) : Nat := max (b.1 - a.1).natAbs (b.2 - a.2).natAbs

/-- Spec: cell `p` is, in both coordinates, within half a cell of the ideal point `a + (i / N) (b - a)`,
`N = lineSteps a b` (written without division). -/
def NearIdeal (a b : ℤ × ℤ) (i : Nat) (p : ℤ × ℤ) : Prop :=
  2 * |(lineSteps a b : ℤ) * (p.1 - a.1) - i * (b.1 - a.1)| ≤ lineSteps a b ∧
  2 * |(lineSteps a b : ℤ) * (p.2 - a.2) - i * (b.2 - a.2)| ≤ lineSteps a b

/-! ### Helper lemmas -/

/-- The loop in closed form. -/
private theorem bresLoop_form (dx ady s : ℤ) (hdx : 0 < dx) (h0 : 0 ≤ ady) (h1 : ady ≤ dx) (n : Nat) (x y e : ℤ)
    (he0 : 0 ≤ e) (he1 : e < dx) :
    ∃ j : Nat → ℤ, bresLoop dx ady s n x y e = (List.range n).map (fun k : Nat => (x + k, y + s * j k)) ∧ j 0 = 0 ∧
      (∀ k : Nat, 0 ≤ e + dx * j k - k * ady ∧ e + dx * j k - k * ady < dx) ∧
      (∀ k : Nat, j (k + 1) = j k ∨ j (k + 1) = j k + 1) := by
  -- j does not depend on the number of points: build it from the error recursion
  have key : ∃ j : Nat → ℤ, j 0 = 0 ∧
      (∀ k : Nat, 0 ≤ e + dx * j k - k * ady ∧ e + dx * j k - k * ady < dx) ∧
      (∀ k : Nat, j (k + 1) = if e + dx * j k - k * ady - ady < 0 then j k + 1 else j k) := by
    let j : Nat → ℤ := fun k => Nat.rec 0 (fun k jk => if e + dx * jk - k * ady - ady < 0 then jk + 1 else jk) k
    refine ⟨j, rfl, ?_, fun k => rfl⟩
    intro k
    induction k with
    | zero => simp [j]; exact ⟨he0, he1⟩
    | succ k ih =>
      have hs : j (k + 1) = if e + dx * j k - k * ady - ady < 0 then j k + 1 else j k := rfl
      rw [hs]
      push_cast
      split
      · constructor <;> nlinarith [ih.1, ih.2]
      · constructor <;> nlinarith [ih.1, ih.2]
  obtain ⟨j, j0, jr, js⟩ := key
  refine ⟨j, ?_, j0, jr, fun k => by rw [js k]; split <;> simp⟩
  -- generalise over the starting index
  have gen : ∀ (m k : Nat), bresLoop dx ady s m (x + k) (y + s * j k) (e + dx * j k - k * ady) =
      (List.range m).map (fun i : Nat => (x + (k + i : Nat), y + s * j (k + i))) := by
    intro m
    induction m with
    | zero => intro k; simp [bresLoop]
    | succ m ih =>
      intro k
      rw [List.range_succ_eq_map, List.map_cons, List.map_map]
      have ih' := ih (k + 1)
      rw [bresLoop]
      congr 1
      have hfun : ((fun i : Nat => (x + (k + i : Nat), y + s * j (k + i))) ∘ Nat.succ) =
          (fun i : Nat => (x + (k + 1 + i : Nat), y + s * j (k + 1 + i))) := by
        funext i
        have : k + Nat.succ i = k + 1 + i := by omega
        simp only [Function.comp, this]
      rw [hfun, ← ih']
      rw [js k]
      split
      · congr 1
        · push_cast; ring
        · ring
        · push_cast; ring
      · congr 1
        · push_cast; ring
        · push_cast; ring
  have := gen n 0
  simp only [j0, Nat.cast_zero, mul_zero, add_zero, zero_mul, sub_zero, zero_add] at this
  exact this

private theorem map_range_reverse {α : Type} (g : Nat → α) (n : Nat) :
    ((List.range (n + 1)).map g).reverse = (List.range (n + 1)).map (fun i => g (n - i)) := by
  apply List.ext_getElem
  · simp
  · intro i h1 h2
    simp at h1
    rw [List.getElem_reverse]
    simp

/-- Core statement for a gentle line from left to right (after rotation and swapping). -/
private theorem bres_core (q1 q2 : ℤ × ℤ) (hle : q1.1 ≤ q2.1) (hg : (q2.2 - q1.2).natAbs ≤ (q2.1 - q1.1).natAbs) :
    ∃ g : Nat → ℤ × ℤ,
      bresLoop (q2.1 - q1.1) ((q2.2 - q1.2).natAbs : ℤ) (if q1.2 < q2.2 then 1 else -1)
        (q2.1 + 1 - q1.1).toNat q1.1 q1.2 ((q2.1 - q1.1) / 2) = (List.range ((q2.1 - q1.1).natAbs + 1)).map g ∧
      (∀ i : Nat, (g i).1 = q1.1 + i) ∧
      (∀ i : Nat, i ≤ (q2.1 - q1.1).natAbs →
        2 * |(q2.1 - q1.1) * ((g i).2 - q1.2) - i * (q2.2 - q1.2)| ≤ q2.1 - q1.1) ∧
      (∀ i : Nat, i < (q2.1 - q1.1).natAbs → |(g (i + 1)).2 - (g i).2| ≤ 1) := by
  have hn : (q2.1 + 1 - q1.1).toNat = (q2.1 - q1.1).natAbs + 1 := by omega
  rw [hn]
  rcases eq_or_lt_of_le hle with heq | hlt
  · have hz : (q2.1 - q1.1).natAbs = 0 := by omega
    have hy : q2.2 = q1.2 := by omega
    refine ⟨fun i => (q1.1 + i, q1.2), ?_, fun i => rfl, ?_, ?_⟩
    · rw [hz]; simp [bresLoop]
    · intro i hi
      have : i = 0 := by omega
      subst this
      simp [heq]
    · intro i hi; omega
  · set dx := q2.1 - q1.1 with hdx
    set s : ℤ := if q1.2 < q2.2 then 1 else -1 with hs
    set ady : ℤ := ((q2.2 - q1.2).natAbs : ℤ) with hady
    have hdpos : 0 < dx := by omega
    have hsady : s * ady = q2.2 - q1.2 := by
      rw [hs, hady]; split <;> omega
    have hs1 : s = 1 ∨ s = -1 := by rw [hs]; split <;> simp
    obtain ⟨j, hform, j0, jr, js⟩ := bresLoop_form dx ady s hdpos (by omega) (by omega) (dx.natAbs + 1) q1.1 q1.2
      (dx / 2) (by omega) (by omega)
    refine ⟨fun k => (q1.1 + k, q1.2 + s * j k), hform, fun i => rfl, ?_, ?_⟩
    · intro i _
      have h := jr i
      have e : dx * (q1.2 + s * j i - q1.2) - i * (q2.2 - q1.2) = s * (dx * j i - i * ady) := by
        rw [← hsady]; ring
      simp only
      rw [e, abs_mul]
      have : |s| = 1 := by rcases hs1 with h | h <;> rw [h] <;> simp
      rw [this, one_mul]
      have := abs_le.mpr (show -(dx/2) ≤ dx * j i - i * ady ∧ dx * j i - i * ady ≤ dx / 2 from by
        constructor <;> omega)
      omega
    · intro i _
      simp only
      rcases js i with h | h <;> rw [h]
      · simp
      · have e : q1.2 + s * (j i + 1) - (q1.2 + s * j i) = s := by ring
        rw [e]; rcases hs1 with h | h <;> rw [h] <;> simp

/-- C09 (main). `bresenham_line(a, b)` has exactly `max(|dx|, |dy|) + 1` points; the i-th one is, in both
coordinates, within half a cell of the i-th of the equally spaced ideal points from `a` to `b`; consecutive points
differ by at most one in each coordinate. -/
theorem bresenham_line_near (a b : ℤ × ℤ) :
    ∃ g : Nat → ℤ × ℤ, bresenhamLine a b = (List.range (lineSteps a b + 1)).map g ∧
      (∀ i, i ≤ lineSteps a b → NearIdeal a b i (g i)) ∧
      (∀ i, i < lineSteps a b → |(g (i + 1)).1 - (g i).1| ≤ 1 ∧ |(g (i + 1)).2 - (g i).2| ≤ 1) := by
  obtain ⟨a1, a2⟩ := a
  obtain ⟨b1, b2⟩ := b
  by_cases hst : (b1 - a1).natAbs < (b2 - a2).natAbs <;> by_cases hsw : (if (b1 - a1).natAbs < (b2 - a2).natAbs then b2 < a2 else b1 < a1)
  · -- steep, swapped
    rw [if_pos hst] at hsw
    obtain ⟨g, hg, gx, gn, gs⟩ := bres_core (b2, b1) (a2, a1) (by simp only; omega) (by simp only; omega)
    simp only at hg gx gn gs
    have hN : lineSteps (a1, a2) (b1, b2) = (a2 - b2).natAbs := by simp only [lineSteps]; omega
    have hNi : (((a2 - b2).natAbs : ℕ) : ℤ) = a2 - b2 := by omega
    refine ⟨fun i => (g ((a2 - b2).natAbs - i)).swap, ?_, ?_, ?_⟩
    · rw [hN]
      simp only [bresenhamLine, hst, decide_true, if_true, Prod.swap, hsw]
      rw [hg, List.map_map, map_range_reverse]
      apply List.map_congr_left
      intro i _; simp [Function.comp, Prod.swap]
    · intro i hi
      rw [hN] at hi
      have h := gn ((a2 - b2).natAbs - i) (by omega)
      have hx := gx ((a2 - b2).natAbs - i)
      have hc : (((a2 - b2).natAbs - i : ℕ) : ℤ) = a2 - b2 - i := by omega
      rw [hc] at h hx
      simp only [NearIdeal, hN, hNi, Prod.swap]
      constructor
      · refine le_trans (le_of_eq ?_) h
        congr 2; ring
      · rw [hx]
        have : (a2 - b2) * (b2 + (a2 - b2 - i) - a2) - i * (b2 - a2) = 0 := by ring
        rw [this]; simp; omega
    · intro i hi
      rw [hN] at hi
      have h := gs ((a2 - b2).natAbs - (i + 1)) (by omega)
      have e : (a2 - b2).natAbs - (i + 1) + 1 = (a2 - b2).natAbs - i := by omega
      rw [e] at h
      simp only [Prod.swap]
      refine ⟨by rw [abs_sub_comm]; exact h, ?_⟩
      rw [gx, gx, abs_le]; constructor <;> omega
  · -- steep, not swapped
    rw [if_pos hst] at hsw
    obtain ⟨g, hg, gx, gn, gs⟩ := bres_core (a2, a1) (b2, b1) (by simp only; omega) (by simp only; omega)
    simp only at hg gx gn gs
    have hN : lineSteps (a1, a2) (b1, b2) = (b2 - a2).natAbs := by simp only [lineSteps]; omega
    have hNi : (((b2 - a2).natAbs : ℕ) : ℤ) = b2 - a2 := by omega
    refine ⟨fun i => (g i).swap, ?_, ?_, ?_⟩
    · rw [hN]
      simp only [bresenhamLine, hst, decide_true, if_true, Prod.swap, hsw, decide_false, Bool.false_eq_true, if_false]
      rw [hg, List.map_map]
      apply List.map_congr_left
      intro i _; simp [Function.comp, Prod.swap]
    · intro i hi
      rw [hN] at hi
      have h := gn i hi
      simp only [NearIdeal, hN, hNi, Prod.swap]
      refine ⟨h, ?_⟩
      rw [gx]
      have : (b2 - a2) * (a2 + i - a2) - i * (b2 - a2) = 0 := by ring
      rw [this]; simp; omega
    · intro i hi
      rw [hN] at hi
      refine ⟨gs i hi, ?_⟩
      simp only [Prod.swap]
      rw [gx, gx, abs_le]; constructor <;> omega
  · -- gentle, swapped
    rw [if_neg hst] at hsw
    obtain ⟨g, hg, gx, gn, gs⟩ := bres_core (b1, b2) (a1, a2) (by simp only; omega) (by simp only; omega)
    simp only at hg gx gn gs
    have hN : lineSteps (a1, a2) (b1, b2) = (a1 - b1).natAbs := by simp only [lineSteps]; omega
    have hNi : (((a1 - b1).natAbs : ℕ) : ℤ) = a1 - b1 := by omega
    refine ⟨fun i => g ((a1 - b1).natAbs - i), ?_, ?_, ?_⟩
    · rw [hN]
      simp only [bresenhamLine, hst, decide_true, if_true, Prod.swap, hsw, decide_false, Bool.false_eq_true, if_false]
      rw [hg, map_range_reverse]
    · intro i hi
      rw [hN] at hi
      have h := gn ((a1 - b1).natAbs - i) (by omega)
      have hx := gx ((a1 - b1).natAbs - i)
      have hc : (((a1 - b1).natAbs - i : ℕ) : ℤ) = a1 - b1 - i := by omega
      rw [hc] at h hx
      simp only [NearIdeal, hN, hNi]
      constructor
      · rw [hx]
        have : (a1 - b1) * (b1 + (a1 - b1 - i) - a1) - i * (b1 - a1) = 0 := by ring
        rw [this]; simp; omega
      · refine le_trans (le_of_eq ?_) h
        congr 2; ring
    · intro i hi
      rw [hN] at hi
      have h := gs ((a1 - b1).natAbs - (i + 1)) (by omega)
      have e : (a1 - b1).natAbs - (i + 1) + 1 = (a1 - b1).natAbs - i := by omega
      rw [e] at h
      refine ⟨?_, by rw [abs_sub_comm]; exact h⟩
      simp only
      rw [gx, gx, abs_le]; constructor <;> omega
  · -- gentle, not swapped
    rw [if_neg hst] at hsw
    obtain ⟨g, hg, gx, gn, gs⟩ := bres_core (a1, a2) (b1, b2) (by simp only; omega) (by simp only; omega)
    simp only at hg gx gn gs
    have hN : lineSteps (a1, a2) (b1, b2) = (b1 - a1).natAbs := by simp only [lineSteps]; omega
    have hNi : (((b1 - a1).natAbs : ℕ) : ℤ) = b1 - a1 := by omega
    refine ⟨g, ?_, ?_, ?_⟩
    · rw [hN]
      simp only [bresenhamLine, hst, decide_true, if_true, Prod.swap, hsw, decide_false, Bool.false_eq_true, if_false]
      rw [hg]
    · intro i hi
      rw [hN] at hi
      have h := gn i hi
      simp only [NearIdeal, hN, hNi]
      refine ⟨?_, h⟩
      rw [gx]
      have : (b1 - a1) * (a1 + i - a1) - i * (b1 - a1) = 0 := by ring
      rw [this]; simp; omega
    · intro i hi
      rw [hN] at hi
      refine ⟨?_, gs i hi⟩
      rw [gx, gx, abs_le]; constructor <;> omega

/-- Being near the ideal point determines the cell at both ends. -/
private theorem near_zero (a b p : ℤ × ℤ) (hN : lineSteps a b ≠ 0) (h : NearIdeal a b 0 p) : p = a := by
  obtain ⟨h1, h2⟩ := h
  simp only [Nat.cast_zero, zero_mul, sub_zero] at h1 h2
  have hpos : (0 : ℤ) < lineSteps a b := by omega
  rw [abs_mul, abs_of_pos hpos] at h1 h2
  have e : ∀ d : ℤ, 2 * ((lineSteps a b : ℤ) * |d|) ≤ lineSteps a b → d = 0 := by
    intro d hd
    by_contra hne
    have : 1 ≤ |d| := Int.one_le_abs hne
    nlinarith
  exact Prod.ext (by have := e _ h1; omega) (by have := e _ h2; omega)

private theorem near_end (a b p : ℤ × ℤ) (hN : lineSteps a b ≠ 0) (h : NearIdeal a b (lineSteps a b) p) : p = b := by
  obtain ⟨h1, h2⟩ := h
  have hpos : (0 : ℤ) < lineSteps a b := by omega
  rw [← mul_sub, abs_mul, abs_of_pos hpos] at h1 h2
  have e : ∀ d : ℤ, 2 * ((lineSteps a b : ℤ) * |d|) ≤ lineSteps a b → d = 0 := by
    intro d hd
    by_contra hne
    have : 1 ≤ |d| := Int.one_le_abs hne
    nlinarith
  exact Prod.ext (by have := e _ h1; omega) (by have := e _ h2; omega)

/-- C09 (ends). The line starts at `a` and ends at `b`. -/
theorem bresenham_line_ends (a b : ℤ × ℤ) :
    (bresenhamLine a b).head? = some a ∧ (bresenhamLine a b).getLast? = some b := by
  by_cases hN : lineSteps a b = 0
  · have hab : b = a := by
      simp only [lineSteps] at hN
      exact Prod.ext (by omega) (by omega)
    subst hab
    constructor <;> simp [bresenhamLine, bresLoop]
  · obtain ⟨g, hg, hn, _⟩ := bresenham_line_near a b
    rw [hg]
    constructor
    · rw [List.range_succ_eq_map]
      simp only [List.map_cons, List.head?_cons]
      rw [near_zero a b (g 0) hN (hn 0 (by omega))]
    · rw [List.range_succ, List.map_append]
      simp only [List.map_cons, List.map_nil, List.getLast?_append, List.getLast?_singleton]
      rw [near_end a b _ hN (hn _ (le_refl _))]; rfl

/-- C09 (no repetition, bounding box). No cell repeats, and every cell is in the bounding box of the end points. -/
theorem bresenham_line_nodup_bbox (a b : ℤ × ℤ) :
    (bresenhamLine a b).Nodup ∧ ∀ p ∈ bresenhamLine a b,
      (min a.1 b.1 ≤ p.1 ∧ p.1 ≤ max a.1 b.1) ∧ (min a.2 b.2 ≤ p.2 ∧ p.2 ≤ max a.2 b.2) := by
  obtain ⟨g, hg, hn, _⟩ := bresenham_line_near a b
  rw [hg]
  by_cases hN : lineSteps a b = 0
  · have hab : b = a := by
      simp only [lineSteps] at hN
      exact Prod.ext (by omega) (by omega)
    subst hab
    have hh := (bresenham_line_ends b b).1
    rw [hg, hN] at hh
    simp at hh
    rw [hN]
    simp [hh]
  · have hpos : (0 : ℤ) < lineSteps a b := by omega
    have hexact : (∀ i, i ≤ lineSteps a b → (g i).1 = a.1 + i * (if a.1 ≤ b.1 then 1 else -1)) ∨
        (∀ i, i ≤ lineSteps a b → (g i).2 = a.2 + i * (if a.2 ≤ b.2 then 1 else -1)) := by
      have hz : ∀ d : ℤ, 2 * |(lineSteps a b : ℤ) * d| ≤ lineSteps a b → d = 0 := by
        intro d hd
        rw [abs_mul, abs_of_pos hpos] at hd
        by_contra hne
        have : 1 ≤ |d| := Int.one_le_abs hne
        nlinarith
      rcases le_total (b.2 - a.2).natAbs (b.1 - a.1).natAbs with h | h
      · left
        intro i hi
        have hd : b.1 - a.1 = lineSteps a b * (if a.1 ≤ b.1 then 1 else -1) := by
          simp only [lineSteps]; split <;> omega
        have := (hn i hi).1
        rw [hd] at this
        have e : (lineSteps a b : ℤ) * ((g i).1 - a.1) - i * (lineSteps a b * (if a.1 ≤ b.1 then 1 else -1)) =
            lineSteps a b * ((g i).1 - a.1 - i * (if a.1 ≤ b.1 then 1 else -1)) := by ring
        rw [e] at this
        have := hz _ this
        omega
      · right
        intro i hi
        have hd : b.2 - a.2 = lineSteps a b * (if a.2 ≤ b.2 then 1 else -1) := by
          simp only [lineSteps]; split <;> omega
        have := (hn i hi).2
        rw [hd] at this
        have e : (lineSteps a b : ℤ) * ((g i).2 - a.2) - i * (lineSteps a b * (if a.2 ≤ b.2 then 1 else -1)) =
            lineSteps a b * ((g i).2 - a.2 - i * (if a.2 ≤ b.2 then 1 else -1)) := by ring
        rw [e] at this
        have := hz _ this
        omega
    refine ⟨?_, ?_⟩
    · refine List.Nodup.map_on ?_ List.nodup_range
      intro i hi k hk hik
      rw [List.mem_range] at hi hk
      rcases hexact with h | h
      · have h1 := h i (by omega)
        have h2 := h k (by omega)
        rw [hik, h2] at h1
        split at h1 <;> omega
      · have h1 := h i (by omega)
        have h2 := h k (by omega)
        rw [hik, h2] at h1
        split at h1 <;> omega
    · intro p hp
      obtain ⟨i, hi, rfl⟩ := List.mem_map.mp hp
      rw [List.mem_range] at hi
      have hnear := hn i (by omega)
      have box : ∀ (x y z : ℤ), 2 * |(lineSteps a b : ℤ) * (z - x) - i * (y - x)| ≤ lineSteps a b →
          min x y ≤ z ∧ z ≤ max x y := by
        intro x y z h
        have h' := abs_le.mp (show |(lineSteps a b : ℤ) * (z - x) - i * (y - x)| ≤ (lineSteps a b : ℤ) - |(lineSteps a b : ℤ) * (z - x) - i * (y - x)| by linarith)
        have hi0 : (0 : ℤ) ≤ i := Int.natCast_nonneg i
        have hiN : (i : ℤ) ≤ lineSteps a b := by exact_mod_cast (by omega : i ≤ lineSteps a b)
        have habs := abs_le.mp (le_refl |(lineSteps a b : ℤ) * (z - x) - i * (y - x)|)
        rcases le_total x y with hxy | hxy
        · rw [min_eq_left hxy, max_eq_right hxy]
          constructor
          · by_contra hc
            have : z - x ≤ -1 := by omega
            nlinarith [mul_nonneg hi0 (by linarith : (0:ℤ) ≤ y - x), mul_le_mul_of_nonneg_left this hpos.le]
          · by_contra hc
            have : 1 + (y - x) ≤ z - x := by omega
            nlinarith [mul_le_mul_of_nonneg_right hiN (by linarith : (0:ℤ) ≤ y - x), mul_le_mul_of_nonneg_left this hpos.le]
        · rw [min_eq_right hxy, max_eq_left hxy]
          constructor
          · by_contra hc
            have : z - x ≤ (y - x) - 1 := by omega
            nlinarith [mul_le_mul_of_nonneg_right hiN (by linarith : (0:ℤ) ≤ x - y), mul_le_mul_of_nonneg_left this hpos.le]
          · by_contra hc
            have : 1 ≤ z - x := by omega
            nlinarith [mul_nonneg hi0 (by linarith : (0:ℤ) ≤ x - y), mul_le_mul_of_nonneg_left this hpos.le]
      exact ⟨box _ _ _ hnear.1, box _ _ _ hnear.2⟩

example : bresenhamLine (0, 0) (2, 1) = [(0, 0), (1, 0), (2, 1)] := by decide
example : bresenhamLine (3, 1) (-1, -2) = [(3, 1), (2, 0), (1, -1), (0, -1), (-1, -2)] := by decide

end Glimpse
