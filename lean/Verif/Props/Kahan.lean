import Verif.Model.FloatResample
import Mathlib.Tactic.Linarith
import Mathlib.Tactic.Ring
import Mathlib.Tactic.NormNum
import Mathlib.Algebra.Order.Ring.Rat
import Mathlib.Algebra.Order.AbsoluteValue.Basic
import Mathlib.Algebra.Order.BigOperators.Group.List

/-!
The compensated sum with which `np.random.choice` checks its probabilities: its error does not grow with the number of terms (up to `2 ^ 30`).
-/
set_option autoImplicit false
set_option linter.unusedSimpArgs false
set_option linter.unusedSectionVars false

namespace Glimpse.FloatResample
open Glimpse

/-- Rounding of numbers up to 4: relative error `2 ^ -53`, and an absolute one far below it (underflow). -/
def Rounds (r : ℚ → ℚ) : Prop := ∀ x : ℚ, |x| ≤ 4 → |r x - x| ≤ |x| / 2 ^ 53 + 1 / 2 ^ 106

theorem kahanStep_near (r : ℚ → ℚ) (hr : Rounds r) (s c x P E : ℚ) (hx : 0 ≤ x) (hP : 0 ≤ P) (hPx : P + x ≤ 11 / 10) (hE : |s - c - P| ≤ E) (hE' : E ≤ 1 / 100)
    (hc : |c| ≤ 3 / 2 ^ 53) :
    |(kahanStep r (s, c) x).2| ≤ 3 / 2 ^ 53 ∧
    |(kahanStep r (s, c) x).1 - (kahanStep r (s, c) x).2 - (P + x)| ≤ E + 2 * x / 2 ^ 53 + 20 / 2 ^ 106 := by
  obtain ⟨c1, c2⟩ := abs_le.mp hc
  obtain ⟨E1, E2⟩ := abs_le.mp hE
  simp only [kahanStep]
  norm_num at c1 c2
  -- the corrected term
  have hxc : |x - c| ≤ x + 3 / 2 ^ 53 := by rw [abs_le]; constructor <;> norm_num <;> linarith
  have y0 := hr (x - c) (by rw [abs_le]; constructor <;> linarith)
  obtain ⟨y1, y2⟩ := abs_le.mp (y0.trans (add_le_add_left (div_le_div_of_nonneg_right hxc (by norm_num)) _))
  set y := r (x - c) with hy
  norm_num at y1 y2
  -- the new sum
  have hsy : |s + y| ≤ 12 / 10 := by rw [abs_le]; constructor <;> linarith
  have t0 := hr (s + y) (by linarith)
  obtain ⟨t1, t2⟩ := abs_le.mp (t0.trans (add_le_add_left (div_le_div_of_nonneg_right hsy (by norm_num)) _))
  set t := r (s + y) with ht
  norm_num at t1 t2
  -- what was added
  have hts : |t - s| ≤ x + 10 / 2 ^ 53 := by rw [abs_le]; constructor <;> norm_num <;> linarith
  have d0 := hr (t - s) (by norm_num at hts ⊢; linarith)
  obtain ⟨d1, d2⟩ := abs_le.mp (d0.trans (add_le_add_left (div_le_div_of_nonneg_right hts (by norm_num)) _))
  set D := r (t - s) with hD
  norm_num at d1 d2
  -- the compensation
  have hDy : |D - y| ≤ 5 / 2 / 2 ^ 53 := by rw [abs_le]; constructor <;> norm_num <;> linarith
  have g0 := hr (D - y) (by norm_num at hDy ⊢; linarith)
  obtain ⟨g1, g2⟩ := abs_le.mp (g0.trans (add_le_add_left (div_le_div_of_nonneg_right hDy (by norm_num)) _))
  obtain ⟨h1, h2⟩ := abs_le.mp hDy
  set C := r (D - y) with hC
  norm_num at g1 g2 h1 h2
  constructor
  · rw [abs_le]
    constructor <;> norm_num <;> linarith
  · rw [abs_le]
    constructor <;> norm_num <;> linarith

theorem kahan_fold (r : ℚ → ℚ) (hr : Rounds r) (l : List ℚ) : ∀ (s c P : ℚ) (k : Nat), (∀ x ∈ l, 0 ≤ x) → 0 ≤ P → P + l.sum ≤ 11 / 10 →
    |s - c - P| ≤ 2 * P / 2 ^ 53 + k * (20 / 2 ^ 106) → |c| ≤ 3 / 2 ^ 53 → k + l.length ≤ 2 ^ 30 →
    |(l.foldl (kahanStep r) (s, c)).1 - (P + l.sum)| ≤ 6 / 2 ^ 53 := by
  induction l with
  | nil =>
    intro s c P k _ hP hs hE hc hk
    obtain ⟨c1, c2⟩ := abs_le.mp hc
    have hkq : (k : ℚ) ≤ 2 ^ 30 := by exact_mod_cast (by simpa using hk)
    have hE' : |s - c - P| ≤ 5 / 2 / 2 ^ 53 := by
      refine hE.trans ?_
      have : (k : ℚ) * (20 / 2 ^ 106) ≤ 2 ^ 30 * (20 / 2 ^ 106) := mul_le_mul_of_nonneg_right hkq (by norm_num)
      simp only [List.sum_nil, add_zero] at hs
      norm_num at this ⊢
      linarith
    obtain ⟨e1, e2⟩ := abs_le.mp hE'
    simp only [List.foldl_nil, List.sum_nil, add_zero]
    norm_num at c1 c2 e1 e2
    rw [abs_le]
    constructor <;> norm_num <;> linarith
  | cons x l ih =>
    intro s c P k hx hP hs hE hc hk
    have hx0 := hx x List.mem_cons_self
    have hl0 : 0 ≤ l.sum := List.sum_nonneg fun y hy => hx y (List.mem_cons_of_mem _ hy)
    rw [List.sum_cons] at hs
    rw [List.length_cons] at hk
    have hkq : (k : ℚ) ≤ 2 ^ 30 := by exact_mod_cast (by omega : k ≤ 2 ^ 30)
    have hE' : 2 * P / 2 ^ 53 + k * (20 / 2 ^ 106) ≤ 1 / 100 := by
      have : (k : ℚ) * (20 / 2 ^ 106) ≤ 2 ^ 30 * (20 / 2 ^ 106) := mul_le_mul_of_nonneg_right hkq (by norm_num)
      norm_num at this ⊢
      linarith
    obtain ⟨a1, a2⟩ := kahanStep_near r hr s c x P _ hx0 hP (by linarith) hE hE' hc
    rw [List.foldl_cons, List.sum_cons, ← add_assoc]
    refine ih (kahanStep r (s, c) x).1 (kahanStep r (s, c) x).2 (P + x) (k + 1) (fun y hy => hx y (List.mem_cons_of_mem _ hy)) (by linarith) (by linarith) ?_ a1 (by omega)
    refine a2.trans (le_of_eq ?_)
    push_cast
    ring

/-- The compensated sum of up to `2 ^ 30` numbers, none negative and of sum up to 1.1, is within `6 / 2 ^ 53` of their sum. -/
theorem kahan_near (r : ℚ → ℚ) (hr : Rounds r) (p : List ℚ) (hp : ∀ x ∈ p, 0 ≤ x) (hs : p.sum ≤ 11 / 10) (hn : p.length ≤ 2 ^ 30) :
    |kahan r p - p.sum| ≤ 6 / 2 ^ 53 := by
  cases p with
  | nil => simp only [kahan, List.sum_nil, sub_self, abs_zero]; norm_num
  | cons x l =>
    have hx0 := hp x List.mem_cons_self
    rw [List.sum_cons] at hs ⊢
    rw [List.length_cons] at hn
    refine kahan_fold r hr l x 0 x 0 (fun y hy => hp y (List.mem_cons_of_mem _ hy)) hx0 hs ?_ (by rw [abs_zero]; norm_num) (by omega)
    simp only [sub_zero, sub_self, abs_zero]
    positivity

/-- Numbers, none negative, whose sum is within `3 / 4 * 2 ^ -26` of 1 pass the check of `np.random.choice`. -/
theorem probabilitiesOk_of_near (r : ℚ → ℚ) (hr : Rounds r) (p : List ℚ) (hp : ∀ x ∈ p, 0 ≤ x) (hs : |p.sum - 1| ≤ 3 / 4 / 2 ^ 26) (hn : p.length ≤ 2 ^ 30) :
    probabilitiesOk r p = true := by
  obtain ⟨s1, s2⟩ := abs_le.mp hs
  norm_num at s1 s2
  obtain ⟨k1, k2⟩ := abs_le.mp (kahan_near r hr p hp (by linarith) hn)
  norm_num at k1 k2
  have h0 : |kahan r p - 1| ≤ 7 / 8 / 2 ^ 26 := by rw [abs_le]; constructor <;> norm_num <;> linarith
  have h1 := hr (kahan r p - 1) (h0.trans (by norm_num))
  obtain ⟨m1, m2⟩ := abs_le.mp (h1.trans (add_le_add_left (div_le_div_of_nonneg_right h0 (by norm_num)) _))
  obtain ⟨n1, n2⟩ := abs_le.mp h0
  norm_num at m1 m2 n1 n2
  have h2 : |r (kahan r p - 1)| ≤ 1 / 2 ^ 26 := by rw [abs_le]; constructor <;> norm_num <;> linarith
  unfold probabilitiesOk
  rw [Bool.and_eq_true]
  exact ⟨List.all_eq_true.mpr fun x hx => decide_eq_true (hp x hx), decide_eq_true h2⟩

end Glimpse.FloatResample
