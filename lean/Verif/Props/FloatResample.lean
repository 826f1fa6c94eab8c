import Verif.Props.Kahan
import Verif.Model.FloatResample
import Verif.Props.Resample
import Verif.Props.Double
import Mathlib.Algebra.Order.Ring.Pow
import Mathlib.Data.List.GetD

/-!
C124: resampling of particles in double precision.
-/
set_option autoImplicit false
set_option linter.unusedSimpArgs false
set_option linter.unusedSectionVars false

namespace Glimpse.FloatResample
open Glimpse Glimpse.Resample Glimpse.Double

/-- Relative error of one operation. -/
def ε : ℚ := 1 / 2 ^ 53

theorem ε_pos : 0 < ε := by unfold ε; norm_num
theorem ε_small : ε ≤ 1 / 2 ^ 53 := le_refl _

theorem near_pos {r : ℚ → ℚ} (hr : Nearest r) (x : ℚ) (hx : 0 ≤ x) : (1 - ε) * x ≤ r x ∧ r x ≤ (1 + ε) * x := by
  have := hr.near x
  rw [abs_of_nonneg hx] at this
  obtain ⟨h1, h2⟩ := abs_le.mp this
  unfold ε
  constructor <;> linarith

theorem r_nonneg {r : ℚ → ℚ} (hr : Nearest r) (x : ℚ) (hx : 0 ≤ x) : 0 ≤ r x := by
  have := hr.mono _ _ hx
  rwa [(hr.eq_zero_iff 0).mpr rfl] at this

/-! ### Sums in any order -/

theorem Summed.length_pos {r : ℚ → ℚ} {l : List ℚ} {s : ℚ} (h : Summed r l s) : 0 < l.length := by
  induction h with
  | one x => simp
  | add h1 h2 i1 i2 => simp; omega
  | perm hp _ ih => rwa [← hp.length_eq]

theorem Summed.bounds {r : ℚ → ℚ} (hr : Nearest r) {l : List ℚ} {s : ℚ} (h : Summed r l s) (hl : ∀ x ∈ l, 0 ≤ x) :
    (1 - ε) ^ (l.length - 1) * l.sum ≤ s ∧ s ≤ (1 + ε) ^ (l.length - 1) * l.sum := by
  have e0 := ε_pos
  have e1 : ε ≤ 1 / 2 := by unfold ε; norm_num
  induction h with
  | one x => simp
  | @add l₁ l₂ s₁ s₂ h1 h2 i1 i2 =>
    have n1 := h1.length_pos
    have n2 := h2.length_pos
    have hl1 : ∀ x ∈ l₁, 0 ≤ x := fun x hx => hl x (List.mem_append_left _ hx)
    have hl2 : ∀ x ∈ l₂, 0 ≤ x := fun x hx => hl x (List.mem_append_right _ hx)
    obtain ⟨a1, a2⟩ := i1 hl1
    obtain ⟨b1, b2⟩ := i2 hl2
    have p1 : 0 ≤ l₁.sum := List.sum_nonneg hl1
    have p2 : 0 ≤ l₂.sum := List.sum_nonneg hl2
    have k1 : l₁.length - 1 ≤ l₁.length + l₂.length - 2 := by omega
    have k2 : l₂.length - 1 ≤ l₁.length + l₂.length - 2 := by omega
    have kk : (l₁ ++ l₂).length - 1 = (l₁.length + l₂.length - 2) + 1 := by rw [List.length_append]; omega
    rw [kk, List.sum_append]
    set m := l₁.length + l₂.length - 2
    have lo1 : (1 - ε) ^ m ≤ (1 - ε) ^ (l₁.length - 1) := pow_le_pow_of_le_one (by linarith) (by linarith) k1
    have lo2 : (1 - ε) ^ m ≤ (1 - ε) ^ (l₂.length - 1) := pow_le_pow_of_le_one (by linarith) (by linarith) k2
    have hi1 : (1 + ε) ^ (l₁.length - 1) ≤ (1 + ε) ^ m := pow_le_pow_right₀ (by linarith) k1
    have hi2 : (1 + ε) ^ (l₂.length - 1) ≤ (1 + ε) ^ m := pow_le_pow_right₀ (by linarith) k2
    have L1 := mul_le_mul_of_nonneg_right lo1 p1
    have L2 := mul_le_mul_of_nonneg_right lo2 p2
    have H1 := mul_le_mul_of_nonneg_right hi1 p1
    have H2 := mul_le_mul_of_nonneg_right hi2 p2
    have q0 : 0 ≤ (1 - ε) ^ m := pow_nonneg (by linarith) m
    have s0 : 0 ≤ s₁ + s₂ := by
      have := mul_nonneg q0 p1
      have := mul_nonneg q0 p2
      linarith
    obtain ⟨c1, c2⟩ := near_pos hr _ s0
    constructor
    · refine le_trans ?_ c1
      have : (1 - ε) ^ m * (l₁.sum + l₂.sum) ≤ s₁ + s₂ := by linarith
      have := mul_le_mul_of_nonneg_left this (by linarith : 0 ≤ 1 - ε)
      calc _ = (1 - ε) * ((1 - ε) ^ m * (l₁.sum + l₂.sum)) := by ring
        _ ≤ _ := this
    · refine le_trans c2 ?_
      have : s₁ + s₂ ≤ (1 + ε) ^ m * (l₁.sum + l₂.sum) := by linarith
      have := mul_le_mul_of_nonneg_left this (by linarith : 0 ≤ 1 + ε)
      calc _ ≤ (1 + ε) * ((1 + ε) ^ m * (l₁.sum + l₂.sum)) := this
        _ = _ := by ring
  | @perm l₁ l₂ s hp _ ih =>
    have := ih (fun x hx => hl x (hp.subset hx))
    rw [hp.length_eq, hp.sum_eq] at this
    exact this

/-- Whole numbers (up to `2 ^ 53`) are added without error. -/
theorem Summed.int {r : ℚ → ℚ} (hr : Nearest r) {l : List ℚ} {s : ℚ} (h : Summed r l s)
    (hl : ∀ x ∈ l, ∃ n : Nat, x = n) (hs : l.sum ≤ 2 ^ 53) : s = l.sum := by
  induction h with
  | one x => simp
  | @add l₁ l₂ s₁ s₂ h1 h2 i1 i2 =>
    have hl1 : ∀ x ∈ l₁, ∃ n : Nat, x = n := fun x hx => hl x (List.mem_append_left _ hx)
    have hl2 : ∀ x ∈ l₂, ∃ n : Nat, x = n := fun x hx => hl x (List.mem_append_right _ hx)
    have nat : ∀ l : List ℚ, (∀ x ∈ l, ∃ n : Nat, x = n) → ∃ n : Nat, l.sum = n := by
      intro l
      induction l with
      | nil => intro _; exact ⟨0, by simp⟩
      | cons x l ih =>
        intro hh
        obtain ⟨a, ha⟩ := hh x List.mem_cons_self
        obtain ⟨b, hb⟩ := ih (fun y hy => hh y (List.mem_cons_of_mem _ hy))
        exact ⟨a + b, by rw [List.sum_cons, ha, hb]; push_cast; rfl⟩
    obtain ⟨a, ha⟩ := nat l₁ hl1
    obtain ⟨b, hb⟩ := nat l₂ hl2
    rw [List.sum_append] at hs ⊢
    have a0 : (0 : ℚ) ≤ a := by positivity
    have b0 : (0 : ℚ) ≤ b := by positivity
    rw [i1 hl1 (by rw [ha, hb] at hs; rw [ha]; linarith), i2 hl2 (by rw [ha, hb] at hs; rw [hb]; linarith)]
    rw [ha, hb] at hs ⊢
    have e : (a : ℚ) + b = ((a + b : ℤ) : ℚ) := by push_cast; rfl
    rw [e] at hs ⊢
    apply hr.exact _ (isDouble_int _ _)
    have : (a : ℤ) + b ≤ 2 ^ 53 := by exact_mod_cast hs
    rw [abs_of_nonneg (by positivity)]
    exact this
  | @perm l₁ l₂ s hp _ ih =>
    rw [← hp.sum_eq] at hs ⊢
    exact ih (fun x hx => hl x (hp.subset hx)) hs

/-! ### Running sums -/

theorem cumFrom_length (r : ℚ → ℚ) (l : List ℚ) (acc : ℚ) : (cumFrom r acc l).length = l.length := by
  induction l generalizing acc with
  | nil => rfl
  | cons x l ih => simp [cumFrom, ih]

theorem cumsumF_length (r : ℚ → ℚ) (l : List ℚ) : (cumsumF r l).length = l.length := by
  cases l with
  | nil => rfl
  | cons x l => simp [cumsumF, cumFrom_length]

theorem cumFrom_summed (r : ℚ → ℚ) (pre l : List ℚ) (acc : ℚ) (h : Summed r pre acc) (k : Nat) (hk : k < (cumFrom r acc l).length) :
    Summed r (pre ++ l.take (k + 1)) (cumFrom r acc l)[k] := by
  induction l generalizing pre acc k with
  | nil => simp [cumFrom] at hk
  | cons x l ih =>
    have h1 : Summed r (pre ++ [x]) (r (acc + x)) := h.add (.one x)
    cases k with
    | zero => simpa [cumFrom] using h1
    | succ k =>
      have := ih (pre ++ [x]) (r (acc + x)) h1 k (by simpa [cumFrom] using hk)
      simpa [cumFrom] using this

theorem cumsumF_summed (r : ℚ → ℚ) (l : List ℚ) (k : Nat) (hk : k < (cumsumF r l).length) :
    Summed r (l.take (k + 1)) (cumsumF r l)[k] := by
  cases l with
  | nil => simp [cumsumF] at hk
  | cons x l =>
    cases k with
    | zero => simpa [cumsumF] using Summed.one x
    | succ k =>
      have := cumFrom_summed r [x] l x (.one x) k (by simpa [cumsumF] using hk)
      simpa [cumsumF] using this

theorem cumFrom_sorted {r : ℚ → ℚ} (hr : Nearest r) (l : List ℚ) (hl : ∀ x ∈ l, 0 ≤ x) (acc : ℚ) (ha : r acc = acc) :
    (∀ y ∈ cumFrom r acc l, acc ≤ y) ∧ (cumFrom r acc l).Pairwise (· ≤ ·) := by
  induction l generalizing acc with
  | nil => simp [cumFrom]
  | cons x l ih =>
    have hx := hl x List.mem_cons_self
    have hle : acc ≤ r (acc + x) := by
      have := hr.mono acc (acc + x) (by linarith)
      rwa [ha] at this
    have hd : r (r (acc + x)) = r (acc + x) := hr.exact _ (hr.double _)
    obtain ⟨i1, i2⟩ := ih (fun y hy => hl y (List.mem_cons_of_mem _ hy)) (r (acc + x)) hd
    simp only [cumFrom, List.mem_cons, List.pairwise_cons]
    refine ⟨?_, i1, i2⟩
    rintro y (rfl | hy)
    · exact hle
    · exact hle.trans (i1 y hy)

theorem cumsumF_sorted {r : ℚ → ℚ} (hr : Nearest r) (l : List ℚ) (hl : ∀ x ∈ l, 0 ≤ x) (hd : ∀ x ∈ l, r x = x) :
    (cumsumF r l).Pairwise (· ≤ ·) := by
  cases l with
  | nil => simp [cumsumF]
  | cons x l =>
    obtain ⟨i1, i2⟩ := cumFrom_sorted hr l (fun y hy => hl y (List.mem_cons_of_mem _ hy)) x (hd x List.mem_cons_self)
    simp only [cumsumF, List.pairwise_cons]
    exact ⟨i1, i2⟩

/-- Adding a zero changes nothing. -/
theorem cumFrom_zero {r : ℚ → ℚ} (l : List ℚ) (acc : ℚ) (ha : r acc = acc) (hr : Nearest r) (k : Nat) (hk : k + 1 < (cumFrom r acc l).length)
    (hz : l.getD (k + 1) 0 = 0) : (cumFrom r acc l)[k + 1] = (cumFrom r acc l)[k] := by
  induction l generalizing acc k with
  | nil => simp [cumFrom] at hk
  | cons x l ih =>
    have hd : r (r (acc + x)) = r (acc + x) := hr.exact _ (hr.double _)
    cases k with
    | zero =>
      cases l with
      | nil => simp [cumFrom] at hk
      | cons y l =>
        have hy : y = 0 := by simpa using hz
        simp [cumFrom, hy, hd]
    | succ k =>
      have := ih (r (acc + x)) hd k (by simpa [cumFrom] using hk) (by simpa using hz)
      simpa [cumFrom] using this

theorem cumsumF_zero {r : ℚ → ℚ} (hr : Nearest r) (l : List ℚ) (hd : ∀ x ∈ l, r x = x) (k : Nat) (hk : k + 1 < (cumsumF r l).length)
    (hz : l.getD (k + 1) 0 = 0) : (cumsumF r l)[k + 1] = (cumsumF r l)[k] := by
  cases l with
  | nil => simp [cumsumF] at hk
  | cons x l =>
    cases k with
    | zero =>
      cases l with
      | nil => simp [cumsumF, cumFrom] at hk
      | cons y l =>
        have hy : y = 0 := by simpa using hz
        have := hd x List.mem_cons_self
        simp [cumsumF, cumFrom, hy, this]
    | succ k =>
      have := cumFrom_zero l x (hd x List.mem_cons_self) hr k (by simpa [cumsumF] using hk) (by simpa using hz)
      simpa [cumsumF] using this

/-! ### Normalized weights -/

section
variable {r : ℚ → ℚ} (hr : Nearest r) {sum : List ℚ → ℚ} (hsum : SumsInSomeOrder r sum) {w : List ℚ} (hw : Weights w)
include hr hsum hw

theorem w_ne : w ≠ [] := by
  intro e; have := hw.pos; rw [e] at this; simp at this

theorem sum_bounds : (1 - ε) ^ w.length * w.sum ≤ sum w ∧ sum w ≤ (1 + ε) ^ w.length * w.sum := by
  have e0 := ε_pos
  have e1 : ε ≤ 1 / 2 := by unfold ε; norm_num
  obtain ⟨h1, h2⟩ := (hsum w (w_ne hr hsum hw)).bounds hr hw.nonneg
  have hp := hw.pos.le
  have a1 : (1 - ε) ^ w.length ≤ (1 - ε) ^ (w.length - 1) := pow_le_pow_of_le_one (by linarith) (by linarith) (by omega)
  have a2 : (1 + ε) ^ (w.length - 1) ≤ (1 + ε) ^ w.length := pow_le_pow_right₀ (by linarith) (by omega)
  exact ⟨(mul_le_mul_of_nonneg_right a1 hp).trans h1, h2.trans (mul_le_mul_of_nonneg_right a2 hp)⟩

theorem sum_pos : 0 < sum w := by
  have e1 : ε ≤ 1 / 2 := by unfold ε; norm_num
  have := (sum_bounds hr hsum hw).1
  have h2 : 0 < (1 - ε) ^ w.length * w.sum := mul_pos (pow_pos (by linarith) _) hw.pos
  linarith

theorem normF_length : (normF r sum w).length = w.length := by simp [normF]

theorem normF_mem (x : ℚ) (hx : x ∈ normF r sum w) : 0 ≤ x ∧ r x = x := by
  simp only [normF, List.mem_map] at hx
  obtain ⟨y, hy, rfl⟩ := hx
  exact ⟨r_nonneg hr _ (div_nonneg (hw.nonneg y hy) (sum_pos hr hsum hw).le), hr.exact _ (hr.double _)⟩

/-- The sum of the first normalized weights. -/
theorem normF_take_sum (k : Nat) : (1 - ε) * ((w.take k).sum / sum w) ≤ ((normF r sum w).take k).sum ∧
    ((normF r sum w).take k).sum ≤ (1 + ε) * ((w.take k).sum / sum w) := by
  have hs := sum_pos hr hsum hw
  have key : ∀ l : List ℚ, (∀ x ∈ l, 0 ≤ x) →
      (1 - ε) * (l.sum / sum w) ≤ (l.map fun x => r (x / sum w)).sum ∧ (l.map fun x => r (x / sum w)).sum ≤ (1 + ε) * (l.sum / sum w) := by
    intro l
    induction l with
    | nil => intro _; simp
    | cons x l ih =>
      intro hl
      obtain ⟨i1, i2⟩ := ih (fun y hy => hl y (List.mem_cons_of_mem _ hy))
      obtain ⟨n1, n2⟩ := near_pos hr (x / sum w) (div_nonneg (hl x List.mem_cons_self) hs.le)
      simp only [List.map_cons, List.sum_cons, add_div]
      constructor <;> linarith
  unfold normF
  rw [← List.map_take]
  exact key _ (fun x hx => hw.nonneg x (List.mem_of_mem_take hx))

theorem cumF_length : (cumF r sum w).length = w.length := by simp [cumF, cumsumF_length, normF]

theorem cumF_sorted : (cumF r sum w).Pairwise (· ≤ ·) :=
  cumsumF_sorted hr _ (fun x hx => (normF_mem hr hsum hw x hx).1) (fun x hx => (normF_mem hr hsum hw x hx).2)

/-- The running sum of the normalized weights is near to the exact share. -/
theorem cumF_near (hn : w.length ≤ 2 ^ 50) (k : Nat) (hk : k < (cumF r sum w).length) :
    |(cumF r sum w)[k] - cumShare w (k + 1)| ≤ 4 * w.length * ε := by
  have e0 := ε_pos
  have e1 : ε ≤ 1 / 2 := by unfold ε; norm_num
  have hk' : k < w.length := by rwa [cumF_length hr hsum hw] at hk
  have hs := sum_pos hr hsum hw
  obtain ⟨s1, s2⟩ := sum_bounds hr hsum hw
  obtain ⟨t1, t2⟩ := normF_take_sum hr hsum hw (k + 1)
  have hb := (cumsumF_summed r (normF r sum w) k hk).bounds hr
    (fun x hx => (normF_mem hr hsum hw x (List.mem_of_mem_take hx)).1)
  have hlen : ((normF r sum w).take (k + 1)).length - 1 = k := by
    rw [List.length_take, normF_length hr hsum hw]; omega
  rw [hlen] at hb
  obtain ⟨b1, b2⟩ := hb
  change _ ≤ (cumF r sum w)[k] at b1
  change (cumF r sum w)[k] ≤ _ at b2
  set c := (cumF r sum w)[k]
  set T := (w.take (k + 1)).sum with hT
  have T0 : 0 ≤ T := List.sum_nonneg (fun x hx => hw.nonneg x (List.mem_of_mem_take hx))
  have hTs : T / sum w * sum w = T := div_mul_cancel₀ _ hs.ne'
  have q0 : 0 ≤ T / sum w := div_nonneg T0 hs.le
  set q := T / sum w
  set m := w.length with hm
  have p1 : (0 : ℚ) ≤ (1 - ε) ^ m := pow_nonneg (by linarith) _
  have p2 : (0 : ℚ) ≤ (1 + ε) ^ m := pow_nonneg (by linarith) _
  have pp : (1 + ε) ^ m * (1 - ε) ^ m ≤ 1 := by
    rw [← mul_pow]; exact pow_le_one₀ (by nlinarith) (by nlinarith)
  -- `c` in terms of `q`
  have c1 : (1 - ε) ^ m * q ≤ c := by
    have h1 : (1 - ε) ^ m ≤ (1 - ε) ^ (k + 1) := pow_le_pow_of_le_one (by linarith) (by linarith) (by omega)
    have h2 := mul_le_mul_of_nonneg_right h1 q0
    have h3 := mul_le_mul_of_nonneg_left t1 (pow_nonneg (by linarith : (0 : ℚ) ≤ 1 - ε) k)
    calc _ ≤ _ := h2
      _ = (1 - ε) ^ k * ((1 - ε) * q) := by ring
      _ ≤ _ := h3.trans b1
  have c2 : c ≤ (1 + ε) ^ m * q := by
    have h1 : (1 + ε) ^ (k + 1) ≤ (1 + ε) ^ m := pow_le_pow_right₀ (by linarith) (by omega)
    have h2 := mul_le_mul_of_nonneg_right h1 q0
    have h3 := mul_le_mul_of_nonneg_left t2 (pow_nonneg (by linarith : (0 : ℚ) ≤ 1 + ε) k)
    calc c ≤ (1 + ε) ^ k * ((1 + ε) * q) := b2.trans h3
      _ = (1 + ε) ^ (k + 1) * q := by ring
      _ ≤ _ := h2
  have c0 : 0 ≤ c := (mul_nonneg p1 q0).trans c1
  have W0 := hw.pos
  set tot := w.sum
  have bern : 1 - 2 * m * ε ≤ (1 - ε) ^ m * (1 - ε) ^ m := by
    have := one_add_mul_le_pow (by linarith : (-2 : ℚ) ≤ -ε) (m + m)
    rw [← pow_add]
    push_cast at this
    calc 1 - 2 * m * ε = 1 + (m + m) * -ε := by ring
      _ ≤ (1 + -ε) ^ (m + m) := this
      _ = _ := by ring
  -- lower: `(1 - 2 m ε) T ≤ c Σ`
  have lo : (1 - 2 * m * ε) * T ≤ c * tot := by
    calc (1 - 2 * m * ε) * T ≤ ((1 - ε) ^ m * (1 - ε) ^ m) * T := mul_le_mul_of_nonneg_right bern T0
      _ = (1 - ε) ^ m * (((1 - ε) ^ m * q) * sum w) := by rw [← hTs]; ring
      _ ≤ (1 - ε) ^ m * (c * sum w) := mul_le_mul_of_nonneg_left (mul_le_mul_of_nonneg_right c1 hs.le) p1
      _ ≤ (1 - ε) ^ m * (c * ((1 + ε) ^ m * tot)) := mul_le_mul_of_nonneg_left (mul_le_mul_of_nonneg_left s2 c0) p1
      _ = ((1 + ε) ^ m * (1 - ε) ^ m) * (c * tot) := by ring
      _ ≤ 1 * (c * tot) := mul_le_mul_of_nonneg_right pp (mul_nonneg c0 W0.le)
      _ = c * tot := one_mul _
  have hi : (1 - 2 * m * ε) * (c * tot) ≤ T := by
    calc (1 - 2 * m * ε) * (c * tot) ≤ ((1 - ε) ^ m * (1 - ε) ^ m) * (c * tot) := mul_le_mul_of_nonneg_right bern (mul_nonneg c0 W0.le)
      _ = (1 - ε) ^ m * (c * ((1 - ε) ^ m * tot)) := by ring
      _ ≤ (1 - ε) ^ m * (c * sum w) := mul_le_mul_of_nonneg_left (mul_le_mul_of_nonneg_left s1 c0) p1
      _ ≤ (1 - ε) ^ m * (((1 + ε) ^ m * q) * sum w) := mul_le_mul_of_nonneg_left (mul_le_mul_of_nonneg_right c2 hs.le) p1
      _ = ((1 + ε) ^ m * (1 - ε) ^ m) * T := by rw [← hTs]; ring
      _ ≤ 1 * T := mul_le_mul_of_nonneg_right pp T0
      _ = T := one_mul _
  have hC : cumShare w (k + 1) = T / tot := rfl
  have hC1 : cumShare w (k + 1) ≤ 1 := by
    have := cumShare_mono w hw (k + 1) w.length (by omega)
    rwa [cumShare_full w hw] at this
  rw [hC] at hC1 ⊢
  set C := T / tot
  have hTC : T = C * tot := (div_mul_cancel₀ _ W0.ne').symm
  have C0 : 0 ≤ C := div_nonneg T0 W0.le
  rw [hTC] at lo hi
  have lo' : (1 - 2 * m * ε) * C ≤ c := by
    have : ((1 - 2 * m * ε) * C) * tot ≤ c * tot := by linarith
    exact le_of_mul_le_mul_right this W0
  have hi' : (1 - 2 * m * ε) * c ≤ C := by
    have : ((1 - 2 * m * ε) * c) * tot ≤ C * tot := by linarith
    exact le_of_mul_le_mul_right this W0
  have hmq : (m : ℚ) ≤ 2 ^ 50 := by exact_mod_cast hn
  have hme : 2 * (m : ℚ) * ε ≤ 1 / 2 := by
    calc 2 * (m : ℚ) * ε ≤ 2 * 2 ^ 50 * ε := by gcongr
      _ ≤ 1 / 2 := by unfold ε; norm_num
  have m0 : 0 ≤ 2 * (m : ℚ) * ε := by positivity
  have cle : c ≤ 2 := by nlinarith
  rw [abs_le]
  constructor
  · have := mul_le_mul_of_nonneg_left hC1 m0
    linarith
  · have := mul_le_mul_of_nonneg_left cle m0
    linarith

end

/-! ### Positions -/

theorem position_near {r : ℚ → ℚ} (hr : Nearest r) (n k : Nat) (hk : k < n) (u : ℚ) (h0 : 0 ≤ u) (h1 : u < 1) :
    |position r n k u - ((k : ℚ) + u) / n| ≤ 4 * ε := by
  have e0 := ε_pos
  have e1 : ε ≤ 1 / 8 := by unfold ε; norm_num
  have hn : (0 : ℚ) < n := by exact_mod_cast (by omega : 0 < n)
  have hk' : (k : ℚ) + 1 ≤ n := by exact_mod_cast hk
  have hk0 : (0 : ℚ) ≤ k := by positivity
  set x := (k : ℚ) + u with hx
  have x0 : 0 ≤ x := by linarith
  obtain ⟨a1, a2⟩ := near_pos hr x x0
  set y := 1 / (n : ℚ) with hy
  have y0 : 0 ≤ y := by positivity
  obtain ⟨b1, b2⟩ := near_pos hr y y0
  have rx0 := r_nonneg hr x x0
  have ry0 := r_nonneg hr y y0
  obtain ⟨c1, c2⟩ := near_pos hr (r x * r y) (mul_nonneg rx0 ry0)
  have xy : x / n = x * y := by rw [hy]; ring
  have xy1 : x * y ≤ 1 := by
    rw [← xy, div_le_one hn]; linarith
  have xy0 : 0 ≤ x * y := mul_nonneg x0 y0
  have p1 : (1 - ε) * (1 - ε) * (x * y) ≤ r x * r y := by
    calc _ = ((1 - ε) * x) * ((1 - ε) * y) := by ring
      _ ≤ r x * r y := mul_le_mul a1 b1 (mul_nonneg (by linarith) y0) rx0
  have p2 : r x * r y ≤ (1 + ε) * (1 + ε) * (x * y) := by
    calc r x * r y ≤ ((1 + ε) * x) * ((1 + ε) * y) := mul_le_mul a2 b2 ry0 (mul_nonneg (by linarith) x0)
      _ = _ := by ring
  unfold position
  rw [xy]
  have q1 := mul_le_mul_of_nonneg_left p1 (by linarith : 0 ≤ 1 - ε)
  have q2 := mul_le_mul_of_nonneg_left p2 (by linarith : 0 ≤ 1 + ε)
  have f1 : (1 - 3 * ε) * (x * y) ≤ (1 - ε) * ((1 - ε) * (1 - ε) * (x * y)) := by
    have : 1 - 3 * ε ≤ (1 - ε) * ((1 - ε) * (1 - ε)) := by
      have := mul_nonneg (mul_nonneg e0.le e0.le) (by linarith : (0 : ℚ) ≤ 3 - ε)
      linarith
    have := mul_le_mul_of_nonneg_right this xy0
    linarith
  have f2 : (1 + ε) * ((1 + ε) * (1 + ε) * (x * y)) ≤ (1 + 4 * ε) * (x * y) := by
    have : (1 + ε) * ((1 + ε) * (1 + ε)) ≤ 1 + 4 * ε := by
      have h2 := mul_le_mul_of_nonneg_left e1 e0.le
      have h3 := mul_le_mul_of_nonneg_left e1 (mul_nonneg e0.le e0.le)
      linarith
    have := mul_le_mul_of_nonneg_right this xy0
    linarith
  have g := mul_le_mul_of_nonneg_left xy1 e0.le
  rw [abs_le]
  constructor <;> nlinarith

theorem position_mono {r : ℚ → ℚ} (hr : Nearest r) (n : Nat) (us : Nat → ℚ) (hu : Uniform us) (j k : Nat) (hjk : j ≤ k) :
    position r n j (us j) ≤ position r n k (us k) := by
  unfold position
  have y0 : 0 ≤ r (1 / (n : ℚ)) := r_nonneg hr _ (by positivity)
  apply hr.mono
  apply mul_le_mul_of_nonneg_right _ y0
  apply hr.mono
  rcases Nat.eq_or_lt_of_le hjk with rfl | h
  · exact le_refl _
  · have : (j : ℚ) + 1 ≤ k := by exact_mod_cast h
    have := (hu j).2
    have := (hu k).1
    linarith

theorem position_pos {r : ℚ → ℚ} (hr : Nearest r) (n k : Nat) (hn : 0 < n) (u : ℚ) (h0 : 0 < u) : 0 < position r n k u := by
  have hn' : (0 : ℚ) < n := by exact_mod_cast hn
  have e1 : ε ≤ 1 / 8 := by unfold ε; norm_num
  have pos : ∀ x : ℚ, 0 < x → 0 < r x := by
    intro x hx
    have := (near_pos hr x hx.le).1
    have h2 := mul_pos (by linarith : 0 < 1 - ε) hx
    linarith
  unfold position
  exact pos _ (mul_pos (pos _ (by positivity)) (pos _ (by positivity)))

/-! ### C124 -/

/-- `np.searchsorted` on a sorted array. -/
theorem searchLeft_iff (x : List ℚ) (hx : x.Pairwise (· ≤ ·)) (p : ℚ) (i : Nat) (hi : i < x.length) :
    searchLeft x p = i ↔ (∀ h : 0 < i, x[i - 1] < p) ∧ p ≤ x[i] := by
  constructor
  · rintro rfl
    exact ⟨fun h => searchLeft_lt_of_lt x p _ (by omega) (by omega), searchLeft_le_of_ge x hx p _ (le_refl _) hi⟩
  · rintro ⟨h1, h2⟩
    by_contra hc
    rcases Nat.lt_or_gt_of_ne hc with h | h
    · have a := searchLeft_le_of_ge x hx p (i - 1) (by omega) (by omega)
      have b := h1 (by omega)
      linarith
    · have := searchLeft_lt_of_lt x p i h hi
      linarith

theorem searchLeft_lt_iff (x : List ℚ) (hx : x.Pairwise (· ≤ ·)) (h0 : 0 < x.length) (p : ℚ) :
    searchLeft x p < x.length ↔ p ≤ x[x.length - 1] := by
  constructor
  · intro h
    exact searchLeft_le_of_ge x hx p _ (by omega) (by omega)
  · intro h
    by_contra hc
    have := searchLeft_lt_of_lt x p (x.length - 1) (by omega) (by omega)
    linarith

theorem cumsumF_head (r : ℚ → ℚ) (l : List ℚ) (h : 0 < (cumsumF r l).length) : (cumsumF r l)[0] = l.getD 0 0 := by
  cases l with
  | nil => simp [cumsumF] at h
  | cons x l => simp [cumsumF]

section
variable {r : ℚ → ℚ} (hr : Nearest r) {sum : List ℚ → ℚ} (hsum : SumsInSomeOrder r sum) {w : List ℚ} (hw : Weights w)
include hr hsum hw

/-- C124: `systematic` and `stratified` draw `n` indexes in ascending order, none above `n`. -/
theorem float_stratified_sorted (us : Nat → ℚ) (hu : Uniform us) :
    (stratifiedF r sum w.length w us).length = w.length ∧ (∀ i ∈ stratifiedF r sum w.length w us, i ≤ w.length) ∧
    (stratifiedF r sum w.length w us).Pairwise (· ≤ ·) := by
  refine ⟨by simp [stratifiedF], ?_, ?_⟩
  · intro i hi
    simp only [stratifiedF, List.mem_map] at hi
    obtain ⟨k, _, rfl⟩ := hi
    have := searchLeft_le (cumF r sum w) (position r w.length k (us k))
    rwa [cumF_length hr hsum hw] at this
  · unfold stratifiedF
    rw [List.pairwise_map]
    refine List.Pairwise.imp ?_ List.pairwise_lt_range
    intro j k hjk
    exact searchLeft_mono _ _ _ (position_mono hr _ us hu j k hjk.le) (cumF_sorted hr hsum hw)

/-- C124: every index is one of a particle exactly when the last position is not beyond the last of the running sums of the weights. -/
theorem float_stratified_valid_iff (us : Nat → ℚ) (hu : Uniform us) :
    ValidDraw w.length (stratifiedF r sum w.length w us) ↔
      position r w.length (w.length - 1) (us (w.length - 1)) ≤ (cumF r sum w).getLastD 0 := by
  have hl := cumF_length hr hsum hw
  have hn := length_pos w hw
  have hlast : (cumF r sum w).getLastD 0 = (cumF r sum w)[(cumF r sum w).length - 1]'(by omega) := by
    rw [List.getLastD_eq_getLast?, List.getLast?_eq_getElem?, List.getElem?_eq_getElem (by omega)]
    rfl
  rw [hlast]
  have hiff := searchLeft_lt_iff (cumF r sum w) (cumF_sorted hr hsum hw) (by omega)
  unfold ValidDraw
  constructor
  · rintro ⟨_, h⟩
    rw [← hiff, hl]
    apply h
    unfold stratifiedF
    exact List.mem_map.mpr ⟨w.length - 1, by simp; omega, rfl⟩
  · intro h
    refine ⟨by simp [stratifiedF], ?_⟩
    intro i hi
    simp only [stratifiedF, List.mem_map, List.mem_range] at hi
    obtain ⟨k, hk, rfl⟩ := hi
    have h2 := (hiff _).mpr ((position_mono hr w.length us hu k (w.length - 1) (by omega)).trans h)
    rw [hl] at h2
    exact h2

/-- C124: so it is, unless the last random number is within `10 n² / 2 ^ 53` of 1. -/
theorem float_stratified_valid (hn : w.length ≤ 2 ^ 50) (us : Nat → ℚ) (hu : Uniform us)
    (hlast : us (w.length - 1) ≤ 1 - 10 * (w.length : ℚ) ^ 2 / 2 ^ 53) : ValidDraw w.length (stratifiedF r sum w.length w us) := by
  rw [float_stratified_valid_iff hr hsum hw us hu]
  have hl := cumF_length hr hsum hw
  have hp := length_pos w hw
  have hlast' : (cumF r sum w).getLastD 0 = (cumF r sum w)[w.length - 1]'(by omega) := by
    rw [List.getLastD_eq_getLast?, List.getLast?_eq_getElem?, List.getElem?_eq_getElem (by omega)]
    simp only [hl, Option.getD_some]
  rw [hlast']
  have h1 := cumF_near hr hsum hw hn (w.length - 1) (by omega)
  rw [Nat.sub_add_cancel hp, cumShare_full w hw] at h1
  have h2 := position_near hr w.length (w.length - 1) (by omega) (us (w.length - 1)) (hu _).1 (hu _).2
  have e1 := (abs_le.mp h1).1
  have e2 := (abs_le.mp h2).2
  have n1 : (1 : ℚ) ≤ w.length := by exact_mod_cast hp
  have ec : ((w.length - 1 : ℕ) : ℚ) = w.length - 1 := by rw [Nat.cast_sub hp]; simp
  rw [ec] at e2
  set n := (w.length : ℚ)
  have h3 : (n - 1 + us (w.length - 1)) / n ≤ 1 - 10 * n / 2 ^ 53 := by
    rw [div_le_iff₀ (by linarith)]
    have : (1 - 10 * n / 2 ^ 53) * n = n - 10 * n ^ 2 / 2 ^ 53 := by ring
    rw [this]; linarith
  have h4 : 4 * n * ε + 4 * ε ≤ 10 * n / 2 ^ 53 := by
    have : 10 * n / 2 ^ 53 = 10 * n * ε := by unfold ε; ring
    rw [this]
    have := ε_pos
    nlinarith
  linarith

/-- C124: a particle of zero weight is never drawn (unless the random number is 0 exactly). -/
theorem float_zero_weight (us : Nat → ℚ) (hpos : ∀ k, 0 < us k) (i : Nat) (hi : i < w.length) (hz : w.getD i 0 = 0) :
    i ∉ stratifiedF r sum w.length w us := by
  intro hmem
  simp only [stratifiedF, List.mem_map, List.mem_range] at hmem
  obtain ⟨k, hk, hs⟩ := hmem
  have hl := cumF_length hr hsum hw
  rw [searchLeft_iff _ (cumF_sorted hr hsum hw) _ i (by omega)] at hs
  obtain ⟨h1, h2⟩ := hs
  have hnz : (normF r sum w).getD i 0 = 0 := by
    have hzero := (hr.eq_zero_iff 0).mpr rfl
    rw [List.getD_eq_getElem _ _ hi] at hz
    rw [List.getD_eq_getElem _ _ (by simpa [normF] using hi)]
    simp [normF, hz, hzero]
  have hpp := position_pos hr w.length k (by omega) (us k) (hpos k)
  cases i with
  | zero =>
    have : (cumF r sum w)[0]'(by omega) = (normF r sum w).getD 0 0 := by
      exact cumsumF_head r (normF r sum w) (by
        have : (cumsumF r (normF r sum w)).length = w.length := hl
        omega)
    rw [this, hnz] at h2
    linarith
  | succ j =>
    have := cumsumF_zero hr (normF r sum w) (fun x hx => (normF_mem hr hsum hw x hx).2) j (by
      have : (cumF r sum w).length = w.length := hl
      unfold cumF at this
      omega) hnz
    have h3 := h1 (by omega)
    have hl' : (cumsumF r (normF r sum w)).length = w.length := hl
    change _ ≤ (cumsumF r (normF r sum w))[j + 1]'(by omega) at h2
    rw [this] at h2
    simp only [Nat.add_sub_cancel] at h3
    change (cumsumF r (normF r sum w))[j]'(by omega) < _ at h3
    linarith

omit hsum hw in
theorem rounds_of_nearest : Rounds r := fun x _ => by
  have := hr.near x
  have : (0 : ℚ) ≤ 1 / 2 ^ 106 := by positivity
  linarith

/-- The sum of the normalized weights is 1 up to `2 n / 2 ^ 53`. -/
theorem normF_sum_near (hn : w.length ≤ 2 ^ 26) : |(normF r sum w).sum - 1| ≤ 3 / 4 / 2 ^ 26 := by
  have e0 := ε_pos
  have hs := sum_pos hr hsum hw
  have hp := length_pos w hw
  have W0 := hw.pos
  obtain ⟨b1, b2⟩ := sum_bounds hr hsum hw
  obtain ⟨t1, t2⟩ := normF_take_sum hr hsum hw w.length
  rw [List.take_length, List.take_of_length_le (by simp [normF])] at t1 t2
  have hnq : (w.length : ℚ) ≤ 2 ^ 26 := by exact_mod_cast hn
  have hn0 : (0 : ℚ) ≤ w.length := Nat.cast_nonneg _
  have hne : (w.length : ℚ) * ε ≤ 1 / 2 ^ 27 := by
    have : (w.length : ℚ) * ε ≤ 2 ^ 26 * ε := mul_le_mul_of_nonneg_right hnq e0.le
    refine this.trans ?_
    unfold ε
    norm_num
  have e1 : ε ≤ 1 / 2 ^ 53 := ε_small
  have hbern : 1 - (w.length : ℚ) * ε ≤ (1 - ε) ^ w.length := by
    have := one_add_mul_le_pow (a := -ε) (by unfold ε; norm_num) w.length
    rw [← sub_eq_add_neg] at this
    linarith
  have hprod : (1 + ε) ^ w.length * (1 - ε) ^ w.length ≤ 1 := by
    rw [← mul_pow]
    exact pow_le_one₀ (by unfold ε; norm_num) (by nlinarith)
  have hpos1 : 0 < (1 - ε) ^ w.length := by have h : (1 : ℚ) / 2 ^ 27 < 1 := by norm_num
                                            linarith
  -- the ratio of the sums
  have q1 : 1 - (w.length : ℚ) * ε ≤ w.sum / sum w := by
    rw [le_div_iff₀ hs]
    have h1 : (1 - (w.length : ℚ) * ε) * sum w ≤ (1 - ε) ^ w.length * sum w := mul_le_mul_of_nonneg_right hbern hs.le
    have h2 : (1 - ε) ^ w.length * sum w ≤ (1 - ε) ^ w.length * ((1 + ε) ^ w.length * w.sum) := mul_le_mul_of_nonneg_left b2 hpos1.le
    have h3 : (1 - ε) ^ w.length * ((1 + ε) ^ w.length * w.sum) ≤ w.sum := by
      rw [← mul_assoc, mul_comm ((1 - ε) ^ w.length)]
      exact mul_le_of_le_one_left W0.le hprod
    linarith
  have q2 : w.sum / sum w ≤ 1 + 11 / 10 * ((w.length : ℚ) * ε) := by
    rw [div_le_iff₀ hs]
    have h1 : (1 - (w.length : ℚ) * ε) * w.sum ≤ sum w := (mul_le_mul_of_nonneg_right hbern W0.le).trans b1
    set z := (w.length : ℚ) * ε with hz
    have hz0 : 0 ≤ z := mul_nonneg hn0 e0.le
    have hz1 : z ≤ 1 / 100 := hne.trans (by norm_num)
    have h2 : (1 + 11 / 10 * z) * ((1 - z) * w.sum) ≤ (1 + 11 / 10 * z) * sum w := mul_le_mul_of_nonneg_left h1 (by linarith)
    have h3 : 1 ≤ (1 + 11 / 10 * z) * (1 - z) := by nlinarith
    have h4 : w.sum ≤ (1 + 11 / 10 * z) * (1 - z) * w.sum := le_mul_of_one_le_left W0.le h3
    linarith
  have hne' : (w.length : ℚ) * ε ≤ 1 / 134217728 := by norm_num at hne ⊢; exact hne
  have e1' : ε ≤ 1 / 9007199254740992 := by norm_num at e1 ⊢; exact e1
  have f1 : (1 - ε) * (1 - (w.length : ℚ) * ε) ≤ (normF r sum w).sum :=
    (mul_le_mul_of_nonneg_left q1 (by linarith)).trans t1
  have f2 : (normF r sum w).sum ≤ (1 + ε) * (1 + 11 / 10 * ((w.length : ℚ) * ε)) :=
    t2.trans (mul_le_mul_of_nonneg_left q2 (by linarith))
  have hz0 : 0 ≤ (w.length : ℚ) * ε := mul_nonneg hn0 e0.le
  rw [abs_le]
  constructor
  · norm_num
    nlinarith
  · norm_num
    nlinarith

/-- C124: the normalized weights of up to `2 ^ 26` particles pass the check of `np.random.choice`, in every order of summation. -/
theorem float_choice_check (hn : w.length ≤ 2 ^ 26) : probabilitiesOk r (normF r sum w) = true :=
  probabilitiesOk_of_near r (rounds_of_nearest hr) _ (fun x hx => (normF_mem hr hsum hw x hx).1) (normF_sum_near hr hsum hw hn) (by
    rw [normF_length hr hsum hw]
    exact hn.trans (by norm_num))

/-- C124: `choice` always draws `n` existing particles. -/
theorem float_choice_valid (us : Nat → ℚ) (hu : Uniform us) : ValidDraw w.length (choiceF r sum w.length w us) := by
  have hl := cumF_length hr hsum hw
  have hp := length_pos w hw
  have hlast : (cumF r sum w).getLastD 1 = (cumF r sum w)[w.length - 1]'(by omega) := by
    rw [List.getLastD_eq_getLast?, List.getLast?_eq_getElem?, List.getElem?_eq_getElem (by omega)]
    simp only [hl, Option.getD_some]
  -- the last running sum is positive
  have hpos : 0 < (cumF r sum w)[w.length - 1]'(by omega) := by
    have e1 : ε ≤ 1 / 8 := by unfold ε; norm_num
    have hb := (cumsumF_summed r (normF r sum w) (w.length - 1) (by
      have : (cumF r sum w).length = w.length := hl
      unfold cumF at this
      omega)).bounds hr (fun x hx => (normF_mem hr hsum hw x (List.mem_of_mem_take hx)).1)
    have ht := (normF_take_sum hr hsum hw (w.length - 1 + 1)).1
    have hs := sum_pos hr hsum hw
    rw [Nat.sub_add_cancel hp, List.take_length] at ht
    rw [Nat.sub_add_cancel hp] at hb
    have h1 : 0 < (1 - ε) * (w.sum / sum w) := mul_pos (by linarith) (div_pos hw.pos hs)
    have h2 : (0 : ℚ) < (1 - ε) ^ (((normF r sum w).take w.length).length - 1) := pow_pos (by linarith) _
    have h3 := mul_pos h2 (lt_of_lt_of_le h1 ht)
    exact lt_of_lt_of_le h3 hb.1
  refine ⟨by simp [choiceF], ?_⟩
  intro i hi
  simp only [choiceF, List.mem_map, List.mem_range] at hi
  obtain ⟨k, hk, rfl⟩ := hi
  have hcl : (cdfF r sum w).length = w.length := by simp [cdfF, hl]
  by_contra hc
  have := searchRight_le_of_lt (cdfF r sum w) (us k) (w.length - 1) (by omega) (by omega)
  have h1 : (cdfF r sum w)[w.length - 1]'(by omega) = 1 := by
    simp only [cdfF, List.getElem_map, hlast]
    rw [div_self hpos.ne']
    have := hr.exact ((1 : ℤ) : ℚ) (isDouble_int 1 (by norm_num))
    simpa using this
  rw [h1] at this
  have := (hu k).2
  linarith

/-- The whole numbers of copies in `residual` do not exceed the number of particles. -/
theorem repetitionsF_sum_le (hn : w.length ≤ 2 ^ 25) : (repetitionsF r sum w.length w).sum ≤ w.length := by
  have e0 := ε_pos
  have e1 : ε ≤ 1 / 8 := by unfold ε; norm_num
  have hs := sum_pos hr hsum hw
  have W0 := hw.pos
  have hp := length_pos w hw
  set n := w.length with hnd
  have n1 : (1 : ℚ) ≤ n := by exact_mod_cast hp
  -- each is at most (1 + ε) n times the weight
  have h1 := sum_floor_le ((normF r sum w).map fun x => r ((n : ℚ) * x)) (by
    intro x hx
    simp only [List.mem_map] at hx
    obtain ⟨y, hy, rfl⟩ := hx
    have := (normF_mem hr hsum hw y hy).1
    exact r_nonneg hr _ (by positivity))
  rw [List.map_map] at h1
  have hrep : (repetitionsF r sum n w).sum = (List.map ((fun x : ℚ => ⌊x⌋.toNat) ∘ fun x => r ((n : ℚ) * x)) (normF r sum w)).sum := rfl
  rw [← hrep] at h1
  have h2 : ((normF r sum w).map fun x => r ((n : ℚ) * x)).sum ≤ (1 + ε) * (n * (normF r sum w).sum) := by
    have : ∀ l : List ℚ, (∀ x ∈ l, 0 ≤ x) → (l.map fun x => r ((n : ℚ) * x)).sum ≤ (1 + ε) * (n * l.sum) := by
      intro l
      induction l with
      | nil => intro _; simp
      | cons x l ih =>
        intro hl
        have i := ih (fun y hy => hl y (List.mem_cons_of_mem _ hy))
        have := (near_pos hr ((n : ℚ) * x) (mul_nonneg (by linarith) (hl x List.mem_cons_self))).2
        simp only [List.map_cons, List.sum_cons]
        have e : (1 + ε) * (n * (x + l.sum)) = (1 + ε) * (n * x) + (1 + ε) * (n * l.sum) := by ring
        rw [e]; linarith
    exact this _ (fun x hx => (normF_mem hr hsum hw x hx).1)
  have h3 := (normF_take_sum hr hsum hw n).2
  have t1 : (normF r sum w).take n = normF r sum w := by
    rw [hnd, ← normF_length hr hsum hw, List.take_length]
  rw [t1, hnd, List.take_length] at h3
  set S := (normF r sum w).sum
  set X := ((repetitionsF r sum n w).sum : ℚ) with hX
  obtain ⟨s1, _⟩ := sum_bounds hr hsum hw
  rw [← hnd] at s1
  have hq : w.sum / sum w * sum w = w.sum := div_mul_cancel₀ _ hs.ne'
  set q := w.sum / sum w
  have q0 : 0 < q := div_pos W0 hs
  -- q (1 - ε)^n ≤ 1
  have hq1 : (1 - ε) ^ n * q ≤ 1 := by
    have : (1 - ε) ^ n * q * sum w ≤ 1 * sum w := by
      calc _ = (1 - ε) ^ n * (q * sum w) := by ring
        _ = (1 - ε) ^ n * w.sum := by rw [hq]
        _ ≤ _ := by linarith
    exact le_of_mul_le_mul_right this hs
  have hX1 : X ≤ (1 + ε) * (n * ((1 + ε) * q)) := by
    have n0 : (0 : ℚ) ≤ n := by linarith
    have a := mul_le_mul_of_nonneg_left h3 n0
    have b := mul_le_mul_of_nonneg_left a (by linarith : (0 : ℚ) ≤ 1 + ε)
    linarith
  -- hence X (1 - ε)^(n+2) ≤ n
  have hp1 : (0 : ℚ) ≤ (1 - ε) ^ (n + 2) := pow_nonneg (by linarith) _
  have hX2 : (1 - ε) ^ (n + 2) * X ≤ n := by
    have a := mul_le_mul_of_nonneg_left hX1 hp1
    have pp : (1 - ε) * (1 + ε) ≤ 1 := by nlinarith
    have pq : ((1 - ε) * (1 + ε)) * ((1 - ε) * (1 + ε)) ≤ 1 := by nlinarith [mul_pos (by linarith : 0 < 1 - ε) (by linarith : 0 < 1 + ε)]
    have n0 : (0 : ℚ) ≤ n := by linarith
    calc _ ≤ _ := a
      _ = (((1 - ε) * (1 + ε)) * ((1 - ε) * (1 + ε))) * (n * ((1 - ε) ^ n * q)) := by ring
      _ ≤ 1 * (n * ((1 - ε) ^ n * q)) := mul_le_mul_of_nonneg_right pq (mul_nonneg n0 (mul_nonneg (pow_nonneg (by linarith) _) q0.le))
      _ ≤ 1 * (n * 1) := by gcongr
      _ = n := by ring
  have bern : 1 - (n + 2) * ε ≤ (1 - ε) ^ (n + 2) := by
    have := one_add_mul_le_pow (by linarith : (-2 : ℚ) ≤ -ε) (n + 2)
    push_cast at this
    calc 1 - (n + 2) * ε = 1 + (n + 2) * -ε := by ring
      _ ≤ (1 + -ε) ^ (n + 2) := this
      _ = _ := by ring
  have X0 : 0 ≤ X := by positivity
  have hX3 : (1 - (n + 2) * ε) * X ≤ n := (mul_le_mul_of_nonneg_right bern X0).trans hX2
  have hnq : (n : ℚ) ≤ 2 ^ 25 := by exact_mod_cast hn
  by_contra hc
  push Not at hc
  have hge : (n : ℚ) + 1 ≤ X := by rw [hX]; exact_mod_cast hc
  have hsm : (n + 2) * ε * (n + 1) < 1 := by
    calc (n + 2) * ε * (n + 1) ≤ (2 ^ 25 + 2) * ε * (2 ^ 25 + 1) := by gcongr
      _ < 1 := by unfold ε; norm_num
  have hpos : 0 < 1 - ((n : ℚ) + 2) * ε := by
    have : ((n : ℚ) + 2) * ε ≤ (n + 2) * ε * (n + 1) := by
      have : 0 ≤ ((n : ℚ) + 2) * ε := by positivity
      nlinarith
    linarith
  have := mul_le_mul_of_nonneg_left hge hpos.le
  linarith

theorem xcumsumF_length (l : List XR) (acc : XR) : (xcumsumF r acc l).length = l.length := by
  clear hr hsum hw
  induction l generalizing acc with
  | nil => rfl
  | cons x l ih => simp [xcumsumF, ih]

/-- C124: `residual` always draws `n` existing particles (of at most `2 ^ 25`). -/
theorem float_residual_valid (hn : w.length ≤ 2 ^ 25) (us : Nat → ℚ) (hu : Uniform us) :
    ValidDraw w.length (residualF r sum w.length w us) := by
  have hp := length_pos w hw
  have hle := repetitionsF_sum_le hr hsum hw hn
  have hkeys : ((List.range (w.length - (repeatIndexes (repetitionsF r sum w.length w)).length)).map fun k => XR.fin (us k)) =
      ((List.range (w.length - (repeatIndexes (repetitionsF r sum w.length w)).length)).map us).map XR.fin := by simp
  unfold residualF
  simp only [hkeys]
  set keys := (List.range (w.length - (repeatIndexes (repetitionsF r sum w.length w)).length)).map us with hk
  set a := xcumsumF r (.fin 0) (scaleF r sum (residualsF r sum w.length w)) with ha
  have hal : a.length = w.length := by
    rw [ha, xcumsumF_length hr hsum hw]
    unfold scaleF residualsF repetitionsF normF
    split <;> simp
  have hsl : (setLastOne a).length = w.length := by simp [setLastOne, hal]; omega
  have hlast : (setLastOne a)[w.length - 1]? = some (.fin 1) := by simp [setLastOne, hal]
  obtain ⟨f1, f2⟩ := npSearchSorted_fin (setLastOne a) keys
  refine ⟨?_, ?_⟩
  · rw [List.length_append, f1, hk, List.length_map, List.length_range, repeatIndexes_length]
    omega
  · intro i hi
    rcases List.mem_append.mp hi with hi | hi
    · have := repeatIndexes_lt _ i hi
      simpa [repetitionsF, normF] using this
    · obtain ⟨q, hq, hf⟩ := f2 i hi
      simp only [hk, List.mem_map] at hq
      obtain ⟨k, _, rfl⟩ := hq
      have h3 := hf.2.2
      rw [hsl] at h3
      by_contra hc
      have e : i = w.length := by omega
      have := hf.1 (.fin 1) (by omega) (by rw [e]; exact hlast)
      simp only [XR.lt, decide_eq_true_eq] at this
      have := (hu k).2
      linarith

end

/-! ### Counts -/

theorem count_upper (n : Nat) (P : Nat → Bool) (a b : ℚ) (hab : a ≤ b) (h : ∀ k < n, P k = true → a < k ∧ (k : ℚ) ≤ b) :
    ((List.range n).countP P : ℚ) < b - a + 1 := by
  set m1 : ℤ := max (-1) ⌊a⌋
  set m2 : ℤ := max m1 ⌊b⌋
  have hc := countP_between n m1 m2 (le_max_left _ _) (le_max_left _ _)
  have hle : (List.range n).countP P ≤ (List.range n).countP (fun k : Nat => decide (m1 < (k : ℤ) ∧ (k : ℤ) ≤ m2)) := by
    apply List.countP_mono_left
    intro k hk hP
    obtain ⟨h1, h2⟩ := h k (List.mem_range.mp hk) hP
    have h3 : ⌊a⌋ < (k : ℤ) := by
      have : (⌊a⌋ : ℚ) < ((k : ℤ) : ℚ) := lt_of_le_of_lt (Int.floor_le a) (by exact_mod_cast h1)
      exact_mod_cast this
    have h4 : (k : ℤ) ≤ ⌊b⌋ := Int.le_floor.mpr (by exact_mod_cast h2)
    simp only [decide_eq_true_eq]
    exact ⟨max_lt (by omega) h3, h4.trans (le_max_right _ _)⟩
  have hq : ((List.range n).countP P : ℤ) ≤ m2 - m1 := by
    have : ((List.range n).countP P : ℤ) ≤ ((List.range n).countP (fun k : Nat => decide (m1 < (k : ℤ) ∧ (k : ℤ) ≤ m2)) : ℤ) := by
      exact_mod_cast hle
    rw [hc] at this
    have h12 : m1 ≤ m2 := le_max_left _ _
    omega
  have hq' : ((List.range n).countP P : ℚ) ≤ ((m2 - m1 : ℤ) : ℚ) := by exact_mod_cast hq
  have f1 := Int.floor_le b
  have f2 := Int.lt_floor_add_one a
  have m1a : (⌊a⌋ : ℤ) ≤ m1 := le_max_right _ _
  have m1q : (⌊a⌋ : ℚ) ≤ (m1 : ℚ) := by exact_mod_cast m1a
  rcases max_choice m1 ⌊b⌋ with hm | hm
  · have : m2 = m1 := hm
    rw [this, sub_self] at hq'
    push_cast at hq'
    linarith
  · have : m2 = ⌊b⌋ := hm
    rw [this] at hq'
    push_cast at hq'
    linarith

theorem count_lower (n : Nat) (P : Nat → Bool) (a b : ℚ) (ha : -1 ≤ a) (hb : b < n) (h : ∀ k < n, a < k → (k : ℚ) ≤ b → P k = true) :
    b - a - 1 < ((List.range n).countP P : ℚ) := by
  rcases lt_or_ge ⌊b⌋ ⌊a⌋ with hlt | hge
  · have : b < a := by
      by_contra hc
      push Not at hc
      have := Int.floor_le_floor hc
      omega
    have : (0 : ℚ) ≤ ((List.range n).countP P : ℚ) := by positivity
    linarith
  have h1 : -1 ≤ ⌊a⌋ := Int.le_floor.mpr (by push_cast; exact ha)
  have hc := countP_between n ⌊a⌋ ⌊b⌋ h1 hge
  have hle : (List.range n).countP (fun k : Nat => decide (⌊a⌋ < (k : ℤ) ∧ (k : ℤ) ≤ ⌊b⌋)) ≤ (List.range n).countP P := by
    apply List.countP_mono_left
    intro k hk hP
    simp only [decide_eq_true_eq] at hP
    refine h k (List.mem_range.mp hk) ?_ ?_
    · have := Int.floor_lt.mp hP.1
      exact_mod_cast this
    · have := Int.le_floor.mp hP.2
      exact_mod_cast this
  have hbn : ⌊b⌋ < (n : ℤ) := Int.floor_lt.mpr (by exact_mod_cast hb)
  have hq : ⌊b⌋ - ⌊a⌋ ≤ ((List.range n).countP P : ℤ) := by
    have : ((List.range n).countP (fun k : Nat => decide (⌊a⌋ < (k : ℤ) ∧ (k : ℤ) ≤ ⌊b⌋)) : ℤ) ≤ ((List.range n).countP P : ℤ) := by
      exact_mod_cast hle
    rw [hc] at this
    omega
  have hq' : ((⌊b⌋ - ⌊a⌋ : ℤ) : ℚ) ≤ ((List.range n).countP P : ℚ) := by exact_mod_cast hq
  push_cast at hq'
  have f1 := Int.lt_floor_add_one b
  have f2 := Int.floor_le a
  linarith

/-- C124: for any random number, `systematic` draws particle `i` a number of times that differs from the expected number `n w_i / Σ w` by
less than `1 + 16 n² / 2 ^ 53`. -/
theorem float_systematic_count (r : ℚ → ℚ) (hr : Nearest r) (sum : List ℚ → ℚ) (hsum : SumsInSomeOrder r sum) (w : List ℚ) (hw : Weights w)
    (hn : w.length ≤ 2 ^ 50) (u : ℚ) (h0 : 0 ≤ u) (h1 : u < 1) (i : Nat) (hi : i < w.length) :
    |((systematicF r sum w.length w u).count i : ℚ) - expected w i| < 1 + 16 * (w.length : ℚ) ^ 2 / 2 ^ 53 := by
  have e0 := ε_pos
  have hl := cumF_length hr hsum hw
  have hp := length_pos w hw
  have n1 : (1 : ℚ) ≤ w.length := by exact_mod_cast hp
  have hn0 : (0 : ℚ) < w.length := by linarith
  have hcount : (systematicF r sum w.length w u).count i =
      (List.range w.length).countP (fun k => decide (searchLeft (cumF r sum w) (position r w.length k u) = i)) := by
    unfold systematicF stratifiedF
    rw [List.count, List.countP_map]
    apply List.countP_congr
    intro k _
    simp
  rw [hcount, expected_eq]
  -- the bound on each comparison, in units of `1 / n`
  set n := (w.length : ℚ) with hnd
  set δ := 8 * n ^ 2 * ε with hδ
  have δ0 : 0 ≤ δ := by rw [hδ]; positivity
  have hbig : 4 * n * ε + 4 * ε ≤ 8 * n * ε := by nlinarith
  have cmp : ∀ (j k : Nat) (hj : j < (cumF r sum w).length), k < w.length →
      (n * cumShare w (j + 1) + δ < k + u → (cumF r sum w)[j] < position r w.length k u) ∧
      (k + u ≤ n * cumShare w (j + 1) - δ → position r w.length k u ≤ (cumF r sum w)[j]) := by
    intro j k hj hk
    have c1 := abs_le.mp (cumF_near hr hsum hw hn j hj)
    have c2 := abs_le.mp (position_near hr w.length k hk u h0 h1)
    have hδn : δ / n = 8 * n * ε := by rw [hδ]; field_simp
    constructor
    · intro h
      have : cumShare w (j + 1) + δ / n < (k + u) / n := by
        rw [lt_div_iff₀ hn0, add_mul, div_mul_cancel₀ _ hn0.ne']; linarith
      rw [hδn] at this
      linarith [c1.2, c2.1]
    · intro h
      have : (k + u) / n ≤ cumShare w (j + 1) - δ / n := by
        rw [div_le_iff₀ hn0, sub_mul, div_mul_cancel₀ _ hn0.ne']; linarith
      rw [hδn] at this
      linarith [c1.1, c2.2]
  have hsorted := cumF_sorted hr hsum hw
  have ci0 : 0 ≤ cumShare w i := by
    have := cumShare_mono w hw 0 i (by omega)
    rwa [cumShare_zero] at this
  have ci1 : cumShare w i ≤ cumShare w (i + 1) := cumShare_mono w hw i (i + 1) (by omega)
  have ci2 : cumShare w (i + 1) ≤ 1 := by
    have := cumShare_mono w hw (i + 1) w.length (by omega)
    rwa [cumShare_full w hw] at this
  have hA0 : 0 ≤ n * cumShare w i := mul_nonneg hn0.le ci0
  have hAB : n * cumShare w i ≤ n * cumShare w (i + 1) := mul_le_mul_of_nonneg_left ci1 hn0.le
  have hBn : n * cumShare w (i + 1) ≤ n := by
    have := mul_le_mul_of_nonneg_left ci2 hn0.le
    linarith
  have δ1 : 0 < δ := by rw [hδ]; positivity
  have up := count_upper w.length (fun k => decide (searchLeft (cumF r sum w) (position r w.length k u) = i))
    (n * cumShare w i - δ - u) (n * cumShare w (i + 1) + δ - u) (by linarith) (by
      intro k hk hP
      simp only [decide_eq_true_eq] at hP
      rw [searchLeft_iff _ hsorted _ i (by omega)] at hP
      obtain ⟨p1, p2⟩ := hP
      constructor
      · rcases Nat.eq_zero_or_pos i with hi0 | hi0
        · rw [hi0, cumShare_zero]
          have : (0 : ℚ) ≤ k := by positivity
          linarith
        · by_contra hc
          push Not at hc
          have := (cmp (i - 1) k (by omega) hk).2 (by rw [Nat.sub_add_cancel hi0]; linarith)
          have := p1 hi0
          linarith
      · by_contra hc
        push Not at hc
        have := (cmp i k (by omega) hk).1 (by linarith)
        linarith)
  have lo := count_lower w.length (fun k => decide (searchLeft (cumF r sum w) (position r w.length k u) = i))
    (n * cumShare w i + δ - u) (n * cumShare w (i + 1) - δ - u) (by linarith) (by linarith) (by
      intro k hk ha hb
      simp only [decide_eq_true_eq]
      rw [searchLeft_iff _ hsorted _ i (by omega)]
      refine ⟨fun hi0 => ?_, (cmp i k (by omega) hk).2 (by linarith)⟩
      exact (cmp (i - 1) k (by omega) hk).1 (by rw [Nat.sub_add_cancel hi0]; linarith))
  have h16 : 16 * n ^ 2 / 2 ^ 53 = 2 * δ := by rw [hδ]; unfold ε; ring
  rw [h16, abs_lt]
  constructor <;> linarith

/-! ### C124: the whole of `resample_particles` -/

/-- C124: `resample_particles` replaces the particles and weights by those of the indexes drawn, if these exist, and raises IndexError otherwise. -/
theorem float_resample_returns_iff {P : Type} (r : ℚ → ℚ) (sum : List ℚ → ℚ) (m : Option Method) (dflt : Method) (us : Nat → ℚ) (s : PState P)
    (hlen : s.particles.length = s.weights.length) (idx : List Nat)
    (hidx : drawIndexesF r sum (m.getD dflt) s.particles.length s.weights us = .ok idx) :
    ((∀ i ∈ idx, i < s.weights.length) →
      ∃ s', resampleParticlesF r sum m dflt us s = .ok s' ∧ s'.particles.length = idx.length ∧ s'.weights.length = idx.length ∧
        ∀ (j : Nat) (hj : j < idx.length), s'.particles[j]? = s.particles[idx[j]]? ∧ s'.weights[j]? = s.weights[idx[j]]?) ∧
    ((∃ i ∈ idx, s.weights.length ≤ i) → resampleParticlesF r sum m dflt us s = .error .indexError) := by
  have take_ok : ∀ {α : Type} (x : List α), (∀ i ∈ idx, i < x.length) →
      ∃ y, takeIdx x idx = .ok y ∧ y.length = idx.length ∧ ∀ (j : Nat) (hj : j < idx.length), y[j]? = x[idx[j]]? := by
    intro α x
    clear hidx
    unfold takeIdx
    induction idx with
    | nil => intro _; exact ⟨[], rfl, rfl, by simp⟩
    | cons i idx ih =>
      intro h
      obtain ⟨y, y1, y2, y3⟩ := ih (fun k hk => h k (List.mem_cons_of_mem _ hk))
      have hi := h i List.mem_cons_self
      refine ⟨x[i] :: y, ?_, by simp [y2], ?_⟩
      · simp only [List.mapM_cons, bind, Except.bind, pure, Except.pure, List.getElem?_eq_getElem hi, y1]
      · intro j hj
        cases j with
        | zero => simp [hi]
        | succ j => simpa using y3 j (by simpa using hj)
  have take_err : ∀ {α : Type} (x : List α), (∃ i ∈ idx, x.length ≤ i) → takeIdx x idx = .error .indexError := by
    intro α x
    clear hidx take_ok
    unfold takeIdx
    induction idx with
    | nil => rintro ⟨i, hi, _⟩; simp at hi
    | cons i idx ih =>
      rintro ⟨k, hk, hx⟩
      simp only [List.mapM_cons, bind, Except.bind, pure, Except.pure]
      rcases Nat.lt_or_ge i x.length with hi | hi
      · have : ∃ k ∈ idx, x.length ≤ k := by
          rcases List.mem_cons.mp hk with rfl | hk
          · omega
          · exact ⟨k, hk, hx⟩
        rw [List.getElem?_eq_getElem hi, ih this]
      · rw [List.getElem?_eq_none hi]
  constructor
  · intro h
    obtain ⟨p, p1, p2, p3⟩ := take_ok s.particles (fun i hi => by rw [hlen]; exact h i hi)
    obtain ⟨q, q1, q2, q3⟩ := take_ok s.weights h
    refine ⟨⟨p, q⟩, ?_, p2, q2, fun j hj => ⟨p3 j hj, q3 j hj⟩⟩
    unfold resampleParticlesF
    simp only [hidx, p1, q1, bind, Except.bind, pure, Except.pure]
  · rintro ⟨i, hi, hx⟩
    have := take_err s.particles ⟨i, hi, by omega⟩
    unfold resampleParticlesF
    simp only [hidx, this, bind, Except.bind, pure, Except.pure]

/-- Adding from the left. -/
def leftSum (r : ℚ → ℚ) (l : List ℚ) : ℚ := (cumsumF r l).getLastD 0

theorem leftSum_some_order (r : ℚ → ℚ) : SumsInSomeOrder r (leftSum r) := by
  intro l hl
  have hp : 0 < l.length := List.length_pos_iff.mpr hl
  have hlen := cumsumF_length r l
  have := cumsumF_summed r l (l.length - 1) (by omega)
  rw [Nat.sub_add_cancel hp, List.take_length] at this
  have e : leftSum r l = (cumsumF r l)[l.length - 1]'(by omega) := by
    unfold leftSum
    rw [List.getLastD_eq_getLast?, List.getLast?_eq_getElem?, List.getElem?_eq_getElem (by omega)]
    simp only [hlen, Option.getD_some]
  rw [e]; exact this

/-- C124 (violated): ten particles of equal weight, and the largest random number below 1: in double precision the running sum of the ten weights of
0.1 ends at 0.9999999999999999, the last position is 1.0, and `resample_particles` raises IndexError. In whatever order `np.sum` adds. -/
theorem float_resample_raises_violated (sum : List ℚ → ℚ) (hsum : SumsInSomeOrder rnd sum) :
    let s : PState Nat := ⟨List.range 10, List.replicate 10 1⟩
    resampleParticlesF rnd sum none .systematic (fun _ => 1 - 1 / 2 ^ 53) s = .error .indexError := by
  intro s
  have h10 : sum (List.replicate 10 1) = 10 := by
    have := (hsum (List.replicate 10 1) (by simp)).int rnd_nearest (by
      intro x hx
      rw [List.eq_of_mem_replicate hx]
      exact ⟨1, by simp⟩) (by norm_num)
    rw [this]; norm_num
  have hn : normF rnd sum (List.replicate 10 1) = List.replicate 10 (rnd (1 / 10)) := by
    unfold normF
    rw [h10, List.map_replicate]
  have hidx : drawIndexesF rnd sum (none.getD .systematic) s.particles.length s.weights (fun _ => 1 - 1 / 2 ^ 53) =
      .ok ((List.range 10).map fun k => searchLeft (cumsumF rnd (List.replicate 10 (rnd (1 / 10)))) (position rnd 10 k (1 - 1 / 2 ^ 53))) := by
    show Except.ok (systematicF rnd sum 10 (List.replicate 10 1) _) = _
    unfold systematicF stratifiedF cumF
    rw [hn]
  refine (float_resample_returns_iff rnd sum none .systematic _ s rfl _ hidx).2 ⟨10, ?_, by simp [s]⟩
  decide +kernel

/-- Concrete case: the hypotheses are met by five particles, adding from the left. -/
example : Nearest rnd ∧ SumsInSomeOrder rnd (leftSum rnd) ∧ Weights [1, 2, 0, 3, 1 / 2] ∧
    systematicF rnd (leftSum rnd) 5 [1, 2, 0, 3, 1 / 2] (1 / 2) = [0, 1, 3, 3, 3] := by
  refine ⟨rnd_nearest, leftSum_some_order rnd, ⟨by decide +kernel, by norm_num⟩, by decide +kernel⟩

/-! ### C124: without rounding, and whole methods -/

theorem cumFrom_id (l : List ℚ) (acc : ℚ) : cumFrom id acc l = cumsum acc l := by
  induction l generalizing acc with
  | nil => rfl
  | cons x l ih => simp only [cumFrom, cumsum, id]; rw [ih]

theorem cumsumF_id (l : List ℚ) : cumsumF id l = cumsum 0 l := by
  cases l with
  | nil => rfl
  | cons x l => simp only [cumsumF, cumsum, cumFrom_id, zero_add]

theorem xcumsumF_id (l : List XR) (acc : XR) : xcumsumF id acc l = xcumsum acc l := by
  have h : ∀ x : XR, XR.round id x = x := by intro x; cases x <;> rfl
  induction l generalizing acc with
  | nil => rfl
  | cons x l ih => simp only [xcumsumF, xcumsum, h, ih]

theorem kahan_id (l : List ℚ) : kahan id l = l.sum := by
  have h : ∀ (l : List ℚ) (s : ℚ), l.foldl (kahanStep id) (s, 0) = (s + l.sum, 0) := by
    intro l
    induction l with
    | nil => intro s; simp
    | cons x l ih =>
      intro s
      rw [List.foldl_cons, show kahanStep id (s, 0) x = (s + x, 0) by simp [kahanStep], ih, List.sum_cons, add_assoc]
  cases l with
  | nil => rfl
  | cons x l => simp [kahan, h]

theorem probabilitiesOk_id (w : List ℚ) (hw : Weights w) : probabilitiesOk id (normF id List.sum w) = true := by
  have hsum : (normF id List.sum w).sum = 1 := by
    have : ∀ (l : List ℚ) (c : ℚ), (l.map fun x => id (x / c)).sum = l.sum / c := by
      intro l c
      induction l with
      | nil => simp
      | cons x l ih => rw [List.map_cons, List.sum_cons, List.sum_cons, ih, add_div]; rfl
    unfold normF
    rw [this, div_self hw.pos.ne']
  unfold probabilitiesOk
  rw [kahan_id, hsum, Bool.and_eq_true]
  refine ⟨List.all_eq_true.mpr fun x hx => decide_eq_true ?_, decide_eq_true (by norm_num)⟩
  obtain ⟨y, hy, rfl⟩ := List.mem_map.mp hx
  exact div_nonneg (hw.nonneg y hy) hw.pos.le

/-- Without rounding, this is the exact model of C31 to C33. -/
theorem resampleParticlesF_id {P : Type} (m : Option Method) (dflt : Method) (us : Nat → ℚ) (s : PState P) (hw : Weights s.weights) :
    resampleParticlesF id List.sum m dflt us s = resampleParticles m dflt us s := by
  have hd : ∀ (m : Method) (n : Nat) (w : List ℚ), Weights w → drawIndexesF id List.sum m n w us = drawIndexes m n w us := by
    intro m n w hw
    have hn : normF id List.sum w = normWeights w := rfl
    have hc : cumF id List.sum w = cumsum 0 (normWeights w) := by unfold cumF; rw [cumsumF_id, hn]
    have hs : ∀ us : Nat → ℚ, stratifiedF id List.sum n w us = stratified n w us := by
      intro us
      simp only [stratifiedF, stratified, stratifiedPositions, List.map_map, hc]
      rfl
    cases m with
    | systematic =>
      simp only [drawIndexesF, drawIndexes, systematicF, hs]
      rfl
    | stratified => simp only [drawIndexesF, drawIndexes, hs]
    | residual =>
      simp only [drawIndexesF, drawIndexes, residualF, residual, residualCumsum, xcumsumF_id]
      rfl
    | choice =>
      simp only [drawIndexesF, drawIndexes, choiceF, choice, cdfF, hc]
      rw [if_pos (probabilitiesOk_id w hw)]
      rfl
    | other => rfl
  unfold resampleParticlesF resampleParticles
  rw [hd _ _ _ hw]

section
variable {r : ℚ → ℚ} (hr : Nearest r) {sum : List ℚ → ℚ} (hsum : SumsInSomeOrder r sum) {w : List ℚ} (hw : Weights w)
include hr hsum hw

/-- C124: `choice` never draws a particle of zero weight. -/
theorem float_choice_zero_weight (us : Nat → ℚ) (hu : Uniform us) (i : Nat) (hi : i < w.length) (hz : w.getD i 0 = 0) :
    i ∉ choiceF r sum w.length w us := by
  intro hmem
  have hv := float_choice_valid hr hsum hw us hu
  have hv' := hv.2 i hmem
  simp only [choiceF, List.mem_map, List.mem_range] at hmem
  obtain ⟨k, hk, hs⟩ := hmem
  have hl := cumF_length hr hsum hw
  have hl' : (cumsumF r (normF r sum w)).length = w.length := hl
  have hcl : (cdfF r sum w).length = w.length := by simp [cdfF, hl]
  have hnz : (normF r sum w).getD i 0 = 0 := by
    have hzero := (hr.eq_zero_iff 0).mpr rfl
    rw [List.getD_eq_getElem _ _ hi] at hz
    rw [List.getD_eq_getElem _ _ (by simpa [normF] using hi)]
    simp [normF, hz, hzero]
  have h1 := searchRight_lt (cdfF r sum w) (us k) (by rw [hs, hcl]; exact hi)
  simp only [hs] at h1
  have hget : ∀ (j : Nat) (hj : j < w.length), (cdfF r sum w)[j]'(by omega) =
      r ((cumsumF r (normF r sum w))[j]'(by omega) / (cumF r sum w).getLastD 1) := by
    intro j hj
    simp only [cdfF, List.getElem_map]
    rfl
  rw [hget i hi] at h1
  cases i with
  | zero =>
    rw [cumsumF_head r (normF r sum w) (by omega), hnz, zero_div, (hr.eq_zero_iff 0).mpr rfl] at h1
    linarith [(hu k).1]
  | succ j =>
    have hz' := cumsumF_zero hr (normF r sum w) (fun x hx => (normF_mem hr hsum hw x hx).2) j (by omega) hnz
    rw [hz'] at h1
    have h2 := searchRight_le_of_lt (cdfF r sum w) (us k) j (by omega) (by omega)
    rw [hget j (by omega)] at h2
    linarith

end

/-- C124: `resample_particles` by choice (up to `2 ^ 26` particles) or residual (up to `2 ^ 25`) always returns as many particles, each one of the old ones with
its own weight; by systematic or stratified resampling, unless the last random number is within `10 n² / 2 ^ 53` of 1. -/
theorem float_resample_spec {P : Type} (r : ℚ → ℚ) (hr : Nearest r) (sum : List ℚ → ℚ) (hsum : SumsInSomeOrder r sum) (m : Option Method)
    (dflt : Method) (us : Nat → ℚ) (hu : Uniform us) (s : PState P) (hw : Weights s.weights) (hlen : s.particles.length = s.weights.length)
    (hm : m.getD dflt = .choice ∧ s.weights.length ≤ 2 ^ 26 ∨
      m.getD dflt = .residual ∧ s.weights.length ≤ 2 ^ 25 ∨
      m.getD dflt = .stratified ∧ s.weights.length ≤ 2 ^ 50 ∧ us (s.weights.length - 1) ≤ 1 - 10 * (s.weights.length : ℚ) ^ 2 / 2 ^ 53 ∨
      m.getD dflt = .systematic ∧ s.weights.length ≤ 2 ^ 50 ∧ us 0 ≤ 1 - 10 * (s.weights.length : ℚ) ^ 2 / 2 ^ 53) :
    ∃ s', resampleParticlesF r sum m dflt us s = .ok s' ∧ s'.particles.length = s.particles.length ∧ s'.weights.length = s.weights.length ∧
      ∀ j < s.particles.length, ∃ i < s.particles.length, s'.particles[j]? = s.particles[i]? ∧ s'.weights[j]? = s.weights[i]? := by
  obtain ⟨idx, h1, h2⟩ : ∃ idx, drawIndexesF r sum (m.getD dflt) s.particles.length s.weights us = .ok idx ∧
      ValidDraw s.weights.length idx := by
    rw [hlen]
    rcases hm with ⟨h, hn⟩ | ⟨h, hn⟩ | ⟨h, hn, hlast⟩ | ⟨h, hn, hlast⟩ <;> rw [h]
    · exact ⟨_, by simp only [drawIndexesF]; rw [if_pos (float_choice_check hr hsum hw hn)], float_choice_valid hr hsum hw us hu⟩
    · exact ⟨_, rfl, float_residual_valid hr hsum hw hn us hu⟩
    · exact ⟨_, rfl, float_stratified_valid hr hsum hw hn us hu hlast⟩
    · exact ⟨_, rfl, float_stratified_valid hr hsum hw hn (fun _ => us 0) (fun _ => hu 0) hlast⟩
  obtain ⟨s', e1, e2, e3, e4⟩ := (float_resample_returns_iff r sum m dflt us s hlen idx h1).1 h2.2
  refine ⟨s', e1, by rw [e2, h2.1, hlen], by rw [e3, h2.1], fun j hj => ?_⟩
  have hj' : j < idx.length := by rw [h2.1]; omega
  exact ⟨idx[j], by rw [hlen]; exact h2.2 _ (List.getElem_mem hj'), e4 j hj'⟩

end Glimpse.FloatResample
