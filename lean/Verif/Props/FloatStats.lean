import Verif.Model.FloatStats
import Verif.Props.FloatResample
import Mathlib.Analysis.Real.Sqrt

/-!
C135: the statistics of particles in double precision.
-/
set_option autoImplicit false
set_option linter.unusedSimpArgs false
set_option linter.unusedSectionVars false

namespace Glimpse.FloatStats
open Glimpse Glimpse.FloatResample Glimpse.Double Glimpse.Resample

/-! ### Relative errors -/

/-- The relative error of `k` roundings, at most. -/
def γ (k : Nat) : ℚ := (1 + ε) ^ k - 1

theorem γ_nonneg (k : Nat) : 0 ≤ γ k := by
  have := one_le_pow₀ (n := k) (show (1 : ℚ) ≤ 1 + ε by linarith [ε_pos])
  unfold γ; linarith

theorem γ_mono {j k : Nat} (h : j ≤ k) : γ j ≤ γ k := by
  have := pow_le_pow_right₀ (show (1 : ℚ) ≤ 1 + ε by linarith [ε_pos]) h
  unfold γ; linarith

theorem γ_add (j k : Nat) : γ (j + k) = γ j + γ k + γ j * γ k := by unfold γ; rw [pow_add]; ring

theorem γ_one : γ 1 = ε := by unfold γ; ring

theorem γ_le (k : Nat) (h : k ≤ 2 ^ 42) : γ k ≤ (k : ℚ) * ε * (1 + 1 / 2 ^ 10) := by
  induction k with
  | zero => simp [γ]
  | succ k ih =>
    have i := ih (by omega)
    have hk : (k : ℚ) ≤ 2 ^ 42 := by exact_mod_cast (show k ≤ 2 ^ 42 by omega)
    have e0 := ε_pos
    have hke : (k : ℚ) * ε ≤ 1 / 2 ^ 11 := by
      calc (k : ℚ) * ε ≤ 2 ^ 42 * ε := by gcongr
        _ = 1 / 2 ^ 11 := by unfold ε; norm_num
    rw [γ_add, γ_one]
    push_cast
    have : γ k * ε ≤ ((k : ℚ) * ε * (1 + 1 / 2 ^ 10)) * ε := by gcongr
    have h2 : ((k : ℚ) * ε * (1 + 1 / 2 ^ 10)) * ε ≤ (1 / 2 ^ 11 * (1 + 1 / 2 ^ 10)) * ε := by gcongr
    have h3 : (1 / 2 ^ 11 * (1 + 1 / 2 ^ 10) : ℚ) * ε ≤ (1 / 2 ^ 10) * ε := by gcongr; norm_num
    nlinarith

/-- `a` is `b` up to `k` roundings. -/
def Rel (k : Nat) (a b : ℚ) : Prop := |a - b| ≤ γ k * |b|

theorem Rel.refl (a : ℚ) : Rel 0 a a := by simp [Rel, γ]

theorem Rel.mono {j k : Nat} (h : j ≤ k) {a b : ℚ} (hr : Rel j a b) : Rel k a b :=
  hr.trans (mul_le_mul_of_nonneg_right (γ_mono h) (abs_nonneg b))

theorem Rel.abs_le {k : Nat} {a b : ℚ} (h : Rel k a b) : |a| ≤ (1 + γ k) * |b| := by
  have := abs_sub_abs_le_abs_sub a b
  unfold Rel at h
  linarith

theorem Rel.round {r : ℚ → ℚ} (hr : Nearest r) {k : Nat} {a b : ℚ} (h : Rel k a b) : Rel (k + 1) (r a) b := by
  have h1 : |r a - a| ≤ ε * |a| := by have := hr.near a; unfold ε; linarith
  have h2 := h.abs_le
  have h3 : |r a - b| ≤ |r a - a| + |a - b| := abs_sub_le _ _ _
  have e0 := ε_pos
  have : ε * |a| ≤ ε * ((1 + γ k) * |b|) := by gcongr
  unfold Rel at h ⊢
  rw [γ_add, γ_one]
  nlinarith

theorem Rel.mul {j k : Nat} {a b c d : ℚ} (h : Rel j a b) (h' : Rel k c d) : Rel (j + k) (a * c) (b * d) := by
  have e : a * c - b * d = (a - b) * c + b * (c - d) := by ring
  have h1 : |a * c - b * d| ≤ |a - b| * |c| + |b| * |c - d| := by
    rw [e, ← abs_mul, ← abs_mul]; exact abs_add_le _ _
  have h2 := h'.abs_le
  have g1 := γ_nonneg j
  have g2 := γ_nonneg k
  have h3 : |a - b| * |c| ≤ (γ j * |b|) * ((1 + γ k) * |d|) := mul_le_mul h h2 (abs_nonneg _) (by positivity)
  have h4 : |b| * |c - d| ≤ |b| * (γ k * |d|) := mul_le_mul_of_nonneg_left h' (abs_nonneg _)
  unfold Rel
  rw [γ_add, abs_mul]
  nlinarith

theorem rel_round {r : ℚ → ℚ} (hr : Nearest r) (a : ℚ) : Rel 1 (r a) a := (Rel.refl a).round hr

/-! ### Sums -/

/-- The sum of the absolute values. -/
def absSum (l : List ℚ) : ℚ := (l.map fun x => |x|).sum

theorem absSum_nonneg (l : List ℚ) : 0 ≤ absSum l := List.sum_nonneg (by intro x hx; obtain ⟨y, _, rfl⟩ := List.mem_map.1 hx; exact abs_nonneg y)

theorem abs_sum_le (l : List ℚ) : |l.sum| ≤ absSum l := by
  induction l with
  | nil => simp [absSum]
  | cons x l ih =>
    have := abs_add_le x l.sum
    simp only [absSum, List.map_cons, List.sum_cons] at *
    linarith

/-- Adding two approximate sums. -/
theorem add_near {r : ℚ → ℚ} (hr : Nearest r) {s t S T A B : ℚ} {k : Nat} (hs : |s - S| ≤ γ k * A) (ht : |t - T| ≤ γ k * B) (hA : |S| ≤ A) (hB : |T| ≤ B) :
    |r (s + t) - (S + T)| ≤ γ (k + 1) * (A + B) := by
  have h1 : |r (s + t) - (s + t)| ≤ ε * |s + t| := by have := hr.near (s + t); unfold ε; linarith
  have h2 : |r (s + t) - (S + T)| ≤ |r (s + t) - (s + t)| + |(s + t) - (S + T)| := abs_sub_le _ _ _
  have h3 : |(s + t) - (S + T)| ≤ |s - S| + |t - T| := by rw [show (s + t) - (S + T) = (s - S) + (t - T) by ring]; exact abs_add_le _ _
  have h4 : |s + t| ≤ |S + T| + |(s + t) - (S + T)| := by
    have := abs_sub_abs_le_abs_sub (s + t) (S + T); linarith
  have h5 := abs_add_le S T
  have e0 := ε_pos
  have : ε * |s + t| ≤ ε * (A + B + (γ k * A + γ k * B)) := by gcongr; linarith
  rw [γ_add, γ_one]
  nlinarith

theorem summed_near {r : ℚ → ℚ} (hr : Nearest r) {l : List ℚ} {s : ℚ} (h : Summed r l s) : |s - l.sum| ≤ γ (l.length - 1) * absSum l := by
  induction h with
  | one x => simp [γ, absSum]
  | @add l₁ l₂ s₁ s₂ h1 h2 i1 i2 =>
    have n1 := h1.length_pos
    have n2 := h2.length_pos
    have g : ∀ m, m - 1 ≤ l₁.length + l₂.length - 2 → ∀ l, γ (m - 1) * absSum l ≤ γ (l₁.length + l₂.length - 2) * absSum l :=
      fun m hm l => mul_le_mul_of_nonneg_right (γ_mono hm) (absSum_nonneg l)
    have := add_near hr (i1.trans (g _ (by omega) _)) (i2.trans (g _ (by omega) _)) (abs_sum_le l₁) (abs_sum_le l₂)
    have e : absSum (l₁ ++ l₂) = absSum l₁ + absSum l₂ := by simp [absSum]
    rw [List.sum_append, e, List.length_append, show l₁.length + l₂.length - 1 = l₁.length + l₂.length - 2 + 1 by omega]
    exact this
  | @perm l₁ l₂ s hp _ ih =>
    have e : absSum l₂ = absSum l₁ := ((hp.map _).sum_eq).symm
    rw [← hp.length_eq, ← hp.sum_eq, e]
    exact ih

theorem Dotted.length_pos {r : ℚ → ℚ} {l : List (ℚ × ℚ)} {s : ℚ} (h : Dotted r l s) : 0 < l.length := by
  induction h with
  | one x y => simp
  | fused x y _ _ => simp
  | add h1 h2 i1 i2 => simp; omega
  | perm hp _ ih => rwa [← hp.length_eq]

/-- The products of the pairs. -/
def products (l : List (ℚ × ℚ)) : List ℚ := l.map fun p => p.1 * p.2

theorem Dotted.near {r : ℚ → ℚ} (hr : Nearest r) {l : List (ℚ × ℚ)} {s : ℚ} (h : Dotted r l s) :
    |s - (products l).sum| ≤ γ l.length * absSum (products l) := by
  induction h with
  | one x y =>
    have := rel_round hr (x * y)
    simpa [products, absSum, Rel] using this
  | @fused l s x y h ih =>
    have := add_near hr (s := s) (t := x * y) (T := x * y) (B := |x * y|) ih
      (by rw [sub_self, abs_zero]; exact mul_nonneg (γ_nonneg _) (abs_nonneg _)) (abs_sum_le _) (le_refl _)
    have e1 : (products ((x, y) :: l)).sum = (products l).sum + x * y := by simp [products]; ring
    have e2 : absSum (products ((x, y) :: l)) = absSum (products l) + |x * y| := by simp [products, absSum]; ring
    rw [e1, e2, List.length_cons]
    exact this
  | @add l₁ l₂ s₁ s₂ h1 h2 i1 i2 =>
    have n1 := h1.length_pos
    have n2 := h2.length_pos
    have g : ∀ m, m ≤ l₁.length + l₂.length - 1 → ∀ l, γ m * absSum l ≤ γ (l₁.length + l₂.length - 1) * absSum l :=
      fun m hm l => mul_le_mul_of_nonneg_right (γ_mono hm) (absSum_nonneg l)
    have := add_near hr (i1.trans (g _ (by omega) _)) (i2.trans (g _ (by omega) _)) (abs_sum_le (products l₁)) (abs_sum_le (products l₂))
    have e : absSum (products (l₁ ++ l₂)) = absSum (products l₁) + absSum (products l₂) := by simp [products, absSum]
    have e' : (products (l₁ ++ l₂)).sum = (products l₁).sum + (products l₂).sum := by simp [products]
    rw [e', e, List.length_append, show l₁.length + l₂.length = l₁.length + l₂.length - 1 + 1 by omega]
    exact this
  | @perm l₁ l₂ s hp _ ih =>
    have hp' : (products l₁).Perm (products l₂) := hp.map _
    have e : absSum (products l₂) = absSum (products l₁) := ((hp'.map _).sum_eq).symm
    rw [← hp.length_eq, ← hp'.sum_eq, e]
    exact ih

theorem Dotted.nonneg {r : ℚ → ℚ} (hr : Nearest r) {l : List (ℚ × ℚ)} {s : ℚ} (h : Dotted r l s) (hl : ∀ p ∈ l, 0 ≤ p.1 * p.2) : 0 ≤ s := by
  induction h with
  | one x y => exact r_nonneg hr _ (hl (x, y) (by simp))
  | fused x y _ ih => exact r_nonneg hr _ (add_nonneg (ih fun p hp => hl p (by simp [hp])) (hl (x, y) (by simp)))
  | add _ _ i1 i2 => exact r_nonneg hr _ (add_nonneg (i1 fun p hp => hl p (by simp [hp])) (i2 fun p hp => hl p (by simp [hp])))
  | perm hp _ ih => exact ih fun p h => hl p (hp.mem_iff.1 h)

/-- Replacing terms by approximations. -/
theorem terms_near {α : Type} (L : List α) (f g : α → ℚ) (k : Nat) (h : ∀ x ∈ L, Rel k (f x) (g x)) :
    |(L.map f).sum - (L.map g).sum| ≤ γ k * absSum (L.map g) ∧ absSum (L.map f) ≤ (1 + γ k) * absSum (L.map g) := by
  induction L with
  | nil => simp [absSum]
  | cons x L ih =>
    obtain ⟨i1, i2⟩ := ih fun y hy => h y (by simp [hy])
    have hx := h x (by simp)
    have hx' := hx.abs_le
    unfold Rel at hx
    constructor
    · have e : ((x :: L).map f).sum - ((x :: L).map g).sum = (f x - g x) + ((L.map f).sum - (L.map g).sum) := by simp; ring
      have := abs_add_le (f x - g x) ((L.map f).sum - (L.map g).sum)
      have e2 : absSum ((x :: L).map g) = |g x| + absSum (L.map g) := by simp [absSum]
      rw [e, e2]; linarith
    · have e1 : absSum ((x :: L).map f) = |f x| + absSum (L.map f) := by simp [absSum]
      have e2 : absSum ((x :: L).map g) = |g x| + absSum (L.map g) := by simp [absSum]
      rw [e1, e2]; linarith

theorem compose_near {s S T A B : ℚ} {j k : Nat} (h1 : |s - S| ≤ γ j * B) (h2 : |S - T| ≤ γ k * A) (h3 : B ≤ (1 + γ k) * A) :
    |s - T| ≤ γ (j + k) * A := by
  have := abs_sub_le s S T
  have g1 := γ_nonneg j
  have : γ j * B ≤ γ j * ((1 + γ k) * A) := by gcongr
  rw [γ_add]; nlinarith

/-- A sum of approximate terms. -/
theorem summed_terms {α : Type} {r : ℚ → ℚ} (hr : Nearest r) (L : List α) (f g : α → ℚ) (k : Nat) (h : ∀ x ∈ L, Rel k (f x) (g x)) {s : ℚ}
    (hs : Summed r (L.map f) s) : |s - (L.map g).sum| ≤ γ (L.length - 1 + k) * absSum (L.map g) := by
  obtain ⟨i1, i2⟩ := terms_near L f g k h
  have := summed_near hr hs
  rw [List.length_map] at this
  exact compose_near this i1 i2

theorem dotted_terms {α : Type} {r : ℚ → ℚ} (hr : Nearest r) (L : List α) (f : α → ℚ × ℚ) (g : α → ℚ) (k : Nat)
    (h : ∀ x ∈ L, Rel k ((f x).1 * (f x).2) (g x)) {s : ℚ} (hs : Dotted r (L.map f) s) :
    |s - (L.map g).sum| ≤ γ (L.length + k) * absSum (L.map g) := by
  obtain ⟨i1, i2⟩ := terms_near L (fun x => (f x).1 * (f x).2) g k h
  have := hs.near hr
  have e : products (L.map f) = L.map fun x => (f x).1 * (f x).2 := by simp [products]
  rw [List.length_map, e] at this
  exact compose_near this i1 i2

/-! ### Quotients -/

theorem small_γ (k : Nat) (h : k ≤ 2 ^ 41) : γ k ≤ 1 / 2 ^ 11 := by
  have := γ_le k (h.trans (by norm_num))
  have hk : (k : ℚ) ≤ 2 ^ 41 := by exact_mod_cast h
  have e0 := ε_pos
  have : (k : ℚ) * ε * (1 + 1 / 2 ^ 10) ≤ 2 ^ 41 * ε * (1 + 1 / 2 ^ 10) := by gcongr
  have : (2 ^ 41 * ε * (1 + 1 / 2 ^ 10) : ℚ) ≤ 1 / 2 ^ 11 := by unfold ε; norm_num
  linarith

theorem quotient_near {r : ℚ → ℚ} (hr : Nearest r) {N' N A W' W : ℚ} {p q : Nat} (hp : p ≤ 2 ^ 41) (hq : q ≤ 2 ^ 41) (hW : 0 < W)
    (h1 : |N' - N| ≤ γ p * A) (hA : |N| ≤ A) (h2 : |W' - W| ≤ γ q * W) :
    |r (N' / W') - N / W| ≤ 2 * ((p : ℚ) + q + 1) * ε * (A / W) := by
  have sp := small_γ p hp
  have sq := small_γ q hq
  have gp := γ_nonneg p
  have gq := γ_nonneg q
  have lp := γ_le p (hp.trans (by norm_num))
  have lq := γ_le q (hq.trans (by norm_num))
  have e0 := ε_pos
  have A0 : 0 ≤ A := (abs_nonneg N).trans hA
  obtain ⟨w1, w2⟩ := abs_le.1 h2
  have hW' : (1 - 1 / 2 ^ 11) * W ≤ W' := by nlinarith
  have W'0 : 0 < W' := lt_of_lt_of_le (by positivity) hW'
  have hAW : 0 ≤ A / W := by positivity
  have hinv : A / W' ≤ (1 + 1 / 2 ^ 10) * (A / W) := by
    rw [div_le_iff₀ W'0]
    have : A = (A / W) * W := by field_simp
    calc A = (A / W) * W := this
      _ ≤ (A / W) * ((1 + 1 / 2 ^ 10) * W') := by gcongr; nlinarith
      _ = (1 + 1 / 2 ^ 10) * (A / W) * W' := by ring
  have d : N' / W' - N / W = ((N' - N) * W - N * (W' - W)) / (W' * W) := by field_simp; ring
  have num : |(N' - N) * W - N * (W' - W)| ≤ (γ p + γ q) * A * W := by
    have := abs_sub ((N' - N) * W) (N * (W' - W))
    rw [abs_mul, abs_mul, abs_of_pos hW] at this
    have a1 : |N' - N| * W ≤ γ p * A * W := by gcongr
    have a2 : |N| * |W' - W| ≤ A * (γ q * W) := mul_le_mul hA h2 (abs_nonneg _) A0
    linarith
  have m1 : |N' / W' - N / W| ≤ (γ p + γ q) * (A / W') := by
    rw [d, abs_div, abs_of_pos (mul_pos W'0 hW), div_le_iff₀ (mul_pos W'0 hW)]
    calc _ ≤ _ := num
      _ = (γ p + γ q) * (A / W') * (W' * W) := by field_simp
  have m2 : |N' / W'| ≤ (1 + 1 / 2 ^ 11) * (A / W') := by
    rw [abs_div, abs_of_pos W'0, ← mul_div_assoc]
    refine div_le_div_of_nonneg_right ?_ W'0.le
    have := abs_sub_abs_le_abs_sub N' N
    have : γ p * A ≤ 1 / 2 ^ 11 * A := by gcongr
    linarith
  have m3 : |r (N' / W') - N' / W'| ≤ ε * |N' / W'| := by have := hr.near (N' / W'); unfold ε; linarith
  have m4 := abs_sub_le (r (N' / W')) (N' / W') (N / W)
  have A'0 : 0 ≤ A / W' := by positivity
  have b1 : (γ p + γ q) * (A / W') ≤ (((p : ℚ) + q) * ε * (1 + 1 / 2 ^ 10)) * ((1 + 1 / 2 ^ 10) * (A / W)) := by
    refine mul_le_mul (by linarith) hinv A'0 (by positivity)
  have b2 : ε * |N' / W'| ≤ ε * ((1 + 1 / 2 ^ 11) * ((1 + 1 / 2 ^ 10) * (A / W))) := by
    refine mul_le_mul_of_nonneg_left (m2.trans ?_) e0.le
    exact mul_le_mul_of_nonneg_left hinv (by norm_num)
  have c1 : (((p : ℚ) + q) * ε * (1 + 1 / 2 ^ 10)) * ((1 + 1 / 2 ^ 10) * (A / W)) ≤ 2 * (((p : ℚ) + q) * ε * (A / W)) := by
    have : 0 ≤ ((p : ℚ) + q) * ε * (A / W) := by positivity
    nlinarith
  have c2 : ε * ((1 + 1 / 2 ^ 11) * ((1 + 1 / 2 ^ 10) * (A / W))) ≤ 2 * (ε * (A / W)) := by
    have : 0 ≤ ε * (A / W) := by positivity
    nlinarith
  calc _ ≤ 2 * (((p : ℚ) + q) * ε * (A / W)) + 2 * (ε * (A / W)) := by linarith
    _ = _ := by ring

/-! ### C135: specification -/

/-- The sum of `f` over the particles, each times its weight. -/
def weighted (f : Particle → ℚ) (ps : List Particle) (w : List ℚ) : ℚ := ((ps.zip w).map fun q => f q.1 * q.2).sum

/-- The weighted mean of `f`, exactly. -/
def exactMean (f : Particle → ℚ) (ps : List Particle) (w : List ℚ) : ℚ := weighted f ps w / w.sum

/-- At most `2 ^ 40` particles, as many weights, none of them negative, with a positive sum. -/
structure Weighted (ps : List Particle) (w : List ℚ) : Prop where
  len : ps.length = w.length
  weights : Weights w
  few : w.length ≤ 2 ^ 40

/-- A square root, rounded. -/
def Roots (root : ℚ → ℚ) : Prop := ∀ v : ℚ, 0 ≤ v → 0 ≤ root v ∧ |(root v : ℝ) - √(v : ℝ)| ≤ (ε : ℝ) * √(v : ℝ)

section
variable {r : ℚ → ℚ} (hr : Nearest r) {a : Adds} (ha : InSomeOrder r a) {ps : List Particle} {w : List ℚ} (h : Weighted ps w)

theorem zip_column (ps : List Particle) (w : List ℚ) (f : Particle → ℚ) : (ps.map f).zip w = (ps.zip w).map fun q => (f q.1, q.2) := by
  rw [List.zip_map_left]; rfl

include h in
theorem w_pos : 0 < w.length := by
  have := h.weights.pos
  rcases w with _ | ⟨x, w⟩
  · simp at this
  · simp

include h in
theorem zip_len : (ps.zip w).length = w.length := by rw [List.length_zip, h.len, Nat.min_self]

include h in
theorem zip_nonneg (q : Particle × ℚ) (hq : q ∈ ps.zip w) : 0 ≤ q.2 := h.weights.nonneg _ (List.of_mem_zip hq).2

include hr ha h in
theorem weights_near : |a.weights w - w.sum| ≤ γ (w.length - 1) * w.sum := by
  have hne : w ≠ [] := List.length_pos_iff.1 (w_pos h)
  have := summed_near hr (ha.weights w hne)
  have e : absSum w = w.sum := by
    unfold absSum
    congr 1
    conv_rhs => rw [← List.map_id w]
    exact List.map_congr_left fun x hx => abs_of_nonneg (h.weights.nonneg x hx)
  rwa [e] at this

include h in
theorem absSum_weighted (g : Particle → ℚ) : absSum ((ps.zip w).map fun q => g q.1 * q.2) = weighted (fun p => |g p|) ps w := by
  unfold absSum weighted
  rw [List.map_map]
  congr 1
  refine List.map_congr_left fun q hq => ?_
  simp only [Function.comp, abs_mul, abs_of_nonneg (zip_nonneg h q hq)]

include h in
theorem abs_weighted_le (g : Particle → ℚ) : |weighted g ps w| ≤ weighted (fun p => |g p|) ps w := by
  rw [← absSum_weighted h g]; exact abs_sum_le _

include hr ha h in
/-- The average of numbers that are exact up to `k` roundings. -/
theorem mean_near (f g : Particle → ℚ) (k : Nat) (hk : k ≤ 100) (hf : ∀ p, Rel k (f p) (g p)) :
    |meanF r a (ps.map f) w - exactMean g ps w| ≤ (4 * w.length + 2 * k) * ε * exactMean (fun p => |g p|) ps w := by
  have hn := w_pos h
  have hl := zip_len h
  have hne : ((ps.zip w).map fun q => r (f q.1 * q.2)) ≠ [] := by
    intro e; have := congrArg List.length e; simp [h.len] at this; simp [this] at hn
  have e : ((ps.map f).zip w).map (fun p => r (p.1 * p.2)) = (ps.zip w).map fun q => r (f q.1 * q.2) := by
    rw [zip_column, List.map_map]; rfl
  have hs := ha.values _ hne
  have hrel : ∀ q ∈ ps.zip w, Rel (k + 1) (r (f q.1 * q.2)) (g q.1 * q.2) := fun q _ => ((hf q.1).mul (Rel.refl q.2)).round hr
  have h1 := summed_terms hr (ps.zip w) _ _ (k + 1) hrel hs
  rw [absSum_weighted h, hl] at h1
  have h2 := weights_near hr ha h
  have few := h.few
  have := quotient_near hr (p := w.length - 1 + (k + 1)) (q := w.length - 1) (by omega) (by omega) h.weights.pos h1 (abs_weighted_le h g) h2
  unfold meanF
  rw [e]
  refine this.trans (le_of_eq ?_)
  have c : ((w.length - 1 + (k + 1) : ℕ) : ℚ) + ((w.length - 1 : ℕ) : ℚ) + 1 = 2 * w.length + k := by
    rw [Nat.cast_add, Nat.cast_sub hn]; push_cast; ring
  rw [c]
  unfold exactMean
  ring

include hr ha h in
theorem weights_pos : 0 < a.weights w := by
  have h2 := weights_near hr ha h
  have few := h.few
  have := small_γ (w.length - 1) (by omega)
  have hp := h.weights.pos
  obtain ⟨h3, _⟩ := abs_le.1 h2
  nlinarith

include hr ha h in
theorem check_ok : checkWeights a ps.length w = .ok () := by
  unfold checkWeights
  rw [if_neg (not_not.2 h.len), if_neg (weights_pos hr ha h).ne']

include hr ha h in
theorem mean_ok : particleMeanF r a ps w = .ok fun k => meanF r a (column ps k) w := by
  unfold particleMeanF
  rw [check_ok hr ha h]; rfl

include hr ha h in
/-- C135: in whatever order numpy adds, each coordinate of the mean of `n` particles is the exact weighted mean up to `4 n` roundings of the weighted
mean of the absolute values. -/
theorem float_mean_near : ∃ m, particleMeanF r a ps w = .ok m ∧ ∀ k,
    |m k - exactMean (fun p => p k) ps w| ≤ 4 * w.length * ε * exactMean (fun p => |p k|) ps w := by
  refine ⟨_, mean_ok hr ha h, fun k => ?_⟩
  have := mean_near hr ha h (fun p => p k) (fun p => p k) 0 (by norm_num) fun p => Rel.refl _
  simpa [column] using this

theorem exactMean_nonneg (g : Particle → ℚ) (hg : ∀ p, 0 ≤ g p) (h : Weighted ps w) : 0 ≤ exactMean g ps w := by
  refine div_nonneg (List.sum_nonneg ?_) h.weights.pos.le
  intro x hx
  obtain ⟨q, hq, rfl⟩ := List.mem_map.1 hx
  exact mul_nonneg (hg _) (zip_nonneg h q hq)

/-- The rounded variance. -/
theorem variance_near (hr : Nearest r) (ha : InSomeOrder r a) (h : Weighted ps w) (k : Fin 6) (c : ℚ) :
    |varianceF r a (column ps k) w c - exactMean (fun p => (p k - c) ^ 2) ps w| ≤ (4 * w.length + 6) * ε * exactMean (fun p => (p k - c) ^ 2) ps w := by
  have e : (column ps k).map (fun x => r (r (x - c) * r (x - c))) = ps.map fun p => r (r (p k - c) * r (p k - c)) := by
    unfold column; rw [List.map_map]; rfl
  have := mean_near hr ha h (fun p => r (r (p k - c) * r (p k - c))) (fun p => (p k - c) ^ 2) 3 (by norm_num) fun p => by
    rw [sq]
    exact ((rel_round hr _).mul (rel_round hr _)).round hr
  unfold varianceF
  rw [e]
  have ea : (fun p : Particle => |(p k - c) ^ 2|) = fun p => (p k - c) ^ 2 := by funext p; exact abs_of_nonneg (sq_nonneg _)
  rw [ea] at this
  norm_num at this ⊢
  exact this

theorem weighted_add (f g : Particle → ℚ) (ps : List Particle) (w : List ℚ) : weighted (fun p => f p + g p) ps w = weighted f ps w + weighted g ps w := by
  unfold weighted
  rw [← List.sum_map_add]
  congr 1
  exact List.map_congr_left fun q _ => by ring

theorem weighted_smul (c : ℚ) (f : Particle → ℚ) (ps : List Particle) (w : List ℚ) : weighted (fun p => c * f p) ps w = c * weighted f ps w := by
  unfold weighted
  rw [← List.sum_map_mul_left]
  congr 1
  exact List.map_congr_left fun q _ => by ring

theorem weighted_const (c : ℚ) (ps : List Particle) (w : List ℚ) (h : ps.length = w.length) : weighted (fun _ => c) ps w = c * w.sum := by
  unfold weighted
  rw [List.sum_map_mul_left]
  have : (ps.zip w).map (fun q => q.2) = w := by
    have := List.map_snd_zip (l₁ := ps) (l₂ := w) (by omega)
    exact this
  rw [this]

/-- The mean product of deviations from `c` and `d`: the covariance plus the product of the errors. -/
theorem product_about (h : Weighted ps w) (i j : Fin 6) (c d : ℚ) :
    exactMean (fun p => (p i - c) * (p j - d)) ps w =
      exactMean (fun p => (p i - exactMean (fun p => p i) ps w) * (p j - exactMean (fun p => p j) ps w)) ps w +
        (c - exactMean (fun p => p i) ps w) * (d - exactMean (fun p => p j) ps w) := by
  have hW := h.weights.pos.ne'
  have key : ∀ c d : ℚ, weighted (fun p => (p i - c) * (p j - d)) ps w =
      weighted (fun p => p i * p j) ps w + (-d) * weighted (fun p => p i) ps w + (-c) * weighted (fun p => p j) ps w + c * d * w.sum := by
    intro c d
    rw [← weighted_const (c * d) ps w h.len, ← weighted_smul, ← weighted_smul, ← weighted_add, ← weighted_add, ← weighted_add]
    congr 1; funext p; ring
  unfold exactMean
  rw [key, key]
  field_simp
  ring

theorem variance_about (h : Weighted ps w) (k : Fin 6) (c : ℚ) :
    exactMean (fun p => (p k - c) ^ 2) ps w =
      exactMean (fun p => (p k - exactMean (fun p => p k) ps w) ^ 2) ps w + (c - exactMean (fun p => p k) ps w) ^ 2 := by
  have := product_about h k k c c
  simp only [← sq] at this
  exact this

/-- C135: about any `mean` given, the standard deviations are never NaN, never negative, and exact up to `4 n + 8` roundings. -/
theorem float_sigma_about (hr : Nearest r) (ha : InSomeOrder r a) (h : Weighted ps w) (root : ℚ → ℚ) (hroot : Roots root) (m : Fin 6 → ℚ) :
    ∃ s, particleSigmaF r root a ps w (some m) = .ok s ∧ ∀ k, ∃ σ : ℚ, s k = some σ ∧ 0 ≤ σ ∧
      |(σ : ℝ) - √((exactMean (fun p => (p k - m k) ^ 2) ps w : ℚ) : ℝ)| ≤
        (4 * w.length + 8) * (ε : ℝ) * √((exactMean (fun p => (p k - m k) ^ 2) ps w : ℚ) : ℝ) := by
  refine ⟨fun k => sqrtF root (varianceF r a (column ps k) w (m k)), ?_, fun k => ?_⟩
  · unfold particleSigmaF
    simp only [check_ok hr ha h, bind, Except.bind]
  have hv := variance_near hr ha h k (m k)
  set V := exactMean (fun p => (p k - m k) ^ 2) ps w with hV
  set v := varianceF r a (column ps k) w (m k) with hv'
  have V0 : 0 ≤ V := exactMean_nonneg _ (fun p => sq_nonneg _) h
  have hn := w_pos h
  have hnq : (w.length : ℚ) ≤ 2 ^ 40 := by exact_mod_cast h.few
  have e0 := ε_pos
  have hd : (4 * w.length + 6 : ℚ) * ε ≤ 1 / 2 := by
    calc (4 * w.length + 6 : ℚ) * ε ≤ (4 * 2 ^ 40 + 6) * ε := by gcongr
      _ ≤ 1 / 2 := by unfold ε; norm_num
  have v0 : 0 ≤ v := by
    obtain ⟨h1, _⟩ := abs_le.1 hv
    have : (4 * w.length + 6 : ℚ) * ε * V ≤ 1 / 2 * V := by gcongr
    linarith
  obtain ⟨r0, r1⟩ := hroot v v0
  refine ⟨root v, by show sqrtF root v = _; unfold sqrtF; rw [if_neg (not_lt.2 v0)], r0, ?_⟩
  have VR : (0 : ℝ) ≤ (V : ℝ) := by exact_mod_cast V0
  have vR : (0 : ℝ) ≤ (v : ℝ) := by exact_mod_cast v0
  have eR : (0 : ℝ) < (ε : ℝ) := by exact_mod_cast e0
  have hvR : |(v : ℝ) - V| ≤ (4 * w.length + 6) * (ε : ℝ) * V := by
    have : ((|v - V| : ℚ) : ℝ) ≤ (((4 * w.length + 6) * ε * V : ℚ) : ℝ) := by exact_mod_cast hv
    push_cast at this
    exact this
  have hdR : (4 * w.length + 6 : ℝ) * (ε : ℝ) ≤ 1 / 2 := by
    have : (((4 * w.length + 6) * ε : ℚ) : ℝ) ≤ ((1 / 2 : ℚ) : ℝ) := by exact_mod_cast hd
    push_cast at this
    exact this
  have sV := Real.sqrt_nonneg (V : ℝ)
  have sv := Real.sqrt_nonneg (v : ℝ)
  have qV := Real.mul_self_sqrt VR
  have qv := Real.mul_self_sqrt vR
  -- the square root of the variance
  have h1 : |√(v : ℝ) - √(V : ℝ)| ≤ (4 * w.length + 6) * (ε : ℝ) * √(V : ℝ) := by
    rcases eq_or_lt_of_le sV with h0 | hpos
    · have : (V : ℝ) = 0 := by rw [← qV, ← h0]; ring
      rw [this] at hvR
      simp only [mul_zero, sub_zero] at hvR
      have hz : (v : ℝ) = 0 := abs_nonpos_iff.1 hvR
      rw [hz, this]; simp
    · have hf : ((v : ℝ) - V) = (√(v : ℝ) - √(V : ℝ)) * (√(v : ℝ) + √(V : ℝ)) := by nlinarith
      rw [hf, abs_mul, abs_of_nonneg (add_nonneg sv sV)] at hvR
      have : |√(v : ℝ) - √(V : ℝ)| * √(V : ℝ) ≤ ((4 * w.length + 6) * (ε : ℝ) * √(V : ℝ)) * √(V : ℝ) := by
        have a1 : |√(v : ℝ) - √(V : ℝ)| * √(V : ℝ) ≤ |√(v : ℝ) - √(V : ℝ)| * (√(v : ℝ) + √(V : ℝ)) := by
          gcongr; linarith
        calc _ ≤ _ := a1
          _ ≤ _ := hvR
          _ = _ := by rw [mul_assoc _ (√(V : ℝ)) (√(V : ℝ)), qV]
      exact le_of_mul_le_mul_right this hpos
  have h2 := abs_sub_le (root v : ℝ) (√(v : ℝ)) (√(V : ℝ))
  have h3 : √(v : ℝ) ≤ 2 * √(V : ℝ) := by
    obtain ⟨_, u⟩ := abs_le.1 h1
    have : (4 * w.length + 6 : ℝ) * (ε : ℝ) * √(V : ℝ) ≤ 1 / 2 * √(V : ℝ) := by gcongr
    linarith
  have h4 : (ε : ℝ) * √(v : ℝ) ≤ (ε : ℝ) * (2 * √(V : ℝ)) := by gcongr
  nlinarith

/-- C135: the standard deviations are never NaN, never negative, and exact up to `4 n + 8` roundings of themselves and `8 n` roundings of the mean
of the absolute values. They are the same whether the mean is given or not. -/
theorem float_sigma_near (hr : Nearest r) (ha : InSomeOrder r a) (h : Weighted ps w) (root : ℚ → ℚ) (hroot : Roots root) :
    ∃ m s, particleMeanF r a ps w = .ok m ∧ particleSigmaF r root a ps w none = .ok s ∧ particleSigmaF r root a ps w (some m) = .ok s ∧
      ∀ k, ∃ σ : ℚ, s k = some σ ∧ 0 ≤ σ ∧
      |(σ : ℝ) - √((exactMean (fun p => (p k - exactMean (fun p => p k) ps w) ^ 2) ps w : ℚ) : ℝ)| ≤
        (4 * w.length + 8) * (ε : ℝ) * √((exactMean (fun p => (p k - exactMean (fun p => p k) ps w) ^ 2) ps w : ℚ) : ℝ) +
          8 * w.length * (ε : ℝ) * (exactMean (fun p => |p k|) ps w : ℚ) := by
  obtain ⟨m, hm, hmk⟩ := float_mean_near hr ha h
  obtain ⟨s, hs, hsk⟩ := float_sigma_about hr ha h root hroot m
  refine ⟨m, s, hm, ?_, hs, fun k => ?_⟩
  · rw [← hs]
    unfold particleSigmaF
    simp only [hm, bind, Except.bind]
  obtain ⟨σ, h1, h2, h3⟩ := hsk k
  refine ⟨σ, h1, h2, ?_⟩
  have hE := hmk k
  set μ := exactMean (fun p => p k) ps w with hμ
  set A := exactMean (fun p => |p k|) ps w with hA
  rw [variance_about h k (m k)] at h3
  rw [← hμ] at h3
  set V := exactMean (fun p => (p k - μ) ^ 2) ps w with hV
  have V0 : 0 ≤ V := exactMean_nonneg _ (fun p => sq_nonneg _) h
  have VR : (0 : ℝ) ≤ (V : ℝ) := by exact_mod_cast V0
  set E : ℝ := |((m k : ℚ) : ℝ) - (μ : ℝ)| with hEd
  have E0 : 0 ≤ E := abs_nonneg _
  have hER : E ≤ 4 * w.length * (ε : ℝ) * (A : ℝ) := by
    have : ((|m k - μ| : ℚ) : ℝ) ≤ ((4 * w.length * ε * A : ℚ) : ℝ) := by exact_mod_cast hE
    push_cast at this
    exact this
  have e0 : (0 : ℝ) < (ε : ℝ) := by exact_mod_cast ε_pos
  have hnq : (w.length : ℝ) ≤ 2 ^ 40 := by exact_mod_cast h.few
  have hd : (4 * w.length + 8 : ℝ) * (ε : ℝ) ≤ 1 := by
    calc (4 * w.length + 8 : ℝ) * (ε : ℝ) ≤ (4 * 2 ^ 40 + 8) * (ε : ℝ) := by gcongr
      _ ≤ 1 := by unfold ε; norm_num
  push_cast at h3
  have sV := Real.sqrt_nonneg (V : ℝ)
  have qV := Real.mul_self_sqrt VR
  have sq_E : (((m k : ℚ) : ℝ) - (μ : ℝ)) ^ 2 = E ^ 2 := by rw [hEd, sq_abs]
  rw [sq_E] at h3
  have lo : √(V : ℝ) ≤ √((V : ℝ) + E ^ 2) := Real.sqrt_le_sqrt (by nlinarith [sq_nonneg E])
  have hi : √((V : ℝ) + E ^ 2) ≤ √(V : ℝ) + E := by
    rw [Real.sqrt_le_left (by positivity)]
    nlinarith
  have t := abs_sub_le (σ : ℝ) (√((V : ℝ) + E ^ 2)) (√(V : ℝ))
  have t2 : |√((V : ℝ) + E ^ 2) - √(V : ℝ)| ≤ E := by rw [abs_of_nonneg (by linarith)]; linarith
  have t3 : (4 * w.length + 8 : ℝ) * (ε : ℝ) * √((V : ℝ) + E ^ 2) ≤ (4 * w.length + 8 : ℝ) * (ε : ℝ) * (√(V : ℝ) + E) := by gcongr
  have t4 : (4 * w.length + 8 : ℝ) * (ε : ℝ) * E ≤ 1 * E := by gcongr
  nlinarith

theorem cov_arith {r : ℚ → ℚ} (hr : Nearest r) (n D N A u W : ℚ) (n0 : 0 ≤ n) (hn : n ≤ 2 ^ 40) (hW : 0 < W) (A0 : 0 ≤ A) (hA : |N| ≤ A)
    (h1 : |D - N| ≤ (n + 3) * ε * (1 + 1 / 2 ^ 10) * A) (hu : |u - 1 / W| ≤ 2 * n * ε * (1 / W)) :
    |r (D * u) - N / W| ≤ (4 * n + 8) * ε * (A / W) := by
  have e0 := ε_pos
  have ne : n * ε ≤ 1 / 2 ^ 13 := by
    calc n * ε ≤ 2 ^ 40 * ε := by gcongr
      _ = 1 / 2 ^ 13 := by unfold ε; norm_num
  have i0 : (0 : ℚ) < 1 / W := by positivity
  have u1 : |u| ≤ (1 + 1 / 2 ^ 12) * (1 / W) := by
    have := abs_sub_abs_le_abs_sub u (1 / W)
    rw [abs_of_pos i0] at this
    have : 2 * n * ε * (1 / W) ≤ 1 / 2 ^ 12 * (1 / W) := by
      refine mul_le_mul_of_nonneg_right ?_ i0.le
      linarith
    linarith
  generalize hB : A / W = B
  have B0 : 0 ≤ B := by rw [← hB]; positivity
  have nB : 0 ≤ n * ε * B := by positivity
  have eB : 0 ≤ ε * B := by positivity
  have s1 : |D * u - N / W| ≤ (13 / 4 * n + 13 / 4) * ε * B := by
    have ed : D * u - N / W = (D - N) * u + N * (u - 1 / W) := by ring
    rw [ed]
    refine (abs_add_le _ _).trans ?_
    rw [abs_mul, abs_mul]
    have a1 : |D - N| * |u| ≤ ((n + 3) * ε * (1 + 1 / 2 ^ 10) * A) * ((1 + 1 / 2 ^ 12) * (1 / W)) :=
      mul_le_mul h1 u1 (abs_nonneg _) (by positivity)
    have a2 : |N| * |u - 1 / W| ≤ A * (2 * n * ε * (1 / W)) := mul_le_mul hA hu (abs_nonneg _) A0
    have b1 : ((n + 3) * ε * (1 + 1 / 2 ^ 10) * A) * ((1 + 1 / 2 ^ 12) * (1 / W)) = (1 + 1 / 2 ^ 10) * (1 + 1 / 2 ^ 12) * (n * ε * B + 3 * (ε * B)) := by
      rw [← hB]; ring
    have b2 : A * (2 * n * ε * (1 / W)) = 2 * (n * ε * B) := by rw [← hB]; ring
    rw [b1] at a1
    rw [b2] at a2
    norm_num at a1
    linarith
  have NB : |N / W| ≤ B := by rw [abs_div, abs_of_pos hW, ← hB]; gcongr
  have s2 : |r (D * u) - D * u| ≤ ε * |D * u| := by have := hr.near (D * u); unfold ε; linarith
  have s3 := abs_sub_le (r (D * u)) (D * u) (N / W)
  have s4 := abs_sub_abs_le_abs_sub (D * u) (N / W)
  have s6 : |D * u| ≤ 2 * B := by
    have : (13 / 4 * n + 13 / 4) * ε ≤ 1 := by
      have : ε ≤ 1 / 2 ^ 13 := by unfold ε; norm_num
      linarith
    have : (13 / 4 * n + 13 / 4) * ε * B ≤ 1 * B := mul_le_mul_of_nonneg_right this B0
    linarith
  have s7 : ε * |D * u| ≤ ε * (2 * B) := by gcongr
  linarith

theorem one_near : |(1 : ℚ) - 1| ≤ γ 0 * 1 := by simp [γ]

theorem zip_pairs (ps : List Particle) (w : List ℚ) : ps.zip (ps.zip w) = (ps.zip w).map fun q => (q.1, q) := by
  induction ps generalizing w with
  | nil => rfl
  | cons p ps ih => cases w with
    | nil => rfl
    | cons x w => simp [ih]

theorem cov_pairs (r : ℚ → ℚ) (ps : List Particle) (w : List ℚ) (i j : Fin 6) (c d : ℚ) :
    ((column ps i).zip ((column ps j).zip w)).map (fun p => (r (p.1 - c), r (r (p.2.1 - d) * p.2.2))) =
      (ps.zip w).map fun q => (r (q.1 i - c), r (r (q.1 j - d) * q.2)) := by
  unfold column
  rw [zip_column, List.zip_map, zip_pairs, List.map_map, List.map_map]
  rfl

/-- The products of deviations, added in some order. -/
theorem cov_near (hr : Nearest r) (ha : InSomeOrder r a) (h : Weighted ps w) (i j : Fin 6) (c d : ℚ) :
    |covF r a (column ps i) (column ps j) w c d - exactMean (fun p => (p i - c) * (p j - d)) ps w| ≤
      (4 * w.length + 8) * ε * exactMean (fun p => |p i - c| * |p j - d|) ps w := by
  have hn := w_pos h
  have hl := zip_len h
  have few := h.few
  have e := cov_pairs r ps w i j c d
  have hne : ((ps.zip w).map fun q => (r (q.1 i - c), r (r (q.1 j - d) * q.2))) ≠ [] := by
    intro e; have := congrArg List.length e; simp [h.len] at this; simp [this] at hn
  have hrel : ∀ q ∈ ps.zip w, Rel 3 (r (q.1 i - c) * r (r (q.1 j - d) * q.2)) ((q.1 i - c) * (q.1 j - d) * q.2) := fun q _ => by
    have := (rel_round hr (q.1 i - c)).mul (((rel_round hr (q.1 j - d)).mul (Rel.refl q.2)).round hr)
    rw [← mul_assoc] at this
    exact this
  have h1 := dotted_terms hr (ps.zip w) (fun q => (r (q.1 i - c), r (r (q.1 j - d) * q.2))) (fun q => (q.1 i - c) * (q.1 j - d) * q.2) 3 hrel (ha.dot _ hne)
  rw [absSum_weighted h (fun p => (p i - c) * (p j - d)), hl] at h1
  unfold covF
  rw [e]
  set D := a.dot ((ps.zip w).map fun q => (r (q.1 i - c), r (r (q.1 j - d) * q.2))) with hD
  have hN : ((ps.zip w).map fun q => (q.1 i - c) * (q.1 j - d) * q.2).sum = weighted (fun p => (p i - c) * (p j - d)) ps w := rfl
  rw [hN] at h1
  have hA := abs_weighted_le h (fun p => (p i - c) * (p j - d))
  set N := weighted (fun p => (p i - c) * (p j - d)) ps w with hNd
  set A := weighted (fun p => |(p i - c) * (p j - d)|) ps w with hAd
  have eA : exactMean (fun p => |p i - c| * |p j - d|) ps w = A / w.sum := by
    rw [hAd]; unfold exactMean; congr 2; funext p; rw [abs_mul]
  have eN : exactMean (fun p => (p i - c) * (p j - d)) ps w = N / w.sum := by rw [hNd]; unfold exactMean; rfl
  rw [eA, eN]
  clear_value N A D
  have h2 := weights_near hr ha h
  have hW := h.weights.pos
  have hu := quotient_near hr (N' := 1) (N := 1) (A := 1) (p := 0) (q := w.length - 1) (Nat.zero_le _) (by omega) hW one_near (by norm_num) h2
  set u := r (1 / a.weights w) with hud
  have cu : ((0 : ℕ) : ℚ) + ((w.length - 1 : ℕ) : ℚ) + 1 = w.length := by rw [Nat.cast_sub hn]; push_cast; ring
  rw [cu] at hu
  have e0 := ε_pos
  have hnq : (w.length : ℚ) ≤ 2 ^ 40 := by exact_mod_cast few
  have gl : γ (w.length + 3) ≤ ((w.length : ℚ) + 3) * ε * (1 + 1 / 2 ^ 10) := by
    have := γ_le (w.length + 3) (by omega)
    rwa [Nat.cast_add, Nat.cast_ofNat] at this
  have A0 : 0 ≤ A := (abs_nonneg N).trans hA
  have h1' := h1.trans (mul_le_mul_of_nonneg_right gl A0)
  exact cov_arith hr (w.length : ℚ) D N A u w.sum (Nat.cast_nonneg _) hnq hW A0 hA h1' hu

/-- The covariance. -/
theorem covariance_ok (hr : Nearest r) (ha : InSomeOrder r a) (h : Weighted ps w) : particleCovarianceF r a ps w =
    .ok fun i j => covF r a (column ps i) (column ps j) w (meanF r a (column ps i) w) (meanF r a (column ps j) w) := by
  unfold particleCovarianceF
  have hw : w.any (fun x => decide (x < 0)) = false := by
    rw [List.any_eq_false]
    intro x hx
    simpa using h.weights.nonneg x hx
  rw [if_neg (not_not.2 h.len), hw]
  simp only [Bool.false_eq_true, if_false, mean_ok hr ha h, bind, Except.bind]

/-- C135: each element of the covariance is exact up to `4 n + 8` roundings of the mean absolute product of the deviations from the mean computed,
and the product of the errors of that mean. -/
theorem float_covariance_near (hr : Nearest r) (ha : InSomeOrder r a) (h : Weighted ps w) : ∃ m c, particleMeanF r a ps w = .ok m ∧
    particleCovarianceF r a ps w = .ok c ∧ ∀ i j,
      |c i j - exactMean (fun p => (p i - exactMean (fun p => p i) ps w) * (p j - exactMean (fun p => p j) ps w)) ps w| ≤
        (4 * w.length + 8) * ε * exactMean (fun p => |p i - m i| * |p j - m j|) ps w +
          (4 * w.length * ε) ^ 2 * (exactMean (fun p => |p i|) ps w * exactMean (fun p => |p j|) ps w) := by
  obtain ⟨m, hm, hmk⟩ := float_mean_near hr ha h
  have em := mean_ok hr ha h
  have emk : m = fun k => meanF r a (column ps k) w := by
    rw [hm] at em
    exact Except.ok.inj em
  refine ⟨m, _, hm, covariance_ok hr ha h, fun i j => ?_⟩
  have hc := cov_near hr ha h i j (m i) (m j)
  have hp := product_about h i j (m i) (m j)
  rw [hp] at hc
  have e : meanF r a (column ps i) w = m i ∧ meanF r a (column ps j) w = m j := by rw [emk]; exact ⟨rfl, rfl⟩
  rw [e.1, e.2]
  have hi := hmk i
  have hj := hmk j
  have e0 := ε_pos
  have ai := exactMean_nonneg (fun p => |p i|) (fun p => abs_nonneg _) h
  have prod : |(m i - exactMean (fun p => p i) ps w) * (m j - exactMean (fun p => p j) ps w)| ≤
      (4 * w.length * ε * exactMean (fun p => |p i|) ps w) * (4 * w.length * ε * exactMean (fun p => |p j|) ps w) := by
    rw [abs_mul]
    exact mul_le_mul hi hj (abs_nonneg _) (by positivity)
  set C := covF r a (column ps i) (column ps j) w (m i) (m j)
  set X := exactMean (fun p => (p i - exactMean (fun p => p i) ps w) * (p j - exactMean (fun p => p j) ps w)) ps w
  set Y := (m i - exactMean (fun p => p i) ps w) * (m j - exactMean (fun p => p j) ps w)
  have t : |C - X| ≤ |C - (X + Y)| + |Y| := by
    have := abs_add_le (C - (X + Y)) Y
    rwa [show C - (X + Y) + Y = C - X by ring] at this
  have : (4 * w.length * ε * exactMean (fun p => |p i|) ps w) * (4 * w.length * ε * exactMean (fun p => |p j|) ps w) =
      (4 * w.length * ε) ^ 2 * (exactMean (fun p => |p i|) ps w * exactMean (fun p => |p j|) ps w) := by ring
  linarith

/-- C135: the variances on the diagonal are not negative, and elements that mirror each other differ by at most `8 n + 16` roundings. -/
theorem float_covariance_symmetric (hr : Nearest r) (ha : InSomeOrder r a) (h : Weighted ps w) : ∃ m c, particleMeanF r a ps w = .ok m ∧
    particleCovarianceF r a ps w = .ok c ∧ (∀ i, 0 ≤ c i i) ∧
    ∀ i j, |c i j - c j i| ≤ (8 * w.length + 16) * ε * exactMean (fun p => |p i - m i| * |p j - m j|) ps w := by
  refine ⟨_, _, mean_ok hr ha h, covariance_ok hr ha h, fun i => ?_, fun i j => ?_⟩
  · refine r_nonneg hr _ (mul_nonneg ?_ (r_nonneg hr _ (one_div_nonneg.2 (weights_pos hr ha h).le)))
    set c := meanF r a (column ps i) w
    have hne : ((column ps i).zip ((column ps i).zip w)).map (fun p => (r (p.1 - c), r (r (p.2.1 - c) * p.2.2))) ≠ [] := by
      have hn := w_pos h
      intro e
      have := congrArg List.length e
      simp [column, h.len] at this
      simp [this] at hn
    refine (ha.dot _ hne).nonneg hr ?_
    intro p hp
    obtain ⟨q, hq, rfl⟩ := List.mem_map.1 hp
    have hw : 0 ≤ q.2.2 := h.weights.nonneg _ (List.of_mem_zip (List.of_mem_zip hq).2).2
    have hx : q.1 = q.2.1 := by
      have : ∀ (xs w : List ℚ) (q : ℚ × ℚ × ℚ), q ∈ xs.zip (xs.zip w) → q.1 = q.2.1 := by
        intro xs
        induction xs with
        | nil => intro w q h; simp at h
        | cons x xs ih => intro w q h; cases w with
          | nil => simp at h
          | cons y w =>
            simp only [List.zip_cons_cons, List.mem_cons] at h
            rcases h with rfl | h
            · rfl
            · exact ih w q h
      exact this _ _ _ hq
    show 0 ≤ r (q.1 - c) * r (r (q.2.1 - c) * q.2.2)
    rw [← hx]
    rcases le_total 0 (q.1 - c) with hs | hs
    · exact mul_nonneg (r_nonneg hr _ hs) (r_nonneg hr _ (mul_nonneg (r_nonneg hr _ hs) hw))
    · have z : r 0 = 0 := (hr.eq_zero_iff 0).2 rfl
      have np : ∀ x, x ≤ 0 → r x ≤ 0 := fun x hx => by have := hr.mono _ _ hx; rwa [z] at this
      exact mul_nonneg_of_nonpos_of_nonpos (np _ hs) (np _ (mul_nonpos_of_nonpos_of_nonneg (np _ hs) hw))
  · set ci := meanF r a (column ps i) w
    set cj := meanF r a (column ps j) w
    have h1 := cov_near hr ha h i j ci cj
    have h2 := cov_near hr ha h j i cj ci
    have e1 : (fun p : Particle => (p j - cj) * (p i - ci)) = fun p => (p i - ci) * (p j - cj) := by funext p; ring
    have e2 : (fun p : Particle => |p j - cj| * |p i - ci|) = fun p => |p i - ci| * |p j - cj| := by funext p; ring
    rw [e1, e2] at h2
    have := abs_sub_le (covF r a (column ps i) (column ps j) w ci cj) (exactMean (fun p => (p i - ci) * (p j - cj)) ps w)
      (covF r a (column ps j) (column ps i) w cj ci)
    rw [abs_sub_comm (exactMean _ ps w)] at this
    show |covF r a (column ps i) (column ps j) w ci cj - covF r a (column ps j) (column ps i) w cj ci| ≤ _
    linarith

/-- A sum of zeros in any order. -/
theorem summed_zero (hr : Nearest r) {l : List ℚ} {s : ℚ} (h : Summed r l s) (hl : ∀ x ∈ l, x = 0) : s = 0 := by
  induction h with
  | one x => exact hl x (by simp)
  | add _ _ i1 i2 =>
    rw [i1 fun x hx => hl x (by simp [hx]), i2 fun x hx => hl x (by simp [hx]), add_zero]
    exact (hr.eq_zero_iff 0).2 rfl
  | perm hp _ ih => exact ih fun x hx => hl x (hp.mem_iff.1 hx)

/-- C135: weights that are all zero raise `ZeroDivisionError`; another number of weights raises `ValueError`, or `RuntimeError` for the covariance;
negative weights raise `ValueError` for the covariance. -/
theorem float_stats_errors (hr : Nearest r) (ha : InSomeOrder r a) (root : ℚ → ℚ) (m : Option (Fin 6 → ℚ)) :
    (ps.length ≠ w.length → particleMeanF r a ps w = .error .valueError ∧ particleSigmaF r root a ps w m = .error .valueError ∧
      particleCovarianceF r a ps w = .error .other) ∧
    (ps.length = w.length → w ≠ [] → (∀ x ∈ w, x = 0) → particleMeanF r a ps w = .error .zeroDivision ∧
      particleSigmaF r root a ps w m = .error .zeroDivision ∧ particleCovarianceF r a ps w = .error .zeroDivision) ∧
    (ps.length = w.length → (∃ x ∈ w, x < 0) → particleCovarianceF r a ps w = .error .valueError) := by
  refine ⟨fun hl => ?_, fun hl hne hz => ?_, fun hl hw => ?_⟩
  · have hc : checkWeights a ps.length w = .error .valueError := by unfold checkWeights; rw [if_pos hl]
    have hm : particleMeanF r a ps w = .error .valueError := by unfold particleMeanF; simp only [hc, bind, Except.bind]
    refine ⟨hm, ?_, by unfold particleCovarianceF; rw [if_pos hl]⟩
    cases m <;> simp only [particleSigmaF, hm, hc, bind, Except.bind]
  · have h0 := summed_zero hr (ha.weights w hne) hz
    have hc : checkWeights a ps.length w = .error .zeroDivision := by unfold checkWeights; rw [if_neg (not_not.2 hl), if_pos h0]
    have hm : particleMeanF r a ps w = .error .zeroDivision := by unfold particleMeanF; simp only [hc, bind, Except.bind]
    have hw : w.any (fun x => decide (x < 0)) = false := by
      rw [List.any_eq_false]
      intro x hx
      simp [hz x hx]
    refine ⟨hm, ?_, ?_⟩
    · cases m <;> simp only [particleSigmaF, hm, hc, bind, Except.bind]
    · unfold particleCovarianceF
      rw [if_neg (not_not.2 hl), hw]
      simp only [Bool.false_eq_true, if_false, hm, bind, Except.bind]
  · have hw' : w.any (fun x => decide (x < 0)) = true := by
      rw [List.any_eq_true]
      obtain ⟨x, hx, h⟩ := hw
      exact ⟨x, hx, by simpa using h⟩
    unfold particleCovarianceF
    rw [if_neg (not_not.2 hl), hw']
    rfl

end

/-! ### C135: adding from the left, counterexamples and the exact formulas -/

/-- Adding products from the left, each rounded. -/
def leftDot (r : ℚ → ℚ) : List (ℚ × ℚ) → ℚ
  | [] => 0
  | p :: l => l.foldl (fun s q => r (s + r (q.1 * q.2))) (r (p.1 * p.2))

theorem leftDot_dotted (r : ℚ → ℚ) (l : List (ℚ × ℚ)) (hl : l ≠ []) : Dotted r l (leftDot r l) := by
  have key : ∀ (l pre : List (ℚ × ℚ)) (s : ℚ), Dotted r pre s → Dotted r (pre ++ l) (l.foldl (fun s q => r (s + r (q.1 * q.2))) s) := by
    intro l
    induction l with
    | nil => intro pre s h; simpa using h
    | cons q l ih =>
      intro pre s h
      have := ih (pre ++ [q]) _ (h.add (Dotted.one q.1 q.2))
      simpa using this
  cases l with
  | nil => exact absurd rfl hl
  | cons p l => exact key l [p] _ (Dotted.one p.1 p.2)

/-- Adding from the left. -/
def leftAdds (r : ℚ → ℚ) : Adds := ⟨leftSum r, leftSum r, leftDot r⟩

theorem leftAdds_order (r : ℚ → ℚ) : InSomeOrder r (leftAdds r) := ⟨leftSum_some_order r, leftSum_some_order r, leftDot_dotted r⟩

/-- There is a rounded square root. -/
theorem roots_exist : ∃ root, Roots root := by
  have : ∀ v : ℚ, ∃ q : ℚ, 0 ≤ v → 0 ≤ q ∧ |(q : ℝ) - √(v : ℝ)| ≤ (ε : ℝ) * √(v : ℝ) := by
    intro v
    have e0 : (0 : ℝ) < (ε : ℝ) := by exact_mod_cast ε_pos
    rcases eq_or_lt_of_le (Real.sqrt_nonneg (v : ℝ)) with h | h
    · exact ⟨0, fun _ => ⟨le_refl _, by rw [← h]; simp⟩⟩
    · obtain ⟨q, h1, h2⟩ := exists_rat_btwn (show √(v : ℝ) < √(v : ℝ) + (ε : ℝ) * √(v : ℝ) by nlinarith)
      refine ⟨q, fun _ => ⟨?_, ?_⟩⟩
      · have : (0 : ℝ) < q := h.trans h1
        exact_mod_cast this.le
      · rw [abs_of_nonneg (by linarith)]; linarith
  exact ⟨fun v => (this v).choose, fun v hv => (this v).choose_spec hv⟩

/-- Three particles at 0.1 (in every coordinate). -/
def threeEqual : List Particle := List.replicate 3 fun _ => rnd (1 / 10)

/-- C135 (violated): the mean of three particles of equal weight at the same place, 0.1, is not at that place but beyond, at
0.10000000000000002, and their standard deviation is not zero. -/
theorem float_mean_outside_violated : ∃ (m : Fin 6 → ℚ) (s : (ℚ → ℚ) → Fin 6 → Option ℚ), particleMeanF rnd (leftAdds rnd) threeEqual [1, 1, 1] = .ok m ∧
    (∀ k, ∀ p ∈ threeEqual, p k < m k) ∧ (∀ k, 0 < varianceF rnd (leftAdds rnd) (column threeEqual k) [1, 1, 1] (m k)) ∧
    (∀ root, Roots root → particleSigmaF rnd root (leftAdds rnd) threeEqual [1, 1, 1] none = .ok (s root) ∧ ∀ k, s root k ≠ some 0) := by
  have hw : Weighted threeEqual [1, 1, 1] := ⟨rfl, ⟨by decide +kernel, by decide +kernel⟩, by norm_num⟩
  have hm := mean_ok rnd_nearest (leftAdds_order rnd) hw
  have hc := check_ok rnd_nearest (leftAdds_order rnd) hw
  refine ⟨_, fun root k => sqrtF root (varianceF rnd (leftAdds rnd) (column threeEqual k) [1, 1, 1] (meanF rnd (leftAdds rnd) (column threeEqual k) [1, 1, 1])), hm, ?_, ?_, ?_⟩
  · decide +kernel
  · decide +kernel
  · intro root hroot
    refine ⟨?_, fun k => ?_⟩
    · unfold particleSigmaF
      simp only [hm, hc, bind, Except.bind]
    · have hv : 0 < varianceF rnd (leftAdds rnd) (column threeEqual k) [1, 1, 1] (meanF rnd (leftAdds rnd) (column threeEqual k) [1, 1, 1]) := by
        revert k; decide +kernel
      show sqrtF root (varianceF rnd (leftAdds rnd) (column threeEqual k) [1, 1, 1] (meanF rnd (leftAdds rnd) (column threeEqual k) [1, 1, 1])) ≠ some 0
      generalize varianceF rnd (leftAdds rnd) (column threeEqual k) [1, 1, 1] (meanF rnd (leftAdds rnd) (column threeEqual k) [1, 1, 1]) = v at hv
      unfold sqrtF
      rw [if_neg (not_lt.2 hv.le)]
      intro h0
      have h1 : root v = 0 := Option.some.inj h0
      have h2 := (hroot v hv.le).2
      rw [h1] at h2
      have hs : 0 < √(v : ℝ) := Real.sqrt_pos.2 (by exact_mod_cast hv)
      have e1 : (ε : ℝ) < 1 := by unfold ε; norm_num
      simp only [Rat.cast_zero, zero_sub, abs_neg, abs_of_pos hs] at h2
      nlinarith

/-- Two particles. -/
def twoApart : List Particle := [fun _ => 0, fun k => if k = 0 then 1 else 3]

/-- C135 (violated): the covariance matrix is not exactly symmetric: two particles with `(x, y)` of (0, 0) and (1, 3) and weights 2 and 3. -/
theorem float_covariance_asymmetric_violated : ∃ c, particleCovarianceF rnd (leftAdds rnd) twoApart [2, 3] = .ok c ∧ c 0 1 < c 1 0 := by
  have hw : Weighted twoApart [2, 3] := ⟨rfl, ⟨by decide +kernel, by decide +kernel⟩, by norm_num⟩
  exact ⟨_, covariance_ok rnd_nearest (leftAdds_order rnd) hw, by decide +kernel⟩

/-- Exact sums. -/
def exactAdds : Adds := ⟨List.sum, List.sum, fun l => (products l).sum⟩

/-- Without rounding, mean and covariance are the weighted mean and the weighted mean product of the deviations. -/
theorem stats_exact (ps : List Particle) (w : List ℚ) (h : Weighted ps w) :
    particleMeanF id exactAdds ps w = .ok (fun k => exactMean (fun p => p k) ps w) ∧
    particleCovarianceF id exactAdds ps w = .ok (fun i j => exactMean (fun p => (p i - exactMean (fun p => p i) ps w) * (p j - exactMean (fun p => p j) ps w)) ps w) := by
  have hc : checkWeights exactAdds ps.length w = .ok () := by
    unfold checkWeights
    rw [if_neg (not_not.2 h.len), if_neg (by exact h.weights.pos.ne')]
  have hm : ∀ k, meanF id exactAdds (column ps k) w = exactMean (fun p => p k) ps w := by
    intro k
    unfold meanF exactMean weighted column exactAdds
    rw [zip_column, List.map_map]
    rfl
  have e1 : particleMeanF id exactAdds ps w = .ok (fun k => exactMean (fun p => p k) ps w) := by
    unfold particleMeanF
    rw [hc]
    simp only [hm, bind, Except.bind]
  refine ⟨e1, ?_⟩
  have hw : w.any (fun x => decide (x < 0)) = false := by
    rw [List.any_eq_false]
    intro x hx
    simpa using h.weights.nonneg x hx
  unfold particleCovarianceF
  rw [if_neg (not_not.2 h.len), hw]
  simp only [Bool.false_eq_true, if_false, e1, bind, Except.bind]
  congr 1
  funext i j
  have := cov_pairs id ps w i j (exactMean (fun p => p i) ps w) (exactMean (fun p => p j) ps w)
  unfold covF
  rw [this]
  show (products _).sum * (1 / w.sum) = weighted _ ps w / w.sum
  unfold products
  rw [List.map_map, mul_one_div]
  congr 1
  unfold weighted
  congr 1
  refine List.map_congr_left fun q _ => ?_
  simp only [Function.comp, id]
  ring

/-- Concrete case: the hypotheses are met, and the mean is as expected. -/
example : Nearest rnd ∧ InSomeOrder rnd (leftAdds rnd) ∧ (∃ root, Roots root) ∧ Weighted twoApart [2, 3] ∧
    (particleMeanF rnd (leftAdds rnd) twoApart [2, 3]).toOption.map (fun m => (m 0, m 1)) = some (rnd (3 / 5), rnd (9 / 5)) := by
  refine ⟨rnd_nearest, leftAdds_order rnd, roots_exist, ⟨rfl, ⟨by decide +kernel, by decide +kernel⟩, by norm_num⟩, by decide +kernel⟩

end Glimpse.FloatStats
