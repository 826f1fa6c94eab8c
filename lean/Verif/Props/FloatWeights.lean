import Verif.Model.FloatWeights
import Verif.Props.FloatResample

/-!
C133: the weights of particles in double precision with overflow, underflow, infinities and NaN.
-/
set_option autoImplicit false
set_option linter.unusedSimpArgs false
set_option linter.unusedSectionVars false

namespace Glimpse.FloatWeights
open Glimpse Glimpse.Double Glimpse.FloatResample Glimpse.Resample

/-! ### Rounding with gradual underflow -/

/-- The smallest normal number. -/
def tiny : ℚ := (2 : ℚ) ^ (-1022 : ℤ)

/-- A limit for weights far below overflow. -/
def large : ℚ := (2 : ℚ) ^ (1022 : ℤ)

theorem overflow_eq : overflow = 4 * large := by
  unfold overflow large
  rw [show (1024 : ℤ) = 2 + 1022 by norm_num, zpow_split]
  norm_num

theorem one_le_large : 1 ≤ large := one_le_zpow₀ (by norm_num) (by norm_num)

theorem large_double : IsDouble (2 * large) := ⟨1, 1023, by norm_num, by
  unfold large
  rw [show (1023 : ℤ) = 1 + 1022 by norm_num, zpow_split]
  push_cast
  rw [one_mul]⟩

theorem tiny_pos : 0 < tiny := by unfold tiny; positivity

/-- Above the smallest normal number the exponent does not matter. -/
theorem rnd64_eq (x : ℚ) (h : x = 0 ∨ tiny ≤ |x|) : rnd64 x = rnd x := by
  rcases h with h | h
  · simp [rnd64, rnd, h]
  · unfold rnd64 rnd
    have hx : x ≠ 0 := by
      intro h0
      rw [h0, abs_zero] at h
      exact absurd h (not_le.mpr tiny_pos)
    rw [if_neg hx, if_neg hx]
    have : ulp64 x = ulp x := by
      unfold ulp64 ulp
      apply max_eq_left
      apply zpow_le_zpow_right₀ (by norm_num)
      have h1 : (-1022 : ℤ) ≤ Int.log 2 |x| := (Int.zpow_le_iff_le_log (by norm_num) (abs_pos.mpr hx)).mp (by exact_mod_cast h)
      omega
    rw [this]

theorem rnd64_pos (x : ℚ) (h : tiny ≤ x) : rnd64 x = rnd x := rnd64_eq x (.inr (h.trans (le_abs_self x)))

theorem isDouble_zpow (k : ℤ) : IsDouble ((2 : ℚ) ^ k) := ⟨1, k, by norm_num, by simp⟩

/-- A rounded number is not below a power of two that the number is not below. -/
theorem le_rnd_zpow (x : ℚ) (k : ℤ) (h : (2 : ℚ) ^ k ≤ x) : (2 : ℚ) ^ k ≤ rnd x := by
  have := rnd_mono _ _ h
  rwa [rnd_exact _ (isDouble_zpow k)] at this

theorem rnd_le_int (x : ℚ) (n : ℤ) (hn : |n| ≤ 2 ^ 53) (h : x ≤ n) : rnd x ≤ n := by
  have := rnd_mono _ _ h
  rwa [rnd_exact _ (isDouble_int n hn)] at this

theorem floor300_eq : floor300 = rnd (1 / 10 ^ 300) := by
  apply rnd64_pos
  unfold tiny
  rw [zpow_neg, ← one_div]
  apply one_div_le_one_div_of_le (by positivity)
  calc (10 : ℚ) ^ 300 ≤ 16 ^ 250 := by
        rw [show 300 = 6 * 50 by norm_num, show 250 = 5 * 50 by norm_num, pow_mul, pow_mul]
        exact pow_le_pow_left₀ (by norm_num) (by norm_num) 50
    _ = 2 ^ (1000 : ℤ) := by
        rw [show (1000 : ℤ) = ((4 * 250 : ℕ) : ℤ) by norm_num, zpow_natCast, pow_mul]
        norm_num
    _ ≤ 2 ^ (1022 : ℤ) := zpow_le_zpow_right₀ (by norm_num) (by norm_num)

/-- `1e-300` is at least `2 ^ -997`. -/
theorem floor300_ge : (2 : ℚ) ^ (-997 : ℤ) ≤ floor300 := by
  rw [floor300_eq]
  apply le_rnd_zpow
  rw [zpow_neg, ← one_div]
  apply one_div_le_one_div_of_le (by positivity)
  have h : (10 : ℚ) ^ 300 ≤ 2 ^ 997 := by
    calc (10 : ℚ) ^ 300 = (10 ^ 60) ^ 5 := by rw [← pow_mul]
      _ ≤ (2 ^ 200 * (63 / 100)) ^ 5 := pow_le_pow_left₀ (by positivity) (by norm_num) 5
      _ = 2 ^ 997 * (2 ^ 3 * (63 / 100) ^ 5) := by rw [mul_pow, ← pow_mul, ← mul_assoc, ← pow_add]
      _ ≤ 2 ^ 997 * 1 := mul_le_mul_of_nonneg_left (by norm_num) (by positivity)
      _ = 2 ^ 997 := mul_one _
  rw [show (997 : ℤ) = ((997 : ℕ) : ℤ) by norm_num, zpow_natCast]
  exact h

theorem floor300_le : floor300 ≤ 1 / 2 ^ 60 := by
  rw [floor300_eq]
  have h10 : (1 : ℚ) / 10 ^ 300 ≤ 1 / 2 ^ 60 := by
    apply one_div_le_one_div_of_le (by positivity)
    calc (2 : ℚ) ^ 60 ≤ 10 ^ 60 := pow_le_pow_left₀ (by norm_num) (by norm_num) 60
      _ ≤ 10 ^ 300 := pow_le_pow_right₀ (by norm_num) (by norm_num)
  have := rnd_mono (1 / 10 ^ 300) (1 / 2 ^ 60) h10
  rwa [rnd_exact (1 / 2 ^ 60) (by
    have := isDouble_zpow (-60)
    rwa [zpow_neg, ← one_div] at this)] at this

theorem tiny_le (k : ℤ) (h : -1022 ≤ k) : tiny ≤ (2 : ℚ) ^ k := zpow_le_zpow_right₀ (by norm_num) h

theorem floor300_pos : 0 < floor300 := lt_of_lt_of_le (by positivity) floor300_ge

theorem tiny_le_floor300 : tiny ≤ floor300 := (tiny_le (-997) (by norm_num)).trans floor300_ge

theorem floor300_double : IsDouble floor300 := by rw [floor300_eq]; exact rnd_double _

/-- Finite numbers in range. -/
theorem toF64_fin (x : ℚ) (h0 : tiny ≤ x) (h1 : x ≤ 2 * large) : toF64 x = .fin (rnd x) := by
  have e := rnd64_pos x h0
  have hp : 0 ≤ rnd x := rnd_nonneg x (tiny_pos.le.trans h0)
  have hl := one_le_large
  have ho := overflow_eq
  have hb : rnd x ≤ 2 * large := by
    have h := rnd_mono _ _ h1
    rwa [rnd_exact _ large_double] at h
  unfold toF64
  rw [e, if_neg (by rw [ho]; linarith), if_neg (by rw [ho]; linarith)]

/-! ### What is known of `np.exp` -/

/-- `np.exp` as used here: rounded in any way, but not negative, at most 1 for negative numbers, monotone, zero where the result underflows and
infinite where it overflows. -/
structure ExpOk (exp : F64 → F64) : Prop where
  nan : exp .nan = .nan
  inf : exp .inf = .inf
  ninf : exp .ninf = .fin 0
  negative : ∀ x : ℚ, x ≤ 0 → ∃ y, exp (.fin x) = .fin y ∧ 0 ≤ y ∧ y ≤ 1
  positive : ∀ x : ℚ, 0 ≤ x → x ≤ 709 → ∃ y, exp (.fin x) = .fin y ∧ 1 ≤ y ∧ y ≤ large * (15 / 8)
  mono : ∀ x y a b : ℚ, x ≤ y → exp (.fin x) = .fin a → exp (.fin y) = .fin b → a ≤ b
  under : ∀ x : ℚ, x ≤ -746 → exp (.fin x) = .fin 0
  over : ∀ x : ℚ, 710 ≤ x → exp (.fin x) = .inf

/-- Log likelihoods (their negatives, in the code's sign) that are not negative: zero is certain, infinite is impossible. -/
def NotNegative : F64 → Prop
  | .fin x => 0 ≤ x
  | .inf => True
  | _ => False

/-- At least `-709`. -/
def AboveLimit : F64 → Prop
  | .fin x => -709 ≤ x
  | .inf => True
  | _ => False

theorem rnd64_nonneg (x : ℚ) (h : 0 ≤ x) : 0 ≤ rnd64 x := by
  unfold rnd64
  by_cases hx : x = 0
  · rw [if_pos hx]
  · rw [if_neg hx]
    have hu : 0 < ulp64 x := lt_of_lt_of_le (ulp_pos x) (le_max_left _ _)
    have : 0 ≤ halfEven (x / ulp64 x) := by
      have h1 := halfEven_mono ((0 : ℤ) : ℚ) (x / ulp64 x) (by push_cast; positivity)
      rwa [halfEven_int] at h1
    have h2 : (0 : ℚ) ≤ halfEven (x / ulp64 x) := by exact_mod_cast this
    positivity

theorem toF64_notNegative (x : ℚ) (h : 0 ≤ x) : NotNegative (toF64 x) := by
  have h1 := rnd64_nonneg x h
  have h2 := one_le_large
  have h3 := overflow_eq
  unfold toF64
  by_cases a : overflow ≤ rnd64 x
  · rw [if_pos a]
    exact True.intro
  · rw [if_neg a, if_neg (by rw [h3]; linarith)]
    exact h1

theorem add_notNegative (a b : F64) (ha : NotNegative a) (hb : NotNegative b) : NotNegative (add a b) := by
  cases a with
  | nan => exact ha.elim
  | ninf => exact ha.elim
  | inf =>
    cases b with
    | nan => exact hb.elim
    | ninf => exact hb.elim
    | inf => exact True.intro
    | fin y => exact True.intro
  | fin x =>
    cases b with
    | nan => exact hb.elim
    | ninf => exact hb.elim
    | inf => exact True.intro
    | fin y => exact toF64_notNegative _ (add_nonneg ha hb)

/-- A sum of log likelihoods that are not negative is not negative. -/
theorem total_notNegative (l : List F64) (h : ∀ x ∈ l, NotNegative x) : NotNegative (total l) := by
  have key : ∀ (l : List F64) (a : F64), NotNegative a → (∀ x ∈ l, NotNegative x) → NotNegative (l.foldl add a) := by
    intro l
    induction l with
    | nil => intro a ha _; exact ha
    | cons x l ih =>
      intro a ha hl
      exact ih _ (add_notNegative _ _ ha (hl x List.mem_cons_self)) (fun y hy => hl y (List.mem_cons_of_mem x hy))
  exact key l _ (le_refl (0 : ℚ)) h

/-! ### Weights -/

/-- A positive weight of ordinary size. -/
def Ordinary (w : F64) : Prop := ∃ y : ℚ, w = .fin y ∧ IsDouble y ∧ floor300 ≤ y ∧ y ≤ 1

theorem weight_aux (e : ℚ) (h0 : 0 ≤ e) (h1 : e ≤ large * (15 / 8)) :
    add (.fin e) (.fin floor300) = .fin (rnd (e + floor300)) ∧ floor300 ≤ rnd (e + floor300) ∧ (e ≤ 1 → rnd (e + floor300) ≤ 1) := by
  have hf := floor300_pos
  have hle := floor300_le
  refine ⟨?_, ?_, ?_⟩
  · refine toF64_fin _ (tiny_le_floor300.trans (by linarith)) ?_
    have h3 := one_le_large
    linarith
  · have := rnd_mono floor300 (e + floor300) (by linarith)
    rwa [rnd_exact _ floor300_double] at this
  · intro h
    have h2 := rnd_mono (e + floor300) (1 + 1 / 2 ^ 60) (by linarith)
    have h3 : rnd (1 + 1 / 2 ^ 60) = 1 := by decide +kernel
    rwa [h3] at h2

/-- C133: for a total log likelihood of at least `-709` (also infinite) the weight is a finite number of at least `1e-300`. -/
theorem weight_finite (exp : F64 → F64) (he : ExpOk exp) (l : List F64) (h : AboveLimit (total l)) :
    ∃ y : ℚ, weight exp l = .fin y ∧ IsDouble y ∧ floor300 ≤ y := by
  unfold weight
  cases ht : total l with
  | nan => rw [ht] at h; exact h.elim
  | ninf => rw [ht] at h; exact h.elim
  | inf =>
    obtain ⟨a, b, -⟩ := weight_aux 0 (le_refl _) (by have := one_le_large; linarith)
    exact ⟨_, by rw [neg, he.ninf, a], rnd_double _, b⟩
  | fin t =>
    rw [ht] at h
    have h' : -709 ≤ t := h
    rw [neg]
    rcases le_total (-t) 0 with hn | hp
    · obtain ⟨e, e1, e2, e3⟩ := he.negative _ hn
      obtain ⟨a, b, -⟩ := weight_aux e e2 (e3.trans (by
        have := one_le_large
        linarith))
      exact ⟨_, by rw [e1, a], rnd_double _, b⟩
    · obtain ⟨e, e1, e2, e3⟩ := he.positive _ hp (by linarith)
      obtain ⟨a, b, -⟩ := weight_aux e (by linarith) e3
      exact ⟨_, by rw [e1, a], rnd_double _, b⟩

/-- C133: with log likelihoods that are not negative the weight is between `1e-300` and 1. -/
theorem weight_ordinary (exp : F64 → F64) (he : ExpOk exp) (l : List F64) (h : ∀ x ∈ l, NotNegative x) : Ordinary (weight exp l) := by
  have ht := total_notNegative l h
  unfold weight
  cases hc : total l with
  | nan => rw [hc] at ht; exact ht.elim
  | ninf => rw [hc] at ht; exact ht.elim
  | inf =>
    obtain ⟨a, b, c⟩ := weight_aux 0 (le_refl _) (by have := one_le_large; linarith)
    exact ⟨_, by rw [neg, he.ninf, a], rnd_double _, b, c (by norm_num)⟩
  | fin t =>
    rw [hc] at ht
    have h0 : 0 ≤ t := ht
    obtain ⟨e, e1, e2, e3⟩ := he.negative (-t) (by linarith)
    obtain ⟨a, b, c⟩ := weight_aux e e2 (e3.trans (by
      have := one_le_large
      linarith))
    exact ⟨_, by rw [neg, e1, a], rnd_double _, b, c e3⟩

/-- C133: `update_weights` with at least one observation gives every particle a weight between `1e-300` and 1, whatever the log likelihoods, as long as
they are numbers that are not negative (or infinite); without any observation it leaves the weights. -/
theorem update_weights_spec (exp : F64 → F64) (he : ExpOk exp) (n : Nat) (lls : List (Option (Nat → F64))) (w : List F64) :
    ((∀ f ∈ lls, f = none) → updateWeights exp n lls w = w) ∧
    ((∃ f, some f ∈ lls) → (∀ f, some f ∈ lls → ∀ i < n, NotNegative (f i)) →
      (updateWeights exp n lls w).length = n ∧ ∀ x ∈ updateWeights exp n lls w, Ordinary x) := by
  constructor
  · intro h
    have : lls.filterMap id = [] := by
      rw [List.filterMap_eq_nil_iff]
      intro f hf
      exact h f hf
    unfold updateWeights
    simp only [this, if_true]
  · rintro ⟨f, hf⟩ h
    have hne : lls.filterMap id ≠ [] := by
      intro hc
      rw [List.filterMap_eq_nil_iff] at hc
      exact absurd (hc _ hf) (by simp)
    unfold updateWeights
    simp only [if_neg hne, List.length_map, List.length_range, true_and]
    intro x hx
    obtain ⟨i, hi, rfl⟩ := List.mem_map.mp hx
    apply weight_ordinary exp he
    intro y hy
    obtain ⟨g, hg, rfl⟩ := List.mem_map.mp hy
    refine h g ?_ i (List.mem_range.mp hi)
    obtain ⟨a, ha, hag⟩ := List.mem_filterMap.mp hg
    simp only [id] at hag
    rwa [← hag]

/-- C133: a particle with a larger total log likelihood (in the code's sign: less likely) never gets a larger weight. -/
theorem weight_antitone (exp : F64 → F64) (he : ExpOk exp) (l l' : List F64) (t t' : ℚ) (h : total l = .fin t) (h' : total l' = .fin t') (h0 : 0 ≤ t)
    (htt : t ≤ t') : ∃ y y', weight exp l = .fin y ∧ weight exp l' = .fin y' ∧ y' ≤ y := by
  obtain ⟨e, e1, e2, e3⟩ := he.negative (-t) (by linarith)
  obtain ⟨e', e1', e2', e3'⟩ := he.negative (-t') (by linarith)
  have hb := one_le_large
  obtain ⟨a, -, -⟩ := weight_aux e e2 (by linarith)
  obtain ⟨a', -, -⟩ := weight_aux e' e2' (by linarith)
  refine ⟨_, _, by rw [weight, h, neg, e1, a], by rw [weight, h', neg, e1', a'], rnd_mono _ _ ?_⟩
  have := he.mono (-t') (-t) e' e (by linarith) e1' e1
  linarith

/-- C133: where all likelihoods vanish (total at least 746, or infinite) the weights are all `1e-300`, hence equal. -/
theorem weight_vanishing (exp : F64 → F64) (he : ExpOk exp) (l : List F64) (h : total l = .inf ∨ ∃ t, total l = .fin t ∧ 746 ≤ t) :
    weight exp l = .fin floor300 := by
  have key : add (.fin 0) (.fin floor300) = .fin floor300 := by
    have := (weight_aux 0 (le_refl _) (by have := one_le_large; linarith)).1
    rw [this, zero_add, rnd_exact _ floor300_double]
  rcases h with h | ⟨t, h, ht⟩
  · rw [weight, h, neg, he.ninf, key]
  · rw [weight, h, neg, he.under _ (by linarith), key]

/-- C133: the weight is the likelihood as `np.exp` gives it plus `1e-300`, to within the rounding of one addition. -/
theorem weight_accuracy (exp : F64 → F64) (he : ExpOk exp) (l : List F64) (t e : ℚ) (h : total l = .fin t) (h0 : -709 ≤ t)
    (hexp : exp (.fin (-t)) = .fin e) : ∃ y, weight exp l = .fin y ∧ |y - (e + floor300)| ≤ (e + floor300) / 2 ^ 53 := by
  have hb := one_le_large
  have hr : 0 ≤ e ∧ e ≤ large * (15 / 8) := by
    rcases le_total (-t) 0 with hn | hp
    · obtain ⟨e', e1, e2, e3⟩ := he.negative _ hn
      rw [hexp] at e1
      cases e1
      exact ⟨e2, by linarith⟩
    · obtain ⟨e', e1, e2, e3⟩ := he.positive _ hp (by linarith)
      rw [hexp] at e1
      cases e1
      exact ⟨by linarith, e3⟩
  obtain ⟨a, -, -⟩ := weight_aux e hr.1 hr.2
  refine ⟨_, by rw [weight, h, neg, hexp, a], ?_⟩
  have := rnd_near (e + floor300)
  rwa [abs_of_nonneg (a := e + floor300) (by have := floor300_pos; linarith [hr.1])] at this

/-- C133: each particle's weight is that of its own log likelihoods, added up in the order of the observers (the motion model last). -/
theorem update_weights_value (exp : F64 → F64) (n : Nat) (lls : List (Option (Nat → F64))) (w : List F64) (h : ∃ f, some f ∈ lls) (i : Nat) (hi : i < n) :
    (updateWeights exp n lls w)[i]? = some (weight exp ((lls.filterMap id).map fun f => f i)) := by
  obtain ⟨f, hf⟩ := h
  have hne : lls.filterMap id ≠ [] := by
    intro hc
    rw [List.filterMap_eq_nil_iff] at hc
    exact absurd (hc _ hf) (by simp)
  unfold updateWeights
  rw [if_neg hne, List.getElem?_map, List.getElem?_range hi]
  rfl

/-- C133: the total of one log likelihood is that log likelihood; of several, each is added to what came before. -/
theorem total_append (l : List F64) (x : F64) : total (l ++ [x]) = add (total l) x ∧ total [] = .fin 0 := by
  simp [total, List.foldl_append]

/-! ### Normalization -/

/-- Ordinary weights as numbers. -/
def value : F64 → ℚ
  | .fin x => x
  | _ => 0

/-- A sum of weights in range neither overflows nor underflows: it is the sum with unbounded exponents. -/
theorem summed64_spec {l : List F64} {s : F64} (h : Summed64 l s) (hl : ∀ x ∈ l, Ordinary x) (hn : l.length ≤ 2 ^ 53) :
    ∃ q : ℚ, s = .fin q ∧ Summed rnd (l.map value) q ∧ IsDouble q ∧ floor300 ≤ q ∧ q ≤ l.length ∧ ∀ x ∈ l, value x ≤ q := by
  induction h with
  | one x =>
    obtain ⟨y, rfl, h1, h2, h3⟩ := hl x (by simp)
    exact ⟨y, rfl, .one y, h1, h2, by simpa using h3, by simp [value]⟩
  | @add l₁ l₂ s₁ s₂ _ _ ih1 ih2 =>
    rw [List.length_append] at hn
    obtain ⟨q1, rfl, a1, d1, b1, c1, m1⟩ := ih1 (fun x hx => hl x (List.mem_append_left _ hx)) (by omega)
    obtain ⟨q2, rfl, a2, d2, b2, c2, m2⟩ := ih2 (fun x hx => hl x (List.mem_append_right _ hx)) (by omega)
    have hf := floor300_pos
    have hsum : q1 + q2 ≤ ((l₁.length + l₂.length : ℕ) : ℤ) := by push_cast; linarith
    have hint := rnd_le_int (q1 + q2) _ (by
      rw [abs_of_nonneg (by omega)]
      exact_mod_cast hn) hsum
    have g1 : q1 ≤ rnd (q1 + q2) := by
      have := rnd_mono q1 (q1 + q2) (by linarith)
      rwa [rnd_exact _ d1] at this
    have g2 : q2 ≤ rnd (q1 + q2) := by
      have := rnd_mono q2 (q1 + q2) (by linarith)
      rwa [rnd_exact _ d2] at this
    refine ⟨rnd (q1 + q2), ?_, ?_, rnd_double _, b1.trans g1, ?_, ?_⟩
    · refine toF64_fin _ (tiny_le_floor300.trans (by linarith)) (hsum.trans ?_)
      have h53 : ((l₁.length + l₂.length : ℕ) : ℚ) ≤ 2 ^ 53 := by exact_mod_cast hn
      have : (2 : ℚ) ^ 53 ≤ large := by
        unfold large
        rw [← zpow_natCast]
        exact zpow_le_zpow_right₀ (by norm_num) (by norm_num)
      push_cast at h53 ⊢
      linarith
    · rw [List.map_append]
      exact .add a1 a2
    · rw [List.length_append]
      exact_mod_cast hint
    · intro x hx
      rcases List.mem_append.mp hx with h | h
      · exact (m1 x h).trans g1
      · exact (m2 x h).trans g2
  | @perm l₁ l₂ s hp _ ih =>
    obtain ⟨q, e, a, d, b, c, m⟩ := ih (fun x hx => hl x (hp.mem_iff.mp hx)) (by rw [hp.length_eq]; exact hn)
    exact ⟨q, e, .perm (hp.map value) a, d, b, by rw [← hp.length_eq]; exact c, fun x hx => m x (hp.mem_iff.mpr hx)⟩

/-- C133: normalized weights are positive numbers of at most 1, for up to `2 ^ 24` particles. -/
theorem normalize_spec (w : List F64) (hw : ∀ x ∈ w, Ordinary x) (hn : w.length ≤ 2 ^ 24) (s : F64) (hs : Summed64 w s) :
    ∀ p ∈ normalize w s, ∃ q : ℚ, p = .fin q ∧ (2 : ℚ) ^ (-1021 : ℤ) ≤ q ∧ q ≤ 1 := by
  obtain ⟨q, rfl, -, -, b, c, m⟩ := summed64_spec hs hw (by omega)
  have hf := floor300_pos
  have hq : 0 < q := by linarith
  intro p hp
  obtain ⟨x, hx, rfl⟩ := List.mem_map.mp hp
  obtain ⟨y, rfl, h1, h2, h3⟩ := hw x hx
  have hyq : y ≤ q := m _ hx
  have hlow : (2 : ℚ) ^ (-1021 : ℤ) ≤ y / q := by
    rw [le_div_iff₀ hq]
    have h4 : q ≤ 2 ^ 24 := c.trans (by exact_mod_cast hn)
    have h5 : (2 : ℚ) ^ (-1021 : ℤ) * 2 ^ 24 = 2 ^ (-997 : ℤ) := by
      rw [← zpow_natCast, ← zpow_split]
      norm_num
    have h6 : (2 : ℚ) ^ (-1021 : ℤ) * q ≤ 2 ^ (-1021 : ℤ) * 2 ^ 24 := mul_le_mul_of_nonneg_left h4 (by positivity)
    have := floor300_ge
    linarith
  have hup : y / q ≤ 1 := by rw [div_le_one hq]; exact hyq
  have hb : 1 ≤ 2 * large := by have := one_le_large; linarith
  refine ⟨rnd (y / q), ?_, le_rnd_zpow _ _ hlow, ?_⟩
  · simp only [div]
    rw [if_neg hq.ne', toF64_fin _ ((tiny_le _ (by norm_num)).trans hlow) (hup.trans hb)]
  · have := rnd_le_int (y / q) 1 (by norm_num) (by exact_mod_cast hup)
    exact_mod_cast this

/-! ### Resampling in double precision, without assuming unbounded exponents -/

theorem summed_transfer {l : List ℚ} {s : ℚ} (h : Summed rnd64 l s) (hl : ∀ x ∈ l, tiny ≤ x) : Summed rnd l s ∧ tiny ≤ s := by
  have ht := tiny_pos
  induction h with
  | one x => exact ⟨.one x, hl x (by simp)⟩
  | @add l₁ l₂ s₁ s₂ _ _ ih1 ih2 =>
    obtain ⟨a1, b1⟩ := ih1 (fun x hx => hl x (List.mem_append_left _ hx))
    obtain ⟨a2, b2⟩ := ih2 (fun x hx => hl x (List.mem_append_right _ hx))
    rw [rnd64_pos _ (by linarith : tiny ≤ s₁ + s₂)]
    refine ⟨.add a1 a2, le_rnd_zpow _ _ ?_⟩
    change tiny ≤ _
    linarith
  | perm hp _ ih =>
    obtain ⟨a, b⟩ := ih (fun x hx => hl x (hp.mem_iff.mp hx))
    exact ⟨.perm hp a, b⟩

theorem cumFrom_transfer (l : List ℚ) : ∀ acc : ℚ, 0 ≤ acc → (∀ x ∈ l, tiny ≤ x) → cumFrom rnd64 acc l = cumFrom rnd acc l := by
  induction l with
  | nil => intro acc _ _; rfl
  | cons x l ih =>
    intro acc ha hl
    have hx := hl x List.mem_cons_self
    have ht := tiny_pos
    simp only [cumFrom]
    rw [rnd64_pos _ (by linarith : tiny ≤ acc + x), ih _ (rnd_nonneg _ (by linarith)) (fun y hy => hl y (List.mem_cons_of_mem x hy))]

theorem cumsumF_transfer (l : List ℚ) (hl : ∀ x ∈ l, tiny ≤ x) : cumsumF rnd64 l = cumsumF rnd l := by
  cases l with
  | nil => rfl
  | cons x l =>
    simp only [cumsumF]
    rw [cumFrom_transfer l x (tiny_pos.le.trans (hl x List.mem_cons_self)) (fun y hy => hl y (List.mem_cons_of_mem x hy))]

theorem cumFrom_ge (l : List ℚ) (b : ℚ) (hb : IsDouble b) : ∀ acc : ℚ, 0 ≤ acc → (∀ x ∈ l, 0 ≤ b ∧ b ≤ x) → ∀ y ∈ cumFrom rnd acc l, b ≤ y := by
  induction l with
  | nil => intro acc _ _ y hy; cases hy
  | cons x l ih =>
    intro acc ha hl y hy
    obtain ⟨h0, hx⟩ := hl x List.mem_cons_self
    have hle : b ≤ rnd (acc + x) := by
      have := rnd_mono b (acc + x) (by linarith)
      rwa [rnd_exact _ hb] at this
    simp only [cumFrom, List.mem_cons] at hy
    rcases hy with rfl | hy
    · exact hle
    · exact ih _ (h0.trans hle) (fun z hz => hl z (List.mem_cons_of_mem x hz)) y hy

theorem cumsumF_ge (l : List ℚ) (b : ℚ) (hb : IsDouble b) (h0 : 0 ≤ b) (hl : ∀ x ∈ l, b ≤ x) : ∀ y ∈ cumsumF rnd l, b ≤ y := by
  cases l with
  | nil => intro y hy; cases hy
  | cons x l =>
    intro y hy
    simp only [cumsumF, List.mem_cons] at hy
    have hx := hl x List.mem_cons_self
    rcases hy with rfl | hy
    · exact hx
    · exact cumFrom_ge l b hb x (h0.trans hx) (fun z hz => ⟨h0, hl z (List.mem_cons_of_mem x hz)⟩) y hy

/-- Weights as `update_weights` gives them: doubles between `1e-300` and 1. -/
def OrdinaryWeights (w : List ℚ) : Prop := w ≠ [] ∧ ∀ x ∈ w, IsDouble x ∧ floor300 ≤ x ∧ x ≤ 1

/-- Random numbers as `np.random.random` gives them: multiples of `2 ^ -53` from 0 to below 1. -/
def Random53 (us : Nat → ℚ) : Prop := ∀ k, ∃ m : Nat, m < 2 ^ 53 ∧ us k = m / 2 ^ 53

theorem Random53.uniform {us : Nat → ℚ} (h : Random53 us) : Uniform us := by
  intro k
  obtain ⟨m, hm, e⟩ := h k
  rw [e]
  refine ⟨by positivity, ?_⟩
  rw [div_lt_one (by positivity)]
  exact_mod_cast hm

theorem OrdinaryWeights.weights {w : List ℚ} (h : OrdinaryWeights w) : Weights w := by
  have hf := floor300_pos
  refine ⟨fun x hx => hf.le.trans (h.2 x hx).2.1, ?_⟩
  obtain ⟨hne, hx⟩ := h
  cases w with
  | nil => exact absurd rfl hne
  | cons a l =>
    rw [List.sum_cons]
    have h1 : 0 ≤ l.sum := List.sum_nonneg (fun y hy => hf.le.trans (hx y (List.mem_cons_of_mem a hy)).2.1)
    have h2 := (hx a List.mem_cons_self).2.1
    linarith

open Classical in
/-- The sum with unbounded exponents that agrees with a sum in double precision where that is in range. -/
noncomputable def extend (sum : List ℚ → ℚ) (l : List ℚ) : ℚ := if Summed rnd l (sum l) then sum l else leftSum rnd l

theorem extend_order (sum : List ℚ → ℚ) : SumsInSomeOrder rnd (extend sum) := by
  intro l hl
  unfold extend
  by_cases h : Summed rnd l (sum l)
  · rw [if_pos h]; exact h
  · rw [if_neg h]; exact leftSum_some_order rnd l hl

section
variable {sum : List ℚ → ℚ} (hsum : SumsInSomeOrder rnd64 sum) {w : List ℚ} (hw : OrdinaryWeights w) (hn : w.length ≤ 2 ^ 24)
include hsum hw

theorem extend_eq : extend sum w = sum w := by
  have h := (summed_transfer (hsum w hw.1) (fun x hx => tiny_le_floor300.trans (hw.2 x hx).2.1)).1
  unfold extend
  rw [if_pos h]

include hn

theorem sum_range : 0 < sum w ∧ sum w ≤ 2 ^ 24 := by
  have h := (summed_transfer (hsum w hw.1) (fun x hx => tiny_le_floor300.trans (hw.2 x hx).2.1))
  refine ⟨lt_of_lt_of_le tiny_pos h.2, ?_⟩
  have key : ∀ (l : List ℚ) (s : ℚ), Summed rnd l s → (∀ x ∈ l, x ≤ 1) → l.length ≤ 2 ^ 24 → s ≤ l.length := by
    intro l s hs
    induction hs with
    | one x => intro hl _; simpa using hl x (by simp)
    | @add l₁ l₂ s₁ s₂ _ _ ih1 ih2 =>
      intro hl hlen
      rw [List.length_append] at hlen ⊢
      have a1 := ih1 (fun x hx => hl x (List.mem_append_left _ hx)) (by omega)
      have a2 := ih2 (fun x hx => hl x (List.mem_append_right _ hx)) (by omega)
      have := rnd_le_int (s₁ + s₂) ((l₁.length + l₂.length : ℕ) : ℤ) (by
        rw [abs_of_nonneg (by omega)]
        have : ((l₁.length + l₂.length : ℕ) : ℤ) ≤ 2 ^ 24 := by exact_mod_cast hlen
        omega) (by push_cast; linarith)
      exact_mod_cast this
    | perm hp _ ih =>
      intro hl hlen
      rw [← hp.length_eq] at hlen ⊢
      exact ih (fun x hx => hl x (hp.mem_iff.mp hx)) hlen
  refine (key w _ h.1 (fun x hx => (hw.2 x hx).2.2) hn).trans ?_
  exact_mod_cast hn

theorem share_ge (x : ℚ) (hx : x ∈ w) : (2 : ℚ) ^ (-1021 : ℤ) ≤ x / sum w := by
  obtain ⟨h0, h1⟩ := sum_range hsum hw hn
  rw [le_div_iff₀ h0]
  have h5 : (2 : ℚ) ^ (-1021 : ℤ) * 2 ^ 24 = 2 ^ (-997 : ℤ) := by
    rw [← zpow_natCast, ← zpow_split]
    norm_num
  have h6 : (2 : ℚ) ^ (-1021 : ℤ) * sum w ≤ 2 ^ (-1021 : ℤ) * 2 ^ 24 := mul_le_mul_of_nonneg_left h1 (by positivity)
  have := floor300_ge
  have := (hw.2 x hx).2.1
  linarith

theorem normF_transfer : normF rnd64 sum w = normF rnd (extend sum) w := by
  unfold normF
  rw [extend_eq hsum hw]
  apply List.map_congr_left
  intro x hx
  exact rnd64_pos _ ((tiny_le _ (by norm_num)).trans (share_ge hsum hw hn x hx))

theorem normF_ge (x : ℚ) (hx : x ∈ normF rnd (extend sum) w) : (2 : ℚ) ^ (-1021 : ℤ) ≤ x := by
  unfold normF at hx
  rw [extend_eq hsum hw] at hx
  obtain ⟨y, hy, rfl⟩ := List.mem_map.mp hx
  exact le_rnd_zpow _ _ (share_ge hsum hw hn y hy)

theorem cumF_transfer : cumF rnd64 sum w = cumF rnd (extend sum) w := by
  unfold cumF
  rw [normF_transfer hsum hw hn]
  exact cumsumF_transfer _ (fun x hx => (tiny_le _ (by norm_num)).trans (normF_ge hsum hw hn x hx))

theorem cdfF_transfer : cdfF rnd64 sum w = cdfF rnd (extend sum) w := by
  unfold cdfF
  rw [cumF_transfer hsum hw hn]
  apply List.map_congr_left
  intro c hc
  apply rnd64_pos
  have hlow : (2 : ℚ) ^ (-1021 : ℤ) ≤ c :=
    cumsumF_ge _ _ (isDouble_zpow _) (by positivity) (fun x hx => normF_ge hsum hw hn x hx) c hc
  have hlen := cumF_length rnd_nearest (extend_order sum) hw.weights
  have hne : cumF rnd (extend sum) w ≠ [] := by
    intro h
    rw [h] at hc
    cases hc
  have hpos : 0 < (cumF rnd (extend sum) w).length := List.length_pos_iff.mpr hne
  set L := (cumF rnd (extend sum) w).getLastD 1 with hL
  have hLe : L = (cumF rnd (extend sum) w)[(cumF rnd (extend sum) w).length - 1] := by
    rw [hL, List.getLastD_eq_getLast?, List.getLast?_eq_getElem?, List.getElem?_eq_getElem (by omega), Option.getD_some]
  have hnear := cumF_near rnd_nearest (extend_order sum) hw.weights (by omega) ((cumF rnd (extend sum) w).length - 1) (by omega)
  rw [← hLe] at hnear
  have hshare : cumShare w ((cumF rnd (extend sum) w).length - 1 + 1) = 1 := by
    rw [Nat.sub_add_cancel hpos, hlen]
    unfold cumShare
    rw [List.take_length, div_self hw.weights.pos.ne']
  rw [hshare] at hnear
  have hup : L ≤ 2 := by
    have h1 := (abs_le.mp hnear).2
    have h2 : (w.length : ℚ) ≤ 2 ^ 24 := by exact_mod_cast hn
    have h3 : 4 * (w.length : ℚ) * ε ≤ 1 := by
      unfold ε
      rw [mul_one_div, div_le_one (by positivity)]
      have : (4 * 2 ^ 24 : ℚ) ≤ 2 ^ 53 := by norm_num
      linarith
    linarith
  have hLpos : 0 < L := by
    have : L ∈ cumF rnd (extend sum) w := by rw [hLe]; exact List.getElem_mem _
    exact lt_of_lt_of_le (by positivity) (cumsumF_ge _ ((2 : ℚ) ^ (-1021 : ℤ)) (isDouble_zpow _) (by positivity)
      (fun x hx => normF_ge hsum hw hn x hx) L this)
  rw [le_div_iff₀ hLpos]
  have h7 : tiny * 2 = (2 : ℚ) ^ (-1021 : ℤ) := by
    unfold tiny
    rw [show (-1021 : ℤ) = -1022 + 1 by norm_num, zpow_split]
    norm_num
  have h8 : tiny * L ≤ tiny * 2 := mul_le_mul_of_nonneg_left hup tiny_pos.le
  linarith

theorem position_transfer (us : Nat → ℚ) (hu : Random53 us) (k i : Nat) : position rnd64 w.length k (us i) = position rnd w.length k (us i) := by
  have hwl : 0 < w.length := List.length_pos_iff.mpr hw.1
  have hl0 : (0 : ℚ) < w.length := by exact_mod_cast hwl
  have hl1 : (w.length : ℚ) ≤ 2 ^ 24 := by exact_mod_cast hn
  obtain ⟨m, hm, e⟩ := hu i
  unfold position
  have hinv : (2 : ℚ) ^ (-24 : ℤ) ≤ 1 / w.length := by
    rw [zpow_neg, ← one_div]
    exact one_div_le_one_div_of_le hl0 (by exact_mod_cast hl1)
  have e1 : rnd64 (1 / (w.length : ℚ)) = rnd (1 / (w.length : ℚ)) := rnd64_pos _ ((tiny_le _ (by norm_num)).trans hinv)
  have hri := le_rnd_zpow _ _ hinv
  by_cases hz : (k : ℚ) + us i = 0
  · rw [hz, rnd64_eq 0 (.inl rfl), rnd_zero, zero_mul, zero_mul, rnd64_eq 0 (.inl rfl)]
  · have hge : (2 : ℚ) ^ (-53 : ℤ) ≤ (k : ℚ) + us i := by
      rw [e] at hz ⊢
      have h53 : (2 : ℚ) ^ (-53 : ℤ) = 1 / 2 ^ 53 := by rw [zpow_neg, one_div]; norm_num
      rw [h53]
      have hk : (0 : ℚ) ≤ k := Nat.cast_nonneg k
      rcases Nat.eq_zero_or_pos k with hk0 | hk0
      · rcases Nat.eq_zero_or_pos m with hm0 | hm0
        · exact absurd (by rw [hk0, hm0]; norm_num) hz
        · have : (1 : ℚ) ≤ m := by exact_mod_cast hm0
          have : (1 : ℚ) / 2 ^ 53 ≤ m / 2 ^ 53 := div_le_div_of_nonneg_right this (by positivity)
          linarith
      · have h1 : (1 : ℚ) ≤ k := by exact_mod_cast hk0
        have h2 : (0 : ℚ) ≤ (m : ℚ) / 2 ^ 53 := by positivity
        have h3 : (1 : ℚ) / 2 ^ 53 ≤ 1 := by norm_num
        linarith
    rw [e1, rnd64_pos _ ((tiny_le _ (by norm_num)).trans hge)]
    have hrk := le_rnd_zpow _ _ hge
    apply rnd64_pos
    have : (2 : ℚ) ^ (-77 : ℤ) ≤ rnd ((k : ℚ) + us i) * rnd (1 / (w.length : ℚ)) := by
      rw [show (-77 : ℤ) = -53 + -24 by norm_num, zpow_split]
      exact mul_le_mul hrk hri (by positivity) ((by positivity : (0 : ℚ) ≤ 2 ^ (-53 : ℤ)).trans hrk)
    exact (tiny_le _ (by norm_num)).trans this

omit hsum hw hn in
theorem rounds_rnd64 : Rounds rnd64 := by
  intro x hx
  have h0 : (0 : ℚ) ≤ |x| / 2 ^ 53 := by positivity
  have h1 : (0 : ℚ) < 1 / 2 ^ 106 := by positivity
  by_cases h : x = 0 ∨ tiny ≤ |x|
  · rw [rnd64_eq x h]
    have := rnd_nearest.near x
    linarith
  · push Not at h
    have hpos : 0 < ulp64 x := by unfold ulp64; exact lt_max_of_lt_right (by positivity)
    have hn := halfEven_near (x / ulp64 x)
    have e : rnd64 x - x = ((halfEven (x / ulp64 x) : ℚ) - x / ulp64 x) * ulp64 x := by
      unfold rnd64
      rw [if_neg h.1, sub_mul, div_mul_cancel₀ _ hpos.ne']
    rw [e, abs_mul, abs_of_pos hpos]
    have h2 : |(halfEven (x / ulp64 x) : ℚ) - x / ulp64 x| * ulp64 x ≤ 1 / 2 * ulp64 x := mul_le_mul_of_nonneg_right hn hpos.le
    have h3 : ulp64 x ≤ 1 / 2 ^ 106 := by
      unfold ulp64
      refine max_le ?_ ?_
      · have h4 : ulp x ≤ |x| := by
          have h5 := log_le x h.1
          unfold ulp
          refine le_trans ?_ h5
          exact zpow_le_zpow_right₀ (by norm_num) (by omega)
        have h6 : tiny ≤ 1 / 2 ^ 106 := by
          rw [show (1 : ℚ) / 2 ^ 106 = 2 ^ (-106 : ℤ) by rw [zpow_neg, one_div]; norm_num]
          exact zpow_le_zpow_right₀ (by norm_num) (by norm_num)
        linarith [h.2]
      · rw [show (1 : ℚ) / 2 ^ 106 = 2 ^ (-106 : ℤ) by rw [zpow_neg, one_div]; norm_num]
        exact zpow_le_zpow_right₀ (by norm_num) (by norm_num)
    linarith

theorem choice_check : probabilitiesOk rnd64 (normF rnd64 sum w) = true := by
  rw [normF_transfer hsum hw hn]
  refine probabilitiesOk_of_near rnd64 rounds_rnd64 _ (fun x hx => (normF_mem rnd_nearest (extend_order sum) hw.weights x hx).1)
    (normF_sum_near rnd_nearest (extend_order sum) hw.weights (by omega)) (by
    rw [normF_length rnd_nearest (extend_order sum) hw.weights]
    omega)

/-- For weights as `update_weights` gives them, and up to `2 ^ 24` particles, resampling in double precision (with underflow) draws the same particles
as with unbounded exponents. -/
theorem draw_transfer (us : Nat → ℚ) (hu : Random53 us) (m : Method) (hm : m ≠ .residual) :
    drawIndexesF rnd64 sum m w.length w us = drawIndexesF rnd (extend sum) m w.length w us := by
  have hs : ∀ us : Nat → ℚ, Random53 us → stratifiedF rnd64 sum w.length w us = stratifiedF rnd (extend sum) w.length w us := by
    intro us hu
    unfold stratifiedF
    rw [cumF_transfer hsum hw hn]
    apply List.map_congr_left
    intro k _
    rw [position_transfer hsum hw hn us hu k k]
  cases m with
  | systematic =>
    simp only [drawIndexesF, systematicF]
    rw [hs (fun _ => us 0) (fun _ => hu 0)]
  | stratified =>
    simp only [drawIndexesF]
    rw [hs us hu]
  | residual => exact absurd rfl hm
  | choice =>
    simp only [drawIndexesF, choiceF]
    rw [cdfF_transfer hsum hw hn, if_pos (choice_check hsum hw hn), if_pos (float_choice_check rnd_nearest (extend_order sum) hw.weights (by omega))]
  | other => rfl

omit hsum hw hn in
theorem residual_any_aux {n : Nat} (hp : 0 < n) {reps : List Nat} (hr : reps.length = n) (hs : reps.sum ≤ n) (a : List XR) (hal : a.length = n)
    (us : Nat → ℚ) (hu : Uniform us) : ValidDraw n (repeatIndexes reps ++
      npSearchSorted XR.lt (setLastOne a) ((List.range (n - (repeatIndexes reps).length)).map fun k => XR.fin (us k))) := by
  have hkeys : ((List.range (n - (repeatIndexes reps).length)).map fun k => XR.fin (us k)) =
      ((List.range (n - (repeatIndexes reps).length)).map us).map XR.fin := by simp
  rw [hkeys]
  set keys := (List.range (n - (repeatIndexes reps).length)).map us with hk
  have hsl : (setLastOne a).length = n := by simp [setLastOne, hal]; omega
  have hlast : (setLastOne a)[n - 1]? = some (.fin 1) := by simp [setLastOne, hal]
  obtain ⟨f1, f2⟩ := npSearchSorted_fin (setLastOne a) keys
  refine ⟨?_, ?_⟩
  · rw [List.length_append, f1, hk, List.length_map, List.length_range, repeatIndexes_length]
    omega
  · intro i hi
    rcases List.mem_append.mp hi with hi | hi
    · have := repeatIndexes_lt _ i hi
      omega
    · obtain ⟨q, hq, hf⟩ := f2 i hi
      simp only [hk, List.mem_map] at hq
      obtain ⟨k, _, rfl⟩ := hq
      have h3 := hf.2.2
      rw [hsl] at h3
      by_contra hc
      have e : i = n := by omega
      have := hf.1 (.fin 1) (by omega) (by rw [e]; exact hlast)
      simp only [XR.lt, decide_eq_true_eq] at this
      have := (hu k).2
      linarith

theorem repetitionsF_transfer : repetitionsF rnd64 sum w.length w = repetitionsF rnd (extend sum) w.length w := by
  unfold repetitionsF
  rw [normF_transfer hsum hw hn]
  apply List.map_congr_left
  intro x hx
  rw [rnd64_pos]
  have h1 := normF_ge hsum hw hn x hx
  have h2 : (1 : ℚ) ≤ w.length := by exact_mod_cast List.length_pos_iff.mpr hw.1
  have h3 := tiny_le (-1021) (by norm_num)
  have h4 : (0 : ℚ) ≤ 2 ^ (-1021 : ℤ) := by positivity
  nlinarith

/-- C133: residual resampling with the weights that `update_weights` gives draws `n` existing particles in double precision with underflow, whatever
the cumulative sum of the residuals is (also with infinite or missing values, as after overflow): only its last element, set to 1, matters. -/
theorem residual_any (us : Nat → ℚ) (hu : Uniform us) (a : List XR) (ha : a.length = w.length) :
    ValidDraw w.length (repeatIndexes (repetitionsF rnd64 sum w.length w) ++ npSearchSorted XR.lt (setLastOne a)
      ((List.range (w.length - (repeatIndexes (repetitionsF rnd64 sum w.length w)).length)).map fun k => XR.fin (us k))) := by
  refine residual_any_aux (List.length_pos_iff.mpr hw.1) ?_ ?_ a ha us hu
  · simp [repetitionsF, normF]
  · rw [repetitionsF_transfer hsum hw hn]
    exact repetitionsF_sum_le rnd_nearest (extend_order sum) hw.weights (by omega)

theorem residual_valid (us : Nat → ℚ) (hu : Uniform us) : ValidDraw w.length (residualF rnd64 sum w.length w us) := by
  refine residual_any hsum hw hn us hu _ ?_
  have hlenx : ∀ (l : List XR) (acc : XR), (xcumsumF rnd64 acc l).length = l.length := by
    intro l
    induction l with
    | nil => intro _; rfl
    | cons x l ih => intro acc; simp [xcumsumF, ih]
  rw [hlenx]
  unfold scaleF residualsF repetitionsF normF
  split <;> simp

end

/-- C133: resampling with the weights that `update_weights` gives, in double precision with underflow, for up to `2 ^ 24` particles: by choice and residual resampling always,
by systematic and stratified resampling unless the last random number is within `10 n² / 2 ^ 53` of 1 (C124), as many particles are drawn, each one
of the old ones with its own weight. -/
theorem resample_after_update {P : Type} (sum : List ℚ → ℚ) (hsum : SumsInSomeOrder rnd64 sum) (m : Option Method) (dflt : Method) (us : Nat → ℚ)
    (hu : Random53 us) (s : PState P) (hw : OrdinaryWeights s.weights) (hlen : s.particles.length = s.weights.length)
    (hn : s.weights.length ≤ 2 ^ 24)
    (hm : m.getD dflt = .choice ∨ m.getD dflt = .residual ∨
      m.getD dflt = .stratified ∧ us (s.weights.length - 1) ≤ 1 - 10 * (s.weights.length : ℚ) ^ 2 / 2 ^ 53 ∨
      m.getD dflt = .systematic ∧ us 0 ≤ 1 - 10 * (s.weights.length : ℚ) ^ 2 / 2 ^ 53) :
    ∃ s', resampleParticlesF rnd64 sum m dflt us s = .ok s' ∧ s'.particles.length = s.particles.length ∧ s'.weights.length = s.weights.length ∧
      ∀ j < s.particles.length, ∃ i < s.particles.length, s'.particles[j]? = s.particles[i]? ∧ s'.weights[j]? = s.weights[i]? := by
  by_cases hres : m.getD dflt = .residual
  · have hv := residual_valid hsum hw hn us hu.uniform
    obtain ⟨s', e1, e2, e3, e4⟩ := (float_resample_returns_iff rnd64 sum m dflt us s hlen (residualF rnd64 sum s.weights.length s.weights us)
      (by rw [hres, hlen]; rfl)).1 hv.2
    refine ⟨s', e1, by rw [e2, hv.1, hlen], by rw [e3, hv.1], fun j hj => ?_⟩
    have hj' : j < (residualF rnd64 sum s.weights.length s.weights us).length := by rw [hv.1]; omega
    exact ⟨_, by rw [hlen]; exact hv.2 _ (List.getElem_mem hj'), e4 j hj'⟩
  have hdraw := draw_transfer hsum hw hn us hu (m.getD dflt) hres
  have e : resampleParticlesF rnd64 sum m dflt us s = resampleParticlesF rnd (extend sum) m dflt us s := by
    unfold resampleParticlesF
    rw [hlen, hdraw]
  rw [e]
  refine float_resample_spec rnd rnd_nearest (extend sum) (extend_order sum) m dflt us hu.uniform s hw.weights hlen ?_
  rcases hm with h | h | ⟨h, h2⟩ | ⟨h, h2⟩
  · exact .inl ⟨h, by omega⟩
  · exact absurd h hres
  · exact .inr (.inr (.inl ⟨h, by omega, h2⟩))
  · exact .inr (.inr (.inr ⟨h, by omega, h2⟩))

/-- The weights of `update_weights` are of this kind. -/
theorem ordinary_values (w : List F64) (hne : w ≠ []) (h : ∀ x ∈ w, Ordinary x) : OrdinaryWeights (w.map value) := by
  refine ⟨by simpa using hne, fun x hx => ?_⟩
  obtain ⟨y, hy, rfl⟩ := List.mem_map.mp hx
  obtain ⟨z, rfl, a, b, c⟩ := h y hy
  exact ⟨a, b, c⟩

/-! ### Where it fails -/

theorem add_nan (a : F64) : add a .nan = .nan := by cases a <;> rfl

/-- A sum with a NaN is NaN. -/
theorem summed64_nan {l : List F64} {s : F64} (h : Summed64 l s) (hl : F64.nan ∈ l) : s = .nan := by
  induction h with
  | one x => simpa [eq_comm] using hl
  | add _ _ ih1 ih2 =>
    rcases List.mem_append.mp hl with h | h
    · rw [ih1 h]; rfl
    · rw [ih2 h, add_nan]
  | perm hp _ ih => exact ih (hp.mem_iff.mpr hl)

/-- C133 (where it fails): one particle whose log likelihood is missing makes the weight of every particle missing when they are normalized. -/
theorem normalize_nan_violated (exp : F64 → F64) (he : ExpOk exp) (n : Nat) (f : Nat → F64) (i : Nat) (hi : i < n) (hf : f i = .nan) (w : List F64)
    (s : F64) (hs : Summed64 (updateWeights exp n [some f] w) s) : ∀ p ∈ normalize (updateWeights exp n [some f] w) s, p = .nan := by
  have hmem : F64.nan ∈ updateWeights exp n [some f] w := by
    have : weight exp [f i] = .nan := by
      rw [hf, weight]
      change add (exp .nan) _ = _
      rw [he.nan]
      rfl
    rw [← this]
    exact List.mem_map.mpr ⟨i, List.mem_range.mpr hi, rfl⟩
  rw [summed64_nan hs hmem]
  intro p hp
  obtain ⟨x, -, rfl⟩ := List.mem_map.mp hp
  cases x <;> rfl

/-- C133 (where it fails): a log likelihood below `-710` (which the spline through the squared differences can give) overflows: that weight is infinite
and missing once normalized. -/
theorem weight_overflow_violated (exp : F64 → F64) (he : ExpOk exp) (x : ℚ) (hx : x ≤ -710) (hr : toF64 x = .fin x) :
    weight exp [.fin x] = .inf ∧ div .inf .inf = .nan := by
  refine ⟨?_, rfl⟩
  have : total [.fin x] = .fin x := by
    change toF64 (0 + x) = _
    rw [zero_add, hr]
  rw [weight, this, neg, he.over _ (by linarith)]
  rfl

/-! ### The hypotheses are met -/

/-- A coarse exponential. -/
def exp0 : F64 → F64
  | .fin x => if 710 ≤ x then .inf else if 0 ≤ x then .fin 1 else if x ≤ -746 then .fin 0 else .fin (1 / 2)
  | .inf => .inf
  | .ninf => .fin 0
  | .nan => .nan

theorem exp0_ok : ExpOk exp0 where
  nan := rfl
  inf := rfl
  ninf := rfl
  negative x h := by
    simp only [exp0]
    rw [if_neg (by linarith)]
    by_cases h0 : 0 ≤ x
    · rw [if_pos h0]
      exact ⟨1, rfl, by norm_num, le_refl _⟩
    · rw [if_neg h0]
      by_cases h1 : x ≤ -746
      · rw [if_pos h1]
        exact ⟨0, rfl, le_refl _, by norm_num⟩
      · rw [if_neg h1]
        exact ⟨1 / 2, rfl, by norm_num, by norm_num⟩
  positive x h h' := by
    simp only [exp0]
    rw [if_neg (by linarith), if_pos h]
    have := one_le_large
    exact ⟨1, rfl, le_refl _, by linarith⟩
  mono x y a b h ha hb := by
    simp only [exp0] at ha hb
    by_cases y0 : 710 ≤ y
    · rw [if_pos y0] at hb
      cases hb
    · rw [if_neg y0] at hb
      rw [if_neg (by linarith)] at ha
      by_cases y1 : 0 ≤ y
      · rw [if_pos y1] at hb
        cases hb
        by_cases x1 : 0 ≤ x
        · rw [if_pos x1] at ha
          cases ha
          exact le_refl _
        · rw [if_neg x1] at ha
          by_cases x2 : x ≤ -746
          · rw [if_pos x2] at ha
            cases ha
            norm_num
          · rw [if_neg x2] at ha
            cases ha
            norm_num
      · rw [if_neg y1] at hb
        rw [if_neg (by linarith)] at ha
        by_cases y2 : y ≤ -746
        · rw [if_pos (by linarith)] at ha
          cases ha
          by_cases y3 : y ≤ -746
          · rw [if_pos y3] at hb; cases hb; exact le_refl _
          · rw [if_neg y3] at hb; cases hb; norm_num
        · rw [if_neg y2] at hb
          cases hb
          by_cases x2 : x ≤ -746
          · rw [if_pos x2] at ha
            cases ha
            norm_num
          · rw [if_neg x2] at ha
            cases ha
            exact le_refl _
  under x h := by
    simp only [exp0]
    rw [if_neg (by linarith), if_neg (by linarith), if_pos h]
  over x h := by
    simp only [exp0]
    rw [if_pos h]

/-- Three particles, two observers and one without an observation: every weight is ordinary, and that of the particle that is farthest off is the floor. -/
example : (∀ x ∈ [F64.fin 3, .fin (1 / 2)], NotNegative x) ∧ (∀ x ∈ [F64.fin 3, .inf], NotNegative x) ∧
    AboveLimit (.fin (-709)) ∧ AboveLimit .inf := by
  refine ⟨?_, ?_, le_refl (-709 : ℚ), True.intro⟩ <;> intro x hx <;> simp only [List.mem_cons, List.not_mem_nil, or_false] at hx <;>
    rcases hx with rfl | rfl
  · exact (by norm_num : (0 : ℚ) ≤ 3)
  · exact (by norm_num : (0 : ℚ) ≤ 1 / 2)
  · exact (by norm_num : (0 : ℚ) ≤ 3)
  · exact True.intro

example : OrdinaryWeights [1, 1 / 2, floor300] := by
  refine ⟨by simp, ?_⟩
  have h := floor300_le
  have hf := floor300_pos
  intro x hx
  simp only [List.mem_cons, List.not_mem_nil, or_false] at hx
  rcases hx with rfl | rfl | rfl
  · exact ⟨⟨1, 0, by norm_num, by norm_num⟩, h.trans (by norm_num), le_refl _⟩
  · exact ⟨⟨1, -1, by norm_num, by norm_num⟩, h.trans (by norm_num), by norm_num⟩
  · exact ⟨floor300_double, le_refl _, h.trans (by norm_num)⟩

example : Random53 fun _ => 3 / 2 ^ 53 := fun _ => ⟨3, by norm_num, by norm_num⟩

example : ∃ sum, SumsInSomeOrder rnd64 sum := ⟨leftSum rnd64, leftSum_some_order rnd64⟩

theorem rnd64_neg_1000 : toF64 (-1000) = .fin (-1000) := by
  have h : rnd64 (-1000) = -1000 := by
    rw [rnd64_eq _ (.inr (by
      refine le_trans ?_ (by norm_num : (1 : ℚ) ≤ |-1000|)
      have := tiny_le 0 (by norm_num)
      rwa [zpow_zero] at this))]
    decide +kernel
  have ho := overflow_eq
  have hl := one_le_large
  have hbig : (1000 : ℚ) < 4 * large := by
    have : (2 : ℚ) ^ (10 : ℤ) ≤ large := zpow_le_zpow_right₀ (by norm_num) (by norm_num)
    norm_num at this
    linarith
  unfold toF64
  rw [h, if_neg (by rw [ho]; linarith), if_neg (by rw [ho]; linarith)]

example : weight exp0 [.fin (-1000)] = .inf := (weight_overflow_violated exp0 exp0_ok (-1000) (by norm_num) rnd64_neg_1000).1

end Glimpse.FloatWeights
