import Verif.Model.TracksStats
import Mathlib.Tactic.FinCases
import Mathlib.Tactic.Ring
import Mathlib.Tactic.NormNum
import Mathlib.Tactic.Linarith
import Mathlib.Tactic.FieldSimp
import Mathlib.Tactic.Positivity

/-!
C108: the mean, standard deviation and covariance of particles, and what is returned of them.
-/
set_option autoImplicit false
set_option linter.unusedSimpArgs false
set_option linter.unusedSectionVars false

namespace Glimpse.TracksStats

/-! ### Specification -/

/-- The sum over all particles of weight times `f`. -/
noncomputable def total (f : Particle → ℝ) (ps : List Particle) (w : List ℝ) : ℝ := (List.zipWith (fun p x => x * f p) ps w).sum

/-- One weight per particle, none negative, not all zero. -/
structure Weighted (ps : List Particle) (w : List ℝ) : Prop where
  len : ps.length = w.length
  nonneg : ∀ x ∈ w, 0 ≤ x
  pos : 0 < w.sum

/-- `m` is the weighted mean: the weighted deviations from it cancel in every coordinate. -/
def IsMean (ps : List Particle) (w : List ℝ) (m : Fin 6 → ℝ) : Prop := ∀ k, total (fun p => p k - m k) ps w = 0

/-- `c` is the weighted covariance about `m`. -/
def IsCovariance (ps : List Particle) (w : List ℝ) (m : Fin 6 → ℝ) (c : Fin 6 → Fin 6 → ℝ) : Prop :=
  ∀ a b, c a b * w.sum = total (fun p => (p a - m a) * (p b - m b)) ps w

/-! ### Sums -/

private theorem total_nil (f : Particle → ℝ) (w : List ℝ) : total f [] w = 0 := by simp [total]
private theorem total_cons (f : Particle → ℝ) (p : Particle) (ps : List Particle) (x : ℝ) (w : List ℝ) :
    total f (p :: ps) (x :: w) = x * f p + total f ps w := by simp [total]

private theorem total_add (f g : Particle → ℝ) (ps : List Particle) (w : List ℝ) :
    total (fun p => f p + g p) ps w = total f ps w + total g ps w := by
  induction ps generalizing w with
  | nil => simp [total_nil]
  | cons p ps ih => cases w with
    | nil => simp [total]
    | cons x w => rw [total_cons, total_cons, total_cons, ih]; ring

private theorem total_smul (c : ℝ) (f : Particle → ℝ) (ps : List Particle) (w : List ℝ) :
    total (fun p => c * f p) ps w = c * total f ps w := by
  induction ps generalizing w with
  | nil => simp [total_nil]
  | cons p ps ih => cases w with
    | nil => simp [total]
    | cons x w => rw [total_cons, total_cons, ih]; ring

private theorem total_const (c : ℝ) (ps : List Particle) (w : List ℝ) (h : ps.length = w.length) :
    total (fun _ => c) ps w = c * w.sum := by
  induction ps generalizing w with
  | nil => cases w with
    | nil => simp [total_nil]
    | cons _ _ => simp at h
  | cons p ps ih => cases w with
    | nil => simp at h
    | cons x w => rw [total_cons, ih w (by simpa using h), List.sum_cons]; ring

private theorem total_sum {n : Nat} (f : Fin n → Particle → ℝ) (ps : List Particle) (w : List ℝ) :
    total (fun p => ∑ i, f i p) ps w = ∑ i, total (f i) ps w := by
  induction ps generalizing w with
  | nil => simp [total_nil]
  | cons p ps ih => cases w with
    | nil => simp [total]
    | cons x w =>
      simp only [total_cons, ih, Finset.sum_add_distrib, Finset.mul_sum]

private theorem total_nonneg (f : Particle → ℝ) (ps : List Particle) (w : List ℝ) (hw : ∀ x ∈ w, 0 ≤ x) (hf : ∀ p ∈ ps, 0 ≤ f p) :
    0 ≤ total f ps w := by
  induction ps generalizing w with
  | nil => simp [total_nil]
  | cons p ps ih => cases w with
    | nil => simp [total]
    | cons x w =>
      rw [total_cons]
      have h1 := hw x List.mem_cons_self
      have h2 := hf p List.mem_cons_self
      have h3 := ih w (fun y hy => hw y (List.mem_cons_of_mem _ hy)) (fun q hq => hf q (List.mem_cons_of_mem _ hq))
      have := mul_nonneg h1 h2
      linarith

private theorem total_eq_zero (f : Particle → ℝ) (ps : List Particle) (w : List ℝ) (hw : ∀ x ∈ w, 0 ≤ x) (hf : ∀ p, 0 ≤ f p)
    (h : total f ps w = 0) : ∀ i (hi : i < ps.length) (hi' : i < w.length), 0 < w[i] → f ps[i] = 0 := by
  induction ps generalizing w with
  | nil => intro i hi; simp at hi
  | cons p ps ih => cases w with
    | nil => intro i _ hi'; simp at hi'
    | cons x w =>
      rw [total_cons] at h
      have h1 := mul_nonneg (hw x List.mem_cons_self) (hf p)
      have h3 := total_nonneg f ps w (fun y hy => hw y (List.mem_cons_of_mem _ hy)) (fun q _ => hf q)
      have e1 : x * f p = 0 := by linarith
      have e2 : total f ps w = 0 := by linarith
      intro i hi hi' hpos
      cases i with
      | zero =>
        simp only [List.getElem_cons_zero] at hpos ⊢
        rcases mul_eq_zero.1 e1 with h0 | h0
        · linarith
        · exact h0
      | succ i =>
        simp only [List.getElem_cons_succ] at hpos ⊢
        exact ih w (fun y hy => hw y (List.mem_cons_of_mem _ hy)) e2 i _ _ hpos

private theorem column_total (g : ℝ → ℝ) (k : Fin 6) (ps : List Particle) (w : List ℝ) :
    (List.zipWith (· * ·) ((column ps k).map g) w).sum = total (fun p => g (p k)) ps w := by
  induction ps generalizing w with
  | nil => simp [total, column]
  | cons p ps ih => cases w with
    | nil => simp [total]
    | cons x w =>
      have := ih w
      simp only [column] at this
      simp only [column, List.map_cons, List.zipWith_cons_cons, List.sum_cons, total_cons, this]
      ring

private theorem column_total' (k : Fin 6) (ps : List Particle) (w : List ℝ) :
    (List.zipWith (· * ·) (column ps k) w).sum = total (fun p => p k) ps w := by
  have := column_total id k ps w
  simpa using this

private theorem cov_total (a b : Fin 6) (x y : ℝ) (ps : List Particle) (w : List ℝ) :
    (List.zipWith (· * ·) ((column ps a).map fun z => z - x) (List.zipWith (· * ·) ((column ps b).map fun z => z - y) w)).sum =
      total (fun p => (p a - x) * (p b - y)) ps w := by
  induction ps generalizing w with
  | nil => simp [total, column]
  | cons p ps ih => cases w with
    | nil => simp [total]
    | cons v w =>
      have := ih w
      simp only [column] at this
      simp only [column, List.map_cons, List.zipWith_cons_cons, List.sum_cons, total_cons, this]
      ring

/-! ### The mean -/

private theorem average_ok (ps : List Particle) (w : List ℝ) (h : Weighted ps w) (k : Fin 6) :
    average (column ps k) w = .ok (meanOf (column ps k) w) := by
  have := h.pos.ne'
  simp [average, meanOf, column, h.len, this]

private theorem mean_ok (ps : List Particle) (w : List ℝ) (h : Weighted ps w) :
    particleMean ps w = .ok fun k => meanOf (column ps k) w := by
  simp only [particleMean, average_ok ps w h, bind, Except.bind]

private theorem meanOf_eq (ps : List Particle) (w : List ℝ) (k : Fin 6) : meanOf (column ps k) w = total (fun p => p k) ps w / w.sum := by
  rw [meanOf, column_total']

private theorem meanOf_isMean (ps : List Particle) (w : List ℝ) (h : Weighted ps w) : IsMean ps w fun k => meanOf (column ps k) w := by
  intro k
  have e : total (fun p => p k - meanOf (column ps k) w) ps w = total (fun p => p k) ps w + total (fun _ => - meanOf (column ps k) w) ps w := by
    rw [← total_add]; simp only [sub_eq_add_neg]
  have := h.pos.ne'
  rw [e, total_const _ _ _ h.len, meanOf_eq]
  field_simp
  ring

/-- C108: the mean balances the weighted deviations of the particles in each coordinate, and nothing else does. -/
theorem mean_spec (ps : List Particle) (w : List ℝ) (h : Weighted ps w) :
    ∃ m, particleMean ps w = .ok m ∧ IsMean ps w m ∧ ∀ m', IsMean ps w m' → m' = m := by
  refine ⟨_, mean_ok ps w h, meanOf_isMean ps w h, fun m' hm => ?_⟩
  funext k
  have h1 := meanOf_isMean ps w h k
  have h2 := hm k
  have e : total (fun p => p k - meanOf (column ps k) w) ps w = total (fun p => p k - m' k) ps w + total (fun _ => m' k - meanOf (column ps k) w) ps w := by
    rw [← total_add]; congr 1; funext p; ring
  rw [h1, h2, total_const _ _ _ h.len] at e
  have := h.pos.ne'
  have : m' k - meanOf (column ps k) w = 0 := by
    rcases mul_eq_zero.1 (by linarith : (m' k - meanOf (column ps k) w) * w.sum = 0) with h0 | h0
    · exact h0
    · exact absurd h0 this
  linarith

/-- C108: the mean lies between the smallest and the largest value among the particles, in each coordinate. -/
theorem mean_between (ps : List Particle) (w : List ℝ) (h : Weighted ps w) (m : Fin 6 → ℝ) (hm : particleMean ps w = .ok m) (k : Fin 6) (lo hi : ℝ)
    (hb : ∀ p ∈ ps, lo ≤ p k ∧ p k ≤ hi) : lo ≤ m k ∧ m k ≤ hi := by
  obtain ⟨m0, e0, hI, -⟩ := mean_spec ps w h
  rw [hm] at e0
  obtain rfl := Except.ok.inj e0
  have hk := hI k
  have h1 := total_nonneg (fun p => p k - lo) ps w h.nonneg (fun p hp => by linarith [(hb p hp).1])
  have h2 := total_nonneg (fun p => hi - p k) ps w h.nonneg (fun p hp => by linarith [(hb p hp).2])
  have e1 : total (fun p => p k - lo) ps w = total (fun p => p k - m k) ps w + total (fun _ => m k - lo) ps w := by
    rw [← total_add]; congr 1; funext p; ring
  have e2 : total (fun p => hi - p k) ps w = -1 * total (fun p => p k - m k) ps w + total (fun _ => hi - m k) ps w := by
    rw [← total_smul, ← total_add]; congr 1; funext p; ring
  rw [hk, total_const _ _ _ h.len] at e1 e2
  have hp := h.pos
  constructor
  · by_contra hc
    have : (m k - lo) * w.sum < 0 := mul_neg_of_neg_of_pos (by linarith) hp
    linarith
  · by_contra hc
    have : (hi - m k) * w.sum < 0 := mul_neg_of_neg_of_pos (by linarith) hp
    linarith

/-- C108: weights that sum to zero raise `ZeroDivisionError`, for mean, standard deviation and (if none is negative) covariance. -/
theorem zero_weights (ps : List Particle) (w : List ℝ) (hl : ps.length = w.length) (h : w.sum = 0) (m : Option (Fin 6 → ℝ)) :
    particleMean ps w = .error .zeroDivision ∧ particleSigma ps w m = .error .zeroDivision ∧
      ((∀ x ∈ w, 0 ≤ x) → particleCovariance ps w = .error .zeroDivision) := by
  have ha : average (column ps 0) w = .error .zeroDivision := by simp [average, column, hl, h]
  have hm : particleMean ps w = .error .zeroDivision := by simp only [particleMean, ha, bind, Except.bind]
  refine ⟨hm, ?_, fun hw => ?_⟩
  · cases m <;> simp only [particleSigma, hm, ha, bind, Except.bind]
  · have : ¬ ∃ x ∈ w, x < 0 := by push Not; exact hw
    have hl' : ¬ ps.length ≠ w.length := not_not.2 hl
    simp only [particleCovariance, hl', this, if_false, hm, bind, Except.bind]

/-- C108: another number of weights than of particles raises: `ValueError` for mean and standard deviation, `RuntimeError` for the covariance;
negative weights raise `ValueError` for the covariance. -/
theorem weights_mismatch (ps : List Particle) (w : List ℝ) (m : Option (Fin 6 → ℝ)) :
    (ps.length ≠ w.length → particleMean ps w = .error .valueError ∧ particleSigma ps w m = .error .valueError ∧
      particleCovariance ps w = .error .other) ∧
    (ps.length = w.length → (∃ x ∈ w, x < 0) → particleCovariance ps w = .error .valueError) := by
  refine ⟨fun hl => ?_, fun hl hw => ?_⟩
  · have ha : average (column ps 0) w = .error .valueError := by simp [average, column, hl]
    have hm : particleMean ps w = .error .valueError := by simp only [particleMean, ha, bind, Except.bind]
    refine ⟨hm, ?_, ?_⟩
    · cases m <;> simp only [particleSigma, hm, ha, bind, Except.bind]
    · simp only [particleCovariance, if_pos hl]
  · have hl' : ¬ ps.length ≠ w.length := not_not.2 hl
    simp only [particleCovariance, if_neg hl', if_pos hw]

/-! ### The covariance -/

private theorem cov_ok (ps : List Particle) (w : List ℝ) (h : Weighted ps w) : ∃ c, particleCovariance ps w = .ok c ∧
    IsCovariance ps w (fun k => meanOf (column ps k) w) c := by
  have hn : ¬ ∃ x ∈ w, x < 0 := by push Not; exact h.nonneg
  have hl' : ¬ ps.length ≠ w.length := not_not.2 h.len
  refine ⟨_, by simp only [particleCovariance, hl', hn, if_false, mean_ok ps w h, bind, Except.bind]; rfl, fun a b => ?_⟩
  have := h.pos.ne'
  rw [cov_total]
  field_simp

/-- C108: the covariance is the weighted mean of the products of the deviations from the mean. -/
theorem covariance_spec (ps : List Particle) (w : List ℝ) (h : Weighted ps w) : ∃ m c, particleMean ps w = .ok m ∧
    particleCovariance ps w = .ok c ∧ IsMean ps w m ∧ IsCovariance ps w m c := by
  obtain ⟨c, e, hc⟩ := cov_ok ps w h
  exact ⟨_, c, mean_ok ps w h, e, meanOf_isMean ps w h, hc⟩

/-- C108: the covariance matrix is symmetric and never negative: for any weights `q` of the coordinates it is the variance of
their combination. -/
theorem covariance_psd (ps : List Particle) (w : List ℝ) (h : Weighted ps w) (c : Fin 6 → Fin 6 → ℝ) (hc : particleCovariance ps w = .ok c) :
    (∀ a b, c a b = c b a) ∧ ∀ q : Fin 6 → ℝ, 0 ≤ ∑ a, ∑ b, q a * q b * c a b := by
  obtain ⟨c', e, hI⟩ := cov_ok ps w h
  rw [hc] at e
  obtain rfl := Except.ok.inj e
  have hW := h.pos
  refine ⟨fun a b => ?_, fun q => ?_⟩
  · have h1 := hI a b
    have h2 := hI b a
    have : total (fun p => (p a - meanOf (column ps a) w) * (p b - meanOf (column ps b) w)) ps w =
        total (fun p => (p b - meanOf (column ps b) w) * (p a - meanOf (column ps a) w)) ps w := by
      congr 1; funext p; ring
    rw [this, ← h2] at h1
    exact mul_right_cancel₀ hW.ne' h1
  · have key : (∑ a, ∑ b, q a * q b * c a b) * w.sum =
        total (fun p => (∑ a, q a * (p a - meanOf (column ps a) w)) ^ 2) ps w := by
      have : (fun p : Particle => (∑ a, q a * (p a - meanOf (column ps a) w)) ^ 2) =
          fun p => ∑ a, ∑ b, (q a * q b) * ((p a - meanOf (column ps a) w) * (p b - meanOf (column ps b) w)) := by
        funext p
        rw [sq, Finset.sum_mul_sum]
        refine Finset.sum_congr rfl fun a _ => Finset.sum_congr rfl fun b _ => by ring
      rw [this, total_sum, Finset.sum_mul]
      refine Finset.sum_congr rfl fun a _ => ?_
      rw [total_sum, Finset.sum_mul]
      refine Finset.sum_congr rfl fun b _ => ?_
      rw [total_smul, ← hI a b]; ring
    have hn := total_nonneg (fun p => (∑ a, q a * (p a - meanOf (column ps a) w)) ^ 2) ps w h.nonneg (fun p _ => sq_nonneg _)
    rw [← key] at hn
    by_contra hneg
    push Not at hneg
    have := mul_neg_of_neg_of_pos hneg hW
    linarith

/-! ### The standard deviation -/

private theorem sigma_ok (ps : List Particle) (w : List ℝ) (h : Weighted ps w) (m : Fin 6 → ℝ) :
    particleSigma ps w (some m) = .ok fun k => Real.sqrt (total (fun p => (p k - m k) ^ 2) ps w / w.sum) := by
  simp only [particleSigma, average_ok ps w h, bind, Except.bind]
  congr 1
  funext k
  rw [meanOf, column_total (fun x => (x - m k) ^ 2)]

/-- C108: the squares of the standard deviations are the diagonal of the covariance matrix, with the mean given or not. -/
theorem sigma_spec (ps : List Particle) (w : List ℝ) (h : Weighted ps w) : ∃ m s c, particleMean ps w = .ok m ∧
    particleSigma ps w none = .ok s ∧ particleSigma ps w (some m) = .ok s ∧ particleCovariance ps w = .ok c ∧
    ∀ k, 0 ≤ s k ∧ s k ^ 2 = c k k ∧ s k = Real.sqrt (c k k) := by
  obtain ⟨c, e, hc⟩ := cov_ok ps w h
  refine ⟨_, _, c, mean_ok ps w h, ?_, sigma_ok ps w h _, e, fun k => ?_⟩
  · rw [← sigma_ok ps w h (fun k => meanOf (column ps k) w)]
    simp only [particleSigma, mean_ok ps w h, bind, Except.bind]
  · have hk : total (fun p => (p k - meanOf (column ps k) w) ^ 2) ps w / w.sum = c k k := by
      have := hc k k
      have hW := h.pos.ne'
      rw [eq_comm, eq_div_iff hW, this]
      congr 1; funext p; ring
    simp only [hk]
    have hnn : 0 ≤ c k k := by
      rw [← hk]
      exact div_nonneg (total_nonneg _ ps w h.nonneg (fun p _ => sq_nonneg _)) h.pos.le
    exact ⟨Real.sqrt_nonneg _, Real.sq_sqrt hnn, trivial⟩

private theorem total_zero_of (k : Fin 6) (mm : ℝ) (ps : List Particle) (w : List ℝ) (hlen : ps.length = w.length) (hnn : ∀ x ∈ w, 0 ≤ x)
    (hall : ∀ i (hi : i < ps.length) (hi' : i < w.length), 0 < w[i] → ps[i] k = mm) : total (fun p => (p k - mm) ^ 2) ps w = 0 := by
  induction ps generalizing w with
  | nil => simp [total_nil]
  | cons p ps ih => cases w with
    | nil => simp [total]
    | cons x w =>
      rw [total_cons, ih w (by simpa using hlen) (fun y hy => hnn y (List.mem_cons_of_mem _ hy))
        (fun i hi hi' hp => hall (i + 1) (by simpa using hi) (by simpa using hi') (by simpa using hp))]
      rcases (hnn x List.mem_cons_self).lt_or_eq with hp | hp
      · have := hall 0 (by simp) (by simp) (by simpa using hp)
        simp only [List.getElem_cons_zero] at this
        rw [this]; ring
      · rw [← hp]; ring

/-- C108: a standard deviation is zero exactly when all particles of positive weight agree in the coordinate. -/
theorem sigma_zero_iff (ps : List Particle) (w : List ℝ) (h : Weighted ps w) (m s : Fin 6 → ℝ) (hm : particleMean ps w = .ok m)
    (hs : particleSigma ps w none = .ok s) (k : Fin 6) :
    s k = 0 ↔ ∀ i (hi : i < ps.length) (hi' : i < w.length), 0 < w[i] → ps[i] k = m k := by
  rw [mean_ok ps w h] at hm
  obtain rfl := Except.ok.inj hm
  have e : particleSigma ps w none = particleSigma ps w (some fun k => meanOf (column ps k) w) := by
    simp only [particleSigma, mean_ok ps w h, bind, Except.bind]
  rw [e, sigma_ok ps w h] at hs
  obtain rfl := Except.ok.inj hs
  have hn := total_nonneg (fun p => (p k - meanOf (column ps k) w) ^ 2) ps w h.nonneg (fun p _ => sq_nonneg _)
  have hW := h.pos
  constructor
  · intro h0
    have hz : total (fun p => (p k - meanOf (column ps k) w) ^ 2) ps w = 0 := by
      have := (Real.sqrt_eq_zero (div_nonneg hn hW.le)).1 h0
      rcases div_eq_zero_iff.1 this with h1 | h1
      · exact h1
      · exact absurd h1 hW.ne'
    intro i hi hi' hp
    have := total_eq_zero _ ps w h.nonneg (fun p => sq_nonneg _) hz i hi hi' hp
    have := pow_eq_zero_iff (two_ne_zero) |>.1 this
    linarith
  · intro hall
    have hz := total_zero_of k _ ps w h.len h.nonneg hall
    simp [hz]

/-- C108: about any other point than the mean, the squares grow by the square of the distance: the argument `mean` must be the
mean for the result to be the standard deviation. -/
theorem sigma_about (ps : List Particle) (w : List ℝ) (h : Weighted ps w) (m s q t : Fin 6 → ℝ) (hm : particleMean ps w = .ok m)
    (hs : particleSigma ps w none = .ok s) (ht : particleSigma ps w (some q) = .ok t) (k : Fin 6) :
    t k ^ 2 = s k ^ 2 + (m k - q k) ^ 2 := by
  rw [mean_ok ps w h] at hm
  obtain rfl := Except.ok.inj hm
  have e : particleSigma ps w none = particleSigma ps w (some fun k => meanOf (column ps k) w) := by
    simp only [particleSigma, mean_ok ps w h, bind, Except.bind]
  rw [e, sigma_ok ps w h] at hs
  rw [sigma_ok ps w h] at ht
  obtain rfl := Except.ok.inj hs
  obtain rfl := Except.ok.inj ht
  have hW := h.pos
  have n1 := total_nonneg (fun p => (p k - q k) ^ 2) ps w h.nonneg (fun p _ => sq_nonneg _)
  have n2 := total_nonneg (fun p => (p k - meanOf (column ps k) w) ^ 2) ps w h.nonneg (fun p _ => sq_nonneg _)
  simp only
  rw [Real.sq_sqrt (div_nonneg n1 hW.le), Real.sq_sqrt (div_nonneg n2 hW.le)]
  have h0 := meanOf_isMean ps w h k
  simp only at h0
  have ex : total (fun p => (p k - q k) ^ 2) ps w = total (fun p => (p k - meanOf (column ps k) w) ^ 2) ps w +
      ((2 * (meanOf (column ps k) w - q k)) * total (fun p => p k - meanOf (column ps k) w) ps w + (meanOf (column ps k) w - q k) ^ 2 * w.sum) := by
    rw [← total_const _ _ _ h.len, ← total_smul, ← total_add, ← total_add]
    congr 1; funext p; ring
  rw [ex, h0]
  field_simp
  ring

/-- C108: only the proportions of the weights matter. -/
theorem weights_scale (ps : List Particle) (w : List ℝ) (h : Weighted ps w) (c : ℝ) (hc : 0 < c) :
    particleMean ps (w.map (c * ·)) = particleMean ps w ∧ particleSigma ps (w.map (c * ·)) none = particleSigma ps w none ∧
      particleCovariance ps (w.map (c * ·)) = particleCovariance ps w := by
  have hsum : (w.map (c * ·)).sum = c * w.sum := by rw [List.sum_map_mul_left]; simp
  have h' : Weighted ps (w.map (c * ·)) := ⟨by simpa using h.len, by
    intro x hx
    obtain ⟨y, hy, rfl⟩ := List.mem_map.1 hx
    exact mul_nonneg hc.le (h.nonneg y hy), by rw [hsum]; exact mul_pos hc h.pos⟩
  have ht : ∀ f : Particle → ℝ, total f ps (w.map (c * ·)) = c * total f ps w := by
    intro f
    clear h h' hsum
    induction ps generalizing w with
    | nil => simp [total_nil]
    | cons p ps ih => cases w with
      | nil => simp [total]
      | cons x w => rw [List.map_cons, total_cons, total_cons, ih]; ring
  have hmean : ∀ k, meanOf (column ps k) (w.map (c * ·)) = meanOf (column ps k) w := by
    intro k
    have := h.pos.ne'
    rw [meanOf_eq, meanOf_eq, ht, hsum]
    field_simp
  have e1 : particleMean ps (w.map (c * ·)) = particleMean ps w := by
    rw [mean_ok ps _ h', mean_ok ps w h]
    congr 1; funext k; exact hmean k
  refine ⟨e1, ?_, ?_⟩
  · have s : ∀ v : List ℝ, Weighted ps v → particleSigma ps v none = particleSigma ps v (some fun k => meanOf (column ps k) v) := by
      intro v hv; simp only [particleSigma, mean_ok ps v hv, bind, Except.bind]
    rw [s _ h', s _ h, sigma_ok ps _ h', sigma_ok ps w h]
    congr 1; funext k
    have := h.pos.ne'
    simp only [hmean, ht, hsum]
    congr 1
    field_simp
  · obtain ⟨c1, e, hc1⟩ := cov_ok ps w h
    obtain ⟨c2, e', hc2⟩ := cov_ok ps _ h'
    rw [e, e']
    congr 1; funext a b
    have i1 := hc1 a b
    have i2 := hc2 a b
    simp only [hmean, ht, hsum] at i2
    rw [← i1] at i2
    have := h.pos.ne'
    have h2 : (c2 a b - c1 a b) * (c * w.sum) = 0 := by ring_nf; ring_nf at i2; linarith
    rcases mul_eq_zero.1 h2 with h3 | h3
    · linarith
    · exact absurd h3 (mul_pos hc h.pos).ne'

/-! ### Tracks -/

/-- What a track went through: for each time, nothing or particles and weights. -/
abbrev History := List (Option (List Particle × List ℝ))

/-- The rows a track records (none where nothing is observed); an error where recording raises. -/
noncomputable def rowsOf (cov : Bool) (hist : History) : Except Err (List (Option ((Fin 6 → ℝ) × Spread))) :=
  hist.mapM fun x => match x with
    | none => .ok none
    | some s => do
      let r ← record cov s.1 s.2
      .ok (some r)

/-- C108: with covariances or without, the mean recorded is the same, and the standard deviations of a covariance are those
recorded otherwise. -/
theorem record_agree (ps : List Particle) (w : List ℝ) (h : Weighted ps w) : ∃ m s c, record false ps w = .ok (m, .sigma s) ∧
    record true ps w = .ok (m, .covariance c) ∧ IsMean ps w m ∧ IsCovariance ps w m c ∧ ∀ k, s k = Real.sqrt (c k k) := by
  obtain ⟨m, s, c, e1, -, e3, e4, hk⟩ := sigma_spec ps w h
  obtain ⟨m', c', f1, f2, hm, hc⟩ := covariance_spec ps w h
  rw [e1] at f1; obtain rfl := Except.ok.inj f1
  rw [e4] at f2; obtain rfl := Except.ok.inj f2
  refine ⟨m, s, c, ?_, ?_, hm, hc, fun k => (hk k).2.2⟩
  · simp only [record, spread, e1, e3, bind, Except.bind, if_false, Bool.false_eq_true]
  · simp only [record, spread, e1, e4, bind, Except.bind, if_true]

/-- Tracks made of the recorded rows of all tracks, of equal numbers of times. -/
theorem assemble_ok (cov : Bool) (ns : List Nat) (rs : List Result) (m : Nat) (hne : rs ≠ []) (hm : ∀ r ∈ rs, r.rows.length = m) (reduce : Bool) :
    ∃ t, assemble cov reduce reduce ns rs = .ok t ∧
      t.means = rs.map (fun r => r.rows.map fun x => x.map fun y => y.1) ∧
      t.sigmas = (if cov then none else some (rs.map fun r => r.rows.map fun x => x.bind fun y => asSigma y.2)) ∧
      t.covariances = (if cov then some (rs.map fun r => r.rows.map fun x => x.bind fun y => asCovariance y.2) else none) := by
  have hs : stack (rs.map fun r => r.rows.length) = .ok () := by
    cases rs with
    | nil => exact absurd rfl hne
    | cons r rs =>
      simp only [List.map_cons, stack]
      rw [if_pos]
      rw [List.all_eq_true]
      intro x hx
      obtain ⟨r', hr', rfl⟩ := List.mem_map.1 hx
      simp [hm r' (List.mem_cons_of_mem _ hr'), hm r List.mem_cons_self]
  have hb : ((reduce || reduce) && !reduce) = false := by cases reduce <;> rfl
  unfold assemble
  simp only [hs, hb, bind, Except.bind, pure, Except.pure, Bool.false_eq_true, if_false]
  exact ⟨_, rfl, by simp, by simp [Function.comp_def], by simp [Function.comp_def]⟩

private theorem rows_agree (hist : History) (h : ∀ s, some s ∈ hist → Weighted s.1 s.2) : ∃ ra rb, rowsOf false hist = .ok ra ∧
    rowsOf true hist = .ok rb ∧ ra.length = hist.length ∧ rb.length = hist.length ∧
    ra.map (fun x => x.map fun y => y.1) = rb.map (fun x => x.map fun y => y.1) ∧
    ∀ off : Fin 3 → Fin 6, (ra.map fun x => x.bind fun y => asSigma y.2).map (fun x => x.map fun m => fun i => m (off i)) =
      (rb.map fun x => x.bind fun y => asCovariance y.2).map (fun x => x.map fun m => fun i => Real.sqrt (m (off i) (off i))) := by
  induction hist with
  | nil => exact ⟨[], [], rfl, rfl, rfl, rfl, rfl, fun _ => rfl⟩
  | cons x hist ih =>
    obtain ⟨ra, rb, e1, e2, l1, l2, hm, hs⟩ := ih fun s hs => h s (List.mem_cons_of_mem _ hs)
    simp only [rowsOf] at e1 e2 ⊢
    cases x with
    | none =>
      refine ⟨none :: ra, none :: rb, ?_, ?_, by simp [l1], by simp [l2], by simpa using hm, fun off => by simpa using hs off⟩
      · rw [List.mapM_cons, e1]; rfl
      · rw [List.mapM_cons, e2]; rfl
    | some s =>
      obtain ⟨m, sg, c, f1, f2, -, -, hk⟩ := record_agree s.1 s.2 (h s List.mem_cons_self)
      refine ⟨some (m, .sigma sg) :: ra, some (m, .covariance c) :: rb, ?_, ?_, by simp [l1], by simp [l2], by simpa using hm, fun off => ?_⟩
      · rw [List.mapM_cons, e1]; simp only [f1, bind, Except.bind, pure, Except.pure]
      · rw [List.mapM_cons, e2]; simp only [f2, bind, Except.bind, pure, Except.pure]
      · rw [List.map_cons, List.map_cons, List.map_cons, List.map_cons, hs off]
        congr 1
        simp only [Option.bind_some, asSigma, asCovariance, Option.map_some, Option.some.injEq]
        funext i; exact hk _

/-- C108: tracks with covariances and without have the same positions and velocities and the same standard deviations of both,
whatever the tracks went through (nothing recorded at some times included). -/
theorem tracks_agree (hists : List History) (hne : hists ≠ []) (n : Nat) (hn : ∀ t ∈ hists, t.length = n)
    (hw : ∀ t ∈ hists, ∀ s, some s ∈ t → Weighted s.1 s.2) (ns : List Nat) :
    ∃ ra rb ta tb, hists.mapM (rowsOf false) = .ok ra ∧ hists.mapM (rowsOf true) = .ok rb ∧
      assemble false false false ns (ra.map fun r => ⟨r, none⟩) = .ok ta ∧ assemble true false false ns (rb.map fun r => ⟨r, none⟩) = .ok tb ∧
      ∀ off, ta.mean3 off = tb.mean3 off ∧ (∃ s, ta.sigma3 off = some s) ∧ ta.sigma3 off = tb.sigma3 off := by
  have key : ∃ ra rb, hists.mapM (rowsOf false) = .ok ra ∧ hists.mapM (rowsOf true) = .ok rb ∧ ra.length = hists.length ∧ rb.length = hists.length ∧
      (∀ r ∈ ra, r.length = n) ∧ (∀ r ∈ rb, r.length = n) ∧
      ra.map (fun r => r.map fun x => x.map fun y => y.1) = rb.map (fun r => r.map fun x => x.map fun y => y.1) ∧
      ∀ off : Fin 3 → Fin 6, (ra.map fun r => (r.map fun x => x.bind fun y => asSigma y.2).map (fun x => x.map fun m => fun i => m (off i))) =
        (rb.map fun r => (r.map fun x => x.bind fun y => asCovariance y.2).map (fun x => x.map fun m => fun i => Real.sqrt (m (off i) (off i)))) := by
    clear hne
    induction hists with
    | nil => exact ⟨[], [], rfl, rfl, rfl, rfl, by simp, by simp, rfl, fun _ => rfl⟩
    | cons t hists ih =>
      obtain ⟨ra, rb, e1, e2, l1, l2, k1, k2, hm, hs⟩ := ih (fun u hu => hn u (List.mem_cons_of_mem _ hu)) (fun u hu => hw u (List.mem_cons_of_mem _ hu))
      obtain ⟨a, b, f1, f2, g1, g2, gm, gs⟩ := rows_agree t (hw t List.mem_cons_self)
      have ht := hn t List.mem_cons_self
      refine ⟨a :: ra, b :: rb, ?_, ?_, by simp [l1], by simp [l2], ?_, ?_, ?_, fun off => ?_⟩
      · rw [List.mapM_cons, f1, e1]; rfl
      · rw [List.mapM_cons, f2, e2]; rfl
      · intro r hr
        rcases List.mem_cons.1 hr with rfl | hr
        · omega
        · exact k1 r hr
      · intro r hr
        rcases List.mem_cons.1 hr with rfl | hr
        · omega
        · exact k2 r hr
      · rw [List.map_cons, List.map_cons, gm, hm]
      · rw [List.map_cons, List.map_cons, gs off, hs off]
  obtain ⟨ra, rb, e1, e2, l1, l2, k1, k2, hm, hs⟩ := key
  have n1 : (ra.map fun r => (⟨r, none⟩ : Result)) ≠ [] := by
    intro h0; apply hne; rw [← List.length_eq_zero_iff, ← l1]; simpa using h0
  have n2 : (rb.map fun r => (⟨r, none⟩ : Result)) ≠ [] := by
    intro h0; apply hne; rw [← List.length_eq_zero_iff, ← l2]; simpa using h0
  obtain ⟨ta, a1, a2, a3, a4⟩ := assemble_ok false ns (ra.map fun r => ⟨r, none⟩) n n1 (by simpa using k1) false
  obtain ⟨tb, b1, b2, b3, b4⟩ := assemble_ok true ns (rb.map fun r => ⟨r, none⟩) n n2 (by simpa using k2) false
  refine ⟨ra, rb, ta, tb, e1, e2, a1, b1, fun off => ⟨?_, ?_, ?_⟩⟩
  · simp only [Tracks.mean3, a2, b2, List.map_map]
    have := congrArg (List.map (List.map (Option.map fun (m : Fin 6 → ℝ) => fun i => m (off i)))) hm
    simpa [List.map_map, Function.comp_def] using this
  · simp only [Tracks.sigma3, a3, Bool.false_eq_true, if_false]
    exact ⟨_, rfl⟩
  · have := hs off
    simp only [Tracks.sigma3, a3, b3, b4, Bool.false_eq_true, if_false, if_true, List.map_map, Option.some.injEq]
    simpa [List.map_map, Function.comp_def] using this

/-- C108: positions are the first three numbers of the mean of each time, velocities the last three, with their standard deviations in
the same columns; times that were not recorded stay so. -/
theorem tracks_columns (t : Tracks) (i j : Nat) (row : List (Option (Fin 6 → ℝ))) (hr : t.means[i]? = some row) :
    (∀ m : Fin 6 → ℝ, row[j]? = some (some m) →
      (((t.mean3 xyzCols)[i]?).bind fun r => r[j]?) = some (some ![m 0, m 1, m 2]) ∧
      (((t.mean3 vxyzCols)[i]?).bind fun r => r[j]?) = some (some ![m 3, m 4, m 5])) ∧
    (row[j]? = some none → (((t.mean3 xyzCols)[i]?).bind fun r => r[j]?) = some none ∧
      (((t.mean3 vxyzCols)[i]?).bind fun r => r[j]?) = some none) ∧
    (∀ ss srow (s : Fin 6 → ℝ), t.sigmas = some ss → ss[i]? = some srow → srow[j]? = some (some s) →
      ((t.sigma3 xyzCols).bind fun q => (q[i]?).bind fun r => r[j]?) = some (some ![s 0, s 1, s 2]) ∧
      ((t.sigma3 vxyzCols).bind fun q => (q[i]?).bind fun r => r[j]?) = some (some ![s 3, s 4, s 5])) := by
  have e1 : ∀ m : Fin 6 → ℝ, (fun k : Fin 3 => m (xyzCols k)) = ![m 0, m 1, m 2] := by
    intro m; funext k; fin_cases k <;> rfl
  have e2 : ∀ m : Fin 6 → ℝ, (fun k : Fin 3 => m (vxyzCols k)) = ![m 3, m 4, m 5] := by
    intro m; funext k; fin_cases k <;> rfl
  refine ⟨fun m hm => ?_, fun hm => ?_, fun ss srow s h1 h2 h3 => ?_⟩
  · simp only [Tracks.mean3, List.getElem?_map, hr, hm, Option.map_some, Option.bind_some, e1, e2, and_self]
  · simp only [Tracks.mean3, List.getElem?_map, hr, hm, Option.map_some, Option.bind_some, Option.map_none, and_self]
  · simp only [Tracks.sigma3, h1, List.getElem?_map, h2, h3, Option.map_some, Option.bind_some, e1, e2, and_self]

/-- C108 fails: with `return_particles`, motion models of different numbers of particles make `track` raise after all tracks are
complete, and nothing is returned. -/
theorem particles_mixed_violated (cov : Bool) (ns : List Nat) (rs : List Result) (hl : ns.length = rs.length) (i j : Nat)
    (hi : i < ns.length) (hj : j < ns.length) (h : ns[i] ≠ ns[j]) : assemble cov true false ns rs = .error .valueError := by
  have hst : stack (List.zipWith shapeOf ns rs) = .error .valueError := by
    cases ns with
    | nil => simp at hi
    | cons n ns => cases rs with
      | nil => simp at hl
      | cons r rs =>
        simp only [List.zipWith_cons_cons, stack]
        rw [if_neg]
        intro hall
        rw [List.all_eq_true] at hall
        have hk : ∀ k (hk : k < (n :: ns).length), (n :: ns)[k] = n := by
          intro k hk
          cases k with
          | zero => rfl
          | succ k =>
            have hk' : k < ns.length := by simpa using hk
            have hk2 : k < rs.length := by simp at hl; omega
            have := hall (shapeOf ns[k] rs[k]) (by
              rw [List.mem_iff_getElem]
              exact ⟨k, by simp; omega, by simp⟩)
            simp only [decide_eq_true_eq, shapeOf, Prod.mk.injEq] at this
            simpa using this.2
        exact h (by rw [hk i hi, hk j hj])
  have herr : ∀ l : List Nat, stack l = .ok () ∨ stack l = .error .valueError := by
    intro l
    cases l with
    | nil => exact Or.inr rfl
    | cons a l =>
      simp only [stack]
      split
      · exact Or.inl rfl
      · exact Or.inr rfl
  unfold assemble
  rcases herr (rs.map fun r => r.rows.length) with h1 | h1
  · simp only [h1, hst, bind, Except.bind, Bool.true_or, Bool.not_false, Bool.and_self, if_true]
  · simp only [h1, bind, Except.bind]

/-- C108: without the particles the same motion models return their tracks; so they do if the particles are reduced. -/
theorem particles_mixed_ok (cov reduce : Bool) (ns : List Nat) (rs : List Result) (m : Nat) (hne : rs ≠ []) (hm : ∀ r ∈ rs, r.rows.length = m) :
    ∃ t, assemble cov reduce reduce ns rs = .ok t := by
  obtain ⟨t, h, -⟩ := assemble_ok cov ns rs m hne hm reduce
  exact ⟨t, h⟩

/-! ### Examples -/

/-- Two particles, three times as much weight on the second. -/
def two : List Particle := [fun _ => 0, fun k => if k = 0 then 4 else 0]

example : Weighted two [1, 3] := ⟨rfl, by simp, by norm_num⟩

example : IsMean two [1, 3] fun k => if k = 0 then 3 else 0 := by
  intro k
  by_cases hk : k = 0
  · subst hk; simp [total, two]; norm_num
  · simp [total, two, hk]

example : ∃ i j, ∃ (hi : i < [100, 200].length) (hj : j < [100, 200].length), ([100, 200] : List Nat)[i] ≠ [100, 200][j] :=
  ⟨0, 1, by simp, by simp, by simp⟩

end Glimpse.TracksStats
