import Verif.Model.Resample
import Verif.Props.Resample
import Mathlib.Algebra.BigOperators.Group.Finset.Basic
import Mathlib.Algebra.BigOperators.Intervals
import Mathlib.Algebra.BigOperators.Ring.Finset
import Mathlib.Algebra.BigOperators.Field
import Mathlib.Tactic.Linarith
import Mathlib.Tactic.FieldSimp

/-!
C59: what resampling does to the weighted mean and variance.
-/
set_option autoImplicit false
set_option linter.unusedSimpArgs false

namespace Glimpse.Resample

private theorem sum_map_count (n : Nat) (l : List Nat) (hl : ∀ i ∈ l, i < n) (f : Nat → ℚ) :
    (l.map f).sum = ∑ i ∈ Finset.range n, (l.count i : ℚ) * f i := by
  induction l with
  | nil => simp
  | cons a l ih =>
    rw [List.map_cons, List.sum_cons, ih fun i hi => hl i (List.mem_cons_of_mem _ hi)]
    have ha := hl a List.mem_cons_self
    have : ∀ i ∈ Finset.range n, (((a :: l).count i : Nat) : ℚ) * f i =
        (l.count i : ℚ) * f i + (if i = a then f i else 0) := by
      intro i _
      rw [List.count_cons]
      by_cases h : i = a
      · subst h; simp; ring
      · have h' : ¬ a = i := fun e => h e.symm
        simp [h, h']
    rw [Finset.sum_congr rfl this, Finset.sum_add_distrib, Finset.sum_ite_eq' ]
    simp [ha]
    ring

/-- C59. With systematic resampling in which every expected number of copies is whole, every total over the drawn
particles is the total weighted by the expected number of copies (so that the plain mean of the drawn particles is the
weighted mean before). -/
theorem systematic_total (w : List ℚ) (h : Weights w) (u : ℚ) (h0 : 0 < u) (h1 : u < 1)
    (hint : ∀ i, i < w.length → ∃ k : ℤ, expected w i = k) (f : Nat → ℚ) :
    ((systematic w.length w u).map f).sum = ∑ i ∈ Finset.range w.length, expected w i * f i := by
  obtain ⟨idx, hd, hv, _⟩ := drawIndexes_valid .systematic (by decide) w h (fun _ => u) (fun _ => ⟨h0.le, h1⟩)
  have hidx : idx = systematic w.length w u := by
    simp only [drawIndexes] at hd; exact (Except.ok.inj hd).symm
  rw [← hidx, sum_map_count w.length idx hv.2]
  refine Finset.sum_congr rfl ?_
  intro i hi
  have hi' := Finset.mem_range.1 hi
  obtain ⟨k, hk⟩ := hint i hi'
  have hc : ((systematic w.length w u).count i : ℤ) = k := by
    rcases systematic_count_partial w h u h0 h1 i hi' with e | e
    · rw [e, hk, Int.floor_intCast]
    · rw [e, hk, Int.ceil_intCast]
  rw [hidx, hk, ← hc]; simp

private theorem zipWith_sum (col w : List ℚ) (hl : col.length = w.length) (g : ℚ → ℚ → ℚ) :
    (List.zipWith g col w).sum = ∑ i ∈ Finset.range w.length, g (col.getD i 0) (w.getD i 0) := by
  induction w generalizing col with
  | nil => cases col <;> simp
  | cons a w ih =>
    cases col with
    | nil => simp at hl
    | cons c col =>
      rw [List.zipWith_cons_cons, List.sum_cons, ih col (by simpa using hl), List.length_cons,
        Finset.sum_range_succ']
      simp [add_comm]

private theorem list_sum_range (w : List ℚ) : w.sum = ∑ i ∈ Finset.range w.length, w.getD i 0 := by
  induction w with
  | nil => simp
  | cons a w ih => rw [List.sum_cons, List.length_cons, Finset.sum_range_succ', ih]; simp [add_comm]

private theorem takeIdx_eq {α : Type} (d : α) (x : List α) (idx : List Nat) (h : ∀ i ∈ idx, i < x.length) :
    takeIdx x idx = .ok (idx.map fun i => x.getD i d) := by
  unfold takeIdx
  induction idx with
  | nil => rfl
  | cons i idx ih =>
    have hi := h i List.mem_cons_self
    rw [List.mapM_cons, ih fun j hj => h j (List.mem_cons_of_mem _ hj), List.getElem?_eq_getElem hi]
    simp [bind, Except.bind, pure, Except.pure, List.getD_eq_getElem?_getD, hi]

/-- C59. After `resample_particles` with systematic resampling (whole expected numbers of copies), the tracker's
weighted mean of any particle coordinate is the old mean with the *squares* of the weights, and the plain mean of the
drawn particles is the weighted mean before: the weights are applied twice. -/
theorem resample_mean_squares (col w : List ℚ) (hl : col.length = w.length) (h : Weights w) (us : Nat → ℚ)
    (h0 : 0 < us 0) (h1 : us 0 < 1) (dflt : Method)
    (hint : ∀ i, i < w.length → ∃ k : ℤ, expected w i = k) :
    ∃ s', resampleParticles (some .systematic) dflt us ⟨col, w⟩ = .ok s' ∧
      particleMean s'.particles s'.weights =
        particleMean col (w.map fun x => x ^ 2) ∧
      s'.particles.sum / s'.particles.length = particleMean col w := by
  set idx := systematic w.length w (us 0) with hidx
  obtain ⟨idx', hd, hv, _⟩ := drawIndexes_valid .systematic (by decide) w h (fun _ => us 0) (fun _ => ⟨h0.le, h1⟩)
  have he : idx' = idx := by
    simp only [drawIndexes] at hd; exact (Except.ok.inj hd).symm
  rw [he] at hv
  have hcol := takeIdx_eq 0 col idx (fun i hi => hl ▸ hv.2 i hi)
  have hw := takeIdx_eq 0 w idx hv.2
  have hpos : 0 < w.sum := h.2
  refine ⟨⟨idx.map fun i => col.getD i 0, idx.map fun i => w.getD i 0⟩, ?_, ?_, ?_⟩
  · unfold resampleParticles
    simp only [Option.getD_some, drawIndexes, hl, bind, Except.bind, pure, Except.pure, ← hidx, hcol, hw]
  · simp only [particleMean]
    have z : List.zipWith (· * ·) (idx.map fun i => col.getD i 0) (idx.map fun i => w.getD i 0) =
        idx.map fun i => col.getD i 0 * w.getD i 0 := by
      rw [List.zipWith_map, List.zipWith_self]
    rw [z, systematic_total w h (us 0) h0 h1 hint, systematic_total w h (us 0) h0 h1 hint]
    have hlen : (w.map fun x => x ^ 2).length = w.length := by simp
    rw [zipWith_sum col _ (by simp [hl]), list_sum_range (w.map fun x => x ^ 2), hlen]
    have hg : ∀ i, (w.map fun x => x ^ 2).getD i 0 = (w.getD i 0) ^ 2 := by
      intro i
      rw [List.getD_eq_getElem?_getD, List.getElem?_map, List.getD_eq_getElem?_getD]
      cases w[i]? <;> simp
    have hn : (w.length : ℚ) ≠ 0 := by
      intro e
      have : w = [] := by
        have : w.length = 0 := by exact_mod_cast e
        exact List.length_eq_zero_iff.1 this
      rw [this] at hpos; simp at hpos
    have c : ∀ f : Nat → ℚ, ∑ i ∈ Finset.range w.length, expected w i * f i =
        (w.length / w.sum) * ∑ i ∈ Finset.range w.length, w.getD i 0 * f i := by
      intro f
      rw [Finset.mul_sum]
      refine Finset.sum_congr rfl fun i _ => ?_
      unfold expected; ring
    rw [c, c, mul_div_mul_left _ _ (div_ne_zero hn hpos.ne')]
    simp only [hg]
    congr 1
    · refine Finset.sum_congr rfl fun i _ => ?_
      ring
    · refine Finset.sum_congr rfl fun i _ => ?_
      ring
  · simp only [particleMean, List.length_map, hv.1]
    rw [systematic_total w h (us 0) h0 h1 hint, zipWith_sum col w hl]
    have hn : (w.length : ℚ) ≠ 0 := by
      intro e
      have : w = [] := by
        have : w.length = 0 := by exact_mod_cast e
        exact List.length_eq_zero_iff.1 this
      rw [this] at hpos; simp at hpos
    rw [Finset.sum_div, Finset.sum_div]
    refine Finset.sum_congr rfl fun i _ => ?_
    unfold expected
    field_simp

/-- C59 fails: four particles at 0, 4, 8, 8 with weights 2, 1, 1, 0 have weighted mean 3; resampling (0, 0, 1, 2) gives
the tracker the mean 2 instead, for every random number. -/
theorem resample_mean_violated (u : ℚ) (h0 : 0 < u) (h1 : u < 1) :
    particleMean [0, 4, 8, 8] [2, 1, 1, 0] = 3 ∧
    ∃ s', resampleParticles (some .systematic) .other (fun _ => u) ⟨[0, 4, 8, 8], [2, 1, 1, 0]⟩ = .ok s' ∧
      particleMean s'.particles s'.weights = 2 := by
  refine ⟨by decide +kernel, ?_⟩
  obtain ⟨s', e1, e2, -⟩ := resample_mean_squares [0, 4, 8, 8] [2, 1, 1, 0] rfl
    ⟨by decide +kernel, by decide +kernel⟩ (fun _ => u) h0 h1 .other (by
      intro i hi
      have : i = 0 ∨ i = 1 ∨ i = 2 ∨ i = 3 := by simp at hi; omega
      rcases this with rfl | rfl | rfl | rfl
      · exact ⟨2, by decide +kernel⟩
      · exact ⟨1, by decide +kernel⟩
      · exact ⟨1, by decide +kernel⟩
      · exact ⟨0, by decide +kernel⟩)
  exact ⟨s', e1, e2.trans (by decide +kernel)⟩

/-- C59, the case that holds: with equal weights (all particles equally likely) resampling draws each particle once, so
that the weighted mean is unchanged. -/
theorem resample_mean_equal_partial (col w : List ℚ) (hl : col.length = w.length) (c : ℚ) (hc : 0 < c)
    (hw : w = List.replicate w.length c) (hne : w ≠ []) (us : Nat → ℚ) (h0 : 0 < us 0) (h1 : us 0 < 1)
    (dflt : Method) :
    ∃ s', resampleParticles (some .systematic) dflt us ⟨col, w⟩ = .ok s' ∧
      particleMean s'.particles s'.weights = particleMean col w := by
  have hn : (w.length : ℚ) ≠ 0 := by
    have : w.length ≠ 0 := fun e => hne (List.length_eq_zero_iff.1 e)
    exact_mod_cast this
  have hsum : w.sum = w.length * c := by
    conv_lhs => rw [hw]
    simp
  have hget : ∀ i, i < w.length → w.getD i 0 = c := by
    intro i hi
    rw [hw, List.getD_eq_getElem?_getD, List.getElem?_replicate, if_pos (by simpa using hi)]; rfl
  have hW : Weights w := by
    refine ⟨?_, ?_⟩
    · intro x hx
      rw [hw] at hx
      rw [List.eq_of_mem_replicate hx]; exact hc.le
    · rw [hsum]
      have : (0 : ℚ) < w.length := lt_of_le_of_ne (by positivity) hn.symm
      positivity
  obtain ⟨s', e1, e2, e3⟩ := resample_mean_squares col w hl hW us h0 h1 dflt (by
    intro i hi
    refine ⟨1, ?_⟩
    unfold expected
    rw [hget i hi, hsum]
    field_simp
    norm_num)
  refine ⟨s', e1, ?_⟩
  rw [e2]
  unfold particleMean
  rw [zipWith_sum col _ (by simp [hl]), zipWith_sum col w hl]
  have : (w.map fun x => x ^ 2).sum = w.length * c ^ 2 := by
    conv_lhs => rw [hw]
    simp
  rw [this, hsum, List.length_map]
  have hg : ∀ i ∈ Finset.range w.length, col.getD i 0 * (w.map fun x => x ^ 2).getD i 0 =
      c * (col.getD i 0 * w.getD i 0) := by
    intro i hi
    have hi' := Finset.mem_range.1 hi
    have : (w.map fun x => x ^ 2).getD i 0 = (w.getD i 0) ^ 2 := by
      rw [List.getD_eq_getElem?_getD, List.getElem?_map, List.getD_eq_getElem?_getD,
        List.getElem?_eq_getElem hi']; rfl
    rw [this, hget i hi']; ring
  rw [Finset.sum_congr rfl hg, ← Finset.mul_sum]
  field_simp

end Glimpse.Resample
