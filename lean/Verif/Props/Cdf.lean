import Verif.Model.Cdf
import Verif.Lemmas.ExceptList
import Mathlib.Tactic.Linarith
import Mathlib.Tactic.Positivity
import Mathlib.Tactic.Ring
import Mathlib.Tactic.FieldSimp
import Mathlib.Data.List.Count
import Mathlib.Algebra.BigOperators.Group.List.Basic

/-!
C52: `compute_cdf` and `match_cdf`.
-/
set_option autoImplicit false
set_option linter.unusedSimpArgs false

namespace Glimpse

/-- Spec: the fraction of the elements of `a` that are at most `v`. -/
def fracLE (a : List ℚ) (v : ℚ) : ℚ := (a.countP (fun x => decide (x ≤ v)) : ℚ) / (a.length : ℚ)

/-! ### Helper lemmas -/

private theorem mem_npUnique (a : List ℚ) (v : ℚ) : v ∈ npUnique a ↔ v ∈ a := by
  simp [npUnique]

private theorem npUnique_pairwise (a : List ℚ) : (npUnique a).Pairwise (· < ·) :=
  by
  have h1 : (npUnique a).Pairwise (· ≤ ·) := List.pairwise_insertionSort _ _
  have h2 : (npUnique a).Nodup := (List.perm_insertionSort _ _).nodup_iff.mpr (List.nodup_dedup a)
  exact (h1.and h2).imp (fun ⟨h, h'⟩ => lt_of_le_of_ne h h')

private theorem cumsum_getElem (l : List ℚ) (acc : ℚ) (k : Nat) (h : k < (cumsum acc l).length) :
    (cumsum acc l)[k] = acc + (l.take (k + 1)).sum := by
  induction l generalizing acc k with
  | nil => simp [cumsum] at h
  | cons x l ih =>
    cases k with
    | zero => simp [cumsum]
    | succ k =>
      simp only [cumsum, List.getElem_cons_succ]
      rw [ih]
      simp [add_assoc]

private theorem cumsum_length (l : List ℚ) (acc : ℚ) : (cumsum acc l).length = l.length := by
  induction l generalizing acc with
  | nil => rfl
  | cons x l ih => simp [cumsum, ih]

private theorem sum_count (a u : List ℚ) (hu : u.Nodup) :
    (u.map fun v => (a.count v : ℚ)).sum = (a.countP (fun x => decide (x ∈ u)) : ℚ) := by
  induction u with
  | nil => simp
  | cons v u ih =>
    rw [List.map_cons, List.sum_cons, ih (List.nodup_cons.mp hu).2]
    have hv := (List.nodup_cons.mp hu).1
    have : a.countP (fun x => decide (x ∈ v :: u)) = a.count v + a.countP (fun x => decide (x ∈ u)) := by
      clear ih
      induction a with
      | nil => simp
      | cons x a iha =>
        rw [List.countP_cons, List.countP_cons, List.count_cons, iha]
        by_cases hxv : x = v
        · subst hxv; simp [hv]; omega
        · simp [hxv]; omega
    rw [this]; push_cast; ring

private theorem mem_take_iff_le (u : List ℚ) (hu : u.Pairwise (· < ·)) (k : Nat) (hk : k < u.length)
    (x : ℚ) (hx : x ∈ u) : x ∈ u.take (k + 1) ↔ x ≤ u[k] := by
  obtain ⟨i, hi, rfl⟩ := List.getElem_of_mem hx
  constructor
  · intro h
    obtain ⟨j, hj, e⟩ := List.getElem_of_mem h
    rw [List.getElem_take] at e
    have hj' : j < k + 1 := by simp at hj; omega
    rw [← e]
    rcases Nat.lt_or_ge j k with h1 | h1
    · exact le_of_lt (List.pairwise_iff_getElem.mp hu _ _ (by omega) hk h1)
    · have : j = k := by omega
      subst this; exact le_refl _
  · intro h
    have hik : i ≤ k := by
      by_contra hc
      have := List.pairwise_iff_getElem.mp hu _ _ hk hi (by omega)
      linarith
    rw [List.mem_take_iff_getElem]
    exact ⟨i, by omega, rfl⟩

/-! ### compute_cdf -/

/-- C52. `compute_cdf` returns the distinct values in strictly ascending order, for each the exact fraction of
elements at most that value, and indices that reconstruct the input. -/
theorem compute_cdf_correct (a : List ℚ) :
    (computeCdf a).values.Pairwise (· < ·) ∧
    (∀ v, v ∈ (computeCdf a).values ↔ v ∈ a) ∧
    (computeCdf a).quantiles = (computeCdf a).values.map (fracLE a) ∧
    (computeCdf a).inverse.map (fun i => (computeCdf a).values[i]?) = a.map some := by
  refine ⟨npUnique_pairwise a, mem_npUnique a, ?_, ?_⟩
  · apply List.ext_getElem
    · simp [computeCdf, cumsum_length]
    · intro k h1 h2
      have hk : k < (npUnique a).length := by simpa [computeCdf] using h2
      simp only [computeCdf, List.getElem_map, fracLE]
      congr 1
      rw [cumsum_getElem, ← List.map_take, zero_add]
      rw [sum_count _ _ ((npUnique_pairwise a).imp (fun h => ne_of_lt h) |>.sublist (List.take_sublist _ _))]
      congr 1
      apply List.countP_congr
      intro x hx
      simpa using mem_take_iff_le _ (npUnique_pairwise a) k hk x ((mem_npUnique a x).mpr hx)
  · simp only [computeCdf, List.map_map]
    apply List.map_congr_left
    intro v hv
    have := (mem_npUnique a v).mpr hv
    simp [List.getElem?_eq_getElem (List.idxOf_lt_length_of_mem this)]

/-- C52. The last probability is 1 and the probabilities strictly increase (for a non-empty array). -/
theorem compute_cdf_quantiles (a : List ℚ) (ha : a ≠ []) :
    (computeCdf a).quantiles.Pairwise (· < ·) ∧ (computeCdf a).quantiles.getLast? = some 1 ∧
      ∀ q ∈ (computeCdf a).quantiles, 0 < q ∧ q ≤ 1 := by
  have hn : (0 : ℚ) < a.length := by exact_mod_cast List.length_pos_iff.mpr ha
  obtain ⟨h1, h2, h3, -⟩ := compute_cdf_correct a
  refine ⟨?_, ?_, ?_⟩
  · rw [h3, List.pairwise_map]
    refine h1.imp_of_mem fun {v w} hv hw hvw => ?_
    unfold fracLE
    rw [div_lt_div_iff_of_pos_right hn]
    have hw' := (h2 w).mp hw
    have : a.countP (fun x => decide (x ≤ v)) < a.countP (fun x => decide (x ≤ w)) := by
      have hlen : a.countP (fun x => decide (x ≤ v)) + a.count w ≤ a.countP (fun x => decide (x ≤ w)) := by
        clear h1 h2 h3 hw' hw hv ha hn
        induction a with
        | nil => simp
        | cons x a ih =>
          simp only [List.countP_cons, List.count_cons]
          by_cases hxv : x ≤ v
          · have : x ≤ w := le_trans hxv (le_of_lt hvw)
            have hne : ¬ x = w := by intro e; subst e; linarith
            simp [hxv, this, hne]; omega
          · by_cases hxw : x = w
            · subst hxw; simp [hxv]; omega
            · by_cases hle : x ≤ w
              · simp [hxv, hxw, hle]; omega
              · simp [hxv, hxw, hle]; omega
      have := List.count_pos_iff.mpr hw'
      omega
    exact_mod_cast this
  · rw [h3, List.getLast?_map]
    have hne : (computeCdf a).values ≠ [] := by
      obtain ⟨x, hx⟩ := List.exists_mem_of_ne_nil a ha
      exact List.ne_nil_of_mem ((h2 x).mpr hx)
    rw [List.getLast?_eq_getLast_of_ne_nil hne, Option.map_some]
    congr 1
    unfold fracLE
    have : a.countP (fun x => decide (x ≤ (computeCdf a).values.getLast hne)) = a.length := by
      rw [List.countP_eq_length]
      intro x hx
      have hx' := (h2 x).mpr hx
      rw [decide_eq_true_iff]
      obtain ⟨i, hi, rfl⟩ := List.getElem_of_mem hx'
      rw [List.getLast_eq_getElem]
      rcases Nat.lt_or_ge i ((computeCdf a).values.length - 1) with h | h
      · exact le_of_lt (List.pairwise_iff_getElem.mp h1 _ _ hi (by omega) h)
      · have : i = (computeCdf a).values.length - 1 := by omega
        subst this; exact le_refl _
    rw [this]; exact div_self (ne_of_gt hn)
  · intro q hq
    rw [h3, List.mem_map] at hq
    obtain ⟨v, hv, rfl⟩ := hq
    unfold fracLE
    constructor
    · apply div_pos _ hn
      have : 0 < a.countP (fun x => decide (x ≤ v)) := by
        rw [List.countP_pos_iff]
        exact ⟨v, (h2 v).mp hv, by simp⟩
      exact_mod_cast this
    · rw [div_le_one hn]
      exact_mod_cast List.countP_le_length

example : (computeCdf [3, 2, 1, 2]).values = [1, 2, 3] ∧
    (computeCdf [3, 2, 1, 2]).quantiles = [1/4, 3/4, 1] ∧
    (computeCdf [3, 2, 1, 2]).inverse = [2, 1, 0, 1] := by decide +kernel

/-! ### np.interp -/

/-- Value of `interp` on non-empty sample points. -/
private def interpVal (q : ℚ) (l : List (ℚ × ℚ)) : ℚ :=
  match interp q l with
  | .ok v => v
  | .error _ => 0

private theorem interp_ok (q : ℚ) (l : List (ℚ × ℚ)) (h : l ≠ []) : interp q l = .ok (interpVal q l) := by
  suffices ∃ v, interp q l = .ok v by
    obtain ⟨v, hv⟩ := this
    simp [interpVal, hv]
  induction l with
  | nil => exact absurd rfl h
  | cons p l ih =>
    obtain ⟨x0, f0⟩ := p
    cases l with
    | nil => exact ⟨f0, by simp [interp]⟩
    | cons p' r =>
      obtain ⟨x1, f1⟩ := p'
      rw [interp]
      split
      · split
        · exact ⟨_, rfl⟩
        · exact ⟨_, rfl⟩
      · exact ih (by simp)

private theorem interpVal_cons (q x0 f0 x1 f1 : ℚ) (r : List (ℚ × ℚ)) :
    interpVal q ((x0, f0) :: (x1, f1) :: r) =
      if q < x1 then (if q < x0 then f0 else f0 + (f1 - f0) / (x1 - x0) * (q - x0))
      else interpVal q ((x1, f1) :: r) := by
  unfold interpVal
  rw [interp]
  by_cases h1 : q < x1
  · by_cases h0 : q < x0 <;> simp [h1, h0]
  · simp [h1]

private theorem seg_bounds (q x0 f0 x1 f1 : ℚ) (hx : x0 < x1) (hf : f0 ≤ f1) (h0 : x0 ≤ q) (h1 : q ≤ x1) :
    f0 ≤ f0 + (f1 - f0) / (x1 - x0) * (q - x0) ∧ f0 + (f1 - f0) / (x1 - x0) * (q - x0) ≤ f1 := by
  have hd : 0 < x1 - x0 := by linarith
  have hs : 0 ≤ (f1 - f0) / (x1 - x0) := div_nonneg (by linarith) hd.le
  refine ⟨by nlinarith [mul_nonneg hs (by linarith : (0:ℚ) ≤ q - x0)], ?_⟩
  have : (f1 - f0) / (x1 - x0) * (q - x0) ≤ (f1 - f0) / (x1 - x0) * (x1 - x0) :=
    mul_le_mul_of_nonneg_left (by linarith) hs
  rw [div_mul_cancel₀ _ (ne_of_gt hd)] at this
  linarith

/-- `interp` of increasing sample points with non-decreasing values is bounded below by the first value. -/
private theorem interpVal_ge (l : List (ℚ × ℚ)) (x0 f0 q : ℚ)
    (hx : ((x0, f0) :: l).Pairwise (fun p r => p.1 < r.1)) (hf : ((x0, f0) :: l).Pairwise (fun p r => p.2 ≤ r.2)) :
    f0 ≤ interpVal q ((x0, f0) :: l) := by
  induction l generalizing x0 f0 with
  | nil => simp [interpVal, interp]
  | cons p r ih =>
    obtain ⟨x1, f1⟩ := p
    have hx1 : x0 < x1 := (List.pairwise_cons.mp hx).1 (x1, f1) List.mem_cons_self
    have hf1 : f0 ≤ f1 := (List.pairwise_cons.mp hf).1 (x1, f1) List.mem_cons_self
    rw [interpVal_cons]
    split
    · split
      · exact le_refl _
      · exact (seg_bounds q x0 f0 x1 f1 hx1 hf1 (by linarith) (by linarith)).1
    · exact le_trans hf1 (ih x1 f1 (List.pairwise_cons.mp hx).2 (List.pairwise_cons.mp hf).2)

private theorem interpVal_le (l : List (ℚ × ℚ)) (x0 f0 q m : ℚ)
    (hx : ((x0, f0) :: l).Pairwise (fun p r => p.1 < r.1)) (hf : ((x0, f0) :: l).Pairwise (fun p r => p.2 ≤ r.2))
    (hm : ∀ p ∈ (x0, f0) :: l, p.2 ≤ m) : interpVal q ((x0, f0) :: l) ≤ m := by
  induction l generalizing x0 f0 with
  | nil => simpa [interpVal, interp] using hm
  | cons p r ih =>
    obtain ⟨x1, f1⟩ := p
    have hx1 : x0 < x1 := (List.pairwise_cons.mp hx).1 (x1, f1) List.mem_cons_self
    have hf1 : f0 ≤ f1 := (List.pairwise_cons.mp hf).1 (x1, f1) List.mem_cons_self
    have m0 : f0 ≤ m := hm (x0, f0) List.mem_cons_self
    have m1 : f1 ≤ m := hm (x1, f1) (by simp)
    rw [interpVal_cons]
    split
    · split
      · exact m0
      · exact le_trans (seg_bounds q x0 f0 x1 f1 hx1 hf1 (by linarith) (by linarith)).2 m1
    · exact ih x1 f1 (List.pairwise_cons.mp hx).2 (List.pairwise_cons.mp hf).2
        (fun p hp => hm p (List.mem_cons_of_mem _ hp))

private theorem interpVal_mono (l : List (ℚ × ℚ)) (x0 f0 q q' : ℚ) (hq : q ≤ q')
    (hx : ((x0, f0) :: l).Pairwise (fun p r => p.1 < r.1)) (hf : ((x0, f0) :: l).Pairwise (fun p r => p.2 ≤ r.2)) :
    interpVal q ((x0, f0) :: l) ≤ interpVal q' ((x0, f0) :: l) := by
  induction l generalizing x0 f0 with
  | nil => simp [interpVal, interp]
  | cons p r ih =>
    obtain ⟨x1, f1⟩ := p
    have hx1 : x0 < x1 := (List.pairwise_cons.mp hx).1 (x1, f1) List.mem_cons_self
    have hf1 : f0 ≤ f1 := (List.pairwise_cons.mp hf).1 (x1, f1) List.mem_cons_self
    have hd : 0 < x1 - x0 := by linarith
    have hs : 0 ≤ (f1 - f0) / (x1 - x0) := div_nonneg (by linarith) hd.le
    rw [interpVal_cons, interpVal_cons]
    by_cases h1 : q < x1
    · rw [if_pos h1]
      by_cases h1' : q' < x1
      · rw [if_pos h1']
        by_cases h0 : q < x0
        · rw [if_pos h0]
          split
          · exact le_refl _
          · exact (seg_bounds q' x0 f0 x1 f1 hx1 hf1 (by linarith) (by linarith)).1
        · rw [if_neg h0, if_neg (by linarith)]
          have := mul_le_mul_of_nonneg_left (by linarith : q - x0 ≤ q' - x0) hs
          linarith
      · rw [if_neg h1']
        have hge := interpVal_ge r x1 f1 q' (List.pairwise_cons.mp hx).2 (List.pairwise_cons.mp hf).2
        split
        · linarith
        · have := (seg_bounds q x0 f0 x1 f1 hx1 hf1 (by linarith) (by linarith)).2
          linarith
    · rw [if_neg h1, if_neg (by linarith)]
      exact ih x1 f1 (List.pairwise_cons.mp hx).2 (List.pairwise_cons.mp hf).2

/-- At a sample point `interp` returns the sample value. -/
private theorem interpVal_knot (l : List (ℚ × ℚ)) (hx : l.Pairwise (fun p r => p.1 < r.1)) (p : ℚ × ℚ)
    (hp : p ∈ l) : interpVal p.1 l = p.2 := by
  induction l with
  | nil => cases hp
  | cons a l ih =>
    obtain ⟨x0, f0⟩ := a
    cases l with
    | nil =>
      simp only [List.mem_singleton] at hp
      subst hp; simp [interpVal, interp]
    | cons b r =>
      obtain ⟨x1, f1⟩ := b
      have hx1 : x0 < x1 := (List.pairwise_cons.mp hx).1 (x1, f1) List.mem_cons_self
      rw [interpVal_cons]
      rcases List.mem_cons.mp hp with rfl | hp
      · simp [hx1]
      · have h1 : ¬ p.1 < x1 := by
          rcases List.mem_cons.mp hp with rfl | hp'
          · simp
          · have := (List.pairwise_cons.mp (List.pairwise_cons.mp hx).2).1 p hp'
            simp at this; linarith
        rw [if_neg h1]
        exact ih (List.pairwise_cons.mp hx).2 hp

/-! ### match_cdf -/

private theorem matchCdf_eq (a values probs : List ℚ) (hlen : values.length = probs.length) (hne : probs ≠ []) :
    matchCdf a values probs = .ok (a.map fun x => interpVal (fracLE a x) (probs.zip values)) := by
  have hz : probs.zip values ≠ [] := by
    intro h
    have := congrArg List.length h
    simp at this
    rcases this with h | h
    · exact hne h
    · rw [h] at hlen; exact hne (List.length_eq_zero_iff.mp (by simpa using hlen.symm))
  obtain ⟨-, h2, h3, -⟩ := compute_cdf_correct a
  unfold matchCdf
  simp only [hlen, ne_eq, not_true_eq_false, if_false, hne, bind, Except.bind, pure, Except.pure]
  rw [mapM_ok _ (fun q => interpVal q (probs.zip values)) _ (fun q _ => interp_ok q _ hz)]
  simp only
  rw [h3, List.map_map]
  have : (computeCdf a).inverse = a.map fun v => (npUnique a).idxOf v := rfl
  rw [this]
  have hv : (computeCdf a).values = npUnique a := rfl
  rw [hv]
  rw [mapM_ok _ (fun i => (((npUnique a).map fun v => interpVal (fracLE a v) (probs.zip values))[i]?).getD 0)]
  · rw [List.map_map]
    congr 1
    apply List.map_congr_left
    intro v hv'
    have hm := (mem_npUnique a v).mpr hv'
    simp [List.getElem?_eq_getElem (List.idxOf_lt_length_of_mem hm)]
  · intro i hi
    rw [List.mem_map] at hi
    obtain ⟨v, hv', rfl⟩ := hi
    have hm := (mem_npUnique a v).mpr hv'
    simp [List.getElem?_eq_getElem (List.idxOf_lt_length_of_mem hm)]

private theorem fracLE_mono (a : List ℚ) (x y : ℚ) (h : x ≤ y) : fracLE a x ≤ fracLE a y := by
  unfold fracLE
  apply div_le_div_of_nonneg_right
  · have : a.countP (fun z => decide (z ≤ x)) ≤ a.countP (fun z => decide (z ≤ y)) := by
      apply List.countP_mono_left
      intro z _ hz
      simp at hz ⊢; linarith
    exact_mod_cast this
  · positivity

private theorem zip_pairwise_fst (p v : List ℚ) (R : ℚ → ℚ → Prop) (h : p.Pairwise R) :
    (p.zip v).Pairwise (fun a b => R a.1 b.1) := by
  induction p generalizing v with
  | nil => simp
  | cons x p ih =>
    cases v with
    | nil => simp
    | cons y v =>
      rw [List.zip_cons_cons, List.pairwise_cons]
      refine ⟨fun q hq => (List.pairwise_cons.mp h).1 _ (List.of_mem_zip hq).1, ih v (List.pairwise_cons.mp h).2⟩

private theorem zip_pairwise_snd (p v : List ℚ) (R : ℚ → ℚ → Prop) (h : v.Pairwise R) :
    (p.zip v).Pairwise (fun a b => R a.2 b.2) := by
  induction p generalizing v with
  | nil => simp
  | cons x p ih =>
    cases v with
    | nil => simp
    | cons y v =>
      rw [List.zip_cons_cons, List.pairwise_cons]
      refine ⟨fun q hq => (List.pairwise_cons.mp h).1 _ (List.of_mem_zip hq).2, ih v (List.pairwise_cons.mp h).2⟩

/-- C52. For every target distribution (strictly increasing probabilities, non-decreasing values),
`match_cdf` returns one value per element, preserves the order of the elements (equal elements stay equal), and
returns only values between the smallest and largest target value. -/
theorem match_cdf_monotone_bounded (a values probs : List ℚ) (hlen : values.length = probs.length)
    (hne : probs ≠ []) (hp : probs.Pairwise (· < ·)) (hv : values.Pairwise (· ≤ ·)) :
    ∃ out, matchCdf a values probs = .ok out ∧ out.length = a.length ∧
      (∀ i j (hi : i < a.length) (hj : j < a.length) (hi' : i < out.length) (hj' : j < out.length),
        a[i] ≤ a[j] → out[i] ≤ out[j]) ∧
      ∀ lo hi, (∀ v ∈ values, lo ≤ v ∧ v ≤ hi) → ∀ o ∈ out, lo ≤ o ∧ o ≤ hi := by
  refine ⟨_, matchCdf_eq a values probs hlen hne, by simp, ?_, ?_⟩
  · intro i j hi hj hi' hj' h
    have hx := zip_pairwise_fst probs values _ hp
    have hf := zip_pairwise_snd probs values _ hv
    simp only [List.getElem_map]
    have key : ∀ z : List (ℚ × ℚ), z.Pairwise (fun a b => a.1 < b.1) → z.Pairwise (fun a b => a.2 ≤ b.2) →
        ∀ q q', q ≤ q' → interpVal q z ≤ interpVal q' z := by
      intro z hx hf q q' hq
      match z, hx, hf with
      | [], _, _ => simp [interpVal, interp]
      | (x0, f0) :: l, hx, hf => exact interpVal_mono l x0 f0 _ _ hq hx hf
    exact key _ hx hf _ _ (fracLE_mono a _ _ h)
  · intro lo hi hb o ho
    rw [List.mem_map] at ho
    obtain ⟨x, hx', rfl⟩ := ho
    have hx := zip_pairwise_fst probs values _ hp
    have hf := zip_pairwise_snd probs values _ hv
    have hmem : ∀ p ∈ probs.zip values, p.2 ∈ values := fun p hp => (List.of_mem_zip hp).2
    match h' : probs.zip values, hx, hf with
    | [], _, _ =>
      exfalso
      have := congrArg List.length h'
      simp [hlen] at this
      exact hne this
    | (x0, f0) :: l, hx, hf =>
      rw [h'] at hmem
      exact ⟨le_trans (hb _ (hmem _ List.mem_cons_self)).1 (interpVal_ge l x0 f0 _ hx hf),
        interpVal_le l x0 f0 _ hi hx hf (fun p hp => (hb _ (hmem p hp)).2)⟩

/-- C52. If the fraction of `a` at or below an element is one of the target probabilities, that element is mapped
to exactly the target value with that probability. -/
theorem match_cdf_exact_at_quantile (a values probs : List ℚ) (hlen : values.length = probs.length)
    (hp : probs.Pairwise (· < ·)) (out : List ℚ) (h : matchCdf a values probs = .ok out)
    (i k : Nat) (hi : i < a.length) (hi' : i < out.length) (hk : k < probs.length) (hk' : k < values.length)
    (hq : fracLE a a[i] = probs[k]) : out[i] = values[k] := by
  have hne : probs ≠ [] := by rintro rfl; simp at hk
  rw [matchCdf_eq a values probs hlen hne] at h
  injection h with h
  subst h
  simp only [List.getElem_map, hq]
  have hx := zip_pairwise_fst probs values _ hp
  have hm : (probs[k], values[k]) ∈ probs.zip values := by
    rw [List.mem_iff_getElem]
    exact ⟨k, by simp; omega, by simp⟩
  exact interpVal_knot _ hx _ hm

/-- C52. Matching an array to its own distribution is the identity. -/
theorem match_cdf_self (a : List ℚ) (ha : a ≠ []) :
    matchCdf a (computeCdf a).values (computeCdf a).quantiles = .ok a := by
  obtain ⟨h1, h2, h3, -⟩ := compute_cdf_correct a
  have hp := (compute_cdf_quantiles a ha).1
  have hne : (computeCdf a).quantiles ≠ [] := by
    have := (compute_cdf_quantiles a ha).2.1
    intro h; rw [h] at this; simp at this
  have hlen : (computeCdf a).values.length = (computeCdf a).quantiles.length := by rw [h3]; simp
  rw [matchCdf_eq a _ _ hlen hne]
  congr 1
  conv_rhs => rw [← List.map_id a]
  apply List.map_congr_left
  intro x hx
  have hx' := (h2 x).mpr hx
  obtain ⟨k, hk, rfl⟩ := List.getElem_of_mem hx'
  have hkq : k < (computeCdf a).quantiles.length := by omega
  have hq : fracLE a (computeCdf a).values[k] = (computeCdf a).quantiles[k] := by
    simp only [h3, List.getElem_map]
  rw [hq]
  have hm : ((computeCdf a).quantiles[k], (computeCdf a).values[k]) ∈
      (computeCdf a).quantiles.zip (computeCdf a).values := by
    rw [List.mem_iff_getElem]
    exact ⟨k, by simp; omega, by simp⟩
  exact interpVal_knot _ (zip_pairwise_fst _ _ _ hp) _ hm

-- Non-vacuity: the docstring's example.
example : matchCdf [3, 2, 1, 2] (computeCdf [4, 2, 1, 2, 4, 2, 1, 2]).values
    (computeCdf [4, 2, 1, 2, 4, 2, 1, 2]).quantiles = .ok [4, 2, 1, 2] := by decide +kernel

/-- C94 (histogram matching): the result of `match_cdf` depends on the array only through the order of its values: any
strictly increasing change of the values (brightness, contrast, gamma) gives the same result. -/
theorem match_cdf_ranks (a values probs : List ℚ) (hlen : values.length = probs.length) (hne : probs ≠ [])
    (g : ℚ → ℚ) (hg : StrictMono g) : matchCdf (a.map g) values probs = matchCdf a values probs := by
  have hf : ∀ v, fracLE (a.map g) (g v) = fracLE a v := by
    intro v
    unfold fracLE
    rw [List.countP_map, List.length_map]
    congr 2
    apply List.countP_congr
    intro x _
    simp [hg.le_iff_le]
  rw [matchCdf_eq _ _ _ hlen hne, matchCdf_eq _ _ _ hlen hne, List.map_map]
  congr 1
  apply List.map_congr_left
  intro v _
  simp only [Function.comp, hf]

example : matchCdf [9, 1, 4] [1, 2, 3] [1/3, 2/3, 1] = matchCdf [900, -5, 40] [1, 2, 3] [1/3, 2/3, 1] := by decide +kernel

end Glimpse
