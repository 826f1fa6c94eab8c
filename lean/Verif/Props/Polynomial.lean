import Verif.Model.Polynomial
import Verif.Props.Ransac
import Verif.Lemmas.ExceptList
import Mathlib.LinearAlgebra.Lagrange
import Mathlib.Tactic.Linarith
import Mathlib.Tactic.Ring
import Mathlib.Tactic.Positivity
import Mathlib.Algebra.Order.BigOperators.Group.List

/-!
C102: the polynomial model and its use with ransac.
-/
set_option autoImplicit false
set_option linter.unusedSimpArgs false
set_option linter.unusedSectionVars false

open Polynomial

namespace Glimpse.Ransac

variable {E : Type} [Field E] [LinearOrder E] [IsStrictOrderedRing E]

/-! ### Value of a polynomial -/

private theorem polyval_append (l : List E) (c x : E) : polyval (l ++ [c]) x = polyval l x * x + c := by
  simp [polyval, List.foldl_append]

private theorem polyval_cons (c : E) (l : List E) (x : E) : polyval (c :: l) x = c * x ^ l.length + polyval l x := by
  induction l using List.reverseRecOn with
  | nil => simp [polyval]
  | append_singleton l d ih =>
    rw [← List.cons_append, polyval_append, ih, polyval_append]
    simp only [List.length_append, List.length_singleton, pow_succ]
    ring

/-- C102. The prediction is the polynomial with the given coefficients, from highest to lowest degree. -/
theorem polyval_eq_sum (l : List E) (x : E) :
    polyval l x = ∑ i : Fin l.length, l[i] * x ^ (l.length - 1 - i.val) := by
  induction l with
  | nil => simp [polyval]
  | cons c l ih =>
    rw [polyval_cons, ih]
    simp only [List.length_cons]
    rw [Fin.sum_univ_succ]
    congr 1
    refine Finset.sum_congr rfl fun i _ => ?_
    simp only [Fin.getElem_fin, Fin.val_succ, List.getElem_cons_succ]
    congr 2
    omega

/-- Low to high, as a polynomial of Mathlib. -/
private noncomputable def lp : List E → E[X]
  | [] => 0
  | c :: l => C c + X * lp l

private theorem lp_eval (l : List E) (x : E) : (lp l.reverse).eval x = polyval l x := by
  induction l using List.reverseRecOn with
  | nil => simp [lp, polyval]
  | append_singleton l c ih =>
    rw [List.reverse_append, polyval_append]
    simp only [List.reverse_singleton, List.singleton_append, lp, eval_add, eval_C, eval_mul, eval_X, ih]
    ring

private theorem lp_degree (l : List E) : (lp l).degree < (l.length : WithBot ℕ) := by
  induction l with
  | nil => simp [lp]
  | cons c l ih =>
    have h1 : (lp (c :: l)).degree < ((l.length + 1 : ℕ) : WithBot ℕ) := by
      rw [Polynomial.degree_lt_iff_coeff_zero] at *
      intro m hm
      cases m with
      | zero => omega
      | succ m =>
        simp only [lp, coeff_add, coeff_C_succ, coeff_X_mul, zero_add]
        exact ih m (by omega)
    simpa using h1

private theorem lp_inj (l m : List E) (hl : l.length = m.length) (h : lp l = lp m) : l = m := by
  induction l generalizing m with
  | nil => cases m with
    | nil => rfl
    | cons => cases hl
  | cons c l ih => cases m with
    | nil => cases hl
    | cons d m =>
      have h0 := congrArg (fun p => coeff p 0) h
      simp [lp] at h0
      subst h0
      have h1 : lp l = lp m := by
        ext k
        have := congrArg (fun p => coeff p (k + 1)) h
        simpa [lp, coeff_X_mul, coeff_C_succ] using this
      rw [ih m (by simpa using hl) h1]

/-- Coefficients of a polynomial are determined by its values at as many points. -/
theorem polyval_unique (l m : List E) (xs : Finset E) (hl : l.length = m.length) (hx : l.length ≤ xs.card)
    (h : ∀ x ∈ xs, polyval l x = polyval m x) : l = m := by
  have h1 : lp l.reverse = lp m.reverse := by
    refine Polynomial.eq_of_degrees_lt_of_eval_finset_eq xs ?_ ?_ ?_
    · refine lt_of_lt_of_le (lp_degree _) ?_
      rw [List.length_reverse]; exact_mod_cast hx
    · refine lt_of_lt_of_le (lp_degree _) ?_
      rw [List.length_reverse, ← hl]; exact_mod_cast hx
    · intro x hxx; rw [lp_eval, lp_eval]; exact h x hxx
  have h2 := lp_inj _ _ (by simpa using hl) h1
  simpa using congrArg List.reverse h2

/-! ### Least squares -/

/-- Sum of the squared differences between polynomial and points. -/
def sumSq (l : List E) (pts : List (E × E)) : E := (pts.map fun t => (polyval l t.1 - t.2) ^ 2).sum

/-- What numpy's `polyfit` promises: for one or more points, coefficients of the degree with the smallest sum of
squares. -/
def LeastSquares (polyfit : List (E × E) → Nat → List E) : Prop :=
  ∀ pts deg, pts ≠ [] → (polyfit pts deg).length = deg + 1 ∧
    ∀ l : List E, l.length = deg + 1 → sumSq (polyfit pts deg) pts ≤ sumSq l pts

private theorem sumSq_nonneg (l : List E) (pts : List (E × E)) : 0 ≤ sumSq l pts :=
  List.sum_nonneg fun x hx => by
    obtain ⟨t, _, rfl⟩ := List.mem_map.1 hx
    positivity

private theorem sumSq_zero (l : List E) (pts : List (E × E)) :
    sumSq l pts = 0 ↔ ∀ t ∈ pts, polyval l t.1 = t.2 := by
  induction pts with
  | nil => simp [sumSq]
  | cons t pts ih =>
    have e : sumSq l (t :: pts) = (polyval l t.1 - t.2) ^ 2 + sumSq l pts := by simp [sumSq]
    have hn := sumSq_nonneg l pts
    have hp : (0 : E) ≤ (polyval l t.1 - t.2) ^ 2 := by positivity
    rw [e]
    simp only [List.mem_cons, forall_eq_or_imp, ← ih]
    constructor
    · intro h
      have h1 : (polyval l t.1 - t.2) ^ 2 = 0 := by linarith
      exact ⟨sub_eq_zero.1 (pow_eq_zero_iff (two_ne_zero) |>.1 h1), by linarith⟩
    · rintro ⟨h1, h2⟩
      rw [h1, h2]; simp

/-- C102. If the points lie on a polynomial of the degree, then the fit passes through all of them; if they have more
distinct abscissae than the degree, then the fit is that polynomial. -/
theorem polyfit_exact (polyfit : List (E × E) → Nat → List E) (hp : LeastSquares polyfit) (pts : List (E × E))
    (deg : Nat) (hne : pts ≠ []) (q : List E) (hq : q.length = deg + 1) (hon : ∀ t ∈ pts, polyval q t.1 = t.2) :
    (∀ t ∈ pts, polyval (polyfit pts deg) t.1 = t.2) ∧
    (deg < (pts.map Prod.fst).toFinset.card → polyfit pts deg = q) := by
  obtain ⟨h1, h2⟩ := hp pts deg hne
  have hz : sumSq (polyfit pts deg) pts = 0 := by
    have := h2 q hq
    rw [(sumSq_zero q pts).2 hon] at this
    exact le_antisymm this (sumSq_nonneg _ _)
  have h3 := (sumSq_zero _ _).1 hz
  refine ⟨h3, fun hd => ?_⟩
  refine polyval_unique _ _ _ (by rw [h1, hq]) (by rw [h1]; exact hd) ?_
  intro x hx
  rw [List.mem_toFinset, List.mem_map] at hx
  obtain ⟨t, ht, rfl⟩ := hx
  rw [h3 t ht, hon t ht]

/-! ### The model -/

private theorem rows_ok (m : Poly E) (index : List Nat) (h : ∀ i ∈ index, i < m.size) :
    m.rows index = .ok (index.map fun i => m.xy.getD i (0, 0)) := by
  unfold Poly.rows
  refine mapM_ok _ _ _ fun i hi => ?_
  have := h i hi
  unfold Poly.size at this
  simp [List.getElem?_eq_getElem this, List.getD]

/-- C102. Prediction, errors and fit for indices of points: the value of the polynomial at the abscissa, its distance
from the ordinate, and the coefficients of the least-squares polynomial of these points. -/
theorem polynomial_model (polyfit : List (E × E) → Nat → List E) (m : Poly E) (params : List E) (index : List Nat)
    (h : ∀ i ∈ index, i < m.size) :
    m.predict params index = .ok (index.map fun i => polyval params (m.xy.getD i (0, 0)).1) ∧
    m.errors params index = .ok (index.map fun i => |polyval params (m.xy.getD i (0, 0)).1 - (m.xy.getD i (0, 0)).2|) ∧
    (index ≠ [] → m.fit polyfit index = .ok (polyfit (index.map fun i => m.xy.getD i (0, 0)) m.deg)) ∧
    (index = [] → m.fit polyfit index = .error .typeError) := by
  have hr := rows_ok m index h
  have hpred : m.predict params index = .ok (index.map fun i => polyval params (m.xy.getD i (0, 0)).1) := by
    unfold Poly.predict
    simp only [hr, bind, Except.bind, List.map_map, Function.comp_def]
  refine ⟨hpred, ?_, ?_, ?_⟩
  · unfold Poly.errors
    simp only [hr, hpred, bind, Except.bind]
    congr 1
    rw [List.zipWith_map_left, List.zipWith_map_right, List.zipWith_self]
  · intro hne
    unfold Poly.fit
    simp only [hr, bind, Except.bind]
    rw [if_neg]
    simpa using hne
  · rintro rfl
    unfold Poly.fit
    simp only [hr, bind, Except.bind]
    simp

/-- C102: an index out of range raises IndexError. -/
theorem polynomial_index_error (m : Poly E) (params : List E) (index : List Nat) (i : Nat) (hi : i ∈ index) (h : m.size ≤ i) :
    m.predict params index = .error .indexError ∧ m.errors params index = .error .indexError := by
  have key : m.rows index = .error .indexError := by
    unfold Poly.rows
    induction index with
    | nil => simp at hi
    | cons j index ih =>
      rw [List.mapM_cons]
      rcases hj : m.xy[j]? with _ | x
      · rfl
      · have hij : i ≠ j := by
          rintro rfl
          have : m.xy[i]? = none := List.getElem?_eq_none h
          rw [this] at hj
          exact absurd hj (by simp)
        have := ih (List.mem_of_ne_of_mem hij hi)
        simp only [bind, Except.bind, this]
  refine ⟨?_, ?_⟩
  · unfold Poly.predict; rw [key]; rfl
  · unfold Poly.errors; rw [key]; rfl


private theorem fitter_err (polyfit : List (E × E) → Nat → List E) (m : Poly E) (p : List E) (i : Nat)
    (h : i < m.size) :
    (m.fitter polyfit).err p i = |polyval p (m.xy.getD i (0, 0)).1 - (m.xy.getD i (0, 0)).2| := by
  have := (polynomial_model polyfit m p [i] (by simpa using h)).2.1
  unfold Poly.fitter
  simp only [this, List.map_cons, List.map_nil]

private theorem fitter_fit (polyfit : List (E × E) → Nat → List E) (m : Poly E) (index : List Nat)
    (h : ∀ i ∈ index, i < m.size) (hne : index ≠ []) :
    (m.fitter polyfit).fit index = .ok (some (polyfit (index.map fun i => m.xy.getD i (0, 0)) m.deg)) := by
  have := (polynomial_model polyfit m [] index h).2.2.1 hne
  unfold Poly.fitter
  simp only [this, Except.map]

/-! ### With ransac -/

/-- The polynomial passes through a point of the model. -/
def Through (m : Poly E) (p : List E) (i : Nat) : Prop := polyval p (m.xy.getD i (0, 0)).1 = (m.xy.getD i (0, 0)).2

private theorem length_of_lists (enum : Finset Nat → List Nat) (he : Lists enum) (s : Finset Nat) :
    (enum s).length = s.card := by
  have e : s = (enum s).toFinset := by ext i; rw [List.mem_toFinset, (he s).2]
  conv_rhs => rw [e]
  rw [List.toFinset_card_of_nodup (he s).1]

private theorem fit_is (polyfit : List (E × E) → Nat → List E) (hp : LeastSquares polyfit) (m : Poly E)
    (q : List E) (hq : q.length = m.deg + 1) (I : Finset Nat) (hI : ∀ i ∈ I, i < m.size ∧ Through m q i)
    (hx : ∀ i ∈ I, ∀ j ∈ I, (m.xy.getD i (0, 0)).1 = (m.xy.getD j (0, 0)).1 → i = j)
    (idx : List Nat) (hn : idx.Nodup) (hi : ∀ i ∈ idx, i ∈ I) (hl : m.deg < idx.length) :
    (m.fitter polyfit).fit idx = .ok (some q) := by
  have hne : idx ≠ [] := by rintro rfl; simp at hl
  rw [fitter_fit polyfit m idx (fun i h => (hI i (hi i h)).1) hne]
  congr 2
  refine (polyfit_exact polyfit hp _ m.deg (by simpa using hne) q hq ?_).2 ?_
  · intro t ht
    obtain ⟨i, hm, rfl⟩ := List.mem_map.1 ht
    exact (hI i (hi i hm)).2
  · rw [List.map_map, List.toFinset_card_of_nodup, List.length_map]
    · exact hl
    · refine hn.map_on ?_
      intro i hii j hj h
      exact hx i (hi i hii) j (hi j hj) h

/-- C102. Let the points with index in `I` lie on a polynomial `q` of the degree, at distinct abscissae, and let every
other point be further than `max_error` from it. If some sample consists of such points, is larger than the degree, and
leaves more than `min_inliers` of them, and no other polynomial passes through more than `n + min_inliers` points, then
`ransac` returns exactly `q` and `I`, whatever the points off the polynomial are and whatever else is sampled. -/
theorem ransac_polynomial (polyfit : List (E × E) → Nat → List E) (hp : LeastSquares polyfit) (m : Poly E) (n : Nat)
    (maxError : E) (minInliers : ℤ) (iterations cap : Nat) (enum : Finset Nat → List Nat) (he : Lists enum)
    (draws : List (List Nat)) (hd : ∀ d ∈ draws, IsShuffle m.size d)
    (q : List E) (hq : q.length = m.deg + 1) (I : Finset Nat) (hI : ∀ i ∈ I, i < m.size ∧ Through m q i)
    (hx : ∀ i ∈ I, ∀ j ∈ I, (m.xy.getD i (0, 0)).1 = (m.xy.getD j (0, 0)).1 → i = j)
    (hout : ∀ i < m.size, i ∉ I → maxError < |polyval q (m.xy.getD i (0, 0)).1 - (m.xy.getD i (0, 0)).2|)
    (hpos : 0 < maxError) (hn : m.deg < n) (hmin : (n : ℤ) + minInliers < I.card)
    (hother : ∀ p : List E, p.length = m.deg + 1 → p ≠ q → ∀ J : Finset Nat,
      (∀ i ∈ J, i < m.size ∧ Through m p i) → (J.card : ℤ) ≤ n + minInliers)
    (ss : List (Finset Nat)) (hss : samples n m.size iterations cap draws = .ok ss) (s : Finset Nat) (hs : s ∈ ss)
    (hsI : s ⊆ I) :
    ransac (m.fitter polyfit) n maxError minInliers iterations cap enum draws = .ok (q, I.sort (· ≤ ·)) := by
  have hsize : (m.fitter polyfit).size = m.size := rfl
  obtain ⟨_, hdist, _⟩ := ransac_samples_distinct n m.size iterations cap draws hd ss hss
  have hsc := (hdist s hs).1
  have herr : ∀ p i, i < m.size → ((m.fitter polyfit).err p i = 0 ↔ Through m p i) := by
    intro p i hi
    rw [fitter_err polyfit m p i hi, abs_eq_zero, sub_eq_zero]
    rfl
  have hnn : ∀ p i, i < m.size → 0 ≤ (m.fitter polyfit).err p i := by
    intro p i hi
    rw [fitter_err polyfit m p i hi]; exact abs_nonneg _
  -- the sample has a consensus with mean error zero
  have hinl : ∀ i, i ∈ (I \ s).sort (· ≤ ·) ↔ i < m.size ∧ i ∉ s ∧ (m.fitter polyfit).err q i < maxError := by
    intro i
    rw [Finset.mem_sort, Finset.mem_sdiff]
    constructor
    · rintro ⟨h1, h2⟩
      refine ⟨(hI i h1).1, h2, ?_⟩
      rw [(herr q i (hI i h1).1).2 (hI i h1).2]; exact hpos
    · rintro ⟨h1, h2, h3⟩
      refine ⟨?_, h2⟩
      by_contra hc
      have := hout i h1 hc
      rw [fitter_err polyfit m q i h1] at h3
      exact absurd this (not_lt.2 h3.le)
  have hmemI : ∀ i ∈ enum s ++ (I \ s).sort (· ≤ ·), i ∈ I := by
    intro i hi
    rcases List.mem_append.1 hi with h | h
    · exact hsI ((he s).2 i |>.1 h)
    · exact (Finset.mem_sdiff.1 ((Finset.mem_sort _).1 h)).1
  have hcard : ((I \ s).card : ℤ) = I.card - n := by
    have h1 := Finset.card_sdiff_add_card_eq_card hsI
    rw [hsc] at h1
    omega
  have hcons : Consensus (m.fitter polyfit) maxError minInliers enum s q 0 := by
    refine ⟨q, (I \ s).sort (· ≤ ·), ?_, ?_, ?_, ?_, ?_, ?_, ?_⟩
    · refine fit_is polyfit hp m q hq I hI hx _ (he s).1 (fun i hi => hsI ((he s).2 i |>.1 hi)) ?_
      rw [length_of_lists enum he, hsc]; exact hn
    · exact (Finset.sortedLT_sort _).pairwise
    · intro i; rw [hsize]; exact hinl i
    · rw [Finset.length_sort, hcard]; omega
    · intro h
      have := congrArg List.length h
      rw [List.length_append, length_of_lists enum he, hsc, List.length_nil] at this
      omega
    · refine fit_is polyfit hp m q hq I hI hx _ ?_ hmemI ?_
      · rw [List.nodup_append]
        refine ⟨(he s).1, Finset.sort_nodup _ _, ?_⟩
        rintro i h1 j h2 rfl
        exact (Finset.mem_sdiff.1 ((Finset.mem_sort _).1 h2)).2 ((he s).2 i |>.1 h1)
      · rw [List.length_append, length_of_lists enum he, hsc]; omega
    · have : ((enum s ++ (I \ s).sort (· ≤ ·)).map ((m.fitter polyfit).err q)).sum = 0 := by
        apply List.sum_eq_zero
        intro e hee
        obtain ⟨i, hi, rfl⟩ := List.mem_map.1 hee
        exact (herr q i (hI i (hmemI i hi)).1).2 (hI i (hmemI i hi)).2
      rw [this, zero_div]
  -- so ransac returns
  have hfit : ∀ idx : List Nat, (∀ i ∈ idx, i < (m.fitter polyfit).size) → n ≤ idx.length →
      ∃ o, (m.fitter polyfit).fit idx = .ok o := by
    intro idx hi hl
    have hne : idx ≠ [] := by rintro rfl; simp at hl; omega
    exact ⟨_, fitter_fit polyfit m idx hi hne⟩
  have hr := ransac_raises_iff (m.fitter polyfit) n maxError minInliers iterations cap enum he draws hd hfit
  cases hres : ransac (m.fitter polyfit) n maxError minInliers iterations cap enum draws with
  | error er =>
    have he1 := hr.2 er hres
    subst he1
    rcases hr.1.1 hres with h | ⟨ss', h1, h2⟩
    · rw [hsize] at h
      unfold samples at hss
      rw [if_pos h] at hss
      cases hss
    · rw [hsize, hss] at h1
      cases h1
      exact absurd hcons (h2 s hs q 0)
  | ok r =>
    obtain ⟨p, inl⟩ := r
    obtain ⟨ss', h1, ⟨pre, s', post, e, h2, h3, h4, h5⟩, h6, h7⟩ :=
      ransac_spec (m.fitter polyfit) n maxError minInliers iterations cap enum he draws p inl hres
    rw [hsize, hss] at h1
    cases h1
    -- the error of the result is zero
    obtain ⟨q', inl', g1, g2, g3, g4, g5, g6, g7⟩ := h3
    have hs'ss : s' ∈ ss := by rw [h2]; simp
    have hlt : ∀ i ∈ enum s' ++ inl', i < m.size := by
      intro i hi
      rcases List.mem_append.1 hi with h | h
      · exact (hdist s' hs'ss).2 i ((he s').2 i |>.1 h)
      · exact ((g3 i).1 h).1
    have hnd : (enum s' ++ inl').Nodup := by
      rw [List.nodup_append]
      refine ⟨(he s').1, g2.imp (fun h => Nat.ne_of_lt h), ?_⟩
      rintro i a1 j a2 rfl
      exact ((g3 i).1 a2).2.1 ((he s').2 i |>.1 a1)
    have hsum : 0 ≤ ((enum s' ++ inl').map ((m.fitter polyfit).err p)).sum := by
      apply List.sum_nonneg
      intro x hxm
      obtain ⟨i, hi, rfl⟩ := List.mem_map.1 hxm
      exact hnn p i (hlt i hi)
    have hlen : (0 : E) < ((enum s' ++ inl').length : E) := by
      have : 0 < (enum s' ++ inl').length := List.length_pos_iff.2 g5
      exact_mod_cast this
    have he0 : e ≤ 0 := by
      rw [h2] at hs
      rcases List.mem_append.1 hs with h | h
      · exact (h4 s h q 0 hcons).le
      · rcases List.mem_cons.1 h with h | h
        · subst h
          -- the same sample
          have hq' : q' = q := by
            have := fit_is polyfit hp m q hq I hI hx _ (he s).1 (fun i hi => hsI ((he s).2 i |>.1 hi))
              (by rw [length_of_lists enum he, hsc]; exact hn)
            rw [g1] at this
            exact Option.some.inj (Except.ok.inj this)
          subst hq'
          have hI' : ∀ i ∈ enum s ++ inl', i ∈ I := by
            intro i hi
            rcases List.mem_append.1 hi with h | h
            · exact hsI ((he s).2 i |>.1 h)
            · have := (hinl i).2 ((g3 i).1 h)
              exact (Finset.mem_sdiff.1 ((Finset.mem_sort _).1 this)).1
          have hpq : p = q' := by
            have := fit_is polyfit hp m q' hq I hI hx _ hnd hI'
              (by rw [List.length_append, length_of_lists enum he, hsc]; omega)
            rw [g6] at this
            exact Option.some.inj (Except.ok.inj this)
          subst hpq
          rw [g7, List.sum_eq_zero, zero_div]
          intro x hxm
          obtain ⟨i, hi, rfl⟩ := List.mem_map.1 hxm
          exact (herr p i (hlt i hi)).2 (hI i (hI' i hi)).2
        · exact h5 s h q 0 hcons
    have hsum0 : ((enum s' ++ inl').map ((m.fitter polyfit).err p)).sum = 0 := by
      rw [g7] at he0
      refine le_antisymm ?_ hsum
      by_contra hc
      exact absurd (div_pos (not_le.1 hc) hlen) (not_lt.2 he0)
    have hthru : ∀ i ∈ enum s' ++ inl', Through m p i := by
      intro i hi
      refine (herr p i (hlt i hi)).1 ?_
      by_contra hc
      have hgt : 0 < (m.fitter polyfit).err p i := lt_of_le_of_ne (hnn p i (hlt i hi)) (Ne.symm hc)
      have hle := List.single_le_sum (l := (enum s' ++ inl').map ((m.fitter polyfit).err p))
        (by
          intro x hxm
          obtain ⟨j, hj, rfl⟩ := List.mem_map.1 hxm
          exact hnn p j (hlt j hj)) _ (List.mem_map_of_mem hi)
      rw [hsum0] at hle
      exact absurd hgt (not_lt.2 hle)
    have hplen : p.length = m.deg + 1 := by
      rw [fitter_fit polyfit m _ hlt g5] at g6
      have := Option.some.inj (Except.ok.inj g6)
      rw [← this]
      exact (hp _ _ (by simpa using g5)).1
    have hpq : p = q := by
      by_contra hc
      have := hother p hplen hc (enum s' ++ inl').toFinset
        (fun i hi => ⟨hlt i (List.mem_toFinset.1 hi), hthru i (List.mem_toFinset.1 hi)⟩)
      rw [List.toFinset_card_of_nodup hnd, List.length_append, length_of_lists enum he,
        (hdist s' hs'ss).1] at this
      push_cast at this
      omega
    subst hpq
    congr 2
    refine List.Perm.eq_of_pairwise (le := (· < ·)) (fun a b _ _ h1 h2 => absurd h1 (Nat.lt_asymm h2)) h6
      (Finset.sortedLT_sort _).pairwise ?_
    refine (List.perm_ext_iff_of_nodup (h6.imp fun h => Nat.ne_of_lt h) (Finset.sort_nodup _ _)).2 ?_
    intro i
    rw [h7, Finset.mem_sort, hsize]
    constructor
    · rintro ⟨a1, a2⟩
      by_contra hc
      rw [fitter_err polyfit m p i a1] at a2
      exact absurd (hout i a1 hc) (not_lt.2 a2)
    · intro hi
      refine ⟨(hI i hi).1, ?_⟩
      rw [(herr p i (hI i hi).1).2 (hI i hi).2]
      exact hpos.le

/-- The same, when the points off the polynomial are so few that, with `deg` points on it, they are not a consensus. -/
theorem ransac_polynomial_few_outliers (polyfit : List (E × E) → Nat → List E) (hp : LeastSquares polyfit) (m : Poly E)
    (n : Nat) (maxError : E) (minInliers : ℤ) (iterations cap : Nat) (enum : Finset Nat → List Nat) (he : Lists enum)
    (draws : List (List Nat)) (hd : ∀ d ∈ draws, IsShuffle m.size d)
    (q : List E) (hq : q.length = m.deg + 1) (I : Finset Nat) (hI : ∀ i ∈ I, i < m.size ∧ Through m q i)
    (hx : ∀ i ∈ I, ∀ j ∈ I, (m.xy.getD i (0, 0)).1 = (m.xy.getD j (0, 0)).1 → i = j)
    (hout : ∀ i < m.size, i ∉ I → maxError < |polyval q (m.xy.getD i (0, 0)).1 - (m.xy.getD i (0, 0)).2|)
    (hpos : 0 < maxError) (hn : m.deg < n) (hmin : (n : ℤ) + minInliers < I.card)
    (hfew : (m.size : ℤ) - I.card + m.deg ≤ n + minInliers)
    (ss : List (Finset Nat)) (hss : samples n m.size iterations cap draws = .ok ss) (s : Finset Nat) (hs : s ∈ ss)
    (hsI : s ⊆ I) :
    ransac (m.fitter polyfit) n maxError minInliers iterations cap enum draws = .ok (q, I.sort (· ≤ ·)) := by
  refine ransac_polynomial polyfit hp m n maxError minInliers iterations cap enum he draws hd q hq I hI hx hout hpos hn
    hmin ?_ ss hss s hs hsI
  intro p hpl hpq J hJ
  have h1 : (J ∩ I).card ≤ m.deg := by
    by_contra hc
    apply hpq
    refine polyval_unique p q ((J ∩ I).image fun i => (m.xy.getD i (0, 0)).1) (by rw [hpl, hq]) ?_ ?_
    · rw [hpl, Finset.card_image_of_injOn]
      · omega
      · intro i hi j hj h
        exact hx i (Finset.mem_inter.1 hi).2 j (Finset.mem_inter.1 hj).2 h
    · intro x hxm
      obtain ⟨i, hi, rfl⟩ := Finset.mem_image.1 hxm
      rw [(hJ i (Finset.mem_inter.1 hi).1).2, (hI i (Finset.mem_inter.1 hi).2).2]
  have h2 : (J \ I).card + I.card ≤ m.size := by
    rw [← Finset.card_union_of_disjoint Finset.sdiff_disjoint]
    calc ((J \ I) ∪ I).card ≤ (Finset.range m.size).card := by
          apply Finset.card_le_card
          intro i hi
          rw [Finset.mem_range]
          rcases Finset.mem_union.1 hi with h | h
          · exact (hJ i (Finset.mem_sdiff.1 h).1).1
          · exact (hI i h).1
      _ = m.size := Finset.card_range _
  have h3 := Finset.card_inter_add_card_sdiff J I
  omega

end Glimpse.Ransac
