import Verif.Model.Rasterize
import Verif.Lemmas.ExceptList
import Mathlib.Tactic.Linarith
import Mathlib.Tactic.Ring
import Mathlib.Tactic.NormNum
import Mathlib.Algebra.BigOperators.Group.List.Basic

/-!
C10: `rasterize_points`.
-/
set_option autoImplicit false
set_option linter.unusedSimpArgs false

namespace Glimpse

/-- Spec: the values of the points that fall in cell `(r, c)`. -/
def cellValues (pts : List RPoint) (r c : Nat) : List ℚ :=
  (pts.filter fun p => p.row = (r : ℤ) ∧ p.col = (c : ℤ)).map (·.value)

/-- Spec: arithmetic mean. -/
def meanOf (l : List ℚ) : ℚ := l.sum / l.length

/-- Spec: the point is inside an array of the given shape. -/
def InShape (nrows ncols : Nat) (p : RPoint) : Prop := 0 ≤ p.row ∧ p.row < nrows ∧ 0 ≤ p.col ∧ p.col < ncols

/-! ### Helper lemmas -/

private def flatOf (ncols : Nat) (p : RPoint) : Nat := p.row.toNat * ncols + p.col.toNat

private theorem ravel_ok (nrows ncols : Nat) (pts : List RPoint) (h : ∀ p ∈ pts, InShape nrows ncols p) :
    pts.mapM (fun p => ravelIndex nrows ncols p.row p.col) = .ok (pts.map (flatOf ncols)) := by
  apply mapM_ok
  intro p hp
  unfold ravelIndex
  rw [if_pos (by exact h p hp)]; rfl

private theorem uniqueNat_spec (l : List Nat) : (uniqueNat l).Nodup ∧ ∀ i, i ∈ uniqueNat l ↔ i ∈ l := by
  unfold uniqueNat
  refine ⟨(List.perm_insertionSort _ _).nodup_iff.mpr (List.nodup_dedup l), fun i => ?_⟩
  rw [(List.perm_insertionSort (· ≤ ·) l.dedup).mem_iff, List.mem_dedup]

private theorem zip_filter_sum (l : List RPoint) (f : RPoint → Nat) (w : RPoint → ℚ) (k : Nat) :
    ((((l.map f).zip (l.map w)).filter (fun p => decide (p.1 = k))).map (·.2)).sum =
      ((l.filter (fun p => decide (f p = k))).map w).sum := by
  induction l with
  | nil => simp
  | cons p l ih =>
    simp only [List.map_cons, List.zip_cons_cons, List.filter_cons]
    by_cases hk : f p = k
    · simp [hk, ih]
    · simp [hk, ih]

theorem setFlat_get {α : Type} (a : List α) (pairs : List (Nat × α)) (hn : (pairs.map (·.1)).Nodup) :
    (pairs.foldl (fun a p => a.set p.1 p.2) a).length = a.length ∧
    (∀ i v, (i, v) ∈ pairs → i < a.length → (pairs.foldl (fun a p => a.set p.1 p.2) a)[i]? = some v) ∧
    (∀ i, i ∉ pairs.map (·.1) → (pairs.foldl (fun a p => a.set p.1 p.2) a)[i]? = a[i]?) := by
  induction pairs generalizing a with
  | nil => simp
  | cons p pairs ih =>
    simp only [List.map_cons, List.nodup_cons] at hn
    obtain ⟨h1, h2, h3⟩ := ih (a.set p.1 p.2) hn.2
    simp only [List.foldl_cons]
    refine ⟨by rw [h1]; simp, ?_, ?_⟩
    · intro i v hiv hi
      rcases List.mem_cons.mp hiv with rfl | hiv
      · rw [h3 _ hn.1]; simp [hi]
      · exact h2 i v hiv (by simpa using hi)
    · intro i hi
      simp only [List.map_cons, List.mem_cons, not_or] at hi
      rw [h3 i hi.2, List.getElem?_set, if_neg (fun e => hi.1 e.symm)]

private theorem zip_map_self {α β : Type} (l : List α) (g : α → β) : l.zip (l.map g) = l.map fun i => (i, g i) := by
  induction l with
  | nil => rfl
  | cons a l ih => simp [ih]

private theorem flat_inj (ncols : Nat) (r c r' c' : Nat) (hc : c < ncols) (hc' : c' < ncols)
    (h : r * ncols + c = r' * ncols + c') : r = r' ∧ c = c' := by
  have hr : r = r' := by
    by_contra hne
    rcases Nat.lt_or_gt_of_ne hne with h1 | h1
    · have := Nat.mul_le_mul_right ncols (show r + 1 ≤ r' from h1)
      rw [Nat.add_mul] at this; omega
    · have := Nat.mul_le_mul_right ncols (show r' + 1 ≤ r from h1)
      rw [Nat.add_mul] at this; omega
  subst hr
  exact ⟨rfl, by omega⟩

/-- Closed form of the returned means: one per distinct flat index. -/
private theorem rasterize_form (pts : List RPoint) (nrows ncols : Nat) (h : ∀ p ∈ pts, InShape nrows ncols p) :
    rasterizePoints pts nrows ncols = .ok (uniqueNat (pts.map (flatOf ncols)),
      (uniqueNat (pts.map (flatOf ncols))).map fun i =>
        meanOf ((pts.filter (fun p => decide (flatOf ncols p = i))).map (·.value))) := by
  unfold rasterizePoints
  simp only [ravel_ok nrows ncols pts h, bind, Except.bind, pure, Except.pure]
  congr 2
  set u := uniqueNat (pts.map (flatOf ncols)) with hu
  obtain ⟨hnd, hmem⟩ := uniqueNat_spec (pts.map (flatOf ncols))
  rw [← hu] at hnd hmem
  simp only [bincount, List.map_map]
  apply List.ext_getElem
  · simp
  · intro k h1 h2
    simp only [List.getElem_zipWith, List.getElem_map, List.getElem_range]
    have hk : k < u.length := by simpa using h2
    have e1 := zip_filter_sum pts ((fun i => u.idxOf i) ∘ flatOf ncols) (·.value) k
    have e2 := zip_filter_sum pts ((fun i => u.idxOf i) ∘ flatOf ncols) (fun _ => (1 : ℚ)) k
    have hfil : pts.filter (fun p => decide (((fun i => u.idxOf i) ∘ flatOf ncols) p = k)) =
        pts.filter (fun p => decide (flatOf ncols p = u[k])) := by
      apply List.filter_congr
      intro p hp
      have hpm : flatOf ncols p ∈ u := (hmem _).mpr (List.mem_map.mpr ⟨p, hp, rfl⟩)
      simp only [Function.comp, decide_eq_decide]
      constructor
      · intro e
        have hlt := List.idxOf_lt_length_iff.mpr hpm
        have := List.getElem_idxOf hlt
        simp only [e] at this
        exact this.symm
      · intro e
        rw [e]
        exact hnd.idxOf_getElem k hk
    have hcomp : ((fun (_ : Nat) => (1 : ℚ)) ∘ (fun i => u.idxOf i) ∘ flatOf ncols) = (fun _ => (1 : ℚ)) := rfl
    rw [hcomp, e1, e2, hfil]
    have hfin : ∀ l : List RPoint, (l.map (·.value)).sum * (1 / (l.map fun _ => (1 : ℚ)).sum) = meanOf (l.map (·.value)) := by
      intro l
      unfold meanOf
      rw [List.length_map, mul_one_div, List.map_const', List.sum_replicate]
      simp
    exact hfin _

private theorem cellValues_flat (pts : List RPoint) (nrows ncols r c : Nat) (hc : c < ncols)
    (h : ∀ p ∈ pts, InShape nrows ncols p) :
    (pts.filter (fun p => decide (flatOf ncols p = r * ncols + c))).map (·.value) = cellValues pts r c := by
  unfold cellValues
  congr 1
  apply List.filter_congr
  intro p hp
  obtain ⟨h1, h2, h3, h4⟩ := h p hp
  rw [decide_eq_decide]
  unfold flatOf
  constructor
  · intro e
    obtain ⟨a, b⟩ := flat_inj ncols _ _ _ _ (by omega) hc e
    omega
  · rintro ⟨a, b⟩
    rw [a, b]; simp

/-! ### Property theorems -/

/-- C10 (in place). If every point is inside the array, then afterwards each cell that received points holds the mean
of exactly the values of its points, and every other cell is unchanged. -/
theorem rasterize_into_cells (pts : List RPoint) (nrows ncols : Nat) (a : List ℚ) (ha : a.length = nrows * ncols)
    (h : ∀ p ∈ pts, InShape nrows ncols p) :
    ∃ a', rasterizeInto pts nrows ncols a = .ok a' ∧ a'.length = a.length ∧
      ∀ r c, r < nrows → c < ncols →
        a'[r * ncols + c]? = if cellValues pts r c = [] then a[r * ncols + c]? else some (meanOf (cellValues pts r c)) := by
  have hform := rasterize_form pts nrows ncols h
  obtain ⟨hnd, hmem⟩ := uniqueNat_spec (pts.map (flatOf ncols))
  set u := uniqueNat (pts.map (flatOf ncols)) with hu
  set g : Nat → ℚ := fun i => meanOf ((pts.filter (fun p => decide (flatOf ncols p = i))).map (·.value)) with hg
  have hzip : u.zip (u.map g) = u.map fun i => (i, g i) := by
    exact zip_map_self u g
  have hfst : (u.map fun i => (i, g i)).map (·.1) = u := by simp [Function.comp_def]
  obtain ⟨s1, s2, s3⟩ := setFlat_get a (u.map fun i => (i, g i)) (by rw [hfst]; exact hnd)
  refine ⟨setFlat a u (u.map g), ?_, ?_, ?_⟩
  · unfold rasterizeInto
    simp only [hform, bind, Except.bind, pure, Except.pure]
  · unfold setFlat; rw [hzip, s1]
  · intro r c hr hc
    unfold setFlat
    rw [hzip]
    have hcv := cellValues_flat pts nrows ncols r c hc h
    have hlt : r * ncols + c < a.length := by
      rw [ha]
      have := Nat.mul_le_mul_right ncols (show r + 1 ≤ nrows from hr)
      rw [Nat.add_mul] at this; omega
    by_cases he : cellValues pts r c = []
    · rw [if_pos he, s3]
      rw [hfst, hmem]
      intro hin
      obtain ⟨p, hp, e⟩ := List.mem_map.mp hin
      rw [← hcv] at he
      have : p ∈ pts.filter (fun p => decide (flatOf ncols p = r * ncols + c)) := by
        rw [List.mem_filter]; exact ⟨hp, by simpa using e⟩
      rw [List.map_eq_nil_iff] at he
      rw [he] at this; cases this
    · rw [if_neg he]
      have hin : r * ncols + c ∈ u := by
        rw [hmem]
        rw [← hcv] at he
        obtain ⟨v, hv⟩ := List.exists_mem_of_ne_nil _ he
        obtain ⟨p, hp, _⟩ := List.mem_map.mp hv
        rw [List.mem_filter] at hp
        exact List.mem_map.mpr ⟨p, hp.1, by simpa using hp.2⟩
      have := s2 (r * ncols + c) (g (r * ncols + c)) (List.mem_map.mpr ⟨_, hin, rfl⟩) hlt
      rw [this, hg]
      simp only [hcv]

/-- C10 (returned values). With `shape` instead of an array, the returned indices are the occupied cells without
repetition in ascending order, each with the mean of its values. -/
theorem rasterize_points_pairs (pts : List RPoint) (nrows ncols : Nat) (h : ∀ p ∈ pts, InShape nrows ncols p) :
    ∃ uidx means, rasterizePoints pts nrows ncols = .ok (uidx, means) ∧ means.length = uidx.length ∧
      uidx.Pairwise (· < ·) ∧
      ∀ r c, r < nrows → c < ncols → ∀ m, (r * ncols + c, m) ∈ uidx.zip means ↔
        cellValues pts r c ≠ [] ∧ m = meanOf (cellValues pts r c) := by
  obtain ⟨hnd, hmem⟩ := uniqueNat_spec (pts.map (flatOf ncols))
  refine ⟨_, _, rasterize_form pts nrows ncols h, by simp, ?_, ?_⟩
  · have hs : (uniqueNat (pts.map (flatOf ncols))).Pairwise (· ≤ ·) := by
      unfold uniqueNat; exact List.pairwise_insertionSort _ _
    exact (hs.and hnd).imp (fun h => lt_of_le_of_ne h.1 h.2)
  · intro r c hr hc m
    have hcv := cellValues_flat pts nrows ncols r c hc h
    rw [zip_map_self, List.mem_map]
    constructor
    · rintro ⟨i, hi, e⟩
      simp only [Prod.mk.injEq] at e
      obtain ⟨rfl, rfl⟩ := e
      rw [hmem] at hi
      obtain ⟨p, hp, e⟩ := List.mem_map.mp hi
      refine ⟨?_, by rw [hcv]⟩
      rw [← hcv]
      intro hnil
      rw [List.map_eq_nil_iff] at hnil
      have : p ∈ pts.filter (fun p => decide (flatOf ncols p = r * ncols + c)) := by
        rw [List.mem_filter]; exact ⟨hp, by simpa using e⟩
      rw [hnil] at this; cases this
    · rintro ⟨hne, rfl⟩
      rw [← hcv] at hne
      obtain ⟨v, hv⟩ := List.exists_mem_of_ne_nil _ hne
      obtain ⟨p, hp, _⟩ := List.mem_map.mp hv
      rw [List.mem_filter] at hp
      refine ⟨r * ncols + c, (hmem _).mpr (List.mem_map.mpr ⟨p, hp.1, by simpa using hp.2⟩), ?_⟩
      simp only [hcv]

/-- C10 (errors). A point outside the array makes the call raise (and the array is not modified, since the exception
precedes the assignment). -/
theorem rasterize_raises_iff (pts : List RPoint) (nrows ncols : Nat) (a : List ℚ) :
    Raises (rasterizeInto pts nrows ncols a) ↔ ∃ p ∈ pts, ¬ InShape nrows ncols p := by
  constructor
  · rintro ⟨e, he⟩
    by_contra hc
    have h : ∀ p ∈ pts, InShape nrows ncols p := by
      intro p hp
      by_contra hn
      exact hc ⟨p, hp, hn⟩
    unfold rasterizeInto at he
    simp only [rasterize_form pts nrows ncols h, bind, Except.bind, pure, Except.pure] at he
    cases he
  · rintro ⟨p, hp, hn⟩
    obtain ⟨e, he⟩ := mapM_error_of_mem (fun p : RPoint => ravelIndex nrows ncols p.row p.col) pts p hp
      ⟨.valueError, by unfold ravelIndex; rw [if_neg (by exact hn)]⟩
    refine ⟨e, ?_⟩
    unfold rasterizeInto rasterizePoints
    simp only [he, bind, Except.bind]

/-- C10 (order). Permuting the points changes nothing. -/
theorem rasterize_perm (pts pts' : List RPoint) (hp : pts.Perm pts') (nrows ncols : Nat) (a : List ℚ)
    (h : ∀ p ∈ pts, InShape nrows ncols p) :
    rasterizeInto pts nrows ncols a = rasterizeInto pts' nrows ncols a := by
  have h' : ∀ p ∈ pts', InShape nrows ncols p := fun p hp' => h p (hp.mem_iff.mpr hp')
  have hu : uniqueNat (pts.map (flatOf ncols)) = uniqueNat (pts'.map (flatOf ncols)) := by
    unfold uniqueNat
    have hperm : (pts.map (flatOf ncols)).dedup.Perm (pts'.map (flatOf ncols)).dedup := (hp.map _).dedup
    refine List.Perm.eq_of_pairwise (le := (· ≤ ·)) ?_ (List.pairwise_insertionSort _ _) (List.pairwise_insertionSort _ _)
      ((List.perm_insertionSort _ _).trans (hperm.trans (List.perm_insertionSort _ _).symm))
    intro a b _ _ h1 h2; exact le_antisymm h1 h2
  have hm : ∀ i, meanOf ((pts.filter (fun p => decide (flatOf ncols p = i))).map (·.value)) =
      meanOf ((pts'.filter (fun p => decide (flatOf ncols p = i))).map (·.value)) := by
    intro i
    have hq : ((pts.filter (fun p => decide (flatOf ncols p = i))).map (·.value)).Perm
        ((pts'.filter (fun p => decide (flatOf ncols p = i))).map (·.value)) := (hp.filter _).map _
    unfold meanOf
    rw [hq.sum_eq, hq.length_eq]
  unfold rasterizeInto
  rw [rasterize_form pts nrows ncols h, rasterize_form pts' nrows ncols h', hu]
  simp only [hm]

example : rasterizeInto [⟨0, 0, 1⟩, ⟨0, 0, 2⟩, ⟨1, 1, 3⟩] 2 2 [9, 9, 9, 9] = .ok [3/2, 9, 9, 3] := by decide +kernel
example : ∀ p ∈ [(⟨0, 0, 1⟩ : RPoint), ⟨0, 0, 2⟩, ⟨1, 1, 3⟩], InShape 2 2 p := by
  intro p hp
  simp only [List.mem_cons, List.not_mem_nil, or_false] at hp
  rcases hp with rfl | rfl | rfl <;> norm_num [InShape]

end Glimpse
