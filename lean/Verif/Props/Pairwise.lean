import Verif.Model.Pairwise
import Mathlib.Analysis.InnerProductSpace.PiL2
import Mathlib.Data.List.GetD

/-!
`helpers.pairwise_distance`: C119.
-/
set_option autoImplicit false
set_option linter.unusedSimpArgs false
set_option linter.unusedSectionVars false

namespace Glimpse.Pairwise

/-! ### Specification -/

/-- The points an argument stands for: each number a point on a line, each row of a matrix a point. -/
def pointsOf : Arr → List Row
  | .scalar a => [[a]]
  | .vec xs => xs.map fun a => [a]
  | .mat _ rows => rows
  | .deep => []

/-- The number of coordinates of the points (none for what is no set of points). -/
def dims : Arr → Option Nat
  | .scalar _ => some 1
  | .vec _ => some 1
  | .mat c _ => some c
  | .deep => none

/-- `D` is the table of distances: a row for every first point, in order, with a number for every second point, in order. -/
def Table (d : Row → Row → ℝ) (xs ys : List Row) (D : List (List ℝ)) : Prop :=
  D.length = xs.length ∧ (∀ row ∈ D, row.length = ys.length) ∧
    ∀ (i j : Nat) (a b : Row), xs[i]? = some a → ys[j]? = some b → (D[i]?.bind fun row => row[j]?) = some (d a b)

/-! ### Results -/

/-- It returns exactly if both are sets of points of the same number of coordinates, and raises `ValueError` otherwise. -/
theorem pairwise_returns (d : Row → Row → ℝ) (x y : Arr) :
    (Returns (pairwiseDistance d x y) ↔ ∃ n : Nat, dims x = some n ∧ dims y = some n) ∧
      (¬ Returns (pairwiseDistance d x y) → pairwiseDistance d x y = .error .valueError) := by
  cases x <;> cases y <;> simp only [pairwiseDistance, column, cdist, dims, Returns]
  all_goals
    first
    | (split
       · rename_i h; subst h; simp
       · rename_i h; simp [h]; try (intro hh; exact h hh.symm))
    | simp

/-- What it returns is the table of distances. -/
theorem pairwise_table (d : Row → Row → ℝ) (x y : Arr) (D : List (List ℝ)) (h : pairwiseDistance d x y = .ok D) :
    Table d (pointsOf x) (pointsOf y) D := by
  have hD : D = (pointsOf x).map fun a => (pointsOf y).map fun b => d a b := by
    cases x <;> cases y <;> simp only [pairwiseDistance, column, cdist, pointsOf] at h ⊢
    all_goals
      first
      | (split at h
         · exact (Except.ok.inj h).symm
         · cases h)
      | (cases h; done)
  subst hD
  refine ⟨by simp, ?_, ?_⟩
  · intro row hrow
    simp only [List.mem_map] at hrow
    obtain ⟨a, _, rfl⟩ := hrow
    simp
  · intro i j a b ha hb
    simp [List.getElem?_map, ha, hb]

/-- Swapping the arguments transposes the table, for a symmetric distance. -/
theorem pairwise_swap (d : Row → Row → ℝ) (hd : ∀ a b : Row, d a b = d b a) (x y : Arr) (D E : List (List ℝ))
    (h : pairwiseDistance d x y = .ok D) (h' : pairwiseDistance d y x = .ok E) (i j : Nat)
    (hi : i < (pointsOf x).length) (hj : j < (pointsOf y).length) :
    (D[i]?.bind fun row => row[j]?) = (E[j]?.bind fun row => row[i]?) := by
  obtain ⟨_, _, h1⟩ := pairwise_table d x y D h
  obtain ⟨_, _, h2⟩ := pairwise_table d y x E h'
  rw [h1 i j _ _ (List.getElem?_eq_getElem hi) (List.getElem?_eq_getElem hj),
    h2 j i _ _ (List.getElem?_eq_getElem hj) (List.getElem?_eq_getElem hi), hd]

/-! ### The default metric -/

/-- A row as a point of Euclidean space. -/
noncomputable def toSpace (n : Nat) (a : Row) : EuclideanSpace ℝ (Fin n) := WithLp.toLp 2 fun i => a.getD i 0

theorem sum_zipWith (f : ℝ → ℝ → ℝ) (n : Nat) : ∀ (a b : Row), a.length = n → b.length = n →
    (List.zipWith f a b).sum = ∑ i : Fin n, f (a.getD i 0) (b.getD i 0) := by
  induction n with
  | zero => intro a b ha hb; rw [List.length_eq_zero_iff.mp ha]; simp
  | succ n ih =>
    intro a b ha hb
    cases a with
    | nil => simp at ha
    | cons s a =>
      cases b with
      | nil => simp at hb
      | cons t b =>
        rw [List.zipWith_cons_cons, List.sum_cons, Fin.sum_univ_succ, ih a b (by simpa using ha) (by simpa using hb)]
        simp

/-- The default distance is that of Euclidean space. -/
theorem euclidean_eq (n : Nat) (a b : Row) (ha : a.length = n) (hb : b.length = n) :
    euclidean a b = dist (toSpace n a) (toSpace n b) := by
  rw [EuclideanSpace.dist_eq, euclidean, sqEuclidean, sum_zipWith _ n a b ha hb]
  simp [toSpace, Real.dist_eq, sq_abs]

theorem toSpace_inj (n : Nat) (a b : Row) (ha : a.length = n) (hb : b.length = n) (h : toSpace n a = toSpace n b) : a = b := by
  apply List.ext_getElem (by omega)
  intro i h1 h2
  have := congrArg (fun v : EuclideanSpace ℝ (Fin n) => v ⟨i, by omega⟩) h
  simpa [toSpace, List.getD_eq_getElem, h1, h2] using this

/-- It is a distance: never negative, zero exactly between equal points, symmetric, and no longer than a detour. -/
theorem euclidean_metric (n : Nat) (a b c : Row) (ha : a.length = n) (hb : b.length = n) (hc : c.length = n) :
    0 ≤ euclidean a b ∧ (euclidean a b = 0 ↔ a = b) ∧ euclidean a b = euclidean b a ∧
      euclidean a c ≤ euclidean a b + euclidean b c := by
  rw [euclidean_eq n a b ha hb, euclidean_eq n b a hb ha, euclidean_eq n a c ha hc, euclidean_eq n b c hb hc]
  refine ⟨dist_nonneg, ?_, dist_comm _ _, dist_triangle _ _ _⟩
  rw [dist_eq_zero]
  exact ⟨toSpace_inj n a b ha hb, fun h => by rw [h]⟩

/-- Its square is the sum of the squared differences of the coordinates (`metric='sqeuclidean'`). -/
theorem euclidean_sq (a b : Row) : euclidean a b ^ 2 = sqEuclidean a b := by
  rw [euclidean, Real.sq_sqrt]
  apply List.sum_nonneg
  intro v hv
  rw [← List.map_uncurry_zip_eq_zipWith, List.mem_map] at hv
  obtain ⟨p, _, rfl⟩ := hv
  exact sq_nonneg _

/-- Between numbers it is the absolute difference, as is the city block distance. -/
theorem pairwise_numbers (xs ys : List ℝ) :
    pairwiseDistance euclidean (.vec xs) (.vec ys) = .ok (xs.map fun a => ys.map fun b => |a - b|) ∧
      pairwiseDistance cityblock (.vec xs) (.vec ys) = .ok (xs.map fun a => ys.map fun b => |a - b|) := by
  constructor <;>
    simp [pairwiseDistance, column, cdist, euclidean, sqEuclidean, cityblock, Function.comp_def, Real.sqrt_sq_eq_abs]

/-- In the table of distances between points: what is on it is a distance, zero exactly where the points are equal, and no longer than
by a third point. -/
theorem pairwise_euclidean (x y z : Arr) (hx : x.Ok) (hy : y.Ok) (hz : z.Ok) (D E F : List (List ℝ))
    (hD : pairwiseDistance euclidean x y = .ok D) (hE : pairwiseDistance euclidean y z = .ok E)
    (hF : pairwiseDistance euclidean x z = .ok F) (i j k : Nat) (a b c : Row)
    (ha : (pointsOf x)[i]? = some a) (hb : (pointsOf y)[j]? = some b) (hc : (pointsOf z)[k]? = some c) :
    ∃ u v w : ℝ, (D[i]?.bind fun row => row[j]?) = some u ∧ (E[j]?.bind fun row => row[k]?) = some v ∧
      (F[i]?.bind fun row => row[k]?) = some w ∧ 0 ≤ u ∧ (u = 0 ↔ a = b) ∧ w ≤ u + v := by
  have len : ∀ (t : Arr) (n m : Nat) (r : Row), t.Ok → dims t = some n → (pointsOf t)[m]? = some r → r.length = n := by
    intro t n m r ht hn hr
    have hmem := List.mem_of_getElem? hr
    cases t <;> simp [dims, pointsOf, Arr.Ok] at hn hmem ht
    · subst hn; subst hmem; rfl
    · subst hn; obtain ⟨s, _, rfl⟩ := hmem; rfl
    · subst hn; exact ht r hmem
  obtain ⟨n, hnx, hny⟩ := (pairwise_returns euclidean x y).1.mp ⟨D, hD⟩
  obtain ⟨m, hmy, hmz⟩ := (pairwise_returns euclidean y z).1.mp ⟨E, hE⟩
  have hnm : m = n := by rw [hny] at hmy; exact (Option.some.inj hmy).symm
  subst hnm
  obtain ⟨_, _, h1⟩ := pairwise_table _ x y D hD
  obtain ⟨_, _, h2⟩ := pairwise_table _ y z E hE
  obtain ⟨_, _, h3⟩ := pairwise_table _ x z F hF
  obtain ⟨e1, e2, _, e4⟩ := euclidean_metric m a b c (len x m i a hx hnx ha) (len y m j b hy hny hb) (len z m k c hz hmz hc)
  exact ⟨_, _, _, h1 i j a b ha hb, h2 j k b c hb hc, h3 i k a c ha hc, e1, e2, e4⟩

/-- Distances of datetimes are the seconds that passed between them (as the local time zone tells instants). They never raise. -/
theorem datetimes_table (offset : ℝ → ℝ) (x y : List ℝ) :
    ∃ D : List (List ℝ), pairwiseDatetimes offset x y = .ok D ∧ D.length = x.length ∧ (∀ row ∈ D, row.length = y.length) ∧
      ∀ (i j : Nat) (s t : ℝ), x[i]? = some s → y[j]? = some t →
        (D[i]?.bind fun row => row[j]?) = some |(s - t) - (offset s - offset t)| := by
  refine ⟨_, (pairwise_numbers _ _).2, by simp, ?_, ?_⟩
  · intro row hrow
    simp only [List.mem_map] at hrow
    obtain ⟨_, _, rfl⟩ := hrow
    simp
  · intro i j s t hs ht
    simp [List.getElem?_map, hs, ht, timestamp]
    congr 1; ring

/-- So where the offset of the time zone is the same, they are the differences of the readings, ... -/
theorem datetimes_constant (c : ℝ) (x y : List ℝ) :
    pairwiseDatetimes (fun _ => c) x y = .ok (x.map fun s => y.map fun t => |s - t|) := by
  rw [pairwiseDatetimes, (pairwise_numbers _ _).2]
  simp [timestamp, Function.comp_def]

/-- ... but over a change of the offset (daylight saving) they are not: readings two hours apart are one hour apart. -/
theorem datetimes_change_violated :
    pairwiseDatetimes (fun t => if t < 7200 then 3600 else 7200) [3600] [10800] = .ok [[3600]] := by
  rw [pairwiseDatetimes, (pairwise_numbers _ _).2]
  norm_num [timestamp]

/-- The example of the documentation (helpers.py:1066-1071). -/
theorem pairwise_example :
    pairwiseDistance sqEuclidean (.mat 2 [[0, 0], [1, 1], [2, 2]]) (.mat 2 [[0, 1], [1, 2]]) = .ok [[1, 5], [1, 1], [5, 1]] := by
  simp [pairwiseDistance, column, cdist, sqEuclidean]; norm_num

/-- No points (an empty list) have no distances to points on a line, but raise an error with points of the plane. -/
theorem pairwise_empty_violated :
    pairwiseDistance euclidean (.vec []) (.vec [1, 2]) = .ok [] ∧
      pairwiseDistance euclidean (.vec []) (.mat 2 [[0, 1], [1, 2]]) = .error .valueError := by
  constructor <;> simp [pairwiseDistance, column, cdist]

end Glimpse.Pairwise
