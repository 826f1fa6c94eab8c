import Verif.Model.DetectKp
import Mathlib.Data.Rat.Floor
import Mathlib.Tactic.Linarith
import Mathlib.Tactic.FieldSimp

/-!
`optimize.detect_keypoints`: C121.
-/
set_option autoImplicit false
set_option linter.unusedSimpArgs false
set_option linter.unusedSectionVars false

namespace Glimpse.DetectKp

/-! ### Specification -/

/-- Inner product of two descriptors. -/
noncomputable def inner (a b : List ℝ) : ℝ := (List.zipWith (· * ·) a b).sum

/-- The kernel the square roots are for: the sum of the geometric means of the values, each divided by the sum of its row. -/
noncomputable def hellinger (a b : List ℝ) : ℝ :=
  (List.zipWith (fun s t => Real.sqrt ((s / (a.sum + 1e-7)) * (t / (b.sum + 1e-7)))) a b).sum

/-- A row of an image of eight bits. -/
def Bytes (a : List (List ℚ)) (b : List (List Nat)) : Prop := a = b.map (List.map fun (n : Nat) => (n : ℚ)) ∧ ∀ row ∈ b, ∀ n ∈ row, n < 256

/-! ### What the detector sees -/

theorem toUint8_nat (n : Nat) (h : n < 256) : toUint8 (n : ℚ) = n := by
  have h0 : ¬ ((n : ℚ) < 0) := by have : (0 : ℚ) ≤ n := Nat.cast_nonneg n; linarith
  have h1 : ⌊(n : ℚ)⌋ = (n : ℤ) := Int.floor_natCast n
  unfold toUint8
  rw [if_neg h0, h1]
  omega

theorem cast_bytes (a : List (List ℚ)) (b : List (List Nat)) (h : Bytes a b) : cast a = b := by
  obtain ⟨rfl, hb⟩ := h
  unfold cast
  rw [List.map_map]
  conv_rhs => rw [← List.map_id b]
  apply List.map_congr_left
  intro row hrow
  simp only [Function.comp_apply, List.map_map, id]
  conv_rhs => rw [← List.map_id row]
  apply List.map_congr_left
  intro n hn
  exact toUint8_nat n (hb row hrow n hn)

/-- C121: an image (and mask) of eight bits reaches the detector as it is; the keypoints are the detector's, and so are the descriptors
without `root`. -/
theorem detect_bytes {K : Type} (detect : Detect K) (a m : List (List ℚ)) (b n : List (List Nat)) (ha : Bytes a b) (hm : Bytes m n)
    (root : Bool) :
    (detectKeypoints detect a none root).1 = (detect b none).1 ∧ (detectKeypoints detect a (some m) root).1 = (detect b (some n)).1 ∧
      (detectKeypoints detect a none false).2 = (detect b none).2 ∧
      (detectKeypoints detect a (some m) false).2 = (detect b (some n)).2 := by
  simp [detectKeypoints, cast_bytes a b ha, cast_bytes m n hm, rooted]

/-- C121 is false of other images: one with all values between 0 and 1 (as `helpers.normalize` may make) reaches the detector black, ... -/
theorem cast_unit_violated (a : List (List ℚ)) (h : ∀ row ∈ a, ∀ v ∈ row, -1 < v ∧ v < 1) :
    cast a = a.map fun row => row.map fun _ => 0 := by
  unfold cast
  apply List.map_congr_left
  intro row hrow
  apply List.map_congr_left
  intro v hv
  obtain ⟨h1, h2⟩ := h row hrow v hv
  have floor0 : ∀ w : ℚ, 0 ≤ w → w < 1 → ⌊w⌋ = 0 := fun w hw0 hw1 => Int.floor_eq_zero_iff.mpr ⟨hw0, hw1⟩
  unfold toUint8
  by_cases hneg : v < 0
  · rw [if_pos hneg, floor0 (-v) (by linarith) (by linarith)]; rfl
  · rw [if_neg hneg, floor0 v (by linarith) h2]; rfl

/-- ... and one of more bits wraps around, so that a mask of 256 masks everything. -/
theorem cast_wraps_violated (n k : Nat) : toUint8 ((n + 256 * k : Nat) : ℚ) = toUint8 (n : ℚ) := by
  have hf : ∀ m : Nat, toUint8 (m : ℚ) = m % 256 := by
    intro m
    have h0 : ¬ ((m : ℚ) < 0) := by have : (0 : ℚ) ≤ m := Nat.cast_nonneg m; linarith
    have h1 : ⌊(m : ℚ)⌋ = (m : ℤ) := Int.floor_natCast m
    unfold toUint8
    rw [if_neg h0, h1]
    omega
  rw [hf, hf]; omega

/-! ### Root descriptors -/

/-- C121: with `root`, nothing found stays nothing found; otherwise there are as many descriptors, each as long, and the `j`-th value of a
descriptor is the root of its part of the sum of the descriptor (plus `1e-7`). -/
theorem root_values {K : Type} (detect : Detect K) (a : List (List ℚ)) (m : Option (List (List ℚ))) :
    ((detect (cast a) (m.map cast)).2 = none → (detectKeypoints detect a m true).2 = none) ∧
      ∀ ds : List (List ℝ), (detect (cast a) (m.map cast)).2 = some ds → ∃ rs : List (List ℝ),
        (detectKeypoints detect a m true).2 = some rs ∧ rs.length = ds.length ∧
        ∀ (i : Nat) (d : List ℝ), ds[i]? = some d → ∃ r : List ℝ, rs[i]? = some r ∧ r.length = d.length ∧
          ∀ (j : Nat) (v : ℝ), d[j]? = some v → r[j]? = some (Real.sqrt (v / (d.sum + 1e-7))) := by
  constructor
  · intro h
    simp [detectKeypoints, rooted, h]
  · intro ds h
    refine ⟨ds.map rootRow, by simp [detectKeypoints, rooted, h], by simp, ?_⟩
    intro i d hd
    refine ⟨rootRow d, by rw [List.getElem?_map, hd]; rfl, by simp [rootRow], ?_⟩
    intro j v hv
    rw [rootRow, List.getElem?_map, hv]; rfl

theorem sum_nonneg_of (d : List ℝ) (h : ∀ v ∈ d, 0 ≤ v) : 0 < d.sum + 1e-7 := by
  have := List.sum_nonneg h
  have : (0 : ℝ) < 1e-7 := by norm_num
  linarith

theorem zipWith_self_sum (f : ℝ → ℝ → ℝ) (l : List ℝ) : (List.zipWith f l l).sum = (l.map fun v => f v v).sum := by
  induction l with
  | nil => simp
  | cons a l ih => simp [ih]

theorem map_div_sum (l : List ℝ) (c : ℝ) : (l.map fun v => v / c).sum = l.sum / c := by
  induction l with
  | nil => simp
  | cons a l ih => simp [ih, add_div]

/-- C121: the squared length of a root descriptor is the sum of the descriptor over itself plus `1e-7`: less than one, and as close to one
as the sum is large. -/
theorem root_norm (d : List ℝ) (h : ∀ v ∈ d, 0 ≤ v) :
    inner (rootRow d) (rootRow d) = d.sum / (d.sum + 1e-7) ∧ inner (rootRow d) (rootRow d) < 1 ∧
      (∀ ε : ℝ, 0 < ε → 1e-7 / ε < d.sum → 1 - ε < inner (rootRow d) (rootRow d)) := by
  have hp := sum_nonneg_of d h
  have e : inner (rootRow d) (rootRow d) = d.sum / (d.sum + 1e-7) := by
    rw [inner, zipWith_self_sum, ← map_div_sum, rootRow, List.map_map]
    congr 1
    apply List.map_congr_left
    intro v hv
    simp only [Function.comp_apply]
    exact Real.mul_self_sqrt (div_nonneg (h v hv) hp.le)
  refine ⟨e, ?_, ?_⟩
  · rw [e, div_lt_one hp]; norm_num
  · intro ε he hs
    rw [e, lt_div_iff₀ hp]
    rw [div_lt_iff₀ he] at hs
    nlinarith

/-- C121: the inner product of two root descriptors is the kernel of the descriptors (Hellinger). -/
theorem root_inner (a b : List ℝ) (ha : ∀ v ∈ a, 0 ≤ v) : inner (rootRow a) (rootRow b) = hellinger a b := by
  have hp := sum_nonneg_of a ha
  have key : ∀ (c e : ℝ), 0 < c → ∀ (x y : List ℝ), (∀ v ∈ x, 0 ≤ v) →
      (List.zipWith (· * ·) (x.map fun v => Real.sqrt (v / c)) (y.map fun v => Real.sqrt (v / e))).sum =
        (List.zipWith (fun s t => Real.sqrt ((s / c) * (t / e))) x y).sum := by
    intro c e hc x
    induction x with
    | nil => intro y _; simp
    | cons s x ih =>
      intro y hx
      cases y with
      | nil => simp
      | cons t y =>
        simp only [List.map_cons, List.zipWith_cons_cons, List.sum_cons]
        rw [ih y fun v hv => hx v (List.mem_cons_of_mem _ hv),
          Real.sqrt_mul (div_nonneg (hx s List.mem_cons_self) hc.le)]
  exact key _ _ hp a b ha

/-- The squared distance between two root descriptors is given by their lengths and the kernel, so a nearer root descriptor has a larger
kernel (up to the `1e-7` in the lengths). -/
theorem root_distance (a b : List ℝ) (hl : a.length = b.length) (ha : ∀ v ∈ a, 0 ≤ v) (hb : ∀ v ∈ b, 0 ≤ v) :
    (List.zipWith (fun s t => (s - t) ^ 2) (rootRow a) (rootRow b)).sum =
      a.sum / (a.sum + 1e-7) + b.sum / (b.sum + 1e-7) - 2 * hellinger a b := by
  rw [← (root_norm a ha).1, ← (root_norm b hb).1, ← root_inner a b ha]
  have key : ∀ x y : List ℝ, x.length = y.length →
      (List.zipWith (fun s t => (s - t) ^ 2) x y).sum = inner x x + inner y y - 2 * inner x y := by
    intro x
    induction x with
    | nil => intro y h; rw [List.length_eq_zero_iff.mp h.symm]; simp [inner]
    | cons s x ih =>
      intro y h
      cases y with
      | nil => simp at h
      | cons t y =>
        have := ih y (by simpa using h)
        simp only [inner, List.zipWith_cons_cons, List.sum_cons] at this ⊢
        rw [this]; ring
  exact key _ _ (by simp [rootRow, hl])

/-- A descriptor of zeros stays one (no division by zero). -/
theorem root_zero (n : Nat) : rootRow (List.replicate n 0) = List.replicate n 0 := by
  simp [rootRow]

/-- A black image, a mask and a descriptor that meet the assumptions. -/
example : Bytes [[3, 0], [255, 7]] [[3, 0], [255, 7]] := ⟨by simp, by simp⟩
example : ∀ v ∈ [(1 : ℝ), 3, 0], 0 ≤ v := by simp

end Glimpse.DetectKp
