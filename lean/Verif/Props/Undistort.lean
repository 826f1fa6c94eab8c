import Verif.Model.Undistort
import Mathlib.Tactic.Linarith
import Mathlib.Tactic.FieldSimp
import Mathlib.Tactic.Ring
import Mathlib.Tactic.NormNum
import Mathlib.Tactic.Push
import Mathlib.Topology.Order.IntermediateValue
import Mathlib.Topology.Algebra.Polynomial
import Mathlib.Analysis.Convex.Topology

/-!
C84 (`_undistort` by regula falsi), C85 (by lookup table) and C86 (`Camera.reversible`).
-/
set_option autoImplicit false
set_option linter.unusedSimpArgs false
set_option linter.unusedSectionVars false

namespace Glimpse.Undistort

/-! ### Specification of regula falsi -/

/-- Residual of an approximation `u` of the undistorted coordinates of `xy`. -/
noncomputable def resid (k : Fin 6 → ℝ) (p : V2) (xy u : V2) : V2 := fun i => distort k p u i - xy i

/-- The approximations: zero, half the distorted coordinates, then each coordinate where the line through its last two
residuals is zero. -/
noncomputable def approx (k : Fin 6 → ℝ) (p : V2) (xy : V2) : Nat → V2
  | 0 => 0
  | 1 => fun i => xy i / 2
  | m + 2 => fun i =>
    let a := approx k p xy m
    let b := approx k p xy (m + 1)
    (a i * resid k p xy b i - b i * resid k p xy a i) / (resid k p xy b i - resid k p xy a i)

theorem distort_zero (k : Fin 6 → ℝ) (p : V2) : distort k p 0 = 0 := by
  funext i
  unfold distort tangentialDistortion
  split
  · rfl
  · simp only []
    split <;> split <;> fin_cases i <;> simp

/-- What is known of a point after `t` iterations. -/
private def Inv (k : Fin 6 → ℝ) (p : V2) (fmean tol : ℝ) (t : Nat) (xy : V2) : RF → Prop
  | .active x1 y1 x2 y2 => x1 = approx k p xy t ∧ y1 = resid k p xy (approx k p xy t) ∧ x2 = approx k p xy (t + 1) ∧
      y2 = resid k p xy (approx k p xy (t + 1))
  | .done u => ∃ m < t, u = approx k p xy (m + 1) ∧
      ((∃ i, resid k p xy (approx k p xy (m + 1)) i = resid k p xy (approx k p xy m) i) ∨
        (0 < tol ∧ ∀ i, |resid k p xy u i| ≤ tol / fmean))

private theorem init_inv (k : Fin 6 → ℝ) (p : V2) (fmean tol : ℝ) (xy : V2) : Inv k p fmean tol 0 xy (rfInit k p xy) := by
  unfold rfInit Inv
  refine ⟨rfl, ?_, rfl, rfl⟩
  funext i
  unfold resid approx
  rw [distort_zero]; simp

private theorem rfPoint_go (k : Fin 6 → ℝ) (p : V2) (go : Bool) (xy x1 y1 x2 y2 : V2) (h : (∀ i, y2 i - y1 i ≠ 0) ∧ go = true) :
    rfPoint k p go xy (.active x1 y1 x2 y2) =
      .active x2 y2 (falsePosition x1 y1 x2 y2) fun i => distort k p (falsePosition x1 y1 x2 y2) i - xy i := if_pos h

private theorem rfPoint_stop (k : Fin 6 → ℝ) (p : V2) (go : Bool) (xy x1 y1 x2 y2 : V2) (h : ¬((∀ i, y2 i - y1 i ≠ 0) ∧ go = true)) :
    rfPoint k p go xy (.active x1 y1 x2 y2) = .done x2 := if_neg h

private theorem point_inv (k : Fin 6 → ℝ) (p : V2) (fmean tol : ℝ) (t : Nat) (xy : V2) (s : RF) (pts : List RF) (hs : s ∈ pts)
    (h : Inv k p fmean tol t xy s) (go : Bool) (hgo : go = if 0 < tol then anyFar (tol / fmean) pts else true) :
    Inv k p fmean tol (t + 1) xy (rfPoint k p go xy s) := by
  cases s with
  | done u =>
    obtain ⟨m, hm, x⟩ := h
    exact ⟨m, by omega, x⟩
  | active x1 y1 x2 y2 =>
    obtain ⟨h1, h2, h3, h4⟩ := h
    by_cases hn : (∀ i, y2 i - y1 i ≠ 0) ∧ go = true
    · rw [rfPoint_go k p go xy x1 y1 x2 y2 hn]
      refine ⟨h3, h4, ?_, ?_⟩
      · subst h1 h2 h3 h4; rfl
      · subst h1 h2 h3 h4; rfl
    · rw [rfPoint_stop k p go xy x1 y1 x2 y2 hn]
      refine ⟨t, by omega, h3, ?_⟩
      rw [not_and_or] at hn
      rcases hn with hn | hn
      · left
        push Not at hn
        obtain ⟨i, hi⟩ := hn
        refine ⟨i, ?_⟩
        rw [h4, h2] at hi
        exact sub_eq_zero.1 hi
      · right
        rw [hgo] at hn
        split at hn
        · rename_i htol
          refine ⟨htol, fun i => ?_⟩
          rw [Bool.not_eq_true] at hn
          unfold anyFar at hn
          rw [List.any_eq_false] at hn
          have := hn _ hs
          simp only [decide_eq_true_eq, not_exists, not_lt] at this
          rw [h3, ← h4]
          exact this i
        · exact absurd rfl hn

private theorem zip_inv (k : Fin 6 → ℝ) (p : V2) (fmean tol : ℝ) (t : Nat) (all : List RF) (go : Bool)
    (hgo : go = if 0 < tol then anyFar (tol / fmean) all else true) (xys : List V2) (pts : List RF) (hsub : ∀ s ∈ pts, s ∈ all)
    (h : List.Forall₂ (Inv k p fmean tol t) xys pts) : List.Forall₂ (Inv k p fmean tol (t + 1)) xys (List.zipWith (rfPoint k p go) xys pts) := by
  induction h with
  | nil => exact .nil
  | cons h _ ih =>
    exact .cons (point_inv k p fmean tol t _ _ all (hsub _ List.mem_cons_self) h go hgo) (ih fun s hs => hsub s (List.mem_cons_of_mem _ hs))

private theorem iter_inv (k : Fin 6 → ℝ) (p : V2) (fmean tol : ℝ) (xys : List V2) (n : Nat) :
    List.Forall₂ (Inv k p fmean tol n) xys ((rfStep k p fmean tol xys)^[n] (xys.map (rfInit k p))) := by
  induction n with
  | zero =>
    simp only [Function.iterate_zero, id]
    rw [List.forall₂_map_right_iff, List.forall₂_same]
    exact fun xy _ => init_inv k p fmean tol xy
  | succ n ih =>
    rw [Function.iterate_succ_apply']
    exact zip_inv k p fmean tol n _ _ rfl xys _ (fun s hs => hs) ih

/-- C84, as far as it holds: each point gets one of the approximations; if it is not the last one, either **its residual in
one coordinate was that of the approximation before** (which the code takes for convergence) or all residuals are within the
tolerance. -/
theorem regula_falsi_partial (k : Fin 6 → ℝ) (p : V2) (fmean : ℝ) (xys : List V2) (n : Nat) (hn : 0 < n) (tol : ℝ) :
    ∃ res, regulaFalsi k p fmean xys n tol = .ok res ∧
      List.Forall₂ (fun xy u => ∃ m ≤ n, u = approx k p xy (m + 1) ∧
        (m = n ∨ (∃ i, resid k p xy (approx k p xy (m + 1)) i = resid k p xy (approx k p xy m) i) ∨
          (0 < tol ∧ ∀ i, |distort k p u i - xy i| ≤ tol / fmean))) xys res := by
  refine ⟨_, by unfold regulaFalsi; rw [if_neg hn.ne'], ?_⟩
  rw [List.forall₂_map_right_iff]
  refine (iter_inv k p fmean tol xys n).imp ?_
  intro xy s h
  cases s with
  | done u =>
    obtain ⟨m, hm, hu, x⟩ := h
    exact ⟨m, hm.le, hu, Or.inr x⟩
  | active x1 y1 x2 y2 => exact ⟨n, le_rfl, h.2.2.1, Or.inl rfl⟩

/-- An exact solution, once found, is kept. -/
theorem approx_solution (k : Fin 6 → ℝ) (p : V2) (xy : V2) (m : Nat) (h : distort k p (approx k p xy (m + 1)) = xy)
    (hne : ∀ i, distort k p (approx k p xy m) i ≠ xy i) : approx k p xy (m + 2) = approx k p xy (m + 1) := by
  funext i
  have h0 : resid k p xy (approx k p xy (m + 1)) i = 0 := by unfold resid; rw [h]; exact sub_self _
  have h1 : resid k p xy (approx k p xy m) i ≠ 0 := sub_ne_zero.2 (hne i)
  show (approx k p xy m i * resid k p xy (approx k p xy (m + 1)) i - approx k p xy (m + 1) i * resid k p xy (approx k p xy m) i) /
      (resid k p xy (approx k p xy (m + 1)) i - resid k p xy (approx k p xy m) i) = _
  rw [h0]
  field_simp
  ring

private theorem distort_axis (k : Fin 6 → ℝ) (u : V2) (i : Fin 2) (h : u i = 0) : distort k 0 u i = 0 := by
  unfold distort
  split
  · exact h
  · simp only [ne_eq, not_true, if_false]
    split
    · show u i * _ = 0
      rw [h]; simp
    · exact h

/-- C84 fails for every point on the horizontal or vertical line through the principal point, with radial distortion only:
the result is half the distorted coordinates, whatever the distortion, the number of iterations and the tolerance. -/
theorem regula_falsi_axis_violated (k : Fin 6 → ℝ) (fmean : ℝ) (xy : V2) (i : Fin 2) (h : xy i = 0) (n : Nat) (hn : 0 < n) (tol : ℝ) :
    regulaFalsi k 0 fmean [xy] n tol = .ok [fun i => xy i / 2] := by
  unfold regulaFalsi
  rw [if_neg hn.ne']
  have h1 : rfStep k 0 fmean tol [xy] [rfInit k 0 xy] = [.done fun i => xy i / 2] := by
    unfold rfStep rfInit
    simp only [List.zipWith_cons_cons, List.zipWith_nil_right]
    rw [rfPoint_stop]
    rintro ⟨h', -⟩
    apply h' i
    rw [distort_axis k _ i (by simp [h]), h]; simp
  have h2 : ∀ m, (rfStep k 0 fmean tol [xy])^[m] [.done fun i => xy i / 2] = [.done fun i => xy i / 2] := by
    intro m
    apply Function.iterate_fixed
    unfold rfStep rfPoint
    simp
  obtain ⟨m, rfl⟩ : ∃ m, n = m + 1 := ⟨n - 1, by omega⟩
  simp only [List.map_cons, List.map_nil]
  rw [Function.iterate_succ_apply, h1, h2]
  rfl

/-- Without iterations it raises. -/
theorem regula_falsi_none (k : Fin 6 → ℝ) (p : V2) (fmean : ℝ) (xys : List V2) (tol : ℝ) : regulaFalsi k p fmean xys 0 tol = .error .unboundLocal := by
  unfold regulaFalsi; simp

/-- For instance: a point one unit to the right of the principal point, two radial coefficients, the default arguments. Half
of it is returned, which is distorted to about 0.53, not 1. -/
example (G : Griddata) (v : CamVec) (hk : v.k = ![1 / 10, 1 / 2, 0, 0, 0, 0]) (hp : v.p = 0) :
    undistortBy G v (.regulafalsi 100 0) [![1, 0]] = .ok [some ![1 / 2, 0]] ∧ distort v.k v.p ![1 / 2, 0] ≠ ![1, 0] := by
  have hk0 : v.k ≠ 0 := by
    intro h; rw [h] at hk; have := congrFun hk 0; simp at this
  have h1 : v.k 1 ≠ 0 := by rw [hk]; norm_num
  constructor
  · unfold undistortBy
    simp only [hk0, false_and, if_false]
    rw [if_neg (by rintro ⟨-, h, -⟩; exact h1 (h 1 (by decide))), hp]
    rw [regula_falsi_axis_violated v.k _ ![1, 0] 1 (by simp) 100 (by decide) 0]
    simp only [bind, Except.bind, List.map_cons, List.map_nil]
    congr 3
    funext i; fin_cases i <;> norm_num
  · intro h
    have := congrFun h 0
    unfold distort radialDistortion at this
    simp only [hk0, false_and, if_false, hp, ne_eq, not_true, not_false_iff, if_true] at this
    rw [hk] at this
    simp only [show (![1 / 10, 1 / 2, 0, 0, 0, 0] : Fin 6 → ℝ) 2 = 0 from rfl, show (![1 / 10, 1 / 2, 0, 0, 0, 0] : Fin 6 → ℝ) 3 = 0 from rfl,
      show (![1 / 10, 1 / 2, 0, 0, 0, 0] : Fin 6 → ℝ) 4 = 0 from rfl, show (![1 / 10, 1 / 2, 0, 0, 0, 0] : Fin 6 → ℝ) 5 = 0 from rfl] at this
    norm_num at this

/-! ### Lookup table -/

/-- What is used of `scipy.interpolate.griddata` (linear): nothing outside the convex hull of the points; at a point its
value, if the points are distinct. -/
structure IsGriddata (G : Griddata) : Prop where
  hull : ∀ tbl q, (G tbl q).isSome → q ∈ convexHull ℝ {x | ∃ e ∈ tbl, e.1 = x}
  exact : ∀ tbl : List (V2 × V2), (∀ a ∈ tbl, ∀ b ∈ tbl, a.1 = b.1 → a.2 = b.2) → ∀ e ∈ tbl, G tbl e.1 = some e.2

open Classical in
/-- There is such a function: one that only knows the points themselves. -/
example : IsGriddata fun tbl q => if h : ∃ e ∈ tbl, e.1 = q then some h.choose.2 else none where
  hull := by
    intro tbl q h
    apply subset_convexHull
    by_contra hn
    simp only [Set.mem_setOf_eq] at hn
    simp [hn] at h
  exact := by
    intro tbl hd e he
    have h : ∃ e' ∈ tbl, e'.1 = e.1 := ⟨e, he, rfl⟩
    simp only [h, dite_true]
    rw [hd _ h.choose_spec.1 e he h.choose_spec.2]

/-- C85: exact for the distorted coordinates of the table, if no two of them are distorted to the same. -/
theorem lookup_exact (G : Griddata) (hG : IsGriddata G) (v : CamVec) (density : ℝ)
    (hinj : ∀ a ∈ lookupTable v density, ∀ b ∈ lookupTable v density, distort v.k v.p a = distort v.k v.p b → a = b)
    (u : V2) (hu : u ∈ lookupTable v density) : lookup G v density (distort v.k v.p u) = some u := by
  unfold lookup
  refine hG.exact _ ?_ _ (List.mem_map.2 ⟨u, hu, rfl⟩)
  intro a ha b hb hab
  obtain ⟨x, hx, rfl⟩ := List.mem_map.1 ha
  obtain ⟨y, hy, rfl⟩ := List.mem_map.1 hb
  exact hinj x hx y hy hab

private theorem linspace_mem (a b : ℝ) (n : Nat) (hab : a ≤ b) (x : ℝ) (hx : x ∈ linspaceR a b n) : a ≤ x ∧ x ≤ b := by
  unfold linspaceR at hx
  obtain ⟨j, hj, rfl⟩ := List.mem_map.1 hx
  rw [List.mem_range] at hj
  split
  · exact ⟨le_rfl, hab⟩
  · rename_i hn
    have h1 : (0 : ℝ) < (n : ℝ) - 1 := by
      have : 2 ≤ n := by omega
      have : (2 : ℝ) ≤ n := by exact_mod_cast this
      linarith
    have h2 : (j : ℝ) ≤ (n : ℝ) - 1 := by
      have : j + 1 ≤ n := hj
      have : ((j + 1 : ℕ) : ℝ) ≤ n := by exact_mod_cast this
      push_cast at this; linarith
    have h3 : 0 ≤ b - a := sub_nonneg.2 hab
    have h4 : (j : ℝ) * ((b - a) / ((n : ℝ) - 1)) ≤ b - a := by
      rw [mul_div_assoc', div_le_iff₀ h1]
      nlinarith
    constructor
    · have : 0 ≤ (j : ℝ) * ((b - a) / ((n : ℝ) - 1)) := by positivity
      linarith
    · linarith

private theorem foldr_max_le (l : List ℝ) (d M : ℝ) (hd : d ≤ M) (h : ∀ x ∈ l, x ≤ M) : l.foldr max d ≤ M := by
  induction l with
  | nil => exact hd
  | cons a l ih => exact max_le (h a List.mem_cons_self) (ih fun x hx => h x (List.mem_cons_of_mem _ hx))

private theorem le_foldr_min (l : List ℝ) (d M : ℝ) (hd : M ≤ d) (h : ∀ x ∈ l, M ≤ x) : M ≤ l.foldr min d := by
  induction l with
  | nil => exact hd
  | cons a l ih => exact le_min (h a List.mem_cons_self) (ih fun x hx => h x (List.mem_cons_of_mem _ hx))

private theorem le_foldr_max (l : List ℝ) (d : ℝ) : ∀ x ∈ l, x ≤ l.foldr max d := by
  induction l with
  | nil => intro x hx; cases hx
  | cons a l ih =>
    intro x hx
    rcases List.mem_cons.1 hx with rfl | hx
    · exact le_max_left _ _
    · exact le_trans (ih x hx) (le_max_right _ _)

private theorem foldr_min_le (l : List ℝ) (d : ℝ) : ∀ x ∈ l, l.foldr min d ≤ x := by
  induction l with
  | nil => intro x hx; cases hx
  | cons a l ih =>
    intro x hx
    rcases List.mem_cons.1 hx with rfl | hx
    · exact min_le_left _ _
    · exact le_trans (min_le_right _ _) (ih x hx)

/-- Half the width and height of the image in camera coordinates. -/
noncomputable def halfSize (v : CamVec) (i : Fin 2) : ℝ := (v.imgsz i : ℝ) / (2 * v.f i)

private theorem edges_le (v : CamVec) (hc : v.c = 0) (hf : ∀ i, 0 < v.f i) (hs : ∀ i, 0 < v.imgsz i) (e : V2) (he : e ∈ edgesXy v) (i : Fin 2) :
    |e i| ≤ halfSize v i := by
  have key : ∀ (j : Fin 2) (t : ℝ), 0 ≤ t → t ≤ 1 → |((v.imgsz j : ℝ) * t - (v.imgsz j : ℝ) / 2) / v.f j| ≤ halfSize v j := by
    intro j t ht0 ht1
    have hfj := hf j
    have hsj : (0 : ℝ) < v.imgsz j := by exact_mod_cast hs j
    have h : |(v.imgsz j : ℝ) * t - (v.imgsz j : ℝ) / 2| ≤ (v.imgsz j : ℝ) / 2 := abs_le.2 ⟨by nlinarith, by nlinarith⟩
    unfold halfSize
    rw [abs_div, abs_of_pos hfj, div_le_div_iff₀ hfj (by linarith)]
    nlinarith
  unfold edgesXy at he
  obtain ⟨t, ht, rfl⟩ := List.mem_map.1 he
  have hb : (0 ≤ t.1 ∧ t.1 ≤ 1) ∧ 0 ≤ t.2 ∧ t.2 ≤ 1 := by
    unfold edgeFractions at ht
    simp only [List.mem_cons, List.not_mem_nil, or_false] at ht
    rcases ht with rfl | rfl | rfl | rfl | rfl | rfl | rfl | rfl <;> norm_num
  simp only [hc, Pi.zero_apply, add_zero]
  fin_cases i
  · exact key 0 t.1 hb.1.1 hb.1.2
  · exact key 1 t.2 hb.2.1 hb.2.2

/-- Distortion with the second radial coefficient only. -/
private theorem distort_k2 (κ : ℝ) (hκ : κ ≠ 0) (u : V2) (i : Fin 2) :
    distort ![0, κ, 0, 0, 0, 0] 0 u i = u i * (1 + κ * (u 0 ^ 2 + u 1 ^ 2) ^ 2) := by
  have hk : (![0, κ, 0, 0, 0, 0] : Fin 6 → ℝ) ≠ 0 := by
    intro h; exact hκ (congrFun h 1)
  unfold distort radialDistortion
  simp only [hk, false_and, if_false, ne_eq, not_true, not_false_iff, if_true,
    show (![0, κ, 0, 0, 0, 0] : Fin 6 → ℝ) 0 = 0 from rfl, show (![0, κ, 0, 0, 0, 0] : Fin 6 → ℝ) 1 = κ from rfl,
    show (![0, κ, 0, 0, 0, 0] : Fin 6 → ℝ) 2 = 0 from rfl, show (![0, κ, 0, 0, 0, 0] : Fin 6 → ℝ) 3 = 0 from rfl,
    show (![0, κ, 0, 0, 0, 0] : Fin 6 → ℝ) 4 = 0 from rfl, show (![0, κ, 0, 0, 0, 0] : Fin 6 → ℝ) 5 = 0 from rfl]
  ring

private theorem barrel_factor (κ X Y : ℝ) (hκ : κ < 0) (hlow : -1 ≤ κ * (X ^ 2 + Y ^ 2) ^ 2) (u : V2) (h0 : |u 0| ≤ X) (h1 : |u 1| ≤ Y) :
    0 ≤ 1 + κ * (u 0 ^ 2 + u 1 ^ 2) ^ 2 ∧ 1 + κ * (u 0 ^ 2 + u 1 ^ 2) ^ 2 ≤ 1 := by
  have a0 : u 0 ^ 2 ≤ X ^ 2 := by rw [← sq_abs]; exact pow_le_pow_left₀ (abs_nonneg _) h0 2
  have a1 : u 1 ^ 2 ≤ Y ^ 2 := by rw [← sq_abs]; exact pow_le_pow_left₀ (abs_nonneg _) h1 2
  have b : (u 0 ^ 2 + u 1 ^ 2) ^ 2 ≤ (X ^ 2 + Y ^ 2) ^ 2 := pow_le_pow_left₀ (by positivity) (by linarith) 2
  have c : 0 ≤ (u 0 ^ 2 + u 1 ^ 2) ^ 2 := by positivity
  constructor <;> nlinarith

/-- C85 fails for barrel distortion: the table does not reach beyond the camera coordinates of the image sides, which are
distorted to points inside. All points on the right side of the image (principal point at the centre, second radial
coefficient negative) are returned missing. -/
theorem lookup_barrel_violated (G : Griddata) (hG : IsGriddata G) (v : CamVec) (hc : v.c = 0) (hp : v.p = 0) (hf : ∀ i, 0 < v.f i)
    (hs : ∀ i, 0 < v.imgsz i) (κ : ℝ) (hk : v.k = ![0, κ, 0, 0, 0, 0]) (hκ : κ < 0)
    (hlow : -1 ≤ κ * (halfSize v 0 ^ 2 + halfSize v 1 ^ 2) ^ 2) (density : ℝ) (y : ℝ) :
    lookup G v density ![halfSize v 0, y] = none := by
  by_contra hne
  have hsome : (lookup G v density ![halfSize v 0, y]).isSome := Option.isSome_iff_ne_none.2 hne
  have hh := hG.hull _ _ hsome
  have hpos : ∀ i, 0 < halfSize v i := by
    intro i
    have := hf i
    have : (0 : ℝ) < v.imgsz i := by exact_mod_cast hs i
    unfold halfSize; positivity
  have haxis : ∀ (i : Fin 2) (t : ℝ), t ∈ lookupAxis v density i → |t| ≤ halfSize v i := by
    intro i t ht
    unfold lookupAxis at ht
    simp only [] at ht
    have hu : ∀ x ∈ (edgesXy v).map (fun e => e i), |x| ≤ halfSize v i := by
      intro x hx
      obtain ⟨e, he, rfl⟩ := List.mem_map.1 hx
      exact edges_le v hc hf hs e he i
    have hd : ∀ x ∈ (edgesXy v).map (fun e => distort v.k v.p e i), |x| ≤ halfSize v i := by
      intro x hx
      obtain ⟨e, he, rfl⟩ := List.mem_map.1 hx
      have e0 := edges_le v hc hf hs e he 0
      have e1 := edges_le v hc hf hs e he 1
      have ei := edges_le v hc hf hs e he i
      obtain ⟨f0, f1⟩ := barrel_factor κ _ _ hκ hlow e e0 e1
      rw [hk, hp, distort_k2 κ hκ.ne, abs_mul, abs_of_nonneg f0]
      calc |e i| * _ ≤ |e i| * 1 := mul_le_mul_of_nonneg_left f1 (abs_nonneg _)
        _ ≤ _ := by rw [mul_one]; exact ei
    have bound : ∀ l : List ℝ, l ≠ [] → (∀ x ∈ l, |x| ≤ halfSize v i) → -halfSize v i ≤ listMin l ∧ listMax l ≤ halfSize v i ∧ listMin l ≤ listMax l := by
      intro l hl h
      have hhead : l.headD 0 ∈ l := by
        cases l with
        | nil => exact absurd rfl hl
        | cons a l => simp
      refine ⟨le_foldr_min l _ _ (abs_le.1 (h _ hhead)).1 fun x hx => (abs_le.1 (h x hx)).1,
        foldr_max_le l _ _ (abs_le.1 (h _ hhead)).2 fun x hx => (abs_le.1 (h x hx)).2, ?_⟩
      exact le_trans (foldr_min_le l _ _ hhead) (le_foldr_max l _ _ hhead)
    have ne : edgesXy v ≠ [] := by unfold edgesXy edgeFractions; simp
    obtain ⟨u1, u2, u3⟩ := bound _ (by simpa using ne) hu
    obtain ⟨d1, d2, d3⟩ := bound _ (by simpa using ne) hd
    obtain ⟨t1, t2⟩ := linspace_mem _ _ _ (le_trans (min_le_left _ _) (le_trans u3 (le_max_left _ _))) t ht
    exact abs_le.2 ⟨le_trans (le_min u1 d1) t1, le_trans t2 (max_le u2 d2)⟩
  have hconv : Convex ℝ {q : V2 | q 0 < halfSize v 0} := by
    have := convex_halfSpace_lt (𝕜 := ℝ) (f := fun q : V2 => q 0) ⟨fun x y => rfl, fun c x => rfl⟩ (halfSize v 0)
    exact this
  have hsub : {x | ∃ e ∈ (lookupTable v density).map (fun u => (distort v.k v.p u, u)), e.1 = x} ⊆ {q : V2 | q 0 < halfSize v 0} := by
    rintro x ⟨e, he, rfl⟩
    obtain ⟨u, hu, rfl⟩ := List.mem_map.1 he
    unfold lookupTable at hu
    obtain ⟨b, hb, hu⟩ := List.mem_flatMap.1 hu
    obtain ⟨a, ha, rfl⟩ := List.mem_map.1 hu
    have ha' := haxis 0 a ha
    have hb' := haxis 1 b hb
    have h00 : (![a, b] : V2) 0 = a := rfl
    have h01 : (![a, b] : V2) 1 = b := rfl
    show distort v.k v.p ![a, b] 0 < halfSize v 0
    obtain ⟨f0, f1⟩ := barrel_factor κ _ _ hκ hlow ![a, b] (by rw [h00]; exact ha') (by rw [h01]; exact hb')
    rw [hk, hp, distort_k2 κ hκ.ne]
    rw [h00, h01] at *
    have hx0 := hpos 0
    rcases le_or_gt a 0 with h | h
    · nlinarith
    · have hstrict : 1 + κ * (a ^ 2 + b ^ 2) ^ 2 < 1 := by
        have : 0 < (a ^ 2 + b ^ 2) ^ 2 := by positivity
        nlinarith
      have := (abs_le.1 ha').2
      nlinarith
  have := convexHull_min hsub hconv hh
  have h00 : (![halfSize v 0, y] : V2) 0 = halfSize v 0 := rfl
  simp only [Set.mem_setOf_eq, h00, lt_irrefl] at this

/-- Such a camera: 100 by 100 pixels, focal length 100. -/
example : let v : CamVec := ⟨0, 0, ![100, 100], ![100, 100], 0, ![0, -1 / 10, 0, 0, 0, 0], 0⟩;
    -1 ≤ (-1 / 10 : ℝ) * (halfSize v 0 ^ 2 + halfSize v 1 ^ 2) ^ 2 := by
  simp only [halfSize]
  norm_num

/-! ### Reversibility -/

/-- Coordinate number `j` of `n` evenly spaced from -T to T. -/
noncomputable def sampleAt (T : ℝ) (n j : Nat) : ℝ := -T + j * (2 * T / (n - 1))

private theorem axisCoords_eq (v : CamVec) (i : Fin 2) (n : Nat) (hn : v.imgsz i = n) (h2 : n ≠ 1) :
    axisCoords v i = (List.range n).map fun (j : Nat) => sampleAt (halfSize v i) n j := by
  unfold axisCoords linspaceR
  rw [hn]
  simp only [Int.toNat_natCast, h2, if_false]
  apply List.map_congr_left
  intro j _
  unfold sampleAt halfSize
  rw [hn]
  push_cast
  ring

private theorem zip_tail_all (f : Nat → ℝ) (n : Nat) :
    (List.zip ((List.range n).map f).tail ((List.range n).map f)).all (fun q => @decide (q.2 ≤ q.1) (Classical.propDecidable _)) = true ↔
      ∀ j, j + 1 < n → f j ≤ f (j + 1) := by
  rw [List.all_eq_true]
  constructor
  · intro h j hj
    have hm : (f (j + 1), f j) ∈ List.zip ((List.range n).map f).tail ((List.range n).map f) := by
      rw [List.mem_iff_getElem]
      refine ⟨j, by simp; omega, ?_⟩
      simp
    simpa using h _ hm
  · intro h q hq
    obtain ⟨j, hj, rfl⟩ := List.mem_iff_getElem.1 hq
    simp at hj
    simp
    exact h j (by omega)

/-- C86, what is tested: the distorted coordinate does not decrease from pixel to pixel along the row and the column through
the centre. -/
theorem reversible_iff (v : CamVec) (n : Fin 2 → Nat) (hn : ∀ i, v.imgsz i = n i) (h2 : ∀ i, n i ≠ 1) :
    reversible v = true ↔ ∀ i, ∀ j, j + 1 < n i →
      distort v.k v.p (onAxis i (sampleAt (halfSize v i) (n i) j)) i ≤ distort v.k v.p (onAxis i (sampleAt (halfSize v i) (n i) (j + 1))) i := by
  have key : ∀ i, axisMonotone v i = true ↔ ∀ j, j + 1 < n i →
      distort v.k v.p (onAxis i (sampleAt (halfSize v i) (n i) j)) i ≤ distort v.k v.p (onAxis i (sampleAt (halfSize v i) (n i) (j + 1))) i := by
    intro i
    unfold axisMonotone
    rw [axisCoords_eq v i (n i) (hn i) (h2 i), List.map_map]
    exact zip_tail_all (fun j => distort v.k v.p (onAxis i (sampleAt (halfSize v i) (n i) j)) i) (n i)
  unfold reversible
  rw [Bool.and_eq_true, key 0, key 1]
  constructor
  · rintro ⟨h0, h1⟩ i
    fin_cases i
    · exact h0
    · exact h1
  · intro h; exact ⟨h 0, h 1⟩

/-- In the frame of the image (principal point at the centre), before distortion. -/
def InFrame (v : CamVec) (u : V2) : Prop := ∀ i, |u i| ≤ halfSize v i

private theorem distort_onAxis (k : Fin 6 → ℝ) (i : Fin 2) (t : ℝ) : distort k 0 (onAxis i t) = onAxis i (t * radialDistortion k (t ^ 2)) := by
  have hr : (onAxis i t) 0 ^ 2 + (onAxis i t) 1 ^ 2 = t ^ 2 := by
    unfold onAxis
    fin_cases i <;> simp
  funext j
  unfold distort
  by_cases hk : k = 0
  · subst hk
    simp only [and_self, if_true]
    unfold radialDistortion onAxis
    simp
  · simp only [hk, false_and, if_false, ne_eq, not_true, not_false_iff, if_true]
    rw [hr]
    unfold onAxis
    split <;> simp

private theorem radial_poly (k : Fin 6 → ℝ) (h3 : k 3 = 0) (h4 : k 4 = 0) (h5 : k 5 = 0) (r2 : ℝ) :
    radialDistortion k r2 = 1 + k 0 * r2 + k 1 * r2 * r2 + k 2 * r2 * r2 * r2 := by
  unfold radialDistortion
  rw [h3, h4, h5]; simp

/-- C86, what holds: for polynomial radial distortion, "not reversible" is right: two different points in the frame have the
same distorted coordinates. -/
theorem reversible_false (v : CamVec) (hp : v.p = 0) (h3 : v.k 3 = 0) (h4 : v.k 4 = 0) (h5 : v.k 5 = 0) (hf : ∀ i, 0 < v.f i)
    (hs : ∀ i, 1 < v.imgsz i) (h : reversible v = false) :
    ∃ a b : V2, a ≠ b ∧ InFrame v a ∧ InFrame v b ∧ distort v.k v.p a = distort v.k v.p b := by
  obtain ⟨n, hn⟩ : ∃ n : Fin 2 → Nat, ∀ i, v.imgsz i = n i := ⟨fun i => (v.imgsz i).toNat, fun i => by
    have := hs i; simp only []; omega⟩
  have hn1 : ∀ i, 1 < n i := fun i => by have := hs i; rw [hn i] at this; exact_mod_cast this
  have hpos : ∀ i, 0 < halfSize v i := by
    intro i
    have := hf i
    have : (0 : ℝ) < v.imgsz i := by have := hs i; exact_mod_cast (by omega : 0 < v.imgsz i)
    unfold halfSize; positivity
  have hnot : ¬ reversible v = true := by rw [h]; simp
  rw [reversible_iff v n hn fun i => (hn1 i).ne'] at hnot
  push Not at hnot
  obtain ⟨i, j, hj, hlt⟩ := hnot
  set T := halfSize v i with hT
  have hTpos := hpos i
  set g : ℝ → ℝ := fun t => t * radialDistortion v.k (t ^ 2) with hg
  have hcont : Continuous g := by
    have : g = fun t => t * (1 + v.k 0 * t ^ 2 + v.k 1 * t ^ 2 * t ^ 2 + v.k 2 * t ^ 2 * t ^ 2 * t ^ 2) := by
      funext t; rw [hg]; simp only []; rw [radial_poly _ h3 h4 h5]
    rw [this]; fun_prop
  have hax : ∀ t, distort v.k v.p (onAxis i t) = onAxis i (g t) := fun t => by rw [hp, distort_onAxis]
  have hii : ∀ t, onAxis i t i = t := fun t => by unfold onAxis; simp
  rw [hax, hax, hii, hii] at hlt
  have hd : (0 : ℝ) < (n i : ℝ) - 1 := by
    have : (1 : ℝ) < n i := by exact_mod_cast hn1 i
    linarith
  have hmem : ∀ m : Nat, m < n i → sampleAt T (n i) m ∈ Set.Icc (-T) T := by
    intro m hm
    have h1 : (m : ℝ) ≤ (n i : ℝ) - 1 := by
      have : m + 1 ≤ n i := hm
      have : ((m + 1 : ℕ) : ℝ) ≤ n i := by exact_mod_cast this
      push_cast at this; linarith
    unfold sampleAt
    have h2 : (m : ℝ) * (2 * T / ((n i : ℝ) - 1)) ≤ 2 * T := by
      rw [mul_div_assoc', div_le_iff₀ hd]; nlinarith
    have h3 : 0 ≤ (m : ℝ) * (2 * T / ((n i : ℝ) - 1)) := by positivity
    exact ⟨by linarith, by linarith⟩
  have hstep : sampleAt T (n i) j < sampleAt T (n i) (j + 1) := by
    unfold sampleAt
    have : 0 < 2 * T / ((n i : ℝ) - 1) := by positivity
    push_cast
    nlinarith
  have hninj : ¬ Set.InjOn g (Set.Icc (-T) T) := by
    intro hinj
    rcases hcont.continuousOn.strictMonoOn_of_injOn_Icc' (by linarith : -T ≤ T) hinj with hm | hm
    · exact absurd (hm (hmem j (by omega)) (hmem (j + 1) hj) hstep) (not_lt.2 hlt.le)
    · -- close to zero the coordinate increases
      have hc : ContinuousAt (fun t : ℝ => radialDistortion v.k (t ^ 2)) 0 := by
        have : (fun t : ℝ => radialDistortion v.k (t ^ 2)) = fun t => (1 + v.k 0 * t ^ 2 + v.k 1 * t ^ 2 * t ^ 2 + v.k 2 * t ^ 2 * t ^ 2 * t ^ 2) := by
          funext t; rw [radial_poly _ h3 h4 h5]
        rw [this]; fun_prop
      have h1 : (0 : ℝ) < radialDistortion v.k (0 ^ 2) := by rw [radial_poly _ h3 h4 h5]; norm_num
      have hev := hc.eventually (lt_mem_nhds h1)
      rw [Metric.eventually_nhds_iff] at hev
      obtain ⟨ε, hε, hball⟩ := hev
      have hmin : 0 < min (ε / 2) T := lt_min (by linarith) hTpos
      have hgp : 0 < g (min (ε / 2) T) := by
        apply mul_pos hmin
        apply hball
        rw [Real.dist_eq, sub_zero, abs_of_pos hmin]
        exact lt_of_le_of_lt (min_le_left _ _) (by linarith)
      have hg0 : g 0 = 0 := by rw [hg]; simp
      have := hm (Set.mem_Icc.2 ⟨by linarith, hTpos.le⟩) (Set.mem_Icc.2 ⟨by linarith, min_le_right _ _⟩) hmin
      linarith
  unfold Set.InjOn at hninj
  push Not at hninj
  obtain ⟨a, ha, b, hb, hab, hne⟩ := hninj
  have hframe : ∀ t ∈ Set.Icc (-T) T, InFrame v (onAxis i t) := by
    intro t ht l
    unfold onAxis
    split
    · rename_i hl; subst hl; exact abs_le.2 ht
    · rw [abs_zero]; exact (hpos l).le
  refine ⟨onAxis i a, onAxis i b, fun he => hne (by rw [← hii a, ← hii b, he]), hframe a ha, hframe b hb, ?_⟩
  rw [hax, hax, hab]

/-- A camera that is not reversible: strong barrel distortion. -/
example : reversible ⟨0, 0, fun _ => 3, fun _ => 3 / 4, 0, ![-1, 0, 0, 0, 0, 0], 0⟩ = false := by
  rw [← Bool.not_eq_true, reversible_iff _ (fun _ => 3) (fun i => rfl) fun i => by decide]
  intro h
  have h0 := h 0 0 (by decide)
  rw [distort_onAxis, distort_onAxis, radial_poly _ rfl rfl rfl, radial_poly _ rfl rfl rfl] at h0
  simp only [onAxis, if_true, sampleAt, halfSize] at h0
  rw [show (![-1, 0, 0, 0, 0, 0] : Fin 6 → ℝ) 2 = 0 from rfl] at h0
  norm_num at h0

/-- C86 fails: a camera with one radial coefficient passes the test for any image size, although two points of the frame (a
corner, and the point halfway to it) have the same distorted coordinates. -/
theorem reversible_true_violated (n : Nat) (hn : 1 < n) :
    let v : CamVec := ⟨0, 0, fun _ => n, fun _ => (n : ℝ) / 2, 0, ![-2 / 7, 0, 0, 0, 0, 0], 0⟩
    reversible v = true ∧ InFrame v ![1, 1] ∧ InFrame v ![1 / 2, 1 / 2] ∧ distort v.k v.p ![1, 1] = distort v.k v.p ![1 / 2, 1 / 2] := by
  intro v
  have hn0 : (0 : ℝ) < n := by exact_mod_cast (by omega : 0 < n)
  have hT : ∀ i, halfSize v i = 1 := by
    intro i
    show ((n : ℤ) : ℝ) / (2 * ((n : ℝ) / 2)) = 1
    push_cast
    field_simp
  have hrad : ∀ r2, radialDistortion v.k r2 = 1 - 2 / 7 * r2 := by
    intro r2
    rw [radial_poly v.k rfl rfl rfl]
    show 1 + (-2 / 7) * r2 + 0 * r2 * r2 + 0 * r2 * r2 * r2 = _
    ring
  have hd : (0 : ℝ) < (n : ℝ) - 1 := by
    have : (1 : ℝ) < n := by exact_mod_cast hn
    linarith
  refine ⟨?_, ?_, ?_, ?_⟩
  · rw [reversible_iff v (fun _ => n) (fun i => rfl) fun i => hn.ne']
    intro i j hj
    simp only [hT]
    rw [show v.p = 0 from rfl, distort_onAxis, distort_onAxis, hrad, hrad]
    have hii : ∀ t, onAxis i t i = t := fun t => by unfold onAxis; simp
    rw [hii, hii]
    have hb : ∀ m : Nat, m < n → -1 ≤ sampleAt 1 n m ∧ sampleAt 1 n m ≤ 1 := by
      intro m hm
      have h1 : (m : ℝ) ≤ (n : ℝ) - 1 := by
        have : m + 1 ≤ n := hm
        have : ((m + 1 : ℕ) : ℝ) ≤ n := by exact_mod_cast this
        push_cast at this; linarith
      unfold sampleAt
      have h2 : (m : ℝ) * (2 * 1 / ((n : ℝ) - 1)) ≤ 2 * 1 := by
        rw [mul_div_assoc', div_le_iff₀ hd]; nlinarith
      have h3 : 0 ≤ (m : ℝ) * (2 * 1 / ((n : ℝ) - 1)) := by positivity
      exact ⟨by linarith, by linarith⟩
    have hstep : sampleAt 1 n j ≤ sampleAt 1 n (j + 1) := by
      unfold sampleAt
      have : 0 < 2 * 1 / ((n : ℝ) - 1) := by positivity
      push_cast
      nlinarith
    obtain ⟨a1, a2⟩ := hb j (by omega)
    obtain ⟨b1, b2⟩ := hb (j + 1) hj
    generalize sampleAt 1 n j = a at *
    generalize sampleAt 1 n (j + 1) = b at *
    have hq : a ^ 2 + a * b + b ^ 2 ≤ 3 := by nlinarith [sq_nonneg (a - b), sq_nonneg (a + b)]
    nlinarith [mul_nonneg (sub_nonneg.2 hstep) (by linarith : 0 ≤ 1 - 2 / 7 * (a ^ 2 + a * b + b ^ 2))]
  · intro i; rw [hT]; fin_cases i <;> simp
  · intro i; rw [hT]; fin_cases i <;> norm_num [abs_of_pos]
  · have hk : v.k ≠ 0 := by intro h; have := congrFun h 0; norm_num [v] at this
    funext i
    unfold distort
    simp only [hk, false_and, if_false, show v.p = 0 from rfl, ne_eq, not_true, not_false_iff, if_true]
    rw [hrad, hrad]
    fin_cases i <;> norm_num

end Glimpse.Undistort
