import Verif.Model.CameraView
import Verif.Props.Boxes
import Verif.Props.CameraProjection
import Mathlib.Tactic.Linarith
import Mathlib.Tactic.FieldSimp
import Mathlib.Tactic.Ring
import Mathlib.Tactic.NormNum
import Mathlib.Tactic.Push
import Mathlib.Tactic.IntervalCases

/-!
C87 (`Camera.grid`, `Camera.edges`) and C88 (`Camera.viewbox`, `Camera.viewpoly`).
-/
set_option autoImplicit false
set_option linter.unusedSimpArgs false
set_option linter.unusedSectionVars false

namespace Glimpse.View

/-! ### Grid -/

/-- C87: with the default arguments, each pixel centre once and nothing else. -/
theorem grid_pixels (w h : Nat) : ∃ ps, imageGrid w h (1, 1) (1 / 2, 1 / 2) = .ok ps ∧ ps.Nodup ∧
    ∀ p : ℚ × ℚ, p ∈ ps ↔ ∃ i < w, ∃ j < h, p = ((i : ℚ) + 1 / 2, (j : ℚ) + 1 / 2) := by
  obtain ⟨ps, h1, h2, h3⟩ := box_to_grid_points (0, 0) ((w : ℚ), (h : ℚ)) (1, 1) (some (1 / 2, 1 / 2)) (by norm_num) (by norm_num)
    (by positivity) (by positivity)
  have key : ∀ (w : Nat) (x : ℚ), (0 ≤ x ∧ x ≤ (w : ℚ) ∧ ∃ k : ℤ, x = 1 / 2 + k * 1) ↔ ∃ i < w, x = (i : ℚ) + 1 / 2 := by
    intro w x
    constructor
    · rintro ⟨h0, h1, k, rfl⟩
      have hk0 : (-1 : ℚ) < k := by linarith
      have hk0 : 0 ≤ k := by have : (-1 : ℤ) < k := by exact_mod_cast hk0
                             omega
      have hk1 : (k : ℚ) < w := by linarith
      obtain ⟨i, rfl⟩ := Int.eq_ofNat_of_zero_le hk0
      refine ⟨i, by exact_mod_cast hk1, by push_cast; ring⟩
    · rintro ⟨i, hi, rfl⟩
      have : ((i + 1 : ℕ) : ℚ) ≤ w := by exact_mod_cast hi
      push_cast at this
      exact ⟨by positivity, by linarith, i, by push_cast; ring⟩
  refine ⟨ps, h1, h2, fun p => ?_⟩
  rw [h3]
  simp only [Option.getD_some]
  rw [key, key]
  constructor
  · rintro ⟨⟨i, hi, hx⟩, j, hj, hy⟩
    exact ⟨i, hi, j, hj, by rw [← hx, ← hy]⟩
  · rintro ⟨i, hi, j, hj, rfl⟩
    exact ⟨⟨i, hi, rfl⟩, j, hj, rfl⟩

/-! ### Edges -/

/-- Specification: `m` points from `a` towards `b`, evenly spaced, starting at `a` and stopping before `b`. -/
def side (a b : ℚ × ℚ) (m : Nat) : List (ℚ × ℚ) :=
  (List.range m).map fun (j : Nat) => (a.1 + (j : ℚ) / m * (b.1 - a.1), a.2 + (j : ℚ) / m * (b.2 - a.2))

private theorem sideCoords_eq (w : Nat) (step : ℚ) (m : Nat) (hm : 0 < m) (h0 : 0 < step) (h1 : (m : ℚ) * step ≤ w) (h2 : (w : ℚ) < (m + 1) * step) :
    sideCoords w step = .ok ((List.range (m + 1)).map fun (j : Nat) => (j : ℚ) / m * w) := by
  unfold sideCoords
  rw [if_neg h0.ne']
  have ht : truncInt ((w : ℚ) / step + 1) = ((m + 1 : ℕ) : ℤ) := by
    unfold truncInt
    rw [if_pos (by positivity), Int.floor_eq_iff]
    have e1 : (m : ℚ) ≤ (w : ℚ) / step := by rwa [le_div_iff₀ h0]
    have e2 : (w : ℚ) / step < m + 1 := by rwa [div_lt_iff₀ h0]
    push_cast
    constructor <;> linarith
  rw [ht]
  unfold linspace
  rw [if_neg (by omega), if_neg (by omega)]
  simp only [Int.toNat_natCast]
  congr 1
  apply List.map_congr_left
  intro j _
  have : (m : ℚ) ≠ 0 := by exact_mod_cast hm.ne'
  push_cast
  rw [add_sub_cancel_right]
  ring

private theorem range_tail_dropLast (m : Nat) : ((List.range (m + 1)).tail).dropLast = (List.range m).tail := by
  apply List.ext_getElem
  · simp
  · intro i h1 h2
    simp

private theorem range_reverse (m : Nat) : (List.range (m + 1)).reverse = (List.range (m + 1)).map fun (j : Nat) => m - j := by
  apply List.ext_getElem
  · simp
  · intro i h1 h2
    simp

/-- C87, as far as it holds: for steps not longer than the sides, with the number of steps that fit (`mu` and `mv`), the
points walk around the image once from the origin: evenly along each side, each corner once. -/
theorem edges_partial (w h : Nat) (step : ℚ × ℚ) (mu mv : Nat) (hu : 0 < mu) (hv : 0 < mv) (s1 : 0 < step.1) (s2 : 0 < step.2)
    (u1 : (mu : ℚ) * step.1 ≤ w) (u2 : (w : ℚ) < (mu + 1) * step.1) (v1 : (mv : ℚ) * step.2 ≤ h) (v2 : (h : ℚ) < (mv + 1) * step.2) :
    edges w h step = .ok (side (0, 0) (w, 0) mu ++ side (w, 0) (w, h) mv ++ side (w, h) (0, h) mu ++ side (0, h) (0, 0) mv) := by
  have hmu : (mu : ℚ) ≠ 0 := by exact_mod_cast hu.ne'
  have hmv : (mv : ℚ) ≠ 0 := by exact_mod_cast hv.ne'
  unfold edges
  simp only [sideCoords_eq w step.1 mu hu s1 u1 u2, sideCoords_eq h step.2 mv hv s2 v1 v2, bind, Except.bind]
  unfold stackEdges
  have hlast : ∀ (m : Nat) (W : ℚ), (m : ℚ) ≠ 0 → ((List.range (m + 1)).map fun (j : Nat) => (j : ℚ) / m * W).getLast? = some W := by
    intro m W hm
    rw [List.range_succ, List.map_append, List.map_singleton, List.getLast?_append]
    simp [hm]
  rw [hlast mu w hmu, hlast mv h hmv]
  simp only [List.length_map, List.length_range]
  rw [if_neg (by omega)]
  congr 1
  obtain ⟨a, rfl⟩ : ∃ a, mu = a + 1 := ⟨mu - 1, by omega⟩
  obtain ⟨b, rfl⟩ : ∃ b, mv = b + 1 := ⟨mv - 1, by omega⟩
  rw [← List.map_reverse, ← List.map_reverse, range_reverse, range_reverse]
  simp only [← List.map_tail, ← List.map_dropLast, List.map_map]
  rw [range_tail_dropLast]
  have split0 : ∀ {γ : Type} (f : Nat → γ) (m : Nat), (List.range (m + 1)).map f = f 0 :: ((List.range (m + 1)).tail).map f := by
    intro γ f m
    rw [List.range_succ_eq_map]; simp
  have splitL : ∀ {γ : Type} (f : Nat → γ) (m : Nat), (List.range (m + 1)).map f = (List.range m).map f ++ [f m] := by
    intro γ f m
    rw [List.range_succ]; simp
  unfold side
  rw [splitL _ (a + 1), splitL _ (a + 1), split0 _ b, split0 _ b]
  simp only [List.append_assoc, List.singleton_append, Function.comp_def]
  congr 1
  · apply List.map_congr_left
    intro j _
    simp
  · rw [List.cons_append]
    congr 1
    · rw [div_self hmu]; simp
    · congr 1
      · apply List.map_congr_left
        intro j _
        simp
      · congr 1
        · apply List.map_congr_left
          intro j hj
          have hj : j < a + 1 := List.mem_range.1 hj
          rw [Nat.cast_sub (by omega)]
          have hmu' : ((a : ℚ) + 1) ≠ 0 := by exact_mod_cast hmu
          simp only [Prod.mk.injEq]
          push_cast
          constructor
          · field_simp; ring
          · ring
        · congr 1
          · simp
          · apply List.map_congr_left
            intro j hj
            have hj : j < b + 1 := List.mem_range.1 (List.mem_of_mem_tail hj)
            rw [Nat.cast_sub (by omega)]
            have hmv' : ((b : ℚ) + 1) ≠ 0 := by exact_mod_cast hmv
            simp only [Prod.mk.injEq]
            push_cast
            constructor
            · ring
            · field_simp; ring

/-- With the default step, one point per pixel corner. -/
theorem edges_default (w h : Nat) (hw : 0 < w) (hh : 0 < h) :
    edges w h (1, 1) = .ok (side (0, 0) (w, 0) w ++ side (w, 0) (w, h) h ++ side (w, h) (0, h) w ++ side (0, h) (0, 0) h) :=
  edges_partial w h (1, 1) w h hw hh (by norm_num) (by norm_num) (by simp) (by simp) (by simp) (by simp)

/-- C87 fails: a step longer than the height raises. -/
theorem edges_tall_violated (w h : Nat) (step : ℚ × ℚ) (s1 : 0 < step.1) (s2 : 0 < step.2) (hlong : (h : ℚ) < step.2) :
    edges w h step = .error .valueError := by
  have key : ∀ (w : Nat) (s : ℚ), 0 < s → ∃ l, sideCoords w s = .ok l ∧ l ≠ [] := by
    intro w s hs
    unfold sideCoords
    rw [if_neg hs.ne']
    unfold linspace
    have h1 : 1 ≤ truncInt ((w : ℚ) / s + 1) := by
      unfold truncInt
      rw [if_pos (by positivity), Int.le_floor]
      push_cast
      have : 0 ≤ (w : ℚ) / s := by positivity
      linarith
    rw [if_neg (by omega)]
    split
    · exact ⟨_, rfl, by simp⟩
    · refine ⟨_, rfl, ?_⟩
      simp
      omega
  obtain ⟨u, hu, hune⟩ := key w step.1 s1
  have hv : sideCoords h step.2 = .ok [0] := by
    unfold sideCoords
    rw [if_neg s2.ne']
    have ht : truncInt ((h : ℚ) / step.2 + 1) = 1 := by
      unfold truncInt
      rw [if_pos (by positivity), Int.floor_eq_iff]
      have e1 : 0 ≤ (h : ℚ) / step.2 := by positivity
      have e2 : (h : ℚ) / step.2 < 1 := by rwa [div_lt_one s2]
      push_cast
      constructor <;> linarith
    rw [ht]
    unfold linspace
    simp
  unfold edges
  simp only [hu, hv, bind, Except.bind]
  unfold stackEdges
  obtain ⟨ul, hul⟩ : ∃ ul, u.getLast? = some ul := ⟨u.getLast hune, List.getLast?_eq_getLast_of_ne_nil hune⟩
  rw [hul]
  simp

/-- C87 fails: a step longer than the width gives only points of the left side (the right side and the corners are lost). -/
theorem edges_wide_violated : edges 2 2 (3, 1) = .ok [(0, 0), (0, 1), (0, 2), (0, 1)] := by decide +kernel

example : edges 2 2 (1, 1) = .ok [(0, 0), (1, 0), (2, 0), (2, 1), (2, 2), (1, 2), (0, 2), (0, 1)] := by decide +kernel

/-- A step that does not fit is widened. -/
example : edges 3 3 (2, 2) = .ok [(0, 0), (3, 0), (3, 3), (0, 3)] := by decide +kernel

/-! ### Viewed volume -/

private theorem foldr_min_le' (l : List ℝ) (d : ℝ) : ∀ x ∈ l, l.foldr min d ≤ x := by
  induction l with
  | nil => intro x hx; cases hx
  | cons a l ih =>
    intro x hx
    rcases List.mem_cons.1 hx with rfl | hx
    · exact min_le_left _ _
    · exact le_trans (min_le_right _ _) (ih x hx)

private theorem le_foldr_max' (l : List ℝ) (d : ℝ) : ∀ x ∈ l, x ≤ l.foldr max d := by
  induction l with
  | nil => intro x hx; cases hx
  | cons a l ih =>
    intro x hx
    rcases List.mem_cons.1 hx with rfl | hx
    · exact le_max_left _ _
    · exact le_trans (ih x hx) (le_max_right _ _)

private theorem bbox_mem (pts : List V3) (q : V3) (hq : q ∈ pts) (i : Fin 3) : (bbox pts).1 i ≤ q i ∧ q i ≤ (bbox pts).2 i :=
  ⟨foldr_min_le' _ _ _ (List.mem_map.2 ⟨q, hq, rfl⟩), le_foldr_max' _ _ _ (List.mem_map.2 ⟨q, hq, rfl⟩)⟩

private theorem uvToXyz_affine (cam : Camera) (hk : cam.vec.k = 0) (hp : cam.vec.p = 0) (i : Fin 3) :
    ∃ A B C : ℝ, ∀ (uv : V2) (depth : ℝ), cam.uvToXyz uv false depth i = cam.vec.xyz i + depth * (A * uv 0 + B * uv 1 + C) := by
  refine ⟨rotR cam.vec.viewdir 0 i / cam.vec.f 0, rotR cam.vec.viewdir 1 i / cam.vec.f 1,
    rotR cam.vec.viewdir 2 i - rotR cam.vec.viewdir 0 i / cam.vec.f 0 * ((cam.vec.imgsz 0 : ℝ) / 2 + cam.vec.c 0) -
      rotR cam.vec.viewdir 1 i / cam.vec.f 1 * ((cam.vec.imgsz 1 : ℝ) / 2 + cam.vec.c 1), fun uv depth => ?_⟩
  unfold Camera.uvToXyz Camera.uvToXy Camera.xyToXyz undistort
  simp only [hk, hp, and_self, if_true, Bool.false_eq_true, if_false]
  split
  · simp only []
    ring
  · rename_i h
    simp only [ne_eq, not_not] at h
    rw [h]
    ring

/-- C88, as far as it is proved (cameras without distortion): everything in the frame up to the given depth is in the box. -/
theorem viewbox_partial (cam : Camera) (hk : cam.vec.k = 0) (hp : cam.vec.p = 0) (hs : ∀ i, 0 < cam.vec.imgsz i) (depth : ℝ) :
    ∃ box, viewbox cam depth = .ok box ∧ ∀ (uv : V2) (d : ℝ), cam.inframe (some uv) → 0 ≤ d → d ≤ depth →
      ∀ i, box.1 i ≤ cam.uvToXyz uv false d i ∧ cam.uvToXyz uv false d i ≤ box.2 i := by
  obtain ⟨w, hw⟩ : ∃ w : Nat, cam.vec.imgsz 0 = w := ⟨(cam.vec.imgsz 0).toNat, by have := hs 0; omega⟩
  obtain ⟨h, hh⟩ : ∃ h : Nat, cam.vec.imgsz 1 = h := ⟨(cam.vec.imgsz 1).toNat, by have := hs 1; omega⟩
  have hw0 : 0 < w := by have := hs 0; rw [hw] at this; exact_mod_cast this
  have hh0 : 0 < h := by have := hs 1; rw [hh] at this; exact_mod_cast this
  unfold viewbox
  simp only [hw, hh, Int.toNat_natCast, edges_default w h hw0 hh0, bind, Except.bind]
  refine ⟨_, rfl, ?_⟩
  intro uv d hin hd0 hd1 i
  set pts := cam.vec.xyz :: List.map (fun p => cam.uvToXyz (realPt p) false depth)
    (side (0, 0) (w, 0) w ++ side (w, 0) (w, h) h ++ side (w, h) (0, h) w ++ side (0, h) (0, 0) h) with hpts
  have first : ∀ (a b : ℚ × ℚ) (m : Nat), 0 < m → a ∈ side a b m := by
    intro a b m hm
    unfold side
    exact List.mem_map.2 ⟨0, List.mem_range.2 hm, by simp⟩
  have corner : ∀ q : ℚ × ℚ, q = (0, 0) ∨ q = ((w : ℚ), 0) ∨ q = ((w : ℚ), (h : ℚ)) ∨ q = (0, (h : ℚ)) →
      (bbox pts).1 i ≤ cam.uvToXyz (realPt q) false depth i ∧ cam.uvToXyz (realPt q) false depth i ≤ (bbox pts).2 i := by
    intro q hq
    apply bbox_mem
    rw [hpts]
    apply List.mem_cons_of_mem
    refine List.mem_map.2 ⟨q, ?_, rfl⟩
    simp only [List.mem_append]
    rcases hq with rfl | rfl | rfl | rfl
    · exact Or.inl (Or.inl (Or.inl (first _ _ _ hw0)))
    · exact Or.inl (Or.inl (Or.inr (first _ _ _ hh0)))
    · exact Or.inl (Or.inr (first _ _ _ hw0))
    · exact Or.inr (first _ _ _ hh0)
  have origin := bbox_mem pts cam.vec.xyz (by rw [hpts]; exact List.mem_cons_self) i
  obtain ⟨A, B, C, hABC⟩ := uvToXyz_affine cam hk hp i
  have c1 := corner (0, 0) (Or.inl rfl)
  have c2 := corner ((w : ℚ), 0) (Or.inr (Or.inl rfl))
  have c3 := corner ((w : ℚ), (h : ℚ)) (Or.inr (Or.inr (Or.inl rfl)))
  have c4 := corner (0, (h : ℚ)) (Or.inr (Or.inr (Or.inr rfl)))
  rw [hABC] at c1 c2 c3 c4 ⊢
  have r1 : ∀ a b : ℚ, realPt (a, b) 0 = (a : ℝ) := fun _ _ => rfl
  have r2 : ∀ a b : ℚ, realPt (a, b) 1 = (b : ℝ) := fun _ _ => rfl
  simp only [r1, r2, Rat.cast_zero, Rat.cast_natCast, mul_zero, add_zero, zero_add] at c1 c2 c3 c4
  obtain ⟨u0, u1⟩ := hin 0
  obtain ⟨v0, v1⟩ := hin 1
  rw [hw] at u1
  rw [hh] at v1
  push_cast at u1 v1
  have hwr : (0 : ℝ) < w := by exact_mod_cast hw0
  have hhr : (0 : ℝ) < h := by exact_mod_cast hh0
  generalize (bbox pts).1 i = lo at *
  generalize (bbox pts).2 i = hi at *
  -- the point is a convex combination of the camera position and the corners
  obtain ⟨s, hs0, hs1, hsu⟩ : ∃ s : ℝ, 0 ≤ s ∧ s ≤ 1 ∧ uv 0 = s * w := ⟨uv 0 / w, by positivity, (div_le_one hwr).2 u1, by field_simp⟩
  obtain ⟨t, ht0, ht1, htv⟩ : ∃ t : ℝ, 0 ≤ t ∧ t ≤ 1 ∧ uv 1 = t * h := ⟨uv 1 / h, by positivity, (div_le_one hhr).2 v1, by field_simp⟩
  have lin : ∀ (m M x y s : ℝ), 0 ≤ s → s ≤ 1 → m ≤ x ∧ x ≤ M → m ≤ y ∧ y ≤ M → m ≤ (1 - s) * x + s * y ∧ (1 - s) * x + s * y ≤ M := by
    intro m M x y s h0 h1 hx hy
    constructor <;> nlinarith
  have e1 := lin lo hi _ _ s hs0 hs1 c1 c2
  have e2 := lin lo hi _ _ s hs0 hs1 c4 c3
  have e3 := lin lo hi _ _ t ht0 ht1 e1 e2
  rcases hd0.eq_or_lt with hz | hz
  · rw [← hz]; simpa using origin
  · have hdep : 0 < depth := lt_of_lt_of_le hz hd1
    have e4 := lin lo hi _ _ (d / depth) (by positivity) ((div_le_one hdep).2 hd1) origin e3
    rw [hsu, htv]
    have heq : (1 - d / depth) * cam.vec.xyz i + d / depth * ((1 - t) * ((1 - s) * (cam.vec.xyz i + depth * C) + s * (cam.vec.xyz i + depth * (A * w + C))) +
        t * ((1 - s) * (cam.vec.xyz i + depth * (B * h + C)) + s * (cam.vec.xyz i + depth * (A * w + B * h + C)))) =
        cam.vec.xyz i + d * (A * (s * w) + B * (t * h) + C) := by
      field_simp
      ring
    rw [← heq]
    exact e4

/-- The box holds nothing but what it must: each limit is reached by the camera position or an image edge. -/
theorem viewbox_tight (cam : Camera) (depth : ℝ) (box : V3 × V3) (hb : viewbox cam depth = .ok box) :
    ∃ uv, edges (cam.vec.imgsz 0).toNat (cam.vec.imgsz 1).toNat (1, 1) = .ok uv ∧
      ∀ i, (∃ q ∈ cam.vec.xyz :: uv.map fun p => cam.uvToXyz (realPt p) false depth, q i = box.1 i) ∧
        ∃ q ∈ cam.vec.xyz :: uv.map fun p => cam.uvToXyz (realPt p) false depth, q i = box.2 i := by
  unfold viewbox at hb
  cases he : edges (cam.vec.imgsz 0).toNat (cam.vec.imgsz 1).toNat (1, 1) with
  | error e => rw [he] at hb; cases hb
  | ok uv =>
    rw [he] at hb
    simp only [bind, Except.bind, Except.ok.injEq] at hb
    subst hb
    refine ⟨uv, rfl, fun i => ?_⟩
    have hmin : ∀ (l : List ℝ) (d : ℝ), l.foldr min d = d ∨ l.foldr min d ∈ l := by
      intro l d
      induction l with
      | nil => exact Or.inl rfl
      | cons a l ih =>
        simp only [List.foldr_cons]
        rcases min_choice a (l.foldr min d) with h | h
        · right; rw [h]; exact List.mem_cons_self
        · rw [h]
          rcases ih with ih | ih
          · exact Or.inl ih
          · exact Or.inr (List.mem_cons_of_mem _ ih)
    have hmax : ∀ (l : List ℝ) (d : ℝ), l.foldr max d = d ∨ l.foldr max d ∈ l := by
      intro l d
      induction l with
      | nil => exact Or.inl rfl
      | cons a l ih =>
        simp only [List.foldr_cons]
        rcases max_choice a (l.foldr max d) with h | h
        · right; rw [h]; exact List.mem_cons_self
        · rw [h]
          rcases ih with ih | ih
          · exact Or.inl ih
          · exact Or.inr (List.mem_cons_of_mem _ ih)
    set pts := cam.vec.xyz :: uv.map fun p => cam.uvToXyz (realPt p) false depth with hpts
    have hhead : (pts.map fun p => p i).headD 0 = cam.vec.xyz i := by rw [hpts]; rfl
    constructor
    · rcases hmin (pts.map fun p => p i) ((pts.map fun p => p i).headD 0) with h | h
      · exact ⟨cam.vec.xyz, List.mem_cons_self, by rw [← hhead]; exact h.symm⟩
      · obtain ⟨q, hq, hqe⟩ := List.mem_map.1 h
        exact ⟨q, hq, hqe⟩
    · rcases hmax (pts.map fun p => p i) ((pts.map fun p => p i).headD 0) with h | h
      · exact ⟨cam.vec.xyz, List.mem_cons_self, by rw [← hhead]; exact h.symm⟩
      · obtain ⟨q, hq, hqe⟩ := List.mem_map.1 h
        exact ⟨q, hq, hqe⟩

/-- C88: the polygon is closed, starts at the camera, and its other two vertices are seen at the left and right ends of the
row through the principal point, at the given depth. (Cameras without distortion.) -/
theorem viewpoly_partial (cam : Camera) (hf : ∀ i, cam.vec.f i ≠ 0) (hk : cam.vec.k = 0) (hp : cam.vec.p = 0) (hcor : cam.correction = none)
    (depth : ℝ) (hdep : 0 < depth) :
    ∃ a b, viewpoly cam depth = [cam.vec.xyz, a, b, cam.vec.xyz] ∧
      cam.xyzToUv a false = (some ![0, (cam.vec.imgsz 1 : ℝ) / 2 + cam.vec.c 1], depth) ∧
      cam.xyzToUv b false = (some ![(cam.vec.imgsz 0 : ℝ), (cam.vec.imgsz 1 : ℝ) / 2 + cam.vec.c 1], depth) := by
  have key : ∀ uv : V2, cam.xyzToUv (cam.uvToXyz uv false depth) false = (some uv, depth) := by
    intro uv
    have h := uv_to_xyz_to_uv_ideal cam hf hk hp uv depth hdep
    have e : ∀ i, cam.uvToXyz uv false depth i - cam.vec.xyz i = cam.uvToXyz uv true depth i := by
      intro i
      unfold Camera.uvToXyz Camera.xyToXyz
      simp
    unfold Camera.xyzToUv Camera.xyzToXy Camera.dxyz at h ⊢
    simp only [if_true, Bool.false_eq_true, if_false, hcor] at h ⊢
    simp only [e]
    exact h
  exact ⟨_, _, rfl, key _, key _⟩

/-- A camera of 100 by 100 pixels that looks north. -/
example : ∃ box, viewbox ⟨⟨0, 0, ![100, 100], ![100, 100], 0, 0, 0⟩, ⟨0, 0, ![100, 100], ![100, 100], 0, 0, 0⟩, none, none⟩ 2 = .ok box := by
  obtain ⟨box, h, -⟩ := viewbox_partial ⟨⟨0, 0, ![100, 100], ![100, 100], 0, 0, 0⟩, ⟨0, 0, ![100, 100], ![100, 100], 0, 0, 0⟩, none, none⟩
    rfl rfl (fun i => by fin_cases i <;> simp) 2
  exact ⟨box, h⟩

end Glimpse.View
