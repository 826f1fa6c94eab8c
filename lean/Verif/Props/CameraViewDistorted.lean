import Verif.Props.CameraView
import Verif.Props.Distortion

/-!
C88 for cameras with lens distortion: `Camera.viewbox` misses part of what the camera sees.
-/
set_option autoImplicit false
set_option linter.unusedSimpArgs false
set_option linter.unusedSectionVars false

namespace Glimpse.View

private theorem rot_zero : rotR (0 : V3) 0 0 = 1 ∧ rotR (0 : V3) 1 0 = 0 ∧ rotR (0 : V3) 2 0 = 0 := by
  refine ⟨?_, ?_, ?_⟩ <;> simp [rotR, deg2rad]

private theorem north_x (cam : Camera) (hv : cam.vec.viewdir = 0) (uv : V2) (depth : ℝ) :
    cam.uvToXyz uv false depth 0 = cam.uvToXy uv 0 * depth + cam.vec.xyz 0 := by
  have r0 : rotR cam.vec.viewdir 0 0 = 1 := by rw [hv]; exact rot_zero.1
  have r1 : rotR cam.vec.viewdir 1 0 = 0 := by rw [hv]; exact rot_zero.2.1
  have r2 : rotR cam.vec.viewdir 2 0 = 0 := by rw [hv]; exact rot_zero.2.2
  unfold Camera.uvToXyz Camera.xyToXyz
  simp only [Bool.false_eq_true, if_false]
  split
  · simp only [r0, r1, r2]; ring
  · rename_i h
    simp only [ne_eq, not_not] at h
    simp only [r0, r1, r2, h]; ring

private theorem distort_at (k : Fin 6 → ℝ) (p : V2) (h : OnlyK1 k p) (xy : V2) (i : Fin 2) :
    distort k p xy i = xy i * (1 + k 0 * (xy 0 ^ 2 + xy 1 ^ 2)) := by
  obtain ⟨h0, h1, h2⟩ := h
  have hk : k ≠ 0 := fun h => h0 (by rw [h]; rfl)
  unfold distort
  rw [if_neg (fun hh => hk hh.1)]
  simp only [hk, ne_eq, not_false_iff, if_true, h2, not_true, if_false]
  simp [radialDistortion, h1 1 (by decide), h1 2 (by decide), h1 3 (by decide), h1 4 (by decide), h1 5 (by decide)]

/-- With a positive coefficient, no point with a smaller `x` or the same `x` off the axis is undistorted to as large an `x`. -/
private theorem undistort_lt (k : Fin 6 → ℝ) (p : V2) (h : OnlyK1 k p) (hk : 0 < k 0) (X x y : ℝ) (hX : 0 < X) (hx : x ≤ X) (hy : y ≠ 0) :
    undistort k p ![x, y] 0 < undistort k p ![X, 0] 0 := by
  have e1 := distort_undistort_k1_partial k p h ![X, 0] (.inl (by simpa using hX.ne'))
  set a := undistort k p ![X, 0] with ha
  have a0 := congrFun e1 0
  have a1 := congrFun e1 1
  rw [distort_at k p h] at a0 a1
  simp only [Matrix.cons_val_zero, Matrix.cons_val_one] at a0 a1
  have s1 : 0 < 1 + k 0 * (a 0 ^ 2 + a 1 ^ 2) := by positivity
  have ha1 : a 1 = 0 := by
    rcases mul_eq_zero.1 a1 with e | e
    · exact e
    · exact absurd e s1.ne'
  have hapos : 0 < a 0 := by
    by_contra hc
    nlinarith [mul_nonpos_of_nonpos_of_nonneg (not_lt.1 hc) s1.le]
  rw [ha1] at a0
  by_cases hx0 : x = 0
  · subst hx0
    rw [(undistort_k1_axis_violated k p h y hy).1]
    exact hapos
  · have e2 := distort_undistort_k1_partial k p h ![x, y] (.inl (by simpa using hx0))
    set b := undistort k p ![x, y] with hb
    have b0 := congrFun e2 0
    have b1 := congrFun e2 1
    rw [distort_at k p h] at b0 b1
    simp only [Matrix.cons_val_zero, Matrix.cons_val_one] at b0 b1
    have hb1 : b 1 ≠ 0 := by intro e; rw [e, zero_mul] at b1; exact hy b1.symm
    by_contra hc
    have hge : a 0 ≤ b 0 := not_lt.1 hc
    have hbpos : 0 < b 0 := lt_of_lt_of_le hapos hge
    have hsq : a 0 ^ 2 ≤ b 0 ^ 2 := by nlinarith
    have hb2 : 0 < b 1 ^ 2 := by positivity
    have hlt : 1 + k 0 * (a 0 ^ 2 + 0 ^ 2) < 1 + k 0 * (b 0 ^ 2 + b 1 ^ 2) := by nlinarith
    have : a 0 * (1 + k 0 * (a 0 ^ 2 + 0 ^ 2)) < b 0 * (1 + k 0 * (b 0 ^ 2 + b 1 ^ 2)) :=
      mul_lt_mul' hge hlt (by positivity) hbpos
    linarith

private theorem side_x (a b : ℚ × ℚ) (m : Nat) (M : ℚ) (ha : a.1 ≤ M) (hb : b.1 ≤ M) : ∀ q ∈ side a b m, q.1 ≤ M := by
  intro q hq
  unfold side at hq
  obtain ⟨j, hj, rfl⟩ := List.mem_map.1 hq
  have hjm : j < m := List.mem_range.1 hj
  have hm : (0 : ℚ) < m := by exact_mod_cast (by omega : 0 < m)
  have h0 : (0 : ℚ) ≤ (j : ℚ) / m := by positivity
  have h1 : (j : ℚ) / m ≤ 1 := by rw [div_le_one hm]; exact_mod_cast hjm.le
  simp only
  nlinarith

private theorem side_y (a b : ℚ × ℚ) (m : Nat) (hm : 0 < m) (ha : ∃ z : ℤ, a.2 = z) (hb : b.2 = a.2 ∨ b.2 = a.2 + m ∨ b.2 = a.2 - m) :
    ∀ q ∈ side a b m, ∃ z : ℤ, q.2 = z := by
  intro q hq
  unfold side at hq
  obtain ⟨j, hj, rfl⟩ := List.mem_map.1 hq
  obtain ⟨z, hz⟩ := ha
  have hm' : (m : ℚ) ≠ 0 := by exact_mod_cast hm.ne'
  rcases hb with e | e | e
  · exact ⟨z, by simp only [e, hz]; ring⟩
  · exact ⟨z + j, by simp only [e, hz]; push_cast; field_simp; ring⟩
  · exact ⟨z - j, by simp only [e, hz]; push_cast; field_simp; ring⟩

/-- C88 fails for every camera with (positive) first-order lens distortion and an odd number of rows that looks north: the point it sees
in the middle of the right image edge is outside of the box, for every depth. (Only whole pixels along the edges are projected, and the
edge bulges between them.) -/
theorem viewbox_distorted_violated (cam : Camera) (w h : Nat) (hw : 0 < w) (hodd : h % 2 = 1) (e0 : cam.vec.imgsz 0 = w)
    (e1 : cam.vec.imgsz 1 = h) (hv : cam.vec.viewdir = 0) (hc : cam.vec.c = 0) (hf : ∀ i, 0 < cam.vec.f i)
    (hk : OnlyK1 cam.vec.k cam.vec.p) (hpos : 0 < cam.vec.k 0) (depth : ℝ) (hd : 0 < depth) :
    ∃ box, viewbox cam depth = .ok box ∧ cam.inframe (some ![(w : ℝ), (h : ℝ) / 2]) ∧
      box.2 0 < cam.uvToXyz ![(w : ℝ), (h : ℝ) / 2] false depth 0 := by
  have hh : 0 < h := by omega
  have hed := edges_default w h hw hh
  have hbox : ∃ box, viewbox cam depth = .ok box := by
    unfold viewbox
    simp only [e0, e1, Int.toNat_natCast, hed, bind, Except.bind]
    exact ⟨_, rfl⟩
  obtain ⟨box, hb⟩ := hbox
  refine ⟨box, hb, ?_, ?_⟩
  · intro i
    have hwr : (0 : ℝ) ≤ w := by positivity
    have hhr : (0 : ℝ) ≤ h := by positivity
    fin_cases i
    · simp [e0]
    · simp only [Fin.mk_one, Matrix.cons_val_one, Fin.isValue, e1, Int.cast_natCast]
      constructor
      · change (0 : ℝ) ≤ (h : ℝ) / 2
        linarith
      · change (h : ℝ) / 2 ≤ h
        linarith
  · obtain ⟨uv, hu, htight⟩ := viewbox_tight cam depth box hb
    rw [e0, e1, Int.toNat_natCast, Int.toNat_natCast, hed] at hu
    have hu' := Except.ok.inj hu
    obtain ⟨q, hq, hqe⟩ := (htight 0).2
    rw [← hqe]
    have f0 := hf 0
    have f1 := hf 1
    have hXpos : (0 : ℝ) < (w : ℝ) / 2 / cam.vec.f 0 := by
      have : (0 : ℝ) < w := by exact_mod_cast hw
      positivity
    have target : cam.uvToXy ![(w : ℝ), (h : ℝ) / 2] = undistort cam.vec.k cam.vec.p ![(w : ℝ) / 2 / cam.vec.f 0, 0] := by
      unfold Camera.uvToXy
      congr 1
      funext i
      fin_cases i
      · simp [e0, hc]; field_simp; ring
      · simp [e1, hc]; left; ring
    rw [north_x cam hv, target]
    rcases List.mem_cons.1 hq with rfl | hq
    · have := undistort_lt cam.vec.k cam.vec.p hk hpos _ 0 1 hXpos hXpos.le one_ne_zero
      rw [(undistort_k1_axis_violated cam.vec.k cam.vec.p hk 1 one_ne_zero).1] at this
      have h2 : 0 < undistort cam.vec.k cam.vec.p ![(w : ℝ) / 2 / cam.vec.f 0, 0] 0 := this
      have := mul_pos h2 hd
      linarith
    · obtain ⟨s, hs, rfl⟩ := List.mem_map.1 hq
      rw [north_x cam hv]
      have hs1 : s.1 ≤ (w : ℚ) ∧ ∃ z : ℤ, s.2 = z := by
        rw [← hu'] at hs
        have hwq : (0 : ℚ) ≤ w := by positivity
        simp only [List.mem_append] at hs
        rcases hs with ((hs | hs) | hs) | hs
        · exact ⟨side_x (0, 0) ((w : ℚ), 0) w w hwq le_rfl s hs, side_y (0, 0) ((w : ℚ), 0) w hw ⟨0, by simp⟩ (.inl rfl) s hs⟩
        · exact ⟨side_x ((w : ℚ), 0) ((w : ℚ), (h : ℚ)) h w le_rfl le_rfl s hs,
            side_y ((w : ℚ), 0) ((w : ℚ), (h : ℚ)) h hh ⟨0, by simp⟩ (.inr (.inl (by simp))) s hs⟩
        · exact ⟨side_x ((w : ℚ), (h : ℚ)) (0, (h : ℚ)) w w le_rfl hwq s hs,
            side_y ((w : ℚ), (h : ℚ)) (0, (h : ℚ)) w hw ⟨h, by simp⟩ (.inl rfl) s hs⟩
        · exact ⟨side_x (0, (h : ℚ)) (0, 0) h w hwq hwq s hs,
            side_y (0, (h : ℚ)) (0, 0) h hh ⟨h, by simp⟩ (.inr (.inr (by simp))) s hs⟩
      obtain ⟨hsx, z, hz⟩ := hs1
      have hform : cam.uvToXy (realPt s) = undistort cam.vec.k cam.vec.p
          ![((s.1 : ℝ) - w / 2) / cam.vec.f 0, ((s.2 : ℝ) - h / 2) / cam.vec.f 1] := by
        unfold Camera.uvToXy realPt
        congr 1
        funext i
        fin_cases i
        · simp [e0, hc]; field_simp; try ring
        · simp [e1, hc]; field_simp; try ring
      rw [hform]
      have hlt := undistort_lt cam.vec.k cam.vec.p hk hpos ((w : ℝ) / 2 / cam.vec.f 0) (((s.1 : ℝ) - w / 2) / cam.vec.f 0)
        (((s.2 : ℝ) - h / 2) / cam.vec.f 1) hXpos (by
          rw [div_le_div_iff_of_pos_right f0]
          have : (s.1 : ℝ) ≤ w := by exact_mod_cast hsx
          linarith) (by
          apply div_ne_zero _ f1.ne'
          rw [hz]
          intro e
          have e2 : (2 * z : ℝ) = h := by
            have : ((z : ℚ) : ℝ) = (z : ℝ) := by norm_num
            rw [this] at e
            linarith
          have e3 : 2 * z = (h : ℤ) := by exact_mod_cast e2
          omega)
      have := mul_lt_mul_of_pos_right hlt hd
      linarith

/-- C88 for cameras with first-order lens distortion (either sign) whose principal point is not on an image edge: `viewpoly` is the
triangle from the camera to points seen at the left and right image edges at that depth. -/
theorem viewpoly_k1_partial (cam : Camera) (hf : ∀ i, cam.vec.f i ≠ 0) (hk : OnlyK1 cam.vec.k cam.vec.p) (hcor : cam.correction = none)
    (h0 : (cam.vec.imgsz 0 : ℝ) / 2 + cam.vec.c 0 ≠ 0) (h1 : (cam.vec.imgsz 0 : ℝ) / 2 + cam.vec.c 0 ≠ cam.vec.imgsz 0)
    (depth : ℝ) (hdep : 0 < depth) :
    ∃ a b, viewpoly cam depth = [cam.vec.xyz, a, b, cam.vec.xyz] ∧
      cam.xyzToUv a false = (some ![0, (cam.vec.imgsz 1 : ℝ) / 2 + cam.vec.c 1], depth) ∧
      cam.xyzToUv b false = (some ![(cam.vec.imgsz 0 : ℝ), (cam.vec.imgsz 1 : ℝ) / 2 + cam.vec.c 1], depth) := by
  have key : ∀ uv : V2, uv 0 ≠ cam.vec.imgsz 0 / 2 + cam.vec.c 0 → cam.xyzToUv (cam.uvToXyz uv false depth) false = (some uv, depth) := by
    intro uv hu
    have h := uv_to_xyz_to_uv_k1 cam hf hk uv hu depth hdep
    have e : ∀ i, cam.uvToXyz uv false depth i - cam.vec.xyz i = cam.uvToXyz uv true depth i := by
      intro i
      unfold Camera.uvToXyz Camera.xyToXyz
      simp
    unfold Camera.xyzToUv Camera.xyzToXy Camera.dxyz at h ⊢
    simp only [if_true, Bool.false_eq_true, if_false, hcor] at h ⊢
    simp only [e]
    exact h
  exact ⟨_, _, rfl, key _ (by simpa using h0.symm), key _ (by simpa using h1.symm)⟩

/-- C88 fails for cameras that correct for the curvature of the earth: the corner of `viewpoly` of a camera that looks north is not seen at
the left image edge in the row of the principal point. -/
theorem viewpoly_correction_violated (cam : Camera) (hf : ∀ i, cam.vec.f i ≠ 0) (hk : cam.vec.k = 0) (hp : cam.vec.p = 0)
    (hv : cam.vec.viewdir = 0) (radius refraction : ℝ) (hr : radius ≠ 0) (hn : refraction ≠ 1) (hcor : cam.correction = some (radius, refraction))
    (depth : ℝ) (hdep : 0 < depth) :
    ∃ a b, viewpoly cam depth = [cam.vec.xyz, a, b, cam.vec.xyz] ∧
      ∀ d, cam.xyzToUv a false ≠ (some ![0, (cam.vec.imgsz 1 : ℝ) / 2 + cam.vec.c 1], d) := by
  refine ⟨_, _, rfl, fun d hs => ?_⟩
  have R : ∀ i j, rotR cam.vec.viewdir i j = !![1, 0, 0; 0, 0, -1; 0, 1, 0] i j := by
    intro i j
    rw [hv]
    fin_cases i <;> fin_cases j <;> simp [rotR, deg2rad]
  set cy := (cam.vec.imgsz 1 : ℝ) / 2 + cam.vec.c 1 with hcy
  set x0 := (0 - ((cam.vec.imgsz 0 : ℝ) * 0.5 + cam.vec.c 0)) * (1 / cam.vec.f 0) with hx0
  have huv : cam.uvToXy ![0, cy] = ![x0, 0] := by
    unfold Camera.uvToXy undistort
    rw [if_pos ⟨hk, hp⟩]
    funext i
    fin_cases i
    · simp [hx0]
    · simp [hcy]; left; ring
  have hpt : ∀ i, cam.uvToXyz ![0, cy] false depth i - cam.vec.xyz i = ![x0 * depth, depth, 0] i := by
    intro i
    unfold Camera.uvToXyz Camera.xyToXyz
    rw [huv]
    simp only [R, Bool.false_eq_true, if_false]
    split
    · fin_cases i <;> simp
    · rename_i h
      simp only [ne_eq, not_not] at h
      fin_cases i <;> simp [h]
  have hdx : cam.dxyz (cam.uvToXyz ![0, cy] false depth) false =
      ![x0 * depth, depth, elevationCorrection radius refraction ((x0 * depth) ^ 2 + depth ^ 2)] := by
    unfold Camera.dxyz
    simp only [hcor, hpt, Bool.false_eq_true, if_false]
    funext i
    fin_cases i <;> simp
  set z := elevationCorrection radius refraction ((x0 * depth) ^ 2 + depth ^ 2) with hz
  have hz0 : z ≠ 0 := by
    rw [hz]
    unfold elevationCorrection
    have : 0 < (x0 * depth) ^ 2 + depth ^ 2 := by positivity
    exact div_ne_zero (mul_ne_zero (sub_ne_zero.2 hn) this.ne') (by positivity)
  have hc : (rotR cam.vec.viewdir).mulVec (cam.dxyz (cam.uvToXyz ![0, cy] false depth) false) = ![x0 * depth, -z, depth] := by
    rw [hdx]
    funext i
    simp only [Matrix.mulVec, dotProduct, Fin.sum_univ_three, R]
    fin_cases i <;> simp
  unfold Camera.xyzToUv Camera.xyzToXy at hs
  simp only [hc] at hs
  have hle : ¬ ((![x0 * depth, -z, depth] : V3) 2 ≤ 0) := by
    change ¬ (depth ≤ 0)
    linarith
  rw [if_neg hle] at hs
  have h1 := (Prod.ext_iff.1 hs).1
  simp only [Option.map_some, Option.some.injEq] at h1
  have h2 := congrFun h1 1
  unfold Camera.xyToUv distort at h2
  rw [if_pos ⟨hk, hp⟩] at h2
  have h3 : -z / depth * cam.vec.f 1 + cy = cy := h2
  have h4 : -z / depth * cam.vec.f 1 = 0 := by linarith
  exact mul_ne_zero (div_ne_zero (neg_ne_zero.2 hz0) hdep.ne') (hf 1) h4

/-- A case: a 3 by 3 camera with `k[0] = 1`. -/
example : ∃ box, viewbox ⟨⟨0, 0, ![3, 3], ![1, 1], 0, ![1, 0, 0, 0, 0, 0], 0⟩, ⟨0, 0, ![3, 3], ![1, 1], 0, ![1, 0, 0, 0, 0, 0], 0⟩, none, none⟩ 2 = .ok box := by
  obtain ⟨box, h, -⟩ := viewbox_distorted_violated
    ⟨⟨0, 0, ![3, 3], ![1, 1], 0, ![1, 0, 0, 0, 0, 0], 0⟩, ⟨0, 0, ![3, 3], ![1, 1], 0, ![1, 0, 0, 0, 0, 0], 0⟩, none, none⟩
    3 3 (by norm_num) (by norm_num) rfl rfl rfl rfl (fun i => by fin_cases i <;> simp)
    ⟨by simp, fun i hi => by fin_cases i <;> simp_all, rfl⟩ (by simp) 2 (by norm_num)
  exact ⟨box, h⟩

end Glimpse.View
