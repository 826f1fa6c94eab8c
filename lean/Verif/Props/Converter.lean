import Verif.Model.Converter
import Mathlib.Tactic.Linarith
import Mathlib.Tactic.Ring
import Mathlib.Tactic.FieldSimp
import Mathlib.Tactic.Positivity
import Mathlib.Tactic.NormNum
import Mathlib.Data.List.Basic

/-!
C100: the image points at which a `Converter` compares two cameras, and what its optimizations change.
-/
set_option autoImplicit false
set_option linter.unusedSimpArgs false
set_option linter.unusedSectionVars false

namespace Glimpse.Convert

open Cams (Sel)

/-! ### Rounding -/

private theorem roundEven_near (x : ℝ) : |(roundEven x : ℝ) - x| ≤ 1 / 2 := by
  have h1 := Int.floor_le x
  have h2 := Int.lt_floor_add_one x
  unfold roundEven
  rw [abs_le]
  split_ifs <;> push_cast <;> constructor <;> linarith

private theorem roundEven_zero (x : ℝ) (hx : 0 ≤ x) : roundEven x = 0 ↔ x ≤ 1 / 2 := by
  constructor
  · intro h
    have := abs_le.1 (roundEven_near x)
    rw [h] at this
    push_cast at this
    linarith [this.1]
  · intro h
    have h0 : ⌊x⌋ = 0 := by
      rw [Int.floor_eq_iff]
      constructor <;> push_cast <;> linarith
    unfold roundEven
    rw [h0]
    push_cast
    rw [sub_zero]
    rw [if_neg (by linarith : ¬ (1 / 2 < x))]
    simp

private theorem roundEven_nonneg (x : ℝ) (hx : 0 ≤ x) : 0 ≤ roundEven x := by
  have h0 : 0 ≤ ⌊x⌋ := Int.floor_nonneg.2 hx
  unfold roundEven
  split_ifs <;> omega

/-! ### Points -/

private theorem axis_eq (w : ℝ) (k : ℕ) (hw : 0 < w) (hk : 0 < k) :
    gridAxis w (w / k) = (List.range k).map fun (i : Nat) => ((i : ℝ) + 1 / 2) * (w / k) := by
  have hk' : (0 : ℝ) < k := by exact_mod_cast hk
  have hlen : ⌈(w - 0.5 * (w / k)) / (w / k)⌉ = (k : ℤ) := by
    rw [Int.ceil_eq_iff]
    have : (w - 0.5 * (w / k)) / (w / k) = k - 1 / 2 := by field_simp; ring
    rw [this]
    push_cast
    constructor <;> linarith
  unfold gridAxis
  rw [hlen, Int.toNat_natCast]
  apply List.map_congr_left
  intro i _
  ring

private theorem flatMap_get {β γ δ : Type} (f : γ → β → δ) (ys : List β) (xs : List γ) (j i : Nat) (hi : i < xs.length) :
    (ys.flatMap fun y => xs.map fun x => f x y)[j * xs.length + i]? =
      (ys[j]?).bind fun y => (xs[i]?).map fun x => f x y := by
  induction ys generalizing j with
  | nil => simp
  | cons y ys ih =>
    rw [List.flatMap_cons]
    cases j with
    | zero =>
      rw [Nat.zero_mul, Nat.zero_add, List.getElem?_append_left (by simpa using hi)]
      simp
    | succ j =>
      have : (j + 1) * xs.length + i = (xs.map fun x => f x y).length + (j * xs.length + i) := by
        rw [List.length_map]; ring
      rw [this, List.getElem?_append_right (by omega), Nat.add_sub_cancel_left, ih]
      simp

private theorem flatMap_len {β γ δ : Type} (f : γ → β → δ) (ys : List β) (xs : List γ) :
    (ys.flatMap fun y => xs.map fun x => f x y).length = ys.length * xs.length := by
  induction ys with
  | nil => simp
  | cons y ys ih => rw [List.flatMap_cons, List.length_append, ih]; simp; ring

/-- The spacing that a square grid of `n` points in an image of this size has. -/
noncomputable def spacing (imgsz : ℤ × ℤ) (n : ℤ) : ℝ := Real.sqrt ((imgsz.1 * imgsz.2 : ℝ) / n)

private theorem grid_ok (imgsz : ℤ × ℤ) (n : ℤ) (pts : List (ℝ × ℝ)) (hw : 0 < imgsz.1) (hh : 0 < imgsz.2)
    (h : convGrid imgsz n = .ok pts) :
    0 < n ∧ ∃ kx ky : ℕ, 0 < kx ∧ 0 < ky ∧ (kx : ℤ) = roundEven (imgsz.1 / spacing imgsz n) ∧
      (ky : ℤ) = roundEven (imgsz.2 / spacing imgsz n) ∧
      pts = ((List.range ky).map fun (j : Nat) => ((j : ℝ) + 1 / 2) * (imgsz.2 / ky)).flatMap
        fun y => ((List.range kx).map fun (i : Nat) => ((i : ℝ) + 1 / 2) * (imgsz.1 / kx)).map fun x => (x, y) := by
  have hw' : (0 : ℝ) < imgsz.1 := by exact_mod_cast hw
  have hh' : (0 : ℝ) < imgsz.2 := by exact_mod_cast hh
  unfold convGrid at h
  split at h
  · cases h
  rename_i hn
  have hn : 0 < n := by omega
  simp only at h
  split at h
  · cases h
  rename_i hk
  push Not at hk
  have hs : 0 ≤ spacing imgsz n := Real.sqrt_nonneg _
  have hx := roundEven_nonneg (imgsz.1 / spacing imgsz n) (by positivity)
  have hy := roundEven_nonneg (imgsz.2 / spacing imgsz n) (by positivity)
  obtain ⟨kx, ekx⟩ := Int.eq_ofNat_of_zero_le hx
  obtain ⟨ky, eky⟩ := Int.eq_ofNat_of_zero_le hy
  have hkx : 0 < kx := by
    rcases Nat.eq_zero_or_pos kx with h0 | h0
    · rw [h0] at ekx; exact absurd ekx hk.1
    · exact h0
  have hky : 0 < ky := by
    rcases Nat.eq_zero_or_pos ky with h0 | h0
    · rw [h0] at eky; exact absurd eky hk.2
    · exact h0
  refine ⟨hn, kx, ky, hkx, hky, ekx.symm, eky.symm, ?_⟩
  have h := (Except.ok.inj h).symm
  have ekx' : roundEven (imgsz.1 / Real.sqrt ((imgsz.1 * imgsz.2 : ℝ) / n)) = (kx : ℤ) := ekx
  have eky' : roundEven (imgsz.2 / Real.sqrt ((imgsz.1 * imgsz.2 : ℝ) / n)) = (ky : ℤ) := eky
  rw [h, ekx', eky', Int.cast_natCast, Int.cast_natCast, axis_eq _ _ hw' hkx, axis_eq _ _ hh' hky]

/-- C100 (points): the points are the centres of `ky` rows of `kx` equal cells that tile the image, row by row. -/
theorem grid_points (imgsz : ℤ × ℤ) (n : ℤ) (pts : List (ℝ × ℝ)) (hw : 0 < imgsz.1) (hh : 0 < imgsz.2)
    (h : convGrid imgsz n = .ok pts) :
    ∃ kx ky : ℕ, 0 < kx ∧ 0 < ky ∧ pts.length = ky * kx ∧
      ∀ j < ky, ∀ i < kx, pts[j * kx + i]? =
        some (((i : ℝ) + 1 / 2) * (imgsz.1 / kx), ((j : ℝ) + 1 / 2) * (imgsz.2 / ky)) := by
  obtain ⟨-, kx, ky, hkx, hky, -, -, rfl⟩ := grid_ok imgsz n pts hw hh h
  refine ⟨kx, ky, hkx, hky, ?_, ?_⟩
  · rw [flatMap_len]; simp
  · intro j hj i hi
    have := flatMap_get (fun x y => ((x, y) : ℝ × ℝ)) ((List.range ky).map fun (j : Nat) => ((j : ℝ) + 1 / 2) * (imgsz.2 / ky))
      ((List.range kx).map fun (i : Nat) => ((i : ℝ) + 1 / 2) * (imgsz.1 / kx)) j i (by simpa using hi)
    rw [show ((List.range kx).map fun (i : Nat) => ((i : ℝ) + 1 / 2) * ((imgsz.1 : ℝ) / kx)).length = kx by simp] at this
    rw [this]
    simp [hi, hj]

/-- C100 (points): all points are strictly inside the image, and spread evenly: every position in the image is in the cell
(half-open, of one size) of exactly one point. -/
theorem grid_cover (imgsz : ℤ × ℤ) (n : ℤ) (pts : List (ℝ × ℝ)) (hw : 0 < imgsz.1) (hh : 0 < imgsz.2)
    (h : convGrid imgsz n = .ok pts) :
    (∀ p ∈ pts, 0 < p.1 ∧ p.1 < imgsz.1 ∧ 0 < p.2 ∧ p.2 < imgsz.2) ∧
    ∃ a b : ℝ, 0 < a ∧ 0 < b ∧ 4 * a * b * pts.length = imgsz.1 * imgsz.2 ∧
      ∀ u v : ℝ, 0 ≤ u → u < imgsz.1 → 0 ≤ v → v < imgsz.2 →
        ∃! k : Nat, ∃ p, pts[k]? = some p ∧ p.1 - a ≤ u ∧ u < p.1 + a ∧ p.2 - b ≤ v ∧ v < p.2 + b := by
  have hw' : (0 : ℝ) < imgsz.1 := by exact_mod_cast hw
  have hh' : (0 : ℝ) < imgsz.2 := by exact_mod_cast hh
  obtain ⟨kx, ky, hkx, hky, hlen, hget⟩ := grid_points imgsz n pts hw hh h
  have hkx' : (0 : ℝ) < kx := by exact_mod_cast hkx
  have hky' : (0 : ℝ) < ky := by exact_mod_cast hky
  have hinv : ∀ k < pts.length, k / kx < ky ∧ k % kx < kx ∧ k / kx * kx + k % kx = k := by
    intro k hk
    refine ⟨?_, Nat.mod_lt _ hkx, Nat.div_add_mod' k kx⟩
    rw [Nat.div_lt_iff_lt_mul hkx, ← hlen]; exact hk
  have hat : ∀ k < pts.length, pts[k]? = some ((((k % kx : ℕ) : ℝ) + 1 / 2) * (imgsz.1 / kx),
      (((k / kx : ℕ) : ℝ) + 1 / 2) * (imgsz.2 / ky)) := by
    intro k hk
    obtain ⟨h1, h2, h3⟩ := hinv k hk
    have := hget _ h1 _ h2
    rwa [h3] at this
  have hdx : 0 < (imgsz.1 : ℝ) / kx := by positivity
  have hdy : 0 < (imgsz.2 : ℝ) / ky := by positivity
  have hcell : ∀ (w : ℝ) (k : ℕ), 0 < w → 0 < (k : ℝ) → ∀ u : ℝ, 0 ≤ u → u < w →
      ⌊u / (w / k)⌋.toNat < k ∧ (∀ i : ℕ, ((i : ℝ) + 1 / 2) * (w / k) - w / k / 2 ≤ u → u < ((i : ℝ) + 1 / 2) * (w / k) + w / k / 2 →
        i = ⌊u / (w / k)⌋.toNat) ∧ ((⌊u / (w / k)⌋.toNat : ℝ) + 1 / 2) * (w / k) - w / k / 2 ≤ u ∧
        u < ((⌊u / (w / k)⌋.toNat : ℝ) + 1 / 2) * (w / k) + w / k / 2 := by
    intro w k hw hk u h0 h1
    have hd : 0 < w / k := by positivity
    have hq : 0 ≤ u / (w / k) := by positivity
    have hf : 0 ≤ ⌊u / (w / k)⌋ := Int.floor_nonneg.2 hq
    have hc : ((⌊u / (w / k)⌋.toNat : ℕ) : ℝ) = (⌊u / (w / k)⌋ : ℝ) := by
      have : ((⌊u / (w / k)⌋.toNat : ℕ) : ℤ) = ⌊u / (w / k)⌋ := Int.toNat_of_nonneg hf
      exact_mod_cast congrArg (fun z : ℤ => (z : ℝ)) this
    have hlo := Int.floor_le (u / (w / k))
    have hhi := Int.lt_floor_add_one (u / (w / k))
    have e : u / (w / k) * (w / k) = u := div_mul_cancel₀ _ hd.ne'
    refine ⟨?_, ?_, ?_, ?_⟩
    · have : u / (w / k) < k := by rw [div_lt_iff₀ hd]; field_simp; exact h1
      have : (⌊u / (w / k)⌋.toNat : ℝ) < k := by rw [hc]; linarith
      exact_mod_cast this
    · intro i hi1 hi2
      have g1 : (i : ℝ) ≤ u / (w / k) := by rw [le_div_iff₀ hd]; nlinarith
      have g2 : u / (w / k) < i + 1 := by rw [div_lt_iff₀ hd]; nlinarith
      have : ⌊u / (w / k)⌋ = (i : ℤ) := by
        rw [Int.floor_eq_iff]; push_cast; exact ⟨g1, g2⟩
      rw [this, Int.toNat_natCast]
    · rw [hc]; nlinarith
    · rw [hc]; nlinarith
  refine ⟨?_, (imgsz.1 : ℝ) / kx / 2, (imgsz.2 : ℝ) / ky / 2, by positivity, by positivity, ?_, ?_⟩
  · intro p hp
    obtain ⟨k, hk, e⟩ := List.getElem_of_mem hp
    have hk' := hat k hk
    rw [List.getElem?_eq_getElem hk, e] at hk'
    obtain rfl := Option.some.inj hk'
    obtain ⟨h1, h2, -⟩ := hinv k hk
    have a1 : ((k % kx : ℕ) : ℝ) + 1 ≤ kx := by exact_mod_cast h2
    have a2 : ((k / kx : ℕ) : ℝ) + 1 ≤ ky := by exact_mod_cast h1
    have e1 : (kx : ℝ) * (imgsz.1 / kx) = imgsz.1 := by field_simp
    have e2 : (ky : ℝ) * (imgsz.2 / ky) = imgsz.2 := by field_simp
    refine ⟨by positivity, ?_, by positivity, ?_⟩
    · show (((k % kx : ℕ) : ℝ) + 1 / 2) * (imgsz.1 / kx) < imgsz.1
      nlinarith
    · show (((k / kx : ℕ) : ℝ) + 1 / 2) * (imgsz.2 / ky) < imgsz.2
      nlinarith
  · rw [hlen]; push_cast; field_simp; ring
  · intro u v hu0 hu1 hv0 hv1
    obtain ⟨c1, c2, c3, c4⟩ := hcell imgsz.1 kx hw' hkx' u hu0 hu1
    obtain ⟨d1, d2, d3, d4⟩ := hcell imgsz.2 ky hh' hky' v hv0 hv1
    refine ⟨⌊v / (imgsz.2 / ky)⌋.toNat * kx + ⌊u / (imgsz.1 / kx)⌋.toNat, ?_, ?_⟩
    · exact ⟨_, hget _ d1 _ c1, c3, c4, d3, d4⟩
    · rintro k ⟨p, hp, p1, p2, p3, p4⟩
      have hk : k < pts.length := by
        by_contra hc
        rw [List.getElem?_eq_none (by omega)] at hp
        cases hp
      rw [hat k hk] at hp
      obtain rfl := Option.some.inj hp
      have r1 := c2 _ p1 p2
      have r2 := d2 _ p3 p4
      rw [← r1, ← r2]
      exact (hinv k hk).2.2.symm

/-- C100 (number of points): the grid has about as many points as asked for: the number differs by at most half the rows and
columns of a square grid of exactly that many points. -/
theorem grid_number (imgsz : ℤ × ℤ) (n : ℤ) (pts : List (ℝ × ℝ)) (hw : 0 < imgsz.1) (hh : 0 < imgsz.2)
    (h : convGrid imgsz n = .ok pts) :
    |(pts.length : ℝ) - n| ≤ (Real.sqrt (n * imgsz.1 / imgsz.2) + Real.sqrt (n * imgsz.2 / imgsz.1)) / 2 + 1 / 4 := by
  have hw' : (0 : ℝ) < imgsz.1 := by exact_mod_cast hw
  have hh' : (0 : ℝ) < imgsz.2 := by exact_mod_cast hh
  obtain ⟨hn, kx, ky, hkx, hky, ex, ey, rfl⟩ := grid_ok imgsz n pts hw hh h
  have hn' : (0 : ℝ) < n := by exact_mod_cast hn
  rw [flatMap_len]
  simp only [List.length_map, List.length_range]
  have hs : 0 < spacing imgsz n := Real.sqrt_pos.2 (by positivity)
  have hsq : spacing imgsz n * spacing imgsz n = imgsz.1 * imgsz.2 / n := Real.mul_self_sqrt (by positivity)
  have gx : (imgsz.1 : ℝ) / spacing imgsz n = Real.sqrt (n * imgsz.1 / imgsz.2) := by
    symm
    rw [Real.sqrt_eq_iff_mul_self_eq (by positivity) (by positivity), div_mul_div_comm, hsq]
    field_simp
  have gy : (imgsz.2 : ℝ) / spacing imgsz n = Real.sqrt (n * imgsz.2 / imgsz.1) := by
    symm
    rw [Real.sqrt_eq_iff_mul_self_eq (by positivity) (by positivity), div_mul_div_comm, hsq]
    field_simp
  have hmul : (imgsz.1 : ℝ) / spacing imgsz n * (imgsz.2 / spacing imgsz n) = n := by
    rw [div_mul_div_comm, hsq]; field_simp
  have nx := abs_le.1 (roundEven_near (imgsz.1 / spacing imgsz n))
  have ny := abs_le.1 (roundEven_near (imgsz.2 / spacing imgsz n))
  rw [← ex, Int.cast_natCast] at nx
  rw [← ey, Int.cast_natCast] at ny
  rw [← gx, ← gy]
  generalize hX : (imgsz.1 : ℝ) / spacing imgsz n = X at *
  generalize hY : (imgsz.2 : ℝ) / spacing imgsz n = Y at *
  have hX0 : 0 ≤ X := by rw [← hX]; positivity
  have hY0 : 0 ≤ Y := by rw [← hY]; positivity
  push_cast
  rw [← hmul]
  obtain ⟨a, ha⟩ : ∃ a : ℝ, (kx : ℝ) = X + a := ⟨kx - X, by ring⟩
  obtain ⟨b, hb⟩ : ∃ b : ℝ, (ky : ℝ) = Y + b := ⟨ky - Y, by ring⟩
  rw [ha] at nx
  rw [hb] at ny
  have a1 : |a| ≤ 1 / 2 := abs_le.2 ⟨by linarith [nx.1], by linarith [nx.2]⟩
  have b1 : |b| ≤ 1 / 2 := abs_le.2 ⟨by linarith [ny.1], by linarith [ny.2]⟩
  have : (ky : ℝ) * kx - X * Y = Y * a + b * X + b * a := by rw [ha, hb]; ring
  rw [this]
  calc |Y * a + b * X + b * a| ≤ |Y * a + b * X| + |b * a| := abs_add_le _ _
    _ ≤ |Y * a| + |b * X| + |b * a| := by linarith [abs_add_le (Y * a) (b * X)]
    _ = Y * |a| + |b| * X + |b| * |a| := by rw [abs_mul, abs_mul, abs_mul, abs_of_nonneg hX0, abs_of_nonneg hY0]
    _ ≤ (X + Y) / 2 + 1 / 4 := by nlinarith [abs_nonneg a, abs_nonneg b]

/-- C100 (refusals): for cameras of the same image size a grid is refused, with ValueError, exactly if the number of points is
not positive or the image is so long that the other side is shorter than half the spacing. -/
theorem grid_refused_iff (imgsz : ℤ × ℤ) (n : ℤ) (hw : 0 < imgsz.1) (hh : 0 < imgsz.2) :
    (convGrid imgsz n = .error .valueError ↔ n ≤ 0 ∨ 4 * imgsz.1 * n ≤ imgsz.2 ∨ 4 * imgsz.2 * n ≤ imgsz.1) ∧
    (∀ e, convGrid imgsz n = .error e → e = .valueError) := by
  have hw' : (0 : ℝ) < imgsz.1 := by exact_mod_cast hw
  have hh' : (0 : ℝ) < imgsz.2 := by exact_mod_cast hh
  constructor
  · unfold convGrid
    by_cases hn : n ≤ 0
    · simp [hn]
    · rw [if_neg hn]
      have hn : 0 < n := by omega
      have hn' : (0 : ℝ) < n := by exact_mod_cast hn
      have hs : 0 < spacing imgsz n := Real.sqrt_pos.2 (by positivity)
      have hsq : spacing imgsz n * spacing imgsz n = imgsz.1 * imgsz.2 / n := Real.mul_self_sqrt (by positivity)
      have key : ∀ a b : ℤ, 0 < a → 0 < b → spacing imgsz n * spacing imgsz n = (a : ℝ) * b / n →
          (roundEven ((a : ℝ) / spacing imgsz n) = 0 ↔ 4 * a * n ≤ b) := by
        intro a b ha hb hab
        have ha' : (0 : ℝ) < a := by exact_mod_cast ha
        have hb' : (0 : ℝ) < b := by exact_mod_cast hb
        rw [roundEven_zero _ (by positivity), div_le_iff₀ hs]
        have : (4 * a * n ≤ b) ↔ 4 * (a : ℝ) * n ≤ b := by
          rw [← Int.cast_le (R := ℝ)]; push_cast; rfl
        rw [this]
        have e : spacing imgsz n * spacing imgsz n * n = a * b := by rw [hab]; field_simp
        constructor
        · intro h1
          have h2 : (2 * a) * (2 * a) ≤ spacing imgsz n * spacing imgsz n :=
            mul_self_le_mul_self (by positivity) (by linarith)
          have h3 : (2 * (a : ℝ)) * (2 * a) * n ≤ a * b := by
            rw [← e]; exact mul_le_mul_of_nonneg_right h2 hn'.le
          have : a * (4 * a * n) ≤ a * (b : ℝ) := by linarith
          exact le_of_mul_le_mul_left this ha'
        · intro h1
          have : (2 * (a : ℝ)) * (2 * a) ≤ spacing imgsz n * spacing imgsz n := by
            rw [hab, le_div_iff₀ hn']; nlinarith
          have := abs_le_of_sq_le_sq' (by nlinarith : (2 * (a : ℝ)) ^ 2 ≤ spacing imgsz n ^ 2) hs.le
          linarith [this.2]
      have k1 := key imgsz.1 imgsz.2 hw hh hsq
      have k2 := key imgsz.2 imgsz.1 hh hw (by rw [hsq]; ring)
      unfold spacing at k1 k2
      simp only
      split
      · rename_i h
        simp only [true_iff]
        rcases h with h | h
        · exact Or.inr (Or.inl (k1.1 h))
        · exact Or.inr (Or.inr (k2.1 h))
      · rename_i h
        push Not at h
        simp only [reduceCtorEq, false_iff]
        push Not
        refine ⟨hn, ?_, ?_⟩
        · by_contra hc
          exact h.1 (k1.2 (by omega))
        · by_contra hc
          exact h.2 (k2.2 (by omega))
  · intro e
    unfold convGrid
    intro h
    split at h
    · exact (Except.error.inj h).symm
    · simp only at h
      split at h
      · exact (Except.error.inj h).symm
      · cases h

/-- C100 (refusals): different image sizes are refused; given points are used as they are. -/
theorem converter_sizes (ximgsz imgsz : ℤ × ℤ) :
    (ximgsz ≠ imgsz → ∀ uv, converterInit ximgsz imgsz uv = .error .valueError) ∧
    (∀ l, converterInit imgsz imgsz (.points l) = .ok l) ∧
    (∀ n, converterInit imgsz imgsz (.number n) = convGrid imgsz n) := by
  refine ⟨?_, ?_, ?_⟩
  · intro h uv
    cases uv <;> simp [converterInit, h]
  · intro l; simp [converterInit]
  · intro n; simp [converterInit]

/-- C100 (refusals, violated): a valid number of points is refused for a panorama, since its short side rounds to no points
(`1` point in an image of 8 by 2 pixels). -/
theorem grid_panorama_violated : converterInit (8, 2) (8, 2) (.number 1) = .error .valueError := by
  rw [(converter_sizes (8, 2) (8, 2)).2.2 1]
  exact (grid_refused_iff (8, 2) 1 (by norm_num) (by norm_num)).1.2 (by norm_num)

/-! ### Optimization -/

/-- The optimizer run on a function without side effects: what it returns. -/
def runPure {α ρ : Type} (f : List α → Except Err ρ) : Lsq α ρ → Except Err (List α)
  | .done x => x
  | .eval x next =>
    match f x with
    | .error e => .error e
    | .ok r => runPure f (next r)

/-- The optimizer only uses vectors of length `n`. -/
def Sized {α ρ : Type} (n : Nat) : Lsq α ρ → Prop
  | .done x => ∀ l, x = .ok l → l.length = n
  | .eval x next => x.length = n ∧ ∀ r, Sized n (next r)

/-- Running with side effects equals running without, if writing overwrites what was written before. -/
private theorem run_pure {α ρ σ : Type} (n : Nat) (put : List α → σ → Except Err σ) (res : σ → Except Err ρ) (s0 : σ)
    (putT : List α → σ) (Inv : σ → Prop) (hput : ∀ s x, Inv s → x.length = n → put x s = .ok (putT x))
    (hinv : ∀ x, x.length = n → Inv (putT x)) (T : Lsq α ρ) (hT : Sized n T) (s : σ) (hs : Inv s) :
    (runLsq put res T s).1 = runPure (fun x => res (putT x)) T ∧ Inv (runLsq put res T s).2 ∧
      (∀ x, (runLsq put res T s).1 = .ok x → x.length = n) ∧
      ((runLsq put res T s).2 = s ∨ ∃ x, x.length = n ∧ (runLsq put res T s).2 = putT x) := by
  induction T generalizing s with
  | done x => exact ⟨rfl, hs, fun l hl => hT l hl, Or.inl rfl⟩
  | eval x next ih =>
    obtain ⟨hx, hn⟩ := hT
    unfold runLsq runPure
    rw [hput s x hs hx]
    simp only
    cases hr : res (putT x) with
    | error e => exact ⟨rfl, hinv x hx, by simp, Or.inr ⟨x, hx, rfl⟩⟩
    | ok r =>
      simp only
      obtain ⟨a, b, c, d⟩ := ih r (hn r) (putT x) (hinv x hx)
      refine ⟨a, b, c, ?_⟩
      rcases d with d | d
      · exact Or.inr ⟨x, hx, d⟩
      · exact Or.inr d

variable {α ρ : Type}

/-- Rank of a selected element among the selected. -/
private theorem assign_assign (v : Nat → α) (m : Nat → Bool) (x y : List α) (hx : x.length = Cams.countMask m)
    (hy : y.length = Cams.countMask m) : Cams.assign (Cams.assign v m y) m x = Cams.assign v m x := by
  funext p
  unfold Cams.assign
  split
  · rename_i h
    have hr : Cams.rank m p < x.length := by
      rw [hx]
      unfold Cams.rank Cams.countMask
      have hsplit : List.range 20 = List.range (p + 1) ++ (List.range (19 - p)).map (p + 1 + ·) := by
        rw [← List.range_add]; congr 1; omega
      rw [hsplit, List.filter_append, List.length_append, List.range_succ, List.filter_append, List.length_append]
      simp [h.2]
      omega
    simp only [List.getD_eq_getElem?_getD, List.getElem?_eq_getElem hr, Option.getD_some]
  · rfl

/-- C100 (`optimize_cam`): for any optimizer that works with as many values as are selected: it raises what parsing the
parameters raises, without changes; otherwise the camera is left with exactly the values that the optimizer returns (run on
the residuals as a function of the selected values) in the selected elements, and unchanged elsewhere. -/
theorem optimize_cam_spec (d : Cams.Dict) (res : (Nat → α) → Except Err ρ) (S : List α → Lsq α ρ) (v : Nat → α) :
    (∀ e, Cams.maskOf d = .error e → optimizeCam d res S v = (.error e, v)) ∧
    (∀ m, Cams.maskOf d = .ok m → Sized (Cams.countMask m) (S (takeMask v m)) →
      (∀ x, runPure (fun x => res (Cams.assign v m x)) (S (takeMask v m)) = .ok x →
        optimizeCam d res S v = (.ok (), Cams.assign v m x)) ∧
      (∀ e, runPure (fun x => res (Cams.assign v m x)) (S (takeMask v m)) = .error e →
        (optimizeCam d res S v).1 = .error e ∧ ∀ p, m p = false → (optimizeCam d res S v).2 p = v p)) := by
  constructor
  · intro e h
    unfold optimizeCam
    rw [h]
  · intro m hm hS
    have hrun := run_pure (Cams.countMask m) (fun x v => .ok (Cams.assign v m x)) res v (fun x => Cams.assign v m x)
      (fun s => ∀ x, x.length = Cams.countMask m → Cams.assign s m x = Cams.assign v m x) 
      (fun s x hs hx => by rw [hs x hx]) (fun x hx y hy => assign_assign v m y x hy hx) _ hS v (fun _ _ => rfl)
    obtain ⟨r1, r2, r3, r4⟩ := hrun
    unfold optimizeCam
    rw [hm]
    simp only
    rcases hr : runLsq (fun x v => .ok (Cams.assign v m x)) res (S (takeMask v m)) v with ⟨o, s'⟩
    rw [hr] at r1 r2 r3 r4
    simp only at r1 r2 r3 r4
    constructor
    · intro x hx
      rw [hx] at r1
      subst r1
      simp only
      rw [r2 x (r3 x rfl)]
    · intro e he
      rw [he] at r1
      subst r1
      simp only
      refine ⟨trivial, ?_⟩
      intro p hp
      rcases r4 with rfl | ⟨x, -, rfl⟩
      · rfl
      · unfold Cams.assign
        rw [if_neg (by simp [hp])]

/-- C100 (`optimize_cam`, the values are in their places): the selected elements, in order, are what the optimizer returned. -/
theorem optimize_cam_values (v : Nat → α) (m : Nat → Bool) (x : List α) (hx : x.length = Cams.countMask m) :
    takeMask (Cams.assign v m x) m = x ∧ ∀ p, m p = false → Cams.assign v m x p = v p := by
  constructor
  · have key : ∀ n, n ≤ 20 → ((List.range n).filter m).map (Cams.assign v m x) = x.take ((List.range n).filter m).length := by
      intro n
      induction n with
      | zero => simp
      | succ n ih =>
        intro hn
        rw [List.range_succ, List.filter_append, List.map_append, ih (by omega), List.length_append]
        cases hm : m n with
        | false => simp [hm]
        | true =>
          have hr : Cams.rank m n < x.length := by
            rw [hx]
            unfold Cams.rank Cams.countMask
            have hsplit : List.range 20 = List.range (n + 1) ++ (List.range (19 - n)).map (n + 1 + ·) := by
              rw [← List.range_add]; congr 1; omega
            rw [hsplit, List.filter_append, List.length_append, List.range_succ, List.filter_append, List.length_append]
            simp [hm]
            omega
          have ha : Cams.assign v m x n = x[Cams.rank m n] := by
            unfold Cams.assign
            rw [if_pos ⟨by omega, hm⟩, List.getD_eq_getElem?_getD, List.getElem?_eq_getElem hr]
            rfl
          simp only [List.filter_cons, hm, if_true, List.filter_nil, List.map_cons, List.map_nil, List.length_cons,
            List.length_nil, ha]
          rw [List.take_add_one]
          congr 1
          unfold Cams.rank at hr
          rw [List.getElem?_eq_getElem hr]
          rfl
    unfold takeMask
    rw [key 20 (le_refl _)]
    rw [List.take_of_length_le]
    rw [hx]
    exact le_refl _
  · intro p hp
    unfold Cams.assign
    rw [if_neg (by simp [hp])]

/-! #### External cameras -/

private theorem pyIndex_lt (n : Nat) (i : ℤ) (k : Nat) (h : Cams.pyIndex n i = .ok k) : k < n := by
  unfold Cams.pyIndex at h
  split at h
  · rename_i h1
    obtain rfl := Except.ok.inj h
    omega
  · split at h
    · rename_i h1 h2
      obtain rfl := Except.ok.inj h
      omega
    · cases h

/-- The selection is all elements, or positions that exist. -/
def SelOk (n : Nat) : Sel → Prop
  | .all => True
  | .indices l => ∀ i ∈ l, ∃ k, Cams.pyIndex n i = .ok k
  | _ => False

/-- The selection includes position `p` of `n`. -/
def Selects (n : Nat) : Sel → Nat → Prop
  | .all, _ => True
  | .indices l, p => ∃ i ∈ l, Cams.pyIndex n i = .ok p
  | _, _ => False

/-- No position is selected twice. -/
def Once (n : Nat) : Sel → Prop
  | .indices l => (l.map fun i => Cams.pyIndex n i).Nodup
  | _ => True

private theorem scatterAt_ok (vals : List α) (l : List ℤ) (xs : List α) (hl : ∀ i ∈ l, ∃ k, Cams.pyIndex vals.length i = .ok k)
    (hx : xs.length = l.length) :
    ∃ vals', scatterAt vals l xs = .ok vals' ∧ vals'.length = vals.length ∧
      (∀ p, (∀ i ∈ l, Cams.pyIndex vals.length i ≠ .ok p) → vals'[p]? = vals[p]?) ∧
      ((l.map fun i => Cams.pyIndex vals.length i).Nodup → ∀ (j : Nat) (i : ℤ) (k : Nat), l[j]? = some i →
        Cams.pyIndex vals.length i = .ok k → vals'[k]? = xs[j]?) := by
  induction l generalizing vals xs with
  | nil => exact ⟨vals, by simp [scatterAt], rfl, fun _ _ => rfl, by simp⟩
  | cons i l ih =>
    cases xs with
    | nil => simp at hx
    | cons x xs =>
      obtain ⟨k, hk⟩ := hl i (by simp)
      have hk' := pyIndex_lt _ _ _ hk
      obtain ⟨vals', h1, h2, h3, h4⟩ := ih (vals.set k x) xs (fun i' hi' => by
        rw [List.length_set]; exact hl i' (by simp [hi'])) (by simpa using hx)
      rw [List.length_set] at h2 h3 h4
      refine ⟨vals', ?_, h2, ?_, ?_⟩
      · unfold scatterAt
        rw [hk]
        exact h1
      · intro p hp
        rw [h3 p (fun i' hi' => hp i' (by simp [hi'])), List.getElem?_set_ne]
        intro e
        exact hp i (by simp) (e ▸ hk)
      · intro hnd j i' k' hj hk2
        rw [List.map_cons, List.nodup_cons] at hnd
        cases j with
        | zero =>
          simp only [List.getElem?_cons_zero, Option.some.injEq] at hj
          subst hj
          rw [hk] at hk2
          obtain rfl := Except.ok.inj hk2
          rw [h3 k (fun i' hi' e => hnd.1 (List.mem_map.2 ⟨i', hi', by rw [e, hk]⟩)), List.getElem?_set_self hk']
          rfl
        | succ j =>
          rw [List.getElem?_cons_succ] at hj
          rw [List.getElem?_cons_succ]
          exact h4 hnd.2 j i' k' hj hk2

private theorem scatterAt_congr (vals vals' : List α) (l : List ℤ) (xs : List α) (hlen : vals.length = vals'.length)
    (hl : ∀ i ∈ l, ∃ k, Cams.pyIndex vals.length i = .ok k) (hx : xs.length = l.length)
    (h : ∀ p, (∀ i ∈ l, Cams.pyIndex vals.length i ≠ .ok p) → vals[p]? = vals'[p]?) :
    scatterAt vals l xs = scatterAt vals' l xs := by
  induction l generalizing vals vals' xs with
  | nil =>
    unfold scatterAt
    congr 1
    apply List.ext_getElem?
    intro p
    exact h p (by simp)
  | cons i l ih =>
    cases xs with
    | nil => simp at hx
    | cons x xs =>
      obtain ⟨k, hk⟩ := hl i (by simp)
      have hk' := pyIndex_lt _ _ _ hk
      unfold scatterAt
      rw [← hlen, hk]
      simp only
      apply ih
      · simp [hlen]
      · rw [List.length_set]; exact fun i' hi' => hl i' (by simp [hi'])
      · simpa using hx
      · intro p hp
        rw [List.length_set] at hp
        by_cases e : k = p
        · subst e
          rw [List.getElem?_set_self hk', List.getElem?_set_self (hlen ▸ hk')]
        · rw [List.getElem?_set_ne e, List.getElem?_set_ne e]
          apply h
          intro i' hi'
          rcases List.mem_cons.1 hi' with rfl | hi'
          · rw [hk]; intro e'; exact e (Except.ok.inj e')
          · exact hp i' hi'

private theorem scatter_ok (vals : List α) (s : Sel) (xs : List α) (hs : SelOk vals.length s) (hx : xs.length = selCount vals s) :
    ∃ vals', scatter vals s xs = .ok vals' ∧ vals'.length = vals.length ∧
      (∀ p, ¬ Selects vals.length s p → vals'[p]? = vals[p]?) ∧ (Once vals.length s → gather vals' s = .ok xs) := by
  cases s with
  | all =>
    refine ⟨xs, by simp [scatter, selCount] at hx ⊢; exact hx, by simpa [selCount] using hx, ?_, ?_⟩
    · intro p hp; exact absurd trivial hp
    · intro _; rfl
  | no => exact absurd hs id
  | nothing => exact absurd hs id
  | index i => exact absurd hs id
  | indices l =>
    obtain ⟨vals', h1, h2, h3, h4⟩ := scatterAt_ok vals l xs hs hx
    refine ⟨vals', h1, h2, ?_, ?_⟩
    · intro p hp
      exact h3 p (fun i hi e => hp ⟨i, hi, e⟩)
    · intro ho
      have h4 := h4 ho
      unfold gather
      rw [h2]
      have hx : xs.length = l.length := hx
      have hl : ∀ i ∈ l, ∃ k, Cams.pyIndex vals.length i = .ok k := hs
      have key : ∀ (l' : List ℤ) (xs' : List α), xs'.length = l'.length →
          (∀ (j : Nat) (i : ℤ), l'[j]? = some i → ∃ k x, Cams.pyIndex vals.length i = .ok k ∧ vals'[k]? = some x ∧ xs'[j]? = some x) →
          (l'.mapM fun i => do
            let k ← Cams.pyIndex vals.length i
            match vals'[k]? with
            | some x => pure x
            | none => throw Err.indexError) = .ok xs' := by
        intro l'
        induction l' with
        | nil => intro xs' hx' _; have := List.eq_nil_of_length_eq_zero hx'; subst this; rfl
        | cons i l' ih =>
          intro xs' hx' hj
          cases xs' with
          | nil => simp at hx'
          | cons x xs' =>
            obtain ⟨k, y, e1, e2, e3⟩ := hj 0 i rfl
            simp only [List.getElem?_cons_zero, Option.some.injEq] at e3
            subst e3
            rw [List.mapM_cons, ih xs' (by simpa using hx') (fun j i' h' => by
              obtain ⟨k', x', f1, f2, f3⟩ := hj (j + 1) i' h'
              exact ⟨k', x', f1, f2, f3⟩)]
            simp only [e1, e2, bind, Except.bind, pure, Except.pure]
      apply key l xs hx
      intro j i hj
      obtain ⟨k, hk⟩ := hl i (List.mem_of_getElem? hj)
      have hlt : j < xs.length := by
        rw [hx]
        by_contra hc
        rw [List.getElem?_eq_none (by omega)] at hj
        cases hj
      have := h4 j i k hj hk
      rw [List.getElem?_eq_getElem hlt] at this
      exact ⟨k, xs[j], hk, this, List.getElem?_eq_getElem hlt⟩

private theorem scatter_congr (vals vals' : List α) (s : Sel) (xs : List α) (hlen : vals.length = vals'.length)
    (hs : SelOk vals.length s) (hx : xs.length = selCount vals s)
    (h : ∀ p, ¬ Selects vals.length s p → vals[p]? = vals'[p]?) : scatter vals s xs = scatter vals' s xs := by
  cases s with
  | all => simp [scatter, hlen]
  | no => exact absurd hs id
  | nothing => exact absurd hs id
  | index i => exact absurd hs id
  | indices l =>
    apply scatterAt_congr vals vals' l xs hlen hs hx
    intro p hp
    exact h p (fun ⟨i, hi, e⟩ => hp i hi e)

private theorem wrap_ok (l : List α) (h : l ≠ []) : ∃ a, wrapAttr l = .ok a ∧ a.vals = l := by
  match l, h with
  | [a], _ => exact ⟨.one a, rfl, rfl⟩
  | a :: b :: l, _ => exact ⟨.many (a :: b :: l), rfl, rfl⟩

/-- The items can be read from and written to the camera. -/
def ItemsOk (items : List (String × Sel)) (A : XCam α) : Prop :=
  (items.map Prod.fst).Nodup ∧ ∀ k s, (k, s) ∈ items → ∃ a, A k = some a ∧ a.vals ≠ [] ∧ SelOk a.vals.length s

/-- `B` differs from `A` only in selected elements. -/
def SameElsewhere (items : List (String × Sel)) (A B : XCam α) : Prop :=
  (∀ k, (∀ s, (k, s) ∉ items) → B k = A k) ∧
  ∀ k s, (k, s) ∈ items → ∃ a b, A k = some a ∧ B k = some b ∧ b.vals.length = a.vals.length ∧
    ∀ p, ¬ Selects a.vals.length s p → b.vals[p]? = a.vals[p]?

private def count (items : List (String × Sel)) (A : XCam α) : Nat :=
  (items.map fun ks => match A ks.1 with
    | some a => selCount a.vals ks.2
    | none => 0).sum

private theorem count_congr (items : List (String × Sel)) (A B : XCam α) (h : ∀ k s, (k, s) ∈ items → A k = B k) :
    count items A = count items B := by
  unfold count
  congr 1
  apply List.map_congr_left
  rintro ⟨k, s⟩ hk
  simp only [h k s hk]

private theorem apply_ok (items : List (String × Sel)) (A : XCam α) (x : List α) (hi : ItemsOk items A)
    (hx : x.length = count items A) :
    ∃ B, applyItems items x A = .ok B ∧ SameElsewhere items A B ∧
      ((∀ k s a, (k, s) ∈ items → A k = some a → Once a.vals.length s) → startValues B items = .ok x) := by
  induction items generalizing A x with
  | nil =>
    have : x = [] := List.eq_nil_of_length_eq_zero (by simpa [count] using hx)
    subst this
    exact ⟨A, rfl, ⟨fun _ _ => rfl, by simp⟩, fun _ => rfl⟩
  | cons ks rest ih =>
    obtain ⟨k, s⟩ := ks
    obtain ⟨hnd, hall⟩ := hi
    rw [List.map_cons, List.nodup_cons] at hnd
    obtain ⟨a, ha, hne, hso⟩ := hall k s (by simp)
    have hcount : count ((k, s) :: rest) A = selCount a.vals s + count rest A := by
      unfold count
      simp [ha]
    rw [hcount] at hx
    have hk1 : (x.take (selCount a.vals s)).length = selCount a.vals s := by rw [List.length_take]; omega
    obtain ⟨vals, e1, e2, e3, e4⟩ := scatter_ok a.vals s _ hso hk1
    have hvne : vals ≠ [] := by
      intro h
      rw [h] at e2
      exact hne (List.eq_nil_of_length_eq_zero e2.symm)
    obtain ⟨b, f1, f2⟩ := wrap_ok vals hvne
    have hne_key : ∀ k' s', (k', s') ∈ rest → k' ≠ k := by
      intro k' s' h' e
      exact hnd.1 (List.mem_map.2 ⟨(k', s'), h', e⟩)
    have hset : ∀ k' s', (k', s') ∈ rest → A.set k b k' = A k' := by
      intro k' s' h'
      unfold XCam.set
      rw [if_neg (hne_key k' s' h')]
    obtain ⟨B, g1, g2, g3⟩ := ih (A.set k b) (x.drop (selCount a.vals s)) ⟨hnd.2, fun k' s' h' => by
        rw [hset k' s' h']; exact hall k' s' (by simp [h'])⟩ (by
        rw [List.length_drop, count_congr rest (A.set k b) A hset]; omega)
    have hBk : B k = some b := by
      rw [g2.1 k (fun s' h' => hne_key k s' h' rfl)]
      simp [XCam.set]
    refine ⟨B, ?_, ⟨?_, ?_⟩, ?_⟩
    · unfold applyItems
      simp only [ha, e1, f1, bind, Except.bind]
      exact g1
    · intro k' hk'
      have h1 : k' ≠ k := fun e => hk' s (by simp [e])
      rw [g2.1 k' (fun s' h' => hk' s' (by simp [h']))]
      unfold XCam.set
      rw [if_neg h1]
    · intro k' s' h'
      rcases List.mem_cons.1 h' with h' | h'
      · obtain ⟨rfl, rfl⟩ := Prod.mk.inj h'
        exact ⟨a, b, ha, hBk, by rw [f2, e2], by rw [f2]; exact e3⟩
      · obtain ⟨a', b', q1, q2⟩ := g2.2 k' s' h'
        rw [hset k' s' h'] at q1
        exact ⟨a', b', q1, q2⟩
    · intro honce
      unfold startValues
      simp only [hBk]
      rw [f2, e4 (honce k s a (by simp) ha), g3 (fun k' s' a' h' ha' => by
        rw [hset k' s' h'] at ha'
        exact honce k' s' a' (by simp [h']) ha')]
      simp only [bind, Except.bind, pure, Except.pure, List.take_append_drop]

private theorem apply_congr (items : List (String × Sel)) (A B : XCam α) (x : List α) (hi : ItemsOk items A)
    (hx : x.length = count items A) (h : SameElsewhere items A B) : applyItems items x B = applyItems items x A := by
  induction items generalizing A B x with
  | nil =>
    have : B = A := funext fun k => h.1 k (by simp)
    rw [this]
  | cons ks rest ih =>
    obtain ⟨k, s⟩ := ks
    obtain ⟨hnd, hall⟩ := hi
    rw [List.map_cons, List.nodup_cons] at hnd
    obtain ⟨a, ha, hne, hso⟩ := hall k s (by simp)
    have hcount : count ((k, s) :: rest) A = selCount a.vals s + count rest A := by
      unfold count
      simp [ha]
    rw [hcount] at hx
    have hk1 : (x.take (selCount a.vals s)).length = selCount a.vals s := by rw [List.length_take]; omega
    obtain ⟨a', b', q1, q2, q3, q4⟩ := h.2 k s (by simp)
    rw [ha] at q1
    obtain rfl := Option.some.inj q1
    have hsc : selCount b'.vals s = selCount a.vals s := by
      cases s <;> simp [selCount, q3]
    have hscat : scatter b'.vals s (x.take (selCount a.vals s)) = scatter a.vals s (x.take (selCount a.vals s)) :=
      (scatter_congr a.vals b'.vals s _ q3.symm hso hk1 (fun p hp => (q4 p hp).symm)).symm
    obtain ⟨vals, e1, e2, -, -⟩ := scatter_ok a.vals s _ hso hk1
    have hvne : vals ≠ [] := by
      intro h
      rw [h] at e2
      exact hne (List.eq_nil_of_length_eq_zero e2.symm)
    obtain ⟨b, f1, f2⟩ := wrap_ok vals hvne
    have hne_key : ∀ k' s', (k', s') ∈ rest → k' ≠ k := by
      intro k' s' h' e
      exact hnd.1 (List.mem_map.2 ⟨(k', s'), h', e⟩)
    have hset : ∀ k' s', (k', s') ∈ rest → A.set k b k' = A k' := by
      intro k' s' h'
      unfold XCam.set
      rw [if_neg (hne_key k' s' h')]
    unfold applyItems
    simp only [ha, q2, hsc, hscat, e1, f1, bind, Except.bind]
    apply ih
    · exact ⟨hnd.2, fun k' s' h' => by rw [hset k' s' h']; exact hall k' s' (by simp [h'])⟩
    · rw [List.length_drop, count_congr rest (A.set k b) A hset]; omega
    · constructor
      · intro k' hk'
        unfold XCam.set
        by_cases e : k' = k
        · rw [if_pos e, if_pos e]
        · rw [if_neg e, if_neg e]
          apply h.1
          intro s' h'
          rcases List.mem_cons.1 h' with h' | h'
          · exact e (Prod.mk.inj h').1
          · exact hk' s' h'
      · intro k' s' h'
        rw [hset k' s' h']
        have : B.set k b k' = B k' := by
          unfold XCam.set
          rw [if_neg (hne_key k' s' h')]
        rw [this]
        exact h.2 k' s' (by simp [h'])

private theorem start_ok (items : List (String × Sel)) (A : XCam α) (x0 : List α) (hnd : (items.map Prod.fst).Nodup)
    (ht : ∀ k s, (k, s) ∈ items → truthy s = true) (hne : ∀ k a, A k = some a → a.vals ≠ [])
    (h : startValues A items = .ok x0) : ItemsOk items A ∧ x0.length = count items A := by
  induction items generalizing x0 with
  | nil =>
    obtain rfl := Except.ok.inj h
    exact ⟨⟨hnd, by simp⟩, rfl⟩
  | cons ks rest ih =>
    obtain ⟨k, s⟩ := ks
    unfold startValues at h
    cases ha : A k with
    | none => rw [ha] at h; cases h
    | some a =>
      rw [ha] at h
      simp only at h
      cases hg : gather a.vals s with
      | error e => simp [hg, bind, Except.bind] at h
      | ok xs =>
        cases hs : startValues A rest with
        | error e => simp [hg, hs, bind, Except.bind] at h
        | ok ys =>
          simp only [hg, hs, bind, Except.bind, pure, Except.pure] at h
          have h := (Except.ok.inj h).symm
          rw [List.map_cons, List.nodup_cons] at hnd
          obtain ⟨⟨-, i1⟩, i2⟩ := ih ys hnd.2 (fun k' s' h' => ht k' s' (by simp [h'])) hs
          have hsel : SelOk a.vals.length s ∧ xs.length = selCount a.vals s := by
            cases s with
            | all => exact ⟨trivial, by obtain rfl := Except.ok.inj hg; rfl⟩
            | no => have := ht k .no (by simp); simp [truthy] at this
            | nothing => have := ht k .nothing (by simp); simp [truthy] at this
            | index i =>
              unfold gather at hg
              simp only at hg
              split at hg <;> cases hg
            | indices l =>
              unfold gather at hg
              simp only at hg
              have key : ∀ (l : List ℤ) (xs : List α), (l.mapM fun i => do
                  let k ← Cams.pyIndex a.vals.length i
                  match a.vals[k]? with
                  | some x => (pure x : Except Err α)
                  | none => throw Err.indexError) = .ok xs →
                  (∀ i ∈ l, ∃ k, Cams.pyIndex a.vals.length i = .ok k) ∧ xs.length = l.length := by
                intro l
                induction l with
                | nil => intro xs h; obtain rfl := Except.ok.inj h; simp
                | cons i l ihl =>
                  intro xs h
                  rw [List.mapM_cons] at h
                  cases hp : Cams.pyIndex a.vals.length i with
                  | error e => simp [hp, bind, Except.bind] at h
                  | ok q =>
                    have hq := List.getElem?_eq_getElem (pyIndex_lt _ _ _ hp)
                    simp only [hp, hq, bind, Except.bind, pure, Except.pure] at h
                    split at h
                    · cases h
                    · rename_i zs hz
                      obtain rfl := Except.ok.inj h
                      obtain ⟨r1, r2⟩ := ihl zs hz
                      refine ⟨?_, by simp [r2]⟩
                      intro i' hi'
                      rcases List.mem_cons.1 hi' with rfl | hi'
                      · exact ⟨q, hp⟩
                      · exact r1 i' hi'
              exact key l xs hg
          refine ⟨⟨by rw [List.map_cons, List.nodup_cons]; exact hnd, ?_⟩, ?_⟩
          · intro k' s' h'
            rcases List.mem_cons.1 h' with h' | h'
            · obtain ⟨rfl, rfl⟩ := Prod.mk.inj h'
              exact ⟨a, ha, hne _ _ ha, hsel.1⟩
            · exact i1 k' s' h'
          · rw [h, List.length_append, hsel.2, i2]
            unfold count
            simp [ha]

private theorem elsewhere_refl (items : List (String × Sel)) (A : XCam α) (h : ItemsOk items A) : SameElsewhere items A A := by
  refine ⟨fun _ _ => rfl, ?_⟩
  intro k s hk
  obtain ⟨a, ha, -, -⟩ := h.2 k s hk
  exact ⟨a, a, ha, ha, rfl, fun _ _ => rfl⟩

/-- C100 (`optimize_xcam`): if the starting values can be read (`x0`), then for any optimizer that works with as many values: if it
returns `x`, all selected elements of the camera are set to `x` (read in the same order they give `x` again, if none is
selected twice) and nothing else changes; if it or the residuals raise, nothing but selected elements has changed. -/
theorem optimize_xcam_spec (params : List (String × Sel)) (hnd : (params.map Prod.fst).Nodup) (res : XCam α → Except Err ρ)
    (S : List α → Lsq α ρ) (A : XCam α) (hne : ∀ k a, A k = some a → a.vals ≠ []) (x0 : List α)
    (h : startValues A (keepItems params) = .ok x0) (hS : Sized x0.length (S x0)) :
    SameElsewhere (keepItems params) A (optimizeXcam params res S A).2 ∧
    ∃ put : List α → XCam α,
      (∀ x, x.length = x0.length → SameElsewhere (keepItems params) A (put x) ∧
        ((∀ k s a, (k, s) ∈ params → A k = some a → Once a.vals.length s) → startValues (put x) (keepItems params) = .ok x)) ∧
      (∀ x, runPure (fun x => res (put x)) (S x0) = .ok x → optimizeXcam params res S A = (.ok (), put x)) ∧
      (∀ e, runPure (fun x => res (put x)) (S x0) = .error e → (optimizeXcam params res S A).1 = .error e) := by
  have hsub : ((keepItems params).map Prod.fst).Nodup :=
    List.Nodup.sublist (List.Sublist.map _ List.filter_sublist) hnd
  have htr : ∀ k s, (k, s) ∈ keepItems params → truthy s = true := fun k s hk => (List.mem_filter.1 hk).2
  obtain ⟨hi, hx0⟩ := start_ok _ A x0 hsub htr hne h
  have hput : ∀ x : List α, ∃ B, x.length = x0.length → applyItems (keepItems params) x A = .ok B ∧
      SameElsewhere (keepItems params) A B ∧
      ((∀ k s a, (k, s) ∈ keepItems params → A k = some a → Once a.vals.length s) →
        startValues B (keepItems params) = .ok x) := by
    intro x
    by_cases hx : x.length = x0.length
    · obtain ⟨B, hB⟩ := apply_ok _ A x hi (by rw [hx, hx0])
      exact ⟨B, fun _ => hB⟩
    · exact ⟨A, fun hc => absurd hc hx⟩
  choose put hput using hput
  have hinv : ∀ s x, SameElsewhere (keepItems params) A s → x.length = x0.length →
      applyItems (keepItems params) x s = .ok (put x) := by
    intro s x hs hx
    rw [apply_congr _ A s x hi (by rw [hx, hx0]) hs]
    exact (hput x hx).1
  have hrun := run_pure x0.length (applyItems (keepItems params)) res A put (SameElsewhere (keepItems params) A) hinv
    (fun x hx => (hput x hx).2.1) (S x0) hS A (elsewhere_refl _ A hi)
  obtain ⟨r1, r2, r3, -⟩ := hrun
  have hopt : optimizeXcam params res S A = match runLsq (applyItems (keepItems params)) res (S x0) A with
      | (.error e, A') => (.error e, A')
      | (.ok x, A') => match applyItems (keepItems params) x A' with
        | .error e => (.error e, A')
        | .ok A'' => (.ok (), A'') := by
    unfold optimizeXcam
    rw [h]
    rfl
  rcases hr : runLsq (applyItems (keepItems params)) res (S x0) A with ⟨o, A'⟩
  rw [hr] at r1 r2 r3 hopt
  simp only at r1 r2 r3 hopt
  refine ⟨?_, put, ?_, ?_, ?_⟩
  · rw [hopt]
    cases o with
    | error e => exact r2
    | ok x =>
      simp only
      rw [hinv A' x r2 (r3 x rfl)]
      exact (hput x (r3 x rfl)).2.1
  · intro x hx
    refine ⟨(hput x hx).2.1, fun ho => (hput x hx).2.2 (fun k s a hk ha => ho k s a (List.mem_filter.1 hk).1 ha)⟩
  · intro x hx
    rw [hx] at r1
    subst r1
    rw [hopt]
    simp only
    rw [hinv A' x r2 (r3 x rfl)]
  · intro e he
    rw [he] at r1
    subst r1
    rw [hopt]

/-- C100 (violated, first element): `{key: 0}`, documented as the first element, selects nothing; the element is never changed. -/
theorem optimize_xcam_zero_violated (k : String) (res : XCam α → Except Err ρ) (S : List α → Lsq α ρ) (A : XCam α) :
    startValues A (keepItems [(k, .index 0)]) = .ok [] ∧ (optimizeXcam [(k, .index 0)] res S A).2 = A := by
  have hk : keepItems [(k, Sel.index 0)] = [] := by simp [keepItems, truthy]
  have hrun : ∀ T : Lsq α ρ, (runLsq (applyItems []) res T A).2 = A := by
    intro T
    induction T with
    | done x => rfl
    | eval x next ih =>
      unfold runLsq
      simp only [applyItems]
      cases hr : res A with
      | error e => rfl
      | ok r => exact ih r
  refine ⟨by rw [hk]; rfl, ?_⟩
  unfold optimizeXcam
  rw [hk]
  simp only [startValues]
  rcases hr : runLsq (applyItems []) res (S []) A with ⟨o, A'⟩
  have hA := hrun (S [])
  rw [hr] at hA
  simp only at hA
  subst hA
  cases o with
  | error e => rfl
  | ok x => rfl

/-- C100 (violated, other elements): `{key: i}` for any other integer raises for every camera: a TypeError if the element exists. -/
theorem optimize_xcam_index_violated (k : String) (i : ℤ) (hi : i ≠ 0) (res : XCam α → Except Err ρ) (S : List α → Lsq α ρ)
    (A : XCam α) : ∃ e, optimizeXcam [(k, .index i)] res S A = (.error e, A) ∧
      (∀ a q, A k = some a → Cams.pyIndex a.vals.length i = .ok q → e = .typeError) := by
  have hk : keepItems [(k, Sel.index i)] = [(k, .index i)] := by simp [keepItems, truthy, hi]
  unfold optimizeXcam
  rw [hk]
  unfold startValues
  cases ha : A k with
  | none => exact ⟨.attributeError, rfl, by simp⟩
  | some a =>
    simp only [gather]
    cases hq : Cams.pyIndex a.vals.length i with
    | error e =>
      refine ⟨e, rfl, ?_⟩
      intro a' q e1 e2
      obtain rfl := Option.some.inj e1
      rw [hq] at e2; cases e2
    | ok q => exact ⟨.typeError, rfl, fun _ _ _ _ => rfl⟩

/-- C100 (violated, interruption): when the residuals raise, the camera is left with the values that were being tried. -/
theorem optimize_cam_raise_violated : ∃ (d : Cams.Dict) (res : (Nat → ℚ) → Except Err Unit) (S : List ℚ → Lsq ℚ Unit) (v : Nat → ℚ),
    (optimizeCam d res S v).1 = .error .valueError ∧ (optimizeCam d res S v).2 6 ≠ v 6 := by
  refine ⟨[("imgsz", ⟨.indices [0], none⟩)], fun _ => .error .valueError, fun x => .eval (x.map (· + 1)) fun _ => .done (.ok x),
    fun _ => 0, ?_, ?_⟩ <;> decide +kernel

/-! ### Non-vacuity -/

/-- A thousand points in an image of 640 by 480 pixels. -/
example : ∃ pts, convGrid (640, 480) 1000 = .ok pts := by
  obtain ⟨h1, h2⟩ := grid_refused_iff (640, 480) 1000 (by norm_num) (by norm_num)
  cases h : convGrid (640, 480) 1000 with
  | ok pts => exact ⟨pts, rfl⟩
  | error e =>
    rw [h2 e h] at h
    have := h1.1 h
    norm_num at this

private def exCam : XCam ℚ := fun k => if k = "fc" then some (.many [3, 4]) else if k = "alpha_c" then some (.one 5) else none
private def exParams : List (String × Sel) := [("alpha_c", .all), ("kc", .nothing), ("fc", .indices [-1])]

example : startValues exCam (keepItems exParams) = .ok [5, 4] := by decide +kernel
example : (exParams.map Prod.fst).Nodup := by decide +kernel
example : ∀ k s a, (k, s) ∈ exParams → exCam k = some a → Once a.vals.length s := by
  intro k s a hk ha
  simp [exParams] at hk
  rcases hk with ⟨rfl, rfl⟩ | ⟨rfl, rfl⟩ | ⟨rfl, rfl⟩ <;> simp [Once]
example : (optimizeXcam exParams (fun _ => .ok ()) (fun x => .eval (x.map (· + 1)) fun _ => .done (.ok (x.map (· * 2)))) exCam).2 "fc" =
    some (.many [3, 8]) := by decide +kernel
example : (optimizeXcam exParams (fun _ => .ok ()) (fun x => .eval (x.map (· + 1)) fun _ => .done (.ok (x.map (· * 2)))) exCam).2 "alpha_c" =
    some (.one 10) := by decide +kernel
example : ((Cams.maskOf [("viewdir", ⟨.all, none⟩)]).map fun m => Cams.countMask m) = .ok 3 := by decide +kernel

end Glimpse.Convert
