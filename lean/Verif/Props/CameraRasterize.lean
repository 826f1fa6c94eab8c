import Verif.Model.Camera
import Verif.Props.Rasterize
import Mathlib.Data.Rat.Floor
import Mathlib.Tactic.Linarith
import Mathlib.Tactic.NormNum

/-!
C21: `Camera.rasterize`.
-/
set_option autoImplicit false
set_option linter.unusedSimpArgs false

namespace Glimpse

/-- Spec: the values of the points that lie in the pixel of row `r` and column `c`, the half-open unit square
`[c, c+1) × [r, r+1)`. -/
def pixelValues (pts : List (Option (ℚ × ℚ) × ℚ)) (r c : Nat) : List ℚ :=
  (pts.filter fun q => match q.1 with
    | none => false
    | some (u, v) => decide ((c : ℚ) ≤ u ∧ u < c + 1 ∧ (r : ℚ) ≤ v ∧ v < r + 1)).map (·.2)

/-- Spec: the point is in (or on) the image frame and on its right or lower border. -/
def OnFarBorder (nx ny : Nat) (q : Option (ℚ × ℚ) × ℚ) : Prop :=
  ∃ u v, q.1 = some (u, v) ∧ 0 ≤ u ∧ u ≤ nx ∧ 0 ≤ v ∧ v ≤ ny ∧ (u = nx ∨ v = ny)

private def selOf (nx ny : Nat) (pts : List (Option (ℚ × ℚ) × ℚ)) : List RPoint :=
  (pts.filterMap fun q => match q.1 with
    | none => none
    | some (u, v) =>
      if 0 ≤ u ∧ u ≤ nx ∧ 0 ≤ v ∧ v ≤ ny then some (⟨u.floor, v.floor, q.2⟩ : ℤ × ℤ × ℚ) else none).map
    fun q => ⟨q.2.1, q.1, q.2.2⟩

private theorem mem_selOf (nx ny : Nat) (pts : List (Option (ℚ × ℚ) × ℚ)) (p : RPoint) :
    p ∈ selOf nx ny pts ↔ ∃ q ∈ pts, ∃ u v, q.1 = some (u, v) ∧ (0 ≤ u ∧ u ≤ nx ∧ 0 ≤ v ∧ v ≤ ny) ∧
      p = ⟨v.floor, u.floor, q.2⟩ := by
  unfold selOf
  simp only [List.mem_map, List.mem_filterMap]
  constructor
  · rintro ⟨t, ⟨q, hq, ht⟩, rfl⟩
    obtain ⟨o, val⟩ := q
    cases o with
    | none => simp at ht
    | some uv =>
      obtain ⟨u, v⟩ := uv
      by_cases h : 0 ≤ u ∧ u ≤ nx ∧ 0 ≤ v ∧ v ≤ ny
      · simp only [h, and_self, if_true, Option.some.injEq] at ht
        subst ht
        exact ⟨_, hq, u, v, rfl, h, rfl⟩
      · simp only [h, if_false] at ht
        cases ht
  · rintro ⟨⟨o, val⟩, hq, u, v, rfl, h, rfl⟩
    refine ⟨⟨u.floor, v.floor, val⟩, ⟨_, hq, ?_⟩, rfl⟩
    simp [h]

private theorem floor_eq (u : ℚ) (n : ℤ) : u.floor = n ↔ (n : ℚ) ≤ u ∧ u < n + 1 := by
  rw [show u.floor = ⌊u⌋ from rfl]; exact Int.floor_eq_iff

private theorem values_selOf (nx ny : Nat) (pts : List (Option (ℚ × ℚ) × ℚ)) (r c : Nat) (hr : r < ny) (hc : c < nx) :
    cellValues (selOf nx ny pts) r c = pixelValues pts r c := by
  have hr' : (r : ℚ) + 1 ≤ ny := by exact_mod_cast hr
  have hc' : (c : ℚ) + 1 ≤ nx := by exact_mod_cast hc
  unfold cellValues pixelValues selOf
  induction pts with
  | nil => rfl
  | cons q pts ih =>
    obtain ⟨o, val⟩ := q
    cases o with
    | none => simpa using ih
    | some uv =>
      obtain ⟨u, v⟩ := uv
      by_cases h : 0 ≤ u ∧ u ≤ nx ∧ 0 ≤ v ∧ v ≤ ny
      · simp only [List.filterMap_cons, h, and_self, if_true, List.map_cons, List.filter_cons]
        have hiff : (v.floor = (r : ℤ) ∧ u.floor = (c : ℤ)) ↔ ((c : ℚ) ≤ u ∧ u < c + 1 ∧ (r : ℚ) ≤ v ∧ v < r + 1) := by
          rw [floor_eq, floor_eq]; push_cast; tauto
        by_cases hin : v.floor = (r : ℤ) ∧ u.floor = (c : ℤ)
        · have hin' := hiff.mp hin
          simp only [hin, hin', and_self, decide_true, if_true, List.map_cons]
          exact congrArg _ ih
        · have hin' := fun hh => hin (hiff.mpr hh)
          rw [if_neg (by simpa using hin), if_neg (by simpa using hin')]
          exact ih
      · have hin : ¬ ((c : ℚ) ≤ u ∧ u < c + 1 ∧ (r : ℚ) ≤ v ∧ v < r + 1) := by
          rintro ⟨h1, h2, h3, h4⟩
          have hc0 : (0 : ℚ) ≤ c := by positivity
          have hr0 : (0 : ℚ) ≤ r := by positivity
          exact h ⟨by linarith, by linarith, by linarith, by linarith⟩
        simp only [List.filterMap_cons, h, if_false, List.filter_cons, hin, decide_false, Bool.false_eq_true]
        exact ih

private theorem rasterize_eq (nx ny : Nat) (pts : List (Option (ℚ × ℚ) × ℚ)) :
    cameraRasterize nx ny pts = (rasterizePoints (selOf nx ny pts) ny nx).map fun um =>
      setFlat (List.replicate (ny * nx) none) um.1 (um.2.map some) := by
  unfold cameraRasterize selOf
  simp only [bind, Except.bind, pure, Except.pure, Except.map]
  rfl

private theorem inShape_of (nx ny : Nat) (pts : List (Option (ℚ × ℚ) × ℚ)) (h : ∀ q ∈ pts, ¬ OnFarBorder nx ny q) :
    ∀ p ∈ selOf nx ny pts, InShape ny nx p := by
  intro p hp
  obtain ⟨q, hq, u, v, hq1, ⟨h1, h2, h3, h4⟩, rfl⟩ := (mem_selOf nx ny pts p).mp hp
  have hb := h q hq
  have hu : u ≠ nx := fun he => hb ⟨u, v, hq1, h1, h2, h3, h4, Or.inl he⟩
  have hv : v ≠ ny := fun he => hb ⟨u, v, hq1, h1, h2, h3, h4, Or.inr he⟩
  have hu' := lt_of_le_of_ne h2 hu
  have hv' := lt_of_le_of_ne h4 hv
  refine ⟨?_, ?_, ?_, ?_⟩
  · exact Int.floor_nonneg.mpr h3
  · exact Int.floor_lt.mpr (by exact_mod_cast hv')
  · exact Int.floor_nonneg.mpr h1
  · exact Int.floor_lt.mpr (by exact_mod_cast hu')

/-- C21 (partial): when no in-frame point is exactly on the right or lower border, every pixel holds the mean of the
values of exactly its points, and NaN when it has none; out-of-frame and NaN points are ignored. Missing: points on
those borders, see `camera_rasterize_raises_iff`. -/
theorem camera_rasterize_partial (nx ny : Nat) (pts : List (Option (ℚ × ℚ) × ℚ))
    (h : ∀ q ∈ pts, ¬ OnFarBorder nx ny q) :
    ∃ a, cameraRasterize nx ny pts = .ok a ∧ a.length = ny * nx ∧
      ∀ r c, r < ny → c < nx → a[r * nx + c]? =
        some (if pixelValues pts r c = [] then none else some (meanOf (pixelValues pts r c))) := by
  obtain ⟨uidx, means, hok, hlen, hpw, hz⟩ := rasterize_points_pairs (selOf nx ny pts) ny nx (inShape_of nx ny pts h)
  have hnd : uidx.Nodup := hpw.imp (fun h => Nat.ne_of_lt h)
  rw [rasterize_eq, hok]
  refine ⟨_, rfl, ?_, ?_⟩
  · have := (setFlat_get (List.replicate (ny * nx) (none : Option ℚ)) (uidx.zip (means.map some))
      (by rw [List.map_fst_zip (by simp [hlen])]; exact hnd)).1
    simpa [setFlat] using this
  · intro r c hr hc
    have hidx : r * nx + c < ny * nx := by
      calc r * nx + c < r * nx + nx := by omega
        _ = (r + 1) * nx := by ring
        _ ≤ ny * nx := Nat.mul_le_mul_right _ hr
    obtain ⟨_, hset, hkeep⟩ := setFlat_get (List.replicate (ny * nx) (none : Option ℚ)) (uidx.zip (means.map some))
      (by rw [List.map_fst_zip (by simp [hlen])]; exact hnd)
    have hz := hz r c hr hc
    rw [values_selOf nx ny pts r c hr hc] at hz
    by_cases he : pixelValues pts r c = []
    · rw [if_pos he]
      have hnot : r * nx + c ∉ uidx := by
        intro hmem
        obtain ⟨i, hi, hget⟩ := List.getElem_of_mem hmem
        have : (r * nx + c, means[i]'(by omega)) ∈ uidx.zip means := by
          rw [← hget, List.mem_iff_getElem]
          exact ⟨i, by simp; omega, by simp⟩
        exact ((hz _).mp this).1 he
      have := hkeep (r * nx + c) (by rw [List.map_fst_zip (by simp [hlen])]; exact hnot)
      unfold setFlat
      rw [this, List.getElem?_replicate, if_pos hidx]
    · rw [if_neg he]
      have hm : (r * nx + c, meanOf (pixelValues pts r c)) ∈ uidx.zip means := (hz _).mpr ⟨he, rfl⟩
      have hm' : (r * nx + c, some (meanOf (pixelValues pts r c))) ∈ uidx.zip (means.map some) := by
        rw [List.zip_map_right]
        exact List.mem_map.mpr ⟨_, hm, rfl⟩
      unfold setFlat
      exact hset _ _ hm' (by simpa using hidx)

/-- C21 (violated): `rasterize` raises exactly when some point is in (or on) the frame, by `inframe`, and on its right
or lower border. -/
theorem camera_rasterize_raises_iff (nx ny : Nat) (pts : List (Option (ℚ × ℚ) × ℚ)) :
    Raises (cameraRasterize nx ny pts) ↔ ∃ q ∈ pts, OnFarBorder nx ny q := by
  constructor
  · rintro ⟨e, he⟩
    by_contra hn
    obtain ⟨a, ha, _⟩ := camera_rasterize_partial nx ny pts (fun q hq hb => hn ⟨q, hq, hb⟩)
    rw [ha] at he; cases he
  · rintro ⟨q, hq, u, v, hq1, h1, h2, h3, h4, hb⟩
    have hmem : (⟨v.floor, u.floor, q.2⟩ : RPoint) ∈ selOf nx ny pts :=
      (mem_selOf nx ny pts _).mpr ⟨q, hq, u, v, hq1, ⟨h1, h2, h3, h4⟩, rfl⟩
    have hout : ¬ InShape ny nx (⟨v.floor, u.floor, q.2⟩ : RPoint) := by
      rintro ⟨_, a2, _, a4⟩
      rcases hb with hb | hb
      · have : u.floor = (nx : ℤ) := by rw [hb]; exact_mod_cast Int.floor_natCast (R := ℚ) nx
        simp only [this] at a4; omega
      · have : v.floor = (ny : ℤ) := by rw [hb]; exact_mod_cast Int.floor_natCast (R := ℚ) ny
        simp only [this] at a2; omega
    obtain ⟨e, he⟩ := (rasterize_raises_iff (selOf nx ny pts) ny nx (List.replicate (ny * nx) 0)).mpr ⟨_, hmem, hout⟩
    refine ⟨e, ?_⟩
    rw [rasterize_eq]
    unfold rasterizeInto at he
    cases hr : rasterizePoints (selOf nx ny pts) ny nx with
    | error e' => rw [hr] at he; simp [bind, Except.bind] at he; simp [Except.map, he]
    | ok um => rw [hr] at he; simp [bind, Except.bind, pure, Except.pure] at he

/-! ### Non-vacuity -/

/-- The docstring example. -/
example : cameraRasterize 3 2 [(some (1/2, 1/2), 1), (some (5/2, 3/2), 2), (some (5/2, 3/2), 4)] =
    .ok [some 1, none, none, none, none, some 3] := by decide +kernel

/-- A point on the right border, which `inframe` accepts, raises. -/
example : cameraRasterize 3 2 [(some (3, 1/2), 1)] = .error .valueError := by decide +kernel

end Glimpse
