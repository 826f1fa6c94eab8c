import Verif.Model.Camera
import Mathlib.Algebra.Order.Floor.Ring
import Mathlib.Algebra.Order.Archimedean.Real.Basic
import Mathlib.Tactic.Linarith
import Mathlib.Tactic.Ring
import Mathlib.Tactic.FieldSimp
import Mathlib.Tactic.NormNum
import Mathlib.Tactic.Positivity

/-!
C17, C18: millimetre attributes and resizing.
-/
set_option autoImplicit false
set_option linter.unusedSimpArgs false

namespace Glimpse

/-- Type of the stochastic optimizer used by `get_scale_from_size`. -/
abbrev Evolve := (Fin 2 → ℤ) → V2 → ℝ

/-- Spec: a camera whose current image size is positive. -/
def PosSize (cam : Camera) : Prop := ∀ i, 0 < cam.vec.imgsz i

private theorem roundEven_int (n : ℤ) : roundEven (n : ℝ) = n := by
  unfold roundEven
  simp

private theorem target_int (ev : Evolve) (cam : Camera) (size : Size) (force : Bool) (new : V2)
    (h : cam.resizeTarget ev size force = .ok new)
    (hs : force = false ∨ (∃ s, size = .factor s) ∨ ∃ t : Fin 2 → ℤ, size = .target fun i => (t i : ℝ)) :
    ∃ n : Fin 2 → ℤ, new = fun i => (n i : ℝ) := by
  unfold Camera.resizeTarget at h
  cases size with
  | factor s => simp at h; exact ⟨fun i => ⌊s * cam.orig.imgsz i + 0.5⌋, h.symm⟩
  | target t =>
    cases force with
    | true =>
      simp at h
      rcases hs with hs | ⟨s, hs⟩ | ⟨t', ht⟩
      · simp at hs
      · simp at hs
      · exact ⟨t', by rw [← h]; simpa using ht⟩
    | false =>
      simp at h
      cases hg : getScaleFromSize ev cam.orig.imgsz t with
      | none => simp [hg] at h
      | some s => simp [hg] at h; exact ⟨fun i => ⌊s * cam.orig.imgsz i + 0.5⌋, h.symm⟩

/-! ### C17 -/

/-- C17: writing back the `fmm` that was read leaves the camera unchanged. -/
theorem fmm_read_write (cam : Camera) (hpos : PosSize cam) (s : V2) (hs : cam.sensorsz = some s) (hne : ∀ i, s i ≠ 0) :
    ∃ v, cam.fmm = some v ∧ cam.setFmm v = .ok cam := by
  refine ⟨fun i => cam.vec.f i * s i / cam.vec.imgsz i, by simp [Camera.fmm, hs], ?_⟩
  have : (fun i => cam.vec.f i * s i / (cam.vec.imgsz i : ℝ) * cam.vec.imgsz i / s i) = cam.vec.f := by
    funext i
    have h1 : (cam.vec.imgsz i : ℝ) ≠ 0 := by exact_mod_cast (hpos i).ne'
    have h2 := hne i
    field_simp
  obtain ⟨vec, orig, ss, cor⟩ := cam
  simp only at hs
  subst hs
  simp only [Camera.setFmm] at this ⊢
  rw [this]

/-- C17: reading `fmm` after writing it gives the value written. -/
theorem fmm_write_read (cam : Camera) (hpos : PosSize cam) (s : V2) (hs : cam.sensorsz = some s) (hne : ∀ i, s i ≠ 0)
    (v : V2) : ∃ cam', cam.setFmm v = .ok cam' ∧ cam'.fmm = some v ∧ cam'.cmm = cam.cmm := by
  obtain ⟨vec, orig, ss, cor⟩ := cam
  simp only at hs
  subst hs
  refine ⟨_, rfl, ?_, ?_⟩
  · simp only [Camera.fmm, Option.map_some, Option.some.injEq]
    funext i
    have h1 : (vec.imgsz i : ℝ) ≠ 0 := by exact_mod_cast (hpos i).ne'
    have h2 := hne i
    field_simp
  · simp [Camera.cmm]

/-- C17: writing back the `cmm` that was read leaves the camera unchanged. -/
theorem cmm_read_write (cam : Camera) (hpos : PosSize cam) (s : V2) (hs : cam.sensorsz = some s) (hne : ∀ i, s i ≠ 0) :
    ∃ v, cam.cmm = some v ∧ cam.setCmm v = .ok cam := by
  refine ⟨fun i => cam.vec.c i * s i / cam.vec.imgsz i, by simp [Camera.cmm, hs], ?_⟩
  have : (fun i => cam.vec.c i * s i / (cam.vec.imgsz i : ℝ) * cam.vec.imgsz i / s i) = cam.vec.c := by
    funext i
    have h1 : (cam.vec.imgsz i : ℝ) ≠ 0 := by exact_mod_cast (hpos i).ne'
    have h2 := hne i
    field_simp
  obtain ⟨vec, orig, ss, cor⟩ := cam
  simp only at hs
  subst hs
  simp only [Camera.setCmm] at this ⊢
  rw [this]

/-- C17: reading `cmm` after writing it gives the value written. -/
theorem cmm_write_read (cam : Camera) (hpos : PosSize cam) (s : V2) (hs : cam.sensorsz = some s) (hne : ∀ i, s i ≠ 0)
    (v : V2) : ∃ cam', cam.setCmm v = .ok cam' ∧ cam'.cmm = some v ∧ cam'.fmm = cam.fmm := by
  obtain ⟨vec, orig, ss, cor⟩ := cam
  simp only at hs
  subst hs
  refine ⟨_, rfl, ?_, ?_⟩
  · simp only [Camera.cmm, Option.map_some, Option.some.injEq]
    funext i
    have h1 : (vec.imgsz i : ℝ) ≠ 0 := by exact_mod_cast (hpos i).ne'
    have h2 := hne i
    field_simp
  · simp [Camera.fmm]

/-- C17: without a sensor size the millimetre attributes are unset and cannot be set. -/
theorem mm_requires_sensor (cam : Camera) (hs : cam.sensorsz = none) (v : V2) :
    cam.fmm = none ∧ cam.cmm = none ∧ Raises (cam.setFmm v) ∧ Raises (cam.setCmm v) := by
  simp [Camera.fmm, Camera.cmm, Camera.setFmm, Camera.setCmm, hs, Raises]

/-- C17, C18: any `resize` by a factor or to a whole number of pixels to a positive size keeps `fmm` and `cmm` (and so
the field of view) even if the aspect ratio changes. -/
theorem resize_keeps_mm (ev : Evolve) (cam cam' : Camera) (hpos : PosSize cam) (size : Size) (force : Bool)
    (h : cam.resize ev size force = .ok cam') (hpos' : PosSize cam')
    (hs : force = false ∨ (∃ s, size = .factor s) ∨ ∃ t : Fin 2 → ℤ, size = .target fun i => (t i : ℝ)) :
    cam'.fmm = cam.fmm ∧ cam'.cmm = cam.cmm := by
  unfold Camera.resize at h
  cases ht : cam.resizeTarget ev size force with
  | error e => rw [ht] at h; cases h
  | ok new =>
    obtain ⟨n, rfl⟩ := target_int ev cam size force new ht hs
    rw [ht] at h
    injection h with h
    subst h
    simp only [PosSize, roundEven_int] at hpos'
    constructor
    · cases hsz : cam.sensorsz with
      | none => simp [Camera.fmm, hsz]
      | some s =>
        simp only [Camera.fmm, hsz, Option.map_some, Option.some.injEq, roundEven_int]
        funext i
        have h1 : (cam.vec.imgsz i : ℝ) ≠ 0 := by exact_mod_cast (hpos i).ne'
        have h2 : (n i : ℝ) ≠ 0 := by exact_mod_cast (hpos' i).ne'
        field_simp
    · cases hsz : cam.sensorsz with
      | none => simp [Camera.cmm, hsz]
      | some s =>
        simp only [Camera.cmm, hsz, Option.map_some, Option.some.injEq, roundEven_int]
        funext i
        have h1 : (cam.vec.imgsz i : ℝ) ≠ 0 := by exact_mod_cast (hpos i).ne'
        have h2 : (n i : ℝ) ≠ 0 := by exact_mod_cast (hpos' i).ne'
        field_simp

/-- C17 (outside its domain): a forced target size that is not whole changes `fmm`: `f` is scaled by the size asked for,
`imgsz` is rounded. -/
theorem resize_fraction_violated (ev : Evolve) : ∃ (cam cam' : Camera), PosSize cam ∧ PosSize cam' ∧
    cam.resize ev (.target ![10.25, 10]) true = .ok cam' ∧ cam'.fmm ≠ cam.fmm := by
  let v : CamVec := ⟨0, 0, ![10, 10], ![10, 10], 0, 0, 0⟩
  refine ⟨⟨v, v, some ![1, 1], none⟩, _, ?_, ?_, rfl, ?_⟩
  · intro i; fin_cases i <;> simp [v]
  · intro i
    fin_cases i
    · have : ⌊(10.25 : ℝ)⌋ = 10 := by rw [Int.floor_eq_iff]; norm_num
      simp [roundEven, this]; norm_num
    · simp [roundEven]
  · intro h
    have hfl : ⌊(10.25 : ℝ)⌋ = 10 := by rw [Int.floor_eq_iff]; norm_num
    have := congrArg (fun o : Option V2 => o.map fun w => w 0) h
    simp [Camera.fmm, v, roundEven, hfl] at this
    norm_num at this

/-! ### C18 -/

/-- A `resize` call as a statement: when it raises, the caller keeps the camera as it is. -/
noncomputable def resizeStep (ev : Evolve) (cam : Camera) (op : Size × Bool) : Camera :=
  match cam.resize ev op.1 op.2 with
  | .ok cam' => cam'
  | .error _ => cam

/-- Running a history of `resize` calls. -/
noncomputable def runResizes (ev : Evolve) (cam : Camera) (ops : List (Size × Bool)) : Camera :=
  ops.foldl (resizeStep ev) cam

/-- Spec: the size arguments are factors or whole numbers of pixels. -/
def WholeOp (op : Size × Bool) : Prop :=
  op.2 = false ∨ (∃ s, op.1 = .factor s) ∨ ∃ t : Fin 2 → ℤ, op.1 = .target fun i => (t i : ℝ)

/-- Spec: no call of the history makes the image vanish. -/
def StaysPositive (ev : Evolve) (cam : Camera) (ops : List (Size × Bool)) : Prop :=
  ∀ k ≤ ops.length, PosSize (runResizes ev cam (ops.take k))

/-- Spec: the two cameras differ at most in scale: everything but `imgsz`, `f` and `c` is the same, and `f` and `c`
have the same ratio to `imgsz`. -/
def SameShape (a b : Camera) : Prop :=
  a.orig = b.orig ∧ a.sensorsz = b.sensorsz ∧ a.correction = b.correction ∧ a.vec.xyz = b.vec.xyz ∧
  a.vec.viewdir = b.vec.viewdir ∧ a.vec.k = b.vec.k ∧ a.vec.p = b.vec.p ∧
  (∀ i, a.vec.f i * b.vec.imgsz i = b.vec.f i * a.vec.imgsz i) ∧
  (∀ i, a.vec.c i * b.vec.imgsz i = b.vec.c i * a.vec.imgsz i)

private theorem step_shape (ev : Evolve) (cam : Camera) (op : Size × Bool) (hpos : PosSize cam) (hw : WholeOp op) :
    SameShape (resizeStep ev cam op) cam := by
  unfold resizeStep Camera.resize
  cases ht : cam.resizeTarget ev op.1 op.2 with
  | error e => exact ⟨rfl, rfl, rfl, rfl, rfl, rfl, rfl, fun i => rfl, fun i => rfl⟩
  | ok new =>
    obtain ⟨n, rfl⟩ := target_int ev cam op.1 op.2 new ht hw
    refine ⟨rfl, rfl, rfl, rfl, rfl, rfl, rfl, fun i => ?_, fun i => ?_⟩ <;>
    · have h1 : (cam.vec.imgsz i : ℝ) ≠ 0 := by exact_mod_cast (hpos i).ne'
      simp only [bind, Except.bind, pure, Except.pure, roundEven_int]
      field_simp

private theorem shape_trans {a b c : Camera} (hb : PosSize b) (h1 : SameShape a b) (h2 : SameShape b c) :
    SameShape a c := by
  obtain ⟨p1, p2, p3, p4, p5, p6, p7, p8, p9⟩ := h1
  obtain ⟨q1, q2, q3, q4, q5, q6, q7, q8, q9⟩ := h2
  refine ⟨p1.trans q1, p2.trans q2, p3.trans q3, p4.trans q4, p5.trans q5, p6.trans q6, p7.trans q7, fun i => ?_,
    fun i => ?_⟩
  · have h := p8 i; have h' := q8 i
    have hne : (b.vec.imgsz i : ℝ) ≠ 0 := by exact_mod_cast (hb i).ne'
    apply mul_left_cancel₀ hne
    linear_combination (c.vec.imgsz i : ℝ) * h + (a.vec.imgsz i : ℝ) * h'
  · have h := p9 i; have h' := q9 i
    have hne : (b.vec.imgsz i : ℝ) ≠ 0 := by exact_mod_cast (hb i).ne'
    apply mul_left_cancel₀ hne
    linear_combination (c.vec.imgsz i : ℝ) * h + (a.vec.imgsz i : ℝ) * h'

/-- C18: whatever the history of `resize` calls, position, view direction and distortion are untouched, `f` and `c` keep
their ratio to the image size. -/
theorem runResizes_shape (ev : Evolve) (cam : Camera) (ops : List (Size × Bool)) (hw : ∀ op ∈ ops, WholeOp op)
    (hpos : StaysPositive ev cam ops) : SameShape (runResizes ev cam ops) cam := by
  induction ops generalizing cam with
  | nil => exact ⟨rfl, rfl, rfl, rfl, rfl, rfl, rfl, fun i => rfl, fun i => rfl⟩
  | cons op ops ih =>
    have h0 : PosSize cam := hpos 0 (by simp)
    have h1 : PosSize (resizeStep ev cam op) := by simpa [runResizes] using hpos 1 (by simp)
    have := ih (resizeStep ev cam op) (fun o ho => hw o (List.mem_cons_of_mem _ ho)) (fun k hk => by
      have := hpos (k + 1) (by simpa using hk)
      simpa [runResizes] using this)
    exact shape_trans h1 this (step_shape ev cam op h0 (hw op (by simp)))

private theorem resize_congr (ev : Evolve) (a b : Camera) (ha : PosSize a) (hb : PosSize b) (hs : SameShape a b)
    (size : Size) (force : Bool) : a.resize ev size force = b.resize ev size force := by
  obtain ⟨p1, p2, p3, p4, p5, p6, p7, p8, p9⟩ := hs
  have ht : a.resizeTarget ev size force = b.resizeTarget ev size force := by
    unfold Camera.resizeTarget; rw [p1]
  unfold Camera.resize
  rw [ht]
  cases b.resizeTarget ev size force with
  | error e => rfl
  | ok new =>
    simp only [bind, Except.bind, pure, Except.pure]
    congr 1
    have hf : (fun i => a.vec.f i * (new i / a.vec.imgsz i)) = fun i => b.vec.f i * (new i / b.vec.imgsz i) := by
      funext i
      have h1 : (a.vec.imgsz i : ℝ) ≠ 0 := by exact_mod_cast (ha i).ne'
      have h2 : (b.vec.imgsz i : ℝ) ≠ 0 := by exact_mod_cast (hb i).ne'
      have := p8 i
      field_simp
      linear_combination (new i) * this
    have hc : (fun i => a.vec.c i * (new i / a.vec.imgsz i)) = fun i => b.vec.c i * (new i / b.vec.imgsz i) := by
      funext i
      have h1 : (a.vec.imgsz i : ℝ) ≠ 0 := by exact_mod_cast (ha i).ne'
      have h2 : (b.vec.imgsz i : ℝ) ≠ 0 := by exact_mod_cast (hb i).ne'
      have := p9 i
      field_simp
      linear_combination (new i) * this
    rw [hf, hc, p1, p2, p3, p4, p5, p6, p7]

/-- C18: resizing is history independent: after any history of `resize` calls (some of which may have raised), the next
`resize` call gives exactly the camera, or the error, that it would have given on the initial camera. -/
theorem resize_history_independent (ev : Evolve) (cam : Camera) (ops : List (Size × Bool)) (size : Size) (force : Bool)
    (hw : ∀ op ∈ ops, WholeOp op) (hpos : StaysPositive ev cam ops) :
    (runResizes ev cam ops).resize ev size force = cam.resize ev size force :=
  resize_congr ev _ _ (by simpa using hpos ops.length le_rfl) (hpos 0 (by simp)) (runResizes_shape ev cam ops hw hpos)
    size force

/-- C18: for a camera in its original state (as constructed, copied or reset), `resize(1)` after any history restores
it exactly. -/
theorem resize_one_restores (ev : Evolve) (cam : Camera) (ops : List (Size × Bool)) (horig : cam.vec = cam.orig)
    (hw : ∀ op ∈ ops, WholeOp op) (hpos : StaysPositive ev cam ops) :
    (runResizes ev cam ops).resize ev (.factor 1) false = .ok cam := by
  rw [resize_history_independent ev cam ops _ _ hw hpos]
  have h0 : PosSize cam := hpos 0 (by simp)
  have hfl : ∀ i, ⌊(1 : ℝ) * (cam.orig.imgsz i : ℝ) + 0.5⌋ = cam.vec.imgsz i := by
    intro i
    rw [← horig, Int.floor_eq_iff]
    constructor <;> norm_num
  simp only [Camera.resize, Camera.resizeTarget, bind, Except.bind, pure, Except.pure, hfl, roundEven_int]
  have hdiv : ∀ i, (cam.vec.imgsz i : ℝ) / cam.vec.imgsz i = 1 := fun i =>
    div_self (by exact_mod_cast (h0 i).ne')
  simp only [hdiv, mul_one]

/-- C18: a successful resize by a factor has the size of the original image scaled by it and rounded half up. -/
theorem resize_factor_size (ev : Evolve) (cam cam' : Camera) (s : ℝ) (force : Bool)
    (h : cam.resize ev (.factor s) force = .ok cam') (i : Fin 2) :
    cam'.vec.imgsz i = ⌊s * cam.orig.imgsz i + 1 / 2⌋ := by
  simp only [Camera.resize, Camera.resizeTarget, bind, Except.bind, pure, Except.pure] at h
  injection h with h
  subst h
  simp only [roundEven_int]
  norm_num

private theorem roundEven_half (x : ℝ) (n : ℤ) (h : roundEven x = n) (hx : x - ⌊x⌋ ≠ 1 / 2) : ⌊x + 1 / 2⌋ = n := by
  unfold roundEven at h
  have h1 := Int.floor_le x
  have h2 := Int.lt_floor_add_one x
  rw [Int.floor_eq_iff]
  split at h
  · rename_i hlt; subst h; constructor <;> linarith
  · split at h
    · rename_i hlt; subst h; push_cast; constructor <;> linarith
    · rename_i ha hb
      exact absurd (le_antisymm (not_lt.mp hb) (not_lt.mp ha)) hx

/-- C18 (partial): a successful resize to a whole number of pixels gives exactly that size, provided the scale factor
found does not land exactly between two sizes. Missing: `get_scale_from_size` rounds half to even while `resize` rounds
half up, see `resize_target_half_violated`. -/
theorem resize_target_size_partial (ev : Evolve) (cam cam' : Camera) (t : Fin 2 → ℤ) (force : Bool)
    (hpos : ∀ i, 0 < cam.orig.imgsz i)
    (h : cam.resize ev (.target fun i => (t i : ℝ)) force = .ok cam')
    (hhalf : ∀ i, let x := ev cam.orig.imgsz (fun i => (t i : ℝ)) * cam.orig.imgsz i; x - ⌊x⌋ ≠ 1 / 2) :
    cam'.vec.imgsz = t := by
  cases force with
  | true =>
    simp only [Camera.resize, Camera.resizeTarget, bind, Except.bind, pure, Except.pure, if_true] at h
    injection h with h
    subst h
    funext i
    exact roundEven_int _
  | false =>
    unfold Camera.resize Camera.resizeTarget at h
    simp only [Bool.false_eq_true, if_false] at h
    cases hg : getScaleFromSize ev cam.orig.imgsz (fun i => (t i : ℝ)) with
    | none => rw [hg] at h; cases h
    | some s =>
      rw [hg] at h
      simp only [bind, Except.bind, pure, Except.pure] at h
      injection h with h
      subst h
      funext i
      simp only [roundEven_int]
      have h05 : (0.5 : ℝ) = 1 / 2 := by norm_num
      rw [h05]
      have hne : ∀ i, (cam.orig.imgsz i : ℝ) ≠ 0 := fun i => by exact_mod_cast (hpos i).ne'
      unfold getScaleFromSize at hg
      split at hg
      · rename_i he
        injection hg with hg
        have he' : (t i : ℝ) = cam.orig.imgsz i := he i
        have : t i = cam.orig.imgsz i := by exact_mod_cast he'
        rw [← hg, this, Int.floor_eq_iff]
        constructor <;> norm_num
      · simp only at hg
        split at hg
        · rename_i he
          injection hg with hg
          have h0 : s * cam.orig.imgsz i = t i := by
            rw [← hg, he i]
            have := hne i
            field_simp
          rw [h0, Int.floor_eq_iff]
          constructor <;> norm_num
        · split at hg
          · rename_i he
            injection hg with hg
            rw [Finset.sum_eq_zero_iff_of_nonneg (fun i _ => abs_nonneg _)] at he
            have := he i (Finset.mem_univ i)
            have h1 : roundEven (ev cam.orig.imgsz (fun i => (t i : ℝ)) * cam.orig.imgsz i) = t i := by
              have := sub_eq_zero.mp (abs_eq_zero.mp this)
              exact_mod_cast this
            rw [← hg]
            exact roundEven_half _ _ h1 (hhalf i)
          · simp at hg

/-- C18 (violated): when the scale factor found lands exactly between two sizes, `resize` to a target size succeeds but
gives another size: `get_scale_from_size` rounds half to even (here 2.5 to 2), `resize` rounds half up (to 3). -/
theorem resize_target_half_violated : ∃ (ev : Evolve) (cam cam' : Camera), PosSize cam ∧ PosSize cam' ∧
    cam.resize ev (.target ![2, 4]) false = .ok cam' ∧ cam'.vec.imgsz 0 = 3 := by
  let v : CamVec := ⟨0, 0, ![5, 7], ![10, 10], 0, 0, 0⟩
  have f5 : ⌊(5 / 2 : ℝ)⌋ = 2 := by rw [Int.floor_eq_iff]; norm_num
  have f7 : ⌊(7 / 2 : ℝ)⌋ = 3 := by rw [Int.floor_eq_iff]; norm_num
  have r5 : roundEven (5 / 2) = 2 := by unfold roundEven; simp only [f5]; norm_num
  have r7 : roundEven (7 / 2) = 4 := by unfold roundEven; simp only [f7]; norm_num
  have hg : getScaleFromSize (fun _ _ => 1 / 2) ![5, 7] ![2, 4] = some (1 / 2) := by
    unfold getScaleFromSize
    rw [if_neg (by intro h; have := h 0; norm_num at this)]
    simp only
    rw [if_neg (by intro h; have := h 1; norm_num at this)]
    rw [if_pos]
    simp only [Fin.sum_univ_two]
    have e5 : (1 / 2 : ℝ) * ((![5, 7] : Fin 2 → ℤ) 0 : ℝ) = 5 / 2 := by norm_num
    have e7 : (1 / 2 : ℝ) * ((![5, 7] : Fin 2 → ℤ) 1 : ℝ) = 7 / 2 := by norm_num
    rw [e5, e7, r5, r7]
    norm_num
  have g0 : ⌊(1 / 2 : ℝ) * ((![5, 7] : Fin 2 → ℤ) 0 : ℝ) + 0.5⌋ = 3 := by
    rw [Int.floor_eq_iff]; norm_num
  have g1 : ⌊(1 / 2 : ℝ) * ((![5, 7] : Fin 2 → ℤ) 1 : ℝ) + 0.5⌋ = 4 := by
    rw [Int.floor_eq_iff]; norm_num
  refine ⟨fun _ _ => 1 / 2, ⟨v, v, none, none⟩, _, ?_, ?_,
    by simp only [Camera.resize, Camera.resizeTarget, v, hg, Bool.false_eq_true, if_false]; rfl, ?_⟩
  · intro i; fin_cases i <;> simp [v]
  · intro i
    simp only [roundEven_int]
    fin_cases i
    · show 0 < ⌊_⌋; simp only [Fin.zero_eta]; rw [g0]; norm_num
    · show 0 < ⌊_⌋; simp only [Fin.mk_one]; rw [g1]; norm_num
  · simp only [roundEven_int]; exact g0

/-- C18 (violated without `StaysPositive`): a factor small enough makes the image size and `f` zero; cameras with
different focal lengths become the same camera, so no later `resize` can restore them. -/
theorem resize_to_zero_violated (ev : Evolve) : ∃ (a b c : Camera), PosSize a ∧ PosSize b ∧ a.vec.f ≠ b.vec.f ∧
    a.resize ev (.factor 0.01) false = .ok c ∧
    ∃ d, b.resize ev (.factor 0.01) false = .ok d ∧ c.vec.f = d.vec.f ∧ c.vec.imgsz = d.vec.imgsz := by
  let v : ℝ → CamVec := fun f => ⟨0, 0, ![10, 10], ![f, f], 0, 0, 0⟩
  have hfl : ∀ i, ⌊(0.01 : ℝ) * ((![10, 10] : Fin 2 → ℤ) i : ℝ) + 0.5⌋ = 0 := by
    intro i
    rw [Int.floor_eq_iff]
    fin_cases i <;> norm_num
  refine ⟨⟨v 10, v 10, none, none⟩, ⟨v 20, v 20, none, none⟩, _, ?_, ?_, ?_, rfl, _, rfl, ?_, rfl⟩
  · intro i; fin_cases i <;> simp [v]
  · intro i; fin_cases i <;> simp [v]
  · intro h; have := congrFun h 0; simp [v] at this; 
  · funext i
    simp [v, hfl]

/-- C18: `reset` restores the original state and `copy` makes the current state the original one. -/
theorem reset_copy (cam : Camera) : (cam.reset).vec = cam.orig ∧ (cam.copy).reset = cam.copy ∧
    cam.copy.vec = cam.vec ∧ cam.copy.orig = cam.vec := ⟨rfl, rfl, rfl, rfl⟩

/-! ### Non-vacuity -/

/-- The docstring camera of `resize`: `(10, 20)` pixels; resizing by 2, then 1/3, stays positive. -/
example (ev : Evolve) : let v : CamVec := ⟨0, 0, ![10, 20], ![1, 2], ![0.1, 0.2], 0, 0⟩
    StaysPositive ev ⟨v, v, none, none⟩ [(.factor 2, false), (.target ![11, 20], true)] := by
  intro v k hk
  have h20 : ∀ i, 0 < ⌊(2 : ℝ) * ((![10, 20] : Fin 2 → ℤ) i : ℝ) + 0.5⌋ := by
    intro i
    rw [Int.floor_pos]
    fin_cases i <;> norm_num
  have h11 : ∀ i, 0 < roundEven ((![11, 20] : V2) i) := by
    intro i
    have : (![11, 20] : V2) i = ((![11, 20] : Fin 2 → ℤ) i : ℝ) := by fin_cases i <;> norm_num
    rw [this, roundEven_int]
    fin_cases i <;> norm_num
  match k, hk with
  | 0, _ => intro i; fin_cases i <;> simp [runResizes, v]
  | 1, _ =>
    intro i
    simpa [runResizes, resizeStep, Camera.resize, Camera.resizeTarget, bind, Except.bind, pure, Except.pure,
      roundEven_int, v] using h20 i
  | 2, _ =>
    intro i
    simpa [runResizes, resizeStep, Camera.resize, Camera.resizeTarget, bind, Except.bind, pure, Except.pure,
      roundEven_int, v] using h11 i

end Glimpse
