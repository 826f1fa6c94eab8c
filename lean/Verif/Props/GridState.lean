import Verif.Model.GridState
import Verif.Props.Grid
import Mathlib.Tactic.IntervalCases

/-!
C26: cached grid coordinates never go stale (and where they do).
-/
set_option autoImplicit false
set_option linter.unusedSimpArgs false

namespace Glimpse

/-- Specification: `l` lists the centres of the cells of axis `a` in order. -/
def IsCenters (a : GAxis) (l : List ℚ) : Prop :=
  l.length = a.n ∧ ∀ i : Nat, i < a.n → l[i]? = some (cellCenter a.lo a.hi a.n i)

/-- Specification: the object returns fresh coordinates: whatever is cached, `x`, `y`, `X`, `Y` return the centres of the
cells given by the current limits and size. -/
structure GridState.Fresh (s : GridState) : Prop where
  x : ∃ l s', readVec s.ax s.x = .ok (l, s') ∧ IsCenters s.ax l
  y : ∃ l s', readVec s.ay s.y = .ok (l, s') ∧ IsCenters s.ay l
  X : ∃ r s' l, readMat s.ax s.ny false s.x = .ok (r, s') ∧ IsCenters s.ax l ∧ r = List.replicate s.ny l
  Y : ∃ r s' l, readMat s.ay s.nx true s.y = .ok (r, s') ∧ IsCenters s.ay l ∧ r = l.map (List.replicate s.nx)

theorem isCenters_unique {a : GAxis} {l l' : List ℚ} (h : IsCenters a l) (h' : IsCenters a l') : l = l' := by
  apply List.ext_getElem?
  intro i
  by_cases hi : i < a.n
  · rw [h.2 i hi, h'.2 i hi]
  · rw [List.getElem?_eq_none (by rw [h.1]; omega), List.getElem?_eq_none (by rw [h'.1]; omega)]

theorem centers_iff {a : GAxis} (hn : 0 < a.n) (l : List ℚ) : a.centers = .ok l ↔ IsCenters a l := by
  obtain ⟨l', h1, h2, h3⟩ := axis_centers_spec a hn
  constructor
  · intro h
    rw [h1] at h
    cases h
    exact ⟨h2, h3⟩
  · intro h
    rw [isCenters_unique h ⟨h2, h3⟩]
    exact h1

theorem isCenters_shift {a : GAxis} {l : List ℚ} (h : IsCenters a l) (d : ℚ) :
    IsCenters ⟨a.lo + d, a.hi + d, a.n⟩ (l.map (· + d)) := by
  refine ⟨by simpa using h.1, fun i hi => ?_⟩
  rw [List.getElem?_map, h.2 i hi]
  simp only [Option.map_some, Option.some.injEq]
  unfold cellCenter
  ring

/-- Invariant of one axis: caches hold float copies of the fresh values. -/
structure AxOk (a : GAxis) (m : Nat) (dim : Bool) (s : AxState) : Prop where
  lo : a.lo = s.lim.1
  hi : a.hi = s.lim.2
  vec : ∀ p, s.vec = some p → p.1 = false ∧ IsCenters a p.2
  mat : ∀ p, s.mat = some p → p.1 = false ∧ ∃ l, IsCenters a l ∧ p.2 = if dim then tileCols l m else tileRows l m
  view : s.view = false

theorem readVec_ok {a : GAxis} (hn : 0 < a.n) {m : Nat} {dim : Bool} {s : AxState} (h : AxOk a m dim s) :
    ∃ l s', readVec a s = .ok (l, s') ∧ IsCenters a l ∧ AxOk a m dim s' ∧ s'.lim = s.lim ∧ s'.mat = s.mat := by
  unfold readVec
  cases hv : s.vec with
  | some p =>
    obtain ⟨b, l⟩ := p
    exact ⟨l, s, rfl, (h.vec _ hv).2, h, rfl, rfl⟩
  | none =>
    obtain ⟨l, h1, h2, h3⟩ := axis_centers_spec a hn
    simp only [h1, bind, Except.bind, pure, Except.pure]
    refine ⟨l, _, rfl, ⟨h2, h3⟩, ⟨h.lo, h.hi, fun p hp => ?_, h.mat, rfl⟩, rfl, rfl⟩
    cases hp
    exact ⟨rfl, h2, h3⟩

theorem readMat_ok {a : GAxis} (hn : 0 < a.n) {m : Nat} {dim : Bool} {s : AxState} (h : AxOk a m dim s) :
    ∃ r s' l, readMat a m dim s = .ok (r, s') ∧ IsCenters a l ∧ (r = if dim then tileCols l m else tileRows l m) ∧
      AxOk a m dim s' ∧ s'.lim = s.lim := by
  unfold readMat
  cases hm : s.mat with
  | some p =>
    obtain ⟨b, r⟩ := p
    obtain ⟨-, l, hl, e⟩ := h.mat _ hm
    exact ⟨r, s, l, rfl, hl, e, h, rfl⟩
  | none =>
    obtain ⟨l, s', h1, h2, h3, h4, h5⟩ := readVec_ok hn h
    simp only [h1, bind, Except.bind, pure, Except.pure]
    refine ⟨_, _, l, rfl, h2, rfl, ⟨h3.lo, h3.hi, h3.vec, fun p hp => ?_, rfl⟩, h4⟩
    cases hp
    exact ⟨rfl, l, h2, rfl⟩

theorem setLim_ok {n m : Nat} {dim : Bool} {s s' : AxState} {a b : ℚ} {int : Bool}
    (h : AxOk ⟨s.lim.1, s.lim.2, n⟩ m dim s) (hs : setLim s a b int = .ok s') (hne : s.lim.1 ≠ s.lim.2) :
    AxOk ⟨s'.lim.1, s'.lim.2, n⟩ m dim s' ∧ s'.lim.1 ≠ s'.lim.2 := by
  unfold setLim parseLimits at hs
  by_cases hab : a = b
  · simp [hab, bind, Except.bind] at hs
  · simp only [hab, if_false, bind, Except.bind, pure, Except.pure] at hs
    split at hs
    · cases hs
      exact ⟨h, hne⟩
    · cases hs
      exact ⟨⟨rfl, rfl, fun p hp => (by cases hp), fun p hp => (by cases hp), rfl⟩, hab⟩

theorem tile_shift (dim : Bool) (l : List ℚ) (m : Nat) (d : ℚ) :
    (if dim then tileCols l m else tileRows l m).map (fun r => r.map (· + d)) =
      if dim then tileCols (l.map (· + d)) m else tileRows (l.map (· + d)) m := by
  cases dim
  · simp [tileRows]
  · simp [tileCols, List.map_map, Function.comp]

theorem shiftAx_ok {n m : Nat} {dim : Bool} {s : AxState} (h : AxOk ⟨s.lim.1, s.lim.2, n⟩ m dim s) (d : Num) :
    let s' := (shiftAx dim s d).1
    AxOk ⟨s'.lim.1, s'.lim.2, n⟩ m dim s' ∧
    ((shiftAx dim s d).2 = none ↔ (s.limInt = true → d.isInt = true)) ∧
    ((shiftAx dim s d).2 = none → s'.lim = (s.lim.1 + d.val, s.lim.2 + d.val)) ∧
    ((shiftAx dim s d).2 ≠ none → s' = s) := by
  have hv : (s.vec.any fun p => p.1) = false := by
    cases hh : s.vec with
    | none => rfl
    | some p => simpa using (h.vec p hh).1
  by_cases hb : (s.limInt && !d.isInt) = true
  · have e : shiftAx dim s d = (s, some .typeError) := by unfold shiftAx; rw [if_pos hb]
    rw [e]
    refine ⟨h, ?_, by simp, by simp⟩
    simp only [Bool.and_eq_true, Bool.not_eq_true'] at hb
    simp [hb.1, hb.2]
  · have hb' : (s.limInt && !d.isInt) = false := by simpa using hb
    -- the caches after the three additions
    have e : ∃ mat, shiftAx dim s d = (⟨(s.lim.1 + d.val, s.lim.2 + d.val), s.limInt,
        s.vec.map (fun p => (p.1, p.2.map (· + d.val))), mat, false⟩, none) ∧
        mat = s.mat.map fun p => (p.1, p.2.map fun r => r.map (· + d.val)) := by
      unfold shiftAx
      rw [if_neg hb]
      simp only [hv, Bool.false_and, Bool.false_eq_true, if_false]
      unfold shiftCaches
      simp only [h.view, Bool.false_and, Bool.false_eq_true, if_false]
      cases hm : s.mat with
      | none => exact ⟨none, rfl, rfl⟩
      | some p =>
        obtain ⟨b, rows⟩ := p
        have := (h.mat _ hm).1
        simp only at this
        subst this
        exact ⟨_, rfl, rfl⟩
    obtain ⟨mat, e, hmat⟩ := e
    rw [e]
    refine ⟨⟨rfl, rfl, fun p hp => ?_, fun p hp => ?_, rfl⟩, ?_, by simp, by simp⟩
    · simp only [Option.map_eq_some_iff] at hp
      obtain ⟨q, hq, rfl⟩ := hp
      obtain ⟨h1, h2⟩ := h.vec q hq
      exact ⟨h1, isCenters_shift h2 d.val⟩
    · simp only [hmat, Option.map_eq_some_iff] at hp
      obtain ⟨q, hq, rfl⟩ := hp
      obtain ⟨h1, l, h2, h3⟩ := h.mat q hq
      refine ⟨h1, l.map (· + d.val), isCenters_shift h2 d.val, ?_⟩
      simp only
      rw [h3, tile_shift]
    · simp only [Bool.and_eq_false_iff, Bool.not_eq_false'] at hb'
      rcases hb' with h1 | h1 <;> simp [h1]

/-- Invariant of the object. -/
structure GOk (s : GridState) : Prop where
  nx : 0 < s.nx
  ny : 0 < s.ny
  x : AxOk s.ax s.ny false s.x
  y : AxOk s.ay s.nx true s.y
  hx : s.x.lim.1 ≠ s.x.lim.2
  hy : s.y.lim.1 ≠ s.y.lim.2

theorem fresh_of_ok {s : GridState} (h : GOk s) : s.Fresh := by
  obtain ⟨l, s', h1, h2, -⟩ := readVec_ok (a := s.ax) h.nx h.x
  obtain ⟨ly, sy', k1, k2, -⟩ := readVec_ok (a := s.ay) h.ny h.y
  obtain ⟨r, sr, lr, r1, r2, r3, -⟩ := readMat_ok (a := s.ax) h.nx h.x
  obtain ⟨q, sq, lq, q1, q2, q3, -⟩ := readMat_ok (a := s.ay) h.ny h.y
  exact ⟨⟨l, s', h1, h2⟩, ⟨ly, sy', k1, k2⟩, ⟨r, sr, lr, r1, r2, r3⟩, ⟨q, sq, lq, q1, q2, q3⟩⟩

/-- The operation changes the size. -/
def GridOp.isSize : GridOp → Bool
  | .setSize _ _ => true
  | .resize _ => true
  | _ => false

/-- No coordinates are cached. -/
def GridState.NothingCached (s : GridState) : Prop :=
  s.x.vec = none ∧ s.x.mat = none ∧ s.y.vec = none ∧ s.y.mat = none

theorem setSize_ok {s : GridState} (h : GOk s) (hc : s.NothingCached) (a b : Int) : GOk (setSize s a b).1 := by
  unfold setSize
  split
  · exact h
  · rename_i hab
    push Not at hab
    obtain ⟨c1, c2, c3, c4⟩ := hc
    refine ⟨by simp only; omega, by simp only; omega, ?_, ?_, h.hx, h.hy⟩
    · exact ⟨rfl, rfl, fun p hp => (by rw [c1] at hp; cases hp), fun p hp => (by rw [c2] at hp; cases hp), h.x.view⟩
    · exact ⟨rfl, rfl, fun p hp => (by rw [c3] at hp; cases hp), fun p hp => (by rw [c4] at hp; cases hp), h.y.view⟩

theorem step_ok {s : GridState} (h : GOk s) (op : GridOp) (hop : op.isSize = true → s.NothingCached) :
    GOk (s.step op).1 := by
  cases op with
  | readx =>
    obtain ⟨l, s', h1, h2, h3, h4, h5⟩ := readVec_ok (a := s.ax) h.nx h.x
    unfold GridState.step
    simp only [h1]
    refine ⟨h.nx, h.ny, ?_, h.y, by simp only [h4]; exact h.hx, h.hy⟩
    have : (⟨s.nx, s.ny, s', s.y⟩ : GridState).ax = s.ax := by simp [GridState.ax, h4]
    rw [this]
    exact h3
  | readX =>
    obtain ⟨r, s', l, h1, h2, h3, h4, h5⟩ := readMat_ok (a := s.ax) h.nx h.x
    unfold GridState.step
    simp only [h1]
    refine ⟨h.nx, h.ny, ?_, h.y, by simp only [h5]; exact h.hx, h.hy⟩
    have : (⟨s.nx, s.ny, s', s.y⟩ : GridState).ax = s.ax := by simp [GridState.ax, h5]
    rw [this]
    exact h4
  | ready =>
    obtain ⟨l, s', h1, h2, h3, h4, h5⟩ := readVec_ok (a := s.ay) h.ny h.y
    unfold GridState.step
    simp only [h1]
    refine ⟨h.nx, h.ny, h.x, ?_, h.hx, by simp only [h4]; exact h.hy⟩
    have : (⟨s.nx, s.ny, s.x, s'⟩ : GridState).ay = s.ay := by simp [GridState.ay, h4]
    rw [this]
    exact h3
  | readY =>
    obtain ⟨r, s', l, h1, h2, h3, h4, h5⟩ := readMat_ok (a := s.ay) h.ny h.y
    unfold GridState.step
    simp only [h1]
    refine ⟨h.nx, h.ny, h.x, ?_, h.hx, by simp only [h5]; exact h.hy⟩
    have : (⟨s.nx, s.ny, s.x, s'⟩ : GridState).ay = s.ay := by simp [GridState.ay, h5]
    rw [this]
    exact h4
  | setXlim a b int =>
    unfold GridState.step
    simp only
    cases hr : setLim s.x a b int with
    | error e => exact h
    | ok x' =>
      obtain ⟨h1, h2⟩ := setLim_ok (n := s.nx) h.x hr h.hx
      exact ⟨h.nx, h.ny, h1, h.y, h2, h.hy⟩
  | setYlim a b int =>
    unfold GridState.step
    simp only
    cases hr : setLim s.y a b int with
    | error e => exact h
    | ok y' =>
      obtain ⟨h1, h2⟩ := setLim_ok (n := s.ny) h.y hr h.hy
      exact ⟨h.nx, h.ny, h.x, h1, h.hx, h2⟩
  | setSize a b => exact setSize_ok h (hop rfl) a b
  | resize sc => exact setSize_ok h (hop rfl) _ _
  | shift dx dy =>
    -- the x part
    have hx : ∀ r, shiftOpt false s.x dx = r →
        AxOk ⟨r.1.lim.1, r.1.lim.2, s.nx⟩ s.ny false r.1 ∧ r.1.lim.1 ≠ r.1.lim.2 := by
      rintro r rfl
      cases dx with
      | none => exact ⟨h.x, h.hx⟩
      | some d =>
        obtain ⟨h1, h2, h3, h4⟩ := shiftAx_ok (n := s.nx) h.x d
        refine ⟨h1, ?_⟩
        simp only [shiftOpt]
        by_cases hn : (shiftAx false s.x d).2 = none
        · rw [h3 hn]
          intro hh
          exact h.hx (by simpa using hh)
        · rw [h4 hn]
          exact h.hx
    have hy : ∀ r, shiftOpt true s.y dy = r →
        AxOk ⟨r.1.lim.1, r.1.lim.2, s.ny⟩ s.nx true r.1 ∧ r.1.lim.1 ≠ r.1.lim.2 := by
      rintro r rfl
      cases dy with
      | none => exact ⟨h.y, h.hy⟩
      | some d =>
        obtain ⟨h1, h2, h3, h4⟩ := shiftAx_ok (n := s.ny) h.y d
        refine ⟨h1, ?_⟩
        simp only [shiftOpt]
        by_cases hn : (shiftAx true s.y d).2 = none
        · rw [h3 hn]
          intro hh
          exact h.hy (by simpa using hh)
        · rw [h4 hn]
          exact h.hy
    obtain ⟨a1, a2⟩ := hx _ rfl
    obtain ⟨b1, b2⟩ := hy _ rfl
    unfold GridState.step
    simp only
    split
    · exact ⟨h.nx, h.ny, a1, h.y, a2, h.hy⟩
    · exact ⟨h.nx, h.ny, a1, b1, a2, b2⟩

/-- A history in which the size is only changed while no coordinates are cached. -/
def SizeChangesOnlyUncached : GridState → List GridOp → Prop
  | _, [] => True
  | s, op :: ops => (op.isSize = true → s.NothingCached) ∧ SizeChangesOnlyUncached (s.step op).1 ops

theorem run_ok {s : GridState} (h : GOk s) (ops : List GridOp) (hops : SizeChangesOnlyUncached s ops) :
    GOk (s.run ops) := by
  induction ops generalizing s with
  | nil => exact h
  | cons op ops ih => exact ih (step_ok h op hops.1) hops.2

theorem parseLimits_ok {a b : ℚ} {l : ℚ × ℚ} (h : parseLimits [a, b] = .ok l) : l = (a, b) ∧ a ≠ b := by
  unfold parseLimits at h
  by_cases hab : a = b
  · simp [hab] at h
  · simp only [hab, if_false] at h
    cases h
    exact ⟨rfl, hab⟩

theorem limits_ok {nx ny : Nat} {dim : Bool} {inp : AxInput} {s : AxState} {n m : Nat}
    (hinp : inp = .none ∨ ∃ a b int, inp = .lims a b int) (h : parseXy nx ny dim inp = .ok s) :
    AxOk ⟨s.lim.1, s.lim.2, n⟩ m dim s ∧ s.lim.1 ≠ s.lim.2 := by
  rcases hinp with rfl | ⟨a, b, int, rfl⟩
  · unfold parseXy at h
    simp only at h
    cases hv : parseLimits [0, ((if dim then ny else nx : Nat) : ℚ)] with
    | error e => rw [hv] at h; cases h
    | ok l =>
      rw [hv] at h
      cases h
      obtain ⟨e, hne⟩ := parseLimits_ok hv
      exact ⟨⟨rfl, rfl, fun p hp => (by cases hp), fun p hp => (by cases hp), rfl⟩, by rw [e]; exact hne⟩
  · unfold parseXy at h
    simp only at h
    cases hv : parseLimits [a, b] with
    | error e => rw [hv] at h; cases h
    | ok l =>
      rw [hv] at h
      cases h
      obtain ⟨e, hne⟩ := parseLimits_ok hv
      exact ⟨⟨rfl, rfl, fun p hp => (by cases hp), fun p hp => (by cases hp), rfl⟩, by rw [e]; exact hne⟩

/-- A grid built from limits (or nothing) on both axes, of positive size. -/
def FromLimits (x : AxInput) : Prop := x = .none ∨ ∃ a b int, x = .lims a b int

/-- C26 (partial): for a grid built from limits, after every history of reads, limit changes, shifts (also failing ones)
and size changes made while nothing is cached, all coordinates are fresh. Missing for the full statement: size changes
after a read (see `grid_size_stale_violated`) and grids built from coordinate arrays (`grid_X_view_violated`,
`grid_int_x_stale_violated`). -/
theorem grid_coordinates_fresh_partial (nx ny : Nat) (hnx : 0 < nx) (hny : 0 < ny) (x y : AxInput) (hx : FromLimits x)
    (hy : FromLimits y) (s : GridState) (h : GridState.init nx ny x y = .ok s) (ops : List GridOp)
    (hops : SizeChangesOnlyUncached s ops) : (s.run ops).Fresh := by
  apply fresh_of_ok
  apply run_ok _ ops hops
  unfold GridState.init at h
  cases h1 : parseXy nx ny false x with
  | error e => rw [h1] at h; cases h
  | ok xs =>
    cases h2 : parseXy nx ny true y with
    | error e => rw [h1, h2] at h; cases h
    | ok ys =>
      rw [h1, h2] at h
      cases h
      obtain ⟨a1, a2⟩ := limits_ok (n := nx) (m := ny) hx h1
      obtain ⟨b1, b2⟩ := limits_ok (n := ny) (m := nx) hy h2
      exact ⟨hnx, hny, a1, b1, a2, b2⟩

/-- A history with reads, shifts and limit changes meets the hypotheses. -/
example : SizeChangesOnlyUncached ⟨4, 2, ⟨(0, 8), true, none, none, false⟩, ⟨(3, 0), false, none, none, false⟩⟩
    [.resize (1 / 2), .readX, .shift (some ⟨1, true⟩) none, .setXlim 5 1 false, .ready, .shift none (some ⟨1 / 2, false⟩)] := by
  refine ⟨fun _ => ⟨rfl, rfl, rfl, rfl⟩, ?_⟩
  simp [SizeChangesOnlyUncached, GridOp.isSize]
example : (GridState.init 4 2 (.lims 0 8 true) (.lims 3 0 false)).toOption.isSome = true := by decide +kernel

/-- C26: a successful shift of such a grid moves the limits by exactly (dx, dy); it raises exactly when an axis with
integer limits gets a non-integer shift. -/
theorem grid_shift_spec (nx ny : Nat) (hnx : 0 < nx) (hny : 0 < ny) (x y : AxInput) (hx : FromLimits x)
    (hy : FromLimits y) (s0 : GridState) (h : GridState.init nx ny x y = .ok s0) (ops : List GridOp)
    (hops : SizeChangesOnlyUncached s0 ops) (dx dy : Num) :
    let s := s0.run ops
    let r := s.step (.shift (some dx) (some dy))
    (r.2 = none ↔ (s.x.limInt = true → dx.isInt = true) ∧ (s.y.limInt = true → dy.isInt = true)) ∧
    (r.2 = none → r.1.x.lim = (s.x.lim.1 + dx.val, s.x.lim.2 + dx.val) ∧
      r.1.y.lim = (s.y.lim.1 + dy.val, s.y.lim.2 + dy.val) ∧ r.1.nx = s.nx ∧ r.1.ny = s.ny ∧ r.1.Fresh) := by
  have hok : GOk (s0.run ops) := by
    apply run_ok _ ops hops
    unfold GridState.init at h
    cases h1 : parseXy nx ny false x with
    | error e => rw [h1] at h; cases h
    | ok xs =>
      cases h2 : parseXy nx ny true y with
      | error e => rw [h1, h2] at h; cases h
      | ok ys =>
        rw [h1, h2] at h
        cases h
        obtain ⟨a1, a2⟩ := limits_ok (n := nx) (m := ny) hx h1
        obtain ⟨b1, b2⟩ := limits_ok (n := ny) (m := nx) hy h2
        exact ⟨hnx, hny, a1, b1, a2, b2⟩
  have hfresh := fresh_of_ok (step_ok hok (.shift (some dx) (some dy)) (by simp [GridOp.isSize]))
  generalize s0.run ops = s at hok hfresh ⊢
  obtain ⟨-, x2, x3, x4⟩ := shiftAx_ok (n := s.nx) hok.x dx
  obtain ⟨-, y2, y3, y4⟩ := shiftAx_ok (n := s.ny) hok.y dy
  have key : s.step (.shift (some dx) (some dy)) =
      match (shiftAx false s.x dx).2 with
      | some e => ({ s with x := (shiftAx false s.x dx).1 }, some e)
      | none => ({ s with x := (shiftAx false s.x dx).1, y := (shiftAx true s.y dy).1 }, (shiftAx true s.y dy).2) := by
    rfl
  intro s' r
  have hr : r = s.step (.shift (some dx) (some dy)) := rfl
  rw [key] at hr
  cases hx2 : (shiftAx false s.x dx).2 with
  | some e =>
    rw [hx2] at hr
    simp only at hr
    rw [hr]
    refine ⟨⟨by simp, fun hh => ?_⟩, by simp⟩
    have := x2.mpr hh.1
    rw [hx2] at this
    cases this
  | none =>
    have hxi := x2.mp hx2
    rw [hx2] at hr
    simp only at hr
    refine ⟨?_, fun hn => ?_⟩
    · rw [hr]
      simp only
      rw [y2]
      exact ⟨fun hh => ⟨hxi, hh⟩, fun hh => hh.2⟩
    · have hf : r.1.Fresh := hfresh
      rw [hr] at hn hf ⊢
      exact ⟨x3 hx2, y3 hn, rfl, rfl, hf⟩

/-- C26 is false for size changes: after reading `x`, halving the size leaves four stale coordinates for two cells. -/
theorem grid_size_stale_violated : ∃ s ops, GridState.init 4 2 (.lims 0 8 false) (.lims 3 0 false) = .ok s ∧
    ops = [.readx, .resize (1 / 2)] ∧ (s.run ops).nx = 2 ∧
    readVec (s.run ops).ax (s.run ops).x = .ok ([1, 3, 5, 7], (s.run ops).x) ∧ ¬ (s.run ops).Fresh := by
  refine ⟨⟨4, 2, ⟨(0, 8), false, none, none, false⟩, ⟨(3, 0), false, none, none, false⟩⟩, _, by decide +kernel, rfl,
    by decide +kernel, by decide +kernel, fun h => ?_⟩
  obtain ⟨l, s', h1, h2⟩ := h.x
  have h3 : readVec (GridState.run ⟨4, 2, ⟨(0, 8), false, none, none, false⟩, ⟨(3, 0), false, none, none, false⟩⟩
      [.readx, .resize (1 / 2)]).ax
      (GridState.run ⟨4, 2, ⟨(0, 8), false, none, none, false⟩, ⟨(3, 0), false, none, none, false⟩⟩
      [.readx, .resize (1 / 2)]).x =
    .ok ([1, 3, 5, 7], (GridState.run ⟨4, 2, ⟨(0, 8), false, none, none, false⟩, ⟨(3, 0), false, none, none, false⟩⟩
      [.readx, .resize (1 / 2)]).x) := by decide +kernel
  rw [h3] at h1
  cases h1
  have h4 := h2.1
  have : (GridState.run ⟨4, 2, ⟨(0, 8), false, none, none, false⟩, ⟨(3, 0), false, none, none, false⟩⟩
      [.readx, .resize (1 / 2)]).ax.n = 2 := by decide +kernel
  rw [this] at h4
  simp at h4

/-- After a size change, assigning different limits on both axes makes the coordinates fresh again, whatever was
cached. -/
theorem grid_new_limits_refresh (s : GridState) (hnx : 0 < s.nx) (hny : 0 < s.ny) (a b c d : ℚ) (i j : Bool)
    (hab : a ≠ b) (hcd : c ≠ d) (hx : s.x.lim ≠ (a, b)) (hy : s.y.lim ≠ (c, d)) :
    (s.run [.setXlim a b i, .setYlim c d j]).Fresh := by
  have e : s.run [.setXlim a b i, .setYlim c d j] =
      ⟨s.nx, s.ny, ⟨(a, b), i, none, none, false⟩, ⟨(c, d), j, none, none, false⟩⟩ := by
    simp only [GridState.run, List.foldl, GridState.step, setLim, parseLimits, hab, hcd, hx, hy, if_false, bind,
      Except.bind, pure, Except.pure]
  rw [e]
  exact fresh_of_ok ⟨hnx, hny, ⟨rfl, rfl, fun p hp => (by cases hp), fun p hp => (by cases hp), rfl⟩,
    ⟨rfl, rfl, fun p hp => (by cases hp), fun p hp => (by cases hp), rfl⟩, hab, hcd⟩

/-- C26 is false for a grid built from a coordinate matrix: `x` is a view of the matrix, so `shift(dx=1)` adds 1 to the
limits but 2 to `x`. -/
theorem grid_X_view_violated : ∃ s, GridState.init 3 2 (.mat [[1, 3, 5], [1, 3, 5]] false) (.lims 2 0 false) = .ok s ∧
    (s.run [.shift (some ⟨1, true⟩) none]).x.lim = (1, 7) ∧
    (s.run [.shift (some ⟨1, true⟩) none]).x.vec = some (false, [3, 5, 7]) ∧
    (s.run [.shift (some ⟨1, true⟩) none]).x.mat = some (false, [[3, 5, 7], [2, 4, 6]]) := by
  refine ⟨⟨3, 2, ⟨(0, 6), false, some (false, [1, 3, 5]), some (false, [[1, 3, 5], [1, 3, 5]]), true⟩,
    ⟨(2, 0), false, none, none, false⟩⟩, ?_⟩
  decide +kernel

/-- Element in row `i` and column `j` of a matrix. -/
def matEntry (rows : List (List ℚ)) (i j : Nat) : Option ℚ := (rows[i]?).bind (·[j]?)

theorem matEntry_map (rows : List (List ℚ)) (d : ℚ) (i j : Nat) :
    matEntry (rows.map fun r => r.map (· + d)) i j = (matEntry rows i j).map (· + d) := by
  unfold matEntry
  rw [List.getElem?_map]
  cases rows[i]? with
  | none => rfl
  | some r => simp

theorem matEntry_addView_x (rows : List (List ℚ)) (d : ℚ) (i j : Nat) :
    matEntry (addView false d rows) i j = (matEntry rows i j).map (· + if i = 0 then d else 0) := by
  cases rows with
  | nil => simp [matEntry, addView]
  | cons r rs =>
    cases i with
    | zero => simp [matEntry, addView]
    | succ i => simp [matEntry, addView]

theorem matEntry_addView_y (rows : List (List ℚ)) (d : ℚ) (i j : Nat) :
    matEntry (addView true d rows) i j = (matEntry rows i j).map (· + if j = 0 then d else 0) := by
  unfold matEntry addView
  simp only [if_true, List.getElem?_map]
  cases rows[i]? with
  | none => rfl
  | some r =>
    cases r with
    | nil => simp
    | cons h t => cases j <;> simp

/-- C26 is false for every grid built from coordinate matrices (of three or more columns and rows, with elements of a float type): a shift moves the limits
by `dx` and `dy` as it should, but the vectors, which are views of the first row of X and the first column of Y, by `2 dx` and `2 dy`; in the
matrices this row and this column move by `2 dx` and `2 dy` and all else by `dx` and `dy`. -/
theorem grid_matrices_shift_violated (nx ny : Nat) (hnx : 3 ≤ nx) (hny : 3 ≤ ny) (X Y : List (List ℚ)) (s : GridState)
    (h : GridState.init nx ny (.mat X false) (.mat Y false) = .ok s) (dx dy : Num) :
    ∃ s' X' Y', s.step (.shift (some dx) (some dy)) = (s', none) ∧
      s'.x.lim = (s.x.lim.1 + dx.val, s.x.lim.2 + dx.val) ∧ s'.y.lim = (s.y.lim.1 + dy.val, s.y.lim.2 + dy.val) ∧
      s.x.vec = some (false, X.headD []) ∧ s'.x.vec = some (false, (X.headD []).map (· + 2 * dx.val)) ∧
      s.y.vec = some (false, firstCol Y) ∧ s'.y.vec = some (false, (firstCol Y).map (· + 2 * dy.val)) ∧
      s'.x.mat = some (false, X') ∧ s'.y.mat = some (false, Y') ∧
      (∀ i j, matEntry X' i j = (matEntry X i j).map (· + if i = 0 then 2 * dx.val else dx.val)) ∧
      ∀ i j, matEntry Y' i j = (matEntry Y i j).map (· + if j = 0 then 2 * dy.val else dy.val) := by
  simp only [GridState.init, bind, Except.bind, pure, Except.pure] at h
  have key : ∀ (dim : Bool) (M : List (List ℚ)) (n : Nat), 3 ≤ n → ∀ xs, (if dim then ny else nx) = n → parseXy nx ny dim (.mat M false) = .ok xs →
      ∃ lim, xs = ⟨lim, false, some (false, if dim then firstCol M else M.headD []), some (false, M), true⟩ := by
    intro dim M n hn xs hd hp
    simp only [parseXy, bind, Except.bind, pure, Except.pure] at hp
    split at hp
    · rename_i hM
      obtain ⟨hM1, hM2⟩ := hM
      have hlen : (if dim = true then firstCol M else M.headD []).length > 2 := by
        cases dim with
        | true => simp only [if_true, firstCol, List.length_map] at hd ⊢; omega
        | false =>
          simp only [Bool.false_eq_true, if_false] at hd ⊢
          cases M with
          | nil => simp at hM1; omega
          | cons r rs =>
            simp only [List.all_cons, Bool.and_eq_true, decide_eq_true_eq] at hM2
            simp only [List.headD_cons]; omega
      simp only [parseVec, if_pos hlen, bind, Except.bind, pure, Except.pure] at hp
      split at hp
      · cases hp
      · rename_i v hv
        split at hv
        · cases hv
        · rename_i lim hl
          cases hv
          cases hp
          exact ⟨lim, rfl⟩
    · cases hp
  split at h
  · cases h
  · rename_i xs hx
    split at h
    · cases h
    · rename_i ys hy
      cases h
      obtain ⟨lx, rfl⟩ := key false X nx hnx xs rfl hx
      obtain ⟨ly, rfl⟩ := key true Y ny hny ys rfl hy
      refine ⟨_, _, _, by simp only [GridState.step, shiftOpt, shiftAx, shiftCaches, Bool.false_and, Bool.false_eq_true, if_false, Option.any_some,
        Option.isSome_some, Bool.and_true, if_true, Option.map_some, Bool.and_self]; rfl, rfl, rfl, rfl, ?_, rfl, ?_, rfl, rfl, ?_, ?_⟩
      · simp only [List.map_map, Bool.false_eq_true, if_false]
        refine congrArg (fun l => some (false, l)) (List.map_congr_left fun a _ => ?_)
        simp only [Function.comp]; ring
      · simp only [List.map_map, if_true]
        refine congrArg (fun l => some (false, l)) (List.map_congr_left fun a _ => ?_)
        simp only [Function.comp]; ring
      · intro i j
        rw [matEntry_map, matEntry_addView_x, Option.map_map]
        refine congrArg (fun f => (matEntry X i j).map f) (funext fun a => ?_)
        simp only [Function.comp]
        split <;> ring
      · intro i j
        rw [matEntry_map, matEntry_addView_y, Option.map_map]
        refine congrArg (fun f => (matEntry Y i j).map f) (funext fun a => ?_)
        simp only [Function.comp]
        split <;> ring

/-- There are such grids. -/
example : ∃ s, GridState.init 3 3 (.mat [[1, 3, 5], [1, 3, 5], [1, 3, 5]] false) (.mat [[5, 5, 5], [3, 3, 3], [1, 1, 1]] false) = .ok s :=
  ⟨⟨3, 3, ⟨(0, 6), false, some (false, [1, 3, 5]), some (false, [[1, 3, 5], [1, 3, 5], [1, 3, 5]]), true⟩,
    ⟨(6, 0), false, some (false, [5, 3, 1]), some (false, [[5, 5, 5], [3, 3, 3], [1, 1, 1]]), true⟩⟩, by decide +kernel⟩

/-- C26 is false for a grid built from an integer coordinate vector: `shift(dx=0.5)` moves the limits and then raises,
leaving `x` behind. -/
theorem grid_int_x_stale_violated : ∃ s, GridState.init 3 2 (.vec [1, 3, 5] true) (.lims 2 0 false) = .ok s ∧
    (s.step (.shift (some ⟨1 / 2, false⟩) none)).2 = some .typeError ∧
    (s.step (.shift (some ⟨1 / 2, false⟩) none)).1.x.lim = (1 / 2, 13 / 2) ∧
    (s.step (.shift (some ⟨1 / 2, false⟩) none)).1.x.vec = some (true, [1, 3, 5]) := by
  refine ⟨⟨3, 2, ⟨(0, 6), false, some (true, [1, 3, 5]), none, false⟩, ⟨(2, 0), false, none, none, false⟩⟩, ?_⟩
  decide +kernel

/-- A grid with default (integer) limits cannot be shifted by a fraction. -/
theorem grid_default_shift_violated (nx ny : Nat) (hnx : 0 < nx) (hny : 0 < ny) (dx : ℚ) :
    ∃ s, GridState.init nx ny .none .none = .ok s ∧
      s.step (.shift (some ⟨dx, false⟩) none) = (s, some .typeError) := by
  have h1 : (0 : ℚ) ≠ nx := by exact_mod_cast hnx.ne
  have h2 : (0 : ℚ) ≠ ny := by exact_mod_cast hny.ne
  refine ⟨⟨nx, ny, ⟨(0, nx), true, none, none, false⟩, ⟨(0, ny), true, none, none, false⟩⟩, ?_, ?_⟩
  · simp [GridState.init, parseXy, parseLimits, h1, h2, bind, Except.bind, pure, Except.pure]
  · simp [GridState.step, shiftOpt, shiftAx]

/-- Building a grid from the centres of three or more cells gives back their limits, and the coordinates are fresh. -/
theorem grid_from_centers (a : GAxis) (hn : 3 ≤ a.n) (h : a.lo ≠ a.hi) (l : List ℚ) (hl : IsCenters a l) (int : Bool) :
    parseVec l int = .ok ((a.lo, a.hi), false, some (int, l)) := by
  have hlen : l.length > 2 := by rw [hl.1]; omega
  have h0 := hl.2 0 (by omega)
  have h1 := hl.2 1 (by omega)
  have h2 := hl.2 (a.n - 1) (by omega)
  have e0 : l.getD 0 0 = cellCenter a.lo a.hi a.n 0 := by
    rw [List.getD_eq_getElem?_getD, h0]; rfl
  have e1 : l.getD 1 0 = cellCenter a.lo a.hi a.n 1 := by
    rw [List.getD_eq_getElem?_getD, h1]; rfl
  have e2 : l.getLastD 0 = cellCenter a.lo a.hi a.n ((a.n - 1 : ℕ) : ℤ) := by
    rw [List.getLastD_eq_getLast?, List.getLast?_eq_getElem?, hl.1, h2]; rfl
  have hn0 : 0 < a.n := by omega
  have hnd := GAxis.n_mul_d hn0
  have hcast : (((a.n - 1 : ℕ) : ℤ) : ℚ) = (a.n : ℚ) - 1 := by
    rw [Int.cast_natCast, Nat.cast_sub (by omega)]
    push_cast
    ring
  have l0 : l.getD 0 0 - (l.getD 1 0 - l.getD 0 0) / 2 = a.lo := by
    rw [e0, e1, GAxis.cellCenter_eq hn0, GAxis.cellCenter_eq hn0]
    push_cast
    ring
  have l1 : l.getLastD 0 + (l.getD 1 0 - l.getD 0 0) / 2 = a.hi := by
    rw [e0, e1, e2, GAxis.cellCenter_eq hn0, GAxis.cellCenter_eq hn0, GAxis.cellCenter_eq hn0, hcast]
    push_cast
    linarith
  unfold parseVec
  rw [if_pos hlen]
  simp only
  rw [l0, l1]
  simp [parseLimits, h, bind, Except.bind, pure, Except.pure]

/-- ... but a coordinate matrix with two columns is taken for limits: a 2 by 2 grid with x centres 1 and 3 gets limits
(1, 3) instead of (0, 4). -/
theorem grid_from_X_two_columns_violated :
    ∃ s, GridState.init 2 2 (.mat [[1, 3], [1, 3]] false) (.lims 2 0 false) = .ok s ∧ s.x.lim = (1, 3) ∧
      IsCenters ⟨0, 4, 2⟩ [1, 3] := by
  refine ⟨⟨2, 2, ⟨(1, 3), false, none, some (false, [[1, 3], [1, 3]]), true⟩, ⟨(2, 0), false, none, none, false⟩⟩,
    by decide +kernel, rfl, rfl, ?_⟩
  intro i hi
  have hi : i < 2 := hi
  interval_cases i <;> decide +kernel

end Glimpse
