import Verif.Model.RasterState
import Verif.Props.GridState

/-!
C27: `Raster.shift` moves the raster by exactly (dx, dy, dz), and the cached interpolator never goes stale — both true
only while no interpolator is cached.
-/
set_option autoImplicit false
set_option linter.unusedSimpArgs false

namespace Glimpse

/-- Specification: coordinates are fresh, and the interpolator, if cached, has the current cell centres in ascending
order and the current array, transposed and flipped to match. -/
structure RasterState.Fresh (s : RasterState) : Prop where
  grid : s.g.Fresh
  zf : ∀ z, s.zf = some z → ∃ lx ly, IsCenters s.g.ax lx ∧ IsCenters s.g.ay ly ∧
    z.gx.get s.g.x.vec = orient (decide (s.g.x.lim.2 < s.g.x.lim.1)) lx ∧
    z.gy.get s.g.y.vec = orient (decide (s.g.y.lim.2 < s.g.y.lim.1)) ly ∧
    z.values s = orientT (decide (s.g.x.lim.2 < s.g.x.lim.1)) (decide (s.g.y.lim.2 < s.g.y.lim.1)) s.g.nx s.arr

private theorem d_neg_iff {a : GAxis} (hn : 0 < a.n) : a.d < 0 ↔ a.hi < a.lo := by
  have h1 := GAxis.n_mul_d hn
  have hn0 : (0 : ℚ) < a.n := by exact_mod_cast hn
  constructor
  · intro h
    have := mul_neg_of_pos_of_neg hn0 h
    linarith
  · intro h
    by_contra hc
    have := mul_nonneg hn0.le (not_lt.mp hc)
    linarith

/-- Invariant of the cached interpolator. -/
private structure ZOk (s : RasterState) (z : ZfState) : Prop where
  sx : z.sx = decide (s.g.x.lim.2 < s.g.x.lim.1)
  sy : z.sy = decide (s.g.y.lim.2 < s.g.y.lim.1)
  gx : z.gx = .view z.sx
  gy : z.gy = .view z.sy
  vx : ∃ l, s.g.x.vec = some (false, l)
  vy : ∃ l, s.g.y.vec = some (false, l)
  vals : z.vals = .view ∨ (s.arrInt = true ∧ z.vals = .own (orientT z.sx z.sy s.g.nx s.arr))

private structure ROk (s : RasterState) : Prop where
  g : GOk s.g
  fx : s.g.x.limInt = false
  fy : s.g.y.limInt = false
  z : ∀ z, s.zf = some z → ZOk s z

private theorem fresh_of_rok {s : RasterState} (h : ROk s) : s.Fresh := by
  refine ⟨fresh_of_ok h.g, fun z hz => ?_⟩
  have k := h.z z hz
  obtain ⟨lx, hlx⟩ := k.vx
  obtain ⟨ly, hly⟩ := k.vy
  refine ⟨lx, ly, (h.g.x.vec _ hlx).2, (h.g.y.vec _ hly).2, ?_, ?_, ?_⟩
  · rw [k.gx, hlx, k.sx]; rfl
  · rw [k.gy, hly, k.sy]; rfl
  · unfold ZfState.values
    rcases k.vals with e | ⟨-, e⟩
    · rw [e, k.sx, k.sy]
    · rw [e, k.sx, k.sy]

/-- Which operations keep a raster fresh: limits are changed and the raster moved in x or y only while no
interpolator is cached; a cached one tolerates a shift in z if the array is float. A new array must be a non-empty
rectangular matrix. -/
def SafeOp (s : RasterState) : RasterOp → Prop
  | .sample => True
  | .setXlim _ _ => s.zf = none
  | .setYlim _ _ => s.zf = none
  | .setArray rows _ => rows ≠ [] ∧ ∃ n, 0 < n ∧ ∀ r ∈ rows, r.length = n
  | .shift dx dy _ => s.zf = none ∨ (dx = none ∧ dy = none ∧ s.arrInt = false)

/-- A history of safe operations. -/
def SafeHistory : RasterState → List RasterOp → Prop
  | _, [] => True
  | s, op :: ops => SafeOp s op ∧ SafeHistory (s.step op).1 ops

private theorem setLim_float {s s' : AxState} {a b : ℚ} (h : setLim s a b false = .ok s') (hf : s.limInt = false) :
    s'.limInt = false := by
  unfold setLim at h
  cases hp : parseLimits [a, b] with
  | error e => rw [hp] at h; cases h
  | ok l =>
    rw [hp] at h
    simp only [bind, Except.bind, pure, Except.pure] at h
    split at h
    · cases h; exact hf
    · cases h; rfl

private theorem shiftOpt_float (dim : Bool) (s : AxState) (d : Option Num) : (shiftOpt dim s d).1.limInt = s.limInt := by
  cases d with
  | none => rfl
  | some d =>
    simp only [shiftOpt, shiftAx]
    split
    · rfl
    · split
      · rfl
      · unfold shiftCaches
        simp only
        split
        · rfl
        · split <;> rfl

private theorem shift_float (g : GridState) (dx dy : Option Num) :
    (g.step (.shift dx dy)).1.x.limInt = g.x.limInt ∧ (g.step (.shift dx dy)).1.y.limInt = g.y.limInt := by
  have hx := shiftOpt_float false g.x dx
  have hy := shiftOpt_float true g.y dy
  unfold GridState.step
  simp only
  split
  · exact ⟨hx, rfl⟩
  · exact ⟨hx, hy⟩

private theorem readVec_float {a : GAxis} {s s' : AxState} {l : List ℚ} (h : readVec a s = .ok (l, s')) :
    s'.limInt = s.limInt ∧ s'.vec.isSome = true := by
  unfold readVec at h
  cases hv : s.vec with
  | some p =>
    rw [hv] at h
    cases h
    exact ⟨rfl, by rw [hv]; rfl⟩
  | none =>
    rw [hv] at h
    simp only at h
    cases hc : a.centers with
    | error e => rw [hc] at h; cases h
    | ok l' => rw [hc] at h; cases h; exact ⟨rfl, rfl⟩

private theorem rstep_ok {s : RasterState} (h : ROk s) (op : RasterOp) (hop : SafeOp s op) : ROk (s.step op).1 := by
  cases op with
  | sample =>
    simp only [RasterState.step, RasterState.buildZf]
    cases hz : s.zf with
    | some z => exact h
    | none =>
      simp only
      split
      · exact h
      · obtain ⟨lx, x', h1, h2, h3, h4, h5⟩ := readVec_ok (a := s.g.ax) h.g.nx h.g.x
        obtain ⟨ly, y', k1, k2, k3, k4, k5⟩ := readVec_ok (a := s.g.ay) h.g.ny h.g.y
        rw [h1, k1]
        simp only
        obtain ⟨f1, f2⟩ := readVec_float h1
        obtain ⟨f3, f4⟩ := readVec_float k1
        have hg : GOk { s.g with x := x', y := y' } := by
          refine ⟨h.g.nx, h.g.ny, ?_, ?_, by simp only [h4]; exact h.g.hx, by simp only [k4]; exact h.g.hy⟩
          · have : (⟨s.g.nx, s.g.ny, x', y'⟩ : GridState).ax = s.g.ax := by simp [GridState.ax, h4]
            rw [this]; exact h3
          · have : (⟨s.g.nx, s.g.ny, x', y'⟩ : GridState).ay = s.g.ay := by simp [GridState.ay, k4]
            rw [this]; exact k3
        refine ⟨hg, f1.trans h.fx, f3.trans h.fy, fun z hz => ?_⟩
        cases hz
        have e1 : decide (s.g.ax.d < 0) = decide (s.g.x.lim.2 < s.g.x.lim.1) := by
          rw [decide_eq_decide, d_neg_iff (a := s.g.ax) h.g.nx]; rfl
        have e2 : decide (s.g.ay.d < 0) = decide (s.g.y.lim.2 < s.g.y.lim.1) := by
          rw [decide_eq_decide, d_neg_iff (a := s.g.ay) h.g.ny]; rfl
        refine ⟨by simp only [h4]; exact e1, by simp only [k4]; exact e2, rfl, rfl, ?_, ?_, ?_⟩
        · obtain ⟨p, hp⟩ := Option.isSome_iff_exists.mp f2
          exact ⟨p.2, by simp only; rw [hp, ← (h3.vec p hp).1]⟩
        · obtain ⟨p, hp⟩ := Option.isSome_iff_exists.mp f4
          exact ⟨p.2, by simp only; rw [hp, ← (k3.vec p hp).1]⟩
        · simp only
          cases hi : s.arrInt
          · left; simp
          · right; simp
  | setXlim a b =>
    have hz : s.zf = none := hop
    simp only [RasterState.step, RasterState.setXlim]
    have hg := step_ok h.g (.setXlim a b false) (by simp [GridOp.isSize])
    refine ⟨hg, ?_, ?_, fun z hz' => ?_⟩
    · simp only [GridState.step]
      cases hr : setLim s.g.x a b false with
      | error e => exact h.fx
      | ok x' => exact setLim_float hr h.fx
    · simp only [GridState.step]
      cases hr : setLim s.g.x a b false with
      | error e => exact h.fy
      | ok x' => exact h.fy
    · simp only [hz, Option.map_none, ite_self] at hz'
      cases hz'
  | setYlim a b =>
    have hz : s.zf = none := hop
    simp only [RasterState.step, RasterState.setYlim]
    have hg := step_ok h.g (.setYlim a b false) (by simp [GridOp.isSize])
    refine ⟨hg, ?_, ?_, fun z hz' => ?_⟩
    · simp only [GridState.step]
      cases hr : setLim s.g.y a b false with
      | error e => exact h.fx
      | ok x' => exact h.fx
    · simp only [GridState.step]
      cases hr : setLim s.g.y a b false with
      | error e => exact h.fy
      | ok x' => exact setLim_float hr h.fy
    · simp only [hz, Option.map_none, ite_self] at hz'
      cases hz'
  | setArray rows int =>
    obtain ⟨hne, n, hn, hall⟩ := hop
    simp only [RasterState.step, RasterState.setArray]
    have hlen : (rows.headD []).length = n := by
      cases rows with
      | nil => exact absurd rfl hne
      | cons r rs => exact hall r List.mem_cons_self
    refine ⟨?_, ?_, ?_, fun z hz => by cases hz⟩
    · simp only
      split
      · exact h.g
      · refine ⟨by simp only; omega, List.length_pos_iff.mpr hne, ?_, ?_, h.g.hx, h.g.hy⟩
        · exact ⟨rfl, rfl, fun p hp => (by cases hp), fun p hp => (by cases hp), rfl⟩
        · exact ⟨rfl, rfl, fun p hp => (by cases hp), fun p hp => (by cases hp), rfl⟩
    · simp only; split <;> exact h.fx
    · simp only; split <;> exact h.fy
  | shift dx dy dz =>
    obtain ⟨f1, f2⟩ := shift_float s.g dx dy
    have hg := step_ok h.g (.shift dx dy) (by simp [GridOp.isSize])
    rcases hop with hz | ⟨rfl, rfl, hint⟩
    · simp only [RasterState.step, RasterState.shift]
      split
      · exact ⟨hg, f1.trans h.fx, f2.trans h.fy, fun z hz' => by simp only [hz] at hz'; cases hz'⟩
      · cases dz with
        | none =>
          simp only [Bool.false_eq_true, if_false, hz]
          exact ⟨hg, f1.trans h.fx, f2.trans h.fy, fun z hz' => (by simp only at hz'; cases hz')⟩
        | some d =>
          simp only [hz]
          by_cases hb : (s.arrInt && !d.isInt) = true
          · rw [if_pos hb]
            exact ⟨hg, f1.trans h.fx, f2.trans h.fy, fun z hz' => (by simp only at hz'; cases hz')⟩
          · rw [if_neg hb]
            exact ⟨hg, f1.trans h.fx, f2.trans h.fy, fun z hz' => (by simp only at hz'; cases hz')⟩
    · have e : s.g.step (.shift none none) = (s.g, none) := rfl
      simp only [RasterState.step, RasterState.shift, e, hint, Bool.false_and]
      cases dz with
      | none =>
        simp only
        cases hz : s.zf with
        | none => exact ⟨h.g, h.fx, h.fy, fun z hz' => by simp only [hz] at hz'; cases hz'⟩
        | some z =>
          simp only [Bool.false_eq_true, if_false, hz, shiftZf]
          refine ⟨h.g, h.fx, h.fy, fun z' hz' => ?_⟩
          simp only [Option.some.injEq] at hz'
          subst hz'
          have k := h.z z hz
          refine ⟨k.sx, k.sy, k.gx, k.gy, k.vx, k.vy, ?_⟩
          rcases k.vals with e | ⟨e, -⟩
          · left; exact e
          · rw [hint] at e; cases e
      | some d =>
        simp only
        cases hz : s.zf with
        | none =>
          simp only [Bool.false_eq_true, if_false]
          exact ⟨h.g, h.fx, h.fy, fun z hz' => by simp only at hz'; cases hz'⟩
        | some z =>
          simp only [Bool.false_eq_true, if_false, hz, shiftZf]
          refine ⟨h.g, h.fx, h.fy, fun z' hz' => ?_⟩
          simp only [Option.some.injEq] at hz'
          subst hz'
          have k := h.z z hz
          refine ⟨k.sx, k.sy, k.gx, k.gy, k.vx, k.vy, ?_⟩
          rcases k.vals with e | ⟨e, -⟩
          · left; exact e
          · rw [hint] at e; cases e

private theorem rrun_ok {s : RasterState} (h : ROk s) (ops : List RasterOp) (hops : SafeHistory s ops) :
    ROk (s.run ops) := by
  induction ops generalizing s with
  | nil => exact h
  | cons op ops ih => exact ih (rstep_ok h op hops.1) hops.2

/-- A non-empty rectangular matrix. -/
def IsMatrix (rows : List (List ℚ)) : Prop := rows ≠ [] ∧ ∃ n, 0 < n ∧ ∀ r ∈ rows, r.length = n

private theorem init_ok {rows : List (List ℚ)} {int : Bool} {xlim ylim : ℚ × ℚ} {s : RasterState} (hm : IsMatrix rows)
    (h : RasterState.init rows int xlim ylim = .ok s) : ROk s ∧ s.zf = none := by
  obtain ⟨hne, n, hn, hall⟩ := hm
  have hlen : (rows.headD []).length = n := by
    cases rows with
    | nil => exact absurd rfl hne
    | cons r rs => exact hall r List.mem_cons_self
  unfold RasterState.init GridState.init at h
  rw [hlen] at h
  cases h1 : parseXy n rows.length false (.lims xlim.1 xlim.2 false) with
  | error e => rw [h1] at h; cases h
  | ok xs =>
    cases h2 : parseXy n rows.length true (.lims ylim.1 ylim.2 false) with
    | error e => rw [h1, h2] at h; cases h
    | ok ys =>
      rw [h1, h2] at h
      cases h
      obtain ⟨a1, a2⟩ := limits_ok (n := n) (m := rows.length) (Or.inr ⟨_, _, _, rfl⟩) h1
      obtain ⟨b1, b2⟩ := limits_ok (n := rows.length) (m := n) (Or.inr ⟨_, _, _, rfl⟩) h2
      have fl : ∀ {dim : Bool} {l : ℚ × ℚ} {x : AxState}, parseXy n rows.length dim (.lims l.1 l.2 false) = .ok x →
          x.limInt = false := by
        intro dim l x hx
        unfold parseXy at hx
        simp only at hx
        cases hp : parseLimits [l.1, l.2] with
        | error e => rw [hp] at hx; cases hx
        | ok q => rw [hp] at hx; cases hx; rfl
      exact ⟨⟨⟨hn, List.length_pos_iff.mpr hne, a1, b1, a2, b2⟩, fl h1, fl h2, fun z hz => by cases hz⟩, rfl⟩

/-- C27 (partial): after every history of sampling, array assignment, limit changes and shifts in which limits are
changed and the raster moved in x or y only while no interpolator is cached (and in z only if the array is float or none
is cached), coordinates and interpolator are fresh. -/
theorem raster_fresh_partial (rows : List (List ℚ)) (int : Bool) (xlim ylim : ℚ × ℚ) (s : RasterState)
    (hm : IsMatrix rows) (h : RasterState.init rows int xlim ylim = .ok s) (ops : List RasterOp)
    (hops : SafeHistory s ops) : (s.run ops).Fresh :=
  fresh_of_rok (rrun_ok (init_ok hm h).1 ops hops)

/-- C27 (partial): if no interpolator is cached, `shift(dx, dy, dz)` moves limits, coordinates and values by exactly
(dx, dy, dz), and raises exactly when an integer array gets a non-integer dz. -/
theorem raster_shift_partial (rows : List (List ℚ)) (int : Bool) (xlim ylim : ℚ × ℚ) (s0 : RasterState)
    (hm : IsMatrix rows) (h : RasterState.init rows int xlim ylim = .ok s0) (ops : List RasterOp)
    (hops : SafeHistory s0 ops) (dx dy dz : Num) (hz : (s0.run ops).zf = none) :
    let s := s0.run ops
    let r := s.shift (some dx) (some dy) (some dz)
    (r.2 = none ↔ (s.arrInt = true → dz.isInt = true)) ∧
    (r.2 = none → r.1.g.x.lim = (s.g.x.lim.1 + dx.val, s.g.x.lim.2 + dx.val) ∧
      r.1.g.y.lim = (s.g.y.lim.1 + dy.val, s.g.y.lim.2 + dy.val) ∧
      r.1.arr = s.arr.map (fun row => row.map (· + dz.val)) ∧ r.1.Fresh) := by
  have hok := rrun_ok (init_ok hm h).1 ops hops
  have hfresh := fresh_of_rok (rstep_ok hok (.shift (some dx) (some dy) (some dz)) (Or.inl hz))
  generalize s0.run ops = s at hok hfresh hz ⊢
  obtain ⟨-, x2, x3, -⟩ := shiftAx_ok (n := s.g.nx) hok.g.x dx
  obtain ⟨-, y2, y3, -⟩ := shiftAx_ok (n := s.g.ny) hok.g.y dy
  have hx2 : (shiftAx false s.g.x dx).2 = none := x2.mpr (by rw [hok.fx]; simp)
  have hy2 : (shiftAx true s.g.y dy).2 = none := y2.mpr (by rw [hok.fy]; simp)
  have e : s.g.step (.shift (some dx) (some dy)) =
      ({ s.g with x := (shiftAx false s.g.x dx).1, y := (shiftAx true s.g.y dy).1 }, none) := by
    simp only [GridState.step, shiftOpt, hx2, hy2]
  have e2 : s.shift (some dx) (some dy) (some dz) =
      if (s.arrInt && !dz.isInt) = true then
        ({ s with g := { s.g with x := (shiftAx false s.g.x dx).1, y := (shiftAx true s.g.y dy).1 } }, some .typeError)
      else ({ s with g := { s.g with x := (shiftAx false s.g.x dx).1, y := (shiftAx true s.g.y dy).1 },
                     arr := s.arr.map (fun row => row.map (· + dz.val)) }, none) := by
    unfold RasterState.shift
    simp only [e, hz]
  intro s' r
  have hr : r = s.shift (some dx) (some dy) (some dz) := rfl
  have hf : r.1.Fresh := hfresh
  rw [hr] at hf ⊢
  rw [e2] at hf ⊢
  by_cases hb : (s.arrInt && !dz.isInt) = true
  · rw [if_pos hb]
    refine ⟨⟨by simp, fun hh => ?_⟩, by simp⟩
    simp only [Bool.and_eq_true, Bool.not_eq_true'] at hb
    rw [hh hb.1] at hb
    simp at hb
  · rw [if_neg hb] at hf ⊢
    refine ⟨⟨fun _ hi => ?_, fun _ => rfl⟩, fun _ => ⟨x3 hx2, y3 hy2, rfl, hf⟩⟩
    have hb' := hb
    simp at hb'
    exact hb' hi

/-- Hypotheses met by a history that samples, replaces the array and shifts. -/
example : ∃ s, RasterState.init [[1, 2], [3, 4]] false (0, 4) (2, 0) = .ok s ∧
    SafeHistory s [.sample, .shift none none (some ⟨1 / 2, false⟩), .setArray [[1, 2, 3], [4, 5, 6]] true,
      .shift (some ⟨1, true⟩) (some ⟨-2, true⟩) (some ⟨3, true⟩), .sample] := by
  refine ⟨⟨⟨2, 2, ⟨(0, 4), false, none, none, false⟩, ⟨(2, 0), false, none, none, false⟩⟩, false, [[1, 2], [3, 4]], none⟩,
    by decide +kernel, ?_⟩
  refine ⟨trivial, Or.inr ⟨rfl, rfl, by decide +kernel⟩, ⟨by simp, 3, by decide, by decide +kernel⟩, Or.inl rfl, trivial, trivial⟩

/-- C27 fails: with a cached interpolator, every shift in y without a shift in z raises. -/
theorem raster_shift_dy_raises_violated (s : RasterState) (z : ZfState) (hz : s.zf = some z) (dx : Option Num) (dy : Num) :
    (s.shift dx (some dy) none).2 ≠ none := by
  unfold RasterState.shift
  simp only [Bool.false_eq_true, if_false]
  split
  · simp
  · rw [hz]
    simp [shiftZf]

/-- C27 fails: with a cached interpolator, a shift in x of any amount other than zero moves the limits by dx and the
coordinates by 2 dx: the interpolator and the raster share the vector, and both are shifted. -/
theorem raster_shift_double_violated (rows : List (List ℚ)) (int : Bool) (xlim ylim : ℚ × ℚ) (s0 : RasterState)
    (hm : IsMatrix rows) (h : RasterState.init rows int xlim ylim = .ok s0) (ops : List RasterOp)
    (hops : SafeHistory s0 ops) (z : ZfState) (hz : (s0.run ops).zf = some z) (dx : Num) (hdx : dx.val ≠ 0) :
    let s := s0.run ops
    let r := s.shift (some dx) none none
    r.2 = none ∧ r.1.g.x.lim = (s.g.x.lim.1 + dx.val, s.g.x.lim.2 + dx.val) ∧
    (∃ l, s.g.x.vec = some (false, l) ∧ r.1.g.x.vec = some (false, (l.map (· + dx.val)).map (· + dx.val))) ∧
    ¬ r.1.Fresh := by
  have hok := rrun_ok (init_ok hm h).1 ops hops
  generalize s0.run ops = s at hok hz ⊢
  have k := hok.z z hz
  obtain ⟨l, hl⟩ := k.vx
  obtain ⟨hax, x2, x3, -⟩ := shiftAx_ok (n := s.g.nx) hok.g.x dx
  have hx2 : (shiftAx false s.g.x dx).2 = none := x2.mpr (by rw [hok.fx]; simp)
  have hvec : (shiftAx false s.g.x dx).1.vec = some (false, l.map (· + dx.val)) := by
    unfold shiftAx
    rw [hok.fx, hl]
    simp only [Bool.false_and, Bool.false_eq_true, if_false, Option.any_some]
    unfold shiftCaches
    simp only [hl, hok.g.x.view, Bool.false_and, Bool.false_eq_true, if_false, Option.map_some]
    cases hmm : s.g.x.mat with
    | none => rfl
    | some p =>
      obtain ⟨b, rr⟩ := p
      have := (hok.g.x.mat _ hmm).1
      simp only at this
      subst this
      rfl
  have e : s.g.step (.shift (some dx) none) = ({ s.g with x := (shiftAx false s.g.x dx).1 }, none) := by
    simp only [GridState.step, shiftOpt, hx2]
  intro s' r
  have hr : r = s.shift (some dx) none none := rfl
  have hr2 : r.2 = none ∧ r.1.g.x.lim = (shiftAx false s.g.x dx).1.lim ∧ r.1.g.nx = s.g.nx ∧
      r.1.g.x.vec = some (false, (l.map (· + dx.val)).map (· + dx.val)) := by
    rw [hr]
    unfold RasterState.shift
    simp only [e, Bool.false_eq_true, if_false, hz, shiftZf, k.gx, addCoord, hvec, Option.map_some]
    exact ⟨trivial, trivial, trivial, trivial⟩
  obtain ⟨h1, h2, h3, h4⟩ := hr2
  refine ⟨h1, by rw [h2, x3 hx2], ⟨l, hl, h4⟩, fun hf => ?_⟩
  obtain ⟨l', s'', e1, e2⟩ := hf.grid.x
  unfold readVec at e1
  rw [h4] at e1
  cases e1
  have c1 := (hax.vec _ hvec).2
  have e3 : r.1.g.ax = ⟨(shiftAx false s.g.x dx).1.lim.1, (shiftAx false s.g.x dx).1.lim.2, s.g.nx⟩ := by
    unfold GridState.ax
    rw [h2, h3]
  rw [e3] at e2
  have := isCenters_unique c1 e2
  have hn := hok.g.nx
  have hlen : l.length = s.g.nx := by simpa using c1.1
  have g0 := congrArg (fun m : List ℚ => m[0]?) this
  have hl0 : l[0]? = some (l[0]'(by omega)) := List.getElem?_eq_getElem _
  simp only [List.getElem?_map, hl0, Option.map_some, Option.some.injEq] at g0
  apply hdx
  linarith

private theorem setLim_new {s : AxState} {a b : ℚ} (hab : a ≠ b) (hne : s.lim ≠ (a, b)) (int : Bool) :
    setLim s a b int = .ok ⟨(a, b), int, none, none, false⟩ := by
  simp [setLim, parseLimits, hab, hne, bind, Except.bind, pure, Except.pure]

/-- C27 is false for every raster once it was sampled: new limits in x or y leave the cached interpolator at the coordinates of the old limits
(and its values as they were). -/
theorem raster_limits_stale_violated (rows : List (List ℚ)) (int : Bool) (xlim ylim : ℚ × ℚ) (s0 : RasterState)
    (hm : IsMatrix rows) (h : RasterState.init rows int xlim ylim = .ok s0) (ops : List RasterOp)
    (hops : SafeHistory s0 ops) (z : ZfState) (hz : (s0.run ops).zf = some z) (a b : ℚ) (hab : a ≠ b) :
    let s := s0.run ops
    (s.g.x.lim ≠ (a, b) → ∃ s' z', s.step (.setXlim a b) = (s', none) ∧ s'.zf = some z' ∧ s'.g.x.lim = (a, b) ∧ s'.g.y.lim = s.g.y.lim ∧
      z'.gx.get s'.g.x.vec = z.gx.get s.g.x.vec ∧ z'.gy.get s'.g.y.vec = z.gy.get s.g.y.vec ∧ z'.values s' = z.values s) ∧
    (s.g.y.lim ≠ (a, b) → ∃ s' z', s.step (.setYlim a b) = (s', none) ∧ s'.zf = some z' ∧ s'.g.x.lim = s.g.x.lim ∧ s'.g.y.lim = (a, b) ∧
      z'.gx.get s'.g.x.vec = z.gx.get s.g.x.vec ∧ z'.gy.get s'.g.y.vec = z.gy.get s.g.y.vec ∧ z'.values s' = z.values s) := by
  intro s
  have k := (rrun_ok (init_ok hm h).1 ops hops).z z hz
  obtain ⟨lx, hlx⟩ := k.vx
  obtain ⟨ly, hly⟩ := k.vy
  have hz : s.zf = some z := hz
  have hlx : s.g.x.vec = some (false, lx) := hlx
  have hly : s.g.y.vec = some (false, ly) := hly
  constructor
  · intro hne
    refine ⟨{ s with g := { s.g with x := ⟨(a, b), false, none, none, false⟩ }, zf := some { z with gx := z.gx.detach s.g.x.vec } },
      { z with gx := z.gx.detach s.g.x.vec }, ?_, rfl, rfl, rfl, rfl, rfl, rfl⟩
    have hc : ¬ ((none : Option (Bool × List ℚ)) = s.g.x.vec) := by rw [hlx]; simp
    simp only [RasterState.step, RasterState.setXlim, GridState.step, setLim_new hab hne, if_neg hc, hz, Option.map_some]
  · intro hne
    refine ⟨{ s with g := { s.g with y := ⟨(a, b), false, none, none, false⟩ }, zf := some { z with gy := z.gy.detach s.g.y.vec } },
      { z with gy := z.gy.detach s.g.y.vec }, ?_, rfl, rfl, rfl, rfl, rfl, rfl⟩
    have hc : ¬ ((none : Option (Bool × List ℚ)) = s.g.y.vec) := by rw [hly]; simp
    simp only [RasterState.step, RasterState.setYlim, GridState.step, setLim_new hab hne, if_neg hc, hz, Option.map_some]

/-- C27 fails: assigning new limits after sampling keeps the interpolator on the old coordinates. -/
theorem raster_xlim_stale_violated : ∃ s, RasterState.init [[1, 2], [3, 4]] false (0, 4) (2, 0) = .ok s ∧
    ∃ z, (s.run [.sample, .setXlim 10 14]).zf = some z ∧
      z.gx.get (s.run [.sample, .setXlim 10 14]).g.x.vec = [1, 3] ∧
      (s.run [.sample, .setXlim 10 14]).g.ax.centers = .ok [11, 13] := by
  refine ⟨⟨⟨2, 2, ⟨(0, 4), false, none, none, false⟩, ⟨(2, 0), false, none, none, false⟩⟩, false, [[1, 2], [3, 4]], none⟩,
    by decide +kernel, ⟨.own [1, 3], .view true, .view, false, true⟩, by decide +kernel, by decide +kernel, by decide +kernel⟩

/-- C27 fails: an integer array shifted in z leaves the cached interpolator with the old values; a float array shifted
in y and z gets the shift twice. -/
theorem raster_shift_dz_violated :
    (∃ s, RasterState.init [[1, 2], [3, 4]] true (0, 4) (2, 0) = .ok s ∧
      ∃ z, (s.run [.sample, .shift none none (some ⟨10, true⟩)]).zf = some z ∧
        (s.run [.sample, .shift none none (some ⟨10, true⟩)]).arr = [[11, 12], [13, 14]] ∧
        z.values (s.run [.sample, .shift none none (some ⟨10, true⟩)]) = [[3, 1], [4, 2]]) ∧
    (∃ s, RasterState.init [[1, 2], [3, 4]] false (0, 4) (2, 0) = .ok s ∧
      (s.run [.sample, .shift none (some ⟨1, true⟩) (some ⟨10, true⟩)]).arr = [[21, 22], [23, 24]]) := by
  constructor
  · refine ⟨⟨⟨2, 2, ⟨(0, 4), false, none, none, false⟩, ⟨(2, 0), false, none, none, false⟩⟩, true, [[1, 2], [3, 4]], none⟩,
      by decide +kernel, ⟨.view false, .view true, .own [[3, 1], [4, 2]], false, true⟩, ?_⟩
    decide +kernel
  · refine ⟨⟨⟨2, 2, ⟨(0, 4), false, none, none, false⟩, ⟨(2, 0), false, none, none, false⟩⟩, false, [[1, 2], [3, 4]], none⟩,
      ?_⟩
    decide +kernel

end Glimpse
