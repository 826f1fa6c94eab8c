import Verif.Model.MotionMissing
import Verif.Props.SampleMissing
import Mathlib.Data.List.GetD

/-!
C107 on surfaces with missing cells.
-/
set_option autoImplicit false
set_option linter.unusedSimpArgs false
set_option linter.unusedSectionVars false

namespace Glimpse.MotionMissing

open MotionDem (Triple Noise Kind)
open Sample (Used Bilinear BilinearM ShapeM cellM replaceMissing sample_missing_linear sample_missing_raises around_exists)

/-! ### Specification -/

/-- A raster with a valid grid and an array of its size. -/
structure Surface.Ok (s : Surface) : Prop where
  grid : s.grid.Valid
  shape : ShapeM s.grid s.array

/-- The point lies inside of the raster (or on its border). -/
def Surface.Covers (s : Surface) (p : ℚ × ℚ) : Prop :=
  Between s.grid.ax.lo s.grid.ax.hi p.1 ∧ Between s.grid.ay.lo s.grid.ay.hi p.2

/-- One of the cells around a point is missing. -/
def Surface.Gap (s : Surface) (p : ℚ × ℚ) : Prop :=
  ∃ r k, Used s.grid.ay p.2 r ∧ Used s.grid.ax p.1 k ∧ cellM s.array r k = none

/-- `v` is the height of the surface at a point: the bilinear average of the cells around it, whatever is put in place of the
missing cells (so that none of those counts). -/
def Surface.At (s : Surface) (p : ℚ × ℚ) (v : ℚ) : Prop := ¬ s.Gap p ∧ ∀ M, Bilinear s.grid (replaceMissing M s.array) p v

/-! ### Sampling -/

/-- The height at a point is determined. -/
theorem height_unique (s : Surface) (h : s.Ok) (p : ℚ × ℚ) (v w : ℚ) (hv : s.At p v) (hw : s.At p w) : v = w := by
  obtain ⟨c, u, hc⟩ := around_exists s.grid.ax h.grid.nx h.grid.x p.1
  obtain ⟨r, q, hr⟩ := around_exists s.grid.ay h.grid.ny h.grid.y p.2
  rw [hv.2 0 c u r q hc hr, hw.2 0 c u r q hc hr]

private theorem sample_ok (s : Surface) (h : s.Ok) (xy : List (ℚ × ℚ)) (hin : ∀ p ∈ xy, s.Covers p) :
    ∃ vs, s.sample xy = .ok vs ∧ ∀ i (hi : i < xy.length), (vs.getD i none = none ↔ s.Gap xy[i]) ∧
      ∀ q, vs.getD i none = some q → s.At xy[i] q := by
  obtain ⟨vs, h1, h2⟩ := sample_missing_linear s.grid h.grid s.array h.shape xy true (some none) (fun _ p hp => hin p hp)
  have hl := h2.length_eq
  refine ⟨vs, h1, fun i hi => ?_⟩
  have hi' : i < vs.length := by omega
  have := h2.get hi hi'
  simp only [List.get_eq_getElem] at this
  rw [List.getD_eq_getElem _ _ hi']
  rcases this with ⟨f, hb, _⟩ | ⟨_, hR⟩
  · cases hb
  · refine ⟨hR.1, fun q hq => ⟨fun hg => ?_, hR.2 q hq⟩⟩
    have := hR.1.2 hg
    rw [hq] at this
    cases this

private theorem sample_err (s : Surface) (xy : List (ℚ × ℚ)) (p : ℚ × ℚ) (hp : p ∈ xy) (hout : ¬ s.Covers p) :
    s.sample xy = .error .valueError := sample_missing_raises 1 s.grid s.array xy _ p hp hout

private theorem plus_none (a b : Option ℚ) : plus a b = none ↔ a = none ∨ b = none := by
  cases a <;> cases b <;> simp [plus]

private theorem times_none (a : Option ℚ) (b : ℚ) : times a b = none ↔ a = none := by
  cases a <;> simp [times]

/-! ### Initial particles -/

/-- C107 with missing cells: initialization does not raise because of them. The height of a particle is missing exactly if a
cell around its position is missing, in the surface or in its standard deviation; otherwise it is the height of the surface there
plus the random multiple of the standard deviation there. -/
theorem initialize_missing (cos sin : ℚ → ℚ) (m : Model) (hd : m.dem.Ok) (hs : m.demSigma.Ok) (noise : Nat → Noise)
    (h1 : ∀ i < m.n, m.dem.Covers (m.xy.1 + m.xySigma.1 * (noise i).px, m.xy.2 + m.xySigma.2 * (noise i).py))
    (h2 : ∀ i < m.n, m.demSigma.Covers (m.xy.1 + m.xySigma.1 * (noise i).px, m.xy.2 + m.xySigma.2 * (noise i).py)) :
    ∃ ps, m.initialize cos sin noise = .ok ps ∧ ps.length = m.n ∧ ∀ i (hi : i < ps.length),
      ps[i].x = m.xy.1 + m.xySigma.1 * (noise i).px ∧ ps[i].y = m.xy.2 + m.xySigma.2 * (noise i).py ∧
      (ps[i].z = none ↔ m.dem.Gap (ps[i].x, ps[i].y) ∨ m.demSigma.Gap (ps[i].x, ps[i].y)) ∧
      ∀ q, ps[i].z = some q → ∃ z s, m.dem.At (ps[i].x, ps[i].y) z ∧ m.demSigma.At (ps[i].x, ps[i].y) s ∧
        q = z + s * (noise i).pz := by
  obtain ⟨z, e1, a1⟩ := sample_ok m.dem hd ((List.range m.n).map fun (i : Nat) => m.position (noise i)) (by
    intro p hp
    obtain ⟨i, hi, rfl⟩ := List.mem_map.1 hp
    exact h1 i (List.mem_range.1 hi))
  obtain ⟨s, e2, a2⟩ := sample_ok m.demSigma hs ((List.range m.n).map fun (i : Nat) => m.position (noise i)) (by
    intro p hp
    obtain ⟨i, hi, rfl⟩ := List.mem_map.1 hp
    exact h2 i (List.mem_range.1 hi))
  have e : m.samples ((List.range m.n).map fun (i : Nat) => m.position (noise i)) = .ok (z, s) := by
    unfold Model.samples
    split <;> simp only [e1, e2, bind, Except.bind]
  simp only [Model.initialize, e, bind, Except.bind]
  refine ⟨_, rfl, by simp, fun i hi => ?_⟩
  have hi' : i < m.n := by simpa using hi
  have b1 := a1 i (by simpa using hi')
  have b2 := a2 i (by simpa using hi')
  simp only [List.getElem_map, List.getElem_range] at b1 b2 ⊢
  refine ⟨rfl, rfl, ?_, fun q hq => ?_⟩
  · rw [plus_none, times_none, b1.1, b2.1]
  · cases ez : z.getD i none with
    | none => rw [ez] at hq; cases hq
    | some zq =>
      cases es : s.getD i none with
      | none => rw [ez, es] at hq; cases hq
      | some sq =>
        rw [ez, es] at hq
        simp only [plus, times, Option.map_some, Option.bind_some, Option.some.injEq] at hq
        exact ⟨zq, sq, b1.2 zq ez, b2.2 sq es, hq.symm⟩

/-- The velocity of a particle is the one of the kind of motion for its random numbers (as for surfaces without gaps). -/
def Model.Velocity (cos sin : ℚ → ℚ) (m : Model) (e : Triple) (p : Particle) : Prop :=
  match m.kind with
  | .cartesian => p.vx = m.v.a + m.vSigma.a * e.a ∧ p.vy = m.v.b + m.vSigma.b * e.b ∧ p.vz = m.v.c + m.vSigma.c * e.c
  | .cylindrical => p.vx = (m.v.a + m.vSigma.a * e.a) * cos (m.v.b + m.vSigma.b * e.b) ∧
      p.vy = (m.v.a + m.vSigma.a * e.a) * sin (m.v.b + m.vSigma.b * e.b) ∧ p.vz = m.v.c + m.vSigma.c * e.c
  | .tangentCartesian => p.vx = m.v.a + m.vSigma.a * e.a ∧ p.vy = m.v.b + m.vSigma.b * e.b ∧ p.vz = 0
  | .tangentCylindrical => p.vx = (m.v.a + m.vSigma.a * e.a) * cos (m.v.b + m.vSigma.b * e.b) ∧
      p.vy = (m.v.a + m.vSigma.a * e.a) * sin (m.v.b + m.vSigma.b * e.b) ∧ p.vz = 0

/-- C107 with missing cells: the initial velocities do not depend on the surface. -/
theorem initialize_velocity (cos sin : ℚ → ℚ) (m : Model) (noise : Nat → Noise) (ps : List Particle)
    (h : m.initialize cos sin noise = .ok ps) : ps.length = m.n ∧ ∀ i (hi : i < ps.length), m.Velocity cos sin (noise i).v ps[i] := by
  cases e : m.samples ((List.range m.n).map fun (i : Nat) => m.position (noise i)) with
  | error x => simp only [Model.initialize, e, bind, Except.bind] at h; cases h
  | ok zs =>
    simp only [Model.initialize, e, bind, Except.bind] at h
    cases h
    refine ⟨by simp, fun i hi => ?_⟩
    simp only [List.getElem_map, List.getElem_range, Model.Velocity, Model.velocity, Triple.draw]
    cases m.kind <;> exact ⟨rfl, rfl, rfl⟩

/-- C107 with missing cells: outside of a raster, initialization raises ValueError. -/
theorem initialize_missing_raises (cos sin : ℚ → ℚ) (m : Model) (hd : m.dem.Ok) (hs : m.demSigma.Ok) (noise : Nat → Noise) (i : Nat)
    (hi : i < m.n)
    (h : ¬ (m.dem.Covers (m.xy.1 + m.xySigma.1 * (noise i).px, m.xy.2 + m.xySigma.2 * (noise i).py) ∧
      m.demSigma.Covers (m.xy.1 + m.xySigma.1 * (noise i).px, m.xy.2 + m.xySigma.2 * (noise i).py))) :
    m.initialize cos sin noise = .error .valueError := by
  have hm : m.position (noise i) ∈ (List.range m.n).map fun (i : Nat) => m.position (noise i) :=
    List.mem_map.2 ⟨i, List.mem_range.2 hi, rfl⟩
  suffices hs' : m.samples ((List.range m.n).map fun (i : Nat) => m.position (noise i)) = .error .valueError by
    simp only [Model.initialize, hs', bind, Except.bind]
  have either : ∀ t : Surface, t.Ok → (∃ z, t.sample ((List.range m.n).map fun (i : Nat) => m.position (noise i)) = .ok z) ∨
      t.sample ((List.range m.n).map fun (i : Nat) => m.position (noise i)) = .error .valueError := by
    intro t ht
    by_cases hall : ∀ p ∈ (List.range m.n).map fun (i : Nat) => m.position (noise i), t.Covers p
    · obtain ⟨z, e1, -⟩ := sample_ok t ht _ hall
      exact Or.inl ⟨z, e1⟩
    · push Not at hall
      obtain ⟨p, hp, hc⟩ := hall
      exact Or.inr (sample_err t _ p hp hc)
  have one : m.dem.sample ((List.range m.n).map fun (i : Nat) => m.position (noise i)) = .error .valueError ∨
      m.demSigma.sample ((List.range m.n).map fun (i : Nat) => m.position (noise i)) = .error .valueError := by
    by_cases c1 : m.dem.Covers (m.position (noise i))
    · exact Or.inr (sample_err m.demSigma _ _ hm fun c => h ⟨c1, c⟩)
    · exact Or.inl (sample_err m.dem _ _ hm c1)
  unfold Model.samples
  rcases either m.dem hd with ⟨z, e1⟩ | e1 <;> rcases either m.demSigma hs with ⟨s, e2⟩ | e2
  · rw [e1, e2] at one
    rcases one with h | h <;> cases h
  all_goals
    split <;> simp only [e1, e2, bind, Except.bind]

/-- The test of particles raises ValueError exactly if the height of some particle is missing. -/
theorem test_missing_iff (ps : List Particle) :
    ((∃ p ∈ ps, p.z = none) ∧ testMissing ps = .error .valueError) ∨ ((∀ p ∈ ps, p.z ≠ none) ∧ testMissing ps = .ok ()) := by
  unfold testMissing
  by_cases h : (ps.any fun p => p.z.isNone) = true
  · left
    rw [if_pos h]
    obtain ⟨p, hp, hz⟩ := List.any_eq_true.1 h
    exact ⟨⟨p, hp, by simpa using hz⟩, rfl⟩
  · right
    rw [if_neg h]
    refine ⟨fun p hp hz => h (List.any_eq_true.2 ⟨p, hp, by simp [hz]⟩), rfl⟩

/-- C107 with missing cells: started inside of both rasters, particles pass the test that follows exactly if none of them is at a
missing cell of either raster. -/
theorem initialize_test (cos sin : ℚ → ℚ) (m : Model) (hd : m.dem.Ok) (hs : m.demSigma.Ok) (noise : Nat → Noise)
    (h1 : ∀ i < m.n, m.dem.Covers (m.xy.1 + m.xySigma.1 * (noise i).px, m.xy.2 + m.xySigma.2 * (noise i).py))
    (h2 : ∀ i < m.n, m.demSigma.Covers (m.xy.1 + m.xySigma.1 * (noise i).px, m.xy.2 + m.xySigma.2 * (noise i).py)) :
    ((∃ i < m.n, m.dem.Gap (m.xy.1 + m.xySigma.1 * (noise i).px, m.xy.2 + m.xySigma.2 * (noise i).py) ∨
        m.demSigma.Gap (m.xy.1 + m.xySigma.1 * (noise i).px, m.xy.2 + m.xySigma.2 * (noise i).py)) ∧
      (m.initialize cos sin noise >>= testMissing) = .error .valueError) ∨
    ((∀ i < m.n, ¬ m.dem.Gap (m.xy.1 + m.xySigma.1 * (noise i).px, m.xy.2 + m.xySigma.2 * (noise i).py) ∧
        ¬ m.demSigma.Gap (m.xy.1 + m.xySigma.1 * (noise i).px, m.xy.2 + m.xySigma.2 * (noise i).py)) ∧
      (m.initialize cos sin noise >>= testMissing) = .ok ()) := by
  obtain ⟨ps, e, hl, hp⟩ := initialize_missing cos sin m hd hs noise h1 h2
  rw [e]
  simp only [bind, Except.bind]
  rcases test_missing_iff ps with ⟨⟨p, hpm, hz⟩, et⟩ | ⟨hall, et⟩
  · left
    refine ⟨?_, et⟩
    obtain ⟨i, hi, rfl⟩ := List.mem_iff_getElem.1 hpm
    obtain ⟨hx, hy, hg, -⟩ := hp i hi
    have := hg.1 hz
    rw [hx, hy] at this
    exact ⟨i, by omega, this⟩
  · right
    refine ⟨fun i hi => ?_, et⟩
    obtain ⟨hx, hy, hg, -⟩ := hp i (by omega)
    have hn := hall _ (List.getElem_mem (by omega : i < ps.length))
    rw [ne_eq, hg, hx, hy] at hn
    exact not_or.1 hn

/-! ### Tangent motion -/

/-- The horizontal step of a particle. -/
def step (t : ℚ) (acc : ℚ × ℚ) (p : Particle) : ℚ × ℚ := (t * p.vx + 1 / 2 * acc.1 * t ^ 2, t * p.vy + 1 / 2 * acc.2 * t ^ 2)

/-- C107 with missing cells: after a step of tangent motion the height of a particle is missing exactly if it was before, or a
cell around its position before or after the step is missing; otherwise it keeps its height above the surface, changed by its
own random slope times the length of its step. -/
theorem tangent_missing (norm : ℚ → ℚ → ℚ) (dem : Surface) (hd : dem.Ok) (slope t : ℚ) (acc : Nat → ℚ × ℚ) (noise : Nat → ℚ)
    (ps : List Particle) (h0 : ∀ p ∈ ps, dem.Covers (p.x, p.y))
    (h1 : ∀ i (hi : i < ps.length), dem.Covers (ps[i].x + (step t (acc i) ps[i]).1, ps[i].y + (step t (acc i) ps[i]).2)) :
    ∃ qs, evolveTangent norm dem slope t acc noise ps = .ok qs ∧ qs.length = ps.length ∧
      ∀ i (hi : i < ps.length) (hi' : i < qs.length),
        qs[i].x = ps[i].x + (step t (acc i) ps[i]).1 ∧ qs[i].y = ps[i].y + (step t (acc i) ps[i]).2 ∧
        (qs[i].z = none ↔ ps[i].z = none ∨ dem.Gap (ps[i].x, ps[i].y) ∨ dem.Gap (qs[i].x, qs[i].y)) ∧
        (∀ q, qs[i].z = some q → ∃ q0 z z', ps[i].z = some q0 ∧ dem.At (ps[i].x, ps[i].y) z ∧ dem.At (qs[i].x, qs[i].y) z' ∧
          q - z' = q0 - z + slope * noise i * norm (step t (acc i) ps[i]).1 (step t (acc i) ps[i]).2) ∧
        qs[i].vx = ps[i].vx + t * (acc i).1 ∧ qs[i].vy = ps[i].vy + t * (acc i).2 ∧ qs[i].vz = ps[i].vz := by
  have hstep : ∀ i (hi : i < ps.length), (ps.mapIdx fun (i : Nat) (p : Particle) =>
      (t * p.vx + 1 / 2 * (acc i).1 * t ^ 2, t * p.vy + 1 / 2 * (acc i).2 * t ^ 2)).getD i (0, 0) = step t (acc i) ps[i] := by
    intro i hi
    rw [List.getD_eq_getElem _ _ (by simpa using hi)]
    simp [step]
  obtain ⟨z0, e0, a0⟩ := sample_ok dem hd (ps.map fun p => (p.x, p.y)) (by
    intro p hp
    obtain ⟨q, hq, rfl⟩ := List.mem_map.1 hp
    exact h0 q hq)
  have hmoved : ∀ p ∈ (ps.mapIdx fun (i : Nat) (p : Particle) =>
      (p.x + ((ps.mapIdx fun (i : Nat) (p : Particle) =>
        (t * p.vx + 1 / 2 * (acc i).1 * t ^ 2, t * p.vy + 1 / 2 * (acc i).2 * t ^ 2)).getD i (0, 0)).1,
       p.y + ((ps.mapIdx fun (i : Nat) (p : Particle) =>
        (t * p.vx + 1 / 2 * (acc i).1 * t ^ 2, t * p.vy + 1 / 2 * (acc i).2 * t ^ 2)).getD i (0, 0)).2)), dem.Covers p := by
    intro p hp
    obtain ⟨i, hi, rfl⟩ := List.mem_iff_getElem.1 hp
    have hi' : i < ps.length := by simpa using hi
    rw [List.getElem_mapIdx, hstep i hi']
    exact h1 i hi'
  obtain ⟨z1, e1, a1⟩ := sample_ok dem hd _ hmoved
  simp only [evolveTangent, e0, e1, bind, Except.bind]
  refine ⟨_, rfl, by simp, fun i hi hi' => ?_⟩
  have b0 := a0 i (by simpa using hi)
  have b1 := a1 i (by simpa using hi)
  simp only [List.getElem_map] at b0
  rw [List.getElem_mapIdx, hstep i hi] at b1
  rw [List.getElem_mapIdx]
  have hm : ∀ (f : Nat → Particle → ℚ × ℚ), (ps.mapIdx f).getD i (0, 0) = f i ps[i] := by
    intro f; rw [List.getD_eq_getElem _ _ (by simpa using hi)]; simp
  have hm' : ∀ (f : Nat → Particle → Option ℚ), (ps.mapIdx f).getD i none = f i ps[i] := by
    intro f; rw [List.getD_eq_getElem _ _ (by simpa using hi)]; simp
  simp only [hm, hm']
  refine ⟨rfl, rfl, ?_, fun q hq => ?_, trivial, trivial, trivial⟩
  · rw [plus_none, plus_none, plus_none, times_none, b0.1, b1.1]
    simp only [step]
    constructor
    · rintro (h | (h | h) | h)
      · exact Or.inr (Or.inr h)
      · exact Or.inl h
      · exact Or.inr (Or.inl h)
      · cases h
    · rintro (h | h | h)
      · exact Or.inr (Or.inl (Or.inl h))
      · exact Or.inr (Or.inl (Or.inr h))
      · exact Or.inl h
  · cases ez : ps[i].z with
    | none =>
      rw [ez] at hq
      cases hz1 : z1.getD i none <;> rw [hz1] at hq <;> cases hq
    | some q0 =>
      cases ez0 : z0.getD i none with
      | none =>
        rw [ez, ez0] at hq
        cases hz1 : z1.getD i none <;> rw [hz1] at hq <;> cases hq
      | some w0 =>
        cases ez1 : z1.getD i none with
        | none => rw [ez1] at hq; cases hq
        | some w1 =>
          rw [ez, ez0, ez1] at hq
          simp only [plus, times, Option.map_some, Option.bind_some, Option.some.injEq] at hq
          refine ⟨q0, w0, w1, rfl, b0.2 w0 ez0, b1.2 w1 ez1, ?_⟩
          rw [← hq]
          simp only [step]
          ring

/-! ### Likelihoods -/

/-- C107 with missing cells: the likelihood term of a particle is missing exactly if a cell of the standard deviation around it is,
or if the standard deviation is not zero and the particle's height or a cell of the surface around it is missing. -/
theorem likelihoods_missing (m : Model) (hd : m.dem.Ok) (hs : m.demSigma.Ok) (ps : List Particle)
    (h1 : ∀ p ∈ ps, m.dem.Covers (p.x, p.y)) (h2 : ∀ p ∈ ps, m.demSigma.Covers (p.x, p.y)) :
    ∃ ls, m.logLikelihoods ps = .ok ls ∧ ls.length = ps.length ∧ ∀ i (hi : i < ps.length) (hi' : i < ls.length),
      (ls[i] = none ↔ m.demSigma.Gap (ps[i].x, ps[i].y) ∨
        ((∃ s, m.demSigma.At (ps[i].x, ps[i].y) s ∧ s ≠ 0) ∧ (ps[i].z = none ∨ m.dem.Gap (ps[i].x, ps[i].y)))) ∧
      ∀ l, ls[i] = some l → ∃ s, m.demSigma.At (ps[i].x, ps[i].y) s ∧ (s = 0 → l = 0) ∧
        (s ≠ 0 → ∃ q z, ps[i].z = some q ∧ m.dem.At (ps[i].x, ps[i].y) z ∧ l = ((q - z) / s) ^ 2 / 2) := by
  obtain ⟨z, e1, a1⟩ := sample_ok m.dem hd (ps.map fun p => (p.x, p.y)) (by
    intro p hp
    obtain ⟨q, hq, rfl⟩ := List.mem_map.1 hp
    exact h1 q hq)
  obtain ⟨s, e2, a2⟩ := sample_ok m.demSigma hs (ps.map fun p => (p.x, p.y)) (by
    intro p hp
    obtain ⟨q, hq, rfl⟩ := List.mem_map.1 hp
    exact h2 q hq)
  simp only [Model.logLikelihoods, e1, e2, bind, Except.bind]
  refine ⟨_, rfl, by simp, fun i hi hi' => ?_⟩
  have b1 := a1 i (by simpa using hi)
  have b2 := a2 i (by simpa using hi)
  simp only [List.getElem_map] at b1 b2
  rw [List.getElem_mapIdx]
  cases es : s.getD i none with
  | none =>
    rw [if_neg (by simp)]
    simp only [bind, Option.bind, reduceCtorEq, false_implies, implies_true, and_true, true_iff]
    exact Or.inl (b2.1.1 es)
  | some sq =>
    have hat := b2.2 sq es
    have hng := hat.1
    by_cases h0 : sq = 0
    · rw [if_pos (by rw [h0])]
      refine ⟨⟨fun h => (by cases h), ?_⟩, fun l hl => ⟨sq, hat, fun _ => by cases hl; rfl, fun h => absurd h0 h⟩⟩
      rintro (h | ⟨⟨s', hs', hne⟩, -⟩)
      · exact absurd h hng
      · exact absurd ((height_unique m.demSigma hs _ _ _ hs' hat).trans h0) hne
    · rw [if_neg (by simpa using h0)]
      simp only [bind, Option.bind]
      cases ez : z.getD i none with
      | none =>
        refine ⟨⟨fun _ => Or.inr ⟨⟨sq, hat, h0⟩, Or.inr (b1.1.1 ez)⟩, fun _ => rfl⟩, fun l hl => by cases hl⟩
      | some zq =>
        have haz := b1.2 zq ez
        cases ep : ps[i].z with
        | none => exact ⟨⟨fun _ => Or.inr ⟨⟨sq, hat, h0⟩, Or.inl rfl⟩, fun _ => rfl⟩, fun l hl => by cases hl⟩
        | some q =>
          refine ⟨⟨fun h => (by cases h), ?_⟩, fun l hl => ?_⟩
          · rintro (h | ⟨-, h | h⟩)
            · exact absurd h hng
            · cases h
            · exact absurd h haz.1
          · simp only [plus, times, Option.map_some, Option.bind_some, Option.some.injEq] at hl
            refine ⟨sq, hat, fun h => absurd h h0, fun _ => ⟨q, zq, rfl, haz, ?_⟩⟩
            rw [← hl]
            field_simp
            ring

/-- C107 fails above a gap of the surface: particles whose heights are known pass the test, but the likelihood of the one above
the gap is missing, silently (by `FloatWeights.normalize_nan_violated` this makes all weights missing). -/
theorem likelihoods_gap_violated (m : Model) (hd : m.dem.Ok) (hs : m.demSigma.Ok) (ps : List Particle)
    (h1 : ∀ p ∈ ps, m.dem.Covers (p.x, p.y)) (h2 : ∀ p ∈ ps, m.demSigma.Covers (p.x, p.y)) (hz : ∀ p ∈ ps, p.z ≠ none)
    (i : Nat) (hi : i < ps.length) (hg : m.demSigma.Gap (ps[i].x, ps[i].y) ∨
      (m.dem.Gap (ps[i].x, ps[i].y) ∧ ∃ s, m.demSigma.At (ps[i].x, ps[i].y) s ∧ s ≠ 0)) :
    testMissing ps = .ok () ∧ ∃ ls, m.logLikelihoods ps = .ok ls ∧ ls[i]? = some none := by
  constructor
  · rcases test_missing_iff ps with ⟨⟨p, hp, h⟩, -⟩ | ⟨-, h⟩
    · exact absurd h (hz p hp)
    · exact h
  · obtain ⟨ls, e, hl, ha⟩ := likelihoods_missing m hd hs ps h1 h2
    refine ⟨ls, e, ?_⟩
    rw [List.getElem?_eq_getElem (by omega)]
    congr 1
    refine (ha i hi (by omega)).1.2 ?_
    rcases hg with h | ⟨h, h'⟩
    · exact Or.inl h
    · exact Or.inr ⟨h', Or.inr h⟩

/-- Non-vacuity: a surface of three columns with a gap in the last one. Of two particles, one starts at the gap. -/
def exDem : Surface := ⟨⟨⟨0, 30, 3⟩, ⟨20, 0, 2⟩⟩, [[some 1, some 2, none], [some 3, some 4, some 5]]⟩

/-- Its standard deviation. -/
def exSigma : Surface := ⟨⟨⟨0, 30, 3⟩, ⟨20, 0, 2⟩⟩, [[some 1, some 1, some 1], [some 1, some 1, some 1]]⟩

/-- A motion model on it. -/
def exModel : Model := ⟨.cartesian, (10, 10), exDem, exSigma, 2, (1, 1), ⟨1, 0, 0⟩, ⟨0, 0, 0⟩⟩

/-- Random numbers. -/
def exNoise (i : Nat) : Noise := if i = 0 then ⟨0, 0, 1, ⟨0, 0, 0⟩⟩ else ⟨10, 0, 0, ⟨0, 0, 0⟩⟩

example : exDem.Ok := ⟨⟨by decide, by decide, by norm_num [exDem], by norm_num [exDem]⟩, ⟨rfl, by decide⟩⟩

example : ((exModel.initialize id id exNoise).toOption.map fun ps => ps.map fun p => (p.x, p.z)) =
      some [(10, some (7 / 2)), (20, none)] ∧
    (exModel.initialize id id exNoise >>= testMissing).toOption.isNone = true ∧
    (exModel.logLikelihoods [⟨10, 10, some 3, 0, 0, 0⟩, ⟨20, 10, some 3, 0, 0, 0⟩]).toOption = some [some (1 / 8), none] ∧
    (testMissing [⟨10, 10, some 3, 0, 0, 0⟩, ⟨20, 10, some 3, 0, 0, 0⟩]).toOption.isSome = true := by decide +kernel

end Glimpse.MotionMissing
