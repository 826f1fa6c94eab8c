import Verif.Model.MotionDem
import Verif.Props.Sample
import Mathlib.Data.List.GetD
import Mathlib.Tactic.Ring
import Mathlib.Tactic.NormNum
import Mathlib.Tactic.Linarith

/-!
C107: motion models and their surfaces.
-/
set_option autoImplicit false
set_option linter.unusedSimpArgs false
set_option linter.unusedSectionVars false

namespace Glimpse.MotionDem

open Glimpse.Sample

/-! ### Specification -/

/-- A raster with cells, different limits and one value per cell. -/
structure Surface.Ok (s : Surface) : Prop where
  grid : s.grid.Valid
  shape : Shape s.grid s.array

/-- The point lies inside of the raster (or on its border). -/
def Surface.Covers (s : Surface) (p : ℚ × ℚ) : Prop :=
  Between s.grid.ax.lo s.grid.ax.hi p.1 ∧ Between s.grid.ay.lo s.grid.ay.hi p.2

/-- `v` is the height of the surface at a point: the bilinear average of the cells around it. -/
def Surface.At (s : Surface) (p : ℚ × ℚ) (v : ℚ) : Prop := Bilinear s.grid s.array p v

/-! ### Sampling -/

/-- The height at a point is determined. -/
theorem at_unique (s : Surface) (h : s.Ok) (p : ℚ × ℚ) (v w : ℚ) (hv : s.At p v) (hw : s.At p w) : v = w := by
  obtain ⟨c, u, hc⟩ := around_exists s.grid.ax h.grid.nx h.grid.x p.1
  obtain ⟨r, q, hr⟩ := around_exists s.grid.ay h.grid.ny h.grid.y p.2
  rw [hv c u r q hc hr, hw c u r q hc hr]

private theorem sample_ok (s : Surface) (h : s.Ok) (xy : List (ℚ × ℚ)) (hin : ∀ p ∈ xy, s.Covers p) :
    ∃ vs, s.sample xy = .ok vs ∧ vs.length = xy.length ∧ ∀ i (hi : i < xy.length), s.At xy[i] (vs.getD i 0) := by
  obtain ⟨vs, h1, h2⟩ := sample_linear_partial s.grid h.grid s.array h.shape xy true (some (false, 0))
    (by intro f hf; cases hf; rfl) (fun _ p hp => hin p hp)
  have hl := h2.length_eq
  refine ⟨vs, h1, hl.symm, fun i hi => ?_⟩
  have hi' : i < vs.length := by omega
  have := h2.get hi hi'
  simp only [List.get_eq_getElem] at this
  rw [List.getD_eq_getElem _ _ hi']
  rcases this with ⟨f, hb, _⟩ | ⟨_, hR⟩
  · cases hb
  · exact hR

private theorem sample_err (s : Surface) (xy : List (ℚ × ℚ)) (p : ℚ × ℚ) (hp : p ∈ xy) (hout : ¬ s.Covers p) :
    s.sample xy = .error .valueError := sample_raises 1 s.grid s.array xy _ p hp hout

/-! ### Making the surfaces -/

/-- C107: a raster is used as it is. -/
theorem make_raster (s : Surface) : makeDem (.raster s) = .ok s := rfl

/-- C107: a number becomes a raster of that height, which covers the square from 0 to 1 only. -/
theorem make_number (z : ℚ) : ∃ s, makeDem (.number z) = .ok s ∧ s.Ok ∧ (∀ p v, s.At p v ↔ v = z) ∧
    ∀ p : ℚ × ℚ, s.Covers p ↔ (0 ≤ p.1 ∧ p.1 ≤ 1 ∧ 0 ≤ p.2 ∧ p.2 ≤ 1) := by
  have hne : ¬ ((0 : ℚ) = 1) := by norm_num
  refine ⟨⟨⟨⟨0, 1, 1⟩, ⟨0, 1, 1⟩⟩, [[z]]⟩, by simp [makeDem, parseLimits, bind, Except.bind, hne], ?_, ?_, ?_⟩
  · exact ⟨⟨by simp, by simp, by simp, by simp⟩, ⟨rfl, by simp⟩⟩
  · intro p v
    constructor
    · intro h
      have := h 0 0 0 0 (by simp [Around]) (by simp [Around])
      simpa [cell] using this
    · rintro rfl c u r w hc hr
      simp only [Around, if_true] at hc hr
      obtain ⟨rfl, rfl⟩ := hc
      obtain ⟨rfl, rfl⟩ := hr
      simp [cell]
  · intro p
    simp only [Surface.Covers, Between]
    constructor
    · rintro ⟨h1, h2⟩
      rcases h1 with h1 | h1 <;> rcases h2 with h2 | h2 <;> exact ⟨by linarith [h1.1, h1.2], by linarith [h1.1, h1.2],
        by linarith [h2.1, h2.2], by linarith [h2.1, h2.2]⟩
    · rintro ⟨a, b, c, d⟩
      exact ⟨Or.inl ⟨a, b⟩, Or.inl ⟨c, d⟩⟩

/-- C107 fails: three of the four motion models cannot be made at all without `dem_sigma`, whatever the other arguments, though
it is documented as optional. -/
theorem default_sigma_violated (kind : Kind) (h : kind ≠ .tangentCartesian) (xy : ℚ × ℚ) (dem : DemArg) (n : Nat) (xySigma : ℚ × ℚ)
    (v vSigma : Triple) : new kind xy dem (defaultSigma kind) n xySigma v vSigma = .error .valueError := by
  have hd : defaultSigma kind = .none := by cases kind <;> simp_all [defaultSigma]
  rw [hd]
  cases dem <;> simp [new, makeDem, parseLimits, bind, Except.bind]

/-- C107: what a motion model is made of. -/
theorem new_ok (kind : Kind) (xy : ℚ × ℚ) (dem demSigma : DemArg) (n : Nat) (xySigma : ℚ × ℚ) (v vSigma : Triple)
    (s t : Surface) (hd : makeDem dem = .ok s) (hs : makeDem demSigma = .ok t) :
    new kind xy dem demSigma n xySigma v vSigma = .ok ⟨kind, xy, s, t, n, xySigma, v, vSigma⟩ := by
  simp only [new, hd, hs, bind, Except.bind]

/-! ### Initial particles -/

private theorem samples_ok (m : Model) (hd : m.dem.Ok) (hs : m.demSigma.Ok) (xy : List (ℚ × ℚ)) (h1 : ∀ p ∈ xy, m.dem.Covers p)
    (h2 : ∀ p ∈ xy, m.demSigma.Covers p) :
    ∃ zs, m.samples xy = .ok zs ∧ ∀ i (hi : i < xy.length), m.dem.At xy[i] (zs.1.getD i 0) ∧ m.demSigma.At xy[i] (zs.2.getD i 0) := by
  obtain ⟨z, e1, _, a1⟩ := sample_ok m.dem hd xy h1
  obtain ⟨s, e2, _, a2⟩ := sample_ok m.demSigma hs xy h2
  refine ⟨(z, s), ?_, fun i hi => ⟨a1 i hi, a2 i hi⟩⟩
  unfold Model.samples
  split <;> simp only [e1, e2, bind, Except.bind]

/-- The initial velocity a motion model describes. -/
def Model.Velocity (cos sin : ℚ → ℚ) (m : Model) (e : Triple) (p : Particle) : Prop :=
  match m.kind with
  | .cartesian => p.vx = m.v.a + m.vSigma.a * e.a ∧ p.vy = m.v.b + m.vSigma.b * e.b ∧ p.vz = m.v.c + m.vSigma.c * e.c
  | .cylindrical => p.vx = (m.v.a + m.vSigma.a * e.a) * cos (m.v.b + m.vSigma.b * e.b) ∧
      p.vy = (m.v.a + m.vSigma.a * e.a) * sin (m.v.b + m.vSigma.b * e.b) ∧ p.vz = m.v.c + m.vSigma.c * e.c
  | .tangentCartesian => p.vx = m.v.a + m.vSigma.a * e.a ∧ p.vy = m.v.b + m.vSigma.b * e.b ∧ p.vz = 0
  | .tangentCylindrical => p.vx = (m.v.a + m.vSigma.a * e.a) * cos (m.v.b + m.vSigma.b * e.b) ∧
      p.vy = (m.v.a + m.vSigma.a * e.a) * sin (m.v.b + m.vSigma.b * e.b) ∧ p.vz = 0

/-- C107: as many particles as asked are made, each at the mean position plus its own random offset, at the height of the surface
there plus a random multiple of the standard deviation there, with the velocity described; if all are above both rasters. -/
theorem initialize_partial (cos sin : ℚ → ℚ) (m : Model) (hd : m.dem.Ok) (hs : m.demSigma.Ok) (noise : Nat → Noise)
    (h1 : ∀ i < m.n, m.dem.Covers (m.xy.1 + m.xySigma.1 * (noise i).px, m.xy.2 + m.xySigma.2 * (noise i).py))
    (h2 : ∀ i < m.n, m.demSigma.Covers (m.xy.1 + m.xySigma.1 * (noise i).px, m.xy.2 + m.xySigma.2 * (noise i).py)) :
    ∃ ps, m.initialize cos sin noise = .ok ps ∧ ps.length = m.n ∧ ∀ i (hi : i < ps.length),
      ps[i].x = m.xy.1 + m.xySigma.1 * (noise i).px ∧ ps[i].y = m.xy.2 + m.xySigma.2 * (noise i).py ∧
      (∃ z s, m.dem.At (ps[i].x, ps[i].y) z ∧ m.demSigma.At (ps[i].x, ps[i].y) s ∧ ps[i].z = z + s * (noise i).pz) ∧
      m.Velocity cos sin (noise i).v ps[i] := by
  obtain ⟨zs, e, ha⟩ := samples_ok m hd hs ((List.range m.n).map fun (i : Nat) => m.position (noise i))
    (by
      intro p hp
      obtain ⟨i, hi, rfl⟩ := List.mem_map.1 hp
      exact h1 i (List.mem_range.1 hi))
    (by
      intro p hp
      obtain ⟨i, hi, rfl⟩ := List.mem_map.1 hp
      exact h2 i (List.mem_range.1 hi))
  simp only [Model.initialize, e, bind, Except.bind]
  refine ⟨_, rfl, by simp, fun i hi => ?_⟩
  have hi' : i < m.n := by simpa using hi
  have := ha i (by simpa using hi')
  simp only [List.getElem_map, List.getElem_range] at this ⊢
  refine ⟨rfl, rfl, ⟨_, _, this.1, this.2, rfl⟩, ?_⟩
  unfold Model.Velocity Model.velocity Triple.draw
  cases m.kind <;> exact ⟨rfl, rfl, rfl⟩

/-- C107: if a particle is outside of the surface or of its standard deviation, `initialize_particles` raises `ValueError`. -/
theorem initialize_raises (cos sin : ℚ → ℚ) (m : Model) (hd : m.dem.Ok) (hs : m.demSigma.Ok) (noise : Nat → Noise) (i : Nat) (hi : i < m.n)
    (h : ¬ (m.dem.Covers (m.xy.1 + m.xySigma.1 * (noise i).px, m.xy.2 + m.xySigma.2 * (noise i).py) ∧
      m.demSigma.Covers (m.xy.1 + m.xySigma.1 * (noise i).px, m.xy.2 + m.xySigma.2 * (noise i).py))) :
    m.initialize cos sin noise = .error .valueError := by
  have hm : m.position (noise i) ∈ (List.range m.n).map fun (i : Nat) => m.position (noise i) :=
    List.mem_map.2 ⟨i, List.mem_range.2 hi, rfl⟩
  suffices hs' : m.samples ((List.range m.n).map fun (i : Nat) => m.position (noise i)) = .error .valueError by
    simp only [Model.initialize, hs', bind, Except.bind]
  by_cases c1 : m.dem.Covers (m.position (noise i))
  · have c2 : ¬ m.demSigma.Covers (m.position (noise i)) := fun c => h ⟨c1, c⟩
    have e2 := sample_err m.demSigma _ _ hm c2
    unfold Model.samples
    split
    · by_cases hall : ∀ p ∈ (List.range m.n).map fun (i : Nat) => m.position (noise i), m.dem.Covers p
      · obtain ⟨z, e1, -⟩ := sample_ok m.dem hd _ hall
        simp only [e1, e2, bind, Except.bind]
      · push Not at hall
        obtain ⟨p, hp, hc⟩ := hall
        simp only [sample_err m.dem _ p hp hc, bind, Except.bind]
    · simp only [e2, bind, Except.bind]
  · have e1 := sample_err m.dem _ _ hm c1
    unfold Model.samples
    split
    · simp only [e1, bind, Except.bind]
    · by_cases hall : ∀ p ∈ (List.range m.n).map fun (i : Nat) => m.position (noise i), m.demSigma.Covers p
      · obtain ⟨z, e2, -⟩ := sample_ok m.demSigma hs _ hall
        simp only [e1, e2, bind, Except.bind]
      · push Not at hall
        obtain ⟨p, hp, hc⟩ := hall
        simp only [sample_err m.demSigma _ p hp hc, bind, Except.bind]

/-- C107 fails: a motion model whose surface is given as a number refuses to start anywhere outside of the square from 0 to 1
(here without random offsets), though the height is the same everywhere. -/
theorem number_violated (cos sin : ℚ → ℚ) (kind : Kind) (xy : ℚ × ℚ) (z s : ℚ) (n : Nat) (v vSigma : Triple) (noise : Nat → Noise)
    (hn : 0 < n) (h : ¬ (0 ≤ xy.1 ∧ xy.1 ≤ 1 ∧ 0 ≤ xy.2 ∧ xy.2 ≤ 1)) :
    ∃ m, new kind xy (.number z) (.number s) n (0, 0) v vSigma = .ok m ∧ m.initialize cos sin noise = .error .valueError := by
  obtain ⟨d, e1, o1, -, c1⟩ := make_number z
  obtain ⟨t, e2, o2, -, -⟩ := make_number s
  refine ⟨_, new_ok kind xy _ _ n (0, 0) v vSigma d t e1 e2, initialize_raises cos sin _ o1 o2 noise 0 hn ?_⟩
  rintro ⟨hc, -⟩
  rw [c1] at hc
  apply h
  simpa using hc

/-- C107: inside of that square the height is the number, plus a random multiple of its standard deviation. -/
theorem number_partial (cos sin : ℚ → ℚ) (kind : Kind) (xy : ℚ × ℚ) (z s : ℚ) (n : Nat) (v vSigma : Triple) (noise : Nat → Noise)
    (h : 0 ≤ xy.1 ∧ xy.1 ≤ 1 ∧ 0 ≤ xy.2 ∧ xy.2 ≤ 1) :
    ∃ m ps, new kind xy (.number z) (.number s) n (0, 0) v vSigma = .ok m ∧ m.initialize cos sin noise = .ok ps ∧ ps.length = n ∧
      ∀ i (hi : i < ps.length), ps[i].x = xy.1 ∧ ps[i].y = xy.2 ∧ ps[i].z = z + s * (noise i).pz := by
  obtain ⟨d, e1, o1, a1, c1⟩ := make_number z
  obtain ⟨t, e2, o2, a2, c2⟩ := make_number s
  obtain ⟨ps, hp, hl, hs⟩ := initialize_partial cos sin ⟨kind, xy, d, t, n, (0, 0), v, vSigma⟩ o1 o2 noise
    (fun i _ => (c1 _).2 (by simpa using h)) (fun i _ => (c2 _).2 (by simpa using h))
  refine ⟨_, ps, new_ok kind xy _ _ n (0, 0) v vSigma d t e1 e2, hp, hl, fun i hi => ?_⟩
  obtain ⟨hx, hy, ⟨z', s', hz, hs', he⟩, -⟩ := hs i hi
  have hz' := (a1 _ _).1 hz
  have hs'' := (a2 _ _).1 hs'
  exact ⟨by simpa using hx, by simpa using hy, by rw [he, hz', hs'']⟩

/-- C107: the minimal motion model starts all particles at the position given, at height zero, with random velocities. -/
theorem base_initialize_spec (xy : ℚ × ℚ) (n : Nat) (sigma : Triple) (noise : Nat → Triple) :
    (baseInitialize xy n sigma noise).length = n ∧ ∀ i (hi : i < (baseInitialize xy n sigma noise).length),
      (baseInitialize xy n sigma noise)[i] =
        ⟨xy.1, xy.2, 0, sigma.a * (noise i).a, sigma.b * (noise i).b, sigma.c * (noise i).c⟩ := by
  refine ⟨by simp [baseInitialize], fun i hi => ?_⟩
  simp [baseInitialize]

/-! ### Tangent motion -/

/-- The horizontal step of a particle. -/
def step (t : ℚ) (acc : ℚ × ℚ) (p : Particle) : ℚ × ℚ := (t * p.vx + 1 / 2 * acc.1 * t ^ 2, t * p.vy + 1 / 2 * acc.2 * t ^ 2)

/-- C107: in tangent motion all particles move at once: each keeps its own height above the surface, changed by its own random
slope times the length of its step; if all are inside of the raster before and after. -/
theorem tangent_all (norm : ℚ → ℚ → ℚ) (dem : Surface) (hd : dem.Ok) (slope t : ℚ) (acc : Nat → ℚ × ℚ) (noise : Nat → ℚ)
    (ps : List Particle) (h0 : ∀ p ∈ ps, dem.Covers (p.x, p.y))
    (h1 : ∀ i (hi : i < ps.length), dem.Covers (ps[i].x + (step t (acc i) ps[i]).1, ps[i].y + (step t (acc i) ps[i]).2)) :
    ∃ qs, evolveTangent norm dem slope t acc noise ps = .ok qs ∧ qs.length = ps.length ∧
      ∀ i (hi : i < ps.length) (hi' : i < qs.length),
        qs[i].x = ps[i].x + (step t (acc i) ps[i]).1 ∧ qs[i].y = ps[i].y + (step t (acc i) ps[i]).2 ∧
        (∃ z z', dem.At (ps[i].x, ps[i].y) z ∧ dem.At (qs[i].x, qs[i].y) z' ∧
          qs[i].z - z' = ps[i].z - z + slope * noise i * norm (step t (acc i) ps[i]).1 (step t (acc i) ps[i]).2) ∧
        qs[i].vx = ps[i].vx + t * (acc i).1 ∧ qs[i].vy = ps[i].vy + t * (acc i).2 ∧ qs[i].vz = ps[i].vz := by
  have hstep : ∀ i (hi : i < ps.length), (ps.mapIdx fun (i : Nat) (p : Particle) =>
      (t * p.vx + 1 / 2 * (acc i).1 * t ^ 2, t * p.vy + 1 / 2 * (acc i).2 * t ^ 2)).getD i (0, 0) = step t (acc i) ps[i] := by
    intro i hi
    rw [List.getD_eq_getElem _ _ (by simpa using hi)]
    simp [step]
  obtain ⟨z0, e0, _, a0⟩ := sample_ok dem hd (ps.map fun p => (p.x, p.y)) (by
    intro p hp
    obtain ⟨q, hq, rfl⟩ := List.mem_map.1 hp
    exact h0 q hq)
  have hmoved : ∀ p ∈ (ps.mapIdx fun (i : Nat) (p : Particle) =>
      (p.x + ((ps.mapIdx fun (i : Nat) (p : Particle) =>
        (t * p.vx + 1 / 2 * (acc i).1 * t ^ 2, t * p.vy + 1 / 2 * (acc i).2 * t ^ 2)).getD i (0, 0)).1,
       p.y + ((ps.mapIdx fun (i : Nat) (p : Particle) =>
        (t * p.vx + 1 / 2 * (acc i).1 * t ^ 2, t * p.vy + 1 / 2 * (acc i).2 * t ^ 2)).getD i (0, 0)).2)), dem.Covers p := by
    intro p hp
    obtain ⟨i, hi, rfl⟩ := List.mem_iff_getElem.1 hp
    have hi' : i < ps.length := by simpa using hi
    rw [List.getElem_mapIdx, hstep i hi']
    exact h1 i hi'
  obtain ⟨z1, e1, _, a1⟩ := sample_ok dem hd _ hmoved
  simp only [evolveTangent, e0, e1, bind, Except.bind]
  refine ⟨_, rfl, by simp, fun i hi hi' => ?_⟩
  have b0 := a0 i (by simpa using hi)
  have b1 := a1 i (by simpa using hi)
  simp only [List.getElem_map] at b0
  rw [List.getElem_mapIdx, hstep i hi] at b1
  rw [List.getElem_mapIdx]
  have hm : ∀ (f : Nat → Particle → ℚ × ℚ), (ps.mapIdx f).getD i (0, 0) = f i ps[i] := by
    intro f; rw [List.getD_eq_getElem _ _ (by simpa using hi)]; simp
  have hm' : ∀ (f : Nat → Particle → ℚ), (ps.mapIdx f).getD i 0 = f i ps[i] := by
    intro f; rw [List.getD_eq_getElem _ _ (by simpa using hi)]; simp
  simp only [hm, hm']
  refine ⟨rfl, rfl, ⟨_, _, b0, b1, ?_⟩, trivial, trivial, trivial⟩
  simp only [step]
  ring

/-- C107: if any particle leaves the raster, the evolution raises `ValueError` for all. -/
theorem tangent_raises (norm : ℚ → ℚ → ℚ) (dem : Surface) (hd : dem.Ok) (slope t : ℚ) (acc : Nat → ℚ × ℚ) (noise : Nat → ℚ)
    (ps : List Particle) (i : Nat) (hi : i < ps.length)
    (h : ¬ dem.Covers (ps[i].x + (step t (acc i) ps[i]).1, ps[i].y + (step t (acc i) ps[i]).2)) :
    evolveTangent norm dem slope t acc noise ps = .error .valueError := by
  unfold evolveTangent
  by_cases h0 : ∀ p ∈ ps.map (fun p => (p.x, p.y)), dem.Covers p
  · obtain ⟨z0, e0, -⟩ := sample_ok dem hd _ h0
    simp only [e0, bind, Except.bind]
    rw [sample_err dem _ (ps[i].x + (step t (acc i) ps[i]).1, ps[i].y + (step t (acc i) ps[i]).2) ?_ h]
    rw [List.mem_iff_getElem]
    refine ⟨i, by simpa using hi, ?_⟩
    rw [List.getElem_mapIdx, List.getD_eq_getElem _ _ (by simpa using hi)]
    simp [step]
  · push Not at h0
    obtain ⟨p, hp, hc⟩ := h0
    simp only [sample_err dem _ p hp hc, bind, Except.bind]

/-! ### Likelihoods -/

/-- C107: the likelihood term of each particle depends on its own height above the surface at its own position, in standard
deviations there: half of its square (zero where the standard deviation is zero). -/
theorem likelihoods_spec (m : Model) (hd : m.dem.Ok) (hs : m.demSigma.Ok) (ps : List Particle) (h1 : ∀ p ∈ ps, m.dem.Covers (p.x, p.y))
    (h2 : ∀ p ∈ ps, m.demSigma.Covers (p.x, p.y)) :
    ∃ ls, m.logLikelihoods ps = .ok ls ∧ ls.length = ps.length ∧ ∀ i (hi : i < ps.length) (hi' : i < ls.length),
      ∃ z s, m.dem.At (ps[i].x, ps[i].y) z ∧ m.demSigma.At (ps[i].x, ps[i].y) s ∧
        (s = 0 → ls[i] = 0) ∧ (s ≠ 0 → ls[i] = ((ps[i].z - z) / s) ^ 2 / 2) := by
  obtain ⟨z, e1, _, a1⟩ := sample_ok m.dem hd (ps.map fun p => (p.x, p.y)) (by
    intro p hp
    obtain ⟨q, hq, rfl⟩ := List.mem_map.1 hp
    exact h1 q hq)
  obtain ⟨s, e2, _, a2⟩ := sample_ok m.demSigma hs (ps.map fun p => (p.x, p.y)) (by
    intro p hp
    obtain ⟨q, hq, rfl⟩ := List.mem_map.1 hp
    exact h2 q hq)
  simp only [Model.logLikelihoods, e1, e2, bind, Except.bind]
  refine ⟨_, rfl, by simp, fun i hi hi' => ?_⟩
  have b1 := a1 i (by simpa using hi)
  have b2 := a2 i (by simpa using hi)
  simp only [List.getElem_map] at b1 b2
  refine ⟨_, _, b1, b2, fun h => ?_, fun h => ?_⟩
  · rw [List.getElem_mapIdx, if_pos h]
  · rw [List.getElem_mapIdx, if_neg h]
    field_simp
    ring

/-- C107: a particle outside of the surface makes the likelihoods raise `ValueError`. -/
theorem likelihoods_raise (m : Model) (ps : List Particle) (p : Particle) (hp : p ∈ ps) (h : ¬ m.dem.Covers (p.x, p.y)) :
    m.logLikelihoods ps = .error .valueError := by
  have := sample_err m.dem (ps.map fun p => (p.x, p.y)) (p.x, p.y) (List.mem_map.2 ⟨p, hp, rfl⟩) h
  simp only [Model.logLikelihoods, this, bind, Except.bind]

/-! ### Examples -/

/-- A surface of two by two cells rising to the right. -/
def ramp : Surface := ⟨⟨⟨0, 20, 2⟩, ⟨20, 0, 2⟩⟩, [[100, 110], [100, 110]]⟩
/-- Its standard deviation. -/
def flat : Surface := ⟨⟨⟨0, 20, 2⟩, ⟨20, 0, 2⟩⟩, [[2, 2], [2, 2]]⟩

example : ramp.Ok ∧ flat.Ok := ⟨⟨⟨by decide, by decide, by simp [ramp], by simp [ramp]⟩, ⟨rfl, by decide⟩⟩,
  ⟨⟨by decide, by decide, by simp [flat], by simp [flat]⟩, ⟨rfl, by decide⟩⟩⟩

/-- Three particles around `(10, 10)`: at `(10, 10)` the surface is 105 high. -/
example : (⟨.cartesian, (10, 10), ramp, flat, 3, (1, 1), ⟨1, 0, 0⟩, ⟨0, 1, 0⟩⟩ : Model).initialize id id
    (fun i => ⟨i, 0, i, ⟨0, i, 0⟩⟩) =
    .ok [⟨10, 10, 105, 1, 0, 0⟩, ⟨11, 10, 108, 1, 1, 0⟩, ⟨12, 10, 111, 1, 2, 0⟩] := by decide +kernel

/-- A particle one above the surface stays one above. -/
example : evolveTangent (fun _ _ => 0) ramp 0 2 (fun _ => (0, 0)) (fun _ => 0) [⟨10, 10, 106, 1, 0, 0⟩] =
    .ok [⟨12, 10, 108, 1, 0, 0⟩] := by decide +kernel

/-- Leaving the raster. -/
example : evolveTangent (fun _ _ => 0) ramp 0 20 (fun _ => (0, 0)) (fun _ => 0) [⟨10, 10, 106, 1, 0, 0⟩] =
    .error .valueError := by decide +kernel

end Glimpse.MotionDem
