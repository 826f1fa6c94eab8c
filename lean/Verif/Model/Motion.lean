import Verif.Model.Basic
import Mathlib.Analysis.SpecialFunctions.Trigonometric.Basic
import Mathlib.Analysis.SpecialFunctions.Sqrt

/-!
Model of the motion models (track/motion.py) over the real numbers.

Random numbers are parameters (`np.random.randn`), one record per particle. `Raster.sample` of the DEM and of its
standard deviation are functions of `x` and `y`; sampling outside of the raster (which raises) is not modelled.
NaN particles are represented by `none`.
-/
set_option autoImplicit false

namespace Glimpse.Motion

/-- A particle `(x, y, z, vx, vy, vz)`. -/
@[ext] structure Particle where
  x : ℝ
  y : ℝ
  z : ℝ
  vx : ℝ
  vy : ℝ
  vz : ℝ

/-- A triple of numbers (acceleration, or its standard deviation, or a random draw). -/
@[ext] structure Triple where
  a : ℝ
  b : ℝ
  c : ℝ

/-- `mean + sigma * noise` for each component (motion.py:175, 299, 399, 499). -/
def Triple.draw (mean sigma noise : Triple) : Triple :=
  ⟨mean.a + sigma.a * noise.a, mean.b + sigma.b * noise.b, mean.c + sigma.c * noise.c⟩

/-- `dt.total_seconds() / self.time_unit.total_seconds()` (motion.py:73, 174, 294, 398, 494); both in
microseconds. -/
noncomputable def timeUnits (dt unit : ℤ) : ℝ := ((dt : ℝ) / 1000000) / ((unit : ℝ) / 1000000)

/-- `Motion.evolve_particles` (motion.py:65-74) for one particle. -/
noncomputable def evolveBase (t : ℝ) (p : Particle) : Particle :=
  { p with x := p.x + t * p.vx, y := p.y + t * p.vy, z := p.z + t * p.vz }

/-- Position and velocity update of `CartesianMotion.evolve_particles` (motion.py:176-179) and
`CylindricalMotion.evolve_particles` (motion.py:308-311). -/
noncomputable def integrate (t : ℝ) (acc : Triple) (p : Particle) : Particle where
  x := p.x + (t * p.vx + 0.5 * acc.a * t ^ 2)
  y := p.y + (t * p.vy + 0.5 * acc.b * t ^ 2)
  z := p.z + (t * p.vz + 0.5 * acc.c * t ^ 2)
  vx := p.vx + t * acc.a
  vy := p.vy + t * acc.b
  vz := p.vz + t * acc.c

/-- `CartesianMotion.evolve_particles` (motion.py:165-179) for one particle. -/
noncomputable def evolveCartesian (axyz sigma : Triple) (t : ℝ) (noise : Triple) (p : Particle) : Particle :=
  integrate t (axyz.draw sigma noise) p

/-- The horizontal acceleration of cylindrical motion (motion.py:300-305, 500-507): `vx / vr` is `0 / 0`, NaN, for a
particle without horizontal velocity. -/
noncomputable def cylindricalAcc (ar ath vx vy : ℝ) : Option (ℝ × ℝ) :=
  let vr := Real.sqrt (vx ^ 2 + vy ^ 2)
  if vr = 0 then none else some (ar * (vx / vr) - vy * ath, ar * (vy / vr) + vx * ath)

/-- `CylindricalMotion.evolve_particles` (motion.py:285-311) for one particle; `arthz` is radial acceleration,
angular velocity and vertical acceleration. `none` is a particle of NaN. -/
noncomputable def evolveCylindrical (arthz sigma : Triple) (t : ℝ) (noise : Triple) (p : Particle) :
    Option Particle :=
  let acc := arthz.draw sigma noise
  match cylindricalAcc acc.a acc.b p.vx p.vy with
  | none => none
  | some (ax, ay) => some (integrate t ⟨ax, ay, acc.c⟩ p)

/-- The end of `TangentCartesianMotion.evolve_particles` (motion.py:400-412) and
`TangentCylindricalMotion.evolve_particles` (motion.py:510-522): the height above the DEM is kept, up to a random
change `slope * noise` times the horizontal distance. -/
noncomputable def evolveTangent (dem : ℝ → ℝ → ℝ) (slope : ℝ) (t ax ay slopeNoise : ℝ) (p : Particle) : Particle :=
  let dx := t * p.vx + 0.5 * ax * t ^ 2
  let dy := t * p.vy + 0.5 * ay * t ^ 2
  let offset := p.z - dem p.x p.y + slope * slopeNoise * Real.sqrt (dx ^ 2 + dy ^ 2)
  { p with
    x := p.x + dx, y := p.y + dy, z := dem (p.x + dx) (p.y + dy) + offset,
    vx := p.vx + t * ax, vy := p.vy + t * ay }

/-- `TangentCartesianMotion.evolve_particles` (motion.py:388-412) for one particle. The third component of `axy` is
not used; the third component of `noise` is the random slope. -/
noncomputable def evolveTangentCartesian (dem : ℝ → ℝ → ℝ) (slope : ℝ) (axy sigma : Triple) (t : ℝ) (noise : Triple)
    (p : Particle) : Particle :=
  let acc := axy.draw sigma noise
  evolveTangent dem slope t acc.a acc.b noise.c p

/-- `TangentCylindricalMotion.evolve_particles` (motion.py:483-522) for one particle. -/
noncomputable def evolveTangentCylindrical (dem : ℝ → ℝ → ℝ) (slope : ℝ) (arth sigma : Triple) (t : ℝ)
    (noise : Triple) (p : Particle) : Option Particle :=
  let acc := arth.draw sigma noise
  match cylindricalAcc acc.a acc.b p.vx p.vy with
  | none => none
  | some (ax, ay) => some (evolveTangent dem slope t ax ay noise.c p)

/-- Random draws at initialization: position (2), height (1), velocity (3). -/
structure InitNoise where
  px : ℝ
  py : ℝ
  pz : ℝ
  v : Triple

/-- `CartesianMotion.initialize_particles` (motion.py:148-163) for one particle. -/
noncomputable def initCartesian (dem demSigma : ℝ → ℝ → ℝ) (xy xySigma : ℝ × ℝ) (v vSigma : Triple)
    (n : InitNoise) : Particle :=
  let x := xy.1 + xySigma.1 * n.px
  let y := xy.2 + xySigma.2 * n.py
  let vel := v.draw vSigma n.v
  ⟨x, y, dem x y + demSigma x y * n.pz, vel.a, vel.b, vel.c⟩

/-- `CylindricalMotion.initialize_particles` (motion.py:261-283) for one particle. -/
noncomputable def initCylindrical (dem demSigma : ℝ → ℝ → ℝ) (xy xySigma : ℝ × ℝ) (v vSigma : Triple)
    (n : InitNoise) : Particle :=
  let x := xy.1 + xySigma.1 * n.px
  let y := xy.2 + xySigma.2 * n.py
  let vel := v.draw vSigma n.v
  ⟨x, y, dem x y + demSigma x y * n.pz, vel.a * Real.cos vel.b, vel.a * Real.sin vel.b, vel.c⟩

/-- `TangentCartesianMotion.initialize_particles` (motion.py:373-386); vertical velocity is zero. -/
noncomputable def initTangent (dem demSigma : ℝ → ℝ → ℝ) (xy xySigma : ℝ × ℝ) (v vSigma : Triple)
    (n : InitNoise) : Particle :=
  let x := xy.1 + xySigma.1 * n.px
  let y := xy.2 + xySigma.2 * n.py
  let vel := v.draw vSigma n.v
  ⟨x, y, dem x y + demSigma x y * n.pz, vel.a, vel.b, 0⟩

/-- `CartesianMotion.compute_log_likelihoods` (motion.py:181-204) for one particle: zero where the standard
deviation of the DEM is zero. -/
noncomputable def logLikelihood (dem demSigma : ℝ → ℝ → ℝ) (p : Particle) : ℝ :=
  let s := demSigma p.x p.y
  if s = 0 then 0 else 1 / (2 * s ^ 2) * (dem p.x p.y - p.z) ^ 2

/-- The NaN test of `Tracker.test_particles` (track/tracker.py:119-120), after an evolution of all particles. -/
def testParticles (ps : List (Option Particle)) : Except Err Unit :=
  if ps.all Option.isSome then .ok () else .error .valueError

end Glimpse.Motion
