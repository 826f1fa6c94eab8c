import Verif.Model.MotionDem
import Verif.Model.SampleMissing

/-!
Model of the motion models (src/glimpse/track/motion.py) on surfaces with missing cells (NaN), which `Model/MotionDem.lean`
leaves out, and of the test of particles for missing values (src/glimpse/track/tracker.py:118-119). A missing number is `none`;
arithmetic with a missing number is missing. Horizontal positions and velocities are given (not missing). As there, random
numbers, `np.cos`, `np.sin` and the length of a step are parameters and numbers are exact.
-/
set_option autoImplicit false

namespace Glimpse.MotionMissing

open MotionDem (Triple Noise Kind)

/-- A raster whose cells may be missing. -/
structure Surface where
  grid : Grid
  array : Sample.Cells

/-- `dem.sample(xy)` with the default arguments (raster.py:911-918). -/
def Surface.sample (s : Surface) (xy : List (ℚ × ℚ)) : Except Err (List (Option ℚ)) :=
  Sample.samplePointsM 1 s.grid s.array xy true (some none)

/-- A particle `(x, y, z, vx, vy, vz)` whose height may be missing. -/
structure Particle where
  x : ℚ
  y : ℚ
  z : Option ℚ
  vx : ℚ
  vy : ℚ
  vz : ℚ
deriving DecidableEq

/-- Sum of numbers that may be missing. -/
def plus (a b : Option ℚ) : Option ℚ := a.bind fun a => b.map fun b => a + b

/-- Product of a number that may be missing and one that is not. -/
def times (a : Option ℚ) (b : ℚ) : Option ℚ := a.map fun a => a * b

/-- A motion model (motion.py:121-146, 232-257, 340-371, 440-468). -/
structure Model where
  kind : Kind
  xy : ℚ × ℚ
  dem : Surface
  demSigma : Surface
  n : Nat
  xySigma : ℚ × ℚ
  v : Triple
  vSigma : Triple

/-- Initial position (motion.py:156, 268, 381, 477). -/
def Model.position (m : Model) (n : Noise) : ℚ × ℚ := (m.xy.1 + m.xySigma.1 * n.px, m.xy.2 + m.xySigma.2 * n.py)

/-- Initial velocity (motion.py:161, 273-282, 384, 480-488). -/
def Model.velocity (cos sin : ℚ → ℚ) (m : Model) (n : Noise) : Triple :=
  let v := m.v.draw m.vSigma n.v
  match m.kind with
  | .cartesian => v
  | .cylindrical => ⟨v.a * cos v.b, v.a * sin v.b, v.c⟩
  | .tangentCartesian => ⟨v.a, v.b, 0⟩
  | .tangentCylindrical => ⟨v.a * cos v.b, v.a * sin v.b, 0⟩

/-- The samples of both surfaces at the initial positions, in the order of the class (motion.py:157-159, 269-271, 382-383,
478-479). -/
def Model.samples (m : Model) (xy : List (ℚ × ℚ)) : Except Err (List (Option ℚ) × List (Option ℚ)) :=
  if m.kind = .cartesian ∨ m.kind = .cylindrical then do
    let z ← m.dem.sample xy
    let s ← m.demSigma.sample xy
    .ok (z, s)
  else do
    let s ← m.demSigma.sample xy
    let z ← m.dem.sample xy
    .ok (z, s)

/-- `initialize_particles` of the classes with a surface (motion.py:148-162, 259-283, 373-385, 470-489). -/
def Model.initialize (cos sin : ℚ → ℚ) (m : Model) (noise : Nat → Noise) : Except Err (List Particle) := do
  let xy := (List.range m.n).map fun (i : Nat) => m.position (noise i)
  let zs ← m.samples xy
  .ok ((List.range m.n).map fun (i : Nat) =>
    let p := m.position (noise i)
    let v := m.velocity cos sin (noise i)
    (⟨p.1, p.2, plus (zs.1.getD i none) (times (zs.2.getD i none) (noise i).pz), v.a, v.b, v.c⟩ : Particle))

/-- The end of `evolve_particles` of the tangent classes (motion.py:400-412, 510-522), given the accelerations of the particles
and the random numbers of the slope. -/
def evolveTangent (norm : ℚ → ℚ → ℚ) (dem : Surface) (slope t : ℚ) (acc : Nat → ℚ × ℚ) (noise : Nat → ℚ) (ps : List Particle) :
    Except Err (List Particle) := do
  let dxy := ps.mapIdx fun (i : Nat) (p : Particle) =>
    (t * p.vx + 1 / 2 * (acc i).1 * t ^ 2, t * p.vy + 1 / 2 * (acc i).2 * t ^ 2)
  let z0 ← dem.sample (ps.map fun p => (p.x, p.y))
  let offsets := ps.mapIdx fun (i : Nat) (p : Particle) =>
    plus (plus p.z (times (z0.getD i none) (-1))) (some (slope * noise i * norm (dxy.getD i (0, 0)).1 (dxy.getD i (0, 0)).2))
  let moved := ps.mapIdx fun (i : Nat) (p : Particle) => (p.x + (dxy.getD i (0, 0)).1, p.y + (dxy.getD i (0, 0)).2)
  let z1 ← dem.sample moved
  .ok (ps.mapIdx fun (i : Nat) (p : Particle) =>
    (⟨(moved.getD i (0, 0)).1, (moved.getD i (0, 0)).2, plus (z1.getD i none) (offsets.getD i none), p.vx + t * (acc i).1,
      p.vy + t * (acc i).2, p.vz⟩ : Particle))

/-- `CartesianMotion.compute_log_likelihoods` (motion.py:181-204), inherited by `CylindricalMotion`. A missing standard
deviation counts as nonzero (`np.nonzero`). -/
def Model.logLikelihoods (m : Model) (ps : List Particle) : Except Err (List (Option ℚ)) := do
  let z ← m.dem.sample (ps.map fun p => (p.x, p.y))
  let s ← m.demSigma.sample (ps.map fun p => (p.x, p.y))
  .ok (ps.mapIdx fun (i : Nat) (p : Particle) =>
    if s.getD i none = some 0 then some 0
    else do
      let sigma ← s.getD i none
      let d ← plus (z.getD i none) (times p.z (-1))
      some (1 / (2 * sigma ^ 2) * d ^ 2))

/-- The test of particles for missing values (tracker.py:118-119). -/
def testMissing (ps : List Particle) : Except Err Unit :=
  if ps.any fun p => p.z.isNone then .error .valueError else .ok ()

end Glimpse.MotionMissing
