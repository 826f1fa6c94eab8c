import Verif.Model.Sample

/-!
Model of the motion models (track/motion.py) together with their surfaces: how `dem` and `dem_sigma` are made, and
what happens to all particles when the surfaces are sampled. (`Model/Motion.lean` models one particle over the real
numbers, with surfaces that are functions.)

Random numbers (`np.random.randn`) are parameters, one record per particle. Numbers are exact (rational); `np.cos`, `np.sin`
and the length of a horizontal step (a square root) are parameters. Missing cells and missing (NaN) coordinates are not
modelled.
-/
set_option autoImplicit false

namespace Glimpse.MotionDem

/-- A raster made of values on a grid. -/
structure Surface where
  grid : Grid
  array : List (List ℚ)

/-- `Grid._parse_limits` (raster.py:230-239); `None` is an array of length one. -/
def parseLimits : Option (ℚ × ℚ) → Except Err (ℚ × ℚ)
  | none => .error .valueError
  | some l => if l.1 = l.2 then .error .valueError else .ok l

/-- Arguments `dem` and `dem_sigma`. -/
inductive DemArg
  | none
  | number (z : ℚ)
  | raster (s : Surface)

/-- `if not isinstance(dem, Raster): dem = Raster(dem)` (motion.py:136-141, 247-252, 355-360, 456-461), with `Raster.__init__`
(raster.py:643-651): without an array the limits are those given (none), else the array is one cell (846-849) and the limits
are `(0, 1)` (245-246, 1 being the number of cells). -/
def makeDem : DemArg → Except Err Surface
  | .none => do
    let x ← parseLimits none
    let y ← parseLimits none
    .ok ⟨⟨⟨x.1, x.2, 0⟩, ⟨y.1, y.2, 0⟩⟩, []⟩
  | .number z => do
    let x ← parseLimits (some (0, 1))
    let y ← parseLimits (some (0, 1))
    .ok ⟨⟨⟨x.1, x.2, 1⟩, ⟨y.1, y.2, 1⟩⟩, [[z]]⟩
  | .raster s => .ok s

/-- `dem.sample(xy)` with the default arguments (raster.py:911-918). -/
def Surface.sample (s : Surface) (xy : List (ℚ × ℚ)) : Except Err (List ℚ) :=
  Sample.samplePoints 1 s.grid s.array xy true (some (false, 0))

/-- A particle `(x, y, z, vx, vy, vz)`. -/
@[ext] structure Particle where
  x : ℚ
  y : ℚ
  z : ℚ
  vx : ℚ
  vy : ℚ
  vz : ℚ
deriving DecidableEq

/-- Three numbers. -/
@[ext] structure Triple where
  a : ℚ
  b : ℚ
  c : ℚ
deriving DecidableEq

/-- `mean + sigma * noise`. -/
def Triple.draw (mean sigma noise : Triple) : Triple :=
  ⟨mean.a + sigma.a * noise.a, mean.b + sigma.b * noise.b, mean.c + sigma.c * noise.c⟩

/-- The four classes with a surface. -/
inductive Kind
  | cartesian
  | cylindrical
  | tangentCartesian
  | tangentCylindrical
deriving DecidableEq

/-- A motion model (motion.py:121-146, 232-257, 340-371, 440-468): `v` and `a` are `vxyz`, `axyz`, or `vrthz`, `arthz`, or `vxy`,
`axy`, or `vrth`, `arth` (of the last four the third component is not used). -/
structure Model where
  kind : Kind
  xy : ℚ × ℚ
  dem : Surface
  demSigma : Surface
  n : Nat
  xySigma : ℚ × ℚ
  v : Triple
  vSigma : Triple

/-- The constructors (motion.py:121-146, 232-257, 340-371, 440-468). -/
def new (kind : Kind) (xy : ℚ × ℚ) (dem demSigma : DemArg) (n : Nat) (xySigma : ℚ × ℚ) (v vSigma : Triple) : Except Err Model := do
  let dem ← makeDem dem
  let demSigma ← makeDem demSigma
  .ok ⟨kind, xy, dem, demSigma, n, xySigma, v, vSigma⟩

/-- The value of `dem_sigma` if it is not given (motion.py:126, 237, 345, 445). -/
def defaultSigma : Kind → DemArg
  | .tangentCartesian => .number 0
  | _ => .none

/-- Random draws for one particle. -/
structure Noise where
  px : ℚ
  py : ℚ
  pz : ℚ
  v : Triple

/-- Initial position (motion.py:156, 268, 381, 477). -/
def Model.position (m : Model) (n : Noise) : ℚ × ℚ := (m.xy.1 + m.xySigma.1 * n.px, m.xy.2 + m.xySigma.2 * n.py)

/-- Initial velocity (motion.py:161, 273-282, 384, 480-488). -/
def Model.velocity (cos sin : ℚ → ℚ) (m : Model) (n : Noise) : Triple :=
  let v := m.v.draw m.vSigma n.v
  match m.kind with
  | .cartesian => v
  | .cylindrical => ⟨v.a * cos v.b, v.a * sin v.b, v.c⟩
  | .tangentCartesian => ⟨v.a, v.b, 0⟩
  | .tangentCylindrical => ⟨v.a * cos v.b, v.a * sin v.b, 0⟩

/-- The samples of both surfaces at the initial positions: `dem` first in the first two classes (motion.py:157-159, 269-271),
`dem_sigma` first in the last two (382-383, 478-479). -/
def Model.samples (m : Model) (xy : List (ℚ × ℚ)) : Except Err (List ℚ × List ℚ) :=
  if m.kind = .cartesian ∨ m.kind = .cylindrical then do
    let z ← m.dem.sample xy
    let s ← m.demSigma.sample xy
    .ok (z, s)
  else do
    let s ← m.demSigma.sample xy
    let z ← m.dem.sample xy
    .ok (z, s)

/-- `initialize_particles` of the classes with a surface (motion.py:148-162, 259-283, 373-385, 470-489). -/
def Model.initialize (cos sin : ℚ → ℚ) (m : Model) (noise : Nat → Noise) : Except Err (List Particle) := do
  let xy := (List.range m.n).map fun (i : Nat) => m.position (noise i)
  let zs ← m.samples xy
  .ok ((List.range m.n).map fun (i : Nat) =>
    let p := m.position (noise i)
    let v := m.velocity cos sin (noise i)
    (⟨p.1, p.2, zs.1.getD i 0 + zs.2.getD i 0 * (noise i).pz, v.a, v.b, v.c⟩ : Particle))

/-- `Motion.initialize_particles` (motion.py:53-63). -/
def baseInitialize (xy : ℚ × ℚ) (n : Nat) (sigma : Triple) (noise : Nat → Triple) : List Particle :=
  (List.range n).map fun (i : Nat) =>
    (⟨xy.1, xy.2, 0, sigma.a * (noise i).a, sigma.b * (noise i).b, sigma.c * (noise i).c⟩ : Particle)

/-- The end of `evolve_particles` of the last two classes (motion.py:400-412, 510-522), given the accelerations of the
particles and the random numbers of the slope. `norm dx dy` is the length of a step. -/
def evolveTangent (norm : ℚ → ℚ → ℚ) (dem : Surface) (slope t : ℚ) (acc : Nat → ℚ × ℚ) (noise : Nat → ℚ) (ps : List Particle) :
    Except Err (List Particle) := do
  let dxy := ps.mapIdx fun (i : Nat) (p : Particle) =>
    (t * p.vx + 1 / 2 * (acc i).1 * t ^ 2, t * p.vy + 1 / 2 * (acc i).2 * t ^ 2)
  let z0 ← dem.sample (ps.map fun p => (p.x, p.y))
  let offsets := ps.mapIdx fun (i : Nat) (p : Particle) =>
    p.z - z0.getD i 0 + slope * noise i * norm (dxy.getD i (0, 0)).1 (dxy.getD i (0, 0)).2
  let moved := ps.mapIdx fun (i : Nat) (p : Particle) => (p.x + (dxy.getD i (0, 0)).1, p.y + (dxy.getD i (0, 0)).2)
  let z1 ← dem.sample moved
  .ok (ps.mapIdx fun (i : Nat) (p : Particle) =>
    (⟨(moved.getD i (0, 0)).1, (moved.getD i (0, 0)).2, z1.getD i 0 + offsets.getD i 0, p.vx + t * (acc i).1, p.vy + t * (acc i).2,
      p.vz⟩ : Particle))

/-- `CartesianMotion.compute_log_likelihoods` (motion.py:181-204), inherited by `CylindricalMotion`. -/
def Model.logLikelihoods (m : Model) (ps : List Particle) : Except Err (List ℚ) := do
  let z ← m.dem.sample (ps.map fun p => (p.x, p.y))
  let s ← m.demSigma.sample (ps.map fun p => (p.x, p.y))
  .ok (ps.mapIdx fun (i : Nat) (p : Particle) =>
    if s.getD i 0 = 0 then 0 else 1 / (2 * s.getD i 0 ^ 2) * (z.getD i 0 - p.z) ^ 2)

end Glimpse.MotionDem
