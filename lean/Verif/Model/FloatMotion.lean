import Verif.Model.Double
import Mathlib.Data.Fin.VecNotation

/-!
Model of `Motion.evolve_particles` and `CartesianMotion.evolve_particles` (src/glimpse/track/motion.py:65-74, 165-179) with every floating point
operation rounded by `r`. Times are integers of microseconds (`datetime.timedelta`).
-/
set_option autoImplicit false

namespace Glimpse.FloatMotion

/-- A particle: position and velocity. -/
structure Particle where
  pos : Fin 3 → ℚ
  vel : Fin 3 → ℚ

/-- `dt.total_seconds() / self.time_unit.total_seconds()` (motion.py:73, 174): `total_seconds` is a correctly rounded quotient of integers. -/
def timeUnits (r : ℚ → ℚ) (dt unit : ℤ) : ℚ := r (r ((dt : ℚ) / 1000000) / r ((unit : ℚ) / 1000000))

/-- `Motion.evolve_particles` (motion.py:73-74). -/
def evolveBase (r : ℚ → ℚ) (unit dt : ℤ) (p : Particle) : Particle :=
  let t := timeUnits r dt unit
  { p with pos := fun i => r (p.pos i + r (t * p.vel i)) }

/-- `CartesianMotion.evolve_particles` (motion.py:174-179), with the random numbers as an argument. (Simplification: the square is the rounded
product.) -/
def evolve (r : ℚ → ℚ) (axyz sigma : Fin 3 → ℚ) (unit dt : ℤ) (noise : Fin 3 → ℚ) (p : Particle) : Particle :=
  let t := timeUnits r dt unit
  let a := fun i => r (axyz i + r (sigma i * noise i))
  { pos := fun i => r (p.pos i + r (r (t * p.vel i) + r (r (1 / 2 * a i) * r (t * t))))
    vel := fun i => r (p.vel i + r (t * a i)) }

/-- Steps in turn: the time and the random numbers of each. -/
def run (r : ℚ → ℚ) (axyz sigma : Fin 3 → ℚ) (unit : ℤ) (steps : List (ℤ × (Fin 3 → ℚ))) (p : Particle) : Particle :=
  steps.foldl (fun q s => evolve r axyz sigma unit s.1 s.2 q) p

end Glimpse.FloatMotion
