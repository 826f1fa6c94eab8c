import Verif.Model.Motion
import Mathlib.Tactic.Linarith
import Mathlib.Tactic.Ring
import Mathlib.Tactic.FieldSimp
import Mathlib.Tactic.Positivity
import Mathlib.Tactic.LinearCombination

/-!
C38, C39: motion models.
-/
set_option autoImplicit false
set_option linter.unusedSimpArgs false

namespace Glimpse.Motion

/-- No randomness. -/
def noSigma : Triple := ⟨0, 0, 0⟩

private theorem draw_noSigma (m n : Triple) : m.draw noSigma n = m := by
  ext <;> simp [Triple.draw, noSigma]

/-- Time units: a step of `k` units of time is `k`, and steps add up. -/
theorem timeUnits_scale (k unit : ℤ) (h : unit ≠ 0) : timeUnits (k * unit) unit = k := by
  have : (unit : ℝ) ≠ 0 := by exact_mod_cast h
  unfold timeUnits
  push_cast
  field_simp

theorem timeUnits_add (a b unit : ℤ) : timeUnits (a + b) unit = timeUnits a unit + timeUnits b unit := by
  unfold timeUnits
  push_cast
  ring

/-- C38. `evolve_particles` of Cartesian motion advances the position by `v*t + a*t²/2` and the velocity by `a*t`,
with the acceleration drawn for the particle. -/
theorem cartesian_step (axyz sigma : Triple) (t : ℝ) (noise : Triple) (p : Particle) :
    let q := evolveCartesian axyz sigma t noise p
    let a := axyz.a + sigma.a * noise.a
    let b := axyz.b + sigma.b * noise.b
    let c := axyz.c + sigma.c * noise.c
    q.x = p.x + p.vx * t + a * t ^ 2 / 2 ∧ q.y = p.y + p.vy * t + b * t ^ 2 / 2 ∧
      q.z = p.z + p.vz * t + c * t ^ 2 / 2 ∧
      q.vx = p.vx + a * t ∧ q.vy = p.vy + b * t ∧ q.vz = p.vz + c * t := by
  simp only [evolveCartesian, integrate, Triple.draw]
  refine ⟨?_, ?_, ?_, ?_, ?_, ?_⟩ <;> ring

/-- C38. With a constant acceleration (zero or not), evolving by `t1` and then by `t2` is evolving by `t1 + t2`. -/
theorem cartesian_compose (axyz : Triple) (t1 t2 : ℝ) (n1 n2 n3 : Triple) (p : Particle) :
    evolveCartesian axyz noSigma t2 n2 (evolveCartesian axyz noSigma t1 n1 p) =
      evolveCartesian axyz noSigma (t1 + t2) n3 p := by
  simp only [evolveCartesian, draw_noSigma, integrate]
  ext <;> simp only <;> ring

/-- C38. Evolving forward and then backward by the same time is the identity. -/
theorem cartesian_reverse (axyz : Triple) (t : ℝ) (n1 n2 : Triple) (p : Particle) :
    evolveCartesian axyz noSigma (-t) n2 (evolveCartesian axyz noSigma t n1 p) = p := by
  simp only [evolveCartesian, draw_noSigma, integrate]
  ext <;> simp only <;> ring

/-- C38. The same for the minimal `Motion` model: any number of steps is one step by the total time. -/
theorem base_steps (ts : List ℝ) (p : Particle) :
    ts.foldl (fun q t => evolveBase t q) p = evolveBase ts.sum p := by
  induction ts generalizing p with
  | nil => ext <;> simp [evolveBase]
  | cons t ts ih =>
    rw [List.foldl_cons, ih, List.sum_cons]
    ext <;> simp only [evolveBase] <;> ring

/-- C38. Cartesian motion with constant acceleration: any number of steps is one step by the total time. -/
theorem cartesian_steps (axyz : Triple) (ts : List (ℝ × Triple)) (n : Triple) (p : Particle) :
    ts.foldl (fun q tn => evolveCartesian axyz noSigma tn.1 tn.2 q) p =
      evolveCartesian axyz noSigma (ts.map Prod.fst).sum n p := by
  induction ts generalizing p with
  | nil => ext <;> simp [evolveCartesian, integrate]
  | cons t ts ih => 
    rw [List.foldl_cons, ih, List.map_cons, List.sum_cons]
    exact cartesian_compose axyz _ _ _ _ _ p

/-- Horizontal speed. -/
noncomputable def speed (p : Particle) : ℝ := Real.sqrt (p.vx ^ 2 + p.vy ^ 2)

private theorem speed_sq (p : Particle) : speed p ^ 2 = p.vx ^ 2 + p.vy ^ 2 :=
  Real.sq_sqrt (by positivity)

private theorem evolveCyl_moving (arthz sigma : Triple) (t : ℝ) (noise : Triple) (p : Particle) (h : speed p ≠ 0) :
    evolveCylindrical arthz sigma t noise p =
      some (integrate t ⟨(arthz.draw sigma noise).a * (p.vx / speed p) - p.vy * (arthz.draw sigma noise).b,
        (arthz.draw sigma noise).a * (p.vy / speed p) + p.vx * (arthz.draw sigma noise).b,
        (arthz.draw sigma noise).c⟩ p) := by
  have hc : ∀ a b, cylindricalAcc a b p.vx p.vy =
      some (a * (p.vx / speed p) - p.vy * b, a * (p.vy / speed p) + p.vx * b) := by
    intro a b
    unfold cylindricalAcc
    exact if_neg h
  unfold evolveCylindrical
  simp only [hc]

/-- C38. A moving particle with zero cylindrical acceleration moves in a straight line at constant velocity. -/
theorem cylindrical_zero_acceleration (t : ℝ) (noise : Triple) (p : Particle) (h : speed p ≠ 0) :
    evolveCylindrical noSigma noSigma t noise p = some (evolveBase t p) := by
  rw [evolveCyl_moving _ _ _ _ _ h, draw_noSigma]
  simp only [noSigma, integrate, evolveBase]
  congr 1
  ext <;> simp

/-- C38. A radial acceleration changes the speed by `a*t` and keeps the direction (while the speed stays
nonnegative). -/
theorem cylindrical_radial (ar t : ℝ) (noise : Triple) (p : Particle) (h : speed p ≠ 0)
    (hpos : 0 ≤ speed p + ar * t) :
    ∃ q, evolveCylindrical ⟨ar, 0, 0⟩ noSigma t noise p = some q ∧ speed q = speed p + ar * t ∧
      q.vx * speed p = p.vx * speed q ∧ q.vy * speed p = p.vy * speed q := by
  refine ⟨_, evolveCyl_moving _ _ _ _ _ h, ?_⟩
  rw [draw_noSigma]
  have hs := speed_sq p
  have key : speed (integrate t ⟨ar * (p.vx / speed p) - p.vy * 0, ar * (p.vy / speed p) + p.vx * 0, 0⟩ p) =
      speed p + ar * t := by
    unfold speed at *
    generalize hS : Real.sqrt (p.vx ^ 2 + p.vy ^ 2) = S at *
    simp only [integrate]
    have : (p.vx + t * (ar * (p.vx / S) - p.vy * 0)) ^ 2 + (p.vy + t * (ar * (p.vy / S) + p.vx * 0)) ^ 2 =
        (S + ar * t) ^ 2 := by
      have h1 : (p.vx + t * (ar * (p.vx / S) - p.vy * 0)) ^ 2 + (p.vy + t * (ar * (p.vy / S) + p.vx * 0)) ^ 2 =
          (p.vx ^ 2 + p.vy ^ 2) * (1 + t * ar / S) ^ 2 := by ring
      rw [h1, ← hs]
      field_simp
    rw [this, Real.sqrt_sq hpos]
  refine ⟨key, ?_, ?_⟩
  · rw [key]; simp only [integrate]; field_simp; ring
  · rw [key]; simp only [integrate]; field_simp; ring

/-- A pure turn (angular velocity only) does not keep the speed: the steps go along the tangent, and the speed is
multiplied by `sqrt(1 + (w*t)²)`. -/
theorem cylindrical_turn_speed (w t : ℝ) (noise : Triple) (p : Particle) (h : speed p ≠ 0) :
    ∃ q, evolveCylindrical ⟨0, w, 0⟩ noSigma t noise p = some q ∧
      speed q = speed p * Real.sqrt (1 + (w * t) ^ 2) := by
  refine ⟨_, evolveCyl_moving _ _ _ _ _ h, ?_⟩
  rw [draw_noSigma]
  unfold speed
  rw [← Real.sqrt_mul (by positivity)]
  congr 1
  simp only [integrate]
  ring

/-- C38 is violated for a resting particle: with zero acceleration it becomes NaN instead of staying at rest
(`vx / vr` is `0 / 0`), and the tracker then raises for all particles. -/
theorem cylindrical_rest_violated (arthz sigma : Triple) (t : ℝ) (noise : Triple) (p : Particle) (hx : p.vx = 0)
    (hy : p.vy = 0) (ps : List (Option Particle)) :
    evolveCylindrical arthz sigma t noise p = none ∧
      testParticles (ps ++ [evolveCylindrical arthz sigma t noise p]) = .error .valueError := by
  have : evolveCylindrical arthz sigma t noise p = none := by
    simp [evolveCylindrical, cylindricalAcc, hx, hy]
  refine ⟨this, ?_⟩
  rw [this]
  simp [testParticles]

/-- In particular for the default arguments of `CylindricalMotion` (no initial velocity, no noise), at the first
evolution. -/
theorem cylindrical_default_violated (dem demSigma : ℝ → ℝ → ℝ) (xy xySigma : ℝ × ℝ) (n : InitNoise) (t : ℝ)
    (noise : Triple) :
    evolveCylindrical noSigma noSigma t noise (initCylindrical dem demSigma xy xySigma noSigma noSigma n) = none := by
  apply (cylindrical_rest_violated _ _ _ _ _ _ _ []).1 <;>
    simp [initCylindrical, Triple.draw, noSigma]

/-! ### C39 -/

/-- Spec: height of a particle above the DEM. -/
def heightAbove (dem : ℝ → ℝ → ℝ) (p : Particle) : ℝ := p.z - dem p.x p.y

/-- Horizontal distance between two particles. -/
noncomputable def distance (p q : Particle) : ℝ := Real.sqrt ((q.x - p.x) ^ 2 + (q.y - p.y) ^ 2)

/-- C39. One step changes the height above the DEM by the random slope times the horizontal distance moved. -/
theorem tangent_step_height (dem : ℝ → ℝ → ℝ) (slope t ax ay sn : ℝ) (p : Particle) :
    heightAbove dem (evolveTangent dem slope t ax ay sn p) =
      heightAbove dem p + slope * sn * distance p (evolveTangent dem slope t ax ay sn p) := by
  simp only [heightAbove, evolveTangent, distance]
  rw [show p.x + (t * p.vx + 0.5 * ax * t ^ 2) - p.x = t * p.vx + 0.5 * ax * t ^ 2 by ring,
    show p.y + (t * p.vy + 0.5 * ay * t ^ 2) - p.y = t * p.vy + 0.5 * ay * t ^ 2 by ring]
  ring

/-- C39. With zero slope noise, Cartesian tangent motion keeps the height above the DEM through any sequence of
steps, for any DEM, accelerations and random numbers. -/
theorem tangent_cartesian_height (dem : ℝ → ℝ → ℝ) (axy sigma : Triple) (steps : List (ℝ × Triple))
    (p : Particle) :
    heightAbove dem (steps.foldl (fun q s => evolveTangentCartesian dem 0 axy sigma s.1 s.2 q) p) =
      heightAbove dem p := by
  induction steps generalizing p with
  | nil => rfl
  | cons s steps ih =>
    simp only [List.foldl_cons, ih]
    unfold evolveTangentCartesian
    rw [tangent_step_height]; ring

/-- C39. The same for cylindrical tangent motion, as long as the particle does not stop. -/
theorem tangent_cylindrical_height (dem : ℝ → ℝ → ℝ) (arth sigma : Triple) (steps : List (ℝ × Triple))
    (p q : Particle)
    (h : steps.foldlM (fun q s => evolveTangentCylindrical dem 0 arth sigma s.1 s.2 q) p = some q) :
    heightAbove dem q = heightAbove dem p := by
  induction steps generalizing p with
  | nil => cases h; rfl
  | cons s steps ih =>
    rw [List.foldlM_cons] at h
    cases he : evolveTangentCylindrical dem 0 arth sigma s.1 s.2 p with
    | none => rw [he] at h; cases h
    | some p' =>
      rw [he] at h
      rw [ih p' h]
      unfold evolveTangentCylindrical at he
      simp only at he
      cases hc : cylindricalAcc (arth.draw sigma s.2).a (arth.draw sigma s.2).b p.vx p.vy with
      | none => rw [hc] at he; cases he
      | some a =>
        obtain ⟨ax, ay⟩ := a
        rw [hc] at he
        cases he
        rw [tangent_step_height]; ring

/-- C39. Horizontally, tangent motion is Cartesian motion. -/
theorem tangent_horizontal (dem : ℝ → ℝ → ℝ) (slope : ℝ) (axy sigma : Triple) (t : ℝ) (noise : Triple)
    (p : Particle) :
    let q := evolveTangentCartesian dem slope axy sigma t noise p
    let c := evolveCartesian axy sigma t noise p
    q.x = c.x ∧ q.y = c.y ∧ q.vx = c.vx ∧ q.vy = c.vy ∧ q.vz = p.vz := by
  simp [evolveTangentCartesian, evolveTangent, evolveCartesian, integrate]

/-- Particles start at the requested position and velocity (in cylindrical motion the radial speed, in the direction given
counterclockwise from the x axis, and the vertical speed), on the DEM, when there is no uncertainty. -/
theorem initial_exact (dem demSigma : ℝ → ℝ → ℝ) (hd : ∀ x y, demSigma x y = 0) (xy : ℝ × ℝ) (v : Triple)
    (n : InitNoise) :
    initCartesian dem demSigma xy (0, 0) v noSigma n = ⟨xy.1, xy.2, dem xy.1 xy.2, v.a, v.b, v.c⟩ ∧
    initTangent dem demSigma xy (0, 0) v noSigma n = ⟨xy.1, xy.2, dem xy.1 xy.2, v.a, v.b, 0⟩ ∧
    initCylindrical dem demSigma xy (0, 0) v noSigma n =
      ⟨xy.1, xy.2, dem xy.1 xy.2, v.a * Real.cos v.b, v.a * Real.sin v.b, v.c⟩ := by
  simp [initCartesian, initTangent, initCylindrical, draw_noSigma, hd]

/-- Each initial coordinate is off the requested one by the standard deviation times its own draw (the height is off the DEM at the drawn
position, by the standard deviation of the DEM there); velocities likewise, in cylindrical motion in speed and direction. -/
theorem initial_spread (dem demSigma : ℝ → ℝ → ℝ) (xy xySigma : ℝ × ℝ) (v vSigma : Triple) (n : InitNoise) (q : Particle)
    (hq : q = initCartesian dem demSigma xy xySigma v vSigma n ∨ q = initTangent dem demSigma xy xySigma v vSigma n ∨
      q = initCylindrical dem demSigma xy xySigma v vSigma n) :
    q.x - xy.1 = n.px * xySigma.1 ∧ q.y - xy.2 = n.py * xySigma.2 ∧ q.z - dem q.x q.y = n.pz * demSigma q.x q.y ∧
    (q = initCartesian dem demSigma xy xySigma v vSigma n → q.vx - v.a = n.v.a * vSigma.a ∧ q.vy - v.b = n.v.b * vSigma.b ∧ q.vz - v.c = n.v.c * vSigma.c) ∧
    (q = initTangent dem demSigma xy xySigma v vSigma n → q.vx - v.a = n.v.a * vSigma.a ∧ q.vy - v.b = n.v.b * vSigma.b ∧ q.vz = 0) ∧
    (q = initCylindrical dem demSigma xy xySigma v vSigma n →
      q.vx = (v.a + n.v.a * vSigma.a) * Real.cos (v.b + n.v.b * vSigma.b) ∧ q.vy = (v.a + n.v.a * vSigma.a) * Real.sin (v.b + n.v.b * vSigma.b) ∧
      q.vz - v.c = n.v.c * vSigma.c) := by
  refine ⟨?_, ?_, ?_, ?_, ?_, ?_⟩
  · rcases hq with rfl | rfl | rfl <;> simp [initCartesian, initTangent, initCylindrical, mul_comm]
  · rcases hq with rfl | rfl | rfl <;> simp [initCartesian, initTangent, initCylindrical, mul_comm]
  · rcases hq with rfl | rfl | rfl <;> simp [initCartesian, initTangent, initCylindrical, mul_comm]
  · rintro rfl; simp [initCartesian, Triple.draw, mul_comm]
  · rintro rfl; simp [initTangent, Triple.draw, mul_comm]
  · rintro rfl; simp [initCylindrical, Triple.draw, mul_comm]

/-- The initial speed of cylindrical motion is the magnitude of the radial velocity drawn. -/
theorem cylindrical_initial_speed (dem demSigma : ℝ → ℝ → ℝ) (xy xySigma : ℝ × ℝ) (v vSigma : Triple)
    (n : InitNoise) :
    speed (initCylindrical dem demSigma xy xySigma v vSigma n) = |v.a + vSigma.a * n.v.a| := by
  unfold speed
  have : (initCylindrical dem demSigma xy xySigma v vSigma n).vx ^ 2 +
      (initCylindrical dem demSigma xy xySigma v vSigma n).vy ^ 2 = (v.a + vSigma.a * n.v.a) ^ 2 := by
    simp only [initCylindrical, Triple.draw]
    have := Real.sin_sq_add_cos_sq (v.b + vSigma.b * n.v.b)
    linear_combination (v.a + vSigma.a * n.v.a) ^ 2 * this
  rw [this, Real.sqrt_sq_eq_abs]

/-- The log likelihood is never negative, and zero exactly on the DEM (where its uncertainty is not zero): closer
particles are more likely. -/
theorem logLikelihood_spec (dem demSigma : ℝ → ℝ → ℝ) (p q : Particle) (hxy : q.x = p.x ∧ q.y = p.y)
    (hs : demSigma p.x p.y ≠ 0) :
    0 ≤ logLikelihood dem demSigma p ∧ (logLikelihood dem demSigma p = 0 ↔ heightAbove dem p = 0) ∧
      (logLikelihood dem demSigma p ≤ logLikelihood dem demSigma q ↔ |heightAbove dem p| ≤ |heightAbove dem q|) := by
  have hpos : 0 < 1 / (2 * demSigma p.x p.y ^ 2) := by positivity
  simp only [logLikelihood, hxy.1, hxy.2, hs, if_false, heightAbove]
  refine ⟨by positivity, ?_, ?_⟩
  · rw [mul_eq_zero]
    constructor
    · rintro (h | h)
      · exact absurd h hpos.ne'
      · have := pow_eq_zero_iff (two_ne_zero) |>.mp h; linarith
    · intro h; right
      rw [show dem p.x p.y - p.z = -(p.z - dem p.x p.y) by ring, h]; ring
  · rw [mul_le_mul_iff_right₀ hpos, sq_le_sq, abs_sub_comm, abs_sub_comm (dem p.x p.y)]

/-- Non-vacuity: a moving particle. -/
example : speed ⟨0, 0, 0, 3, 4, 0⟩ ≠ 0 := by
  have : speed ⟨0, 0, 0, 3, 4, 0⟩ ^ 2 = 25 := by rw [speed_sq]; norm_num
  intro h; rw [h] at this; norm_num at this

end Glimpse.Motion
