import Verif.Model.Basic
import Mathlib.Data.Real.Sqrt
import Mathlib.Algebra.BigOperators.Fin
import Mathlib.Algebra.BigOperators.Group.List.Lemmas

/-!
Model of the statistics of particles (track/tracker.py:72-82, 89-105), of how the results of all tracks are put together
(track/tracker.py:347-366, 385-418) and of what `Tracks` makes of them (track/tracks.py:52-116).

Numbers are real. Times of a track at which nothing is recorded (rows of NaN, tracker.py:303-310) are `none`.
-/
set_option autoImplicit false

namespace Glimpse.TracksStats

/-- A particle: `x, y, z, vx, vy, vz`. -/
abbrev Particle := Fin 6 → ℝ

/-- Column `k` of the particles. -/
def column (ps : List Particle) (k : Fin 6) : List ℝ := ps.map fun p => p k

/-- `np.average(values, weights=weights)` along an axis (numpy 1.18): a different number of weights raises ValueError, weights
that sum to zero raise ZeroDivisionError. -/
noncomputable def average (xs w : List ℝ) : Except Err ℝ := by
  classical
  exact if xs.length ≠ w.length then .error .valueError
    else if w.sum = 0 then .error .zeroDivision
    else .ok ((List.zipWith (· * ·) xs w).sum / w.sum)

/-- The weighted mean, where it is defined. -/
noncomputable def meanOf (xs w : List ℝ) : ℝ := (List.zipWith (· * ·) xs w).sum / w.sum

/-- `Tracker.particle_mean` (tracker.py:72-76). -/
noncomputable def particleMean (ps : List Particle) (w : List ℝ) : Except Err (Fin 6 → ℝ) := do
  let _ ← average (column ps 0) w
  .ok fun k => meanOf (column ps k) w

/-- `Tracker.compute_particle_sigma(mean)` (tracker.py:89-105). -/
noncomputable def particleSigma (ps : List Particle) (w : List ℝ) (mean : Option (Fin 6 → ℝ)) : Except Err (Fin 6 → ℝ) := do
  let mean ← match mean with
    | none => particleMean ps w
    | some m => .ok m
  let _ ← average (column ps 0) w
  .ok fun k => Real.sqrt (meanOf ((column ps k).map fun x => (x - mean k) ^ 2) w)

/-- `Tracker.particle_covariance` (tracker.py:78-82): `np.cov(particles.T, aweights=weights, ddof=0)` (numpy 1.18): a
different number of weights raises RuntimeError, negative weights raise ValueError; the sums are divided by the sum of the weights. -/
noncomputable def particleCovariance (ps : List Particle) (w : List ℝ) : Except Err (Fin 6 → Fin 6 → ℝ) := by
  classical
  exact if ps.length ≠ w.length then .error .other
    else if ∃ x ∈ w, x < 0 then .error .valueError
    else do
      let mean ← particleMean ps w
      .ok fun a b =>
        (List.zipWith (· * ·) ((column ps a).map fun x => x - mean a)
          (List.zipWith (· * ·) ((column ps b).map fun x => x - mean b) w)).sum * (1 / w.sum)

/-- What one track records at one time (tracker.py:347-354). -/
inductive Spread
  | sigma (s : Fin 6 → ℝ)
  | covariance (c : Fin 6 → Fin 6 → ℝ)

/-- The spread at one time (tracker.py:349-352), given the mean just recorded. -/
noncomputable def spread (returnCovariances : Bool) (ps : List Particle) (w : List ℝ) (mean : Fin 6 → ℝ) : Except Err Spread :=
  if returnCovariances then do
    let c ← particleCovariance ps w
    .ok (.covariance c)
  else do
    let s ← particleSigma ps w (some mean)
    .ok (.sigma s)

/-- Mean and spread at one time (tracker.py:348-352). -/
noncomputable def record (returnCovariances : Bool) (ps : List Particle) (w : List ℝ) : Except Err ((Fin 6 → ℝ) × Spread) := do
  let m ← particleMean ps w
  let s ← spread returnCovariances ps w m
  .ok (m, s)

/-- The results of one track (tracker.py:362-367): means and spreads, one row for each time, with or without all particles and
weights (of the motion model's number of particles). -/
structure Result where
  rows : List (Option ((Fin 6 → ℝ) × Spread))
  particles : Option (List (List Particle))

/-- Number of times and of particles of an array (of particles of one track, tracker.py:309). -/
def shapeOf (n : Nat) (r : Result) : Nat × Nat := (r.rows.length, n)

/-- `np.stack` of arrays of the given shapes (tracks.py:69-82): raises if there are none, or of different shapes. -/
def stack {α : Type} [DecidableEq α] (shapes : List α) : Except Err Unit :=
  match shapes with
  | [] => .error .valueError
  | s :: rest => if rest.all (fun t => t = s) then .ok () else .error .valueError

/-- The tracks returned. -/
structure Tracks where
  means : List (List (Option (Fin 6 → ℝ)))
  sigmas : Option (List (List (Option (Fin 6 → ℝ))))
  covariances : Option (List (List (Option (Fin 6 → Fin 6 → ℝ))))

/-- Standard deviations among what was recorded. -/
def asSigma : Spread → Option (Fin 6 → ℝ)
  | .sigma s => some s
  | .covariance _ => none
/-- Covariances among what was recorded. -/
def asCovariance : Spread → Option (Fin 6 → Fin 6 → ℝ)
  | .sigma _ => none
  | .covariance c => some c

/-- The end of `Tracker.track` (tracker.py:385-416) and `Tracks.__init__` (tracks.py:67-88). `ns` are the numbers of particles of
the motion models. -/
def assemble (returnCovariances returnParticles reduce : Bool) (ns : List Nat) (rs : List Result) : Except Err Tracks := do
  stack (rs.map fun r => r.rows.length)
  stack (rs.map fun r => r.rows.length)
  if (returnParticles || reduce) && !reduce then do
    stack (List.zipWith shapeOf ns rs)
  let rows := rs.map fun r => r.rows
  .ok {
    means := rows.map fun r => r.map fun x => x.map fun y => y.1
    sigmas := if returnCovariances then none else some (rows.map fun r => r.map fun x => x.bind fun y => asSigma y.2)
    covariances := if returnCovariances then some (rows.map fun r => r.map fun x => x.bind fun y => asCovariance y.2) else none }

/-- `Tracks.xyz` and `Tracks.vxyz` (tracks.py:90-98): components `off` to `off + 2`. -/
def Tracks.mean3 (t : Tracks) (off : Fin 3 → Fin 6) : List (List (Option (Fin 3 → ℝ))) :=
  t.means.map fun r => r.map fun x => x.map fun m => fun i => m (off i)

/-- Columns of positions. -/
def xyzCols : Fin 3 → Fin 6 := ![0, 1, 2]
/-- Columns of velocities. -/
def vxyzCols : Fin 3 → Fin 6 := ![3, 4, 5]

/-- `Tracks.xyz_sigma` and `Tracks.vxyz_sigma` (tracks.py:100-114): of the standard deviations, or of the square roots of the diagonal
of the covariances; else `None`. -/
noncomputable def Tracks.sigma3 (t : Tracks) (off : Fin 3 → Fin 6) : Option (List (List (Option (Fin 3 → ℝ)))) :=
  match t.sigmas with
  | some s => some (s.map fun r => r.map fun x => x.map fun m => fun i => m (off i))
  | none => match t.covariances with
    | some c => some (c.map fun r => r.map fun x => x.map fun m => fun i => Real.sqrt (m (off i) (off i)))
    | none => none

end Glimpse.TracksStats
