import Verif.Model.FloatResample

/-!
The statistics of particles (track/tracker.py:72-82, 89-105) in floating point: `np.average`, `np.cov` and `np.sqrt` (numpy 1.18) with every
arithmetic operation rounded by `r`. Sums are added in some order (`Summed`). The products of matrices in `np.cov` are computed by BLAS, in some
order and with or without fused multiplications and additions (`Dotted`).
-/
set_option autoImplicit false

namespace Glimpse.FloatStats
open Glimpse Glimpse.FloatResample

/-- `s` is a sum of the products of the pairs in `l`: each product is rounded before it is added, or only the sum is (a fused multiplication and
addition), in some order. -/
inductive Dotted (r : ℚ → ℚ) : List (ℚ × ℚ) → ℚ → Prop
  | one (x y : ℚ) : Dotted r [(x, y)] (r (x * y))
  | fused {l : List (ℚ × ℚ)} {s : ℚ} (x y : ℚ) : Dotted r l s → Dotted r ((x, y) :: l) (r (s + x * y))
  | add {l₁ l₂ : List (ℚ × ℚ)} {s₁ s₂ : ℚ} : Dotted r l₁ s₁ → Dotted r l₂ s₂ → Dotted r (l₁ ++ l₂) (r (s₁ + s₂))
  | perm {l₁ l₂ : List (ℚ × ℚ)} {s : ℚ} : l₁.Perm l₂ → Dotted r l₁ s → Dotted r l₂ s

/-- How numpy adds: weights, weighted values, and products of a row and a column. -/
structure Adds where
  weights : List ℚ → ℚ
  values : List ℚ → ℚ
  dot : List (ℚ × ℚ) → ℚ

/-- Numpy adds in some order. -/
structure InSomeOrder (r : ℚ → ℚ) (a : Adds) : Prop where
  weights : SumsInSomeOrder r a.weights
  values : SumsInSomeOrder r a.values
  dot : ∀ l : List (ℚ × ℚ), l ≠ [] → Dotted r l (a.dot l)

/-- A particle: `x, y, z, vx, vy, vz`. -/
abbrev Particle := Fin 6 → ℚ

/-- Column `k` of the particles. -/
def column (ps : List Particle) (k : Fin 6) : List ℚ := ps.map fun p => p k

/-- The result of `np.average(xs, weights=w)` for weights that do not sum to zero. -/
def meanF (r : ℚ → ℚ) (a : Adds) (xs w : List ℚ) : ℚ := r (a.values ((xs.zip w).map fun p => r (p.1 * p.2)) / a.weights w)

/-- The checks of `np.average` along an axis of `n` values: as many weights, that do not sum to zero. -/
def checkWeights (a : Adds) (n : Nat) (w : List ℚ) : Except Err Unit :=
  if n ≠ w.length then .error .valueError else if a.weights w = 0 then .error .zeroDivision else .ok ()

/-- `Tracker.particle_mean` (tracker.py:72-76). -/
def particleMeanF (r : ℚ → ℚ) (a : Adds) (ps : List Particle) (w : List ℚ) : Except Err (Fin 6 → ℚ) := do
  checkWeights a ps.length w
  .ok fun k => meanF r a (column ps k) w

/-- `np.sqrt`, where `root` is for numbers that are not negative: the others give NaN (`none`). -/
def sqrtF (root : ℚ → ℚ) (v : ℚ) : Option ℚ := if v < 0 then none else some (root v)

/-- The variance of one column about `m` (tracker.py:101-103). -/
def varianceF (r : ℚ → ℚ) (a : Adds) (xs w : List ℚ) (m : ℚ) : ℚ := meanF r a (xs.map fun x => r (r (x - m) * r (x - m))) w

/-- `Tracker.compute_particle_sigma(mean)` (tracker.py:89-105). -/
def particleSigmaF (r : ℚ → ℚ) (root : ℚ → ℚ) (a : Adds) (ps : List Particle) (w : List ℚ) (mean : Option (Fin 6 → ℚ)) :
    Except Err (Fin 6 → Option ℚ) := do
  let mean ← match mean with
    | none => particleMeanF r a ps w
    | some m => .ok m
  checkWeights a ps.length w
  .ok fun k => sqrtF root (varianceF r a (column ps k) w (mean k))

/-- One element of `np.cov`: the deviations of one column, times the weighted deviations of another, times the inverse of the sum of weights. -/
def covF (r : ℚ → ℚ) (a : Adds) (xs ys w : List ℚ) (mx my : ℚ) : ℚ :=
  r (a.dot ((xs.zip (ys.zip w)).map fun p => (r (p.1 - mx), r (r (p.2.1 - my) * p.2.2))) * r (1 / a.weights w))

/-- `Tracker.particle_covariance` (tracker.py:78-82): `np.cov(particles.T, aweights=weights, ddof=0)`. -/
def particleCovarianceF (r : ℚ → ℚ) (a : Adds) (ps : List Particle) (w : List ℚ) : Except Err (Fin 6 → Fin 6 → ℚ) :=
  if ps.length ≠ w.length then .error .other
  else if w.any (fun x => decide (x < 0)) then .error .valueError
  else do
    let m ← particleMeanF r a ps w
    .ok fun i j => covF r a (column ps i) (column ps j) w (m i) (m j)

end Glimpse.FloatStats
