import Verif.Model.FloatResample

/-!
Model of `Tracker.update_weights` (src/glimpse/track/tracker.py:126-149) and of the normalization of weights when resampling (173, 183, 193, 209) in
IEEE 754 double precision with all its special cases: overflow to infinity, underflow to subnormal numbers and zero, infinities and NaN (`Double.rnd`
has no bounds for the exponent). The sign of zero is left out: dividing by zero gives the infinity of the sign of the dividend.
-/
set_option autoImplicit false

namespace Glimpse.FloatWeights
open Glimpse Glimpse.Double

/-- Distance between the doubles around `x`: not below `2 ^ -1074`. -/
def ulp64 (x : ℚ) : ℚ := Max.max (ulp x) ((2 : ℚ) ^ (-1074 : ℤ))

/-- Rounding to the nearest double (ties to even), with gradual underflow. -/
def rnd64 (x : ℚ) : ℚ := if x = 0 then 0 else halfEven (x / ulp64 x) * ulp64 x

/-- A floating point number. -/
inductive F64 where
  | fin (x : ℚ)
  | inf
  | ninf
  | nan
deriving DecidableEq

/-- What is rounded to `2 ^ 1024` or beyond overflows. -/
def overflow : ℚ := (2 : ℚ) ^ (1024 : ℤ)

/-- The floating point number nearest to a number: infinite from `2 ^ 1024` on. -/
def toF64 (x : ℚ) : F64 := if overflow ≤ rnd64 x then .inf else if rnd64 x ≤ -overflow then .ninf else .fin (rnd64 x)

/-- Addition. -/
def add : F64 → F64 → F64
  | .nan, _ => .nan
  | _, .nan => .nan
  | .fin x, .fin y => toF64 (x + y)
  | .inf, .ninf => .nan
  | .ninf, .inf => .nan
  | .inf, _ => .inf
  | _, .inf => .inf
  | .ninf, _ => .ninf
  | _, .ninf => .ninf

/-- Negation. -/
def neg : F64 → F64
  | .fin x => .fin (-x)
  | .inf => .ninf
  | .ninf => .inf
  | .nan => .nan

/-- Division. -/
def div : F64 → F64 → F64
  | .nan, _ => .nan
  | _, .nan => .nan
  | .fin x, .fin y => if y = 0 then (if x = 0 then .nan else if 0 < x then .inf else .ninf) else toF64 (x / y)
  | .fin _, _ => .fin 0
  | .inf, .fin y => if y < 0 then .ninf else .inf
  | .ninf, .fin y => if y < 0 then .inf else .ninf
  | _, _ => .nan

/-- `1e-300`. -/
def floor300 : ℚ := rnd64 (1 / 10 ^ 300)

/-- Python's `sum` of the log likelihoods of one particle: from 0, left to right (148). -/
def total (l : List F64) : F64 := l.foldl add (.fin 0)

/-- The weight of one particle (148-149); `exp` is `np.exp`. -/
def weight (exp : F64 → F64) (l : List F64) : F64 := add (exp (neg (total l))) (.fin floor300)

/-- `update_weights` (139-149), given what each observer and the motion model return: the log likelihoods of the `n` particles, or None. -/
def updateWeights (exp : F64 → F64) (n : Nat) (lls : List (Option (Nat → F64))) (weights : List F64) : List F64 :=
  let some_ := lls.filterMap id
  if some_ = [] then weights else (List.range n).map fun i => weight exp (some_.map fun f => f i)

/-- `s` is a sum of the numbers in `l`, added two at a time in some order. -/
inductive Summed64 : List F64 → F64 → Prop
  | one (x : F64) : Summed64 [x] x
  | add {l₁ l₂ : List F64} {s₁ s₂ : F64} : Summed64 l₁ s₁ → Summed64 l₂ s₂ → Summed64 (l₁ ++ l₂) (add s₁ s₂)
  | perm {l₁ l₂ : List F64} {s : F64} : l₁.Perm l₂ → Summed64 l₁ s → Summed64 l₂ s

/-- `weights / weights.sum()` (173, 183, 193, 209), for a sum in some order. -/
def normalize (w : List F64) (sum : F64) : List F64 := w.map fun x => div x sum

end Glimpse.FloatWeights
