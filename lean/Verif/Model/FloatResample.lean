import Verif.Model.Resample
import Verif.Model.Double

/-!
`Tracker.resample_particles` (track/tracker.py:151-223) in floating point: the functions of `Model/Resample.lean` with every arithmetic
operation rounded by `r` (`Double.rnd` is double precision). The order in which `np.sum` adds depends on numpy's version and the processor:
`Summed` allows every order, and `sum` is any function that adds in some order. `np.cumsum` adds from the left.
-/
set_option autoImplicit false

namespace Glimpse.FloatResample
open Glimpse Glimpse.Resample

/-- `s` is a sum of the numbers in `l`, added two at a time in some order, each addition rounded. -/
inductive Summed (r : ℚ → ℚ) : List ℚ → ℚ → Prop
  | one (x : ℚ) : Summed r [x] x
  | add {l₁ l₂ : List ℚ} {s₁ s₂ : ℚ} : Summed r l₁ s₁ → Summed r l₂ s₂ → Summed r (l₁ ++ l₂) (r (s₁ + s₂))
  | perm {l₁ l₂ : List ℚ} {s : ℚ} : l₁.Perm l₂ → Summed r l₁ s → Summed r l₂ s

/-- `sum` adds in some order. -/
def SumsInSomeOrder (r : ℚ → ℚ) (sum : List ℚ → ℚ) : Prop := ∀ l : List ℚ, l ≠ [] → Summed r l (sum l)

/-- The running sum from `acc`. -/
def cumFrom (r : ℚ → ℚ) (acc : ℚ) : List ℚ → List ℚ
  | [] => []
  | x :: xs => r (acc + x) :: cumFrom r (r (acc + x)) xs

/-- `np.cumsum` (tracker.py:175, 185, 199): the first element is copied. -/
def cumsumF (r : ℚ → ℚ) : List ℚ → List ℚ
  | [] => []
  | x :: xs => x :: cumFrom r x xs

/-- `weights / weights.sum()` (tracker.py:173, 183, 193, 209). -/
def normF (r : ℚ → ℚ) (sum : List ℚ → ℚ) (w : List ℚ) : List ℚ := w.map fun x => r (x / sum w)

/-- `np.cumsum(weights)` of the normalized weights. -/
def cumF (r : ℚ → ℚ) (sum : List ℚ → ℚ) (w : List ℚ) : List ℚ := cumsumF r (normF r sum w)

/-- One position (tracker.py:174, 184): `(k + u) * (1 / n)`. -/
def position (r : ℚ → ℚ) (n k : Nat) (u : ℚ) : ℚ := r (r ((k : ℚ) + u) * r (1 / (n : ℚ)))

/-- `stratified` (tracker.py:179-187). -/
def stratifiedF (r : ℚ → ℚ) (sum : List ℚ → ℚ) (n : Nat) (w : List ℚ) (us : Nat → ℚ) : List Nat :=
  (List.range n).map fun k => searchLeft (cumF r sum w) (position r n k (us k))

/-- `systematic` (tracker.py:169-177): the same with a single random number. -/
def systematicF (r : ℚ → ℚ) (sum : List ℚ → ℚ) (n : Nat) (w : List ℚ) (u : ℚ) : List Nat :=
  stratifiedF r sum n w fun _ => u

/-- The cumulative sum divided by its last element, in `np.random.choice`. -/
def cdfF (r : ℚ → ℚ) (sum : List ℚ → ℚ) (w : List ℚ) : List ℚ :=
  (cumF r sum w).map fun c => r (c / (cumF r sum w).getLastD 1)

/-- One step of the compensated sum in numpy (`kahan_sum` in numpy/random/mtrand.pyx 1.18): the sum and its compensation. -/
def kahanStep (r : ℚ → ℚ) (a : ℚ × ℚ) (x : ℚ) : ℚ × ℚ :=
  let y := r (x - a.2)
  let t := r (a.1 + y)
  (t, r (r (t - a.1) - y))

/-- `kahan_sum` (numpy/random/mtrand.pyx 1.18). -/
def kahan (r : ℚ → ℚ) : List ℚ → ℚ
  | [] => 0
  | x :: xs => (xs.foldl (kahanStep r) (x, 0)).1

/-- The check of `np.random.choice`: no probability is negative, and they sum to 1 up to the square root of `2 ^ -52`. -/
def probabilitiesOk (r : ℚ → ℚ) (p : List ℚ) : Bool := p.all (fun x => decide (0 ≤ x)) && decide (|r (kahan r p - 1)| ≤ 1 / 2 ^ 26)

/-- The draws of `choice` (tracker.py:206-210) from probabilities that pass the check of `np.random.choice`. -/
def choiceF (r : ℚ → ℚ) (sum : List ℚ → ℚ) (n : Nat) (w : List ℚ) (us : Nat → ℚ) : List Nat :=
  (List.range n).map fun k => searchRight (cdfF r sum w) (us k)

/-- `(n * weights).astype(int)` (tracker.py:195). -/
def repetitionsF (r : ℚ → ℚ) (sum : List ℚ → ℚ) (n : Nat) (w : List ℚ) : List Nat :=
  (normF r sum w).map fun x => ⌊r ((n : ℚ) * x)⌋.toNat

/-- `weights - repetitions` (tracker.py:197). -/
def residualsF (r : ℚ → ℚ) (sum : List ℚ → ℚ) (n : Nat) (w : List ℚ) : List ℚ :=
  List.zipWith (fun x (k : Nat) => r (x - (k : ℚ))) (normF r sum w) (repetitionsF r sum n w)

/-- `residuals * (1 / residuals.sum())` (tracker.py:198). -/
def scaleF (r : ℚ → ℚ) (sum : List ℚ → ℚ) (x : List ℚ) : List XR :=
  if sum x = 0 then x.map mulInf else x.map fun v => .fin (r (v * r (1 / sum x)))

/-- Rounding of a finite number. -/
def XR.round (r : ℚ → ℚ) : XR → XR
  | .fin q => .fin (r q)
  | x => x

/-- `np.cumsum` (tracker.py:199). -/
def xcumsumF (r : ℚ → ℚ) (acc : XR) : List XR → List XR
  | [] => []
  | x :: xs => XR.round r (acc.add x) :: xcumsumF r (XR.round r (acc.add x)) xs

/-- `residual` (tracker.py:189-204). -/
def residualF (r : ℚ → ℚ) (sum : List ℚ → ℚ) (n : Nat) (w : List ℚ) (us : Nat → ℚ) : List Nat :=
  let initial := repeatIndexes (repetitionsF r sum n w)
  let keys := (List.range (n - initial.length)).map fun k => XR.fin (us k)
  initial ++ npSearchSorted XR.lt (setLastOne (xcumsumF r (.fin 0) (scaleF r sum (residualsF r sum n w)))) keys

/-- The indexes drawn by each method (tracker.py:212-221). -/
def drawIndexesF (r : ℚ → ℚ) (sum : List ℚ → ℚ) (m : Method) (n : Nat) (w : List ℚ) (us : Nat → ℚ) : Except Err (List Nat) :=
  match m with
  | .systematic => .ok (systematicF r sum n w (us 0))
  | .stratified => .ok (stratifiedF r sum n w us)
  | .residual => .ok (residualF r sum n w us)
  | .choice => if probabilitiesOk r (normF r sum w) then .ok (choiceF r sum n w us) else .error .valueError
  | .other => .error .unboundLocal

/-- `Tracker.resample_particles` (tracker.py:212-223). -/
def resampleParticlesF {P : Type} (r : ℚ → ℚ) (sum : List ℚ → ℚ) (m : Option Method) (dflt : Method) (us : Nat → ℚ) (s : PState P) :
    Except Err (PState P) := do
  let idx ← drawIndexesF r sum (m.getD dflt) s.particles.length s.weights us
  let p ← takeIdx s.particles idx
  let w ← takeIdx s.weights idx
  return ⟨p, w⟩

end Glimpse.FloatResample
