import Verif.Model.Basic
import Verif.Model.Search
import Verif.Model.Cdf
import Mathlib.Algebra.Order.Floor.Defs
import Mathlib.Data.Rat.Floor

/-!
Model of `Tracker.resample_particles` (track/tracker.py:151-223).

Numbers are rationals: floating point rounding is not modelled. The random numbers are parameters of the model
(`np.random.random` returns numbers in `[0, 1)`), so that the theorems quantify over every random draw.
-/
set_option autoImplicit false

namespace Glimpse.Resample

/-- `weights / weights.sum()` (tracker.py:173, 183, 193, 209). -/
def normWeights (w : List ℚ) : List ℚ := w.map (· / w.sum)

/-- Positions of systematic resampling (tracker.py:174): `(np.arange(n) + np.random.random()) * (1 / n)`, with
the single random number `u`. -/
def systematicPositions (n : Nat) (u : ℚ) : List ℚ :=
  (List.range n).map fun (k : Nat) => ((k : ℚ) + u) * (1 / (n : ℚ))

/-- `systematic` (tracker.py:169-177). -/
def systematic (n : Nat) (w : List ℚ) (u : ℚ) : List Nat :=
  (systematicPositions n u).map (searchLeft (cumsum 0 (normWeights w)))

/-- Positions of stratified resampling (tracker.py:184): `(np.arange(n) + np.random.random(n)) * (1 / n)`, with
the random numbers `us 0, us 1, ...`. -/
def stratifiedPositions (n : Nat) (us : Nat → ℚ) : List ℚ :=
  (List.range n).map fun (k : Nat) => ((k : ℚ) + us k) * (1 / (n : ℚ))

/-- `stratified` (tracker.py:179-187). -/
def stratified (n : Nat) (w : List ℚ) (us : Nat → ℚ) : List Nat :=
  (stratifiedPositions n us).map (searchLeft (cumsum 0 (normWeights w)))

/-- `choice` (tracker.py:206-210): `np.random.choice(np.arange(n), size=(n,), replace=True, p=weights)`, which
numpy computes as `cdf.searchsorted(np.random.random(n), side="right")` for the cumulative sum `cdf` divided by
its last element. -/
def choice (n : Nat) (w : List ℚ) (us : Nat → ℚ) : List Nat :=
  let cdf := cumsum 0 (normWeights w)
  let cdf := cdf.map (· / cdf.getLastD 1)
  (List.range n).map fun k => searchRight cdf (us k)

/-- The loop of numpy's binary search (`npy_binsearch`, side="left"), on an array that need not be sorted:
`while (min < max) { mid = min + (max - min) / 2; if (a[mid] < key) min = mid + 1 else max = mid }`. -/
def binLoop {α : Type} (lt : α → α → Bool) (a : List α) (key : α) (lo hi : Nat) : Nat :=
  if h : lo < hi then
    let mid := lo + (hi - lo) / 2
    match a[mid]? with
    | some v => if lt v key then binLoop lt a key (mid + 1) hi else binLoop lt a key lo mid
    | none => lo
  else lo
termination_by hi - lo
decreasing_by all_goals omega

/-- `np.searchsorted(a, keys)` as numpy computes it (`npy_binsearch`), for any array: the bounds of one search
are kept for the next one, and only one of them is reset, depending on how the key compares with the last one
(`last`; initially the first key itself). `prev` is the result of the last search (`min_idx = max_idx`). -/
def binSearchKeys {α : Type} (lt : α → α → Bool) (a : List α) :
    Option α → Nat × Nat → List α → List Nat
  | _, _, [] => []
  | last, (lo, hi), key :: keys =>
    let up := match last with
      | some l => lt l key
      | none => lt key key
    let b := if up then (lo, a.length) else (0, if hi < a.length then hi + 1 else a.length)
    let i := binLoop lt a key b.1 b.2
    i :: binSearchKeys lt a (some key) (i, i) keys

/-- `np.searchsorted(a, keys)`, starting from `min_idx = 0`, `max_idx = len(a)`. -/
def npSearchSorted {α : Type} (lt : α → α → Bool) (a : List α) (keys : List α) : List Nat :=
  binSearchKeys lt a none (0, a.length) keys

/-- `(n * weights).astype(int)` for normalized weights (tracker.py:195); the weights are not negative, so
truncation is rounding down. -/
def repetitions (n : Nat) (w : List ℚ) : List Nat :=
  (normWeights w).map fun x => ⌊(n : ℚ) * x⌋.toNat

/-- `np.repeat(np.arange(n), repetitions)` (tracker.py:196), for as many repetitions as particles. -/
def repeatIndexes (reps : List Nat) : List Nat :=
  reps.zipIdx.flatMap fun ri => List.replicate ri.1 ri.2

/-- `weights - repetitions` (tracker.py:197). -/
def residuals (n : Nat) (w : List ℚ) : List ℚ :=
  List.zipWith (fun x (r : Nat) => x - (r : ℚ)) (normWeights w) (repetitions n w)

/-- A floating point number: finite, or one of the special values that appear after a division by zero. -/
inductive XR | fin (q : ℚ) | pinf | ninf | nan
  deriving DecidableEq

/-- Comparison as used by `np.searchsorted`: NaN is larger than everything else. -/
def XR.lt : XR → XR → Bool
  | .nan, _ => false
  | _, .nan => true
  | .pinf, _ => false
  | _, .pinf => true
  | _, .ninf => false
  | .ninf, _ => true
  | .fin a, .fin b => decide (a < b)

/-- Floating point addition. -/
def XR.add : XR → XR → XR
  | .fin a, .fin b => .fin (a + b)
  | .nan, _ => .nan
  | _, .nan => .nan
  | .pinf, .ninf => .nan
  | .ninf, .pinf => .nan
  | .pinf, _ => .pinf
  | _, .pinf => .pinf
  | .ninf, _ => .ninf
  | _, .ninf => .ninf

/-- `x * inf` for a finite number `x`. -/
def mulInf (x : ℚ) : XR := if x = 0 then .nan else if 0 < x then .pinf else .ninf

/-- `residuals * (1 / residuals.sum())` (tracker.py:198): numpy divides by zero without an exception. -/
def scaleResiduals (r : List ℚ) : List XR :=
  if r.sum = 0 then r.map mulInf else r.map fun x => .fin (x * (1 / r.sum))

/-- `np.cumsum` (tracker.py:199). -/
def xcumsum (acc : XR) : List XR → List XR
  | [] => []
  | x :: xs => acc.add x :: xcumsum (acc.add x) xs

/-- `cumulative_sum[-1] = 1.0` (tracker.py:200); on an empty array (no particles) numpy raises, which is not
modelled. -/
def setLastOne (c : List XR) : List XR := c.dropLast ++ [.fin 1]

/-- `cumulative_sum` (tracker.py:197-200). -/
def residualCumsum (n : Nat) (w : List ℚ) : List XR :=
  setLastOne (xcumsum (.fin 0) (scaleResiduals (residuals n w)))

/-- `residual` (tracker.py:189-204). `us` are the random numbers; `n - len(initial_indexes)` are drawn. -/
def residual (n : Nat) (w : List ℚ) (us : Nat → ℚ) : List Nat :=
  let initial := repeatIndexes (repetitions n w)
  let keys := (List.range (n - initial.length)).map fun k => XR.fin (us k)
  initial ++ npSearchSorted XR.lt (residualCumsum n w) keys

/-- The `method` argument. -/
inductive Method | systematic | stratified | residual | choice | other
  deriving DecidableEq

/-- The indexes drawn by each method (tracker.py:212-221). Any other method name leaves `indexes` unbound
(UnboundLocalError). `us` supplies the random numbers; systematic uses only the first. -/
def drawIndexes (m : Method) (n : Nat) (w : List ℚ) (us : Nat → ℚ) :
    Except Err (List Nat) :=
  match m with
  | .systematic => .ok (systematic n w (us 0))
  | .stratified => .ok (stratified n w us)
  | .residual => .ok (residual n w us)
  | .choice => .ok (choice n w us)
  | .other => .error .unboundLocal

/-- `x[indexes]` for an array of indexes. -/
def takeIdx {α : Type} (x : List α) (idx : List Nat) : Except Err (List α) :=
  idx.mapM fun i => match x[i]? with
    | some a => .ok a
    | none => .error .indexError

/-- The particles and weights of a `Tracker`. A particle is a row of any type. -/
structure PState (P : Type) where
  particles : List P
  weights : List ℚ

/-- `Tracker.resample_particles` (tracker.py:212-223): `m` is the `method` argument (`None` is `none`), `dflt` the
tracker's `resample_method`. -/
def resampleParticles {P : Type} (m : Option Method) (dflt : Method)
    (us : Nat → ℚ) (s : PState P) : Except Err (PState P) := do
  let idx ← drawIndexes (m.getD dflt) s.particles.length s.weights us
  let p ← takeIdx s.particles idx
  let w ← takeIdx s.weights idx
  return ⟨p, w⟩

end Glimpse.Resample

namespace Glimpse.Resample

/-- One column of `Tracker.particle_mean` (tracker.py:72-76): `np.average(column, weights=weights)`. -/
def particleMean (col w : List ℚ) : ℚ := (List.zipWith (· * ·) col w).sum / w.sum

end Glimpse.Resample
