import Verif.Model.Basic
import Mathlib.Data.Finset.Basic
import Mathlib.Data.Nat.Choose.Basic
import Mathlib.Algebra.Order.Field.Basic
import Mathlib.Algebra.Order.Ring.Int

/-!
Model of `optimize.ransac` and `optimize._ransac_samples` (src/glimpse/optimize.py:2090-2187).
-/
set_option autoImplicit false

namespace Glimpse.Ransac

/-! ### Samples -/

/-- The number of iterations (optimize.py:2172-2180). `cap` is `floor(exp(log))`, which for exact arithmetic is the
number of combinations; `log` is zero (and then `iterations` stays) exactly if that number is 1. (Simplification: the
test is done on the exact number.) -/
def target (n size iterations cap : Nat) : Nat :=
  if size.choose n = 1 then iterations else min iterations cap

/-- One turn of the `while` loop (2183-2187) after `np.random.shuffle(indices)` gave `draw`: the samples so far. -/
def sampleStep (n goal : Nat) (seen : List (Finset Nat)) (draw : List Nat) : List (Finset Nat) :=
  if seen.length < goal then
    if (draw.take n).toFinset ∈ seen then seen else seen ++ [(draw.take n).toFinset]
  else seen

/-- `_ransac_samples` (2152-2187): the samples yielded during the given sequence of shuffles. -/
def samples (n size iterations cap : Nat) (draws : List (List Nat)) : Except Err (List (Finset Nat)) :=
  if size ≤ n then .error .valueError
  else .ok (draws.foldl (sampleStep n (target n size iterations cap)) [])

/-! ### ransac -/

/-- The `model` argument: `size`, `fit(index)`, which can raise or return None, and the error of a member for given
parameters, `errors(params, index)` being the list of those (2108-2114). -/
structure Fitter (P E : Type) where
  size : Nat
  fit : List Nat → Except Err (Option P)
  err : P → Nat → E

variable {P E : Type} [Field E] [LinearOrder E]

/-- `np.mean`; none is `nan`. -/
def mean (l : List E) : Option E := if l = [] then none else some (l.sum / l.length)

/-- `np.delete(full, maybe_idx)` (2128). -/
def others (size : Nat) (idx : List Nat) : List Nat := (List.range size).filter fun i => decide (i ∉ idx)

/-- `also_idx` (2128-2130). -/
def also (M : Fitter P E) (maxError : E) (p : P) (idx : List Nat) : List Nat :=
  (others M.size idx).filter fun i => decide (M.err p i < maxError)

/-- `this_err < err`, where `err` is infinite at first (none); false for nan. -/
def better (this : Option E) (best : Option (P × E)) : Option E :=
  match this, best with
  | none, _ => none
  | some e, none => some e
  | some e, some (_, b) => if e < b then some e else none

/-- The second fit and the comparison (2132-2141). -/
def refit (M : Fitter P E) (best : Option (P × E)) (idx : List Nat) : Except Err (Option (P × E)) := do
  match ← M.fit idx with
  | none => .ok best
  | some p =>
    match better (mean (idx.map (M.err p))) best with
    | none => .ok best
    | some e => .ok (some (p, e))

/-- The body of the loop (2123-2141): best parameters and their error. -/
def ransacStep (M : Fitter P E) (maxError : E) (minInliers : ℤ) (best : Option (P × E)) (idx : List Nat) :
    Except Err (Option (P × E)) := do
  match ← M.fit idx with
  | none => .ok best
  | some p =>
    if minInliers < ((also M maxError p idx).length : ℤ) then refit M best (idx ++ also M maxError p idx)
    else .ok best

/-- `ransac` (2090-2149). `enum` is the order in which `list(sample)` gives the members of a set (2186). -/
def ransac (M : Fitter P E) (n : Nat) (maxError : E) (minInliers : ℤ) (iterations cap : Nat)
    (enum : Finset Nat → List Nat) (draws : List (List Nat)) : Except Err (P × List Nat) := do
  let ss ← samples n M.size iterations cap draws
  match ← ss.foldlM (fun best s => ransacStep M maxError minInliers best (enum s)) none with
  | none => .error .valueError
  | some (p, _) => .ok (p, (List.range M.size).filter fun i => decide (M.err p i ≤ maxError))

end Glimpse.Ransac
