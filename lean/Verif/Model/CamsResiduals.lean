import Verif.Model.CamsFit
import Verif.Model.Ransac
import Mathlib.Data.Real.Sqrt

/-!
Model of `optimize.Cameras`: `size`, `observed`, `predicted`, `residuals`, `errors` (src/glimpse/optimize.py:1702-1778) and
of the arguments `fit` gives to the optimizer, also in the iterations before the final run (1817-1868).
-/
set_option autoImplicit false

namespace Glimpse.Cams

variable {V W E : Type} [Field E]

/-! ### Residuals -/

/-- An `index` argument: `slice(None)`, integers or booleans. -/
inductive Idx where
  | all
  | ints (l : List ℤ)
  | mask (l : List Bool)
deriving DecidableEq

/-- `array[i]` along the first axis (numpy): IndexError outside. -/
def pickOne {γ : Type} (l : List γ) (i : ℤ) : Except Err γ :=
  match (resolveIn l.length i).bind fun k => l[k]? with
  | some x => .ok x
  | none => .error .indexError

/-- `array[index]` along the first axis (numpy): IndexError outside, or for a mask of another length. -/
def pick {γ : Type} (l : List γ) : Idx → Except Err (List γ)
  | .all => .ok l
  | .ints is => is.mapM (pickOne l)
  | .mask m => if m.length = l.length then .ok (((l.zip m).filter fun x => x.2).map Prod.fst) else .error .indexError

/-- A control, as `Cameras` uses it (108-143, 354-375, 534-589): observed image coordinates, and for each of them what its
prediction is computed from. With the cameras `V`, `predicted` first tests these, which may raise, and then computes each
row from its own source (`Points`, `Matches`; for `Lines` the source is the observed point, 370-375). -/
structure Ctl (V W E : Type) where
  obs : List (E × E)
  src : List W
  proj : V → Except Err (W → E × E)

/-- `control.observed(index)` (116-123, 563-572). -/
def Ctl.observed (c : Ctl V W E) (index : Idx) : Except Err (List (E × E)) := pick c.obs index

/-- `control.predicted(index)` (131-143, 354-375, 574-589). -/
def Ctl.predicted (c : Ctl V W E) (v : V) (index : Idx) : Except Err (List (E × E)) := do
  let f ← c.proj v
  let s ← pick c.src index
  .ok (s.map f)

/-- `Cameras.size` (1702-1705). -/
def sizeOf_ (cs : List (Ctl V W E)) : Nat := (cs.map fun c => c.obs.length).sum

/-- `Cameras.observed` (1707-1718). Stacking no arrays raises. -/
def observed (cs : List (Ctl V W E)) (index : Idx) : Except Err (List (E × E)) :=
  match cs with
  | [] => .error .valueError
  | [c] => c.observed index
  | cs => do
    let rows ← cs.mapM fun c => c.observed .all
    pick rows.flatten index

/-- `Cameras.predicted` (1720-1745) once the cameras are set (see `Layout.predicted` for setting and restoring them). -/
def predictedAt (cs : List (Ctl V W E)) (v : V) (index : Idx) : Except Err (List (E × E)) :=
  match cs with
  | [] => .error .valueError
  | [c] => c.predicted v index
  | cs => do
    let rows ← cs.mapM fun c => c.predicted v .all
    pick rows.flatten index

/-- `d * w` of shapes (n, 2) and (m, 1) (1763), with numpy's broadcasting. -/
def scaleRows (d : List (E × E)) (w : List E) : Except Err (List (E × E)) :=
  if w.length = d.length then .ok (List.zipWith (fun (x : E × E) (a : E) => (x.1 * a, x.2 * a)) d w)
  else match w, d with
    | [a], d => .ok (d.map fun (x : E × E) => (x.1 * a, x.2 * a))
    | w, [x] => .ok (w.map fun a => (x.1 * a, x.2 * a))
    | _, _ => .error .valueError

/-- `Cameras.residuals` (1747-1763). (The two arrays have the same number of rows, as the controls test.) -/
def residuals (cs : List (Ctl V W E)) (weights : Option (List E)) (v : V) (index : Idx) : Except Err (List (E × E)) := do
  let p ← predictedAt cs v index
  let o ← observed cs index
  let d := List.zipWith (fun (a b : E × E) => (a.1 - b.1, a.2 - b.2)) p o
  match weights with
  | none => .ok d
  | some w => do
    let w ← pick w index
    scaleRows d w

/-- `Cameras.errors` (1765-1778). -/
noncomputable def errors (cs : List (Ctl V W ℝ)) (weights : Option (List ℝ)) (v : V) (index : Idx) : Except Err (List ℝ) := do
  let r ← residuals cs weights v index
  .ok (r.map fun x => Real.sqrt (x.1 ^ 2 + x.2 ^ 2))

/-! ### Arguments of the optimizer -/

/-- Optional arguments of `fit` passed on to `lmfit.minimize` (1817-1831), of which three are set by `fit`. The sparsity
matrix by its rows. -/
structure Kw (E : Type) where
  diag : Option (List E) := none
  xScale : Option (List E) := none
  jac : Option (List (List Bool)) := none
deriving DecidableEq

/-- The method of the optimizer. -/
inductive Method where
  | leastsq
  | leastSquares
  | other
deriving DecidableEq

/-- The part of a model that `fit` uses for its arguments: number of parameters, `scales` and `sparsity` (None if not
wanted, 1212-1219). -/
structure FitModel (E : Type) where
  nparams : Nat
  scales : Option (List E)
  sparsity : Option (List (List Bool))

/-- `x if x is not None` for an argument that is not given by the caller (1819-1824). -/
def orOwn {γ : Type} (given own : Option γ) : Option γ := match given with
  | some g => some g
  | none => own

/-- The rows of the sparsity matrix chosen for an index (1826-1831): `2 * i` and `2 * i + 1` for each integer `i`; booleans
are multiplied as the integers 0 and 1. -/
def jacIndex : Idx → Idx
  | .all => .all
  | .ints l => .ints (l.flatMap fun i => [2 * i, 2 * i + 1])
  | .mask m => .ints (m.flatMap fun (b : Bool) => if b then [2, 3] else [0, 1])

/-- The sparsity matrix given to the optimizer, if the caller does not give one (1823-1831). -/
def jacFor (m : FitModel E) (index : Idx) (given : Option (List (List Bool))) : Except Err (Option (List (List Bool))) :=
  match given with
  | some g => .ok (some g)
  | none => match m.sparsity with
    | none => .ok none
    | some s => (pick s (jacIndex index)).map some

/-- The arguments given to the optimizer (1817-1831). -/
def fitKw (m : FitModel E) (method : Method) (index : Idx) (kw : Kw E) : Except Err (Kw E) :=
  match method with
  | .leastsq => .ok { kw with diag := orOwn kw.diag m.scales }
  | .leastSquares => (jacFor m index kw.jac).map fun j => { kw with xScale := orOwn kw.xScale m.scales, jac := j }
  | .other => .ok kw

/-- The arguments in the iterations before the final run (1848-1855): `model.fit(..., **kwargs)`, with `kwargs` to which
the model itself has already added its own (1820-1831). -/
def iterKw (outer inner : FitModel E) (method : Method) (index : Idx) (kw : Kw E) : Except Err (Kw E) := do
  let kw ← fitKw outer method index kw
  fitKw inner method index kw

/-- What `scipy.optimize.least_squares` requires of its arguments, else it raises ValueError: one scale for each parameter,
and a sparsity matrix with a row for each residual and a column for each parameter. -/
def Accepts (nparams nres : Nat) (kw : Kw E) : Prop :=
  (∀ s, kw.xScale = some s → s.length = nparams) ∧
  (∀ j, kw.jac = some j → j.length = nres ∧ ∀ r ∈ j, r.length = nparams)

end Glimpse.Cams
