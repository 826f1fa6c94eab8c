import Verif.Model.CamsTest
import Mathlib.Analysis.SpecialFunctions.Pow.Real
import Mathlib.Algebra.Order.Floor.Ring

/-!
Model of `Converter` (src/glimpse/convert/converter.py:20-138): the check of image sizes, the grid of image points, and
the bookkeeping of `optimize_cam` and `optimize_xcam` around `scipy.optimize.least_squares`. The residuals of one point are in
`Model/Converters.lean`.
-/
set_option autoImplicit false

namespace Glimpse.Convert

noncomputable section

/-! ### Points -/

/-- `round(x)` of Python: to the nearest integer, halves to even. -/
def roundEven (x : ℝ) : ℤ :=
  if x - ⌊x⌋ < 1 / 2 then ⌊x⌋
  else if 1 / 2 < x - ⌊x⌋ then ⌊x⌋ + 1
  else if ⌊x⌋ % 2 = 0 then ⌊x⌋ else ⌊x⌋ + 1

/-- `np.arange(0.5 * dx, size, dx)` (60, 62) with a positive `dx`. -/
def gridAxis (size dx : ℝ) : List ℝ :=
  (List.range ⌈(size - 0.5 * dx) / dx⌉.toNat).map fun (i : Nat) => 0.5 * dx + i * dx

/-- `Converter._grid` (53-63) for a positive image size. `n = 0` and a rounded number of 0 give infinite or undefined spacings
(numpy warns), for which `np.arange` raises ValueError; a negative `n` gives NaN, for which `round` raises ValueError.
`meshgrid` has x vary fastest. -/
def convGrid (imgsz : ℤ × ℤ) (n : ℤ) : Except Err (List (ℝ × ℝ)) :=
  if n ≤ 0 then .error .valueError
  else
    let d := Real.sqrt ((imgsz.1 * imgsz.2 : ℝ) / n)
    let kx := roundEven (imgsz.1 / d)
    let ky := roundEven (imgsz.2 / d)
    if kx = 0 ∨ ky = 0 then .error .valueError
    else .ok ((gridAxis imgsz.2 (imgsz.2 / ky)).flatMap fun y => (gridAxis imgsz.1 (imgsz.1 / kx)).map fun x => (x, y))

/-- The argument `uv`: a number of points, or points. -/
inductive PointsArg where
  | number (n : ℤ)
  | points (l : List (ℝ × ℝ))

/-- `Converter.__init__` (42-51): the points used. -/
def converterInit (ximgsz imgsz : ℤ × ℤ) : PointsArg → Except Err (List (ℝ × ℝ))
  | .number n => if ximgsz ≠ imgsz then .error .valueError else convGrid imgsz n
  | .points l => if ximgsz ≠ imgsz then .error .valueError else .ok l

end

/-! ### Optimization -/

/-- What `scipy.optimize.least_squares` does with the function it is given: it returns (`fit.x`) or raises, or asks for the
residuals at some values and goes on depending on these. -/
inductive Lsq (α ρ : Type) where
  | done (x : Except Err (List α))
  | eval (x : List α) (next : ρ → Lsq α ρ)

/-- Run `least_squares` on a function that first writes the values to an object (`put`) and then computes residuals of this
object, which may raise (99-106, 122-138): the outcome and the object left behind. -/
def runLsq {α ρ σ : Type} (put : List α → σ → Except Err σ) (res : σ → Except Err ρ) : Lsq α ρ → σ → Except Err (List α) × σ
  | .done x, s => (x, s)
  | .eval x next, s =>
    match put x s with
    | .error e => (.error e, s)
    | .ok s' =>
      match res s' with
      | .error e => (.error e, s')
      | .ok r => runLsq put res (next r) s'

variable {α ρ : Type}

/-- `vector[mask]` (106). -/
def takeMask (v : Nat → α) (m : Nat → Bool) : List α := ((List.range 20).filter m).map v

/-- `Converter.optimize_cam` (87-107): the residuals are a function of the camera vector that may raise, the optimizer depends
on the starting values. The camera vector left behind is returned also if this raises. -/
def optimizeCam (d : Cams.Dict) (res : (Nat → α) → Except Err ρ) (S : List α → Lsq α ρ) (v : Nat → α) :
    Except Err Unit × (Nat → α) :=
  match Cams.maskOf d with
  | .error e => (.error e, v)
  | .ok m =>
    match runLsq (fun x v => .ok (Cams.assign v m x)) res (S (takeMask v m)) v with
    | (.error e, v') => (.error e, v')
    | (.ok x, v') => (.ok (), Cams.assign v' m x)

/-- An attribute of an external camera: a number or a tuple of numbers. -/
inductive Attr (α : Type) where
  | one (a : α)
  | many (l : List α)
  deriving DecidableEq

/-- `np.atleast_1d(value)`. -/
def Attr.vals : Attr α → List α
  | .one a => [a]
  | .many l => l

/-- The attributes of an external camera. -/
abbrev XCam (α : Type) := String → Option (Attr α)

/-- `if v` (118). -/
def truthy : Cams.Sel → Bool
  | .all => true
  | .no => false
  | .nothing => false
  | .index i => decide (i ≠ 0)
  | .indices l => !l.isEmpty

/-- The items that are kept (118). -/
def keepItems (params : List (String × Cams.Sel)) : List (String × Cams.Sel) := params.filter fun p => truthy p.2

/-- `value[idx]` as the argument of `list.extend` (122): a single number cannot be iterated over. -/
def gather (vals : List α) : Cams.Sel → Except Err (List α)
  | .all => .ok vals
  | .no => .ok []
  | .nothing => .ok []
  | .index i => match Cams.pyIndex vals.length i with
    | .error e => .error e
    | .ok _ => .error .typeError
  | .indices l => l.mapM fun i => do
    let k ← Cams.pyIndex vals.length i
    match vals[k]? with
    | some x => pure x
    | none => throw .indexError

/-- `x0` (119-122). -/
def startValues (A : XCam α) : List (String × Cams.Sel) → Except Err (List α)
  | [] => .ok []
  | (k, s) :: rest =>
    match A k with
    | none => .error .attributeError
    | some a => do
      let xs ← gather a.vals s
      let ys ← startValues A rest
      pure (xs ++ ys)

/-- `n` (128). -/
def selCount (vals : List α) : Cams.Sel → Nat
  | .all => vals.length
  | .no => 0
  | .nothing => 0
  | .index _ => 1
  | .indices l => l.length

/-- `value[idx] = xs` (129) for positions. -/
def scatterAt (vals : List α) : List ℤ → List α → Except Err (List α)
  | [], _ => .ok vals
  | i :: l, xs =>
    match Cams.pyIndex vals.length i, xs with
    | .error e, _ => .error e
    | .ok _, [] => .error .valueError
    | .ok k, x :: xs => scatterAt (vals.set k x) l xs

/-- `value[idx] = xs` (129). (Broadcasting of one value to many does not occur: `xs` has the length of the selection if there are
enough values.) -/
def scatter (vals : List α) (s : Cams.Sel) (xs : List α) : Except Err (List α) :=
  match s with
  | .all => if xs.length = vals.length then .ok xs else .error .valueError
  | .no => .ok vals
  | .nothing => .ok vals
  | .index i => scatterAt vals [i] xs
  | .indices l => scatterAt vals l xs

/-- `tuple(value) if len(value) > 1 else value[0]` (130). -/
def wrapAttr : List α → Except Err (Attr α)
  | [] => .error .indexError
  | [a] => .ok (.one a)
  | l => .ok (.many l)

/-- `setattr`. -/
def XCam.set (A : XCam α) (k : String) (a : Attr α) : XCam α := fun k' => if k' = k then some a else A k'

/-- `apply` (124-131). (If it raises, attributes already set stay set; it cannot raise with values of the right number once the
starting values are read.) -/
def applyItems : List (String × Cams.Sel) → List α → XCam α → Except Err (XCam α)
  | [], _, A => .ok A
  | (k, s) :: rest, x, A =>
    match A k with
    | none => .error .attributeError
    | some a => do
      let vals ← scatter a.vals s (x.take (selCount a.vals s))
      let b ← wrapAttr vals
      applyItems rest (x.drop (selCount a.vals s)) (A.set k b)

/-- `Converter.optimize_xcam` (109-138). -/
def optimizeXcam (params : List (String × Cams.Sel)) (res : XCam α → Except Err ρ) (S : List α → Lsq α ρ) (A : XCam α) :
    Except Err Unit × XCam α :=
  match startValues A (keepItems params) with
  | .error e => (.error e, A)
  | .ok x0 =>
    match runLsq (applyItems (keepItems params)) res (S x0) A with
    | (.error e, A') => (.error e, A')
    | (.ok x, A') =>
      match applyItems (keepItems params) x A' with
      | .error e => (.error e, A')
      | .ok A'' => (.ok (), A'')

end Glimpse.Convert
