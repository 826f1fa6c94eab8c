import Verif.Model.Grid

/-!
Model of the mutable state of a `Grid` (raster.py:47-109, 138-181, 222-309): constructor inputs, limits and size
setters, coordinate caches `_x`, `_X`, `_y`, `_Y`, and in-place shifting.

numpy facts used: `a += b` on an integer array with a non-integer number raises (a `TypeError` subclass) and changes
nothing; on a float array it works for any number; `value[0]` and `value[:, 0]` of a matrix are views that share memory
with it; `np.linspace`, `np.tile`, `np.append` return new float arrays. Arrays passed to the constructor or setters and
kept by the caller are not followed any further.
-/
set_option autoImplicit false

namespace Glimpse

/-- A number with its Python type: `int` or `float`. -/
structure Num where
  val : ℚ
  isInt : Bool
deriving DecidableEq

/-- Limits, caches and aliasing of one axis of a `Grid` object. -/
structure AxState where
  /-- `_xlim` -/
  lim : ℚ × ℚ
  /-- `_xlim` has an integer dtype -/
  limInt : Bool
  /-- `_x` (dtype is integer, values) -/
  vec : Option (Bool × List ℚ)
  /-- `_X` (dtype is integer, rows) -/
  mat : Option (Bool × List (List ℚ))
  /-- `_x` is a view of the first row (first column for y) of `_X` -/
  view : Bool
deriving DecidableEq

/-- State of a `Grid` object. -/
structure GridState where
  nx : Nat
  ny : Nat
  x : AxState
  y : AxState
deriving DecidableEq

/-- What the constructor accepts for one axis (raster.py:30-31): nothing, limits, a coordinate vector or a coordinate
matrix, each with an integer or float dtype. -/
inductive AxInput where
  | none
  | lims (a b : ℚ) (int : Bool)
  | vec (l : List ℚ) (int : Bool)
  | mat (rows : List (List ℚ)) (int : Bool)
deriving DecidableEq

/-- First column of a matrix. -/
def firstCol (rows : List (List ℚ)) : List ℚ := rows.map (·.headD 0)

/-- `Grid._parse_limits` (raster.py:230-239). -/
def parseLimits (l : List ℚ) : Except Err (ℚ × ℚ) :=
  match l with
  | [a, b] => if a = b then .error .valueError else .ok (a, b)
  | _ => .error .valueError

/-- The vector branch of `Grid._parse_xy` (raster.py:254-266): a vector of more than two values gives limits half a step
beyond its ends (a new float array) and is kept; two values are limits; anything else raises. -/
def parseVec (l : List ℚ) (int : Bool) : Except Err ((ℚ × ℚ) × Bool × Option (Bool × List ℚ)) :=
  if l.length > 2 then do
    let dx := l.getD 1 0 - l.getD 0 0
    let lim ← parseLimits [l.getD 0 0 - dx / 2, l.getLastD 0 + dx / 2]
    return (lim, false, some (int, l))
  else do
    let lim ← parseLimits l
    return (lim, int, none)

/-- `Grid._parse_xy` followed by the limits setter and the assignment of the caches (raster.py:50-51, 241-267).
`dim = false` is x, `dim = true` is y; `n` is `size[dim]`. A matrix whose shape is not `(ny, nx)` is modelled as
`ValueError` (numpy then builds something that is not two limits). A matrix with two columns (rows) makes its own first
row (column) the limits (raster.py:252, 261); that these limits are a view of the matrix is not modelled. -/
def parseXy (nx ny : Nat) (dim : Bool) (inp : AxInput) : Except Err AxState :=
  match inp with
  | .none => do
    let lim ← parseLimits [0, ((if dim then ny else nx : Nat) : ℚ)]
    return ⟨lim, true, Option.none, Option.none, false⟩
  | .lims a b int => do
    let lim ← parseLimits [a, b]
    return ⟨lim, int, Option.none, Option.none, false⟩
  | .vec l int => do
    let (lim, li, v) ← parseVec l int
    return ⟨lim, li, v, Option.none, false⟩
  | .mat rows int =>
    if rows.length = ny ∧ rows.all (fun r => r.length = nx) then do
      let (lim, li, v) ← parseVec (if dim then firstCol rows else rows.headD []) int
      return ⟨lim, li, v, some (int, rows), true⟩
    else .error .valueError

/-- `Grid.__init__` (raster.py:42-53). The size is stored as given (49). -/
def GridState.init (nx ny : Nat) (x y : AxInput) : Except Err GridState := do
  let xs ← parseXy nx ny false x
  let ys ← parseXy nx ny true y
  return ⟨nx, ny, xs, ys⟩

/-- The axis (limits and number of cells) of x. -/
def GridState.ax (s : GridState) : GAxis := ⟨s.x.lim.1, s.x.lim.2, s.nx⟩
/-- The axis (limits and number of cells) of y. -/
def GridState.ay (s : GridState) : GAxis := ⟨s.y.lim.1, s.y.lim.2, s.ny⟩

/-- Public operations on a grid object (reads of cached properties, setters, `resize`, `shift`). -/
inductive GridOp where
  | readx | readX | ready | readY
  | setXlim (a b : ℚ) (int : Bool)
  | setYlim (a b : ℚ) (int : Bool)
  | setSize (nx ny : Int)
  | resize (scale : ℚ)
  | shift (dx dy : Option Num)
deriving DecidableEq

/-- What a read of `x` / `y` returns: the cached vector or a new one (raster.py:138-152, 161-175). -/
def readVec (a : GAxis) (s : AxState) : Except Err (List ℚ × AxState) :=
  match s.vec with
  | some (_, l) => .ok (l, s)
  | none => do
    let l ← a.centers
    return (l, { s with vec := some (false, l), view := false })

/-- What a read of `X` returns (raster.py:154-159) (`dim = false`), or of `Y` (177-181) (`dim = true`); `m` is the number of cells of the
other axis. The read of the vector may fill its cache. -/
def readMat (a : GAxis) (m : Nat) (dim : Bool) (s : AxState) : Except Err (List (List ℚ) × AxState) :=
  match s.mat with
  | some (_, r) => .ok (r, s)
  | none => do
    let (l, s) ← readVec a s
    let r := if dim then tileCols l m else tileRows l m
    return (r, { s with mat := some (false, r), view := false })

/-- The limits setter (raster.py:92-97, 104-109): unchanged limits leave everything as it is. -/
def setLim (s : AxState) (a b : ℚ) (int : Bool) : Except Err AxState := do
  let lim ← parseLimits [a, b]
  if s.lim = lim then return s
  else return ⟨lim, int, none, none, false⟩

/-- In-place addition to the first row (`dim = false`) or first column (`dim = true`) of a matrix. -/
def addView (dim : Bool) (d : ℚ) (rows : List (List ℚ)) : List (List ℚ) :=
  if dim then rows.map fun r => match r with
    | [] => []
    | h :: t => (h + d) :: t
  else match rows with
    | [] => []
    | r :: rs => r.map (· + d) :: rs

/-- The additions to `_x` and `_X` of `Grid._shift_xy` (raster.py:273-276), once the addition to `_x` is known not to
raise. -/
def shiftCaches (dim : Bool) (s : AxState) (d : Num) : AxState × Option Err :=
  -- `self._x += dx`: through the view it also changes the first row of `_X`
  let vec : Option (Bool × List ℚ) := s.vec.map fun (p : Bool × List ℚ) => (p.1, p.2.map (· + d.val))
  let mat : Option (Bool × List (List ℚ)) :=
    if s.view && s.vec.isSome then s.mat.map fun (p : Bool × List (List ℚ)) => (p.1, addView dim d.val p.2) else s.mat
  match mat with
  | none => ({ s with vec := vec, mat := none }, none)
  | some (int, rows) =>
    if int && !d.isInt then ({ s with vec := vec, mat := some (int, rows) }, some .typeError)
    else
      -- `self._X += dx`: through the view it also changes `_x`
      ({ s with
          vec := if s.view then vec.map fun (p : Bool × List ℚ) => (p.1, p.2.map (· + d.val)) else vec
          mat := some (int, rows.map fun (r : List ℚ) => r.map (· + d.val)) }, none)

/-- One axis of `Grid._shift_xy` (raster.py:269-282): three in-place additions, each of which raises on an integer array
when the shift is not an integer. Returns the state after the statements that were executed. -/
def shiftAx (dim : Bool) (s : AxState) (d : Num) : AxState × Option Err :=
  if s.limInt && !d.isInt then (s, some .typeError)
  else
    let s := { s with lim := (s.lim.1 + d.val, s.lim.2 + d.val) }
    if (s.vec.any fun p => p.1) && !d.isInt then (s, some .typeError) else shiftCaches dim s d

/-- `if dx is not None: ...` in `Grid._shift_xy` (raster.py:271, 277). -/
def shiftOpt (dim : Bool) (s : AxState) : Option Num → AxState × Option Err
  | none => (s, none)
  | some d => shiftAx dim s d

/-- The size setter (raster.py:74-85) for two integers; it does not touch the caches. -/
def setSize (s : GridState) (nx ny : Int) : GridState × Option Err :=
  if nx ≤ 0 ∨ ny ≤ 0 then (s, some .valueError)
  else ({ s with nx := nx.toNat, ny := ny.toNat }, none)

/-- State after one operation, and the exception if it raised. -/
def GridState.step (s : GridState) (op : GridOp) : GridState × Option Err :=
  match op with
  | .readx => match readVec s.ax s.x with
    | .ok (_, x) => ({ s with x := x }, none)
    | .error e => (s, some e)
  | .readX => match readMat s.ax s.ny false s.x with
    | .ok (_, x) => ({ s with x := x }, none)
    | .error e => (s, some e)
  | .ready => match readVec s.ay s.y with
    | .ok (_, y) => ({ s with y := y }, none)
    | .error e => (s, some e)
  | .readY => match readMat s.ay s.nx true s.y with
    | .ok (_, y) => ({ s with y := y }, none)
    | .error e => (s, some e)
  | .setXlim a b int => match setLim s.x a b int with
    | .ok x => ({ s with x := x }, none)
    | .error e => (s, some e)
  | .setYlim a b int => match setLim s.y a b int with
    | .ok y => ({ s with y := y }, none)
    | .error e => (s, some e)
  | .setSize nx ny => setSize s nx ny
  | .resize scale => setSize s ⌊(s.nx : ℚ) * scale + 1 / 2⌋ ⌊(s.ny : ℚ) * scale + 1 / 2⌋   -- 300
  | .shift dx dy =>
    let r := shiftOpt false s.x dx
    let s := { s with x := r.1 }
    match r.2 with
    | some e => (s, some e)
    | none =>
      let r := shiftOpt true s.y dy
      ({ s with y := r.1 }, r.2)

/-- A history of operations; an exception ends an operation, not the history (the caller may catch it). -/
def GridState.run (s : GridState) (ops : List GridOp) : GridState := ops.foldl (fun s op => (s.step op).1) s

end Glimpse
