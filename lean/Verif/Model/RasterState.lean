import Verif.Model.GridState

/-!
Model of the mutable state of a `Raster` (raster.py:636-668, 838-898, 1187-1217): grid state, array, and the cached
interpolator `_Zf`, with the memory it shares.

Facts used about scipy 1.4.1 (poetry.lock): `RegularGridInterpolator(points, values)` keeps `np.asarray(points[i])` as
`grid[i]` — here views of `_x` and `_y` — and keeps `values` itself if it is a float array — here a view of the array —
or a float copy if it is not. NaN cells are not modelled (adding to NaN is NaN).
-/
set_option autoImplicit false

namespace Glimpse

/-- Coordinates of the cached interpolator: a view of the raster's cached coordinate vector (`rev`: reversed), or
an array of its own once the raster has dropped that vector. -/
inductive CoordRef where
  | view (rev : Bool)
  | own (l : List ℚ)
deriving DecidableEq

/-- Values of the cached interpolator: a view of the raster's array, or a copy. -/
inductive ValRef where
  | view
  | own (rows : List (List ℚ))
deriving DecidableEq

/-- The cached `RegularGridInterpolator` (raster.py:889-898). `sx`, `sy`: whether x, y were descending when it was
built. -/
structure ZfState where
  gx : CoordRef
  gy : CoordRef
  vals : ValRef
  sx : Bool
  sy : Bool
deriving DecidableEq

/-- State of a `Raster` object with an array in memory. `g.nx`, `g.ny` is the shape of the array (raster.py:868-873). -/
structure RasterState where
  g : GridState
  /-- the array has an integer dtype -/
  arrInt : Bool
  arr : List (List ℚ)
  zf : Option ZfState
deriving DecidableEq

/-- Order of an axis turned ascending: reversed if `rev`. -/
def orient {α : Type} (rev : Bool) (l : List α) : List α := if rev then l.reverse else l

/-- `array.T[:: sx, :: sy]` (raster.py:896). -/
def orientT (sx sy : Bool) (nx : Nat) (rows : List (List ℚ)) : List (List ℚ) :=
  orient sx ((List.range nx).map fun c => orient sy (rows.map fun r => r.getD c 0))

/-- Current content of interpolator coordinates. -/
def CoordRef.get (r : CoordRef) (vec : Option (Bool × List ℚ)) : List ℚ :=
  match r with
  | .view rev => orient rev (vec.elim [] (·.2))
  | .own l => l

/-- Current content of the interpolator values. -/
def ZfState.values (z : ZfState) (s : RasterState) : List (List ℚ) :=
  match z.vals with
  | .view => orientT z.sx z.sy s.g.nx s.arr
  | .own rows => rows

/-- `Raster.Zf` (raster.py:888-898), called by `sample` on points of a raster with at least two rows and columns
(raster.py:961-996). Reading `x` and `y` fills their caches. -/
def RasterState.buildZf (s : RasterState) : RasterState × Option Err :=
  match s.zf with
  | some _ => (s, none)
  | none =>
    if s.g.nx ≤ 1 ∨ s.g.ny ≤ 1 then (s, none)
    else
      let sx := decide (s.g.ax.d < 0)
      let sy := decide (s.g.ay.d < 0)
      match readVec s.g.ax s.g.x, readVec s.g.ay s.g.y with
      | .ok (_, x), .ok (_, y) =>
        let s := { s with g := { s.g with x := x, y := y } }
        let z : ZfState :=
          { gx := .view sx, gy := .view sy,
            vals := if s.arrInt then .own (orientT sx sy s.g.nx s.arr) else .view, sx := sx, sy := sy }
        ({ s with zf := some z }, none)
      | .error e, _ => (s, some e)
      | .ok _, .error e => (s, some e)

/-- When a setter drops `_x`, interpolator coordinates that were a view of it keep the values. -/
def CoordRef.detach (r : CoordRef) (vec : Option (Bool × List ℚ)) : CoordRef := .own (r.get vec)

/-- Public operations on a raster. -/
inductive RasterOp where
  | sample
  | setXlim (a b : ℚ)
  | setYlim (a b : ℚ)
  | setArray (rows : List (List ℚ)) (int : Bool)
  | shift (dx dy dz : Option Num)
deriving DecidableEq

/-- `Raster.array` setter (raster.py:846-858) for a rectangular matrix; it always drops the interpolator. -/
def RasterState.setArray (s : RasterState) (rows : List (List ℚ)) (int : Bool) : RasterState :=
  let nx := (rows.headD []).length
  let ny := rows.length
  let g := if nx = s.g.nx ∧ ny = s.g.ny then s.g else
    { nx := nx, ny := ny,
      x := { s.g.x with vec := none, mat := none, view := false },
      y := { s.g.y with vec := none, mat := none, view := false } }
  { g := g, arrInt := int, arr := rows, zf := none }

/-- `_xlim` setter on a raster (raster.py:92-97): drops `_x`, `_X` if the limits change, keeps the interpolator. -/
def RasterState.setXlim (s : RasterState) (a b : ℚ) : RasterState × Option Err :=
  let r := s.g.step (.setXlim a b false)
  let zf := if r.1.x.vec = s.g.x.vec then s.zf else
    s.zf.map fun (z : ZfState) => { z with gx := z.gx.detach s.g.x.vec }
  ({ s with g := r.1, zf := zf }, r.2)

/-- `_ylim` setter on a raster (raster.py:104-109). -/
def RasterState.setYlim (s : RasterState) (a b : ℚ) : RasterState × Option Err :=
  let r := s.g.step (.setYlim a b false)
  let zf := if r.1.y.vec = s.g.y.vec then s.zf else
    s.zf.map fun (z : ZfState) => { z with gy := z.gy.detach s.g.y.vec }
  ({ s with g := r.1, zf := zf }, r.2)

/-- In-place addition to interpolator coordinates: through a view it changes the raster's cached vector. -/
def addCoord (r : CoordRef) (vec : Option (Bool × List ℚ)) (d : ℚ) : CoordRef × Option (Bool × List ℚ) :=
  match r with
  | .own l => (.own (l.map (· + d)), vec)
  | .view rev => (.view rev, vec.map fun (p : Bool × List ℚ) => (p.1, p.2.map (· + d)))

/-- The part of `Raster.shift` that shifts the cached interpolator (raster.py:1210-1217). Note line 1216 tests `dy` where
it adds `dz`. -/
def shiftZf (s : RasterState) (z : ZfState) (dx dy dz : Option Num) : RasterState × Option Err :=
  let rx := match dx with
    | some d => addCoord z.gx s.g.x.vec d.val                                     -- 1212-1213
    | none => (z.gx, s.g.x.vec)
  let ry := match dy with
    | some d => addCoord z.gy s.g.y.vec d.val                                     -- 1214-1215
    | none => (z.gy, s.g.y.vec)
  let s := { s with
    g := { s.g with x := { s.g.x with vec := rx.2 }, y := { s.g.y with vec := ry.2 } }
    zf := some (ZfState.mk rx.1 ry.1 z.vals z.sx z.sy) }
  match dy, dz with
  | none, _ => (s, none)                                                          -- 1216
  | some _, none => (s, some .typeError)                                          -- `values += None`
  | some _, some d =>                                                             -- 1217
    match z.vals with
    | .view => ({ s with arr := s.arr.map fun (r : List ℚ) => r.map (· + d.val) }, none)
    | .own rows =>
      ({ s with zf := some (ZfState.mk rx.1 ry.1 (.own (rows.map fun (r : List ℚ) => r.map (· + d.val))) z.sx z.sy) }, none)

/-- `Raster.shift` (raster.py:1206-1217). -/
def RasterState.shift (s : RasterState) (dx dy dz : Option Num) : RasterState × Option Err :=
  let r := s.g.step (.shift dx dy)                                                -- 1206
  let s := { s with g := r.1 }
  match r.2 with
  | some e => (s, some e)
  | none =>
    -- 1207-1209: `self._array += dz`
    let badz := match dz with
      | some d => s.arrInt && !d.isInt
      | none => false
    if badz then (s, some .typeError)
    else
      let s := match dz with
        | some d => { s with arr := s.arr.map fun (r : List ℚ) => r.map (· + d.val) }
        | none => s
      match s.zf with
      | none => (s, none)
      | some z => shiftZf s z dx dy dz

/-- State after one operation, and the exception if it raised. -/
def RasterState.step (s : RasterState) (op : RasterOp) : RasterState × Option Err :=
  match op with
  | .sample => s.buildZf
  | .setXlim a b => s.setXlim a b
  | .setYlim a b => s.setYlim a b
  | .setArray rows int => (s.setArray rows int, none)
  | .shift dx dy dz => s.shift dx dy dz

/-- A history of operations. -/
def RasterState.run (s : RasterState) (ops : List RasterOp) : RasterState := ops.foldl (fun s op => (s.step op).1) s

/-- `Raster(array, x=xlim, y=ylim)` with float limits (raster.py:644-660). -/
def RasterState.init (rows : List (List ℚ)) (int : Bool) (xlim ylim : ℚ × ℚ) : Except Err RasterState := do
  let g ← GridState.init (rows.headD []).length rows.length (.lims xlim.1 xlim.2 false) (.lims ylim.1 ylim.2 false)
  return { g := g, arrInt := int, arr := rows, zf := none }

end Glimpse
