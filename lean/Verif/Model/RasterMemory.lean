import Verif.Model.Grid

/-!
Model of the memory that `Grid` and `Raster` objects share (raster.py:49-58, 81-108, 137-180, 242-288, 636-692, 838-858, 876-909,
1070-1081, 1145-1217): numpy arrays are references to blocks of memory; slicing gives a view of the same block, and
`np.atleast_1d`, `np.atleast_2d` of an array give that array itself.

Numbers are exact and arrays are floating-point. The cached interpolator `_Zf`, which views the arrays of its own raster, is not
modelled here. An operation that raises is not modelled (it leaves the world unchanged).
-/
set_option autoImplicit false

namespace Glimpse.RasterMemory

/-- Memory: blocks of numbers. The address of a block is its position. -/
abbrev Mem := List (List ℚ)

/-- A numpy array: positions within a block (row by row for a matrix). -/
structure Ref where
  addr : Nat
  idx : List Nat
deriving DecidableEq

/-- The numbers of an array. -/
def Ref.get (r : Ref) (m : Mem) : List ℚ := r.idx.map fun (i : Nat) => (m.getD r.addr []).getD i 0

/-- `array[where] = f(array[where])` in place. -/
def Ref.modify (r : Ref) (f : ℚ → ℚ) (m : Mem) : Mem :=
  m.modify r.addr fun (b : List ℚ) => b.mapIdx fun (i : Nat) (v : ℚ) => if i ∈ r.idx then f v else v

/-- A new array. -/
def alloc (l : List ℚ) (m : Mem) : Ref × Mem := (⟨m.length, List.range l.length⟩, m ++ [l])

/-- A view of an array at some positions (a slice). -/
def Ref.slice (r : Ref) (sel : List Nat) : Ref := ⟨r.addr, sel.map fun (i : Nat) => r.idx.getD i 0⟩

/-- A grid, or a raster if it has an array: size, `_xlim`, `_ylim`, `_x`, `_y`, `_X`, `_Y`, `_array`. -/
structure Obj where
  nx : Nat
  ny : Nat
  xlim : Ref
  ylim : Ref
  x : Option Ref
  y : Option Ref
  bigX : Option Ref
  bigY : Option Ref
  array : Option Ref
deriving DecidableEq

/-- Memory and all objects. -/
structure World where
  mem : Mem
  objs : List Obj
deriving DecidableEq

/-- Replace an object. -/
def World.put (w : World) (o : Nat) (b : Obj) : World := { w with objs := w.objs.set o b }

/-- Centers of `n` cells between limits, from the first to the second (raster.py:138-152, 161-175). -/
def centersOf (lim : List ℚ) (n : Nat) : List ℚ :=
  let a := lim.getD 0 0
  let d := (lim.getD 1 0 - a) / n
  (List.range n).map fun (i : Nat) => a + d * ((i : ℚ) + 1 / 2)

/-- `np.tile(self.x, (ny, 1))` (159), row by row. -/
def tileX (x : List ℚ) (ny : Nat) : List ℚ := (List.replicate ny x).flatten
/-- `np.tile(self.y, (nx, 1)).T` (181), row by row. -/
def tileY (y : List ℚ) (nx : Nat) : List ℚ := y.flatMap fun v => List.replicate nx v

/-- The cached array, or a new one with the given numbers. -/
def cachedOr (r : Option Ref) (l : List ℚ) (m : Mem) : Ref × Mem :=
  match r with
  | some r => (r, m)
  | none => alloc l m

/-- Reading `x` (138-152). -/
def World.readx (w : World) (o : Nat) (b : Obj) : Ref × World :=
  let r := cachedOr b.x (centersOf (b.xlim.get w.mem) b.nx) w.mem
  (r.1, ⟨r.2, w.objs.set o { b with x := some r.1 }⟩)
/-- Reading `y` (161-175). -/
def World.ready (w : World) (o : Nat) (b : Obj) : Ref × World :=
  let r := cachedOr b.y (centersOf (b.ylim.get w.mem) b.ny) w.mem
  (r.1, ⟨r.2, w.objs.set o { b with y := some r.1 }⟩)

/-- `self._x += dx` and the like, if there is such an array. -/
def addTo (r : Option Ref) (d : ℚ) (m : Mem) : Mem :=
  match r with
  | some r => r.modify (· + d) m
  | none => m

/-- `_shift_xy` in one direction (raster.py:271-276, 277-282). -/
def shiftAxis (lim : Ref) (x big : Option Ref) (d : Option ℚ) (m : Mem) : Mem :=
  match d with
  | none => m
  | some d => addTo big d (addTo x d (addTo (some lim) d m))

/-- Operations. Objects are named by their positions; those that make an object append it. -/
inductive Op
  /-- `Raster(values, x=(x0, x1), y=(y0, y1))`, or `Grid((nx, ny), x=(x0, x1), y=(y0, y1))` without values -/
  | new (nx ny : Nat) (x0 x1 y0 y1 : ℚ) (values : Option (List ℚ))
  /-- `o.copy()` (raster.py:286-288, 902-909) -/
  | copy (o : Nat)
  /-- `o.grid` (raster.py:883-885), `Grid(o.size, x=o.xlim, y=o.ylim)` -/
  | grid (o : Nat)
  /-- `o[rows, cols]` (raster.py:670-692) -/
  | item (o : Nat) (rows cols : List Nat)
  /-- `Raster(o.array)` (raster.py:649-651) -/
  | wrap (o : Nat)
  /-- `o.resample(g)` (raster.py:1078-1081), given the samples -/
  | resample (o g : Nat) (samples : List ℚ)
  /-- reading `o.x`, `o.y`, `o.X`, `o.Y` -/
  | readx (o : Nat)
  | ready (o : Nat)
  | readX (o : Nat)
  | readY (o : Nat)
  /-- `o.shift(dx, dy, dz)` (raster.py:302-310, 1187-1209) -/
  | shift (o : Nat) (dx dy dz : Option ℚ)
  /-- `o.array[cells] = v`, as in `crop(zlim=...)` (1174), `fill_circle` (1245), `rasterize` -/
  | write (o : Nat) (cells : List Nat) (v : ℚ)
  /-- `o.xlim = (a, b)`, `o.ylim = (a, b)` -/
  | setXlim (o : Nat) (a b : ℚ)
  | setYlim (o : Nat) (a b : ℚ)
  /-- `o.array = values` with a new array of `nx` columns and `ny` rows -/
  | setArray (o : Nat) (nx ny : Nat) (values : List ℚ)

/-- The objects named in an operation. -/
def Op.operands : Op → List Nat
  | .new _ _ _ _ _ _ _ => []
  | .copy o => [o]
  | .grid o => [o]
  | .item o _ _ => [o]
  | .wrap o => [o]
  | .resample o g _ => [o, g]
  | .readx o => [o]
  | .ready o => [o]
  | .readX o => [o]
  | .readY o => [o]
  | .shift o _ _ _ => [o]
  | .write o _ _ => [o]
  | .setXlim o _ _ => [o]
  | .setYlim o _ _ => [o]
  | .setArray o _ _ _ => [o]

/-- The limits setters (92-97, 104-109) with an array: unchanged if the numbers are equal. -/
def Obj.assignXlim (b : Obj) (r : Ref) (m : Mem) : Obj :=
  if b.xlim.get m = r.get m then b else { b with xlim := r, x := none, bigX := none }
def Obj.assignYlim (b : Obj) (r : Ref) (m : Mem) : Obj :=
  if b.ylim.get m = r.get m then b else { b with ylim := r, y := none, bigY := none }

/-- The array setter (846-858): another shape clears the coordinates. -/
def Obj.assignArray (b : Obj) (r : Ref) (nx ny : Nat) : Obj :=
  if nx = b.nx ∧ ny = b.ny then { b with array := some r }
  else { b with nx := nx, ny := ny, array := some r, x := none, y := none, bigX := none, bigY := none }

/-- Limits and coordinates of a subset in one direction (683-692 and `_parse_xy`, 253-264): at least three coordinates stay a view, and the
limits are new; otherwise new limits half a cell beyond. -/
def subAxis (x : Ref) (sel : List Nat) (d : ℚ) (m : Mem) : (Ref × Option Ref) × Mem :=
  let s := x.slice sel
  let v := s.get m
  if v.length < 3 then
    let r := alloc [v.headD 0 - d / 2, v.getLastD 0 + d / 2] m
    ((r.1, none), r.2)
  else
    let h := v.getD 1 0 - v.getD 0 0
    let r := alloc [v.headD 0 - h / 2, v.getLastD 0 + h / 2] m
    ((r.1, some s), r.2)

/-- Spacing of a selection of positions: the step if it is more than one (677-682). -/
def stepOf (sel : List Nat) : ℚ := if 1 < sel.getD 1 0 - sel.getD 0 0 then ((sel.getD 1 0 - sel.getD 0 0 : Nat) : ℚ) else 1

/-- Cell size from limits (119-121). -/
def cellSize (lim : List ℚ) (n : Nat) : ℚ := (lim.getD 1 0 - lim.getD 0 0) / n

/-- Positions of the cells of rows and columns in an array of `nx` columns. -/
def cellsOf (nx : Nat) (rows cols : List Nat) : List Nat := rows.flatMap fun (r : Nat) => cols.map fun (c : Nat) => r * nx + c

/-- `o.copy()`. -/
def copyOf (m : Mem) (b : Obj) : Obj × Mem :=
  let xl := alloc (b.xlim.get m) m
  let yl := alloc (b.ylim.get m) xl.2
  match b.array with
  | none => (⟨b.nx, b.ny, xl.1, yl.1, none, none, none, none, none⟩, yl.2)
  | some a =>
    let ar := alloc (a.get m) yl.2
    (⟨b.nx, b.ny, xl.1, yl.1, none, none, none, none, some ar.1⟩, ar.2)

/-- `o[rows, cols]` of an object with an array. -/
def World.itemOf (w : World) (o : Nat) (b : Obj) (a : Ref) (rows cols : List Nat) : World :=
  let rx := w.readx o b
  let ry := rx.2.ready o { b with x := some rx.1 }
  let w := ry.2
  let sx := subAxis rx.1 cols (cellSize (b.xlim.get w.mem) b.nx * stepOf cols) w.mem
  let sy := subAxis ry.1 rows (cellSize (b.ylim.get w.mem) b.ny * stepOf rows) sx.2
  ⟨sy.2, w.objs ++ [⟨cols.length, rows.length, sx.1.1, sy.1.1, sx.1.2, sy.1.2, none, none, some (a.slice (cellsOf b.nx rows cols))⟩]⟩

/-- A new object. -/
def newOf (m : Mem) (nx ny : Nat) (x0 x1 y0 y1 : ℚ) (values : Option (List ℚ)) : Obj × Mem :=
  let xl := alloc [x0, x1] m
  let yl := alloc [y0, y1] xl.2
  match values with
  | none => (⟨nx, ny, xl.1, yl.1, none, none, none, none, none⟩, yl.2)
  | some a =>
    let ar := alloc a yl.2
    (⟨nx, ny, xl.1, yl.1, none, none, none, none, some ar.1⟩, ar.2)

/-- One operation. -/
def World.step (w : World) (op : Op) : World :=
  match op with
  | .new nx ny x0 x1 y0 y1 values =>
    let r := newOf w.mem nx ny x0 x1 y0 y1 values
    ⟨r.2, w.objs ++ [r.1]⟩
  | .copy o => match w.objs[o]? with
    | none => w
    | some b =>
      let r := copyOf w.mem b
      ⟨r.2, w.objs ++ [r.1]⟩
  | .grid o => match w.objs[o]? with
    | none => w
    | some b => { w with objs := w.objs ++ [⟨b.nx, b.ny, b.xlim, b.ylim, none, none, none, none, none⟩] }
  | .item o rows cols => match w.objs[o]? with
    | none => w
    | some b => match b.array with
      | none => w
      | some a => w.itemOf o b a rows cols
  | .wrap o => match w.objs[o]? with
    | none => w
    | some b => match b.array with
      | none => w
      | some a =>
        let xl := alloc [0, (b.nx : ℚ)] w.mem
        let yl := alloc [0, (b.ny : ℚ)] xl.2
        ⟨yl.2, w.objs ++ [⟨b.nx, b.ny, xl.1, yl.1, none, none, none, none, some a⟩]⟩
  | .resample o g samples => match w.objs[g]? with
    | none => w
    | some t =>
      let rx := w.readx g t
      let ry := rx.2.ready g { t with x := some rx.1 }
      let w := ry.2
      match w.objs[o]? with
      | none => w
      | some b =>
        let ar := alloc samples w.mem
        let b := b.assignArray ar.1 t.nx t.ny
        let b := b.assignXlim t.xlim w.mem
        let b := b.assignYlim t.ylim w.mem
        ⟨ar.2, w.objs.set o { b with x := some rx.1, y := some ry.1 }⟩
  | .readx o => match w.objs[o]? with
    | none => w
    | some b => (w.readx o b).2
  | .ready o => match w.objs[o]? with
    | none => w
    | some b => (w.ready o b).2
  | .readX o => match w.objs[o]? with
    | none => w
    | some b =>
      let rx := w.readx o b
      let w := rx.2
      let r := cachedOr b.bigX (tileX (rx.1.get w.mem) b.ny) w.mem
      ⟨r.2, w.objs.set o { b with x := some rx.1, bigX := some r.1 }⟩
  | .readY o => match w.objs[o]? with
    | none => w
    | some b =>
      let ry := w.ready o b
      let w := ry.2
      let r := cachedOr b.bigY (tileY (ry.1.get w.mem) b.nx) w.mem
      ⟨r.2, w.objs.set o { b with y := some ry.1, bigY := some r.1 }⟩
  | .shift o dx dy dz => match w.objs[o]? with
    | none => w
    | some b =>
      let m := shiftAxis b.xlim b.x b.bigX dx w.mem
      let m := shiftAxis b.ylim b.y b.bigY dy m
      { w with mem := match dz with
          | none => m
          | some d => addTo b.array d m }
  | .write o cells v => match w.objs[o]? with
    | none => w
    | some b => match b.array with
      | none => w
      | some a => { w with mem := (a.slice cells).modify (fun _ => v) w.mem }
  | .setXlim o a c => match w.objs[o]? with
    | none => w
    | some b =>
      let r := alloc [a, c] w.mem
      ⟨r.2, w.objs.set o (b.assignXlim r.1 r.2)⟩
  | .setYlim o a c => match w.objs[o]? with
    | none => w
    | some b =>
      let r := alloc [a, c] w.mem
      ⟨r.2, w.objs.set o (b.assignYlim r.1 r.2)⟩
  | .setArray o nx ny values => match w.objs[o]? with
    | none => w
    | some b =>
      let r := alloc values w.mem
      ⟨r.2, w.objs.set o (b.assignArray r.1 nx ny)⟩

/-- A history. -/
def World.run (w : World) (ops : List Op) : World := ops.foldl World.step w

end Glimpse.RasterMemory
