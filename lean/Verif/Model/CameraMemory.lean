import Verif.Model.Grid

/-!
Model of the memory of cameras (src/glimpse/camera.py): attributes are parts of one array (`_vector`, 98, 123-195), which `copy` (357-393),
`reset` (395-407), `to_array` (409-426) and `idealize` (488-507) copy or write; `_original_vector` (121); `sensorsz` (197-206).

The memory is a map from references to arrays. A caller holds values: views (a part of an array) or arrays of its own. Simplifications:
values given to setters are already formatted to the length of the attribute (see CameraJson); `correction` is left out.
-/
set_option autoImplicit false

namespace Glimpse.CamMem

/-- A reference to an array. -/
abbrev Ref := Nat

/-- The attributes. -/
inductive Attr where
  | xyz
  | viewdir
  | imgsz
  | f
  | c
  | k
  | p
deriving DecidableEq

/-- First index in the vector (128-195). -/
def Attr.start : Attr → Nat
  | .xyz => 0
  | .viewdir => 3
  | .imgsz => 6
  | .f => 8
  | .c => 10
  | .k => 12
  | .p => 18

/-- Number of elements (128-195). -/
def Attr.len : Attr → Nat
  | .xyz => 3
  | .viewdir => 3
  | .imgsz => 2
  | .f => 2
  | .c => 2
  | .k => 6
  | .p => 2

/-- A camera: `_vector`, `_original_vector`, `_sensorsz`. -/
structure Cam where
  vec : Ref
  orig : Ref
  sensor : Option Ref
deriving DecidableEq

/-- A value that the caller holds: `len` elements of an array from `start`. -/
structure View where
  ref : Ref
  start : Nat
  len : Nat
deriving DecidableEq

/-- Memory, the next free reference, the cameras and the values of the caller, each with the number of the camera that it was got from (which no
step uses: it is there to state properties). -/
structure World where
  heap : Ref → List ℚ
  next : Ref
  cams : List Cam
  held : List (Nat × View)

/-- Nothing yet. -/
def World.empty : World := ⟨fun _ => [], 0, [], []⟩

/-- Set the array at a reference. -/
def World.put (w : World) (r : Ref) (a : List ℚ) : World := { w with heap := fun q => if q = r then a else w.heap q }

/-- A new array. -/
def World.alloc (w : World) (a : List ℚ) : World × Ref := ({ w.put w.next a with next := w.next + 1 }, w.next)

/-- A new array, or none. -/
def World.allocOpt (w : World) : Option (List ℚ) → World × Option Ref
  | none => (w, none)
  | some a => ((w.alloc a).1, some (w.alloc a).2)

/-- `a[start:start + len(v)] = v`. -/
def assign (a : List ℚ) (start : Nat) (v : List ℚ) : List ℚ := a.take start ++ v ++ a.drop (start + v.length)

/-- What the caller does. Cameras and values are numbered in the order in which they were made. -/
inductive Op where
  | new (vector : List ℚ) (sensor : Option (List ℚ))
  | copy (cam : Nat)
  | reset (cam : Nat)
  | get (cam : Nat) (a : Attr)
  | set (cam : Nat) (a : Attr) (v : List ℚ)
  | getSensor (cam : Nat)
  | setSensor (cam : Nat) (v : Option (List ℚ))
  | toArray (cam : Nat)
  | idealize (cam : Nat)
  | write (held : Nat) (i : Nat) (x : ℚ)

/-- A setter of an attribute (133-195). -/
def World.setAttr (w : World) (cam : Cam) (a : Attr) (v : List ℚ) : World := w.put cam.vec (assign (w.heap cam.vec) a.start v)

/-- One step; `none` if there is no such camera or value, or something has the wrong length. -/
def step (w : World) : Op → Option World
  | .new v s =>
    if v.length = 20 then
      let (w, vec) := w.alloc v
      let (w, sensor) := w.allocOpt s
      let (w, orig) := w.alloc (w.heap vec)
      some { w with cams := w.cams ++ [⟨vec, orig, sensor⟩] }
    else none
  | .copy i => (w.cams[i]?).map fun cam =>
      let (w, vec) := w.alloc (w.heap cam.vec)
      let (w, sensor) := w.allocOpt (cam.sensor.map w.heap)
      let (w, orig) := w.alloc (w.heap vec)
      { w with cams := w.cams ++ [⟨vec, orig, sensor⟩] }
  | .reset i => (w.cams[i]?).map fun cam =>
      let (w, vec) := w.alloc (w.heap cam.orig)
      { w with cams := w.cams.set i { cam with vec := vec } }
  | .get i a => (w.cams[i]?).map fun cam =>
      match a with
      | .imgsz =>
        let (w, r) := w.alloc (((w.heap cam.vec).drop 6).take 2 |>.map fun x => (truncInt x : ℚ))
        { w with held := w.held ++ [(i, ⟨r, 0, 2⟩)] }
      | a => { w with held := w.held ++ [(i, ⟨cam.vec, a.start, a.len⟩)] }
  | .set i a v => (w.cams[i]?).bind fun cam => if v.length = a.len then some (w.setAttr cam a v) else none
  | .getSensor i => (w.cams[i]?).bind fun cam => cam.sensor.map fun r => { w with held := w.held ++ [(i, ⟨r, 0, (w.heap r).length⟩)] }
  | .setSensor i v => (w.cams[i]?).map fun cam =>
      let (w, r) := w.allocOpt v
      { w with cams := w.cams.set i { cam with sensor := r } }
  | .toArray i => (w.cams[i]?).map fun cam =>
      let (w, r) := w.alloc (w.heap cam.vec)
      { w with held := w.held ++ [(i, ⟨r, 0, 20⟩)] }
  | .idealize i => (w.cams[i]?).map fun cam =>
      ((w.setAttr cam .k (List.replicate 6 0)).setAttr cam .p (List.replicate 2 0)).setAttr cam .c (List.replicate 2 0)
  | .write h i x => (w.held[h]?).bind fun v =>
      if i < v.2.len then some (w.put v.2.ref ((w.heap v.2.ref).set (v.2.start + i) x)) else none

/-- A history. -/
def run (w : World) : List Op → Option World
  | [] => some w
  | o :: os => (step w o).bind fun w => run w os

/-- `cam._vector` of a camera: `to_array()`. -/
def World.vector (w : World) (i : Nat) : Option (List ℚ) := (w.cams[i]?).map fun cam => w.heap cam.vec

/-- Sensor size of a camera. -/
def World.sensorsz (w : World) (i : Nat) : Option (Option (List ℚ)) := (w.cams[i]?).map fun cam => cam.sensor.map w.heap

/-- Elements of a value that the caller holds. -/
def World.read (w : World) (h : Nat) : Option (List ℚ) := (w.held[h]?).map fun v => ((w.heap v.2.ref).drop v.2.start).take v.2.len

end Glimpse.CamMem
