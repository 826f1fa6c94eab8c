import Verif.Model.Basic
import Mathlib.Data.List.Basic
import Mathlib.Algebra.Field.Basic

/-!
Model of the control points, lines and matches of src/glimpse/optimize.py:45-674 as objects that share cameras and arrays:
construction and `resize`. Arrays are held by reference, so that the effect of an operation on the arrays of the caller and
of other controls can be stated.
-/
set_option autoImplicit false

namespace Glimpse.Controls

/-- Image size (nx, ny). -/
abbrev Sz := Nat × Nat

/-- Image point. -/
abbrev Pt (E : Type) := E × E

/-- Arrays of image points by reference; references from `next` on are unused. -/
structure Heap (E : Type) where
  arr : Nat → List (Pt E)
  next : Nat

variable {E κ σ : Type}

/-- A new array. -/
def Heap.alloc (h : Heap E) (l : List (Pt E)) : Nat × Heap E :=
  (h.next, ⟨fun r => if r = h.next then l else h.arr r, h.next + 1⟩)

/-- An array changed in place. -/
def Heap.write (h : Heap E) (r : Nat) (l : List (Pt E)) : Heap E := ⟨fun q => if q = r then l else h.arr q, h.next⟩

/-- What controls use of `Camera`: `imgsz` and `resize(size, force)` (camera.py:510-567), which raises before it changes
anything. `σ` is the type of the arguments of `resize`. -/
structure CamOps (κ σ : Type) where
  imgsz : κ → Sz
  resize : κ → σ → Except Err κ

/-- A control: `Points` (45-236) with `cam`, `uv`, `_imgsz`; `Lines` (238-459) with `cam`, `uvs`, `uv`, `_imgsz`;
`Matches` (461-674) with `cams`, `uvs`, `_imgszs`. Cameras and arrays by reference. -/
inductive Control where
  | points (cam : Nat) (uv : Nat) (imgsz : Sz)
  | lines (cam : Nat) (uvs : List Nat) (uv : Nat) (imgsz : Sz)
  | matches_ (cam0 cam1 : Nat) (uv0 uv1 : Nat) (imgsz0 imgsz1 : Sz)
deriving DecidableEq

/-- All cameras, arrays and controls of a program. -/
structure State (κ E : Type) where
  cams : Nat → κ
  heap : Heap E
  ctls : List Control

/-- `np.asarray(uv, dtype=float)`: the array itself if it holds floats, else a new array (103, 302, 528). -/
def asArray (h : Heap E) (src : Nat × Bool) : Nat × Heap E := if src.2 then (src.1, h) else h.alloc (h.arr src.1)

/-- `[np.asarray(uv, dtype=float) for uv in uvs]`. -/
def asArrays (h : Heap E) : List (Nat × Bool) → List Nat × Heap E
  | [] => ([], h)
  | s :: ss =>
    let a := asArray h s
    let b := asArrays a.2 ss
    (a.1 :: b.1, b.2)

/-- Arguments of a constructor: for each array given its reference and whether it is an array of floats. -/
inductive New where
  | points (cam : Nat) (src : Nat × Bool)
  | lines (cam : Nat) (srcs : List (Nat × Bool))
  | matches_ (cam0 cam1 : Nat) (src0 src1 : Nat × Bool)

/-- `Points.__init__` (98-108), `Lines.__init__` (293-307; `np.row_stack` copies, and raises ValueError if there are no
arrays), `Matches.__init__` (519-547; ValueError for one camera given twice or arrays of different lengths). World
coordinates, weights and positions are not part of this model. -/
def construct (C : CamOps κ σ) (S : State κ E) : New → Except Err (Control × Heap E)
  | .points cam src =>
    let a := asArray S.heap src
    .ok (.points cam a.1 (C.imgsz (S.cams cam)), a.2)
  | .lines cam srcs =>
    if srcs = [] then .error .valueError else
      let a := asArrays S.heap srcs
      let b := a.2.alloc (a.1.flatMap a.2.arr)
      .ok (.lines cam a.1 b.1 (C.imgsz (S.cams cam)), b.2)
  | .matches_ cam0 cam1 src0 src1 =>
    let a := asArray S.heap src0
    let b := asArray a.2 src1
    if cam0 = cam1 then .error .valueError
    else if (b.2.arr a.1).length ≠ (b.2.arr b.1).length then .error .valueError
    else .ok (.matches_ cam0 cam1 a.1 b.1 (C.imgsz (S.cams cam0)) (C.imgsz (S.cams cam1)), b.2)

variable [Field E] [DecidableEq E]

/-- `cam.imgsz / self._imgsz`. -/
def scaleOf (now old : Sz) : Pt E := ((now.1 : E) / (old.1 : E), (now.2 : E) / (old.2 : E))

/-- `uv * scale`. -/
def scalePts (s : Pt E) (l : List (Pt E)) : List (Pt E) := l.map fun p => (p.1 * s.1, p.2 * s.2)

/-- `cam.resize(size, force)` unless `size` is None (230-231, 666-667). -/
def resizeCam (C : CamOps κ σ) (cams : Nat → κ) (j : Nat) : Option σ → Except Err (Nat → κ)
  | none => .ok cams
  | some a => match C.resize (cams j) a with
    | .error e => .error e
    | .ok k => .ok fun i => if i = j then k else cams i

/-- `self.uv = self.uv * scale` if any scale is not one: a new array (200-202, 669-670). -/
def rescaled (h : Heap E) (r : Nat) (s : Pt E) : Nat × Heap E :=
  if s.1 ≠ 1 ∨ s.2 ≠ 1 then h.alloc (scalePts s (h.arr r)) else (r, h)

/-- `self.uvs[i] = uv * scale` for each array (456-457). -/
def rescaledAll (h : Heap E) (s : Pt E) : List Nat → List Nat × Heap E
  | [] => ([], h)
  | r :: rs =>
    let a := h.alloc (scalePts s (h.arr r))
    let b := rescaledAll a.2 s rs
    (a.1 :: b.1, b.2)

/-- `Points.resize` (206-236). -/
def resizePoints (C : CamOps κ σ) (S : State κ E) (i : Nat) (cam uv : Nat) (imgsz : Sz) (a : Option σ) :
    Except Err Unit × State κ E :=
  match resizeCam C S.cams cam a with
  | .error e => (.error e, S)
  | .ok cams =>
    let now := C.imgsz (cams cam)
    let b := rescaled S.heap uv (scaleOf now imgsz)
    (.ok (), ⟨cams, b.2, S.ctls.set i (.points cam b.1 now)⟩)

/-- `Lines.resize` (206-236) with `Lines._scale` (454-458): new arrays in `uvs`, and `uv` changed in place. -/
def resizeLines (C : CamOps κ σ) (S : State κ E) (i : Nat) (cam : Nat) (uvs : List Nat) (uv : Nat) (imgsz : Sz)
    (a : Option σ) : Except Err Unit × State κ E :=
  match resizeCam C S.cams cam a with
  | .error e => (.error e, S)
  | .ok cams =>
    let now := C.imgsz (cams cam)
    let s : Pt E := scaleOf now imgsz
    if s.1 ≠ 1 ∨ s.2 ≠ 1 then
      let b := rescaledAll S.heap s uvs
      (.ok (), ⟨cams, b.2.write uv (scalePts s (b.2.arr uv)), S.ctls.set i (.lines cam b.1 uv now)⟩)
    else (.ok (), ⟨cams, S.heap, S.ctls.set i (.lines cam uvs uv now)⟩)

/-- One camera of `Matches.resize` (665-674). `_imgszs[i]` is only changed if the scale is not one. -/
def resizeSide (C : CamOps κ σ) (cams : Nat → κ) (h : Heap E) (cam uv : Nat) (imgsz : Sz) (a : Option σ) :
    Except Err ((Nat → κ) × Heap E × Nat × Sz) :=
  match resizeCam C cams cam a with
  | .error e => .error e
  | .ok cams' =>
    let s : Pt E := scaleOf (C.imgsz (cams' cam)) imgsz
    if s.1 ≠ 1 ∨ s.2 ≠ 1 then
      let b := h.alloc (scalePts s (h.arr uv))
      .ok (cams', b.2, b.1, C.imgsz (cams' cam))
    else .ok (cams', h, uv, imgsz)

/-- `Matches.resize` (651-674). If the second camera raises, the first is already resized. -/
def resizeMatches (C : CamOps κ σ) (S : State κ E) (i : Nat) (cam0 cam1 uv0 uv1 : Nat) (z0 z1 : Sz) (a : Option σ) :
    Except Err Unit × State κ E :=
  match resizeSide C S.cams S.heap cam0 uv0 z0 a with
  | .error e => (.error e, S)
  | .ok (cams, h, r0, y0) =>
    match resizeSide C cams h cam1 uv1 z1 a with
    | .error e => (.error e, ⟨cams, h, S.ctls.set i (.matches_ cam0 cam1 r0 uv1 y0 z1)⟩)
    | .ok (cams', h', r1, y1) => (.ok (), ⟨cams', h', S.ctls.set i (.matches_ cam0 cam1 r0 r1 y0 y1)⟩)

/-- `control.resize(size, force)`. -/
def resize (C : CamOps κ σ) (S : State κ E) (i : Nat) (a : Option σ) : Except Err Unit × State κ E :=
  match S.ctls[i]? with
  | none => (.error .indexError, S)
  | some (.points cam uv z) => resizePoints C S i cam uv z a
  | some (.lines cam uvs uv z) => resizeLines C S i cam uvs uv z a
  | some (.matches_ c0 c1 u0 u1 z0 z1) => resizeMatches C S i c0 c1 u0 u1 z0 z1 a

/-- What a program can do: make an array, make a control, resize a camera, resize a control. -/
inductive Op (E σ : Type) where
  | array (l : List (Pt E))
  | new (c : New)
  | camResize (cam : Nat) (a : σ)
  | resize (i : Nat) (a : Option σ)

/-- One operation; if it raises, the program goes on with whatever it left behind. -/
def step (C : CamOps κ σ) (S : State κ E) : Op E σ → State κ E
  | .array l => { S with heap := (S.heap.alloc l).2 }
  | .new c => match construct C S c with
    | .error _ => S
    | .ok (ctl, h) => ⟨S.cams, h, S.ctls ++ [ctl]⟩
  | .camResize j a => match resizeCam C S.cams j (some a) with
    | .error _ => S
    | .ok cams => { S with cams := cams }
  | .resize i a => (resize C S i a).2

/-- A history. -/
def run (C : CamOps κ σ) (S : State κ E) : List (Op E σ) → State κ E
  | [] => S
  | o :: os => run C (step C S o) os

/-- The image coordinates of a control, with the camera of each array: what `observed` returns for `Points` and `Matches`
(111-118, 564-573), `uvs` for `Lines`. -/
def coords (S : State κ E) : Control → List (Nat × List (Pt E))
  | .points cam uv _ => [(cam, S.heap.arr uv)]
  | .lines cam uvs _ _ => uvs.map fun r => (cam, S.heap.arr r)
  | .matches_ c0 c1 u0 u1 _ _ => [(c0, S.heap.arr u0), (c1, S.heap.arr u1)]

/-- `RotationMatches`, `RotationMatchesXY` and `RotationMatchesXYZ` have no `_imgszs` (759-777, 861-876), so that the
inherited `resize` raises AttributeError at the first camera, after resizing it (665-668). -/
def resizeRotation (C : CamOps κ σ) (cams : Nat → κ) (cam0 : Nat) (a : Option σ) : Except Err Unit × (Nat → κ) :=
  match resizeCam C cams cam0 a with
  | .error e => (.error e, cams)
  | .ok cams' => (.error .attributeError, cams')

/-- `Matches.to_type` for a type other than its own (644-649), `Matches` to another object with the same arrays: sizes are
taken anew from the cameras. -/
def toType (C : CamOps κ σ) (S : State κ E) : Control → Option Control
  | .matches_ c0 c1 u0 u1 _ _ => some (.matches_ c0 c1 u0 u1 (C.imgsz (S.cams c0)) (C.imgsz (S.cams c1)))
  | _ => none

end Glimpse.Controls
