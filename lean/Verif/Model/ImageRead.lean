import Verif.Model.Basic
import Mathlib.Algebra.Order.Floor.Defs
import Mathlib.Data.Rat.Floor

/-!
Model of `Image.read` (src/glimpse/image.py:119-208) as a machine whose state is the cached array and the camera image
size. GDAL is a parameter: a function that returns a window of the file resampled to a buffer size; it raises if the
window is empty or outside the file. A pixel (one value per band) is of any type.
-/
set_option autoImplicit false

namespace Glimpse.ImageRead

/-- An image file as GDAL presents it: its size and `ReadAsArray(xoff, yoff, win_xsize, win_ysize, buf_xsize,
buf_ysize)`, all bands stacked (image.py:190-197). -/
structure File (α : Type) where
  w : Nat
  h : Nat
  pixels : Nat → Nat → Nat → Nat → Nat → Nat → List (List α)

variable {α : Type}

/-- `ReadAsArray` with its checks. Window offsets and sizes are integers. -/
def File.read (f : File α) (xoff yoff wx wy : ℤ) (buf : Option (Nat × Nat)) : Except Err (List (List α)) :=
  if xoff < 0 ∨ yoff < 0 ∨ wx ≤ 0 ∨ wy ≤ 0 ∨ (f.w : ℤ) < xoff + wx ∨ (f.h : ℤ) < yoff + wy then .error .other
  else
    let b := buf.getD (wx.toNat, wy.toNat)
    if b.1 = 0 ∨ b.2 = 0 then .error .other
    else .ok (f.pixels xoff.toNat yoff.toNat wx.toNat wy.toNat b.1 b.2)

/-- `array[y0:y1, x0:x1]`. -/
def crop (a : List (List α)) (x0 y0 x1 y1 : Nat) : List (List α) :=
  ((a.take y1).drop y0).map fun row => (row.take x1).drop x0

/-- A box (left, top, right, bottom). -/
structure Box where
  x0 : Nat
  y0 : Nat
  x1 : Nat
  y1 : Nat

/-- Size (nx, ny) of an array. -/
def sizeOf (a : List (List α)) : Nat × Nat := ((a.headD []).length, a.length)

/-- An image: file, camera image size and cached array (image.py:85-113). -/
structure Img (α : Type) where
  file : File α
  cam : Nat × Nat
  array : Option (List (List α))

/-- Python's `round` of a rational: nearest integer, ties to even. -/
def pyRound (x : ℚ) : ℤ :=
  if x - ⌊x⌋ < 1 / 2 then ⌊x⌋ else if 1 / 2 < x - ⌊x⌋ then ⌊x⌋ + 1
  else if ⌊x⌋ % 2 = 0 then ⌊x⌋ else ⌊x⌋ + 1

/-- `self._cache_imgsz or self._path_imgsz` (image.py:119-129, 171). -/
def Img.size (i : Img α) : Nat × Nat :=
  match i.array with
  | some a => sizeOf a
  | none => (i.file.w, i.file.h)

/-- The read from file (image.py:178-197). -/
def Img.readFile (i : Img α) (box : Option Box) (cache : Bool) : Except Err (List (List α)) :=
  let buf := if i.cam ≠ i.size then some i.cam else none                                  -- 180-182
  match box, cache with
  | some b, false =>                                                                      -- 183-190
    let xs : ℚ := (i.size.1 : ℚ) / (i.cam.1 : ℚ)
    let ys : ℚ := (i.size.2 : ℚ) / (i.cam.2 : ℚ)
    i.file.read (pyRound ((b.x0 : ℚ) * xs)) (pyRound ((b.y0 : ℚ) * ys))
      (pyRound (((b.x1 : ℚ) - (b.x0 : ℚ)) * xs)) (pyRound (((b.y1 : ℚ) - (b.y0 : ℚ)) * ys)) buf
  | _, _ => i.file.read 0 0 i.file.w i.file.h buf

/-- The branch of `Image.read` that reads from file (image.py:178-208): result and new state. -/
def Img.fromFile (i : Img α) (box : Option Box) (cache : Bool) : Except Err (List (List α)) × Img α :=
  match i.readFile box cache with
  | .error e => (.error e, i)
  | .ok a =>
    let i' := if cache then { i with array := some a } else i                             -- 202-204
    match box with
    | none => (.ok a, i')
    | some b => (.ok (if cache then crop a b.x0 b.y0 b.x1 b.y1 else a), i')               -- 205-207

/-- `Image.read` (image.py:131-208): result and new state. -/
def Img.read (i : Img α) (box : Option Box) (cache : Bool) : Except Err (List (List α)) × Img α :=
  match i.array, decide (i.cam = i.size) with
  | some a, true =>                                                                       -- 175-177
    match box with
    | none => (.ok a, i)
    | some b => (.ok (crop a b.x0 b.y0 b.x1 b.y1), i)                                     -- 205-207
  | _, _ => i.fromFile box cache

/-- What can happen to an image between reads. -/
inductive Op where
  | read (box : Option Box) (cache : Bool)
  /-- the camera is resized (`img.cam.resize`, `img.cam.imgsz = ...`) -/
  | resize (nx ny : Nat)
  /-- `img.array = None` -/
  | clear

/-- One operation. -/
def Img.step (i : Img α) : Op → Img α
  | .read b c => (i.read b c).2
  | .resize nx ny => { i with cam := (nx, ny) }
  | .clear => { i with array := none }

/-- A history of operations. -/
def Img.run (i : Img α) (ops : List Op) : Img α := ops.foldl Img.step i

end Glimpse.ImageRead
