import Verif.Model.CameraJson
import Verif.Model.Exif

/-!
Model of `Image.__init__` (src/glimpse/image.py:85-113) and of `Exif.make`, `Exif.model`, `Exif.sensorsz`
(src/glimpse/exif.py:136-154).
-/
set_option autoImplicit false

namespace Glimpse.ImgNew

open Glimpse.CamJson Glimpse.Exif

/-! ### Sensor size -/

/-- Whitespace (`str.strip`), of ASCII. -/
def isBlank (c : Char) : Bool := c == ' ' || c == '\t' || c == '\n' || c == '\r' || c == '\x0b' || c == '\x0c'

/-- `str.strip()`. -/
def strip (s : List Char) : List Char := ((s.dropWhile isBlank).reverse.dropWhile isBlank).reverse

/-- `Exif.make`, `Exif.model` (exif.py:136-146). The text of a value that is not text is not modelled (an error here). -/
def text (tags : Tags) (tag : String) : Except Err (Option (List Char)) := do
  match ← parseTag tags tag "0th" with
  | none => .ok none
  | some (.str s) => .ok (if s.isEmpty then none else some s)
  | some _ => .error .other

/-- `Exif.sensorsz` (exif.py:148-154) with the table `SENSOR_SIZES` (8-32). -/
def sensorsz (table : List (List Char × (ℚ × ℚ))) (tags : Tags) : Except Err (Option (ℚ × ℚ)) := do
  let make ← text tags "Make"
  let model ← text tags "Model"
  match make, model with
  | some a, some b => .ok (table.lookup (strip a ++ ' ' :: strip b))
  | _, _ => .ok none

/-! ### Images -/

/-- An `Exif` object, by the properties an image uses. Each may raise when it is evaluated. -/
structure Meta where
  imgsz : Except Err (Option (ℤ × ℤ))
  fmm : Except Err (Option ℚ)
  sensorsz : Except Err (Option (ℚ × ℚ))
  datetime : Except Err (Option DT)
deriving DecidableEq

/-- Argument `cam`: a dictionary of arguments of `Camera` (empty for None) or a camera. -/
inductive CamArg where
  | dict (kw : List (String × KwVal))
  | cam (c : Cam)

/-- An image (image.py:93, 107-113); `array` is None. -/
structure Img where
  cam : Cam
  datetime : Option DT
  exif : Option Meta
deriving DecidableEq

/-- Whether the dictionary has a key. -/
def has (kw : List (String × KwVal)) (name : String) : Bool := (kw.lookup name).isSome

/-- The test on the dictionary (97-99): `and` binds stronger than `or`. -/
def complete (kw : List (String × KwVal)) : Bool :=
  (has kw "imgsz" && has kw "f") || (has kw "fmm" && has kw "sensorsz")

/-- A pair of integers or numbers, or None, as an argument. -/
def intsArg (x : Option (ℤ × ℤ)) : Arg := x.map fun x => [some (x.1 : ℚ), some (x.2 : ℚ)]
def numArg (x : Option ℚ) : Arg := x.map fun x => [some x]
def numsArg (x : Option (ℚ × ℚ)) : Arg := x.map fun x => [some x.1, some x.2]

/-- The dictionary of arguments from metadata (101-104), without those of the caller. -/
def metaKw (m : Meta) : Except Err (List (String × KwVal)) := do
  let a ← m.imgsz
  let b ← m.fmm
  let c ← m.sensorsz
  .ok [("imgsz", .vec (intsArg a)), ("fmm", .vec (numArg b)), ("sensorsz", .vec (numsArg c))]

/-- `exif or Exif(path)` (100, 109). -/
def orRead (exif : Option Meta) (file : Except Err Meta) : Except Err Meta := match exif with
  | some m => .ok m
  | none => file

/-- The camera, and `exif` afterwards (96-107). -/
def camOf (arg : CamArg) (exif : Option Meta) (file : Except Err Meta) : Except Err (Cam × Option Meta) :=
  match arg with
  | .cam c => .ok (c, exif)
  | .dict kw =>
    if complete kw then do
      let c ← call kw
      .ok (c, exif)
    else do
      let m ← orRead exif file
      let d ← metaKw m
      let c ← call (kw ++ d)
      .ok (c, some m)

/-- `Image.__init__` (85-113). `file`: the metadata of the file at the path, if it is read. -/
def new (arg : CamArg) (datetime : Option DT) (exif : Option Meta) (file : Except Err Meta) : Except Err Img := do
  let r ← camOf arg exif file
  match datetime with
  | some t => .ok ⟨r.1, some t, r.2⟩
  | none => do
    let m ← orRead r.2 file
    let t ← m.datetime
    .ok ⟨r.1, t, some m⟩

end Glimpse.ImgNew
