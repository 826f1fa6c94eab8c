import Verif.Model.Lists
import Verif.Model.Grid
import Mathlib.Data.Rat.Floor

/-!
Model of the construction of cameras (src/glimpse/camera.py:76-121 and the setters 123-234) and of `Camera.from_json`
(331-353), `to_dict` (428-447) and `to_json` (449-485). Arithmetic is exact. A number is `none` if it is NaN.

Simplifications: the elements of `_vector` are kept as one list for each attribute (the slices 123-192 are disjoint);
infinite numbers are not modelled (a division by zero gives NaN here); the file is the list of names and values (`json`
writes and reads a number without loss).
-/
set_option autoImplicit false

namespace Glimpse.CamJson

/-- A number; `none` is NaN. -/
abbrev Num := Option ℚ

/-- An argument of type Vector: None, or a list (a number `x` stands for `[x]`, helpers.py:62-63). -/
abbrev Arg := Option (List Num)

/-- Argument `correction` (camera.py:88, 117-120): false, true, a dictionary with some of the two entries, or something else
(a number read from JSON). -/
inductive CorrArg where
  | off
  | on
  | dict (radius refraction : Arg)
  | other (x : List Num)
deriving DecidableEq

/-- Attribute `correction`: false, the dictionary, or something else. -/
inductive Corr where
  | off
  | dict (radius refraction : Arg)
  | other (x : List Num)
deriving DecidableEq

/-- Arguments of `Camera` (76-89). Those which the caller leaves out have the values of `Args.default`. -/
structure Args where
  imgsz : Arg
  f : Arg
  c : Arg
  sensorsz : Arg
  fmm : Arg
  cmm : Arg
  k : Arg
  p : Arg
  xyz : Arg
  viewdir : Arg
  correction : CorrArg
deriving DecidableEq

/-- Default values of the arguments (79-88). `imgsz` has none: see `call`. -/
def Args.default : Args :=
  ⟨none, none, none, none, none, none, some (List.replicate 6 (some 0)), some (List.replicate 2 (some 0)),
    some (List.replicate 3 (some 0)), some (List.replicate 3 (some 0)), .off⟩

/-- A camera. -/
structure Cam where
  xyz : List Num
  viewdir : List Num
  imgsz : List Num
  f : List Num
  c : List Num
  k : List Num
  p : List Num
  sensorsz : Arg
  correction : Corr
deriving DecidableEq

/-- `helpers.format_list` (helpers.py:60-81) of an argument. What it does to the caller's list is not part of this model (see
Lists). -/
def fmt (x : Arg) (len : Nat) (default : Option Num) : Except Err Arg :=
  match x with
  | none => .ok none
  | some l => (formatList false l (some len) default none).map fun r => some r.1

/-- `self._vector[a:b] = value` (for instance 131) with `n = b - a`: None becomes NaN, one number is repeated, other lengths
raise ValueError. -/
def assign (n : Nat) : Arg → Except Err (List Num)
  | none => .ok (List.replicate n none)
  | some l => if l.length = n then .ok l else match l with
    | [x] => .ok (List.replicate n x)
    | _ => .error .valueError

/-- The setters of xyz, viewdir, k, p (131, 146, 182, 191) and c (173): missing elements are zero. -/
def setPadded (n : Nat) (x : Arg) : Except Err (List Num) := do assign n (← fmt x n (some (some 0)))

/-- The setter of f (163): elements are repeated. -/
def setF (x : Arg) : Except Err (List Num) := do assign 2 (← fmt x 2 none)

/-- `int(x)` for each element (154; helpers.py:80): ValueError for NaN. -/
def asInts : List Num → Except Err (List Num)
  | [] => .ok []
  | none :: _ => .error .valueError
  | some x :: l => do .ok (some (truncInt x : ℚ) :: (← asInts l))

/-- The setter of imgsz (153-158). -/
def setImgsz (x : Arg) : Except Err (List Num) := do
  match ← fmt x 2 none with
  | none => assign 2 none
  | some l =>
    let ints ← asInts l
    if ints ≠ l then throw .valueError
    assign 2 (some ints)

/-- The setter of sensorsz (199-202). -/
def setSensor (x : Arg) : Except Err Arg := fmt x 2 none

/-- `/` for numbers: NaN if either is, or for a zero divisor (numpy: inf or NaN). -/
def numDiv (a b : Num) : Num := a.bind fun x => b.bind fun y => if y = 0 then none else some (x / y)

/-- `*` for numbers. -/
def numMul (a b : Num) : Num := a.bind fun x => b.map fun y => x * y

/-- `format_list(value) * self.imgsz / self.sensorsz` (105, 111, 217, 230-232), element by element. Other lengths than two
raise ValueError (one is broadcast, but a list of one is never left by `fmt`). -/
def toPixels (v : Arg) (imgsz : List Num) (sensor : Arg) : Except Err Arg :=
  match v, sensor with
  | some v, some s =>
    if v.length = 2 ∧ imgsz.length = 2 ∧ s.length = 2 then
      .ok (some (List.zipWith numDiv (List.zipWith numMul v imgsz) s))
    else .error .valueError
  | _, _ => .error .typeError

/-- The default and custom entries of the dictionary of corrections (117-120). -/
def setCorrection : CorrArg → Corr
  | .off => .off
  | .on => .dict (some [some 6378100]) (some [some (13 / 100)])
  | .dict r n => .dict (r <|> some [some 6378100]) (n <|> some [some (13 / 100)])
  | .other x => .other x

/-- The focal length from either argument (104-108). -/
def focal (a : Args) (imgsz : List Num) (sensor : Arg) : Except Err Arg :=
  match a.fmm with
  | some fmm => do toPixels (← fmt (some fmm) 2 none) imgsz sensor
  | none => match a.f with
    | none => .error .valueError
    | some f => .ok (some f)

/-- The principal point offset from either argument (110-113). -/
def center (a : Args) (imgsz : List Num) (sensor : Arg) : Except Err Arg :=
  match a.cmm with
  | some cmm => do toPixels (← fmt (some cmm) 2 none) imgsz sensor
  | none => .ok (some (a.c.getD (List.replicate 2 (some 0))))

/-- The tests on arguments (90-97). -/
def argError (a : Args) : Bool :=
  ((a.fmm.isSome || a.cmm.isSome) && a.sensorsz.isNone) || (a.f.isSome && a.fmm.isSome) || (a.c.isSome && a.cmm.isSome)

/-- `Camera.__init__` (90-121). -/
def construct (a : Args) : Except Err Cam := do
  if argError a then throw .valueError
  let xyz ← setPadded 3 a.xyz
  let viewdir ← setPadded 3 a.viewdir
  let imgsz ← setImgsz a.imgsz
  let sensor ← setSensor a.sensorsz
  let f ← setF (← focal a imgsz sensor)
  let c ← setPadded 2 (← center a imgsz sensor)
  let k ← setPadded 6 a.k
  let p ← setPadded 2 a.p
  .ok ⟨xyz, viewdir, imgsz, f, c, k, p, sensor, setCorrection a.correction⟩

/-- Property `fmm` (204-209). -/
def Cam.fmm (cam : Cam) : Arg := cam.sensorsz.map fun s => List.zipWith numDiv (List.zipWith numMul cam.f s) cam.imgsz

/-- Property `cmm` (219-224). -/
def Cam.cmm (cam : Cam) : Arg := cam.sensorsz.map fun s => List.zipWith numDiv (List.zipWith numMul cam.c s) cam.imgsz

/-- The setter of `fmm` (211-217). -/
def Cam.setFmm (cam : Cam) (x : Arg) : Except Err Cam :=
  match cam.sensorsz with
  | none => .error .valueError
  | some s => do
    let f ← setF (← toPixels (← fmt x 2 none) cam.imgsz (some s))
    .ok { cam with f := f }

/-- The setter of `cmm` (226-234). -/
def Cam.setCmm (cam : Cam) (x : Arg) : Except Err Cam :=
  match cam.sensorsz with
  | none => .error .valueError
  | some s => do
    let c ← setPadded 2 (← toPixels (← fmt x 2 (some (some 0))) cam.imgsz (some s))
    .ok { cam with c := c }

/-! ### JSON -/

/-- A value in a JSON file: what `to_dict` gives (null, true or false, a list of numbers, a dictionary). -/
inductive JVal where
  | null
  | bool (b : Bool)
  | nums (l : List Num)
  | dict
deriving DecidableEq

/-- A keyword argument of `Camera`. -/
inductive KwVal where
  | vec (x : Arg)
  | corr (x : CorrArg)
deriving DecidableEq

/-- `getattr(self, key)` as native type (447). Another name raises AttributeError (attributes other than these are not
modelled). The image size is truncated to integers (150), which gives no NaN (numpy: the least integer; here 0). -/
def Cam.attr (cam : Cam) : String → Except Err JVal
  | "xyz" => .ok (.nums cam.xyz)
  | "viewdir" => .ok (.nums cam.viewdir)
  | "imgsz" => .ok (.nums (cam.imgsz.map fun x => some (truncInt (x.getD 0) : ℚ)))
  | "f" => .ok (.nums cam.f)
  | "c" => .ok (.nums cam.c)
  | "k" => .ok (.nums cam.k)
  | "p" => .ok (.nums cam.p)
  | "sensorsz" => .ok ((cam.sensorsz.map JVal.nums).getD .null)
  | "fmm" => .ok ((cam.fmm.map JVal.nums).getD .null)
  | "cmm" => .ok ((cam.cmm.map JVal.nums).getD .null)
  | "correction" => .ok (match cam.correction with | .off => .bool false | .dict _ _ => .dict | .other x => .nums x)
  | _ => .error .attributeError

/-- `to_dict` (428-447) and the JSON file of `to_json` (449-485). -/
def Cam.toDict (cam : Cam) (attributes : List String) : Except Err (List (String × JVal)) :=
  attributes.mapM fun key => do .ok (key, ← cam.attr key)

/-- The default attributes (430, 452). -/
def defaultAttributes : List String := ["xyz", "viewdir", "imgsz", "f", "c", "k", "p"]

/-- `np.array(value, dtype=float)` and its replacement by None if all are NaN, also if there are none (346-349). A dictionary
raises TypeError. -/
def readValue : JVal → Except Err Arg
  | .null => .ok none
  | .bool b => .ok (some [some (if b then 1 else 0)])
  | .nums l => .ok (if l.all Option.isNone then none else some l)
  | .dict => .error .typeError

/-- The value of an argument, from the list of keyword arguments or by default. -/
def vecArg (kw : List (String × KwVal)) (name : String) (default : Arg) : Arg :=
  match kw.lookup name with
  | some (.vec x) => x
  | _ => default

/-- Argument `correction`. A value read from JSON is an array or None, neither True nor a dictionary (117-121). -/
def corrArg (kw : List (String × KwVal)) : CorrArg :=
  match kw.lookup "correction" with
  | some (.corr x) => x
  | some (.vec x) => .other (x.getD [])
  | none => .off

/-- Names of the arguments (77-88). -/
def argNames : List String := ["imgsz", "f", "c", "sensorsz", "fmm", "cmm", "k", "p", "xyz", "viewdir", "correction"]

/-- `cls(**args)` (353): unknown names and a missing image size raise TypeError. -/
def call (kw : List (String × KwVal)) : Except Err Cam :=
  if kw.any (fun x => decide (x.1 ∉ argNames)) || (kw.lookup "imgsz").isNone then .error .typeError
  else construct ⟨vecArg kw "imgsz" none, vecArg kw "f" none, vecArg kw "c" none, vecArg kw "sensorsz" none, vecArg kw "fmm" none,
    vecArg kw "cmm" none, vecArg kw "k" Args.default.k, vecArg kw "p" Args.default.p, vecArg kw "xyz" Args.default.xyz,
    vecArg kw "viewdir" Args.default.viewdir, corrArg kw⟩

/-- `Camera.from_json` (344-353) of the entries of a file, whose names are distinct. `{**json_args, **kwargs}`: the keyword
arguments come first in the lookup. -/
def fromJson (file : List (String × JVal)) (kw : List (String × KwVal)) : Except Err Cam := do
  let args ← file.mapM fun e => do .ok (e.1, KwVal.vec (← readValue e.2))
  call (kw ++ args)

end Glimpse.CamJson
