import Verif.Model.CameraJson
import Verif.Model.Json

/-!
Model of `Camera.to_json` (src/glimpse/camera.py:449-485) and `Camera.from_json` (331-353) with the text of the file: the dictionary of
`CameraJson` as a JSON value, and JSON values as the entries which `from_json` reads.

Simplifications: numbers are of a type `N` with a value for each (`val`), for instance the finite floats; entries that are texts, or arrays of
anything but numbers and null, are not modelled (`ofJson` is `none`); the file is its text.
-/
set_option autoImplicit false

namespace Glimpse.CamJson
open Glimpse.Json

variable {N : Type}

/-- The elements of an array of numbers: `np.array(value, dtype=float)` (346) makes NaN of null and NaN. -/
def numsOf (val : N → ℚ) : Items N → Option (List Num)
  | .nil => some []
  | .cons (.num x) l => (numsOf val l).map (some (val x) :: ·)
  | .cons .nan l => (numsOf val l).map (none :: ·)
  | .cons .null l => (numsOf val l).map (none :: ·)
  | .cons _ _ => none

/-- One entry of the file (346). -/
def valOf (val : N → ℚ) : Json N → Option JVal
  | .null => some .null
  | .bool b => some (.bool b)
  | .num x => some (.nums [some (val x)])
  | .nan => some (.nums [none])
  | .arr l => (numsOf val l).map .nums
  | .obj _ => some .dict
  | _ => none

/-- The entries of the file (344-345). -/
def entriesOf (val : N → ℚ) : Members N → Option (List (String × JVal))
  | .nil => some []
  | .cons k v m => do
    let x ← valOf val v
    let r ← entriesOf val m
    some ((String.ofList k, x) :: r)

/-- The dictionary in a file (344). -/
def ofJson (val : N → ℚ) : Json N → Option (List (String × JVal))
  | .obj m => entriesOf val m
  | _ => none

/-- `Camera.from_json` (344-353) of the text of a file. A text that is not JSON raises JSONDecodeError, which is a ValueError. -/
def fromText (F : NumFmt N) (val : N → ℚ) (text : List Char) (kw : List (String × KwVal)) : Option (Except Err Cam) :=
  match loads F text with
  | none => some (.error .valueError)
  | some j => (ofJson val j).map fun file => fromJson file kw

/-- A number as `json.dumps` finds it (`numpy_to_native`, 447): `num` gives the number of a value. -/
def itemsOf (num : ℚ → N) : List Num → Items N
  | [] => .nil
  | none :: l => .cons .nan (itemsOf num l)
  | some x :: l => .cons (.num (num x)) (itemsOf num l)

/-- One entry of the dictionary (447). The dictionary of corrections has two numbers (117-120), which are not read again (see `valOf`): here
it is empty. -/
def jsonOf (num : ℚ → N) : JVal → Json N
  | .null => .null
  | .bool b => .bool b
  | .nums l => .arr (itemsOf num l)
  | .dict => .obj .nil

/-- The dictionary (447). -/
def membersOf (num : ℚ → N) : List (String × JVal) → Members N
  | [] => .nil
  | (k, v) :: d => .cons k.toList (jsonOf num v) (membersOf num d)

/-- `Camera.to_json` (484-485) with argument `indent`, and `flat_arrays` false or true (helpers.py:288-299). -/
def Cam.toText (F : NumFmt N) (num : ℚ → N) (cam : Cam) (attributes : List String) (flat : Bool) (indent : Option Int) : Except Err (List Char) := do
  let d ← cam.toDict attributes
  JsonText.writeJson (dumps F indent (.obj (membersOf num d))) flat indent

end Glimpse.CamJson
