import Verif.Model.Basic
import Mathlib.Data.Rat.Defs
import Mathlib.Data.List.Basic

/-!
Model of `Exif` (src/glimpse/exif.py) and of the summaries of `Tracks` (src/glimpse/track/tracks.py:90-138). Reading and
writing of the file itself (piexif) is not modelled.
-/
set_option autoImplicit false

namespace Glimpse.Exif

/-- The value of a tag as piexif returns it: bytes (here the decoded text), an integer, a tuple of integers (several
integers, or one rational number as numerator and denominator), or a tuple of rational numbers. -/
inductive Val where
  | bytes (s : List Char)
  | int (n : ℤ)
  | ints (l : List ℤ)
  | rats (l : List (ℤ × ℤ))
deriving DecidableEq

/-- A parsed value. -/
inductive Parsed where
  | str (s : List Char)
  | num (q : ℚ)
  | int (n : ℤ)
  | ints (l : List ℤ)
  | rats (l : List (ℤ × ℤ))
deriving DecidableEq

/-- `tags`: groups of tags by name. -/
abbrev Tags := List (String × List (String × Val))

/-- The parsing in `Exif.parse_tag` (172-177): bytes are decoded, any tuple of two is taken for a quotient (TypeError if the
two are themselves tuples). -/
def parseVal : Val → Except Err Parsed
  | .bytes s => .ok (.str s)
  | .int n => .ok (.int n)
  | .ints [a, b] => if b = 0 then .error .zeroDivision else .ok (.num ((a : ℚ) / (b : ℚ)))
  | .ints l => .ok (.ints l)
  | .rats [_, _] => .error .typeError
  | .rats l => .ok (.rats l)

/-- `Exif.parse_tag` (156-177): None if the group or tag is missing. -/
def parseTag (tags : Tags) (tag : String) (group : String) : Except Err (Option Parsed) :=
  match (tags.lookup group).bind fun g => g.lookup tag with
  | none => .ok none
  | some v => match parseVal v with
    | .error e => .error e
    | .ok p => .ok (some p)

/-- Truth of a parsed value: not zero or empty. -/
def Parsed.truthy : Parsed → Bool
  | .str s => !s.isEmpty
  | .num q => decide (q ≠ 0)
  | .int n => decide (n ≠ 0)
  | .ints l => !l.isEmpty
  | .rats l => !l.isEmpty

/-- `float(value)` of a number; text and tuples are simplified to errors. -/
def toNum : Parsed → Except Err ℚ
  | .num q => .ok q
  | .int n => .ok n
  | .str _ => .error .valueError
  | _ => .error .typeError

/-- `exposure`, `aperture`, `fmm` (112-133): the number if there is one and it is not zero. -/
def number (tags : Tags) (tag : String) : Except Err (Option ℚ) := do
  match ← parseTag tags tag "Exif" with
  | none => .ok none
  | some v => if v.truthy then do .ok (some (← toNum v)) else .ok none

/-- Python's `int` of a number: towards zero. -/
def toInt (q : ℚ) : ℤ := q.num.tdiv q.den

/-- `iso` (124-128). -/
def iso (tags : Tags) : Except Err (Option ℤ) := do
  match ← number tags "ISOSpeedRatings" with
  | none => .ok none
  | some q => .ok (some (toInt q))

/-- `imgsz` (91-98). -/
def imgsz (tags : Tags) : Except Err (Option (ℤ × ℤ)) := do
  let w ← parseTag tags "PixelXDimension" "Exif"
  let h ← parseTag tags "PixelYDimension" "Exif"
  match w, h with
  | some w, some h =>
    if w.truthy && h.truthy then do
      let a ← toNum w
      let b ← toNum h
      .ok (some (toInt a, toInt b))
    else .ok none
  | _, _ => .ok none

/-! ### Capture time -/

/-- A date and time to the microsecond. -/
structure DT where
  year : Nat
  month : Nat
  day : Nat
  hour : Nat
  minute : Nat
  second : Nat
  micro : Nat
deriving DecidableEq

/-- Number of a text of digits, if it has between `lo` and `hi` characters and all are digits. -/
def digits (lo hi : Nat) (s : List Char) : Option Nat :=
  if lo ≤ s.length ∧ s.length ≤ hi ∧ s.all Char.isDigit then some (s.foldl (fun n c => 10 * n + (c.toNat - '0'.toNat)) 0) else none

/-- Number in a range. -/
def field (lo hi a b : Nat) (s : List Char) : Option Nat := (digits lo hi s).filter fun n => decide (a ≤ n ∧ n ≤ b)

/-- Days in a month. -/
def monthDays (y m : Nat) : Nat :=
  if m = 2 then if y % 4 = 0 ∧ (y % 100 ≠ 0 ∨ y % 400 = 0) then 29 else 28
  else if m = 4 ∨ m = 6 ∨ m = 9 ∨ m = 11 then 30 else 31

/-- Split a text at a character. -/
def splitAtChar (c : Char) : List Char → List (List Char)
  | [] => [[]]
  | x :: xs =>
    if x = c then [] :: splitAtChar c xs
    else match splitAtChar c xs with
      | [] => [[x]]
      | f :: fs => (x :: f) :: fs

/-- Right-pad a text of digits to six (`%f` of strptime). -/
def micros (s : List Char) : Option Nat :=
  (digits 1 6 s).map fun n => n * 10 ^ (6 - s.length)

/-- The parts of the date: `%Y:%m:%d`. -/
def dateParts (s : List Char) : Option (Nat × Nat × Nat) :=
  match splitAtChar ':' s with
  | [y, m, d] => do
    let y ← field 4 4 1 9999 y
    let m ← field 1 2 1 12 m
    let d ← field 1 2 1 (monthDays y m) d
    some (y, m, d)
  | _ => none

/-- The parts of the time: `%H:%M:%S`. -/
def timeParts (s : List Char) : Option (Nat × Nat × Nat) :=
  match splitAtChar ':' s with
  | [h, m, s] => do
    let h ← field 1 2 0 23 h
    let m ← field 1 2 0 59 m
    let s ← field 1 2 0 59 s
    some (h, m, s)
  | _ => none

/-- `datetime.strptime` with the formats of `Exif.datetime` (107-110). Simplifications: one space between date and time
(strptime allows more white space), ASCII digits. -/
def strptime (s : List Char) (withMicro : Bool) : Except Err DT :=
  match splitAtChar ' ' s with
  | [date, time] =>
    let r := do
      let (y, mo, d) ← dateParts date
      if withMicro then
        match splitAtChar '.' time with
        | [t, f] => do
          let (h, mi, s) ← timeParts t
          let us ← micros f
          some (⟨y, mo, d, h, mi, s, us⟩ : DT)
        | _ => none
      else do
        let (h, mi, s) ← timeParts time
        some ⟨y, mo, d, h, mi, s, 0⟩
    match r with
    | some d => .ok d
    | none => .error .valueError
  | _ => .error .valueError

/-- `Exif.datetime` (100-110), from the texts of DateTimeOriginal and SubSecTimeOriginal. -/
def datetime (original : Option (List Char)) (subsec : Option (List Char)) : Except Err (Option DT) := do
  match original.filter fun s => !s.isEmpty with
  | none => .ok none
  | some s => match subsec.filter fun s => !s.isEmpty with
    | none => do .ok (some (← strptime s false))
    | some f => do .ok (some (← strptime (s ++ '.' :: f) true))

/-! ### Writing -/

/-- `tags[group][code] = tags[group].pop(tag)`: the entry is moved to the end under its code, replacing an entry with the
same code. Keys are names or codes. -/
def recode (entries : List ((String ⊕ Nat) × Val)) (tag : String) (code : Nat) : List ((String ⊕ Nat) × Val) :=
  match entries.find? fun e => decide (e.1 = .inl tag) with
  | none => entries
  | some (_, v) =>
    let rest := entries.filter fun e => decide (e.1 ≠ .inl tag)
    if rest.any fun e => decide (e.1 = .inr code) then rest.map fun e => if e.1 = .inr code then (e.1, v) else e
    else rest ++ [(.inr code, v)]

/-- One tag (215-222): `codeOf` is the table of piexif for the group. -/
def dumpStep (codeOf : String → Option Nat) (acc : List ((String ⊕ Nat) × Val)) (e : String × Val) :
    Except Err (List ((String ⊕ Nat) × Val)) :=
  match codeOf e.1 with
  | none => .error .valueError
  | some c => .ok (recode acc e.1 c)

/-- The copied group before any tag is replaced (205). -/
def named (entries : List (String × Val)) : List ((String ⊕ Nat) × Val) := entries.map fun e => (Sum.inl e.1, e.2)

/-- One group (207-222). -/
def dumpGroup (codeOf : String → Option Nat) (entries : List (String × Val)) : Except Err (List ((String ⊕ Nat) × Val)) :=
  entries.foldlM (dumpStep codeOf) (named entries)

/-- Names of groups other than the thumbnail (210). -/
def groupNames : List String := ["0th", "1st", "Exif", "GPS", "Interop"]

/-- The dictionary given to `piexif.dump` by `Exif.dump` (203-224). -/
def dump (codeOf : String → String → Option Nat) (tags : Tags) : Except Err (List (String × List ((String ⊕ Nat) × Val))) :=
  tags.mapM fun g =>
    if g.1 ∈ groupNames then do .ok (g.1, ← dumpGroup (codeOf g.1) g.2) else .error .valueError

end Glimpse.Exif

namespace Glimpse.Tracks

/-- `np.argmax` of booleans: the first true, or zero; ValueError if there are none. -/
def argmaxBool (l : List Bool) : Except Err Nat :=
  if l = [] then .error .valueError else .ok (if true ∈ l then l.idxOf true else 0)

/-- `Tracks.endpoints` (122-138) for one track, from whether its mean is valid at each datetime. -/
def endpointsOne (valid : List Bool) : Except Err (Bool × Nat × Nat) := do
  let first ← argmaxBool valid
  let back ← argmaxBool valid.reverse
  .ok (valid.getD first false, first, valid.length - 1 - back)

/-- `Tracks.endpoints` (122-138): whether each track has any valid datetime, and the first and last of those that have. -/
def endpoints (valid : List (List Bool)) : Except Err (List Bool × List Nat × List Nat) := do
  let r ← valid.mapM endpointsOne
  .ok (r.map (·.1), (r.filter (·.1)).map (·.2.1), (r.filter (·.1)).map (·.2.2))

/-- `Tracks.success` (116-120): None if there are no errors recorded. -/
def success {ε : Type} (errors : Option (List (Option ε))) : Option (List Bool) := errors.map fun l => l.map Option.isNone

end Glimpse.Tracks
