import Verif.Model.Basic
import Mathlib.Data.Nat.Digits.Defs
import Mathlib.Algebra.Order.Field.Rat

/-!
Model of `src/glimpse/svg.py`. Strings are lists of characters. Regular expressions are modelled by the deterministic
scanners they amount to (each is greedy, and none of them can match after giving back characters).
-/
set_option autoImplicit false

namespace Glimpse.Svg

/-! ### Numbers in text -/

/-- The digits `[0-9]+` (or none) at the start. -/
def digits (s : List Char) : List Char := s.takeWhile Char.isDigit

/-- `(?:\.[0-9]+|[0-9]+(?:\.[0-9]+)?)` at the start (svg.py:24-26). -/
def matchMantissa (s : List Char) : Option (List Char) :=
  match s with
  | [] => none
  | c :: r =>
    if c = '.' then
      if digits r = [] then none else some ('.' :: digits r)
    else if digits (c :: r) = [] then none
    else
      let ds := digits (c :: r)
      match (c :: r).drop ds.length with
      | [] => some ds
      | p :: q => if p = '.' ∧ digits q ≠ [] then some (ds ++ '.' :: digits q) else some ds

/-- `[+-]?` at the start. -/
def matchSign (s : List Char) : List Char :=
  match s with
  | [] => []
  | c :: _ => if c = '+' ∨ c = '-' then [c] else []

/-- `(?:[Ee][+-]?[0-9]+)?` at the start (svg.py:24-26). -/
def matchExp (s : List Char) : List Char :=
  match s with
  | [] => []
  | c :: r =>
    if c = 'e' ∨ c = 'E' then
      let sg := matchSign r
      let ds := digits (r.drop sg.length)
      if ds = [] then [] else c :: (sg ++ ds)
    else []

/-- `COORD_REGEX` at the start of a string: the matched token (svg.py:24-26). -/
def matchNum (s : List Char) : Option (List Char) :=
  let sg := matchSign s
  match matchMantissa (s.drop sg.length) with
  | none => none
  | some m => some (sg ++ m ++ matchExp (s.drop (sg.length + m.length)))

/-- `COORD_REGEX.findall`: the tokens, scanning left to right; `skip` characters belong to the last token. -/
def findNumsFrom : List Char → Nat → List (List Char)
  | [], _ => []
  | _ :: cs, skip + 1 => findNumsFrom cs skip
  | c :: cs, 0 =>
    match matchNum (c :: cs) with
    | some t => t :: findNumsFrom cs (t.length - 1)
    | none => findNumsFrom cs 0

/-- `COORD_REGEX.findall(s)`. -/
def findNums (s : List Char) : List (List Char) := findNumsFrom s 0

/-- `_chunks(x, 2)` (svg.py:176-191): an incomplete last chunk is dropped. -/
def chunks2 {ν : Type} : List ν → List (ν × ν)
  | x :: y :: r => (x, y) :: chunks2 r
  | _ => []

/-- The last two of each of `_chunks(x, 4)`. -/
def chunks4 {ν : Type} : List ν → List (ν × ν)
  | _ :: _ :: x :: y :: r => (x, y) :: chunks4 r
  | _ => []

/-- The last two of each of `_chunks(x, 6)`. -/
def chunks6 {ν : Type} : List ν → List (ν × ν)
  | _ :: _ :: _ :: _ :: x :: y :: r => (x, y) :: chunks6 r
  | _ => []

/-- The last two of each of `_chunks(x, 7)`. -/
def chunks7 {ν : Type} : List ν → List (ν × ν)
  | _ :: _ :: _ :: _ :: _ :: x :: y :: r => (x, y) :: chunks7 r
  | _ => []

/-- Text and numbers: Python's `str` of a number and `_num` of a text (svg.py:194-216). -/
structure Fmt (ν : Type) where
  str : ν → List Char
  num : List Char → ν

/-- Python `str` of a non-negative `int`. -/
def natStr (n : Nat) : List Char :=
  if n = 0 then ['0'] else ((Nat.digits 10 n).reverse.map Nat.digitChar)

/-- Python `str` of an `int`. -/
def intStr (z : ℤ) : List Char := if z < 0 then '-' :: natStr z.natAbs else natStr z.natAbs

/-- Value of a string of digits. -/
def natOf (s : List Char) : Nat := Nat.ofDigits 10 (s.reverse.map fun c => c.toNat - '0'.toNat)

/-- Python `int(text)` for the texts that `COORD_REGEX` finds. -/
def intOf (s : List Char) : Option ℤ :=
  match s with
  | '-' :: r => if r ≠ [] ∧ r.all Char.isDigit then some (-(natOf r : ℤ)) else none
  | '+' :: r => if r ≠ [] ∧ r.all Char.isDigit then some (natOf r : ℤ) else none
  | r => if r ≠ [] ∧ r.all Char.isDigit then some (natOf r : ℤ) else none

/-- A Python number: `int` or `float` (of any type `φ`). -/
inductive Number (φ : Type) where
  | int (z : ℤ)
  | flt (f : φ)
deriving DecidableEq

/-- Python's `str` and `_num` (svg.py:209-215): `int(x)` and, failing that, `float(x)`. Floats are a parameter: their
`repr` and `float(text)`. -/
def pyFmt {φ : Type} (repr : φ → List Char) (float : List Char → φ) : Fmt (Number φ) where
  str
    | .int z => intStr z
    | .flt f => repr f
  num s :=
    match intOf s with
    | some z => .int z
    | none => .flt (float s)

/-! ### Points -/

variable {ν : Type}

/-- `Points.closed` (svg.py:424-439). -/
def closed [DecidableEq ν] (xy : List (ν × ν)) : Bool :=
  if 1 < xy.length then decide (xy.head? = xy.getLast?) else true

/-- `f"{x},{y}"`. -/
def Fmt.pair (F : Fmt ν) (p : ν × ν) : List Char := F.str p.1 ++ ',' :: F.str p.2

/-- `" ".join(words)`. -/
def joinSpace : List (List Char) → List Char
  | [] => []
  | [w] => w
  | w :: v :: ws => w ++ ' ' :: joinSpace (v :: ws)

/-- `Points._points_to_xy` (svg.py:562-565). -/
def Fmt.pointsToXy (F : Fmt ν) (s : List Char) : List (ν × ν) :=
  (chunks2 (findNums s)).map fun p => (F.num p.1, F.num p.2)

/-- `Points._xy_to_points` (svg.py:567-569). -/
def Fmt.xyToPoints (F : Fmt ν) (xy : List (ν × ν)) : List Char := joinSpace (xy.map F.pair)

/-- `Points._from_polyline` (svg.py:571-574). -/
def Fmt.fromPolyline (F : Fmt ν) (s : List Char) : List (ν × ν) := F.pointsToXy s

/-- `Points._to_polyline` (svg.py:576-577). -/
def Fmt.toPolyline (F : Fmt ν) (xy : List (ν × ν)) : List Char := F.xyToPoints xy

/-- `Points._from_polygon` (svg.py:579-585). -/
def Fmt.fromPolygon [DecidableEq ν] (F : Fmt ν) (s : List Char) : List (ν × ν) :=
  let xy := F.pointsToXy s
  if closed xy then xy else xy ++ xy.head?.toList

/-- `Points._to_polygon` (svg.py:587-589). -/
def Fmt.toPolygon [DecidableEq ν] (F : Fmt ν) (xy : List (ν × ν)) : List Char :=
  F.xyToPoints (if closed xy then xy.dropLast else xy)

/-- `Points._to_line` (svg.py:598-602): attributes x1, y1, x2, y2. -/
def Fmt.toLine [Zero ν] (F : Fmt ν) (xy : List (ν × ν)) : List Char × List Char × List Char × List Char :=
  let a := xy.head?.getD (0, 0)
  let b := xy.getLast?.getD (0, 0)
  (F.str a.1, F.str a.2, F.str b.1, F.str b.2)

/-- `Points._from_line` (svg.py:591-596). -/
def Fmt.fromLine (F : Fmt ν) (l : List Char × List Char × List Char × List Char) : List (ν × ν) :=
  [(F.num l.1, F.num l.2.1), (F.num l.2.2.1, F.num l.2.2.2)]

/-- `Points._to_circle` (svg.py:609-612): attributes cx, cy. -/
def Fmt.toCircle [Zero ν] (F : Fmt ν) (xy : List (ν × ν)) : List Char × List Char :=
  let a := xy.head?.getD (0, 0)
  (F.str a.1, F.str a.2)

/-- `Points._from_circle` (svg.py:604-607). -/
def Fmt.fromCircle (F : Fmt ν) (l : List Char × List Char) : List (ν × ν) := [(F.num l.1, F.num l.2)]

/-- Python `min` of a non-empty list. -/
def pyMin [LinearOrder ν] (a : ν) (l : List ν) : ν := l.foldl min a

/-- Python `max` of a non-empty list. -/
def pyMax [LinearOrder ν] (a : ν) (l : List ν) : ν := l.foldl max a

/-- `Points.bbox` (svg.py:441-459): x, y, width, height. -/
def bbox [LinearOrder ν] [Sub ν] (xy : List (ν × ν)) : Option (ν × ν × ν × ν) :=
  match xy with
  | [] => none
  | p :: r =>
    let x := pyMin p.1 (r.map Prod.fst)
    let y := pyMin p.2 (r.map Prod.snd)
    some (x, y, pyMax p.1 (r.map Prod.fst) - x, pyMax p.2 (r.map Prod.snd) - y)

/-- The corners of a box (svg.py:614-620). -/
def rectXy [Add ν] (b : ν × ν × ν × ν) : List (ν × ν) :=
  [(b.1, b.2.1), (b.1 + b.2.2.1, b.2.1), (b.1 + b.2.2.1, b.2.1 + b.2.2.2), (b.1, b.2.1 + b.2.2.2), (b.1, b.2.1)]

/-- `Points._to_rect` and `_to_image` (svg.py:622-632, 655-656): attributes x, y, width, height. -/
def Fmt.toRect [LinearOrder ν] [Sub ν] [Zero ν] (F : Fmt ν) (xy : List (ν × ν)) :
    List Char × List Char × List Char × List Char :=
  let b := (bbox xy).getD (0, 0, 0, 0)
  (F.str b.1, F.str b.2.1, F.str b.2.2.1, F.str b.2.2.2)

/-- `Points._from_rect` and `_from_image` (svg.py:614-620, 649-653). -/
def Fmt.fromRect [Add ν] (F : Fmt ν) (l : List Char × List Char × List Char × List Char) : List (ν × ν) :=
  rectXy (F.num l.1, F.num l.2.1, F.num l.2.2.1, F.num l.2.2.2)

/-- `Points._to_svg` (svg.py:642-647): the `viewBox` attribute, none if there are no points. -/
def Fmt.toSvg [LinearOrder ν] [Sub ν] (F : Fmt ν) (xy : List (ν × ν)) : Option (List Char) :=
  (bbox xy).map fun b => joinSpace [F.str b.1, F.str b.2.1, F.str b.2.2.1, F.str b.2.2.2]

/-- `Points._from_svg` (svg.py:634-640): unpacking anything but four numbers raises. -/
def Fmt.fromSvg [Add ν] (F : Fmt ν) (s : Option (List Char)) : Except Err (List (ν × ν)) :=
  match s with
  | none => .ok []
  | some [] => .ok []
  | some (c :: cs) =>
    match findNums (c :: cs) with
    | [x, y, w, h] => .ok (rectXy (F.num x, F.num y, F.num w, F.num h))
    | _ => .error .valueError

/-! ### Paths -/

/-- `[a-df-zA-DF-Z]`: a command letter (any letter but e, E, which appear in numbers). -/
def isCmd (c : Char) : Bool := c.isAlpha && !(c == 'e' || c == 'E')

/-- The maximal runs of characters that are, or are not, command letters. -/
def groups : List Char → List (Bool × List Char)
  | [] => []
  | c :: cs =>
    match groups cs with
    | [] => [(isCmd c, [c])]
    | (b, g) :: gs => if b = isCmd c then (b, c :: g) :: gs else (isCmd c, [c]) :: (b, g) :: gs

/-- `regex["cmd"].findall(d)` (svg.py:662, 666). -/
def pathCommands (d : List Char) : List (List Char) := ((groups d).filter (·.1)).map (·.2)

/-- `regex["seq"].findall(d)` (svg.py:663, 669). -/
def pathSeqs (d : List Char) : List (List Char) := ((groups d).filter fun g => !g.1).map (·.2)

/-- `xy[-1]`. -/
def last (xy : List (ν × ν)) : Except Err (ν × ν) :=
  match xy.getLast? with
  | some p => .ok p
  | none => .error .indexError

/-- Append points given relative to the last one (svg.py:680-686): the first point is absolute. -/
def relFirst [Add ν] (xy : List (ν × ν)) (d : ν × ν) : Except Err (List (ν × ν)) :=
  match xy.getLast? with
  | none => .ok [d]
  | some p => .ok (xy ++ [(p.1 + d.1, p.2 + d.2)])

/-- Append a point given relative to the last one (svg.py:707-708 etc.). -/
def rel [Add ν] (xy : List (ν × ν)) (d : ν × ν) : Except Err (List (ν × ν)) := do
  let p ← last xy
  .ok (xy ++ [(p.1 + d.1, p.2 + d.2)])

/-- One command with its parameters (svg.py:674-731). -/
def pathCommand [Add ν] (xy : List (ν × ν)) (cmd : List Char) (ps : List ν) : Except Err (List (ν × ν)) :=
  match cmd with
  | ['M'] | ['L'] | ['T'] => .ok (xy ++ chunks2 ps)
  | ['m'] | ['l'] | ['t'] => (chunks2 ps).foldlM relFirst xy
  | ['H'] => ps.foldlM (fun (l : List (ν × ν)) (x : ν) => do let p ← last l; .ok (l ++ [(x, p.2)])) xy
  | ['h'] => ps.foldlM (fun (l : List (ν × ν)) (dx : ν) => do let p ← last l; .ok (l ++ [(p.1 + dx, p.2)])) xy
  | ['V'] => ps.foldlM (fun (l : List (ν × ν)) (y : ν) => do let p ← last l; .ok (l ++ [(p.1, y)])) xy
  | ['v'] => ps.foldlM (fun (l : List (ν × ν)) (dy : ν) => do let p ← last l; .ok (l ++ [(p.1, p.2 + dy)])) xy
  | ['C'] => .ok (xy ++ chunks6 ps)
  | ['c'] => (chunks6 ps).foldlM rel xy
  | ['S'] | ['Q'] => .ok (xy ++ chunks4 ps)
  | ['s'] | ['q'] => (chunks4 ps).foldlM rel xy
  | ['A'] => .ok (xy ++ chunks7 ps)
  | ['a'] => (chunks7 ps).foldlM rel xy
  | ['Z'] | ['z'] =>
    match xy.head? with
    | some p => .ok (xy ++ [p])
    | none => .error .indexError
  | _ => .error .valueError

/-- The loop over commands (svg.py:673-731). -/
def pathLoop [Add ν] (l : List (List Char × List ν)) : Except Err (List (ν × ν)) :=
  l.foldlM (fun xy c => pathCommand xy c.1 c.2) []

/-- The pairing of commands with parameters (svg.py:666-674). -/
def Fmt.pathPairs (F : Fmt ν) (d : List Char) : List (List Char × List ν) :=
  let cmds := pathCommands d
  let ps := (pathSeqs d).map fun s => (findNums s).map F.num
  cmds.zip (if cmds.getLast? = some ['Z'] ∨ cmds.getLast? = some ['z'] then ps ++ [[]] else ps)

/-- `Points._from_path` (svg.py:658-732). -/
def Fmt.fromPath [Add ν] (F : Fmt ν) (d : List Char) : Except Err (List (ν × ν)) := pathLoop (F.pathPairs d)

/-- The words of the points of a path (svg.py:737-745); `i` is the index. -/
def Fmt.pathWords (F : Fmt ν) : Nat → List (ν × ν) → List (List Char)
  | _, [] => []
  | 0, p :: ps => ('M' :: ' ' :: F.pair p) :: F.pathWords 1 ps
  | 1, p :: ps => ('L' :: ' ' :: F.pair p) :: F.pathWords 2 ps
  | i + 2, p :: ps => F.pair p :: F.pathWords (i + 3) ps

/-- `Points._to_path` (svg.py:734-748). -/
def Fmt.toPath [DecidableEq ν] (F : Fmt ν) (xy : List (ν × ν)) : List Char :=
  joinSpace (F.pathWords 0 (if closed xy then xy.dropLast else xy) ++ if closed xy then [['Z']] else [])

end Glimpse.Svg
