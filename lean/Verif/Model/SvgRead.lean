import Verif.Model.Svg
import Mathlib.Algebra.Field.Rat

/-!
Model of SVG transforms (`Points.scale`, `translate`, `matrix`, `transform`, svg.py:461-560) and of `read`
(svg.py:42-173).
-/
set_option autoImplicit false

namespace Glimpse.Svg

/-! ### Transforms -/

section
variable {ν : Type} [Mul ν] [Add ν] [Zero ν]

/-- `Points.scale` (svg.py:461-482): `y` defaults to `x`. -/
def scalePts (x : ν) (y : Option ν) (xy : List (ν × ν)) : List (ν × ν) :=
  xy.map fun p => (p.1 * x, p.2 * y.getD x)

/-- `Points.translate` (svg.py:484-499): `y` defaults to 0. -/
def translatePts (x : ν) (y : Option ν) (xy : List (ν × ν)) : List (ν × ν) :=
  xy.map fun p => (p.1 + x, p.2 + y.getD 0)

/-- `Points.matrix` (svg.py:501-523). -/
def matrixPts (a b c d e f : ν) (xy : List (ν × ν)) : List (ν × ν) :=
  xy.map fun p => (a * p.1 + c * p.2 + e, b * p.1 + d * p.2 + f)

/-- `method(*args)` for a method found by name (svg.py:554-559): an unknown name raises ValueError, a wrong number of
arguments TypeError. (Simplification: the names of other attributes of `Points`, such as `closed`, count as unknown.) -/
def callPts (func : List Char) (args : List ν) (xy : List (ν × ν)) : Except Err (List (ν × ν)) :=
  if func = "scale".toList then
    match args with
    | [x] => .ok (scalePts x none xy)
    | [x, y] => .ok (scalePts x (some y) xy)
    | _ => .error .typeError
  else if func = "translate".toList then
    match args with
    | [x] => .ok (translatePts x none xy)
    | [x, y] => .ok (translatePts x (some y) xy)
    | _ => .error .typeError
  else if func = "matrix".toList then
    match args with
    | [a, b, c, d, e, f] => .ok (matrixPts a b c d e f xy)
    | _ => .error .typeError
  else .error .valueError

/-- `([A-Za-z]+)\(([^\)]*)\)` at the start of a string: name and parameters (svg.py:554). -/
def matchCall (s : List Char) : Option (List Char × List Char) :=
  let name := s.takeWhile Char.isAlpha
  if name = [] then none
  else
    match s.drop name.length with
    | [] => none
    | p :: r =>
      if p = '(' then
        let params := r.takeWhile (fun c => c != ')')
        if r.drop params.length = [] then none else some (name, params)
      else none

/-- `re.findall` of the above: `skip` characters belong to the last match. -/
def findCallsFrom : List Char → Nat → List (List Char × List Char)
  | [], _ => []
  | _ :: cs, skip + 1 => findCallsFrom cs skip
  | c :: cs, 0 =>
    match matchCall (c :: cs) with
    | some t => t :: findCallsFrom cs (t.1.length + t.2.length + 1)
    | none => findCallsFrom cs 0

/-- `re.findall(r"([A-Za-z]+)\(([^\)]*)\)", transform)` (svg.py:554). -/
def findCalls (s : List Char) : List (List Char × List Char) := findCallsFrom s 0

/-- `Points.transform` (svg.py:525-560): each function in turn. -/
def Fmt.transform (F : Fmt ν) (s : List Char) (xy : List (ν × ν)) : Except Err (List (ν × ν)) :=
  (findCalls s).foldlM (fun l c => callPts c.1 ((findNums c.2).map F.num) l) xy

end

/-! ### Reading a document -/

/-- An element of a document: a shape with its vertices (svg.py:129-135), a group (136-142) or anything else, which has
no coordinates. `key` is the name it is filed under (125), `tf` its `transform` attribute (128). -/
inductive Elem where
  | shape (key : String) (isImage : Bool) (xy : List (ℚ × ℚ)) (tf : List Char)
  | group (key : String) (children : List Elem) (tf : List Char)
  | other (key : String)

/-- What `read` returns: coordinates, a dictionary (in order), or a list for a repeated name. -/
inductive Tree where
  | pts (xy : List (ℚ × ℚ))
  | dict (items : List (String × Tree))
  | many (items : List Tree)

/-- `dd[k].append(v)` for a `defaultdict(list)` (svg.py:137-140). -/
def ddAppend (dd : List (String × List Tree)) (k : String) (v : Tree) : List (String × List Tree) :=
  match dd with
  | [] => [(k, [v])]
  | (k', vs) :: r => if k' = k then (k', vs ++ [v]) :: r else (k', vs) :: ddAppend r k v

/-- `v[0] if len(v) == 1 else v` (svg.py:142). -/
def collapse (vs : List Tree) : Tree :=
  match vs with
  | [v] => v
  | vs => .many vs

/-- The dictionary of a group (svg.py:137-142). -/
def groupDict (l : List (String × Tree)) : Tree :=
  .dict ((l.foldl (fun dd kv => ddAppend dd kv.1 kv.2) []).map fun kv => (kv.1, collapse kv.2))

/-- Bounding boxes of the last image: before and after its transforms (`img`, svg.py:119, 134-135). -/
abbrev ImgBox := Option ((ℚ × ℚ × ℚ × ℚ) × (ℚ × ℚ × ℚ × ℚ))

mutual
/-- `parse_elements` (svg.py:121-143): name, result and updated `img`. -/
def parseElem (F : Fmt ℚ) (tf : List Char) (img : ImgBox) : Elem → Except Err (String × Tree × ImgBox)
  | .shape key isImage xy tf' => do
    let xy' ← F.transform (tf ++ tf') xy
    let img' : ImgBox ← (if isImage then
        (match bbox xy, bbox xy' with
        | some o, some t => .ok (some (o, t))
        | _, _ => .error .typeError) else .ok img)
    .ok (key, .pts xy', img')
  | .group key children tf' => do
    let (l, img') ← parseElems F (tf ++ tf') img children
    .ok (key, groupDict l, img')
  | .other key => .ok (key, .dict [], img)
/-- The list comprehension over children (svg.py:138). -/
def parseElems (F : Fmt ℚ) (tf : List Char) (img : ImgBox) :
    List Elem → Except Err (List (String × Tree) × ImgBox)
  | [] => .ok ([], img)
  | e :: es => do
    let (k, t, img1) ← parseElem F tf img e
    let (l, img2) ← parseElems F tf img1 es
    .ok ((k, t) :: l, img2)
end

mutual
/-- The nested function `transform` (svg.py:160-168): apply a map to all coordinates. -/
def Tree.mapPts (f : List (ℚ × ℚ) → List (ℚ × ℚ)) : Tree → Tree
  | .pts xy => .pts (if xy = [] then [] else f xy)
  | .dict items => .dict (mapDict f items)
  | .many items => .many (mapMany f items)
/-- Its loop over a dictionary. -/
def mapDict (f : List (ℚ × ℚ) → List (ℚ × ℚ)) : List (String × Tree) → List (String × Tree)
  | [] => []
  | (k, t) :: r => (k, t.mapPts f) :: mapDict f r
/-- Its loop over a list. -/
def mapMany (f : List (ℚ × ℚ) → List (ℚ × ℚ)) : List Tree → List Tree
  | [] => []
  | t :: r => t.mapPts f :: mapMany f r
end

/-- The translation to the image origin (svg.py:146-151). -/
def readTranslate (img : ImgBox) : ℚ × ℚ :=
  match img with
  | none => (0, 0)
  | some (_, t) => if (t.1, t.2.1) ≠ (0, 0) then (-t.1, -t.2.1) else (0, 0)

/-- The scale to the image size (svg.py:152-157). -/
def readScale (img : ImgBox) (imgsz : Option (ℚ × ℚ)) : Except Err (ℚ × ℚ) :=
  match img with
  | none => .ok (1, 1)
  | some (o, t) =>
    let sz := imgsz.getD (o.2.2.1, o.2.2.2)
    if sz.1 ≠ t.2.2.1 ∨ sz.2 ≠ t.2.2.2 then
      if t.2.2.1 = 0 ∨ t.2.2.2 = 0 then .error .zeroDivision
      else .ok (sz.1 / t.2.2.1, sz.2 / t.2.2.2)
    else .ok (1, 1)

mutual
/-- Whether the document has an `<image>` (svg.py:113). -/
def Elem.hasImage : Elem → Bool
  | .shape _ b _ _ => b
  | .group _ es _ => anyImage es
  | .other _ => false
def anyImage : List Elem → Bool
  | [] => false
  | e :: es => e.hasImage || anyImage es
end

/-- `read` of a document with one `<svg>` (svg.py:112-173). -/
def readSvg (F : Fmt ℚ) (root : Elem) (imgsz : Option (ℚ × ℚ)) : Except Err Tree := do
  if imgsz.isSome && !root.hasImage then throw .valueError
  let (_, t, img) ← parseElem F [] none root
  let s ← readScale img imgsz
  let d := readTranslate img
  return t.mapPts fun xy => scalePts s.1 (some s.2) (translatePts d.1 (some d.2) xy)

end Glimpse.Svg
