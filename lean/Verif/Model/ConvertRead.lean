import Verif.Model.Converters
import Verif.Model.SvgWrite

/-!
Model of the readers of calibration files: `Agisoft.from_xml` (convert/cameras/agisoft.py:58-95), `Matlab.from_report`
(matlab.py:47-82), `OpenCV.from_xml` (opencv.py:140-165) and `PhotoModeler.from_report` (photomodeler.py:56-88).
XML documents are given as trees, other files as texts. `float` of a text is a parameter `num`, which may raise.
-/
set_option autoImplicit false

namespace Glimpse.Convert

open Svg (Xml iterTag)

/-! ### Regular expressions -/

/-- The parts of the regular expressions used: literal text, one character of a class, a greedy repetition of a class, and the
same as a captured group, with at least `min` characters. -/
inductive Atom where
  | lit (l : List Char)
  | one (p : Char → Bool)
  | star (p : Char → Bool)
  | cap (p : Char → Bool) (min : Nat)

/-- Match at the start of a text, with backtracking, longest repetitions first: the captured groups and the rest. -/
def matchAt : List Atom → List Char → Option (List (List Char) × List Char)
  | [], s => some ([], s)
  | .lit l :: as, s => if l.isPrefixOf s then matchAt as (s.drop l.length) else none
  | .one p :: as, s => match s with
    | c :: s => if p c then matchAt as s else none
    | [] => none
  | .star p :: as, s =>
    (List.range ((s.takeWhile p).length + 1)).reverse.findSome? fun n => matchAt as (s.drop n)
  | .cap p m :: as, s =>
    ((List.range ((s.takeWhile p).length + 1)).reverse.filter fun n => decide (m ≤ n)).findSome? fun n =>
      (matchAt as (s.drop n)).map fun r => (s.take n :: r.1, r.2)

/-- `re.findall` for expressions that do not match the empty text: the captured groups of the matches that do not overlap, from
left to right. The first argument bounds the number of steps; the length of the text suffices. -/
def findallAux (as : List Atom) : Nat → List Char → List (List (List Char))
  | 0, _ => []
  | _ + 1, [] => []
  | n + 1, c :: s =>
    match matchAt as (c :: s) with
    | some (caps, r) => caps :: findallAux as n r
    | none => findallAux as n s

/-- `re.findall`. -/
def findall (as : List Atom) (s : List Char) : List (List (List Char)) := findallAux as s.length s

/-- `.`: any character except a line break. -/
def isDot (c : Char) : Bool := c != '\n'

/-- `\s`, for ASCII text. -/
def isWs (c : Char) : Bool := c == ' ' || c == '\t' || c == '\n' || c == '\r' || c == '\x0b' || c == '\x0c'

/-- `[0-9\-\.e\+]` (opencv.py:156, 162) and `[0-9\-\+\.e]` (photomodeler.py:82, 84). -/
def isNum (c : Char) : Bool := ('0' ≤ c && c ≤ '9') || c == '-' || c == '.' || c == 'e' || c == '+'

noncomputable section

/-- `int(x)` of a float. -/
def truncate (x : ℝ) : ℤ := if 0 ≤ x then ⌊x⌋ else ⌈x⌉

variable (num : List Char → Except Err ℝ)

/-! ### Agisoft -/

/-- The tags that are read (agisoft.py:75-89). -/
def agiTags : List String := ["width", "height", "f", "cx", "cy", "k1", "k2", "k3", "k4", "p1", "p2", "b1", "b2"]

/-- One element of `calibration` (agisoft.py:72-91). -/
def agiStep (kw : List Char → Option ℝ) (c : Xml) : Except Err (List Char → Option ℝ) :=
  if c.tag = "projection".toList ∧ c.text ≠ some "frame".toList then .error .valueError
  else match c.text with
    | none => .ok kw
    | some t =>
      if t ≠ [] ∧ c.tag ∈ agiTags.map String.toList then
        match num t with
        | .error e => .error e
        | .ok v => .ok fun k => if k = c.tag then some v else kw k
      else .ok kw

/-- The elements of `calibration` in order. -/
def agiFold : List Xml → (List Char → Option ℝ) → Except Err (List Char → Option ℝ)
  | [], kw => .ok kw
  | c :: cs, kw => match agiStep num kw c with
    | .error e => .error e
    | .ok kw => agiFold cs kw

/-- `cls(**kwargs)` (92-93): KeyError for a missing size, TypeError for a missing focal length. -/
def agiMake (kw : List Char → Option ℝ) : Except Err Agisoft :=
  match kw "width".toList, kw "height".toList, kw "f".toList with
  | none, _, _ => .error .keyError
  | some _, none, _ => .error .keyError
  | some _, some _, none => .error .typeError
  | some w, some h, some f => .ok
    { imgsz := ![truncate w, truncate h], f := f
      cx := (kw "cx".toList).getD 0, cy := (kw "cy".toList).getD 0
      k1 := (kw "k1".toList).getD 0, k2 := (kw "k2".toList).getD 0, k3 := (kw "k3".toList).getD 0, k4 := (kw "k4".toList).getD 0
      p1 := (kw "p1".toList).getD 0, p2 := (kw "p2".toList).getD 0, b1 := (kw "b1".toList).getD 0, b2 := (kw "b2".toList).getD 0 }

/-- `Agisoft.from_xml` (58-95). An element without children is false (69). -/
def agisoftFromXml (root : Xml) : Except Err Agisoft :=
  match (iterTag "calibration".toList root).head? with
  | none => .error .valueError
  | some e =>
    if e.children.isEmpty then .error .valueError
    else match agiFold num e.children fun _ => none with
      | .error e => .error e
      | .ok kw => agiMake kw

/-! ### OpenCV -/

/-- `re.findall(r"([0-9\-\.e\+]+)", text)`. -/
def numTokens (s : List Char) : List (List Char) := (findall [.cap isNum 1] s).map fun l => l.headD []

/-- `tree.findall(".//tag/data")` (152, 160): the elements `data` directly in an element with the tag below the root. -/
def dataElems (tag : List Char) (root : Xml) : List Xml :=
  (Svg.iterTags tag root.children).flatMap fun e => e.children.filter fun c => decide (c.tag = "data".toList)

/-- `[float(xi) for xi in ...]`. -/
def numbers (s : List Char) : Except Err (List ℝ) := (numTokens s).mapM num

/-- The distortion coefficients (160-164): none if the element is missing or empty. -/
def distCoeffs (root : Xml) : Except Err (List ℝ) :=
  match (dataElems "distortion_coefficients".toList root).head?.bind Xml.text with
  | none => .ok []
  | some t => numbers num t

/-- `OpenCV.from_xml` (140-165): a camera matrix that has not nine numbers cannot be reshaped. -/
def opencvFromXml (imgsz : Fin 2 → ℤ) (root : Xml) : Except Err OpenCV :=
  match (dataElems "camera_matrix".toList root).head?.bind Xml.text with
  | none => .error .valueError
  | some [] => .error .valueError
  | some t => do
    let m ← numbers num t
    if m.length ≠ 9 then throw .valueError
    let d ← distCoeffs num root
    pure (OpenCV.fromArrays [m.take 3, (m.drop 3).take 3, m.drop 6] d imgsz)

/-! ### Matlab -/

/-- `parse(key)` (60-74) for one value: all values found are converted. -/
def matlabOne (scale : ℝ) (key txt : List Char) : Except Err (List ℝ) :=
  (findall [.lit (key ++ " = ".toList), .cap isDot 0, .lit [';']] txt).mapM fun caps => do
    let v ← num (caps.headD [])
    pure (v * scale)

/-- `" ; ".join(["(.*)"] * length)` (64). -/
def groupAtoms : Nat → List Atom
  | 0 => []
  | 1 => [.cap isDot 0]
  | n + 2 => .cap isDot 0 :: .lit " ; ".toList :: groupAtoms (n + 1)

/-- `parse(key, length)` (60-74) for several values: those of the first match. -/
def matlabVec (scale : ℝ) (key : List Char) (length : Nat) (txt : List Char) : Except Err (List ℝ) :=
  match findall (.lit (key ++ " = [ ".toList) :: groupAtoms length ++ [.lit " ];".toList]) txt with
  | [] => .error .indexError
  | caps :: _ => caps.mapM fun s => do
    let v ← num s
    pure (v * scale)

/-- `parse(key)[0]`. -/
def firstOf (l : Except Err (List ℝ)) : Except Err ℝ := do
  match (← l).head? with
  | some x => pure x
  | none => throw .indexError

/-- `Matlab.from_report` (47-82) of the text of a file. -/
def matlabFromReport (sigmas : Bool) (txt : List Char) : Except Err Matlab := do
  let scale : ℝ := if sigmas then 1 / 3 else 1
  let sfx := if sigmas then "_error".toList else []
  let imgsz ← if sigmas then pure ![0, 0] else do
    let nx ← firstOf (matlabOne num scale "nx".toList txt)
    let ny ← firstOf (matlabOne num scale "ny".toList txt)
    pure ![truncate nx, truncate ny]
  let fc ← matlabVec num scale ("fc".toList ++ sfx) 2 txt
  let cc ← matlabVec num scale ("cc".toList ++ sfx) 2 txt
  let kc ← matlabVec num scale ("kc".toList ++ sfx) 5 txt
  let alpha ← firstOf (matlabOne num scale ("alpha_c".toList ++ sfx) txt)
  pure ⟨imgsz, fun i => fc.getD i 0, fun i => cc.getD i 0, fun i => kc.getD i 0, alpha⟩

/-! ### PhotoModeler -/

/-- The pattern after the label (photomodeler.py:81-84). -/
def pmAtoms (sigmas : Bool) : List Atom :=
  if sigmas then [.star isDot, .one isWs, .star isDot, .star isWs, .lit "Deviation: ".toList, .star isDot, .lit ": ".toList, .cap isNum 1]
  else [.star isDot, .star isWs, .lit "Value: ".toList, .cap isNum 1]

/-- One parameter (85-86): 0 if nothing is found. -/
def pmValue (sigmas : Bool) (label txt : List Char) : Except Err ℝ :=
  match findall (.lit label :: pmAtoms sigmas) txt with
  | [] => .ok 0
  | caps :: _ => num (caps.headD [])

/-- `PhotoModeler.from_report` (56-88) of the text of a file. -/
def photomodelerFromReport (imgsz : Fin 2 → ℤ) (sigmas : Bool) (txt : List Char) : Except Err PhotoModeler := do
  let focal ← pmValue num sigmas "Focal Length".toList txt
  let xp ← pmValue num sigmas "Xp".toList txt
  let yp ← pmValue num sigmas "Yp".toList txt
  let fw ← pmValue num sigmas "Fw".toList txt
  let fh ← pmValue num sigmas "Fh".toList txt
  let k1 ← pmValue num sigmas "K1".toList txt
  let k2 ← pmValue num sigmas "K2".toList txt
  let k3 ← pmValue num sigmas "K3".toList txt
  let p1 ← pmValue num sigmas "P1".toList txt
  let p2 ← pmValue num sigmas "P2".toList txt
  pure ⟨imgsz, focal, xp, yp, fw, fh, k1, k2, k3, p1, p2⟩

end

end Glimpse.Convert
