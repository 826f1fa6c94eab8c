import Verif.Model.Basic

/-!
Model of the construction and writing of SVG documents (svg.py:219-409) and of the stripping of namespaces before
reading (svg.py:29-39). Elements are those of `xml.etree.ElementTree`; its serializer enters through the functions
that write an opening, closing or empty tag. Strings are lists of characters.
-/
set_option autoImplicit false

namespace Glimpse.Svg

/-- An `ET.Element`: tag, attributes in order, text, tail and children. -/
inductive Xml where
  | node (tag : List Char) (attrib : List (List Char × List Char)) (text tail : Option (List Char))
      (children : List Xml)

/-- `e.tag`. -/
def Xml.tag : Xml → List Char
  | .node t _ _ _ _ => t
/-- `e.attrib`. -/
def Xml.attrib : Xml → List (List Char × List Char)
  | .node _ a _ _ _ => a
/-- `e.text`. -/
def Xml.text : Xml → Option (List Char)
  | .node _ _ t _ _ => t
/-- `e.tail`. -/
def Xml.tail : Xml → Option (List Char)
  | .node _ _ _ t _ => t
/-- `list(e)`. -/
def Xml.children : Xml → List Xml
  | .node _ _ _ _ c => c

/-- `not t or not t.strip()` (svg.py:352, 354, 358, 361), for the whitespace of XML (space, tab, line breaks). -/
def blank : Option (List Char) → Bool
  | none => true
  | some t => t.all Char.isWhitespace

/-- `tab * n` for a string. -/
def repStr (tab : List Char) : Nat → List Char
  | 0 => []
  | n + 1 => tab ++ repStr tab n

/-- The two assignments of the tail of an element with children (svg.py:354-355, 358-359); `tab * -1` is empty. -/
def parentTail (sep tab : List Char) (level : Nat) (tail : Option (List Char)) : Option (List Char) :=
  let t := if blank tail then some (sep ++ repStr tab level) else tail
  if blank t then some (sep ++ repStr tab (level - 1)) else t

/-- The tail of an element without children (svg.py:360-362). -/
def leafTail (sep tab : List Char) (level : Nat) (last : Bool) (tail : Option (List Char)) : Option (List Char) :=
  if level ≠ 0 ∧ blank tail then some (sep ++ repStr tab (level - if last then 1 else 0)) else tail

mutual
/-- `_indent_etree` (svg.py:344-364), with `sep` and `tab` as computed in 347-350. -/
def indentNode (sep tab : List Char) (level : Nat) (last : Bool) : Xml → Xml
  | .node tag at_ text tail [] =>
    .node tag at_ text (if level = 0 then none else leafTail sep tab level last tail) []
  | .node tag at_ text tail (c :: cs) =>
    .node tag at_ (if blank text then some (sep ++ repStr tab (level + 1)) else text)
      (if level = 0 then none else parentTail sep tab level tail) (indentNodes sep tab (level + 1) (c :: cs))
/-- The loop over the children (svg.py:356-357): the last one is marked. -/
def indentNodes (sep tab : List Char) (level : Nat) : List Xml → List Xml
  | [] => []
  | c :: cs => indentNode sep tab level (cs.isEmpty) c :: indentNodes sep tab level cs
end

/-- Separator and tab of an `indent` argument (svg.py:347-350): nothing, a number of spaces (none if negative), or a
string. -/
def indentArgs : Option (Int ⊕ List Char) → List Char × List Char
  | none => ([], [])
  | some (.inl n) => (['\n'], List.replicate n.toNat ' ')
  | some (.inr s) => (['\n'], s)

/-- The serializer's tags (`ET.tostring`, not modelled): opening, closing, and empty element. -/
structure Tags where
  opening : List Char → List (List Char × List Char) → List Char
  closing : List Char → List Char
  empty : List Char → List (List Char × List Char) → List Char
  /-- Escaping of text. -/
  escape : List Char → List Char

mutual
/-- `ET.tostring`: an element without text and children is written as an empty tag. -/
def serialize (T : Tags) : Xml → List Char
  | .node tag at_ text tail children =>
    (if (text.getD []).isEmpty && children.isEmpty then T.empty tag at_
      else T.opening tag at_ ++ T.escape (text.getD []) ++ serializes T children ++ T.closing tag) ++ T.escape (tail.getD [])
/-- The children in order. -/
def serializes (T : Tags) : List Xml → List Char
  | [] => []
  | c :: cs => serialize T c ++ serializes T cs
end

/-- `svg.write` (svg.py:367-409) without a path: the text. A deep copy is indented, the argument is not changed. -/
def writeXml (T : Tags) (indent : Option (Int ⊕ List Char)) (e : Xml) : List Char :=
  let st := indentArgs indent
  serialize T (indentNode st.1 st.2 0 false e)

/-! ### Builders -/

/-- `key in attrib`. -/
def hasKey (at_ : List (List Char × List Char)) (k : List Char) : Bool := at_.any (·.1 = k)

/-- `attrib.get(key)`. -/
def getKey (at_ : List (List Char × List Char)) (k : List Char) : Option (List Char) := (at_.find? (·.1 = k)).map (·.2)

/-- Assignment in a dict: replaces in place, or appends. -/
def setKey (at_ : List (List Char × List Char)) (k v : List Char) : List (List Char × List Char) :=
  if hasKey at_ k then at_.map fun p => if p.1 = k then (k, v) else p else at_ ++ [(k, v)]

/-- `{**a, **b}`. -/
def mergeKeys (a b : List (List Char × List Char)) : List (List Char × List Char) :=
  b.foldl (fun acc p => setKey acc p.1 p.2) a

mutual
/-- `e.iter("image")`: elements with the tag, in document order. -/
def iterTag (tag : List Char) : Xml → List Xml
  | .node t a tx tl ch => (if t = tag then [Xml.node t a tx tl ch] else []) ++ iterTags tag ch
/-- The same over a list of elements. -/
def iterTags (tag : List Char) : List Xml → List Xml
  | [] => []
  | c :: cs => iterTag tag c ++ iterTags tag cs
end

/-- `svg.svg` (svg.py:219-257). -/
def svgElem (children : List Xml) (attrib : List (List Char × List Char)) : Xml :=
  let attrib :=
    if hasKey attrib "width".toList || hasKey attrib "height".toList then attrib
    else match (iterTags "image".toList children).getLast? with
      | none => attrib
      | some im =>
        match getKey im.attrib "width".toList, getKey im.attrib "height".toList with
        | some w, some h =>
          if w.isEmpty || h.isEmpty then attrib
          else mergeKeys [("height".toList, h), ("width".toList, w)] attrib
        | _, _ => attrib
  .node "svg".toList (mergeKeys attrib [("xmlns".toList, "http://www.w3.org/2000/svg".toList),
    ("xmlns:xlink".toList, "http://www.w3.org/1999/xlink".toList)]) none none children

/-- `svg.g` (svg.py:260-284). -/
def gElem (children : List Xml) (attrib : List (List Char × List Char)) : Xml := .node "g".toList attrib none none children

/-- `svg.image` (svg.py:287-313), for a width and height already written as strings. -/
def imageElem (width height : List Char) (href : Option (List Char)) (attrib : List (List Char × List Char)) : Xml :=
  let base := [("height".toList, height), ("width".toList, width)]
  let base := match href with
    | some h => if h.isEmpty then base else mergeKeys base [("xlink:href".toList, h)]
    | none => base
  .node "image".toList (mergeKeys base attrib) none none []

/-- `svg.path` (svg.py:316-341), for an already formatted shape (`Fmt.toPath` in `Model/Svg.lean`). -/
def pathElem (d : List Char) (attrib : List (List Char × List Char)) : Xml :=
  .node "path".toList (mergeKeys [("d".toList, d)] attrib) none none []

/-! ### Namespaces -/

/-- Length of the greedy match of `.*\}` (svg.py:31): up to and including the last `}` before a line break; `none` if
there is no `}` on the line. -/
def braceEnd : List Char → Option Nat
  | [] => none
  | c :: s =>
    if c = '\n' then none
    else match braceEnd s with
      | some n => some (n + 1)
      | none => if c = '}' then some 1 else none

/-- `re.sub(r"\{.*\}", "", s)` (svg.py:31): `skip` characters of a match remain to be dropped. -/
def stripBracesFrom : List Char → Nat → List Char
  | [], _ => []
  | _ :: s, skip + 1 => stripBracesFrom s skip
  | c :: s, 0 =>
    if c = '{' then
      match braceEnd s with
      | some n => stripBracesFrom s n
      | none => c :: stripBracesFrom s 0
    else c :: stripBracesFrom s 0

/-- `regex.sub("", s)` (svg.py:33-37). -/
def stripBraces (s : List Char) : List Char := stripBracesFrom s 0

/-- The new attributes of an element (svg.py:34-39). -/
def stripAttrib (at_ : List (List Char × List Char)) : List (List Char × List Char) :=
  at_.foldl (fun acc p => setKey acc (stripBraces p.1) (stripBraces p.2)) []

mutual
/-- `_strip_etree_namespaces` (svg.py:29-39). -/
def stripNs : Xml → Xml
  | .node tag at_ text tail ch => .node (stripBraces tag) (stripAttrib at_) text tail (stripNss ch)
/-- Over the children. -/
def stripNss : List Xml → List Xml
  | [] => []
  | c :: cs => stripNs c :: stripNss cs
end

end Glimpse.Svg
