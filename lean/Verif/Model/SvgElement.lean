import Verif.Model.Svg

/-!
Model of `Points.from_element` and `Points.to_element` (svg.py:750-834): the choice of method by tag, and of attributes by name.
-/
set_option autoImplicit false

namespace Glimpse.Svg

variable {ν : Type}

/-- Attributes by name. -/
abbrev Attrs := List (String × List Char)

/-- The value of an attribute. -/
def getAttr (attrs : Attrs) (k : String) : Option (List Char) := (attrs.find? fun a => decide (a.1 = k)).map fun a => a.2

/-- `_num(arg)` of an attribute whose default is `0` (svg.py:591-620). -/
def Fmt.numOr [Zero ν] (F : Fmt ν) (o : Option (List Char)) : ν :=
  match o with
  | none => 0
  | some s => F.num s

/-- Names of arguments of the methods `_from_<tag>` (`inspect.getfullargspec(method).args[1:]`, svg.py:789); `none` if there is no
such method. -/
def argNames (tag : String) : Option (List String) :=
  if tag = "polyline" ∨ tag = "polygon" then some ["points"]
  else if tag = "line" then some ["x1", "y1", "x2", "y2"]
  else if tag = "circle" then some ["cx", "cy"]
  else if tag = "rect" ∨ tag = "image" then some ["width", "height", "x", "y"]
  else if tag = "svg" then some ["viewBox"]
  else if tag = "path" then some ["d"]
  else none

/-- `Points._from_rect(width, height, x, y)` (svg.py:613-620) by keyword: a missing width or height raises `TypeError`. -/
def Fmt.rectOf [Zero ν] [Add ν] (F : Fmt ν) (width height x y : Option (List Char)) : Except Err (List (ν × ν)) :=
  match width, height with
  | some w, some h => .ok (rectXy (F.numOr x, F.numOr y, F.num w, F.num h))
  | _, _ => .error .typeError

/-- The methods `_from_<tag>` called with attributes by keyword (svg.py:791). -/
def Fmt.fromMethod [Zero ν] [Add ν] [DecidableEq ν] (F : Fmt ν) (tag : String) (attrs : Attrs) : Except Err (List (ν × ν)) :=
  if tag = "polyline" then .ok (F.fromPolyline ((getAttr attrs "points").getD []))
  else if tag = "polygon" then .ok (F.fromPolygon ((getAttr attrs "points").getD []))
  else if tag = "line" then
    .ok [(F.numOr (getAttr attrs "x1"), F.numOr (getAttr attrs "y1")),
      (F.numOr (getAttr attrs "x2"), F.numOr (getAttr attrs "y2"))]
  else if tag = "circle" then .ok [(F.numOr (getAttr attrs "cx"), F.numOr (getAttr attrs "cy"))]
  else if tag = "rect" ∨ tag = "image" then
    F.rectOf (getAttr attrs "width") (getAttr attrs "height") (getAttr attrs "x") (getAttr attrs "y")
  else if tag = "svg" then F.fromSvg (getAttr attrs "viewBox")
  else F.fromPath ((getAttr attrs "d").getD [])

/-- `Points.from_element(tag, **attrs)` (svg.py:786-791). -/
def Fmt.fromElement [Zero ν] [Add ν] [DecidableEq ν] (F : Fmt ν) (tag : String) (attrs : Attrs) : Except Err (List (ν × ν)) :=
  match argNames tag with
  | none => .error .valueError
  | some args => F.fromMethod tag (attrs.filter fun a => decide (a.1 ∈ args))

/-- `Points.to_element(tag)` (svg.py:831-834): attributes in the order they are made. -/
def Fmt.toElement [Zero ν] [Sub ν] [LinearOrder ν] (F : Fmt ν) (tag : String) (xy : List (ν × ν)) : Except Err Attrs :=
  if tag = "polyline" then .ok [("points", F.toPolyline xy)]
  else if tag = "polygon" then .ok [("points", F.toPolygon xy)]
  else if tag = "line" then
    .ok [("x1", (F.toLine xy).1), ("y1", (F.toLine xy).2.1), ("x2", (F.toLine xy).2.2.1),
      ("y2", (F.toLine xy).2.2.2)]
  else if tag = "circle" then .ok [("cx", (F.toCircle xy).1), ("cy", (F.toCircle xy).2)]
  else if tag = "rect" ∨ tag = "image" then
    .ok [("x", (F.toRect xy).1), ("y", (F.toRect xy).2.1), ("width", (F.toRect xy).2.2.1),
      ("height", (F.toRect xy).2.2.2)]
  else if tag = "svg" then
    .ok (match F.toSvg xy with
      | none => []
      | some s => [("viewBox", s)])
  else if tag = "path" then .ok [("d", F.toPath xy)]
  else .error .valueError

end Glimpse.Svg
