import Verif.Model.SvgElement
import Verif.Props.SvgText

/-!
C109: coordinates of SVG elements, by tag and attributes.
-/
set_option autoImplicit false
set_option linter.unusedSimpArgs false
set_option linter.unusedSectionVars false

namespace Glimpse.Svg

variable {ν : Type}

/-! ### Specification -/

/-- The elements that have coordinates. -/
inductive ElementShape
  | polyline
  | polygon
  | line
  | circle
  | rect
  | image
  | svg
  | path
deriving DecidableEq

/-- Its tag. -/
def ElementShape.tag : ElementShape → String
  | .polyline => "polyline"
  | .polygon => "polygon"
  | .line => "line"
  | .circle => "circle"
  | .rect => "rect"
  | .image => "image"
  | .svg => "svg"
  | .path => "path"

/-- The attributes that define its geometry. -/
def ElementShape.attributes : ElementShape → List String
  | .polyline | .polygon => ["points"]
  | .line => ["x1", "y1", "x2", "y2"]
  | .circle => ["cx", "cy"]
  | .rect | .image => ["x", "y", "width", "height"]
  | .svg => ["viewBox"]
  | .path => ["d"]

/-- The corners of the smallest box around points, counted around and back to the first. -/
def IsFrame [LinearOrder ν] (xy out : List (ν × ν)) : Prop :=
  ∃ x0 y0 x1 y1, out = [(x0, y0), (x1, y0), (x1, y1), (x0, y1), (x0, y0)] ∧
    (∀ p ∈ xy, x0 ≤ p.1 ∧ p.1 ≤ x1 ∧ y0 ≤ p.2 ∧ p.2 ≤ y1) ∧
    (∃ p ∈ xy, p.1 = x0) ∧ (∃ p ∈ xy, p.1 = x1) ∧ (∃ p ∈ xy, p.2 = y0) ∧ (∃ p ∈ xy, p.2 = y1)

/-- What remains of points written as a shape and read. -/
def Kept [LinearOrder ν] : ElementShape → List (ν × ν) → List (ν × ν) → Prop
  | .polyline, xy, out => out = xy
  | .polygon, xy, out => out = if closed xy then xy else xy ++ xy.head?.toList
  | .line, xy, out => ∃ a b, xy.head? = some a ∧ xy.getLast? = some b ∧ out = [a, b]
  | .circle, xy, out => ∃ a, xy.head? = some a ∧ out = [a]
  | .rect, xy, out => IsFrame xy out
  | .image, xy, out => IsFrame xy out
  | .svg, xy, out => IsFrame xy out
  | .path, xy, out => out = xy

/-! ### Attributes -/

private theorem getAttr_filter (attrs : Attrs) (args : List String) (k : String) (hk : k ∈ args) :
    getAttr (attrs.filter fun a => decide (a.1 ∈ args)) k = getAttr attrs k := by
  unfold getAttr
  congr 1
  rw [List.find?_filter]
  congr 1
  funext a
  by_cases h : a.1 = k
  · simp [h, hk]
  · simp [h]

private theorem arg_names (s : ElementShape) : ∃ l, argNames s.tag = some l ∧ ∀ k, k ∈ l ↔ k ∈ s.attributes := by
  cases s
  all_goals
    refine ⟨_, by simp [argNames, ElementShape.tag]; rfl, fun k => ?_⟩
    simp only [ElementShape.attributes, List.mem_cons, List.not_mem_nil, or_false]
  all_goals try tauto

private theorem arg_none (tag : String) (h : ∀ s : ElementShape, tag ≠ s.tag) : argNames tag = none := by
  unfold argNames
  have h1 := h .polyline; have h2 := h .polygon; have h3 := h .line; have h4 := h .circle
  have h5 := h .rect; have h6 := h .image; have h7 := h .svg; have h8 := h .path
  simp only [ElementShape.tag] at h1 h2 h3 h4 h5 h6 h7 h8
  simp only [h1, h2, h3, h4, h5, h6, h7, h8, or_self, if_false]

/-- C109: other tags are refused by `from_element` and by `to_element`. -/
theorem element_unknown [Zero ν] [Add ν] [Sub ν] [LinearOrder ν] (F : Fmt ν) (tag : String) (h : ∀ s : ElementShape, tag ≠ s.tag)
    (attrs : Attrs) (xy : List (ν × ν)) :
    F.fromElement tag attrs = .error .valueError ∧ F.toElement tag xy = .error .valueError := by
  constructor
  · rw [Fmt.fromElement, arg_none tag h]
  · have h1 := h .polyline; have h2 := h .polygon; have h3 := h .line; have h4 := h .circle
    have h5 := h .rect; have h6 := h .image; have h7 := h .svg; have h8 := h .path
    simp only [ElementShape.tag] at h1 h2 h3 h4 h5 h6 h7 h8
    simp only [Fmt.toElement, h1, h2, h3, h4, h5, h6, h7, h8, or_self, if_false]

/-- The coordinates of an element are a function of its geometric attributes alone. -/
private theorem from_eq [Zero ν] [Add ν] [DecidableEq ν] (F : Fmt ν) (s : ElementShape) (attrs : Attrs) :
    F.fromElement s.tag attrs = F.fromMethod s.tag attrs := by
  obtain ⟨l, hl, hm⟩ := arg_names s
  rw [Fmt.fromElement, hl]
  have hk : ∀ k ∈ s.attributes, getAttr (attrs.filter fun a => decide (a.1 ∈ l)) k = getAttr attrs k :=
    fun k hk => getAttr_filter attrs l k ((hm k).2 hk)
  cases s <;> simp only [ElementShape.attributes, List.mem_cons, List.not_mem_nil, or_false, forall_eq_or_imp, forall_eq] at hk <;>
    simp only [Fmt.fromMethod, ElementShape.tag, hk] <;> simp [hk]

/-- C109: attributes that do not define the geometry (style, names, transforms) and the order of attributes make no
difference. -/
theorem element_irrelevant [Zero ν] [Add ν] [DecidableEq ν] (F : Fmt ν) (s : ElementShape) (attrs attrs' : Attrs)
    (h : ∀ k ∈ s.attributes, getAttr attrs k = getAttr attrs' k) : F.fromElement s.tag attrs = F.fromElement s.tag attrs' := by
  rw [from_eq, from_eq]
  cases s <;> simp only [ElementShape.attributes, List.mem_cons, List.not_mem_nil, or_false, forall_eq_or_imp, forall_eq] at h <;>
    simp [Fmt.fromMethod, ElementShape.tag, h]

/-- C109: a rectangle or image without width or height raises `TypeError`. -/
theorem element_rect_missing [Zero ν] [Add ν] [DecidableEq ν] (F : Fmt ν) (s : ElementShape) (hs : s = .rect ∨ s = .image) (attrs : Attrs)
    (h : getAttr attrs "width" = none ∨ getAttr attrs "height" = none) : F.fromElement s.tag attrs = .error .typeError := by
  rw [from_eq]
  have : F.fromMethod s.tag attrs = F.rectOf (getAttr attrs "width") (getAttr attrs "height") (getAttr attrs "x") (getAttr attrs "y") := by
    rcases hs with rfl | rfl <;> simp [Fmt.fromMethod, ElementShape.tag]
  rw [this]
  rcases h with h | h
  · rw [h]; rfl
  · rw [h]; cases getAttr attrs "width" <;> rfl

/-- C109: coordinates that are left out are zero. -/
theorem element_defaults [Zero ν] [Add ν] [DecidableEq ν] (F : Fmt ν) (w h : List Char) :
    F.fromElement ElementShape.line.tag [] = .ok [(0, 0), (0, 0)] ∧ F.fromElement ElementShape.circle.tag [] = .ok [(0, 0)] ∧
      F.fromElement ElementShape.rect.tag [("width", w), ("height", h)] =
        .ok [(0, 0), (0 + F.num w, 0), (0 + F.num w, 0 + F.num h), (0, 0 + F.num h), (0, 0)] ∧
      F.fromElement ElementShape.svg.tag [] = .ok [] ∧ F.fromElement ElementShape.polyline.tag [] = .ok [] ∧ F.fromElement ElementShape.polygon.tag [] = .ok [] ∧
      F.fromElement ElementShape.path.tag [] = .ok [] := by
  refine ⟨?_, ?_, ?_, ?_, ?_, ?_, ?_⟩ <;> rw [from_eq] <;>
    simp [Fmt.fromMethod, ElementShape.tag, getAttr, Fmt.numOr, Fmt.rectOf, rectXy, Fmt.fromSvg, Fmt.fromPolyline, Fmt.fromPolygon, Fmt.pointsToXy, findNums, findNumsFrom,
      chunks2, closed, Fmt.fromPath, Fmt.pathPairs, pathLoop, pathCommands, pathSeqs, groups, pure, Except.pure]

/-! ### Round trip -/

private theorem frame_of [AddCommGroup ν] [LinearOrder ν] (xy : List (ν × ν)) (x y w h : ν) (hb : bbox xy = some (x, y, w, h)) :
    IsFrame xy [(x, y), (x + w, y), (x + w, y + h), (x, y + h), (x, y)] := by
  obtain ⟨h1, h2, h3, h4, h5⟩ := bbox_spec xy x y w h hb
  exact ⟨x, y, x + w, y + h, rfl, h1, h2, h3, h4, h5⟩

private theorem bbox_some [AddCommGroup ν] [LinearOrder ν] (xy : List (ν × ν)) (hne : xy ≠ []) : ∃ x y w h, bbox xy = some (x, y, w, h) := by
  cases xy with
  | nil => exact absurd rfl hne
  | cons p r => exact ⟨_, _, _, _, rfl⟩

private theorem polygon_round [LinearOrder ν] (F : Fmt ν) (hF : F.Faithful) (xy : List (ν × ν)) (h3 : xy.dropLast.getLast? ≠ xy.head?) (h2 : 2 ≤ xy.length) :
    F.fromPolygon (F.toPolygon xy) = if closed xy then xy else xy ++ xy.head?.toList := by
  cases xy with
  | nil => simp at h2
  | cons p r =>
    by_cases hc : closed (p :: r) = true
    · rw [if_pos hc]
      have hr : r ≠ [] := by rintro rfl; simp at h2
      have hlast : (p :: r).getLast? = some p := by
        unfold closed at hc
        rw [if_pos (show 1 < (p :: r).length by omega)] at hc
        simpa using (of_decide_eq_true hc).symm
      have hsplit : r = r.dropLast ++ [p] := by
        have e := List.dropLast_concat_getLast hr
        have : r.getLast hr = p := by
          rw [List.getLast?_cons, List.getLast?_eq_some_getLast hr] at hlast
          simpa using hlast
        rw [this] at e
        exact e.symm
      have hd : (p :: r).dropLast = p :: r.dropLast := by
        cases r with
        | nil => exact absurd rfl hr
        | cons _ _ => rfl
      have hne : (p :: r.dropLast).getLast? ≠ some p := by
        rw [← hd]; simpa using h3
      have := (svg_polygon_round_trip_partial F hF p r.dropLast hne).2
      rw [List.cons_append, ← hsplit] at this
      exact this
    · rw [if_neg hc]
      have hne : (p :: r).getLast? ≠ some p := by
        intro he
        apply hc
        unfold closed
        rw [if_pos (show 1 < (p :: r).length by omega)]
        simp [he]
      exact (svg_polygon_round_trip_partial F hF p r hne).1

/-- Points that a shape can hold: at least one; for paths and polygons at least two; and a polygon is not two rings of the same
point. -/
def Holds [DecidableEq ν] : ElementShape → List (ν × ν) → Prop
  | .path, xy => 2 ≤ xy.length
  | .polygon, xy => 2 ≤ xy.length ∧ xy.dropLast.getLast? ≠ xy.head?
  | .polyline, _ => True
  | _, xy => xy ≠ []

/-- C109: what `to_element` writes for a tag, `from_element` reads with the same tag, whatever other attributes the element has
and in whatever order: polylines, polygons and paths keep all points (polygons are closed), lines the first and last, circles the
first, and rectangles, images and view boxes the frame around all points. -/
theorem element_round_trip_partial [AddCommGroup ν] [LinearOrder ν] (F : Fmt ν) (hF : F.Faithful) (s : ElementShape) (xy : List (ν × ν))
    (hxy : Holds s xy) : ∃ written, F.toElement s.tag xy = .ok written ∧ ∀ attrs : Attrs,
      (∀ k ∈ s.attributes, getAttr attrs k = getAttr written k) → ∃ out, F.fromElement s.tag attrs = .ok out ∧ Kept s xy out := by
  cases s with
  | polyline =>
    refine ⟨[("points", F.toPolyline xy)], by simp [Fmt.toElement, ElementShape.tag], fun attrs h => ⟨xy, ?_, rfl⟩⟩
    simp only [ElementShape.attributes, List.mem_singleton, forall_eq] at h
    rw [from_eq]
    simp only [Fmt.fromMethod, ElementShape.tag, if_true, h]
    simp [getAttr, svg_polyline_round_trip F hF]
  | polygon =>
    refine ⟨[("points", F.toPolygon xy)], by simp [Fmt.toElement, ElementShape.tag], fun attrs h => ⟨_, ?_, rfl⟩⟩
    simp only [ElementShape.attributes, List.mem_singleton, forall_eq] at h
    rw [from_eq]
    have := polygon_round F hF xy hxy.2 hxy.1
    rw [← this]
    simp only [Fmt.fromMethod, ElementShape.tag, h]
    simp [getAttr]
  | line =>
    cases xy with
    | nil => exact absurd rfl hxy
    | cons p r =>
      refine ⟨_, by simp [Fmt.toElement, ElementShape.tag]; rfl, fun attrs h => ⟨[p, (p :: r).getLast (by simp)], ?_, p, _, rfl, List.getLast?_eq_some_getLast (by simp), rfl⟩⟩
      simp only [ElementShape.attributes, List.mem_cons, List.not_mem_nil, or_false, forall_eq_or_imp, forall_eq] at h
      rw [from_eq, ← svg_line_round_trip F hF p r]
      simp only [Fmt.fromMethod, ElementShape.tag, h]
      simp [getAttr, Fmt.numOr, Fmt.fromLine]
  | circle =>
    cases xy with
    | nil => exact absurd rfl hxy
    | cons p r =>
      refine ⟨_, by simp [Fmt.toElement, ElementShape.tag]; rfl, fun attrs h => ⟨[p], ?_, p, rfl, rfl⟩⟩
      simp only [ElementShape.attributes, List.mem_cons, List.not_mem_nil, or_false, forall_eq_or_imp, forall_eq] at h
      rw [from_eq, ← svg_circle_round_trip F hF p r]
      simp only [Fmt.fromMethod, ElementShape.tag, h]
      simp [getAttr, Fmt.numOr, Fmt.fromCircle]
  | rect =>
    obtain ⟨x, y, w, h, hb⟩ := bbox_some xy hxy
    refine ⟨_, by simp [Fmt.toElement, ElementShape.tag]; rfl, fun attrs ha => ⟨_, ?_, frame_of xy x y w h hb⟩⟩
    simp only [ElementShape.attributes, List.mem_cons, List.not_mem_nil, or_false, forall_eq_or_imp, forall_eq] at ha
    rw [from_eq, ← svg_rect_round_trip F hF xy x y w h hb]
    simp only [Fmt.fromMethod, ElementShape.tag, ha]
    simp [getAttr, Fmt.numOr, Fmt.rectOf, Fmt.fromRect]
  | image =>
    obtain ⟨x, y, w, h, hb⟩ := bbox_some xy hxy
    refine ⟨_, by simp [Fmt.toElement, ElementShape.tag]; rfl, fun attrs ha => ⟨_, ?_, frame_of xy x y w h hb⟩⟩
    simp only [ElementShape.attributes, List.mem_cons, List.not_mem_nil, or_false, forall_eq_or_imp, forall_eq] at ha
    rw [from_eq, ← svg_rect_round_trip F hF xy x y w h hb]
    simp only [Fmt.fromMethod, ElementShape.tag, ha]
    simp [getAttr, Fmt.numOr, Fmt.rectOf, Fmt.fromRect]
  | svg =>
    obtain ⟨x, y, w, h, hb⟩ := bbox_some xy hxy
    have ht : ∃ t, F.toSvg xy = some t := by unfold Fmt.toSvg; rw [hb]; exact ⟨_, rfl⟩
    obtain ⟨t, ht⟩ := ht
    refine ⟨[("viewBox", t)], by simp [Fmt.toElement, ElementShape.tag, ht], fun attrs ha => ⟨_, ?_, frame_of xy x y w h hb⟩⟩
    simp only [ElementShape.attributes, List.mem_cons, List.not_mem_nil, or_false, forall_eq_or_imp, forall_eq] at ha
    rw [from_eq, ← svg_viewbox_round_trip F hF xy x y w h hb, ht]
    simp only [Fmt.fromMethod, ElementShape.tag, ha]
    simp [getAttr]
  | path =>
    obtain ⟨p, q, r, rfl⟩ : ∃ p q r, xy = p :: q :: r := by
      match xy, hxy with
      | p :: q :: r, _ => exact ⟨p, q, r, rfl⟩
    refine ⟨_, by simp [Fmt.toElement, ElementShape.tag]; rfl, fun attrs ha => ⟨_, ?_, rfl⟩⟩
    simp only [ElementShape.attributes, List.mem_cons, List.not_mem_nil, or_false, forall_eq_or_imp, forall_eq] at ha
    rw [from_eq, ← svg_path_round_trip_partial F hF p q r]
    simp only [Fmt.fromMethod, ElementShape.tag, ha]
    simp [getAttr]

/-- C109: without points, the shapes that need some write the origin, which is read as a point there that was never given; only
polylines and view boxes stay empty. -/
theorem element_empty_violated [AddCommGroup ν] [LinearOrder ν] (F : Fmt ν) (hF : F.Faithful) :
    (∃ a, F.toElement ElementShape.line.tag [] = .ok a ∧ F.fromElement ElementShape.line.tag a = .ok [(0, 0), (0, 0)]) ∧
      (∃ a, F.toElement ElementShape.circle.tag [] = .ok a ∧ F.fromElement ElementShape.circle.tag a = .ok [(0, 0)]) ∧
      (∃ a, F.toElement ElementShape.svg.tag [] = .ok a ∧ F.fromElement ElementShape.svg.tag a = .ok []) := by
  refine ⟨⟨_, by simp [Fmt.toElement, ElementShape.tag]; rfl, ?_⟩, ⟨_, by simp [Fmt.toElement, ElementShape.tag]; rfl, ?_⟩, ⟨[], by simp [Fmt.toElement, ElementShape.tag, Fmt.toSvg, bbox], ?_⟩⟩ <;> rw [from_eq]
  · simp [Fmt.fromMethod, ElementShape.tag, getAttr, Fmt.numOr, Fmt.toLine, (hF _).2]
  · simp [Fmt.fromMethod, ElementShape.tag, getAttr, Fmt.numOr, Fmt.toCircle, (hF _).2]
  · simp [Fmt.fromMethod, ElementShape.tag, getAttr, Fmt.fromSvg]

/-! ### Examples -/

example : Holds (ν := ℤ) .polygon [(0, 0), (0, 1), (1, 1), (0, 0)] := ⟨by simp, by simp⟩
example : Holds (ν := ℤ) .path [(0, 0), (0, 1)] := by simp [Holds]

end Glimpse.Svg
