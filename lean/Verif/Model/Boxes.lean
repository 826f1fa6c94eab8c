import Verif.Model.Lists
import Mathlib.Data.Rat.Floor
import Mathlib.Order.WithBot
import Mathlib.Algebra.Order.Ring.Unbundled.Rat
import Mathlib.Algebra.Order.Field.Rat

/-!
Model of the box helpers in `src/glimpse/helpers.py`: `in_box`, `intersect_boxes`, `unravel_box`,
`bounding_box`, `box_to_grid`, `grid_to_points`, `intersect_rays_box`, `intersect_edge_box`,
`clip_polyline_box`. Coordinates are rationals; NaN inputs are not modelled.
-/
set_option autoImplicit false

namespace Glimpse

/-- `helpers.unravel_box` (helpers.py:1192-1195): first half minima, second half maxima. -/
def unravelBox (box : List ℚ) : Except Err (List ℚ × List ℚ) :=
  if box.length % 2 ≠ 0 then .error .valueError
  else .ok (box.take (box.length / 2), box.drop (box.length / 2))

/-- Componentwise test of `helpers.in_box` (helpers.py:691) for one point. -/
def inBounds : List ℚ → List ℚ → List ℚ → Bool
  | p :: ps, l :: ls, h :: hs => decide (l ≤ p) && decide (p ≤ h) && inBounds ps ls hs
  | _, _, _ => true

/-- `helpers.in_box` (helpers.py:690-691) for one point. numpy raises `ValueError` when the dimensions cannot be
broadcast; broadcasting of length-1 axes is not modelled. -/
def inBox (p : List ℚ) (box : List ℚ) : Except Err Bool := do
  let (lo, hi) ← unravelBox box
  if p.length ≠ lo.length then throw .valueError
  return inBounds p lo hi

/-- Componentwise `np.nanmax(..., axis=0)` / `np.max` of a non-empty list of rows. -/
def colMax : List ℚ → List (List ℚ) → List ℚ := List.foldl (List.zipWith max)
/-- Componentwise `np.nanmin(..., axis=0)` / `np.min` of a non-empty list of rows. -/
def colMin : List ℚ → List (List ℚ) → List ℚ := List.foldl (List.zipWith min)

/-- `helpers.intersect_boxes` (helpers.py:1042-1050). The boxes form a 2-dimensional array: rows of equal length
(ragged input raises), at least one row (an empty list has no `shape[1]`). -/
def intersectBoxes (boxes : List (List ℚ)) : Except Err (List ℚ) :=
  match boxes with
  | [] => .error .indexError
  | b :: bs =>
    if bs.any (fun c => c.length ≠ b.length) then .error .valueError
    else if b.length % 2 ≠ 0 then .error .valueError                          -- 1043-1044
    else
      let ndim := b.length / 2
      let boxmin := colMax (b.take ndim) (bs.map (·.take ndim))               -- 1046
      let boxmax := colMin (b.drop ndim) (bs.map (·.drop ndim))               -- 1047
      if (List.zipWith (fun hi lo => decide (hi - lo ≤ 0)) boxmax boxmin).any id then
        .error .valueError                                                    -- 1048-1049
      else .ok (boxmin ++ boxmax)

/-- `helpers.bounding_box` (helpers.py:1213-1214); numpy raises on empty or ragged input. -/
def boundingBox (points : List (List ℚ)) : Except Err (List ℚ) :=
  match points with
  | [] => .error .valueError
  | p :: ps =>
    if ps.any (fun c => c.length ≠ p.length) then .error .valueError
    else .ok (colMin p ps ++ colMax p ps)

/-- Python's `%` on numbers for a positive modulus: the remainder of floor division. -/
def pyMod (a b : ℚ) : ℚ := a - b * ⌊a / b⌋

/-- `np.linspace(start, stop, num)` (endpoint included). -/
def linspace (start stop : ℚ) (num : Int) : Except Err (List ℚ) :=
  if num < 0 then .error .valueError
  else if num = 1 then .ok [start]
  else .ok ((List.range num.toNat).map fun i : Nat => start + (i : ℚ) * ((stop - start) / ((num : ℚ) - 1)))

/-- One axis of `helpers.box_to_grid` (helpers.py:1296-1302): coordinates along the axis `[lo, hi]` with spacing
`step`, aligned to `snap`. A zero step divides by zero (numpy: nan and an error in `int`). -/
def gridAxis (lo hi step snap : ℚ) : Except Err (List ℚ) :=
  if step = 0 then .error .valueError
  else
    let shift := pyMod (snap - lo) step
    let n : Int := ⌊(hi - lo - shift) / step⌋
    linspace (lo + shift) (lo + shift + n * step) (n + 1)

/-- `helpers.box_to_grid(box, step, snap, mode="points")` for two dimensions (helpers.py:1290-1310 and
`grid_to_points` 1329): `np.meshgrid` makes the first coordinate vary fastest. `snap = none` is the box
minimum (1294-1295). -/
def boxToPoints2 (lo hi step : ℚ × ℚ) (snap : Option (ℚ × ℚ)) : Except Err (List (ℚ × ℚ)) := do
  let s := snap.getD lo
  let xs ← gridAxis lo.1 hi.1 step.1 s.1
  let ys ← gridAxis lo.2 hi.2 step.2 s.2
  return ys.flatMap fun y => xs.map fun x => (x, y)

/-! ### Ray-box intersection -/

/-- A float as used by `intersect_rays_box`: NaN (`none`), ±inf or a finite (rational) number. -/
abbrev XF := Option (WithBot (WithTop ℚ))

namespace XF
/-- NaN. -/
def nan : XF := none
/-- Finite number. -/
def fin (q : ℚ) : XF := some ((q : WithTop ℚ) : WithBot (WithTop ℚ))
/-- Positive infinity. -/
def pinf : XF := some ((⊤ : WithTop ℚ) : WithBot (WithTop ℚ))
/-- Negative infinity. -/
def ninf : XF := some ⊥
/-- IEEE `a < b`: false if either is NaN. -/
def lt : XF → XF → Bool
  | some a, some b => decide (a < b)
  | _, _ => false
end XF

/-- One axis of the problem: ray origin and direction, box minimum and maximum. -/
structure Axis where
  o : ℚ
  d : ℚ
  lo : ℚ
  hi : ℚ

/-- `(bound - origin) * invdir` (helpers.py:820-830, 842-847) with `invdir = 1 / direction` (809-810):
for a zero direction `invdir = +inf` and the product is ±inf, or NaN when the bound equals the origin. -/
def slabT (ax : Axis) (b : ℚ) : XF :=
  if ax.d = 0 then
    if b - ax.o > 0 then XF.pinf
    else if b - ax.o < 0 then XF.ninf
    else XF.nan
  else XF.fin ((b - ax.o) * (1 / ax.d))

/-- Slab parameters of one axis; `sign` (811) selects the near bound. -/
def slab (ax : Axis) : XF × XF :=
  if 1 / ax.d < 0 then (slabT ax ax.hi, slabT ax ax.lo) else (slabT ax ax.lo, slabT ax ax.hi)

/-- Apply one more axis (helpers.py:831-837 for y, 848-854 for z). -/
def slabStep (s : XF × XF) (ax : Axis) : XF × XF :=
  let (tmin, tmax) := s
  let (amin, amax) := slab ax
  let miss := XF.lt amax tmin || XF.lt tmax amin
  let tmin := if miss then XF.nan else tmin
  let tmax := if miss then XF.nan else tmax
  let tmin := if XF.lt tmin amin then amin else tmin
  let tmax := if XF.lt amax tmax then amax else tmax
  (tmin, tmax)

/-- `helpers.intersect_rays_box(..., t=True)` (helpers.py:778-860) for one ray: entrance and exit
multipliers. The code handles two or three axes; the model folds over any non-empty list of axes in order. -/
def rayBox : List Axis → XF × XF
  | [] => (XF.nan, XF.nan)
  | ax :: axs =>
    let (tmin, tmax) := axs.foldl slabStep (slab ax)
    (if XF.lt tmin (XF.fin 0) then XF.nan else tmin, if XF.lt tmax (XF.fin 0) then XF.nan else tmax)

/-- `np.nanmin` of the two parameters (helpers.py:772); NaN if both are. -/
def nanmin2 : XF × XF → XF
  | (none, b) => b
  | (a, none) => a
  | (some a, some b) => some (min a b)

/-- The axes of a ray in list form. -/
def axesOf : List ℚ → List ℚ → List ℚ → List ℚ → List Axis
  | o :: os, d :: ds, l :: ls, h :: hs => ⟨o, d, l, h⟩ :: axesOf os ds ls hs
  | _, _, _, _ => []

/-- `helpers.intersect_edge_box` (helpers.py:771-775). -/
def edgeBox (origin distance lo hi : List ℚ) : Option ℚ :=
  match nanmin2 (rayBox (axesOf origin distance lo hi)) with
  | some ((some (some t)) : WithBot (WithTop ℚ)) => if 0 < t ∧ t < 1 then some t else none
  | _ => none

/-- Point `o + t * d`. -/
def alongRay (o d : List ℚ) (t : ℚ) : List ℚ := List.zipWith (fun a b => a + t * b) o d

/-- Point difference. -/
def subPt (a b : List ℚ) : List ℚ := List.zipWith (· - ·) a b

/-- The vertex inserted on the edge from `a` to `b`, if both exist and the edge intersects the box
(helpers.py:735-739 and 741-745). -/
def clipEdge (a b : Option (List ℚ)) (lo hi : List ℚ) : List (List ℚ) :=
  match a, b with
  | some a, some b =>
    match edgeBox a (subPt b a) lo hi with
    | some t => [alongRay a (subPt b a) t]
    | none => []
  | _, _ => []

/-- The vertices of one true segment (helpers.py:734-745): an entrance before it if there is a previous
(false) segment, an exit after it if there is a next one. -/
def clipSegment (prev : Option (List ℚ)) (seg : List (List ℚ)) (next : Option (List ℚ)) (lo hi : List ℚ) :
    List (List ℚ) :=
  clipEdge prev seg.head? lo hi ++ seg ++ clipEdge seg.getLast? next lo hi

/-- The loop of `helpers.clip_polyline_box` over alternating segments (helpers.py:731-746): `inside` tells
whether the first remaining segment is inside, `prev` is the last vertex of the previous segment. -/
def clipLoop (lo hi : List ℚ) : Bool → Option (List ℚ) → List (List (List ℚ)) → List (List (List ℚ))
  | _, _, [] => []
  | inside, prev, seg :: rest =>
    let tail := clipLoop lo hi (!inside) seg.getLast? rest
    if inside then
      clipSegment prev seg (rest.head?.bind List.head?) lo hi :: tail
    else tail

/-- `helpers.clip_polyline_box(line, box)` (helpers.py:728-746) without distance measures (`t=False`). An empty
line raises `IndexError` at `mask[0]`. -/
def clipPolyline (line : List (List ℚ)) (box : List ℚ) : Except Err (List (List (List ℚ))) := do
  let (lo, hi) ← unravelBox box
  let mask ← line.mapM fun p => inBox p box
  let segments ← booleanSplit line mask false .all
  match mask.head? with
  | none => throw .indexError
  | some b => return clipLoop lo hi b none segments

end Glimpse
