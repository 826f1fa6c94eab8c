import Verif.Model.Tiles
import Verif.Model.Boxes

/-!
Model of what `Observer.animate` (src/glimpse/track/observer.py:280-366) and `Observer.track` (368-453) show, for observers of
`Image`s: the part of the image, where it is placed, and the limits of the axes. Drawing (matplotlib) is left out, and projections
enter as the image coordinates they return (`puv`, `uvs`). Image coordinates are rationals.
-/
set_option autoImplicit false

namespace Glimpse.ObserverAnimate

open Glimpse.Tiles

/-- `helpers.box_to_polygon(box)` (helpers.py:1236-1237): the corners, the first repeated. -/
def boxToPolygon (lo hi : ℚ × ℚ) : List (ℚ × ℚ) := [lo, (lo.1, hi.2), hi, (hi.1, lo.2), lo]

/-- `Image.inbounds` (image.py:290-292), `Camera.inframe` (camera.py:694-696): on the borders is inside. -/
def inframe (nx ny : Nat) (p : ℚ × ℚ) : Bool := decide (0 ≤ p.1) && decide (0 ≤ p.2) && (decide (p.1 ≤ nx) && decide (p.2 ≤ ny))

/-- What is shown for one image: the box of the image that is read (none for the white tile), where it is placed (left, top, right,
bottom), and the limits of the left axes (left, right) and (bottom, top). -/
structure Shown where
  tile : Option (List ℚ)
  extent : List ℚ
  xlim : ℚ × ℚ
  ylim : ℚ × ℚ
deriving DecidableEq

/-- `self.extract_tile(img=i, box=box)` with the box as it is returned by `snap_xy`, floating-point numbers (observer.py:348-351).
`Image.read` (image.py:205-207) slices cached values with them, which raises; values that are not cached are read from the file at
positions made integers (image.py:187-190). `cached`: the observer caches images, or this image is cached. -/
def extractTile (cached : Bool) (box : List ℚ) : Except Err (List ℚ) := if cached then .error .typeError else .ok box

/-- The window, or its intersection with the image if not all corners are in it (observer.py:340-345). -/
def clipWindow (nx ny : Nat) (lo hi : ℚ × ℚ) (all : Bool) : Except Err (List ℚ) :=
  if all then .ok [lo.1, lo.2, hi.1, hi.2]
  else intersectBoxes [[lo.1, lo.2, hi.1, hi.2], [0, 0, (nx : ℚ), (ny : ℚ)]]

/-- The box that is read (observer.py:335-354): none if no corner of the window is in the image. -/
def tileOf (nx ny : Nat) (cached : Bool) (lo hi : ℚ × ℚ) : Except Err (Option (List ℚ)) := do
  let inb := (boxToPolygon lo hi).map (inframe nx ny)
  if inb.any id then
    let box ← clipWindow nx ny lo hi (inb.all id)
    let a ← (imageGrid nx ny).snapXy false true true (box.getD 0 0, box.getD 1 0)
    let b ← (imageGrid nx ny).snapXy false true true (box.getD 2 0, box.getD 3 0)
    let t ← extractTile cached [a.1, a.2, b.1, b.2]
    .ok (some t)
  else .ok none

/-- `update_plot` of `animate` (observer.py:332-364) for the projected point `puv`. -/
def animateFrame (nx ny : Nat) (cached : Bool) (size : Nat × Nat) (puv : ℚ × ℚ) : Except Err Shown :=
  let half : ℚ × ℚ := ((size.1 : ℚ) * (1 / 2), (size.2 : ℚ) * (1 / 2))
  let lo := (puv.1 - half.1, puv.2 - half.2)
  let hi := (puv.1 + half.1, puv.2 + half.2)
  match tileOf nx ny cached lo hi with
  | .error e => .error e
  | .ok t => .ok ⟨t, t.getD [lo.1, lo.2, hi.1, hi.2], (puv.1 - half.1, puv.1 + half.1), (puv.2 + half.2, puv.2 - half.1)⟩

/-- The `frames` argument of `track`: an array, or another sequence. -/
inductive Frames
  | array (l : List Nat)
  | sequence (l : List Nat)

/-- `np.where(frames == i)[0][0]` (observer.py:422): a list is not compared element by element. -/
def position (frames : Frames) (i : Nat) : Except Err Nat :=
  match frames with
  | .array l => if i ∈ l then .ok (l.idxOf i) else .error .indexError
  | .sequence _ => .error .indexError

/-- What `track` shows for one image: the track so far and the box of the tile. -/
structure Tracked where
  track : List (ℚ × ℚ)
  box : List ℤ
deriving DecidableEq

/-- `update_plot(i)` of `track` (observer.py:421-427): `proj i` projects the world points into image `i`, of size `size i`. Without any
points `track_uv[-1]` raises. -/
def trackFrame {P : Type} (sizes : Nat → Nat × Nat) (proj : Nat → P → ℚ × ℚ) (frames : Frames) (xyz : List P) (tile : Nat × Nat)
    (i : Nat) : Except Err Tracked := do
  let j ← position frames i
  let uvs := (xyz.take (j + 1)).map (proj i)
  match uvs.getLast? with
  | none => .error .indexError
  | some uv => do
    let box ← tileBox (sizes i).1 (sizes i).2 uv tile
    .ok ⟨uvs, box⟩

/-- The frames of `track` (observer.py:396-397): by default as many as there are points. -/
def defaultFrames {P : Type} (xyz : List P) : Frames := .array (List.range xyz.length)

end Glimpse.ObserverAnimate
