import Verif.Model.Grid
import Mathlib.Algebra.Order.Floor.Defs
import Mathlib.Data.Rat.Floor

/-!
Model of the placement of image tiles: `Observer.tile_box` (track/observer.py:113-129), `Tracker.initialize_template`
(track/tracker.py:536-561), `Tracker.compute_observer_log_likelihoods` (563-625) and `Observer.sample_tile`
(observer.py:182-227). Only the placement is modelled, not pixel values: the error image computed by
`cv2.matchTemplate` enters by its documented shape (search - template + 1), and the spline by the cell coordinates it
is given. Image coordinates are rationals, without rounding.
-/
set_option autoImplicit false

namespace Glimpse.Tiles

/-- `Grid(size)` (raster.py:55-65): cells of size one from the origin. -/
def imageGrid (nx ny : Nat) : Grid := ⟨⟨0, nx, nx⟩, ⟨0, ny, ny⟩⟩

/-- `Observer.tile_box` (observer.py:128-129): `astype(int)` of the snapped box. -/
def tileBox (nx ny : Nat) (uv : ℚ × ℚ) (size : Nat × Nat) : Except Err (List ℤ) :=
  match (imageGrid nx ny).snapBox uv ((size.1 : ℚ), (size.2 : ℚ)) false true true with
  | .error e => .error e
  | .ok b => .ok (b.map truncInt)

/-- A template (tracker.py:552-560): `box`, the subpixel offset `duv`, and the shape of the tile (columns, rows). -/
structure Template where
  box : List ℤ
  duv : ℚ × ℚ
  size : Nat × Nat

/-- `uv - box.reshape(2, -1).mean(axis=0)` (tracker.py:556). -/
def offset (uv : ℚ × ℚ) (box : List ℤ) : ℚ × ℚ :=
  (uv.1 - ((box.getD 0 0 : ℚ) + (box.getD 2 0 : ℚ)) / 2, uv.2 - ((box.getD 1 0 : ℚ) + (box.getD 3 0 : ℚ)) / 2)

/-- `Tracker.initialize_template` (tracker.py:548-560) for the projected particle mean `uv`; the tile has the shape of
its box. -/
def initTemplate (nx ny : Nat) (uv : ℚ × ℚ) (tileSize : Nat × Nat) : Except Err Template :=
  match tileBox nx ny uv tileSize with
  | .error e => .error e
  | .ok box => .ok ⟨box, offset uv box,
      ((box.getD 2 0 - box.getD 0 0).toNat, (box.getD 3 0 - box.getD 1 0).toNat)⟩

/-- One axis of the search box (tracker.py:583-599): the particles' range and half the template size, widened so that
the error image has more than `k` cells, rounded outwards. -/
def searchAxis (umin umax : ℚ) (size k : Nat) : ℤ × ℤ :=
  let lo := umin - (size : ℚ) * (1 / 2)                       -- 582-583
  let hi := umax + (size : ℚ) * (1 / 2)
  let n := (k : ℚ) - ((hi - lo) - (size : ℚ))                 -- 586, 591
  let lo' := if n > 0 then lo - n * (1 / 2) else lo           -- 587-589, 592-594
  let hi' := if n > 0 then hi + n * (1 / 2) else hi
  (⌊lo'⌋, ⌈hi'⌉)                                              -- 595

/-- `x.min()` of coordinates (the first one is `u`). -/
def minOf (u : ℚ) (us : List ℚ) : ℚ := us.foldl min u
/-- `x.max()` of coordinates (the first one is `u`). -/
def maxOf (u : ℚ) (us : List ℚ) : ℚ := us.foldl max u

/-- One axis of the error box (tracker.py:616-621): the search box shrunk by half the template minus half a pixel,
shifted by the offset. -/
def sseAxis (b : ℤ × ℤ) (size : Nat) (d : ℚ) : ℚ × ℚ :=
  ((b.1 : ℚ) + ((size : ℚ) * (1 / 2) - 1 / 2) + d, (b.2 : ℚ) - ((size : ℚ) * (1 / 2) - 1 / 2) + d)

/-- `np.arange(start, stop)`: as many unit steps as `ceil(stop - start)`. -/
def arange (start stop : ℚ) : List ℚ := (List.range ⌈stop - start⌉.toNat).map fun (i : Nat) => start + (i : ℚ)

/-- Cell coordinates given to the spline along one axis (observer.py:216-220) for `n` cells between `lo` and `hi`. -/
def cellCoords (b : ℚ × ℚ) (n : Nat) : List ℚ := arange (b.1 + (b.2 - b.1) / (n : ℚ) * (1 / 2)) b.2

/-- What `compute_observer_log_likelihoods` samples: the search box (per axis), the shape of the error image, and the
coordinates of its cells. -/
structure Plan where
  boxU : ℤ × ℤ
  boxV : ℤ × ℤ
  cols : Nat
  rows : Nat
  cu : List ℚ
  cv : List ℚ

/-- `Tracker.compute_observer_log_likelihoods` up to the evaluation of the spline (tracker.py:579-624,
observer.py:212-222), for particles projected to `p :: ps` in an image of size `nx`, `ny`: `none` if the box is not
within the image (599-603). RectBivariateSpline raises if the coordinates and the error image disagree in shape, or
have `k` or fewer cells along an axis. -/
def plan (nx ny : Nat) (t : Template) (kx ky : Nat) (p : ℚ × ℚ) (ps : List (ℚ × ℚ)) : Except Err (Option Plan) :=
  let us := ps.map Prod.fst
  let vs := ps.map Prod.snd
  let bu := searchAxis (minOf p.1 us) (maxOf p.1 us) t.size.1 ky
  let bv := searchAxis (minOf p.2 vs) (maxOf p.2 vs) t.size.2 kx
  if ¬ (0 ≤ bu.1 ∧ bu.1 ≤ nx ∧ 0 ≤ bv.1 ∧ bv.1 ≤ ny ∧ 0 ≤ bu.2 ∧ bu.2 ≤ nx ∧ 0 ≤ bv.2 ∧ bv.2 ≤ ny) then .ok none
  else
    let cols := (bu.2 - bu.1 - t.size.1 + 1).toNat
    let rows := (bv.2 - bv.1 - t.size.2 + 1).toNat
    let su := sseAxis bu t.size.1 t.duv.1
    let sv := sseAxis bv t.size.2 t.duv.2
    if ¬ ∀ q ∈ p :: ps, su.1 ≤ q.1 ∧ sv.1 ≤ q.2 ∧ q.1 ≤ su.2 ∧ q.2 ≤ sv.2 then .error .valueError
    else
      let cu := cellCoords su cols
      let cv := cellCoords sv rows
      if cu.length ≠ cols ∨ cv.length ≠ rows ∨ cv.length ≤ kx ∨ cu.length ≤ ky then .error .valueError
      else .ok (some ⟨bu, bv, cols, rows, cu, cv⟩)

end Glimpse.Tiles
