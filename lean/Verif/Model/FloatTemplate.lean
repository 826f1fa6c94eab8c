import Verif.Model.Tiles
import Verif.Model.FloatGrid

/-!
Placement of image tiles in floating point: the functions of `Model/Tiles.lean` with every arithmetic operation rounded by `r`
(`Double.rnd` is double precision). Projected coordinates are floating point numbers already; boxes are integers (`astype(int)`), which numpy
converts exactly when they meet a float. With `r = id` these are the functions of `Model/Tiles.lean` (`Props/FloatTemplate.lean`).
-/
set_option autoImplicit false

namespace Glimpse.FloatTemplate
open Glimpse Glimpse.Tiles

/-- `Grid.snap_box` (raster.py:414-420) of an image grid, as called by `Observer.tile_box` (track/observer.py:129-130). -/
def snapBox (r : ℚ → ℚ) (g : Grid) (xy size : ℚ × ℚ) (centers edges inbounds : Bool) : Except Err (List ℚ) := do
  let half := (r (size.1 * (1 / 2)), r (size.2 * (1 / 2)))
  let lo := (r (xy.1 - half.1), r (xy.2 - half.2))
  let hi := (r (xy.1 + half.1), r (xy.2 + half.2))
  if !g.inboundsXy lo || !g.inboundsXy hi then throw .indexError
  let a ← FloatGrid.snapXy r g centers edges inbounds lo
  let b ← FloatGrid.snapXy r g centers edges inbounds hi
  return [a.1, a.2, b.1, b.2]

/-- `Observer.tile_box` (observer.py:129-130). -/
def tileBox (r : ℚ → ℚ) (nx ny : Nat) (uv : ℚ × ℚ) (size : Nat × Nat) : Except Err (List ℤ) :=
  match snapBox r (imageGrid nx ny) uv ((size.1 : ℚ), (size.2 : ℚ)) false true true with
  | .error e => .error e
  | .ok b => .ok (b.map truncInt)

/-- `uv - box.reshape(2, -1).mean(axis=0)` (track/tracker.py:556): the mean of two integers is a sum and a division. -/
def offset (r : ℚ → ℚ) (uv : ℚ × ℚ) (box : List ℤ) : ℚ × ℚ :=
  (r (uv.1 - r (((box.getD 0 0 + box.getD 2 0 : ℤ) : ℚ) / 2)), r (uv.2 - r (((box.getD 1 0 + box.getD 3 0 : ℤ) : ℚ) / 2)))

/-- `Tracker.initialize_template` (tracker.py:548-560). -/
def initTemplate (r : ℚ → ℚ) (nx ny : Nat) (uv : ℚ × ℚ) (tileSize : Nat × Nat) : Except Err Template :=
  match tileBox r nx ny uv tileSize with
  | .error e => .error e
  | .ok box => .ok ⟨box, offset r uv box,
      ((box.getD 2 0 - box.getD 0 0).toNat, (box.getD 3 0 - box.getD 1 0).toNat)⟩

/-- One axis of the search box (tracker.py:580-595). -/
def searchAxis (r : ℚ → ℚ) (umin umax : ℚ) (size k : Nat) : ℤ × ℤ :=
  let half := r ((size : ℚ) * (1 / 2))                          -- 582
  let lo := r (umin - half)                                     -- 583
  let hi := r (umax + half)
  let n := r ((k : ℚ) - r (r (hi - lo) - (size : ℚ)))           -- 586, 591
  let lo' := if n > 0 then r (lo + r (-n * (1 / 2))) else lo    -- 587-589, 592-594
  let hi' := if n > 0 then r (hi + r (n * (1 / 2))) else hi
  (⌊lo'⌋, ⌈hi'⌉)                                                -- 595

/-- One axis of the error box (tracker.py:615-620). -/
def sseAxis (r : ℚ → ℚ) (b : ℤ × ℤ) (size : Nat) (d : ℚ) : ℚ × ℚ :=
  let edge := r (r ((size : ℚ) * (1 / 2)) - 1 / 2)              -- 617
  (r (r ((b.1 : ℚ) + edge) + d), r (r ((b.2 : ℚ) + -edge) + d)) -- 618-620

/-- `np.arange(start, stop)` (observer.py:207-208): `ceil` of the rounded quotient, and the values as numpy fills them from the first two. -/
def arange (r : ℚ → ℚ) (start stop : ℚ) : List ℚ :=
  (List.range ⌈r (r (stop - start) / 1)⌉.toNat).map fun (i : Nat) =>
    if i = 0 then start else if i = 1 then r (start + 1) else r (start + r ((i : ℚ) * r (r (start + 1) - start)))

/-- Cell coordinates given to the spline along one axis (observer.py:204-208) for `n` cells between `lo` and `hi`. -/
def cellCoords (r : ℚ → ℚ) (b : ℚ × ℚ) (n : Nat) : List ℚ :=
  let du := r (r (b.2 - b.1) / (n : ℚ))
  arange r (r (b.1 + r (du * (1 / 2)))) b.2

/-- `Tracker.compute_observer_log_likelihoods` up to the evaluation of the spline (tracker.py:579-625, observer.py:201-214). As in
`Tiles.plan`; here RectBivariateSpline also raises if the coordinates are not strictly increasing. -/
def plan (r : ℚ → ℚ) (nx ny : Nat) (t : Template) (kx ky : Nat) (p : ℚ × ℚ) (ps : List (ℚ × ℚ)) : Except Err (Option Plan) :=
  let us := ps.map Prod.fst
  let vs := ps.map Prod.snd
  let bu := searchAxis r (minOf p.1 us) (maxOf p.1 us) t.size.1 ky
  let bv := searchAxis r (minOf p.2 vs) (maxOf p.2 vs) t.size.2 kx
  if ¬ (0 ≤ bu.1 ∧ bu.1 ≤ nx ∧ 0 ≤ bv.1 ∧ bv.1 ≤ ny ∧ 0 ≤ bu.2 ∧ bu.2 ≤ nx ∧ 0 ≤ bv.2 ∧ bv.2 ≤ ny) then .ok none
  else
    let cols := (bu.2 - bu.1 - t.size.1 + 1).toNat
    let rows := (bv.2 - bv.1 - t.size.2 + 1).toNat
    let su := sseAxis r bu t.size.1 t.duv.1
    let sv := sseAxis r bv t.size.2 t.duv.2
    if ¬ ∀ q ∈ p :: ps, su.1 ≤ q.1 ∧ sv.1 ≤ q.2 ∧ q.1 ≤ su.2 ∧ q.2 ≤ sv.2 then .error .valueError
    else
      let cu := cellCoords r su cols
      let cv := cellCoords r sv rows
      if cu.length ≠ cols ∨ cv.length ≠ rows ∨ cv.length ≤ kx ∨ cu.length ≤ ky ∨ ¬ cu.Pairwise (· < ·) ∨ ¬ cv.Pairwise (· < ·) then
        .error .valueError
      else .ok (some ⟨bu, bv, cols, rows, cu, cv⟩)

end Glimpse.FloatTemplate
