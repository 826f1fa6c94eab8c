import Verif.Model.Tiles
import Mathlib.Algebra.BigOperators.Ring.Finset
import Mathlib.Algebra.BigOperators.Intervals
import Mathlib.Data.Rat.Cast.Defs

/-!
Model of `Tracker.compute_observer_log_likelihoods` (src/glimpse/track/tracker.py:563-625) with pixel values, on top of
the placement of its tiles (`Model/Tiles.lean`): the error image of `cv2.matchTemplate` by its definition, and the values
sampled from it by `Observer.sample_tile` (src/glimpse/track/observer.py:182-227). `scipy.interpolate.RectBivariateSpline`
is a parameter. Pixel values are exact numbers of any ordered field (no rounding to single precision).
-/
set_option autoImplicit false

namespace Glimpse.Likelihood

open Tiles

variable {E : Type} [Field E]

/-- `scipy.interpolate.RectBivariateSpline(cv, cu, tile)(v, u)` (observer.py:222-227): row coordinates, column
coordinates, values by row and column, row and column coordinate of the point. -/
abbrev Spline (E : Type) := List ℚ → List ℚ → (Nat → Nat → E) → ℚ → ℚ → E

/-- `cv2.matchTemplate(search, templ, method=cv2.TM_SQDIFF)` (tracker.py:606-610) at row `y`, column `x` for a template
of `size` (columns, rows): the sum of squared differences (OpenCV's documentation). -/
def sqdiff (size : Nat × Nat) (tile search : Nat → Nat → E) (y x : Nat) : E :=
  ∑ i ∈ Finset.range size.2, ∑ j ∈ Finset.range size.1, (tile i j - search (y + i) (x + j)) ^ 2

/-- An image to be searched: its size, and the pixels of the tile that `Tracker.extract_tile` makes of a box (tracker.py:605-608),
by the position (column, row) of the pixel in the image. The values depend on the box because they are normalized over it. -/
structure Searched (E : Type) where
  nx : Nat
  ny : Nat
  value : (ℤ × ℤ) × (ℤ × ℤ) → ℤ → ℤ → E

/-- The extracted array: its row `y` and column `x` are those of the image from the corner of the box on. -/
def Searched.tile (s : Searched E) (bu bv : ℤ × ℤ) (y x : Nat) : E := s.value (bu, bv) (bu.1 + x) (bv.1 + y)

/-- `Tracker.compute_observer_log_likelihoods` (tracker.py:563-625) for particles projected to `p :: ps`, a template `t` with
pixels `tile`, spline degrees `kx`, `ky`, and the observer's `sigma`. `none` for the image stands for `img=None`; `none` as result
for the skipped image. -/
def logLikelihoods (spline : Spline E) (img : Option (Searched E)) (t : Template) (tile : Nat → Nat → E) (kx ky : Nat) (sigma : E)
    (p : ℚ × ℚ) (ps : List (ℚ × ℚ)) : Except Err (Option (List E)) :=
  match img with
  | none => .ok none                                                        -- 577-578
  | some s => do
    match ← plan s.nx s.ny t kx ky p ps with
    | none => .ok none                                                      -- 599-603
    | some r =>
      let search := s.tile r.boxU r.boxV
      let sse : Nat → Nat → E := fun y x =>
        sqdiff t.size tile search y x * (1 / ((t.size.1 : E) * (t.size.2 : E)))   -- 606-612
      .ok (some ((p :: ps).map fun q =>
        spline r.cv r.cu sse q.2 q.1 * (1 / (2 * sigma ^ 2))))              -- 622-625

end Glimpse.Likelihood
