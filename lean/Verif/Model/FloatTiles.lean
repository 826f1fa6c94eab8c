import Verif.Model.Grid
import Verif.Model.Double

/-!
Model of `Grid.tile_indices` (src/glimpse/raster.py:580-609) in floating point: `r` rounds the result of each division. `np.round`, `np.ceil` and
`np.floor` of floating point numbers are exact.
-/
set_option autoImplicit false

namespace Glimpse.FloatTiles
open Glimpse

/-- Number of tiles along one axis (594): `np.round(n / size).astype(int)`. -/
def countF (r : ℚ → ℚ) (n : Nat) (size : ℚ) : ℤ := roundHalfEven (r (n / size))

/-- Tile number of each cell along one axis (597-598): `floor(arange(n) / ceil(n / m))`; for `m = 0` the division gives infinity and every cell is
in tile 0. -/
def tileNumbersF (r : ℚ → ℚ) (n : Nat) (size : ℚ) : List ℚ :=
  let m := countF r n size
  (List.range n).map fun i : Nat => if m = 0 then 0 else ((⌊r ((i : ℚ) / (⌈r ((n : ℚ) / (m : ℚ))⌉ : ℤ))⌋ : ℤ) : ℚ)

/-- Tile ends along one axis (599-600). -/
def tileEndsF (r : ℚ → ℚ) (n : Nat) (size : ℚ) : List Int :=
  let xi := tileNumbersF r n size
  0 :: (uniqueSorted xi).map fun u => (searchRight xi u : Int)

/-- The slices (start, stop) along one axis (602-609). -/
def tileSlicesF (r : ℚ → ℚ) (n : Nat) (size : ℚ) (overlap : Int) : List (Int × Int) :=
  let ends := tileEndsF r n size
  ((tileStarts ends overlap).take (ends.length - 1)).zip (ends.drop 1)

/-- `Grid.tile_indices` (580-609): pairs (row slice, column slice). -/
def tileIndicesF (r : ℚ → ℚ) (g : Grid) (size : ℚ × ℚ) (overlap : Int × Int) : List ((Int × Int) × (Int × Int)) :=
  (tileSlicesF r g.ay.n size.2 overlap.2).flatMap fun a =>
    (tileSlicesF r g.ax.n size.1 overlap.1).map fun c => (a, c)

end Glimpse.FloatTiles
