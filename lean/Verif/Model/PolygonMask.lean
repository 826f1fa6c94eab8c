import Verif.Model.Grid

/-!
Model of `helpers.polygons_to_mask` (helpers.py:1460-1527) and `Raster.rasterize_polygons` (raster.py:1119-1145).

`gdal.RasterizeLayer` is modelled by the scanline rule of GDAL's polygon fill (`GDALdllImageFilledPolygon`): on the line through the
centres of a row, the crossings with the edges are sorted and the cells whose centres lie between the first and second, third and
fourth, ... are filled; in addition, cells whose centres lie on an edge along that line which runs to the left. Arithmetic is exact.
-/
set_option autoImplicit false

namespace Glimpse.PolygonMask

/-- A point. -/
abbrev Pt := ℚ × ℚ

/-- The edges along points, from `p`. -/
def path : Pt → List Pt → List (Pt × Pt)
  | _, [] => []
  | p, q :: r => (p, q) :: path q r

/-- The edges of a ring; the last point is joined to the first (GDAL closes rings). -/
def edges : List Pt → List (Pt × Pt)
  | [] => []
  | p :: r => path p (r ++ [p])

/-- Does the edge cross the line at height `y`? (Half open, as in GDAL.) -/
def crosses (y : ℚ) (e : Pt × Pt) : Bool := decide ((e.1.2 ≤ y ∧ y < e.2.2) ∨ (e.2.2 ≤ y ∧ y < e.1.2))

/-- Where the line through an edge meets that height. -/
def meets (y : ℚ) (e : Pt × Pt) : ℚ := (y - e.1.2) * (e.2.1 - e.1.1) / (e.2.2 - e.1.2) + e.1.1

/-- The cell with centre `c` is filled with an edge along its row (GDAL: `dy1 == dy2`, `padfX[ind1] > padfX[ind2]`). -/
def along (c : Pt) (e : Pt × Pt) : Bool := decide (e.1.2 = c.2 ∧ e.2.2 = c.2 ∧ e.2.1 < c.1 ∧ c.1 ≤ e.1.1)

/-- The cell with centre `c` is filled: an odd number of crossings come before it, or an edge runs along its row. -/
def fills (c : Pt) (poly : List Pt) : Bool :=
  decide (((edges poly).filter fun e => crosses c.2 e && decide (meets c.2 e < c.1)).length % 2 = 1) || (edges poly).any (along c)

/-- `RasterizeLayer(raster, [1], layer, burn_values=[v])` for one cell: the value if any polygon fills it. -/
def burn (polys : List (List Pt)) (v : Bool) (c : Pt) (old : Bool) : Bool := if polys.any (fills c) then v else old

/-- Centre of a cell in image coordinates (`SetGeoTransform((0, 1, 0, 0, 0, 1))`, helpers.py:1518). -/
def center (row col : Nat) : Pt := ((col : ℚ) + 1 / 2, (row : ℚ) + 1 / 2)

/-- `polygons_to_mask(polygons, size, holes)` (helpers.py:1514-1527): polygons burn one, holes then burn zero. -/
def polygonsToMask (polys : List (List Pt)) (size : Nat × Nat) (holes : Option (List (List Pt))) : List (List Bool) :=
  (List.range size.2).map fun (row : Nat) => (List.range size.1).map fun (col : Nat) =>
    let v := burn polys true (center row col) false
    match holes with
    | none => v
    | some h => if h.isEmpty then v else burn h false (center row col) v

/-- `self.xy_to_rowcol(xy)[:, ::-1] + 0.5` (raster.py:1142, 1144). -/
def toImage (g : Grid) (poly : List Pt) : List Pt :=
  poly.map fun p => ((g.xyToRowcol p).2 + 1 / 2, (g.xyToRowcol p).1 + 1 / 2)

/-- `Raster.rasterize_polygons(polygons, holes)` (raster.py:1141-1145). -/
def rasterizePolygons (g : Grid) (polys : List (List Pt)) (holes : Option (List (List Pt))) : List (List Bool) :=
  polygonsToMask (polys.map (toImage g)) (g.ax.n, g.ay.n) (holes.map fun h => h.map (toImage g))

end Glimpse.PolygonMask
