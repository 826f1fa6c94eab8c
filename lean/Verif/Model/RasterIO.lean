import Verif.Model.RasterRead
import Mathlib.Data.List.SplitOn

/-!
Model of writing rasters to and opening them from files: `crs_to_wkt`, `gdal_driver_from_path` and `write_raster`
(src/glimpse/helpers.py:486-615), `Raster.write` (raster.py:1476-1490), `Raster.open` (694-759) and `Grid.read` (183-220),
and `Grid.copy` (286-288), `Raster.copy` (902-909).

GDAL is a table of drivers and a file system of datasets: a dataset has a geotransform, a projection, a size, bands and a
no-data value. What is written with a driver is read back unchanged (simplification: no lossy formats, no rounding by data
type, one no-data value for all bands).
-/
set_option autoImplicit false

namespace Glimpse.RasterIO

/-! ### Coordinate reference systems -/

/-- A `crs` argument (helpers.py:486-491): None, an integer, a string, or something else. -/
inductive Crs where
  | none
  | epsg (code : ℤ)
  | text (s : List Char)
  | other
deriving DecidableEq

/-- The conversions of osr, each followed by `ExportToWkt` (helpers.py:504-518). -/
structure Osr where
  epsg : ℤ → List Char
  wkt : List Char → List Char
  proj4 : List Char → List Char

/-- `crs_to_wkt` (helpers.py:486-518). -/
def crsToWkt (osr : Osr) : Crs → Except Err (List Char)
  | .epsg code => .ok (osr.epsg code)
  | .text s => if '[' ∈ s then .ok (osr.wkt s) else if '+' ∈ s then .ok (osr.proj4 s) else .error .valueError
  | _ => .error .valueError

/-- `bool(crs)` (helpers.py:606). -/
def Crs.truthy : Crs → Bool
  | .none => false
  | .epsg code => decide (code ≠ 0)
  | .text s => decide (s ≠ [])
  | .other => true

/-! ### Drivers -/

/-- A GDAL driver with the metadata used (helpers.py:536-545, 589-594). -/
structure Driver where
  name : List Char
  raster : Bool
  vector : Bool
  /-- `DMD_EXTENSIONS`, empty if absent -/
  extensions : List Char
  create : Bool
  createCopy : Bool
deriving DecidableEq

/-- `os.path.splitext(path)[1]` on a Posix system: from the last dot of the last component, leading dots of which do not
count. -/
def splitext (path : List Char) : List Char :=
  let base := (path.reverse.takeWhile (· ≠ '/')).reverse
  let stem := base.dropWhile (· = '.')
  if '.' ∈ stem then '.' :: (stem.reverse.takeWhile (· ≠ '.')).reverse else []

/-- `gdal_driver_from_path` (helpers.py:521-545). (Simplification: `lower` on ASCII letters.) -/
def driverFromPath (drivers : List Driver) (path : List Char) (raster vector : Bool) : Option Driver :=
  let ext := ((splitext path).drop 1).map Char.toLower
  drivers.find? fun d =>
    ((raster && d.raster) || (vector && d.vector)) && (decide (d.extensions ≠ []) && decide (ext ∈ d.extensions.splitOn ' '))

/-- The choice of the driver (helpers.py:579-588). `GetDriverByName` ignores case. -/
def chooseDriver (drivers : List Driver) (path : List Char) (driver : Option (List Char)) : Except Err Driver :=
  match (match driver with
    | some name => if name = [] then driverFromPath drivers path true false
        else drivers.find? fun d => decide (d.name.map Char.toLower = name.map Char.toLower)
    | none => driverFromPath drivers path true false) with
  | some d => .ok d
  | none => .error .valueError

/-! ### Datasets -/

/-- The six numbers of a geotransform. -/
structure GeoTransform where
  x0 : ℚ
  dx : ℚ
  rx : ℚ
  y0 : ℚ
  ry : ℚ
  dy : ℚ
deriving DecidableEq

/-- A dataset: what `osgeo.gdal.Open` gives access to. -/
structure Dataset where
  transform : GeoTransform
  projection : List Char
  nx : Nat
  ny : Nat
  isFloat : Bool
  nodata : Option ℚ
  bands : List FArray
deriving DecidableEq

/-- The file system. -/
abbrev Files := List Char → Option Dataset

/-- An array to write, already three-dimensional (helpers.py:571), as its bands. -/
structure Arr where
  nx : Nat
  ny : Nat
  bands : List FArray
  isFloat : Bool
  /-- whether GDAL has a type for that of the array (572-577) -/
  supported : Bool
deriving DecidableEq

/-- Optional arguments of `write_raster`. -/
structure WriteArgs where
  driver : Option (List Char) := none
  nan : Option ℚ := none
  crs : Crs := .none
  transform : Option GeoTransform := none

/-- A new dataset (helpers.py:595-602): GDAL's default transform, and zeros. -/
def blank (a : Arr) : Dataset :=
  ⟨⟨0, 1, 0, 0, 0, 1⟩, [], a.nx, a.ny, a.isFloat, none,
    List.replicate a.bands.length (List.replicate a.ny (List.replicate a.nx (some 0)))⟩

/-- The projection to set (helpers.py:605-607). -/
def projectionOf (osr : Osr) (crs : Crs) : Except Err (List Char) :=
  if crs.truthy then crsToWkt osr crs else .ok []

/-- The dataset once filled (helpers.py:603-611). -/
def filled (a : Arr) (args : WriteArgs) (projection : List Char) : Dataset :=
  { blank a with
    transform := args.transform.getD (blank a).transform
    projection := projection
    nodata := args.nan
    bands := a.bands }

/-- `write_raster` from the creation on (helpers.py:593-615). A driver that can create has emptied the file before anything
else can fail; GDAL does not create datasets without cells. -/
def writeWith (osr : Osr) (d : Driver) (a : Arr) (path : List Char) (args : WriteArgs) (fs : Files) :
    Except Err Unit × Files :=
  if !d.create && !d.createCopy then (.error .valueError, fs)
  else if a.nx = 0 ∨ a.ny = 0 then (.error .other, fs)
  else
    let created : Files := if d.create then Function.update fs path (some (blank a)) else fs
    match projectionOf osr args.crs with
    | .error e => (.error e, created)
    | .ok p => (.ok (), Function.update fs path (some (filled a args p)))

/-- `write_raster` (helpers.py:548-615). -/
def writeRaster (drivers : List Driver) (osr : Osr) (a : Arr) (path : List Char) (args : WriteArgs) (fs : Files) :
    Except Err Unit × Files :=
  if !a.supported then (.error .valueError, fs)
  else match chooseDriver drivers path args.driver with
    | .error e => (.error e, fs)
    | .ok d => writeWith osr d a path args fs

/-- A `Raster` with data in memory: limits, array, coordinate reference system (raster.py:635-660). -/
structure Ras where
  xlim : ℚ × ℚ
  ylim : ℚ × ℚ
  a : Arr
  crs : Crs

/-- The grid of a raster: limits and size (raster.py:867-873, 883-885). -/
def Ras.grid (r : Ras) : Grid := ⟨⟨r.xlim.1, r.xlim.2, r.a.nx⟩, ⟨r.ylim.1, r.ylim.2, r.a.ny⟩⟩

/-- `Raster.write` (raster.py:1476-1490) with optional driver and no-data value (which do not replace the transform and
coordinate reference system of the raster). -/
def Ras.write (drivers : List Driver) (osr : Osr) (r : Ras) (path : List Char) (driver : Option (List Char))
    (nan : Option ℚ) (fs : Files) : Except Err Unit × Files :=
  writeRaster drivers osr r.a path
    { driver := driver, nan := nan, crs := r.crs,
      transform := some ⟨r.xlim.1, r.grid.ax.d, 0, r.ylim.1, 0, r.grid.ay.d⟩ } fs

/-! ### Opening -/

/-- The grid of a file (raster.py:724-728, and 203-208): from the transform, without its rotation. Equal limits raise. -/
def fileGrid (ds : Dataset) : Except Err Grid :=
  let g : Grid := ⟨⟨ds.transform.x0 + ds.transform.dx * 0, ds.transform.x0 + ds.transform.dx * ds.nx, ds.nx⟩,
    ⟨ds.transform.y0 + ds.transform.dy * 0, ds.transform.y0 + ds.transform.dy * ds.ny, ds.ny⟩⟩
  if g.ax.lo = g.ax.hi ∨ g.ay.lo = g.ay.hi then .error .valueError else .ok g

/-- `buf_xsize` or `buf_ysize` (raster.py:732-737): `d` is the cell size wanted, `cell` that of the file. -/
def bufSize (win : ℤ) (cell : ℚ) (d : Option ℚ) : ℤ :=
  match d with
  | some d => if d = 0 then win else ⌈|(win : ℚ) * cell / d|⌉
  | none => win

/-- What `Raster.open` returns: the limits, the coordinate reference system, the value to replace by NaN and the arguments
of `ReadAsArray` (raster.py:745-759). -/
structure Opened where
  xlim : ℚ × ℚ
  ylim : ℚ × ℚ
  crs : Option (List Char)
  band : Nat
  nan : Option ℚ
  xoff : ℤ
  yoff : ℤ
  winx : ℤ
  winy : ℤ
  bufx : ℤ
  bufy : ℤ
deriving DecidableEq

/-- The value to replace (raster.py:742-744): `default_nan` is used only if true, thus not zero. -/
def nanOf (ds : Dataset) (nan : Option ℚ) : Option ℚ :=
  match nan with
  | some v => some v
  | none => if ds.isFloat then (match ds.nodata with
      | some v => if v = 0 then none else some v
      | none => none) else none

/-- `crs if crs else None` (raster.py:746). -/
def crsOf (ds : Dataset) : Option (List Char) := if ds.projection = [] then none else some ds.projection

/-- The end of `Raster.open` (raster.py:729-759), given the grid of the file and the extent to crop to. -/
def openWith (ds : Dataset) (g : Grid) (e : CropExtent) (band : Nat) (d nan : Option ℚ) : Except Err Opened :=
  if band = 0 ∨ ds.bands.length < band then .error .attributeError
  else .ok ⟨e.xlim, e.ylim, crsOf ds, band, nanOf ds nan, e.cols.1, e.rows.1, e.cols.2 - e.cols.1 + 1,
    e.rows.2 - e.rows.1 + 1, bufSize (e.cols.2 - e.cols.1 + 1) g.ax.d d, bufSize (e.rows.2 - e.rows.1 + 1) g.ay.d d⟩

/-- `Raster.open` (raster.py:694-759). A missing file or band is `None`, whose attribute is then looked up. -/
def openRaster (fs : Files) (path : List Char) (band : Nat) (d : Option ℚ) (xlim ylim : Option (ℚ × ℚ))
    (nan : Option ℚ) : Except Err Opened :=
  match fs path with
  | none => .error .attributeError
  | some ds => do
    let g ← fileGrid ds
    let e ← g.cropExtent xlim ylim
    openWith ds g e band d nan

/-- The opened raster for reading at full resolution (`bufx = winx`, `bufy = winy`; see `RasterFile`). -/
def Opened.file (o : Opened) (ds : Dataset) : RasterFile where
  band := ds.bands.getD (o.band - 1) []
  bandCols := ds.nx
  xoff := o.xoff.toNat
  yoff := o.yoff.toNat
  xsize := o.winx.toNat
  ysize := o.winy.toNat
  clean v := match o.nan with
    | some z => if v = some z then none else v
    | none => v
  cached := none

/-- `Grid.read` (raster.py:183-220): limits and size of the grid. The new size is assigned to an attribute `n` that nothing
reads (219), so that `size` stays that of the file. -/
def gridRead (fs : Files) (path : List Char) (_d : Option ℚ) (xlim ylim : Option (ℚ × ℚ)) : Except Err Grid :=
  match fs path with
  | none => .error .attributeError
  | some ds => do
    let g ← fileGrid ds
    let e ← g.cropExtent xlim ylim
    .ok ⟨⟨e.xlim.1, e.xlim.2, g.ax.n⟩, ⟨e.ylim.1, e.ylim.2, g.ay.n⟩⟩

/-- `Raster.copy` (raster.py:902-909): the coordinate reference system is not passed on. -/
def Ras.copy (r : Ras) : Ras := { r with crs := .none }

end Glimpse.RasterIO
