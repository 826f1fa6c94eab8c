import Verif.Model.Camera
import Mathlib.Data.Rat.Floor

/-!
Model of `Image.project` (src/glimpse/image.py:294-354), over any ordered field `K` for image coordinates (exact arithmetic).
Facts used about scipy 1.4.1, `RegularGridInterpolator(points, values, method, bounds_error=False)`: `fill_value` is NaN;
the interval is found with `searchsorted` (NaN sorts last) and clipped to the first and last; a point is outside if a
coordinate is below the first or above the last grid point (false for NaN). And about numpy: NaN stored in an array of integers
becomes some unspecified integer, other numbers are truncated.
-/
set_option autoImplicit false

namespace Glimpse.ImgProject

variable {K : Type} [Field K] [LinearOrder K] [FloorRing K]

/-- Argument `method`. -/
inductive Method where
  | linear
  | nearest
  | other
deriving DecidableEq

/-- `np.linspace(0.5, n - 0.5, n)` (326-327, 338, 342). -/
def centers (n : Nat) : List K := (List.range n).map fun (i : Nat) => (i : K) + 1 / 2

/-- Interval of a coordinate: its two grid points, and the fraction (`none` for NaN). -/
structure Cell (K : Type) where
  lo : Nat
  hi : Nat
  frac : Option K

/-- Number of grid points below a coordinate (`np.searchsorted`); NaN is above all. -/
def below (xs : List K) : Option K → Nat
  | none => xs.length
  | some x => (xs.takeWhile fun g => decide (g < x)).length

/-- `RegularGridInterpolator._find_indices`. With one grid point, both ends are that point (index -1) and the fraction is
0/0. -/
def findCell (xs : List K) (x : Option K) : Cell K :=
  if xs.length < 2 then ⟨0, 0, none⟩
  else
    let i := min (below xs x - 1) (xs.length - 2)
    ⟨i, i + 1, x.map fun x => (x - xs.getD i 0) / (xs.getD (i + 1) 0 - xs.getD i 0)⟩

/-- Whether a coordinate is out of bounds. -/
def outside (xs : List K) : Option K → Bool
  | none => false
  | some x => decide (x < xs.headD 0) || decide (xs.getLastD 0 < x)

/-- Value by row and column. -/
def pixel (a : List (List K)) (r c : Nat) : K := (a.getD r []).getD c 0

/-- Nearer end of an interval: `np.where(yi <= .5, i, i + 1)`, false for NaN. -/
def nearer (c : Cell K) : Nat := match c.frac with
  | some f => if f ≤ 1 / 2 then c.lo else c.hi
  | none => c.hi

/-- Value by the method (linear or nearest), rows first. -/
def blend (method : Method) (a : List (List K)) (v u : Cell K) : Option K := match method with
  | .linear => v.frac.bind fun y => u.frac.map fun x =>
      (1 - y) * (1 - x) * pixel a v.lo u.lo + (1 - y) * x * pixel a v.lo u.hi + y * (1 - x) * pixel a v.hi u.lo +
        y * x * pixel a v.hi u.hi
  | _ => some (pixel a (nearer v) (nearer u))

/-- One sample of the interpolator; `none` is NaN. -/
def sample (method : Method) (a : List (List K)) (pv pu : List K) (v u : Option K) : Option K :=
  if outside pv v || outside pu u then none else blend method a (findCell pv v) (findCell pu u)

/-- Truncation to an integer. -/
def truncate (x : K) : K := if 0 ≤ x then (⌊x⌋ : K) else (⌈x⌉ : K)

/-- Assignment to the array `projected` (350-354), which has the type of the image (347-349): `junk` is what NaN becomes in an
array of integers. -/
def store (isInt : Bool) (junk : K) (x : Option K) : Option K :=
  if isInt then some (match x with | some x => truncate x | none => junk) else x

/-- The pixels of an image (`Image.read`): one band is returned without its axis. -/
inductive Pixels (K : Type) where
  | gray (a : List (List K))
  | bands (l : List (List (List K)))
deriving DecidableEq

/-- `np.expand_dims` if there is no axis for bands (345-346). -/
def Pixels.list : Pixels K → List (List (List K))
  | .gray a => [a]
  | .bands l => l

/-- Shape test of the interpolator. -/
def hasShape (h w : Nat) (a : List (List K)) : Bool := decide (a.length = h) && a.all fun r => decide (r.length = w)

/-- `Image.project` (294-354). `same`: whether the positions are equal. `view`: from target to source image coordinates
(333-335), `none` for NaN. `tw`, `th`, `sw`, `sh`: image sizes of target and source camera. The bands of the result, each by
rows. (The grid of the target is used for the source if they have the same size, 337-343: these are the same numbers.) -/
def project (same : Bool) (method : Method) (view : K × K → Option (K × K)) (tw th sw sh : Nat) (isInt : Bool) (junk : K)
    (img : Pixels K) : Except Err (List (List (List (Option K)))) :=
  if !same then .error .valueError
  else img.list.mapM fun a =>
    if method == .other || !hasShape sh sw a then .error .valueError
    else .ok ((centers th).map fun v => (centers tw).map fun u =>
      store isInt junk (sample method a (centers sh) (centers sw) ((view (u, v)).map Prod.snd) ((view (u, v)).map Prod.fst)))

/-- From the image coordinates of the target to those of the source (332-335). -/
noncomputable def view (src tgt : Camera) (p : ℝ × ℝ) : Option (ℝ × ℝ) :=
  (src.xyzToUv (tgt.uvToXyz ![p.1, p.2] true 1) true).1.map fun q => (q 0, q 1)

/-- `image.project(tgt, method)` for an image with camera `src`. -/
noncomputable def projectCam (src tgt : Camera) (method : Method) (isInt : Bool) (junk : ℝ) (img : Pixels ℝ) :
    Except Err (List (List (List (Option ℝ)))) :=
  open Classical in
  project (decide (tgt.vec.xyz = src.vec.xyz)) method (view src tgt) (tgt.vec.imgsz 0).toNat (tgt.vec.imgsz 1).toNat
    (src.vec.imgsz 0).toNat (src.vec.imgsz 1).toNat isInt junk img

end Glimpse.ImgProject
