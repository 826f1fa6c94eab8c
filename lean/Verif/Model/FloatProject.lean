import Verif.Model.Double
import Mathlib.Data.Fin.VecNotation
import Mathlib.Algebra.BigOperators.Fin

/-!
Model of the projection of an undistorted camera (`Camera.xyz_to_uv`, `Camera.uv_to_xyz`, src/glimpse/camera.py:236-277, 569-641, 1413-1497)
with every floating point operation rounded by `r`. Distortion and elevation corrections are left out (`k`, `p` zero, `correction` none).
The library functions are parameters: `np.cos`, `np.sin`, and the dot products of `np.matmul`, whose order of summation is not specified.
-/
set_option autoImplicit false

namespace Glimpse.FloatProject

/-- What the projection reads: position, view direction in degrees, image size, focal length and principal point offset in pixels. -/
structure Cam where
  xyz : Fin 3 → ℚ
  viewdir : Fin 3 → ℚ
  imgsz : Fin 2 → ℤ
  f : Fin 2 → ℚ
  c : Fin 2 → ℚ

/-- Library functions: cosine, sine, and the dot product of two vectors inside of `np.matmul`. -/
structure Lib where
  cos : ℚ → ℚ
  sin : ℚ → ℚ
  dot : (n : Nat) → (Fin n → ℚ) → (Fin n → ℚ) → ℚ

/-- The double nearest to π (`NPY_PI`). -/
def piDouble : ℚ := 884279719003555 / 2 ^ 48

/-- `np.deg2rad` (camera.py:260): the product with the double `NPY_PI / 180.0`. -/
def radians (r : ℚ → ℚ) (x : ℚ) : ℚ := r (x * r (piDouble / 180))

/-- `Camera.R` (camera.py:260-277), products from left to right. -/
def rot (r : ℚ → ℚ) (lib : Lib) (v : Fin 3 → ℚ) : Fin 3 → Fin 3 → ℚ :=
  let C := fun i => lib.cos (radians r (v i))
  let S := fun i => lib.sin (radians r (v i))
  ![![r (r (C 0 * C 2) + r (r (S 0 * S 1) * S 2)), r (r (r (C 0 * S 1) * S 2) - r (C 2 * S 0)), r (-C 1 * S 2)],
    ![r (r (r (C 2 * S 0) * S 1) - r (C 0 * S 2)), r (r (S 0 * S 2) + r (r (C 0 * C 2) * S 1)), r (-C 1 * C 2)],
    ![r (C 1 * S 0), r (C 0 * C 1), S 1]]

/-- `Camera._xyz_to_xy` (camera.py:1426-1448): camera coordinates (`none` for NaN) and depth. -/
def xyzToXy (r : ℚ → ℚ) (lib : Lib) (cam : Cam) (xyz : Fin 3 → ℚ) (directions : Bool) : Option (Fin 2 → ℚ) × ℚ :=
  let d : Fin 3 → ℚ := if directions then xyz else fun j => r (xyz j - cam.xyz j)
  let p : Fin 3 → ℚ := fun i => lib.dot 3 (rot r lib cam.viewdir i) d
  (if p 2 ≤ 0 then none else some ![r (p 0 / p 2), r (p 1 / p 2)], p 2)

/-- `Camera._xy_to_uv` (camera.py:1477-1486) without distortion. -/
def xyToUv (r : ℚ → ℚ) (cam : Cam) (xy : Fin 2 → ℚ) : Fin 2 → ℚ :=
  fun i => r (r (xy i * cam.f i) + r (r ((cam.imgsz i : ℚ) / 2) + cam.c i))

/-- `Camera.xyz_to_uv` (camera.py:600-606). -/
def xyzToUv (r : ℚ → ℚ) (lib : Lib) (cam : Cam) (xyz : Fin 3 → ℚ) (directions : Bool) : Option (Fin 2 → ℚ) × ℚ :=
  let q := xyzToXy r lib cam xyz directions
  (q.1.map (xyToUv r cam), q.2)

/-- `Camera._uv_to_xy` (camera.py:1488-1497) without distortion. -/
def uvToXy (r : ℚ → ℚ) (cam : Cam) (uv : Fin 2 → ℚ) : Fin 2 → ℚ :=
  fun i => r (r (uv i - r (r ((cam.imgsz i : ℚ) * (1 / 2)) + cam.c i)) * r (1 / cam.f i))

/-- `Camera._xy_to_xyz` (camera.py:1464-1475) for a scalar depth. -/
def xyToXyz (r : ℚ → ℚ) (lib : Lib) (cam : Cam) (xy : Fin 2 → ℚ) (directions : Bool) (depth : ℚ) : Fin 3 → ℚ :=
  let R := rot r lib cam.viewdir
  let w : Fin 3 → ℚ := fun j => r (lib.dot 2 ![R 0 j, R 1 j] xy + R 2 j)
  let w : Fin 3 → ℚ := if depth ≠ 1 then fun j => r (w j * depth) else w
  if directions then w else fun j => r (w j + cam.xyz j)

/-- `Camera.uv_to_xyz` (camera.py:639-641) for a scalar depth. -/
def uvToXyz (r : ℚ → ℚ) (lib : Lib) (cam : Cam) (uv : Fin 2 → ℚ) (directions : Bool) (depth : ℚ) : Fin 3 → ℚ :=
  xyToXyz r lib cam (uvToXy r cam uv) directions depth

end Glimpse.FloatProject
