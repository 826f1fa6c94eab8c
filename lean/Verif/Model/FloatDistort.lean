import Verif.Model.FloatProject

/-!
Model of the projection of a distorted camera (`Camera._distort`, src/glimpse/camera.py:1116-1174) with every floating point operation rounded
by `r`; see `Model/FloatProject.lean` for the other steps.
-/
set_option autoImplicit false

namespace Glimpse.FloatProject

/-- A sum of the polynomial in `Camera._radial_distortion` (camera.py:1124-1137): terms with a coefficient of zero are skipped. -/
def addTerm (r : ℚ → ℚ) (s k term : ℚ) : ℚ := if k ≠ 0 then r (s + term) else s

/-- `1 + a r2 + b r2² + c r2³` (camera.py:1124-1130, 1132-1138). -/
def cubic (r : ℚ → ℚ) (a b c r2 : ℚ) : ℚ :=
  addTerm r (addTerm r (addTerm r 1 a (r (a * r2))) b (r (r (b * r2) * r2))) c (r (r (r (c * r2) * r2) * r2))

/-- `Camera._radial_distortion` (camera.py:1116-1141). -/
def radial (r : ℚ → ℚ) (k : Fin 6 → ℚ) (r2 : ℚ) : ℚ :=
  let dr := cubic r (k 0) (k 1) (k 2) r2
  if k 3 ≠ 0 ∨ k 4 ≠ 0 ∨ k 5 ≠ 0 then r (dr / cubic r (k 3) (k 4) (k 5) r2) else dr

/-- `Camera._tangential_distortion` (camera.py:1143-1156). -/
def tangential (r : ℚ → ℚ) (p xy : Fin 2 → ℚ) (r2 : ℚ) : Fin 2 → ℚ :=
  let xty := r (xy 0 * xy 1)
  ![r (r (r (2 * xty) * p 0) + r (p 1 * r (r2 + r (2 * r (xy 0 * xy 0))))),
    r (r (p 0 * r (r2 + r (2 * r (xy 1 * xy 1)))) + r (r (2 * xty) * p 1))]

/-- `Camera._distort` (camera.py:1158-1174). -/
def distort (r : ℚ → ℚ) (k : Fin 6 → ℚ) (p xy : Fin 2 → ℚ) : Fin 2 → ℚ :=
  if k = 0 ∧ p = 0 then xy
  else
    let r2 := r (r (xy 0 * xy 0) + r (xy 1 * xy 1))
    let dxy : Fin 2 → ℚ := if k ≠ 0 then fun i => r (xy i * radial r k r2) else xy
    if p ≠ 0 then fun i => r (dxy i + tangential r p xy r2 i) else dxy

/-- `Camera.xyz_to_uv` (camera.py:600-606, 1477-1486) of a camera with distortion. -/
def xyzToUvDistorted (r : ℚ → ℚ) (lib : Lib) (cam : Cam) (k : Fin 6 → ℚ) (p : Fin 2 → ℚ) (xyz : Fin 3 → ℚ) (directions : Bool) :
    Option (Fin 2 → ℚ) × ℚ :=
  let q := xyzToXy r lib cam xyz directions
  (q.1.map fun xy => xyToUv r cam (distort r k p xy), q.2)

end Glimpse.FloatProject
