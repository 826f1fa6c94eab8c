import Verif.Model.Double
import Verif.Model.Basic
import Mathlib.Data.Fin.VecNotation

/-!
Model of `Camera.resize` (src/glimpse/camera.py:510-567) and of `helpers.get_scale_from_size` (src/glimpse/helpers.py:1332-1370) with every
floating point operation rounded by `r`. Only what resizing reads and changes is kept: the original image size, and image size, focal length and
principal point offset. Image sizes are whole numbers (camera.py:151-158). `scipy.optimize.differential_evolution` is the parameter `evolve`: the scale
that it proposes.
-/
set_option autoImplicit false

namespace Glimpse.FloatResize
open Double (halfEven)

/-- What resizing reads and changes: `_original_vector[6:8]`, `imgsz`, `f`, `c`. -/
structure Cam where
  orig : Fin 2 → ℤ
  size : Fin 2 → ℤ
  f : Fin 2 → ℚ
  c : Fin 2 → ℚ

/-- The argument `size` (camera.py:518): a factor or a size. -/
inductive Size where
  | factor (s : ℚ)
  | target (t : Fin 2 → ℤ)

/-- `helpers.get_scale_from_size` (helpers.py:1355-1370). -/
def scaleOf (r : ℚ → ℚ) (evolve : (Fin 2 → ℤ) → (Fin 2 → ℤ) → ℚ) (old new : Fin 2 → ℤ) : Option ℚ :=
  let initial : Fin 2 → ℚ := fun i => r (new i / old i)
  let s := evolve old new
  let err := r (|r (halfEven (r (s * old 0)) - new 0)| + |r (halfEven (r (s * old 1)) - new 1)|)
  if new 0 = old 0 ∧ new 1 = old 1 then some 1
  else if initial 0 = initial 1 then some (initial 0)
  else if err = 0 then some s
  else none

/-- `np.floor(scale1d * original_size + 0.5)` (camera.py:562). -/
def byScale (r : ℚ → ℚ) (cam : Cam) (s : ℚ) (i : Fin 2) : ℤ := ⌊r (r (s * cam.orig i) + 1 / 2)⌋

/-- `new_size` (camera.py:549-562). -/
def newSize (r : ℚ → ℚ) (evolve : (Fin 2 → ℤ) → (Fin 2 → ℤ) → ℚ) (cam : Cam) (size : Size) (force : Bool) : Except Err (Fin 2 → ℤ) :=
  match size with
  | .factor s => .ok (byScale r cam s)
  | .target t =>
    if force then .ok t
    else match scaleOf r evolve cam.orig t with
      | none => .error .valueError
      | some s => .ok (byScale r cam s)

/-- `Camera.resize` (camera.py:510-567). -/
def resize (r : ℚ → ℚ) (evolve : (Fin 2 → ℤ) → (Fin 2 → ℤ) → ℚ) (cam : Cam) (size : Size) (force : Bool) : Except Err Cam := do
  let new ← newSize r evolve cam size force
  let scale : Fin 2 → ℚ := fun i => r (new i / cam.size i)                                  -- 563
  .ok { cam with size := new, f := fun i => r (cam.f i * scale i), c := fun i => r (cam.c i * scale i) }  -- 565-567

/-- A history of calls, each given its result; one that raises leaves the camera as it was. -/
def run (r : ℚ → ℚ) (evolve : (Fin 2 → ℤ) → (Fin 2 → ℤ) → ℚ) : Cam → List (Size × Bool) → Cam
  | cam, [] => cam
  | cam, o :: os => run r evolve (match resize r evolve cam o.1 o.2 with | .ok cam' => cam' | .error _ => cam) os

end Glimpse.FloatResize
