import Verif.Model.Basic
import Mathlib.Analysis.SpecialFunctions.Pow.Real
import Mathlib.Data.Rat.Floor

/-!
Model of `optimize.detect_keypoints` (optimize.py:2191-2228). The detector of OpenCV is a parameter. Descriptors are exact reals.
-/
set_option autoImplicit false

namespace Glimpse.DetectKp

/-- Conversion of a number to `uint8` (`np.asarray(array, dtype=np.uint8)`, optimize.py:2217-2219): the integer towards zero, modulo 256.
(Of floats that do not fit, C leaves the result open.) -/
def toUint8 (v : ℚ) : Nat := ((if v < 0 then -⌊-v⌋ else ⌊v⌋) % 256).toNat

/-- Conversion of an array to `uint8`. -/
def cast (a : List (List ℚ)) : List (List Nat) := a.map fun row => row.map toUint8

/-- Descriptors: none if no keypoint was found. -/
abbrev Descriptors := Option (List (List ℝ))

/-- `detector.detectAndCompute(array, mask)` of the detector that `method.create(**kwargs)` makes (optimize.py:2220-2221). -/
abbrev Detect (K : Type) := List (List Nat) → Option (List (List Nat)) → List K × Descriptors

/-- One row of `np.sqrt(descriptors / (descriptors.sum(axis=1, keepdims=True) + 1e-7))` (optimize.py:2224-2226). -/
noncomputable def rootRow (row : List ℝ) : List ℝ := row.map fun v => Real.sqrt (v / (row.sum + 1e-7))

/-- Descriptors with or without the root (optimize.py:2223-2226). -/
noncomputable def rooted (root : Bool) (d : Descriptors) : Descriptors := if root then d.map (List.map rootRow) else d

/-- `detect_keypoints(array, mask, method, root, **kwargs)` (optimize.py:2217-2228). -/
noncomputable def detectKeypoints {K : Type} (detect : Detect K) (array : List (List ℚ)) (mask : Option (List (List ℚ))) (root : Bool) :
    List K × Descriptors :=
  let out := detect (cast array) (mask.map cast)
  (out.1, rooted root out.2)

end Glimpse.DetectKp
