import Verif.Model.Camera

/-!
Model of the objective of `optimize.ObserverCameras.fit` (`src/glimpse/optimize.py:2044-2067`) for one pair of matched
points of one match (the code sums both the objective and the gradients over points and matches).
-/
set_option autoImplicit false

namespace Glimpse

noncomputable section

/-- `RotationMatchesXYZ.predicted` (optimize.py:951-967) for one point, as a function of the view direction of its
camera: `Camera._xy_to_xyz` (`Camera.xyToXyz` with default arguments) scaled to unit length. -/
def predictedXyz (v : V3) (xy : V2) : V3 :=
  let d : V3 := fun i => (xy 0 * rotR v 0 i + xy 1 * rotR v 1 i) + rotR v 2 i
  fun i => d i * (1 / Real.sqrt (∑ j, d j ^ 2))

/-- The objective contribution of one pair (optimize.py:2058-2059). -/
def pairObjective (v0 v1 : V3) (xy0 xy1 : V2) : ℝ := ∑ i, |predictedXyz v0 xy0 i - predictedXyz v1 xy1 i|

/-- `gradient[a]` of one pair (optimize.py:2061-2064): `dD_dw[i][a] = Σ_j Rprime[i][a][j] * xy_hat[j]`, contracted with
the sign of the difference. It is added to camera `i`'s gradient (2065) and subtracted from camera `j`'s (2067). -/
def pairGradient (v0 v1 : V3) (xy0 xy1 : V2) (a : Fin 3) : ℝ :=
  let xyHat : V3 := ![xy0 0, xy0 1, 1]
  ∑ i, (∑ j, rprime v0 i a j * xyHat j) *
    (SignType.sign (predictedXyz v0 xy0 i - predictedXyz v1 xy1 i) : ℝ)

end

end Glimpse
