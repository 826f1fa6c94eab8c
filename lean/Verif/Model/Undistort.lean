import Verif.Model.Camera
import Mathlib.Analysis.Convex.Hull

/-!
Model of the other ways of `Camera` to remove distortion, `_undistort_regulafalsi` and `_undistort_lookup`
(src/glimpse/camera.py:1244-1281, 1317-1367), and of `Camera.reversible` (1369-1411), over the real numbers.
-/
set_option autoImplicit false

namespace Glimpse.Undistort

noncomputable section

/-! ### Regula falsi -/

/-- A point during the iteration: finished, or with two approximations and their residuals. -/
inductive RF where
  | done (u : V2)
  | active (x1 y1 x2 y2 : V2)

/-- Before the first iteration (1337-1342). -/
def rfInit (k : Fin 6 → ℝ) (p : V2) (xy : V2) : RF :=
  let x2 : V2 := fun i => xy i / 2
  .active 0 (fun i => -xy i) x2 fun i => distort k p x2 i - xy i

open Classical in
/-- `np.any(np.abs(y2) > tolerance / self.f.mean())` (1348): over both coordinates of all points not finished. -/
def anyFar (limit : ℝ) (pts : List RF) : Bool :=
  pts.any fun s => match s with
    | .done _ => false
    | .active _ _ _ y2 => decide (∃ i, limit < |y2 i|)

/-- The new approximation (1360), each coordinate by itself. -/
def falsePosition (x1 y1 x2 y2 : V2) : V2 := fun i => (x1 i * y2 i - x2 i * y1 i) / (y2 i - y1 i)

open Classical in
/-- One iteration of one point (1345-1365). `go`: whether the tolerance (if any) asks to go on. A point is finished as soon
as one of its coordinates does not change the residual. -/
def rfPoint (k : Fin 6 → ℝ) (p : V2) (go : Bool) (xy : V2) : RF → RF
  | .done u => .done u
  | .active x1 y1 x2 y2 =>
    if (∀ i, y2 i - y1 i ≠ 0) ∧ go = true then
      let x3 := falsePosition x1 y1 x2 y2
      .active x2 y2 x3 fun i => distort k p x3 i - xy i
    else .done x2

open Classical in
/-- One iteration of all points. After all are finished (1357-1358) this changes nothing. -/
def rfStep (k : Fin 6 → ℝ) (p : V2) (fmean tol : ℝ) (xys : List V2) (pts : List RF) : List RF :=
  List.zipWith (rfPoint k p (if 0 < tol then anyFar (tol / fmean) pts else true)) xys pts

/-- The current approximation of a point. -/
def RF.value : RF → V2
  | .done u => u
  | .active _ _ x2 _ => x2

/-- `_undistort_regulafalsi` (1317-1367). Without iterations `mask` is not defined (UnboundLocalError). -/
def regulaFalsi (k : Fin 6 → ℝ) (p : V2) (fmean : ℝ) (xys : List V2) (iterations : Nat) (tol : ℝ) : Except Err (List V2) :=
  if iterations = 0 then .error .unboundLocal
  else .ok (((rfStep k p fmean tol xys)^[iterations] (xys.map (rfInit k p))).map RF.value)

/-! ### Lookup table -/

/-- `np.linspace(a, b, n)` over the real numbers. -/
def linspaceR (a b : ℝ) (n : Nat) : List ℝ :=
  (List.range n).map fun (j : Nat) => if n = 1 then a else a + (j : ℝ) * ((b - a) / ((n : ℝ) - 1))

/-- Corners and middles of the sides of the image (1260-1262), as fractions of the image size. -/
def edgeFractions : List (ℝ × ℝ) := [(0, 0), (1 / 2, 0), (1, 0), (1, 1 / 2), (1, 1), (1 / 2, 1), (0, 1), (0, 1 / 2)]

/-- Their camera coordinates if there was no distortion (1263). -/
def edgesXy (v : CamVec) : List V2 := edgeFractions.map fun e =>
  ![((v.imgsz 0 : ℝ) * e.1 - ((v.imgsz 0 : ℝ) / 2 + v.c 0)) / v.f 0, ((v.imgsz 1 : ℝ) * e.2 - ((v.imgsz 1 : ℝ) / 2 + v.c 1)) / v.f 1]

/-- Least of a list. -/
def listMin (l : List ℝ) : ℝ := l.foldr min (l.headD 0)

/-- Greatest of a list. -/
def listMax (l : List ℝ) : ℝ := l.foldr max (l.headD 0)

/-- Test coordinates along axis `i` (1266-1275). -/
def lookupAxis (v : CamVec) (density : ℝ) (i : Fin 2) : List ℝ :=
  let u := (edgesXy v).map fun e => e i
  let d := (edgesXy v).map fun e => distort v.k v.p e i
  linspaceR (min (listMin u) (listMin d)) (max (listMax u) (listMax d)) ⌊density * (v.imgsz i : ℝ)⌋.toNat

/-- Undistorted coordinates of the table (1276-1277). -/
def lookupTable (v : CamVec) (density : ℝ) : List V2 :=
  (lookupAxis v density 1).flatMap fun y => (lookupAxis v density 0).map fun x => ![x, y]

/-- `scipy.interpolate.griddata(points, values, xy, method="linear")`, a parameter: from pairs (point, value), the value at
a point, none for nan. -/
abbrev Griddata := List (V2 × V2) → V2 → Option V2

/-- `_undistort_lookup` (1244-1281) for one point. -/
def lookup (G : Griddata) (v : CamVec) (density : ℝ) (xy : V2) : Option V2 :=
  G ((lookupTable v density).map fun u => (distort v.k v.p u, u)) xy

/-! ### Choice of method -/

/-- The `method` argument of `_undistort` (1176-1178). -/
inductive Method where
  | oulu (iterations : Nat) (tol : ℝ)
  | regulafalsi (iterations : Nat) (tol : ℝ)
  | lookup (density : ℝ)
  | other

open Classical in
/-- `_undistort` (1176-1208) for an array of points and any method. -/
def undistortBy (G : Griddata) (v : CamVec) (m : Method) (xys : List V2) : Except Err (List (Option V2)) :=
  let fmean := (v.f 0 + v.f 1) / 2
  if v.k = 0 ∧ v.p = 0 then .ok (xys.map some)
  else if v.k 0 ≠ 0 ∧ (∀ i, i ≠ 0 → v.k i = 0) ∧ v.p = 0 then .ok (xys.map fun xy => some (undistortK1 (v.k 0) xy))
  else match m with
    | .oulu n tol => .ok ((undistortOulu v.k v.p fmean tol xys n xys).map some)
    | .regulafalsi n tol => do
      let r ← regulaFalsi v.k v.p fmean xys n tol
      .ok (r.map some)
    | .lookup density => .ok (xys.map (lookup G v density))
    | .other => .error .valueError

/-! ### Reversibility -/

/-- Coordinates along one axis through the centre (1386-1390, 1398-1402). -/
def axisCoords (v : CamVec) (i : Fin 2) : List ℝ :=
  linspaceR (-(v.imgsz i : ℝ) / (2 * v.f i)) ((v.imgsz i : ℝ) / (2 * v.f i)) (v.imgsz i).toNat

/-- The point on axis `i` with coordinate `t`. -/
def onAxis (i : Fin 2) (t : ℝ) : V2 := fun j => if j = i then t else 0

open Classical in
/-- `np.all(dxy[1:, i] >= dxy[:-1, i])` (1395-1396, 1408-1409). -/
def axisMonotone (v : CamVec) (i : Fin 2) : Bool :=
  let d := (axisCoords v i).map fun t => distort v.k v.p (onAxis i t) i
  (List.zip d.tail d).all fun q => decide (q.2 ≤ q.1)

/-- `Camera.reversible` (1369-1411). -/
def reversible (v : CamVec) : Bool := axisMonotone v 0 && axisMonotone v 1

end

end Glimpse.Undistort
