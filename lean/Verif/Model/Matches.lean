import Verif.Model.Basic
import Mathlib.Data.List.Basic
import Mathlib.Algebra.Order.Field.Basic

/-!
Model of image-image matches (src/glimpse/optimize.py:461-973): `Matches`, `RotationMatches`, `RotationMatchesXY` and
`RotationMatchesXYZ`: arrays, `observed`, `predicted` and `filter`.
-/
set_option autoImplicit false

namespace Glimpse.Matches

/-- The four classes. -/
inductive Kind where
  | plain
  | rot
  | xy
  | xyz
deriving DecidableEq

/-- A pair, one for each of the two cameras, indexed by camera (`false` is camera 0). -/
def side {γ : Type} (c : Bool) (p : γ × γ) : γ := if c then p.2 else p.1

/-- The arrays of a matches object: `uvs`, `xys` (each None or a list of two arrays) and `weights`. Image and camera
coordinates are both pairs of numbers, of type `Pt`. -/
structure Arrays (Pt E : Type) where
  uvs : Option (List Pt × List Pt)
  xys : Option (List Pt × List Pt)
  weights : Option (List E)
deriving DecidableEq

/-- The cameras, as far as `filter` depends on them: whether `predicted` raises (`_test_position`, `_test_internals`),
how a point of the other camera is predicted for camera `c` (`uv_to_xyz` or `_xy_to_xyz`, then `xyz_to_uv` or
`_xyz_to_xy`), the factor `imgsz / imgsz` from the other camera to camera `c` (729), the image width of camera `c`, and
the distance of two points (`np.linalg.norm` of the difference). -/
structure Geo (Pt E : Type) where
  check : Kind → Except Err Unit
  proj : Kind → Bool → Pt → Pt
  scale : Bool → Pt → Pt
  width : Bool → E
  dist : Pt → Pt → E

variable {Pt E : Type}

/-- Arrays used by `observed` (564-573, 884-892). `RotationMatchesXYZ.observed` takes no arguments, so that a call with
arguments raises TypeError (971-973). -/
def observedOf (k : Kind) (s : Arrays Pt E) : Except Err (List Pt × List Pt) :=
  match k with
  | .plain | .rot => match s.uvs with
    | some p => .ok p
    | none => .error .typeError
  | .xy => match s.xys with
    | some p => .ok p
    | none => .error .typeError
  | .xyz => .error .typeError

/-- Arrays used by `predicted` (575-590, 806-825, 894-912). -/
def sourceOf (k : Kind) (s : Arrays Pt E) : Except Err (List Pt × List Pt) :=
  match (if k = .plain then s.uvs else s.xys) with
  | some p => .ok p
  | none => .error .typeError

/-- `size` (532-535, 879-882). -/
def sizeOf (k : Kind) (s : Arrays Pt E) : Except Err Nat :=
  match (if k = .plain ∨ k = .rot then s.uvs else s.xys) with
  | some p => .ok p.1.length
  | none => .error .typeError

/-- `l[sel]` for a boolean index: IndexError if the lengths differ. -/
def mask {γ : Type} (sel : List Bool) (l : List γ) : Except Err (List γ) :=
  if sel.length = l.length then .ok (((sel.zip l).filter fun x => x.1).map fun x => x.2) else .error .indexError

/-- `sel[sel] &= bs`. -/
def scatter : List Bool → List Bool → List Bool
  | [], _ => []
  | false :: sel, bs => false :: scatter sel bs
  | true :: sel, [] => true :: sel
  | true :: sel, b :: bs => b :: scatter sel bs

/-- `predicted(c, index=sel)`. -/
def predicted (G : Geo Pt E) (k : Kind) (s : Arrays Pt E) (c : Bool) (sel : List Bool) : Except Err (List Pt) := do
  G.check k
  let src ← sourceOf k s
  let pts ← mask sel (side (!c) src)
  .ok (pts.map (G.proj k c))

variable [Field E] [LinearOrder E]

/-- Arguments of `filter`. -/
structure Args (E : Type) where
  nBest : Option Nat
  minWeight : Option E
  cam : Bool
  maxError : Option E
  maxDistance : Option E
  scaled : Bool

/-- A number that counts as true: not None and not zero. -/
def truthyE (x : Option E) : Option E := x.filter fun y => decide (y ≠ 0)
def truthyN (x : Option Nat) : Option Nat := x.filter fun y => decide (y ≠ 0)

/-- `selected[order[min(n_best, size):]] = False` (711-713), `order` being `np.argsort(-weights)`, whose order of equal
weights is not specified. -/
def selectBest (argsort : List E → List Nat) (ws : List E) (n : Option Nat) (sel : List Bool) : List Bool :=
  match n with
  | none => sel
  | some n =>
    (List.range sel.length).map fun i => sel.getD i false && decide (i ∉ (argsort ws).drop (min n sel.length))

/-- `selected &= weights >= min_weight` (714-715). -/
def selectWeight (ws : List E) (m : Option E) (sel : List Bool) : List Bool :=
  match m with
  | none => sel
  | some m => sel.zipWith (fun b w => b && decide (m ≤ w)) ws

/-- Selection by weight (708-715). Weights of another length than the points raise (simplification: ValueError). -/
def byWeight (argsort : List E → List Nat) (s : Arrays Pt E) (a : Args E) (sel : List Bool) : Except Err (List Bool) :=
  match s.weights with
  | none =>
    if (truthyN a.nBest).isSome ∨ (truthyE a.minWeight).isSome then .error .valueError else .ok sel
  | some ws =>
    if ws.length ≠ sel.length ∧ ((truthyN a.nBest).isSome ∨ (truthyE a.minWeight).isSome) then .error .valueError
    else .ok (selectWeight ws (truthyE a.minWeight) (selectBest argsort ws (truthyN a.nBest) sel))

/-- Selection by error (718-725). -/
def byError (G : Geo Pt E) (k : Kind) (s : Arrays Pt E) (a : Args E) (sel : List Bool) : Except Err (List Bool) :=
  match truthyE a.maxError with
  | none => .ok sel
  | some m => do
    let limit := if a.scaled then m * G.width a.cam else m
    let obs ← observedOf k s
    let uv ← mask sel (side a.cam obs)
    let puv ← predicted G k s a.cam sel
    .ok (scatter sel ((uv.zipWith G.dist puv).map fun e => decide (e ≤ limit)))

/-- Selection by distance (726-735). -/
def byDistance (G : Geo Pt E) (k : Kind) (s : Arrays Pt E) (a : Args E) (sel : List Bool) : Except Err (List Bool) :=
  match truthyE a.maxDistance with
  | none => .ok sel
  | some m =>
    if sel.any id then do
      let limit := if a.scaled then m * G.width a.cam else m
      let obs ← observedOf k s
      let other ← mask sel (side (!a.cam) obs)
      let own ← mask sel (side a.cam obs)
      .ok (scatter sel (((other.map (G.scale a.cam)).zipWith G.dist own).map fun e => decide (e ≤ limit)))
    else .ok sel

/-- Both arrays of a pair. -/
def maskPair (sel : List Bool) (p : List Pt × List Pt) : Except Err (List Pt × List Pt) := do
  let a ← mask sel p.1
  let b ← mask sel p.2
  .ok (a, b)

/-- The new points (736-740): `uvs` are filtered if there are any, else `xys`. -/
def applyPoints (s : Arrays Pt E) (sel : List Bool) : Except Err (Arrays Pt E) :=
  match s.uvs, s.xys with
  | some p, _ => do
    let q ← maskPair sel p
    .ok { s with uvs := some q }
  | none, some p => do
    let q ← maskPair sel p
    .ok { s with xys := some q }
  | none, none => .error .typeError

/-- The new weights (741-742). -/
def applyWeights (s : Arrays Pt E) (sel : List Bool) : Except Err (Arrays Pt E) :=
  match s.weights with
  | none => .ok s
  | some ws => do
    let ws' ← mask sel ws
    .ok { s with weights := some ws' }

/-- `Matches.filter` (676-742), also of the subclasses: the arrays afterwards. -/
def filterMatches (G : Geo Pt E) (argsort : List E → List Nat) (k : Kind) (s : Arrays Pt E) (a : Args E) :
    Except Err (Arrays Pt E) := do
  let n ← sizeOf k s
  let s1 ← byWeight argsort s a (List.replicate n true)
  let s2 ← byError G k s a s1
  let s3 ← byDistance G k s a s2
  let s' ← applyPoints s s3
  applyWeights s' s3

/-- `_test_matches` (537-549) of a new object: with `uvs` None it reads the attribute `xyzs`, which no class has. -/
def testMatches (sameCamera : Bool) (s : Arrays Pt E) : Except Err Unit :=
  if sameCamera then .error .valueError
  else match s.uvs with
    | none => .error .attributeError
    | some p => if p.1.length = p.2.length then .ok () else .error .valueError

end Glimpse.Matches
