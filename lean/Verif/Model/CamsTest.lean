import Verif.Model.Cams
import Mathlib.Algebra.Order.Field.Rat

/-!
Model of the construction of `optimize.Cameras` (src/glimpse/optimize.py:1169-1219): `_as_lists`, `prune_controls`, what
`update_params` raises, and `_test`.
-/
set_option autoImplicit false

namespace Glimpse.Cams

/-- A dictionary of parameters. -/
abbrev Dict := List (String × Value ℚ)

/-- The mask that `parse_params` makes of a dictionary, or what it raises. (The bounds, and so the default bounds, have
no influence on it: `parse_mask_defaults`.) -/
def maskOf (d : Dict) : Except Err (Nat → Bool) := (parseParams d none 0 0).map Prod.fst

/-- A single object or a list of them. -/
inductive OneOr (α : Type) where
  | one (a : α)
  | many (l : List α)

/-- `[x]` for a single object (optimize.py:1249-1254, 1259-1260). -/
def OneOr.toList {α : Type} : OneOr α → List α
  | .one a => [a]
  | .many l => l

/-- The argument `group_indices`: missing, one integer, a list of integers, a numpy array of integers (whose elements
are not `int`), or a list of lists of integers. -/
inductive GroupArg where
  | missing
  | one (i : ℤ)
  | ints (l : List ℤ)
  | array (l : List ℤ)
  | lists (l : List (List ℤ))

/-- `group_indices` as lists (1255-1258, 1199-1200). `group_indices[0]` raises for an empty list; the elements of an
array of integers are not wrapped, and iterating over them raises TypeError in `update_params` (1644). -/
def asGroups (ncams : Nat) : GroupArg → Except Err (List (List ℤ))
  | .missing => .ok [(List.range ncams).map fun (k : Nat) => (k : ℤ)]
  | .one i => .ok [[i]]
  | .ints [] => .error .indexError
  | .ints l => .ok [l]
  | .array [] => .error .indexError
  | .array _ => .error .typeError
  | .lists [] => .error .indexError
  | .lists l => .ok l

/-- The arguments of `Cameras`. Cameras are objects, compared by identity; a control is its list of cameras
(`_get_control_cams`, 1285-1289). Weights, scales and sparsity are left out. -/
structure BuildArgs where
  cams : OneOr Nat
  controls : OneOr (List Nat)
  camParams : Option (OneOr Dict)
  groups : GroupArg
  groupParams : Option (OneOr Dict)

/-- `Cameras.prune_controls` (1292-1323). -/
def pruneControls (controls : List (List Nat)) (cams : List Nat) : List (List Nat) :=
  controls.filter fun cs => cams.any fun c => decide (c ∈ cs)

/-- `l[i]` of Python: the position. -/
def pyIndex (n : Nat) (i : ℤ) : Except Err Nat :=
  if 0 ≤ i ∧ i < n then .ok i.toNat
  else if -(n : ℤ) ≤ i ∧ i < 0 then .ok (i + n).toNat
  else .error .indexError

/-- One group of `update_params` (1636-1650), for `m` cameras with parsed parameters: indices, which have to be valid,
the stack of bounds, which must not be empty, and the parameters of the group. -/
def groupMaskOf (gp : List Dict) (m : Nat) (gi : List ℤ × Nat) : Except Err (Nat → Bool) := do
  let _ ← gi.1.mapM (pyIndex m)
  if gi.1.isEmpty then throw .valueError
  match gp[gi.2]? with
  | none => throw .indexError
  | some d => maskOf d

/-- `Cameras.update_params` (1614-1669), as far as it raises: masks of cameras and groups. `zip` ignores dictionaries
beyond the number of cameras; with none, `zip(*[])` cannot be unpacked; with fewer than cameras, `cam_labels[i]` raises
(1656). (Parameters that `lmfit` itself refuses, having equal bounds, are not modelled.) -/
def updateMasks (ncams : Nat) (cp : List Dict) (groups : List (List ℤ)) (gp : List Dict) :
    Except Err (List (Nat → Bool) × List (Nat → Bool)) := do
  let cm ← (cp.take ncams).mapM maskOf
  if cm.isEmpty then throw .valueError
  let gm ← groups.zipIdx.mapM (groupMaskOf gp cm.length)
  if cm.length < ncams then throw .indexError
  pure (cm, gm)

/-- The camera (object) with an index. -/
def camAt (cams : List Nat) (i : ℤ) : Nat :=
  match pyIndex cams.length i with
  | .ok k => cams.getD k 0
  | .error _ => 0

/-- Lines 1528-1536 for one group: whether the check passes. -/
def sizesOk (imgsz : Nat → ℚ × ℚ) (cams : List Nat) (gp : List Dict) (gi : List ℤ × Nat) : Bool :=
  let keys := (gp.getD gi.2 []).map Prod.fst
  !(decide ("f" ∈ keys) || decide ("c" ∈ keys)) ||
    decide ((gi.1.map fun i => imgsz (camAt cams i)).dedup.length ≤ 1)

/-- Lines 1537-1547: for each position of a parameter selected in several groups, their indices (as given) are
distinct. -/
def overlapOk (groups : List (List ℤ)) (gm : List (Nat → Bool)) : Bool :=
  (List.range 20).all fun p =>
    let gs := (List.range groups.length).filter fun i => (gm.getD i fun _ => false) p
    decide (gs.length ≤ 1) || decide ((gs.flatMap fun i => groups.getD i []).Nodup)

/-- `cams_with_params` (1552-1563): whether the camera of index `i` has parameters, its own or those of a group. -/
def hasParams (cp : List Dict) (groups : List (List ℤ)) (gp : List Dict) (i : Nat) : Bool :=
  !(cp.getD i []).isEmpty ||
    (List.range groups.length).any fun j => decide ((i : ℤ) ∈ groups.getD j []) && !(gp.getD j []).isEmpty

/-- Lines 1548-1565: whether the check passes. -/
def controlledOk (cams : List Nat) (controls : List (List Nat)) (cp : List Dict) (groups : List (List ℤ))
    (gp : List Dict) : Bool :=
  (List.range cams.length).all fun i =>
    !hasParams cp groups gp i || controls.any fun cs => decide (cams.getD i 0 ∈ cs)

/-- `Cameras._test` (1523-1565). -/
def testAll (imgsz : Nat → ℚ × ℚ) (cams : List Nat) (controls : List (List Nat)) (cp : List Dict)
    (groups : List (List ℤ)) (gp : List Dict) (gm : List (Nat → Bool)) : Except Err Unit := do
  if controls.isEmpty then throw .valueError
  if !groups.zipIdx.all (sizesOk imgsz cams gp) then throw .valueError
  if !overlapOk groups gm then throw .valueError
  if !controlledOk cams controls cp groups gp then throw .valueError

/-- What is built. -/
structure Built where
  cams : List Nat
  controls : List (List Nat)
  camParams : List Dict
  groups : List (List ℤ)
  groupParams : List Dict
  camMasks : List (Nat → Bool)
  groupMasks : List (Nat → Bool)

/-- Parameters of cameras or groups: empty dictionaries if missing (1196-1197, 1202-1203). -/
def paramsOr (n : Nat) : Option (OneOr Dict) → List Dict
  | none => List.replicate n []
  | some a => a.toList

/-- `Cameras.__init__` (1169-1219), given the image sizes of cameras. -/
def buildCameras (imgsz : Nat → ℚ × ℚ) (a : BuildArgs) : Except Err Built := do
  let cams := a.cams.toList
  let controls := pruneControls a.controls.toList cams
  let groups ← asGroups cams.length a.groups
  let cp := paramsOr cams.length a.camParams
  let gp := paramsOr groups.length a.groupParams
  let ms ← updateMasks cams.length cp groups gp
  testAll imgsz cams controls cp groups gp ms.2
  pure ⟨cams, controls, cp, groups, gp, ms.1, ms.2⟩

/-- The layout of the parameters (`group_breaks`, `cam_breaks`, 1662-1669) of what is built. -/
def Built.layout (b : Built) : Layout where
  ncams := b.cams.length
  groups := b.groups.map fun g => g.map fun i => match pyIndex b.cams.length i with
    | .ok k => k
    | .error _ => 0
  groupMask i p := (b.groupMasks.getD i fun _ => false) p
  camMask j p := (b.camMasks.getD j fun _ => false) p

/-- The controls as `_build_sparsity` sees them (1598-1603), given their sizes: cameras by their position in `cams`,
others skipped. -/
def Built.controlsIdx (b : Built) (size : List Nat) : List Control :=
  (b.controls.zip size).map fun cs => ⟨cs.2, (cs.1.filter fun c => decide (c ∈ b.cams)).map fun c => b.cams.idxOf c⟩

end Glimpse.Cams
