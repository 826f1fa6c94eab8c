import Verif.Model.Basic
import Mathlib.Data.List.Basic
import Mathlib.Algebra.Order.Ring.Int

/-!
Model of `optimize.Cameras` (src/glimpse/optimize.py:1132-1700): selection of parameters (`parse_params`), their layout in
the parameter vector (`update_params`), `set_cameras`, `reset_cameras`, `predicted`, `_test` and the Jacobian sparsity.
-/
set_option autoImplicit false

namespace Glimpse.Cams

/-! ### parse_params -/

/-- A selection of elements of an attribute: `True`, `False`, `None`, an integer or a list of integers. -/
inductive Sel where
  | all
  | no
  | nothing
  | index (i : ℤ)
  | indices (l : List ℤ)

/-- A bound: a scalar or a list; `none` is `None` or `nan`. -/
inductive Bnd (β : Type) where
  | one (b : Option β)
  | list (l : List (Option β))

/-- A value of the parameter dictionary: a selection, or a tuple of selection, minimum and maximum. -/
structure Value (β : Type) where
  sel : Sel
  bounds : Option (Bnd β × Bnd β)

/-- Attributes with their first and last (exclusive) position (optimize.py:1487-1488). -/
def attrs : List (String × Nat × Nat) :=
  [("xyz", 0, 3), ("viewdir", 3, 6), ("imgsz", 6, 8), ("f", 8, 10), ("c", 10, 12), ("k", 12, 18), ("p", 18, 20)]

/-- Local variables of the loop: `mask`, `bounds` and `positions`, which is unbound at first (1489-1511). -/
structure PState (β : Type) where
  mask : Nat → Bool
  bounds : Nat → Option β × Option β
  positions : Option (List ℤ)

/-- A numpy index into 20 elements. -/
def resolve (i : ℤ) : Except Err Nat :=
  if 0 ≤ i ∧ i < 20 then .ok i.toNat
  else if -20 ≤ i ∧ i < 0 then .ok (i + 20).toNat
  else .error .indexError

/-- `positions` for a selection, none if the condition of line 1498 fails (1497-1503). `False == 0`, so that `False`
counts as index 0. -/
def positionsOf (start stop : Nat) : Sel → Option (List ℤ)
  | .all => some ((List.range (stop - start)).map fun (k : Nat) => (start : ℤ) + (k : ℤ))
  | .no => some [(start : ℤ)]
  | .nothing => none
  | .index i => some [(start : ℤ) + i]
  | .indices [] => none
  | .indices (i :: l) => some ((i :: l).map fun (k : ℤ) => (start : ℤ) + k)

variable {β : Type}

/-- `np.atleast_1d(b)`, repeated if a singleton (1505-1510). -/
def expand (b : Bnd β) (n : Nat) : List (Option β) :=
  match b with
  | .one b => List.replicate n b
  | .list [b] => List.replicate n b
  | .list l => l

/-- `bounds[positions] = ...`, one after another. -/
def assignBounds (f : Nat → Option β × Option β) : List (Nat × (Option β × Option β)) → Nat → Option β × Option β
  | [] => f
  | (p, b) :: l => assignBounds (fun q => if q = p then b else f q) l

/-- Lines 1504-1511. -/
def setBounds (st : PState β) (bnds : Option (Bnd β × Bnd β)) : Except Err (PState β) :=
  match bnds with
  | none => .ok st
  | some (mn, mx) =>
    match st.positions with
    | none => .error .unboundLocal
    | some ps => do
      let rs ← ps.mapM resolve
      let lo := expand mn ps.length
      let hi := expand mx ps.length
      if lo.length ≠ ps.length ∨ hi.length ≠ ps.length then throw .valueError
      .ok { st with bounds := assignBounds st.bounds (rs.zip (lo.zip hi)) }

/-- Lines 1492-1503. -/
def setMask (st : PState β) (start stop : Nat) (s : Sel) : Except Err (PState β) :=
  match positionsOf start stop s with
  | none => .ok st
  | some ps => do
    let rs ← ps.mapM resolve
    .ok { st with mask := fun q => st.mask q || decide (q ∈ rs), positions := some ps }

/-- One item of the dictionary (1491-1511). -/
def parseStep (st : PState β) (kv : String × Value β) : Except Err (PState β) :=
  match attrs.lookup kv.1 with
  | none => .ok st
  | some (a, b) => do
    let st' ← setMask st a b kv.2.sel
    setBounds st' kv.2.bounds

/-- Missing bounds (1512-1520): from the defaults, else infinite. -/
def fill (defaults : Option (Nat → Option β × Option β)) (ninf pinf : β) (b : Nat → Option β × Option β) (p : Nat) :
    β × β :=
  let d := match defaults with
    | some f => f p
    | none => (none, none)
  (((b p).1.or d.1).getD ninf, ((b p).2.or d.2).getD pinf)

/-- `Cameras.parse_params` (1458-1521): mask and bounds. -/
def parseParams (params : List (String × Value β)) (defaults : Option (Nat → Option β × Option β)) (ninf pinf : β) :
    Except Err ((Nat → Bool) × (Nat → β × β)) := do
  let st ← params.foldlM parseStep ⟨fun _ => false, fun _ => (none, none), none⟩
  .ok (st.mask, fill defaults ninf pinf st.bounds)

/-! ### Layout of parameters -/

/-- What `set_cameras` uses of a `Cameras`: number of cameras, group indices, and masks. -/
structure Layout where
  ncams : Nat
  groups : List (List Nat)
  groupMask : Nat → Nat → Bool
  camMask : Nat → Nat → Bool

/-- `np.count_nonzero(mask)`. -/
def countMask (m : Nat → Bool) : Nat := ((List.range 20).filter m).length

/-- `group_breaks[i]` (optimize.py:1662-1664). -/
def Layout.groupBreak (L : Layout) (i : Nat) : Nat := ((List.range i).map fun (k : Nat) => countMask (L.groupMask k)).sum

/-- `cam_breaks[j]` (1665-1669). -/
def Layout.camBreak (L : Layout) (j : Nat) : Nat :=
  L.groupBreak L.groups.length + ((List.range j).map fun (k : Nat) => countMask (L.camMask k)).sum

/-- Number of parameters. -/
def Layout.total (L : Layout) : Nat := L.camBreak L.ncams

variable {α : Type}

/-- `params[a:b]`. -/
def slice (l : List α) (a b : Nat) : List α := (l.drop a).take (b - a)

/-- Number of selected positions before `p`. -/
def rank (m : Nat → Bool) (p : Nat) : Nat := ((List.range p).filter m).length

/-- `vector[mask] = values`. (Simplification: a wrong number of values, which numpy rejects unless it is one, leaves
the rest as it is; with a parameter vector of the right length this cannot happen.) -/
def assign (v : Nat → α) (m : Nat → Bool) (vals : List α) : Nat → α :=
  fun p => if p < 20 ∧ m p = true then vals.getD (rank m p) (v p) else v p

/-- Vectors of all cameras. -/
abbrev Vecs (α : Type) := Nat → Nat → α

/-- The body of the loop of `set_cameras` (optimize.py:1688-1693). -/
def Layout.setOne (L : Layout) (params : List α) (V : Vecs α) (i j : Nat) : Vecs α :=
  fun c =>
    if c = j then
      assign (assign (V j) (L.groupMask i) (slice params (L.groupBreak i) (L.groupBreak (i + 1)))) (L.camMask j)
        (slice params (L.camBreak j) (L.camBreak (j + 1)))
    else V c

/-- `Cameras.set_cameras` without `save` (1671-1693); `i` is the index of the first of the groups. -/
def Layout.setFrom (L : Layout) (params : List α) (V : Vecs α) (i : Nat) : List (List Nat) → Vecs α
  | [] => V
  | idx :: gs => L.setFrom params (idx.foldl (fun W j => L.setOne params W i j) V) (i + 1) gs

def Layout.setCameras (L : Layout) (params : List α) (V : Vecs α) : Vecs α := L.setFrom params V 0 L.groups

/-- State: vectors and saved vectors (`self.vectors`). -/
structure CState (α : Type) where
  vecs : Vecs α
  saved : Vecs α

/-- What a user can do. -/
inductive CamOp (α : Type) where
  /-- `set_cameras(params, save)` -/
  | set (params : List α) (save : Bool)
  /-- `reset_cameras()` -/
  | reset
  /-- `predicted(params, index)`, `residuals`, `errors` -/
  | predicted (params : Option (List α))
  /-- the user changes a camera -/
  | edit (V : Vecs α)

/-- `Cameras.predicted` (1720-1745), given how the controls predict from the vectors (which can raise): result and
vectors afterwards. -/
def Layout.predicted {ρ : Type} (L : Layout) (pred : Vecs α → Except Err ρ) (params : Option (List α)) (V : Vecs α) :
    Except Err ρ × Vecs α :=
  let V' := match params with
    | some ps => L.setCameras ps V
    | none => V
  match pred V' with
  | .error e => (.error e, V')
  | .ok r => (.ok r, V)

/-- One operation; only cameras of the model have their vectors saved and restored. -/
def Layout.step {ρ : Type} (L : Layout) (pred : Vecs α → Except Err ρ) (s : CState α) : CamOp α → CState α
  | .set ps save =>
    let V := L.setCameras ps s.vecs
    ⟨V, if save then V else s.saved⟩
  | .reset => ⟨s.saved, s.saved⟩
  | .predicted ps => ⟨(L.predicted pred ps s.vecs).2, s.saved⟩
  | .edit V => ⟨V, s.saved⟩

/-- A history. -/
def Layout.run {ρ : Type} (L : Layout) (pred : Vecs α → Except Err ρ) (s : CState α) (ops : List (CamOp α)) : CState α :=
  ops.foldl (L.step pred) s

/-- The overlap check of `_test` (1537-1547): for each element selected in more than one group, the cameras of those
groups must be distinct. -/
def Layout.testOverlap (L : Layout) : Except Err Unit :=
  if (List.range 20).all fun p =>
      let gs := (List.range L.groups.length).filter fun i => L.groupMask i p
      decide (gs.length ≤ 1) || decide ((gs.flatMap fun i => L.groups.getD i []).Nodup)
  then .ok () else .error .valueError

/-! ### Sparsity -/

/-- A control: the number of its observations and its cameras, as indices into `cams` (others are skipped,
optimize.py:1600-1603). -/
structure Control where
  size : Nat
  cams : List Nat

/-- `control_breaks[k]` (1596). -/
def controlBreak (cs : List Control) (k : Nat) : Nat := ((cs.take k).map fun c => 2 * c.size).sum

/-- `self.sparsity[r, c]` (1579-1612): whether it is 1. -/
def Layout.sparsity (L : Layout) (cs : List Control) (r c : Nat) : Bool :=
  (List.range cs.length).any fun k =>
    decide (controlBreak cs k ≤ r) && decide (r < controlBreak cs (k + 1)) &&
    ((cs.getD k ⟨0, []⟩).cams).any fun j => decide (j < L.ncams) &&
      ((decide (L.camBreak j ≤ c) && decide (c < L.camBreak (j + 1))) ||
      (List.range L.groups.length).any fun i => decide (j ∈ L.groups.getD i []) &&
        decide (L.groupBreak i ≤ c) && decide (c < L.groupBreak (i + 1)))

end Glimpse.Cams
