import Verif.Model.Cams
import Verif.Model.Svg

/-!
Model of `optimize.Cameras.update_params` (src/glimpse/optimize.py:1614-1669), the weights setter (1226-1232) and
`Cameras.fit` (1780-1877).
-/
set_option autoImplicit false

namespace Glimpse.Cams

/-! ### Parameters -/

/-- `base_labels` (optimize.py:1268-1276): name of each of the 20 elements of a camera vector. -/
def baseLabels : List String :=
  ["xyz0", "xyz1", "xyz2", "viewdir0", "viewdir1", "viewdir2", "imgsz0", "imgsz1", "f0", "f1", "c0", "c1",
   "k0", "k1", "k2", "k3", "k4", "k5", "p0", "p1"]

/-- `base_labels[mask]` (1277): elements of a list selected by a mask over its positions. -/
def selectMask {γ : Type} (m : Nat → Bool) (l : List γ) : List γ :=
  ((l.zipIdx).filter fun x => m x.2).map fun x => x.1

/-- `_lmfit_labels(mask, cam=i)` and `_lmfit_labels(mask, group=i)` (1264-1282). -/
def lmfitLabels (prefix_ : List Char) (i : Nat) (m : Nat → Bool) : List (List Char) :=
  (selectMask m baseLabels).map fun b => prefix_ ++ Svg.natStr i ++ '_' :: b.toList

/-- What `lmfit.Parameters.add` is given (1650-1661). -/
structure Param (E : Type) where
  name : List Char
  value : E
  lo : E
  hi : E
deriving DecidableEq

variable {E : Type} [Field E] [LinearOrder E]

/-- A camera vector as an array of 20 elements. -/
def vectorOf (v : Nat → E) : List E := (List.range 20).map v

/-- `np.nanmean(np.row_stack([cams[i]._vector[mask] for i in idx]), axis=0)` (1646-1648), without NaN: mean of each
column. -/
def groupValues (V : Vecs E) (m : Nat → Bool) (idx : List Nat) : List E :=
  let rows := idx.map fun j => selectMask m (vectorOf (V j))
  (List.range (countMask m)).map fun k => ((rows.map fun r => r.getD k 0).sum) / (idx.length : E)

/-- `zip(labels, values, bounds)` and `Parameters.add` (1649-1661). -/
def zipParams (labels : List (List Char)) (values : List E) (bounds : List (E × E)) : List (Param E) :=
  (labels.zip (values.zip bounds)).map fun x => ⟨x.1, x.2.1, x.2.2.1, x.2.2.2⟩

/-- Default bounds of a group (1633-1638): the greatest minimum and the least maximum of its cameras. An empty group
raises (numpy: need at least one array to concatenate), here: the default. -/
def groupDefault (camB : Nat → Nat → E × E) (idx : List Nat) (p : Nat) : E × E :=
  match idx with
  | [] => (0, 0)
  | j :: js => (js.foldl (fun a k => max a (camB k p).1) (camB j p).1, js.foldl (fun a k => min a (camB k p).2) (camB j p).2)

/-- `update_params` (1614-1661), once the masks and bounds have been parsed (`parseParams`): the parameters in order.
`camB` and `groupB` are the bounds of every element of each camera and group. -/
def Layout.updateParams (L : Layout) (V : Vecs E) (camB groupB : Nat → Nat → E × E) : List (Param E) :=
  ((List.range L.groups.length).flatMap fun i =>
    zipParams (lmfitLabels "group".toList i (L.groupMask i)) (groupValues V (L.groupMask i) (L.groups.getD i []))
      (selectMask (L.groupMask i) ((List.range 20).map (groupB i)))) ++
  ((List.range L.ncams).flatMap fun j =>
    zipParams (lmfitLabels "cam".toList j (L.camMask j)) (selectMask (L.camMask j) (vectorOf (V j)))
      (selectMask (L.camMask j) ((List.range 20).map (camB j))))

/-! ### Weights -/

/-- The weights setter (1226-1232): `value * len(value) / sum(value)`; none if the sum is zero (numpy gives infinity or
NaN). -/
def normalizeWeights (w : List E) : Option (List E) :=
  if w.sum = 0 then none else some (w.map fun x => x * (w.length : E) / w.sum)

/-! ### Fit -/

variable {α ρ : Type}

/-- What `lmfit.minimize` does with the function it is given: it stops with a result (None if not successful), or asks
for the residuals at some parameters and goes on depending on these. -/
inductive Strat (α ρ : Type) where
  | done (res : Option (List α))
  | eval (params : List α) (next : ρ → Strat α ρ)

/-- Run `lmfit.minimize(fcn=self.residuals)` (1860-1867): each evaluation is a call of `predicted` with these parameters
(1747-1763), which sets the cameras and restores them, or raises. -/
def Layout.minimize (L : Layout) (pred : Vecs α → Except Err ρ) : Strat α ρ → Vecs α → Except Err (Option (List α)) × Vecs α
  | .done res, V => (.ok res, V)
  | .eval ps next, V =>
    match L.predicted pred (some ps) V with
    | (.error e, V') => (.error e, V')
    | (.ok r, V') => L.minimize pred (next r) V'

/-- What the optimizer does first, depending on the layout and the cameras it starts from (initial values, bounds). -/
abbrev Solver (α ρ : Type) := Layout → Vecs α → Strat α ρ

/-- The layout of the model built for one iteration (1848-1853): `group_indices` is not passed on, so that there is one
group, of all cameras (1198-1199). -/
def iterLayout (ncams : Nat) (groupMask camMask : Nat → Nat → Bool) : Layout :=
  ⟨ncams, [List.range ncams], groupMask, camMask⟩

/-- One iteration before the final run (1843-1856): fit, then set the cameras if successful. -/
def iterStep (pred : Vecs α → Except Err ρ) (solve : Solver α ρ) (L : Layout) (V : Vecs α) : Except Err Unit × Vecs α :=
  match L.minimize pred (solve L V) V with
  | (.error e, V') => (.error e, V')
  | (.ok none, V') => (.ok (), V')
  | (.ok (some values), V') => (.ok (), L.setCameras values V')

/-- The iterations one after another (1843-1856). -/
def iterLoop (pred : Vecs α → Except Err ρ) (solve : Solver α ρ) : List Layout → Vecs α → Except Err Unit × Vecs α
  | [], V => (.ok (), V)
  | L :: Ls, V =>
    match iterStep pred solve L V with
    | (.error e, V') => (.error e, V')
    | (.ok _, V') => iterLoop pred solve Ls V'

/-- `Cameras.fit` (1780-1877): result and state afterwards. `iters` are the layouts of the iterations. -/
def Layout.fit (L : Layout) (pred : Vecs α → Except Err ρ) (solve : Solver α ρ) (iters : List Layout) (s : CState α) :
    Except Err (Option (List α)) × CState α :=
  match iterLoop pred solve iters s.vecs with
  | (.error e, V) => (.error e, ⟨V, s.saved⟩)
  | (.ok _, V) =>
    match L.minimize pred (solve L V) V with
    | (.error e, V') => (.error e, ⟨V', s.saved⟩)
    | (.ok r, V') => (.ok r, if iters = [] then ⟨V', s.saved⟩ else ⟨s.saved, s.saved⟩)       -- 1869-1871

/-- Rows of the sparsity matrix given to the optimizer (1822-1831) for an index of integers:
`np.dstack((2 * index, 2 * index + 1)).ravel()`. -/
def jacRows (index : List ℤ) : List ℤ := index.flatMap fun i => [2 * i, 2 * i + 1]

/-- The same for a boolean index: `2 * True` is 2 (1829-1830). -/
def jacRowsBool (index : List Bool) : List ℤ := jacRows (index.map fun b => if b then 1 else 0)

/-- A numpy index into `n` elements. -/
def resolveIn (n : Nat) (i : ℤ) : Option Nat :=
  if 0 ≤ i ∧ i < n then some i.toNat else if -(n : ℤ) ≤ i ∧ i < 0 then some (i + n).toNat else none

/-- `residuals(index)` (1747-1763) as the flat array given to the optimizer: two components for each selected point. -/
def flatResiduals {γ : Type} (r : List (γ × γ)) (index : List ℤ) : Option (List γ) :=
  (index.mapM fun i => (resolveIn r.length i).bind fun k => r[k]?).map fun l => l.flatMap fun p => [p.1, p.2]

/-- `residuals(mask)` as a flat array. -/
def flatResidualsBool {γ : Type} (r : List (γ × γ)) (mask : List Bool) : List γ :=
  ((r.zip mask).filter fun x => x.2).flatMap fun x => [x.1.1, x.1.2]

/-- `sparsity[rows]`. -/
def takeRows {γ : Type} (m : List γ) (rows : List ℤ) : Option (List γ) :=
  rows.mapM fun i => (resolveIn m.length i).bind fun k => m[k]?

end Glimpse.Cams
