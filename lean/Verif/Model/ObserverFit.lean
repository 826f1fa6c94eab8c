import Verif.Model.ObserverCameras
import Verif.Model.Basic

/-!
Model of `optimize.ObserverCameras` (src/glimpse/optimize.py:1973-2084) as an object that changes the cameras of the images
of an observer: `__init__` (1987-2002), `set_cameras` (2004-2007), `reset_cameras` (2009-2011) and `fit` (2023-2084).

Cameras are objects on a heap (two images may have the same camera): a view direction and everything else. The optimizer
(`scipy.optimize.minimize`) is an arbitrary interaction tree: it asks for the objective and the gradients at directions, and
stops with a result or raises (also: is interrupted). `build_keypoints` and `build_matches` (2013-2021) are those of the
matcher (Model/Keypoints.lean); matches are given here. Numbers are real. Printing is left out.
-/
set_option autoImplicit false

namespace Glimpse.ObsCams

variable {ρ : Type}

/-- A camera: its view direction (camera.py:133-146) and everything else. -/
structure Cam (ρ : Type) where
  viewdir : V3
  rest : ρ

/-- Camera objects by identity. -/
abbrev Heap (ρ : Type) := Nat → Cam ρ

/-- `cam.viewdir = v` (camera.py:144-146): copies the three numbers. -/
def setDir (h : Heap ρ) (c : Nat) (v : V3) : Heap ρ := fun d => if d = c then ⟨v, (h c).rest⟩ else h d

/-- `RotationMatchesXYZ` (optimize.py:914-972): the two cameras and the camera coordinates of the points of each. -/
structure Match where
  cam0 : Nat
  cam1 : Nat
  xys : List (V2 × V2)

/-- `ObserverCameras` (1987-2002): the cameras of the images in order, the anchors, the matches as rows, columns and data of a
sparse matrix (2041-2043), and the copies of the view directions at construction. -/
structure Obj where
  images : List Nat
  anchors : List Nat
  matches_ : List (Nat × Nat × Match)
  viewdirs : List V3

/-- `ObserverCameras.__init__` (1987-2002); anchors are `[0]` if not given (1994-1995). -/
def init (h : Heap ρ) (images : List Nat) (anchors : Option (List Nat)) (ms : List (Nat × Nat × Match)) : Obj :=
  ⟨images, anchors.getD [0], ms, images.map fun c => (h c).viewdir⟩

/-- `set_cameras` (2004-2007): `img.cam.viewdir = viewdirs[i]` one image after another; raises where there is no element. -/
def setCameras : List Nat → List V3 → Heap ρ → Except Err Unit × Heap ρ
  | [], _, h => (.ok (), h)
  | _ :: _, [], h => (.error .indexError, h)
  | c :: cs, v :: vs, h => setCameras cs vs (setDir h c v)

/-- `reset_cameras` (2009-2011). -/
def reset (o : Obj) (h : Heap ρ) : Except Err Unit × Heap ρ := setCameras o.images o.viewdirs h

noncomputable section

/-- Objective and gradients as they are accumulated (2048-2049). -/
structure Acc where
  obj : ℝ
  grads : Nat → V3

/-- `gradients[i] += g`. -/
def Acc.add (a : Acc) (i : Nat) (g : V3) : Nat → V3 := fun k => if k = i then a.grads k + g else a.grads k

/-- One anchor (2050-2054). -/
def anchorStep (w : ℝ) (o : Obj) (x : List V3) (a : Acc) (i : Nat) : Except Err Acc :=
  match x[i]?, o.viewdirs[i]? with
  | some v, some v0 => .ok ⟨a.obj + w / 2 * ∑ k, (v k - v0 k) ^ 2, a.add i fun k => w * (v k - v0 k)⟩
  | _, _ => .error .indexError

/-- The anchors (2050-2054). -/
def anchorLoop (w : ℝ) (o : Obj) (x : List V3) : List Nat → Acc → Except Err Acc
  | [], a => .ok a
  | i :: is, a => do
    let a' ← anchorStep w o x a i
    anchorLoop w o x is a'

/-- Sum over the points of a match of the objective (2058-2059). -/
def matchObjective (h : Heap ρ) (m : Match) : ℝ :=
  (m.xys.map fun p => pairObjective (h m.cam0).viewdir (h m.cam1).viewdir p.1 p.2).sum

/-- Sum over the points of a match of the gradient (2061-2064). -/
def matchGradient (h : Heap ρ) (m : Match) : V3 :=
  fun a => (m.xys.map fun p => pairGradient (h m.cam0).viewdir (h m.cam1).viewdir p.1 p.2 a).sum

/-- One match (2055-2067): `predicted` raises unless the two cameras agree in position and internal parameters (952-953,
`same`); then the objective, and the gradients of both cameras. -/
def matchStep (same : ρ → ρ → Bool) (h : Heap ρ) (n : Nat) (a : Acc) (m : Nat × Nat × Match) : Except Err Acc :=
  if same (h m.2.2.cam0).rest (h m.2.2.cam1).rest then
    if m.1 < n ∧ m.2.1 < n then
      let g := matchGradient h m.2.2
      let a1 : Acc := ⟨a.obj + matchObjective h m.2.2, a.add m.1 g⟩
      .ok ⟨a1.obj, a1.add m.2.1 (-g)⟩
    else .error .indexError
  else .error .valueError

/-- The matches (2055-2067). -/
def matchLoop (same : ρ → ρ → Bool) (h : Heap ρ) (n : Nat) : List (Nat × Nat × Match) → Acc → Except Err Acc
  | [], a => .ok a
  | m :: ms, a => do
    let a' ← matchStep same h n a m
    matchLoop same h n ms a'

/-- The function that is optimized (2045-2071): sets the cameras, then computes. -/
def fun_ (same : ρ → ρ → Bool) (w : ℝ) (o : Obj) (x : List V3) (h : Heap ρ) : Except Err Acc × Heap ρ :=
  match setCameras o.images x h with
  | (.error e, h') => (.error e, h')
  | (.ok _, h') =>
    (do let a ← anchorLoop w o x o.anchors ⟨0, fun _ => 0⟩
        matchLoop same h' x.length o.matches_ a, h')

end

/-- What the optimizer does with the function it is given: it stops with a result, raises, or asks for objective and gradients
at some directions and goes on depending on these. -/
inductive Strat (β : Type) where
  | done (res : β)
  | raises (e : Err)
  | eval (x : List V3) (next : Acc → Strat β)

variable {β : Type}

/-- `scipy.optimize.minimize(fun=fun, jac=True)` (2075-2077). -/
noncomputable def minimize (same : ρ → ρ → Bool) (w : ℝ) (o : Obj) : Strat β → Heap ρ → Except Err β × Heap ρ
  | .done r, h => (.ok r, h)
  | .raises e, h => (.error e, h)
  | .eval x next, h =>
    match fun_ same w o x h with
    | (.error e, h') => (.error e, h')
    | (.ok a, h') => minimize same w o (next a) h'

/-- `fit` (2023-2084): starts from the current directions; the cameras are reset if the optimizer returns. -/
noncomputable def fit (same : ρ → ρ → Bool) (w : ℝ) (o : Obj) (solver : List V3 → Strat β) (h : Heap ρ) : Except Err β × Heap ρ :=
  match minimize same w o (solver (o.images.map fun c => (h c).viewdir)) h with
  | (.error e, h') => (.error e, h')
  | (.ok r, h') =>
    match reset o h' with
    | (.error e, h'') => (.error e, h'')
    | (.ok _, h'') => (.ok r, h'')

/-- What a program can do with the object and the cameras. -/
inductive Op (ρ β : Type) where
  | set (x : List V3)
  | reset
  | fit (w : ℝ) (solver : List V3 → Strat β)
  | assign (c : Nat) (cam : Cam ρ)

/-- One operation, which may raise (and leave what it has done): the cameras afterwards. -/
noncomputable def step (same : ρ → ρ → Bool) (o : Obj) (h : Heap ρ) : Op ρ β → Heap ρ
  | .set x => (setCameras o.images x h).2
  | .reset => (reset o h).2
  | .fit w solver => (fit same w o solver h).2
  | .assign c cam => fun d => if d = c then cam else h d

/-- A history. -/
noncomputable def run (same : ρ → ρ → Bool) (o : Obj) (h : Heap ρ) (ops : List (Op ρ β)) : Heap ρ := ops.foldl (step same o) h

end Glimpse.ObsCams
