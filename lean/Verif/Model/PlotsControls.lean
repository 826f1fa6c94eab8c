import Verif.Model.CamsResiduals
import Verif.Model.Polynomial

/-!
Model of what is drawn of reprojection errors and fits: `Points.plot`, `Lines.plot`, `Matches.plot`, `Polynomial.plot`, `Cameras.plot`,
`Cameras.plot_weights` (src/glimpse/optimize.py:145-195, 377-452, 591-644, 1071-1124, 1879-1970) and `Converter.plot`
(src/glimpse/convert/converter.py:140-164).

A figure is the data given to matplotlib. `quiver` with `angles` and `scale_units` "xy" draws arrows from each position to the position plus
the vector divided by `scale`.
-/
set_option autoImplicit false

namespace Glimpse.PlotsControls
open Glimpse Glimpse.Cams

variable {E : Type} [Field E]

/-- A value of an optional argument of matplotlib. -/
inductive Val (E : Type) where
  | num (x : E)
  | text (s : String)

/-- Keyword arguments. -/
abbrev Kwargs (E : Type) := String → Option (Val E)

/-- `{**a, **b}`. -/
def merge (a b : Kwargs E) : Kwargs E := fun k => (b k).or (a k)

/-- A dictionary of one item. -/
def single (key : String) (v : Val E) : Kwargs E := fun k => if k = key then some v else none

/-- An argument of type `ColorArgs`: `None`, a colour or a dictionary. -/
inductive Style (E : Type) where
  | hide
  | color (c : String)
  | dict (d : Kwargs E)

/-- `if not isinstance(args, dict): args = {key: args}` (188-189, 433-434); none if `args is None`. -/
def Style.args (key : String) : Style E → Option (Kwargs E)
  | .hide => none
  | .color c => some (single key (.text c))
  | .dict d => some d

/-- What is given to `quiver`. -/
structure Quiver (E : Type) where
  starts : List (E × E)
  vectors : List (E × E)
  args : Kwargs E

/-- What `quiver` draws with `angles` and `scale_units` "xy" and a number as `scale`: starts and tips (nothing is said of other settings). -/
def Quiver.arrows (q : Quiver E) : Option (List ((E × E) × (E × E))) :=
  match q.args "angles", q.args "scale_units", q.args "scale" with
  | some (.text "xy"), some (.text "xy"), some (.num s) =>
    some (List.zipWith (fun (p v : E × E) => (p, (p.1 + v.1 / s, p.2 + v.2 / s))) q.starts q.vectors)
  | _, _, _ => none

/-- `np.delete(np.arange(n), index)` (numpy 1.19). -/
def deleteIdx (n : Nat) : Idx → Except Err (List Nat)
  | .all => .ok []
  | .ints is => do
    let r ← is.mapM (pickOne (List.range n))
    .ok ((List.range n).filter fun k => decide (k ∉ r))
  | .mask m => if m.length = n then .ok ((((List.range n).zip m).filter fun x => !x.2).map Prod.fst) else .error .valueError

/-- `full[index], np.delete(full, index)` (177, 435, 628, 1103). -/
def split (n : Nat) (index : Idx) : Except Err (List Nat × List Nat) := do
  let idx ← pick (List.range n) index
  let un ← deleteIdx n index
  .ok (idx, un)

/-- `a[idx]` for indices that exist. -/
def rowsAt (a : List (E × E)) (idx : List Nat) : List (E × E) := idx.map fun i => a.getD i (0, 0)

/-- `p - o` of coordinates. -/
def sub2 (p o : E × E) : E × E := (p.1 - o.1, p.2 - o.2)

/-- The defaults of the arrows (167-174, 424-431, 617-624), with the width of the image. -/
def quiverBase (width : E) : Kwargs E := fun k =>
  if k = "scale" then some (.num 1) else if k = "scale_units" then some (.text "xy") else if k = "angles" then some (.text "xy")
  else if k = "units" then some (.text "xy") else if k = "width" then some (.num (width * 5 / 1000)) else none

/-- One turn of the loop (179-193): nothing for no points or hidden ones. -/
def drawOne (uv duv : List (E × E)) (defaults : Kwargs E) (idx : List Nat) (st : Style E) : Option (Quiver E) :=
  if idx = [] then none
  else (st.args "color").map fun a => ⟨rowsAt uv idx, rowsAt duv idx, merge defaults a⟩

/-- The arrows drawn: unselected points, then selected points. -/
structure Errors (E : Type) where
  unselected : Option (Quiver E)
  selected : Option (Quiver E)

/-- `Points.plot` and `Matches.plot` (145-195, 591-644), given observed and predicted coordinates (the latter may raise). -/
def plotErrors (width : E) (observed : List (E × E)) (predicted : Except Err (List (E × E))) (index : Idx)
    (selected unselected : Style E) (kwargs : Kwargs E) : Except Err (Errors E) := do
  let pred ← predicted
  if pred.length ≠ observed.length then throw .valueError
  let duv := List.zipWith sub2 pred observed
  let (idx, un) ← split observed.length index
  let defaults := merge (quiverBase width) kwargs
  .ok ⟨drawOne observed duv defaults un unselected, drawOne observed duv defaults idx selected⟩

/-- A polyline. -/
structure Poly (E : Type) where
  points : List (E × E)
  args : Kwargs E

/-- One turn of the loop over lines (408-421). -/
def drawLines (uvs : List (List (E × E))) (st : Style E) : Option (List (Poly E)) :=
  (st.args "color").map fun a => uvs.map fun uv => ⟨uv, a⟩

/-- What `Lines.plot` returns. -/
structure LinesPlot (E : Type) where
  observed : Option (List (Poly E))
  predicted : Option (List (Poly E))
  errors : Errors E

/-- `Lines.plot` (377-452): `uvs` the image lines, one after another the observed points; `world` the projected lines
(`_xyzs_to_uvs`, may raise) and `nearest` the predicted points. -/
def plotLines (width : E) (uvs : List (List (E × E))) (world : Except Err (List (List (E × E))))
    (nearest : Except Err (List (E × E))) (index : Idx) (selected unselected observed predicted : Style E) (kwargs : Kwargs E) :
    Except Err (LinesPlot E) := do
  let w ← world
  let e ← plotErrors width uvs.flatten nearest index selected unselected kwargs
  .ok ⟨drawLines uvs observed, drawLines w predicted, e⟩

/-! ### Polynomial.plot -/

/-- Points given to `scatter`. -/
structure Scatter (E : Type) where
  points : List (E × E)
  args : Kwargs E

/-- The dictionary `result`: items that are not (yet) in it are `none`; `predicted` may be in it with the value None. -/
structure PolyPlot (E : Type) where
  unselected : Option (Scatter E) := none
  selected : Option (Scatter E) := none
  predicted : Option (Option (Poly E)) := none

/-- One turn of the loop of `Polynomial.plot` (1104-1115). `result = None` where `result[label] = None` is meant (1109); setting an item of
None raises TypeError. -/
def polyStep (xy : List (E × E)) (kwargs : Kwargs E) (idx : List Nat) (st : Style E)
    (set : PolyPlot E → Scatter E → PolyPlot E) (result : Option (PolyPlot E)) : Except Err (Option (PolyPlot E)) :=
  if idx = [] then .ok none
  else match st.args "c" with
    | none => .ok none
    | some a => match result with
      | none => .error .typeError
      | some d => .ok (some (set d ⟨rowsAt xy idx, merge a kwargs⟩))

/-- `Polynomial.plot` (1071-1124). -/
def polyPlot [LinearOrder E] (polyfit : List (E × E) → Nat → List E) (m : Ransac.Poly E) (params : Option (List E)) (index : Idx)
    (selected unselected predicted : Style E) (kwargs : Kwargs E) : Except Err (PolyPlot E) := do
  let params ← match params with
    | some p => .ok p
    | none => do
      let r ← pick m.xy index
      if r = [] then .error .typeError else .ok (polyfit r m.deg)
  let (idx, un) ← split m.xy.length index
  let result ← polyStep m.xy kwargs un unselected (fun d s => { d with unselected := some s }) (some {})
  let result ← polyStep m.xy kwargs idx selected (fun d s => { d with selected := some s }) result
  match result with
  | none => .error .typeError
  | some d => .ok { d with predicted := some ((predicted.args "color").map fun a =>
      ⟨m.xy.map fun t => (t.1, Ransac.polyval params t.1), a⟩) }

/-! ### Cameras.plot -/

/-- The argument `index`: `slice(None)`, a list, or a numpy array. -/
inductive IdxArg where
  | all
  | list (i : Idx)
  | array (i : Idx)

/-- The index itself. -/
def IdxArg.idx : IdxArg → Idx
  | .all => .all
  | .list i => i
  | .array i => i

/-- Number of elements of an index that is an array. -/
def idxLength : Idx → Nat
  | .all => 0
  | .ints l => l.length
  | .mask m => m.length

/-- `index != slice(None)` as a condition (1917): the comparison of an array is an array, whose truth is ambiguous (ValueError) unless it
has one element (an empty one is false). -/
def IdxArg.isSubset : IdxArg → Except Err Bool
  | .all => .ok false
  | .list _ => .ok true
  | .array i => if idxLength i = 0 then .ok false else if idxLength i = 1 then .ok true else .error .valueError

variable {α ρ : Type}

/-- A control: its cameras, and what its `plot` returns for the vectors of all cameras, the camera to plot in, and the index. -/
structure PlotCtl (α ρ : Type) where
  cams : List Nat
  plot : Vecs α → Nat → Idx → Except Err ρ

/-- `Cameras.plot` (1879-1954): the result, and the camera vectors afterwards. -/
def camsPlot (L : Layout) (cs : List (PlotCtl α ρ)) (params : Option (List α)) (cam : ℤ) (index : IdxArg) (V : Vecs α) :
    Except Err (List ρ) × Vecs α :=
  match index.isSubset with
  | .error e => (.error e, V)                                              -- 1917
  | .ok sub =>
    if sub && decide (1 < cs.length) then (.error .valueError, V)          -- 1917-1921
    else
      let V' := match params with                                          -- 1922-1924
        | some ps => L.setCameras ps V
        | none => V
      match resolveIn L.ncams cam with                                     -- 1925
      | none => (.error .indexError, V')
      | some c =>
        match (cs.filter fun k => decide (c ∈ k.cams)).mapM fun k => k.plot V' c index.idx with   -- 1926-1950
        | .error e => (.error e, V')
        | .ok r => (.ok r, V)                                              -- 1951-1953

/-- `Cameras.plot_weights` (1956-1970): positions, and for each its weight as colour and size. Weights are ones if not set. -/
def plotWeights {V W : Type} (cs : List (Ctl V W E)) (weights : Option (List E)) (index : Idx) : Except Err (List (E × E) × List E) := do
  let w := weights.getD (List.replicate (sizeOf_ cs) 1)
  let uv ← observed cs index
  let w ← pick w index
  .ok (uv, w)

/-! ### Converter.plot -/

/-- An external camera, as `Converter.residuals` uses it (converter.py:80-85): with `_uv_to_xy`, or else with `_xy_to_uv`. -/
inductive XCam (E : Type) where
  | outgoing (uvToXy : E × E → E × E)
  | incoming (xyToUv : E × E → E × E)

/-- A camera: `_xy_to_uv` and `_uv_to_xy`. -/
structure ACam (E : Type) where
  xyToUv : E × E → E × E
  uvToXy : E × E → E × E

/-- `Converter.residuals` (converter.py:65-85) at one point. -/
def residualAt (x : XCam E) (cam : ACam E) (uv : E × E) : E × E :=
  match x with
  | .outgoing f => sub2 (cam.xyToUv (f uv)) uv
  | .incoming f => sub2 (cam.xyToUv (cam.uvToXy uv)) (f (cam.uvToXy uv))

/-- The defaults of `Converter.plot` (converter.py:152-160). -/
def converterBase : Kwargs E := fun k =>
  if k = "scale" then some (.num 1) else if k = "width" then some (.num 5) else if k = "color" then some (.text "red")
  else if k = "scale_units" then some (.text "xy") else if k = "angles" then some (.text "xy")
  else if k = "units" then some (.text "xy") else none

/-- `Converter.plot` (converter.py:140-164): the residuals are multiplied by the scale that `quiver` divides by. (A scale that is not a number
raises.) -/
def converterPlot (x : XCam E) (cam : ACam E) (uv : List (E × E)) (kwargs : Kwargs E) : Except Err (Quiver E) :=
  let args := merge converterBase kwargs
  match args "scale" with
  | some (.num s) => .ok ⟨uv, uv.map fun p => (s * (residualAt x cam p).1, s * (residualAt x cam p).2), args⟩
  | _ => .error .typeError

end Glimpse.PlotsControls
