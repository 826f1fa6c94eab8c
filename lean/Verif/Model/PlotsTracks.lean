import Verif.Model.CamsResiduals

/-!
Model of what `Tracks.plot_xy`, `plot_vxy` and `plot_v1d` draw (src/glimpse/track/tracks.py:154-291).

A figure is the data given to matplotlib: lines by their vertices, markers by their positions, error bars and bands by their ends, arrows by
their start and vector. matplotlib draws nothing at NaN, here `none` (the whole row is NaN where a track has no position). Optional
arguments are kept for the colours only.
-/
set_option autoImplicit false

namespace Glimpse.PlotsTracks
open Glimpse Glimpse.Cams

variable {E : Type} [Field E]

/-- What the plots use of a `Tracks` object: `datetimes`, `xyz`, `vxyz` and their standard deviations, which are `None` if neither
`sigmas` nor `covariances` are set (tracks.py:90-114). Rows are tracks, columns times. -/
structure Data (E : Type) where
  times : List E
  xyz : List (List (Option (Fin 3 → E)))
  vxyz : List (List (Option (Fin 3 → E)))
  xyzSigma : Option (List (List (Option (Fin 3 → E))))
  vxyzSigma : Option (List (List (Option (Fin 3 → E))))

/-- The argument `tracks`: an integer, or what selects rows. -/
inductive Sel where
  | one (i : ℤ)
  | rows (i : Idx)

/-- `array[tracks]`, as a list of rows also for a single one. -/
def Sel.pick {γ : Type} (s : Sel) (l : List γ) : Except Err (List γ) :=
  match s with
  | .one i => do
    let x ← pickOne l i
    .ok [x]
  | .rows i => Cams.pick l i

/-- An argument that is a boolean or a dictionary, here its colour if it has one: `False` (or an empty dictionary, which counts as
false), `True`, a dictionary. -/
inductive Arg where
  | no
  | yes
  | dict (color : Option String)

/-- Whether something is drawn. -/
def Arg.on : Arg → Bool
  | .no => false
  | _ => true

/-- `{**default, **arg}["color"]` for the default colour `d` (200-201, 208-211, 218-221). -/
def Arg.colorOr (d : String) : Arg → String
  | .dict (some c) => c
  | _ => d

/-- The default colour of starts and standard deviations: that of the mean if it is drawn (209-210, 219-220, 277-278). -/
def meanColor (mean : Arg) : String := if mean.on then mean.colorOr "black" else "black"

/-- A polyline or a set of markers. -/
structure Line (E : Type) where
  points : List (Option (E × E))
  color : String

/-- Error bars: position, and half lengths in x and y. -/
structure Bars (E : Type) where
  bars : List (Option ((E × E) × (E × E)))
  color : String

/-- What `plot_xy` returns: one line for each track, one set of markers, error bars for each track; missing if not drawn. -/
structure PlotXY (E : Type) where
  mean : Option (List (Line E))
  start : Option (Line E)
  sigma : Option (List (Bars E))

/-- x and y. -/
def xyOf (r : Option (Fin 3 → E)) : Option (E × E) := r.map fun v => (v 0, v 1)

/-- `np.atleast_1d(np.arange(len(self.xyz))[tracks])` (224, 255, 283). -/
def Data.indices (d : Data E) (s : Sel) : Except Err (List Nat) := s.pick (List.range d.xyz.length)

/-- `array[i]` for an existing row. -/
def rowAt {γ : Type} (a : List (List γ)) (i : Nat) : Except Err (List γ) :=
  match a[i]? with
  | some r => .ok r
  | none => .error .indexError

/-- `self.xyz[tracks, 0, :2]` (213): IndexError if there are no times. -/
def firstOf {γ : Type} (r : List γ) : Except Err γ :=
  match r with
  | x :: _ => .ok x
  | [] => .error .indexError

/-- The lines of `plot_xy` (196-205). -/
def Data.xyMean (d : Data E) (s : Sel) (mean : Arg) : Except Err (Option (List (Line E))) :=
  if mean.on then do
    let rows ← s.pick d.xyz
    .ok (some (rows.map fun r => ⟨r.map xyOf, mean.colorOr "black"⟩))
  else .ok none

/-- The starts of `plot_xy` (206-214). -/
def Data.xyStart (d : Data E) (s : Sel) (mean start : Arg) : Except Err (Option (Line E)) :=
  if start.on then do
    let rows ← s.pick d.xyz
    let ps ← rows.mapM firstOf
    .ok (some ⟨ps.map xyOf, start.colorOr (meanColor mean)⟩)
  else .ok none

/-- The standard deviations of `plot_xy` (215-234): TypeError (`None[i, :, 0]`) if there are none. -/
def Data.xySigma (d : Data E) (s : Sel) (mean sigma : Arg) : Except Err (Option (List (Bars E))) :=
  if sigma.on then do
    let idx ← d.indices s
    let bars ← idx.mapM fun i => do
      let r ← rowAt d.xyz i
      match d.xyzSigma with
      | none => .error .typeError
      | some sg => do
        let q ← rowAt sg i
        .ok (⟨List.zipWith (fun a b => (xyOf a).bind fun x => (xyOf b).map fun y => (x, y)) r q, sigma.colorOr (meanColor mean)⟩ : Bars E)
    .ok (some bars)
  else .ok none

/-- `Tracks.plot_xy` (154-215). -/
def Data.plotXY (d : Data E) (s : Sel) (start mean sigma : Arg) : Except Err (PlotXY E) := do
  let m ← d.xyMean s mean
  let st ← d.xyStart s mean start
  let sg ← d.xySigma s mean sigma
  .ok ⟨m, st, sg⟩

/-- `Tracks.plot_vxy` (217-240): for each track arrows with start and vector (drawn in the direction of the vector, as `angles` is "xy"). -/
def Data.plotVXY (d : Data E) (s : Sel) : Except Err (List (List (Option ((E × E) × (E × E))))) := do
  let idx ← d.indices s
  idx.mapM fun i => do
    let r ← rowAt d.xyz i
    let v ← rowAt d.vxyz i
    .ok (List.zipWith (fun a b => (xyOf a).bind fun x => (xyOf b).map fun y => (x, y)) r v)

/-- A band: for each time the two ends. -/
structure Band (E : Type) where
  ends : List (E × Option (E × E))
  color : String

/-- `array[..., dim]` (269, 286-287), negative from the end. -/
def dimOf (dim : ℤ) : Except Err (Fin 3) :=
  match resolveIn 3 dim with
  | some 0 => .ok 0
  | some 1 => .ok 1
  | some 2 => .ok 2
  | _ => .error .indexError

/-- What `plot_v1d` returns. -/
structure PlotV (E : Type) where
  mean : Option (List (Line E))
  sigma : Option (List (Band E))

/-- A vertex at a time. -/
def atTime (k : Fin 3) (t : E) (v : Option (Fin 3 → E)) : Option (E × E) := v.map fun x => (t, x k)

/-- The ends of the band at a time (286-287). -/
def bandAt (k : Fin 3) (v s : Option (Fin 3 → E)) : Option (E × E) :=
  v.bind fun x => s.map fun y => (x k + y k, x k - y k)

/-- The lines of `plot_v1d` (264-271). -/
def Data.v1dMean (d : Data E) (dim : ℤ) (s : Sel) (mean : Arg) : Except Err (Option (List (Line E))) :=
  if mean.on then do
    let rows ← s.pick d.vxyz
    let k ← dimOf dim
    .ok (some (rows.map fun r => ⟨List.zipWith (atTime k) d.times r, mean.colorOr "black"⟩))
  else .ok none

/-- The bands of `plot_v1d` (272-290). -/
def Data.v1dSigma (d : Data E) (dim : ℤ) (s : Sel) (mean sigma : Arg) : Except Err (Option (List (Band E))) :=
  if sigma.on then do
    let idx ← d.indices s
    let bands ← idx.mapM fun i => do
      let r ← rowAt d.vxyz i
      let k ← dimOf dim
      match d.vxyzSigma with
      | none => .error .typeError
      | some sg => do
        let q ← rowAt sg i
        .ok (⟨d.times.zip (List.zipWith (bandAt k) r q), sigma.colorOr (meanColor mean)⟩ : Band E)
    .ok (some bands)
  else .ok none

/-- `Tracks.plot_v1d` (242-291). -/
def Data.plotV1d (d : Data E) (dim : ℤ) (s : Sel) (mean sigma : Arg) : Except Err (PlotV E) := do
  let m ← d.v1dMean dim s mean
  let sg ← d.v1dSigma dim s mean sigma
  .ok ⟨m, sg⟩

end Glimpse.PlotsTracks
