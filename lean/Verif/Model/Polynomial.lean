import Verif.Model.Ransac

/-!
Model of `optimize.Polynomial` (src/glimpse/optimize.py:984-1069), without its plot.
-/
set_option autoImplicit false

namespace Glimpse.Ransac

variable {E : Type} [Field E] [LinearOrder E]

/-- `np.polyval(params, x)`, used by `Polynomial.predict` (optimize.py:1037-1046): Horner's scheme from the highest to
the lowest degree. -/
def polyval (params : List E) (x : E) : E := params.foldl (fun acc c => acc * x + c) 0

/-- A `Polynomial`: points and degree (1028-1030). -/
structure Poly (E : Type) where
  xy : List (E × E)
  deg : Nat

/-- `Polynomial.size` (1032-1035). -/
def Poly.size (m : Poly E) : Nat := m.xy.length

/-- Rows of the array by index, `self.xy[index]`: IndexError outside. (Simplification: no negative indices, which
`ransac` does not use.) -/
def Poly.rows (m : Poly E) (index : List Nat) : Except Err (List (E × E)) :=
  index.mapM fun i => match m.xy[i]? with
    | some r => .ok r
    | none => .error .indexError

/-- `Polynomial.predict` (1037-1046). -/
def Poly.predict (m : Poly E) (params : List E) (index : List Nat) : Except Err (List E) := do
  let r ← m.rows index
  .ok (r.map fun t => polyval params t.1)

/-- `Polynomial.errors` (1048-1057). -/
def Poly.errors (m : Poly E) (params : List E) (index : List Nat) : Except Err (List E) := do
  let r ← m.rows index
  let prediction ← m.predict params index
  .ok (List.zipWith (fun a (t : E × E) => |a - t.2|) prediction r)

/-- `Polynomial.fit` (1059-1069). `polyfit` is numpy's, for points and degree; it raises TypeError without points. -/
def Poly.fit (polyfit : List (E × E) → Nat → List E) (m : Poly E) (index : List Nat) : Except Err (List E) := do
  let r ← m.rows index
  if r = [] then .error .typeError else .ok (polyfit r m.deg)

/-- The object as the `model` of `ransac` (2108-2114). The error of one member is the only entry of `errors` for that
index (0 outside the range, which is not used). -/
def Poly.fitter (polyfit : List (E × E) → Nat → List E) (m : Poly E) : Fitter (List E) E where
  size := m.size
  fit index := (m.fit polyfit index).map some
  err params i := match m.errors params [i] with
    | .ok (e :: _) => e
    | _ => 0

end Glimpse.Ransac
