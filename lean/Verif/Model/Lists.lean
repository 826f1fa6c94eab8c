import Verif.Model.Basic

/-!
Model of the list and index helpers in `src/glimpse/helpers.py`.
-/
namespace Glimpse

/-- `helpers.format_list` (helpers.py:23-81), for `x` an iterable (a scalar is wrapped at 62-63; `None` is
returned as is at 60-61 and not modelled).

* `isList`: whether the argument is already a `list` (64-65: anything else is copied with `list(x)`).
* The result pairs the return value with the content of the *caller's* object after the call:
  `x += ...` (73) and `x *= ...` (78) mutate a caller's list in place, slicing (70) and `dtype` (80) do not.
* `length = none` and `length = some 0` are both falsy (67). -/
def formatList {α : Type} (isList : Bool) (x : List α) (length : Option Nat) (default : Option α)
    (dtype : Option (α → α)) : Except Err (List α × List α) := do
  let coerce (l : List α) : List α :=                                   -- helpers.py:79-80
    match dtype with
    | some f => l.map f
    | none => l
  match length with
  | none => return (coerce x, x)
  | some 0 => return (coerce x, x)
  | some len =>
    if x.length > len then                                              -- 69-70
      return (coerce (x.take len), x)
    else if x.length < len then                                         -- 71
      match default with
      | some d =>                                                       -- 72-73
        let y := x ++ List.replicate (len - x.length) d
        return (coerce y, if isList then y else x)
      | none =>
        if 0 < x.length then                                            -- 74
          if len % x.length ≠ 0 then                                    -- 76-77
            throw .valueError
          else                                                          -- 78
            let y := (List.replicate (len / x.length) x).flatten
            return (coerce y, if isList then y else x)
        else
          return (coerce x, x)
    else
      return (coerce x, x)

/-- `helpers.strip_path(path, extensions=True | n)` after `os.path.basename`
(helpers.py:150-157), on a list of characters: reverse, split on `.` at most `maxsplit` times
(`none` = unlimited, i.e. `extensions=True` which becomes -1), keep the last part, reverse. -/
def splitMax (sep : Char) : Option Nat → List Char → List (List Char)
  | _, [] => [[]]
  | m, c :: s =>
    if c = sep ∧ m ≠ some 0 then [] :: splitMax sep (m.map (· - 1)) s
    else match splitMax sep m s with
      | [] => [[c]]
      | f :: fs => (c :: f) :: fs

/-- `helpers.strip_path` on a base name (helpers.py:150-157). `extensions = none` models `True`,
`some 0` models `False`/`0`. -/
def stripName (extensions : Option Nat) (base : List Char) : List Char :=
  match extensions with
  | some 0 => base
  | m => ((splitMax '.' m base.reverse).getLast?.getD []).reverse

/-- The cut positions of `helpers.boolean_split` (helpers.py:656):
`np.nonzero(mask[1:] != mask[:-1])[0] + 1`. -/
def splitCuts (mask : List Bool) : List Nat :=
  ((List.range (mask.length - 1)).filter (fun i => mask[i + 1]? != mask[i]?)).map (· + 1)

/-- `np.split(a, cuts)` (helpers.py:657): the slices between consecutive cuts, starting at `prev`. -/
def splitAtCuts {α : Type} (a : List α) : List Nat → Nat → List (List α)
  | [], prev => [a.drop prev]
  | c :: cs, prev => (a.drop prev).take (c - prev) :: splitAtCuts a cs c

/-- Every second element, `splits[0::2]` (helpers.py:664, 667). -/
def everyOther {α : Type} : List α → List α
  | [] => []
  | [x] => [x]
  | x :: _ :: l => x :: everyOther l

/-- `include` argument of `boolean_split` (helpers.py:626). -/
inductive Include where
  | all | true | false | bad
deriving DecidableEq, Repr

/-- `helpers.boolean_split` (helpers.py:621-671) along axis 0 on a list of rows.
`mask[0] is mask[-1]` compares numpy bools by identity; numpy bools are singletons, so it is equality.
An empty mask raises `IndexError` when `mask[0]` is evaluated. -/
def booleanSplit {α : Type} (a : List α) (mask : List Bool) (circular : Bool) (incl : Include) :
    Except Err (List (List α)) :=
  let splits := splitAtCuts a (splitCuts mask) 0
  let splits :=
    if circular && decide (1 < splits.length) && (mask.head? == mask.getLast?) then
      -- splits[0] = concatenate(splits[-1], splits[0]); splits.pop(-1)
      match splits with
      | [] => []
      | s0 :: rest => ((s0 :: rest).getLast?.getD [] ++ s0) :: rest.dropLast
    else splits
  match incl with
  | .all => .ok splits
  | .true =>
    match mask.head? with
    | none => .error .indexError
    | some b => .ok (if b then everyOther splits else everyOther splits.tail)
  | .false =>
    match mask.head? with
    | none => .error .indexError
    | some b => .ok (if b then everyOther splits.tail else everyOther splits)
  | .bad => .ok []

end Glimpse
