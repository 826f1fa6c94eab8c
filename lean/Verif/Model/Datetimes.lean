import Verif.Model.Search
import Mathlib.Data.Int.Order.Basic
import Mathlib.Data.Rat.Cast.Order
import Mathlib.Algebra.Order.Ring.Int

/-!
Model of `datetime_range` and `select_datetimes` (`src/glimpse/helpers.py:1581-1676`). A datetime is the integer number
of microseconds since an arbitrary epoch, a timedelta is an integer number of microseconds; Python's datetime overflow
(`OverflowError` outside years 1-9999) is not modelled.
-/
set_option autoImplicit false

namespace Glimpse

/-- `helpers.datetime_range` (helpers.py:1603-1604). `timedelta // timedelta` is floor division. -/
def datetimeRange (start stop step : ℤ) : Except Err (List ℤ) :=
  if step = 0 then .error .zeroDivision
  else
    let maxSteps := Int.fdiv (stop - start) step
    .ok ((List.range (maxSteps + 1).toNat).map fun n : Nat => start + (n : ℤ) * step)

/-- `timedelta * 0.5`: half, rounded half to even microseconds. -/
def halfEven (s : ℤ) : ℤ := if s % 2 = 0 then s / 2 else if (s / 2) % 2 = 0 then s / 2 else s / 2 + 1

/-- `temp[nearest] = True` for one (possibly negative) index (helpers.py:1673-1674). -/
def setTrue (mask : List Bool) (i : ℤ) : List Bool :=
  mask.set (if i < 0 then i + mask.length else i).toNat true

/-- First snap-independent part of `helpers.select_datetimes` (helpers.py:1645-1648, 1653-1654): the datetimes within
the bounds that were given. -/
def inRangeMask (ts : List ℤ) (start stop : Option ℤ) : List Bool :=
  ts.map fun t => (match start with | some s => decide (s ≤ t) | none => true) &&
    (match stop with | some e => decide (t ≤ e) | none => true)

/-- Indices selected by the snap grid (helpers.py:1664-1669): for each target the nearest datetime, if within
`maxdt`. -/
def snapIndices (ts targets : List ℤ) (maxdt : ℤ) : Except Err (List ℤ) := do
  let found ← targets.mapM fun y : ℤ => do
    let i ← sortedNearest (ts.map fun t : ℤ => (t : ℚ)) (y : ℚ)
    let t ← pyIndex ts i
    return (i, y - t)
  return (found.filter fun p => decide (|p.2| ≤ maxdt)).map (·.1)

/-- `helpers.select_datetimes` (helpers.py:1645-1676). A zero `snap` is falsy and acts like `None`. `np.unique` of the
indices (1669) is omitted: the indices are only used to set mask entries. -/
def selectDatetimes (ts : List ℤ) (start stop snap maxdt : Option ℤ) (origin : ℤ) : Except Err (List Bool) := do
  let snap := snap.filter (· ≠ 0)
  let lo ← match start, ts.head? with                                                     -- 1647-1652
    | some s, _ => .ok s
    | none, some t => .ok (t - snap.getD 0)
    | none, none => .error .indexError
  let hi ← match stop, ts.getLast? with                                                   -- 1653-1658
    | some e, _ => .ok e
    | none, some t => .ok (t + snap.getD 0)
    | none, none => .error .indexError
  if hi < lo then throw .valueError                                                       -- 1659-1660
  match snap with
  | none => return inRangeMask ts start stop
  | some snap =>
    let targets ← datetimeRange (lo + Int.fmod (origin - lo) snap) hi snap                -- 1662-1664
    let nearest ← snapIndices ts targets (maxdt.getD (halfEven snap))                     -- 1665-1669
    let temp := nearest.foldl setTrue (ts.map fun _ => false)                             -- 1670-1671
    return List.zipWith (· && ·) (inRangeMask ts start stop) temp

end Glimpse
