import Verif.Model.FloatTimes
import Verif.Model.Tracker

/-!
Model of `Tracker.parse_datetimes` (src/glimpse/track/tracker.py:425-464) with every floating point operation rounded by `r`. Comparisons of datetimes
with each other are exact (as in Model/Tracker.lean, whose definitions are used for them).
-/
set_option autoImplicit false

namespace Glimpse.FloatTimes

/-- `distances.min(axis=1) <= abs(maxdt.total_seconds())` for one datetime (tracker.py:458); numpy raises without image times (see `parseR`). -/
def keepR (r : ℚ → ℚ) (times : List ℤ) (maxdt t : ℤ) : Bool :=
  match times.map (distance r t) with
  | [] => false
  | d :: ds => decide (ds.foldl min d ≤ |totalSeconds r maxdt|)

/-- `Tracker.parse_datetimes` (tracker.py:444-464). -/
def parseR (r : ℚ → ℚ) (obs : List (List ℤ)) (ts : List ℤ) (maxdt : ℤ) : Except Err (List ℤ) :=
  if Tracker.isMonotonic ts = false then .error .valueError
  else if Tracker.allTimes obs = [] then .error .valueError
  else
    let kept := (Tracker.dropRepeats ts).filter (keepR r (Tracker.allTimes obs) maxdt)
    if kept.length < 2 then .error .valueError else .ok kept

end Glimpse.FloatTimes
