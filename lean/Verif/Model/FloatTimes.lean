import Verif.Model.Double
import Verif.Model.Basic

/-!
Model of `helpers.pairwise_distance_datetimes` (src/glimpse/helpers.py:1555-1578) and of `Tracker.match_datetimes` (src/glimpse/track/tracker.py:465-493)
with every floating point operation rounded by `r`. Datetimes and timedeltas are integers, microseconds since 1970-01-01 00:00:00 on a clock whose
offset to UTC is zero.
-/
set_option autoImplicit false

namespace Glimpse.FloatTimes

/-- `datetime.timestamp()` of a datetime without time zone (helpers.py:1576-1577): CPython adds the microseconds, divided by 1e6, to the whole seconds. -/
def timestamp (r : ℚ → ℚ) (t : ℤ) : ℚ := r ((t / 10 ^ 6 : ℤ) + r ((t % 10 ^ 6 : ℤ) / 10 ^ 6))

/-- One element of `pairwise_distance(x, y, metric="minkowski", p=1)` (helpers.py:1578): for one column, the magnitude of the difference. -/
def distance (r : ℚ → ℚ) (t u : ℤ) : ℚ := |r (timestamp r t - timestamp r u)|

/-- `timedelta.total_seconds()` (tracker.py:491): the rounded quotient. -/
def totalSeconds (r : ℚ → ℚ) (m : ℤ) : ℚ := r ((m : ℚ) / 10 ^ 6)

/-- `np.argmin` and the minimum (tracker.py:488-490), from the best one so far (its index and value) and the index of the next. -/
def argMinAux : Nat → ℚ → Nat → List ℚ → Nat × ℚ
  | i, x, _, [] => (i, x)
  | i, x, j, y :: ys => if y < x then argMinAux j y (j + 1) ys else argMinAux i x (j + 1) ys

/-- `Tracker.match_datetimes` (tracker.py:483-492) for one datetime and one observer: the index of the matching image, or none. -/
def matchR (r : ℚ → ℚ) (times : List ℤ) (maxdt t : ℤ) : Except Err (Option Nat) :=
  match times.map (distance r t) with
  | [] => .error .valueError
  | d :: ds =>
    let best := argMinAux 0 d 1 ds
    .ok (if best.2 > |totalSeconds r maxdt| then none else some best.1)

end Glimpse.FloatTimes
