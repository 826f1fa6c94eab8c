import Verif.Model.Datetimes
import Verif.Model.Tracker
import Mathlib.Data.List.Dedup
import Mathlib.Data.List.Sort

/-!
Model of `Observer.__init__`, `index`, `subset` and `split` (track/observer.py:50-100, 455-493). An observer is the list
of its image times (integer microseconds), as images are identified by their (strictly increasing) times; reading and
projecting images, `sigma` and `cache` are not modelled here.
-/
set_option autoImplicit false

namespace Glimpse.Observer

/-- `Observer.__init__` (observer.py:50-69) for images with the given times (`none` = missing datetime). The order of
the checks does not matter, as all raise ValueError. -/
def mk (images : List (Option ℤ)) : Except Err (List ℤ) :=
  if images.length < 2 then .error .valueError                                            -- 56-57
  else match images.mapM id with                                                          -- 59-62
    | none => .error .valueError
    | some ts =>
      if (ts.zip ts.tail).any (fun p => decide (p.2 - p.1 ≤ 0)) then .error .valueError   -- 63-65
      else .ok ts

/-- `Observer.index` for a datetime (observer.py:92-99); `maxdt = none` places no limit. -/
def index (ts : List ℤ) (value : ℤ) (maxdt : Option ℤ) : Except Err Nat :=
  match Tracker.argMin (Tracker.distances value ts) with
  | .error e => .error e
  | .ok (i, d) =>
    match maxdt with
    | none => .ok i
    | some m => if d > |m| then .error .valueError else .ok i

/-- `np.asarray(self.images)[mask]` (observer.py:463). -/
def applyMask (ts : List ℤ) (mask : List Bool) : List ℤ :=
  ((ts.zip mask).filter (fun p => p.2)).map (fun p => p.1)

/-- `Observer.subset(start=start, end=stop)` (observer.py:462-464). -/
def subset (ts : List ℤ) (start stop : ℤ) : Except Err (List ℤ) :=
  match selectDatetimes ts (some start) (some stop) none none 0 with
  | .error e => .error e
  | .ok mask => mk ((applyMask ts mask).map some)

/-- `start` of the next subset (observer.py:486-491): `datetimes[-lag]`, or just after the last image. (The subset has
at least two images, so the default is never used.) -/
def nextStart (o : List ℤ) (overlap : Nat) : ℤ :=
  if overlap ≠ 0 then o.getD (o.length - min overlap o.length) 0 else o.getLastD 0 + 1

/-- The loop of `Observer.split` (observer.py:484-492) over `breaks[1:]`. -/
def splitLoop (ts : List ℤ) (overlap : Nat) : ℤ → List ℤ → Except Err (List (List ℤ))
  | _, [] => .ok []
  | start, b :: bs =>
    match subset ts start b with
    | .error e => .error e
    | .ok o =>
      match splitLoop ts overlap (nextStart o overlap) bs with
      | .error e => .error e
      | .ok rest => .ok (o :: rest)

/-- `breaks[0]` and the loop (observer.py:482-493). -/
def splitOn (ts : List ℤ) (overlap : Nat) : List ℤ → Except Err (List (List ℤ))
  | [] => .error .indexError
  | b :: bs => splitLoop ts overlap b bs

/-- `np.unique(np.hstack((n, self.datetimes[[0, -1]])))` (observer.py:478). -/
def breaksOf (ts n : List ℤ) : List ℤ := (n ++ [ts.headD 0, ts.getLastD 0]).dedup.insertionSort (· ≤ ·)

/-- `Observer.split` at datetime breaks. -/
def splitBreaks (ts n : List ℤ) (overlap : Nat) : Except Err (List (List ℤ)) :=
  splitOn ts overlap (breaksOf ts n)

/-- `timedelta / int` for a non-negative timedelta and a positive int: rounded half to even microseconds. -/
def divRound (a : ℤ) (n : Nat) : ℤ :=
  let q := a / n
  let r := a % n
  if 2 * r < n ∨ (2 * r = n ∧ q % 2 = 0) then q else q + 1

/-- `Observer.split` into `n` parts (observer.py:480-493). A negative `n` is not modelled. -/
def splitInt (ts : List ℤ) (n : Nat) (overlap : Nat) : Except Err (List (List ℤ)) :=
  if n = 0 then .error .zeroDivision
  else
    match datetimeRange (ts.headD 0) (ts.getLastD 0) (divRound (ts.getLastD 0 - ts.headD 0) n) with
    | .error e => .error e
    | .ok breaks => splitOn ts overlap breaks

end Glimpse.Observer
