import Verif.Model.Basic
import Mathlib.Data.List.Dedup
import Mathlib.Data.List.Sort
import Mathlib.Algebra.Order.Group.Unbundled.Int
import Mathlib.Algebra.Order.Ring.Int

/-!
Model of `Tracker.datetimes`, `parse_datetimes`, `match_datetimes`, `update_weights` and `track`
(track/tracker.py). Datetimes and timedeltas are integers (microseconds); `datetime.timestamp` of naive datetimes
is taken without daylight saving time, and differences are exact.
-/
set_option autoImplicit false

namespace Glimpse.Tracker

/-! ### Datetimes -/

/-- `Tracker.datetimes` (tracker.py:84-87): sorted unique image times of all observers. -/
def allTimes (obs : List (List ℤ)) : List ℤ := obs.flatten.dedup.insertionSort (· ≤ ·)

/-- Monotonicity test (tracker.py:446-449). -/
def isMonotonic (ts : List ℤ) : Bool :=
  (ts.zip ts.tail).all (fun p => decide (p.1 ≤ p.2)) || (ts.zip ts.tail).all (fun p => decide (p.2 ≤ p.1))

/-- `datetimes[np.concatenate(((True,), datetimes[1:] != datetimes[:-1]))]` (tracker.py:451-454). -/
def dropRepeats : List ℤ → List ℤ
  | [] => []
  | [t] => [t]
  | t :: u :: r => if t = u then dropRepeats (u :: r) else t :: dropRepeats (u :: r)

/-- Distances to `times` (helpers.pairwise_distance_datetimes, helpers.py:1555-1578), one row. -/
def distances (t : ℤ) (times : List ℤ) : List ℤ := times.map fun u => |t - u|

/-- `x.min()` of an array; numpy raises ValueError if it is empty. -/
def npMin : List ℤ → Except Err ℤ
  | [] => .error .valueError
  | x :: xs => .ok (xs.foldl min x)

/-- `distances.min(axis=1) <= abs(maxdt)` for one datetime (tracker.py:456-457). -/
def matchesAny (times : List ℤ) (maxdt t : ℤ) : Bool :=
  match npMin (distances t times) with
  | .ok d => decide (d ≤ |maxdt|)
  | .error _ => false

/-- `Tracker.parse_datetimes` (tracker.py:444-464). Without any image time (no observers), numpy raises
ValueError. Warnings are not modelled. -/
def parseDatetimes (obs : List (List ℤ)) (ts : List ℤ) (maxdt : ℤ) : Except Err (List ℤ) :=
  if isMonotonic ts = false then .error .valueError
  else if allTimes obs = [] then .error .valueError
  else
    let r := (dropRepeats ts).filter (matchesAny (allTimes obs) maxdt)
    if r.length < 2 then .error .valueError else .ok r

/-- `np.argmin` of a non-empty array: the index of the first minimum, with the minimum. -/
def argMinAux : Nat → ℤ → Nat → List ℤ → Nat × ℤ
  | i, x, _, [] => (i, x)
  | i, x, j, y :: ys => if y < x then argMinAux j y (j + 1) ys else argMinAux i x (j + 1) ys

/-- `np.argmin` and the minimal value; ValueError if empty. -/
def argMin : List ℤ → Except Err (Nat × ℤ)
  | [] => .error .valueError
  | x :: xs => .ok (argMinAux 0 x 1 xs)

/-- One entry of `Tracker.match_datetimes` (tracker.py:482-491) for one observer and one datetime. -/
def matchOne (times : List ℤ) (maxdt t : ℤ) : Except Err (Option Nat) :=
  match argMin (distances t times) with
  | .error e => .error e
  | .ok (i, d) => .ok (if d > |maxdt| then none else some i)

/-- `Tracker.match_datetimes` (tracker.py:466-492): entry `[i][j]` for datetime `i` and observer `j`. -/
def matchDatetimes (obs : List (List ℤ)) (ts : List ℤ) (maxdt : ℤ) : Except Err (List (List (Option Nat))) :=
  ts.mapM fun t => obs.mapM fun times => matchOne times maxdt t

/-! ### Tracking -/

/-- `np.argmax` of a boolean array: the first `True`, or 0. -/
def firstTrue (b : List Bool) : Nat := (b.findIdx? id).getD 0

/-- The operations of a motion model and of the tracker that are left abstract: `P` particles, `W` weights, `T`
templates, `L` log likelihoods, `M` what is recorded at each time (mean and sigma), `Ω` the state of the random
number generator, `E` exceptions. -/
structure Ops (P W T L M Ω E : Type) where
  /-- `motion_model.initialize_particles()`. -/
  init : Ω → Except E (P × Ω)
  /-- `motion_model.evolve_particles(particles, dt)`. -/
  evolve : P → ℤ → Ω → Except E (P × Ω)
  /-- `Tracker.test_particles` (tracker.py:106-120). -/
  test : P → Except E Unit
  /-- `Tracker.initialize_weights` (tracker.py:122-125). -/
  ones : P → W
  /-- `Tracker.initialize_template` (tracker.py:536-561) for an observer and an image index. -/
  template : Nat → Nat → P → W → Except E T
  /-- `Tracker.compute_observer_log_likelihoods` (tracker.py:563-625) for an image and a template. -/
  obsLik : Nat → Nat → T → P → Except E (Option L)
  /-- `motion_model.compute_log_likelihoods(particles)`. -/
  motionLik : P → Except E (Option L)
  /-- `np.exp(-sum(log_likelihoods)) + 1e-300` (tracker.py:148-149). -/
  combine : List L → W
  /-- `Tracker.resample_particles` (tracker.py:151-223). -/
  resample : P → W → Ω → Except E (P × W × Ω)
  /-- Mean and standard deviation or covariance (tracker.py:348-352), and particles and weights if returned. -/
  record : P → W → M
  /-- TypeError, raised by `None[...]` and by a list index `None`. -/
  typeError : E

section
variable {P W T L M Ω E : Type}

/-- The state of a tracker: `self.particles`, `self.weights` and `self.templates`. `self.templates = None` and a
list of `None` both raise TypeError when a template is used, so they are not distinguished. -/
structure TState (P W T : Type) where
  particles : Option P
  weights : Option W
  templates : Nat → Option T

/-- `Tracker.reset` (tracker.py:419-423). -/
def TState.reset : TState P W T := ⟨none, none, fun _ => none⟩

/-- What a track is given: the times, for each time and observer the matching image (`images i obs`), the observers
to use, and the number of observers. -/
structure Job where
  times : List ℤ
  images : Nat → Nat → Option Nat
  mask : Nat → Bool
  nobs : Nat

/-- Whether an observer of the track has an image at time `i` (tracker.py:319-321). -/
def Job.observedAt (j : Job) (i : Nat) : Bool :=
  (List.range j.nobs).any fun o => j.mask o && (j.images i o).isSome

/-- `observed` (tracker.py:319-321). -/
def Job.observed (j : Job) : List Bool := (List.range j.times.length).map j.observedAt

/-- `first` (tracker.py:322). -/
def Job.first (j : Job) : Nat := firstTrue j.observed

/-- `last` (tracker.py:323). -/
def Job.last (j : Job) : Nat := j.observed.length - 1 - firstTrue j.observed.reverse

/-- `template_indices[o]` (tracker.py:291): the first time at which observer `o` has an image, or 0. -/
def Job.templateIndex (j : Job) (o : Nat) : Nat :=
  firstTrue ((List.range j.times.length).map fun i => (j.images i o).isSome)

/-- The observers whose template is initialized at time `i` (tracker.py:334-335). -/
def Job.atTemplate (j : Job) (i : Nat) : List Nat :=
  (List.range j.nobs).filter fun o => j.mask o && decide (j.templateIndex o = i)

/-- `self.initialize_template(obs, img=matching_images[i][obs])` for each observer at its first image
(tracker.py:335-340). A missing image raises TypeError (`self.images[None]`). -/
def initTemplates (ops : Ops P W T L M Ω E) (j : Job) (i : Nat) (p : P) (w : W) :
    List Nat → (Nat → Option T) → Except E (Nat → Option T)
  | [], ts => .ok ts
  | o :: os, ts =>
    match j.images i o with
    | none => .error ops.typeError
    | some img =>
      match ops.template o img p w with
      | .error e => .error e
      | .ok t => initTemplates ops j i p w os (fun o' => if o' = o then some t else ts o')

/-- `compute_observer_log_likelihoods(obs, img)` with the template looked up (tracker.py:575-580). -/
def obsLikelihood (ops : Ops P W T L M Ω E) (ts : Nat → Option T) (p : P) (o : Nat) :
    Option Nat → Except E (Option L)
  | none => .ok none
  | some img =>
    match ts o with
    | none => .error ops.typeError
    | some t => ops.obsLik o img t p

/-- `Tracker.update_weights` (tracker.py:138-149): the weights are replaced if there is any log likelihood. -/
def updateWeights (ops : Ops P W T L M Ω E) (ts : Nat → Option T) (imgs : List (Nat × Option Nat)) (p : P)
    (w : W) : Except E W := do
  let ls ← imgs.mapM fun oi => obsLikelihood ops ts p oi.1 oi.2
  let m ← ops.motionLik p
  let ls := (ls ++ [m]).filterMap id
  return if ls.isEmpty then w else ops.combine ls

/-- The images used to update the weights (tracker.py:342-345). -/
def Job.imgsAt (j : Job) (i : Nat) : List (Nat × Option Nat) :=
  (List.range j.nobs).map fun o => (o, if j.mask o then j.images i o else none)

/-- Particles and weights before templates and weighting (tracker.py:325-332). -/
def startStep (ops : Ops P W T L M Ω E) (j : Job) (i : Nat) (st : TState P W T) (rng : Ω) :
    Except E (P × W × Ω) :=
  if i = j.first then do
    let (p, rng) ← ops.init rng
    ops.test p
    return (p, ops.ones p, rng)
  else
    match st.particles, st.weights with
    | some p, some w => do
      let (p, rng) ← ops.evolve p (j.times.getD i 0 - j.times.getD (i - 1) 0) rng
      ops.test p
      return (p, w, rng)
    | _, _ => .error ops.typeError

/-- Weighting and resampling (tracker.py:341-347). -/
def weighStep (ops : Ops P W T L M Ω E) (j : Job) (i : Nat) (ts : Nat → Option T) (p : P) (w : W) (rng : Ω) :
    Except E (P × W × Ω) :=
  if i > j.first then do
    let w ← updateWeights ops ts (j.imgsAt i) p w
    ops.resample p w rng
  else .ok (p, w, rng)

/-- One time step of the track loop (tracker.py:324-347). -/
def trackStep (ops : Ops P W T L M Ω E) (j : Job) (i : Nat) (st : TState P W T) (rng : Ω) :
    Except E (P × W × (Nat → Option T) × Ω) := do
  let (p, w, rng) ← startStep ops j i st rng
  let ts ← initTemplates ops j i p w (j.atTemplate i) st.templates
  let (p, w, rng) ← weighStep ops j i ts p w rng
  return (p, w, ts, rng)

/-- The result of one track: what was recorded at each time (`none` is NaN), and the exception, if any. -/
structure TrackResult (M E : Type) where
  recorded : Nat → Option M
  error : Option E

/-- The loop of `process` (tracker.py:324-356) over the given times. The tracker's state after an exception is the
one before the failing step, except that it may be partly updated; this does not matter (`process_frame`). -/
def trackLoop (ops : Ops P W T L M Ω E) (j : Job) :
    List Nat → TState P W T → Ω → (Nat → Option M) → TrackResult M E × TState P W T
  | [], st, _, rec => (⟨rec, none⟩, st)
  | i :: is, st, rng, rec =>
    match trackStep ops j i st rng with
    | .error e => (⟨rec, some e⟩, st)
    | .ok (p, w, ts, rng) =>
      trackLoop ops j is ⟨some p, some w, ts⟩ rng (fun k => if k = i then some (ops.record p w) else rec k)

/-- `range(first, last + 1)` (tracker.py:324). -/
def Job.window (j : Job) : List Nat := (List.range (j.last + 1 - j.first)).map (· + j.first)

/-- `process` in `Tracker.track` (tracker.py:305-371), up to the handling of exceptions, starting from the tracker
state `st` left by earlier tracks and the random number generator state `rng`. -/
def process (ops : Ops P W T L M Ω E) (j : Job) (st : TState P W T) (rng : Ω) : TrackResult M E × TState P W T :=
  trackLoop ops j j.window st rng (fun _ => none)

/-- A motion model with its job, and the state of the random number generator when its track starts. -/
structure Task (P W T L M Ω E : Type) where
  ops : Ops P W T L M Ω E
  job : Job
  rng : Ω

/-- Exception handling of `process` (tracker.py:357-366): with fewer than two tracks the exception is raised;
otherwise the exception is rebuilt from a single message, `e.__class__(message)`, which may itself raise. -/
def settle (rebuild : E → Except E E) (ntracks : Nat) (r : TrackResult M E) : Except E (TrackResult M E) :=
  match r.error with
  | none => .ok r
  | some e =>
    if ntracks < 2 then .error e
    else match rebuild e with
      | .ok e' => .ok { r with error := some e' }
      | .error e' => .error e'

/-- Tracks run one after the other on the same tracker (`parallel=False`). -/
def runSerial (rebuild : E → Except E E) (ntracks : Nat) :
    List (Task P W T L M Ω E) → TState P W T → Except E (List (TrackResult M E))
  | [], _ => .ok []
  | t :: ts, st =>
    match settle rebuild ntracks (process t.ops t.job st t.rng).1 with
    | .error e => .error e
    | .ok r =>
      match runSerial rebuild ntracks ts (process t.ops t.job st t.rng).2 with
      | .error e => .error e
      | .ok rs => .ok (r :: rs)

/-- `Tracker.track` (tracker.py:273-389) for prepared jobs: reset, then run the tracks. -/
def trackAll (rebuild : E → Except E E) (tasks : List (Task P W T L M Ω E)) : Except E (List (TrackResult M E)) :=
  runSerial rebuild tasks.length tasks TState.reset

/-- `pool.map` (sharedmem): results are returned with the position of their argument, in the order in which the
workers finish, and sorted by that position. -/
def collect {α : Type} (arrived : List (Nat × α)) : List α :=
  (arrived.insertionSort fun a b => a.1 ≤ b.1).map Prod.snd

end

end Glimpse.Tracker
