import Verif.Model.Basic
import Mathlib.Data.Rat.Defs
import Mathlib.Algebra.Order.Field.Rat
import Mathlib.Data.Fintype.Pi

/-!
Model of what `Tracks.animate` draws (src/glimpse/track/tracks.py:293-491): which times become frames (325-333, 382-391), and for
each of them the image, the track so far, the arrow of the mean velocity and the arrows of the particles (393-486).

The drawing itself (matplotlib) is left out, as are the projections into the image: a frame is the data given to it. Numbers are
rationals, a row of NaN is `none`. Times are rationals.
-/
set_option autoImplicit false

namespace Glimpse.TracksAnimate

/-- Mean or particle: `x, y, z, vx, vy, vz`. -/
abbrev State := Fin 6 → ℚ

/-- What `animate(track, obs)` uses of a `Tracks` object: `datetimes`, `time_unit`, `means[track]`, `images[:, obs]`, whether
`tracker` is set, and `particles[track]` if set (with the weights). -/
structure Data where
  times : List ℚ
  unit : ℚ
  means : List (Option State)
  images : List (Option Nat)
  tracker : Bool
  particles : Option (List (List State))

/-- What is drawn for one time: the index of the image, the positions of the track up to here (tracks.py:432-433), the tip of the
arrow of the mean velocity relative to the position (442-447), and those of the particles (400-404). -/
structure Frame where
  img : Nat
  track : List (Option State)
  arrow : ℚ × ℚ
  particles : Option (List (ℚ × ℚ))
deriving DecidableEq

/-- `~np.isnan(self.xyz[track, :, 0]) & np.not_equal(self.images[:, obs], None)` (328-330) at one time. -/
def Data.hasFrame (d : Data) (i : Nat) : Bool := (d.means[i]?.getD none).isSome && (d.images[i]?.getD none).isSome

/-- `np.intersect1d(frames, has_frame)` (325-331): increasing; all times by default. -/
def Data.select (d : Data) (frames : Option (List Nat)) : List Nat :=
  (List.range d.times.length).filter fun i =>
    d.hasFrame i && (match frames with | none => true | some fs => decide (i ∈ fs))

/-- `np.diff(self.datetimes[frames]) / self.time_unit` (374, 381) of the selected times. -/
def Data.diffs (d : Data) : List Nat → List ℚ
  | i :: j :: sel => (d.times.getD j 0 - d.times.getD i 0) / d.unit :: d.diffs (j :: sel)
  | _ => []

/-- The scales (372-383): ones if there are neither particles nor a tracker. -/
def Data.scales (d : Data) (particles : Bool) (sel : List Nat) : List ℚ :=
  if particles || d.tracker then d.diffs sel else List.replicate (sel.length - 1) 1

/-- Velocity in x and y times a scale. -/
def tip (s : State) (k : ℚ) : ℚ × ℚ := (s 3 * k, s 4 * k)

/-- `update_plot(i)` (388-484): `scales[i]` raises if there is no such element; the file name is taken from the tracker, also if
there is none (476). -/
def Data.update (d : Data) (particles : Bool) (scales : List ℚ) (i : Nat) : Except Err Frame :=
  match scales[i]? with
  | none => .error .indexError
  | some k =>
    if d.tracker then
      match d.means[i]?.getD none, d.images[i]?.getD none with
      | some m, some img =>
        .ok ⟨img, d.means.take (i + 1), tip m k,
          if particles then (d.particles.bind fun ps => ps[i]?).map fun l => l.map fun p => tip p k else none⟩
      | _, _ => .error .other
    else .error .attributeError

/-- `animate(frames, images, particles)` (293-491): the times that become frames and what is drawn for each. Without any selected
time `frames[0]` raises (334); images without a tracker, and particles without any, raise (341-, 376-). -/
def Data.animate (d : Data) (frames : Option (List Nat)) (images particles : Option Bool) :
    Except Err (List Nat × (Nat → Except Err Frame)) :=
  let images := images.getD d.tracker
  let particles := particles.getD d.particles.isSome
  let sel := d.select frames
  if sel = [] then .error .indexError
  else if images && !d.tracker then .error .attributeError
  else if particles && d.particles.isNone then .error .typeError
  else .ok (sel.dropLast, d.update particles (d.scales particles sel))

end Glimpse.TracksAnimate
