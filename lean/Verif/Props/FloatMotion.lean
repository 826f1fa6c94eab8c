import Verif.Model.FloatMotion
import Verif.Model.Motion
import Verif.Props.Motion
import Verif.Props.FloatDistort

/-!
C141: particles moved in double precision, in any number of steps.
-/
set_option autoImplicit false
set_option linter.unusedSimpArgs false
set_option linter.unusedSectionVars false

namespace Glimpse.FloatMotion
open Glimpse.Double Glimpse.FloatProject

variable {r : ℚ → ℚ}

/-- Three numbers as real numbers. -/
def triple (v : Fin 3 → ℚ) : Motion.Triple := ⟨v 0, v 1, v 2⟩

/-- The absolute values of three numbers. -/
def tripleAbs (v : Fin 3 → ℚ) : Motion.Triple := ⟨|(v 0 : ℝ)|, |(v 1 : ℝ)|, |(v 2 : ℝ)|⟩

/-- The same particle in exact arithmetic. -/
def exact (p : Particle) : Motion.Particle := ⟨p.pos 0, p.pos 1, p.pos 2, p.vel 0, p.vel 1, p.vel 2⟩

/-- The particle with the absolute values of position and velocity. -/
def exactAbs (p : Particle) : Motion.Particle :=
  ⟨|(p.pos 0 : ℝ)|, |(p.pos 1 : ℝ)|, |(p.pos 2 : ℝ)|, |(p.vel 0 : ℝ)|, |(p.vel 1 : ℝ)|, |(p.vel 2 : ℝ)|⟩

/-- The steps in exact arithmetic. -/
noncomputable def exactRun (axyz sigma : Fin 3 → ℚ) (unit : ℤ) (steps : List (ℤ × (Fin 3 → ℚ))) (p : Motion.Particle) : Motion.Particle :=
  steps.foldl (fun q s => Motion.evolveCartesian (triple axyz) (triple sigma) (Motion.timeUnits s.1 unit) (triple s.2) q) p

/-- The steps with the absolute values of all numbers: a bound of all the terms that are added up. -/
noncomputable def absRun (axyz sigma : Fin 3 → ℚ) (unit : ℤ) (steps : List (ℤ × (Fin 3 → ℚ))) (p : Motion.Particle) : Motion.Particle :=
  steps.foldl (fun q s => Motion.evolveCartesian (tripleAbs axyz) (tripleAbs sigma) |Motion.timeUnits s.1 unit| (tripleAbs s.2) q) p

/-- The error of `n` roundings. -/
theorem growth_le_mul (n : Nat) (h : n ≤ 2 ^ 53) : ((1 : ℝ) + 1 / 2 ^ 53) ^ n - 1 ≤ n / 2 ^ 52 := by
  have h2 : ((1 : ℝ) + 1 / 2 ^ 53) ^ n ≤ Real.exp (n / 2 ^ 53) := by
    calc ((1 : ℝ) + 1 / 2 ^ 53) ^ n ≤ (Real.exp (1 / 2 ^ 53)) ^ n := by
          gcongr
          linarith [Real.add_one_le_exp ((1 : ℝ) / 2 ^ 53)]
      _ = Real.exp (n / 2 ^ 53) := by rw [← Real.exp_nat_mul]; ring_nf
  have hn : ((n : ℕ) : ℝ) ≤ 2 ^ 53 := by exact_mod_cast h
  have h0 : (0 : ℝ) ≤ n / 2 ^ 53 := by positivity
  have h3 := Real.abs_exp_sub_one_le (x := n / 2 ^ 53) (by rw [abs_of_nonneg h0, div_le_one (by positivity)]; exact hn)
  rw [abs_of_nonneg h0] at h3
  have h4 := (abs_le.1 h3).2
  have : 2 * ((n : ℝ) / 2 ^ 53) = n / 2 ^ 52 := by ring
  linarith

/-- The reciprocal of a rounded number. -/
theorem inv_rel (hr : Nearest r) (x : ℚ) (hx : x ≠ 0) : Rel 2 (1 / r x) (1 / (x : ℝ)) |1 / (x : ℝ)| := by
  refine ⟨le_rfl, ?_⟩
  have h := near_real hr x
  have hx' : (x : ℝ) ≠ 0 := by exact_mod_cast hx
  have hp : 0 < |(x : ℝ)| := abs_pos.2 hx'
  have hlow : |(x : ℝ)| * (1 - 1 / 2 ^ 53) ≤ |((r x : ℚ) : ℝ)| := by
    have : |(x : ℝ)| ≤ |((r x : ℚ) : ℝ)| + |((r x : ℚ) : ℝ) - x| := by
      calc |(x : ℝ)| = |((r x : ℚ) : ℝ) - (((r x : ℚ) : ℝ) - x)| := by ring_nf
        _ ≤ _ := abs_sub _ _
    linarith
  have hu : (0 : ℝ) < 1 - 1 / 2 ^ 53 := by norm_num
  have hry : 0 < |((r x : ℚ) : ℝ)| := lt_of_lt_of_le (mul_pos hp hu) hlow
  have hr0 : ((r x : ℚ) : ℝ) ≠ 0 := abs_pos.1 hry
  push_cast
  have e : 1 / ((r x : ℚ) : ℝ) - 1 / (x : ℝ) = -((((r x : ℚ) : ℝ) - x) / ((r x : ℚ) : ℝ)) * (1 / x) := by field_simp; ring
  rw [e, abs_mul, abs_neg, abs_div]
  refine mul_le_mul_of_nonneg_right ?_ (abs_nonneg _)
  calc |((r x : ℚ) : ℝ) - x| / |((r x : ℚ) : ℝ)| ≤ |(x : ℝ)| / 2 ^ 53 / (|(x : ℝ)| * (1 - 1 / 2 ^ 53)) := by gcongr
    _ = 1 / 2 ^ 53 / (1 - 1 / 2 ^ 53) := by field_simp
    _ ≤ _ := by norm_num

theorem time_rel (hr : Nearest r) (dt unit : ℤ) (hu : unit ≠ 0) : Rel 4 (timeUnits r dt unit) (Motion.timeUnits dt unit) |Motion.timeUnits dt unit| := by
  have h1 := (Rel.exact ((dt : ℚ) / 1000000)).round hr
  have h2 := inv_rel hr ((unit : ℚ) / 1000000) (div_ne_zero (by exact_mod_cast hu) (by norm_num))
  have h := (h1.mul h2).round hr
  rw [mul_one_div, mul_one_div, ← abs_mul, mul_one_div] at h
  push_cast at h
  exact h

/-- One axis: what is kept from step to step. -/
theorem axis_rel (hr : Nearest r) {k : Nat} {t x v A s n : ℚ} {T X V SX SV : ℝ} (ht : Rel 4 t T |T|) (hx : Rel (k + 14) x X SX) (hv : Rel (k + 7) v V SV) :
    Rel (k + 1 + 14) (r (x + r (r (t * v) + r (r (1 / 2 * r (A + r (s * n))) * r (t * t))))) (X + (T * V + 0.5 * (A + s * n) * T ^ 2))
      (SX + (|T| * SV + 0.5 * (|(A : ℝ)| + |(s : ℝ)| * |(n : ℝ)|) * |T| ^ 2)) ∧
    Rel (k + 1 + 7) (r (v + r (t * r (A + r (s * n))))) (V + T * (A + s * n)) (SV + |T| * (|(A : ℝ)| + |(s : ℝ)| * |(n : ℝ)|)) := by
  have hsn := ((Rel.exact s).mul (Rel.exact n)).round hr
  have ha := (((Rel.exact A).mono (show 0 ≤ 1 by omega) le_rfl).add (hsn.mono (show _ ≤ 1 by omega) le_rfl)).round hr
  have half : Rel 0 (1 / 2) (0.5 : ℝ) 0.5 := by
    have := Rel.exact (1 / 2)
    norm_num at this ⊢
    exact this
  have hha := (half.mul ha).round hr
  have htt := (ht.mul ht).round hr
  have hq := (hha.mul htt).round hr
  have htv := (ht.mul hv).round hr
  have hd := ((Rel.mono (m := k + 13) htv (by omega) le_rfl).add (Rel.mono (m := k + 13) hq (by omega) le_rfl)).round hr
  have hxx := (hx.add (Rel.mono (m := k + 14) hd (by omega) le_rfl)).round hr
  have hta := (ht.mul ha).round hr
  have hvv := (hv.add (Rel.mono (m := k + 7) hta (by omega) le_rfl)).round hr
  rw [← sq T, ← sq |T|] at hxx
  exact ⟨hxx.mono (show k + 14 + 1 ≤ k + 1 + 14 by omega) le_rfl, hvv.mono (show k + 7 + 1 ≤ k + 1 + 7 by omega) le_rfl⟩

/-- The three axes. -/
def RelParticle (k : Nat) (p : Particle) (P S : Motion.Particle) : Prop :=
  (Rel (k + 14) (p.pos 0) P.x S.x ∧ Rel (k + 14) (p.pos 1) P.y S.y ∧ Rel (k + 14) (p.pos 2) P.z S.z) ∧
  Rel (k + 7) (p.vel 0) P.vx S.vx ∧ Rel (k + 7) (p.vel 1) P.vy S.vy ∧ Rel (k + 7) (p.vel 2) P.vz S.vz

theorem run_rel (hr : Nearest r) (axyz sigma : Fin 3 → ℚ) (unit : ℤ) (hu : unit ≠ 0) (steps : List (ℤ × (Fin 3 → ℚ))) :
    ∀ (k : Nat) (p : Particle) (P S : Motion.Particle), RelParticle k p P S →
      RelParticle (k + steps.length) (run r axyz sigma unit steps p) (exactRun axyz sigma unit steps P) (absRun axyz sigma unit steps S) := by
  induction steps with
  | nil => exact fun k p P S h => h
  | cons s steps ih =>
    intro k p P S h
    obtain ⟨⟨hx, hy, hz⟩, ux, uy, uz⟩ := h
    have ht := time_rel hr s.1 unit hu
    have x := axis_rel hr (A := axyz 0) (s := sigma 0) (n := s.2 0) ht hx ux
    have y := axis_rel hr (A := axyz 1) (s := sigma 1) (n := s.2 1) ht hy uy
    have z := axis_rel hr (A := axyz 2) (s := sigma 2) (n := s.2 2) ht hz uz
    have := ih (k + 1) (evolve r axyz sigma unit s.1 s.2 p)
      (Motion.evolveCartesian (triple axyz) (triple sigma) (Motion.timeUnits s.1 unit) (triple s.2) P)
      (Motion.evolveCartesian (tripleAbs axyz) (tripleAbs sigma) |Motion.timeUnits s.1 unit| (tripleAbs s.2) S)
      ⟨⟨x.1, y.1, z.1⟩, x.2, y.2, z.2⟩
    rw [List.length_cons, show k + (steps.length + 1) = k + 1 + steps.length by omega]
    exact this

/-- Two particles are within a fraction of the sizes of a third one. -/
def Close (e : ℝ) (p : Particle) (P S : Motion.Particle) : Prop :=
  (|(p.pos 0 : ℝ) - P.x| ≤ e * S.x ∧ |(p.pos 1 : ℝ) - P.y| ≤ e * S.y ∧ |(p.pos 2 : ℝ) - P.z| ≤ e * S.z) ∧
  |(p.vel 0 : ℝ) - P.vx| ≤ e * S.vx ∧ |(p.vel 1 : ℝ) - P.vy| ≤ e * S.vy ∧ |(p.vel 2 : ℝ) - P.vz| ≤ e * S.vz

theorem start_rel (p : Particle) : RelParticle 0 p (exact p) (exactAbs p) := by
  have e : ∀ (n : Nat) (q : ℚ), Rel n q (q : ℝ) |(q : ℝ)| := fun n q => (Rel.exact q).mono (Nat.zero_le _) le_rfl
  exact ⟨⟨e _ _, e _ _, e _ _⟩, e _ _, e _ _, e _ _⟩

/-- C141: after any steps forward and backward in time, with any random accelerations, position and velocity are within `(k + 14) 2 ^ -52` of the
exact ones (`k` is the number of steps), relative to the sum of the absolute values of all terms. -/
theorem float_motion_near (hr : Nearest r) (axyz sigma : Fin 3 → ℚ) (unit : ℤ) (hu : unit ≠ 0) (steps : List (ℤ × (Fin 3 → ℚ)))
    (hk : steps.length + 14 ≤ 2 ^ 53) (p : Particle) :
    Close ((steps.length + 14) / 2 ^ 52) (run r axyz sigma unit steps p) (exactRun axyz sigma unit steps (exact p))
      (absRun axyz sigma unit steps (exactAbs p)) := by
  have h := run_rel hr axyz sigma unit hu steps 0 p _ _ (start_rel p)
  rw [Nat.zero_add] at h
  have g := growth_le_mul (steps.length + 14) hk
  have g' := growth_le_mul (steps.length + 7) (by omega)
  push_cast at g g'
  have fin : ∀ {x : ℚ} {X S : ℝ}, Rel (steps.length + 14) x X S → |(x : ℝ) - X| ≤ (steps.length + 14) / 2 ^ 52 * S := fun h =>
    h.2.trans (mul_le_mul_of_nonneg_right g h.nonneg)
  have fin' : ∀ {x : ℚ} {X S : ℝ}, Rel (steps.length + 7) x X S → |(x : ℝ) - X| ≤ (steps.length + 14) / 2 ^ 52 * S := fun h =>
    h.2.trans (mul_le_mul_of_nonneg_right (g'.trans (by gcongr; norm_num)) h.nonneg)
  obtain ⟨⟨a, b, c⟩, d, e, f⟩ := h
  exact ⟨⟨fin a, fin b, fin c⟩, fin' d, fin' e, fin' f⟩

/-- C141: the base motion: each step is within `6 · 2 ^ -52` of the exact one (relative to the sum of the absolute values), and the velocity is unchanged. -/
theorem float_base_motion (hr : Nearest r) (unit dt : ℤ) (hu : unit ≠ 0) (p : Particle) (i : Fin 3) :
    |((evolveBase r unit dt p).pos i : ℝ) - (p.pos i + (dt : ℝ) / unit * p.vel i)| ≤
      6 / 2 ^ 52 * (|(p.pos i : ℝ)| + |(dt : ℝ) / unit| * |(p.vel i : ℝ)|) ∧ (evolveBase r unit dt p).vel = p.vel := by
  refine ⟨?_, rfl⟩
  have ht := time_rel hr dt unit hu
  have e : Motion.timeUnits dt unit = (dt : ℝ) / unit := by
    unfold Motion.timeUnits
    field_simp
  rw [e] at ht
  have hm := (ht.mul (Rel.exact (p.vel i))).round hr
  have h := (((Rel.exact (p.pos i)).mono (show 0 ≤ 5 by omega) le_rfl).add hm).round hr
  exact h.2.trans (mul_le_mul_of_nonneg_right ((growth_le_mul 6 (by norm_num)).trans (by norm_num)) h.nonneg)

/-- The total time, and the total of the absolute times. -/
noncomputable def total (unit : ℤ) (steps : List (ℤ × (Fin 3 → ℚ))) : ℝ := (steps.map fun s => Motion.timeUnits s.1 unit).sum

/-- Total of the absolute times. -/
noncomputable def totalAbs (unit : ℤ) (steps : List (ℤ × (Fin 3 → ℚ))) : ℝ := (steps.map fun s => |Motion.timeUnits s.1 unit|).sum

theorem exact_const (a : Motion.Triple) (f : ℤ → ℝ) (g : (Fin 3 → ℚ) → Motion.Triple) (steps : List (ℤ × (Fin 3 → ℚ))) (P : Motion.Particle) :
    steps.foldl (fun q s => Motion.evolveCartesian a Motion.noSigma (f s.1) (g s.2) q) P =
      Motion.evolveCartesian a Motion.noSigma (steps.map fun s => f s.1).sum ⟨0, 0, 0⟩ P := by
  have := Motion.cartesian_steps a (steps.map fun s => (f s.1, g s.2)) ⟨0, 0, 0⟩ P
  rw [List.foldl_map, List.map_map] at this
  exact this

/-- C141: with a constant acceleration, positions are those of uniformly accelerated motion over the total time, whatever the steps. -/
theorem float_motion_total (hr : Nearest r) (axyz : Fin 3 → ℚ) (unit : ℤ) (hu : unit ≠ 0) (steps : List (ℤ × (Fin 3 → ℚ)))
    (hk : steps.length + 14 ≤ 2 ^ 53) (p : Particle) (i : Fin 3) :
    let T := total unit steps
    let T' := totalAbs unit steps
    let q := run r axyz (fun _ => 0) unit steps p
    |(q.pos i : ℝ) - (p.pos i + p.vel i * T + axyz i * T ^ 2 / 2)| ≤
      (steps.length + 14) / 2 ^ 52 * (|(p.pos i : ℝ)| + |(p.vel i : ℝ)| * T' + |(axyz i : ℝ)| * T' ^ 2 / 2) ∧
    |(q.vel i : ℝ) - (p.vel i + axyz i * T)| ≤ (steps.length + 14) / 2 ^ 52 * (|(p.vel i : ℝ)| + |(axyz i : ℝ)| * T') := by
  intro T T' q
  obtain ⟨⟨x, y, z⟩, vx, vy, vz⟩ := float_motion_near hr axyz (fun _ => 0) unit hu steps hk p
  have s0 : triple (fun _ => 0) = Motion.noSigma := by simp [triple, Motion.noSigma]
  have s1 : tripleAbs (fun _ => 0) = Motion.noSigma := by simp [tripleAbs, Motion.noSigma]
  unfold exactRun absRun at x y z vx vy vz
  rw [s0, s1] at x y z vx vy vz
  rw [exact_const _ (fun t => Motion.timeUnits t unit) triple, exact_const _ (fun t => |Motion.timeUnits t unit|) tripleAbs] at x y z vx vy vz
  have e1 : (steps.map fun s => Motion.timeUnits s.1 unit).sum = T := rfl
  have e2 : (steps.map fun s => |Motion.timeUnits s.1 unit|).sum = T' := rfl
  rw [e1, e2] at x y z vx vy vz
  simp only [Motion.evolveCartesian, Motion.integrate, Motion.Triple.draw, Motion.noSigma, exact, exactAbs, triple, tripleAbs, mul_zero, zero_mul,
    add_zero] at x y z vx vy vz
  have pe : ∀ X V A t : ℝ, X + (t * V + 0.5 * A * t ^ 2) = X + V * t + A * t ^ 2 / 2 := fun X V A t => by ring
  have ve : ∀ V A t : ℝ, V + t * A = V + A * t := fun V A t => by ring
  simp only [pe] at x y z
  simp only [ve] at vx vy vz
  fin_cases i
  · exact ⟨x, vx⟩
  · exact ⟨y, vy⟩
  · exact ⟨z, vz⟩

/-- Exactness fails: a step forward and the same step backward do not return to the same position. -/
theorem float_motion_reverse_violated :
    (run rnd (fun _ => 0) (fun _ => 0) 86400000000 [(86400000000, fun _ => 0), (-86400000000, fun _ => 0)] ⟨fun _ => 1 / 2 ^ 60, fun _ => 1⟩).pos 0 = 0 := by
  decide +kernel

/-- ... and a particle may never move: a step of a velocity below `2 ^ -54` of its position is lost, as are any number of such steps. -/
theorem float_motion_stuck_violated (n : Nat) :
    (run rnd (fun _ => 0) (fun _ => 0) 86400000000 (List.replicate n (86400000000, fun _ => 0)) ⟨fun _ => 1, fun _ => 1 / 2 ^ 54⟩) =
      ⟨fun _ => 1, fun _ => 1 / 2 ^ 54⟩ := by
  have one : evolve rnd (fun _ => 0) (fun _ => 0) 86400000000 86400000000 (fun _ => 0) ⟨fun _ => 1, fun _ => 1 / 2 ^ 54⟩ =
      ⟨fun _ => 1, fun _ => 1 / 2 ^ 54⟩ := by
    have h1 : rnd (1 + rnd (rnd (timeUnits rnd 86400000000 86400000000 * (1 / 2 ^ 54)) +
        rnd (rnd (1 / 2 * rnd (0 + rnd (0 * 0))) * rnd (timeUnits rnd 86400000000 86400000000 * timeUnits rnd 86400000000 86400000000)))) = 1 := by decide +kernel
    have h2 : rnd (1 / 2 ^ 54 + rnd (timeUnits rnd 86400000000 86400000000 * rnd (0 + rnd (0 * 0)))) = 1 / 2 ^ 54 := by decide +kernel
    unfold evolve
    simp only [h1, h2]
  unfold run
  induction n with
  | zero => rfl
  | succ n ih =>
    rw [List.replicate_succ, List.foldl_cons]
    simp only
    rw [one]
    exact ih

/-- Non-vacuity: a thousand days of a meter per day from a northing of seven million meters: the error is less than a hundredth of a millimeter. -/
example : |(((run rnd (fun _ => 0) (fun _ => 0) 86400000000 (List.replicate 1000 (86400000000, fun _ => 0)) ⟨![500000, 7000000, 0], ![0, 1, 0]⟩).pos 1 : ℚ) : ℝ) -
    7001000| ≤ 1 / 100000 := by
  have h := (float_motion_total rnd_nearest (fun _ => 0) 86400000000 (by norm_num) (List.replicate 1000 (86400000000, fun _ => 0)) (by rw [List.length_replicate]; norm_num)
    ⟨![500000, 7000000, 0], ![0, 1, 0]⟩ 1).1
  have t : total 86400000000 (List.replicate 1000 (86400000000, fun _ => 0)) = 1000 := by
    unfold total
    rw [List.map_replicate, List.sum_replicate]
    norm_num [Motion.timeUnits]
  have t' : totalAbs 86400000000 (List.replicate 1000 (86400000000, fun _ => 0)) = 1000 := by
    unfold totalAbs
    rw [List.map_replicate, List.sum_replicate]
    norm_num [Motion.timeUnits]
  rw [t, t', List.length_replicate] at h
  norm_num at h ⊢
  refine h.trans ?_
  norm_num

end Glimpse.FloatMotion
