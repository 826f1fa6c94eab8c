import Verif.Model.TracksAnimate
import Mathlib.Data.List.GetD
import Mathlib.Data.List.Range
import Mathlib.Tactic.Linarith
import Mathlib.Tactic.NormNum

/-!
C116: the frames of `Tracks.animate`. Each frame should show its own image, the track until then, and velocities as the
displacements until the next frame.
-/
set_option autoImplicit false
set_option linter.unusedSimpArgs false
set_option linter.unusedSectionVars false

namespace Glimpse.TracksAnimate

/-- Spec: time `i` can be shown: it is asked for (or all are), the track has a solution and the observer an image. -/
def Shown (d : Data) (frames : Option (List Nat)) (i : Nat) : Prop :=
  i < d.times.length ∧ (∀ fs, frames = some fs → i ∈ fs) ∧ (∃ m, d.means[i]? = some (some m)) ∧ ∃ j, d.images[i]? = some (some j)

/-- Spec: what should be drawn for time `i` when the next time shown is `j`, with or without particles. -/
def Faithful (d : Data) (i j : Nat) (particles : Bool) (f : Frame) : Prop :=
  d.images[i]? = some (some f.img) ∧ f.track = d.means.take (i + 1) ∧
  ∃ m, d.means[i]? = some (some m) ∧
    f.arrow = (m 3 * ((d.times.getD j 0 - d.times.getD i 0) / d.unit), m 4 * ((d.times.getD j 0 - d.times.getD i 0) / d.unit)) ∧
    (particles = false → f.particles = none) ∧
    (particles = true → ∀ ps l, d.particles = some ps → ps[i]? = some l → f.particles = some (l.map fun p =>
      (p 3 * ((d.times.getD j 0 - d.times.getD i 0) / d.unit), p 4 * ((d.times.getD j 0 - d.times.getD i 0) / d.unit))))

private theorem mem_select (d : Data) (frames : Option (List Nat)) (i : Nat) : i ∈ d.select frames ↔ Shown d frames i := by
  unfold Data.select Shown Data.hasFrame
  rw [List.mem_filter, List.mem_range, Bool.and_eq_true, Bool.and_eq_true]
  have hm : ∀ {α : Type} (l : List (Option α)), (l[i]?.getD none).isSome = true ↔ ∃ m, l[i]? = some (some m) := by
    intro α l
    cases h : l[i]? with
    | none => simp
    | some o => cases o <;> simp
  rw [hm, hm]
  constructor
  · rintro ⟨h1, ⟨h2, h3⟩, h4⟩
    refine ⟨h1, fun fs hfs => ?_, h2, h3⟩
    rw [hfs] at h4
    simpa using h4
  · rintro ⟨h1, h2, h3, h4⟩
    refine ⟨h1, ⟨h3, h4⟩, ?_⟩
    cases frames with
    | none => rfl
    | some fs => simpa using h2 fs rfl

private theorem select_sorted (d : Data) (frames : Option (List Nat)) : (d.select frames).Pairwise (· < ·) :=
  List.Pairwise.filter _ List.pairwise_lt_range

private theorem diffs_length (d : Data) : ∀ sel : List Nat, (d.diffs sel).length = sel.length - 1
  | [] => rfl
  | [_] => rfl
  | i :: j :: sel => by
    unfold Data.diffs
    rw [List.length_cons, diffs_length d (j :: sel)]
    simp

private theorem diffs_get (d : Data) : ∀ (sel : List Nat) (k : Nat), k + 1 < sel.length →
    (d.diffs sel)[k]? = some ((d.times.getD (sel.getD (k + 1) 0) 0 - d.times.getD (sel.getD k 0) 0) / d.unit)
  | [], k, h => absurd h (by simp)
  | [_], k, h => absurd h (by simp)
  | i :: j :: sel, 0, _ => by simp [Data.diffs]
  | i :: j :: sel, k + 1, h => by
    unfold Data.diffs
    rw [List.getElem?_cons_succ, diffs_get d (j :: sel) k (by simpa using h)]
    rfl

private theorem scales_length (d : Data) (p : Bool) (sel : List Nat) : (d.scales p sel).length = sel.length - 1 := by
  unfold Data.scales
  split
  · exact diffs_length d sel
  · simp

/-- C116: the frames are the selected times in increasing order, without the last; no time that can be shown raises. -/
theorem frames_spec (d : Data) (frames : Option (List Nat)) (images particles : Option Bool) :
    ∃ sel : List Nat, sel.Pairwise (· < ·) ∧ (∀ i, i ∈ sel ↔ Shown d frames i) ∧
      (sel = [] → d.animate frames images particles = .error .indexError) ∧
      ∀ fs draw, d.animate frames images particles = .ok (fs, draw) → sel ≠ [] ∧ fs = sel.dropLast := by
  refine ⟨d.select frames, select_sorted d frames, mem_select d frames, fun h => ?_, fun fs draw h => ?_⟩
  · unfold Data.animate
    simp only [h, if_true]
  · unfold Data.animate at h
    simp only at h
    split at h
    · cases h
    · split at h
      · cases h
      · split at h
        · cases h
        · rename_i h1 _ _
          simp only [Except.ok.injEq, Prod.mk.injEq] at h
          exact ⟨h1, h.1.symm⟩

private theorem animate_ok (d : Data) (frames : Option (List Nat)) (images particles : Option Bool) (fs : List Nat)
    (draw : Nat → Except Err Frame) (h : d.animate frames images particles = .ok (fs, draw)) :
    fs = (d.select frames).dropLast ∧
    draw = d.update (particles.getD d.particles.isSome) (d.scales (particles.getD d.particles.isSome) (d.select frames)) := by
  unfold Data.animate at h
  simp only at h
  split at h
  · cases h
  · split at h
    · cases h
    · split at h
      · cases h
      · simp only [Except.ok.injEq, Prod.mk.injEq] at h
        exact ⟨h.1.symm, h.2.symm⟩

private theorem sorted_ge : ∀ (l : List Nat) (b : Nat), (∀ x ∈ l, b ≤ x) → l.Pairwise (· < ·) →
    ∀ k (hk : k < l.length), b + k ≤ l[k]
  | [], b, _, _, k, hk => absurd hk (by simp)
  | x :: l, b, hb, hp, 0, _ => by simpa using hb x List.mem_cons_self
  | x :: l, b, hb, hp, k + 1, hk => by
    have hx := hb x List.mem_cons_self
    have h1 := List.pairwise_cons.1 hp
    have := sorted_ge l (b + 1) (fun y hy => by have := h1.1 y hy; omega) h1.2 k (by simpa using hk)
    simp only [List.getElem_cons_succ]
    omega

private theorem sorted_range (l : List Nat) (hp : l.Pairwise (· < ·)) (hl : ∀ x ∈ l, x < l.length) : l = List.range l.length := by
  refine List.ext_getElem (by simp) fun k hk hk' => ?_
  rw [List.getElem_range]
  have lo := sorted_ge l 0 (fun _ _ => Nat.zero_le _) hp k hk
  have hi : ∀ j, ∀ hj : j < l.length, l[j] + (l.length - 1 - j) ≤ l.length - 1 := by
    intro j hj
    have gap : ∀ m (hm : j + m < l.length), l[j] + m ≤ l[j + m] := by
      intro m
      induction m with
      | zero => intro _; simp
      | succ m ih =>
        intro hm
        have h1 := ih (by omega)
        have h2 := List.pairwise_iff_getElem.1 hp (j + m) (j + m + 1) (by omega) hm (by omega)
        have e : j + (m + 1) = j + m + 1 := rfl
        simp only [e]
        omega
    have h1 := gap (l.length - 1 - j) (by omega)
    have h2 := hl _ (List.getElem_mem (n := j + (l.length - 1 - j)) (by omega))
    omega
  have := hi k hk
  omega

/-- C116, exactly when all frames are drawn: only if they are the first times without a gap (and a tracker is set). -/
theorem draw_iff (d : Data) (frames : Option (List Nat)) (images particles : Option Bool) (fs : List Nat)
    (draw : Nat → Except Err Frame) (h : d.animate frames images particles = .ok (fs, draw)) :
    (∀ i ∈ fs, ∃ f, draw i = .ok f) ↔ (fs = [] ∨ d.tracker = true) ∧ fs = List.range fs.length := by
  obtain ⟨h1, h2⟩ := animate_ok d frames images particles fs draw h
  have hp : fs.Pairwise (· < ·) := by
    rw [h1]; exact (select_sorted d frames).sublist (List.dropLast_sublist _)
  have hlen : (d.scales (particles.getD d.particles.isSome) (d.select frames)).length = fs.length := by
    rw [scales_length, h1, List.length_dropLast]
  have hupd : ∀ i ∈ fs, (∃ f, draw i = .ok f) ↔ i < fs.length ∧ d.tracker = true := by
    intro i hi
    have hs : Shown d frames i := (mem_select d frames i).1 (by rw [h1] at hi; exact List.mem_of_mem_dropLast hi)
    obtain ⟨-, -, ⟨m, hm⟩, ⟨j, hj⟩⟩ := hs
    rw [h2]
    unfold Data.update
    by_cases hi' : i < fs.length
    · rw [List.getElem?_eq_getElem (by rw [hlen]; exact hi')]
      simp only [hm, hj, Option.getD_some]
      cases ht : d.tracker
      · simp
      · simp [hi']
    · rw [List.getElem?_eq_none (by rw [hlen]; omega)]
      simp [hi']
  constructor
  · intro hall
    refine ⟨?_, sorted_range fs hp fun x hx => ((hupd x hx).1 (hall x hx)).1⟩
    cases fs with
    | nil => exact .inl rfl
    | cons x fs => exact .inr ((hupd x List.mem_cons_self).1 (hall x List.mem_cons_self)).2
  · rintro ⟨ht, hr⟩ i hi
    refine (hupd i hi).2 ⟨?_, ?_⟩
    · rw [hr] at hi; exact List.mem_range.1 hi
    · rcases ht with ht | ht
      · rw [ht] at hi; cases hi
      · exact ht

/-- C116 (partial: frames that are the first times without a gap): each frame shows its image, the track until then and the mean
velocity as the displacement until the next time shown. -/
theorem draw_partial (d : Data) (ht : d.tracker = true) (frames : Option (List Nat)) (images particles : Option Bool) (fs : List Nat)
    (draw : Nat → Except Err Frame) (h : d.animate frames images particles = .ok (fs, draw)) (hr : fs = List.range fs.length) :
    ∀ i ∈ fs, ∃ f j, draw i = .ok f ∧ Faithful d i j (particles.getD d.particles.isSome) f ∧ Shown d frames j ∧ i < j ∧ ∀ k, i < k → k < j → ¬ Shown d frames k := by
  obtain ⟨h1, h2⟩ := animate_ok d frames images particles fs draw h
  have hs := select_sorted d frames
  have hlen : fs.length = (d.select frames).length - 1 := by rw [h1, List.length_dropLast]
  intro i hi
  have hi' : i < fs.length := by rw [hr] at hi; exact List.mem_range.1 hi
  have hsi : Shown d frames i := (mem_select d frames i).1 (by rw [h1] at hi; exact List.mem_of_mem_dropLast hi)
  obtain ⟨-, -, ⟨m, hm⟩, ⟨im, hj⟩⟩ := hsi
  have hi1 : i + 1 < (d.select frames).length := by omega
  have hget : (d.select frames)[i] = i := by
    have e1 : fs[i]'hi' = i := by
      have : fs[i]? = (List.range fs.length)[i]? := by rw [← hr]
      rw [List.getElem?_eq_getElem hi', List.getElem?_range hi'] at this
      exact Option.some.inj this
    have e2 : fs[i]? = (d.select frames)[i]? := by
      rw [h1, List.dropLast_eq_take, List.getElem?_take_of_lt (by omega)]
    rw [List.getElem?_eq_getElem hi', List.getElem?_eq_getElem (by omega), e1] at e2
    exact (Option.some.inj e2).symm
  have hsc := diffs_get d (d.select frames) i hi1
  rw [List.getD_eq_getElem _ _ hi1, List.getD_eq_getElem _ _ (by omega : i < _), hget] at hsc
  have hscale : (d.scales (particles.getD d.particles.isSome) (d.select frames))[i]? =
      some ((d.times.getD (d.select frames)[i + 1] 0 - d.times.getD i 0) / d.unit) := by
    unfold Data.scales
    rw [ht, Bool.or_true, if_pos rfl]
    exact hsc
  refine ⟨⟨im, d.means.take (i + 1), tip m ((d.times.getD (d.select frames)[i + 1] 0 - d.times.getD i 0) / d.unit),
      if particles.getD d.particles.isSome then (d.particles.bind fun ps => ps[i]?).map fun l =>
        l.map fun p => tip p ((d.times.getD (d.select frames)[i + 1] 0 - d.times.getD i 0) / d.unit) else none⟩,
    (d.select frames)[i + 1], ?_, ⟨hj, rfl, m, hm, rfl, fun hp => by simp only [hp]; rfl, fun hp ps l h1 h2 => by
      rw [h1] at hp; simp only [h1, hp, Option.bind_some, h2, Option.map_some, if_true]; rfl⟩, (mem_select d frames _).1 (List.getElem_mem _), ?_, ?_⟩
  · rw [h2]
    unfold Data.update
    rw [hscale]
    simp only [ht, hm, hj, Option.getD_some, if_true]
  · have := List.pairwise_iff_getElem.1 hs i (i + 1) (by omega) hi1 (by omega)
    omega
  · intro k hk1 hk2 hk
    obtain ⟨q, hq, e⟩ := List.mem_iff_getElem.1 ((mem_select d frames k).2 hk)
    rcases Nat.lt_trichotomy q i with hqi | hqi | hqi
    · have := List.pairwise_iff_getElem.1 hs q i hq (by omega) hqi
      omega
    · subst hqi; omega
    · rcases Nat.lt_or_ge (i + 1) q with hqj | hqj
      · have := List.pairwise_iff_getElem.1 hs (i + 1) q hi1 hq hqj
        omega
      · have : q = i + 1 := by omega
        subst this
        omega

/-- C116 fails whenever a time before the last frame cannot be shown or is not asked for: the last frame raises. -/
theorem draw_gap_violated (d : Data) (frames : Option (List Nat)) (images particles : Option Bool) (fs : List Nat)
    (draw : Nat → Except Err Frame) (h : d.animate frames images particles = .ok (fs, draw)) (hr : fs ≠ List.range fs.length) :
    ∃ i ∈ fs, ∃ e, draw i = .error e := by
  by_contra hc
  have : ∀ i ∈ fs, ∃ f, draw i = .ok f := by
    intro i hi
    cases hd : draw i with
    | ok f => exact ⟨f, rfl⟩
    | error e => exact absurd ⟨i, hi, e, hd⟩ hc
  exact hr ((draw_iff d frames images particles fs draw h).1 this).2

/-- C116 fails without a tracker: every frame raises. -/
theorem draw_tracker_violated (d : Data) (ht : d.tracker = false) (frames : Option (List Nat)) (images particles : Option Bool)
    (fs : List Nat) (draw : Nat → Except Err Frame) (h : d.animate frames images particles = .ok (fs, draw)) (i : Nat) :
    ∃ e, draw i = .error e := by
  obtain ⟨h1, h2⟩ := animate_ok d frames images particles fs draw h
  rw [h2]
  unfold Data.update
  cases (d.scales (particles.getD d.particles.isSome) (d.select frames))[i]? with
  | none => exact ⟨_, rfl⟩
  | some k => simp [ht]

/-- A track of five times, the first of them without a solution, images at all; unit velocities. -/
def late : Data :=
  ⟨[0, 1, 2, 10, 11], 1, [none, some fun _ => 1, some fun _ => 1, some fun _ => 1, some fun _ => 1], [some 0, some 1, some 2, some 3, some 4], true, none⟩

/-- C116 fails also for frames that are drawn: with the first time missing, the velocity at time 1 (one unit until the next frame) is
drawn as eight units, the interval of the frame after it; the last frame raises. -/
theorem draw_scale_violated : ∃ fs draw, late.animate none none none = .ok (fs, draw) ∧ fs = [1, 2, 3] ∧
    (∃ f, draw 1 = .ok f ∧ f.arrow = (8, 8) ∧ ∀ f', Faithful late 1 2 false f' → f'.arrow = (1, 1)) ∧ draw 3 = .error .indexError := by
  have h : ∃ fs draw, late.animate none none none = .ok (fs, draw) := ⟨_, _, rfl⟩
  obtain ⟨fs, draw, h⟩ := h
  obtain ⟨h1, h2⟩ := animate_ok late none none none fs draw h
  have e1 : fs = [1, 2, 3] := by rw [h1]; decide +kernel
  refine ⟨fs, draw, h, e1, ⟨⟨1, late.means.take 2, (8, 8), none⟩, ?_, rfl, ?_⟩, ?_⟩
  · rw [h2]
    decide +kernel
  · rintro f' ⟨-, -, m, hm, ha, -⟩
    rw [ha]
    have : m = fun _ => 1 := by
      simp only [late] at hm
      exact (Option.some.inj (Option.some.inj hm)).symm
    subst this
    norm_num [late]
  · rw [h2]
    decide +kernel

/-- A case of the partial theorem: all times have solutions and images. -/
example : ∃ fs draw, (⟨[0, 1, 3], 1, [some fun _ => 1, some fun _ => 1, some fun _ => 1], [some 0, some 1, some 2], true, none⟩ : Data).animate
    none none none = .ok (fs, draw) ∧ fs = List.range fs.length ∧ fs.length = 2 := by
  refine ⟨_, _, rfl, ?_, ?_⟩ <;> decide +kernel

end Glimpse.TracksAnimate
