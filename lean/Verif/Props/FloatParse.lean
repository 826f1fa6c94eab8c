import Verif.Model.FloatParse
import Verif.Props.FloatTimes
import Verif.Props.TrackerTimes

/-!
C147: the datetimes to track at, in double precision.
-/
set_option autoImplicit false
set_option linter.unusedSimpArgs false
set_option linter.unusedSectionVars false

namespace Glimpse.FloatTimes
open Glimpse.Double Glimpse.FloatInterp

variable {r : ℚ → ℚ}

theorem foldl_min_le (d m : ℚ) (l : List ℚ) : l.foldl min d ≤ m ↔ ∃ x ∈ d :: l, x ≤ m := by
  induction l generalizing d with
  | nil => simp
  | cons y l ih =>
    rw [List.foldl_cons, ih]
    simp only [List.mem_cons, exists_eq_or_imp, min_le_iff, or_assoc]

theorem keep_iff (r : ℚ → ℚ) (times : List ℤ) (maxdt t : ℤ) :
    keepR r times maxdt t = true ↔ ∃ u ∈ times, distance r t u ≤ |totalSeconds r maxdt| := by
  have h : keepR r times maxdt t = true ↔ ∃ x ∈ times.map (distance r t), x ≤ |totalSeconds r maxdt| := by
    unfold keepR
    cases times.map (distance r t) with
    | nil => simp
    | cons d l => simp only [decide_eq_true_eq]; exact foldl_min_le _ _ _
  rw [h]
  simp

theorem mem_all (obs : List (List ℤ)) (u : ℤ) : u ∈ Tracker.allTimes obs ↔ ∃ o ∈ obs, u ∈ o := by
  unfold Tracker.allTimes
  simp

/-- A datetime is matched to some image iff one is at most the maximum away. -/
theorem match_some_iff (r : ℚ → ℚ) (times : List ℤ) (maxdt t : ℤ) :
    (∃ i, matchR r times maxdt t = .ok (some i)) ↔ ∃ u ∈ times, distance r t u ≤ |totalSeconds r maxdt| := by
  by_cases hne : times = []
  · subst hne
    simp [matchR]
  · obtain ⟨i, u, hu, h1, -, h3⟩ := match_spec r times maxdt t hne
    rw [h3]
    constructor
    · rintro ⟨j, hj⟩
      split at hj
      · cases hj
      · rename_i h
        exact ⟨u, List.mem_of_getElem? hu, not_lt.1 h⟩
    · rintro ⟨v, hv, h⟩
      exact ⟨i, by rw [if_neg (not_lt.2 ((h1 v hv).trans h))]⟩

/-- C147. The datetimes returned are those given (once each, in order) that `match_datetimes` matches to an image of some observer. -/
theorem parse_matches (r : ℚ → ℚ) (obs : List (List ℤ)) (ts : List ℤ) (maxdt : ℤ) (out : List ℤ) (h : parseR r obs ts maxdt = .ok out) :
    (out.Pairwise (· < ·) ∨ out.Pairwise (fun a b => b < a)) ∧ out.Sublist ts ∧ 2 ≤ out.length ∧
      ∀ t, t ∈ out ↔ t ∈ ts ∧ ∃ o ∈ obs, ∃ i, matchR r o maxdt t = .ok (some i) := by
  unfold parseR at h
  split at h
  · cases h
  rename_i hm
  have hm' := (Tracker.isMonotonic_iff ts).mp (by simpa using hm)
  split at h
  · cases h
  simp only at h
  split at h
  · cases h
  rename_i hlen
  cases h
  refine ⟨?_, List.filter_sublist.trans (Tracker.dropRepeats_sublist ts), by omega, ?_⟩
  · rcases hm' with hm' | hm'
    · left
      exact (Tracker.dropRepeats_strict (· ≤ ·) (· < ·) (fun a b h1 h2 => lt_of_le_of_ne h1 h2)
        (fun a b c h1 h2 => lt_of_lt_of_le h1 h2) ts hm').filter _
    · right
      exact (Tracker.dropRepeats_strict (fun a b => b ≤ a) (fun a b => b < a)
        (fun a b h1 h2 => lt_of_le_of_ne h1 (Ne.symm h2))
        (fun a b c h1 h2 => lt_of_le_of_lt h2 h1) ts hm').filter _
  · intro t
    rw [List.mem_filter, Tracker.mem_dropRepeats, keep_iff]
    refine and_congr_right fun _ => ?_
    constructor
    · rintro ⟨u, hu, hd⟩
      obtain ⟨o, ho, huo⟩ := (mem_all obs u).1 hu
      exact ⟨o, ho, (match_some_iff r o maxdt t).2 ⟨u, huo, hd⟩⟩
    · rintro ⟨o, ho, hi⟩
      obtain ⟨u, hu, hd⟩ := (match_some_iff r o maxdt t).1 hi
      exact ⟨u, (mem_all obs u).2 ⟨o, ho, hu⟩, hd⟩

theorem parse_congr (obs : List (List ℤ)) (ts : List ℤ) (maxdt : ℤ)
    (h : ∀ t ∈ ts, (∃ u ∈ Tracker.allTimes obs, distance r t u ≤ |totalSeconds r maxdt|) ↔ ∃ u ∈ Tracker.allTimes obs, |t - u| ≤ |maxdt|) :
    parseR r obs ts maxdt = Tracker.parseDatetimes obs ts maxdt := by
  unfold parseR Tracker.parseDatetimes
  have e : (Tracker.dropRepeats ts).filter (keepR r (Tracker.allTimes obs) maxdt) =
      (Tracker.dropRepeats ts).filter (Tracker.matchesAny (Tracker.allTimes obs) maxdt) := by
    apply List.filter_congr
    intro t ht
    rw [Tracker.mem_dropRepeats] at ht
    rw [Bool.eq_iff_iff, keep_iff, h t ht, Tracker.matchesAny_iff]
    constructor
    · rintro ⟨u, hu, hd⟩
      obtain ⟨o, ho, huo⟩ := (mem_all obs u).1 hu
      exact ⟨o, ho, u, huo, hd⟩
    · rintro ⟨o, ho, u, huo, hd⟩
      exact ⟨u, (mem_all obs u).2 ⟨o, ho, huo⟩, hd⟩
  rw [e]

/-- C147. With the default maximum of zero, the result (or error) is the one of exact arithmetic. -/
theorem parse_zero (hr : Nearest r) (obs : List (List ℤ)) (ts : List ℤ) (hts : ∀ t ∈ ts, InRange t) (hobs : ∀ o ∈ obs, ∀ u ∈ o, InRange u) :
    parseR r obs ts 0 = Tracker.parseDatetimes obs ts 0 := by
  refine parse_congr obs ts 0 fun t ht => exists_congr fun u => and_congr_right fun hu => ?_
  obtain ⟨o, ho, huo⟩ := (mem_all obs u).1 hu
  have hz : totalSeconds r 0 = 0 := by unfold totalSeconds; simp [r_zero hr]
  rw [hz, abs_zero, abs_zero]
  have h0 := distance_zero hr (hts t ht) (hobs o ho u huo)
  constructor
  · intro h
    rw [h0.1 (le_antisymm h (abs_nonneg _)), sub_self, abs_zero]
  · intro h
    rw [h0.2 (by linarith [abs_eq_zero.1 (le_antisymm h (abs_nonneg _))])]

/-- C147. So it is if all datetimes, and the maximum, are whole seconds. -/
theorem parse_seconds (hr : Nearest r) (obs : List (List ℤ)) (ss : List ℤ) (m : ℤ) (hss : ∀ s ∈ ss, |s| < 2 ^ 52)
    (hobs : ∀ o ∈ obs, ∀ u ∈ o, ∃ v : ℤ, |v| < 2 ^ 52 ∧ u = v * 10 ^ 6) (hm : |m| < 2 ^ 52) :
    parseR r obs (ss.map (· * 10 ^ 6)) (m * 10 ^ 6) = Tracker.parseDatetimes obs (ss.map (· * 10 ^ 6)) (m * 10 ^ 6) := by
  refine parse_congr obs _ _ fun t ht => exists_congr fun u => and_congr_right fun hu => ?_
  obtain ⟨s, hs, rfl⟩ := List.mem_map.1 ht
  obtain ⟨o, ho, huo⟩ := (mem_all obs u).1 hu
  obtain ⟨v, hv, rfl⟩ := hobs o ho u huo
  rw [distance_seconds hr (hss s hs) hv]
  have e : |totalSeconds r (m * 10 ^ 6)| = ((|m| : ℤ) : ℚ) := by
    unfold totalSeconds
    have : ((m * 10 ^ 6 : ℤ) : ℚ) / 10 ^ 6 = (m : ℚ) := by push_cast; field_simp; norm_num
    rw [this, hr.exact _ (int_double (by linarith [show (2 : ℤ) ^ 52 < 2 ^ 53 by norm_num]))]
    push_cast
    rfl
  have e2 : |(s : ℚ) - v| = ((|s - v| : ℤ) : ℚ) := by push_cast; rfl
  rw [e, e2, ← sub_mul, abs_mul, abs_mul, Int.cast_le, abs_of_pos (show (0 : ℤ) < 10 ^ 6 by norm_num)]
  exact (mul_le_mul_iff_left₀ (by norm_num)).symm

/-- C147. A datetime that is the time of an image is kept, whatever the maximum. -/
theorem parse_keeps (hr : Nearest r) (obs : List (List ℤ)) (ts : List ℤ) (maxdt : ℤ) (out : List ℤ) (h : parseR r obs ts maxdt = .ok out) (t : ℤ) (ht : t ∈ ts)
    (o : List ℤ) (ho : o ∈ obs) (hto : t ∈ o) : t ∈ out := by
  refine ((parse_matches r obs ts maxdt out h).2.2.2 t).2 ⟨ht, o, ho, ?_⟩
  exact (match_some_iff r o maxdt t).2 ⟨t, hto, by rw [distance_self hr]; exact abs_nonneg _⟩

/-- C147, false: with exact arithmetic, a datetime in 2020 that is 0.2 seconds from an image is kept with a maximum of 0.2 seconds; rounding drops it. -/
theorem parse_maximum_violated :
    Tracker.parseDatetimes [[1600000000 * 10 ^ 6, 1600000001 * 10 ^ 6]] [1600000000 * 10 ^ 6 + 200000, 1600000001 * 10 ^ 6] 200000 =
      .ok [1600000000 * 10 ^ 6 + 200000, 1600000001 * 10 ^ 6] ∧
    parseR rnd [[1600000000 * 10 ^ 6, 1600000001 * 10 ^ 6]] [1600000000 * 10 ^ 6 + 200000, 1600000001 * 10 ^ 6] 200000 = .error .valueError := by
  decide +kernel

/-- The hypotheses can be met: four datetimes, two observers. -/
example : parseR rnd [[1600000000100000, 1600000000200000], [1600000000300000]] [1600000000100000, 1600000000150000, 1600000000150000, 1600000000300000] 0 =
    .ok [1600000000100000, 1600000000300000] := by
  rw [parse_zero rnd_nearest _ _ (by simp [InRange]) (by simp [InRange])]
  decide +kernel

example : parseR rnd [[3 * 10 ^ 6], [9 * 10 ^ 6]] (([2, 3, 6, 9] : List ℤ).map (· * 10 ^ 6)) (1 * 10 ^ 6) =
    .ok [2 * 10 ^ 6, 3 * 10 ^ 6, 9 * 10 ^ 6] := by
  rw [parse_seconds rnd_nearest _ _ _ (by simp) ?_ (by norm_num)]
  · decide +kernel
  · intro o ho u hu
    simp only [List.mem_cons, List.not_mem_nil, or_false] at ho
    rcases ho with rfl | rfl <;> rw [List.mem_singleton.1 hu]
    · exact ⟨3, by norm_num, rfl⟩
    · exact ⟨9, by norm_num, rfl⟩

end Glimpse.FloatTimes
