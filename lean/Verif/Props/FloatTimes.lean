import Verif.Model.FloatTimes
import Verif.Props.FloatInterp

/-!
C146: datetimes matched in double precision.
-/
set_option autoImplicit false
set_option linter.unusedSimpArgs false
set_option linter.unusedSectionVars false

namespace Glimpse.FloatTimes
open Glimpse.Double Glimpse.FloatInterp

variable {r : ℚ → ℚ}

/-- Less than 2^32 seconds before or after 1970: the years 1834 to 2106. -/
def InRange (t : ℤ) : Prop := |t| < 2 ^ 32 * 10 ^ 6

theorem whole_part (t : ℤ) : ((t / 10 ^ 6 : ℤ) : ℚ) + ((t % 10 ^ 6 : ℤ) : ℚ) / 10 ^ 6 = (t : ℚ) / 10 ^ 6 := by
  have h := Int.mul_ediv_add_emod t (10 ^ 6)
  have h' : (10 ^ 6 : ℚ) * ((t / 10 ^ 6 : ℤ) : ℚ) + ((t % 10 ^ 6 : ℤ) : ℚ) = t := by exact_mod_cast h
  rw [← h']
  field_simp

/-- A timestamp is less than half a microsecond off. -/
theorem timestamp_near (hr : Nearest r) {t : ℤ} (h : InRange t) : |timestamp r t - (t : ℚ) / 10 ^ 6| ≤ 499 / 1000 / 10 ^ 6 := by
  unfold timestamp
  have m0 : (0 : ℚ) ≤ ((t % 10 ^ 6 : ℤ) : ℚ) := by exact_mod_cast Int.emod_nonneg t (by norm_num)
  have m1 : ((t % 10 ^ 6 : ℤ) : ℚ) ≤ 10 ^ 6 := by exact_mod_cast (Int.emod_lt_of_pos t (by norm_num)).le
  have hw := whole_part t
  have ht : |(t : ℚ) / 10 ^ 6| ≤ 2 ^ 32 := by
    rw [abs_div, abs_of_pos (show (0 : ℚ) < 10 ^ 6 by norm_num), div_le_iff₀ (by norm_num)]
    unfold InRange at h
    exact_mod_cast h.le
  generalize ((t / 10 ^ 6 : ℤ) : ℚ) = s at *
  generalize ((t % 10 ^ 6 : ℤ) : ℚ) = m at *
  generalize (t : ℚ) / 10 ^ 6 = T at *
  have f0 : 0 ≤ m / 10 ^ 6 := by positivity
  have f1 : m / 10 ^ 6 ≤ 1 := by rw [div_le_one (by norm_num)]; exact m1
  have n1 := abs_le.1 (hr.near (m / 10 ^ 6))
  rw [abs_of_nonneg f0] at n1
  have n2 := abs_le.1 (hr.near (s + r (m / 10 ^ 6)))
  have T1 := abs_le.1 ht
  have b : |s + r (m / 10 ^ 6)| ≤ 2 ^ 32 + 1 := by
    rw [abs_le]; constructor <;> linarith
  rw [abs_le]
  constructor <;> linarith

/-- C146. The distance of a datetime to itself is zero. -/
theorem distance_self (hr : Nearest r) (t : ℤ) : distance r t t = 0 := by
  unfold distance
  rw [sub_self, r_zero hr, abs_zero]

/-- C146. Distances are within a microsecond, and `2^-53` of themselves. -/
theorem distance_near (hr : Nearest r) {t u : ℤ} (ht : InRange t) (hu : InRange u) :
    |distance r t u - |(t : ℚ) - u| / 10 ^ 6| ≤ 1 / 10 ^ 6 + |(t : ℚ) - u| / 10 ^ 6 / 2 ^ 53 := by
  unfold distance
  have a := timestamp_near hr ht
  have b := timestamp_near hr hu
  have c := hr.near (timestamp r t - timestamp r u)
  have e : |(t : ℚ) - u| / 10 ^ 6 = |(t : ℚ) / 10 ^ 6 - u / 10 ^ 6| := by
    rw [← sub_div, abs_div, abs_of_pos (show (0 : ℚ) < 10 ^ 6 by norm_num)]
  rw [e]
  generalize timestamp r t = T at *
  generalize timestamp r u = U at *
  generalize (t : ℚ) / 10 ^ 6 = t' at *
  generalize (u : ℚ) / 10 ^ 6 = u' at *
  have d : |(T - U) - (t' - u')| ≤ 998 / 1000 / 10 ^ 6 := by
    have := abs_le.1 a
    have := abs_le.1 b
    rw [abs_le]; constructor <;> linarith
  have g : |T - U| ≤ |t' - u'| + 998 / 1000 / 10 ^ 6 := by
    have e2 : T - U = (t' - u') + ((T - U) - (t' - u')) := by ring
    rw [e2]
    exact (abs_add_le _ _).trans (by linarith)
  refine (abs_abs_sub_abs_le _ _).trans ?_
  have e3 : r (T - U) - (t' - u') = (r (T - U) - (T - U)) + ((T - U) - (t' - u')) := by ring
  rw [e3]
  refine (abs_add_le _ _).trans ?_
  linarith

theorem timestamp_lt (hr : Nearest r) {t u : ℤ} (ht : InRange t) (hu : InRange u) (h : t < u) : timestamp r t < timestamp r u := by
  have a := abs_le.1 (timestamp_near hr ht)
  have b := abs_le.1 (timestamp_near hr hu)
  have c : (t : ℚ) + 1 ≤ u := by exact_mod_cast h
  have d : (t : ℚ) / 10 ^ 6 + 1 / 10 ^ 6 ≤ u / 10 ^ 6 := by rw [← add_div]; gcongr
  linarith

/-- C146. Only equal datetimes have distance zero. -/
theorem distance_zero (hr : Nearest r) {t u : ℤ} (ht : InRange t) (hu : InRange u) : distance r t u = 0 ↔ t = u := by
  constructor
  · intro h
    by_contra hne
    have h0 : r (timestamp r t - timestamp r u) = 0 := abs_eq_zero.1 h
    rcases lt_or_gt_of_ne hne with hlt | hlt
    · have h1 := timestamp_lt hr ht hu hlt
      have h2 := r_pos hr (show 0 < -(timestamp r t - timestamp r u) by linarith)
      have h3 := hr.near (timestamp r t - timestamp r u)
      rw [h0, zero_sub, abs_neg] at h3
      have h4 : 0 < |timestamp r t - timestamp r u| := abs_pos.2 (by linarith)
      linarith [show |timestamp r t - timestamp r u| / 2 ^ 53 ≤ |timestamp r t - timestamp r u| / 2 from by gcongr; norm_num]
    · have h1 := timestamp_lt hr hu ht hlt
      have h2 := r_pos hr (show 0 < timestamp r t - timestamp r u by linarith)
      linarith
  · rintro rfl
    exact distance_self hr t

theorem timestamp_mono (hr : Nearest r) {t u : ℤ} (ht : InRange t) (hu : InRange u) (h : t ≤ u) : timestamp r t ≤ timestamp r u := by
  rcases lt_or_eq_of_le h with h | rfl
  · exact (timestamp_lt hr ht hu h).le
  · exact le_rfl

/-- C146. Distances do not decrease away from a datetime, in either direction. -/
theorem distance_mono (hr : Nearest r) {t u v : ℤ} (ht : InRange t) (hu : InRange u) (hv : InRange v)
    (h : t ≤ u ∧ u ≤ v ∨ v ≤ u ∧ u ≤ t) : distance r t u ≤ distance r t v := by
  unfold distance
  rcases h with ⟨h1, h2⟩ | ⟨h1, h2⟩
  · have a := timestamp_mono hr ht hu h1
    have b := timestamp_mono hr hu hv h2
    rw [abs_of_nonpos (r_nonpos hr (by linarith)), abs_of_nonpos (r_nonpos hr (by linarith))]
    exact neg_le_neg (hr.mono _ _ (by linarith))
  · have a := timestamp_mono hr hv hu h1
    have b := timestamp_mono hr hu ht h2
    rw [abs_of_nonneg (r_nonneg hr (by linarith)), abs_of_nonneg (r_nonneg hr (by linarith))]
    exact hr.mono _ _ (by linarith)

theorem int_double {n : ℤ} (h : |n| < 2 ^ 53) : IsDouble (n : ℚ) := ⟨n, 0, h, by simp⟩

theorem timestamp_second (hr : Nearest r) {s : ℤ} (h : |s| < 2 ^ 52) : timestamp r (s * 10 ^ 6) = s := by
  unfold timestamp
  rw [Int.mul_ediv_cancel _ (by norm_num), Int.mul_emod_left]
  simp only [Int.cast_zero, zero_div, r_zero hr, add_zero]
  exact hr.exact _ (int_double (by linarith [show (2 : ℤ) ^ 52 < 2 ^ 53 by norm_num]))

/-- C146. Datetimes of whole seconds have their exact distance. -/
theorem distance_seconds (hr : Nearest r) {s v : ℤ} (hs : |s| < 2 ^ 52) (hv : |v| < 2 ^ 52) :
    distance r (s * 10 ^ 6) (v * 10 ^ 6) = |(s : ℚ) - v| := by
  unfold distance
  rw [timestamp_second hr hs, timestamp_second hr hv]
  have e : (s : ℚ) - v = ((s - v : ℤ) : ℚ) := by push_cast; ring
  rw [e, hr.exact _ (int_double ?_)]
  have := abs_lt.1 hs
  have := abs_lt.1 hv
  rw [abs_lt]
  constructor <;> linarith [show (2 : ℤ) ^ 52 + 2 ^ 52 = 2 ^ 53 by norm_num]

theorem argMinAux_spec : ∀ (ys pre : List ℚ) (i : Nat) (x : ℚ), pre[i]? = some x → (∀ d ∈ pre, x ≤ d) → (∀ k < i, ∀ d, pre[k]? = some d → x < d) →
    (pre ++ ys)[(argMinAux i x pre.length ys).1]? = some (argMinAux i x pre.length ys).2 ∧
    (∀ d ∈ pre ++ ys, (argMinAux i x pre.length ys).2 ≤ d) ∧
    ∀ k < (argMinAux i x pre.length ys).1, ∀ d, (pre ++ ys)[k]? = some d → (argMinAux i x pre.length ys).2 < d := by
  intro ys
  induction ys with
  | nil => intro pre i x h1 h2 h3; simpa [argMinAux] using ⟨h1, h2, h3⟩
  | cons y ys ih =>
    intro pre i x h1 h2 h3
    have e : pre ++ y :: ys = (pre ++ [y]) ++ ys := by simp
    have hl : (pre ++ [y]).length = pre.length + 1 := by simp
    have hi : i < pre.length := (List.getElem?_eq_some_iff.1 h1).1
    unfold argMinAux
    rw [e]
    split
    · rename_i hy
      rw [← hl]
      refine ih (pre ++ [y]) pre.length y (by simp) ?_ ?_
      · intro d hd
        rcases List.mem_append.1 hd with hd | hd
        · exact hy.le.trans (h2 d hd)
        · rw [List.mem_singleton.1 hd]
      · intro k hk d hd
        rw [List.getElem?_append_left hk] at hd
        exact lt_of_lt_of_le hy (h2 d (List.mem_of_getElem? hd))
    · rename_i hy
      rw [← hl]
      refine ih (pre ++ [y]) i x (by rw [List.getElem?_append_left hi]; exact h1) ?_ ?_
      · intro d hd
        rcases List.mem_append.1 hd with hd | hd
        · exact h2 d hd
        · rw [List.mem_singleton.1 hd]; exact not_lt.1 hy
      · intro k hk d hd
        rw [List.getElem?_append_left (by omega)] at hd
        exact h3 k hk d hd

/-- The result of matching: the first image at the smallest distance, if that is at most the maximum. -/
theorem match_spec (r : ℚ → ℚ) (times : List ℤ) (maxdt t : ℤ) (hne : times ≠ []) :
    ∃ i u, times[i]? = some u ∧ (∀ v ∈ times, distance r t u ≤ distance r t v) ∧
      (∀ k < i, ∀ v, times[k]? = some v → distance r t u < distance r t v) ∧
      matchR r times maxdt t = .ok (if distance r t u > |totalSeconds r maxdt| then none else some i) := by
  obtain ⟨v0, l, rfl⟩ := List.exists_cons_of_ne_nil hne
  have h := argMinAux_spec (l.map (distance r t)) [distance r t v0] 0 (distance r t v0) rfl (by simp) (by simp)
  simp only [List.length_singleton, List.singleton_append] at h
  rw [← List.map_cons] at h
  obtain ⟨h1, h2, h3⟩ := h
  generalize eb : argMinAux 0 (distance r t v0) 1 (l.map (distance r t)) = best at *
  rw [List.getElem?_map, Option.map_eq_some_iff] at h1
  obtain ⟨u, hu, e⟩ := h1
  refine ⟨best.1, u, hu, ?_, ?_, ?_⟩
  · intro v hv
    rw [e]
    exact h2 _ (List.mem_map.2 ⟨v, hv, rfl⟩)
  · intro k hk v hv
    rw [e]
    exact h3 k hk _ (by rw [List.getElem?_map, hv]; rfl)
  · unfold matchR
    simp only [List.map_cons, eb, e]

/-- C146. A datetime that is the time of an image is matched to the first image of that time, whatever the maximum; with a maximum of zero, no other
datetime is matched. -/
theorem match_equal (hr : Nearest r) (times : List ℤ) (maxdt t : ℤ) (ht : InRange t) (hts : ∀ u ∈ times, InRange u) (hmem : t ∈ times) :
    matchR r times maxdt t = .ok (some (times.idxOf t)) := by
  obtain ⟨i, u, hu, h1, h2, h3⟩ := match_spec r times maxdt t (List.ne_nil_of_mem hmem)
  have h0 := h1 t hmem
  rw [distance_self hr] at h0
  have hz : distance r t u = 0 := le_antisymm h0 (abs_nonneg _)
  have e := (distance_zero hr ht (hts u (List.mem_of_getElem? hu))).1 hz
  subst e
  rw [h3, hz, if_neg (not_lt.2 (abs_nonneg _))]
  congr 2
  have hi := List.getElem?_eq_some_iff.1 hu
  have hle : ¬ times.idxOf t < i := by
    intro hlt
    have hx : times[times.idxOf t]? = some t := by
      rw [List.getElem?_eq_getElem (List.idxOf_lt_length_of_mem hmem)]
      simp
    have := h2 _ hlt t hx
    exact lt_irrefl _ this
  have hge : ¬ i < times.idxOf t := by
    intro hlt
    have := List.not_of_lt_findIdx (p := (· == t)) (xs := times) hlt
    simp [hi.2] at this
  omega

theorem match_zero (hr : Nearest r) (times : List ℤ) (t : ℤ) (ht : InRange t) (hts : ∀ u ∈ times, InRange u) (hne : times ≠ []) (hmem : t ∉ times) :
    matchR r times 0 t = .ok none := by
  obtain ⟨i, u, hu, -, -, h3⟩ := match_spec r times 0 t hne
  have hum := List.mem_of_getElem? hu
  have hz : distance r t u ≠ 0 := fun c => hmem ((distance_zero hr ht (hts u hum)).1 c ▸ hum)
  have hp : 0 < distance r t u := lt_of_le_of_ne (abs_nonneg _) (Ne.symm hz)
  rw [h3, if_pos]
  unfold totalSeconds
  simpa [r_zero hr] using hp

/-- C146. Datetimes and images at whole seconds, and a maximum of whole seconds: the first of the nearest images, if it is not further than the maximum. -/
theorem match_seconds (hr : Nearest r) (ss : List ℤ) (m s : ℤ) (hs : |s| < 2 ^ 52) (hss : ∀ v ∈ ss, |v| < 2 ^ 52) (hm : |m| < 2 ^ 52) (hne : ss ≠ []) :
    ∃ i v, ss[i]? = some v ∧ (∀ w ∈ ss, |s - v| ≤ |s - w|) ∧ (∀ k < i, ∀ w, ss[k]? = some w → |s - v| < |s - w|) ∧
      matchR r (ss.map (· * 10 ^ 6)) (m * 10 ^ 6) (s * 10 ^ 6) = .ok (if |s - v| > |m| then none else some i) := by
  obtain ⟨i, u, hu, h1, h2, h3⟩ := match_spec r (ss.map (· * 10 ^ 6)) (m * 10 ^ 6) (s * 10 ^ 6) (by simpa using hne)
  rw [List.getElem?_map, Option.map_eq_some_iff] at hu
  obtain ⟨v, hv, rfl⟩ := hu
  have hd : ∀ w ∈ ss, distance r (s * 10 ^ 6) (w * 10 ^ 6) = ((|s - w| : ℤ) : ℚ) := by
    intro w hw
    rw [distance_seconds hr hs (hss w hw)]
    push_cast
    rfl
  have hvm := List.mem_of_getElem? hv
  refine ⟨i, v, hv, ?_, ?_, ?_⟩
  · intro w hw
    have := h1 _ (List.mem_map.2 ⟨w, hw, rfl⟩)
    rw [hd v hvm, hd w hw] at this
    exact_mod_cast this
  · intro k hk w hw
    have := h2 k hk (w * 10 ^ 6) (by rw [List.getElem?_map, hw]; rfl)
    rw [hd v hvm, hd w (List.mem_of_getElem? hw)] at this
    exact_mod_cast this
  · rw [h3, hd v hvm]
    have e : |totalSeconds r (m * 10 ^ 6)| = ((|m| : ℤ) : ℚ) := by
      unfold totalSeconds
      have : ((m * 10 ^ 6 : ℤ) : ℚ) / 10 ^ 6 = (m : ℚ) := by push_cast; field_simp; norm_num
      rw [this, hr.exact _ (int_double (by linarith [show (2 : ℤ) ^ 52 < 2 ^ 53 by norm_num]))]
      push_cast
      rfl
    rw [e]
    congr 2
    simp only [gt_iff_lt, Int.cast_lt]

/-- C146. A matched image is not further than the maximum by more than about a microsecond. -/
theorem match_near (hr : Nearest r) (times : List ℤ) (maxdt t : ℤ) (ht : InRange t) (hts : ∀ u ∈ times, InRange u) (i : Nat)
    (h : matchR r times maxdt t = .ok (some i)) :
    ∃ u, times[i]? = some u ∧ (∀ v ∈ times, |(t : ℚ) - u| / 10 ^ 6 * (1 - 1 / 2 ^ 53) ≤ |(t : ℚ) - v| / 10 ^ 6 * (1 + 1 / 2 ^ 53) + 2 / 10 ^ 6) ∧
      |(t : ℚ) - u| / 10 ^ 6 * (1 - 1 / 2 ^ 53) ≤ |(maxdt : ℚ)| / 10 ^ 6 * (1 + 1 / 2 ^ 53) + 1 / 10 ^ 6 := by
  have hne : times ≠ [] := by
    rintro rfl
    cases h
  obtain ⟨j, u, hu, h1, -, h3⟩ := match_spec r times maxdt t hne
  rw [h] at h3
  split at h3
  · cases h3
  · rename_i hle
    obtain rfl : i = j := by simpa using h3
    have a := abs_le.1 (distance_near hr ht (hts u (List.mem_of_getElem? hu)))
    refine ⟨u, hu, ?_, ?_⟩
    · intro v hv
      have b := abs_le.1 (distance_near hr ht (hts v hv))
      linarith [h1 v hv]
    · have c : |totalSeconds r maxdt| ≤ |(maxdt : ℚ)| / 10 ^ 6 * (1 + 1 / 2 ^ 53) := by
        unfold totalSeconds
        have e : |(maxdt : ℚ) / 10 ^ 6| = |(maxdt : ℚ)| / 10 ^ 6 := by rw [abs_div, abs_of_pos (show (0 : ℚ) < 10 ^ 6 by norm_num)]
        have n := hr.near ((maxdt : ℚ) / 10 ^ 6)
        have e2 : r ((maxdt : ℚ) / 10 ^ 6) = (maxdt : ℚ) / 10 ^ 6 + (r ((maxdt : ℚ) / 10 ^ 6) - (maxdt : ℚ) / 10 ^ 6) := by ring
        rw [e2]
        refine (abs_add_le _ _).trans ?_
        rw [e] at n ⊢
        linarith
      linarith [not_lt.1 hle]

/-- C146, false: an image 0.2 seconds from a datetime in 2020 is not matched with a maximum of 0.2 seconds. -/
theorem match_maximum_violated : matchR rnd [1600000000 * 10 ^ 6] 200000 (1600000000 * 10 ^ 6 + 200000) = .ok none := by
  decide +kernel

/-- C146, false beyond the range: in the year 2242, an image a microsecond away is matched with a maximum of zero. -/
theorem match_future_violated : matchR rnd [2 ^ 33 * 10 ^ 6 + 1] 0 (2 ^ 33 * 10 ^ 6 + 2) = .ok (some 0) := by
  decide +kernel

/-- The hypotheses can be met: three images in 2020. -/
example : matchR rnd [1600000000000000, 1600000000100000, 1600000000200000] 0 1600000000100000 = .ok (some 1) :=
  match_equal rnd_nearest _ 0 _ (by unfold InRange; norm_num) (by simp [InRange]) (by simp)

example : matchR rnd [1600000000000000, 1600000000100000, 1600000000200000] 0 1600000000100001 = .ok none :=
  match_zero rnd_nearest _ _ (by unfold InRange; norm_num) (by simp [InRange]) (by simp) (by simp)

example : ∃ i v, ([1600000000, 1600000010] : List ℤ)[i]? = some v ∧ (∀ w ∈ ([1600000000, 1600000010] : List ℤ), |1600000007 - v| ≤ |1600000007 - w|) ∧
    (∀ k < i, ∀ w, ([1600000000, 1600000010] : List ℤ)[k]? = some w → |1600000007 - v| < |1600000007 - w|) ∧
    matchR rnd (([1600000000, 1600000010] : List ℤ).map (· * 10 ^ 6)) (3 * 10 ^ 6) (1600000007 * 10 ^ 6) =
      .ok (if |1600000007 - v| > |3| then none else some i) :=
  match_seconds rnd_nearest [1600000000, 1600000010] 3 1600000007 (by norm_num) (by simp) (by norm_num) (by simp)

example : matchR rnd [1600000000000000, 1600000000100000] 50000 1600000000100003 = .ok (some 1) := by decide +kernel

example : |distance rnd 1600000000100000 1600000000000000 - |((1600000000100000 : ℤ) : ℚ) - (1600000000000000 : ℤ)| / 10 ^ 6| ≤
    1 / 10 ^ 6 + |((1600000000100000 : ℤ) : ℚ) - (1600000000000000 : ℤ)| / 10 ^ 6 / 2 ^ 53 :=
  distance_near rnd_nearest (by unfold InRange; norm_num) (by unfold InRange; norm_num)

/-- C146. Without images. -/
theorem match_none (r : ℚ → ℚ) (maxdt t : ℤ) : matchR r [] maxdt t = .error .valueError := rfl

end Glimpse.FloatTimes
