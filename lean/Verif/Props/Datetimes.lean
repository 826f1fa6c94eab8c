import Verif.Model.Datetimes
import Verif.Props.SortedNearest
import Verif.Lemmas.ExceptList
import Mathlib.Tactic.Linarith
import Mathlib.Tactic.Ring
import Mathlib.Tactic.Push
import Mathlib.Tactic.NormNum

/-!
C11, C12: `datetime_range`, `select_datetimes`.
-/
set_option autoImplicit false
set_option linter.unusedSimpArgs false

namespace Glimpse

/-- C12. For a positive step the result is strictly increasing and contains exactly the `start + k * step`, `k ≥ 0`,
that are at most `stop`. -/
theorem datetime_range_exact (start stop step : ℤ) (h : 0 < step) :
    ∃ l, datetimeRange start stop step = .ok l ∧ l.Pairwise (· < ·) ∧
      ∀ t, t ∈ l ↔ t ≤ stop ∧ ∃ k : ℕ, t = start + k * step := by
  have hfd : Int.fdiv (stop - start) step = (stop - start) / step := Int.fdiv_eq_ediv_of_nonneg _ h.le
  refine ⟨(List.range ((stop - start) / step + 1).toNat).map fun n : Nat => start + (n : ℤ) * step, ?_, ?_, ?_⟩
  · unfold datetimeRange
    rw [if_neg (by omega)]
    simp only [hfd]
  · rw [List.pairwise_map]
    refine List.pairwise_lt_range.imp ?_
    intro a b hab
    have : (a : ℤ) < b := by exact_mod_cast hab
    nlinarith
  · intro t
    rw [List.mem_map]
    have e := Int.emod_add_mul_ediv (stop - start) step
    have e1 := Int.emod_nonneg (stop - start) (by omega : step ≠ 0)
    have e2 := Int.emod_lt_of_pos (stop - start) h
    constructor
    · rintro ⟨k, hk, rfl⟩
      rw [List.mem_range] at hk
      refine ⟨?_, k, rfl⟩
      have : (k : ℤ) ≤ (stop - start) / step := by omega
      nlinarith
    · rintro ⟨hle, k, rfl⟩
      refine ⟨k, ?_, rfl⟩
      rw [List.mem_range]
      by_contra hc
      have : (stop - start) / step + 1 ≤ (k : ℤ) := by omega
      nlinarith

/-- C12 (error). A zero step raises. -/
theorem datetime_range_zero_step (start stop : ℤ) : datetimeRange start stop 0 = .error .zeroDivision := rfl

example : datetimeRange 0 7 3 = .ok [0, 3, 6] := by decide
example : datetimeRange 0 6 3 = .ok [0, 3, 6] := by decide
example : datetimeRange 5 4 3 = .ok [] := by decide

/-! ### select_datetimes -/

/-- Spec: `t` respects the bounds that were given. -/
def InGivenRange (start stop : Option ℤ) (t : ℤ) : Prop := (∀ s ∈ start, s ≤ t) ∧ (∀ e ∈ stop, t ≤ e)

private theorem inRangeMask_iff (ts : List ℤ) (start stop : Option ℤ) (i : Nat) (hi : i < ts.length) :
    (inRangeMask ts start stop)[i]? = some true ↔ InGivenRange start stop ts[i] := by
  unfold inRangeMask InGivenRange
  rw [List.getElem?_map, List.getElem?_eq_getElem hi]
  cases start <;> cases stop <;> simp

/-- C11 (no snap). Without a snap interval (or with a zero one) exactly the datetimes within the given bounds are
selected; the call raises iff the effective bounds are inverted. -/
theorem select_datetimes_range (ts : List ℤ) (first last : ℤ) (hf : ts.head? = some first)
    (hl : ts.getLast? = some last) (start stop maxdt : Option ℤ) (origin : ℤ) :
    (stop.getD last < start.getD first → selectDatetimes ts start stop none maxdt origin = .error .valueError) ∧
    (start.getD first ≤ stop.getD last → ∃ mask, selectDatetimes ts start stop none maxdt origin = .ok mask ∧
      mask.length = ts.length ∧
      ∀ i (hi : i < ts.length), mask[i]? = some true ↔ InGivenRange start stop ts[i]) := by
  have hform : selectDatetimes ts start stop none maxdt origin =
      if stop.getD last < start.getD first then .error .valueError else .ok (inRangeMask ts start stop) := by
    unfold selectDatetimes
    simp only [hf, hl, bind, Except.bind]
    cases start <;> cases stop <;> simp [throw, throwThe, MonadExceptOf.throw, pure, Except.pure]
  constructor
  · intro h; rw [hform, if_pos h]
  · intro h
    refine ⟨inRangeMask ts start stop, by rw [hform, if_neg (not_lt.mpr h)], by simp [inRangeMask], ?_⟩
    intro i hi
    exact inRangeMask_iff ts start stop i hi

private theorem foldl_setTrue (l : List ℤ) (m : List Bool) (h : ∀ i ∈ l, 0 ≤ i) :
    (l.foldl setTrue m).length = m.length ∧
      ∀ i : Nat, i < m.length → ((l.foldl setTrue m)[i]? = some true ↔ m[i]? = some true ∨ (i : ℤ) ∈ l) := by
  induction l generalizing m with
  | nil => simp
  | cons a l ih =>
    obtain ⟨h1, h2⟩ := ih (setTrue m a) (fun i hi => h i (List.mem_cons_of_mem _ hi))
    have hlen : (setTrue m a).length = m.length := by simp [setTrue]
    refine ⟨by rw [List.foldl_cons, h1, hlen], ?_⟩
    intro i hi
    rw [List.foldl_cons, h2 i (by rw [hlen]; exact hi)]
    have ha := h a List.mem_cons_self
    unfold setTrue
    rw [if_neg (by omega), List.getElem?_set, List.mem_cons]
    by_cases hai : a.toNat = i
    · have : (i : ℤ) = a := by omega
      simp [hai, hi, this]
    · have : ¬ (i : ℤ) = a := by omega
      simp [hai, this]

private theorem pyIndex_nat {α : Type} (x : List α) (i : Nat) (h : i < x.length) :
    pyIndex x (i : ℤ) = .ok x[i] := by
  have h0 : ¬ ((i : ℤ) < 0) := by omega
  have h1 : (0 : ℤ) ≤ i := by omega
  simp [pyIndex, h0, h1, List.getElem?_eq_getElem h]

private theorem cast_abs_le {a b : ℤ} : |(a : ℚ)| ≤ |(b : ℚ)| ↔ |a| ≤ |b| := by
  rw [← Int.cast_abs, ← Int.cast_abs, Int.cast_le]

/-- The default for `maxdt`, half of `snap`: the nearest whole microsecond, and of two equally near ones the even one. -/
theorem half_snap (s : ℤ) : |2 * halfEven s - s| ≤ 1 ∧ (s % 2 = 0 → 2 * halfEven s = s) ∧ (s % 2 ≠ 0 → halfEven s % 2 = 0) := by
  unfold halfEven
  split
  · refine ⟨by rw [abs_le]; omega, fun _ => by omega, fun h => by omega⟩
  · split
    · refine ⟨by rw [abs_le]; omega, fun h => by omega, fun _ => by omega⟩
    · refine ⟨by rw [abs_le]; omega, fun h => by omega, fun _ => by omega⟩

/-- C11 (snap). For at least two datetimes in ascending order and a positive snap interval: let `[lo, hi]` be the given
bounds, a missing bound being one snap interval beyond the first/last datetime. The call raises iff `hi < lo`.
Otherwise each snap time `T` (congruent to `origin` modulo `snap`) in `[lo, hi]` picks one datetime at minimal distance,
and the selected datetimes are exactly those within the given bounds picked by some `T` at distance at most `maxdt`
(default: half of `snap`). -/
theorem select_datetimes_snap (ts : List ℤ) (hs : ts.Pairwise (· ≤ ·)) (h2 : 2 ≤ ts.length)
    (first last : ℤ) (hf : ts.head? = some first) (hl : ts.getLast? = some last)
    (start stop maxdt : Option ℤ) (snap origin : ℤ) (hsnap : 0 < snap) (lo hi : ℤ)
    (hlo : lo = start.getD (first - snap)) (hhi : hi = stop.getD (last + snap)) :
    (hi < lo → selectDatetimes ts start stop (some snap) maxdt origin = .error .valueError) ∧
    (lo ≤ hi → ∃ (mask : List Bool) (pick : ℤ → ℕ),
      selectDatetimes ts start stop (some snap) maxdt origin = .ok mask ∧ mask.length = ts.length ∧
      (∀ T, ∃ h : pick T < ts.length, ∀ j (hj : j < ts.length), |ts[pick T] - T| ≤ |ts[j] - T|) ∧
      ∀ i (h : i < ts.length), mask[i]? = some true ↔ InGivenRange start stop ts[i] ∧
        ∃ T, (∃ k : ℤ, T = origin + k * snap) ∧ lo ≤ T ∧ T ≤ hi ∧ pick T = i ∧
          |ts[i] - T| ≤ maxdt.getD (halfEven snap)) := by
  have hne : snap ≠ 0 := by omega
  have hform : selectDatetimes ts start stop (some snap) maxdt origin =
      if hi < lo then .error .valueError else do
        let targets ← datetimeRange (lo + Int.fmod (origin - lo) snap) hi snap
        let nearest ← snapIndices ts targets (maxdt.getD (halfEven snap))
        return List.zipWith (· && ·) (inRangeMask ts start stop) (nearest.foldl setTrue (ts.map fun _ => false)) := by
    rw [hlo, hhi]
    unfold selectDatetimes
    simp only [hf, hl, bind, Except.bind, Option.filter, hne, ne_eq, not_false_eq_true, decide_true, if_true,
      Option.getD_some]
    cases start <;> cases stop <;> simp [throw, throwThe, MonadExceptOf.throw, pure, Except.pure]
  constructor
  · intro h; rw [hform, if_pos h]
  · intro hle
    -- the pick function
    have hpick : ∀ T : ℤ, ∃ i : Nat, ∃ hi : i < ts.length,
        sortedNearest (ts.map fun t : ℤ => (t : ℚ)) (T : ℚ) = .ok (i : ℤ) ∧
        ∀ j (hj : j < ts.length), |ts[i] - T| ≤ |ts[j] - T| := by
      intro T
      have hsq : (ts.map fun t : ℤ => (t : ℚ)).Pairwise (· ≤ ·) := by
        rw [List.pairwise_map]; exact hs.imp (fun h => by exact_mod_cast h)
      obtain ⟨i, hi', e, hmin⟩ := sorted_nearest_minimal (ts.map fun t : ℤ => (t : ℚ)) hsq (by simpa using h2) (T : ℚ)
      have hi'' : i < ts.length := by simpa using hi'
      refine ⟨i, hi'', e, fun j hj => ?_⟩
      have := hmin j (by simpa using hj)
      simp only [List.getElem_map] at this
      rw [← Int.cast_sub, ← Int.cast_sub, cast_abs_le] at this
      exact this
    choose pick hpl hpe hpm using hpick
    -- the targets
    obtain ⟨targets, htar, _, hmem⟩ := datetime_range_exact (lo + Int.fmod (origin - lo) snap) hi snap hsnap
    have hgrid : ∀ T, T ∈ targets ↔ (∃ k : ℤ, T = origin + k * snap) ∧ lo ≤ T ∧ T ≤ hi := by
      intro T
      rw [hmem, Int.fmod_eq_emod_of_nonneg _ hsnap.le]
      have e := Int.emod_add_mul_ediv (origin - lo) snap
      have e1 := Int.emod_nonneg (origin - lo) hne
      have e2 := Int.emod_lt_of_pos (origin - lo) hsnap
      constructor
      · rintro ⟨h1, k, rfl⟩
        refine ⟨⟨(k : ℤ) - (origin - lo) / snap, ?_⟩, ?_, h1⟩
        · have : (origin - lo) % snap = origin - lo - snap * ((origin - lo) / snap) := by omega
          rw [this]; ring
        · have : (0 : ℤ) ≤ (k : ℤ) * snap := mul_nonneg (Int.natCast_nonneg k) hsnap.le
          omega
      · rintro ⟨⟨k, rfl⟩, h1, h3⟩
        refine ⟨h3, (k + (origin - lo) / snap).toNat, ?_⟩
        have hk : 0 ≤ k + (origin - lo) / snap := by
          by_contra hc
          have : k + (origin - lo) / snap ≤ -1 := by omega
          nlinarith
        rw [Int.toNat_of_nonneg hk]
        have : (origin - lo) % snap = origin - lo - snap * ((origin - lo) / snap) := by omega
        rw [this]; ring
    -- the selected indices
    have hsel : snapIndices ts targets (maxdt.getD (halfEven snap)) =
        .ok ((((targets.map fun y : ℤ => ((pick y : ℤ), y - (ts[pick y]'(hpl y)))).filter
          fun p => decide (|p.2| ≤ maxdt.getD (halfEven snap))).map (·.1))) := by
      unfold snapIndices
      rw [mapM_ok _ (fun y : ℤ => ((pick y : ℤ), y - (ts[pick y]'(hpl y)))) targets]
      · rfl
      · intro y _
        simp only [hpe y, bind, Except.bind, pyIndex_nat ts (pick y) (hpl y), pure, Except.pure]
    set idx := ((targets.map fun y : ℤ => ((pick y : ℤ), y - (ts[pick y]'(hpl y)))).filter
          fun p => decide (|p.2| ≤ maxdt.getD (halfEven snap))).map (·.1) with hidx
    have hidxmem : ∀ i : Nat, (i : ℤ) ∈ idx ↔ ∃ T ∈ targets, pick T = i ∧
        |T - ts[pick T]'(hpl T)| ≤ maxdt.getD (halfEven snap) := by
      intro i
      rw [hidx]
      simp only [List.mem_map, List.mem_filter, decide_eq_true_iff]
      constructor
      · rintro ⟨p, ⟨⟨T, hT, rfl⟩, hd⟩, hp⟩
        exact ⟨T, hT, by simp only at hp; exact_mod_cast hp, hd⟩
      · rintro ⟨T, hT, hp, hd⟩
        exact ⟨_, ⟨⟨T, hT, rfl⟩, hd⟩, by simp only; exact_mod_cast hp⟩
    have hidx0 : ∀ i ∈ idx, 0 ≤ i := by
      intro i hi'
      rw [hidx] at hi'
      simp only [List.mem_map, List.mem_filter] at hi'
      obtain ⟨p, ⟨⟨T, _, rfl⟩, _⟩, rfl⟩ := hi'
      exact Int.natCast_nonneg _
    obtain ⟨fl, fm⟩ := foldl_setTrue idx (ts.map fun _ => false) hidx0
    refine ⟨List.zipWith (· && ·) (inRangeMask ts start stop) (idx.foldl setTrue (ts.map fun _ => false)), pick, ?_, ?_,
      fun T => ⟨hpl T, hpm T⟩, ?_⟩
    · rw [hform, if_neg (not_lt.mpr hle), htar]
      simp only [bind, Except.bind, hsel, pure, Except.pure]
    · rw [List.length_zipWith, fl]; simp [inRangeMask]
    · intro i h
      have hr := inRangeMask_iff ts start stop i h
      have hm := fm i (by simpa using h)
      have l1 : i < (inRangeMask ts start stop).length := by simp [inRangeMask]; exact h
      have l2 : i < (idx.foldl setTrue (ts.map fun _ => false)).length := by rw [fl]; simpa using h
      rw [List.getElem?_zipWith, List.getElem?_eq_getElem l1, List.getElem?_eq_getElem l2]
      rw [List.getElem?_eq_getElem l1] at hr
      rw [List.getElem?_eq_getElem l2] at hm
      simp only [Option.some.injEq] at hr hm ⊢
      rw [Bool.and_eq_true, hr, hm, hidxmem]
      have hfalse : ¬ ((ts.map fun _ => false)[i]? = some true) := by
        simp [List.getElem?_map, List.getElem?_eq_getElem h]
      simp only [hfalse, false_or]
      constructor
      · rintro ⟨a, T, hT, hp, hd⟩
        obtain ⟨g1, g2, g3⟩ := (hgrid T).mp hT
        refine ⟨a, T, g1, g2, g3, hp, ?_⟩
        subst hp
        rw [abs_sub_comm]; exact hd
      · rintro ⟨a, T, g1, g2, g3, hp, hd⟩
        refine ⟨a, T, (hgrid T).mpr ⟨g1, g2, g3⟩, hp, ?_⟩
        subst hp
        rw [abs_sub_comm]; exact hd

/-- C11 (defect). With a single datetime and a snap interval the call raises `IndexError` instead of selecting it. -/
theorem select_datetimes_single_violated :
    selectDatetimes [0] none none (some 2) none 0 = .error .indexError := by decide +kernel

example : selectDatetimes [0, 1, 2, 4, 5] none none (some 2) none 0 = .ok [true, false, true, true, true] := by
  decide +kernel
example : selectDatetimes [0, 1, 2, 4, 5] none none (some 2) (some 0) 0 = .ok [true, false, true, true, false] := by
  decide +kernel
example : selectDatetimes [0, 1, 2, 4, 5] (some 1) none none none 0 = .ok [false, true, true, true, true] := by
  decide +kernel

end Glimpse
