import Verif.Model.Tracker
import Verif.Lemmas.ExceptList
import Mathlib.Tactic.Linarith

/-!
C34, C35: `Tracker.parse_datetimes` and `Tracker.match_datetimes`.
-/
set_option autoImplicit false
set_option linter.unusedSimpArgs false

namespace Glimpse.Tracker

/-- Spec: some image of some observer is within `|maxdt|` of `t`. -/
def Observed (obs : List (List ℤ)) (maxdt t : ℤ) : Prop := ∃ times ∈ obs, ∃ u ∈ times, |t - u| ≤ |maxdt|

private theorem foldl_min_le (xs : List ℤ) (x : ℤ) : xs.foldl min x ≤ x ∧ ∀ y ∈ xs, xs.foldl min x ≤ y := by
  induction xs generalizing x with
  | nil => simp
  | cons a xs ih =>
    simp only [List.foldl_cons]
    obtain ⟨h1, h2⟩ := ih (min x a)
    refine ⟨le_trans h1 (min_le_left _ _), ?_⟩
    intro y hy
    rcases List.mem_cons.mp hy with rfl | hy
    · exact le_trans h1 (min_le_right _ _)
    · exact h2 y hy

private theorem foldl_min_mem (xs : List ℤ) (x : ℤ) : xs.foldl min x = x ∨ xs.foldl min x ∈ xs := by
  induction xs generalizing x with
  | nil => simp
  | cons a xs ih =>
    simp only [List.foldl_cons]
    rcases ih (min x a) with h | h
    · rw [h]
      rcases le_total x a with h' | h'
      · left; exact min_eq_left h'
      · right; rw [min_eq_right h']; exact List.mem_cons_self
    · right; exact List.mem_cons_of_mem _ h

private theorem mem_allTimes (obs : List (List ℤ)) (u : ℤ) : u ∈ allTimes obs ↔ ∃ times ∈ obs, u ∈ times := by
  simp [allTimes, List.mem_flatten]

theorem matchesAny_iff (obs : List (List ℤ)) (maxdt t : ℤ) :
    matchesAny (allTimes obs) maxdt t = true ↔ Observed obs maxdt t := by
  have key : matchesAny (allTimes obs) maxdt t = true ↔ ∃ u ∈ allTimes obs, |t - u| ≤ |maxdt| := by
    unfold matchesAny distances
    cases h : (allTimes obs).map (fun u => |t - u|) with
    | nil =>
      have : allTimes obs = [] := by simpa using h
      simp [npMin, this]
    | cons x xs =>
      simp only [npMin, decide_eq_true_eq]
      have hmem : ∀ d, d ∈ x :: xs ↔ ∃ u ∈ allTimes obs, |t - u| = d := by
        intro d; rw [← h]; simp
      constructor
      · intro hd
        have hm : xs.foldl min x ∈ x :: xs := by
          rcases foldl_min_mem xs x with h' | h'
          · rw [h']; exact List.mem_cons_self
          · exact List.mem_cons_of_mem _ h'
        obtain ⟨u, hu, he⟩ := (hmem _).mp hm
        exact ⟨u, hu, by rw [he]; exact hd⟩
      · rintro ⟨u, hu, hd⟩
        have hm := (hmem |t - u|).mpr ⟨u, hu, rfl⟩
        refine le_trans ?_ hd
        rcases List.mem_cons.mp hm with h' | h'
        · rw [h']; exact (foldl_min_le xs x).1
        · exact (foldl_min_le xs x).2 _ h'
  rw [key]
  constructor
  · rintro ⟨u, hu, hd⟩
    obtain ⟨times, h1, h2⟩ := (mem_allTimes obs u).mp hu
    exact ⟨times, h1, u, h2, hd⟩
  · rintro ⟨times, h1, u, h2, hd⟩
    exact ⟨u, (mem_allTimes obs u).mpr ⟨times, h1, h2⟩, hd⟩

private theorem zip_tail_all (R : ℤ → ℤ → Prop) [DecidableRel R] [Std.Refl R] [IsTrans ℤ R] (ts : List ℤ) :
    (ts.zip ts.tail).all (fun p => decide (R p.1 p.2)) = true ↔ ts.Pairwise R := by
  rw [← List.isChain_iff_pairwise]
  induction ts with
  | nil => simp
  | cons a ts ih =>
    cases ts with
    | nil => simp
    | cons b ts =>
      have : ((a :: b :: ts).zip (a :: b :: ts).tail) = (a, b) :: ((b :: ts).zip (b :: ts).tail) := rfl
      rw [this, List.all_cons, Bool.and_eq_true, ih, List.isChain_cons_cons]
      simp

/-- Spec: monotone in either direction. -/
def Monotone' (ts : List ℤ) : Prop := ts.Pairwise (· ≤ ·) ∨ ts.Pairwise (fun a b => b ≤ a)

theorem isMonotonic_iff (ts : List ℤ) : isMonotonic ts = true ↔ Monotone' ts := by
  haveI : Std.Refl (fun a b : ℤ => b ≤ a) := ⟨fun a => le_refl a⟩
  haveI : IsTrans ℤ (fun a b : ℤ => b ≤ a) := ⟨fun a b c h1 h2 => le_trans h2 h1⟩
  unfold isMonotonic Monotone'
  rw [Bool.or_eq_true, zip_tail_all (fun a b => a ≤ b), zip_tail_all (fun a b => b ≤ a)]

theorem dropRepeats_sublist (ts : List ℤ) : (dropRepeats ts).Sublist ts := by
  induction ts using dropRepeats.induct with
  | case1 => simp [dropRepeats]
  | case2 t => simp [dropRepeats]
  | case3 u r ih => simp only [dropRepeats, if_true]; exact ih.trans (List.sublist_cons_self _ _)
  | case4 t u r h ih => simp only [dropRepeats, h, if_false]; exact ih.cons_cons t

theorem mem_dropRepeats (ts : List ℤ) (x : ℤ) : x ∈ dropRepeats ts ↔ x ∈ ts := by
  induction ts using dropRepeats.induct with
  | case1 => simp [dropRepeats]
  | case2 t => simp [dropRepeats]
  | case3 u r ih => simp only [dropRepeats, if_true]; rw [ih]; simp
  | case4 t u r h ih => simp only [dropRepeats, h, if_false, List.mem_cons, ih]

theorem dropRepeats_strict (R S : ℤ → ℤ → Prop) (hRS : ∀ a b, R a b → a ≠ b → S a b)
    (hSR : ∀ a b c, S a b → R b c → S a c) (ts : List ℤ)
    (h : ts.Pairwise R) : (dropRepeats ts).Pairwise S := by
  induction ts using dropRepeats.induct with
  | case1 => simp [dropRepeats]
  | case2 t => simp [dropRepeats]
  | case3 u r ih => simp only [dropRepeats, if_true]; exact ih (List.pairwise_cons.mp h).2
  | case4 t u r hne ih =>
    simp only [dropRepeats, hne, if_false]
    have hp := List.pairwise_cons.mp h
    refine List.pairwise_cons.mpr ⟨?_, ih hp.2⟩
    intro x hx
    rw [mem_dropRepeats] at hx
    have htu := hRS t u (hp.1 u List.mem_cons_self) hne
    rcases List.mem_cons.mp hx with rfl | hx
    · exact htu
    · exact hSR t u x htu ((List.pairwise_cons.mp hp.2).1 x hx)

/-- C34. When `parse_datetimes` returns, the result is strictly increasing or strictly decreasing, in the order of
the requested datetimes, has at least two elements, and contains exactly the requested datetimes for which some
observer has an image within `maxdt`. -/
theorem parse_datetimes_spec (obs : List (List ℤ)) (ts : List ℤ) (maxdt : ℤ) (r : List ℤ)
    (h : parseDatetimes obs ts maxdt = .ok r) :
    (r.Pairwise (· < ·) ∨ r.Pairwise (fun a b => b < a)) ∧ r.Sublist ts ∧ 2 ≤ r.length ∧
      ∀ t, t ∈ r ↔ t ∈ ts ∧ Observed obs maxdt t := by
  unfold parseDatetimes at h
  split at h
  · cases h
  rename_i hm
  have hm' : Monotone' ts := (isMonotonic_iff ts).mp (by simpa using hm)
  split at h
  · cases h
  simp only at h
  split at h
  · cases h
  rename_i hlen
  cases h
  refine ⟨?_, List.filter_sublist.trans (dropRepeats_sublist ts), by omega, ?_⟩
  · rcases hm' with hm' | hm'
    · left
      exact (dropRepeats_strict (· ≤ ·) (· < ·) (fun a b h1 h2 => lt_of_le_of_ne h1 h2)
        (fun a b c h1 h2 => lt_of_lt_of_le h1 h2) ts hm').filter _
    · right
      exact (dropRepeats_strict (fun a b => b ≤ a) (fun a b => b < a)
        (fun a b h1 h2 => lt_of_le_of_ne h1 (Ne.symm h2))
        (fun a b c h1 h2 => lt_of_le_of_lt h2 h1) ts hm').filter _
  · intro t
    rw [List.mem_filter, mem_dropRepeats, matchesAny_iff]

/-- C34. `parse_datetimes` raises exactly when the datetimes are not monotone or fewer than two distinct ones have
an image within `maxdt`. -/
theorem parse_datetimes_raises_iff (obs : List (List ℤ)) (ts : List ℤ) (maxdt : ℤ) :
    Raises (parseDatetimes obs ts maxdt) ↔
      ¬ Monotone' ts ∨ ¬ ∃ t u, t ≠ u ∧ (t ∈ ts ∧ Observed obs maxdt t) ∧ (u ∈ ts ∧ Observed obs maxdt u) := by
  constructor
  · rintro ⟨e, he⟩
    by_cases hm : Monotone' ts
    · right
      rintro ⟨t, u, hne, ⟨ht, hto⟩, hu, huo⟩
      unfold parseDatetimes at he
      rw [if_neg (by rw [(isMonotonic_iff ts).mpr hm]; simp)] at he
      have hne' : allTimes obs ≠ [] := by
        obtain ⟨times, h1, x, h2, _⟩ := hto
        intro e0
        have := (mem_allTimes obs x).mpr ⟨times, h1, h2⟩
        rw [e0] at this; cases this
      rw [if_neg hne'] at he
      simp only at he
      split at he
      · rename_i hlen
        have mt : t ∈ (dropRepeats ts).filter (matchesAny (allTimes obs) maxdt) :=
          List.mem_filter.mpr ⟨(mem_dropRepeats ts t).mpr ht, (matchesAny_iff obs maxdt t).mpr hto⟩
        have mu : u ∈ (dropRepeats ts).filter (matchesAny (allTimes obs) maxdt) :=
          List.mem_filter.mpr ⟨(mem_dropRepeats ts u).mpr hu, (matchesAny_iff obs maxdt u).mpr huo⟩
        generalize (dropRepeats ts).filter (matchesAny (allTimes obs) maxdt) = l at hlen mt mu
        rcases l with _ | ⟨a, _ | ⟨b, l⟩⟩
        · cases mt
        · simp only [List.mem_singleton] at mt mu
          exact hne (mt.trans mu.symm)
        · simp at hlen; omega
      · cases he
    · exact Or.inl hm
  · intro h
    cases hp : parseDatetimes obs ts maxdt with
    | error e => exact ⟨e, rfl⟩
    | ok r =>
      exfalso
      have hs := parse_datetimes_spec obs ts maxdt r hp
      rcases h with h | h
      · unfold parseDatetimes at hp
        by_cases hm : isMonotonic ts = true
        · exact h ((isMonotonic_iff ts).mp hm)
        · rw [if_pos (by simpa using hm)] at hp; cases hp
      · obtain ⟨ho, _, h2, hmem⟩ := hs
        rcases r with _ | ⟨a, _ | ⟨b, r⟩⟩
        · simp at h2
        · simp at h2
        · refine h ⟨a, b, ?_, (hmem a).mp (by simp), (hmem b).mp (by simp)⟩
          rcases ho with ho | ho
          · exact ((List.pairwise_cons.mp ho).1 b (by simp)).ne
          · exact ((List.pairwise_cons.mp ho).1 b (by simp)).ne'

/-- Non-vacuity: decreasing datetimes, with a repeat and an unobserved one, and two observers. -/
example : parseDatetimes [[0, 10], [30, 50]] [52, 50, 50, 20, 9, 0] (-2) = .ok [52, 50, 9, 0] := by
  decide +kernel

/-! ### C35 -/

private theorem argMinAux_spec (ys pre : List ℤ) (i : Nat) (x : ℤ) (hi : pre[i]? = some x)
    (hmin : ∀ y ∈ pre, x ≤ y) :
    ∃ k m, argMinAux i x pre.length ys = (k, m) ∧ (pre ++ ys)[k]? = some m ∧ ∀ y ∈ pre ++ ys, m ≤ y := by
  induction ys generalizing pre i x with
  | nil => exact ⟨i, x, rfl, by simpa using hi, by simpa using hmin⟩
  | cons y ys ih =>
    have hlen : pre.length + 1 = (pre ++ [y]).length := by simp
    have hi' : i < pre.length := by
      rcases Nat.lt_or_ge i pre.length with h | h
      · exact h
      · rw [List.getElem?_eq_none h] at hi; cases hi
    unfold argMinAux
    split
    · rename_i hlt
      rw [hlen]
      have := ih (pre ++ [y]) pre.length y (by simp) (by
        intro z hz
        rcases List.mem_append.mp hz with hz | hz
        · exact le_trans hlt.le (hmin z hz)
        · rw [List.mem_singleton.mp hz])
      simpa using this
    · rename_i hlt
      rw [hlen]
      have := ih (pre ++ [y]) i x (by rw [List.getElem?_append_left hi']; exact hi) (by
        intro z hz
        rcases List.mem_append.mp hz with hz | hz
        · exact hmin z hz
        · rw [List.mem_singleton.mp hz]; omega)
      simpa using this

theorem argMin_spec (l : List ℤ) (h : l ≠ []) :
    ∃ (k : Nat) (m : ℤ), argMin l = .ok (k, m) ∧ l[k]? = some m ∧ ∀ y ∈ l, m ≤ y := by
  cases l with
  | nil => exact absurd rfl h
  | cons x xs =>
    obtain ⟨k, m, h1, h2, h3⟩ := argMinAux_spec xs [x] 0 x (by simp) (by simp)
    exact ⟨k, m, by simp only [argMin]; exact congrArg _ h1, h2, h3⟩

/-- Spec: `m` is the right match for a time `t` among the image times: an image at minimal distance, or none if
that distance exceeds `|maxdt|`. -/
def NearestMatch (times : List ℤ) (maxdt t : ℤ) (m : Option Nat) : Prop :=
  match m with
  | some k => ∃ u : ℤ, times[k]? = some u ∧ |t - u| ≤ |maxdt| ∧ ∀ v ∈ times, |t - u| ≤ |t - v|
  | none => ∀ v ∈ times, |maxdt| < |t - v|

private theorem matchOne_spec (times : List ℤ) (hne : times ≠ []) (maxdt t : ℤ) :
    ∃ m, matchOne times maxdt t = .ok m ∧ NearestMatch times maxdt t m := by
  obtain ⟨k, m, h1, h2, h3⟩ := argMin_spec (distances t times) (by simpa [distances] using hne)
  unfold matchOne
  rw [h1]
  refine ⟨_, rfl, ?_⟩
  have h3' : ∀ v ∈ times, m ≤ |t - v| := by
    intro v hv
    exact h3 _ (by simp only [distances, List.mem_map]; exact ⟨v, hv, rfl⟩)
  split
  · rename_i hd
    intro v hv
    exact lt_of_lt_of_le hd (h3' v hv)
  · rename_i hd
    simp only [distances, List.getElem?_map, Option.map_eq_some_iff] at h2
    obtain ⟨u, hu, he⟩ := h2
    refine ⟨u, hu, by omega, ?_⟩
    intro v hv
    rw [he]; exact h3' v hv

private theorem mapM_ok_forall {ε α β : Type} (f : α → Except ε β) (Q : α → β → Prop) (l : List α)
    (h : ∀ x ∈ l, ∃ y, f x = .ok y ∧ Q x y) :
    ∃ ys, l.mapM f = .ok ys ∧ List.Forall₂ Q l ys := by
  induction l with
  | nil => exact ⟨[], rfl, List.Forall₂.nil⟩
  | cons x l ih =>
    obtain ⟨y, hy, hq⟩ := h x List.mem_cons_self
    obtain ⟨ys, hys, hf⟩ := ih (fun z hz => h z (List.mem_cons_of_mem _ hz))
    exact ⟨y :: ys, by rw [List.mapM_cons, hy, hys]; rfl, List.Forall₂.cons hq hf⟩

/-- C35. For observers with images, `match_datetimes` returns one row per datetime and one entry per observer, and
each entry is the nearest image, or `None` exactly when the nearest image is further away than `maxdt`. -/
theorem match_datetimes_spec (obs : List (List ℤ)) (hobs : ∀ times ∈ obs, times ≠ []) (ts : List ℤ) (maxdt : ℤ) :
    ∃ rows, matchDatetimes obs ts maxdt = .ok rows ∧
      List.Forall₂ (fun t row => List.Forall₂ (fun times m => NearestMatch times maxdt t m) obs row) ts rows := by
  apply mapM_ok_forall
  intro t _
  exact mapM_ok_forall _ (fun times m => NearestMatch times maxdt t m) obs
    (fun times ht => matchOne_spec times (hobs times ht) maxdt t)

/-- Non-vacuity: ties go to the earlier image. -/
example : matchDatetimes [[0, 10], [30, 50]] [5, 40, 48] 5 =
    .ok [[some 0, none], [none, none], [none, some 1]] := by decide +kernel

end Glimpse.Tracker
