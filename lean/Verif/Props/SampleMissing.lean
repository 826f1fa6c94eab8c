import Verif.Model.SampleMissing
import Verif.Props.Sample
import Mathlib.Data.List.GetD

/-!
C78 for rasters with missing cells: which samples are missing, and the values of the others.
-/
set_option autoImplicit false
set_option linter.unusedSimpArgs false
set_option linter.unusedSectionVars false

namespace Glimpse.Sample

/-! ### Specification -/

/-- The array has the size of the grid. -/
structure ShapeM (g : Grid) (c : Cells) : Prop where
  rows : c.length = g.ay.n
  cols : ∀ r ∈ c, r.length = g.ax.n

/-- Cell in a row and column. -/
def cellM (c : Cells) (r k : Nat) : Option ℚ := (c.getD r []).getD k none

/-- Of the centres of cells `c` and `c + 1`, the lower is below `x` and the upper is not; before the first centre and
beyond the last, they are the first or last two. -/
def Pair (a : GAxis) (x : ℚ) (c : Nat) : Prop :=
  c + 1 < a.n ∧
  (min (cellCenter a.lo a.hi a.n c) (cellCenter a.lo a.hi a.n (c + 1 : ℕ)) < x ∨
    ∀ k < a.n, min (cellCenter a.lo a.hi a.n c) (cellCenter a.lo a.hi a.n (c + 1 : ℕ)) ≤ cellCenter a.lo a.hi a.n k) ∧
  (x ≤ max (cellCenter a.lo a.hi a.n c) (cellCenter a.lo a.hi a.n (c + 1 : ℕ)) ∨
    ∀ k < a.n, cellCenter a.lo a.hi a.n k ≤ max (cellCenter a.lo a.hi a.n c) (cellCenter a.lo a.hi a.n (c + 1 : ℕ)))

/-- The cells of an axis that a coordinate is interpolated from. -/
def Used (a : GAxis) (x : ℚ) (k : Nat) : Prop :=
  if a.n = 1 then k = 0 else ∃ c, Pair a x c ∧ (k = c ∨ k = c + 1)

/-- A bilinear sample is missing exactly if one of the (at most four) cells around the point is, whatever its weight;
otherwise it is the average, which does not depend on any missing cell. -/
def BilinearM (g : Grid) (c : Cells) (p : ℚ × ℚ) (v : Option ℚ) : Prop :=
  (v = none ↔ ∃ r k, Used g.ay p.2 r ∧ Used g.ax p.1 k ∧ cellM c r k = none) ∧
  ∀ q, v = some q → ∀ M, Bilinear g (replaceMissing M c) p q

/-- The sample is that of a cell nearest to the point, missing or not. -/
def NearestM (g : Grid) (c : Cells) (p : ℚ × ℚ) (v : Option ℚ) : Prop :=
  ∃ r k, NearestCell g.ax p.1 k ∧ NearestCell g.ay p.2 r ∧ v = cellM c r k

/-- What a sample is: the fill value at a point outside if one is used, else the value there. -/
def SampledM (g : Grid) (R : ℚ × ℚ → Option ℚ → Prop) (boundsError : Bool) (fill : Option (Option ℚ)) (p : ℚ × ℚ)
    (v : Option ℚ) : Prop :=
  (∃ f, boundsError = false ∧ fill = some f ∧ ¬ (Between g.ax.lo g.ax.hi p.1 ∧ Between g.ay.lo g.ay.hi p.2) ∧ v = f) ∨
  ((boundsError = true ∨ fill = none ∨ (Between g.ax.lo g.ax.hi p.1 ∧ Between g.ay.lo g.ay.hi p.2)) ∧ R p v)

/-! ### One axis -/

private def PairUp (n : Nat) (s h x : ℚ) (i : Nat) : Prop :=
  i + 1 < n ∧ (0 < i → s + i * h < x) ∧ (i + 2 < n → x ≤ s + (i + 1) * h)

private theorem pairUp_unique (n : Nat) (s h x : ℚ) (hh : 0 < h) (i j : Nat) (hi : PairUp n s h x i)
    (hj : PairUp n s h x j) : i = j := by
  have key : ∀ i j : Nat, PairUp n s h x i → PairUp n s h x j → i < j → False := by
    intro i j hi hj hlt
    have h1 := hi.2.2 (by have := hj.1; omega)
    have h2 := hj.2.1 (by omega)
    have h3 : ((i : ℚ) + 1) ≤ j := by exact_mod_cast hlt
    have := mul_le_mul_of_nonneg_right h3 hh.le
    linarith
  rcases Nat.lt_trichotomy i j with h | h | h
  · exact absurd h fun h => key i j hi hj h
  · exact h
  · exact absurd h fun h => key j i hj hi h

/-- The position along the ascending order of the lower of cells `c` and `c + 1`. -/
private def low (a : GAxis) (c : Nat) : Nat := if a.d < 0 then a.n - 2 - c else c

private theorem pair_iff (a : GAxis) (hn : 2 ≤ a.n) (hne : a.lo ≠ a.hi) (s : ℚ)
    (hcen : ∀ k < a.n, cellCenter a.lo a.hi a.n (back a k) = s + (k : ℚ) * |a.d|) (x : ℚ) (c : Nat) :
    Pair a x c ↔ c + 1 < a.n ∧ PairUp a.n s |a.d| x (low a c) := by
  have hpos : 0 < |a.d| := abs_pos.2 (GAxis.d_ne (by omega : 0 < a.n) hne)
  have hall : ∀ k < a.n, ∃ m < a.n, cellCenter a.lo a.hi a.n k = s + (m : ℚ) * |a.d| := by
    intro k hk
    refine ⟨back a k, back_lt a k hk, ?_⟩
    have := hcen (back a k) (back_lt a k hk)
    rwa [show back a (back a k) = k by unfold back; split <;> omega] at this
  constructor
  · rintro ⟨h1, h2, h3⟩
    refine ⟨h1, ?_⟩
    have hm : min (cellCenter a.lo a.hi a.n c) (cellCenter a.lo a.hi a.n (c + 1 : ℕ)) = s + (low a c : ℚ) * |a.d| ∧
        max (cellCenter a.lo a.hi a.n c) (cellCenter a.lo a.hi a.n (c + 1 : ℕ)) = s + ((low a c : ℚ) + 1) * |a.d| := by
      unfold low
      by_cases hd : a.d < 0
      · have e1 := hcen (a.n - 1 - c) (by omega)
        have e2 := hcen (a.n - 2 - c) (by omega)
        simp only [back, if_pos hd] at e1 e2
        rw [show a.n - 1 - (a.n - 1 - c) = c by omega] at e1
        rw [show a.n - 1 - (a.n - 2 - c) = c + 1 by omega] at e2
        rw [if_pos hd, e1, e2, show ((a.n - 1 - c : ℕ) : ℚ) = ((a.n - 2 - c : ℕ) : ℚ) + 1 by
          rw [show a.n - 1 - c = (a.n - 2 - c) + 1 by omega]; push_cast; ring]
        constructor
        · rw [min_eq_right]; nlinarith
        · rw [max_eq_left]; nlinarith
      · have e1 := hcen c (by omega)
        have e2 := hcen (c + 1) (by omega)
        simp only [back, if_neg hd] at e1 e2
        rw [if_neg hd, e1, e2]
        push_cast
        constructor
        · rw [min_eq_left]; nlinarith
        · rw [max_eq_right]; nlinarith
    rw [hm.1] at h2
    rw [hm.2] at h3
    refine ⟨by unfold low; split <;> omega, fun hi => ?_, fun hi => ?_⟩
    · rcases h2 with h | h
      · exact h
      · have e := h (back a 0) (back_lt a 0 (by omega))
        rw [hcen 0 (by omega)] at e
        have : (0 : ℚ) < (low a c : ℚ) := by exact_mod_cast hi
        have := mul_pos this hpos
        push_cast at e
        linarith
    · rcases h3 with h | h
      · exact h
      · have e := h (back a (low a c + 2)) (back_lt a _ hi)
        rw [hcen _ hi] at e
        push_cast at e
        nlinarith
  · rintro ⟨h1, h2, h3, h4⟩
    refine ⟨h1, ?_, ?_⟩
    all_goals
      have hm : min (cellCenter a.lo a.hi a.n c) (cellCenter a.lo a.hi a.n (c + 1 : ℕ)) = s + (low a c : ℚ) * |a.d| ∧
        max (cellCenter a.lo a.hi a.n c) (cellCenter a.lo a.hi a.n (c + 1 : ℕ)) = s + ((low a c : ℚ) + 1) * |a.d| := by
        unfold low
        by_cases hd : a.d < 0
        · have e1 := hcen (a.n - 1 - c) (by omega)
          have e2 := hcen (a.n - 2 - c) (by omega)
          simp only [back, if_pos hd] at e1 e2
          rw [show a.n - 1 - (a.n - 1 - c) = c by omega] at e1
          rw [show a.n - 1 - (a.n - 2 - c) = c + 1 by omega] at e2
          rw [if_pos hd, e1, e2, show ((a.n - 1 - c : ℕ) : ℚ) = ((a.n - 2 - c : ℕ) : ℚ) + 1 by
            rw [show a.n - 1 - c = (a.n - 2 - c) + 1 by omega]; push_cast; ring]
          constructor
          · rw [min_eq_right]; nlinarith
          · rw [max_eq_left]; nlinarith
        · have e1 := hcen c (by omega)
          have e2 := hcen (c + 1) (by omega)
          simp only [back, if_neg hd] at e1 e2
          rw [if_neg hd, e1, e2]
          push_cast
          constructor
          · rw [min_eq_left]; nlinarith
          · rw [max_eq_right]; nlinarith
    · rw [hm.1]
      rcases Nat.eq_zero_or_pos (low a c) with h | h
      · right
        intro k hk
        obtain ⟨m, -, e⟩ := hall k hk
        rw [e, h]
        have := mul_nonneg (Nat.cast_nonneg m : (0 : ℚ) ≤ m) hpos.le
        push_cast
        linarith
      · exact Or.inl (h3 h)
    · rw [hm.2]
      by_cases h : low a c + 2 < a.n
      · exact Or.inl (h4 h)
      · right
        intro k hk
        obtain ⟨m, hm', e⟩ := hall k hk
        rw [e]
        have : (m : ℚ) ≤ (low a c : ℚ) + 1 := by
          have : m ≤ low a c + 1 := by omega
          exact_mod_cast this
        have := mul_le_mul_of_nonneg_right this hpos.le
        linarith

/-- The cells used along an axis are the two ends of the interval found. -/
private theorem used_iff (a : GAxis) (hn : 2 ≤ a.n) (hne : a.lo ≠ a.hi) (xs : List ℚ) (hxs : a.centers = .ok xs) (x : ℚ)
    (k : Nat) :
    let r := interval (orient (decide (a.d < 0)) xs) x
    Used a x k ↔ k = back a r.1 ∨ k = back a (r.1 + 1) := by
  intro r
  obtain ⟨s, hs, hcen⟩ := oriented a (by omega) xs hxs
  have hpos : 0 < |a.d| := abs_pos.2 (GAxis.d_ne (by omega : 0 < a.n) hne)
  have hr : r = interval ((List.range a.n).map fun (k : Nat) => s + (k : ℚ) * |a.d|) x := by show interval _ x = _; rw [hs]
  obtain ⟨h1, -, h3, h4, -, -⟩ := interval_steps a.n hn s |a.d| x hpos
  rw [← hr] at h1 h3 h4
  have hup : PairUp a.n s |a.d| x r.1 := ⟨h1, h3, h4⟩
  unfold Used
  rw [if_neg (by omega)]
  constructor
  · rintro ⟨c, hc, hk⟩
    obtain ⟨hc1, hc2⟩ := (pair_iff a hn hne s hcen x c).1 hc
    have e := pairUp_unique _ _ _ _ hpos _ _ hc2 hup
    unfold low at e
    unfold back
    by_cases hd : a.d < 0
    · rw [if_pos hd] at e; rw [if_pos hd, if_pos hd]; omega
    · rw [if_neg hd] at e; rw [if_neg hd, if_neg hd]; omega
  · intro hk
    by_cases hd : a.d < 0
    · refine ⟨a.n - 2 - r.1, (pair_iff a hn hne s hcen x _).2 ⟨by omega, ?_⟩, ?_⟩
      · unfold low; rw [if_pos hd, show a.n - 2 - (a.n - 2 - r.1) = r.1 by omega]; exact hup
      · unfold back at hk; rw [if_pos hd, if_pos hd] at hk; omega
    · refine ⟨r.1, (pair_iff a hn hne s hcen x _).2 ⟨by omega, ?_⟩, ?_⟩
      · unfold low; rw [if_neg hd]; exact hup
      · unfold back at hk; rw [if_neg hd, if_neg hd] at hk; exact hk

/-- Every coordinate has cells that it is interpolated from, one or two of them. -/
theorem used_exists (a : GAxis) (hn : 0 < a.n) (hne : a.lo ≠ a.hi) (x : ℚ) :
    (∃ k, Used a x k) ∧ ∀ k, Used a x k → k < a.n := by
  by_cases h : a.n = 1
  · unfold Used
    simp only [if_pos h]
    exact ⟨⟨0, rfl⟩, fun k hk => by omega⟩
  · obtain ⟨xs, hxs, -, -⟩ := axis_centers_spec a hn
    refine ⟨⟨_, (used_iff a (by omega) hne xs hxs x _).2 (Or.inl rfl)⟩, fun k hk => ?_⟩
    unfold Used at hk
    rw [if_neg h] at hk
    obtain ⟨c, ⟨hc, -⟩, hk⟩ := hk
    omega

/-! ### One point -/

private theorem replace_cell (M : ℚ) (g : Grid) (c : Cells) (hs : ShapeM g c) (r k : Nat) (hr : r < g.ay.n)
    (hk : k < g.ax.n) : cell (replaceMissing M c) r k = (cellM c r k).getD M := by
  unfold cell cellM replaceMissing
  have h1 : r < c.length := by rw [hs.rows]; exact hr
  have h2 : k < c[r].length := by rw [hs.cols _ (List.getElem_mem h1)]; exact hk
  have e1 : (c.map fun r => r.map fun v : Option ℚ => v.getD M).getD r [] = c[r].map fun v => v.getD M := by
    rw [List.getD_eq_getElem _ _ (by simpa using h1), List.getElem_map]
  rw [e1, List.getD_eq_getElem _ _ (by simpa using h2), List.getElem_map, List.getD_eq_getElem c _ h1,
    List.getD_eq_getElem _ _ h2]

private theorem replace_shape (M : ℚ) (g : Grid) (c : Cells) (hs : ShapeM g c) : Shape g (replaceMissing M c) := by
  refine ⟨by simp [replaceMissing, hs.rows], fun r hr => ?_⟩
  obtain ⟨r', h', rfl⟩ := List.mem_map.1 hr
  simpa using hs.cols r' h'

private theorem atM_orient (g : Grid) (c : Cells) (hs : ShapeM g c) (i j : Nat) (hi : i < g.ax.n) (hj : j < g.ay.n) :
    atM (orientTM (decide (g.ax.d < 0)) (decide (g.ay.d < 0)) g.ax.n c) i j = cellM c (back g.ay j) (back g.ax i) := by
  unfold atM orientTM cellM
  rw [orient_getD g.ax _ (by simp) i hi]
  have hb := back_lt g.ax i hi
  have hbj := back_lt g.ay j hj
  rw [List.getD_eq_getElem?_getD (l := List.map _ _), List.getElem?_map, List.getElem?_range hb, Option.map_some, Option.getD_some]
  rw [orient_getD g.ay _ (by simp [hs.rows]) j hj]
  rw [List.getD_eq_getElem?_getD (l := List.map _ _), List.getElem?_map, List.getD_eq_getElem?_getD (l := c),
    List.getElem?_eq_getElem (by rw [hs.rows]; exact hbj)]
  rfl

private theorem wsum_none (l : List (ℚ × Option ℚ)) : wsum l = none ↔ ∃ e ∈ l, e.2 = none := by
  induction l with
  | nil => simp [wsum]
  | cons e l ih =>
    obtain ⟨w, v⟩ := e
    unfold wsum
    cases hw : wsum l with
    | none =>
      have := ih.1 hw
      simp [this]
    | some s =>
      have : ¬ ∃ e ∈ l, e.2 = none := fun h => by rw [ih.2 h] at hw; cases hw
      cases v with
      | none => simp
      | some v => simpa using this

private theorem wsum_some (l : List (ℚ × Option ℚ)) (q : ℚ) (M : ℚ) (h : wsum l = some q) :
    q = (l.map fun e => e.1 * e.2.getD M).sum := by
  induction l generalizing q with
  | nil => simp [wsum] at h; simp [h]
  | cons e l ih =>
    obtain ⟨w, v⟩ := e
    unfold wsum at h
    cases hw : wsum l with
    | none => rw [hw] at h; cases h
    | some s =>
      rw [hw] at h
      cases v with
      | none => cases h
      | some v =>
        simp only [bind, Option.bind, Option.some.injEq] at h
        rw [List.map_cons, List.sum_cons, ← ih s hw, ← h]
        simp [mul_comm]

private theorem head_rowM (c : Cells) (k : Nat) : (c.headD []).getD k none = cellM c 0 k := by
  unfold cellM; cases c <;> rfl

private theorem head_colM (c : Cells) (r : Nat) : (c.map fun r => r.headD none).getD r none = cellM c r 0 := by
  unfold cellM
  rw [List.getD_eq_getElem?_getD, List.getD_eq_getElem?_getD (l := c), List.getElem?_map]
  cases c[r]? with
  | none => rfl
  | some l => cases l <;> rfl

/-- The sample of a line. -/
private theorem line_missing (a : GAxis) (hn : 1 < a.n) (hne : a.lo ≠ a.hi) (vs : List (Option ℚ)) (hl : vs.length = a.n)
    (x : ℚ) : ∃ v, line1M 1 a vs x = .ok v ∧ (v = none ↔ ∃ k, Used a x k ∧ vs.getD k none = none) ∧
      ∀ q, v = some q → ∀ M, line1 1 a (vs.map fun v => v.getD M) x = .ok q := by
  obtain ⟨xs, hxs, -, -⟩ := axis_centers_spec a (by omega)
  refine ⟨_, by unfold line1M; rw [hxs]; rfl, ?_, ?_⟩
  · have hu := fun k => used_iff a hn hne xs hxs x k
    obtain ⟨s, hs, -⟩ := oriented a (by omega) xs hxs
    have hpos : 0 < |a.d| := abs_pos.2 (GAxis.d_ne (by omega : 0 < a.n) hne)
    obtain ⟨h1, -⟩ := interval_steps a.n hn s |a.d| x hpos
    rw [← hs] at h1
    unfold linear1M
    simp only [] at hu ⊢
    rw [orient_getD a vs hl _ (by omega), orient_getD a vs hl _ h1]
    constructor
    · intro h
      cases e1 : vs.getD (back a (interval (orient (decide (a.d < 0)) xs) x).1) none with
      | none => exact ⟨_, (hu _).2 (Or.inl rfl), e1⟩
      | some lo =>
        cases e2 : vs.getD (back a ((interval (orient (decide (a.d < 0)) xs) x).1 + 1)) none with
        | none => exact ⟨_, (hu _).2 (Or.inr rfl), e2⟩
        | some hi => rw [e1, e2] at h; cases h
    · rintro ⟨k, hk, e⟩
      rcases (hu k).1 hk with rfl | rfl
      · rw [e]; rfl
      · rw [e]
        cases vs.getD (back a (interval (orient (decide (a.d < 0)) xs) x).1) none <;> rfl
  · intro q hq M
    unfold line1
    rw [hxs]
    simp only [bind, Except.bind]
    congr 1
    unfold linear1M at hq
    unfold linear1
    simp only [] at hq ⊢
    set A := interval (orient (decide (a.d < 0)) xs) x with hA
    have hA2 : A.2 = (x - (orient (decide (a.d < 0)) xs).getD A.1 0) /
        ((orient (decide (a.d < 0)) xs).getD (A.1 + 1) 0 - (orient (decide (a.d < 0)) xs).getD A.1 0) := rfl
    have ho : ∀ i, (orient (decide (a.d < 0)) (vs.map fun v => v.getD M)).getD i 0 =
        (((orient (decide (a.d < 0)) vs)[i]?).map fun v => v.getD M).getD 0 := by
      intro i
      unfold orient
      split
      · rw [List.getD_eq_getElem?_getD, ← List.map_reverse, List.getElem?_map]
      · rw [List.getD_eq_getElem?_getD, List.getElem?_map]
    rw [ho, ho]
    rw [List.getD_eq_getElem?_getD, List.getD_eq_getElem?_getD] at hq
    cases e1 : (orient (decide (a.d < 0)) vs)[A.1]? with
    | none => rw [e1] at hq; cases hq
    | some v1 =>
      cases v1 with
      | none => rw [e1] at hq; cases hq
      | some lo =>
        cases e2 : (orient (decide (a.d < 0)) vs)[A.1 + 1]? with
        | none => rw [e1, e2] at hq; cases hq
        | some v2 =>
          cases v2 with
          | none => rw [e1, e2] at hq; cases hq
          | some hi =>
            rw [e1, e2] at hq
            simp only [Option.getD_some, bind, Option.bind, Option.some.injEq] at hq
            simp only [Option.map_some, Option.getD_some]
            rw [← hq, hA2]
            ring

private theorem head_map (M : ℚ) (c : Cells) : (replaceMissing M c).headD [] = (c.headD []).map fun v => v.getD M := by
  cases c <;> rfl

/-- Value of one sample of order 1. -/
theorem value_missing (g : Grid) (hg : g.Valid) (c : Cells) (hs : ShapeM g c) (p : ℚ × ℚ) :
    ∃ v, valueAtM 1 g c p = .ok v ∧ BilinearM g c p v := by
  have hnx := hg.nx
  have hny := hg.ny
  have hone : ∀ (a : GAxis) (x : ℚ) (k : Nat), a.n = 1 → (Used a x k ↔ k = 0) := by
    intro a x k h
    unfold Used
    rw [if_pos h]
  suffices hmain : ∃ v, valueAtM 1 g c p = .ok v ∧
      (v = none ↔ ∃ r k, Used g.ay p.2 r ∧ Used g.ax p.1 k ∧ cellM c r k = none) ∧
      ∀ q, v = some q → ∀ M, valueAt 1 g (replaceMissing M c) p = .ok q by
    obtain ⟨v, h1, h2, h3⟩ := hmain
    refine ⟨v, h1, h2, fun q hq M => ?_⟩
    obtain ⟨q', e, hb⟩ := value_linear g hg (replaceMissing M c) (replace_shape M g c hs) p
    rw [h3 q hq M] at e
    cases e
    exact hb
  unfold valueAtM valueAt
  by_cases hx : 1 < g.ax.n <;> by_cases hy : 1 < g.ay.n
  · simp only [if_pos (And.intro hx hy)]
    obtain ⟨xs, hxs, -, -⟩ := axis_centers_spec g.ax hnx
    obtain ⟨ys, hys, -, -⟩ := axis_centers_spec g.ay hny
    have hux := fun k => used_iff g.ax hx hg.x xs hxs p.1 k
    have huy := fun k => used_iff g.ay hy hg.y ys hys p.2 k
    obtain ⟨s, hs1, -⟩ := oriented g.ax hnx xs hxs
    obtain ⟨t, ht1, -⟩ := oriented g.ay hny ys hys
    obtain ⟨h1, -⟩ := interval_steps g.ax.n hx s |g.ax.d| p.1 (abs_pos.2 (GAxis.d_ne hnx hg.x))
    obtain ⟨h2, -⟩ := interval_steps g.ay.n hy t |g.ay.d| p.2 (abs_pos.2 (GAxis.d_ne hny hg.y))
    rw [← hs1] at h1
    rw [← ht1] at h2
    refine ⟨_, by unfold plane2M; rw [hxs, hys]; rfl, ?_, ?_⟩
    · unfold linear2M
      simp only [] at hux huy ⊢
      generalize interval (orient (decide (g.ax.d < 0)) xs) p.1 = A at *
      generalize interval (orient (decide (g.ay.d < 0)) ys) p.2 = B at *
      rw [wsum_none, atM_orient g c hs _ _ (by omega) (by omega), atM_orient g c hs _ _ (by omega) (by omega),
        atM_orient g c hs _ _ (by omega) (by omega), atM_orient g c hs _ _ (by omega) (by omega)]
      simp only [List.mem_cons, List.not_mem_nil, or_false]
      constructor
      · rintro ⟨e, rfl | rfl | rfl | rfl, h⟩
        · exact ⟨_, _, (huy _).2 (Or.inl rfl), (hux _).2 (Or.inl rfl), h⟩
        · exact ⟨_, _, (huy _).2 (Or.inr rfl), (hux _).2 (Or.inl rfl), h⟩
        · exact ⟨_, _, (huy _).2 (Or.inl rfl), (hux _).2 (Or.inr rfl), h⟩
        · exact ⟨_, _, (huy _).2 (Or.inr rfl), (hux _).2 (Or.inr rfl), h⟩
      · rintro ⟨r, k, hr, hk, h⟩
        rcases (huy r).1 hr with rfl | rfl <;> rcases (hux k).1 hk with rfl | rfl
        · exact ⟨_, Or.inl rfl, h⟩
        · exact ⟨_, Or.inr (Or.inr (Or.inl rfl)), h⟩
        · exact ⟨_, Or.inr (Or.inl rfl), h⟩
        · exact ⟨_, Or.inr (Or.inr (Or.inr rfl)), h⟩
    · intro q hq M
      have hsM := replace_shape M g c hs
      unfold plane2
      rw [hxs, hys]
      simp only [bind, Except.bind]
      congr 1
      unfold linear2M at hq
      unfold linear2
      simp only [] at hq ⊢
      generalize interval (orient (decide (g.ax.d < 0)) xs) p.1 = A at *
      generalize interval (orient (decide (g.ay.d < 0)) ys) p.2 = B at *
      have := wsum_some _ q M hq
      rw [atM_orient g c hs _ _ (by omega) (by omega), atM_orient g c hs _ _ (by omega) (by omega),
        atM_orient g c hs _ _ (by omega) (by omega), atM_orient g c hs _ _ (by omega) (by omega)] at this
      rw [this, at2_orient g _ hsM _ _ (by omega) (by omega), at2_orient g _ hsM _ _ (by omega) (by omega),
        at2_orient g _ hsM _ _ (by omega) (by omega), at2_orient g _ hsM _ _ (by omega) (by omega)]
      have b1 := back_lt g.ax A.1 (by omega)
      have b2 := back_lt g.ax (A.1 + 1) h1
      have b3 := back_lt g.ay B.1 (by omega)
      have b4 := back_lt g.ay (B.1 + 1) h2
      rw [replace_cell M g c hs _ _ b3 b1, replace_cell M g c hs _ _ b4 b1, replace_cell M g c hs _ _ b3 b2,
        replace_cell M g c hs _ _ b4 b2]
      simp only [List.map_cons, List.map_nil, List.sum_cons, List.sum_nil]
      ring
  · have hn1 : g.ay.n = 1 := by omega
    simp only [if_neg (show ¬ (1 < g.ax.n ∧ 1 < g.ay.n) by omega), if_pos hx]
    have hl : (c.headD []).length = g.ax.n := by
      cases c with
      | nil => have := hs.rows; simp at this; omega
      | cons r c => exact hs.cols r List.mem_cons_self
    obtain ⟨v, e, hm, hv⟩ := line_missing g.ax hx hg.x _ hl p.1
    refine ⟨v, e, ?_, fun q hq M => by rw [head_map]; exact hv q hq M⟩
    rw [hm]
    constructor
    · rintro ⟨k, hk, h⟩
      exact ⟨0, k, (hone _ _ _ hn1).2 rfl, hk, by rw [← head_rowM c k]; exact h⟩
    · rintro ⟨r, k, hr, hk, h⟩
      rw [(hone _ _ _ hn1).1 hr, ← head_rowM c k] at h
      exact ⟨k, hk, h⟩
  · have hn1 : g.ax.n = 1 := by omega
    simp only [if_neg (show ¬ (1 < g.ax.n ∧ 1 < g.ay.n) by omega), if_neg hx, if_pos hy]
    obtain ⟨v, e, hm, hv⟩ := line_missing g.ay hy hg.y (c.map fun r => r.headD none) (by simp [hs.rows]) p.2
    refine ⟨v, e, ?_, fun q hq M => ?_⟩
    · rw [hm]
      constructor
      · rintro ⟨k, hk, h⟩
        exact ⟨k, 0, hk, (hone _ _ _ hn1).2 rfl, by rw [← head_colM]; exact h⟩
      · rintro ⟨r, k, hr, hk, h⟩
        rw [(hone _ _ _ hn1).1 hk, ← head_colM] at h
        exact ⟨r, hr, h⟩
    · rw [← hv q hq M]
      congr 1
      unfold replaceMissing
      rw [List.map_map, List.map_map]
      apply List.map_congr_left
      intro r hr
      have := hs.cols r hr
      rw [hn1] at this
      obtain ⟨z, rfl⟩ := List.length_eq_one_iff.1 this
      rfl
  · have hn1 : g.ax.n = 1 := by omega
    have hn2 : g.ay.n = 1 := by omega
    simp only [if_neg (show ¬ (1 < g.ax.n ∧ 1 < g.ay.n) by omega), if_neg hx, if_neg hy]
    have hc : c.length = 1 := by rw [hs.rows, hn2]
    obtain ⟨r, rfl⟩ := List.length_eq_one_iff.1 hc
    have hr := hs.cols r List.mem_cons_self
    rw [hn1] at hr
    obtain ⟨z, rfl⟩ := List.length_eq_one_iff.1 hr
    refine ⟨z, rfl, ?_, fun q hq M => by subst hq; rfl⟩
    constructor
    · intro h
      exact ⟨0, 0, (hone _ _ _ hn2).2 rfl, (hone _ _ _ hn1).2 rfl, h⟩
    · rintro ⟨r, k, hr, hk, h⟩
      rw [(hone _ _ _ hn2).1 hr, (hone _ _ _ hn1).1 hk] at h
      exact h

/-- Value of one sample of order 0. -/
private theorem value_missing_nearest (g : Grid) (hg : g.Valid) (c : Cells) (hs : ShapeM g c) (p : ℚ × ℚ) :
    ∃ v, valueAtM 0 g c p = .ok v ∧ NearestM g c p v := by
  unfold valueAtM
  have hnx := hg.nx
  have hny := hg.ny
  obtain ⟨xs, hxs, -, -⟩ := axis_centers_spec g.ax hg.nx
  obtain ⟨ys, hys, -, -⟩ := axis_centers_spec g.ay hg.ny
  by_cases hx : 1 < g.ax.n <;> by_cases hy : 1 < g.ay.n
  · rw [if_pos ⟨hx, hy⟩]
    obtain ⟨h1, h2⟩ := nearer_nearest g.ax hx hg.x xs hxs p.1
    obtain ⟨h3, h4⟩ := nearer_nearest g.ay hy hg.y ys hys p.2
    refine ⟨_, by unfold plane2M; rw [hxs, hys]; rfl, _, _, h2, h4, ?_⟩
    unfold nearest2M
    rw [atM_orient g c hs _ _ h1 h3]
  · rw [if_neg (by omega), if_pos hx]
    have hl : (c.headD []).length = g.ax.n := by
      cases c with
      | nil => have := hs.rows; simp at this; omega
      | cons r c => exact hs.cols r List.mem_cons_self
    obtain ⟨h1, h2⟩ := nearer_nearest g.ax hx hg.x xs hxs p.1
    refine ⟨_, by unfold line1M; rw [hxs]; rfl, 0, _, h2, nearestCell_one _ (by omega) _, ?_⟩
    unfold nearest1M
    rw [orient_getD g.ax _ hl _ h1, head_rowM]
  · rw [if_neg (by omega), if_neg hx, if_pos hy]
    obtain ⟨h1, h2⟩ := nearer_nearest g.ay hy hg.y ys hys p.2
    refine ⟨_, by unfold line1M; rw [hys]; rfl, _, 0, nearestCell_one _ (by omega) _, h2, ?_⟩
    unfold nearest1M
    rw [orient_getD g.ay _ (by simp [hs.rows]) _ h1, head_colM]
  · rw [if_neg (by omega), if_neg hx, if_neg hy]
    refine ⟨_, rfl, 0, 0, nearestCell_one _ (by omega) _, nearestCell_one _ (by omega) _, ?_⟩
    rw [← head_rowM]
    cases c.headD [] <;> rfl

/-! ### All points -/

private theorem sample_coreM (order : Nat) (g : Grid) (c : Cells) (R : ℚ × ℚ → Option ℚ → Prop)
    (hv : ∀ p, ∃ v, valueAtM order g c p = .ok v ∧ R p v) (pts : List (ℚ × ℚ)) (boundsError : Bool)
    (fill : Option (Option ℚ))
    (hin : boundsError = true → ∀ p ∈ pts, Between g.ax.lo g.ax.hi p.1 ∧ Between g.ay.lo g.ay.hi p.2) :
    ∃ vs, samplePointsM order g c pts boundsError fill = .ok vs ∧ List.Forall₂ (SampledM g R boundsError fill) pts vs := by
  unfold samplePointsM
  have hcond : (boundsError && pts.any (fun p => !g.inboundsXy p)) = false := by
    cases boundsError with
    | false => rfl
    | true =>
      simp only [Bool.true_and, List.any_eq_false, Bool.not_eq_true', Bool.not_eq_false]
      intro p hp
      rw [inbounds_xy_iff]; exact hin rfl p hp
  rw [hcond]
  simp only [Bool.false_eq_true, if_false]
  cases boundsError with
  | true =>
    simp only [if_true]
    exact mapM_forall _ _ pts fun p _ => by
      obtain ⟨v, h1, h2⟩ := hv p
      exact ⟨v, h1, Or.inr ⟨Or.inl rfl, h2⟩⟩
  | false =>
    simp only [Bool.false_eq_true, if_false]
    cases fill with
    | none =>
      exact mapM_forall _ _ pts fun p _ => by
        obtain ⟨v, h1, h2⟩ := hv p
        exact ⟨v, h1, Or.inr ⟨Or.inr (Or.inl rfl), h2⟩⟩
    | some f =>
      refine mapM_forall _ _ pts fun p _ => ?_
      by_cases hb : g.inboundsXy p = true
      · obtain ⟨v, h1, h2⟩ := hv p
        exact ⟨v, by rw [if_pos hb, h1], Or.inr ⟨Or.inr (Or.inr ((inbounds_xy_iff g p).1 hb)), h2⟩⟩
      · exact ⟨f, by rw [if_neg hb], Or.inl ⟨f, rfl, rfl, fun h => hb ((inbounds_xy_iff g p).2 h), rfl⟩⟩

/-- C78 with missing cells, order 1: sampling never raises because of a missing cell. A sample is missing exactly if one
of the cells around its point is, and otherwise it is their bilinear average. -/
theorem sample_missing_linear (g : Grid) (hg : g.Valid) (c : Cells) (hs : ShapeM g c) (pts : List (ℚ × ℚ))
    (boundsError : Bool) (fill : Option (Option ℚ))
    (hin : boundsError = true → ∀ p ∈ pts, Between g.ax.lo g.ax.hi p.1 ∧ Between g.ay.lo g.ay.hi p.2) :
    ∃ vs, samplePointsM 1 g c pts boundsError fill = .ok vs ∧
      List.Forall₂ (SampledM g (BilinearM g c) boundsError fill) pts vs :=
  sample_coreM 1 g c _ (value_missing g hg c hs) pts boundsError fill hin

/-- C78 with missing cells, order 0: each sample is the value of a nearest cell, missing if that cell is. -/
theorem sample_missing_nearest (g : Grid) (hg : g.Valid) (c : Cells) (hs : ShapeM g c) (pts : List (ℚ × ℚ))
    (boundsError : Bool) (fill : Option (Option ℚ))
    (hin : boundsError = true → ∀ p ∈ pts, Between g.ax.lo g.ax.hi p.1 ∧ Between g.ay.lo g.ay.hi p.2) :
    ∃ vs, samplePointsM 0 g c pts boundsError fill = .ok vs ∧
      List.Forall₂ (SampledM g (NearestM g c) boundsError fill) pts vs :=
  sample_coreM 0 g c _ (value_missing_nearest g hg c hs) pts boundsError fill hin

/-- C78 with missing cells: with `bounds_error`, sampling raises if any point is outside. -/
theorem sample_missing_raises (order : Nat) (g : Grid) (c : Cells) (pts : List (ℚ × ℚ)) (fill : Option (Option ℚ))
    (p : ℚ × ℚ) (hp : p ∈ pts) (hout : ¬ (Between g.ax.lo g.ax.hi p.1 ∧ Between g.ay.lo g.ay.hi p.2)) :
    samplePointsM order g c pts true fill = .error .valueError := by
  unfold samplePointsM
  rw [if_pos]
  simp only [Bool.true_and, List.any_eq_true]
  refine ⟨p, hp, ?_⟩
  rw [← inbounds_xy_iff] at hout
  simpa using hout

/-- C78 fails at a missing neighbour: the sample at the very centre of a cell is missing although the cell is not, if the
cell next to it towards lower coordinates is missing. Here along x, for every row, column and direction of the axes. -/
theorem sample_center_missing_violated (g : Grid) (hg : g.Valid) (c : Cells) (r k k' : Nat)
    (hr : r < g.ay.n) (hk : k < g.ax.n) (hk' : k' < g.ax.n) (hnext : k' + 1 = k ∨ k + 1 = k')
    (hlow : cellCenter g.ax.lo g.ax.hi g.ax.n k' < cellCenter g.ax.lo g.ax.hi g.ax.n k) (hm : cellM c r k' = none)
    (v : Option ℚ)
    (hv : BilinearM g c (cellCenter g.ax.lo g.ax.hi g.ax.n k, cellCenter g.ay.lo g.ay.hi g.ay.n r) v) : v = none := by
  have hUx : Used g.ax (cellCenter g.ax.lo g.ax.hi g.ax.n k) k' := by
    unfold Used
    rw [if_neg (by omega)]
    rcases hnext with rfl | rfl
    · exact ⟨k', ⟨hk, Or.inl (lt_of_le_of_lt (min_le_left _ _) hlow), Or.inl (le_max_right _ _)⟩, Or.inl rfl⟩
    · exact ⟨k, ⟨hk', Or.inl (lt_of_le_of_lt (min_le_right _ _) hlow), Or.inl (le_max_left _ _)⟩, Or.inr rfl⟩
  have hUy : Used g.ay (cellCenter g.ay.lo g.ay.hi g.ay.n r) r := by
    by_cases h1 : g.ay.n = 1
    · unfold Used; rw [if_pos h1]; omega
    · obtain ⟨xs, hxs, -, -⟩ := axis_centers_spec g.ay hg.ny
      obtain ⟨s, hs', hcen⟩ := oriented g.ay hg.ny xs hxs
      have hn2 : 2 ≤ g.ay.n := by have := hg.ny; omega
      have hpos : 0 < |g.ay.d| := abs_pos.2 (GAxis.d_ne hg.ny hg.y)
      refine (used_iff g.ay hn2 hg.y xs hxs _ _).2 ?_
      have hb := back_lt g.ay r hr
      have hbb : back g.ay (back g.ay r) = r := by unfold back; split <;> omega
      have e := hcen (back g.ay r) hb
      rw [hbb] at e
      obtain ⟨i1, -, i3, i4, -, -⟩ := interval_steps g.ay.n hn2 s |g.ay.d| (cellCenter g.ay.lo g.ay.hi g.ay.n r) hpos
      rw [hs']
      generalize interval ((List.range g.ay.n).map fun (k : Nat) => s + (k : ℚ) * |g.ay.d|)
        (cellCenter g.ay.lo g.ay.hi g.ay.n r) = A at *
      have hup : PairUp g.ay.n s |g.ay.d| (cellCenter g.ay.lo g.ay.hi g.ay.n r) A.1 := ⟨i1, i3, i4⟩
      have hor : back g.ay r = A.1 ∨ back g.ay r = A.1 + 1 := by
        by_contra hc
        push Not at hc
        rcases Nat.lt_or_ge (back g.ay r) A.1 with h | h
        · have h3 := i3 (by omega)
          rw [e] at h3
          have : ((back g.ay r : ℕ) : ℚ) < (A.1 : ℚ) := by exact_mod_cast h
          nlinarith
        · have h4 := i4 (by omega)
          rw [e] at h4
          have : ((A.1 : ℚ) + 1) < ((back g.ay r : ℕ) : ℚ) := by
            have : A.1 + 1 < back g.ay r := by omega
            exact_mod_cast this
          nlinarith
      rcases hor with h | h
      · left; rw [← h, hbb]
      · right; rw [← h, hbb]
  exact hv.1.2 ⟨r, k', hUy, hUx, hm⟩

/-- Without missing cells, the samples are those of `Model/Sample.lean`. -/
theorem sample_missing_none (g : Grid) (hg : g.Valid) (arr : List (List ℚ)) (hs : Shape g arr) (pts : List (ℚ × ℚ))
    (hin : ∀ p ∈ pts, Between g.ax.lo g.ax.hi p.1 ∧ Between g.ay.lo g.ay.hi p.2) :
    ∃ vs ws, samplePoints 1 g arr pts true none = .ok vs ∧
      samplePointsM 1 g (arr.map fun r => r.map some) pts true none = .ok ws ∧ ws = vs.map some := by
  have hsM : ShapeM g (arr.map fun r => r.map some) := by
    refine ⟨by simp [hs.rows], fun r hr => ?_⟩
    obtain ⟨r', h', rfl⟩ := List.mem_map.1 hr
    simpa using hs.cols r' h'
  obtain ⟨vs, e1, f1⟩ := sample_linear_partial g hg arr hs pts true none (by intro f hf; cases hf) fun _ => hin
  obtain ⟨ws, e2, f2⟩ := sample_missing_linear g hg _ hsM pts true none fun _ => hin
  refine ⟨vs, ws, e1, e2, ?_⟩
  have hrep : replaceMissing 0 (arr.map fun r => r.map some) = arr := by
    unfold replaceMissing
    rw [List.map_map]
    conv_rhs => rw [← List.map_id arr]
    apply List.map_congr_left
    intro r _
    simp
  have hl1 := f1.length_eq
  have hl2 := f2.length_eq
  apply List.ext_getElem (by simp; omega)
  intro i hi hi'
  have hi1 : i < pts.length := by omega
  have hi2 : i < vs.length := by omega
  have a1 := f1.get hi1 hi2
  have a2 := f2.get hi1 hi
  simp only [List.get_eq_getElem] at a1 a2
  rw [List.getElem_map]
  rcases a1 with ⟨f, hb, _⟩ | ⟨-, b1⟩
  · cases hb
  rcases a2 with ⟨f, hb, _⟩ | ⟨-, b2, b3⟩
  · cases hb
  cases hw : ws[i] with
  | none =>
    exfalso
    obtain ⟨r, k, hr, hk, h⟩ := b2.1 hw
    have hr' := (used_exists g.ay hg.ny hg.y _).2 r hr
    have hk' := (used_exists g.ax hg.nx hg.x _).2 k hk
    unfold cellM at h
    have h1 : r < arr.length := by rw [hs.rows]; exact hr'
    have h2 : k < arr[r].length := by rw [hs.cols _ (List.getElem_mem h1)]; exact hk'
    have e3 : (arr.map fun r => r.map some).getD r [] = arr[r].map some := by
      rw [List.getD_eq_getElem _ _ (by simpa using h1), List.getElem_map]
    rw [e3, List.getD_eq_getElem _ _ (by simpa using h2), List.getElem_map] at h
    cases h
  | some q =>
    have := b3 q hw 0
    rw [hrep] at this
    obtain ⟨cc, u, hcc⟩ := around_exists g.ax hg.nx hg.x pts[i].1
    obtain ⟨rr, w, hrr⟩ := around_exists g.ay hg.ny hg.y pts[i].2
    rw [this cc u rr w hcc hrr, b1 cc u rr w hcc hrr]

/-- Non-vacuity: a raster of two rows (y decreases) and four columns with one missing cell: samples between present cells, at
the centre of a present cell next to the missing one, at the same height of the next column, nearest to a present cell,
and outside. -/
example : samplePointsM 1 ⟨⟨0, 40, 4⟩, ⟨20, 0, 2⟩⟩ [[none, some 2, some 4, some 8], [some 3, some 5, some 9, some 7]]
      [(20, 10), (15, 15), (25, 15), (41, 0)] false (some (some (-1))) = .ok [some 5, none, some 4, some (-1)] ∧
    samplePointsM 0 ⟨⟨0, 40, 4⟩, ⟨20, 0, 2⟩⟩ [[none, some 2, some 4, some 8], [some 3, some 5, some 9, some 7]]
      [(15, 15), (1, 19)] true none = .ok [some 2, none] := by decide +kernel

example : ShapeM ⟨⟨0, 40, 4⟩, ⟨20, 0, 2⟩⟩ [[none, some 2, some 4, some 8], [some 3, some 5, some 9, some 7]] :=
  ⟨rfl, by decide⟩
example : Pair ⟨20, 0, 2⟩ 10 0 := by
  refine ⟨by decide, Or.inl ?_, Or.inl ?_⟩ <;> norm_num [cellCenter]

end Glimpse.Sample
