import Verif.Model.Sample
import Verif.Props.Grid
import Mathlib.Tactic.Linarith
import Mathlib.Tactic.LinearCombination
import Mathlib.Tactic.FieldSimp
import Mathlib.Tactic.Ring
import Mathlib.Tactic.NormNum
import Mathlib.Tactic.Push

/-!
C78: `Raster.sample` at points. C79: `Raster.sample` on a grid. C80: `Raster.gradient`.
-/
set_option autoImplicit false
set_option linter.unusedSimpArgs false
set_option linter.unusedSectionVars false

namespace Glimpse.Sample

/-! ### Specification -/

/-- Coordinate `x` is the fraction `u` of the way from the centre of cell `c` to the centre of cell `c + 1`, which are the
two nearest to it (before the first centre or beyond the last, the line is continued). -/
def Cell (a : GAxis) (x : ℚ) (c : Nat) (u : ℚ) : Prop :=
  c + 1 < a.n ∧ x = (1 - u) * cellCenter a.lo a.hi a.n c + u * cellCenter a.lo a.hi a.n ((c : ℤ) + 1) ∧ (0 ≤ u ∨ c = 0) ∧
    (u ≤ 1 ∨ c + 2 = a.n)

/-- The array has the size of the grid. -/
structure Shape (g : Grid) (arr : List (List ℚ)) : Prop where
  rows : arr.length = g.ay.n
  cols : ∀ r ∈ arr, r.length = g.ax.n

/-- Value in a row and column. -/
def cell (arr : List (List ℚ)) (r c : Nat) : ℚ := (arr.getD r []).getD c 0

/-- The same on any axis: if it has one cell only, this is it. -/
def Around (a : GAxis) (x : ℚ) (c : Nat) (u : ℚ) : Prop := if a.n = 1 then c = 0 ∧ u = 0 else Cell a x c u

/-- The value at a point is the average of the four cells around it, weighted by nearness along x and along y. -/
def Bilinear (g : Grid) (arr : List (List ℚ)) (p : ℚ × ℚ) (v : ℚ) : Prop :=
  ∀ c u r w, Around g.ax p.1 c u → Around g.ay p.2 r w →
    v = (1 - w) * ((1 - u) * cell arr r c + u * cell arr r (c + 1)) + w * ((1 - u) * cell arr (r + 1) c + u * cell arr (r + 1) (c + 1))

/-- Cell `c` is nearest along an axis. -/
def NearestCell (a : GAxis) (x : ℚ) (c : Nat) : Prop :=
  c < a.n ∧ ∀ k < a.n, |x - cellCenter a.lo a.hi a.n c| ≤ |x - cellCenter a.lo a.hi a.n k|

/-- The value at a point is that of a cell nearest to it along x and along y. -/
def Nearest (g : Grid) (arr : List (List ℚ)) (p : ℚ × ℚ) (v : ℚ) : Prop :=
  ∃ r c, NearestCell g.ax p.1 c ∧ NearestCell g.ay p.2 r ∧ v = cell arr r c

/-! ### One axis -/

private theorem takeWhile_range (p : Nat → Bool) (m n : Nat) :
    let k := (((List.range' m n)).takeWhile p).length
    k ≤ n ∧ (∀ j < k, p (m + j) = true) ∧ (k < n → p (m + k) = false) := by
  induction n generalizing m with
  | zero => simp
  | succ n ih =>
    rw [List.range'_succ, List.takeWhile_cons]
    by_cases h : p m = true
    · rw [if_pos h]
      obtain ⟨h1, h2, h3⟩ := ih (m + 1)
      refine ⟨by simpa using h1, fun j hj => ?_, fun hk => ?_⟩
      · cases j with
        | zero => exact h
        | succ j => rw [show m + (j + 1) = m + 1 + j by omega]; exact h2 j (by simpa using hj)
      · simp only [List.length_cons] at hk ⊢
        rw [show m + (_ + 1) = m + 1 + _ by rw [Nat.add_comm _ 1, ← Nat.add_assoc]]
        exact h3 (by omega)
    · rw [if_neg h]
      refine ⟨by simp, fun j hj => by simp at hj, fun _ => by simpa using h⟩

theorem interval_steps (n : Nat) (hn : 2 ≤ n) (s h x : ℚ) (hh : 0 < h) :
    let r := interval ((List.range n).map fun (k : Nat) => s + (k : ℚ) * h) x
    r.1 + 1 < n ∧ x = s + (r.1 + r.2) * h ∧ (0 < r.1 → s + r.1 * h < x) ∧ (r.1 + 2 < n → x ≤ s + (r.1 + 1) * h) ∧
      (0 ≤ r.2 ∨ r.1 = 0) ∧ (r.2 ≤ 1 ∨ r.1 + 2 = n) := by
  intro r
  have hk : ∃ k : Nat, k = ((((List.range n).map fun (k : Nat) => s + (k : ℚ) * h).takeWhile fun g => decide (g < x)).length) := ⟨_, rfl⟩
  obtain ⟨k, hk⟩ := hk
  have hspec := takeWhile_range (fun j => decide (s + (j : ℚ) * h < x)) 0 n
  rw [← List.range_eq_range'] at hspec
  simp only [] at hspec
  have hk2 : k = ((List.range n).takeWhile fun (j : Nat) => decide (s + (j : ℚ) * h < x)).length := by
    rw [hk, List.takeWhile_map, List.length_map]; rfl
  rw [← hk2] at hspec
  obtain ⟨h1, h2, h3⟩ := hspec
  have hi : r.1 = min (k - 1) (n - 2) := by
    show min (_ - 1) (_ - 2) = _
    rw [← hk, List.length_map, List.length_range]
  have hget : ∀ j < n, ((List.range n).map fun (k : Nat) => s + (k : ℚ) * h).getD j 0 = s + (j : ℚ) * h := by
    intro j hj
    rw [List.getD_eq_getElem?_getD, List.getElem?_map, List.getElem?_range hj]; rfl
  have hlt : r.1 + 1 < n := by omega
  have hf : r.2 = (x - (s + (r.1 : ℚ) * h)) / h := by
    show (x - List.getD _ r.1 0) / (List.getD _ (r.1 + 1) 0 - List.getD _ r.1 0) = _
    rw [hget _ (by omega), hget _ hlt]
    congr 1
    push_cast; ring
  have hx : x = s + (r.1 + r.2) * h := by rw [hf]; field_simp; ring
  have ha : 0 < r.1 → s + r.1 * h < x := by
    intro h0
    have := h2 r.1 (by omega)
    simpa using this
  have hb : r.1 + 2 < n → x ≤ s + (r.1 + 1) * h := by
    intro h0
    have hkn : k < n := by omega
    have := h3 hkn
    simp only [Nat.zero_add, decide_eq_false_iff_not, not_lt] at this
    refine le_trans this ?_
    have : (k : ℚ) ≤ r.1 + 1 := by
      have : k ≤ r.1 + 1 := by omega
      exact_mod_cast this
    nlinarith
  refine ⟨hlt, hx, ha, hb, ?_, ?_⟩
  · by_cases h0 : r.1 = 0
    · exact Or.inr h0
    · left
      have := ha (by omega)
      rw [hf]; apply div_nonneg <;> linarith
  · by_cases h0 : r.1 + 2 < n
    · left
      have := hb h0
      rw [hf, div_le_iff₀ hh]; linarith
    · right; omega

private theorem weights_unique (n : Nat) (s h x : ℚ) (hh : 0 < h) (i : Nat) (f : ℚ) (hi : i + 1 < n)
    (hx : x = s + (i + f) * h) (hf0 : 0 ≤ f ∨ i = 0) (hf1 : f ≤ 1 ∨ i + 2 = n)
    (c : Nat) (u : ℚ) (hc : c + 1 < n) (hxc : x = s + (c + u) * h) (hu0 : 0 ≤ u ∨ c = 0) (hu1 : u ≤ 1 ∨ c + 2 = n)
    (φ : Nat → ℚ) : (1 - f) * φ i + f * φ (i + 1) = (1 - u) * φ c + u * φ (c + 1) := by
  have heq : (i : ℚ) + f = c + u := by
    have : ((i : ℚ) + f) * h = (c + u) * h := by linarith
    exact mul_right_cancel₀ hh.ne' this
  rcases Nat.lt_trichotomy i c with hlt | rfl | hlt
  · have hu : 0 ≤ u := hu0.resolve_right (by omega)
    have hf : f ≤ 1 := hf1.resolve_right (by omega)
    have h1 : ((i + 1 : ℕ) : ℚ) ≤ c := by exact_mod_cast hlt
    push_cast at h1
    have hf' : f = 1 := by linarith
    have hu' : u = 0 := by linarith
    have : (c : ℚ) = ((i + 1 : ℕ) : ℚ) := by push_cast; linarith
    have : c = i + 1 := by exact_mod_cast this
    rw [hf', hu', this]; ring
  · have : f = u := by linarith
    rw [this]
  · have hu : u ≤ 1 := hu1.resolve_right (by omega)
    have hf : 0 ≤ f := hf0.resolve_right (by omega)
    have h1 : ((c + 1 : ℕ) : ℚ) ≤ i := by exact_mod_cast hlt
    push_cast at h1
    have hf' : f = 0 := by linarith
    have hu' : u = 1 := by linarith
    have : (i : ℚ) = ((c + 1 : ℕ) : ℚ) := by push_cast; linarith
    have : i = c + 1 := by exact_mod_cast this
    rw [hf', hu', this]; ring

/-- Position in the array of position `i` in the ascending order. -/
def back (a : GAxis) (i : Nat) : Nat := if a.d < 0 then a.n - 1 - i else i

theorem orient_getD {α : Type} (a : GAxis) (vs : List α) (hl : vs.length = a.n) (i : Nat) (hi : i < a.n) (z : α) :
    (orient (decide (a.d < 0)) vs).getD i z = vs.getD (back a i) z := by
  unfold orient back
  by_cases hd : a.d < 0
  · simp only [hd, decide_true, if_true]
    rw [List.getD_eq_getElem?_getD, List.getD_eq_getElem?_getD, List.getElem?_reverse (by omega), hl]
  · simp [hd]

theorem back_lt (a : GAxis) (i : Nat) (hi : i < a.n) : back a i < a.n := by
  unfold back; split <;> omega

theorem oriented (a : GAxis) (hn : 0 < a.n) (xs : List ℚ) (hxs : a.centers = .ok xs) :
    ∃ s : ℚ, orient (decide (a.d < 0)) xs = (List.range a.n).map (fun (k : Nat) => s + (k : ℚ) * |a.d|) ∧
      ∀ k < a.n, cellCenter a.lo a.hi a.n (back a k) = s + (k : ℚ) * |a.d| := by
  obtain ⟨l, hl, hlen, hget⟩ := axis_centers_spec a hn
  rw [hxs] at hl
  simp only [Except.ok.injEq] at hl
  subst hl
  have key : ∀ k < a.n, cellCenter a.lo a.hi a.n (back a k) = cellCenter a.lo a.hi a.n (back a 0) + (k : ℚ) * |a.d| := by
    intro k hk
    rw [GAxis.cellCenter_eq hn, GAxis.cellCenter_eq hn]
    unfold back
    by_cases hd : a.d < 0
    · simp only [hd, if_true, abs_of_neg hd]
      have : ((a.n - 1 - k : ℕ) : ℚ) = (a.n : ℚ) - 1 - k := by
        rw [Nat.cast_sub (by omega), Nat.cast_sub (by omega)]; simp
      have h0 : ((a.n - 1 - 0 : ℕ) : ℚ) = (a.n : ℚ) - 1 := by
        rw [Nat.sub_zero, Nat.cast_sub (by omega)]; simp
      simp only [Int.cast_natCast]
      rw [this, h0]; ring
    · simp only [hd, if_false, abs_of_nonneg (not_lt.1 hd)]
      push_cast; ring
  refine ⟨_, ?_, key⟩
  have hol : (orient (decide (a.d < 0)) xs).length = a.n := by unfold orient; split <;> simp [hlen]
  apply List.ext_getElem?
  intro k
  by_cases hk : k < a.n
  · have h1 := orient_getD a xs hlen k hk 0
    have h2 : xs.getD (back a k) 0 = cellCenter a.lo a.hi a.n (back a k) := by
      rw [List.getD_eq_getElem?_getD, hget _ (back_lt a k hk)]; rfl
    rw [List.getElem?_eq_getElem (by omega), List.getElem?_map, List.getElem?_range hk]
    rw [List.getD_eq_getElem?_getD, List.getElem?_eq_getElem (by omega), Option.getD_some] at h1
    rw [h1, h2, key k hk]; rfl
  · rw [List.getElem?_eq_none (by omega), List.getElem?_eq_none (by simp; omega)]

/-- The weights of the two cells around a coordinate. -/
private theorem axis_weights (a : GAxis) (hn : 2 ≤ a.n) (hne : a.lo ≠ a.hi) (xs : List ℚ) (hxs : a.centers = .ok xs) (x : ℚ)
    (c : Nat) (u : ℚ) (hc : Cell a x c u) (φ : Nat → ℚ) :
    let r := interval (orient (decide (a.d < 0)) xs) x
    r.1 + 1 < a.n ∧ (1 - r.2) * φ (back a r.1) + r.2 * φ (back a (r.1 + 1)) = (1 - u) * φ c + u * φ (c + 1) := by
  intro r
  obtain ⟨s, hs, hcen⟩ := oriented a (by omega) xs hxs
  have hd := GAxis.d_ne (by omega : 0 < a.n) hne
  have hpos : 0 < |a.d| := abs_pos.2 hd
  obtain ⟨hc1, hx, hu0, hu1⟩ := hc
  have hr : r = interval ((List.range a.n).map fun (k : Nat) => s + (k : ℚ) * |a.d|) x := by show interval _ x = _; rw [hs]
  obtain ⟨h1, h2, -, -, h5, h6⟩ := interval_steps a.n hn s |a.d| x hpos
  rw [← hr] at h1 h2 h5 h6
  refine ⟨h1, ?_⟩
  by_cases hlt : a.d < 0
  · have hb : ∀ k, back a k = a.n - 1 - k := fun k => by unfold back; rw [if_pos hlt]
    have e1 := hcen (a.n - 1 - c) (by omega)
    have e2 := hcen (a.n - 2 - c) (by omega)
    rw [hb, show a.n - 1 - (a.n - 1 - c) = c by omega] at e1
    rw [hb, show a.n - 1 - (a.n - 2 - c) = c + 1 by omega] at e2
    push_cast at e2
    rw [e1, e2] at hx
    have e3 : ((a.n - 1 - c : ℕ) : ℚ) = ((a.n - 2 - c : ℕ) : ℚ) + 1 := by
      rw [show a.n - 1 - c = (a.n - 2 - c) + 1 by omega]; push_cast; ring
    rw [e3] at hx
    have := weights_unique a.n s |a.d| x hpos r.1 r.2 h1 h2 h5 h6 (a.n - 2 - c) (1 - u) (by omega)
      (by rw [hx]; ring) (by rcases hu1 with h | h; exacts [Or.inl (by linarith), Or.inr (by omega)])
      (by rcases hu0 with h | h; exacts [Or.inl (by linarith), Or.inr (by omega)]) (fun k => φ (a.n - 1 - k))
    simp only [hb]
    rw [this, show a.n - 1 - (a.n - 2 - c) = c + 1 by omega, show a.n - 1 - (a.n - 2 - c + 1) = c by omega]
    ring
  · have hb : ∀ k, back a k = k := fun k => by unfold back; rw [if_neg hlt]
    have e1 := hcen c (by omega)
    have e2 := hcen (c + 1) (by omega)
    rw [hb] at e1 e2
    push_cast at e2
    rw [e1, e2] at hx
    simp only [hb]
    exact weights_unique a.n s |a.d| x hpos r.1 r.2 h1 h2 h5 h6 c u hc1 (by rw [hx]; ring) hu0 hu1 φ

/-- Every coordinate has cells around it. -/
theorem cell_exists (a : GAxis) (hn : 2 ≤ a.n) (hne : a.lo ≠ a.hi) (x : ℚ) : ∃ c u, Cell a x c u := by
  obtain ⟨xs, hxs, -, -⟩ := axis_centers_spec a (by omega)
  obtain ⟨s, hs, hcen⟩ := oriented a (by omega) xs hxs
  have hpos : 0 < |a.d| := abs_pos.2 (GAxis.d_ne (by omega : 0 < a.n) hne)
  obtain ⟨h1, h2, -, -, h5, h6⟩ := interval_steps a.n hn s |a.d| x hpos
  generalize interval ((List.range a.n).map fun (k : Nat) => s + (k : ℚ) * |a.d|) x = r at h1 h2 h5 h6
  have e1 := hcen r.1 (by omega)
  have e2 := hcen (r.1 + 1) h1
  by_cases hlt : a.d < 0
  · have hb : ∀ k, back a k = a.n - 1 - k := fun k => by unfold back; rw [if_pos hlt]
    rw [hb] at e1 e2
    have e3 : ((a.n - 1 - r.1 : ℕ) : ℤ) = ((a.n - 1 - (r.1 + 1) : ℕ) : ℤ) + 1 := by omega
    rw [e3] at e1
    refine ⟨a.n - 1 - (r.1 + 1), 1 - r.2, by omega, ?_, ?_, ?_⟩
    · rw [e1, e2, h2]; push_cast; ring
    · rcases h6 with h | h; exacts [Or.inl (by linarith), Or.inr (by omega)]
    · rcases h5 with h | h; exacts [Or.inl (by linarith), Or.inr (by omega)]
  · have hb : ∀ k, back a k = k := fun k => by unfold back; rw [if_neg hlt]
    rw [hb] at e1 e2
    push_cast at e2
    exact ⟨r.1, r.2, h1, by rw [e1, e2, h2]; ring, h5, h6⟩

theorem nearer_nearest (a : GAxis) (hn : 2 ≤ a.n) (hne : a.lo ≠ a.hi) (xs : List ℚ) (hxs : a.centers = .ok xs) (x : ℚ) :
    nearer (interval (orient (decide (a.d < 0)) xs) x) < a.n ∧
      NearestCell a x (back a (nearer (interval (orient (decide (a.d < 0)) xs) x))) := by
  obtain ⟨s, hs, hcen⟩ := oriented a (by omega) xs hxs
  have hpos : 0 < |a.d| := abs_pos.2 (GAxis.d_ne (by omega : 0 < a.n) hne)
  obtain ⟨h1, h2, -, -, h5, h6⟩ := interval_steps a.n hn s |a.d| x hpos
  rw [hs]
  generalize interval ((List.range a.n).map fun (k : Nat) => s + (k : ℚ) * |a.d|) x = r at h1 h2 h5 h6
  have hlt : nearer r < a.n := by unfold nearer; split <;> omega
  refine ⟨hlt, back_lt a _ hlt, fun k hk => ?_⟩
  have hkk : back a (back a k) = k := by unfold back; split <;> omega
  have ek := hcen (back a k) (back_lt a k hk)
  rw [hkk] at ek
  rw [hcen _ hlt, ek, h2]
  have hm := back_lt a k hk
  generalize back a k = m at hm
  have key : ∀ j : Nat, s + ((r.1 : ℚ) + r.2) * |a.d| - (s + (j : ℚ) * |a.d|) = ((r.1 : ℚ) + r.2 - j) * |a.d| := fun j => by ring
  rw [key, key, abs_mul, abs_mul]
  apply mul_le_mul_of_nonneg_right _ (abs_nonneg _)
  unfold nearer
  have hcase : (m : ℚ) + 1 ≤ r.1 ∨ m = r.1 ∨ (m : ℚ) = r.1 + 1 ∨ ((m : ℚ) ≥ r.1 + 2 ∧ r.1 + 2 < a.n) := by
    rcases Nat.lt_or_ge m r.1 with h | h
    · left; exact_mod_cast h
    · rcases Nat.lt_or_ge (r.1 + 1) m with h' | h'
      · right; right; right; exact ⟨by exact_mod_cast h', by omega⟩
      · have : m = r.1 ∨ m = r.1 + 1 := by omega
        rcases this with rfl | rfl
        · right; left; rfl
        · right; right; left; push_cast; rfl
  have hr0 : (0 : ℚ) ≤ r.1 := Nat.cast_nonneg _
  have hm0 : (0 : ℚ) ≤ m := Nat.cast_nonneg _
  split
  · rename_i hh
    rw [show (r.1 : ℚ) + r.2 - r.1 = r.2 by ring]
    rcases hcase with h | h | h | ⟨h, -⟩
    · have h0 : 0 ≤ r.2 := h5.resolve_right fun e => by rw [e] at h; norm_num at h; linarith
      rw [abs_of_nonneg h0, abs_of_nonneg (by linarith)]; linarith
    · rw [h, show (r.1 : ℚ) + r.2 - r.1 = r.2 by ring]
    · rw [h, abs_of_nonpos (show (r.1 : ℚ) + r.2 - (r.1 + 1) ≤ 0 by linarith), abs_le]; constructor <;> linarith
    · rw [abs_of_nonpos (show (r.1 : ℚ) + r.2 - m ≤ 0 by linarith), abs_le]; constructor <;> linarith
  · rename_i hh
    push Not at hh
    rw [show (r.1 : ℚ) + r.2 - ((r.1 + 1 : ℕ) : ℚ) = r.2 - 1 by push_cast; ring]
    rcases hcase with h | h | h | ⟨h, h'⟩
    · rw [abs_of_nonneg (show 0 ≤ (r.1 : ℚ) + r.2 - m by linarith), abs_le]; constructor <;> linarith
    · rw [h, show (r.1 : ℚ) + r.2 - r.1 = r.2 by ring, abs_of_nonneg (show 0 ≤ r.2 by linarith), abs_le]; constructor <;> linarith
    · rw [h, show (r.1 : ℚ) + r.2 - (r.1 + 1) = r.2 - 1 by ring]
    · have h1' : r.2 ≤ 1 := h6.resolve_right (by omega)
      rw [abs_of_nonpos (show (r.1 : ℚ) + r.2 - m ≤ 0 by linarith), abs_le]; constructor <;> linarith

/-! ### C78: points -/

theorem at2_orient (g : Grid) (arr : List (List ℚ)) (hs : Shape g arr) (i j : Nat) (hi : i < g.ax.n) (hj : j < g.ay.n) :
    at2 (orientT (decide (g.ax.d < 0)) (decide (g.ay.d < 0)) g.ax.n arr) i j = cell arr (back g.ay j) (back g.ax i) := by
  unfold at2 orientT cell
  rw [orient_getD g.ax _ (by simp) i hi]
  have hb := back_lt g.ax i hi
  have hbj := back_lt g.ay j hj
  rw [List.getD_eq_getElem?_getD (l := List.map _ _), List.getElem?_map, List.getElem?_range hb, Option.map_some, Option.getD_some]
  rw [orient_getD g.ay _ (by simp [hs.rows]) j hj]
  rw [List.getD_eq_getElem?_getD (l := List.map _ _), List.getElem?_map, List.getD_eq_getElem?_getD (l := arr),
    List.getElem?_eq_getElem (by rw [hs.rows]; exact hbj)]
  rfl

private theorem plane_linear (g : Grid) (hg : g.Valid) (arr : List (List ℚ)) (hs : Shape g arr) (p : ℚ × ℚ)
    (hx : 1 < g.ax.n) (hy : 1 < g.ay.n) : ∃ v, plane2 1 g arr p = .ok v ∧ Bilinear g arr p v := by
  obtain ⟨xs, hxs, -, -⟩ := axis_centers_spec g.ax hg.nx
  obtain ⟨ys, hys, -, -⟩ := axis_centers_spec g.ay hg.ny
  refine ⟨_, by unfold plane2; rw [hxs, hys]; rfl, fun c u r w hc hr => ?_⟩
  unfold Around at hc hr
  rw [if_neg (by omega)] at hc hr
  obtain ⟨h1, -⟩ := axis_weights g.ax hx hg.x xs hxs p.1 c u hc fun _ => 0
  obtain ⟨h2, -⟩ := axis_weights g.ay hy hg.y ys hys p.2 r w hr fun _ => 0
  have e1 := fun m => (axis_weights g.ax hx hg.x xs hxs p.1 c u hc fun k => cell arr m k).2
  have e2 := fun m => (axis_weights g.ay hy hg.y ys hys p.2 r w hr fun k => cell arr k m).2
  unfold linear2
  generalize interval (orient (decide (g.ax.d < 0)) xs) p.1 = A at *
  generalize interval (orient (decide (g.ay.d < 0)) ys) p.2 = B at *
  simp only [] at e1 e2 ⊢
  rw [at2_orient g arr hs _ _ (by omega) (by omega), at2_orient g arr hs _ _ (by omega) (by omega),
    at2_orient g arr hs _ _ (by omega) (by omega), at2_orient g arr hs _ _ (by omega) (by omega)]
  linear_combination (1 - B.2) * e1 (back g.ay B.1) + B.2 * e1 (back g.ay (B.1 + 1)) + (1 - u) * e2 c + u * e2 (c + 1)

private theorem line_linear (a : GAxis) (hn : 1 < a.n) (hne : a.lo ≠ a.hi) (vs : List ℚ) (hl : vs.length = a.n) (x : ℚ) :
    ∃ v, line1 1 a vs x = .ok v ∧ ∀ c u, Cell a x c u → v = (1 - u) * vs.getD c 0 + u * vs.getD (c + 1) 0 := by
  obtain ⟨xs, hxs, -, -⟩ := axis_centers_spec a (by omega)
  refine ⟨_, by unfold line1; rw [hxs]; rfl, fun c u hc => ?_⟩
  obtain ⟨h1, e⟩ := axis_weights a hn hne xs hxs x c u hc fun k => vs.getD k 0
  unfold linear1
  simp only [] at e ⊢
  rw [orient_getD a vs hl _ (by omega), orient_getD a vs hl _ h1, e]

theorem head_row (arr : List (List ℚ)) (c : Nat) : (arr.headD []).getD c 0 = cell arr 0 c := by
  unfold cell; cases arr <;> rfl

theorem head_col (arr : List (List ℚ)) (r : Nat) : (arr.map fun r => r.headD 0).getD r 0 = cell arr r 0 := by
  unfold cell
  rw [List.getD_eq_getElem?_getD, List.getD_eq_getElem?_getD (l := arr), List.getElem?_map]
  cases arr[r]? with
  | none => rfl
  | some l => cases l <;> rfl

theorem value_linear (g : Grid) (hg : g.Valid) (arr : List (List ℚ)) (hs : Shape g arr) (p : ℚ × ℚ) :
    ∃ v, valueAt 1 g arr p = .ok v ∧ Bilinear g arr p v := by
  unfold valueAt
  have hnx := hg.nx
  have hny := hg.ny
  have hrow : 0 < g.ay.n := hg.ny
  by_cases hx : 1 < g.ax.n <;> by_cases hy : 1 < g.ay.n
  · rw [if_pos ⟨hx, hy⟩]; exact plane_linear g hg arr hs p hx hy
  · rw [if_neg (by omega), if_pos hx]
    have hl : (arr.headD []).length = g.ax.n := by
      cases arr with
      | nil => have := hs.rows; simp at this; omega
      | cons r arr => exact hs.cols r List.mem_cons_self
    obtain ⟨v, h1, h2⟩ := line_linear g.ax hx hg.x _ hl p.1
    refine ⟨v, h1, fun c u r w hc hr => ?_⟩
    unfold Around at hc hr
    rw [if_neg (by omega)] at hc
    rw [if_pos (by omega)] at hr
    rw [h2 c u hc, hr.1, hr.2, head_row, head_row]; ring
  · rw [if_neg (by omega), if_neg hx, if_pos hy]
    obtain ⟨v, h1, h2⟩ := line_linear g.ay hy hg.y (arr.map fun r => r.headD 0) (by simp [hs.rows]) p.2
    refine ⟨v, h1, fun c u r w hc hr => ?_⟩
    unfold Around at hc hr
    rw [if_pos (by omega)] at hc
    rw [if_neg (by omega)] at hr
    rw [h2 r w hr, hc.1, hc.2, head_col, head_col]; ring
  · rw [if_neg (by omega), if_neg hx, if_neg hy]
    refine ⟨_, rfl, fun c u r w hc hr => ?_⟩
    unfold Around at hc hr
    rw [if_pos (by omega)] at hc hr
    rw [hc.1, hc.2, hr.1, hr.2]
    have := head_row arr 0
    rw [← this]
    cases arr.headD [] with
    | nil => simp
    | cons a l => simp

theorem nearestCell_one (a : GAxis) (hn : a.n = 1) (x : ℚ) : NearestCell a x 0 := by
  refine ⟨by omega, fun k hk => ?_⟩
  rw [show k = 0 by omega]

private theorem value_nearest (g : Grid) (hg : g.Valid) (arr : List (List ℚ)) (hs : Shape g arr) (p : ℚ × ℚ) :
    ∃ v, valueAt 0 g arr p = .ok v ∧ Nearest g arr p v := by
  unfold valueAt
  have hnx := hg.nx
  have hny := hg.ny
  obtain ⟨xs, hxs, -, -⟩ := axis_centers_spec g.ax hg.nx
  obtain ⟨ys, hys, -, -⟩ := axis_centers_spec g.ay hg.ny
  by_cases hx : 1 < g.ax.n <;> by_cases hy : 1 < g.ay.n
  · rw [if_pos ⟨hx, hy⟩]
    obtain ⟨h1, h2⟩ := nearer_nearest g.ax hx hg.x xs hxs p.1
    obtain ⟨h3, h4⟩ := nearer_nearest g.ay hy hg.y ys hys p.2
    refine ⟨_, by unfold plane2; rw [hxs, hys]; rfl, _, _, h2, h4, ?_⟩
    unfold nearest2
    rw [at2_orient g arr hs _ _ h1 h3]
  · rw [if_neg (by omega), if_pos hx]
    have hl : (arr.headD []).length = g.ax.n := by
      cases arr with
      | nil => have := hs.rows; simp at this; omega
      | cons r arr => exact hs.cols r List.mem_cons_self
    obtain ⟨h1, h2⟩ := nearer_nearest g.ax hx hg.x xs hxs p.1
    refine ⟨_, by unfold line1; rw [hxs]; rfl, 0, _, h2, nearestCell_one _ (by omega) _, ?_⟩
    unfold nearest1
    rw [orient_getD g.ax _ hl _ h1, head_row]
  · rw [if_neg (by omega), if_neg hx, if_pos hy]
    obtain ⟨h1, h2⟩ := nearer_nearest g.ay hy hg.y ys hys p.2
    refine ⟨_, by unfold line1; rw [hys]; rfl, _, 0, nearestCell_one _ (by omega) _, h2, ?_⟩
    unfold nearest1
    rw [orient_getD g.ay _ (by simp [hs.rows]) _ h1, head_col]
  · rw [if_neg (by omega), if_neg hx, if_neg hy]
    refine ⟨_, rfl, 0, 0, nearestCell_one _ (by omega) _, nearestCell_one _ (by omega) _, ?_⟩
    rw [← head_row]
    cases arr.headD [] <;> rfl

theorem mapM_forall {α β : Type} (f : α → Except Err β) (R : α → β → Prop) (l : List α)
    (h : ∀ a ∈ l, ∃ b, f a = .ok b ∧ R a b) : ∃ r, l.mapM f = .ok r ∧ List.Forall₂ R l r := by
  induction l with
  | nil => exact ⟨[], rfl, List.Forall₂.nil⟩
  | cons a l ih =>
    obtain ⟨b, hb, hR⟩ := h a List.mem_cons_self
    obtain ⟨r, hr, hF⟩ := ih fun c hc => h c (List.mem_cons_of_mem _ hc)
    exact ⟨b :: r, by rw [List.mapM_cons, hb, hr]; rfl, List.Forall₂.cons hR hF⟩

/-- What a sample is: the fill value at a point outside if one is used, else the value there. -/
def Sampled (g : Grid) (R : ℚ × ℚ → ℚ → Prop) (boundsError : Bool) (fill : Option (Bool × ℚ)) (p : ℚ × ℚ) (v : ℚ) : Prop :=
  (∃ f, boundsError = false ∧ fill = some f ∧ ¬ (Between g.ax.lo g.ax.hi p.1 ∧ Between g.ay.lo g.ay.hi p.2) ∧ v = f.2) ∨
  ((boundsError = true ∨ fill = none ∨ (Between g.ax.lo g.ax.hi p.1 ∧ Between g.ay.lo g.ay.hi p.2)) ∧ R p v)

private theorem sample_core (order : Nat) (g : Grid) (arr : List (List ℚ)) (R : ℚ × ℚ → ℚ → Prop)
    (hv : ∀ p, ∃ v, valueAt order g arr p = .ok v ∧ R p v) (pts : List (ℚ × ℚ)) (boundsError : Bool) (fill : Option (Bool × ℚ))
    (hfill : ∀ f, fill = some f → f.1 = false)
    (hin : boundsError = true → ∀ p ∈ pts, Between g.ax.lo g.ax.hi p.1 ∧ Between g.ay.lo g.ay.hi p.2) :
    ∃ vs, samplePoints order g arr pts boundsError fill = .ok vs ∧ List.Forall₂ (Sampled g R boundsError fill) pts vs := by
  unfold samplePoints
  have hcond : (boundsError && pts.any (fun p => !g.inboundsXy p)) = false := by
    cases boundsError with
    | false => rfl
    | true =>
      simp only [Bool.true_and, List.any_eq_false, Bool.not_eq_true', Bool.not_eq_false]
      intro p hp
      rw [inbounds_xy_iff]; exact hin rfl p hp
  rw [hcond]
  simp only [Bool.false_eq_true, if_false]
  cases boundsError with
  | true =>
    simp only [if_true]
    exact mapM_forall _ _ pts fun p _ => by
      obtain ⟨v, h1, h2⟩ := hv p
      exact ⟨v, h1, Or.inr ⟨Or.inl rfl, h2⟩⟩
  | false =>
    simp only [Bool.false_eq_true, if_false]
    cases fill with
    | none =>
      exact mapM_forall _ _ pts fun p _ => by
        obtain ⟨v, h1, h2⟩ := hv p
        exact ⟨v, h1, Or.inr ⟨Or.inr (Or.inl rfl), h2⟩⟩
    | some f =>
      refine mapM_forall _ _ pts fun p _ => ?_
      by_cases hb : g.inboundsXy p = true
      · obtain ⟨v, h1, h2⟩ := hv p
        refine ⟨v, ?_, Or.inr ⟨Or.inr (Or.inr ((inbounds_xy_iff g p).1 hb)), h2⟩⟩
        rw [if_pos hb, h1]
        simp [bind, Except.bind, store, hfill f rfl]
      · exact ⟨f.2, by rw [if_neg hb], Or.inl ⟨f, rfl, rfl, fun h => hb ((inbounds_xy_iff g p).2 h), rfl⟩⟩

/-- C78: order 1 returns at each point the bilinear average of the cells around it, for either direction of the axes and
rasters with single rows or columns; points outside get the fill value if one is given. -/
theorem sample_linear_partial (g : Grid) (hg : g.Valid) (arr : List (List ℚ)) (hs : Shape g arr) (pts : List (ℚ × ℚ))
    (boundsError : Bool) (fill : Option (Bool × ℚ)) (hfill : ∀ f, fill = some f → f.1 = false)
    (hin : boundsError = true → ∀ p ∈ pts, Between g.ax.lo g.ax.hi p.1 ∧ Between g.ay.lo g.ay.hi p.2) :
    ∃ vs, samplePoints 1 g arr pts boundsError fill = .ok vs ∧
      List.Forall₂ (Sampled g (Bilinear g arr) boundsError fill) pts vs :=
  sample_core 1 g arr _ (value_linear g hg arr hs) pts boundsError fill hfill hin

/-- C78: order 0 returns at each point the value of the nearest cell. -/
theorem sample_nearest_partial (g : Grid) (hg : g.Valid) (arr : List (List ℚ)) (hs : Shape g arr) (pts : List (ℚ × ℚ))
    (boundsError : Bool) (fill : Option (Bool × ℚ)) (hfill : ∀ f, fill = some f → f.1 = false)
    (hin : boundsError = true → ∀ p ∈ pts, Between g.ax.lo g.ax.hi p.1 ∧ Between g.ay.lo g.ay.hi p.2) :
    ∃ vs, samplePoints 0 g arr pts boundsError fill = .ok vs ∧
      List.Forall₂ (Sampled g (Nearest g arr) boundsError fill) pts vs :=
  sample_core 0 g arr _ (value_nearest g hg arr hs) pts boundsError fill hfill hin

/-- C78: with `bounds_error`, sampling raises if any point is outside. -/
theorem sample_raises (order : Nat) (g : Grid) (arr : List (List ℚ)) (pts : List (ℚ × ℚ)) (fill : Option (Bool × ℚ)) (p : ℚ × ℚ)
    (hp : p ∈ pts) (hout : ¬ (Between g.ax.lo g.ax.hi p.1 ∧ Between g.ay.lo g.ay.hi p.2)) :
    samplePoints order g arr pts true fill = .error .valueError := by
  unfold samplePoints
  rw [if_pos]
  simp only [Bool.true_and, List.any_eq_true]
  refine ⟨p, hp, ?_⟩
  rw [← inbounds_xy_iff] at hout
  simpa using hout

/-- Every point has cells around it, so that the average is determined. -/
theorem around_exists (a : GAxis) (hn : 0 < a.n) (hne : a.lo ≠ a.hi) (x : ℚ) : ∃ c u, Around a x c u := by
  unfold Around
  by_cases h : a.n = 1
  · exact ⟨0, 0, by rw [if_pos h]; exact ⟨rfl, rfl⟩⟩
  · obtain ⟨c, u, hc⟩ := cell_exists a (by omega) hne x
    exact ⟨c, u, by rw [if_neg h]; exact hc⟩

private theorem cell_center (a : GAxis) (hn : 2 ≤ a.n) (c : Nat) (hc : c < a.n) :
    ∃ c' u, Cell a (cellCenter a.lo a.hi a.n c) c' u ∧ ((c' = c ∧ u = 0) ∨ (c = c' + 1 ∧ u = 1)) := by
  by_cases h : c + 1 < a.n
  · exact ⟨c, 0, ⟨h, by ring, Or.inl le_rfl, Or.inl (by norm_num)⟩, Or.inl ⟨rfl, rfl⟩⟩
  · obtain ⟨k, rfl⟩ : ∃ k, c = k + 1 := ⟨c - 1, by omega⟩
    exact ⟨k, 1, ⟨by omega, by push_cast; ring, Or.inl (by norm_num), Or.inl le_rfl⟩, Or.inr ⟨rfl, rfl⟩⟩

private theorem around_center (a : GAxis) (hn : 0 < a.n) (c : Nat) (hc : c < a.n) :
    ∃ c' u, Around a (cellCenter a.lo a.hi a.n c) c' u ∧ ((c' = c ∧ u = 0) ∨ (c = c' + 1 ∧ u = 1)) := by
  unfold Around
  by_cases h : a.n = 1
  · refine ⟨0, 0, by rw [if_pos h]; exact ⟨rfl, rfl⟩, Or.inl ⟨by omega, rfl⟩⟩
  · obtain ⟨c', u, h1, h2⟩ := cell_center a (by omega) c hc
    exact ⟨c', u, by rw [if_neg h]; exact h1, h2⟩

/-- C78: at the centre of a cell the bilinear value is the value of that cell. -/
theorem sample_center (g : Grid) (hg : g.Valid) (arr : List (List ℚ)) (r c : Nat) (hr : r < g.ay.n) (hc : c < g.ax.n) (v : ℚ)
    (h : Bilinear g arr (cellCenter g.ax.lo g.ax.hi g.ax.n c, cellCenter g.ay.lo g.ay.hi g.ay.n r) v) : v = cell arr r c := by
  obtain ⟨c', u, h1, h2⟩ := around_center g.ax hg.nx c hc
  obtain ⟨r', w, h3, h4⟩ := around_center g.ay hg.ny r hr
  rw [h c' u r' w h1 h3]
  rcases h2 with ⟨rfl, rfl⟩ | ⟨rfl, rfl⟩ <;> rcases h4 with ⟨rfl, rfl⟩ | ⟨rfl, rfl⟩ <;> ring

/-- C78: a raster whose values are a linear function of the coordinates is sampled exactly, everywhere. -/
theorem sample_plane (g : Grid) (hg : g.Valid) (hx : 1 < g.ax.n) (hy : 1 < g.ay.n) (arr : List (List ℚ)) (A B C : ℚ)
    (harr : ∀ r < g.ay.n, ∀ c < g.ax.n, cell arr r c =
      A + B * cellCenter g.ax.lo g.ax.hi g.ax.n c + C * cellCenter g.ay.lo g.ay.hi g.ay.n r) (p : ℚ × ℚ) (v : ℚ)
    (h : Bilinear g arr p v) : v = A + B * p.1 + C * p.2 := by
  obtain ⟨c, u, hc⟩ := around_exists g.ax hg.nx hg.x p.1
  obtain ⟨r, w, hr⟩ := around_exists g.ay hg.ny hg.y p.2
  rw [h c u r w hc hr]
  unfold Around at hc hr
  rw [if_neg (by omega)] at hc hr
  obtain ⟨c1, c2, -, -⟩ := hc
  obtain ⟨r1, r2, -, -⟩ := hr
  rw [harr r (by omega) c (by omega), harr r (by omega) (c + 1) (by omega), harr (r + 1) (by omega) c (by omega),
    harr (r + 1) (by omega) (c + 1) (by omega), c2, r2]
  push_cast
  ring

/-- C78 fails for an integer fill value: samples inside are truncated to integers, though no point is outside. -/
theorem sample_int_fill_violated : samplePoints 1 ⟨⟨0, 2, 2⟩, ⟨2, 0, 2⟩⟩ [[0, 1], [1, 2]] [(1, 1), (5 / 4, 1 / 2)] false (some (true, 0)) = .ok [1, 1] ∧
    samplePoints 1 ⟨⟨0, 2, 2⟩, ⟨2, 0, 2⟩⟩ [[0, 1], [1, 2]] [(1, 1), (5 / 4, 1 / 2)] false (some (false, 0)) = .ok [1, 7 / 4] := by
  constructor <;> decide +kernel

/-- Other orders raise. -/
example : samplePoints 2 ⟨⟨0, 2, 2⟩, ⟨2, 0, 2⟩⟩ [[0, 1], [1, 2]] [(1, 1)] true none = .error .valueError := by decide +kernel

/-- A raster whose y decreases, sampled inside, beyond the last centre, on a corner, and outside. -/
example : samplePoints 1 ⟨⟨0, 30, 3⟩, ⟨20, 0, 2⟩⟩ [[1, 2, 4], [3, 5, 9]] [(10, 10), (30, 15), (0, 20), (31, 0)] false (some (false, -1)) =
    .ok [11 / 4, 5, -1 / 4, -1] := by decide +kernel

example : (⟨⟨0, 30, 3⟩, ⟨20, 0, 2⟩⟩ : Grid).Valid := ⟨by decide, by decide, by norm_num, by norm_num⟩
example : Shape ⟨⟨0, 30, 3⟩, ⟨20, 0, 2⟩⟩ [[1, 2, 4], [3, 5, 9]] := ⟨rfl, by decide⟩
example : Cell ⟨0, 30, 3⟩ 10 0 (1 / 2) := by unfold Cell cellCenter; norm_num
example : samplePoints 0 ⟨⟨0, 30, 3⟩, ⟨20, 0, 2⟩⟩ [[1, 2, 4], [3, 5, 9]] [(9, 10), (30, 15), (0, 20)] true none = .ok [3, 4, 1] := by decide +kernel

/-! ### C79: grids -/

/-- C79: when sampling on a grid returns, the array of the raster is as before. -/
theorem sample_grid_unchanged_partial (spline : List (List ℚ) → ℚ → ℚ → ℚ) (line : ℚ → ℚ) (const M : ℚ) (order : Nat) (g : Grid) (c c' : Cells)
    (xs ys : List ℚ) (boundsError : Bool) (fill : Option (Option ℚ)) (s : Cells)
    (h : sampleGrid spline line const M order g c xs ys boundsError fill = (.ok s, c')) : c' = c := by
  unfold sampleGrid at h
  simp only [] at h
  split at h
  · cases h
  · have key : ∀ e s c', (if 1 < g.ax.n ∧ 1 < g.ay.n then sampleSpline spline M order g c xs ys else (.ok (sampleThin g line const xs ys), c)) = (e, c') →
        e = .ok s → c' = c := by
      intro e s c' h1 h2
      split at h1
      · unfold sampleSpline at h1
        split at h1
        · cases h1; cases h2
        · cases h1; rfl
      · cases h1; rfl
    generalize hr : (if 1 < g.ax.n ∧ 1 < g.ay.n then sampleSpline spline M order g c xs ys else (.ok (sampleThin g line const xs ys), c)) = r at h key
    obtain ⟨e, c''⟩ := r
    cases e with
    | error e =>
      cases boundsError <;> cases fill <;> simp at h
    | ok s' =>
      have := key _ s' c'' rfl rfl
      cases boundsError <;> cases fill <;> simp at h
      · rw [← h.2, this]
      · rw [← h.2, this]
      · rw [← h.2, this]
      · rw [← h.2, this]

/-- C79 fails when sampling raises: the missing cells have been replaced by the lowest number of the type (here by -1000)
and stay so. Order 0 raises, as do orders not less than the size and coordinates that are not monotone. -/
theorem sample_grid_error_violated (spline : List (List ℚ) → ℚ → ℚ → ℚ) (line : ℚ → ℚ) (const : ℚ) :
    sampleGrid spline line const (-1000) 0 ⟨⟨0, 2, 2⟩, ⟨2, 0, 2⟩⟩ [[some 1, none], [some 2, some 3]] [1] [1] true none =
      (.error .valueError, [[some 1, some (-1000)], [some 2, some 3]]) := by
  have h1 : (⟨⟨0, 2, 2⟩, ⟨2, 0, 2⟩⟩ : Grid).inboundsVectors [1] [1] = ([true], [true]) := by decide +kernel
  unfold sampleGrid
  simp only [h1]
  unfold sampleSpline
  simp [corrupted, replaceMissing]

/-- The values on a grid: the fill value if used and the point is outside; else the value of the spline, missing if this
is less than all values of the raster. -/
def GridValue (spline : List (List ℚ) → ℚ → ℚ → ℚ) (M : ℚ) (g : Grid) (c : Cells) (boundsError : Bool) (fill : Option (Option ℚ)) (x y : ℚ)
    (v : Option ℚ) : Prop :=
  (∃ f, boundsError = false ∧ fill = some f ∧ ¬ (Between g.ax.lo g.ax.hi x ∧ Between g.ay.lo g.ay.hi y) ∧ v = f) ∨
  ((boundsError = true ∨ fill = none ∨ (Between g.ax.lo g.ax.hi x ∧ Between g.ay.lo g.ay.hi y)) ∧
    ((v = some (spline (replaceMissing M c) x y) ∧ ∀ row ∈ c, ∀ z, some z ∈ row → ∃ row' ∈ c, ∃ z', some z' ∈ row' ∧ z' ≤ spline (replaceMissing M c) x y) ∨
     (v = none ∧ (∃ row ∈ c, ∃ z, some z ∈ row) ∧ ∀ row ∈ c, ∀ z, some z ∈ row → spline (replaceMissing M c) x y < z)))

private theorem nanmin_none (c : Cells) (h : nanmin c = none) : ∀ row ∈ c, ∀ z, some z ∉ row := by
  intro row hr z hz
  unfold nanmin at h
  rw [List.min?_eq_none_iff, List.filterMap_eq_nil_iff] at h
  have := h (some z) (List.mem_flatten.2 ⟨row, hr, hz⟩)
  simp at this

private theorem nanmin_some (c : Cells) (m : ℚ) (h : nanmin c = some m) :
    (∃ row ∈ c, some m ∈ row) ∧ ∀ row ∈ c, ∀ z, some z ∈ row → m ≤ z := by
  unfold nanmin at h
  rw [List.min?_eq_some_iff] at h
  refine ⟨?_, fun row hr z hz => h.2 z ?_⟩
  · obtain ⟨o, ho, he⟩ := List.mem_filterMap.1 h.1
    obtain ⟨row, hr, ho⟩ := List.mem_flatten.1 ho
    simp only [id] at he
    exact ⟨row, hr, he ▸ ho⟩
  · exact List.mem_filterMap.2 ⟨some z, List.mem_flatten.2 ⟨row, hr, hz⟩, rfl⟩

private theorem spline_value (spline : List (List ℚ) → ℚ → ℚ → ℚ) (M : ℚ) (c : Cells) (x y : ℚ) (v : Option ℚ)
    (h : v = (let w := spline (replaceMissing M c) x y
      match nanmin c with
      | some z => if w < z then none else some w
      | none => some w)) :
    (v = some (spline (replaceMissing M c) x y) ∧ ∀ row ∈ c, ∀ z, some z ∈ row → ∃ row' ∈ c, ∃ z', some z' ∈ row' ∧ z' ≤ spline (replaceMissing M c) x y) ∨
     (v = none ∧ (∃ row ∈ c, ∃ z, some z ∈ row) ∧ ∀ row ∈ c, ∀ z, some z ∈ row → spline (replaceMissing M c) x y < z) := by
  simp only [] at h
  cases hm : nanmin c with
  | none =>
    rw [hm] at h
    exact Or.inl ⟨h, fun row hr z hz => absurd hz (nanmin_none c hm row hr z)⟩
  | some m =>
    rw [hm] at h
    obtain ⟨⟨row, hr, hz⟩, hmin⟩ := nanmin_some c m hm
    simp only [] at h
    split at h
    · rename_i hlt
      exact Or.inr ⟨h, ⟨row, hr, m, hz⟩, fun row hr z hz => lt_of_lt_of_le hlt (hmin row hr z hz)⟩
    · rename_i hlt
      exact Or.inl ⟨h, fun _ _ _ _ => ⟨row, hr, m, hz, not_lt.1 hlt⟩⟩

/-- C79: for a raster with at least two rows and columns, sampling at monotone coordinates returns a row for each y and in
each row a value for each x. -/
theorem sample_grid_partial (spline : List (List ℚ) → ℚ → ℚ → ℚ) (line : ℚ → ℚ) (const M : ℚ) (order : Nat) (g : Grid) (c : Cells)
    (xs ys : List ℚ) (boundsError : Bool) (fill : Option (Option ℚ)) (hx : 1 < g.ax.n) (hy : 1 < g.ay.n) (ho : 1 ≤ order ∧ order ≤ 5)
    (hox : order < g.ax.n) (hoy : order < g.ay.n) (hmx : monotone xs = true) (hmy : monotone ys = true)
    (hin : boundsError = true → (∀ x ∈ xs, Between g.ax.lo g.ax.hi x) ∧ ∀ y ∈ ys, Between g.ay.lo g.ay.hi y) :
    ∃ s, sampleGrid spline line const M order g c xs ys boundsError fill = (.ok s, c) ∧
      List.Forall₂ (fun y row => List.Forall₂ (fun x v => GridValue spline M g c boundsError fill x y v) xs row) ys s := by
  unfold sampleGrid
  have hbx : ∀ x, (decide (g.ax.min ≤ x) && decide (x ≤ g.ax.max)) = true ↔ Between g.ax.lo g.ax.hi x := fun x => by
    rw [GAxis.between_iff]; simp
  have hby : ∀ y, (decide (g.ay.min ≤ y) && decide (y ≤ g.ay.max)) = true ↔ Between g.ay.lo g.ay.hi y := fun y => by
    rw [GAxis.between_iff]; simp
  have hcond : (boundsError && ((g.inboundsVectors xs ys).1.any (!·) || (g.inboundsVectors xs ys).2.any (!·))) = false := by
    cases boundsError with
    | false => rfl
    | true =>
      obtain ⟨h1, h2⟩ := hin rfl
      rw [Bool.true_and, Bool.or_eq_false_iff]
      unfold Grid.inboundsVectors
      constructor
      · rw [List.any_eq_false]
        intro b hb
        obtain ⟨x, hx, rfl⟩ := List.mem_map.1 hb
        rw [(hbx x).2 (h1 x hx)]; simp
      · rw [List.any_eq_false]
        intro b hb
        obtain ⟨x, hx, rfl⟩ := List.mem_map.1 hb
        rw [(hby x).2 (h2 x hx)]; simp
  simp only [hcond, Bool.false_eq_true, if_false, if_pos (And.intro hx hy)]
  unfold sampleSpline
  rw [if_neg (by rw [hmx, hmy]; simp; omega)]
  have main : ∀ y x, ∀ v, (v = (let w := spline (replaceMissing M c) x y
      match nanmin c with
      | some z => if w < z then none else some w
      | none => some w)) → (boundsError = true ∨ fill = none ∨ (Between g.ax.lo g.ax.hi x ∧ Between g.ay.lo g.ay.hi y)) →
      GridValue spline M g c boundsError fill x y v := fun y x v h1 h2 => Or.inr ⟨h2, spline_value spline M c x y v h1⟩
  have plain : (boundsError = true ∨ fill = none) → List.Forall₂ (fun y row => List.Forall₂ (fun x v => GridValue spline M g c boundsError fill x y v) xs row) ys
      (ys.map fun y => xs.map fun x =>
      let v := spline (replaceMissing M c) x y
      match nanmin c with
      | some z => if v < z then none else some v
      | none => some v) := by
    intro h
    rw [List.forall₂_map_right_iff, List.forall₂_same]
    intro y _
    rw [List.forall₂_map_right_iff, List.forall₂_same]
    intro x _
    exact main y x _ rfl (by rcases h with h | h; exacts [Or.inl h, Or.inr (Or.inl h)])
  cases boundsError with
  | true => exact ⟨_, rfl, plain (Or.inl rfl)⟩
  | false =>
    cases fill with
    | none => exact ⟨_, rfl, plain (Or.inr rfl)⟩
    | some f =>
      simp only [fillOut]
      rw [if_neg (by
        unfold Grid.inboundsVectors
        simp only [List.length_map, ne_eq, not_true_eq_false, false_or, not_exists, not_and, not_not]
        intro r hr
        obtain ⟨y, _, rfl⟩ := List.mem_map.1 hr
        simp)]
      refine ⟨_, rfl, ?_⟩
      unfold Grid.inboundsVectors
      simp only [List.zipWith_map, List.zipWith_self]
      rw [List.forall₂_map_right_iff, List.forall₂_same]
      intro y _
      rw [List.forall₂_map_right_iff, List.forall₂_same]
      intro x _
      by_cases hb : Between g.ax.lo g.ax.hi x ∧ Between g.ay.lo g.ay.hi y
      · rw [(hbx x).2 hb.1, (hby y).2 hb.2]
        exact main y x _ rfl (Or.inr (Or.inr hb))
      · left
        refine ⟨f, rfl, rfl, hb, ?_⟩
        rw [if_neg]
        intro h
        rw [Bool.and_eq_true] at h
        exact hb ⟨(hbx x).1 h.2, (hby y).1 h.1⟩

/-- C79: with `bounds_error`, sampling raises if any coordinate is outside, and the array is as before. -/
theorem sample_grid_raises (spline : List (List ℚ) → ℚ → ℚ → ℚ) (line : ℚ → ℚ) (const M : ℚ) (order : Nat) (g : Grid) (c : Cells)
    (xs ys : List ℚ) (fill : Option (Option ℚ)) (h : (∃ x ∈ xs, ¬ Between g.ax.lo g.ax.hi x) ∨ ∃ y ∈ ys, ¬ Between g.ay.lo g.ay.hi y) :
    sampleGrid spline line const M order g c xs ys true fill = (.error .valueError, c) := by
  unfold sampleGrid
  simp only []
  rw [if_pos]
  rw [Bool.true_and, Bool.or_eq_true, List.any_eq_true, List.any_eq_true]
  unfold Grid.inboundsVectors
  rcases h with ⟨x, hx, hb⟩ | ⟨y, hy, hb⟩
  · left
    refine ⟨_, List.mem_map.2 ⟨x, hx, rfl⟩, ?_⟩
    rw [GAxis.between_iff, not_and_or] at hb
    simpa using hb
  · right
    refine ⟨_, List.mem_map.2 ⟨y, hy, rfl⟩, ?_⟩
    rw [GAxis.between_iff, not_and_or] at hb
    simpa using hb

/-- C79 fails for a raster with one row: the array has as many rows as columns were asked for, not as rows. -/
theorem sample_grid_shape_violated (spline : List (List ℚ) → ℚ → ℚ → ℚ) :
    sampleGrid spline (fun x => x) 0 (-1000) 1 ⟨⟨0, 3, 3⟩, ⟨1, 0, 1⟩⟩ [[some 1, some 2, some 3]] [1, 2, 3] [1 / 2] true none =
      (.ok [[some 1, some 2, some 3], [some 1, some 2, some 3], [some 1, some 2, some 3]], [[some 1, some 2, some 3]]) := by
  have h1 : (⟨⟨0, 3, 3⟩, ⟨1, 0, 1⟩⟩ : Grid).inboundsVectors [1, 2, 3] [1 / 2] = ([true, true, true], [true]) := by decide +kernel
  unfold sampleGrid
  simp only [h1]
  simp [sampleThin, List.replicate]

/-- C79 fails for a raster with one cell: rows and columns are exchanged (two x and one y give two rows), and filling
raises. -/
theorem sample_grid_cell_violated (spline : List (List ℚ) → ℚ → ℚ → ℚ) :
    sampleGrid spline (fun x => x) 7 (-1000) 1 ⟨⟨0, 1, 1⟩, ⟨1, 0, 1⟩⟩ [[some 7]] [0, 1] [1 / 2] true none = (.ok [[some 7], [some 7]], [[some 7]]) ∧
    sampleGrid spline (fun x => x) 7 (-1000) 1 ⟨⟨0, 1, 1⟩, ⟨1, 0, 1⟩⟩ [[some 7]] [0, 1] [1 / 2] false (some (some 0)) = (.error .indexError, [[some 7]]) := by
  have h1 : (⟨⟨0, 1, 1⟩, ⟨1, 0, 1⟩⟩ : Grid).inboundsVectors [0, 1] [1 / 2] = ([true, true], [true]) := by decide +kernel
  unfold sampleGrid
  simp only [h1]
  refine ⟨by simp [sampleThin, List.replicate], ?_⟩
  simp only [fillOut, h1]
  simp [sampleThin, List.replicate]

/-- C79 fails between the outer centres and the border: where the surface continues below the lowest cell, sampling on the
grid returns missing values though no cell is missing, and sampling the same point alone returns the value. (For order 1
the spline continues the outer planes.) -/
theorem sample_grid_low_violated :
    sampleGrid (fun a x y => linear2 [1 / 2, 3 / 2] [1 / 2, 3 / 2] (orientT false true 2 a) (x, y)) (fun x => x) 0 (-1000) 1
      ⟨⟨0, 2, 2⟩, ⟨2, 0, 2⟩⟩ [[some 0, some 1], [some 0, some 1]] [0, 1] [1] true none = (.ok [[none, some (1 / 2)]], [[some 0, some 1], [some 0, some 1]]) ∧
    samplePoints 1 ⟨⟨0, 2, 2⟩, ⟨2, 0, 2⟩⟩ [[0, 1], [0, 1]] [(0, 1), (1, 1)] true none = .ok [-1 / 2, 1 / 2] := by
  constructor <;> decide +kernel

example : monotone [3, 2, 1] = true ∧ (∀ x ∈ [3, 2, 1], Between 0 4 x) := by
  refine ⟨by decide +kernel, fun x hx => ?_⟩
  unfold Between; rcases (by simpa using hx : x = 3 ∨ x = 2 ∨ x = 1) with rfl | rfl | rfl <;> norm_num

/-! ### C80: gradient -/

theorem gradient1_get (h : ℚ) (v : List ℚ) (i : Nat) (hi : i < v.length) :
    (gradient1 h v).getD i 0 = if i = 0 then (v.getD 1 0 - v.getD 0 0) / h
      else if i + 1 = v.length then (v.getD i 0 - v.getD (i - 1) 0) / h
      else (v.getD (i + 1) 0 - v.getD (i - 1) 0) / (2 * h) := by
  unfold gradient1
  rw [List.getD_eq_getElem?_getD, List.getElem?_map, List.getElem?_range hi]; rfl

private theorem gradient1_line (h : ℚ) (hh : h ≠ 0) (v : List ℚ) (hl : 2 ≤ v.length) (A B : ℚ)
    (hv : ∀ i < v.length, v.getD i 0 = A + B * (i * h)) (i : Nat) (hi : i < v.length) : (gradient1 h v).getD i 0 = B := by
  rw [gradient1_get h v i hi]
  split
  · rw [hv 1 (by omega), hv 0 (by omega)]; push_cast; field_simp; ring
  · obtain ⟨k, rfl⟩ : ∃ k, i = k + 1 := ⟨i - 1, by omega⟩
    rw [Nat.add_sub_cancel]
    split
    · rw [hv (k + 1) (by omega), hv k (by omega)]; push_cast; field_simp; ring
    · rw [hv (k + 1 + 1) (by omega), hv k (by omega)]; push_cast; field_simp; ring

private theorem gradient1_quadratic (h : ℚ) (hh : h ≠ 0) (v : List ℚ) (A B C : ℚ)
    (hv : ∀ i < v.length, v.getD i 0 = A + B * (i * h) + C * (i * h) ^ 2) (i : Nat) (h0 : 0 < i) (hi : i + 1 < v.length) :
    (gradient1 h v).getD i 0 = B + 2 * C * (i * h) := by
  rw [gradient1_get h v i (by omega), if_neg (by omega), if_neg (by omega)]
  obtain ⟨k, rfl⟩ : ∃ k, i = k + 1 := ⟨i - 1, by omega⟩
  rw [Nat.add_sub_cancel, hv (k + 1 + 1) (by omega), hv k (by omega)]; push_cast; field_simp; ring

theorem gradient_cells (g : Grid) (arr : List (List ℚ)) (hs : Shape g arr) (hx : 2 ≤ g.ax.n) (hy : 2 ≤ g.ay.n) :
    ∃ gx gy, gradient g arr = .ok (gx, gy) ∧ Shape g gx ∧ Shape g gy ∧ ∀ r < g.ay.n, ∀ c < g.ax.n,
      cell gx r c = (gradient1 g.ax.d (arr.getD r [])).getD c 0 ∧
      cell gy r c = (gradient1 g.ay.d (arr.map fun r => r.getD c 0)).getD r 0 := by
  unfold gradient
  rw [if_neg (by omega)]
  refine ⟨_, _, rfl, ⟨by simp [hs.rows], ?_⟩, ⟨by simp, ?_⟩, fun r hr c hc => ⟨?_, ?_⟩⟩
  · intro l hl
    obtain ⟨r, hr, rfl⟩ := List.mem_map.1 hl
    simp [gradient1, hs.cols r hr]
  · intro l hl
    obtain ⟨r, hr, rfl⟩ := List.mem_map.1 hl
    simp
  · unfold cell
    rw [List.getD_eq_getElem?_getD (l := List.map _ _), List.getElem?_map, List.getD_eq_getElem?_getD (l := arr),
      List.getElem?_eq_getElem (by rw [hs.rows]; exact hr)]
    rfl
  · unfold cell
    rw [List.getD_eq_getElem?_getD (l := List.map _ _), List.getElem?_map, List.getElem?_range hr]
    simp only [Option.map_some, Option.getD_some]
    rw [List.getD_eq_getElem?_getD (l := List.map _ _), List.getElem?_map, List.getElem?_map, List.getElem?_range hc]
    rfl

private theorem row_of (g : Grid) (arr : List (List ℚ)) (hs : Shape g arr) (r : Nat) (hr : r < g.ay.n) : (arr.getD r []).length = g.ax.n := by
  rw [List.getD_eq_getElem?_getD, List.getElem?_eq_getElem (by rw [hs.rows]; exact hr)]
  exact hs.cols _ (List.getElem_mem _)

private theorem col_of (arr : List (List ℚ)) (c r : Nat) : (arr.map fun r => r.getD c 0).getD r 0 = cell arr r c := by
  unfold cell
  rw [List.getD_eq_getElem?_getD, List.getElem?_map, List.getD_eq_getElem?_getD (l := arr)]
  cases arr[r]? <;> rfl

/-- C80: of a raster whose values are a linear function of the coordinates, the gradient is this function's in every cell,
borders included, for either direction of the axes. -/
theorem gradient_plane (g : Grid) (hg : g.Valid) (hx : 2 ≤ g.ax.n) (hy : 2 ≤ g.ay.n) (arr : List (List ℚ)) (hs : Shape g arr) (A B C : ℚ)
    (harr : ∀ r < g.ay.n, ∀ c < g.ax.n, cell arr r c =
      A + B * cellCenter g.ax.lo g.ax.hi g.ax.n c + C * cellCenter g.ay.lo g.ay.hi g.ay.n r) :
    ∃ gx gy, gradient g arr = .ok (gx, gy) ∧ Shape g gx ∧ Shape g gy ∧
      ∀ r < g.ay.n, ∀ c < g.ax.n, cell gx r c = B ∧ cell gy r c = C := by
  obtain ⟨gx, gy, h1, h2, h3, h4⟩ := gradient_cells g arr hs hx hy
  refine ⟨gx, gy, h1, h2, h3, fun r hr c hc => ?_⟩
  obtain ⟨e1, e2⟩ := h4 r hr c hc
  have hrow := row_of g arr hs r hr
  constructor
  · rw [e1]
    refine gradient1_line g.ax.d (GAxis.d_ne hg.nx hg.x) _ (by omega)
      (A + B * (g.ax.d / 2 + g.ax.lo) + C * cellCenter g.ay.lo g.ay.hi g.ay.n r) B (fun i hi => ?_) c (by omega)
    have := harr r hr i (by omega)
    unfold cell at this
    rw [this, GAxis.cellCenter_eq hg.nx]; push_cast; ring
  · rw [e2]
    refine gradient1_line g.ay.d (GAxis.d_ne hg.ny hg.y) _ (by simp [hs.rows]; omega)
      (A + C * (g.ay.d / 2 + g.ay.lo) + B * cellCenter g.ax.lo g.ax.hi g.ax.n c) C (fun i hi => ?_) r (by simp [hs.rows]; omega)
    have hi' : i < g.ay.n := by simpa [hs.rows] using hi
    rw [col_of, harr i hi' c hc, GAxis.cellCenter_eq hg.ny]; push_cast; ring

/-- C80: inside, the gradient is also exact for surfaces quadratic in x and in y. -/
theorem gradient_quadratic (g : Grid) (hg : g.Valid) (hx : 2 ≤ g.ax.n) (hy : 2 ≤ g.ay.n) (arr : List (List ℚ)) (hs : Shape g arr)
    (A B C D E : ℚ)
    (harr : ∀ r < g.ay.n, ∀ c < g.ax.n, cell arr r c =
      A + B * cellCenter g.ax.lo g.ax.hi g.ax.n c + C * cellCenter g.ax.lo g.ax.hi g.ax.n c ^ 2 +
      D * cellCenter g.ay.lo g.ay.hi g.ay.n r + E * cellCenter g.ay.lo g.ay.hi g.ay.n r ^ 2) :
    ∃ gx gy, gradient g arr = .ok (gx, gy) ∧
      (∀ r < g.ay.n, ∀ c, 0 < c → c + 1 < g.ax.n → cell gx r c = B + 2 * C * cellCenter g.ax.lo g.ax.hi g.ax.n c) ∧
      (∀ c < g.ax.n, ∀ r, 0 < r → r + 1 < g.ay.n → cell gy r c = D + 2 * E * cellCenter g.ay.lo g.ay.hi g.ay.n r) := by
  obtain ⟨gx, gy, h1, -, -, h4⟩ := gradient_cells g arr hs hx hy
  refine ⟨gx, gy, h1, fun r hr c h0 hc => ?_, fun c hc r h0 hr => ?_⟩
  · rw [(h4 r hr c (by omega)).1]
    have hrow := row_of g arr hs r hr
    rw [gradient1_quadratic g.ax.d (GAxis.d_ne hg.nx hg.x) _
      (A + B * (g.ax.d / 2 + g.ax.lo) + C * (g.ax.d / 2 + g.ax.lo) ^ 2 + D * cellCenter g.ay.lo g.ay.hi g.ay.n r + E * cellCenter g.ay.lo g.ay.hi g.ay.n r ^ 2)
      (B + 2 * C * (g.ax.d / 2 + g.ax.lo)) C (fun i hi => ?_) c h0 (by omega), GAxis.cellCenter_eq hg.nx]
    · push_cast; ring
    · have := harr r hr i (by omega)
      unfold cell at this
      rw [this, GAxis.cellCenter_eq hg.nx]; push_cast; ring
  · rw [(h4 r (by omega) c hc).2]
    rw [gradient1_quadratic g.ay.d (GAxis.d_ne hg.ny hg.y) _
      (A + D * (g.ay.d / 2 + g.ay.lo) + E * (g.ay.d / 2 + g.ay.lo) ^ 2 + B * cellCenter g.ax.lo g.ax.hi g.ax.n c + C * cellCenter g.ax.lo g.ax.hi g.ax.n c ^ 2)
      (D + 2 * E * (g.ay.d / 2 + g.ay.lo)) E (fun i hi => ?_) r h0 (by simp [hs.rows]; omega), GAxis.cellCenter_eq hg.ny]
    · push_cast; ring
    · have hi' : i < g.ay.n := by simpa [hs.rows] using hi
      rw [col_of, harr i hi' c hc, GAxis.cellCenter_eq hg.ny]; push_cast; ring

/-- C80: a raster with a single row or column raises. -/
theorem gradient_raises (g : Grid) (arr : List (List ℚ)) (h : g.ax.n < 2 ∨ g.ay.n < 2) : gradient g arr = .error .valueError := by
  unfold gradient; rw [if_pos h]

example : gradient ⟨⟨0, 30, 3⟩, ⟨20, 0, 2⟩⟩ [[1, 21, 41], [2, 22, 42]] = .ok ([[2, 2, 2], [2, 2, 2]], [[-1 / 10, -1 / 10, -1 / 10], [-1 / 10, -1 / 10, -1 / 10]]) := by
  decide +kernel

end Glimpse.Sample
