import Verif.Model.InterpLine
import Verif.Props.BooleanSplit
import Verif.Lemmas.ExceptList
import Mathlib.Tactic.Ring
import Mathlib.Tactic.FieldSimp
import Mathlib.Tactic.Linarith
import Mathlib.Data.List.GetD

/-!
C71: line controls are compared with the nearest point of the projected lines. C72: `interpolate_line` returns the points
at the given distances along the line.
-/
set_option autoImplicit false
set_option linter.unusedSimpArgs false
set_option linter.unusedSectionVars false

namespace Glimpse.Interp

/-! ### Specification -/

/-- The point at distance `q` along a line with `vertices` at distances `x`: on the segment whose ends are at or before
and at or beyond `q`, at the corresponding fraction of the segment. Coordinates by index. -/
def AtDistance (d : Nat) (x : List ℚ) (vertices : List (List ℚ)) (q : ℚ) (p : List ℚ) : Prop :=
  p.length = d ∧ ∃ k a b v w, x[k]? = some a ∧ x[k + 1]? = some b ∧ vertices[k]? = some v ∧ vertices[k + 1]? = some w ∧
    a ≤ q ∧ q ≤ b ∧ ∀ i < d, p.getD i 0 = v.getD i 0 + (q - a) / (b - a) * (w.getD i 0 - v.getD i 0)

/-! ### Interpolation -/

private theorem interp_total (q : ℚ) (l : List (ℚ × ℚ)) (h : l ≠ []) : ∃ v, interp q l = .ok v := by
  induction l with
  | nil => exact absurd rfl h
  | cons a l ih =>
    obtain ⟨x0, f0⟩ := a
    cases l with
    | nil => exact ⟨f0, rfl⟩
    | cons b r =>
      obtain ⟨x1, f1⟩ := b
      rw [interp]
      split
      · split <;> exact ⟨_, rfl⟩
      · exact ih (by simp)

private theorem interp_before (q x0 f0 : ℚ) (l : List (ℚ × ℚ)) (hx : ((x0, f0) :: l).Pairwise fun p r => p.1 < r.1) (hq : q ≤ x0) :
    interp q ((x0, f0) :: l) = .ok f0 := by
  cases l with
  | nil => rfl
  | cons b r =>
    obtain ⟨x1, f1⟩ := b
    have h1 : x0 < x1 := (List.pairwise_cons.1 hx).1 (x1, f1) List.mem_cons_self
    rw [interp, if_pos (lt_of_le_of_lt hq h1)]
    rcases lt_or_eq_of_le hq with h | h
    · rw [if_pos h]
    · subst h; simp

private theorem interp_beyond (q : ℚ) (l : List (ℚ × ℚ)) (b : ℚ × ℚ) (hb : l.getLast? = some b)
    (hx : l.Pairwise fun p r => p.1 < r.1) (hq : b.1 ≤ q) : interp q l = .ok b.2 := by
  induction l with
  | nil => cases hb
  | cons a l ih =>
    obtain ⟨x0, f0⟩ := a
    cases l with
    | nil =>
      simp at hb
      subst hb; rfl
    | cons c r =>
      obtain ⟨x1, f1⟩ := c
      rw [List.getLast?_cons_cons] at hb
      have hp := (List.pairwise_cons.1 hx).2
      have : x1 ≤ q := by
        have hm : b ∈ (x1, f1) :: r := List.mem_of_getLast? hb
        rcases List.mem_cons.1 hm with h | h
        · rw [h] at hq; exact hq
        · exact le_trans ((List.pairwise_cons.1 hp).1 b h).le hq
      rw [interp, if_neg (not_lt.2 this)]
      exact ih hb hp

private theorem interp_segment (l : List (ℚ × ℚ)) (hx : l.Pairwise fun p r => p.1 < r.1) (k : Nat) (a b : ℚ × ℚ)
    (ha : l[k]? = some a) (hb : l[k + 1]? = some b) (q : ℚ) (h1 : a.1 ≤ q) (h2 : q ≤ b.1) :
    interp q l = .ok (a.2 + (q - a.1) / (b.1 - a.1) * (b.2 - a.2)) := by
  induction l generalizing k with
  | nil => simp at ha
  | cons c l ih =>
    obtain ⟨x0, f0⟩ := c
    cases l with
    | nil => simp at hb
    | cons e r =>
      obtain ⟨x1, f1⟩ := e
      have hp := (List.pairwise_cons.1 hx).2
      cases k with
      | zero =>
        simp at ha hb
        subst ha hb
        simp only at h1 h2 ⊢
        have h01 : x0 < x1 := (List.pairwise_cons.1 hx).1 (x1, f1) List.mem_cons_self
        rcases lt_or_eq_of_le h2 with h | h
        · rw [interp, if_pos h, if_neg (not_lt.2 h1)]
          congr 1; ring
        · subst h
          rw [interp, if_neg (lt_irrefl _), interp_before _ _ _ _ hp (le_refl _)]
          have : q - x0 ≠ 0 := by linarith [sub_pos.2 h01]
          rw [div_self this]
          congr 1; ring
      | succ k =>
        have ha' : ((x1, f1) :: r)[k]? = some a := by simpa using ha
        have hb' : ((x1, f1) :: r)[k + 1]? = some b := by simpa using hb
        have hle : x1 ≤ a.1 := by
          have hm := List.mem_of_getElem? ha'
          rcases List.mem_cons.1 hm with h | h
          · rw [h]
          · exact ((List.pairwise_cons.1 hp).1 a h).le
        rw [interp, if_neg (not_lt.2 (le_trans hle h1))]
        exact ih hp k ha' hb'

private theorem row_exists (d : Nat) (pts : List (ℚ × List ℚ)) (h : pts ≠ []) (q : ℚ) :
    ∃ row, rowAt d pts q = .ok row ∧ row.length = d ∧
      ∀ i < d, interp q (pts.map fun p => (p.1, p.2.getD i 0)) = .ok (row.getD i 0) := by
  have key : ∀ (l : List Nat), ∃ row : List ℚ, (l.mapM fun i => interp q (pts.map fun p => (p.1, p.2.getD i 0))) = .ok row ∧
      row.length = l.length ∧ ∀ k i, l[k]? = some i → interp q (pts.map fun p => (p.1, p.2.getD i 0)) = .ok (row.getD k 0) := by
    intro l
    induction l with
    | nil => exact ⟨[], rfl, rfl, by simp⟩
    | cons i l ih =>
      obtain ⟨row, h1, h2, h3⟩ := ih
      obtain ⟨v, hv⟩ := interp_total q (pts.map fun p => (p.1, p.2.getD i 0)) (by simpa using h)
      refine ⟨v :: row, ?_, by simp [h2], ?_⟩
      · rw [List.mapM_cons, hv, h1]; rfl
      · intro k j hk
        cases k with
        | zero => simp at hk; subst hk; simpa using hv
        | succ k => simpa using h3 k j (by simpa using hk)
  obtain ⟨row, h1, h2, h3⟩ := key (List.range d)
  refine ⟨row, h1, by simpa using h2, ?_⟩
  intro i hi
  exact h3 i i (by simp [hi])

private theorem rows_exist (d : Nat) (pts : List (ℚ × List ℚ)) (h : pts ≠ []) (qs : List ℚ) :
    ∃ rows, qs.mapM (rowAt d pts) = .ok rows ∧ List.Forall₂ (fun q row => rowAt d pts q = .ok row) qs rows := by
  induction qs with
  | nil => exact ⟨[], rfl, .nil⟩
  | cons q qs ih =>
    obtain ⟨row, h1, _⟩ := row_exists d pts h q
    obtain ⟨rows, h2, h3⟩ := ih
    exact ⟨row :: rows, by rw [List.mapM_cons, h1, h2]; rfl, .cons h1 h3⟩

private theorem zip_pairwise (x : List ℚ) (vs : List (List ℚ)) (hx : x.Pairwise (· < ·)) :
    (x.zip vs).Pairwise fun p r => p.1 < r.1 := by
  induction x generalizing vs with
  | nil => simp
  | cons a x ih =>
    cases vs with
    | nil => simp
    | cons v vs =>
      rw [List.zip_cons_cons, List.pairwise_cons]
      refine ⟨?_, ih vs (List.pairwise_cons.1 hx).2⟩
      intro p hp
      exact (List.pairwise_cons.1 hx).1 p.1 (List.of_mem_zip (a := p.1) (b := p.2) hp).1

private theorem ordered_increasing (x : List ℚ) (vs : List (List ℚ)) (hx : x.Pairwise (· < ·)) : ordered x vs = x.zip vs := by
  match x, hx with
  | [], _ => rfl
  | [a], _ => rfl
  | a :: b :: r, hx =>
    have : a < b := (List.pairwise_cons.1 hx).1 b List.mem_cons_self
    simp only [ordered]
    rw [if_neg (not_lt.2 this.le)]

private theorem bracket (x : List ℚ) (a b q : ℚ) (ha : x.head? = some a) (hb : x.getLast? = some b) (h1 : a ≤ q) (h2 : q ≤ b)
    (hl : 2 ≤ x.length) : ∃ k u v, x[k]? = some u ∧ x[k + 1]? = some v ∧ u ≤ q ∧ q ≤ v := by
  induction x generalizing a with
  | nil => cases ha
  | cons c x ih =>
    simp at ha
    subst ha
    cases x with
    | nil => simp at hl
    | cons e r =>
      by_cases hq : q ≤ e
      · exact ⟨0, c, e, by simp, by simp, h1, hq⟩
      · rw [List.getLast?_cons_cons] at hb
        cases r with
        | nil =>
          simp at hb
          subst hb
          exact absurd h2 hq
        | cons f r =>
          obtain ⟨k, u, v, g1, g2, g3⟩ := ih e rfl hb (le_of_not_ge hq) (by simp)
          exact ⟨k + 1, u, v, by simpa using g1, by simpa using g2, g3⟩

/-- A row of the result, for a distance within the line. -/
private theorem row_at (d : Nat) (x : List ℚ) (vs : List (List ℚ)) (hlen : x.length = vs.length) (hx : x.Pairwise (· < ·))
    (hl : 2 ≤ x.length) (a b q : ℚ) (ha : x.head? = some a) (hb : x.getLast? = some b) (h1 : a ≤ q) (h2 : q ≤ b) (row : List ℚ)
    (hr : rowAt d (x.zip vs) q = .ok row) : AtDistance d x vs q row := by
  have hne : x.zip vs ≠ [] := by
    intro h
    have := congrArg List.length h
    rw [List.length_zip, List.length_nil] at this
    omega
  obtain ⟨row', g1, g2, g3⟩ := row_exists d (x.zip vs) hne q
  rw [hr] at g1
  cases g1
  obtain ⟨k, u, v, k1, k2, k3, k4⟩ := bracket x a b q ha hb h1 h2 hl
  have hk : k + 1 < vs.length := by
    rw [← hlen]
    by_contra h
    rw [List.getElem?_eq_none (by omega)] at k2; cases k2
  refine ⟨g2, k, u, v, vs[k], vs[k + 1], k1, k2, List.getElem?_eq_getElem (by omega), List.getElem?_eq_getElem hk, k3, k4, ?_⟩
  intro i hi
  have hz : ∀ m (w : ℚ) (hm : m < vs.length), x[m]? = some w →
      ((x.zip vs).map fun p => (p.1, p.2.getD i 0))[m]? = some (w, vs[m].getD i 0) := by
    intro m w hm hw
    have hz : (x.zip vs)[m]? = some (w, vs[m]) := by
      rw [List.getElem?_zip_eq_some]
      exact ⟨hw, List.getElem?_eq_getElem hm⟩
    rw [List.getElem?_map, hz]; rfl
  have hp : ((x.zip vs).map fun p => (p.1, p.2.getD i 0)).Pairwise fun p r => p.1 < r.1 := by
    rw [List.pairwise_map]
    exact zip_pairwise x vs hx
  have := interp_segment _ hp k (u, vs[k].getD i 0) (v, vs[k + 1].getD i 0) (hz k u (by omega) k1) (hz (k + 1) v hk k2) q k3 k4
  rw [g3 i hi] at this
  exact Except.ok.inj this

/-! ### C72 -/

private theorem pts_ends (x : List ℚ) (vs : List (List ℚ)) (hlen : x.length = vs.length) (hl : 2 ≤ x.length) (a b : ℚ)
    (ha : x.head? = some a) (hb : x.getLast? = some b) :
    ∃ v w, (x.zip vs).head? = some (a, v) ∧ (x.zip vs).getLast? = some (b, w) ∧ vs.head? = some v ∧ vs.getLast? = some w := by
  have hv : 0 < vs.length := by omega
  refine ⟨vs[0], vs[vs.length - 1], ?_, ?_, ?_, ?_⟩
  · rw [List.head?_eq_getElem?] at ha ⊢
    rw [List.getElem?_zip_eq_some]
    exact ⟨ha, List.getElem?_eq_getElem hv⟩
  · rw [List.getLast?_eq_getElem?] at hb ⊢
    rw [List.getElem?_zip_eq_some]
    have : (x.zip vs).length - 1 = x.length - 1 := by rw [List.length_zip]; omega
    rw [this]
    refine ⟨hb, ?_⟩
    rw [hlen]
    exact List.getElem?_eq_getElem (by omega)
  · rw [List.head?_eq_getElem?]; exact List.getElem?_eq_getElem hv
  · rw [List.getLast?_eq_getElem?]; exact List.getElem?_eq_getElem (by omega)

/-- C72. For increasing distances, `interpolate_line(vertices, x, xi)` returns, for each distance in `xi`, the point at that
distance along the line; and raises ValueError exactly if some distance is outside the line. -/
theorem interpolate_line_xi (d : Nat) (vertices : List (List ℚ)) (x : List ℚ) (hlen : x.length = vertices.length)
    (hx : x.Pairwise (· < ·)) (hl : 2 ≤ x.length) (a b : ℚ) (ha : x.head? = some a) (hb : x.getLast? = some b) (xi : List ℚ)
    (fill : Fill) :
    ((∀ q ∈ xi, a ≤ q ∧ q ≤ b) → ∃ rows, interpolateLine d vertices x (.xi xi) true fill = .ok rows ∧
      List.Forall₂ (AtDistance d x vertices) xi rows) ∧
    ((∃ q ∈ xi, q < a ∨ b < q) → interpolateLine d vertices x (.xi xi) true fill = .error .valueError) := by
  obtain ⟨v, w, e1, e2, e3, e4⟩ := pts_ends x vertices hlen hl a b ha hb
  have hne : x.zip vertices ≠ [] := by intro h; rw [h] at e1; cases e1
  obtain ⟨rows, r1, r2⟩ := rows_exist d (x.zip vertices) hne xi
  have hv : ¬ (x.length ≠ vertices.length ∨ vertices = []) := by
    rintro (h | h)
    · exact h hlen
    · rw [h, List.length_nil] at hlen; omega
  have hab : a ≤ b := by
    rw [List.head?_eq_getElem?] at ha
    have hb' := List.mem_of_getLast? hb
    match x, hx with
    | c :: x, hx =>
      simp at ha
      subst ha
      rcases List.mem_cons.1 hb' with h | h
      · rw [h]
      · exact ((List.pairwise_cons.1 hx).1 b h).le
  have hrun : interpolateLine d vertices x (.xi xi) true fill = finish (x.zip vertices) xi rows true fill := by
    unfold interpolateLine
    simp only [distances, bind, Except.bind]
    rw [if_neg hv]
    simp only [ordered_increasing x vertices hx, pure, Except.pure]
    rw [r1]
  rw [hrun]
  unfold finish
  rw [e1, e2]
  simp only [Bool.true_and]
  rw [if_neg (by simp)]
  constructor
  · intro hq
    have ho : outside a b xi = false := by
      unfold outside
      rw [List.any_eq_false]
      intro q hm
      obtain ⟨h1, h2⟩ := hq q hm
      simp [h1, h2]
    rw [ho]
    simp only [Bool.false_eq_true, if_false]
    refine ⟨_, rfl, ?_⟩
    rw [List.forall₂_iff_get] at r2
    rw [List.forall₂_iff_get]
    refine ⟨by simp [r2.1], ?_⟩
    intro i h1 h2
    have h3 : i < rows.length := by rw [← r2.1]; exact h1
    have hr := r2.2 i h1 h3
    obtain ⟨q1, q2⟩ := hq _ (List.get_mem xi ⟨i, h1⟩)
    simp only [List.get_eq_getElem, List.getElem_map, List.getElem_zip] at hr q1 q2 ⊢
    have hf : ∀ f : List ℚ × List ℚ, fillRow a b f xi[i] rows[i] = rows[i] := by
      intro f
      unfold fillRow
      simp [not_lt.2 q1, not_lt.2 q2, not_lt.2 hab]
    rw [hf]
    exact row_at d x vertices hlen hx hl a b xi[i] ha hb q1 q2 _ hr
  · rintro ⟨q, hm, hq⟩
    have ho : outside a b xi = true := by
      unfold outside
      rw [List.any_eq_true]
      exact ⟨q, hm, by simpa using hq⟩
    rw [ho]
    simp

/-- C72. With `error=False`, a distance before the start takes the first fill value, beyond the end the last, and any
other distance the point of the line (increasing distances). -/
theorem interpolate_line_fill (d : Nat) (vertices : List (List ℚ)) (x : List ℚ) (hlen : x.length = vertices.length)
    (hx : x.Pairwise (· < ·)) (hl : 2 ≤ x.length) (a b : ℚ) (ha : x.head? = some a) (hb : x.getLast? = some b) (xi : List ℚ)
    (f0 f1 : List ℚ) :
    ∃ rows, interpolateLine d vertices x (.xi xi) false (.values f0 f1) = .ok rows ∧
      List.Forall₂ (fun q row => (q < a → row = f0) ∧ (b < q → row = f1) ∧ (a ≤ q → q ≤ b → AtDistance d x vertices q row)) xi rows := by
  obtain ⟨v, w, e1, e2, e3, e4⟩ := pts_ends x vertices hlen hl a b ha hb
  have hne : x.zip vertices ≠ [] := by intro h; rw [h] at e1; cases e1
  obtain ⟨rows, r1, r2⟩ := rows_exist d (x.zip vertices) hne xi
  have hv : ¬ (x.length ≠ vertices.length ∨ vertices = []) := by
    rintro (h | h)
    · exact h hlen
    · rw [h, List.length_nil] at hlen; omega
  have hab : a ≤ b := by
    rw [List.head?_eq_getElem?] at ha
    have hb' := List.mem_of_getLast? hb
    match x, hx with
    | c :: x, hx =>
      simp at ha
      subst ha
      rcases List.mem_cons.1 hb' with h | h
      · rw [h]
      · exact ((List.pairwise_cons.1 hx).1 b h).le
  have hrun : interpolateLine d vertices x (.xi xi) false (.values f0 f1) = finish (x.zip vertices) xi rows false (.values f0 f1) := by
    unfold interpolateLine
    simp only [distances, bind, Except.bind]
    rw [if_neg hv]
    simp only [ordered_increasing x vertices hx, pure, Except.pure]
    rw [r1]
  rw [hrun]
  unfold finish
  rw [e1, e2]
  simp only [Bool.false_and, Bool.false_eq_true, if_false]
  rw [if_neg (by simp)]
  refine ⟨_, rfl, ?_⟩
  rw [List.forall₂_iff_get] at r2
  rw [List.forall₂_iff_get]
  refine ⟨by simp [r2.1], ?_⟩
  intro i h1 h2
  have h3 : i < rows.length := by rw [← r2.1]; exact h1
  have hr := r2.2 i h1 h3
  simp only [List.get_eq_getElem, List.getElem_map, List.getElem_zip] at hr ⊢
  unfold fillRow
  simp only [not_lt.2 hab, if_false]
  refine ⟨?_, ?_, ?_⟩
  · intro h
    have : ¬ b < xi[i] := fun h' => absurd (lt_of_lt_of_le h hab) (not_lt.2 h'.le)
    simp [h, this]
  · intro h
    simp [h]
  · intro q1 q2
    simp only [not_lt.2 q1, not_lt.2 q2, decide_false, Bool.false_eq_true, if_false]
    exact row_at d x vertices hlen hx hl a b xi[i] ha hb q1 q2 _ hr

private theorem first_last (x : List ℚ) (hx : x.Pairwise (· < ·)) (hl : 2 ≤ x.length) (a b : ℚ) (ha : x.head? = some a)
    (hb : x.getLast? = some b) : a < b := by
  match x, hx with
  | c :: e :: x, hx =>
    simp at ha
    subst ha
    rw [List.getLast?_cons_cons] at hb
    exact (List.pairwise_cons.1 hx).1 b (List.mem_of_getLast? hb)

/-- Evenly-spaced distances lie within the line. -/
private theorem linspace_within (a b : ℚ) (hab : a < b) (n : Nat) (hn : 2 ≤ n) :
    ∃ qs, linspace a b (n : ℤ) = .ok qs ∧ qs.length = n ∧
      (∀ i, (h : i < qs.length) → qs[i] = a + (i : ℚ) * ((b - a) / ((n : ℚ) - 1))) ∧ ∀ q ∈ qs, a ≤ q ∧ q ≤ b := by
  have hn1 : (0 : ℚ) < (n : ℚ) - 1 := by
    have : (2 : ℚ) ≤ (n : ℚ) := by exact_mod_cast hn
    linarith
  refine ⟨_, by unfold linspace; rw [if_neg (by omega), if_neg (by omega)], by simp, ?_, ?_⟩
  · intro i h
    simp
  · intro q hq
    simp only [List.mem_map, List.mem_range, Int.toNat_natCast] at hq
    obtain ⟨i, hi, rfl⟩ := hq
    have hi0 : (0 : ℚ) ≤ i := Nat.cast_nonneg i
    have hi1 : (i : ℚ) ≤ (n : ℚ) - 1 := by
      have : i + 1 ≤ n := hi
      have : ((i + 1 : ℕ) : ℚ) ≤ (n : ℚ) := by exact_mod_cast this
      push_cast at this
      linarith
    have hd : 0 ≤ (b - a) / ((n : ℚ) - 1) := div_nonneg (by linarith) hn1.le
    have hm : (i : ℚ) * ((b - a) / ((n : ℚ) - 1)) ≤ ((n : ℚ) - 1) * ((b - a) / ((n : ℚ) - 1)) :=
      mul_le_mul_of_nonneg_right hi1 hd
    rw [mul_div_cancel₀ _ hn1.ne'] at hm
    push_cast
    constructor
    · have := mul_nonneg hi0 hd
      linarith
    · linarith

/-- C72. `interpolate_line(vertices, x, n=n)` for two or more points returns `n` points, at evenly-spaced distances from the
start to the end of the line. -/
theorem interpolate_line_n (d : Nat) (vertices : List (List ℚ)) (x : List ℚ) (hlen : x.length = vertices.length)
    (hx : x.Pairwise (· < ·)) (hl : 2 ≤ x.length) (a b : ℚ) (ha : x.head? = some a) (hb : x.getLast? = some b) (n : Nat) (hn : 2 ≤ n)
    (error : Bool) (fill : Fill) :
    ∃ rows, interpolateLine d vertices x (.n n) error fill = .ok rows ∧ rows.length = n ∧
      ∀ i, (h : i < rows.length) → AtDistance d x vertices (a + (i : ℚ) * ((b - a) / ((n : ℚ) - 1))) rows[i] := by
  obtain ⟨v, w, e1, e2, e3, e4⟩ := pts_ends x vertices hlen hl a b ha hb
  have hne : x.zip vertices ≠ [] := by intro h; rw [h] at e1; cases e1
  obtain ⟨qs, q1, q2, q3, q4⟩ := linspace_within a b (first_last x hx hl a b ha hb) n hn
  obtain ⟨rows, r1, r2⟩ := rows_exist d (x.zip vertices) hne qs
  have hv : ¬ (x.length ≠ vertices.length ∨ vertices = []) := by
    rintro (h | h)
    · exact h hlen
    · rw [h, List.length_nil] at hlen; omega
  refine ⟨rows, ?_, ?_, ?_⟩
  · unfold interpolateLine
    simp only [distances, ha, hb, q1, bind, Except.bind]
    rw [if_neg hv]
    simp only [ordered_increasing x vertices hx, pure, Except.pure]
    rw [r1]
    unfold finish
    rw [e1, e2]
    simp
  · rw [← r2.length_eq, q2]
  · intro i h
    rw [List.forall₂_iff_get] at r2
    have hi : i < qs.length := by rw [r2.1]; exact h
    have hr := r2.2 i hi h
    simp only [List.get_eq_getElem] at hr
    obtain ⟨p1, p2⟩ := q4 _ (List.getElem_mem hi)
    rw [← q3 i hi]
    exact row_at d x vertices hlen hx hl a b _ ha hb p1 p2 _ hr

/-- C72. A nominal spacing that divides the length gives points at exactly that spacing, both ends included. -/
theorem interpolate_line_dx_exact (d : Nat) (vertices : List (List ℚ)) (x : List ℚ) (a b : ℚ) (ha : x.head? = some a)
    (hb : x.getLast? = some b) (dx : ℚ) (hdx : 0 < dx) (m : Nat) (hm : b - a = m * dx) (error : Bool) (fill : Fill) :
    interpolateLine d vertices x (.dx dx) error fill = interpolateLine d vertices x (.n ((m + 1 : ℕ) : ℤ)) error fill := by
  have hc : countFor a b dx = .ok ((m + 1 : ℕ) : ℤ) := by
    unfold countFor
    rw [if_neg hdx.ne']
    have : |(b - a) / dx| = (m : ℚ) := by
      rw [hm, mul_div_cancel_right₀ _ hdx.ne', abs_of_nonneg (Nat.cast_nonneg m)]
    simp only [this]
    have hf : ((⌊(m : ℚ)⌋ : ℤ) : ℚ) = (m : ℚ) := by simp
    rw [if_pos hf.symm]
    unfold pyRound
    have : (m : ℚ) + 1 = ((m + 1 : ℕ) : ℚ) := by push_cast; rfl
    rw [this]
    simp
  unfold interpolateLine
  simp only [distances, ha, hb, hc, bind, Except.bind]

private theorem pyRound_near (q : ℚ) : |(pyRound q : ℚ) - q| ≤ 1 / 2 := by
  have h1 := Int.floor_le q
  have h2 := Int.lt_floor_add_one q
  unfold pyRound
  split
  · rw [abs_le]; constructor <;> linarith
  · split
    · push_cast; rw [abs_le]; constructor <;> linarith
    · have : q - ⌊q⌋ = 1 / 2 := by linarith
      split
      · rw [abs_le]; constructor <;> linarith
      · push_cast; rw [abs_le]; constructor <;> linarith

/-- C72. Any other nominal spacing gives the number of points nearest to the length over the spacing (not of intervals):
between half a point less and half a point more. -/
theorem interpolate_line_dx_count (a b dx : ℚ) (hdx : 0 < dx) (hab : a ≤ b) (hnot : ∀ m : ℤ, (b - a) / dx ≠ m) :
    ∃ n : ℤ, countFor a b dx = .ok n ∧ (b - a) / dx - 1 / 2 ≤ n ∧ (n : ℚ) ≤ (b - a) / dx + 1 / 2 := by
  unfold countFor
  rw [if_neg hdx.ne']
  have : |(b - a) / dx| = (b - a) / dx := abs_of_nonneg (div_nonneg (by linarith) hdx.le)
  simp only [this]
  rw [if_neg (hnot _)]
  have h := abs_le.1 (pyRound_near ((b - a) / dx))
  exact ⟨_, rfl, by linarith [h.1], by linarith [h.2]⟩

/-- C72 fails for nominal spacings: a line up to half the spacing long has no points at all, ... -/
theorem interpolate_line_dx_short_violated (d : Nat) (vertices : List (List ℚ)) (x : List ℚ) (hlen : x.length = vertices.length)
    (hx : x.Pairwise (· < ·)) (hl : 2 ≤ x.length) (a b : ℚ) (ha : x.head? = some a) (hb : x.getLast? = some b) (dx : ℚ)
    (hdx : 2 * (b - a) ≤ dx) (error : Bool) (fill : Fill) : interpolateLine d vertices x (.dx dx) error fill = .ok [] := by
  obtain ⟨v, w, e1, e2, e3, e4⟩ := pts_ends x vertices hlen hl a b ha hb
  have hab := first_last x hx hl a b ha hb
  have hd : 0 < dx := by linarith
  have hq0 : 0 < (b - a) / dx := div_pos (by linarith) hd
  have hq1 : (b - a) / dx ≤ 1 / 2 := by rw [div_le_iff₀ hd]; linarith
  have hfl : ⌊(b - a) / dx⌋ = 0 := Int.floor_eq_zero_iff.2 ⟨hq0.le, by linarith⟩
  have hc : countFor a b dx = .ok 0 := by
    unfold countFor
    rw [if_neg hd.ne']
    simp only [abs_of_pos hq0]
    rw [hfl, if_neg (by simpa using hq0.ne')]
    unfold pyRound
    rw [hfl]
    simp only [Int.cast_zero, sub_zero]
    rcases lt_or_eq_of_le hq1 with h | h
    · rw [if_pos h]
    · rw [if_neg (by rw [h]; simp), if_neg (by rw [h]; simp), if_pos (by simp)]
  have hv : ¬ (x.length ≠ vertices.length ∨ vertices = []) := by
    rintro (h | h)
    · exact h hlen
    · rw [h, List.length_nil] at hlen; omega
  unfold interpolateLine
  simp only [distances, ha, hb, hc, bind, Except.bind]
  have hls : linspace a b 0 = .ok [] := by unfold linspace; simp
  rw [hls]
  simp only
  rw [if_neg hv]
  simp only [ordered_increasing x vertices hx, pure, Except.pure, List.mapM_nil]
  unfold finish
  rw [e1, e2]
  simp

/-- ... and a line of one and a half spacings has both its ends and nothing between, at one and a half times the spacing. -/
theorem interpolate_line_dx_spacing_violated :
    interpolateLine 1 [[0], [3 / 2]] [0, 3 / 2] (.dx 1) true .endpoints = .ok [[0], [3 / 2]] := by decide +kernel

private theorem zip_rev (x : List ℚ) (vs : List (List ℚ)) (h : x.length = vs.length) :
    x.reverse.zip vs.reverse = (x.zip vs).reverse := by
  unfold List.zip
  rw [List.reverse_zipWith h]

/-- C72. With decreasing distances the line is the same line taken from its other end ... -/
theorem interpolate_line_decreasing (d : Nat) (vertices : List (List ℚ)) (x : List ℚ) (hlen : x.length = vertices.length)
    (hx : x.Pairwise (· > ·)) (xi : List ℚ) (error : Bool) (fill : Fill) :
    interpolateLine d vertices x (.xi xi) error fill = interpolateLine d vertices.reverse x.reverse (.xi xi) error fill := by
  have hr : x.reverse.Pairwise (· < ·) := by rw [List.pairwise_reverse]; exact hx
  have hz : x.reverse.zip vertices.reverse = (x.zip vertices).reverse := by
    rw [zip_rev _ _ hlen]
  have ho : ordered x vertices = ordered x.reverse vertices.reverse := by
    rw [ordered_increasing _ _ hr, hz]
    match x, vertices, hx, hlen with
    | [], [], _, _ => rfl
    | [a], [v], _, _ => rfl
    | a :: b :: r, vs, hx, hlen =>
      have : b < a := (List.pairwise_cons.1 hx).1 b List.mem_cons_self
      simp only [ordered]
      rw [if_pos this]
      have hs : (((a :: b :: r).zip vs).reverse).Pairwise fun p q => p.1 < q.1 := by
        have h := zip_pairwise (a :: b :: r).reverse vs.reverse (by rw [List.pairwise_reverse]; exact hx)
        rwa [← zip_rev _ _ hlen]
      have hs' : (((a :: b :: r).zip vs).reverse).Pairwise fun p q => p.1 ≤ q.1 := hs.imp fun h => h.le
      have : Std.Total fun p q : ℚ × List ℚ => p.1 ≤ q.1 := ⟨fun p q => le_total p.1 q.1⟩
      have : IsTrans (ℚ × List ℚ) fun p q => p.1 ≤ q.1 := ⟨fun p q r h1 h2 => le_trans h1 h2⟩
      have hsort := List.pairwise_insertionSort (fun p q : ℚ × List ℚ => p.1 ≤ q.1) ((a :: b :: r).zip vs)
      have hperm : (((a :: b :: r).zip vs).insertionSort fun p q => p.1 ≤ q.1).Perm ((a :: b :: r).zip vs).reverse :=
        (List.perm_insertionSort _ _).trans (List.reverse_perm _).symm
      have hinj : ∀ p q, p ∈ ((a :: b :: r).zip vs).reverse → q ∈ ((a :: b :: r).zip vs).reverse → p.1 = q.1 → p = q := by
        intro p q hp hq he
        obtain ⟨i, hi⟩ := List.mem_iff_getElem.1 hp
        obtain ⟨j, hj⟩ := List.mem_iff_getElem.1 hq
        obtain ⟨i1, i2⟩ := hi
        obtain ⟨j1, j2⟩ := hj
        rw [List.pairwise_iff_getElem] at hs
        rcases lt_trichotomy i j with h | h | h
        · have := hs i j i1 j1 h
          rw [i2, j2, he] at this; exact absurd this (lt_irrefl _)
        · subst h; rw [← i2, ← j2]
        · have := hs j i j1 i1 h
          rw [i2, j2, he] at this; exact absurd this (lt_irrefl _)
      refine hperm.eq_of_pairwise ?_ hsort hs'
      intro p q hp hq h1 h2
      exact hinj p q (hperm.mem_iff.1 hp) hq (le_antisymm h1 h2)
  unfold interpolateLine
  simp only [distances, List.length_reverse, List.reverse_eq_nil_iff]
  rw [ho]

/-- ... so that C72 fails for fill values of decreasing distances, which are exchanged: the fill values are exchanged, the first being used beyond the end. -/
theorem interpolate_line_fill_decreasing_violated :
    interpolateLine 1 [[10], [20]] [1, 0] (.xi [2, -1]) false (.values [-1] [-2]) = .ok [[-2], [-1]] := by decide +kernel

example : interpolateLine 2 [[0, 0], [1, 0], [1, 1]] [0, 1, 2] (.xi [3 / 2, 2, 1 / 2]) true .endpoints =
    .ok [[1, 1 / 2], [1, 1], [1 / 2, 0]] := by decide +kernel
example : interpolateLine 2 [[0, 0], [1, 0], [1, 1]] [0, 1, 2] (.n 5) true .endpoints =
    .ok [[0, 0], [1 / 2, 0], [1, 0], [1, 1 / 2], [1, 1]] := by decide +kernel
example : interpolateLine 2 [[0, 0], [1, 0], [1, 1]] [0, 1, 2] (.dx 1) true .endpoints = .ok [[0, 0], [1, 0], [1, 1]] := by decide +kernel
example : interpolateLine 2 [[0, 0], [1, 0], [1, 1]] [0, 1, 2] (.xi [5]) true .endpoints = .error .valueError := by decide +kernel
example : interpolateLine 1 [[10], [20]] [1, 0] (.xi [1 / 4]) true .endpoints = .ok [[35 / 2]] := by decide +kernel

/-! ### C71 -/

private theorem argmin_spec (l : List ℚ) (k : Nat) (h : argmin l = .ok k) :
    ∃ m, l[k]? = some m ∧ (∀ y ∈ l, m ≤ y) ∧ ∀ j y, j < k → l[j]? = some y → m < y := by
  cases l with
  | nil => cases h
  | cons x xs =>
    have key : ∀ (l : List ℚ) (n : Nat) (best : Nat × ℚ) (pre : List ℚ), pre.length = n → pre[best.1]? = some best.2 →
        (∀ y ∈ pre, best.2 ≤ y) → (∀ j y, j < best.1 → pre[j]? = some y → best.2 < y) →
        ∀ r, (l.zipIdx n).foldl (fun (best : Nat × ℚ) y => if y.1 < best.2 then (y.2, y.1) else best) best = r →
        (pre ++ l)[r.1]? = some r.2 ∧ (∀ y ∈ pre ++ l, r.2 ≤ y) ∧ ∀ j y, j < r.1 → (pre ++ l)[j]? = some y → r.2 < y := by
      intro l
      induction l with
      | nil =>
        intro n best pre hn h1 h2 h3 r hr
        simp at hr
        subst hr
        simpa using ⟨h1, h2, h3⟩
      | cons y l ih =>
        intro n best pre hn h1 h2 h3 r hr
        rw [List.zipIdx_cons, List.foldl_cons] at hr
        have e : pre ++ y :: l = (pre ++ [y]) ++ l := by simp
        rw [e]
        have hb : best.1 < pre.length := by
          by_contra hh
          rw [List.getElem?_eq_none (by omega)] at h1; cases h1
        by_cases hy : y < best.2
        · simp only [hy, if_true] at hr
          refine ih (n + 1) (n, y) (pre ++ [y]) (by simp [hn]) ?_ ?_ ?_ r hr
          · rw [List.getElem?_append_right (by simp only; omega)]; simp [hn]
          · intro z hz
            rcases List.mem_append.1 hz with hz | hz
            · exact le_trans hy.le (h2 z hz)
            · simp at hz; rw [hz]
          · intro j z hj hz
            simp only at hj
            rw [List.getElem?_append_left (by omega)] at hz
            exact lt_of_lt_of_le hy (h2 z (List.mem_of_getElem? hz))
        · simp only [hy, if_false] at hr
          refine ih (n + 1) best (pre ++ [y]) (by simp [hn]) ?_ ?_ ?_ r hr
          · rw [List.getElem?_append_left hb]; exact h1
          · intro z hz
            rcases List.mem_append.1 hz with hz | hz
            · exact h2 z hz
            · simp at hz; rw [hz]; exact not_lt.1 hy
          · intro j z hj hz
            rw [List.getElem?_append_left (by omega)] at hz
            exact h3 j z hj hz
    cases h
    have := key xs 1 (0, x) [x] rfl rfl (by simp) (by simp) _ rfl
    exact ⟨_, this⟩

/-- C71. `Lines.predicted` returns, for each observed image point, a point of the projected lines than which no other is
nearer. -/
theorem lines_predicted_nearest (moved directions : Bool) (puvs : List (List (ℚ × ℚ))) (observed out : List (ℚ × ℚ))
    (h : linesPredicted moved directions (.ok puvs) observed = .ok out) :
    List.Forall₂ (fun p q => (∃ line ∈ puvs, q ∈ line) ∧ ∀ line ∈ puvs, ∀ q' ∈ line,
      (p.1 - q.1) ^ 2 + (p.2 - q.2) ^ 2 ≤ (p.1 - q'.1) ^ 2 + (p.2 - q'.2) ^ 2) observed out := by
  unfold linesPredicted at h
  simp only [bind, Except.bind, pure, Except.pure] at h
  split at h
  · cases h
  · split at h
    · cases h
    · induction observed generalizing out with
      | nil => simp [List.mapM_nil, pure, Except.pure] at h; subst h; exact .nil
      | cons p observed ih =>
        rw [List.mapM_cons] at h
        simp only [bind, Except.bind, pure, Except.pure] at h
        cases e : argmin (puvs.flatten.map (sq p)) with
        | error er => rw [e] at h; cases h
        | ok k =>
          rw [e] at h
          simp only at h
          obtain ⟨m, m1, m2, _⟩ := argmin_spec _ k e
          rw [List.getElem?_map] at m1
          cases e2 : puvs.flatten[k]? with
          | none => rw [e2] at m1; cases m1
          | some q =>
            rw [e2] at m1 h
            simp only at h
            cases m1
            split at h
            · cases h
            · rename_i out' ho
              cases h
              refine .cons ⟨?_, ?_⟩ (ih out' ho)
              · obtain ⟨line, hl, hq⟩ := List.mem_flatten.1 (List.mem_of_getElem? e2)
                exact ⟨line, hl, hq⟩
              · intro line hl q' hq'
                exact m2 _ (List.mem_map_of_mem (List.mem_flatten.2 ⟨line, hl, hq'⟩))

/-- C71. It raises if the world lines are ray directions and the camera has moved, or nothing is in front of the camera. -/
theorem lines_predicted_raises (puvs : List (List (ℚ × ℚ))) (observed : List (ℚ × ℚ)) :
    linesPredicted true true (.ok puvs) observed = .error .valueError ∧
    ∀ moved directions, linesPredicted moved directions (.ok []) observed = .error .valueError := by
  refine ⟨rfl, ?_⟩
  intro m d
  cases m <;> cases d <;> rfl

/-- C71. Otherwise it returns, for world points and cameras that moved as well as for ray directions and cameras that did not. -/
theorem lines_predicted_returns (moved directions : Bool) (hm : directions = true → moved = false) (puvs : List (List (ℚ × ℚ)))
    (hne : ∃ line ∈ puvs, line ≠ []) (observed : List (ℚ × ℚ)) :
    ∃ out, linesPredicted moved directions (.ok puvs) observed = .ok out := by
  obtain ⟨line, hl, hne⟩ := hne
  have hd : (directions && moved) = false := by
    cases directions with
    | false => rfl
    | true => rw [hm rfl]; rfl
  have hp : puvs ≠ [] := fun h => by rw [h] at hl; cases hl
  have hf : puvs.flatten ≠ [] := by
    obtain ⟨x, hx⟩ := List.exists_mem_of_ne_nil _ hne
    exact List.ne_nil_of_mem (List.mem_flatten.2 ⟨line, hl, hx⟩)
  unfold linesPredicted
  simp only [hd, bind, Except.bind, pure, Except.pure, hp, if_false, Bool.false_eq_true]
  induction observed with
  | nil => exact ⟨[], rfl⟩
  | cons p observed ih =>
    obtain ⟨out, ho⟩ := ih
    rw [List.mapM_cons]
    have hk : ∃ k, argmin (puvs.flatten.map (sq p)) = .ok k := by
      cases e : puvs.flatten.map (sq p) with
      | nil => exact absurd (List.map_eq_nil_iff.1 e) hf
      | cons a l => exact ⟨_, rfl⟩
    obtain ⟨k, hk⟩ := hk
    obtain ⟨m, m1, _, _⟩ := argmin_spec _ k hk
    rw [List.getElem?_map] at m1
    cases e2 : puvs.flatten[k]? with
    | none => rw [e2] at m1; cases m1
    | some q =>
      refine ⟨q :: out, ?_⟩
      simp only [bind, Except.bind, pure, Except.pure, hk, e2, ho]

/-- C71. The parts of a world line in front of the camera are its points that project, in order, and each part is the
projection of consecutive points (`runs` are the maximal runs of points that do, or do not, project). -/
theorem lines_in_front {P : Type} (proj : P → Option (List ℚ)) (line : List P) (hne : line ≠ []) :
    ∃ parts runs, inFront proj line = .ok parts ∧ parts.flatten = line.filterMap proj ∧ (∀ part ∈ parts, part ≠ []) ∧
      IsRuns (line.map proj) (line.map fun p => (proj p).isNone) runs ∧
      parts = (runs.filter fun r => !r.1).map fun r => r.2.filterMap id := by
  obtain ⟨runs, hr, hs⟩ := boolean_split_runs (line.map proj) ((line.map proj).map Option.isNone) (by simp) (by simpa using hne) .false
  have hmask : ∀ r ∈ runs, ∀ x ∈ r.2, x.isNone = r.1 := by
    have h1 := hr.rows
    have h2 := hr.mask
    have key : ∀ (rs : List (Bool × List (Option (List ℚ)))) (xs : List (Option (List ℚ))), (rs.map (·.2)).flatten = xs →
        (rs.map (fun r => List.replicate r.2.length r.1)).flatten = xs.map Option.isNone → ∀ r ∈ rs, ∀ x ∈ r.2, x.isNone = r.1 := by
      intro rs
      induction rs with
      | nil => intro xs _ _ r h; cases h
      | cons r rs ih =>
        intro xs hx hm r' hr' x hx'
        subst hx
        rw [List.map_cons, List.flatten_cons, List.map_cons, List.flatten_cons, List.map_append] at hm
        have := List.append_inj hm (by simp)
        rcases List.mem_cons.1 hr' with rfl | hr'
        · have hall : ∀ y ∈ r'.2.map Option.isNone, y = r'.1 := by
            rw [← this.1]; intro y hy; exact List.eq_of_mem_replicate hy
          exact hall _ (List.mem_map_of_mem hx')
        · exact ih _ rfl this.2 r' hr' x hx'
    exact key runs _ h1 h2
  have hkeep : keepPieces Include.false runs = (runs.filter fun r => !r.1).map (·.2) := by
    unfold keepPieces; simp
  refine ⟨(runs.filter fun r => !r.1).map fun r => r.2.filterMap id, runs, ?_, ?_, ?_, ?_, rfl⟩
  · unfold inFront
    simp only [bind, Except.bind]
    rw [hs, hkeep]
    simp only [List.map_map]
    rfl
  · have h3 : ∀ rs : List (Bool × List (Option (List ℚ))), (∀ r ∈ rs, ∀ x ∈ r.2, x.isNone = r.1) →
        ((rs.filter fun r => !r.1).map fun r => r.2.filterMap id).flatten = ((rs.map (·.2)).flatten).filterMap id := by
      intro rs
      induction rs with
      | nil => intro _; rfl
      | cons r rs ih =>
        intro h
        have hi := ih fun r' hr' => h r' (List.mem_cons_of_mem _ hr')
        rw [List.map_cons, List.flatten_cons, List.filterMap_append, ← hi]
        cases hb : r.1 with
        | true =>
          have : r.2.filterMap id = [] := by
            rw [List.filterMap_eq_nil_iff]
            intro x hx
            have := h r List.mem_cons_self x hx
            rw [hb] at this
            simpa using this
          rw [List.filter_cons_of_neg (by simp [hb]), this]; rfl
        | false => rw [List.filter_cons_of_pos (by simp [hb])]; rfl
    rw [h3 runs hmask, hr.rows, List.filterMap_map]
    rfl
  · intro part hpart
    obtain ⟨r, hr', rfl⟩ := List.mem_map.1 hpart
    obtain ⟨hr1, hr2⟩ := List.mem_filter.1 hr'
    obtain ⟨x, hx⟩ := List.exists_mem_of_ne_nil _ (hr.nonempty r hr1)
    have := hmask r hr1 x hx
    have hb : r.1 = false := by simpa using hr2
    rw [hb] at this
    cases x with
    | none => cases this
    | some v => exact List.ne_nil_of_mem (List.mem_filterMap.2 ⟨some v, hx, rfl⟩)
  · simpa [List.map_map, Function.comp_def] using hr

/-- C71. Lines in front of the camera but wholly out of view (nothing is left of them by clipping to the image) are compared by
their vertices: every vertex in front of the camera is projected, so that `predicted` does not raise. -/
theorem lines_out_of_view {P : Type} (proj : P → Option (List ℚ)) (toUv : List ℚ → ℚ × ℚ) (dist : List ℚ → List ℚ → ℚ) (box : List ℚ)
    (step : ℚ) (xyzs : List (List P)) (hne : ∀ line ∈ xyzs, line ≠ [])
    (hout : ∀ part : List (List ℚ), part ≠ [] → (∀ v ∈ part, ∃ line ∈ xyzs, ∃ p ∈ line, proj p = some v) → clipPolyline part box = .ok []) :
    ∃ puvs, projected proj toUv dist box step xyzs = .ok puvs ∧
      puvs.flatten = xyzs.flatMap fun line => (line.filterMap proj).map toUv := by
  have hparts : ∃ parts, xyzs.mapM (inFront proj) = .ok parts ∧ parts.map List.flatten = xyzs.map (fun line => line.filterMap proj) ∧
      ∀ ps ∈ parts, ∀ part ∈ ps, part ≠ [] := by
    clear hout
    induction xyzs with
    | nil => exact ⟨[], rfl, rfl, by simp⟩
    | cons line xyzs ih =>
      obtain ⟨parts, h1, h2, h3⟩ := ih fun l hl => hne l (List.mem_cons_of_mem _ hl)
      obtain ⟨ps, _, p1, p2, p3, _, _⟩ := lines_in_front proj line (hne line List.mem_cons_self)
      refine ⟨ps :: parts, ?_, ?_, ?_⟩
      · rw [List.mapM_cons, p1]
        simp only [bind, Except.bind, h1]; rfl
      · rw [List.map_cons, List.map_cons, p2, h2]
      · intro q hq
        rcases List.mem_cons.1 hq with rfl | hq
        · exact p3
        · exact h3 q hq
  obtain ⟨parts, h1, h2, h3⟩ := hparts
  have hflat : parts.flatten.flatten = xyzs.flatMap fun line => line.filterMap proj := by
    rw [List.flatten_flatten, h2]; rfl
  have hview : parts.flatten.mapM (inView dist toUv box step) = .ok (parts.flatten.map fun _ => []) := by
    refine mapM_ok _ _ _ ?_
    intro part hpart
    obtain ⟨ps, hps, hp⟩ := List.mem_flatten.1 hpart
    unfold inView
    rw [hout part (h3 ps hps part hp)]
    · rfl
    · intro v hv
      have : v ∈ parts.flatten.flatten := List.mem_flatten.2 ⟨part, hpart, hv⟩
      rw [hflat] at this
      obtain ⟨line, hl, hv⟩ := List.mem_flatMap.1 this
      obtain ⟨p, hp, hpv⟩ := List.mem_filterMap.1 hv
      exact ⟨line, hl, p, hp, hpv⟩
  refine ⟨parts.flatten.map fun part => part.map toUv, ?_, ?_⟩
  · unfold projected
    simp only [bind, Except.bind, h1, hview]
    rw [if_pos]
    have : ∀ l : List (List (List ℚ)), (l.map fun _ => ([] : List (List (ℚ × ℚ)))).flatten = [] := by
      intro l; induction l with
      | nil => rfl
      | cons a l ih => simpa using ih
    exact this _
  · rw [← List.map_flatten, hflat, List.flatMap_def, List.flatMap_def, List.map_flatten, List.map_map]
    rfl

/-- C72. Without distances, they are measured along the line from its start: the first vertex is at zero and each next vertex
farther by the distance from the one before. -/
theorem cumulative_spec (dist : List ℚ → List ℚ → ℚ) (vertices : List (List ℚ)) (hne : vertices ≠ []) :
    (cumulative dist vertices).length = vertices.length ∧ (cumulative dist vertices)[0]? = some 0 ∧
      ∀ k v w, vertices[k]? = some v → vertices[k + 1]? = some w →
        ∃ a, (cumulative dist vertices)[k]? = some a ∧ (cumulative dist vertices)[k + 1]? = some (a + dist v w) := by
  have key : ∀ (vs : List (List ℚ)) (u : List ℚ) (acc : ℚ),
      (cumsum acc (((u :: vs).zip vs).map fun p => dist p.1 p.2)).length = vs.length ∧
      ∀ k v w, (u :: vs)[k]? = some v → (u :: vs)[k + 1]? = some w →
        ∃ a, (acc :: cumsum acc (((u :: vs).zip vs).map fun p => dist p.1 p.2))[k]? = some a ∧
          (acc :: cumsum acc (((u :: vs).zip vs).map fun p => dist p.1 p.2))[k + 1]? = some (a + dist v w) := by
    intro vs
    induction vs with
    | nil =>
      intro u acc
      refine ⟨rfl, ?_⟩
      intro k v w _ hw
      simp at hw
    | cons x vs ih =>
      intro u acc
      obtain ⟨h1, h2⟩ := ih x (acc + dist u x)
      refine ⟨by simpa [cumsum] using h1, ?_⟩
      intro k v w hv hw
      cases k with
      | zero =>
        simp at hv hw
        subst hv; subst hw
        exact ⟨acc, rfl, rfl⟩
      | succ k =>
        obtain ⟨a, ha, hb⟩ := h2 k v w (by simpa using hv) (by simpa using hw)
        exact ⟨a, by simpa [cumsum] using ha, by simpa [cumsum] using hb⟩
  cases vertices with
  | nil => exact absurd rfl hne
  | cons u vs =>
    obtain ⟨h1, h2⟩ := key vs u 0
    exact ⟨by unfold cumulative; simpa using h1, rfl, h2⟩

private theorem interpolate_dx_rows (vertices : List (List ℚ)) (x : List ℚ) (hlen : x.length = vertices.length) (hx : x.Pairwise (· < ·))
    (hl : 2 ≤ x.length) (dx : ℚ) (hdx : 0 < dx) (d : Nat) (error : Bool) (fill : Fill) :
    ∃ rows, interpolateLine d vertices x (.dx dx) error fill = .ok rows ∧ ∀ row ∈ rows, ∃ q, AtDistance d x vertices q row := by
  obtain ⟨a, ha⟩ : ∃ a, x.head? = some a := by cases x with
    | nil => simp at hl
    | cons a _ => exact ⟨a, rfl⟩
  obtain ⟨b, hb⟩ : ∃ b, x.getLast? = some b := by
    have hne : x ≠ [] := by intro h; rw [h] at hl; simp at hl
    exact ⟨x.getLast hne, List.getLast?_eq_some_getLast hne⟩
  obtain ⟨v, w, e1, e2, e3, e4⟩ := pts_ends x vertices hlen hl a b ha hb
  have hab := first_last x hx hl a b ha hb
  have hne : x.zip vertices ≠ [] := by intro h; rw [h] at e1; cases e1
  have hv : ¬ (x.length ≠ vertices.length ∨ vertices = []) := by
    rintro (h | h)
    · exact h hlen
    · rw [h, List.length_nil] at hlen; omega
  obtain ⟨n, hn⟩ : ∃ n : Nat, countFor a b dx = .ok (n : ℤ) := by
    unfold countFor
    rw [if_neg hdx.ne']
    have hpos : ∀ q : ℚ, 0 ≤ q → 0 ≤ pyRound q := by
      intro q hq
      have : 0 ≤ ⌊q⌋ := Int.floor_nonneg.2 hq
      unfold pyRound
      split
      · exact this
      · split
        · omega
        · split <;> omega
    refine ⟨(pyRound (if |(b - a) / dx| = ⌊|(b - a) / dx|⌋ then |(b - a) / dx| + 1 else |(b - a) / dx|)).toNat, ?_⟩
    rw [Int.toNat_of_nonneg]
    apply hpos
    split
    · positivity
    · positivity
  obtain ⟨qs, hqs, hin⟩ : ∃ qs, linspace a b (n : ℤ) = .ok qs ∧ ∀ q ∈ qs, a ≤ q ∧ q ≤ b := by
    rcases Nat.lt_or_ge n 2 with h | h
    · rcases Nat.eq_zero_or_pos n with h0 | h0
      · subst h0
        exact ⟨[], by simp [linspace], by simp⟩
      · obtain rfl : n = 1 := by omega
        exact ⟨[a], by simp [linspace], by simpa using hab.le⟩
    · obtain ⟨qs, q1, _, _, q4⟩ := linspace_within a b hab n h
      exact ⟨qs, q1, q4⟩
  obtain ⟨rows, r1, r2⟩ := rows_exist d (x.zip vertices) hne qs
  refine ⟨rows, ?_, ?_⟩
  · unfold interpolateLine
    simp only [distances, ha, hb, hn, hqs, bind, Except.bind]
    rw [if_neg hv]
    simp only [ordered_increasing x vertices hx, pure, Except.pure]
    rw [r1]
    unfold finish
    rw [e1, e2]
    simp
  · intro row hrow
    obtain ⟨i, hi, rfl⟩ := List.getElem_of_mem hrow
    rw [List.forall₂_iff_get] at r2
    have hi' : i < qs.length := by rw [r2.1]; exact hi
    have hr := r2.2 i hi' hi
    simp only [List.get_eq_getElem] at hr
    obtain ⟨p1, p2⟩ := hin _ (List.getElem_mem hi')
    exact ⟨qs[i], row_at d x vertices hlen hx hl a b _ ha hb p1 p2 _ hr⟩

/-- C71: the points of a world line in view are those of its clipped pieces: for each piece, in order, the projections of points (with two coordinates)
on that piece. -/
theorem lines_in_view (dist : List ℚ → List ℚ → ℚ) (toUv : List ℚ → ℚ × ℚ) (box : List ℚ) (step : ℚ) (hs : 0 < step) (part : List (List ℚ))
    (pieces : List (List (List ℚ))) (hc : clipPolyline part box = .ok pieces)
    (hp : ∀ piece ∈ pieces, 2 ≤ piece.length ∧ (cumulative dist piece).Pairwise (· < ·)) :
    ∃ out, inView dist toUv box step part = .ok out ∧ List.Forall₂ (fun piece uvs => ∃ rows : List (List ℚ), uvs = rows.map toUv ∧
      ∀ row ∈ rows, ∃ q, AtDistance 2 (cumulative dist piece) piece q row) pieces out := by
  unfold inView
  simp only [hc, bind, Except.bind]
  clear hc
  induction pieces with
  | nil => exact ⟨[], rfl, .nil⟩
  | cons piece pieces ih =>
    obtain ⟨out, o1, o2⟩ := ih fun q hq => hp q (List.mem_cons_of_mem _ hq)
    obtain ⟨h2, hx⟩ := hp piece List.mem_cons_self
    have hne : piece ≠ [] := by intro h; rw [h] at h2; simp at h2
    have hlen := (cumulative_spec dist piece hne).1
    obtain ⟨rows, r1, r2⟩ := interpolate_dx_rows piece (cumulative dist piece) hlen hx (by omega) step hs 2 true .endpoints
    refine ⟨rows.map toUv :: out, ?_, .cons ⟨rows, rfl, r2⟩ o2⟩
    rw [List.mapM_cons, r1]
    simp only [bind, Except.bind, o1]
    rfl

/-- A camera with the image plane as world: points with negative second coordinate are behind it. -/
def planeProj (p : List ℚ) : Option (List ℚ) := if p.getD 1 0 < 0 then none else some p
def planeUv (xy : List ℚ) : ℚ × ℚ := (xy.getD 0 0, xy.getD 1 0)
def planeDist (a b : List ℚ) : ℚ := |a.getD 0 0 - b.getD 0 0| + |a.getD 1 0 - b.getD 1 0|

/-- A case of `lines_in_view`. -/
example : clipPolyline [[-2, 1], [2, 1], [2, 6]] [0, 0, 4, 4] = .ok [[[0, 1], [2, 1], [2, 4]]] ∧
    (cumulative planeDist [[0, 1], [2, 1], [2, 4]]).Pairwise (· < ·) := by decide +kernel

example : projected planeProj planeUv planeDist [0, 0, 4, 4] 1 [[[-2, 1], [2, 1], [2, -1], [3, 3]]] =
    .ok [[(0, 1), (1, 1), (2, 1)], [(3, 3)]] := by decide +kernel
example : projected planeProj planeUv planeDist [0, 0, 4, 4] 1 [[[-2, 1], [-1, 1]]] = .ok [[(-2, 1), (-1, 1)]] := by decide +kernel

/-- C71 fails for world lines shorter than half the target spacing in the image: they are in view but have no projected
points, and if there are no other lines `predicted` raises. -/
theorem lines_short_violated :
    projected planeProj planeUv planeDist [0, 0, 4, 4] 1 [[[1, 1], [5 / 4, 1]]] = .ok [[]] ∧
    linesPredicted false false (.ok [[]]) [(1, 1)] = .error .valueError := by
  constructor <;> decide +kernel

example : linesPredicted false true (.ok [[(0, 0), (2, 0)], [(5, 5)]]) [(1, 0), (3, 1), (4, 9)] = .ok [(0, 0), (2, 0), (5, 5)] := by
  decide +kernel

end Glimpse.Interp
