import Verif.Props.CamsResiduals
import Mathlib.Tactic.Linarith

/-!
What an index (`slice(None)`, integers, booleans) selects, by position. Used by C126 and C127.
-/
set_option autoImplicit false
set_option linter.unusedSimpArgs false
set_option linter.unusedSectionVars false

namespace Glimpse.Cams
open Glimpse

/-- Specification: the positions that an index selects of `n`: all; at integers, counted from the end if negative; where a mask is true. -/
def IdxSelects (n : Nat) : Idx → List Nat → Prop
  | .all, idx => idx = List.range n
  | .ints l, idx => List.Forall₂ (fun (i : ℤ) (k : Nat) => k < n ∧ (i = k ∨ i + n = k)) l idx
  | .mask m, idx => m.length = n ∧ idx = (List.range n).filter fun k => m.getD k false

theorem zip_filter_range (m : List Bool) (b : Bool) (s : Nat) :
    (((List.range' s m.length).zip m).filter fun x => x.2 == b).map Prod.fst =
      (List.range' s m.length).filter fun k => m.getD (k - s) false == b := by
  induction m generalizing s with
  | nil => rfl
  | cons x m ih =>
    simp only [List.length_cons, List.range'_succ, List.zip_cons_cons, List.filter_cons, Nat.sub_self, List.getD_cons_zero]
    have hc : (List.range' (s + 1) m.length).filter (fun k => (x :: m).getD (k - s) false == b) =
        (List.range' (s + 1) m.length).filter (fun k => m.getD (k - (s + 1)) false == b) := by
      apply List.filter_congr
      intro k hk
      rw [List.mem_range'_1] at hk
      have : k - s = (k - (s + 1)) + 1 := by omega
      rw [this, List.getD_cons_succ]
    by_cases hx : (x == b) = true
    · rw [if_pos hx, if_pos hx, List.map_cons, ih, hc]
    · rw [if_neg hx, if_neg hx, ih, hc]

theorem mask_filter (m : List Bool) :
    (((List.range m.length).zip m).filter fun x => x.2).map Prod.fst = (List.range m.length).filter fun k => m.getD k false := by
  have := zip_filter_range m true 0
  simpa [List.range_eq_range'] using this

theorem mask_filter_not (m : List Bool) :
    (((List.range m.length).zip m).filter fun x => !x.2).map Prod.fst = (List.range m.length).filter fun k => !m.getD k false := by
  have := zip_filter_range m false 0
  simpa [List.range_eq_range'] using this

theorem pick_range_iff (n : Nat) (i : Idx) (idx : List Nat) : pick (List.range n) i = .ok idx ↔ IdxSelects n i idx := by
  cases i with
  | all =>
    simp only [pick, IdxSelects, Except.ok.injEq]
    exact eq_comm
  | ints l =>
    rw [(index_meaning (List.range n)).2.1 l idx]
    unfold IdxSelects
    have : (fun (i : ℤ) (x : Nat) => (∃ k : Nat, i = k ∧ (List.range n)[k]? = some x) ∨
        ∃ k : Nat, i = k - ((List.range n).length : ℤ) ∧ k < (List.range n).length ∧ (List.range n)[k]? = some x) =
        fun (i : ℤ) (k : Nat) => k < n ∧ (i = k ∨ i + n = k) := by
      funext i x
      apply propext
      simp only [List.getElem?_eq_some_iff, List.length_range, List.getElem_range]
      constructor
      · rintro (⟨k, h1, h2, rfl⟩ | ⟨k, h1, _, h2, rfl⟩)
        · exact ⟨h2, Or.inl h1⟩
        · exact ⟨h2, Or.inr (by omega)⟩
      · rintro ⟨h, h1 | h1⟩
        · exact Or.inl ⟨x, h1, h, rfl⟩
        · exact Or.inr ⟨x, by omega, h, h, rfl⟩
    rw [this]
  | mask m =>
    rw [(index_meaning (List.range n)).2.2.1 m idx]
    simp only [List.length_range, IdxSelects]
    constructor
    · rintro ⟨h, rfl⟩
      subst h
      exact ⟨rfl, mask_filter m⟩
    · rintro ⟨h, rfl⟩
      subst h
      exact ⟨rfl, (mask_filter m).symm⟩

theorem IdxSelects.lt {n : Nat} {i : Idx} {idx : List Nat} (h : IdxSelects n i idx) (k : Nat) (hk : k ∈ idx) : k < n := by
  cases i with
  | all => rw [show idx = List.range n from h] at hk; exact List.mem_range.mp hk
  | ints l =>
    unfold IdxSelects at h
    induction h with
    | nil => simp at hk
    | cons h1 _ ih =>
      rcases List.mem_cons.mp hk with rfl | hk
      · exact h1.1
      · exact ih hk
  | mask m =>
    rw [h.2] at hk
    exact List.mem_range.mp (List.mem_of_mem_filter hk)

theorem range_map_getD {γ : Type} (l : List γ) (d : γ) : (List.range l.length).map (fun k => l.getD k d) = l := by
  apply List.ext_getElem
  · simp
  · intro k h1 h2
    simp [List.getD_eq_getElem?_getD, h2]

theorem pick_getD {γ : Type} (l : List γ) (d : γ) (i : Idx) (idx : List Nat) (h : IdxSelects l.length i idx) :
    pick l i = .ok (idx.map fun k => l.getD k d) := by
  conv_lhs => rw [← range_map_getD l d]
  rw [pick_map, (pick_range_iff l.length i idx).mpr h]
  rfl

theorem pick_none {γ : Type} (l : List γ) (i : Idx) (h : ∀ idx, ¬ IdxSelects l.length i idx) : pick l i = .error .indexError := by
  cases hp : pick l i with
  | error e => rw [(index_meaning l).2.2.2 i e hp]
  | ok r =>
    exfalso
    have hm : pick (l.map fun _ => ()) i = .ok (r.map fun _ => ()) := by rw [pick_map, hp]; rfl
    have hr : (List.range l.length).map (fun _ => ()) = l.map fun _ => () := by
      rw [List.map_const', List.map_const', List.length_range]
    rw [← hr, pick_map] at hm
    cases hq : pick (List.range l.length) i with
    | error e => rw [hq] at hm; cases hm
    | ok idx => exact h idx ((pick_range_iff _ _ _).mp hq)

/-- Concrete case: of five, the last and the second; those that a mask marks. -/
example : IdxSelects 5 (.ints [-1, 1]) [4, 1] ∧ IdxSelects 3 (.mask [true, false, true]) [0, 2] := by
  refine ⟨?_, rfl, by decide⟩
  exact .cons ⟨by omega, Or.inr rfl⟩ (.cons ⟨by omega, Or.inl rfl⟩ .nil)

end Glimpse.Cams
