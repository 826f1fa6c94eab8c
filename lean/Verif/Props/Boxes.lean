import Verif.Model.Boxes
import Mathlib.Tactic.Linarith
import Mathlib.Tactic.Ring
import Mathlib.Tactic.FieldSimp
import Mathlib.Tactic.Push
import Mathlib.Data.List.GetD
import Mathlib.Data.List.Nodup

/-!
C05, C06, C07: `in_box`, `intersect_boxes`, `bounding_box`, `box_to_grid`.
-/
set_option autoImplicit false
set_option linter.unusedSimpArgs false

namespace Glimpse

/-- Spec: point `p` lies in the closed box `box = (min_0, ..., min_{n-1}, max_0, ..., max_{n-1})`. -/
def PointInBox (p box : List ℚ) : Prop :=
  box.length = 2 * p.length ∧
    ∀ i, i < p.length → box.getD i 0 ≤ p.getD i 0 ∧ p.getD i 0 ≤ box.getD (p.length + i) 0

/-! ### Helper lemmas -/

private theorem inBounds_iff (p lo hi : List ℚ) (h1 : p.length = lo.length) (h2 : p.length = hi.length) :
    inBounds p lo hi = true ↔ ∀ i, i < p.length → lo.getD i 0 ≤ p.getD i 0 ∧ p.getD i 0 ≤ hi.getD i 0 := by
  induction p generalizing lo hi with
  | nil => simp [inBounds]
  | cons x p ih =>
    match lo, hi, h1, h2 with
    | l :: lo, h :: hi, h1, h2 =>
      simp only [inBounds, Bool.and_eq_true, decide_eq_true_iff]
      rw [ih lo hi (by simpa using h1) (by simpa using h2)]
      constructor
      · rintro ⟨⟨a, b⟩, c⟩ i hi'
        cases i with
        | zero => exact ⟨by simpa using a, by simpa using b⟩
        | succ i => simpa using c i (by simpa using hi')
      · intro hall
        refine ⟨by simpa using hall 0 (by simp), fun i hi' => ?_⟩
        simpa using hall (i + 1) (by simpa using hi')

private theorem zipWith_getD (f : ℚ → ℚ → ℚ) (a b : List ℚ) (i : Nat) (ha : i < a.length) (hb : i < b.length) :
    (List.zipWith f a b).getD i 0 = f (a.getD i 0) (b.getD i 0) := by
  simp [List.getD_eq_getElem?_getD, List.getElem?_zipWith, List.getElem?_eq_getElem ha,
    List.getElem?_eq_getElem hb]

private theorem colMax_spec (n : Nat) (r : List ℚ) (rs : List (List ℚ)) (hr : r.length = n)
    (hrs : ∀ s ∈ rs, s.length = n) :
    (colMax r rs).length = n ∧ ∀ i, i < n → ∀ v, (colMax r rs).getD i 0 ≤ v ↔
      r.getD i 0 ≤ v ∧ ∀ s ∈ rs, s.getD i 0 ≤ v := by
  induction rs generalizing r with
  | nil => simp [colMax, hr]
  | cons s rs ih =>
    have hs : s.length = n := hrs s List.mem_cons_self
    obtain ⟨h1, h2⟩ := ih (List.zipWith max r s) (by simp [hr, hs]) (fun t ht => hrs t (List.mem_cons_of_mem _ ht))
    refine ⟨h1, fun i hi v => ?_⟩
    have := h2 i hi v
    rw [zipWith_getD _ _ _ _ (by omega) (by omega), max_le_iff] at this
    simp only [colMax, List.foldl_cons] at this ⊢
    rw [this]
    simp [and_assoc]

private theorem colMin_spec (n : Nat) (r : List ℚ) (rs : List (List ℚ)) (hr : r.length = n)
    (hrs : ∀ s ∈ rs, s.length = n) :
    (colMin r rs).length = n ∧ ∀ i, i < n → ∀ v, v ≤ (colMin r rs).getD i 0 ↔
      v ≤ r.getD i 0 ∧ ∀ s ∈ rs, v ≤ s.getD i 0 := by
  induction rs generalizing r with
  | nil => simp [colMin, hr]
  | cons s rs ih =>
    have hs : s.length = n := hrs s List.mem_cons_self
    obtain ⟨h1, h2⟩ := ih (List.zipWith min r s) (by simp [hr, hs]) (fun t ht => hrs t (List.mem_cons_of_mem _ ht))
    refine ⟨h1, fun i hi v => ?_⟩
    have := h2 i hi v
    rw [zipWith_getD _ _ _ _ (by omega) (by omega), le_min_iff] at this
    simp only [colMin, List.foldl_cons] at this ⊢
    rw [this]
    simp [and_assoc]

private theorem take_getD (l : List ℚ) (n i : Nat) (h : i < n) : (l.take n).getD i 0 = l.getD i 0 := by
  simp [List.getD_eq_getElem?_getD, List.getElem?_take, h]

private theorem drop_getD (l : List ℚ) (n i : Nat) : (l.drop n).getD i 0 = l.getD (n + i) 0 := by
  simp [List.getD_eq_getElem?_getD, List.getElem?_drop]

private theorem append_getD_left (a b : List ℚ) (i : Nat) (h : i < a.length) :
    (a ++ b).getD i 0 = a.getD i 0 := by
  simp [List.getD_eq_getElem?_getD, List.getElem?_append_left h]

private theorem append_getD_right (a b : List ℚ) (i : Nat) :
    (a ++ b).getD (a.length + i) 0 = b.getD i 0 := by
  rw [List.getD_eq_getElem?_getD, List.getElem?_append_right (by omega), List.getD_eq_getElem?_getD]
  simp

/-! ### in_box -/

/-- C05. `in_box` means what it says: for a box of matching dimension it returns whether the point is in the
closed box (and it never raises). -/
theorem in_box_iff (p box : List ℚ) (h : box.length = 2 * p.length) :
    ∃ b, inBox p box = .ok b ∧ (b = true ↔ PointInBox p box) := by
  have h0 : box.length % 2 = 0 := by omega
  have hn : box.length / 2 = p.length := by omega
  have hl : (box.take (box.length / 2)).length = p.length := by simp; omega
  refine ⟨inBounds p (box.take (box.length / 2)) (box.drop (box.length / 2)), ?_, ?_⟩
  · unfold inBox unravelBox
    simp only [h0, ne_eq, not_true_eq_false, if_false, bind, Except.bind]
    rw [if_neg (by rw [hl]; simp)]
    rfl
  · rw [inBounds_iff _ _ _ hl.symm (by simp; omega)]
    unfold PointInBox
    constructor
    · intro hall
      refine ⟨h, fun i hi => ?_⟩
      have := hall i hi
      rw [take_getD _ _ _ (by omega), drop_getD, hn] at this
      exact this
    · rintro ⟨-, hall⟩ i hi
      rw [take_getD _ _ _ (by omega), drop_getD, hn]
      exact hall i hi

example : inBox [1, 2] [1, 1, 5/2, 5/2] = .ok true := by decide +kernel
example : inBox [3, 3] [1, 1, 5/2, 5/2] = .ok false := by decide +kernel

/-! ### intersect_boxes -/

/-- C05 (soundness and completeness). When `intersect_boxes` returns, a point is in the returned box iff it is in
every input box. -/
theorem intersect_boxes_iff (boxes : List (List ℚ)) (r : List ℚ) (h : intersectBoxes boxes = .ok r) (p : List ℚ)
    (hp : r.length = 2 * p.length) :
    PointInBox p r ↔ ∀ b ∈ boxes, PointInBox p b := by
  match boxes, h with
  | b :: bs, h =>
    unfold intersectBoxes at h
    simp only at h
    split at h
    · cases h
    · rename_i hlen
      split at h
      · cases h
      · rename_i heven
        split at h
        · cases h
        · injection h with h
          have hbs : ∀ c ∈ bs, c.length = b.length := by
            intro c hc
            by_contra hne
            exact hlen (List.any_eq_true.mpr ⟨c, hc, by simpa using hne⟩)
          generalize hn : b.length / 2 = n at h
          have hb2 : b.length = 2 * n := by omega
          obtain ⟨l1, s1⟩ := colMax_spec n (b.take n) (bs.map (·.take n)) (by simp; omega)
            (by intro s hs; obtain ⟨c, hc, rfl⟩ := List.mem_map.mp hs; simp [hbs c hc]; omega)
          obtain ⟨l2, s2⟩ := colMin_spec n (b.drop n) (bs.map (·.drop n)) (by simp; omega)
            (by intro s hs; obtain ⟨c, hc, rfl⟩ := List.mem_map.mp hs; simp [hbs c hc]; omega)
          have hpn : p.length = n := by
            have : r.length = n + n := by rw [← h]; simp [l1, l2]
            omega
          have key : ∀ i, i < n → ((r.getD i 0 ≤ p.getD i 0 ∧ p.getD i 0 ≤ r.getD (n + i) 0) ↔
              ∀ c ∈ b :: bs, c.getD i 0 ≤ p.getD i 0 ∧ p.getD i 0 ≤ c.getD (n + i) 0) := by
            intro i hi
            rw [← h, append_getD_left _ _ _ (by omega)]
            have : ((colMax (b.take n) (bs.map (·.take n))) ++ colMin (b.drop n) (bs.map (·.drop n))).getD (n + i) 0
                = (colMin (b.drop n) (bs.map (·.drop n))).getD i 0 := by
              have := append_getD_right (colMax (b.take n) (bs.map (·.take n)))
                (colMin (b.drop n) (bs.map (·.drop n))) i
              rwa [l1] at this
            rw [this, s1 i hi, s2 i hi, take_getD _ _ _ hi, drop_getD]
            constructor
            · rintro ⟨⟨a1, a2⟩, b1, b2⟩ c hc
              rcases List.mem_cons.mp hc with rfl | hc
              · exact ⟨a1, b1⟩
              · have c1 := a2 _ (List.mem_map.mpr ⟨c, hc, rfl⟩)
                have c2 := b2 _ (List.mem_map.mpr ⟨c, hc, rfl⟩)
                rw [take_getD _ _ _ hi] at c1
                rw [drop_getD] at c2
                exact ⟨c1, c2⟩
            · intro hall
              refine ⟨⟨(hall b List.mem_cons_self).1, ?_⟩, (hall b List.mem_cons_self).2, ?_⟩
              · intro s hs
                obtain ⟨c, hc, rfl⟩ := List.mem_map.mp hs
                rw [take_getD _ _ _ hi]
                exact (hall c (List.mem_cons_of_mem _ hc)).1
              · intro s hs
                obtain ⟨c, hc, rfl⟩ := List.mem_map.mp hs
                rw [drop_getD]
                exact (hall c (List.mem_cons_of_mem _ hc)).2
          have hcl : ∀ c ∈ b :: bs, c.length = 2 * p.length := by
            intro c hc
            rcases List.mem_cons.mp hc with rfl | hc
            · omega
            · rw [hbs c hc]; omega
          unfold PointInBox
          subst hpn
          constructor
          · rintro ⟨-, hall⟩ c hc
            exact ⟨hcl c hc, fun i hi => (key i hi).mp (hall i hi) c hc⟩
          · intro hall
            exact ⟨hp, fun i hi => (key i hi).mpr (fun c hc => (hall c hc).2 i hi)⟩

/-- C05 (errors). For a non-empty list of boxes of one even length `2 n`, `intersect_boxes` raises exactly when in
some dimension some box's minimum is not below some box's maximum. -/
theorem intersect_boxes_raises_iff (boxes : List (List ℚ)) (hne : boxes ≠ []) (n : Nat)
    (hn : ∀ b ∈ boxes, b.length = 2 * n) :
    Raises (intersectBoxes boxes) ↔
      ∃ i, i < n ∧ ∃ b ∈ boxes, ∃ c ∈ boxes, c.getD (n + i) 0 ≤ b.getD i 0 := by
  match boxes, hne with
  | b :: bs, _ =>
    have hb := hn b List.mem_cons_self
    have hbs : ∀ c ∈ bs, c.length = 2 * n := fun c hc => hn c (List.mem_cons_of_mem _ hc)
    have hdiv : b.length / 2 = n := by omega
    obtain ⟨l1, s1⟩ := colMax_spec n (b.take n) (bs.map (·.take n)) (by simp; omega)
      (by intro s hs; obtain ⟨c, hc, rfl⟩ := List.mem_map.mp hs; simp [hbs c hc]; omega)
    obtain ⟨l2, s2⟩ := colMin_spec n (b.drop n) (bs.map (·.drop n)) (by simp; omega)
      (by intro s hs; obtain ⟨c, hc, rfl⟩ := List.mem_map.mp hs; simp [hbs c hc]; omega)
    have e1 : bs.any (fun c => decide (c.length ≠ b.length)) = false := by
      rw [List.any_eq_false]
      intro c hc; simp [hbs c hc, hb]
    -- the guard
    have guard : ((List.zipWith (fun hi lo => decide (hi - lo ≤ 0)) (colMin (b.drop n) (bs.map (·.drop n)))
          (colMax (b.take n) (bs.map (·.take n)))).any id = true) ↔
        ∃ i, i < n ∧ (colMin (b.drop n) (bs.map (·.drop n))).getD i 0 ≤
          (colMax (b.take n) (bs.map (·.take n))).getD i 0 := by
      rw [List.any_eq_true]
      constructor
      · rintro ⟨x, hx, hx'⟩
        obtain ⟨i, hi, rfl⟩ := List.getElem_of_mem hx
        simp only [List.length_zipWith] at hi
        refine ⟨i, by omega, ?_⟩
        simp only [List.getElem_zipWith, id, decide_eq_true_iff] at hx'
        rw [List.getD_eq_getElem _ _ (by omega), List.getD_eq_getElem _ _ (by omega)]
        linarith
      · rintro ⟨i, hi, hle⟩
        refine ⟨(List.zipWith (fun hi lo => decide (hi - lo ≤ 0)) (colMin (b.drop n) (bs.map (·.drop n)))
          (colMax (b.take n) (bs.map (·.take n))))[i]'(by simp; omega), List.getElem_mem _, ?_⟩
        simp only [List.getElem_zipWith, id, decide_eq_true_iff]
        rw [List.getD_eq_getElem _ _ (by omega), List.getD_eq_getElem _ _ (by omega)] at hle
        linarith
    have hraise : Raises (intersectBoxes (b :: bs)) ↔
        ∃ i, i < n ∧ (colMin (b.drop n) (bs.map (·.drop n))).getD i 0 ≤
          (colMax (b.take n) (bs.map (·.take n))).getD i 0 := by
      rw [← guard]
      unfold intersectBoxes
      simp only [e1, Bool.false_eq_true, if_false, hdiv]
      rw [if_neg (by omega)]
      constructor
      · rintro ⟨e, he⟩
        split at he
        · assumption
        · cases he
      · intro hg
        rw [if_pos hg]; exact ⟨_, rfl⟩
    rw [hraise]
    constructor
    · rintro ⟨i, hi, hle⟩
      refine ⟨i, hi, ?_⟩
      by_contra hcon
      push Not at hcon
      -- every maximum exceeds every minimum: contradiction with hle
      have hmax : ∀ c ∈ b :: bs, (colMax (b.take n) (bs.map (·.take n))).getD i 0 < c.getD (n + i) 0 := by
        intro c hc
        by_contra hlt
        rw [not_lt] at hlt
        -- the maximum is attained
        have : ∃ d ∈ b :: bs, d.getD i 0 = (colMax (b.take n) (bs.map (·.take n))).getD i 0 := by
          by_contra hno
          push Not at hno
          have hlt' : ∀ d ∈ b :: bs, d.getD i 0 < (colMax (b.take n) (bs.map (·.take n))).getD i 0 := by
            intro d hd
            refine lt_of_le_of_ne ?_ (hno d hd)
            have := (s1 i hi _).mp (le_refl _)
            rcases List.mem_cons.mp hd with rfl | hd
            · have h4 := this.1
              rwa [take_getD _ _ _ hi] at h4
            · have h3 := this.2 _ (List.mem_map.mpr ⟨d, hd, rfl⟩)
              rwa [take_getD _ _ _ hi] at h3
          -- take the maximum of the finitely many values
          have hex : ∀ (l : List (List ℚ)) (m : ℚ), (∀ d ∈ l, d.getD i 0 < m) → ∃ v, v < m ∧ ∀ d ∈ l, d.getD i 0 ≤ v := by
            intro l m
            induction l with
            | nil => intro _; exact ⟨m - 1, by linarith, by simp⟩
            | cons d l ih =>
              intro hl
              obtain ⟨v, hv, hv'⟩ := ih (fun e he => hl e (List.mem_cons_of_mem _ he))
              refine ⟨max v (d.getD i 0), max_lt hv (hl d List.mem_cons_self), ?_⟩
              intro e he
              rcases List.mem_cons.mp he with rfl | he
              · exact le_max_right _ _
              · exact le_trans (hv' e he) (le_max_left _ _)
          obtain ⟨v, hv, hv'⟩ := hex _ _ hlt'
          have := (s1 i hi v).mpr ⟨by rw [take_getD _ _ _ hi]; exact hv' b List.mem_cons_self, by
            intro s hs
            obtain ⟨d, hd, rfl⟩ := List.mem_map.mp hs
            rw [take_getD _ _ _ hi]
            exact hv' d (List.mem_cons_of_mem _ hd)⟩
          linarith
        obtain ⟨d, hd, he⟩ := this
        have := hcon d hd c hc
        linarith
      -- hence the minimum of the maxima is above too
      have hex : ∀ (l : List (List ℚ)) (m : ℚ), (∀ d ∈ l, m < d.getD (n + i) 0) →
          ∃ v, m < v ∧ ∀ d ∈ l, v ≤ d.getD (n + i) 0 := by
        intro l m
        induction l with
        | nil => intro _; exact ⟨m + 1, by linarith, by simp⟩
        | cons d l ih =>
          intro hl
          obtain ⟨v, hv, hv'⟩ := ih (fun e he => hl e (List.mem_cons_of_mem _ he))
          refine ⟨min v (d.getD (n + i) 0), lt_min hv (hl d List.mem_cons_self), ?_⟩
          intro e he
          rcases List.mem_cons.mp he with rfl | he
          · exact min_le_right _ _
          · exact le_trans (min_le_left _ _) (hv' e he)
      obtain ⟨v, hv, hv'⟩ := hex _ _ hmax
      have := (s2 i hi v).mpr ⟨by rw [drop_getD]; exact hv' b List.mem_cons_self, by
        intro s hs
        obtain ⟨d, hd, rfl⟩ := List.mem_map.mp hs
        rw [drop_getD]
        exact hv' d (List.mem_cons_of_mem _ hd)⟩
      linarith
    · rintro ⟨i, hi, d, hd, c, hc, hle⟩
      refine ⟨i, hi, ?_⟩
      have h1 : d.getD i 0 ≤ (colMax (b.take n) (bs.map (·.take n))).getD i 0 := by
        have := (s1 i hi _).mp (le_refl _)
        rcases List.mem_cons.mp hd with rfl | hd
        · have h4 := this.1
          rwa [take_getD _ _ _ hi] at h4
        · have h3 := this.2 _ (List.mem_map.mpr ⟨d, hd, rfl⟩)
          rwa [take_getD _ _ _ hi] at h3
      have h2 : (colMin (b.drop n) (bs.map (·.drop n))).getD i 0 ≤ c.getD (n + i) 0 := by
        have := (s2 i hi _).mp (le_refl _)
        rcases List.mem_cons.mp hc with rfl | hc
        · have h4 := this.1
          rwa [drop_getD] at h4
        · have h3 := this.2 _ (List.mem_map.mpr ⟨c, hc, rfl⟩)
          rwa [drop_getD] at h3
      linarith

example : intersectBoxes [[0, 0, 10, 10], [5, 5, 15, 15]] = .ok [5, 5, 10, 10] := by decide +kernel
example : intersectBoxes [[0, 0, 1, 1], [1, 0, 2, 1]] = .error .valueError := by decide +kernel

/-! ### bounding_box -/

/-- C06. For a non-empty list of points of equal dimension `bounding_box` returns a box that contains every point,
and every box that contains all the points contains every point of the returned box. -/
theorem bounding_box_least (points : List (List ℚ)) (hne : points ≠ []) (n : Nat)
    (hn : ∀ p ∈ points, p.length = n) :
    ∃ r, boundingBox points = .ok r ∧ r.length = 2 * n ∧ (∀ p ∈ points, PointInBox p r) ∧
      ∀ box : List ℚ, box.length = 2 * n → (∀ p ∈ points, PointInBox p box) →
        ∀ q, PointInBox q r → PointInBox q box := by
  match points, hne with
  | p :: ps, _ =>
    have hp := hn p List.mem_cons_self
    have hps : ∀ c ∈ ps, c.length = n := fun c hc => hn c (List.mem_cons_of_mem _ hc)
    obtain ⟨l1, s1⟩ := colMax_spec n p ps hp hps
    obtain ⟨l2, s2⟩ := colMin_spec n p ps hp hps
    have e1 : ps.any (fun c => decide (c.length ≠ p.length)) = false := by
      rw [List.any_eq_false]
      intro c hc; simp [hps c hc, hp]
    have gl : ∀ i, i < n → (colMin p ps ++ colMax p ps).getD i 0 = (colMin p ps).getD i 0 :=
      fun i hi => append_getD_left _ _ _ (by omega)
    have gr : ∀ i, i < n → (colMin p ps ++ colMax p ps).getD (n + i) 0 = (colMax p ps).getD i 0 := by
      intro i hi
      have := append_getD_right (colMin p ps) (colMax p ps) i
      rwa [l2] at this
    refine ⟨colMin p ps ++ colMax p ps, ?_, by simp [l1, l2]; omega, ?_, ?_⟩
    · unfold boundingBox
      simp only [e1, Bool.false_eq_true, if_false]
    · intro q hq
      have hqn := hn q hq
      refine ⟨by simp [l1, l2, hqn]; omega, fun i hi => ?_⟩
      rw [hqn] at hi ⊢
      rw [gl i hi, gr i hi]
      have h1 := (s1 i hi _).mp (le_refl _)
      have h2 := (s2 i hi _).mp (le_refl _)
      rcases List.mem_cons.mp hq with rfl | hq
      · exact ⟨h2.1, h1.1⟩
      · exact ⟨h2.2 q hq, h1.2 q hq⟩
    · rintro box hbox hall q ⟨hql, hq⟩
      have hqn : q.length = n := by simp [l1, l2] at hql; omega
      refine ⟨by omega, fun i hi => ?_⟩
      have hqi := hq i hi
      rw [hqn] at hi hqi ⊢
      rw [gl i hi, gr i hi] at hqi
      have hc : ∀ c ∈ p :: ps, box.getD i 0 ≤ c.getD i 0 ∧ c.getD i 0 ≤ box.getD (n + i) 0 := by
        intro c hc
        have := (hall c hc).2 i (by rw [hn c hc]; exact hi)
        rwa [hn c hc] at this
      have lo : box.getD i 0 ≤ (colMin p ps).getD i 0 :=
        (s2 i hi _).mpr ⟨(hc p List.mem_cons_self).1, fun s hs => (hc s (List.mem_cons_of_mem _ hs)).1⟩
      have hi' : (colMax p ps).getD i 0 ≤ box.getD (n + i) 0 :=
        (s1 i hi _).mpr ⟨(hc p List.mem_cons_self).2, fun s hs => (hc s (List.mem_cons_of_mem _ hs)).2⟩
      exact ⟨le_trans lo hqi.1, le_trans hqi.2 hi'⟩

example : boundingBox [[0, 0], [0, 1], [1, 10]] = .ok [0, 0, 1, 10] := by decide +kernel

/-! ### box_to_grid -/

private theorem pyMod_range (a b : ℚ) (hb : 0 < b) : 0 ≤ pyMod a b ∧ pyMod a b < b := by
  unfold pyMod
  have h1 := Int.floor_le (a / b)
  have h2 := Int.lt_floor_add_one (a / b)
  have e : a = b * (a / b) := by field_simp
  constructor
  · have := mul_le_mul_of_nonneg_left h1 hb.le
    linarith
  · have := mul_lt_mul_of_pos_left h2 hb
    linarith

/-- C07 (one axis). For a positive step and `lo ≤ hi` the coordinates are strictly increasing and are exactly
the numbers of the form `snap + k * step` (`k` any integer) in the closed interval `[lo, hi]`. -/
theorem grid_axis_exact (lo hi step snap : ℚ) (hstep : 0 < step) (hle : lo ≤ hi) :
    ∃ xs, gridAxis lo hi step snap = .ok xs ∧ xs.Pairwise (· < ·) ∧
      ∀ x, x ∈ xs ↔ lo ≤ x ∧ x ≤ hi ∧ ∃ k : ℤ, x = snap + k * step := by
  obtain ⟨m0, m1⟩ := pyMod_range (snap - lo) step hstep
  set shift := pyMod (snap - lo) step with hshift
  set n : ℤ := ⌊(hi - lo - shift) / step⌋ with hn
  have hs0 : step ≠ 0 := ne_of_gt hstep
  have nle : (n : ℚ) * step ≤ hi - lo - shift := by
    have := Int.floor_le ((hi - lo - shift) / step)
    rw [← hn] at this
    have := mul_le_mul_of_nonneg_right this hstep.le
    rwa [div_mul_cancel₀ _ hs0] at this
  have nlt : hi - lo - shift < ((n : ℚ) + 1) * step := by
    have := Int.lt_floor_add_one ((hi - lo - shift) / step)
    rw [← hn] at this
    have := mul_lt_mul_of_pos_right this hstep
    rwa [div_mul_cancel₀ _ hs0] at this
  have nge : -1 ≤ n := by
    rw [hn, Int.le_floor]
    rw [le_div_iff₀ hstep]
    push_cast
    linarith
  -- the axis is start, start + step, ..., n + 1 of them
  have hxs : gridAxis lo hi step snap =
      .ok ((List.range (n + 1).toNat).map fun i : Nat => lo + shift + (i : ℚ) * step) := by
    unfold gridAxis
    simp only [hs0, if_false, ← hshift, ← hn]
    unfold linspace
    rw [if_neg (by omega)]
    by_cases h1 : n + 1 = 1
    · rw [if_pos h1]
      have : n = 0 := by omega
      simp [this]
    · rw [if_neg h1]
      congr 1
      apply List.map_congr_left
      intro i hi'
      rcases Int.lt_or_le n 1 with hlt | hge
      · have : (n + 1).toNat = 0 := by omega
        rw [this] at hi'; simp at hi'
      · have hnq : (n : ℚ) ≠ 0 := by
          have : (1 : ℚ) ≤ n := by exact_mod_cast hge
          linarith
        have : (lo + shift + (n : ℚ) * step - (lo + shift)) / (((n + 1 : ℤ) : ℚ) - 1) = step := by
          push_cast
          have e : (n : ℚ) + 1 - 1 = n := by ring
          rw [e]
          field_simp
          ring
        rw [this]
  -- snap is congruent to the start
  have hcong : ∃ j : ℤ, lo + shift = snap + j * step := by
    refine ⟨-⌊(snap - lo) / step⌋, ?_⟩
    rw [hshift]; unfold pyMod; push_cast; ring
  obtain ⟨j, hj⟩ := hcong
  refine ⟨_, hxs, ?_, ?_⟩
  · rw [List.pairwise_map]
    refine List.pairwise_lt_range.imp ?_
    intro a b hab
    have : (a : ℚ) < b := by exact_mod_cast hab
    nlinarith
  · intro x
    rw [List.mem_map]
    constructor
    · rintro ⟨i, hi', rfl⟩
      rw [List.mem_range] at hi'
      have hi1 : (i : ℤ) ≤ n := by omega
      have hiq : (i : ℚ) ≤ n := by exact_mod_cast hi1
      have hi0 : (0 : ℚ) ≤ i := by exact_mod_cast Nat.zero_le i
      refine ⟨by nlinarith, by nlinarith, j + i, ?_⟩
      rw [hj]; push_cast; ring
    · rintro ⟨hx1, hx2, k, hk⟩
      have e : x = lo + shift + ((k - j : ℤ) : ℚ) * step := by
        rw [hj, hk]; push_cast; ring
      have h0 : (-1 : ℚ) < ((k - j : ℤ) : ℚ) := by
        by_contra hc
        push Not at hc
        have := mul_le_mul_of_nonneg_right hc hstep.le
        linarith
      have h1 : ((k - j : ℤ) : ℚ) < (n : ℚ) + 1 := by
        by_contra hc
        push Not at hc
        have := mul_le_mul_of_nonneg_right hc hstep.le
        linarith
      have h0' : -1 < k - j := by exact_mod_cast h0
      have h1' : k - j < n + 1 := by exact_mod_cast h1
      refine ⟨(k - j).toNat, by rw [List.mem_range]; omega, ?_⟩
      rw [e]
      have : (((k - j).toNat : ℕ) : ℚ) = ((k - j : ℤ) : ℚ) := by
        have : (((k - j).toNat : ℕ) : ℤ) = k - j := Int.toNat_of_nonneg (by omega)
        exact_mod_cast this
      rw [this]

/-- C07. `box_to_grid(mode="points")` in two dimensions returns, without repetition, exactly the points of the
closed box whose coordinates are congruent to the snap point (default: the box minimum) modulo the steps. -/
theorem box_to_grid_points (lo hi step : ℚ × ℚ) (snap : Option (ℚ × ℚ)) (h1 : 0 < step.1) (h2 : 0 < step.2)
    (hx : lo.1 ≤ hi.1) (hy : lo.2 ≤ hi.2) :
    ∃ ps, boxToPoints2 lo hi step snap = .ok ps ∧ ps.Nodup ∧
      ∀ p : ℚ × ℚ, p ∈ ps ↔
        (lo.1 ≤ p.1 ∧ p.1 ≤ hi.1 ∧ ∃ k : ℤ, p.1 = (snap.getD lo).1 + k * step.1) ∧
        (lo.2 ≤ p.2 ∧ p.2 ≤ hi.2 ∧ ∃ k : ℤ, p.2 = (snap.getD lo).2 + k * step.2) := by
  obtain ⟨xs, ex, px, mx⟩ := grid_axis_exact lo.1 hi.1 step.1 (snap.getD lo).1 h1 hx
  obtain ⟨ys, ey, py, my⟩ := grid_axis_exact lo.2 hi.2 step.2 (snap.getD lo).2 h2 hy
  refine ⟨ys.flatMap fun y => xs.map fun x => (x, y), ?_, ?_, ?_⟩
  · unfold boxToPoints2
    simp only [ex, ey, bind, Except.bind, pure, Except.pure]
  · rw [List.nodup_flatMap]
    constructor
    · intro y _
      exact (px.imp (fun h => ne_of_lt h)).map _ (fun a b hab => by simpa using hab)
    · refine py.imp ?_
      intro a b hab p hp hp'
      simp only [List.mem_map] at hp hp'
      obtain ⟨x, _, rfl⟩ := hp
      obtain ⟨x', _, e⟩ := hp'
      have : b = a := by simpa using congrArg Prod.snd e
      exact ne_of_lt hab this.symm
  · rintro ⟨x, y⟩
    simp only [List.mem_flatMap, List.mem_map, Prod.mk.injEq]
    rw [← mx x, ← my y]
    constructor
    · rintro ⟨y', hy', x', hx', rfl, rfl⟩; exact ⟨hx', hy'⟩
    · rintro ⟨hx', hy'⟩; exact ⟨y, hy', x, hx', rfl, rfl⟩

example : gridAxis 0 10 4 1 = .ok [1, 5, 9] := by decide +kernel
example : gridAxis 0 10 4 2 = .ok [2, 6, 10] := by decide +kernel
example : boxToPoints2 (0, 0) (5, 4) (4, 4) none = .ok [(0, 0), (4, 0), (0, 4), (4, 4)] := by decide +kernel

end Glimpse
