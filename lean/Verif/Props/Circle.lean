import Verif.Model.Circle
import Mathlib.Tactic.Linarith
import Mathlib.Tactic.Ring
import Mathlib.Tactic.NormNum
import Mathlib.Data.List.Chain

/-!
C77: circles of cells (`bresenham_circle`, `Raster.fill_circle`).
-/
set_option autoImplicit false
set_option linter.unusedSimpArgs false
set_option linter.unusedSectionVars false

namespace Glimpse.Circle

/-! ### Specification -/

/-- The point is less than one pixel from the circle. -/
def Near (center : ℤ × ℤ) (r : ℤ) (p : ℤ × ℤ) : Prop :=
  (r - 1) ^ 2 < (p.1 - center.1) ^ 2 + (p.2 - center.2) ^ 2 ∧ (p.1 - center.1) ^ 2 + (p.2 - center.2) ^ 2 < (r + 1) ^ 2

/-- The two cells are the same or share a side or corner. -/
def Adjacent (p q : ℤ × ℤ) : Prop := |p.1 - q.1| ≤ 1 ∧ |p.2 - q.2| ≤ 1

/-! ### The loop -/

/-- Invariant of the loop at the start of iteration `k`. -/
private structure Inv (r : Nat) (k : Nat) (s : St) : Prop where
  hx : s.x = k
  hf : s.f = s.x ^ 2 + s.y ^ 2 - r ^ 2 + 2 * s.x - s.y + 1
  hdx : s.dx = 2 * s.x + 1
  hdy : s.dy = -2 * s.y
  y0 : 0 ≤ s.y
  yr : s.y ≤ r
  lo : -s.y < s.x ^ 2 + s.y ^ 2 - r ^ 2
  hi : s.x ^ 2 + s.y ^ 2 - r ^ 2 ≤ s.y + 1
  hi' : s.x ≤ s.y → s.x ^ 2 + s.y ^ 2 - r ^ 2 ≤ s.y
  diag : s.x ≤ s.y + 1

private theorem inv_start (r : Nat) (hr : 1 ≤ r) : Inv r 0 (start r) := by
  have hr' : (1 : ℤ) ≤ r := by exact_mod_cast hr
  refine ⟨rfl, ?_, ?_, ?_, ?_, ?_, ?_, ?_, ?_, ?_⟩ <;> simp [start] <;> omega

/-- While the loop runs the point is above the diagonal. -/
private theorem above (r k : Nat) (s : St) (h : Inv r k s) (hr : 1 ≤ r) (hk : 2 * k ^ 2 ≤ (r - 1) ^ 2) : s.x + 1 ≤ s.y := by
  by_contra hlt
  push Not at hlt
  have hyx : s.y ≤ s.x := by omega
  have hlo := h.lo
  have hx0 : 0 ≤ s.x := by rw [h.hx]; exact Int.natCast_nonneg _
  have hk' : 2 * s.x ^ 2 ≤ ((r : ℤ) - 1) ^ 2 := by
    rw [h.hx]
    have : ((2 * k ^ 2 : ℕ) : ℤ) ≤ (((r - 1) ^ 2 : ℕ) : ℤ) := by exact_mod_cast hk
    push_cast [Nat.cast_sub hr] at this
    exact this
  have hr' : (1 : ℤ) ≤ r := by exact_mod_cast hr
  have h1 : s.y ^ 2 + s.y ≤ s.x ^ 2 + s.x := by nlinarith [h.y0]
  have h2 : (r : ℤ) ^ 2 + 1 ≤ 2 * s.x ^ 2 + s.x := by nlinarith
  have h3 : 2 * (r : ℤ) ≤ s.x := by nlinarith
  nlinarith

private theorem inv_step (r k : Nat) (s : St) (h : Inv r k s) (hr : 1 ≤ r) (hk : 2 * k ^ 2 ≤ (r - 1) ^ 2) : Inv r (k + 1) (step s) := by
  have hab := above r k s h hr hk
  have hx0 : 0 ≤ s.x := by rw [h.hx]; exact Int.natCast_nonneg _
  have hi := h.hi' (by omega)
  have hlo := h.lo
  have hf := h.hf
  have hdx := h.hdx
  have hdy := h.hdy
  have hy0 := h.y0
  have hyr := h.yr
  have hx := h.hx
  unfold step
  by_cases hpos : 0 < s.f
  · simp only [if_pos hpos]
    refine ⟨?_, ?_, ?_, ?_, ?_, ?_, ?_, ?_, ?_, ?_⟩ <;> simp only
    · rw [hx]; push_cast; ring
    · rw [hf, hdx, hdy]; ring
    · rw [hdx]; ring
    · rw [hdy]; ring
    · omega
    · omega
    · nlinarith
    · nlinarith
    · intro hle
      have : s.x + 2 ≤ s.y := by omega
      nlinarith
    · omega
  · simp only [if_neg hpos]
    push Not at hpos
    refine ⟨?_, ?_, ?_, ?_, ?_, ?_, ?_, ?_, ?_, ?_⟩ <;> simp only
    · rw [hx]; push_cast; ring
    · rw [hf, hdx]; ring
    · rw [hdx]; ring
    · exact hdy
    · exact hy0
    · exact hyr
    · nlinarith
    · nlinarith
    · intro _; nlinarith
    · omega

/-- Number of iterations. -/
private theorem sqrt_bound (r k : Nat) (hk : k ≤ Nat.sqrt ((r - 1) ^ 2 / 2)) : 2 * k ^ 2 ≤ (r - 1) ^ 2 := by
  have h1 : k * k ≤ (r - 1) ^ 2 / 2 := le_trans (Nat.mul_le_mul hk hk) (Nat.sqrt_le _)
  have := Nat.mul_div_le ((r - 1) ^ 2) 2
  rw [pow_two]; omega

private theorem states_inv (r : Nat) (hr : 1 ≤ r) (n k : Nat) (s : St) (h : Inv r k s)
    (hk : k + n ≤ 2 + Nat.sqrt ((r - 1) ^ 2 / 2)) : ∀ t ∈ states n s, ∃ j, Inv r j t := by
  induction n generalizing k s with
  | zero => intro t ht; cases ht
  | succ n ih =>
    intro t ht
    rcases List.mem_cons.1 ht with rfl | ht
    · exact ⟨k, h⟩
    · cases n with
      | zero => cases ht
      | succ n =>
        exact ih (k + 1) (step s) (inv_step r k s h hr (sqrt_bound r k (by omega))) (by omega) t ht

private theorem octant_inv (r : Nat) (hr : 1 ≤ r) (p : ℤ × ℤ) (hp : p ∈ octant r) :
    0 ≤ p.1 ∧ 0 ≤ p.2 ∧ p.2 ≤ r ∧ -p.2 < p.1 ^ 2 + p.2 ^ 2 - r ^ 2 ∧ p.1 ^ 2 + p.2 ^ 2 - r ^ 2 ≤ p.2 + 1 := by
  unfold octant at hp
  obtain ⟨s, hs, rfl⟩ := List.mem_map.1 hp
  have : octantSize r = 2 + Nat.sqrt ((r - 1) ^ 2 / 2) := by unfold octantSize; rw [if_neg (by omega)]
  obtain ⟨j, h⟩ := states_inv r hr (octantSize r) 0 (start r) (inv_start r hr) (by omega) s hs
  exact ⟨by rw [h.hx]; exact Int.natCast_nonneg _, h.y0, h.yr, h.lo, h.hi⟩

private theorem octant_near (r : Nat) (hr : 1 ≤ r) (p : ℤ × ℤ) (hp : p ∈ octant r) :
    ((r : ℤ) - 1) ^ 2 < p.1 ^ 2 + p.2 ^ 2 ∧ p.1 ^ 2 + p.2 ^ 2 < ((r : ℤ) + 1) ^ 2 := by
  obtain ⟨h1, h2, h3, h4, h5⟩ := octant_inv r hr p hp
  have hr' : (1 : ℤ) ≤ r := by exact_mod_cast hr
  constructor <;> nlinarith

private theorem ring_near (r : Nat) (hr : 1 ≤ r) (p : ℤ × ℤ) (hp : p ∈ ring r) :
    ((r : ℤ) - 1) ^ 2 < p.1 ^ 2 + p.2 ^ 2 ∧ p.1 ^ 2 + p.2 ^ 2 < ((r : ℤ) + 1) ^ 2 := by
  unfold ring at hp
  simp only [List.mem_append, List.mem_reverse, List.mem_map] at hp
  rcases hp with ((((((h | h) | h) | h) | h) | h) | h) | h
  · exact octant_near r hr p h
  all_goals
    obtain ⟨q, hq, rfl⟩ := h
    have := octant_near r hr q hq
    constructor <;> simp only <;> nlinarith [this.1, this.2]

private theorem dedupe_subset (l : List (ℤ × ℤ)) : ∀ p ∈ dedupe l, p ∈ l := by
  intro p hp
  cases l with
  | nil => cases hp
  | cons a l =>
    rcases List.mem_cons.1 hp with h | h
    · rw [h]; exact List.mem_cons_self
    · obtain ⟨e, he, rfl⟩ := List.mem_map.1 h
      exact List.mem_cons_of_mem _ (List.of_mem_zip (List.mem_filter.1 he).1).2

/-- C77: for every radius and centre, every returned point is less than a pixel from the circle. -/
theorem circle_near (center : ℤ × ℤ) (r : ℤ) (hr : 1 ≤ r) (pts : List (ℤ × ℤ)) (h : circle center r = .ok pts) :
    ∀ p ∈ pts, Near center r p := by
  unfold circle at h
  rw [if_neg (by omega)] at h
  simp only [Except.ok.injEq] at h
  subst h
  intro p hp
  obtain ⟨q, hq, rfl⟩ := List.mem_map.1 (dedupe_subset _ p hp)
  have hr' : ((r.toNat : ℕ) : ℤ) = r := Int.toNat_of_nonneg (by omega)
  have := ring_near r.toNat (by omega) q hq
  rw [hr'] at this
  unfold Near
  simp only [add_sub_cancel_left]
  exact this

/-- C77: the four points of the circle on the axes are found in the array before points are removed, and the radius zero
is the centre. -/
theorem circle_zero (center : ℤ × ℤ) : circle center 0 = .ok [center] := by
  unfold circle
  rw [if_neg (by norm_num)]
  have : ring (0 : ℤ).toNat = [(0, 0), (0, 0), (0, 0), (0, 0), (0, 0), (0, 0), (0, 0), (0, 0)] := by decide +kernel
  rw [this]
  simp [dedupe]

/-! ### Connected before points are removed -/

private theorem states_ne (n : Nat) (s : St) : states (n + 1) s = s :: states n (step s) := rfl

private theorem step_adjacent (s : St) : Adjacent (s.x, s.y) ((step s).x, (step s).y) := by
  unfold step Adjacent
  by_cases h : 0 < s.f
  · simp only [if_pos h]; constructor <;> rw [abs_le] <;> constructor <;> omega
  · simp only [if_neg h]; constructor <;> rw [abs_le] <;> constructor <;> omega

private theorem states_chain (n : Nat) (s : St) : ((states n s).map fun s => (s.x, s.y)).IsChain Adjacent := by
  induction n generalizing s with
  | zero => exact List.IsChain.nil
  | succ n ih =>
    cases n with
    | zero => exact List.IsChain.singleton _
    | succ n =>
      have h := ih (step s)
      rw [states_ne, List.map_cons]
      rw [states_ne, List.map_cons] at h ⊢
      exact List.IsChain.cons_cons (step_adjacent s) h

private theorem states_last (r : Nat) (hr : 1 ≤ r) (n k : Nat) (s : St) (h : Inv r k s)
    (hk : k + n ≤ 1 + Nat.sqrt ((r - 1) ^ 2 / 2)) : ∃ t, (states (n + 1) s).getLast? = some t ∧ Inv r (k + n) t := by
  induction n generalizing k s with
  | zero => exact ⟨s, rfl, h⟩
  | succ n ih =>
    obtain ⟨t, ht, hi⟩ := ih (k + 1) (step s) (inv_step r k s h hr (sqrt_bound r k (by omega))) (by omega)
    refine ⟨t, ?_, by rwa [show k + (n + 1) = k + 1 + n by omega]⟩
    rw [states_ne, states_ne, List.getLast?_cons_cons, ← states_ne]
    exact ht

private theorem octant_last (r : Nat) (hr : 1 ≤ r) : ∃ p, (octant r).getLast? = some p ∧ |p.1 - p.2| ≤ 1 := by
  have hsz : octantSize r = 2 + Nat.sqrt ((r - 1) ^ 2 / 2) := by unfold octantSize; rw [if_neg (by omega)]
  obtain ⟨t, ht, hi⟩ := states_last r hr (1 + Nat.sqrt ((r - 1) ^ 2 / 2)) 0 (start r) (inv_start r hr) (by omega)
  refine ⟨(t.x, t.y), ?_, ?_⟩
  · unfold octant
    rw [hsz, show 2 + Nat.sqrt ((r - 1) ^ 2 / 2) = 1 + Nat.sqrt ((r - 1) ^ 2 / 2) + 1 by omega, List.getLast?_map, ht]
    rfl
  · have hd := hi.diag
    have hx := hi.hx
    have hy0 := hi.y0
    have hlt : (r - 1) ^ 2 < 2 * (Nat.sqrt ((r - 1) ^ 2 / 2) + 1) ^ 2 := by
      have h := Nat.lt_succ_sqrt ((r - 1) ^ 2 / 2)
      rw [Nat.succ_eq_add_one] at h
      rw [pow_two (Nat.sqrt _ + 1)]
      omega
    set q := Nat.sqrt ((r - 1) ^ 2 / 2) with hq
    have hxq : t.x = (q : ℤ) + 1 := by rw [hx]; push_cast; ring
    have hlt' : ((r : ℤ) - 1) ^ 2 < 2 * t.x ^ 2 := by
      rw [hxq]
      have : (((r - 1) ^ 2 : ℕ) : ℤ) < ((2 * (q + 1) ^ 2 : ℕ) : ℤ) := by exact_mod_cast hlt
      push_cast [Nat.cast_sub hr] at this
      exact this
    rw [abs_le]
    refine ⟨?_, by simp only; omega⟩
    simp only
    by_contra hlt2
    push Not at hlt2
    have hy : t.x + 2 ≤ t.y := by omega
    have hr' : (1 : ℤ) ≤ r := by exact_mod_cast hr
    have hx1 : 1 ≤ t.x := by rw [hxq]; omega
    have hh := hi.hi' (by omega)
    have h1 : 2 * t.x ^ 2 + 3 * t.x + 2 ≤ (r : ℤ) ^ 2 := by nlinarith
    have h2 : 3 * t.x < 2 * ((r : ℤ) - 1) := by nlinarith
    nlinarith

private theorem octant_head (r : Nat) : (octant r).head? = some (0, (r : ℤ)) := by
  unfold octant octantSize
  split
  · simp [states, start]
  · rw [show 2 + Nat.sqrt ((r - 1) ^ 2 / 2) = 1 + Nat.sqrt ((r - 1) ^ 2 / 2) + 1 by omega, states_ne]
    rfl

private theorem adj_symm {p q : ℤ × ℤ} (h : Adjacent p q) : Adjacent q p := by
  unfold Adjacent at *
  rwa [abs_sub_comm q.1, abs_sub_comm q.2]

private theorem chain_map (f : ℤ × ℤ → ℤ × ℤ) (hf : ∀ p q, Adjacent p q → Adjacent (f p) (f q)) (l : List (ℤ × ℤ))
    (h : l.IsChain Adjacent) : (l.map f).IsChain Adjacent := by
  rw [List.isChain_map]
  exact h.imp hf

private theorem chain_reverse (l : List (ℤ × ℤ)) (h : l.IsChain Adjacent) : l.reverse.IsChain Adjacent := by
  rw [List.isChain_reverse]
  exact h.imp fun p q hpq => adj_symm hpq

/-- C77: before points are removed, the array is a closed path of adjacent cells, starting and ending at the top. -/
theorem ring_connected (r : Nat) (hr : 1 ≤ r) : (ring r).IsChain Adjacent ∧ (ring r).head? = some (0, (r : ℤ)) ∧
    (ring r).getLast? = some (0, (r : ℤ)) := by
  obtain ⟨p, hp, hd⟩ := octant_last r hr
  have hh := octant_head r
  have hc : (octant r).IsChain Adjacent := states_chain _ _
  have hne : octant r ≠ [] := by intro h; rw [h] at hh; cases hh
  have hsw : ∀ u v : ℤ, |u - v| ≤ 1 → |v - u| ≤ 1 := fun u v h => by rwa [abs_sub_comm]
  have hneg : ∀ u v : ℤ, |u - v| ≤ 1 → |-u - -v| ≤ 1 := fun u v h => by rw [show -u - -v = -(u - v) by ring, abs_neg]; exact h
  have key : ∀ f : ℤ × ℤ → ℤ × ℤ, (∀ p q, Adjacent p q → Adjacent (f p) (f q)) → ((octant r).map f).IsChain Adjacent :=
    fun f hf => chain_map f hf _ hc
  have c1 := key (fun p => (p.2, p.1)) fun p q h => ⟨h.2, h.1⟩
  have c2 := key (fun p => (p.2, -p.1)) fun p q h => ⟨h.2, hneg _ _ h.1⟩
  have c3 := key (fun p => (p.1, -p.2)) fun p q h => ⟨h.1, hneg _ _ h.2⟩
  have c4 := key (fun p => (-p.1, -p.2)) fun p q h => ⟨hneg _ _ h.1, hneg _ _ h.2⟩
  have c5 := key (fun p => (-p.2, -p.1)) fun p q h => ⟨hneg _ _ h.2, hneg _ _ h.1⟩
  have c6 := key (fun p => (-p.2, p.1)) fun p q h => ⟨hneg _ _ h.2, h.1⟩
  have c7 := key (fun p => (-p.1, p.2)) fun p q h => ⟨hneg _ _ h.1, h.2⟩
  have hhd : ∀ f : ℤ × ℤ → ℤ × ℤ, ((octant r).map f).head? = some (f (0, r)) := fun f => by rw [List.head?_map, hh]; rfl
  have hlast : ∀ f : ℤ × ℤ → ℤ × ℤ, ((octant r).map f).getLast? = some (f p) := fun f => by rw [List.getLast?_map, hp]; rfl
  have hrev_hd : ∀ f : ℤ × ℤ → ℤ × ℤ, ((octant r).map f).reverse.head? = some (f p) := fun f => by rw [List.head?_reverse]; exact hlast f
  have hrev_last : ∀ f : ℤ × ℤ → ℤ × ℤ, ((octant r).map f).reverse.getLast? = some (f (0, r)) := fun f => by rw [List.getLast?_reverse]; exact hhd f
  have glue : ∀ (A B : List (ℤ × ℤ)) (u v : ℤ × ℤ), A.IsChain Adjacent → B.IsChain Adjacent → A.getLast? = some u → B.head? = some v →
      Adjacent u v → (A ++ B).IsChain Adjacent ∧ (A ++ B).getLast? = B.getLast? := by
    intro A B u v hA hB hu hv huv
    refine ⟨?_, ?_⟩
    · rw [List.isChain_append]
      refine ⟨hA, hB, fun x hx y hy => ?_⟩
      rw [Option.mem_def] at hx hy
      rw [hu] at hx; rw [hv] at hy
      cases hx; cases hy; exact huv
    · cases B with
      | nil => cases hv
      | cons b B => rw [List.getLast?_append_of_ne_nil _ (List.cons_ne_nil _ _)]
  have hrefl : ∀ q : ℤ × ℤ, Adjacent q q := fun q => by unfold Adjacent; simp
  have hd' := hsw _ _ hd
  have g1 := glue _ _ _ _ hc (chain_reverse _ c1) hp (hrev_hd fun p => (p.2, p.1)) ⟨hd, hd'⟩
  have g2 := glue _ _ _ _ g1.1 c2 (g1.2.trans (hrev_last fun p => (p.2, p.1))) (hhd fun p => (p.2, -p.1)) (by simpa using hrefl _)
  have g3 := glue _ _ _ _ g2.1 (chain_reverse _ c3) (g2.2.trans (hlast fun p => (p.2, -p.1))) (hrev_hd fun p => (p.1, -p.2)) ⟨hd', hneg _ _ hd⟩
  have g4 := glue _ _ _ _ g3.1 c4 (g3.2.trans (hrev_last fun p => (p.1, -p.2))) (hhd fun p => (-p.1, -p.2)) (by simpa using hrefl _)
  have g5 := glue _ _ _ _ g4.1 (chain_reverse _ c5) (g4.2.trans (hlast fun p => (-p.1, -p.2))) (hrev_hd fun p => (-p.2, -p.1)) ⟨hneg _ _ hd, hneg _ _ hd'⟩
  have g6 := glue _ _ _ _ g5.1 c6 (g5.2.trans (hrev_last fun p => (-p.2, -p.1))) (hhd fun p => (-p.2, p.1)) (by simpa using hrefl _)
  have g7 := glue _ _ _ _ g6.1 (chain_reverse _ c7) (g6.2.trans (hlast fun p => (-p.2, p.1))) (hrev_hd fun p => (-p.1, p.2)) ⟨hneg _ _ hd', hd⟩
  refine ⟨g7.1, ?_, ?_⟩
  · unfold ring
    cases ho : octant r with
    | nil => exact absurd ho hne
    | cons a l =>
      rw [ho] at hh
      simpa using hh
  · have := g7.2.trans (hrev_last fun p => (-p.1, p.2))
    simpa [ring] using this

/-- C77 fails for the returned path: points reached by a diagonal step in the first and third quadrants are removed, so
that (for radius 3) consecutive points are not adjacent. -/
theorem circle_connected_violated : ∃ pts, circle (0, 0) 3 = .ok pts ∧ ¬ pts.IsChain Adjacent := by
  refine ⟨[(0, 3), (1, 3), (3, 0), (3, -1), (2, -2), (1, -3), (0, -3), (-1, -3), (-3, 0), (-3, 1), (-2, 2), (-1, 3), (0, 3)], by decide +kernel, ?_⟩
  intro h
  have := (List.isChain_cons_cons.1 (List.isChain_cons_cons.1 h).2).1
  simp [Adjacent] at this

/-! ### Filling -/

private theorem rowCells_mem (nx : Nat) (pts : List (ℤ × ℤ)) (yi : ℤ) (c : ℤ × ℤ) (h : c ∈ rowCells nx pts yi) :
    c.1 = yi ∧ 0 ≤ c.2 ∧ c.2 < nx ∧ ∃ p ∈ pts, ∃ q ∈ pts, p.2 = yi ∧ q.2 = yi ∧ p.1 ≤ c.2 ∧ c.2 ≤ q.1 := by
  unfold rowCells at h
  simp only at h
  cases hlo : ((pts.filter fun p => decide (p.2 = yi)).map (·.1)).min? with
  | none => rw [hlo] at h; cases h
  | some lo =>
    cases hhi : ((pts.filter fun p => decide (p.2 = yi)).map (·.1)).max? with
    | none => rw [hlo, hhi] at h; cases h
    | some hi =>
      rw [hlo, hhi] at h
      simp only [List.mem_map, List.mem_range] at h
      obtain ⟨k, hk, rfl⟩ := h
      have hlom := List.min?_mem hlo
      have hhim := List.max?_mem hhi
      obtain ⟨p, hp, hp1⟩ := List.mem_map.1 hlom
      obtain ⟨q, hq, hq1⟩ := List.mem_map.1 hhim
      have hp2 := List.mem_filter.1 hp
      have hq2 := List.mem_filter.1 hq
      have m1 : lo ≤ max lo 0 := le_max_left _ _
      have m2 : (0 : ℤ) ≤ max lo 0 := le_max_right _ _
      have m3 : min hi ((nx : ℤ) - 1) ≤ hi := min_le_left _ _
      have m4 : min hi ((nx : ℤ) - 1) ≤ (nx : ℤ) - 1 := min_le_right _ _
      generalize max lo 0 = a at *
      generalize min hi ((nx : ℤ) - 1) = b at *
      have hk' : (k : ℤ) < b + 1 - a := by omega
      have hk0 : (0 : ℤ) ≤ k := Int.natCast_nonneg k
      refine ⟨rfl, ?_, ?_, p, hp2.1, q, hq2.1, by simpa using hp2.2, by simpa using hq2.2, ?_, ?_⟩ <;> simp only at hp1 hq1 ⊢ <;> omega

/-- C77: `fill_circle` changes only cells of the raster less than the rounded radius plus one from the centre, and sets
these to the value. -/
theorem fill_circle_inside {α : Type} (nx ny : Nat) (A B : ℤ → ℤ → α) (center : ℤ × ℤ) (radius width : ℚ) (value : α)
    (hr : 1 ≤ round (radius / width)) (h : fillCircle nx ny A center radius width value = .ok B) (i j : ℤ) :
    B i j = A i j ∨ (B i j = value ∧ 0 ≤ i ∧ i < ny ∧ 0 ≤ j ∧ j < nx ∧
      (j - center.1) ^ 2 + (i - center.2) ^ 2 < (round (radius / width) + 1) ^ 2) := by
  unfold fillCircle fillCells at h
  cases hc : circle center (round (radius / width)) with
  | error e => rw [hc] at h; cases h
  | ok pts =>
    rw [hc] at h
    simp only [bind, Except.bind, Except.ok.injEq] at h
    subst h
    simp only
    split
    · rename_i hm
      right
      refine ⟨rfl, ?_⟩
      obtain ⟨yi, hy, hcell⟩ := List.mem_flatMap.1 hm
      obtain ⟨h1, h2, h3, p, hp, q, hq, hp2, hq2, hpj, hjq⟩ := rowCells_mem nx pts yi (i, j) hcell
      have hy2 := (List.mem_filter.1 hy).2
      simp only [decide_eq_true_eq] at hy2
      simp only at h1 h2 h3 hpj hjq
      have np := (circle_near center _ hr pts hc p hp).2
      have nq := (circle_near center _ hr pts hc q hq).2
      rw [hp2] at np
      rw [hq2] at nq
      refine ⟨by omega, by omega, h2, h3, ?_⟩
      rw [h1]
      rcases le_total j center.1 with hle | hle
      · nlinarith
      · nlinarith
    · left; rfl

/-- C77: radius zero fills the cell of the centre. -/
theorem fill_circle_zero {α : Type} (nx ny : Nat) (A : ℤ → ℤ → α) (cx cy : Nat) (hx : cx < nx) (hy : cy < ny) (width : ℚ) (value : α) :
    ∃ B, fillCircle nx ny A ((cx : ℤ), (cy : ℤ)) 0 width value = .ok B ∧ ∀ i j, B i j = if i = cy ∧ j = cx then value else A i j := by
  unfold fillCircle fillCells
  rw [zero_div, round_zero, circle_zero]
  refine ⟨_, rfl, fun i j => ?_⟩
  have h1 : (-1 : ℤ) < (cy : ℤ) ∧ (cy : ℤ) < (ny : ℤ) := by omega
  have h2 : max (cx : ℤ) 0 = cx := by omega
  have h3 : (min (cx : ℤ) ((nx : ℤ) - 1) + 1 - (cx : ℤ)).toNat = 1 := by omega
  simp [List.dedup_cons_of_notMem, h1, rowCells, h2, h3]

/-- C77 fails: in a raster of 9 by 9 cells, a circle of radius 3 around the central cell does not fill the cell one row
below and none right of the centre (row 5, column 4), at distance 1, nor the cell two rows below (row 6, column 4), though
the rows above are filled. -/
theorem fill_circle_violated : ∃ cells, fillCells 9 9 (4, 4) 3 = .ok cells ∧ (5, 4) ∉ cells ∧ (6, 4) ∉ cells ∧
    (4, 4) ∈ cells ∧ (7, 4) ∈ cells := by
  refine ⟨_, rfl, ?_⟩
  decide +kernel

/-- C77 fails for rasters whose x decreases: the radius in cells is negative, and the call raises. -/
theorem fill_circle_flipped_violated {α : Type} (nx ny : Nat) (A : ℤ → ℤ → α) (center : ℤ × ℤ) (radius width : ℚ) (value : α)
    (h : round (radius / width) < 0) : fillCircle nx ny A center radius width value = .error .indexError := by
  unfold fillCircle fillCells circle
  rw [if_pos h]; rfl

example : round ((30 : ℚ) / (-10)) < 0 := by norm_num [round_eq]

example : circle (0, 0) 1 = .ok [(0, 1), (1, 1), (1, 0), (1, -1), (0, -1), (-1, -1), (-1, 0), (-1, 1), (0, 1)] := by decide +kernel

example : ∃ pts, circle (10, 20) 7 = .ok pts ∧ ∀ p ∈ pts, Near (10, 20) 7 p := ⟨_, rfl, circle_near (10, 20) 7 (by norm_num) _ rfl⟩

end Glimpse.Circle
