import Verif.Model.FloatCdf
import Verif.Props.Cdf
import Verif.Props.FloatInterp

/-!
C145: histogram matching in double precision.
-/
set_option autoImplicit false
set_option linter.unusedSimpArgs false
set_option linter.unusedSectionVars false

namespace Glimpse.FloatCdf
open Glimpse.Double Glimpse.FloatInterp

variable {r : ℚ → ℚ}

theorem r_le (hr : Nearest r) {x : ℚ} (h : 0 ≤ x) : r x ≤ x * (1 + 1 / 2 ^ 53) := by
  have h1 := hr.near x
  rw [abs_of_nonneg h] at h1
  linarith [(abs_le.1 h1).2]

theorem le_r (hr : Nearest r) {x : ℚ} (h : 0 ≤ x) : x * (1 - 1 / 2 ^ 53) ≤ r x := by
  have h1 := hr.near x
  rw [abs_of_nonneg h] at h1
  linarith [(abs_le.1 h1).1]

/-- One interval: not past the second value as long as the point is clearly before the second point. -/
theorem piece_le (hr : Nearest r) {x0 x1 f0 f1 q : ℚ} (hx : x0 < x1) (h1 : x1 - x0 ≤ 1) (hf : f0 ≤ f1) (hd : IsDouble f1) (h0 : x0 ≤ q)
    (hq : q + 14 / 2 ^ 53 ≤ x1) : r (r (r (r (f1 - f0) / r (x1 - x0)) * r (q - x0)) + f0) ≤ f1 := by
  suffices h : r (r (r (f1 - f0) / r (x1 - x0)) * r (q - x0)) ≤ f1 - f0 by
    have := hr.mono _ _ (show r (r (r (f1 - f0) / r (x1 - x0)) * r (q - x0)) + f0 ≤ f1 by linarith)
    rwa [hr.exact f1 hd] at this
  have hH : 0 < x1 - x0 := by linarith
  have hD : 0 ≤ f1 - f0 := by linarith
  have hG : 0 ≤ q - x0 := by linarith
  generalize eH : x1 - x0 = H at *
  generalize eD : f1 - f0 = D at *
  generalize eG : q - x0 = G at *
  have hGH : G ≤ H * (1 - 14 / 2 ^ 53) := by nlinarith
  have u0 : (0 : ℚ) < 1 - 1 / 2 ^ 53 := by norm_num
  have rH := le_r hr hH.le
  have rHp : 0 < H * (1 - 1 / 2 ^ 53) := mul_pos hH u0
  have rD0 := r_nonneg hr hD
  have rG0 := r_nonneg hr hG
  have s1 : r D / r H ≤ D * (1 + 1 / 2 ^ 53) / (H * (1 - 1 / 2 ^ 53)) := div_le_div₀ (mul_nonneg hD (by norm_num)) (r_le hr hD) rHp rH
  have s1n : 0 ≤ r D / r H := div_nonneg rD0 (rHp.le.trans rH)
  have s2 : r (r D / r H) ≤ D * (1 + 1 / 2 ^ 53) / (H * (1 - 1 / 2 ^ 53)) * (1 + 1 / 2 ^ 53) :=
    (r_le hr s1n).trans (mul_le_mul_of_nonneg_right s1 (by norm_num))
  have g1 : r G ≤ H * (1 - 14 / 2 ^ 53) * (1 + 1 / 2 ^ 53) := (r_le hr hG).trans (mul_le_mul_of_nonneg_right hGH (by norm_num))
  have s3n : 0 ≤ r (r D / r H) * r G := mul_nonneg (r_nonneg hr s1n) rG0
  have s3 : r (r D / r H) * r G ≤ D * (1 + 1 / 2 ^ 53) / (H * (1 - 1 / 2 ^ 53)) * (1 + 1 / 2 ^ 53) * (H * (1 - 14 / 2 ^ 53) * (1 + 1 / 2 ^ 53)) :=
    mul_le_mul s2 g1 rG0 ((r_nonneg hr s1n).trans s2)
  have s4 := (r_le hr s3n).trans (mul_le_mul_of_nonneg_right s3 (show (0 : ℚ) ≤ 1 + 1 / 2 ^ 53 by norm_num))
  refine s4.trans ?_
  have e : D * (1 + 1 / 2 ^ 53) / (H * (1 - 1 / 2 ^ 53)) * (1 + 1 / 2 ^ 53) * (H * (1 - 14 / 2 ^ 53) * (1 + 1 / 2 ^ 53)) * (1 + 1 / 2 ^ 53) =
      D * ((1 + 1 / 2 ^ 53) ^ 4 * (1 - 14 / 2 ^ 53) / (1 - 1 / 2 ^ 53)) := by
    field_simp
  rw [e]
  refine mul_le_of_le_one_right hD ?_
  norm_num

theorem piece_ge (hr : Nearest r) {x0 x1 f0 f1 q : ℚ} (hx : x0 < x1) (hf : f0 ≤ f1) (hd : IsDouble f0) (h0 : x0 ≤ q) :
    f0 ≤ r (r (r (r (f1 - f0) / r (x1 - x0)) * r (q - x0)) + f0) := by
  have h : 0 ≤ r (r (r (f1 - f0) / r (x1 - x0)) * r (q - x0)) :=
    r_nonneg hr (mul_nonneg (r_nonneg hr (div_nonneg (r_nonneg hr (by linarith)) (r_nonneg hr (by linarith)))) (r_nonneg hr (by linarith)))
  have := hr.mono _ _ (show f0 ≤ r (r (r (f1 - f0) / r (x1 - x0)) * r (q - x0)) + f0 by linarith)
  rwa [hr.exact f0 hd] at this

theorem piece_mono (hr : Nearest r) {x0 x1 f0 f1 q q' : ℚ} (hx : x0 < x1) (hf : f0 ≤ f1) (h : q ≤ q') :
    r (r (r (r (f1 - f0) / r (x1 - x0)) * r (q - x0)) + f0) ≤ r (r (r (r (f1 - f0) / r (x1 - x0)) * r (q' - x0)) + f0) := by
  have hs : 0 ≤ r (r (f1 - f0) / r (x1 - x0)) := r_nonneg hr (div_nonneg (r_nonneg hr (by linarith)) (r_nonneg hr (by linarith)))
  have h1 := mul_le_mul_of_nonneg_left (hr.mono _ _ (show q - x0 ≤ q' - x0 by linarith)) hs
  exact hr.mono _ _ (by linarith [hr.mono _ _ h1])

/-- Sample points: ascending in 0 to 1, with values that do not decrease and are doubles. -/
structure Points (pts : List (ℚ × ℚ)) : Prop where
  lt : pts.Pairwise fun a b => a.1 < b.1
  le : pts.Pairwise fun a b => a.2 ≤ b.2
  double : ∀ p ∈ pts, IsDouble p.2
  unit : ∀ p ∈ pts, 0 ≤ p.1 ∧ p.1 ≤ 1

theorem Points.tail {p : ℚ × ℚ} {pts : List (ℚ × ℚ)} (h : Points (p :: pts)) : Points pts :=
  ⟨(List.pairwise_cons.1 h.lt).2, (List.pairwise_cons.1 h.le).2, fun q hq => h.double q (List.mem_cons_of_mem _ hq),
    fun q hq => h.unit q (List.mem_cons_of_mem _ hq)⟩

/-- The point is not just before a sample point. -/
def Clear (q : ℚ) (pts : List (ℚ × ℚ)) : Prop := ∀ p ∈ pts, q < p.1 → q + 14 / 2 ^ 53 ≤ p.1

theorem interp_ge (hr : Nearest r) (q : ℚ) : ∀ (p : ℚ × ℚ) (l : List (ℚ × ℚ)), Points (p :: l) → p.2 ≤ interpR r q (p :: l) := by
  intro p l
  induction l generalizing p with
  | nil => intro _; exact le_rfl
  | cons p' l ih =>
    intro h
    obtain ⟨x0, f0⟩ := p
    obtain ⟨x1, f1⟩ := p'
    have hx : x0 < x1 := (List.pairwise_cons.1 h.lt).1 (x1, f1) (List.mem_cons_self ..)
    have hf : f0 ≤ f1 := (List.pairwise_cons.1 h.le).1 (x1, f1) (List.mem_cons_self ..)
    unfold interpR
    split
    · split
      · exact le_rfl
      · split
        · exact le_rfl
        · rename_i h1 _
          exact piece_ge hr hx hf (h.double _ (List.mem_cons_self ..)) (not_lt.1 h1)
    · exact hf.trans (ih (x1, f1) h.tail)

theorem interp_le (hr : Nearest r) (q hi : ℚ) : ∀ (p : ℚ × ℚ) (l : List (ℚ × ℚ)), Points (p :: l) → Clear q (p :: l) → (∀ z ∈ p :: l, z.2 ≤ hi) →
    interpR r q (p :: l) ≤ hi := by
  intro p l
  induction l generalizing p with
  | nil => intro _ _ h; exact h p (List.mem_cons_self ..)
  | cons p' l ih =>
    intro h hc hb
    obtain ⟨x0, f0⟩ := p
    obtain ⟨x1, f1⟩ := p'
    have hx : x0 < x1 := (List.pairwise_cons.1 h.lt).1 (x1, f1) (List.mem_cons_self ..)
    have hf : f0 ≤ f1 := (List.pairwise_cons.1 h.le).1 (x1, f1) (List.mem_cons_self ..)
    have m1 : (x1, f1) ∈ (x0, f0) :: (x1, f1) :: l := List.mem_cons_of_mem _ (List.mem_cons_self ..)
    have b0 : f0 ≤ hi := hb (x0, f0) (List.mem_cons_self ..)
    unfold interpR
    split
    · rename_i h1
      split
      · exact b0
      · split
        · exact b0
        · rename_i h0 _
          refine (piece_le hr hx ?_ hf (h.double _ m1) (not_lt.1 h0) (hc _ m1 h1)).trans (hb _ m1)
          have a := h.unit (x0, f0) (List.mem_cons_self ..)
          have b := h.unit (x1, f1) m1
          simp only at a b
          linarith [a.1, b.2]
    · exact ih (x1, f1) h.tail (fun z hz => hc z (List.mem_cons_of_mem _ hz)) (fun z hz => hb z (List.mem_cons_of_mem _ hz))

theorem interp_mono (hr : Nearest r) (q q' : ℚ) (hq : q ≤ q') : ∀ (pts : List (ℚ × ℚ)), Points pts → Clear q pts → interpR r q pts ≤ interpR r q' pts := by
  intro pts
  match pts with
  | [] => intro _ _; exact le_rfl
  | p :: l =>
    induction l generalizing p with
    | nil => intro _ _; exact le_rfl
    | cons p' l ih =>
      intro h hc
      obtain ⟨x0, f0⟩ := p
      obtain ⟨x1, f1⟩ := p'
      have hx : x0 < x1 := (List.pairwise_cons.1 h.lt).1 (x1, f1) (List.mem_cons_self ..)
      have hf : f0 ≤ f1 := (List.pairwise_cons.1 h.le).1 (x1, f1) (List.mem_cons_self ..)
      have m1 : (x1, f1) ∈ (x0, f0) :: (x1, f1) :: l := List.mem_cons_of_mem _ (List.mem_cons_self ..)
      by_cases k' : q' < x1
      · have k : q < x1 := lt_of_le_of_lt hq k'
        by_cases j : q < x0
        · have := interp_ge hr q' _ _ h
          unfold interpR at *
          rw [if_pos k, if_pos j]
          exact this
        · by_cases e : q = x0
          · have := interp_ge hr q' _ _ h
            unfold interpR at *
            rw [if_pos k, if_neg j, if_pos e]
            exact this
          · have j' : ¬ q' < x0 := by intro hlt; exact j (lt_of_le_of_lt hq hlt)
            have e' : q' ≠ x0 := by
              intro e'
              rcases lt_or_eq_of_le (not_lt.1 j) with a | a
              · rw [e'] at hq; linarith
              · exact e a.symm
            unfold interpR
            rw [if_pos k, if_neg j, if_neg e, if_pos k', if_neg j', if_neg e']
            exact piece_mono hr hx hf hq
      · have hup : interpR r q' ((x0, f0) :: (x1, f1) :: l) = interpR r q' ((x1, f1) :: l) := by
          conv_lhs => unfold interpR
          rw [if_neg k']
        rw [hup]
        by_cases k : q < x1
        · have hge := interp_ge hr q' (x1, f1) l h.tail
          refine le_trans ?_ hge
          unfold interpR
          rw [if_pos k]
          split
          · exact hf
          · split
            · exact hf
            · rename_i h0 _
              refine piece_le hr hx ?_ hf (h.double _ m1) (not_lt.1 h0) (hc _ m1 k)
              have a := h.unit (x0, f0) (List.mem_cons_self ..)
              have b := h.unit (x1, f1) m1
              simp only at a b
              linarith [a.1, b.2]
        · have hdown : interpR r q ((x0, f0) :: (x1, f1) :: l) = interpR r q ((x1, f1) :: l) := by
            conv_lhs => unfold interpR
            rw [if_neg k]
          rw [hdown]
          exact ih (x1, f1) h.tail (fun z hz => hc z (List.mem_cons_of_mem _ hz))

theorem interp_at (x f : ℚ) : ∀ (pts : List (ℚ × ℚ)), Points pts → (x, f) ∈ pts → interpR r x pts = f := by
  intro pts
  match pts with
  | [] => intro _ h; cases h
  | p :: l =>
    induction l generalizing p with
    | nil =>
      intro _ h
      rw [List.mem_singleton] at h
      subst h
      rfl
    | cons p' l ih =>
      intro h hm
      obtain ⟨x0, f0⟩ := p
      obtain ⟨x1, f1⟩ := p'
      have hx : x0 < x1 := (List.pairwise_cons.1 h.lt).1 (x1, f1) (List.mem_cons_self ..)
      rcases List.mem_cons.1 hm with e | hm'
      · obtain ⟨rfl, rfl⟩ := Prod.mk.inj e
        unfold interpR
        rw [if_pos hx, if_neg (lt_irrefl _), if_pos rfl]
      · have hge : x1 ≤ x := by
          rcases List.mem_cons.1 hm' with e | hm''
          · exact (Prod.mk.inj e).1.ge
          · exact ((List.pairwise_cons.1 h.tail.lt).1 _ hm'').le
        unfold interpR
        rw [if_neg (not_lt.2 hge)]
        exact ih (x1, f1) h.tail hm'

/-- Two different quantiles of arrays of `n` and `m` cells are clearly apart after rounding. -/
theorem quantiles_apart (hr : Nearest r) {c k n m : ℕ} (hn : 0 < n) (hm : 0 < m) (hkm : k ≤ m) (hsize : n * m ≤ 2 ^ 49)
    (h : (c : ℚ) / n < (k : ℚ) / m) : r ((c : ℚ) / n) + 14 / 2 ^ 53 ≤ r ((k : ℚ) / m) := by
  have hn' : (0 : ℚ) < n := by exact_mod_cast hn
  have hm' : (0 : ℚ) < m := by exact_mod_cast hm
  have hk1 : (k : ℚ) / m ≤ 1 := by rw [div_le_one hm']; exact_mod_cast hkm
  have hc0 : (0 : ℚ) ≤ (c : ℚ) / n := by positivity
  have gap : (c : ℚ) / n + 1 / 2 ^ 49 ≤ (k : ℚ) / m := by
    rw [div_lt_div_iff₀ hn' hm'] at h
    have h1 : c * m + 1 ≤ k * n := by
      have : c * m < k * n := by exact_mod_cast h
      omega
    have h1' : (c : ℚ) * m + 1 ≤ k * n := by exact_mod_cast h1
    have h2 : (n : ℚ) * m ≤ 2 ^ 49 := by exact_mod_cast hsize
    have e : (k : ℚ) / m - (c : ℚ) / n = (k * n - c * m) / (n * m) := by field_simp
    have : 1 / 2 ^ 49 ≤ ((k : ℚ) * n - c * m) / (n * m) := by
      calc (1 : ℚ) / 2 ^ 49 ≤ 1 / (n * m) := one_div_le_one_div_of_le (mul_pos hn' hm') h2
        _ ≤ _ := by gcongr; linarith
    linarith
  have a := r_le hr hc0
  have b := le_r hr (show (0 : ℚ) ≤ (k : ℚ) / m by positivity)
  have hc1 : (c : ℚ) / n ≤ 1 := by linarith [show (0 : ℚ) < 1 / 2 ^ 49 by norm_num]
  have ha : r ((c : ℚ) / n) ≤ c / n + 1 / 2 ^ 53 := by linarith
  have hb : (k : ℚ) / m - 1 / 2 ^ 53 ≤ r (k / m) := by linarith
  have : (14 : ℚ) / 2 ^ 53 + 2 / 2 ^ 53 = 1 / 2 ^ 49 := by norm_num
  linarith

/-- The part of the interval, rounded five times. -/
theorem part_near (hr : Nearest r) {D H G : ℚ} (hD : 0 ≤ D) (hH : 0 < H) (hG : 0 ≤ G) (hGH : G ≤ H) :
    |r (r (r D / r H) * r G) - D * (G / H)| ≤ 6 / 2 ^ 53 * D := by
  have rHp : 0 < H * (1 - 1 / 2 ^ 53) := mul_pos hH (by norm_num)
  have rH1 := le_r hr hH.le
  have rH2 := r_le hr hH.le
  have rHp' : 0 < r H := r_pos hr hH
  have rD1 := le_r hr hD
  have rD2 := r_le hr hD
  have rG1 := le_r hr hG
  have rG2 := r_le hr hG
  have rD0 := r_nonneg hr hD
  have rG0 := r_nonneg hr hG
  have w0 : 0 ≤ G / H := div_nonneg hG hH.le
  have w1 : G / H ≤ 1 := (div_le_one hH).2 hGH
  have u0 : (0 : ℚ) ≤ 1 + 1 / 2 ^ 53 := by norm_num
  have v0 : (0 : ℚ) ≤ 1 - 1 / 2 ^ 53 := by norm_num
  have s1n : 0 ≤ r D / r H := div_nonneg rD0 rHp'.le
  have s2n := r_nonneg hr s1n
  have s3n : 0 ≤ r (r D / r H) * r G := mul_nonneg s2n rG0
  have hi1 : r D / r H ≤ D * (1 + 1 / 2 ^ 53) / (H * (1 - 1 / 2 ^ 53)) := div_le_div₀ (mul_nonneg hD u0) rD2 rHp rH1
  have hi2 := (r_le hr s1n).trans (mul_le_mul_of_nonneg_right hi1 u0)
  have hi3 := mul_le_mul hi2 rG2 rG0 (s2n.trans hi2)
  have hi4 := (r_le hr s3n).trans (mul_le_mul_of_nonneg_right hi3 u0)
  have lo1 : D * (1 - 1 / 2 ^ 53) / (H * (1 + 1 / 2 ^ 53)) ≤ r D / r H := div_le_div₀ rD0 rD1 rHp' rH2
  have lo2 := (mul_le_mul_of_nonneg_right lo1 v0).trans (le_r hr s1n)
  have lo3 := mul_le_mul lo2 rG1 (mul_nonneg hG v0) s2n
  have lo4 := (mul_le_mul_of_nonneg_right lo3 v0).trans (le_r hr s3n)
  have e1 : D * (1 + 1 / 2 ^ 53) / (H * (1 - 1 / 2 ^ 53)) * (1 + 1 / 2 ^ 53) * (G * (1 + 1 / 2 ^ 53)) * (1 + 1 / 2 ^ 53) =
      D * (G / H) * ((1 + 1 / 2 ^ 53) ^ 4 / (1 - 1 / 2 ^ 53)) := by field_simp
  have e2 : D * (1 - 1 / 2 ^ 53) / (H * (1 + 1 / 2 ^ 53)) * (1 - 1 / 2 ^ 53) * (G * (1 - 1 / 2 ^ 53)) * (1 - 1 / 2 ^ 53) =
      D * (G / H) * ((1 - 1 / 2 ^ 53) ^ 4 / (1 + 1 / 2 ^ 53)) := by field_simp
  rw [e1] at hi4
  rw [e2] at lo4
  have k1 : ((1 + 1 / 2 ^ 53) ^ 4 / (1 - 1 / 2 ^ 53) : ℚ) ≤ 1 + 6 / 2 ^ 53 := by norm_num
  have k2 : (1 - 6 / 2 ^ 53 : ℚ) ≤ (1 - 1 / 2 ^ 53) ^ 4 / (1 + 1 / 2 ^ 53) := by norm_num
  have p0 : 0 ≤ D * (G / H) := mul_nonneg hD w0
  have p1 : D * (G / H) ≤ D := mul_le_of_le_one_right hD w1
  have hi5 := mul_le_mul_of_nonneg_left k1 p0
  have lo5 := mul_le_mul_of_nonneg_left k2 p0
  rw [abs_le]
  constructor <;> linarith

/-- One interval, with points off by rounding: how far the value is from the value without any rounding. -/
theorem piece_near (hr : Nearest r) {x0 x1 q X0 X1 Q f0 f1 M : ℚ} (h0 : |X0 - x0| ≤ 1 / 2 ^ 53) (h1 : |X1 - x1| ≤ 1 / 2 ^ 53)
    (hq : |Q - q| ≤ 1 / 2 ^ 53) (hH : 1 / 2 ^ 49 ≤ x1 - x0) (q0 : x0 ≤ q) (q1 : q ≤ x1) (Q0 : X0 ≤ Q) (Q1 : Q ≤ X1) (hf : f0 ≤ f1)
    (m0 : |f0| ≤ M) (m1 : |f1| ≤ M) :
    |r (r (r (r (f1 - f0) / r (X1 - X0)) * r (Q - X0)) + f0) - (f0 + (f1 - f0) / (x1 - x0) * (q - x0))| ≤
      (f1 - f0) * (5 / (x1 - x0) + 7) / 2 ^ 53 + M / 2 ^ 53 := by
  have a0 := abs_le.1 h0
  have a1 := abs_le.1 h1
  have aq := abs_le.1 hq
  have hD : 0 ≤ f1 - f0 := by linarith
  have c : (16 : ℚ) * (1 / 2 ^ 53) = 1 / 2 ^ 49 := by norm_num
  have hHp : 0 < x1 - x0 := lt_of_lt_of_le (by norm_num) hH
  have hH' : 7 / 8 * (x1 - x0) ≤ X1 - X0 := by linarith
  have hHp' : 0 < X1 - X0 := by linarith
  have hP := part_near hr hD hHp' (show 0 ≤ Q - X0 by linarith) (show Q - X0 ≤ X1 - X0 by linarith)
  generalize eP : r (r (r (f1 - f0) / r (X1 - X0)) * r (Q - X0)) = P at *
  have w : |(Q - X0) / (X1 - X0) - (q - x0) / (x1 - x0)| ≤ 5 / 2 ^ 53 / (x1 - x0) := by
    have e : (Q - X0) / (X1 - X0) - (q - x0) / (x1 - x0) =
        (((Q - X0) - (q - x0)) * (x1 - x0) + (q - x0) * ((x1 - x0) - (X1 - X0))) / ((X1 - X0) * (x1 - x0)) := by
      field_simp
      ring
    rw [e, abs_div, abs_of_pos (mul_pos hHp' hHp)]
    have n1 : |(Q - X0) - (q - x0)| ≤ 2 / 2 ^ 53 := by rw [abs_le]; constructor <;> linarith
    have n2 : |(x1 - x0) - (X1 - X0)| ≤ 2 / 2 ^ 53 := by rw [abs_le]; constructor <;> linarith
    have n3 : |((Q - X0) - (q - x0)) * (x1 - x0) + (q - x0) * ((x1 - x0) - (X1 - X0))| ≤ 4 / 2 ^ 53 * (x1 - x0) := by
      refine (abs_add_le _ _).trans ?_
      rw [abs_mul, abs_mul, abs_of_pos hHp, abs_of_nonneg (show 0 ≤ q - x0 by linarith)]
      have t1 := mul_le_mul_of_nonneg_right n1 hHp.le
      have t2 := mul_le_mul (show q - x0 ≤ x1 - x0 by linarith) n2 (abs_nonneg _) hHp.le
      linarith
    rw [div_le_div_iff₀ (mul_pos hHp' hHp) hHp]
    have t3 := mul_le_mul_of_nonneg_right n3 hHp.le
    refine t3.trans ?_
    have t4 : 4 / 2 ^ 53 * (x1 - x0) ≤ 5 / 2 ^ 53 * (X1 - X0) := by
      have : (4 : ℚ) / 2 ^ 53 * (x1 - x0) ≤ 5 / 2 ^ 53 * (7 / 8 * (x1 - x0)) := by nlinarith
      linarith [mul_le_mul_of_nonneg_left hH' (show (0 : ℚ) ≤ 5 / 2 ^ 53 by norm_num)]
    calc 4 / 2 ^ 53 * (x1 - x0) * (x1 - x0) ≤ 5 / 2 ^ 53 * (X1 - X0) * (x1 - x0) := mul_le_mul_of_nonneg_right t4 hHp.le
      _ = _ := by ring
  have wD := mul_le_mul_of_nonneg_left w hD
  have eE : (f1 - f0) / (x1 - x0) * (q - x0) = (f1 - f0) * ((q - x0) / (x1 - x0)) := by ring
  rw [eE]
  have g0 : 0 ≤ (q - x0) / (x1 - x0) := div_nonneg (by linarith) hHp.le
  have g1 : (q - x0) / (x1 - x0) ≤ 1 := (div_le_one hHp).2 (by linarith)
  generalize (q - x0) / (x1 - x0) = g at *
  generalize (Q - X0) / (X1 - X0) = g' at *
  have inv : 1 / (x1 - x0) ≤ 2 ^ 49 := by
    rw [div_le_iff₀ hHp]
    linarith [mul_le_mul_of_nonneg_left hH (show (0 : ℚ) ≤ 2 ^ 49 by norm_num), show (2 : ℚ) ^ 49 * (1 / 2 ^ 49) = 1 by norm_num]
  have inv0 : 0 < 1 / (x1 - x0) := by positivity
  have eH : 5 / 2 ^ 53 / (x1 - x0) = 5 / 2 ^ 53 * (1 / (x1 - x0)) := by ring
  have eH' : 5 / (x1 - x0) = 5 * (1 / (x1 - x0)) := by ring
  rw [eH] at wD
  rw [eH']
  have hb : |f0 + (f1 - f0) * g| ≤ M := by
    have b1 := mul_nonneg hD g0
    have b2 := mul_le_of_le_one_right hD g1
    have := abs_le.1 m0
    have := abs_le.1 m1
    rw [abs_le]
    constructor <;> linarith
  generalize 1 / (x1 - x0) = h at *
  generalize f1 - f0 = D at *
  have wD' : |D * g' - D * g| ≤ D * (5 / 2 ^ 53 * h) := by rw [← mul_sub, abs_mul, abs_of_nonneg hD]; exact wD
  have hK : D * h ≤ D * 2 ^ 49 := mul_le_mul_of_nonneg_left inv hD
  have eK : D * (5 / 2 ^ 53 * h) = 5 / 2 ^ 53 * (D * h) := by ring
  have eG : D * (5 * h + 7) / 2 ^ 53 = 5 / 2 ^ 53 * (D * h) + 7 / 2 ^ 53 * D := by ring
  rw [eK] at wD'
  rw [eG]
  generalize D * h = K at *
  have hY := hr.near (P + f0)
  have hE : |P + f0 - (f0 + D * g)| ≤ 6 / 2 ^ 53 * D + 5 / 2 ^ 53 * K := by
    have e : P + f0 - (f0 + D * g) = (P - D * g') + (D * g' - D * g) := by ring
    rw [e]
    exact (abs_add_le _ _).trans (by linarith)
  have hYM : |P + f0| ≤ M + (6 / 2 ^ 53 * D + 5 / 2 ^ 53 * K) := by
    have e : P + f0 = (f0 + D * g) + (P + f0 - (f0 + D * g)) := by ring
    rw [e]
    exact (abs_add_le _ _).trans (by linarith)
  have e : r (P + f0) - (f0 + D * g) = (r (P + f0) - (P + f0)) + (P + f0 - (f0 + D * g)) := by ring
  rw [e]
  refine (abs_add_le _ _).trans ?_
  linarith

/-- Two different quantiles of the same array are different after rounding. -/
theorem quantiles_lt (hr : Nearest r) {c k m : ℕ} (hm : 0 < m) (hkm : k ≤ m) (hsize : m ≤ 2 ^ 49) (h : c < k) :
    r ((c : ℚ) / m) < r ((k : ℚ) / m) := by
  have hm' : (0 : ℚ) < m := by exact_mod_cast hm
  have hk1 : (k : ℚ) / m ≤ 1 := by rw [div_le_one hm']; exact_mod_cast hkm
  have hc0 : (0 : ℚ) ≤ (c : ℚ) / m := by positivity
  have gap : (c : ℚ) / m + 1 / 2 ^ 49 ≤ (k : ℚ) / m := by
    have h1' : (c : ℚ) + 1 ≤ k := by exact_mod_cast h
    have h2 : (m : ℚ) ≤ 2 ^ 49 := by exact_mod_cast hsize
    calc (c : ℚ) / m + 1 / 2 ^ 49 ≤ c / m + 1 / m := by linarith [one_div_le_one_div_of_le hm' h2]
      _ = (c + 1) / m := by ring
      _ ≤ _ := by gcongr
  have a := r_le hr hc0
  have b := le_r hr (show (0 : ℚ) ≤ (k : ℚ) / m by positivity)
  have hc1 : (c : ℚ) / m ≤ 1 := by linarith [show (0 : ℚ) < 1 / 2 ^ 49 by norm_num]
  have ha : r ((c : ℚ) / m) ≤ c / m + 1 / 2 ^ 53 := by linarith
  have hb : (k : ℚ) / m - 1 / 2 ^ 53 ≤ r (k / m) := by linarith
  have : (2 : ℚ) / 2 ^ 53 < 1 / 2 ^ 49 := by norm_num
  linarith

/-- The points of the target: the rounded fraction of cells at most each value, and the value. -/
def points (r : ℚ → ℚ) (b : List ℚ) : List (ℚ × ℚ) := (computeCdf b).values.map fun v => (r (fracLE b v), v)

theorem zip_points (r : ℚ → ℚ) (b : List ℚ) : (computeCdfR r b).quantiles.zip (computeCdfR r b).values = points r b := by
  have h := (compute_cdf_correct b).2.2.1
  unfold computeCdfR points
  simp only [h]
  generalize (computeCdf b).values = l
  induction l with
  | nil => rfl
  | cons v l ih => simpa using ih

theorem values_ne_nil {b : List ℚ} (hb : b ≠ []) : (computeCdf b).values ≠ [] := by
  obtain ⟨v, l, rfl⟩ := List.exists_cons_of_ne_nil hb
  exact List.ne_nil_of_mem (((compute_cdf_correct (v :: l)).2.1 v).2 (List.mem_cons_self ..))

/-- Each cell becomes the value at its own quantile. -/
theorem matchArrays_eq (r : ℚ → ℚ) (a b : List ℚ) (hb : b ≠ []) :
    matchArrays r a b = .ok (a.map fun x => interpR r (r (fracLE a x)) (points r b)) := by
  obtain ⟨-, -, h3, h4⟩ := compute_cdf_correct a
  have hq := (compute_cdf_correct b).2.2.1
  have hl : (computeCdfR r b).values.length = (computeCdfR r b).quantiles.length := by
    unfold computeCdfR
    simp [hq]
  have hn : (computeCdfR r b).quantiles ≠ [] := by
    unfold computeCdfR
    simp [hq, values_ne_nil hb]
  unfold matchArrays matchCdfR
  simp only
  rw [if_neg (by simp [hl, hn]), zip_points]
  congr 1
  have e : (computeCdfR r a).inverse = (computeCdf a).inverse := rfl
  have eq : (computeCdfR r a).quantiles = (computeCdf a).values.map fun v => r (fracLE a v) := by
    unfold computeCdfR
    simp [h3, Function.comp_def]
  rw [e, eq, List.map_map]
  set g : ℚ → ℚ := fun x => interpR r (r (fracLE a x)) (points r b) with hg
  have k := congrArg (List.map fun o : Option ℚ => (o.map g).getD 0) h4
  rw [List.map_map, List.map_map] at k
  have k2 : (a.map ((fun o : Option ℚ => (o.map g).getD 0) ∘ some)) = a.map g := rfl
  rw [k2] at k
  rw [← k]
  apply List.map_congr_left
  intro i _
  simp only [Function.comp_apply, List.getD_eq_getElem?_getD, List.getElem?_map]
  rfl

theorem countP_mono (b : List ℚ) {x y : ℚ} (h : x ≤ y) : b.countP (fun z => decide (z ≤ x)) ≤ b.countP (fun z => decide (z ≤ y)) := by
  apply List.countP_mono_left
  intro z _ hz
  simp at hz ⊢
  linarith

theorem fracLE_mono' (b : List ℚ) {x y : ℚ} (h : x ≤ y) : fracLE b x ≤ fracLE b y := by
  unfold fracLE
  have := countP_mono b h
  gcongr

theorem countP_strict {b : List ℚ} {x y : ℚ} (hy : y ∈ b) (h : x < y) : b.countP (fun z => decide (z ≤ x)) < b.countP (fun z => decide (z ≤ y)) := by
  induction b with
  | nil => cases hy
  | cons z l ih =>
    rw [List.countP_cons, List.countP_cons]
    rcases List.mem_cons.1 hy with rfl | hm
    · have := countP_mono l h.le
      simp [not_le.2 h]
      omega
    · have := ih hm
      by_cases hz : z ≤ x
      · simp [hz, hz.trans h.le, this]
      · simp only [hz, decide_false, Bool.false_eq_true, if_false]
        omega

theorem points_spec (hr : Nearest r) {b : List ℚ} (hd : ∀ v ∈ b, IsDouble v) (hsize : b.length ≤ 2 ^ 49) : Points (points r b) := by
  obtain ⟨h1, h2, -, -⟩ := compute_cdf_correct b
  refine ⟨?_, ?_, ?_, ?_⟩
  · unfold points
    rw [List.pairwise_map]
    refine List.Pairwise.imp_of_mem ?_ h1
    intro x y _ hy h
    have hyb := (h2 y).1 hy
    exact quantiles_lt hr (List.length_pos_of_mem hyb) List.countP_le_length hsize (countP_strict hyb h)
  · unfold points
    rw [List.pairwise_map]
    exact h1.imp fun h => h.le
  · intro p hp
    obtain ⟨v, hv, rfl⟩ := List.mem_map.1 hp
    exact hd v ((h2 v).1 hv)
  · intro p hp
    obtain ⟨v, hv, rfl⟩ := List.mem_map.1 hp
    have hb : 0 < b.length := List.length_pos_of_mem ((h2 v).1 hv)
    have hb' : (0 : ℚ) < b.length := by exact_mod_cast hb
    have h0 : 0 ≤ fracLE b v := by unfold fracLE; positivity
    refine ⟨r_nonneg hr h0, ?_⟩
    have hle : fracLE b v ≤ 1 := by
      unfold fracLE
      rw [div_le_one hb']
      exact_mod_cast List.countP_le_length
    have := hr.mono _ _ hle
    rwa [hr.exact 1 ⟨1, 0, by norm_num, by norm_num⟩] at this

theorem clear_spec (hr : Nearest r) {a b : List ℚ} (ha : a ≠ []) (hsize : a.length * b.length ≤ 2 ^ 49) (x : ℚ) :
    Clear (r (fracLE a x)) (points r b) := by
  intro p hp hlt
  obtain ⟨v, hv, rfl⟩ := List.mem_map.1 hp
  have hb : 0 < b.length := List.length_pos_of_mem (((compute_cdf_correct b).2.1 v).1 hv)
  have : fracLE a x < fracLE b v := by
    by_contra hc
    exact absurd (hr.mono _ _ (not_lt.1 hc)) (not_le.2 hlt)
  exact quantiles_apart hr (List.length_pos_iff.2 ha) hb List.countP_le_length hsize this

theorem size_right {a b : List ℚ} (ha : a ≠ []) (hsize : a.length * b.length ≤ 2 ^ 49) : b.length ≤ 2 ^ 49 := by
  have : 0 < a.length := List.length_pos_iff.2 ha
  nlinarith

/-- C145. In double precision, for arrays `a` and `b` with at most 2^49 pairs of cells: one value for each cell, the cells keep their order (and equal
cells stay equal), and no value is outside the values of `b`. -/
theorem float_match_cdf (hr : Nearest r) (a b : List ℚ) (hb : b ≠ []) (hd : ∀ v ∈ b, IsDouble v) (hsize : a.length * b.length ≤ 2 ^ 49) :
    ∃ out, matchArrays r a b = .ok out ∧ out.length = a.length ∧
      (∀ i j (hi : i < a.length) (hj : j < a.length) (hi' : i < out.length) (hj' : j < out.length), a[i] ≤ a[j] → out[i] ≤ out[j]) ∧
      ∀ lo hi, (∀ v ∈ b, lo ≤ v ∧ v ≤ hi) → ∀ o ∈ out, lo ≤ o ∧ o ≤ hi := by
  refine ⟨_, matchArrays_eq r a b hb, by simp, ?_, ?_⟩
  · intro i j hi hj hi' hj' h
    have ha : a ≠ [] := List.ne_nil_of_length_pos (by omega)
    rw [List.getElem_map, List.getElem_map]
    exact interp_mono hr _ _ (hr.mono _ _ (fracLE_mono' a h)) _ (points_spec hr hd (size_right ha hsize)) (clear_spec hr ha hsize _)
  · intro lo hi h o ho
    obtain ⟨x, hx, rfl⟩ := List.mem_map.1 ho
    have ha : a ≠ [] := List.ne_nil_of_mem hx
    have hP := points_spec hr hd (size_right ha hsize)
    have hC := clear_spec (r := r) hr ha hsize x
    have hv : ∀ z ∈ points r b, lo ≤ z.2 ∧ z.2 ≤ hi := by
      intro z hz
      obtain ⟨v, hv, rfl⟩ := List.mem_map.1 hz
      exact h v (((compute_cdf_correct b).2.1 v).1 hv)
    have hn : points r b ≠ [] := by unfold points; simp [values_ne_nil hb]
    obtain ⟨p, l, e⟩ := List.exists_cons_of_ne_nil hn
    rw [e] at hP hC hv ⊢
    exact ⟨(hv p (List.mem_cons_self ..)).1.trans (interp_ge hr _ p l hP), interp_le hr _ hi p l hP hC fun z hz => (hv z hz).2⟩

/-- C145. A cell with as large a fraction of the cells of `a` at most its value as some value of `b` has among the cells of `b` becomes exactly that
value. -/
theorem float_match_cdf_exact (hr : Nearest r) (a b : List ℚ) (hd : ∀ v ∈ b, IsDouble v) (hsize : b.length ≤ 2 ^ 49) (v : ℚ) (hv : v ∈ b) :
    ∃ out, matchArrays r a b = .ok out ∧ ∀ i (hi : i < a.length) (hi' : i < out.length), fracLE a a[i] = fracLE b v → out[i] = v := by
  refine ⟨_, matchArrays_eq r a b (List.ne_nil_of_mem hv), ?_⟩
  intro i hi hi' h
  rw [List.getElem_map, h]
  exact interp_at _ _ _ (points_spec hr hd hsize) (List.mem_map.2 ⟨v, ((compute_cdf_correct b).2.1 v).2 hv, rfl⟩)

/-- C145. An array matched to itself, or to the same cells any number of times in any order, is unchanged. -/
theorem float_match_cdf_self (hr : Nearest r) (a b : List ℚ) (hd : ∀ v ∈ b, IsDouble v) (hsize : b.length ≤ 2 ^ 49) (hb : b ≠ [])
    (k : ℕ) (h : ∀ v, b.count v = k * a.count v) : matchArrays r a b = .ok a := by
  have hp : b.Perm (List.replicate k a).flatten := List.perm_iff_count.2 fun v => by
    rw [h v, List.count_flatten]
    simp
  have hk : 0 < k := by
    rcases Nat.eq_zero_or_pos k with h0 | h0
    · subst h0
      exact absurd hp.eq_nil hb
    · exact h0
  have hk' : (k : ℚ) ≠ 0 := by exact_mod_cast hk.ne'
  have hf : ∀ x, fracLE b x = fracLE a x := by
    intro x
    unfold fracLE
    rw [hp.countP_eq, hp.length_eq, List.countP_flatten, List.length_flatten]
    simp only [List.map_replicate, List.sum_replicate, smul_eq_mul, Nat.cast_mul]
    rw [mul_div_mul_left _ _ hk']
  rw [matchArrays_eq r a b hb]
  congr 1
  conv_rhs => rw [← List.map_id a]
  apply List.map_congr_left
  intro x hx
  have hxb : x ∈ b := by
    rw [← List.count_pos_iff, h x]
    exact Nat.mul_pos hk (List.count_pos_iff.2 hx)
  rw [← hf x]
  exact interp_at _ _ _ (points_spec hr hd hsize) (List.mem_map.2 ⟨x, ((compute_cdf_correct b).2.1 x).2 hxb, rfl⟩)

/-- C145. Nothing to match to. -/
theorem float_match_cdf_empty (r : ℚ → ℚ) (a : List ℚ) : matchArrays r a [] = .error .valueError := by
  unfold matchArrays matchCdfR
  rw [if_pos]
  right
  rfl

/-- Points with and without rounding that are in the same order relative to a quantile. -/
structure Same (r : ℚ → ℚ) (n : ℕ) (q : ℚ) (l : List (ℚ × ℚ)) : Prop where
  gap : l.Pairwise fun a b => a.1 + (1 : ℚ) / n ≤ b.1
  le : l.Pairwise fun a b => a.2 ≤ b.2
  unit : ∀ p ∈ l, 0 ≤ p.1 ∧ p.1 ≤ 1
  lt : ∀ p ∈ l, r q < r p.1 ↔ q < p.1

theorem Same.tail {n : ℕ} {q : ℚ} {p : ℚ × ℚ} {l : List (ℚ × ℚ)} (h : Same r n q (p :: l)) : Same r n q l :=
  ⟨(List.pairwise_cons.1 h.gap).2, (List.pairwise_cons.1 h.le).2, fun q hq => h.unit q (List.mem_cons_of_mem _ hq),
    fun q hq => h.lt q (List.mem_cons_of_mem _ hq)⟩

theorem interp_near (hr : Nearest r) {n : ℕ} (hn : 0 < n) (hsize : n ≤ 2 ^ 49) (q lo hi M : ℚ) (q0 : 0 ≤ q) (q1 : q ≤ 1) (hlo : |lo| ≤ M) (hhi : |hi| ≤ M)
    (hlh : lo ≤ hi) : ∀ (p : ℚ × ℚ) (l : List (ℚ × ℚ)), Same r n q (p :: l) → (∀ z ∈ p :: l, lo ≤ z.2 ∧ z.2 ≤ hi) →
    |interpR r (r q) ((p :: l).map fun z => (r z.1, z.2)) - interpR id q (p :: l)| ≤ (hi - lo) * (5 * n + 7) / 2 ^ 53 + M / 2 ^ 53 := by
  have hn' : (0 : ℚ) < n := by exact_mod_cast hn
  have hM : 0 ≤ M := (abs_nonneg _).trans hlo
  have hz : (0 : ℚ) ≤ (hi - lo) * (5 * n + 7) / 2 ^ 53 + M / 2 ^ 53 := by
    have : 0 ≤ hi - lo := by linarith
    positivity
  have rnear : ∀ x, 0 ≤ x → x ≤ 1 → |r x - x| ≤ 1 / 2 ^ 53 := by
    intro x h0 h1
    have := hr.near x
    rw [abs_of_nonneg h0] at this
    linarith
  intro p l
  induction l generalizing p with
  | nil =>
    intro _ _
    simpa [interpR] using hz
  | cons p' l ih =>
    intro h hb
    obtain ⟨x0, f0⟩ := p
    obtain ⟨x1, f1⟩ := p'
    have m0 : (x0, f0) ∈ (x0, f0) :: (x1, f1) :: l := List.mem_cons_self ..
    have m1 : (x1, f1) ∈ (x0, f0) :: (x1, f1) :: l := List.mem_cons_of_mem _ (List.mem_cons_self ..)
    have hg : x0 + 1 / n ≤ x1 := (List.pairwise_cons.1 h.gap).1 _ (List.mem_cons_self ..)
    have hf : f0 ≤ f1 := (List.pairwise_cons.1 h.le).1 _ (List.mem_cons_self ..)
    have l0 : r q < r x0 ↔ q < x0 := h.lt _ m0
    have l1 : r q < r x1 ↔ q < x1 := h.lt _ m1
    have u0 := h.unit _ m0
    have u1 := h.unit _ m1
    have b0 := hb _ m0
    have b1 := hb _ m1
    simp only at u0 u1 b0 b1
    simp only [List.map_cons]
    unfold interpR
    by_cases k : q < x1
    · rw [if_pos k, if_pos (l1.2 k)]
      by_cases j : q < x0
      · rw [if_pos j, if_pos (l0.2 j), sub_self, abs_zero]
        exact hz
      · rw [if_neg j, if_neg (fun c => j (l0.1 c))]
        have hlt : x0 < x1 := by linarith [show (0 : ℚ) < 1 / n by positivity]
        have inv : 1 / (n : ℚ) ≤ x1 - x0 := by linarith
        have e2 : (if q = x0 then f0 else id (id (id (id (f1 - f0) / id (x1 - x0)) * id (q - x0)) + f0)) =
            f0 + (f1 - f0) / (x1 - x0) * (q - x0) := by
          split
          · rename_i e; rw [e]; simp
          · simp only [id]; ring
        rw [e2]
        have hspan : (f1 - f0) * (5 / (x1 - x0) + 7) ≤ (hi - lo) * (5 * n + 7) := by
          refine mul_le_mul (by linarith) ?_ ?_ (by linarith)
          · have : 5 / (x1 - x0) ≤ 5 * n := by
              rw [div_le_iff₀ (by linarith)]
              have := mul_le_mul_of_nonneg_left inv (show (0 : ℚ) ≤ 5 * n by positivity)
              have e : 5 * (n : ℚ) * (1 / n) = 5 := by field_simp
              linarith
            linarith
          · have : 0 < x1 - x0 := by linarith
            positivity
        have mf0 : |f0| ≤ M := by
          have := abs_le.1 hlo
          have := abs_le.1 hhi
          rw [abs_le]; constructor <;> linarith
        have mf1 : |f1| ≤ M := by
          have := abs_le.1 hlo
          have := abs_le.1 hhi
          rw [abs_le]; constructor <;> linarith
        have hN : (1 : ℚ) / 2 ^ 49 ≤ 1 / n := one_div_le_one_div_of_le hn' (by exact_mod_cast hsize)
        have key := piece_near hr (rnear x0 u0.1 u0.2) (rnear x1 u1.1 u1.2) (rnear q q0 q1) (hN.trans inv) (not_lt.1 j) k.le
          (hr.mono _ _ (not_lt.1 j)) (hr.mono _ _ k.le) hf mf0 mf1
        have hspan' : (f1 - f0) * (5 / (x1 - x0) + 7) / 2 ^ 53 ≤ (hi - lo) * (5 * n + 7) / 2 ^ 53 := by gcongr
        split
        · rename_i e
          have hq0 : |f0 - (f0 + (f1 - f0) / (x1 - x0) * (q - x0))| ≤ (f1 - f0) * (5 / (x1 - x0) + 7) / 2 ^ 53 + M / 2 ^ 53 := by
            rw [e, sub_self] at key
            simp only [r_zero hr, mul_zero, zero_add] at key
            refine le_trans ?_ (show (f1 - f0) * (5 / (x1 - x0) + 7) / 2 ^ 53 ≤ _ by linarith [show 0 ≤ M / 2 ^ 53 by positivity])
            have e3 : q - x0 ≤ 2 / 2 ^ 53 := by
              have a := abs_le.1 (rnear x0 u0.1 u0.2)
              have b := abs_le.1 (rnear q q0 q1)
              rw [e] at b
              linarith
            have hw : 0 ≤ (f1 - f0) / (x1 - x0) := div_nonneg (by linarith) (by linarith)
            rw [show f0 - (f0 + (f1 - f0) / (x1 - x0) * (q - x0)) = -((f1 - f0) / (x1 - x0) * (q - x0)) by ring, abs_neg,
              abs_of_nonneg (mul_nonneg hw (by linarith [not_lt.1 j]))]
            have t := mul_le_mul_of_nonneg_left e3 hw
            have e4 : (f1 - f0) * (5 / (x1 - x0) + 7) / 2 ^ 53 = 5 / 2 ^ 53 * ((f1 - f0) / (x1 - x0)) + 7 / 2 ^ 53 * (f1 - f0) := by ring
            rw [e4]
            linarith
          linarith
        · linarith
    · rw [if_neg k, if_neg (fun c => k (l1.1 c))]
      exact ih (x1, f1) h.tail (fun z hz => hb z (List.mem_cons_of_mem _ hz))

theorem fracLE_unit (b : List ℚ) (v : ℚ) : 0 ≤ fracLE b v ∧ fracLE b v ≤ 1 := by
  unfold fracLE
  refine ⟨by positivity, ?_⟩
  rcases Nat.eq_zero_or_pos b.length with h | h
  · rw [h]; simp
  · have : (0 : ℚ) < b.length := by exact_mod_cast h
    rw [div_le_one this]
    exact_mod_cast List.countP_le_length

theorem same_spec (hr : Nearest r) {a b : List ℚ} (ha : a ≠ []) (hsize : a.length * b.length ≤ 2 ^ 49) (x : ℚ) :
    Same r b.length (fracLE a x) (points id b) := by
  obtain ⟨h1, h2, -, -⟩ := compute_cdf_correct b
  refine ⟨?_, ?_, ?_, ?_⟩
  · unfold points
    rw [List.pairwise_map]
    refine List.Pairwise.imp_of_mem ?_ h1
    intro x y _ hy h
    have hyb := (h2 y).1 hy
    have hb : (0 : ℚ) < b.length := by exact_mod_cast List.length_pos_of_mem hyb
    have hc := countP_strict hyb h
    have hc' : (b.countP (fun z => decide (z ≤ x)) : ℚ) + 1 ≤ b.countP (fun z => decide (z ≤ y)) := by exact_mod_cast hc
    simp only [id]
    unfold fracLE
    rw [← add_div]
    gcongr
  · unfold points
    rw [List.pairwise_map]
    exact h1.imp fun h => h.le
  · intro p hp
    obtain ⟨v, _, rfl⟩ := List.mem_map.1 hp
    exact fracLE_unit b v
  · intro p hp
    obtain ⟨v, hv, rfl⟩ := List.mem_map.1 hp
    have hb : 0 < b.length := List.length_pos_of_mem ((h2 v).1 hv)
    simp only [id]
    constructor
    · intro hlt
      by_contra hc
      exact absurd (hr.mono _ _ (not_lt.1 hc)) (not_le.2 hlt)
    · intro h
      have := quantiles_apart hr (List.length_pos_iff.2 ha) hb List.countP_le_length hsize h
      unfold fracLE at h ⊢
      linarith [show (0 : ℚ) < 14 / 2 ^ 53 by norm_num]

theorem interp_ok_id (q : ℚ) (p : ℚ × ℚ) (l : List (ℚ × ℚ)) : interp q (p :: l) = .ok (interpR id q (p :: l)) := by
  induction l generalizing p with
  | nil => rfl
  | cons p' l ih =>
    obtain ⟨x0, f0⟩ := p
    obtain ⟨x1, f1⟩ := p'
    unfold interp interpR
    split
    · split
      · rfl
      · split
        · rename_i e
          rw [e]
          simp
        · congr 1
          simp only [id]
          ring
    · exact ih (x1, f1)

theorem match_exact (a b : List ℚ) (hb : b ≠ []) :
    matchCdf a (computeCdf b).values (computeCdf b).quantiles = .ok (a.map fun x => interpR id (fracLE a x) (points id b)) := by
  have h := matchArrays_eq id a b hb
  unfold matchArrays matchCdfR at h
  have hid : ∀ c, computeCdfR id c = computeCdf c := by intro c; unfold computeCdfR; simp
  simp only [hid] at h
  split at h
  · cases h
  · rename_i hc
    rw [not_or, not_not] at hc
    obtain ⟨hl, hn⟩ := hc
    have hz : (computeCdf b).quantiles.zip (computeCdf b).values = points id b := by
      have := zip_points id b
      rwa [hid] at this
    have hpn : points id b ≠ [] := by unfold points; simp [values_ne_nil hb]
    obtain ⟨p, l, e⟩ := List.exists_cons_of_ne_nil hpn
    unfold matchCdf
    simp only [hl, ne_eq, not_true_eq_false, if_false, hn, bind, Except.bind, pure, Except.pure]
    rw [mapM_ok _ (fun q => interpR id q ((computeCdf b).quantiles.zip (computeCdf b).values))]
    · simp only
      rw [mapM_ok _ fun i => ((computeCdf a).quantiles.map fun q => interpR id q ((computeCdf b).quantiles.zip (computeCdf b).values)).getD i 0]
      · simpa using h
      · intro i hi
        obtain ⟨-, -, h3, h4⟩ := compute_cdf_correct a
        have hmem : (computeCdf a).values[i]? ∈ a.map some := by
          rw [← h4]
          exact List.mem_map.2 ⟨i, hi, rfl⟩
        obtain ⟨x, -, hx⟩ := List.mem_map.1 hmem
        have hlt : i < (computeCdf a).values.length := (List.getElem?_eq_some_iff.1 hx.symm).1
        have hlt' : i < (computeCdf a).quantiles.length := by rw [h3]; simpa using hlt
        simp [hlt']
    · intro q _
      rw [hz, e]
      exact interp_ok_id q p l

/-- C145. The values are near the values without rounding: within `(5 m + 7) / 2^53` of the range of the `m` cells of `b`, and `1 / 2^53` of the largest
magnitude. -/
theorem float_match_cdf_near (hr : Nearest r) (a b : List ℚ) (hb : b ≠ []) (hsize : a.length * b.length ≤ 2 ^ 49) (lo hi M : ℚ)
    (hlo : |lo| ≤ M) (hhi : |hi| ≤ M) (hv : ∀ v ∈ b, lo ≤ v ∧ v ≤ hi) :
    ∃ out exact, matchArrays r a b = .ok out ∧ matchCdf a (computeCdf b).values (computeCdf b).quantiles = .ok exact ∧
      out.length = a.length ∧ exact.length = a.length ∧
      ∀ i (hi₁ : i < out.length) (hi₂ : i < exact.length), |out[i] - exact[i]| ≤ (hi - lo) * (5 * b.length + 7) / 2 ^ 53 + M / 2 ^ 53 := by
  refine ⟨_, a.map fun x => interpR id (fracLE a x) (points id b), matchArrays_eq r a b hb, ?_, by simp, by simp, ?_⟩
  · exact match_exact a b hb
  · intro i h1 h2
    rw [List.getElem_map, List.getElem_map]
    have h3 : i < a.length := by simpa using h1
    have ha : a ≠ [] := List.ne_nil_of_length_pos (by omega)
    have hbn : 0 < b.length := List.length_pos_iff.2 hb
    generalize a[i]'h3 = x
    have hS := same_spec hr ha hsize x
    have e : points r b = (points id b).map fun z => (r z.1, z.2) := by
      unfold points
      rw [List.map_map]
      rfl
    rw [e]
    have hn : points id b ≠ [] := by unfold points; simp [values_ne_nil hb]
    have hv' : ∀ z ∈ points id b, lo ≤ z.2 ∧ z.2 ≤ hi := by
      intro z hz
      obtain ⟨v, hv2, rfl⟩ := List.mem_map.1 hz
      exact hv v (((compute_cdf_correct b).2.1 v).1 hv2)
    obtain ⟨p, l, e2⟩ := List.exists_cons_of_ne_nil hn
    rw [e2] at hS hv' ⊢
    have hp := hv' p (List.mem_cons_self ..)
    exact interp_near hr hbn (size_right ha hsize) _ lo hi M (fracLE_unit a _).1 (fracLE_unit a _).2 hlo hhi (hp.1.trans hp.2) p l hS hv'

/-- The hypotheses can be met: three cells matched to five. -/
example : ∃ out, matchArrays rnd [3, 1, 2] [10, 40, 10, 30, 20] = .ok out ∧ out.length = 3 ∧
    (∀ i j (hi : i < 3) (hj : j < 3) (hi' : i < out.length) (hj' : j < out.length), ([3, 1, 2] : List ℚ)[i] ≤ ([3, 1, 2] : List ℚ)[j] → out[i] ≤ out[j]) ∧
    ∀ lo hi, (∀ v ∈ ([10, 40, 10, 30, 20] : List ℚ), lo ≤ v ∧ v ≤ hi) → ∀ o ∈ out, lo ≤ o ∧ o ≤ hi := by
  refine float_match_cdf rnd_nearest [3, 1, 2] [10, 40, 10, 30, 20] (by simp) ?_ (by norm_num)
  intro v hv
  simp only [List.mem_cons, List.not_mem_nil, or_false] at hv
  rcases hv with rfl | rfl | rfl | rfl | rfl
  · exact ⟨10, 0, by norm_num, by norm_num⟩
  · exact ⟨40, 0, by norm_num, by norm_num⟩
  · exact ⟨10, 0, by norm_num, by norm_num⟩
  · exact ⟨30, 0, by norm_num, by norm_num⟩
  · exact ⟨20, 0, by norm_num, by norm_num⟩

example : ∃ out exact, matchArrays rnd [3, 1, 2] [10, 40, 10, 30, 20] = .ok out ∧
    matchCdf [3, 1, 2] (computeCdf [10, 40, 10, 30, 20]).values (computeCdf [10, 40, 10, 30, 20]).quantiles = .ok exact ∧
    out.length = 3 ∧ exact.length = 3 ∧
    ∀ i (hi₁ : i < out.length) (hi₂ : i < exact.length), |out[i] - exact[i]| ≤ (40 - 10) * (5 * 5 + 7) / 2 ^ 53 + 40 / 2 ^ 53 := by
  have h := float_match_cdf_near rnd_nearest [3, 1, 2] [10, 40, 10, 30, 20] (by simp) (by norm_num) 10 40 40 (by norm_num) (by norm_num) (by
    intro v hv
    simp only [List.mem_cons, List.not_mem_nil, or_false] at hv
    rcases hv with rfl | rfl | rfl | rfl | rfl <;> norm_num)
  simpa using h

example : matchArrays rnd [3, 1, 2] [1, 2, 3, 3, 2, 1] = .ok [3, 1, 2] := by
  refine float_match_cdf_self rnd_nearest _ _ ?_ (by norm_num) (by simp) 2 ?_
  · intro v hv
    simp only [List.mem_cons, List.not_mem_nil, or_false] at hv
    rcases hv with rfl | rfl | rfl | rfl | rfl | rfl
    · exact ⟨1, 0, by norm_num, by norm_num⟩
    · exact ⟨2, 0, by norm_num, by norm_num⟩
    · exact ⟨3, 0, by norm_num, by norm_num⟩
    · exact ⟨3, 0, by norm_num, by norm_num⟩
    · exact ⟨2, 0, by norm_num, by norm_num⟩
    · exact ⟨1, 0, by norm_num, by norm_num⟩
  · intro v
    simp only [List.count_cons, List.count_nil]
    split <;> split <;> split <;> simp_all

end Glimpse.FloatCdf
