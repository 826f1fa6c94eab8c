import Verif.Model.Likelihood
import Verif.Props.Tiles
import Mathlib.Algebra.Order.BigOperators.Ring.Finset
import Mathlib.Data.List.GetD
import Mathlib.LinearAlgebra.Lagrange
import Mathlib.Tactic.Linarith
import Mathlib.Tactic.Ring
import Mathlib.Tactic.FieldSimp
import Mathlib.Tactic.Positivity

/-!
C136: what likelihood a particle gets from the pixels of an image.
-/
set_option autoImplicit false
set_option linter.unusedSimpArgs false
set_option linter.unusedSectionVars false

namespace Glimpse.Likelihood

open Tiles

variable {E : Type} [Field E] [LinearOrder E] [IsStrictOrderedRing E]

/-! ### Specification -/

/-- Mean squared difference between a template (first pixel at column `x0` and row `y0` of its image) and the pixels of another image
that are displaced from it by `du` columns and `dv` rows. -/
def Mismatch (size : Nat × Nat) (tile : Nat → Nat → E) (image : ℤ → ℤ → E) (x0 y0 du dv : ℤ) : E :=
  (∑ i ∈ Finset.range size.2, ∑ j ∈ Finset.range size.1, (tile i j - image (x0 + j + du) (y0 + i + dv)) ^ 2) /
    ((size.1 : E) * (size.2 : E))

/-- A spline without smoothing: it passes through the values at the nodes, if there are more than its degree. -/
def Interpolates (kx ky : Nat) (spline : Spline E) : Prop :=
  ∀ (cv cu : List ℚ) (z : Nat → Nat → E), cv.Pairwise (· < ·) → cu.Pairwise (· < ·) → kx < cv.length → ky < cu.length →
    ∀ (i j : Nat) (v u : ℚ), cv[i]? = some v → cu[j]? = some u → spline cv cu z v u = z i j

/-- The template `t` was placed at the mean `uv0` (as `initTemplate` does). -/
def PlacedAt (t : Template) (uv0 : ℚ × ℚ) (x0 y0 : ℤ) : Prop :=
  ∃ nx ny, 0 < nx ∧ 0 < ny ∧ initTemplate nx ny uv0 t.size = .ok t ∧ t.box[0]? = some x0 ∧ t.box[1]? = some y0

/-! ### Proofs -/

private theorem placed (t : Template) (uv0 : ℚ × ℚ) (x0 y0 : ℤ) (h : PlacedAt t uv0 x0 y0) :
    ∃ x1 y1 : ℤ, t.box = [x0, y0, x1, y1] ∧ Placed uv0.1 t.size.1 x0 x1 ∧ Placed uv0.2 t.size.2 y0 y1 ∧
      t.duv = (uv0.1 - ((x0 : ℚ) + x1) / 2, uv0.2 - ((y0 : ℚ) + y1) / 2) := by
  obtain ⟨nx, ny, hx, hy, hi, b0, b1⟩ := h
  obtain ⟨a0, c0, a1, c1, hb, -, p1, p2, -, hd⟩ := (template_spec nx ny hx hy uv0 t.size).1 t hi
  rw [hb] at b0 b1
  simp only [List.getElem?_cons_zero, List.getElem?_cons_succ, Option.some.injEq] at b0 b1
  subst b0 b1
  exact ⟨a1, c1, hb, p1, p2, hd⟩

private theorem nodes_sorted (cu : List ℚ) (a : ℚ) (h : ∀ (i : Nat) (c : ℚ), cu[i]? = some c → c = a + i) :
    cu.Pairwise (· < ·) := by
  rw [List.pairwise_iff_getElem]
  intro i j hi hj hij
  rw [h i _ (List.getElem?_eq_getElem hi), h j _ (List.getElem?_eq_getElem hj)]
  have : (i : ℚ) < j := by exact_mod_cast hij
  linarith

/-- The node of a whole displacement. -/
private theorem node (b : ℤ × ℤ) (s n : Nat) (u0 q : ℚ) (x0 x1 d : ℤ) (hp : Placed u0 s x0 x1) (hn : (n : ℤ) = b.2 - b.1 - s + 1)
    (h1 : (b.1 : ℚ) ≤ q - s / 2) (h2 : q + s / 2 ≤ (b.2 : ℚ)) (hq : q = u0 + d) :
    ∃ k : Nat, k < n ∧ (b.1 + k : ℤ) = x0 + d := by
  obtain ⟨p1, p2, p3⟩ := hp
  have hx : (x1 : ℚ) = x0 + s := by
    have : ((x1 - x0 : ℤ) : ℚ) = ((s : ℤ) : ℚ) := by rw [p1]
    push_cast at this; linarith
  rw [hx] at p2 p3
  have a1 : b.1 < x0 + d + 1 := by
    have : (b.1 : ℚ) < ((x0 + d + 1 : ℤ) : ℚ) := by push_cast; rw [hq] at h1; linarith
    exact_mod_cast this
  have a2 : x0 + d + s < b.2 + 1 := by
    have : ((x0 + d + s : ℤ) : ℚ) < ((b.2 + 1 : ℤ) : ℚ) := by push_cast; rw [hq] at h2; linarith
    exact_mod_cast this
  exact ⟨(x0 + d - b.1).toNat, by omega, by omega⟩

/-- C136. For every template placed at the mean `uv0` and every image: without image nothing is computed; the call never raises;
it gives a value for each particle, or none at all if the search box (whole pixels around the particles) reaches out of the image. A
particle displaced from `uv0` by whole pixels gets exactly the mean squared difference between the template and the
pixels displaced by as much, divided by twice the variance. -/
theorem likelihood_whole_pixels (spline : Spline E) (kx ky : Nat) (hs : Interpolates kx ky spline) (t : Template) (uv0 : ℚ × ℚ) (x0 y0 : ℤ)
    (ht : PlacedAt t uv0 x0 y0) (tile : Nat → Nat → E) (sigma : E) (p : ℚ × ℚ) (ps : List (ℚ × ℚ)) :
    logLikelihoods spline none t tile kx ky sigma p ps = .ok none ∧
    ∀ img : Searched E, ∃ bu bv : ℤ × ℤ,
      (∀ q ∈ p :: ps, bu.1 ≤ q.1 - t.size.1 / 2 ∧ q.1 + t.size.1 / 2 ≤ bu.2 ∧
        bv.1 ≤ q.2 - t.size.2 / 2 ∧ q.2 + t.size.2 / 2 ≤ bv.2) ∧
      (¬ (0 ≤ bu.1 ∧ bu.2 ≤ img.nx ∧ 0 ≤ bv.1 ∧ bv.2 ≤ img.ny) →
        logLikelihoods spline (some img) t tile kx ky sigma p ps = .ok none) ∧
      ((0 ≤ bu.1 ∧ bu.2 ≤ img.nx ∧ 0 ≤ bv.1 ∧ bv.2 ≤ img.ny) →
        ∃ ls, logLikelihoods spline (some img) t tile kx ky sigma p ps = .ok (some ls) ∧ ls.length = (p :: ps).length ∧
          ∀ (n : Nat) (q : ℚ × ℚ) (l : E), (p :: ps)[n]? = some q → ls[n]? = some l →
            ∀ du dv : ℤ, q = (uv0.1 + du, uv0.2 + dv) →
              l = Mismatch t.size tile (img.value (bu, bv)) x0 y0 du dv / (2 * sigma ^ 2)) := by
  refine ⟨rfl, fun img => ?_⟩
  obtain ⟨x1, y1, hb, p1, p2, hd⟩ := placed t uv0 x0 y0 ht
  obtain ⟨bu, bv, hin, hnone, hsome⟩ := search_spec img.nx img.ny t kx ky p ps uv0 x0 y0 x1 y1 hb p1 p2 hd
  refine ⟨bu, bv, hin, fun h => ?_, fun h => ?_⟩
  · simp only [logLikelihoods, hnone.2 h, bind, Except.bind]
  · obtain ⟨r, hr, e1, e2, hc, hrw, kc, kr, lc, lr, nu, nv⟩ := hsome h
    refine ⟨(p :: ps).map fun q => spline r.cv r.cu (fun y x => sqdiff t.size tile (img.tile r.boxU r.boxV) y x *
      (1 / ((t.size.1 : E) * (t.size.2 : E)))) q.2 q.1 * (1 / (2 * sigma ^ 2)),
      by simp only [logLikelihoods, hr, bind, Except.bind], by simp only [List.length_map], ?_⟩
    intro n q l hq hl du dv hqe
    rw [List.getElem?_map, hq] at hl
    simp only [Option.map_some, Option.some.injEq] at hl
    have hmem : q ∈ p :: ps := List.mem_of_getElem? hq
    obtain ⟨h1, h2, h3, h4⟩ := hin q hmem
    obtain ⟨j, hj, hj'⟩ := node bu t.size.1 r.cols uv0.1 q.1 x0 x1 du p1 hc h1 h2 (by rw [hqe])
    obtain ⟨i, hi, hi'⟩ := node bv t.size.2 r.rows uv0.2 q.2 y0 y1 dv p2 hrw h3 h4 (by rw [hqe])
    have cj : r.cu[j]? = some q.1 := by
      have hlt : j < r.cu.length := by omega
      rw [List.getElem?_eq_getElem hlt, Option.some.injEq, nu j _ (List.getElem?_eq_getElem hlt), hqe]
      have : ((bu.1 + j : ℤ) : ℚ) = ((x0 + du : ℤ) : ℚ) := by rw [hj']
      push_cast at this ⊢
      linarith
    have ci : r.cv[i]? = some q.2 := by
      have hlt : i < r.cv.length := by omega
      rw [List.getElem?_eq_getElem hlt, Option.some.injEq, nv i _ (List.getElem?_eq_getElem hlt), hqe]
      have : ((bv.1 + i : ℤ) : ℚ) = ((y0 + dv : ℤ) : ℚ) := by rw [hi']
      push_cast at this ⊢
      linarith
    have s1 : r.cu.Pairwise (· < ·) := nodes_sorted r.cu (uv0.1 + bu.1 - x0) fun i c hc => by rw [nu i c hc]; ring
    have s2 : r.cv.Pairwise (· < ·) := nodes_sorted r.cv (uv0.2 + bv.1 - y0) fun i c hc => by rw [nv i c hc]; ring
    rw [hs r.cv r.cu _ s2 s1 (by omega) (by omega) i j q.2 q.1 ci cj] at hl
    rw [← hl, Mismatch, sqdiff, e1, e2]
    simp only [Searched.tile]
    have : ∀ a b : Nat, img.value (bu, bv) (bu.1 + ((j + b : Nat) : ℤ)) (bv.1 + ((i + a : Nat) : ℤ)) =
        img.value (bu, bv) (x0 + b + du) (y0 + a + dv) := by
      intro a b
      congr 1 <;> push_cast <;> omega
    simp only [this]
    simp only [mul_one_div]

/-- The mismatch is never negative. -/
theorem mismatch_nonneg (size : Nat × Nat) (tile : Nat → Nat → E) (image : ℤ → ℤ → E) (x0 y0 du dv : ℤ) :
    0 ≤ Mismatch size tile image x0 y0 du dv := by
  unfold Mismatch
  refine div_nonneg (Finset.sum_nonneg fun i _ => Finset.sum_nonneg fun j _ => sq_nonneg _) ?_
  exact mul_nonneg (Nat.cast_nonneg _) (Nat.cast_nonneg _)

/-- The mismatch is zero exactly if every pixel of the template is found again. -/
theorem mismatch_zero_iff (size : Nat × Nat) (h1 : 0 < size.1) (h2 : 0 < size.2) (tile : Nat → Nat → E) (image : ℤ → ℤ → E)
    (x0 y0 du dv : ℤ) : Mismatch size tile image x0 y0 du dv = 0 ↔
      ∀ i < size.2, ∀ j < size.1, image (x0 + j + du) (y0 + i + dv) = tile i j := by
  have hne : ((size.1 : E) * (size.2 : E)) ≠ 0 :=
    mul_ne_zero (Nat.cast_ne_zero.2 h1.ne') (Nat.cast_ne_zero.2 h2.ne')
  unfold Mismatch
  rw [div_eq_zero_iff, or_iff_left hne,
    Finset.sum_eq_zero_iff_of_nonneg fun i _ => Finset.sum_nonneg fun j _ => sq_nonneg _]
  constructor
  · intro h i hi j hj
    have := (Finset.sum_eq_zero_iff_of_nonneg (fun j _ => sq_nonneg _)).1 (h i (Finset.mem_range.2 hi)) j (Finset.mem_range.2 hj)
    rw [sq_eq_zero_iff, sub_eq_zero] at this
    exact this.symm
  · intro h i hi
    refine Finset.sum_eq_zero fun j hj => ?_
    rw [h i (Finset.mem_range.1 hi) j (Finset.mem_range.1 hj), sub_self]
    ring

/-- C136: at whole displacements the likelihood is at its best exactly where every pixel of the template is found again: zero
there, and positive (less likely) everywhere else. -/
theorem likelihood_best (spline : Spline E) (kx ky : Nat) (hs : Interpolates kx ky spline) (t : Template) (uv0 : ℚ × ℚ) (x0 y0 : ℤ)
    (ht : PlacedAt t uv0 x0 y0) (h1 : 0 < t.size.1) (h2 : 0 < t.size.2) (tile : Nat → Nat → E) (sigma : E) (hsig : sigma ≠ 0)
    (p : ℚ × ℚ) (ps : List (ℚ × ℚ)) (img : Searched E) (ls : List E)
    (h : logLikelihoods spline (some img) t tile kx ky sigma p ps = .ok (some ls)) :
    ∃ box, ∀ (n : Nat) (q : ℚ × ℚ) (l : E), (p :: ps)[n]? = some q → ls[n]? = some l →
      ∀ du dv : ℤ, q = (uv0.1 + du, uv0.2 + dv) → 0 ≤ l ∧
        (l = 0 ↔ ∀ i < t.size.2, ∀ j < t.size.1, img.value box (x0 + j + du) (y0 + i + dv) = tile i j) := by
  obtain ⟨bu, bv, -, hnone, hsome⟩ := (likelihood_whole_pixels spline kx ky hs t uv0 x0 y0 ht tile sigma p ps).2 img
  refine ⟨(bu, bv), ?_⟩
  by_cases hb : (0 ≤ bu.1 ∧ bu.2 ≤ img.nx ∧ 0 ≤ bv.1 ∧ bv.2 ≤ img.ny)
  · obtain ⟨ls', e, -, hv⟩ := hsome hb
    rw [h] at e
    cases e
    intro n q l hq hl du dv hqe
    have hpos : (0 : E) < 2 * sigma ^ 2 := by positivity
    rw [hv n q l hq hl du dv hqe, ← mismatch_zero_iff t.size h1 h2, div_eq_zero_iff, or_iff_left hpos.ne']
    exact ⟨div_nonneg (mismatch_nonneg _ _ _ _ _ _ _) hpos.le, Iff.rfl⟩
  · rw [h] at hnone
    cases hnone hb

/-! ### Between pixels -/

/-- A spline that gives no negative value for values that are not negative. -/
def Positive (spline : Spline E) : Prop :=
  ∀ (cv cu : List ℚ) (z : Nat → Nat → E) (v u : ℚ), (∀ i j, 0 ≤ z i j) → 0 ≤ spline cv cu z v u

/-- C136: with such a spline no particle at all gets a negative value, for any template. -/
theorem likelihood_nonneg (spline : Spline E) (hs : Positive spline) (img : Option (Searched E)) (t : Template) (tile : Nat → Nat → E)
    (kx ky : Nat) (sigma : E) (p : ℚ × ℚ) (ps : List (ℚ × ℚ)) (ls : List E)
    (h : logLikelihoods spline img t tile kx ky sigma p ps = .ok (some ls)) : ∀ l ∈ ls, 0 ≤ l := by
  cases img with
  | none => cases h
  | some img =>
    cases hp : plan img.nx img.ny t kx ky p ps with
    | error e => simp only [logLikelihoods, hp, bind, Except.bind] at h; cases h
    | ok o =>
      cases o with
      | none => simp only [logLikelihoods, hp, bind, Except.bind] at h; cases h
      | some r =>
        simp only [logLikelihoods, hp, bind, Except.bind, Except.ok.injEq, Option.some.injEq] at h
        intro l hl
        rw [← h] at hl
        obtain ⟨q, -, rfl⟩ := List.mem_map.1 hl
        refine mul_nonneg (hs _ _ _ _ _ fun i j => ?_) (by positivity)
        refine mul_nonneg (Finset.sum_nonneg fun i _ => Finset.sum_nonneg fun j _ => sq_nonneg _) ?_
        positivity

/-- The spline of degree one along one axis: linear between neighbouring nodes, constant outside of them. -/
def linear : List ℚ → (Nat → E) → ℚ → E
  | [], _, _ => 0
  | [_], f, _ => f 0
  | a :: b :: l, f, x =>
    if x ≤ a then f 0
    else if x ≤ b then f 0 * (((b - x) / (b - a) : ℚ) : E) + f 1 * (((x - a) / (b - a) : ℚ) : E)
    else linear (b :: l) (fun i => f (i + 1)) x

/-- The spline of degree one (`kx=1, ky=1`). -/
def bilinear : Spline E := fun cv cu z v u => linear cv (fun i => linear cu (z i) u) v

private theorem linear_node (c : List ℚ) (hc : c.Pairwise (· < ·)) (f : Nat → E) (i : Nat) (x : ℚ) (hx : c[i]? = some x) :
    linear c f x = f i := by
  induction c generalizing f i with
  | nil => simp at hx
  | cons a l ih =>
    cases l with
    | nil =>
      cases i with
      | zero => rfl
      | succ i => simp at hx
    | cons b l =>
      obtain ⟨h1, h2⟩ := List.pairwise_cons.1 hc
      cases i with
      | zero =>
        simp only [List.getElem?_cons_zero, Option.some.injEq] at hx
        subst hx
        simp [linear]
      | succ i =>
        have hmem : x ∈ b :: l := List.mem_of_getElem? (by simpa using hx)
        have hax := h1 x hmem
        rw [linear, if_neg (by linarith)]
        by_cases hb : x ≤ b
        · have hxb : x = b := by
            rcases List.mem_cons.1 hmem with h | h
            · exact h
            · have := (List.pairwise_cons.1 h2).1 x h
              linarith
          have hi : i = 0 := by
            cases i with
            | zero => rfl
            | succ i =>
              have hm : x ∈ l := List.mem_of_getElem? (by simpa using hx)
              have := (List.pairwise_cons.1 h2).1 x hm
              linarith
          subst hi
          rw [if_pos hb, hxb, sub_self, zero_div, div_self (by rw [hxb] at hax; linarith)]
          simp
        · rw [if_neg hb, ih h2 _ i (by simpa using hx)]

private theorem linear_nonneg (c : List ℚ) (f : Nat → E) (hf : ∀ i, 0 ≤ f i) (x : ℚ) : 0 ≤ linear c f x := by
  induction c generalizing f with
  | nil => exact le_refl _
  | cons a l ih =>
    cases l with
    | nil => exact hf 0
    | cons b l =>
      rw [linear]
      split
      · exact hf 0
      · rename_i ha
        split
        · rename_i hb
          have hab : 0 < b - a := by linarith
          have w1 : (0 : ℚ) ≤ (b - x) / (b - a) := div_nonneg (by linarith) hab.le
          have w2 : (0 : ℚ) ≤ (x - a) / (b - a) := div_nonneg (by linarith) hab.le
          exact add_nonneg (mul_nonneg (hf 0) (Rat.cast_nonneg.2 w1)) (mul_nonneg (hf 1) (Rat.cast_nonneg.2 w2))
        · exact ih _ fun i => hf (i + 1)

/-- The spline of degree one meets both conditions. -/
theorem bilinear_ok (kx ky : Nat) : Interpolates kx ky (bilinear : Spline E) ∧ Positive (bilinear : Spline E) := by
  refine ⟨fun cv cu z h1 h2 _ _ i j v u hv hu => ?_, fun cv cu z v u hz => ?_⟩
  · unfold bilinear
    rw [linear_node cv h1 _ i v hv, linear_node cu h2 _ j u hu]
  · exact linear_nonneg _ _ (fun i => linear_nonneg _ _ (hz i) u) v

/-- C136: with splines of degree one, no particle gets a negative value. -/
theorem likelihood_bilinear (img : Option (Searched E)) (t : Template) (tile : Nat → Nat → E)
    (kx ky : Nat) (sigma : E) (p : ℚ × ℚ) (ps : List (ℚ × ℚ)) (ls : List E)
    (h : logLikelihoods bilinear img t tile kx ky sigma p ps = .ok (some ls)) : ∀ l ∈ ls, 0 ≤ l :=
  likelihood_nonneg _ (bilinear_ok kx ky).2 img t tile kx ky sigma p ps ls h

/-! ### Cubic splines -/

/-- On four columns, a spline of degree three is one cubic polynomial along each row. -/
def CubicOnFour (spline : Spline ℚ) : Prop :=
  ∀ (cv cu : List ℚ) (z : Nat → Nat → ℚ) (v : ℚ), cu.Pairwise (· < ·) → cu.length = 4 → ∃ a b c d : ℚ, ∀ u, spline cv cu z v u = a + b * u + c * u ^ 2 + d * u ^ 3

/-- A template of two pixels, at columns 10 and 11 of row 5. -/
def exTemplate : Template := ⟨[10, 5, 12, 6], (0, 0), (2, 1)⟩

/-- Its (normalized) values. -/
def exTile (_ j : Nat) : ℚ := if j = 0 then -1 else 1

/-- An image in which the template is found again at columns 10 and 11, beside dark and bright pixels. -/
def exImage : Searched ℚ :=
  ⟨30, 20, fun _ x _ => if x = 9 then 10 else if x = 10 then -1 else if x = 11 then 1 else if x = 12 then 1 else -10⟩

example : PlacedAt exTemplate (11, 11 / 2) 10 5 := by
  refine ⟨30, 20, by decide, by decide, ?_, rfl, rfl⟩
  have h : (initTemplate 30 20 (11, 11 / 2) (2, 1)).map (fun t => (t.box, t.duv, t.size)) =
    .ok ([10, 5, 12, 6], (0, 0), (2, 1)) := by decide +kernel
  change initTemplate 30 20 (11, 11 / 2) (2, 1) = _
  cases e : initTemplate 30 20 (11, 11 / 2) (2, 1) with
  | error x => rw [e] at h; cases h
  | ok t =>
    rw [e] at h
    simp only [Except.map, Except.ok.injEq, Prod.mk.injEq] at h
    cases t
    simp only at h
    obtain ⟨rfl, ⟨rfl, rfl⟩, rfl, rfl⟩ := h
    rfl

/-- The polynomial through all nodes: with four rows and columns this is the spline of degree three. -/
noncomputable def throughNodes : Spline ℚ := fun cv cu z v u =>
  (Lagrange.interpolate (Finset.range cu.length) (fun j => cu.getD j 0) fun j =>
    (Lagrange.interpolate (Finset.range cv.length) (fun i => cv.getD i 0) fun i => z i j).eval v).eval u

private theorem nodes_inj (c : List ℚ) (hc : c.Pairwise (· < ·)) :
    Set.InjOn (fun j => c.getD j 0) (Finset.range c.length : Set Nat) := by
  intro i hi j hj h
  have hi' : i < c.length := by simpa using hi
  have hj' : j < c.length := by simpa using hj
  simp only [List.getD_eq_getElem _ _ hi', List.getD_eq_getElem _ _ hj'] at h
  rw [List.pairwise_iff_getElem] at hc
  rcases Nat.lt_trichotomy i j with h' | h' | h'
  · exact absurd h (hc i j hi' hj' h').ne
  · exact h'
  · exact absurd h (hc j i hj' hi' h').ne'

/-- The conditions on cubic splines can be met. -/
theorem throughNodes_ok : Interpolates 3 3 throughNodes ∧ CubicOnFour throughNodes := by
  constructor
  · intro cv cu z h1 h2 _ _ i j v u hv hu
    have get : ∀ (c : List ℚ) (i : Nat) (v : ℚ), c[i]? = some v → i < c.length ∧ c.getD i 0 = v := by
      intro c i v h
      obtain ⟨hi, e⟩ := List.getElem?_eq_some_iff.1 h
      exact ⟨hi, by rw [List.getD_eq_getElem _ _ hi, e]⟩
    obtain ⟨i1, i2⟩ := get cv i v hv
    obtain ⟨j1, j2⟩ := get cu j u hu
    have e1 := Lagrange.eval_interpolate_at_node (fun j => (Lagrange.interpolate (Finset.range cv.length) (fun i => cv.getD i 0)
      fun i => z i j).eval v) (nodes_inj cu h2) (Finset.mem_range.2 j1)
    have e2 := Lagrange.eval_interpolate_at_node (fun i => z i j) (nodes_inj cv h1) (Finset.mem_range.2 i1)
    simp only [i2, j2] at e1 e2
    unfold throughNodes
    rw [e1, e2]
  · intro cv cu z v hc hl
    have hd := Lagrange.degree_interpolate_lt (fun j =>
      (Lagrange.interpolate (Finset.range cv.length) (fun i => cv.getD i 0) fun i => z i j).eval v) (nodes_inj cu hc)
    rw [Finset.card_range, hl] at hd
    set P := (Lagrange.interpolate (Finset.range 4) (fun j => cu.getD j 0)) (fun j =>
      (Lagrange.interpolate (Finset.range cv.length) (fun i => cv.getD i 0) fun i => z i j).eval v) with hP
    refine ⟨P.coeff 0, P.coeff 1, P.coeff 2, P.coeff 3, fun u => ?_⟩
    have hn : P.natDegree < 4 := by
      by_cases h0 : P = 0
      · rw [h0]; simp
      · exact (Polynomial.natDegree_lt_iff_degree_lt h0).2 hd
    have e : throughNodes cv cu z v u = P.eval u := by
      unfold throughNodes
      rw [hl, hP]
    rw [e, Polynomial.eval_eq_sum_range' hn]
    simp only [Finset.sum_range_succ, Finset.sum_range_zero]
    ring

/-- C136 fails between pixels with the default spline of degree three: the particle half a pixel beside an exact match gets a
negative value, so that it counts as more likely than the match itself. -/
theorem likelihood_cubic_violated (spline : Spline ℚ) (h1 : Interpolates 3 3 spline) (h2 : CubicOnFour spline) :
    logLikelihoods spline (some exImage) exTemplate exTile 3 3 1 (23 / 2, 11 / 2) [] = .ok (some [-(107 / 32)]) ∧
    logLikelihoods spline (some exImage) exTemplate exTile 3 3 1 (11, 11 / 2) [] = .ok (some [0]) := by
  constructor
  · have h : (plan 30 20 exTemplate 3 3 (23 / 2, 11 / 2) []).map (fun r => r.map fun r => (r.boxU, r.boxV, r.cu, r.cv)) =
      .ok (some ((9, 14), (3, 8), [10, 11, 12, 13], [7 / 2, 9 / 2, 11 / 2, 13 / 2, 15 / 2])) := by decide +kernel
    have hp : plan exImage.nx exImage.ny exTemplate 3 3 (23 / 2, 11 / 2) [] =
      plan 30 20 exTemplate 3 3 (23 / 2, 11 / 2) [] := rfl
    cases e : plan 30 20 exTemplate 3 3 (23 / 2, 11 / 2) [] with
    | error x => rw [e] at h; cases h
    | ok o =>
      cases o with
      | none => rw [e] at h; cases h
      | some r =>
        rw [e] at h
        simp only [Except.map, Option.map_some, Except.ok.injEq, Option.some.injEq, Prod.mk.injEq] at h
        obtain ⟨hbu, hbv, hcu, hcv⟩ := h
        rw [logLikelihoods]
        simp only [hp, e, bind, Except.bind, List.map_cons, List.map_nil, hcu, hcv, hbu, hbv, Except.ok.injEq,
          Option.some.injEq, List.cons.injEq, and_true]
        set z : Nat → Nat → ℚ := fun y x => sqdiff exTemplate.size exTile (exImage.tile (9, 14) (3, 8)) y x *
          (1 / ((exTemplate.size.1 : ℚ) * (exTemplate.size.2 : ℚ))) with hz
        obtain ⟨a, b, c, d, hf⟩ := h2 [7 / 2, 9 / 2, 11 / 2, 13 / 2, 15 / 2] [10, 11, 12, 13] z (11 / 2)
          (by decide +kernel) rfl
        have s1 : ([7 / 2, 9 / 2, 11 / 2, 13 / 2, 15 / 2] : List ℚ).Pairwise (· < ·) := by decide +kernel
        have s2 : ([10, 11, 12, 13] : List ℚ).Pairwise (· < ·) := by decide +kernel
        have n := fun j u hu => h1 [7 / 2, 9 / 2, 11 / 2, 13 / 2, 15 / 2] [10, 11, 12, 13] z s1 s2 (by decide) (by decide)
          2 j (11 / 2) u rfl hu
        have n0 := n 0 10 rfl
        have n1 := n 1 11 rfl
        have n2 := n 2 12 rfl
        have n3 := n 3 13 rfl
        rw [hf] at n0 n1 n2 n3
        have z0 : z 2 0 = 125 / 2 := by decide +kernel
        have z1 : z 2 1 = 0 := by decide +kernel
        have z2 : z 2 2 = 2 := by decide +kernel
        have z3 : z 2 3 = 125 / 2 := by decide +kernel
        rw [z0] at n0
        rw [z1] at n1
        rw [z2] at n2
        rw [z3] at n3
        rw [hf]
        norm_num at n0 n1 n2 n3 ⊢
        linarith
  · have h : (plan 30 20 exTemplate 3 3 (11, 11 / 2) []).map (fun r => r.map fun r => (r.boxU, r.boxV, r.cu, r.cv)) =
      .ok (some ((8, 14), (3, 8), [9, 10, 11, 12, 13], [7 / 2, 9 / 2, 11 / 2, 13 / 2, 15 / 2])) := by decide +kernel
    have hp : plan exImage.nx exImage.ny exTemplate 3 3 (11, 11 / 2) [] = plan 30 20 exTemplate 3 3 (11, 11 / 2) [] := rfl
    cases e : plan 30 20 exTemplate 3 3 (11, 11 / 2) [] with
    | error x => rw [e] at h; cases h
    | ok o =>
      cases o with
      | none => rw [e] at h; cases h
      | some r =>
        rw [e] at h
        simp only [Except.map, Option.map_some, Except.ok.injEq, Option.some.injEq, Prod.mk.injEq] at h
        obtain ⟨hbu, hbv, hcu, hcv⟩ := h
        rw [logLikelihoods]
        simp only [hp, e, bind, Except.bind, List.map_cons, List.map_nil, hcu, hcv, hbu, hbv, Except.ok.injEq,
          Option.some.injEq, List.cons.injEq, and_true]
        rw [h1 [7 / 2, 9 / 2, 11 / 2, 13 / 2, 15 / 2] [9, 10, 11, 12, 13] _ (by decide +kernel) (by decide +kernel) (by decide)
          (by decide) 2 2 (11 / 2) 11 rfl rfl]
        decide +kernel

/-- Non-vacuity: three particles, two of them displaced by whole pixels. The first is at the match. -/
example : (logLikelihoods bilinear (some exImage) exTemplate exTile 1 1 2 (11, 11 / 2) [(10, 13 / 2), (23 / 2, 11 / 2)]).toOption =
      some (some [0, 125 / 16, 1 / 8]) ∧
    Mismatch (2, 1) exTile (exImage.value ((8, 13), (5, 7))) 10 5 0 0 = 0 ∧
    Mismatch (2, 1) exTile (exImage.value ((8, 13), (5, 7))) 10 5 (-1) 1 / (2 * 2 ^ 2) = 125 / 16 ∧
    (logLikelihoods bilinear (some exImage) exTemplate exTile 1 1 2 (1, 11 / 2) []).toOption = some none := by decide +kernel

end Glimpse.Likelihood
