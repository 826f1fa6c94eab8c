import Verif.Model.Tiles
import Verif.Props.Grid
import Mathlib.Tactic.Linarith
import Mathlib.Tactic.Ring
import Mathlib.Tactic.FieldSimp

/-!
C60: template and search tiles are placed exactly.
-/
set_option autoImplicit false
set_option linter.unusedSimpArgs false

namespace Glimpse.Tiles

/-- `x` is a pixel range of a template of `s` pixels placed as near as possible to centred on `u`. -/
def Placed (u : ℚ) (s : Nat) (x0 x1 : ℤ) : Prop :=
  x1 - x0 = s ∧ -(1 / 2) ≤ u - ((x0 : ℚ) + x1) / 2 ∧ u - ((x0 : ℚ) + x1) / 2 < 1 / 2

private theorem snap_unit (n : Nat) (hn : 0 < n) (v : ℚ) :
    (⟨0, n, n⟩ : GAxis).snap false true true v = ((⌊v + 1 / 2⌋ : ℤ) : ℚ) := by
  have hn' : (n : ℚ) ≠ 0 := by exact_mod_cast hn.ne'
  have hd : (⟨0, n, n⟩ : GAxis).d = 1 := by simp [GAxis.d, hn']
  simp [GAxis.snap, hd]

private theorem truncInt_int (z : ℤ) : truncInt (z : ℚ) = z := by simp [truncInt]

/-- C60 (template). The template tile has exactly the requested size, lies within the image and is within half a pixel
of being centred on the projected particle mean; its recorded offset `duv` is that of the mean from the tile centre,
in `[-1/2, 1/2)`. It raises IndexError exactly when the tile centred on the mean would reach out of the image. -/
theorem template_spec (nx ny : Nat) (hx : 0 < nx) (hy : 0 < ny) (uv : ℚ × ℚ) (size : Nat × Nat) :
    (∀ t, initTemplate nx ny uv size = .ok t →
      ∃ x0 y0 x1 y1 : ℤ, t.box = [x0, y0, x1, y1] ∧ t.size = size ∧
        Placed uv.1 size.1 x0 x1 ∧ Placed uv.2 size.2 y0 y1 ∧
        (0 ≤ x0 ∧ x1 ≤ nx ∧ 0 ≤ y0 ∧ y1 ≤ ny) ∧
        t.duv = (uv.1 - ((x0 : ℚ) + x1) / 2, uv.2 - ((y0 : ℚ) + y1) / 2)) ∧
    ((∃ t, initTemplate nx ny uv size = .ok t) ↔
      (0 ≤ uv.1 - size.1 / 2 ∧ uv.1 + size.1 / 2 ≤ nx ∧ 0 ≤ uv.2 - size.2 / 2 ∧ uv.2 + size.2 / 2 ≤ ny)) ∧
    (∀ e, initTemplate nx ny uv size = .error e → e = .indexError) := by
  set x0 := ⌊uv.1 - (size.1 : ℚ) * (1 / 2) + 1 / 2⌋ with hx0
  set y0 := ⌊uv.2 - (size.2 : ℚ) * (1 / 2) + 1 / 2⌋ with hy0
  have hin : ∀ (q : ℚ × ℚ), (imageGrid nx ny).inboundsXy q = true ↔ (0 ≤ q.1 ∧ q.1 ≤ nx ∧ 0 ≤ q.2 ∧ q.2 ≤ ny) := by
    intro q
    have h1 : (min (0 : ℚ) (nx : ℚ)) = 0 := min_eq_left (by positivity)
    have h2 : (min (0 : ℚ) (ny : ℚ)) = 0 := min_eq_left (by positivity)
    have h3 : (max (0 : ℚ) (nx : ℚ)) = nx := max_eq_right (by positivity)
    have h4 : (max (0 : ℚ) (ny : ℚ)) = ny := max_eq_right (by positivity)
    simp only [Grid.inboundsXy, imageGrid, GAxis.min, GAxis.max, h1, h2, h3, h4, Bool.and_eq_true, decide_eq_true_eq]
    tauto
  have hfl : ∀ (u : ℚ) (s : Nat), ⌊u + (s : ℚ) * (1 / 2) + 1 / 2⌋ = ⌊u - (s : ℚ) * (1 / 2) + 1 / 2⌋ + s := by
    intro u s
    rw [← Int.floor_add_natCast]
    congr 1; ring
  have hsnap : (imageGrid nx ny).snapBox uv ((size.1 : ℚ), (size.2 : ℚ)) false true true =
      if (0 ≤ uv.1 - size.1 / 2 ∧ uv.1 + size.1 / 2 ≤ nx ∧ 0 ≤ uv.2 - size.2 / 2 ∧ uv.2 + size.2 / 2 ≤ ny) then
        .ok [(x0 : ℚ), (y0 : ℚ), ((x0 + size.1 : ℤ) : ℚ), ((y0 + size.2 : ℤ) : ℚ)]
      else .error .indexError := by
    unfold Grid.snapBox
    have hs1 : (0 : ℚ) ≤ (size.1 : ℚ) := by positivity
    have hs2 : (0 : ℚ) ≤ (size.2 : ℚ) := by positivity
    have hc : (!(imageGrid nx ny).inboundsXy (uv.1 - (size.1 : ℚ) * (1 / 2), uv.2 - (size.2 : ℚ) * (1 / 2)) ||
        !(imageGrid nx ny).inboundsXy (uv.1 + (size.1 : ℚ) * (1 / 2), uv.2 + (size.2 : ℚ) * (1 / 2))) = true ↔
        ¬ (0 ≤ uv.1 - size.1 / 2 ∧ uv.1 + size.1 / 2 ≤ nx ∧ 0 ≤ uv.2 - size.2 / 2 ∧ uv.2 + size.2 / 2 ≤ ny) := by
      rw [Bool.or_eq_true, Bool.not_eq_true', Bool.not_eq_true', ← Bool.not_eq_true, ← Bool.not_eq_true, hin, hin,
        ← not_and_or, not_iff_not]
      constructor
      · rintro ⟨⟨a, b, c, d⟩, ⟨e, f, g, h⟩⟩
        simp only at *
        exact ⟨by linarith, by linarith, by linarith, by linarith⟩
      · rintro ⟨a, b, c, d⟩
        simp only
        exact ⟨⟨by linarith, by linarith, by linarith, by linarith⟩,
          ⟨by linarith, by linarith, by linarith, by linarith⟩⟩
    simp only [hc]
    by_cases h : (0 ≤ uv.1 - size.1 / 2 ∧ uv.1 + size.1 / 2 ≤ nx ∧ 0 ≤ uv.2 - size.2 / 2 ∧ uv.2 + size.2 / 2 ≤ ny)
    · rw [if_neg (by simpa using h), if_pos h]
      simp only [Grid.snapXy, imageGrid, bind, Except.bind, pure, Except.pure, Bool.not_false, Bool.not_true,
        Bool.and_false, Bool.false_eq_true, if_false, snap_unit nx hx, snap_unit ny hy, hfl, ← hx0, ← hy0]
    · rw [if_pos h, if_neg h]
      rfl
  have hinit : initTemplate nx ny uv size =
      if (0 ≤ uv.1 - size.1 / 2 ∧ uv.1 + size.1 / 2 ≤ nx ∧ 0 ≤ uv.2 - size.2 / 2 ∧ uv.2 + size.2 / 2 ≤ ny) then
        .ok ⟨[x0, y0, x0 + size.1, y0 + size.2],
          (uv.1 - ((x0 : ℚ) + ((x0 + size.1 : ℤ) : ℚ)) / 2, uv.2 - ((y0 : ℚ) + ((y0 + size.2 : ℤ) : ℚ)) / 2), size⟩
      else .error .indexError := by
    unfold initTemplate tileBox
    rw [hsnap]
    by_cases h : (0 ≤ uv.1 - size.1 / 2 ∧ uv.1 + size.1 / 2 ≤ nx ∧ 0 ≤ uv.2 - size.2 / 2 ∧ uv.2 + size.2 / 2 ≤ ny)
    · rw [if_pos h, if_pos h]
      simp only [List.map_cons, List.map_nil, truncInt_int, offset, List.getD_cons_zero, List.getD_cons_succ]
      simp
    · rw [if_neg h, if_neg h]
  rw [hinit]
  refine ⟨?_, ?_, ?_⟩
  · intro t ht
    split at ht
    · rename_i hb
      cases ht
      have hP : ∀ (u : ℚ) (s : Nat) (z : ℤ), z = ⌊u - (s : ℚ) * (1 / 2) + 1 / 2⌋ → Placed u s z (z + s) := by
        intro u s z hz
        have a := Int.floor_le (u - (s : ℚ) * (1 / 2) + 1 / 2)
        have b := Int.lt_floor_add_one (u - (s : ℚ) * (1 / 2) + 1 / 2)
        rw [← hz] at a b
        refine ⟨by omega, ?_, ?_⟩
        · push_cast; linarith
        · push_cast; linarith
      have hle : ∀ (u : ℚ) (s n : Nat), u + s / 2 ≤ n → ⌊u - (s : ℚ) * (1 / 2) + 1 / 2⌋ + s ≤ n := by
        intro u s n h
        have : ⌊u - (s : ℚ) * (1 / 2) + 1 / 2⌋ < (n : ℤ) - s + 1 := by
          rw [Int.floor_lt]; push_cast; linarith
        omega
      refine ⟨x0, y0, x0 + size.1, y0 + size.2, rfl, rfl, hP _ _ _ hx0, hP _ _ _ hy0, ⟨?_, ?_, ?_, ?_⟩, rfl⟩
      · exact Int.floor_nonneg.2 (by linarith [hb.1])
      · exact hle _ _ _ hb.2.1
      · exact Int.floor_nonneg.2 (by linarith [hb.2.2.1])
      · exact hle _ _ _ hb.2.2.2
    · cases ht
  · constructor
    · rintro ⟨t, ht⟩
      by_contra h
      rw [if_neg h] at ht; cases ht
    · intro h
      rw [if_pos h]; exact ⟨_, rfl⟩
  · intro e he
    split at he
    · cases he
    · cases he; rfl

private theorem foldl_min_le (us : List ℚ) (u : ℚ) : minOf u us ≤ u ∧ ∀ x ∈ us, minOf u us ≤ x := by
  unfold minOf
  induction us generalizing u with
  | nil => simp
  | cons a l ih =>
    obtain ⟨h1, h2⟩ := ih (min u a)
    rw [List.foldl_cons]
    refine ⟨le_trans h1 (min_le_left _ _), ?_⟩
    intro x hx
    rcases List.mem_cons.1 hx with rfl | h
    · exact le_trans h1 (min_le_right _ _)
    · exact h2 x h

private theorem le_foldl_max (us : List ℚ) (u : ℚ) : u ≤ maxOf u us ∧ ∀ x ∈ us, x ≤ maxOf u us := by
  unfold maxOf
  induction us generalizing u with
  | nil => simp
  | cons a l ih =>
    obtain ⟨h1, h2⟩ := ih (max u a)
    rw [List.foldl_cons]
    refine ⟨le_trans (le_max_left _ _) h1, ?_⟩
    intro x hx
    rcases List.mem_cons.1 hx with rfl | h
    · exact le_trans (le_max_right _ _) h1
    · exact h2 x h

private theorem searchAxis_spec (umin umax : ℚ) (s k : Nat) (h : umin ≤ umax) :
    ((searchAxis umin umax s k).1 : ℚ) ≤ umin - s / 2 ∧ umax + s / 2 ≤ ((searchAxis umin umax s k).2 : ℚ) ∧
      (s : ℤ) + k ≤ (searchAxis umin umax s k).2 - (searchAxis umin umax s k).1 := by
  unfold searchAxis
  simp only
  have hw : umax + (s : ℚ) * (1 / 2) - (umin - (s : ℚ) * (1 / 2)) - s = umax - umin := by ring
  rw [hw]
  by_cases hn : (k : ℚ) - (umax - umin) > 0
  · simp only [if_pos hn]
    set a := umin - (s : ℚ) * (1 / 2) - ((k : ℚ) - (umax - umin)) * (1 / 2) with ha
    set b := umax + (s : ℚ) * (1 / 2) + ((k : ℚ) - (umax - umin)) * (1 / 2) with hb
    have h1 := Int.floor_le a
    have h2 := Int.le_ceil b
    refine ⟨by linarith, by linarith, ?_⟩
    have : (((s : ℤ) + k : ℤ) : ℚ) ≤ ((⌈b⌉ - ⌊a⌋ : ℤ) : ℚ) := by
      push_cast
      have : b - a = s + k := by rw [ha, hb]; ring
      linarith
    exact_mod_cast this
  · simp only [if_neg hn]
    set a := umin - (s : ℚ) * (1 / 2) with ha
    set b := umax + (s : ℚ) * (1 / 2) with hb
    have h1 := Int.floor_le a
    have h2 := Int.le_ceil b
    refine ⟨by linarith, by linarith, ?_⟩
    have : (((s : ℤ) + k : ℤ) : ℚ) ≤ ((⌈b⌉ - ⌊a⌋ : ℤ) : ℚ) := by
      push_cast
      have : b - a = s + (umax - umin) := by rw [ha, hb]; ring
      linarith
    exact_mod_cast this

private theorem cellCoords_spec (b : ℤ × ℤ) (s k : Nat) (d : ℚ) (hw : (s : ℤ) + k ≤ b.2 - b.1) :
    (cellCoords (sseAxis b s d) (b.2 - b.1 - s + 1).toNat).length = (b.2 - b.1 - s + 1).toNat ∧
      ∀ (i : Nat) (c : ℚ), (cellCoords (sseAxis b s d) (b.2 - b.1 - s + 1).toNat)[i]? = some c →
        c = b.1 + i + s / 2 + d := by
  set n := (b.2 - b.1 - s + 1).toNat with hn
  have hnz : (n : ℤ) = b.2 - b.1 - s + 1 := by omega
  have hnq : (n : ℚ) = b.2 - b.1 - s + 1 := by
    have : ((n : ℤ) : ℚ) = ((b.2 - b.1 - s + 1 : ℤ) : ℚ) := by rw [hnz]
    push_cast at this; exact this
  have hn1 : (n : ℚ) ≠ 0 := by
    have : 0 < n := by omega
    exact_mod_cast this.ne'
  have hstart : (sseAxis b s d).1 + ((sseAxis b s d).2 - (sseAxis b s d).1) / (n : ℚ) * (1 / 2) =
      b.1 + s / 2 + d := by
    have hdiff : (sseAxis b s d).2 - (sseAxis b s d).1 = n := by
      rw [hnq]; simp only [sseAxis]; ring
    rw [hdiff, div_self hn1]
    simp only [sseAxis]; ring
  have hlen : ⌈(sseAxis b s d).2 - ((b.1 : ℚ) + s / 2 + d)⌉.toNat = n := by
    have : (sseAxis b s d).2 - ((b.1 : ℚ) + s / 2 + d) = n - 1 / 2 := by
      rw [hnq]; simp only [sseAxis]; ring
    rw [this]
    have : ⌈(n : ℚ) - 1 / 2⌉ = (n : ℤ) := by
      rw [Int.ceil_eq_iff]; push_cast; constructor <;> linarith
    rw [this]; simp
  unfold cellCoords arange
  rw [hstart, hlen]
  refine ⟨by simp, ?_⟩
  intro i c hc
  rw [List.getElem?_map] at hc
  by_cases hi : i < n
  · rw [List.getElem?_range hi] at hc
    simp at hc; rw [← hc]; ring
  · rw [List.getElem?_eq_none (by simpa using hi)] at hc
    simp at hc

/-- C60 (search). For every template placed at `(x0, y0)` when the mean was at `uv0`, and all particles: the call never
raises; it skips the image exactly when the search box reaches out of it. Otherwise the search box is a box of whole
pixels of the image that contains the template centred on any particle; the error image has `search - template + 1`
cells, more than the spline's degree, and is given as many coordinates; and the cell for the template moved to pixel
`(boxU.1 + i, boxV.1 + j)` is given exactly the coordinates to which that moves the mean: the template's displacement
added to `uv0`. -/
theorem search_spec (nx ny : Nat) (t : Template) (kx ky : Nat) (p : ℚ × ℚ) (ps : List (ℚ × ℚ))
    (uv0 : ℚ × ℚ) (x0 y0 x1 y1 : ℤ) (_hbox : t.box = [x0, y0, x1, y1])
    (hpx : Placed uv0.1 t.size.1 x0 x1) (hpy : Placed uv0.2 t.size.2 y0 y1)
    (hd : t.duv = (uv0.1 - ((x0 : ℚ) + x1) / 2, uv0.2 - ((y0 : ℚ) + y1) / 2)) :
    ∃ bu bv : ℤ × ℤ,
      (∀ q ∈ p :: ps, bu.1 ≤ q.1 - t.size.1 / 2 ∧ q.1 + t.size.1 / 2 ≤ bu.2 ∧
        bv.1 ≤ q.2 - t.size.2 / 2 ∧ q.2 + t.size.2 / 2 ≤ bv.2) ∧
      (plan nx ny t kx ky p ps = .ok none ↔ ¬ (0 ≤ bu.1 ∧ bu.2 ≤ nx ∧ 0 ≤ bv.1 ∧ bv.2 ≤ ny)) ∧
      ((0 ≤ bu.1 ∧ bu.2 ≤ nx ∧ 0 ≤ bv.1 ∧ bv.2 ≤ ny) → ∃ r, plan nx ny t kx ky p ps = .ok (some r) ∧
        r.boxU = bu ∧ r.boxV = bv ∧
        (r.cols : ℤ) = bu.2 - bu.1 - t.size.1 + 1 ∧ (r.rows : ℤ) = bv.2 - bv.1 - t.size.2 + 1 ∧
        ky < r.cols ∧ kx < r.rows ∧ r.cu.length = r.cols ∧ r.cv.length = r.rows ∧
        (∀ (i : Nat) (c : ℚ), r.cu[i]? = some c → c = uv0.1 + ((bu.1 + i : ℚ) - x0)) ∧
        (∀ (j : Nat) (c : ℚ), r.cv[j]? = some c → c = uv0.2 + ((bv.1 + j : ℚ) - y0))) := by
  set us := ps.map Prod.fst with hus
  set vs := ps.map Prod.snd with hvs
  set bu := searchAxis (minOf p.1 us) (maxOf p.1 us) t.size.1 ky with hbu
  set bv := searchAxis (minOf p.2 vs) (maxOf p.2 vs) t.size.2 kx with hbv
  obtain ⟨mu1, mu2⟩ := foldl_min_le us p.1
  obtain ⟨Mu1, Mu2⟩ := le_foldl_max us p.1
  obtain ⟨mv1, mv2⟩ := foldl_min_le vs p.2
  obtain ⟨Mv1, Mv2⟩ := le_foldl_max vs p.2
  obtain ⟨au, bu', wu⟩ := searchAxis_spec (minOf p.1 us) (maxOf p.1 us) t.size.1 ky (le_trans mu1 Mu1)
  obtain ⟨av, bv', wv⟩ := searchAxis_spec (minOf p.2 vs) (maxOf p.2 vs) t.size.2 kx (le_trans mv1 Mv1)
  rw [← hbu] at au bu' wu
  rw [← hbv] at av bv' wv
  have hall : ∀ q ∈ p :: ps, (bu.1 : ℚ) ≤ q.1 - t.size.1 / 2 ∧ q.1 + t.size.1 / 2 ≤ (bu.2 : ℚ) ∧
      (bv.1 : ℚ) ≤ q.2 - t.size.2 / 2 ∧ q.2 + t.size.2 / 2 ≤ (bv.2 : ℚ) := by
    intro q hq
    have hu : minOf p.1 us ≤ q.1 ∧ q.1 ≤ maxOf p.1 us := by
      rcases List.mem_cons.1 hq with rfl | h
      · exact ⟨mu1, Mu1⟩
      · exact ⟨mu2 _ (List.mem_map.2 ⟨q, h, rfl⟩), Mu2 _ (List.mem_map.2 ⟨q, h, rfl⟩)⟩
    have hv : minOf p.2 vs ≤ q.2 ∧ q.2 ≤ maxOf p.2 vs := by
      rcases List.mem_cons.1 hq with rfl | h
      · exact ⟨mv1, Mv1⟩
      · exact ⟨mv2 _ (List.mem_map.2 ⟨q, h, rfl⟩), Mv2 _ (List.mem_map.2 ⟨q, h, rfl⟩)⟩
    exact ⟨by linarith [hu.1], by linarith [hu.2], by linarith [hv.1], by linarith [hv.2]⟩
  have hcond : (0 ≤ bu.1 ∧ bu.1 ≤ nx ∧ 0 ≤ bv.1 ∧ bv.1 ≤ ny ∧ 0 ≤ bu.2 ∧ bu.2 ≤ nx ∧ 0 ≤ bv.2 ∧ bv.2 ≤ ny) ↔
      (0 ≤ bu.1 ∧ bu.2 ≤ nx ∧ 0 ≤ bv.1 ∧ bv.2 ≤ ny) := by omega
  have hq1 : ((x1 : ℚ) - x0) = t.size.1 := by
    have : ((x1 - x0 : ℤ) : ℚ) = ((t.size.1 : ℤ) : ℚ) := by rw [hpx.1]
    push_cast at this; exact this
  have hq2 : ((y1 : ℚ) - y0) = t.size.2 := by
    have : ((y1 - y0 : ℤ) : ℚ) = ((t.size.2 : ℤ) : ℚ) := by rw [hpy.1]
    push_cast at this; exact this
  have hin : ∀ q ∈ p :: ps, (sseAxis bu t.size.1 t.duv.1).1 ≤ q.1 ∧ (sseAxis bv t.size.2 t.duv.2).1 ≤ q.2 ∧
      q.1 ≤ (sseAxis bu t.size.1 t.duv.1).2 ∧ q.2 ≤ (sseAxis bv t.size.2 t.duv.2).2 := by
    intro q hq
    obtain ⟨h1, h2, h3, h4⟩ := hall q hq
    obtain ⟨-, p1, p2⟩ := hpx
    obtain ⟨-, p3, p4⟩ := hpy
    rw [hd]
    simp only [sseAxis]
    exact ⟨by linarith, by linarith, by linarith, by linarith⟩
  obtain ⟨lu, cu⟩ := cellCoords_spec bu t.size.1 ky t.duv.1 wu
  obtain ⟨lv, cv⟩ := cellCoords_spec bv t.size.2 kx t.duv.2 wv
  have hplan : plan nx ny t kx ky p ps =
      if (0 ≤ bu.1 ∧ bu.2 ≤ nx ∧ 0 ≤ bv.1 ∧ bv.2 ≤ ny) then
        .ok (some ⟨bu, bv, (bu.2 - bu.1 - t.size.1 + 1).toNat, (bv.2 - bv.1 - t.size.2 + 1).toNat,
          cellCoords (sseAxis bu t.size.1 t.duv.1) (bu.2 - bu.1 - t.size.1 + 1).toNat,
          cellCoords (sseAxis bv t.size.2 t.duv.2) (bv.2 - bv.1 - t.size.2 + 1).toNat⟩)
      else .ok none := by
    unfold plan
    simp only [← hus, ← hvs, ← hbu, ← hbv, hcond]
    by_cases h : (0 ≤ bu.1 ∧ bu.2 ≤ nx ∧ 0 ≤ bv.1 ∧ bv.2 ≤ ny)
    · rw [if_pos h, if_neg (not_not.2 h), if_neg (not_not.2 hin), if_neg]
      rw [lu, lv]
      omega
    · rw [if_neg h, if_pos h]
  refine ⟨bu, bv, hall, ?_, ?_⟩
  · rw [hplan]
    split
    · rename_i h; simp [h]
    · rename_i h; simp [h]
  · intro h
    refine ⟨_, by rw [hplan, if_pos h], rfl, rfl, ?_, ?_, ?_, ?_, lu, lv, ?_, ?_⟩
    · simp only; omega
    · simp only; omega
    · simp only; omega
    · simp only; omega
    · intro i c hc
      rw [cu i c hc, hd]
      simp only
      linarith
    · intro i c hc
      rw [cv i c hc, hd]
      simp only
      linarith

/-- Non-vacuity: a 5 x 4 template around (10.3, 8.5) in a 30 x 20 image, and two particles in another image. -/
example : (initTemplate 30 20 (103 / 10, 17 / 2) (5, 4)).map (fun t => (t.box, t.duv, t.size)) =
    .ok ([8, 7, 13, 11], (-1 / 5, -1 / 2), (5, 4)) := by decide +kernel

example : ((plan 30 20 ⟨[8, 7, 13, 11], (-1 / 5, -1 / 2), (5, 4)⟩ 3 3 (11, 9) [(12, 10)]).map fun r =>
    r.map fun r => (r.boxU, r.boxV, r.cols, r.rows)) = .ok (some ((7, 16), (6, 13), 5, 4)) := by decide +kernel

end Glimpse.Tiles
