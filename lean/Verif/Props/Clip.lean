import Verif.Props.Boxes
import Verif.Props.Rays
import Verif.Props.BooleanSplit
import Verif.Lemmas.ExceptList

/-!
C53: `clip_polyline_box` and `intersect_edge_box`.
-/
set_option autoImplicit false
set_option linter.unusedSimpArgs false

namespace Glimpse

/-- Spec: the point at fraction `t` of the segment from `a` to `b`. -/
def lerp (a b : List ℚ) (t : ℚ) : List ℚ := List.zipWith (fun x y => x + t * (y - x)) a b

/-- Spec: the true runs with what precedes and follows them on the line: `(before, run, after)`. -/
def trueRuns : List (List ℚ) → List (Bool × List (List ℚ)) →
    List (List (List ℚ) × List (List ℚ) × List (List ℚ))
  | _, [] => []
  | before, (b, r) :: rs =>
    (if b then [(before, r, (rs.map (·.2)).flatten)] else []) ++ trueRuns (before ++ r) rs

/-- Spec: `piece` is the clipped version of the run `run` between `before` and `after`: the run itself, extended
backward to the point where the line enters the box and forward to the point where it leaves it. The forward
extension is only claimed when the line, prolonged backward beyond the run's last vertex, is still in the box. -/
structure IsPiece (box : List ℚ) (ctx : List (List ℚ) × List (List ℚ) × List (List ℚ))
    (piece : List (List ℚ)) : Prop where
  parts : ∃ pre post, piece = pre ++ ctx.2.1 ++ post ∧ pre.length ≤ 1 ∧ post.length ≤ 1 ∧
    (ctx.1 = [] → pre = []) ∧ (ctx.2.2 = [] → post = [])
  inBox : ∀ v ∈ piece, PointInBox v box
  enters : ∀ p s, ctx.1.getLast? = some p → ctx.2.1.head? = some s →
    ∃ t0, 0 < t0 ∧ t0 ≤ 1 ∧ piece.head? = some (lerp p s t0) ∧
      ∀ t, 0 ≤ t → t ≤ 1 → (PointInBox (lerp p s t) box ↔ t0 ≤ t)
  leaves : ∀ s n, ctx.2.1.getLast? = some s → ctx.2.2.head? = some n →
    (∃ t, t < 0 ∧ PointInBox (lerp s n t) box) →
    ∃ t1, 0 ≤ t1 ∧ t1 < 1 ∧ piece.getLast? = some (lerp s n t1) ∧
      ∀ t, 0 ≤ t → t ≤ 1 → (PointInBox (lerp s n t) box ↔ t ≤ t1)

/-! ### Helper lemmas -/

private theorem alongRay_lerp (a b : List ℚ) (t : ℚ) : alongRay a (subPt b a) t = lerp a b t := by
  induction a generalizing b with
  | nil => simp [alongRay, subPt, lerp]
  | cons x a ih =>
    cases b with
    | nil => simp [alongRay, subPt, lerp]
    | cons y b =>
      have := ih b
      simp only [alongRay, subPt, lerp] at this
      simp [alongRay, subPt, lerp, this]

private theorem lerp_length (a b : List ℚ) (t : ℚ) (h : a.length = b.length) : (lerp a b t).length = a.length := by
  simp [lerp, h]

private theorem lerp_one (a b : List ℚ) (h : a.length = b.length) : lerp a b 1 = b := by
  induction a generalizing b with
  | nil => simp [lerp]; exact List.length_eq_zero_iff.mp h.symm
  | cons x a ih =>
    match b, h with
    | y :: b, h =>
      have := ih b (by simpa using h)
      simp only [lerp] at this
      rw [lerp, List.zipWith_cons_cons, this]
      congr 1; ring

private theorem lerp_zero (a b : List ℚ) (h : a.length = b.length) : lerp a b 0 = a := by
  induction a generalizing b with
  | nil => simp [lerp]
  | cons x a ih =>
    match b, h with
    | y :: b, h =>
      have := ih b (by simpa using h)
      simp only [lerp, zero_mul, add_zero] at this
      simp [lerp, this]

private theorem axes_inBoxAt (a b lo hi : List ℚ) (h1 : a.length = b.length) (h2 : a.length = lo.length)
    (h3 : a.length = hi.length) (t : ℚ) :
    InBoxAt (axesOf a (subPt b a) lo hi) t ↔ inBounds (lerp a b t) lo hi = true := by
  induction a generalizing b lo hi with
  | nil => simp [InBoxAt, axesOf, lerp, inBounds]
  | cons x a ih =>
    match b, lo, hi, h1, h2, h3 with
    | y :: b, l :: lo, h :: hi, h1, h2, h3 =>
      have := ih b lo hi (by simpa using h1) (by simpa using h2) (by simpa using h3)
      simp only [InBoxAt, subPt, lerp, List.zipWith_cons_cons, axesOf, List.mem_cons, forall_eq_or_imp, inBounds,
        Bool.and_eq_true, decide_eq_true_iff] at this ⊢
      rw [this]

private theorem inBounds_pointInBox (p box : List ℚ) (h : box.length = 2 * p.length) :
    inBounds p (box.take (box.length / 2)) (box.drop (box.length / 2)) = true ↔ PointInBox p box := by
  obtain ⟨b, hb, hiff⟩ := in_box_iff p box h
  have h0 : box.length % 2 = 0 := by omega
  unfold inBox unravelBox at hb
  simp only [h0, ne_eq, not_true_eq_false, if_false, bind, Except.bind] at hb
  rw [if_neg (by simp; omega)] at hb
  simp only [pure, Except.pure, Except.ok.injEq] at hb
  rw [hb, hiff]

private theorem axes_cons (a d lo hi : List ℚ) (h0 : 0 < a.length) (h1 : a.length = d.length)
    (h2 : a.length = lo.length) (h3 : a.length = hi.length) :
    ∃ axs, axesOf a d lo hi = ⟨a.getD 0 0, d.getD 0 0, lo.getD 0 0, hi.getD 0 0⟩ :: axs := by
  match a, d, lo, hi, h0, h1, h2, h3 with
  | x :: a, y :: d, l :: lo, h :: hi, _, _, _, _ => exact ⟨_, by simp [axesOf]; rfl⟩

private theorem axes_nonzero (a b lo hi : List ℚ) (h1 : a.length = b.length)
    (h2 : a.length = lo.length) (h3 : a.length = hi.length) (hne : a ≠ b) :
    ∃ ax ∈ axesOf a (subPt b a) lo hi, ax.d ≠ 0 := by
  induction a generalizing b lo hi with
  | nil => exact absurd (List.length_eq_zero_iff.mp h1.symm).symm hne
  | cons x a ih =>
    match b, lo, hi, h1, h2, h3 with
    | y :: b, l :: lo, h :: hi, h1, h2, h3 =>
      by_cases hxy : x = y
      · subst hxy
        obtain ⟨ax, hax, hd⟩ := ih b lo hi (by simpa using h1) (by simpa using h2) (by simpa using h3)
          (fun e => hne (by rw [e]))
        exact ⟨ax, by simp only [subPt] at hax; simp [axesOf, subPt]; exact Or.inr hax, hd⟩
      · refine ⟨⟨x, y - x, l, h⟩, by simp [axesOf, subPt], ?_⟩
        intro e; exact hxy (by simp only at e; linarith)

private theorem axes_le (a d lo hi q : List ℚ) (h : inBounds q lo hi = true) (hq : q.length = lo.length)
    (hq2 : q.length = hi.length) :
    ∀ ax ∈ axesOf a d lo hi, ax.lo ≤ ax.hi := by
  induction q generalizing a d lo hi with
  | nil =>
    have : lo = [] := List.length_eq_zero_iff.mp hq.symm
    subst this
    intro ax hax
    cases a <;> cases d <;> simp [axesOf] at hax
  | cons y q ih =>
    match lo, hi, hq, hq2 with
    | l :: lo, h' :: hi, hq, hq2 =>
      simp only [inBounds, Bool.and_eq_true, decide_eq_true_iff] at h
      intro ax hax
      match a, d, hax with
      | x :: a, z :: d, hax =>
        simp only [axesOf, List.mem_cons] at hax
        rcases hax with rfl | hax
        · simp only; linarith [h.1.1, h.1.2]
        · exact ih a d lo hi h.2 (by simpa using hq) (by simpa using hq2) ax hax

/-- The edge does not run inside a face of the first coordinate. -/
private def NoFace (box a b : List ℚ) : Prop :=
  a.getD 0 0 = b.getD 0 0 → a.getD 0 0 ≠ box.getD 0 0 ∧ a.getD 0 0 ≠ box.getD a.length 0

private theorem sub_getD (a b : List ℚ) (h0 : 0 < a.length) (h : a.length = b.length) :
    (subPt b a).getD 0 0 = b.getD 0 0 - a.getD 0 0 := by
  match a, b, h0, h with
  | x :: a, y :: b, _, _ => simp [subPt]

/-- What `intersect_edge_box` computes for an edge that meets the box. -/
private theorem edge_interval (a b box : List ℚ) (h0 : 0 < a.length) (h1 : a.length = b.length)
    (h2 : box.length = 2 * a.length) (hne : a ≠ b) (hf : NoFace box a b)
    (hin : ∃ t, PointInBox (lerp a b t) box) :
    ∃ p q, p ≤ q ∧ (∀ t, PointInBox (lerp a b t) box ↔ p ≤ t ∧ t ≤ q) ∧
      edgeBox a (subPt b a) (box.take (box.length / 2)) (box.drop (box.length / 2)) =
        (let m := if p < 0 then (if q < 0 then none else some q) else some p
         m.bind fun t => if 0 < t ∧ t < 1 then some t else none) := by
  set lo := box.take (box.length / 2) with hlo
  set hi := box.drop (box.length / 2) with hhi
  have l1 : a.length = lo.length := by simp [hlo]; omega
  have l2 : a.length = hi.length := by simp [hhi]; omega
  have ld : a.length = (subPt b a).length := by simp [subPt]; omega
  have conv : ∀ t, InBoxAt (axesOf a (subPt b a) lo hi) t ↔ PointInBox (lerp a b t) box := by
    intro t
    rw [axes_inBoxAt a b lo hi h1 l1 l2, hlo, hhi, inBounds_pointInBox]
    rw [lerp_length _ _ _ h1]; exact h2
  obtain ⟨axs, hax⟩ := axes_cons a (subPt b a) lo hi h0 ld l1 l2
  obtain ⟨t, ht⟩ := hin
  have hle : ∀ ax ∈ axesOf a (subPt b a) lo hi, ax.lo ≤ ax.hi := by
    have hb : inBounds (lerp a b t) lo hi = true := by
      rw [hlo, hhi, inBounds_pointInBox _ _ (by rw [lerp_length _ _ _ h1]; exact h2)]; exact ht
    exact axes_le _ _ _ _ _ hb (by rw [lerp_length _ _ _ h1]; exact l1) (by rw [lerp_length _ _ _ h1]; exact l2)
  have hd := axes_nonzero a b lo hi h1 l1 l2 hne
  have ht' := (conv t).mpr ht
  have e1 : lo.getD 0 0 = box.getD 0 0 := by
    rw [hlo]; simp [List.getD_eq_getElem?_getD, List.getElem?_take]
    rw [if_pos (by omega)]
  have e2 : hi.getD 0 0 = box.getD a.length 0 := by
    rw [hhi]; simp [List.getD_eq_getElem?_getD, List.getElem?_drop]
    have : box.length / 2 = a.length := by omega
    rw [this]
  rw [hax] at hle hd ht'
  obtain ⟨p, q, hpq, hiff, hr⟩ := ray_box_interval _ axs hle hd (by
    simp only
    rw [sub_getD a b h0 h1, e1, e2]
    intro hz
    exact hf (by linarith)) ⟨t, ht'⟩
  refine ⟨p, q, hpq, fun t => by rw [← conv, hax, hiff], ?_⟩
  have hfs : ∀ x : ℚ, XF.fin x = some (((x : WithTop ℚ) : WithBot (WithTop ℚ))) := fun _ => rfl
  unfold edgeBox
  rw [hax, hr]
  by_cases hp : p < 0
  · by_cases hq : q < 0
    · simp only [hp, hq, if_true, nanmin2, XF.nan, Option.bind_none]
    · simp only [hp, hq, if_true, if_false, nanmin2, XF.nan, XF.fin, Option.bind_some]
  · have hq : ¬ q < 0 := by linarith
    simp only [hp, hq, if_false, nanmin2, XF.fin, Option.bind_some]
    have : min (((p : WithTop ℚ)) : WithBot (WithTop ℚ)) ((q : WithTop ℚ) : WithBot (WithTop ℚ)) = ((p : WithTop ℚ) : WithBot (WithTop ℚ)) := by
      apply min_eq_left; simpa using hpq
    rw [this]

/-- C53 (`intersect_edge_box`, entering). For an edge from a point outside the box to a point inside that does not
run inside an x-face, the in-box part of the edge is the parameter interval `[t0, 1]`, and the call returns `t0`, or
`None` when `t0 = 1` (only the end point is in the box). -/
theorem edge_box_enters (a b box : List ℚ) (h1 : a.length = b.length)
    (h2 : box.length = 2 * a.length) (ha : ¬ PointInBox a box) (hb : PointInBox b box)
    (hf : a.getD 0 0 = b.getD 0 0 → a.getD 0 0 ≠ box.getD 0 0 ∧ a.getD 0 0 ≠ box.getD a.length 0) :
    ∃ t0, 0 < t0 ∧ t0 ≤ 1 ∧ (∀ t, 0 ≤ t → t ≤ 1 → (PointInBox (lerp a b t) box ↔ t0 ≤ t)) ∧
      edgeBox a (subPt b a) (box.take (box.length / 2)) (box.drop (box.length / 2)) =
        if t0 < 1 then some t0 else none := by
  have hne : a ≠ b := by rintro rfl; exact ha hb
  have h0 : 0 < a.length := by
    rcases Nat.eq_zero_or_pos a.length with h | h
    · exfalso; apply ha
      exact ⟨h2, fun i hi => by omega⟩
    · exact h
  obtain ⟨p, q, hpq, hiff, he⟩ := edge_interval a b box h0 h1 h2 hne hf ⟨1, by rw [lerp_one _ _ h1]; exact hb⟩
  have i1 := (hiff 1).mp (by rw [lerp_one _ _ h1]; exact hb)
  have i0 : ¬ (p ≤ 0 ∧ 0 ≤ q) := by rw [← hiff 0, lerp_zero _ _ h1]; exact ha
  have hp : 0 < p := by
    by_contra h; exact i0 ⟨not_lt.mp h, by linarith [i1.2]⟩
  refine ⟨p, hp, i1.1, fun t t0 t1 => ?_, ?_⟩
  · rw [hiff]; exact ⟨fun h => h.1, fun h => ⟨h, by linarith [i1.2]⟩⟩
  · rw [he, if_neg (by linarith)]
    simp [hp]

/-- C53 (`intersect_edge_box`, leaving). For an edge from a point inside the box to a point outside that does not
run inside an x-face, the in-box part of the edge is `[0, t1]`; the call returns `t1`, or `None` when `t1 = 0` --
provided the line prolonged backward beyond the start point is still in the box; otherwise it returns `None`. -/
theorem edge_box_leaves (a b box : List ℚ) (h1 : a.length = b.length)
    (h2 : box.length = 2 * a.length) (ha : PointInBox a box) (hb : ¬ PointInBox b box)
    (hf : a.getD 0 0 = b.getD 0 0 → a.getD 0 0 ≠ box.getD 0 0 ∧ a.getD 0 0 ≠ box.getD a.length 0) :
    ∃ t1, 0 ≤ t1 ∧ t1 < 1 ∧ (∀ t, 0 ≤ t → t ≤ 1 → (PointInBox (lerp a b t) box ↔ t ≤ t1)) ∧
      ((∃ t, t < 0 ∧ PointInBox (lerp a b t) box) →
        edgeBox a (subPt b a) (box.take (box.length / 2)) (box.drop (box.length / 2)) =
          if 0 < t1 then some t1 else none) ∧
      ((¬ ∃ t, t < 0 ∧ PointInBox (lerp a b t) box) →
        edgeBox a (subPt b a) (box.take (box.length / 2)) (box.drop (box.length / 2)) = none) := by
  have hne : a ≠ b := by rintro rfl; exact hb ha
  have h0 : 0 < a.length := by
    rcases Nat.eq_zero_or_pos a.length with h | h
    · exfalso; apply hb
      exact ⟨by omega, fun i hi => by omega⟩
    · exact h
  obtain ⟨p, q, hpq, hiff, he⟩ := edge_interval a b box h0 h1 h2 hne hf ⟨0, by rw [lerp_zero _ _ h1]; exact ha⟩
  have i0 := (hiff 0).mp (by rw [lerp_zero _ _ h1]; exact ha)
  have i1 : ¬ (p ≤ 1 ∧ 1 ≤ q) := by rw [← hiff 1, lerp_one _ _ h1]; exact hb
  have hq : q < 1 := by
    by_contra h; exact i1 ⟨by linarith [i0.1], not_lt.mp h⟩
  refine ⟨q, i0.2, hq, fun t t0 t1 => ?_, ?_, ?_⟩
  · rw [hiff]; exact ⟨fun h => h.2, fun h => ⟨by linarith [i0.1], h⟩⟩
  · rintro ⟨t, ht, hin⟩
    have := (hiff t).mp hin
    rw [he, if_pos (by linarith), if_neg (by linarith [i0.2])]
    simp [hq]
  · intro hno
    have hp : p = 0 := by
      by_contra hp
      have : p < 0 := lt_of_le_of_ne i0.1 hp
      exact hno ⟨p, this, (hiff p).mpr ⟨le_refl _, hpq⟩⟩
    rw [he, hp]
    simp

private theorem forall₂_left {α β : Type} {R : α → β → Prop} {l : List α} {m : List β} (h : List.Forall₂ R l m)
    (x : α) (hx : x ∈ l) : ∃ y ∈ m, R x y := by
  induction h with
  | nil => simp at hx
  | cons hab _ ih =>
    rcases List.mem_cons.mp hx with rfl | hx
    · exact ⟨_, List.mem_cons_self, hab⟩
    · obtain ⟨y, hy, h⟩ := ih hx
      exact ⟨y, List.mem_cons_of_mem _ hy, h⟩

/-- One piece. -/
private theorem clipSegment_isPiece (box : List ℚ) (n : Nat) (hbox : box.length = 2 * n)
    (before run after : List (List ℚ))
    (hlen : ∀ v ∈ before ++ run ++ after, v.length = n) (hrun : ∀ v ∈ run, PointInBox v box) (hne : run ≠ [])
    (hbef : ∀ p, before.getLast? = some p → ¬ PointInBox p box)
    (haft : ∀ p, after.head? = some p → ¬ PointInBox p box)
    (hface : ∀ a b, [a, b] <:+: before ++ run ++ after → a.getD 0 0 = b.getD 0 0 →
      a.getD 0 0 ≠ box.getD 0 0 ∧ a.getD 0 0 ≠ box.getD a.length 0) :
    IsPiece box (before, run, after)
      (clipSegment before.getLast? run after.head? (box.take (box.length / 2)) (box.drop (box.length / 2))) := by
  obtain ⟨s, hs⟩ : ∃ s, run.head? = some s := by cases run <;> simp at hne ⊢
  obtain ⟨e, he⟩ : ∃ e, run.getLast? = some e := by
    exact ⟨run.getLast hne, List.getLast?_eq_some_getLast hne⟩
  have hsm : s ∈ run := List.mem_of_head? hs
  have hem : e ∈ run := List.mem_of_getLast? he
  have hsl : s.length = n := hlen s (by simp [hsm])
  have hel : e.length = n := hlen e (by simp [hem])
  set lo := box.take (box.length / 2) with hlo
  set hi := box.drop (box.length / 2) with hhi
  -- the entrance
  obtain ⟨pre, hpre, hpre1, hpre0, hpreIn, hent⟩ : ∃ pre : List (List ℚ),
      clipEdge before.getLast? run.head? lo hi = pre ∧ pre.length ≤ 1 ∧ (before = [] → pre = []) ∧ (∀ v ∈ pre, PointInBox v box) ∧
      ∀ p, before.getLast? = some p → ∃ t0, 0 < t0 ∧ t0 ≤ 1 ∧ (pre ++ run).head? = some (lerp p s t0) ∧
        ∀ t, 0 ≤ t → t ≤ 1 → (PointInBox (lerp p s t) box ↔ t0 ≤ t) := by
    refine ⟨_, rfl, ?_⟩
    cases hb : before.getLast? with
    | none => simp [clipEdge]
    | some p =>
      have hpm : p ∈ before := List.mem_of_getLast? hb
      have hpl : p.length = n := hlen p (by simp [hpm])
      have hcons : [p, s] <:+: before ++ run ++ after := by
        obtain ⟨b0, rfl⟩ : ∃ b0, before = b0 ++ [p] := by
          have hbne : before ≠ [] := by rintro rfl; simp at hb
          refine ⟨before.dropLast, ?_⟩
          rw [List.getLast?_eq_some_getLast hbne, Option.some_inj] at hb
          rw [← hb, List.dropLast_append_getLast]
        obtain ⟨r0, rfl⟩ : ∃ r0, run = s :: r0 := by
          cases run with
          | nil => simp at hs
          | cons x r0 => simp at hs; exact ⟨r0, by rw [hs]⟩
        exact ⟨b0, r0 ++ after, by simp⟩
      obtain ⟨t0, h1, h2, h3, h4⟩ := edge_box_enters p s box (by omega) (by omega) (hbef p hb) (hrun s hsm)
        (hface p s hcons)
      simp only [hs, clipEdge]
      rw [h4]
      by_cases ht : t0 < 1
      · simp only [ht, if_true, alongRay_lerp]
        refine ⟨by simp, ?_, ?_, ?_⟩
        · rintro rfl; simp at hb
        · intro v hv
          rw [List.mem_singleton] at hv; subst hv
          exact (h3 t0 h1.le h2).mpr (le_refl _)
        · intro p' hp'
          injection hp' with hp'; subst hp'
          exact ⟨t0, h1, h2, by simp, h3⟩
      · simp only [ht, if_false]
        refine ⟨by simp, by simp, by simp, ?_⟩
        intro p' hp'
        injection hp' with hp'; subst hp'
        have : t0 = 1 := le_antisymm h2 (not_lt.mp ht)
        subst this
        exact ⟨1, h1, h2, by simp [hs, lerp_one p s (by omega)], h3⟩
  -- the exit
  obtain ⟨post, hpost, hpost1, hpost0, hpostIn, hexit⟩ : ∃ post : List (List ℚ),
      clipEdge run.getLast? after.head? lo hi = post ∧ post.length ≤ 1 ∧ (after = [] → post = []) ∧ (∀ v ∈ post, PointInBox v box) ∧
      ∀ q, after.head? = some q → (∃ t, t < 0 ∧ PointInBox (lerp e q t) box) →
        ∃ t1, 0 ≤ t1 ∧ t1 < 1 ∧ (run ++ post).getLast? = some (lerp e q t1) ∧
        ∀ t, 0 ≤ t → t ≤ 1 → (PointInBox (lerp e q t) box ↔ t ≤ t1) := by
    refine ⟨_, rfl, ?_⟩
    cases hb : after.head? with
    | none => simp [clipEdge]
    | some q =>
      have hpm : q ∈ after := List.mem_of_head? hb
      have hpl : q.length = n := hlen q (by simp [hpm])
      have hcons : [e, q] <:+: before ++ run ++ after := by
        obtain ⟨a0, rfl⟩ : ∃ a0, after = q :: a0 := by
          cases after with
          | nil => simp at hb
          | cons x r0 => simp at hb; exact ⟨r0, by rw [hb]⟩
        obtain ⟨r0, rfl⟩ : ∃ r0, run = r0 ++ [e] := by
          refine ⟨run.dropLast, ?_⟩
          rw [List.getLast?_eq_some_getLast hne, Option.some_inj] at he
          rw [← he, List.dropLast_append_getLast]
        exact ⟨before ++ r0, a0, by simp⟩
      obtain ⟨t1, h1, h2, h3, h4, h5⟩ := edge_box_leaves e q box (by omega) (by omega) (hrun e hem) (haft q hb)
        (hface e q hcons)
      simp only [he, clipEdge]
      by_cases hback : ∃ t, t < 0 ∧ PointInBox (lerp e q t) box
      · rw [h4 hback]
        by_cases ht : 0 < t1
        · simp only [ht, if_true, alongRay_lerp]
          refine ⟨by simp, ?_, ?_, ?_⟩
          · rintro rfl; simp at hb
          · intro v hv
            rw [List.mem_singleton] at hv; subst hv
            exact (h3 t1 h1 h2.le).mpr (le_refl _)
          · intro q' hq' _
            injection hq' with hq'; subst hq'
            exact ⟨t1, h1, h2, by simp, h3⟩
        · simp only [ht, if_false]
          refine ⟨by simp, by simp, by simp, ?_⟩
          intro q' hq' _
          injection hq' with hq'; subst hq'
          have : t1 = 0 := le_antisymm (not_lt.mp ht) h1
          subst this
          exact ⟨0, h1, h2, by simp [he, lerp_zero e q (by omega)], h3⟩
      · rw [h5 hback]
        refine ⟨by simp, by simp, by simp, ?_⟩
        intro q' hq' hb'
        injection hq' with hq'; subst hq'
        exact absurd hb' hback
  have hseg : clipSegment before.getLast? run after.head? lo hi = pre ++ run ++ post := by
    unfold clipSegment
    rw [hpre, hpost]
  rw [hseg]
  refine ⟨⟨pre, post, rfl, hpre1, hpost1, hpre0, hpost0⟩, ?_, ?_, ?_⟩
  · intro v hv
    rw [List.mem_append, List.mem_append] at hv
    rcases hv with (hv | hv) | hv
    · exact hpreIn v hv
    · exact hrun v hv
    · exact hpostIn v hv
  · intro p s' hp hs'
    simp only at hp hs'
    rw [hs] at hs'; injection hs' with hs'; subst hs'
    obtain ⟨t0, a1, a2, a3, a4⟩ := hent p hp
    refine ⟨t0, a1, a2, ?_, a4⟩
    rw [List.head?_append, a3]; rfl
  · intro e' q he' hq hb'
    simp only at he' hq
    rw [he] at he'; injection he' with he'; subst he'
    obtain ⟨t1, a1, a2, a3, a4⟩ := hexit q hq hb'
    refine ⟨t1, a1, a2, ?_, a4⟩
    rw [List.append_assoc, List.getLast?_append, a3]; rfl

private theorem clipLoop_pieces (box : List ℚ) (n : Nat) (hbox : box.length = 2 * n)
    (runs : List (Bool × List (List ℚ))) (before : List (List ℚ)) (inside : Bool)
    (hhead : ∀ r, runs.head? = some r → r.1 = inside)
    (hne : ∀ r ∈ runs, r.2 ≠ []) (halt : runs.IsChain (fun r s => r.1 ≠ s.1))
    (hmem : ∀ r ∈ runs, ∀ v ∈ r.2, (PointInBox v box ↔ r.1 = true))
    (hbef : inside = true → ∀ p, before.getLast? = some p → ¬ PointInBox p box)
    (hlen : ∀ v ∈ before ++ (runs.map (·.2)).flatten, v.length = n)
    (hface : ∀ a b, [a, b] <:+: before ++ (runs.map (·.2)).flatten → a.getD 0 0 = b.getD 0 0 →
      a.getD 0 0 ≠ box.getD 0 0 ∧ a.getD 0 0 ≠ box.getD a.length 0) :
    List.Forall₂ (IsPiece box) (trueRuns before runs)
      (clipLoop (box.take (box.length / 2)) (box.drop (box.length / 2)) inside before.getLast? (runs.map (·.2))) := by
  induction runs generalizing before inside with
  | nil => simp [trueRuns, clipLoop]
  | cons r runs ih =>
    obtain ⟨b, r⟩ := r
    have hb : b = inside := hhead (b, r) (by simp)
    subst hb
    have hrne : r ≠ [] := hne (b, r) List.mem_cons_self
    have hlast : (before ++ r).getLast? = r.getLast? := by
      rw [List.getLast?_append, List.getLast?_eq_some_getLast hrne]; rfl
    have ih' := ih (before ++ r) (!b) (by
        intro s hs
        cases runs with
        | nil => simp at hs
        | cons s' runs =>
          simp at hs; subst hs
          have := (List.isChain_cons_cons.mp halt).1
          simp only at this
          revert this; cases b <;> cases s'.1 <;> simp)
      (fun s hs => hne s (List.mem_cons_of_mem _ hs)) halt.tail
      (fun s hs => hmem s (List.mem_cons_of_mem _ hs))
      (by
        intro hb p hp
        rw [hlast] at hp
        have := hmem (b, r) List.mem_cons_self p (List.mem_of_getLast? hp)
        simp only at this
        rw [this]; cases b <;> simp at hb ⊢)
      (by rw [List.append_assoc]; exact hlen)
      (by rw [List.append_assoc]; exact hface)
    rw [hlast] at ih'
    simp only [trueRuns, List.map_cons, clipLoop]
    cases b with
    | false => simpa using ih'
    | true =>
      simp only [if_true, List.singleton_append]
      refine List.Forall₂.cons ?_ ih'
      have hnext : (runs.map (·.2)).head?.bind List.head? = (runs.map (·.2)).flatten.head? := by
        cases runs with
        | nil => simp
        | cons s runs =>
          have : s.2 ≠ [] := hne s (by simp)
          simp only [List.map_cons, List.head?_cons, Option.bind_some, List.flatten_cons, List.head?_append]
          cases h : s.2 with
          | nil => exact absurd h this
          | cons x l => simp
      rw [hnext]
      refine clipSegment_isPiece box n hbox before r _ ?_ ?_ hrne (hbef rfl) ?_ ?_
      · rw [List.append_assoc]; exact hlen
      · intro v hv
        exact (hmem (true, r) List.mem_cons_self v hv).mpr rfl
      · intro p hp
        cases runs with
        | nil => simp at hp
        | cons s runs =>
          have hsne : s.2 ≠ [] := hne s (by simp)
          have hs1 : s.1 = false := by
            have := (List.isChain_cons_cons.mp halt).1
            simpa using this
          have hpm : p ∈ s.2 := by
            cases h : s.2 with
            | nil => exact absurd h hsne
            | cons x l => simp [h] at hp; simp [hp]
          have := hmem s (by simp) p hpm
          rw [this, hs1]; simp
      · rw [List.append_assoc]; exact hface

/-- C53. For a polyline with at least one vertex, all vertices of the box's dimension, with no edge inside an
x-face of the box: `clip_polyline_box` returns exactly one piece per maximal run of in-box vertices, in order;
every vertex of a piece is in the box, and the piece is the run extended backward to the point where its incoming
edge enters the box and forward to where its outgoing edge leaves it (see `IsPiece`). -/
theorem clip_polyline_pieces_partial (line : List (List ℚ)) (box : List ℚ) (n : Nat) (hne : line ≠ [])
    (hbox : box.length = 2 * n) (hlen : ∀ v ∈ line, v.length = n)
    (hface : ∀ a b, [a, b] <:+: line → a.getD 0 0 = b.getD 0 0 →
      a.getD 0 0 ≠ box.getD 0 0 ∧ a.getD 0 0 ≠ box.getD n 0) :
    ∃ mask runs pieces, clipPolyline line box = .ok pieces ∧
      List.Forall₂ (fun v b => b = true ↔ PointInBox v box) line mask ∧ IsRuns line mask runs ∧
      List.Forall₂ (IsPiece box) (trueRuns [] runs) pieces := by
  -- the mask
  obtain ⟨mask, hm, hmask⟩ : ∃ mask, line.mapM (fun p => inBox p box) = .ok mask ∧
      List.Forall₂ (fun v b => b = true ↔ PointInBox v box) line mask := by
    clear hne hface
    induction line with
    | nil => exact ⟨[], rfl, List.Forall₂.nil⟩
    | cons v line ih =>
      obtain ⟨mask, h1, h2⟩ := ih (fun w hw => hlen w (List.mem_cons_of_mem _ hw))
      obtain ⟨b, hb, hiff⟩ := in_box_iff v box (by rw [hlen v List.mem_cons_self]; exact hbox)
      refine ⟨b :: mask, ?_, List.Forall₂.cons hiff h2⟩
      rw [List.mapM_cons, hb, h1]; rfl
  have hml : line.length = mask.length := hmask.length_eq
  have hmne : mask ≠ [] := by
    rintro rfl; simp at hml; exact hne hml
  obtain ⟨runs, hruns, hsplit⟩ := boolean_split_runs line mask hml hmne .all
  obtain ⟨b, hb⟩ : ∃ b, mask.head? = some b := by cases mask <;> simp at hmne ⊢
  refine ⟨mask, runs, clipLoop (box.take (box.length / 2)) (box.drop (box.length / 2)) b none (runs.map (·.2)), ?_,
    hmask, hruns, ?_⟩
  · unfold clipPolyline unravelBox
    have h0 : box.length % 2 = 0 := by omega
    simp only [h0, ne_eq, not_true_eq_false, if_false, bind, Except.bind, hm, hsplit, hb, keepPieces]
    rfl
  · have := clipLoop_pieces box n hbox runs [] b ?_ hruns.nonempty hruns.alternate ?_ (by simp)
      (by simpa [hruns.rows] using hlen)
      (by
        intro a c hac
        rw [List.nil_append, hruns.rows] at hac
        have : a.length = n := hlen a (hac.subset (by simp))
        rw [this]; exact hface a c hac)
    · simpa using this
    · intro r hr
      have hmk := hruns.mask
      cases runs with
      | nil => simp at hr
      | cons s rs =>
        simp at hr; subst hr
        have hsne := hruns.nonempty s List.mem_cons_self
        rw [← hmk] at hb
        cases h : s.2 with
        | nil => exact absurd h hsne
        | cons x l => simpa [h, List.replicate_succ] using hb
    · -- mask values on the runs
      have hr := hruns.rows
      have hk := hruns.mask
      rw [← hr, ← hk] at hmask
      clear hr hk hsplit hm hml hmne hb hruns hne hface hlen b
      induction runs with
      | nil => simp
      | cons s rs ih =>
        simp only [List.map_cons, List.flatten_cons] at hmask
        have hsp : List.Forall₂ (fun v b => b = true ↔ PointInBox v box) s.2 (List.replicate s.2.length s.1) ∧
            List.Forall₂ (fun v b => b = true ↔ PointInBox v box) (rs.map (·.2)).flatten
              (rs.map (fun r => List.replicate r.2.length r.1)).flatten := by
          have h1 := List.forall₂_take_append _ _ _ hmask
          have h2 := List.forall₂_drop_append _ _ _ hmask
          simpa using And.intro h1 h2
        intro r hr v hv
        rcases List.mem_cons.mp hr with rfl | hr
        · obtain ⟨b, hb, hiff⟩ := forall₂_left hsp.1 v hv
          rw [List.eq_of_mem_replicate hb] at hiff
          exact hiff.symm
        · exact ih hsp.2 r hr v hv

/-- C53. An empty polyline raises `IndexError`. -/
theorem clip_polyline_empty (box : List ℚ) (n : Nat) (hbox : box.length = 2 * n) : clipPolyline [] box = .error .indexError := by
  unfold clipPolyline unravelBox
  have h0 : box.length % 2 = 0 := by omega
  simp only [h0, ne_eq, not_true_eq_false, if_false]
  rfl

/-- C53 (defect). A polyline whose last in-box vertex is where its line touches the box boundary loses its exit: the
segment from `(0,1)` to `(10,1)` runs through the box `[0,2] x [0,2]` up to `(2,1)`, but only `(0,1)` is returned. -/
theorem clip_polyline_exit_violated :
    clipPolyline [[0, 1], [10, 1]] [0, 0, 2, 2] = .ok [[[0, 1]]] ∧
      (∀ t, 0 ≤ t → t ≤ 1 → (PointInBox (lerp [0, 1] [10, 1] t) [0, 0, 2, 2] ↔ t ≤ 1 / 5)) := by
  refine ⟨by decide +kernel, fun t h0 h1 => ?_⟩
  constructor
  · rintro ⟨_, h⟩
    have := (h 0 (by simp [lerp])).2
    simp [lerp] at this
    linarith
  · intro h
    refine ⟨by simp [lerp], fun i hi => ?_⟩
    simp [lerp] at hi
    match i, hi with
    | 0, _ => simp [lerp]; constructor <;> linarith
    | 1, _ => simp [lerp]

/-- C53 (defect). An edge that runs along an x-face of the box loses its entrance: `(0,-1)` to `(0,1)` enters the box
`[0,2] x [0,2]` at `(0,0)`, which is not returned; the mirrored edge along a y-face is handled. -/
theorem clip_polyline_face_violated :
    clipPolyline [[0, -1], [0, 1]] [0, 0, 2, 2] = .ok [[[0, 1]]] ∧
    clipPolyline [[-1, 0], [1, 0]] [0, 0, 2, 2] = .ok [[[0, 0], [1, 0]]] := by decide +kernel

/-- Non-vacuity: the docstring's example meets the hypotheses of `clip_polyline_pieces_partial`. -/
example : clipPolyline [[0, 0], [1, 1], [3, 3]] [1/2, 1/2, 3/2, 3/2] = .ok [[[1/2, 1/2], [1, 1], [3/2, 3/2]]] ∧
    (∀ v ∈ ([[0, 0], [1, 1], [3, 3]] : List (List ℚ)), v.length = 2) ∧
    (∃ t, t < 0 ∧ PointInBox (lerp [1, 1] [3, 3] t) [1/2, 1/2, 3/2, 3/2]) := by
  refine ⟨by decide +kernel, by decide, -1/8, by norm_num, by simp [lerp], fun i hi => ?_⟩
  simp [lerp] at hi
  match i, hi with
  | 0, _ => norm_num [lerp]
  | 1, _ => norm_num [lerp]
example : ∀ a b, [a, b] <:+: ([[0, 0], [1, 1], [3, 3]] : List (List ℚ)) → a.getD 0 0 ≠ b.getD 0 0 := by
  rintro a b ⟨s, t, h⟩
  match s, h with
  | [], h => simp at h; obtain ⟨rfl, rfl, _⟩ := h; norm_num
  | [x], h => simp at h; obtain ⟨_, rfl, rfl, _⟩ := h; norm_num
  | x :: y :: s, h => simp at h; obtain ⟨_, _, h⟩ := h; have := congrArg List.length h; simp at this; omega

end Glimpse
