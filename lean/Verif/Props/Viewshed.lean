import Verif.Model.Terrain
import Verif.Props.Grid
import Mathlib.Tactic.Linarith
import Mathlib.Tactic.FieldSimp
import Mathlib.Tactic.Ring
import Mathlib.Tactic.NormNum
import Mathlib.Tactic.Push
import Mathlib.Tactic.IntervalCases

/-!
C83: `Raster.viewshed`.
-/
set_option autoImplicit false
set_option linter.unusedSimpArgs false
set_option linter.unusedSectionVars false

namespace Glimpse.Terrain

/-! ### Specification -/

/-- What is used of `np.interp` with a period: an interpolated value is between two of the values, and it is missing only
if one of these is. -/
structure Interpolates (interp : InterpFn) : Prop where
  low : ∀ prev h m, interp prev h = some m → ∃ p ∈ prev, ∃ x, p.2 = some x ∧ x ≤ m
  high : ∀ prev h m, interp prev h = some m → ∃ p ∈ prev, ∃ x, p.2 = some x ∧ m ≤ x
  missing : ∀ prev h, prev ≠ [] → interp prev h = none → ∃ p ∈ prev, p.2 = none

/-- Horizontal distance from the origin to the centre of cell number `i` (row-major). -/
noncomputable def distanceTo (g : Grid) (origin : ℚ × ℚ × ℚ) (i : Nat) : ℝ :=
  Real.sqrt ((((cellCenter g.ax.lo g.ax.hi g.ax.n ((i % g.ax.n : ℕ) : ℤ) - origin.1) ^ 2 +
    (cellCenter g.ay.lo g.ay.hi g.ay.n ((i / g.ax.n : ℕ) : ℤ) - origin.2.1) ^ 2 : ℚ)) : ℝ)

/-- Distance in cell widths, rounded: the number of the ring of a cell. -/
noncomputable def ringOf (g : Grid) (origin : ℚ × ℚ × ℚ) (i : Nat) : ℤ := ⌊distanceTo g origin i / |(g.ax.d : ℝ)| + 1 / 2⌋

/-- Tangent of the elevation angle of cell number `i` with height `z` (no correction). -/
noncomputable def slopeTo (g : Grid) (origin : ℚ × ℚ × ℚ) (i : Nat) (z : ℚ) : ℝ := ((z - origin.2.2 : ℚ) : ℝ) / distanceTo g origin i

/-! ### Rings -/

private theorem zip_self_map {α β γ : Type} (f : α → β → γ) (h : α → β) (l : List α) :
    List.zipWith f l (l.map h) = l.map fun a => f a (h a) := by
  rw [List.zipWith_map_right, List.zipWith_self]

private theorem later_profile (interp : InterpFn) (prev : Profile) (hn : Bool) (ring : List VCell) :
    (laterRing interp prev hn ring).2.1 = ring.map fun c =>
      (c.heading, if visible hn c.elev (interp prev c.heading) then c.elev else interp prev c.heading) := by
  unfold laterRing
  simp only []
  rw [zip_self_map]
  have : (ring.map fun c => interp prev c.heading).zip (ring.map fun a => visible hn a.elev (interp prev a.heading)) =
      ring.map fun c => (interp prev c.heading, visible hn c.elev (interp prev c.heading)) := by
    rw [List.zip_map']
  rw [this, zip_self_map]

private theorem later_visible (interp : InterpFn) (prev : Profile) (hn : Bool) (ring : List VCell) :
    (laterRing interp prev hn ring).1 = (ring.filter fun c => visible hn c.elev (interp prev c.heading)).map (·.idx) := by
  unfold laterRing
  simp only []
  rw [zip_self_map]
  induction ring with
  | nil => rfl
  | cons c ring ih =>
    simp only [List.map_cons, List.zip_cons_cons, List.filter_cons]
    cases visible hn c.elev (interp prev c.heading) <;> simp [ih]

private theorem count_le_eq {α : Type} (p q : α → Bool) (l : List α)
    (h : (l.filter p).length = (l.filter fun a => p a && q a).length) : ∀ a ∈ l, p a = true → q a = true := by
  induction l with
  | nil => intro a ha; cases ha
  | cons b l ih =>
    have hle : (l.filter fun a => p a && q a).length ≤ (l.filter p).length := by
      rw [← List.countP_eq_length_filter, ← List.countP_eq_length_filter]
      exact List.countP_mono_left fun a _ ha => by simp at ha; exact ha.1
    simp only [List.filter_cons] at h
    intro a ha hp
    cases hpb : p b <;> cases hqb : q b <;> simp only [hpb, hqb, Bool.and_true, Bool.and_false, Bool.true_and, Bool.false_and,
      Bool.false_eq_true, if_true, if_false, List.length_cons] at h
    · rcases List.mem_cons.1 ha with rfl | ha
      · rw [hpb] at hp; cases hp
      · exact ih h a ha hp
    · rcases List.mem_cons.1 ha with rfl | ha
      · rw [hpb] at hp; cases hp
      · exact ih h a ha hp
    · omega
    · rcases List.mem_cons.1 ha with rfl | ha
      · exact hqb
      · exact ih (by omega) a ha hp

/-- No ratio is missing unless the flag says so. -/
private def FlagOk (prev : Profile) (hn : Bool) : Prop := hn = false → ∀ p ∈ prev, p.2 ≠ none

private theorem first_flag (ring : List VCell) : FlagOk (firstRing ring).2.1 (firstRing ring).2.2 := by
  intro h p hp
  unfold firstRing at h hp
  simp only [List.any_eq_false] at h
  simp only [List.mem_map] at hp
  obtain ⟨c, hc, rfl⟩ := hp
  have := h c hc
  cases he : c.elev with
  | none => rw [he] at this; simp at this
  | some e => simp

private theorem later_flag (interp : InterpFn) (hi : Interpolates interp) (prev : Profile) (hne : prev ≠ []) (hn : Bool) (hf : FlagOk prev hn) (ring : List VCell) :
    FlagOk (laterRing interp prev hn ring).2.1 (laterRing interp prev hn ring).2.2 := by
  intro h p hp
  rw [later_profile] at hp
  obtain ⟨c, hc, rfl⟩ := List.mem_map.1 hp
  simp only []
  cases hn with
  | false =>
    have hm : interp prev c.heading ≠ none := fun h' => by
      obtain ⟨p, hp, hnone⟩ := hi.missing prev c.heading hne h'
      exact hf rfl p hp hnone
    split
    · rename_i hv
      unfold visible above at hv
      cases he : c.elev with
      | none => rw [he] at hv; simp at hv
      | some e => simp
    · exact hm
  | true =>
    have hflag : (laterRing interp prev true ring).2.2 =
        decide ((ring.filter fun c => (interp prev c.heading).isNone).length ≠
          (ring.filter fun c => (interp prev c.heading).isNone && c.elev.isSome).length) := by
      unfold laterRing
      simp only [if_true]
      rw [zip_self_map, List.filter_map, List.filter_map, List.length_map, List.length_map]
      rfl
    rw [hflag] at h
    simp only [ne_eq, decide_not, Bool.not_eq_eq_eq_not, Bool.not_false, decide_eq_true_eq] at h
    have hall := count_le_eq _ _ _ h c hc
    split
    · rename_i hv
      unfold visible above at hv
      cases he : c.elev with
      | none => rw [he] at hv; simp at hv
      | some e => simp
    · rename_i hv
      intro hnone
      have h1 := hall (by rw [hnone]; rfl)
      apply hv
      unfold visible
      rw [hnone, h1]; simp

private theorem later_ne (interp : InterpFn) (prev : Profile) (hn : Bool) (ring : List VCell) (h : ring ≠ []) :
    (laterRing interp prev hn ring).2.1 ≠ [] := by
  rw [later_profile]; simpa using h

/-- All ratios are less than `e`. -/
private def AllBelow (prev : Profile) (e : ℝ) : Prop := ∀ p ∈ prev, ∀ x, p.2 = some x → x < e

private theorem later_below (interp : InterpFn) (hi : Interpolates interp) (prev : Profile) (hn : Bool) (ring : List VCell) (e : ℝ)
    (hb : AllBelow prev e) (hr : ∀ c ∈ ring, ∀ x, c.elev = some x → x < e) : AllBelow (laterRing interp prev hn ring).2.1 e := by
  intro p hp x hx
  rw [later_profile] at hp
  obtain ⟨c, hc, rfl⟩ := List.mem_map.1 hp
  simp only [] at hx
  split at hx
  · exact hr c hc x hx
  · obtain ⟨q, hq, y, hy, hle⟩ := hi.high _ _ _ hx
    exact lt_of_le_of_lt hle (hb q hq y hy)

private theorem visible_of_below (interp : InterpFn) (hi : Interpolates interp) (prev : Profile) (hne : prev ≠ []) (hn : Bool) (hf : FlagOk prev hn) (e : ℝ)
    (hb : AllBelow prev e) (h : ℝ) : visible hn (some e) (interp prev h) = true := by
  unfold visible above
  cases hm : interp prev h with
  | none =>
    have : hn = true := by
      cases hn with
      | true => rfl
      | false =>
        obtain ⟨p, hp, hnone⟩ := hi.missing prev h hne hm
        exact absurd hnone (hf rfl p hp)
    simp [this]
  | some m =>
    obtain ⟨q, hq, y, hy, hle⟩ := hi.high _ _ _ hm
    have := lt_of_le_of_lt hle (hb q hq y hy)
    simp [this]

private theorem rings_visible (interp : InterpFn) (hi : Interpolates interp) (pre : List (List VCell)) (ring : List VCell) (post : List (List VCell))
    (prev : Profile) (hne : prev ≠ []) (hn : Bool) (hf : FlagOk prev hn) (c : VCell) (hc : c ∈ ring) (e : ℝ) (he : c.elev = some e) (hb : AllBelow prev e)
    (hpre : ∀ r ∈ pre, r ≠ [] ∧ ∀ c' ∈ r, ∀ x, c'.elev = some x → x < e) :
    c.idx ∈ laterRings interp prev hn (pre ++ ring :: post) := by
  induction pre generalizing prev hn with
  | nil =>
    simp only [List.nil_append, laterRings]
    apply List.mem_append_left
    rw [later_visible]
    refine List.mem_map.2 ⟨c, List.mem_filter.2 ⟨hc, ?_⟩, rfl⟩
    rw [he]; exact visible_of_below interp hi prev hne hn hf e hb _
  | cons r pre ih =>
    simp only [List.cons_append, laterRings]
    apply List.mem_append_right
    obtain ⟨h1, h2⟩ := hpre r List.mem_cons_self
    exact ih _ (later_ne interp prev hn r h1) _ (later_flag interp hi prev hne hn hf r) (later_below interp hi prev hn r e hb h2)
      fun r' hr' => hpre r' (List.mem_cons_of_mem _ hr')

/-- All ratios are at least `W`, none missing. -/
private def AllAbove (prev : Profile) (W : ℝ) : Prop := ∀ p ∈ prev, ∃ x, p.2 = some x ∧ W ≤ x

private theorem interp_above (interp : InterpFn) (hi : Interpolates interp) (prev : Profile) (hne : prev ≠ []) (W : ℝ) (ha : AllAbove prev W) (h : ℝ) :
    ∃ m, interp prev h = some m ∧ W ≤ m := by
  cases hm : interp prev h with
  | none =>
    obtain ⟨p, hp, hnone⟩ := hi.missing prev h hne hm
    obtain ⟨x, hx, -⟩ := ha p hp
    rw [hnone] at hx; cases hx
  | some m =>
    obtain ⟨q, hq, y, hy, hle⟩ := hi.low _ _ _ hm
    obtain ⟨x, hx, hw⟩ := ha q hq
    rw [hx] at hy; cases hy
    exact ⟨m, rfl, le_trans hw hle⟩

private theorem later_above (interp : InterpFn) (hi : Interpolates interp) (prev : Profile) (hne : prev ≠ []) (hn : Bool) (ring : List VCell) (W : ℝ)
    (ha : AllAbove prev W) :
    AllAbove (laterRing interp prev hn ring).2.1 W ∧ ∀ c ∈ ring, visible hn c.elev (interp prev c.heading) = true → ∃ e, c.elev = some e ∧ W < e := by
  have key : ∀ c : VCell, visible hn c.elev (interp prev c.heading) = true → ∃ e, c.elev = some e ∧ W < e := by
    intro c hv
    obtain ⟨m, hm, hw⟩ := interp_above interp hi prev hne W ha c.heading
    unfold visible above at hv
    cases he : c.elev with
    | none => rw [he] at hv; simp at hv
    | some e => rw [he, hm] at hv; simp at hv; exact ⟨e, rfl, lt_of_le_of_lt hw hv⟩
  refine ⟨fun p hp => ?_, fun c _ => key c⟩
  rw [later_profile] at hp
  obtain ⟨c, hc, rfl⟩ := List.mem_map.1 hp
  simp only []
  split
  · rename_i hv
    obtain ⟨e, he, hw⟩ := key c hv
    exact ⟨e, he, hw.le⟩
  · exact interp_above interp hi prev hne W ha c.heading

private theorem rings_after (interp : InterpFn) (hi : Interpolates interp) (rings : List (List VCell)) (hr : ∀ r ∈ rings, r ≠ []) (prev : Profile) (hne : prev ≠ [])
    (hn : Bool) (W : ℝ) (ha : AllAbove prev W) : ∀ i ∈ laterRings interp prev hn rings, ∃ r ∈ rings, ∃ c ∈ r, c.idx = i ∧ ∃ e, c.elev = some e ∧ W < e := by
  induction rings generalizing prev hn with
  | nil => intro i hi'; cases hi'
  | cons r rings ih =>
    intro i hi'
    obtain ⟨h1, h2⟩ := later_above interp hi prev hne hn r W ha
    rcases List.mem_append.1 hi' with h | h
    · rw [later_visible] at h
      obtain ⟨c, hc, rfl⟩ := List.mem_map.1 h
      obtain ⟨hc1, hc2⟩ := List.mem_filter.1 hc
      exact ⟨r, List.mem_cons_self, c, hc1, rfl, h2 c hc1 hc2⟩
    · obtain ⟨r', hr', x⟩ := ih (fun r' h => hr r' (List.mem_cons_of_mem _ h)) _ (later_ne interp prev hn r (hr r List.mem_cons_self)) _ h1 i h
      exact ⟨r', List.mem_cons_of_mem _ hr', x⟩

private theorem rings_sub (interp : InterpFn) (rings : List (List VCell)) (prev : Profile) (hn : Bool) :
    ∀ i ∈ laterRings interp prev hn rings, ∃ r ∈ rings, ∃ c ∈ r, c.idx = i ∧ c.elev ≠ none := by
  induction rings generalizing prev hn with
  | nil => intro i hi'; cases hi'
  | cons r rings ih =>
    intro i hi'
    rcases List.mem_append.1 hi' with h | h
    · rw [later_visible] at h
      obtain ⟨c, hc, rfl⟩ := List.mem_map.1 h
      obtain ⟨hc1, hc2⟩ := List.mem_filter.1 hc
      refine ⟨r, List.mem_cons_self, c, hc1, rfl, fun he => ?_⟩
      rw [he] at hc2; simp [visible, above] at hc2
    · obtain ⟨r', hr', x⟩ := ih _ _ i h
      exact ⟨r', List.mem_cons_of_mem _ hr', x⟩

/-- After a ring whose ratios are all at least `W`, all highest ratios are. -/
private theorem ring_wall (interp : InterpFn) (hi : Interpolates interp) (prev : Profile) (hne : prev ≠ []) (hn : Bool) (hf : FlagOk prev hn)
    (ring : List VCell) (W : ℝ) (hw : ∀ c ∈ ring, ∃ e, c.elev = some e ∧ W ≤ e) : AllAbove (laterRing interp prev hn ring).2.1 W := by
  intro p hp
  rw [later_profile] at hp
  obtain ⟨c, hc, rfl⟩ := List.mem_map.1 hp
  obtain ⟨e, he, hle⟩ := hw c hc
  simp only []
  split
  · exact ⟨e, he, hle⟩
  · rename_i hv
    unfold visible above at hv
    rw [he] at hv
    cases hm : interp prev c.heading with
    | none =>
      exfalso
      cases hn with
      | false =>
        obtain ⟨p, hp, hnone⟩ := hi.missing prev c.heading hne hm
        exact hf rfl p hp hnone
      | true => rw [hm] at hv; simp at hv
    | some m =>
      rw [hm] at hv
      simp only [Option.isNone_some, Bool.and_false, Bool.false_and, Bool.or_false, decide_eq_true_eq, not_lt] at hv
      exact ⟨m, rfl, le_trans hle hv⟩

private theorem rings_wall (interp : InterpFn) (hi : Interpolates interp) (pre : List (List VCell)) (ring : List VCell) (post : List (List VCell))
    (prev : Profile) (hne : prev ≠ []) (hn : Bool) (hf : FlagOk prev hn) (W : ℝ) (hw : ∀ c ∈ ring, ∃ e, c.elev = some e ∧ W ≤ e) (hring : ring ≠ [])
    (hpre : ∀ r ∈ pre, r ≠ []) (hpost : ∀ r ∈ post, r ≠ []) :
    ∀ i ∈ laterRings interp prev hn (pre ++ ring :: post), (∃ r ∈ pre ++ [ring], ∃ c ∈ r, c.idx = i) ∨
      ∃ r ∈ post, ∃ c ∈ r, c.idx = i ∧ ∃ e, c.elev = some e ∧ W < e := by
  induction pre generalizing prev hn with
  | nil =>
    intro i hi'
    simp only [List.nil_append, laterRings] at hi'
    rcases List.mem_append.1 hi' with h | h
    · left
      rw [later_visible] at h
      obtain ⟨c, hc, rfl⟩ := List.mem_map.1 h
      exact ⟨ring, by simp, c, (List.mem_filter.1 hc).1, rfl⟩
    · right
      exact rings_after interp hi post hpost _ (later_ne interp prev hn ring hring) _ W (ring_wall interp hi prev hne hn hf ring W hw) i h
  | cons r pre ih =>
    intro i hi'
    simp only [List.cons_append, laterRings] at hi'
    rcases List.mem_append.1 hi' with h | h
    · left
      rw [later_visible] at h
      obtain ⟨c, hc, rfl⟩ := List.mem_map.1 h
      exact ⟨r, by simp, c, (List.mem_filter.1 hc).1, rfl⟩
    · rcases ih _ (later_ne interp prev hn r (hpre r List.mem_cons_self)) _ (later_flag interp hi prev hne hn hf r)
        (fun r' h => hpre r' (List.mem_cons_of_mem _ h)) i h with ⟨r', hr', x⟩ | h'
      · left; exact ⟨r', by simp at hr' ⊢; tauto, x⟩
      · right; exact h'

private theorem mem_ringCells (cells : List VCell) (k : ℤ) (c : VCell) : c ∈ ringCells cells k ↔ c ∈ cells ∧ c.ring = k := by
  classical
  unfold ringCells
  rw [(List.perm_insertionSort _ _).mem_iff, List.mem_filter]
  simp

private theorem mem_ringNumbers (cells : List VCell) (k : ℤ) : k ∈ ringNumbers cells ↔ ∃ c ∈ cells, c.ring = k := by
  unfold ringNumbers
  rw [(List.perm_insertionSort _ _).mem_iff, List.mem_dedup, List.mem_map]

private theorem ringNumbers_sorted (cells : List VCell) : (ringNumbers cells).Pairwise (· < ·) := by
  unfold ringNumbers
  have h1 := List.pairwise_insertionSort (· ≤ ·) (cells.map (·.ring)).dedup
  have h2 : ((cells.map (·.ring)).dedup.insertionSort (· ≤ ·)).Nodup := (List.perm_insertionSort _ _).nodup_iff.2 (List.nodup_dedup _)
  exact (h1.and h2).imp fun h => lt_of_le_of_ne h.1 h.2

private theorem ring_ne (cells : List VCell) (k : ℤ) (h : k ∈ ringNumbers cells) : ringCells cells k ≠ [] := by
  obtain ⟨c, hc, hk⟩ := (mem_ringNumbers cells k).1 h
  intro he
  have := (mem_ringCells cells k c).2 ⟨hc, hk⟩
  rw [he] at this; cases this

private theorem first_ne (ring : List VCell) (h : ring ≠ []) : (firstRing ring).2.1 ≠ [] := by
  unfold firstRing; simpa using h

private theorem cells_visible (interp : InterpFn) (hi : Interpolates interp) (cells : List VCell) (c : VCell) (hc : c ∈ cells) (hr : c.ring ≠ 0) (e : ℝ)
    (he : c.elev = some e) (hb : ∀ c' ∈ cells, c'.ring ≠ 0 → c'.ring < c.ring → ∀ x, c'.elev = some x → x < e) : c.idx ∈ visibleCells interp cells := by
  classical
  unfold visibleCells
  rw [if_neg fun h => hr (h c hc)]
  have hmem : c.ring ∈ (ringNumbers cells).filter fun k => decide (k ≠ 0) := List.mem_filter.2 ⟨(mem_ringNumbers _ _).2 ⟨c, hc, rfl⟩, by simpa using hr⟩
  have hsort := (ringNumbers_sorted cells).filter fun k => decide (k ≠ 0)
  have hall : ∀ k ∈ (ringNumbers cells).filter (fun k => decide (k ≠ 0)), k ∈ ringNumbers cells ∧ k ≠ 0 := fun k hk => by
    obtain ⟨h1, h2⟩ := List.mem_filter.1 hk
    exact ⟨h1, by simpa using h2⟩
  generalize (ringNumbers cells).filter (fun k => decide (k ≠ 0)) = ks at *
  cases ks with
  | nil => cases hmem
  | cons k ks =>
    simp only []
    rcases List.mem_cons.1 hmem with h | h
    · apply List.mem_append_left
      unfold firstRing
      refine List.mem_map.2 ⟨c, List.mem_filter.2 ⟨(mem_ringCells _ _ _).2 ⟨hc, h⟩, by rw [he]; rfl⟩, rfl⟩
    · apply List.mem_append_right
      obtain ⟨pre, post, hsplit⟩ := List.append_of_mem h
      rw [hsplit, List.map_append, List.map_cons]
      rw [hsplit, List.pairwise_cons] at hsort
      obtain ⟨hs1, hs2⟩ := hsort
      rw [List.pairwise_append] at hs2
      have hk := hall k List.mem_cons_self
      refine rings_visible interp hi _ _ _ _ (first_ne _ (ring_ne cells k hk.1)) _ (first_flag _) c ((mem_ringCells _ _ _).2 ⟨hc, rfl⟩) e he ?_ ?_
      · intro p hp x hx
        unfold firstRing at hp
        obtain ⟨c', hc', rfl⟩ := List.mem_map.1 hp
        obtain ⟨h1, h2⟩ := (mem_ringCells _ _ _).1 hc'
        exact hb c' h1 (by rw [h2]; exact hk.2) (by rw [h2]; exact hs1 c.ring (by simp)) x hx
      · intro r hr'
        obtain ⟨j, hj, rfl⟩ := List.mem_map.1 hr'
        have hj' := hall j (by rw [hsplit]; simp [hj])
        refine ⟨ring_ne cells j hj'.1, fun c' hc' x hx => ?_⟩
        obtain ⟨h1, h2⟩ := (mem_ringCells _ _ _).1 hc'
        exact hb c' h1 (by rw [h2]; exact hj'.2) (by rw [h2]; exact hs2.2.2 j hj c.ring (by simp)) x hx

private theorem cells_sub (interp : InterpFn) (cells : List VCell) (hz : ¬ ∀ c ∈ cells, c.ring = 0) :
    ∀ i ∈ visibleCells interp cells, ∃ c ∈ cells, c.idx = i ∧ c.ring ≠ 0 ∧ c.elev ≠ none := by
  classical
  intro i hi'
  unfold visibleCells at hi'
  rw [if_neg hz] at hi'
  have hall : ∀ k ∈ (ringNumbers cells).filter (fun k => decide (k ≠ 0)), k ≠ 0 := fun k hk => by
    obtain ⟨h1, h2⟩ := List.mem_filter.1 hk
    simpa using h2
  generalize (ringNumbers cells).filter (fun k => decide (k ≠ 0)) = ks at *
  cases ks with
  | nil => cases hi'
  | cons k ks =>
    simp only [] at hi'
    rcases List.mem_append.1 hi' with h | h
    · unfold firstRing at h
      obtain ⟨c, hc, rfl⟩ := List.mem_map.1 h
      obtain ⟨h1, h2⟩ := List.mem_filter.1 hc
      obtain ⟨h3, h4⟩ := (mem_ringCells _ _ _).1 h1
      exact ⟨c, h3, rfl, by rw [h4]; exact hall k List.mem_cons_self, by intro he; rw [he] at h2; cases h2⟩
    · obtain ⟨r, hr, c, hc, rfl, he⟩ := rings_sub interp _ _ _ i h
      obtain ⟨j, hj, rfl⟩ := List.mem_map.1 hr
      obtain ⟨h3, h4⟩ := (mem_ringCells _ _ _).1 hc
      exact ⟨c, h3, rfl, by rw [h4]; exact hall j (List.mem_cons_of_mem _ hj), he⟩

private theorem cells_wall (interp : InterpFn) (hi : Interpolates interp) (cells : List VCell) (k : ℤ) (hk0 : k ≠ 0) (hk : ∃ c ∈ cells, c.ring = k) (W : ℝ)
    (hw : ∀ c ∈ cells, c.ring = k → ∃ e, c.elev = some e ∧ W ≤ e) :
    ∀ i ∈ visibleCells interp cells, ∃ c ∈ cells, c.idx = i ∧ (k < c.ring → ∃ e, c.elev = some e ∧ W < e) := by
  classical
  intro i hi'
  obtain ⟨c0, hc0, hr0⟩ := hk
  unfold visibleCells at hi'
  rw [if_neg fun h => hk0 (by rw [← hr0]; exact h c0 hc0)] at hi'
  have hmem : k ∈ (ringNumbers cells).filter fun k => decide (k ≠ 0) := List.mem_filter.2 ⟨(mem_ringNumbers _ _).2 ⟨c0, hc0, hr0⟩, by simpa using hk0⟩
  have hsort := (ringNumbers_sorted cells).filter fun k => decide (k ≠ 0)
  have hall : ∀ k ∈ (ringNumbers cells).filter (fun k => decide (k ≠ 0)), k ∈ ringNumbers cells := fun k hk => (List.mem_filter.1 hk).1
  generalize (ringNumbers cells).filter (fun k => decide (k ≠ 0)) = ks at *
  cases ks with
  | nil => cases hmem
  | cons j ks =>
    simp only [] at hi'
    have hjne := ring_ne cells j (hall j List.mem_cons_self)
    rw [List.pairwise_cons] at hsort
    rcases List.mem_append.1 hi' with h | h
    · unfold firstRing at h
      obtain ⟨c, hc, rfl⟩ := List.mem_map.1 h
      obtain ⟨h3, h4⟩ := (mem_ringCells _ _ _).1 (List.mem_filter.1 hc).1
      refine ⟨c, h3, rfl, fun hlt => ?_⟩
      exfalso
      rcases List.mem_cons.1 hmem with e | e
      · rw [h4, e] at hlt; exact lt_irrefl _ hlt
      · exact absurd (hsort.1 k e) (by rw [h4] at hlt; exact not_lt.2 hlt.le)
    · rcases List.mem_cons.1 hmem with e | e
      · have ha : AllAbove (firstRing (ringCells cells j)).2.1 W := by
          intro p hp
          unfold firstRing at hp
          obtain ⟨c, hc, rfl⟩ := List.mem_map.1 hp
          obtain ⟨h3, h4⟩ := (mem_ringCells _ _ _).1 hc
          obtain ⟨x, hx, hle⟩ := hw c h3 (by rw [h4, e])
          exact ⟨x, hx, hle⟩
        obtain ⟨r, hr, c, hc, rfl, he⟩ := rings_after interp hi (ks.map (ringCells cells)) (by
          intro r hr
          obtain ⟨j', hj', rfl⟩ := List.mem_map.1 hr
          exact ring_ne cells j' (hall j' (List.mem_cons_of_mem _ hj'))) _ (first_ne _ hjne) _ W ha i h
        obtain ⟨j', hj', rfl⟩ := List.mem_map.1 hr
        exact ⟨c, ((mem_ringCells _ _ _).1 hc).1, rfl, fun _ => he⟩
      · obtain ⟨pre, post, hsplit⟩ := List.append_of_mem e
        rw [hsplit, List.map_append, List.map_cons] at h
        have hs2 := hsort.2
        rw [hsplit, List.pairwise_append] at hs2
        have hrn : ∀ j' ∈ ks, ringCells cells j' ≠ [] := fun j' h => ring_ne cells j' (hall j' (List.mem_cons_of_mem _ h))
        rcases rings_wall interp hi _ _ _ _ (first_ne _ hjne) _ (first_flag _) W
          (by intro c hc
              obtain ⟨h3, h4⟩ := (mem_ringCells _ _ _).1 hc
              exact hw c h3 h4) (hrn k e)
          (by intro r hr
              obtain ⟨j', hj', rfl⟩ := List.mem_map.1 hr
              exact hrn j' (by rw [hsplit]; simp [hj']))
          (by intro r hr
              obtain ⟨j', hj', rfl⟩ := List.mem_map.1 hr
              exact hrn j' (by rw [hsplit]; simp [hj'])) i h with ⟨r, hr, c, hc, rfl⟩ | ⟨r, hr, c, hc, rfl, he⟩
        · rw [← List.map_singleton, ← List.map_append] at hr
          obtain ⟨j', hj', rfl⟩ := List.mem_map.1 hr
          obtain ⟨h3, h4⟩ := (mem_ringCells _ _ _).1 hc
          refine ⟨c, h3, rfl, fun hlt => ?_⟩
          exfalso
          rcases List.mem_append.1 hj' with h' | h'
          · exact absurd (hs2.2.2 j' h' k (by simp)) (by rw [h4] at hlt; exact not_lt.2 hlt.le)
          · rw [List.mem_singleton] at h'; rw [h4, h'] at hlt; exact lt_irrefl _ hlt
        · obtain ⟨j', hj', rfl⟩ := List.mem_map.1 hr
          exact ⟨c, ((mem_ringCells _ _ _).1 hc).1, rfl, fun _ => he⟩

/-! ### Cells of a raster -/

private theorem vcell_spec (g : Grid) (arr : List (Option ℚ)) (origin : ℚ × ℚ × ℚ) (i : Nat) (hg : g.Valid)
    (c : VCell) (hc : c = vcell g origin (fun _ => 0) i (i / g.ax.n) (i % g.ax.n) (arr.getD i none)) :
    c.idx = i ∧ c.ring = ringOf g origin i ∧ c.elev = (arr.getD i none).map (slopeTo g origin i) := by
  subst hc
  have h := rowcol_to_xy_center g hg ((i / g.ax.n : ℕ) : ℤ) ((i % g.ax.n : ℕ) : ℤ)
  simp only [Int.cast_natCast] at h
  refine ⟨rfl, ?_, ?_⟩
  · unfold vcell ringOf distanceTo
    simp only []
    rw [h]
    simp only [Int.cast_natCast, one_div, div_eq_mul_inv, one_mul]
  · unfold vcell
    simp only []
    rw [h]
    congr 1
    funext z
    unfold slopeTo distanceTo
    simp only [add_zero]

private theorem mem_vcells (g : Grid) (arr : List (Option ℚ)) (origin : ℚ × ℚ × ℚ) (c : VCell) :
    c ∈ vcells g arr origin (fun _ => 0) ↔
      ∃ i < arr.length, c = vcell g origin (fun _ => 0) i (i / g.ax.n) (i % g.ax.n) (arr.getD i none) := by
  unfold vcells
  simp only [List.mem_map, List.mem_range]
  constructor
  · rintro ⟨i, hi, rfl⟩; exact ⟨i, hi, rfl⟩
  · rintro ⟨i, hi, rfl⟩; exact ⟨i, hi, rfl⟩

private theorem viewshed_get (interp : InterpFn) (g : Grid) (arr : List (Option ℚ)) (origin : ℚ × ℚ × ℚ) (i : Nat) (hi : i < arr.length) :
    (viewshed interp g arr origin (fun _ => 0)).getD i false = true ↔ i ∈ visibleCells interp (vcells g arr origin fun _ => 0) := by
  unfold viewshed
  rw [List.getD_eq_getElem?_getD, List.getElem?_map, List.getElem?_range hi]
  simp

/-! ### Results -/

/-- One answer for each cell. -/
theorem viewshed_length (interp : InterpFn) (g : Grid) (arr : List (Option ℚ)) (origin : ℚ × ℚ × ℚ) (corr : ℚ → ℚ) :
    (viewshed interp g arr origin corr).length = arr.length := by
  unfold viewshed; simp

/-- A cell that is not missing, not in the viewer's own ring, and appears higher than everything in nearer rings is
visible. -/
theorem viewshed_visible_partial (interp : InterpFn) (hi : Interpolates interp) (g : Grid) (hg : g.Valid)
    (arr : List (Option ℚ)) (origin : ℚ × ℚ × ℚ) (i : Nat) (hlt : i < arr.length) (z : ℚ) (hz : arr.getD i none = some z)
    (hr : ringOf g origin i ≠ 0)
    (hb : ∀ j < arr.length, ∀ z', arr.getD j none = some z' → ringOf g origin j ≠ 0 → ringOf g origin j < ringOf g origin i →
      slopeTo g origin j z' < slopeTo g origin i z) :
    (viewshed interp g arr origin fun _ => 0).getD i false = true := by
  rw [viewshed_get _ _ _ _ _ hlt]
  obtain ⟨h1, h2, h3⟩ := vcell_spec g arr origin i hg _ rfl
  have hmem := (mem_vcells g arr origin _).2 ⟨i, hlt, rfl⟩
  have := cells_visible interp hi _ _ hmem (by rw [h2]; exact hr) (slopeTo g origin i z) (by rw [h3, hz]; rfl) (by
    intro c' hc' hr' hlt' x hx
    obtain ⟨j, hj, hcj⟩ := (mem_vcells g arr origin c').1 hc'
    obtain ⟨g1, g2, g3⟩ := vcell_spec g arr origin j hg c' hcj
    rw [g3] at hx
    cases hzj : arr.getD j none with
    | none => rw [hzj] at hx; cases hx
    | some z' =>
      rw [hzj] at hx
      cases hx
      exact hb j hj z' hzj (by rw [← g2]; exact hr') (by rw [← g2, ← h2]; exact hlt'))
  rw [h1] at this
  exact this

/-- If some cell is outside the viewer's own ring: what is visible is not missing. -/
theorem viewshed_missing (interp : InterpFn) (g : Grid) (hg : g.Valid)
    (arr : List (Option ℚ)) (origin : ℚ × ℚ × ℚ) (hne : ∃ j < arr.length, ringOf g origin j ≠ 0) (i : Nat) (hlt : i < arr.length)
    (hv : (viewshed interp g arr origin fun _ => 0).getD i false = true) : ringOf g origin i ≠ 0 ∧ arr.getD i none ≠ none := by
  rw [viewshed_get _ _ _ _ _ hlt] at hv
  obtain ⟨c, hc, hci, hcr, hce⟩ := cells_sub interp _ (by
    intro h
    obtain ⟨j, hj, hrj⟩ := hne
    obtain ⟨h1, h2, h3⟩ := vcell_spec g arr origin j hg _ rfl
    exact hrj (by rw [← h2]; exact h _ ((mem_vcells g arr origin _).2 ⟨j, hj, rfl⟩))) i hv
  obtain ⟨j, hj, hcj⟩ := (mem_vcells g arr origin c).1 hc
  obtain ⟨g1, g2, g3⟩ := vcell_spec g arr origin j hg c hcj
  rw [hci] at g1
  subst g1
  refine ⟨by rw [← g2]; exact hcr, fun hn => hce ?_⟩
  rw [g3, hn]; rfl

/-- Behind a closed ring (all cells present, all appearing at least as high as `W`), whatever appears no higher than `W` is
hidden. -/
theorem viewshed_hidden_partial (interp : InterpFn) (hi : Interpolates interp) (g : Grid) (hg : g.Valid)
    (arr : List (Option ℚ)) (origin : ℚ × ℚ × ℚ) (k : ℤ) (hk0 : k ≠ 0) (hk : ∃ j < arr.length, ringOf g origin j = k) (W : ℝ)
    (hw : ∀ j < arr.length, ringOf g origin j = k → ∃ z, arr.getD j none = some z ∧ W ≤ slopeTo g origin j z)
    (i : Nat) (hlt : i < arr.length) (hfar : k < ringOf g origin i) (z : ℚ) (hz : arr.getD i none = some z) (hlow : slopeTo g origin i z ≤ W) :
    (viewshed interp g arr origin fun _ => 0).getD i false = false := by
  rw [Bool.eq_false_iff]
  intro hv
  rw [ne_eq, viewshed_get _ _ _ _ _ hlt] at *
  obtain ⟨j0, hj0, hr0⟩ := hk
  obtain ⟨f1, f2, f3⟩ := vcell_spec g arr origin j0 hg _ rfl
  obtain ⟨c, hc, hci, hcw⟩ := cells_wall interp hi _ k hk0 ⟨_, (mem_vcells g arr origin _).2 ⟨j0, hj0, rfl⟩, by rw [f2]; exact hr0⟩ W (by
    intro c hc hcr
    obtain ⟨j, hj, hcj⟩ := (mem_vcells g arr origin c).1 hc
    obtain ⟨g1, g2, g3⟩ := vcell_spec g arr origin j hg c hcj
    obtain ⟨z', hz', hle⟩ := hw j hj (by rw [← g2]; exact hcr)
    exact ⟨_, by rw [g3, hz']; rfl, hle⟩) i hv
  obtain ⟨j, hj, hcj⟩ := (mem_vcells g arr origin c).1 hc
  obtain ⟨g1, g2, g3⟩ := vcell_spec g arr origin j hg c hcj
  rw [hci] at g1
  subst g1
  obtain ⟨e, he, hlt'⟩ := hcw (by rw [g2]; exact hfar)
  rw [g3, hz] at he
  cases he
  exact absurd hlow (not_le.2 hlt')

/-- On flat ground below the viewer, everything outside the viewer's own ring is visible: farther cells appear higher. -/
theorem viewshed_flat (interp : InterpFn) (hi : Interpolates interp) (g : Grid) (hg : g.Valid)
    (arr : List (Option ℚ)) (origin : ℚ × ℚ × ℚ) (z : ℚ) (hz : z < origin.2.2) (hflat : ∀ j < arr.length, arr.getD j none = some z)
    (i : Nat) (hlt : i < arr.length) (hr : ringOf g origin i ≠ 0) : (viewshed interp g arr origin fun _ => 0).getD i false = true := by
  refine viewshed_visible_partial interp hi g hg arr origin i hlt z (hflat i hlt) hr ?_
  intro j hj z' hz' hrj hlt'
  rw [hflat j hj] at hz'
  cases hz'
  have hd' : 0 < |(g.ax.d : ℝ)| := abs_pos.2 (by exact_mod_cast GAxis.d_ne hg.nx hg.x)
  have hdist : distanceTo g origin j < distanceTo g origin i := by
    by_contra h
    push Not at h
    have : ringOf g origin i ≤ ringOf g origin j := by
      unfold ringOf
      apply Int.floor_le_floor
      have := div_le_div_of_nonneg_right h hd'.le
      linarith
    omega
  have h0 : 0 < distanceTo g origin j := by
    have hn : 0 ≤ distanceTo g origin j := Real.sqrt_nonneg _
    rcases hn.lt_or_eq with h | h
    · exact h
    · exfalso
      apply hrj
      unfold ringOf
      rw [← h]
      norm_num
  have hneg : ((z - origin.2.2 : ℚ) : ℝ) < 0 := by exact_mod_cast sub_neg.2 hz
  unfold slopeTo
  rw [div_lt_div_iff₀ h0 (h0.trans hdist)]
  nlinarith

/-- Cells in the viewer's own ring (nearer than half a cell width), such as the cell the viewer stands on, are reported as
not visible when the raster has other cells. -/
theorem viewshed_own_violated (interp : InterpFn) (g : Grid) (hg : g.Valid)
    (arr : List (Option ℚ)) (origin : ℚ × ℚ × ℚ) (hne : ∃ j < arr.length, ringOf g origin j ≠ 0) (i : Nat) (hlt : i < arr.length)
    (h0 : ringOf g origin i = 0) : (viewshed interp g arr origin fun _ => 0).getD i false = false := by
  rw [Bool.eq_false_iff]
  intro hv
  exact (viewshed_missing interp g hg arr origin hne i hlt hv).1 h0

/-- If all cells are in the viewer's own ring, all are reported visible, even missing ones. -/
theorem viewshed_single_violated (interp : InterpFn) (g : Grid) (hg : g.Valid)
    (arr : List (Option ℚ)) (origin : ℚ × ℚ × ℚ) (hall : ∀ j < arr.length, ringOf g origin j = 0) (i : Nat) (hlt : i < arr.length) :
    (viewshed interp g arr origin fun _ => 0).getD i false = true := by
  rw [viewshed_get _ _ _ _ _ hlt]
  unfold visibleCells
  rw [if_pos ?_]
  · exact List.mem_map.2 ⟨_, (mem_vcells g arr origin _).2 ⟨i, hlt, rfl⟩, rfl⟩
  · intro c hc
    obtain ⟨j, hj, hcj⟩ := (mem_vcells g arr origin c).1 hc
    rw [(vcell_spec g arr origin j hg c hcj).2.1]
    exact hall j hj

/-! ### Examples -/

/-- An interpolation: always the first value. -/
private def firstValue : InterpFn := fun prev _ => match prev with | [] => none | p :: _ => p.2

private theorem firstValue_ok : Interpolates firstValue where
  low := by
    rintro (_ | ⟨p, prev⟩) h m hm
    · cases hm
    · exact ⟨p, List.mem_cons_self, m, hm, le_rfl⟩
  high := by
    rintro (_ | ⟨p, prev⟩) h m hm
    · cases hm
    · exact ⟨p, List.mem_cons_self, m, hm, le_rfl⟩
  missing := by
    rintro (_ | ⟨p, prev⟩) h hne hm
    · exact absurd rfl hne
    · exact ⟨p, List.mem_cons_self, hm⟩

/-- Four unit cells in a row; the viewer stands on the first, at height 1 above ground. -/
private def row4 : Grid := ⟨⟨0, 4, 4⟩, ⟨0, 1, 1⟩⟩

private theorem row4_valid : row4.Valid := by constructor <;> simp [row4]

private theorem row4_dist (i : Nat) (hi : i < 4) : distanceTo row4 (1 / 2, 1 / 2, 1) i = i := by
  unfold distanceTo row4 cellCenter
  simp only []
  rw [Nat.mod_eq_of_lt hi, Nat.div_eq_of_lt hi]
  rw [show (((0 + (2 * (((i : ℕ) : ℤ) : ℚ) + 1) * (4 - 0) / (2 * ((4 : ℕ) : ℚ)) - 1 / 2) ^ 2 +
    (0 + (2 * (((0 : ℕ) : ℤ) : ℚ) + 1) * (1 - 0) / (2 * ((1 : ℕ) : ℚ)) - 1 / 2) ^ 2 : ℚ)) = (i : ℚ) ^ 2 by push_cast; ring]
  push_cast
  exact Real.sqrt_sq (by positivity)

private theorem row4_ring (i : Nat) (hi : i < 4) : ringOf row4 (1 / 2, 1 / 2, 1) i = i := by
  unfold ringOf
  rw [row4_dist i hi]
  have : row4.ax.d = 1 := by unfold GAxis.d row4; norm_num
  rw [this, Int.floor_eq_iff]
  constructor <;> norm_num

/-- Flat ground. -/
example : (viewshed firstValue row4 [some 0, some 0, some 0, some 0] (1 / 2, 1 / 2, 1) fun _ => 0).getD 3 false = true := by
  refine viewshed_flat firstValue firstValue_ok row4 row4_valid _ _ 0 (by norm_num) ?_ 3 (by decide) ?_
  · intro j hj
    simp at hj
    interval_cases j <;> rfl
  · rw [row4_ring 3 (by decide)]; norm_num

/-- A wall in the second cell hides the third. -/
example : (viewshed firstValue row4 [some 0, some 5, some 0, some 0] (1 / 2, 1 / 2, 1) fun _ => 0).getD 2 false = false := by
  refine viewshed_hidden_partial firstValue firstValue_ok row4 row4_valid _ _ 1 (by decide) ⟨1, by decide, row4_ring 1 (by decide)⟩ 4 ?_ 2
    (by decide) (by rw [row4_ring 2 (by decide)]; norm_num) 0 rfl ?_
  · intro j hj hr
    simp at hj
    rw [row4_ring j hj] at hr
    have : j = 1 := by exact_mod_cast hr
    subst this
    refine ⟨5, rfl, ?_⟩
    unfold slopeTo
    rw [row4_dist 1 (by decide)]; norm_num
  · unfold slopeTo
    rw [row4_dist 2 (by decide)]; norm_num

/-- The viewer's own cell. -/
example : (viewshed firstValue row4 [some 0, some 0, some 0, some 0] (1 / 2, 1 / 2, 1) fun _ => 0).getD 0 false = false :=
  viewshed_own_violated firstValue row4 row4_valid _ _ ⟨1, by decide, by rw [row4_ring 1 (by decide)]; decide⟩ 0 (by decide)
    (by rw [row4_ring 0 (by decide)]; rfl)

end Glimpse.Terrain
