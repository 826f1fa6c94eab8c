import Verif.Model.PlotsTracks
import Verif.Props.PlotsSelect
import Mathlib.Tactic.FinCases
import Mathlib.Tactic.NormNum
import Mathlib.Algebra.Order.Field.Rat

/-!
C126: plots of tracks show the positions, velocities and standard deviations of the tracks selected.
-/
set_option autoImplicit false
set_option linter.unusedSimpArgs false
set_option linter.unusedSectionVars false

namespace Glimpse.PlotsTracks
open Glimpse Glimpse.Cams

variable {E : Type} [Field E]

/-- Specification: the tracks selected out of `n`, by number. -/
def Chosen (n : Nat) : Sel → List Nat → Prop
  | .one i, idx => ∃ k, k < n ∧ (i = k ∨ i + n = k) ∧ idx = [k]
  | .rows i, idx => IdxSelects n i idx

/-- Arrays have a row for each track and a column for each time. -/
structure Rect (d : Data E) : Prop where
  xyz : ∀ r ∈ d.xyz, r.length = d.times.length
  vlen : d.vxyz.length = d.xyz.length
  vxyz : ∀ r ∈ d.vxyz, r.length = d.times.length
  slen : ∀ s ∈ d.xyzSigma, s.length = d.xyz.length ∧ ∀ r ∈ s, r.length = d.times.length
  vslen : ∀ s ∈ d.vxyzSigma, s.length = d.xyz.length ∧ ∀ r ∈ s, r.length = d.times.length

/-- Specification: entry of a table for a track and a time. -/
def entry (a : List (List (Option (Fin 3 → E)))) (track time : Nat) : Option (Fin 3 → E) := (a.getD track []).getD time none

/-- Specification: position in the x-y plane of a track at a time. -/
def Data.pos (d : Data E) (track time : Nat) : Option (E × E) := (entry d.xyz track time).map fun v => (v 0, v 1)
/-- Specification: velocity in the x-y plane. -/
def Data.vel (d : Data E) (track time : Nat) : Option (E × E) := (entry d.vxyz track time).map fun v => (v 0, v 1)
/-- Specification: standard deviation of the position in the x-y plane. -/
def Data.sig (d : Data E) (track time : Nat) : Option (E × E) := (entry (d.xyzSigma.getD []) track time).map fun v => (v 0, v 1)
/-- Specification: two values, if both are there. -/
def both {γ δ : Type} (a : Option γ) (b : Option δ) : Option (γ × δ) := a.bind fun x => b.map fun y => (x, y)

theorem pick_of_chosen {γ : Type} (l : List γ) (d : γ) (s : Sel) (idx : List Nat) (h : Chosen l.length s idx) :
    s.pick l = .ok (idx.map fun k => l.getD k d) := by
  cases s with
  | one i =>
    obtain ⟨k, hk, hi, rfl⟩ := h
    have : pickOne l i = .ok (l.getD k d) := by
      rw [pick_one_iff]
      rcases hi with hi | hi
      · exact Or.inl ⟨k, hi, by rw [List.getElem?_eq_getElem hk, List.getD_eq_getElem _ _ hk]⟩
      · exact Or.inr ⟨k, by omega, hk, by rw [List.getElem?_eq_getElem hk, List.getD_eq_getElem _ _ hk]⟩
    simp only [Sel.pick, this, bind, Except.bind, List.map_cons, List.map_nil]
  | rows i => exact pick_getD l d i idx h

theorem Chosen.lt {n : Nat} {s : Sel} {idx : List Nat} (h : Chosen n s idx) (k : Nat) (hk : k ∈ idx) : k < n := by
  cases s with
  | one i =>
    obtain ⟨j, hj, _, rfl⟩ := h
    rw [List.mem_singleton] at hk
    omega
  | rows i => exact IdxSelects.lt h k hk

theorem pick_not_chosen {γ : Type} (l : List γ) (s : Sel) (h : ∀ idx, ¬ Chosen l.length s idx) : s.pick l = .error .indexError := by
  cases s with
  | one i =>
    have : pickOne l i = .error .indexError := by
      cases hp : pickOne l i with
      | error e =>
        have : pick l (.ints [i]) = .error e := by simp [pick, hp, bind, Except.bind, pure, Except.pure]
        rw [(index_meaning l).2.2.2 _ e this]
      | ok x =>
        exfalso
        rcases (pick_one_iff l i x).mp hp with ⟨k, h1, h2⟩ | ⟨k, h1, h2, _⟩
        · exact h [k] ⟨k, (List.getElem?_eq_some_iff.mp h2).1, Or.inl h1, rfl⟩
        · exact h [k] ⟨k, h2, Or.inr (by omega), rfl⟩
    simp only [Sel.pick, this, bind, Except.bind]
  | rows i => exact pick_none l i h

theorem indices_of_chosen (d : Data E) (s : Sel) (idx : List Nat) (h : Chosen d.xyz.length s idx) : d.indices s = .ok idx := by
  unfold Data.indices
  rw [pick_of_chosen (List.range d.xyz.length) 0 s idx (by simpa using h)]
  congr 1
  conv_rhs => rw [← List.map_id idx]
  apply List.map_congr_left
  intro k hk
  have := h.lt k hk
  simp [List.getD_eq_getElem?_getD, this]

theorem mapM_ok {α β : Type} (f : α → Except Err β) (g : α → β) (l : List α) (h : ∀ x ∈ l, f x = .ok (g x)) : l.mapM f = .ok (l.map g) := by
  induction l with
  | nil => rfl
  | cons x l ih =>
    simp only [List.mapM_cons, h x List.mem_cons_self, ih (fun y hy => h y (List.mem_cons_of_mem _ hy)), bind, Except.bind, pure, Except.pure,
      List.map_cons]

theorem row_map {β : Type} (r : List (Option (Fin 3 → E))) (T : Nat) (h : r.length = T) (f : Option (Fin 3 → E) → β) :
    r.map f = (List.range T).map fun t => f (r.getD t none) := by
  subst h
  conv_lhs => rw [← range_map_getD r none, List.map_map]
  rfl

theorem row_zip {β : Type} (r q : List (Option (Fin 3 → E))) (T : Nat) (hr : r.length = T) (hq : q.length = T)
    (f : Option (Fin 3 → E) → Option (Fin 3 → E) → β) : List.zipWith f r q = (List.range T).map fun t => f (r.getD t none) (q.getD t none) := by
  apply List.ext_getElem
  · simp [hr, hq]
  · intro k h1 h2
    simp only [List.length_map, List.length_range] at h2
    simp [List.getD_eq_getElem?_getD, hr, hq, h2]

theorem getD_mem_row {γ : Type} (a : List (List γ)) (k : Nat) (hk : k < a.length) : a.getD k [] ∈ a := by
  rw [List.getD_eq_getElem _ _ hk]
  exact List.getElem_mem hk

theorem rowAt_ok {γ : Type} (a : List (List γ)) (k : Nat) (hk : k < a.length) : rowAt a k = .ok (a.getD k []) := by
  simp [rowAt, List.getElem?_eq_getElem hk, List.getD_eq_getElem _ _ hk]

/-- C126: `plot_xy` draws, for the tracks selected in their order: a line through all positions of each track; a marker for each track, at its position at
the first time; and (if there are standard deviations) at every position error bars of one standard deviation. What is not asked for is not drawn.
Starts and standard deviations have the colour of the mean unless given. -/
theorem plot_xy_spec (d : Data E) (hd : Rect d) (hT : 0 < d.times.length) (s : Sel) (idx : List Nat) (hs : Chosen d.xyz.length s idx)
    (start mean sigma : Arg) (hsig : sigma.on = true → d.xyzSigma.isSome) :
    ∃ p, d.plotXY s start mean sigma = .ok p ∧
      (p.mean = if mean.on then some (idx.map fun k => ⟨(List.range d.times.length).map (d.pos k), mean.colorOr "black"⟩) else none) ∧
      (p.start = if start.on then some ⟨idx.map fun k => d.pos k 0, start.colorOr (if mean.on then mean.colorOr "black" else "black")⟩ else none) ∧
      (p.sigma = if sigma.on then some (idx.map fun k => ⟨(List.range d.times.length).map fun t => both (d.pos k t) (d.sig k t),
        sigma.colorOr (if mean.on then mean.colorOr "black" else "black")⟩) else none) := by
  have hrow : ∀ k ∈ idx, (d.xyz.getD k []).length = d.times.length := fun k hk => hd.xyz _ (getD_mem_row _ _ (hs.lt k hk))
  have hm : d.xyMean s mean = .ok (if mean.on then some (idx.map fun k => ⟨(List.range d.times.length).map (d.pos k), mean.colorOr "black"⟩) else none) := by
    unfold Data.xyMean
    split_ifs with hon
    · rw [pick_of_chosen d.xyz [] s idx hs]
      simp only [bind, Except.bind, List.map_map]
      congr 2
      apply List.map_congr_left
      intro k hk
      simp only [Function.comp]
      rw [row_map _ _ (hrow k hk)]
      rfl
    · rfl
  have hst : d.xyStart s mean start =
      .ok (if start.on then some ⟨idx.map fun k => d.pos k 0, start.colorOr (if mean.on then mean.colorOr "black" else "black")⟩ else none) := by
    unfold Data.xyStart
    by_cases hon : start.on = true
    · rw [if_pos hon, if_pos hon, pick_of_chosen d.xyz [] s idx hs]
      simp only [bind, Except.bind]
      rw [mapM_ok firstOf (fun r => r.getD 0 none)]
      · simp only [List.map_map]
        rfl
      · intro r hr
        obtain ⟨k, hk, rfl⟩ := List.mem_map.mp hr
        have := hrow k hk
        cases hc : d.xyz.getD k [] with
        | nil => rw [hc] at this; simp at this; omega
        | cons x l => rfl
    · rw [if_neg hon, if_neg hon]
  have hsg : d.xySigma s mean sigma =
      .ok (if sigma.on then some (idx.map fun k => ⟨(List.range d.times.length).map fun t => both (d.pos k t) (d.sig k t),
        sigma.colorOr (if mean.on then mean.colorOr "black" else "black")⟩) else none) := by
    unfold Data.xySigma
    by_cases hon : sigma.on = true
    · rw [if_pos hon, if_pos hon, indices_of_chosen d s idx hs]
      obtain ⟨sg, hsg⟩ := Option.isSome_iff_exists.mp (hsig hon)
      obtain ⟨q1, q2⟩ := hd.slen sg hsg
      simp only [bind, Except.bind]
      rw [mapM_ok _ (fun k => (⟨(List.range d.times.length).map fun t => both (d.pos k t) (d.sig k t),
        sigma.colorOr (if mean.on then mean.colorOr "black" else "black")⟩ : Bars E))]
      intro k hk
      have hk' := hs.lt k hk
      rw [rowAt_ok d.xyz k hk']
      simp only [hsg]
      rw [rowAt_ok sg k (by omega)]
      simp only [Except.ok.injEq, Bars.mk.injEq]
      refine ⟨?_, rfl⟩
      rw [row_zip _ _ d.times.length (hrow k hk) (q2 _ (getD_mem_row _ _ (by omega)))]
      apply List.map_congr_left
      intro t _
      simp only [both, Data.pos, Data.sig, entry, xyOf, hsg, Option.getD_some]
    · rw [if_neg hon, if_neg hon]
  refine ⟨⟨_, _, _⟩, ?_, rfl, rfl, rfl⟩
  unfold Data.plotXY
  rw [hm, hst, hsg]
  rfl

/-- C126: a track that is not there raises IndexError. -/
theorem plot_xy_raises (d : Data E) (s : Sel) (hs : ∀ idx, ¬ Chosen d.xyz.length s idx) (start mean sigma : Arg)
    (h : mean.on = true ∨ start.on = true ∨ sigma.on = true) : d.plotXY s start mean sigma = .error .indexError := by
  have hp : s.pick d.xyz = .error .indexError := pick_not_chosen _ _ hs
  have hi : d.indices s = .error .indexError := by
    unfold Data.indices
    exact pick_not_chosen _ _ (by simpa using hs)
  unfold Data.plotXY Data.xyMean Data.xyStart Data.xySigma
  rw [hp, hi]
  cases hm : mean.on <;> cases hst : start.on <;> cases hsg : sigma.on <;> simp_all [bind, Except.bind]

/-- C126: so each track is marked where it starts (its first position), if it has one at the first time. -/
theorem plot_xy_start_partial (d : Data E) (hd : Rect d) (hT : 0 < d.times.length) (s : Sel) (idx : List Nat) (hs : Chosen d.xyz.length s idx)
    (hfirst : ∀ k ∈ idx, (d.pos k 0).isSome) :
    ∃ p m, d.plotXY s .yes .yes .no = .ok p ∧ p.start = some m ∧
      m.points = idx.map fun k => ((List.range d.times.length).find? fun t => (d.pos k t).isSome).bind (d.pos k) := by
  obtain ⟨p, h1, _, h3, _⟩ := plot_xy_spec d hd hT s idx hs .yes .yes .no (by intro h; cases h)
  refine ⟨p, _, h1, h3, ?_⟩
  apply List.map_congr_left
  intro k hk
  have : (List.range d.times.length).find? (fun t => (d.pos k t).isSome) = some 0 := by
    obtain ⟨T, hT'⟩ : ∃ T, d.times.length = T + 1 := ⟨d.times.length - 1, by omega⟩
    rw [hT', List.range_succ_eq_map, List.find?_cons, hfirst k hk]
  rw [this]
  rfl

/-- C126 (violated): a track that starts later is not marked where it starts (nor anywhere). -/
theorem plot_xy_start_violated : ∃ (d : Data ℚ), Rect d ∧ 0 < d.times.length ∧
    ∃ p m, d.plotXY (.rows .all) .yes .yes .no = .ok p ∧ p.start = some m ∧ m.points = [some (1, 2), none] ∧
      ((List.range d.times.length).find? fun t => (d.pos 1 t).isSome).bind (d.pos 1) = some (5, 6) := by
  let d : Data ℚ := ⟨[0, 1], [[some ![1, 2, 3], some ![2, 2, 3]], [none, some ![5, 6, 7]]], [[none, none], [none, none]], none, none⟩
  have hd : Rect d := ⟨by decide, rfl, by decide, (by intro s hs; cases hs), (by intro s hs; cases hs)⟩
  obtain ⟨p, h1, _, h3, _⟩ := plot_xy_spec d hd (by decide) (.rows .all) [0, 1] rfl .yes .yes .no (by intro h; cases h)
  exact ⟨d, hd, by decide, p, _, h1, h3, by decide +kernel, by decide +kernel⟩

/-- C126 (violated): standard deviations raise TypeError if the tracks have none. -/
theorem plot_xy_sigma_missing (d : Data E) (hd : Rect d) (hT : 0 < d.times.length) (s : Sel) (idx : List Nat) (hs : Chosen d.xyz.length s idx)
    (hne : idx ≠ []) (h : d.xyzSigma = none) (start mean sigma : Arg) (hon : sigma.on = true) :
    d.plotXY s start mean sigma = .error .typeError := by
  obtain ⟨p, h1, _⟩ := plot_xy_spec d hd hT s idx hs start mean .no (by intro h; cases h)
  unfold Data.plotXY at h1 ⊢
  cases hm : d.xyMean s mean with
  | error e => rw [hm] at h1; cases h1
  | ok m =>
    cases hst : d.xyStart s mean start with
    | error e => rw [hm, hst] at h1; cases h1
    | ok st =>
      have : d.xySigma s mean sigma = .error .typeError := by
        unfold Data.xySigma
        rw [if_pos hon, indices_of_chosen d s idx hs, h]
        cases idx with
        | nil => exact absurd rfl hne
        | cons k l =>
          have hk := hs.lt k List.mem_cons_self
          simp only [bind, Except.bind, List.mapM_cons, rowAt_ok d.xyz k hk]
      simp only [bind, Except.bind, this]

/-- C126: `plot_vxy` draws, for each track selected, at every time an arrow at its position in the direction of its velocity. -/
theorem plot_vxy_spec (d : Data E) (hd : Rect d) (s : Sel) (idx : List Nat) (hs : Chosen d.xyz.length s idx) :
    d.plotVXY s = .ok (idx.map fun k => (List.range d.times.length).map fun t => both (d.pos k t) (d.vel k t)) := by
  unfold Data.plotVXY
  rw [indices_of_chosen d s idx hs]
  simp only [bind, Except.bind]
  apply mapM_ok
  intro k hk
  have hk' := hs.lt k hk
  have hv := hd.vlen
  rw [rowAt_ok d.xyz k hk']
  simp only
  rw [rowAt_ok d.vxyz k (by omega)]
  simp only [Except.ok.injEq]
  rw [row_zip _ _ d.times.length (hd.xyz _ (getD_mem_row _ _ hk')) (hd.vxyz _ (getD_mem_row _ _ (by omega)))]
  rfl

/-- C126: `plot_v1d` draws, for each track selected, the velocity in the given dimension against time, and (if asked for) the band from one
standard deviation above to one below it, which contains it. -/
theorem plot_v1d_spec (d : Data E) (hd : Rect d) (s : Sel) (idx : List Nat) (hs : Chosen d.xyz.length s idx) (dim : Fin 3)
    (mean sigma : Arg) (hsig : sigma.on = true → d.vxyzSigma.isSome) :
    ∃ p, d.plotV1d ((dim : Nat) : ℤ) s mean sigma = .ok p ∧
      (p.mean = if mean.on then some (idx.map fun k => ⟨(List.range d.times.length).map fun t =>
        (entry d.vxyz k t).map fun v => (d.times.getD t 0, v dim), mean.colorOr "black"⟩) else none) ∧
      (p.sigma = if sigma.on then some (idx.map fun k => ⟨(List.range d.times.length).map fun t =>
        (d.times.getD t 0, (both (entry d.vxyz k t) (entry (d.vxyzSigma.getD []) k t)).map fun x => (x.1 dim + x.2 dim, x.1 dim - x.2 dim)),
        sigma.colorOr (if mean.on then mean.colorOr "black" else "black")⟩) else none) := by
  have hdim : dimOf ((dim : Nat) : ℤ) = .ok dim := by
    fin_cases dim <;> rfl
  have hv := hd.vlen
  have hrow : ∀ k ∈ idx, (d.vxyz.getD k []).length = d.times.length := fun k hk =>
    hd.vxyz _ (getD_mem_row _ _ (by have := hs.lt k hk; omega))
  have hs' : Chosen d.vxyz.length s idx := by rw [hv]; exact hs
  have hm : d.v1dMean ((dim : Nat) : ℤ) s mean = .ok (if mean.on then some (idx.map fun k => ⟨(List.range d.times.length).map fun t =>
        (entry d.vxyz k t).map fun v => (d.times.getD t 0, v dim), mean.colorOr "black"⟩) else none) := by
    unfold Data.v1dMean
    split_ifs with hon
    · rw [pick_of_chosen d.vxyz [] s idx hs']
      simp only [bind, Except.bind, List.map_map, hdim]
      congr 2
      apply List.map_congr_left
      intro k hk
      simp only [Function.comp, Line.mk.injEq, and_true]
      apply List.ext_getElem
      · have := hrow k hk
        simp only [List.length_zipWith, List.length_map, List.length_range]
        omega
      · intro t h1 h2
        simp only [List.length_map, List.length_range] at h2
        have := hrow k hk
        simp only [List.getElem_zipWith, List.getElem_map, List.getElem_range, atTime, entry]
        rw [List.getD_eq_getElem _ _ h2, List.getD_eq_getElem _ _ (by omega : t < (d.vxyz.getD k []).length)]
    · rfl
  have hsg : d.v1dSigma ((dim : Nat) : ℤ) s mean sigma = .ok (if sigma.on then some (idx.map fun k => ⟨(List.range d.times.length).map fun t =>
        (d.times.getD t 0, (both (entry d.vxyz k t) (entry (d.vxyzSigma.getD []) k t)).map fun x => (x.1 dim + x.2 dim, x.1 dim - x.2 dim)),
        sigma.colorOr (if mean.on then mean.colorOr "black" else "black")⟩) else none) := by
    unfold Data.v1dSigma
    by_cases hon : sigma.on = true
    · rw [if_pos hon, if_pos hon, indices_of_chosen d s idx hs]
      obtain ⟨sg, hsg⟩ := Option.isSome_iff_exists.mp (hsig hon)
      obtain ⟨q1, q2⟩ := hd.vslen sg hsg
      simp only [bind, Except.bind]
      rw [mapM_ok _ (fun k => (⟨(List.range d.times.length).map fun t =>
        (d.times.getD t 0, (both (entry d.vxyz k t) (entry (d.vxyzSigma.getD []) k t)).map fun x => (x.1 dim + x.2 dim, x.1 dim - x.2 dim)),
        sigma.colorOr (if mean.on then mean.colorOr "black" else "black")⟩ : Band E))]
      intro k hk
      have hk' := hs.lt k hk
      rw [rowAt_ok d.vxyz k (by omega)]
      simp only [hsg, hdim]
      rw [rowAt_ok sg k (by omega)]
      simp only [Except.ok.injEq, Band.mk.injEq]
      refine ⟨?_, rfl⟩
      have hq := q2 _ (getD_mem_row sg k (by omega))
      rw [row_zip _ _ d.times.length (hrow k hk) hq]
      apply List.ext_getElem
      · simp
      · intro t h1 h2
        simp only [List.length_map, List.length_range] at h2
        simp only [List.getElem_zip, List.getElem_map, List.getElem_range, entry, Option.getD_some]
        rw [List.getD_eq_getElem _ _ h2]
        congr 1
        simp only [bandAt, both]
        cases (d.vxyz.getD k []).getD t none <;> cases (sg.getD k []).getD t none <;> rfl
    · rw [if_neg hon, if_neg hon]
  refine ⟨⟨_, _⟩, ?_, rfl, rfl⟩
  unfold Data.plotV1d
  rw [hm, hsg]
  rfl

/-- C126 (violated): standard deviations of velocities raise TypeError if the tracks have none. -/
theorem plot_v1d_sigma_missing (d : Data E) (hd : Rect d) (s : Sel) (idx : List Nat) (hs : Chosen d.xyz.length s idx) (dim : Fin 3)
    (hne : idx ≠ []) (h : d.vxyzSigma = none) (mean sigma : Arg) (hon : sigma.on = true) :
    d.plotV1d ((dim : Nat) : ℤ) s mean sigma = .error .typeError := by
  obtain ⟨p, h1, _⟩ := plot_v1d_spec d hd s idx hs dim mean .no (by intro h; cases h)
  have hdim : dimOf ((dim : Nat) : ℤ) = .ok dim := by fin_cases dim <;> rfl
  unfold Data.plotV1d at h1 ⊢
  cases hm : d.v1dMean ((dim : Nat) : ℤ) s mean with
  | error e => rw [hm] at h1; cases h1
  | ok m =>
    have : d.v1dSigma ((dim : Nat) : ℤ) s mean sigma = .error .typeError := by
      unfold Data.v1dSigma
      rw [if_pos hon, indices_of_chosen d s idx hs, h]
      cases idx with
      | nil => exact absurd rfl hne
      | cons k l =>
        have hk := hs.lt k List.mem_cons_self
        have := hd.vlen
        simp only [bind, Except.bind, List.mapM_cons, rowAt_ok d.vxyz k (by omega), hdim]
    simp only [bind, Except.bind, this]

/-- Concrete case: two tracks, of which the last is selected. -/
example : ∃ (d : Data ℚ), Rect d ∧ Chosen d.xyz.length (.one (-1)) [1] ∧ d.pos 1 1 = some (5, 6) := by
  refine ⟨⟨[0, 1], [[some ![1, 2, 3], some ![2, 2, 3]], [none, some ![5, 6, 7]]], [[none, none], [none, none]], none, none⟩,
    ⟨by decide, rfl, by decide, ?_, ?_⟩, ⟨1, by decide, Or.inr (by decide), rfl⟩, by decide +kernel⟩ <;>
  · intro s hs; cases hs

end Glimpse.PlotsTracks
