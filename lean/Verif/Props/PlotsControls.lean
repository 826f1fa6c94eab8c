import Verif.Model.PlotsControls
import Verif.Props.PlotsSelect
import Mathlib.Tactic.Ring
import Mathlib.Tactic.FieldSimp
import Mathlib.Tactic.NormNum
import Mathlib.Algebra.Order.Field.Rat

/-!
C127: plots of reprojection errors and fits show the errors of the points selected, and of the others.
-/
set_option autoImplicit false
set_option linter.unusedSimpArgs false
set_option linter.unusedSectionVars false

namespace Glimpse.PlotsControls
open Glimpse Glimpse.Cams

variable {E : Type} [Field E]

/-! ### Selected and unselected points -/

/-- Specification: the points that are not selected, in order. -/
def rest (n : Nat) (idx : List Nat) : List Nat := (List.range n).filter fun k => decide (k ∉ idx)

theorem split_of_selects (n : Nat) (i : Idx) (idx : List Nat) (h : IdxSelects n i idx) : split n i = .ok (idx, rest n idx) := by
  unfold split
  rw [(pick_range_iff n i idx).mpr h]
  simp only [bind, Except.bind]
  cases i with
  | all =>
    rw [show idx = List.range n from h]
    simp only [deleteIdx, rest]
    rw [show (List.range n).filter (fun k => decide (k ∉ List.range n)) = [] from
      List.filter_eq_nil_iff.mpr (by intro k hk; simpa using hk)]
  | ints l =>
    have hp := (pick_range_iff n (.ints l) idx).mpr h
    simp only [pick] at hp
    simp only [deleteIdx, hp, bind, Except.bind, rest]
  | mask m =>
    obtain ⟨hm, rfl⟩ := h
    subst hm
    simp only [deleteIdx, if_true, rest, mask_filter_not]
    congr 2
    apply List.filter_congr
    intro k hk
    by_cases hb : m.getD k false = true
    · rw [hb, eq_comm]; simp only [Bool.not_true, decide_eq_false_iff_not, not_not, List.mem_filter]; exact ⟨hk, hb⟩
    · rw [Bool.not_eq_true] at hb
      rw [hb, eq_comm]; simp only [Bool.not_false, decide_eq_true_iff, List.mem_filter, hb]; simp

theorem split_none (n : Nat) (i : Idx) (h : ∀ idx, ¬ IdxSelects n i idx) : split n i = .error .indexError := by
  unfold split
  rw [pick_none (List.range n) i (by simpa using h)]
  rfl

/-! ### Arrows -/

/-- Specification: the scale of the arrows: that of the dictionary for these points, else that for all points, else 1; and arrows are in the
units of the plot. -/
def ScaleIs (kwargs a : Kwargs E) (s : E) : Prop :=
  a "angles" = none ∧ a "scale_units" = none ∧ kwargs "angles" = none ∧ kwargs "scale_units" = none ∧
  (a "scale" = some (.num s) ∨ a "scale" = none ∧ kwargs "scale" = some (.num s) ∨ a "scale" = none ∧ kwargs "scale" = none ∧ s = 1)

/-- Specification: what a plot of points shows for the points `idx`: nothing if there are none, or if hidden, else arrows from observed
towards predicted coordinates. -/
def Shows (obs pred : List (E × E)) (kwargs : Kwargs E) (idx : List Nat) (st : Style E) (q : Option (Quiver E)) : Prop :=
  (idx = [] ∨ st.args "color" = none → q = none) ∧
  (idx ≠ [] → ∀ a s, st.args "color" = some a → ScaleIs kwargs a s → ∃ Q, q = some Q ∧
    Q.arrows = some (idx.map fun k => (obs.getD k (0, 0),
      ((obs.getD k (0, 0)).1 + ((pred.getD k (0, 0)).1 - (obs.getD k (0, 0)).1) / s,
       (obs.getD k (0, 0)).2 + ((pred.getD k (0, 0)).2 - (obs.getD k (0, 0)).2) / s))) ∧
    ∀ key v, a key = some v → Q.args key = some v)

theorem merged_scale (width : E) (kwargs a : Kwargs E) (s : E) (h : ScaleIs kwargs a s) :
    merge (merge (quiverBase width) kwargs) a "angles" = some (.text "xy") ∧
    merge (merge (quiverBase width) kwargs) a "scale_units" = some (.text "xy") ∧
    merge (merge (quiverBase width) kwargs) a "scale" = some (.num s) := by
  obtain ⟨h1, h2, h3, h4, h5⟩ := h
  refine ⟨?_, ?_, ?_⟩
  · simp [merge, quiverBase, h1, h3]
  · simp [merge, quiverBase, h2, h4]
  · rcases h5 with h | ⟨h, h'⟩ | ⟨h, h', rfl⟩
    · simp [merge, quiverBase, h]
    · simp [merge, quiverBase, h, h']
    · simp [merge, quiverBase, h, h']

theorem zip_getD (obs pred : List (E × E)) (hl : pred.length = obs.length) (k : Nat) (hk : k < obs.length) :
    (List.zipWith sub2 pred obs).getD k (0, 0) = sub2 (pred.getD k (0, 0)) (obs.getD k (0, 0)) := by
  rw [List.getD_eq_getElem _ _ (by simp [hl, hk]), List.getD_eq_getElem _ _ hk, List.getD_eq_getElem _ _ (by omega), List.getElem_zipWith]

theorem drawOne_shows (width : E) (obs pred : List (E × E)) (hl : pred.length = obs.length) (kwargs : Kwargs E) (idx : List Nat)
    (hidx : ∀ k ∈ idx, k < obs.length) (st : Style E) :
    Shows obs pred kwargs idx st (drawOne obs (List.zipWith sub2 pred obs) (merge (quiverBase width) kwargs) idx st) := by
  unfold drawOne
  constructor
  · rintro (h | h)
    · rw [if_pos h]
    · rw [h]; split_ifs <;> rfl
  · intro hne a s ha hs
    rw [if_neg hne, ha]
    refine ⟨_, rfl, ?_, ?_⟩
    · obtain ⟨h1, h2, h3⟩ := merged_scale width kwargs a s hs
      unfold Quiver.arrows
      simp only [h1, h2, h3, Option.some.injEq, rowsAt]
      rw [List.zipWith_map, List.zipWith_self]
      apply List.map_congr_left
      intro k hk
      rw [zip_getD obs pred hl k (hidx k hk)]
      rfl
    · intro key v hv
      simp [merge, hv]

/-- C127: `Points.plot` and `Matches.plot`, for every index: the points selected and all others are drawn (each others in their style) as
arrows from observed to predicted coordinates, scaled if a scale is given. -/
theorem plot_errors_spec (width : E) (obs pred : List (E × E)) (hl : pred.length = obs.length) (index : Idx) (idx : List Nat)
    (h : IdxSelects obs.length index idx) (selected unselected : Style E) (kwargs : Kwargs E) :
    ∃ e, plotErrors width obs (.ok pred) index selected unselected kwargs = .ok e ∧
      Shows obs pred kwargs idx selected e.selected ∧ Shows obs pred kwargs (rest obs.length idx) unselected e.unselected := by
  unfold plotErrors
  simp only [bind, Except.bind]
  rw [if_neg (by simpa using hl), split_of_selects _ _ _ h]
  refine ⟨_, rfl, ?_, ?_⟩
  · exact drawOne_shows width obs pred hl kwargs idx h.lt selected
  · exact drawOne_shows width obs pred hl kwargs _ (fun k hk => List.mem_range.mp (List.mem_of_mem_filter hk)) unselected

/-- C127: with the default styles, arrows end at the predicted coordinates. -/
theorem plot_errors_default (width : E) (obs pred : List (E × E)) (hl : pred.length = obs.length) (index : Idx) (idx : List Nat)
    (h : IdxSelects obs.length index idx) (hne : idx ≠ []) :
    ∃ e Q, plotErrors width obs (.ok pred) index (.color "red") (.color "gray") (fun _ => none) = .ok e ∧ e.selected = some Q ∧
      Q.arrows = some (idx.map fun k => (obs.getD k (0, 0), pred.getD k (0, 0))) ∧ Q.args "color" = some (.text "red") := by
  obtain ⟨e, h1, h2, _⟩ := plot_errors_spec width obs pred hl index idx h (.color "red") (.color "gray") (fun _ => none)
  obtain ⟨Q, q1, q2, q3⟩ := h2.2 hne (single "color" (.text "red")) 1 rfl
    ⟨by simp [single], by simp [single], rfl, rfl, Or.inr (Or.inr ⟨by simp [single], rfl, rfl⟩)⟩
  refine ⟨e, Q, h1, q1, ?_, q3 _ _ (by simp [single])⟩
  rw [q2]
  simp

/-- C127: an index outside raises IndexError, as does a prediction that raises (with its own error). -/
theorem plot_errors_raises (width : E) (obs pred : List (E × E)) (hl : pred.length = obs.length) (index : Idx)
    (h : ∀ idx, ¬ IdxSelects obs.length index idx) (selected unselected : Style E) (kwargs : Kwargs E) (err : Err) :
    plotErrors width obs (.ok pred) index selected unselected kwargs = .error .indexError ∧
    plotErrors width obs (.error err) index selected unselected kwargs = .error err := by
  refine ⟨?_, rfl⟩
  unfold plotErrors
  simp only [bind, Except.bind]
  rw [if_neg (by simpa using hl), split_none _ _ h]

/-- C127: `Lines.plot` draws the image lines, the projected world lines, and the arrows from the observed points to the nearest points of
those. -/
theorem plot_lines_spec (width : E) (uvs w : List (List (E × E))) (near : List (E × E)) (hl : near.length = uvs.flatten.length)
    (index : Idx) (idx : List Nat) (h : IdxSelects uvs.flatten.length index idx) (selected unselected observed predicted : Style E)
    (kwargs : Kwargs E) :
    ∃ p, plotLines width uvs (.ok w) (.ok near) index selected unselected observed predicted kwargs = .ok p ∧
      (p.observed.map (List.map Poly.points)) = (observed.args "color").map (fun _ => uvs) ∧
      (p.predicted.map (List.map Poly.points)) = (predicted.args "color").map (fun _ => w) ∧
      (∀ l a, p.observed = some l → observed.args "color" = some a → ∀ q ∈ l, q.args = a) ∧
      (∀ l a, p.predicted = some l → predicted.args "color" = some a → ∀ q ∈ l, q.args = a) ∧
      Shows uvs.flatten near kwargs idx selected p.errors.selected ∧
      Shows uvs.flatten near kwargs (rest uvs.flatten.length idx) unselected p.errors.unselected := by
  obtain ⟨e, h1, h2, h3⟩ := plot_errors_spec width uvs.flatten near hl index idx h selected unselected kwargs
  unfold plotLines
  simp only [bind, Except.bind, h1]
  refine ⟨_, rfl, ?_, ?_, ?_, ?_, h2, h3⟩
  · simp only [drawLines, Option.map_map, Function.comp_def, List.map_map, List.map_id']
  · simp only [drawLines, Option.map_map, Function.comp_def, List.map_map, List.map_id']
  · intro l a hl' ha q hq
    simp only [drawLines, ha, Option.map_some, Option.some.injEq] at hl'
    subst hl'
    obtain ⟨x, _, rfl⟩ := List.mem_map.mp hq
    rfl
  · intro l a hl' ha q hq
    simp only [drawLines, ha, Option.map_some, Option.some.injEq] at hl'
    subst hl'
    obtain ⟨x, _, rfl⟩ := List.mem_map.mp hq
    rfl

/-! ### Polynomial.plot -/

section
variable [LinearOrder E]

/-- C127: `Polynomial.plot` with points both selected and not, none hidden, shows each at its own position, and the polynomial at all of them. -/
theorem poly_plot_partial (polyfit : List (E × E) → Nat → List E) (m : Ransac.Poly E) (params : Option (List E)) (index : Idx)
    (idx : List Nat) (h : IdxSelects m.xy.length index idx) (hne : idx ≠ []) (hr : rest m.xy.length idx ≠ [])
    (selected unselected predicted : Style E) (a b : Kwargs E) (ha : selected.args "c" = some a) (hb : unselected.args "c" = some b)
    (kwargs : Kwargs E) :
    ∃ p S U, polyPlot polyfit m params index selected unselected predicted kwargs = .ok p ∧ p.selected = some S ∧ p.unselected = some U ∧
      S.points = idx.map (fun k => m.xy.getD k (0, 0)) ∧ U.points = (rest m.xy.length idx).map (fun k => m.xy.getD k (0, 0)) ∧
      p.predicted = some ((predicted.args "color").map fun c => ⟨m.xy.map fun t => (t.1, Ransac.polyval
        (params.getD (polyfit (idx.map fun k => m.xy.getD k (0, 0)) m.deg)) t.1), c⟩) := by
  unfold polyPlot
  have hp := pick_getD m.xy (0, 0) index idx h
  cases params with
  | some q =>
    simp only [bind, Except.bind, split_of_selects _ _ _ h, polyStep, if_neg hne, if_neg hr, ha, hb]
    exact ⟨_, _, _, rfl, rfl, rfl, rfl, rfl, rfl⟩
  | none =>
    simp only [bind, Except.bind, split_of_selects _ _ _ h, polyStep, if_neg hne, if_neg hr, ha, hb, hp]
    rw [if_neg (by simpa using hne)]
    exact ⟨_, _, _, rfl, rfl, rfl, rfl, rfl, rfl⟩

/-- C127 (violated): `Polynomial.plot` raises if no points are selected or all are, or if either are hidden; with its default index, always. -/
theorem poly_plot_violated (polyfit : List (E × E) → Nat → List E) (m : Ransac.Poly E) (params : Option (List E)) (index : Idx)
    (idx : List Nat) (h : IdxSelects m.xy.length index idx) (selected unselected predicted : Style E) (kwargs : Kwargs E)
    (hbad : idx = [] ∨ rest m.xy.length idx = [] ∨ selected.args "c" = none ∨ unselected.args "c" = none) :
    polyPlot polyfit m params index selected unselected predicted kwargs = .error .typeError := by
  have hp := pick_getD m.xy (0, 0) index idx h
  have key : ∀ q : List E, (do
      let (idx, un) ← split m.xy.length index
      let result ← polyStep m.xy kwargs un unselected (fun d s => { d with unselected := some s }) (some {})
      let result ← polyStep m.xy kwargs idx selected (fun d s => { d with selected := some s }) result
      match result with
      | none => .error .typeError
      | some d => .ok { d with predicted := some ((predicted.args "color").map fun a =>
          ⟨m.xy.map fun t => (t.1, Ransac.polyval q t.1), a⟩) }) = (.error .typeError : Except Err (PolyPlot E)) := by
    intro q
    simp only [bind, Except.bind, split_of_selects _ _ _ h, polyStep]
    by_cases h1 : idx = [] <;> by_cases h2 : rest m.xy.length idx = [] <;> cases h3 : selected.args "c" <;> cases h4 : unselected.args "c" <;>
      simp_all
  unfold polyPlot
  cases params with
  | some q => exact key q
  | none =>
    simp only [hp, bind, Except.bind]
    split_ifs with h0
    · rfl
    · exact key _

/-- C127 (violated): with the default index `slice(None)`. -/
theorem poly_plot_default_violated (polyfit : List (E × E) → Nat → List E) (m : Ransac.Poly E) (params : Option (List E))
    (selected unselected predicted : Style E) (kwargs : Kwargs E) :
    polyPlot polyfit m params .all selected unselected predicted kwargs = .error .typeError := by
  apply poly_plot_violated polyfit m params .all (List.range m.xy.length) rfl
  exact Or.inr (Or.inl (List.filter_eq_nil_iff.mpr (by intro k hk; simpa using hk)))

end

/-! ### Cameras.plot -/

variable {α ρ : Type}

/-- C127: `Cameras.plot` returns the plots of exactly the controls of the camera, in order, drawn with the given parameters, and leaves the
cameras as they were. -/
theorem cams_plot_spec (L : Layout) (cs : List (PlotCtl α ρ)) (params : Option (List α)) (cam : ℤ) (c : Nat) (hc : c < L.ncams)
    (hcam : cam = c ∨ cam + L.ncams = c) (index : IdxArg)
    (hi : index = .all ∨ (∃ i, index = .list i) ∧ cs.length ≤ 1) (V : Vecs α) (f : PlotCtl α ρ → ρ)
    (hf : ∀ k ∈ cs, c ∈ k.cams → k.plot ((params.map fun ps => L.setCameras ps V).getD V) c index.idx = .ok (f k)) :
    camsPlot L cs params cam index V = (.ok ((cs.filter fun k => decide (c ∈ k.cams)).map f), V) := by
  have hr : resolveIn L.ncams cam = some c := by
    unfold resolveIn
    rcases hcam with h | h
    · rw [if_pos (by omega)]; congr 1; omega
    · rw [if_neg (by omega), if_pos (by omega)]; congr 1; omega
  have hm : ((cs.filter fun k => decide (c ∈ k.cams)).mapM fun k => k.plot ((params.map fun ps => L.setCameras ps V).getD V) c index.idx) =
      .ok ((cs.filter fun k => decide (c ∈ k.cams)).map f) := by
    apply mapM_ok
    intro k hk
    obtain ⟨h1, h2⟩ := List.mem_filter.mp hk
    exact hf k h1 (by simpa using h2)
  have hsub : ∃ b, index.isSubset = .ok b ∧ (b && decide (1 < cs.length)) = false := by
    rcases hi with rfl | ⟨⟨i, rfl⟩, h⟩
    · exact ⟨false, rfl, rfl⟩
    · exact ⟨true, rfl, by simpa using h⟩
  obtain ⟨b, hb, hb'⟩ := hsub
  unfold camsPlot
  rw [hb]
  simp only [hb', hr]
  cases params with
  | none => simp only [Option.map_none, Option.getD_none] at hm; simp [hm]
  | some ps => simp only [Option.map_some, Option.getD_some] at hm; simp [hm]

/-- C127: an index with several controls raises ValueError (as documented), and nothing changes. -/
theorem cams_plot_several (L : Layout) (cs : List (PlotCtl α ρ)) (params : Option (List α)) (cam : ℤ) (i : Idx) (V : Vecs α)
    (h : 1 < cs.length) : camsPlot L cs params cam (.list i) V = (.error .valueError, V) := by
  unfold camsPlot
  simp [IdxArg.isSubset, h]

/-- C127 (violated): an index that is an array of several elements always raises ValueError, also with one control. -/
theorem cams_plot_array_violated (L : Layout) (cs : List (PlotCtl α ρ)) (params : Option (List α)) (cam : ℤ) (i : Idx) (V : Vecs α)
    (h : 1 < idxLength i) : camsPlot L cs params cam (.array i) V = (.error .valueError, V) := by
  unfold camsPlot
  simp only [IdxArg.isSubset]
  rw [if_neg (by omega), if_neg (by omega)]

/-- C127 (violated): if the plot of a control raises, the cameras keep the given parameters. -/
theorem cams_plot_restore_violated (L : Layout) (cs : List (PlotCtl α ρ)) (ps : List α) (cam : ℤ) (c : Nat) (hc : c < L.ncams)
    (hcam : cam = c) (V : Vecs α) (k : PlotCtl α ρ) (hk : k ∈ cs) (hck : c ∈ k.cams) (e : Err)
    (he : k.plot (L.setCameras ps V) c .all = .error e) :
    (∃ e', (camsPlot L cs (some ps) cam .all V).1 = .error e') ∧ (camsPlot L cs (some ps) cam .all V).2 = L.setCameras ps V := by
  have hr : resolveIn L.ncams cam = some c := by
    unfold resolveIn
    rw [if_pos (by omega)]; congr 1; omega
  have hm : ∃ e', ((cs.filter fun k => decide (c ∈ k.cams)).mapM fun k => k.plot (L.setCameras ps V) c .all) = .error e' := by
    have hk' : k ∈ cs.filter fun k => decide (c ∈ k.cams) := List.mem_filter.mpr ⟨hk, by simpa using hck⟩
    generalize (cs.filter fun k => decide (c ∈ k.cams)) = l at hk'
    induction l with
    | nil => simp at hk'
    | cons x l ih =>
      rw [List.mapM_cons]
      cases hx : x.plot (L.setCameras ps V) c .all with
      | error e' => exact ⟨e', rfl⟩
      | ok r =>
        rcases List.mem_cons.mp hk' with rfl | h
        · rw [he] at hx; cases hx
        · obtain ⟨e', h'⟩ := ih h
          exact ⟨e', by simp only [bind, Except.bind, h']⟩
  obtain ⟨e', hm⟩ := hm
  unfold camsPlot
  simp only [IdxArg.isSubset, Bool.false_and, Bool.false_eq_true, if_false, hr, IdxArg.idx, hm]
  exact ⟨⟨e', rfl⟩, trivial⟩

/-- C127: `Cameras.plot_weights` shows each observation selected with its own weight (1 if there are no weights). -/
theorem plot_weights_spec {V W : Type} (cs : List (Ctl V W E)) (hne : cs ≠ []) (weights : Option (List E))
    (hw : ∀ w, weights = some w → w.length = (cs.flatMap fun c => c.obs).length) (index : Idx) (idx : List Nat)
    (h : IdxSelects (cs.flatMap fun c => c.obs).length index idx) :
    plotWeights cs weights index = .ok (idx.map fun k => (cs.flatMap fun c => c.obs).getD k (0, 0),
      idx.map fun k => (weights.map fun w => w.getD k 0).getD 1) := by
  have hsz : sizeOf_ cs = (cs.flatMap fun c => c.obs).length := by simp [sizeOf_, List.length_flatMap]
  have hobs : observed cs index = pick (cs.flatMap fun c => c.obs) index := by
    match cs, hne with
    | [c], _ => simp [observed, Ctl.observed]
    | c :: d :: cs, _ =>
      unfold observed
      simp only
      have : ((c :: d :: cs).mapM fun c => c.observed .all) = (.ok ((c :: d :: cs).map fun c => c.obs)) :=
        mapM_ok _ _ _ fun c _ => rfl
      rw [this]
      simp only [bind, Except.bind]
      congr 1
  unfold plotWeights
  rw [hobs, pick_getD _ (0, 0) index idx h]
  simp only [bind, Except.bind]
  cases weights with
  | none =>
    simp only [Option.getD_none, Option.map_none]
    rw [pick_getD (List.replicate (sizeOf_ cs) (1 : E)) 0 index idx (by simpa [hsz] using h)]
    simp only [Except.ok.injEq, Prod.mk.injEq, true_and]
    apply List.map_congr_left
    intro k hk
    have := h.lt k hk
    rw [List.getD_eq_getElem _ _ (by rw [List.length_replicate]; omega), List.getElem_replicate]
  | some w =>
    simp only [Option.getD_some, Option.map_some]
    rw [pick_getD w 0 index idx (by rw [hw w rfl]; exact h)]

/-! ### Converter.plot -/

theorem converter_arrows (x : XCam E) (cam : ACam E) (uv : List (E × E)) (kwargs : Kwargs E) (s : E) (hs0 : s ≠ 0)
    (h1 : kwargs "angles" = none) (h2 : kwargs "scale_units" = none)
    (h3 : kwargs "scale" = some (.num s) ∨ kwargs "scale" = none ∧ s = 1) :
    ∃ q, converterPlot x cam uv kwargs = .ok q ∧
      q.arrows = some (uv.map fun p => (p, (p.1 + (residualAt x cam p).1, p.2 + (residualAt x cam p).2))) := by
  have e3 : merge converterBase kwargs "scale" = some (.num s) := by
    rcases h3 with h | ⟨h, rfl⟩ <;> simp [merge, converterBase, h]
  have e1 : merge converterBase kwargs "angles" = some (.text "xy") := by simp [merge, converterBase, h1]
  have e2 : merge converterBase kwargs "scale_units" = some (.text "xy") := by simp [merge, converterBase, h2]
  unfold converterPlot
  simp only [e3]
  refine ⟨_, rfl, ?_⟩
  unfold Quiver.arrows
  simp only [e1, e2, e3, Option.some.injEq]
  rw [List.zipWith_map_right, List.zipWith_self]
  apply List.map_congr_left
  intro p _
  simp only [Prod.mk.injEq, true_and]
  constructor
  · rw [mul_div_cancel_left₀ _ hs0]
  · rw [mul_div_cancel_left₀ _ hs0]

/-- C127: `Converter.plot` with an external camera that images are projected out of: for every scale, arrows go from the coordinates in that
camera to those in the camera of the same ray. -/
theorem converter_outgoing (f : E × E → E × E) (cam : ACam E) (uv : List (E × E)) (kwargs : Kwargs E) (s : E) (hs0 : s ≠ 0)
    (h1 : kwargs "angles" = none) (h2 : kwargs "scale_units" = none)
    (h3 : kwargs "scale" = some (.num s) ∨ kwargs "scale" = none ∧ s = 1) :
    ∃ q, converterPlot (.outgoing f) cam uv kwargs = .ok q ∧ q.arrows = some (uv.map fun p => (p, cam.xyToUv (f p))) := by
  obtain ⟨q, hq, ha⟩ := converter_arrows (.outgoing f) cam uv kwargs s hs0 h1 h2 h3
  refine ⟨q, hq, ?_⟩
  rw [ha]
  congr 1
  apply List.map_congr_left
  intro p _
  simp [residualAt, sub2]

/-- C127: with one that is projected into, arrows have the direction and length from its coordinates to those in the camera, of the same ray. -/
theorem converter_incoming_partial (f : E × E → E × E) (cam : ACam E) (uv : List (E × E)) (kwargs : Kwargs E) (s : E) (hs0 : s ≠ 0)
    (h1 : kwargs "angles" = none) (h2 : kwargs "scale_units" = none)
    (h3 : kwargs "scale" = some (.num s) ∨ kwargs "scale" = none ∧ s = 1) :
    ∃ q, converterPlot (.incoming f) cam uv kwargs = .ok q ∧ q.arrows = some (uv.map fun p => (p,
      (p.1 + ((cam.xyToUv (cam.uvToXy p)).1 - (f (cam.uvToXy p)).1), p.2 + ((cam.xyToUv (cam.uvToXy p)).2 - (f (cam.uvToXy p)).2)))) :=
  converter_arrows (.incoming f) cam uv kwargs s hs0 h1 h2 h3

/-- C127 (violated): but with such a camera they start at the coordinates in the camera (and lead away from those in the external camera),
even if it inverts exactly: whenever the two differ, the arrow drawn is not the one from external to own coordinates. -/
theorem converter_incoming_violated (f : E × E → E × E) (cam : ACam E) (p : E × E) (hinv : cam.xyToUv (cam.uvToXy p) = p)
    (hd : f (cam.uvToXy p) ≠ p) :
    ∃ q a, converterPlot (.incoming f) cam [p] (fun _ => none) = .ok q ∧ q.arrows = some [a] ∧ a.1 = p ∧ a.2 ≠ p ∧
      a ≠ (f (cam.uvToXy p), cam.xyToUv (cam.uvToXy p)) := by
  obtain ⟨q, hq, ha⟩ := converter_arrows (.incoming f) cam [p] (fun _ => none) 1 one_ne_zero rfl rfl (Or.inr ⟨rfl, rfl⟩)
  refine ⟨q, _, hq, ha, rfl, ?_, ?_⟩
  · simp only [residualAt, sub2, hinv, ne_eq, Prod.ext_iff, not_and]
    intro h h'
    apply hd
    have g1 : p.1 - (f (cam.uvToXy p)).1 = 0 := by simpa using h
    have g2 : p.2 - (f (cam.uvToXy p)).2 = 0 := by simpa using h'
    exact Prod.ext (sub_eq_zero.mp g1).symm (sub_eq_zero.mp g2).symm
  · intro h
    exact hd (Prod.ext_iff.mp h).1.symm

/-! ### Concrete cases -/

/-- Three points, of which the last is selected. -/
example : ∃ e Q, plotErrors (100 : ℚ) [(1, 2), (3, 4), (5, 6)] (.ok [(1, 3), (4, 4), (7, 9)]) (.ints [-1]) (.color "red") (.color "gray")
    (fun _ => none) = .ok e ∧ e.selected = some Q ∧ Q.arrows = some [((5, 6), (7, 9))] ∧ Q.args "color" = some (.text "red") :=
  plot_errors_default (100 : ℚ) [(1, 2), (3, 4), (5, 6)] [(1, 3), (4, 4), (7, 9)] rfl (.ints [-1]) [2]
    (.cons ⟨by decide, Or.inr rfl⟩ .nil) (by simp)

/-- Two points of a polynomial, of which the first is selected. -/
example : rest 2 [0] = [1] := by decide

/-- An index that selects nothing outside. -/
example : ∀ idx, ¬ IdxSelects 2 (.ints [2]) idx := by
  intro idx h
  cases h with
  | cons h _ => obtain ⟨h1, h2 | h2⟩ := h <;> omega

/-- A control whose plot raises, and parameters that change the cameras. -/
example : ∃ (L : Layout) (V : Vecs ℚ) (ps : List ℚ), L.setCameras ps V ≠ V := by
  refine ⟨⟨1, [[0]], fun _ _ => false, fun _ k => decide (k = 0)⟩, fun _ _ => 0, [1], ?_⟩
  intro h
  have := congrFun (congrFun h 0) 0
  revert this
  decide +kernel

/-- An external camera with double the coordinates. -/
example : ∃ (f : ℚ × ℚ → ℚ × ℚ) (cam : ACam ℚ) (p : ℚ × ℚ), cam.xyToUv (cam.uvToXy p) = p ∧ f (cam.uvToXy p) ≠ p :=
  ⟨fun p => (2 * p.1, 2 * p.2), ⟨id, id⟩, (1, 1), rfl, by decide +kernel⟩

end Glimpse.PlotsControls
