import Verif.Model.CamsFit
import Verif.Props.CamsSet
import Verif.Props.SvgText
import Mathlib.Algebra.BigOperators.Group.List.Basic
import Mathlib.Algebra.BigOperators.Ring.List
import Mathlib.Data.List.GetD
import Mathlib.Tactic.FieldSimp
import Mathlib.Tactic.Ring

/-!
C65: fitting parameters are labelled, initialised and bounded for the camera they are applied to. C66: `fit` leaves the
cameras as it found them. C67: weights are relative. C68: the sparsity rows given to the optimizer are those of the
residuals.
-/
set_option autoImplicit false
set_option linter.unusedSimpArgs false

namespace Glimpse.Cams

/-! ### Specification -/

/-- The name of an element of the camera vector: position, view direction, image size, focal length, principal point offset,
radial and tangential distortion, and the number of the element within these. -/
def elementName (p : Nat) : List Char :=
  if p < 3 then "xyz".toList ++ Svg.natStr p
  else if p < 6 then "viewdir".toList ++ Svg.natStr (p - 3)
  else if p < 8 then "imgsz".toList ++ Svg.natStr (p - 6)
  else if p < 10 then "f".toList ++ Svg.natStr (p - 8)
  else if p < 12 then "c".toList ++ Svg.natStr (p - 10)
  else if p < 18 then "k".toList ++ Svg.natStr (p - 12)
  else "p".toList ++ Svg.natStr (p - 18)

/-- The name of a fitting parameter: camera or group number, attribute and element. -/
def labelOf : Owner → Nat → List Char
  | .group i, p => "group".toList ++ Svg.natStr i ++ '_' :: elementName p
  | .cam j, p => "cam".toList ++ Svg.natStr j ++ '_' :: elementName p

variable {E : Type} [Field E] [LinearOrder E]

/-- Mean of the values of the members of a group. -/
def meanOf (V : Vecs E) (idx : List Nat) (p : Nat) : E := (idx.map fun j => V j p).sum / (idx.length : E)

/-- The parameter for an element of a group or camera: the name, the current value (mean over a group), the bounds. -/
def paramOf (L : Layout) (V : Vecs E) (camB groupB : Nat → Nat → E × E) : Owner × Nat → Param E
  | (.group i, p) => ⟨labelOf (.group i) p, meanOf V (L.groups.getD i []) p, (groupB i p).1, (groupB i p).2⟩
  | (.cam j, p) => ⟨labelOf (.cam j) p, V j p, (camB j p).1, (camB j p).2⟩

/-! ### Parameters -/

theorem selectMask_range {γ : Type} (m : Nat → Bool) (n : Nat) (f : Nat → γ) :
    selectMask m ((List.range n).map f) = ((List.range n).filter m).map f := by
  have h : ((List.range n).map f).zipIdx = (List.range n).map fun k => (f k, k) := by
    refine List.ext_getElem (by simp) ?_
    intro i h1 h2
    simp
  unfold selectMask
  rw [h, List.filter_map, List.map_map]
  rfl

private theorem baseLabels_range : baseLabels = (List.range 20).map fun p => baseLabels.getD p "" := by decide

private theorem baseLabels_name : ∀ p, p < 20 → (baseLabels.getD p "").toList = elementName p := by decide +kernel

private theorem labels_eq (pre : List Char) (i : Nat) (m : Nat → Bool) :
    lmfitLabels pre i m = ((List.range 20).filter m).map fun p =>
      pre ++ Svg.natStr i ++ '_' :: elementName p := by
  unfold lmfitLabels
  rw [baseLabels_range, selectMask_range, List.map_map]
  refine List.map_congr_left ?_
  intro p hp
  show pre ++ Svg.natStr i ++ '_' :: (baseLabels.getD p "").toList = _
  rw [baseLabels_name p (List.mem_range.1 (List.mem_filter.1 hp).1)]

theorem groupValues_eq (V : Vecs E) (m : Nat → Bool) (idx : List Nat) :
    groupValues V m idx = ((List.range 20).filter m).map (meanOf V idx) := by
  unfold groupValues
  refine List.ext_getElem (by simp [countMask]) ?_
  intro k h1 h2
  have hk : k < ((List.range 20).filter m).length := by simpa using h2
  rw [List.getElem_map, List.getElem_map, List.getElem_range]
  unfold meanOf
  congr 2
  rw [List.map_map]
  refine List.map_congr_left ?_
  intro j _
  show (selectMask m (vectorOf (V j))).getD k 0 = _
  unfold vectorOf
  rw [selectMask_range, List.getD_eq_getElem _ _ (by simpa using hk), List.getElem_map]

private theorem zipParams_map (l : List Nat) (a : Nat → List Char) (b : Nat → E) (c : Nat → E × E) :
    zipParams (l.map a) (l.map b) (l.map c) = l.map fun p => ⟨a p, b p, (c p).1, (c p).2⟩ := by
  unfold zipParams
  induction l with
  | nil => rfl
  | cons x l ih => simp only [List.map_cons, List.zip_cons_cons]; rw [ih]

/-- C65. The parameters given to the optimizer are, one for one and in order, those of the layout which `set_cameras`
applies (`Layout.slots`, see `set_cameras_partial`), each with the name, current value and bounds of its element. -/
theorem update_params_spec (L : Layout) (V : Vecs E) (camB groupB : Nat → Nat → E × E) :
    L.updateParams V camB groupB = L.slots.map (paramOf L V camB groupB) := by
  unfold Layout.updateParams Layout.slots
  rw [List.map_append, List.map_flatMap, List.map_flatMap]
  congr 1
  · congr 1
    funext i
    rw [labels_eq, groupValues_eq, selectMask_range, zipParams_map, List.map_map]
    rfl
  · congr 1
    funext i
    unfold vectorOf
    rw [labels_eq, selectMask_range, selectMask_range, zipParams_map, List.map_map]
    rfl

private theorem split_underscore (a b x y : List Char) (ha : '_' ∉ a) (hb : '_' ∉ b) (h : a ++ '_' :: x = b ++ '_' :: y) :
    a = b ∧ x = y := by
  induction a generalizing b with
  | nil =>
    cases b with
    | nil => simp at h; exact ⟨rfl, h⟩
    | cons c b =>
      simp at h
      exact absurd (by rw [← h.1]; exact List.mem_cons_self) hb
  | cons c a ih =>
    cases b with
    | nil =>
      simp at h
      exact absurd (by rw [h.1]; exact List.mem_cons_self) ha
    | cons d b =>
      simp only [List.cons_append, List.cons.injEq] at h
      obtain ⟨rfl, h⟩ := h
      obtain ⟨rfl, h2⟩ := ih b (fun h => ha (List.mem_cons_of_mem _ h)) (fun h => hb (List.mem_cons_of_mem _ h)) h
      exact ⟨rfl, h2⟩

private theorem natStr_no_underscore (n : Nat) : '_' ∉ Svg.natStr n := by
  intro h
  have := (Svg.natStr_digits n).2 _ h
  revert this; decide

private theorem natStr_inj (a b : Nat) (h : Svg.natStr a = Svg.natStr b) : a = b := by
  have := congrArg Svg.natOf h
  rwa [Svg.natOf_natStr, Svg.natOf_natStr] at this

private theorem base_inj (p q : Nat) (hp : p < 20) (hq : q < 20)
    (h : elementName p = elementName q) : p = q := by
  have key : ∀ p, p < 20 → ∀ q, q < 20 → elementName p = elementName q → p = q := by
    decide +kernel
  exact key p hp q hq h

private theorem label_inj (o o' : Owner) (p q : Nat) (hp : p < 20) (hq : q < 20) (h : labelOf o p = labelOf o' q) :
    (o, p) = (o', q) := by
  have nu : ∀ (w : List Char) (n : Nat), '_' ∉ w → '_' ∉ w ++ Svg.natStr n := by
    intro w n hw hm
    rcases List.mem_append.1 hm with h | h
    · exact hw h
    · exact natStr_no_underscore n h
  have g : '_' ∉ "group".toList := by decide
  have c : '_' ∉ "cam".toList := by decide
  cases o with
  | group i =>
    cases o' with
    | group i' =>
      obtain ⟨h1, h2⟩ := split_underscore _ _ _ _ (nu _ i g) (nu _ i' g) h
      rw [natStr_inj i i' (List.append_cancel_left h1), base_inj p q hp hq h2]
    | cam j =>
      obtain ⟨h1, _⟩ := split_underscore _ _ _ _ (nu _ i g) (nu _ j c) h
      simp at h1
  | cam j =>
    cases o' with
    | group i =>
      obtain ⟨h1, _⟩ := split_underscore _ _ _ _ (nu _ j c) (nu _ i g) h
      simp at h1
    | cam j' =>
      obtain ⟨h1, h2⟩ := split_underscore _ _ _ _ (nu _ j c) (nu _ j' c) h
      rw [natStr_inj j j' (List.append_cancel_left h1), base_inj p q hp hq h2]

private theorem slot_lt (L : Layout) (x : Owner × Nat) (h : x ∈ L.slots) : x.2 < 20 := by
  unfold Layout.slots at h
  rcases List.mem_append.1 h with h | h
  · obtain ⟨i, _, h⟩ := List.mem_flatMap.1 h
    obtain ⟨p, hp, rfl⟩ := List.mem_map.1 h
    exact List.mem_range.1 (List.mem_filter.1 hp).1
  · obtain ⟨i, _, h⟩ := List.mem_flatMap.1 h
    obtain ⟨p, hp, rfl⟩ := List.mem_map.1 h
    exact List.mem_range.1 (List.mem_filter.1 hp).1

/-- C65. No two parameters have the same name, so that none replaces another in the dictionary that lmfit keeps. -/
theorem update_params_names (L : Layout) (V : Vecs E) (camB groupB : Nat → Nat → E × E) :
    ((L.updateParams V camB groupB).map Param.name).Nodup := by
  rw [update_params_spec, List.map_map]
  refine List.Nodup.map_on ?_ (slots_nodup L)
  intro x hx y hy h
  have e : ∀ z : Owner × Nat, (Param.name ∘ paramOf L V camB groupB) z = labelOf z.1 z.2 := by
    rintro ⟨o, p⟩; cases o <;> rfl
  rw [e, e] at h
  have := label_inj x.1 y.1 x.2 y.2 (slot_lt L x hx) (slot_lt L y hy) h
  exact this

variable [IsStrictOrderedRing E]

private theorem mean_agree (V : Vecs E) (idx : List Nat) (p j : Nat) (hj : j ∈ idx)
    (h : ∀ k ∈ idx, V k p = V j p) : meanOf V idx p = V j p := by
  have e : idx.map (fun k => V k p) = List.replicate idx.length (V j p) := by
    rw [List.eq_replicate_iff]
    refine ⟨by simp, ?_⟩
    intro x hx
    obtain ⟨k, hk, rfl⟩ := List.mem_map.1 hx
    exact h k hk
  have hl : (idx.length : E) ≠ 0 := by
    have : idx.length ≠ 0 := by intro h0; rw [List.length_eq_zero_iff] at h0; subst h0; cases hj
    exact_mod_cast this
  unfold meanOf
  rw [e, List.sum_replicate, nsmul_eq_mul]
  field_simp

/-- C65. Applying the initial values changes no camera, when the cameras of each group agree on the parameters of the
group. -/
theorem initial_values_identity (L : Layout) (hL : L.Ok) (htest : L.testOverlap = .ok ()) (V : Vecs E)
    (camB groupB : Nat → Nat → E × E)
    (hag : ∀ i p, (Owner.group i, p) ∈ L.slots → ∀ j ∈ L.groups.getD i [], ∀ k ∈ L.groups.getD i [], V j p = V k p) :
    L.setCameras ((L.updateParams V camB groupB).map Param.value) V = V := by
  have hval : (L.updateParams V camB groupB).map Param.value = L.slots.map fun s => (paramOf L V camB groupB s).value := by
    rw [update_params_spec, List.map_map]; rfl
  rw [hval]
  have hlen : (L.slots.map fun s => (paramOf L V camB groupB s).value).length = L.slots.length := by simp
  obtain ⟨h1, h2, h3⟩ := set_cameras_partial L hL htest _ hlen V
  funext j p
  by_cases hg : ∃ g ∈ L.groups, j ∈ g
  · by_cases hc : (Owner.cam j, p) ∈ L.slots
    · obtain ⟨k, hk⟩ := List.mem_iff_getElem?.1 hc
      have := h1 k j p hk hg
      rw [List.getElem?_map, hk] at this
      exact (Option.some.inj this).symm
    · by_cases hgr : ∃ i, j ∈ L.groups.getD i [] ∧ (Owner.group i, p) ∈ L.slots
      · obtain ⟨i, hj, hs⟩ := hgr
        obtain ⟨k, hk⟩ := List.mem_iff_getElem?.1 hs
        have := h2 k i p hk j hj hc
        rw [List.getElem?_map, hk] at this
        rw [← Option.some.inj this]
        exact mean_agree V _ p j hj fun k hk => hag i p hs k hk j hj
      · push Not at hgr
        exact h3 j p hc hgr
  · push Not at hg
    rw [set_cameras_no_group_violated L hL _ hlen V j hg]

omit [IsStrictOrderedRing E] in
private theorem foldl_max_le {γ : Type} (f : γ → E) (l : List γ) (a x : E) :
    l.foldl (fun a k => max a (f k)) a ≤ x ↔ a ≤ x ∧ ∀ k ∈ l, f k ≤ x := by
  induction l generalizing a with
  | nil => simp
  | cons k l ih => rw [List.foldl_cons, ih]; simp only [max_le_iff, List.forall_mem_cons]; tauto

omit [IsStrictOrderedRing E] in
private theorem le_foldl_min {γ : Type} (f : γ → E) (l : List γ) (a x : E) :
    x ≤ l.foldl (fun a k => min a (f k)) a ↔ x ≤ a ∧ ∀ k ∈ l, x ≤ f k := by
  induction l generalizing a with
  | nil => simp
  | cons k l ih => rw [List.foldl_cons, ih]; simp only [le_min_iff, List.forall_mem_cons]; tauto

omit [IsStrictOrderedRing E] in
/-- C65. A value is within the default bounds of a group exactly if it is within the bounds of each of its cameras. -/
theorem group_bounds_iff (camB : Nat → Nat → E × E) (idx : List Nat) (hne : idx ≠ []) (p : Nat) (x : E) :
    ((groupDefault camB idx p).1 ≤ x ∧ x ≤ (groupDefault camB idx p).2) ↔
      ∀ j ∈ idx, (camB j p).1 ≤ x ∧ x ≤ (camB j p).2 := by
  cases idx with
  | nil => exact absurd rfl hne
  | cons j js =>
    unfold groupDefault
    simp only
    rw [foldl_max_le fun k => (camB k p).1, le_foldl_min fun k => (camB k p).2]
    simp only [List.forall_mem_cons]
    constructor
    · rintro ⟨⟨a, b⟩, c, d⟩; exact ⟨⟨a, c⟩, fun k hk => ⟨b k hk, d k hk⟩⟩
    · rintro ⟨⟨a, c⟩, h⟩; exact ⟨⟨a, fun k hk => (h k hk).1⟩, c, fun k hk => (h k hk).2⟩

/-- Two cameras, their positions separate and their view directions together. -/
def fitDemo : Layout := ⟨2, [[0, 1]], fun _ p => decide (3 ≤ p ∧ p < 6), fun _ p => decide (p < 3)⟩

example : ((fitDemo.updateParams (fun j p => ((if p < 3 then 10 * j + p else p : Nat) : ℚ)) (fun _ _ => (0, 9))
    (fun _ _ => (1, 2))).map fun (q : Param ℚ) => (String.ofList q.name, q.value, q.lo)) =
    [("group0_viewdir0", 3, 1), ("group0_viewdir1", 4, 1), ("group0_viewdir2", 5, 1), ("cam0_xyz0", 0, 0), ("cam0_xyz1", 1, 0),
     ("cam0_xyz2", 2, 0), ("cam1_xyz0", 10, 0), ("cam1_xyz1", 11, 0), ("cam1_xyz2", 12, 0)] := by decide +kernel

example : fitDemo.Ok ∧ fitDemo.testOverlap = .ok () := by
  refine ⟨?_, by decide +kernel⟩
  intro g hg j hj
  simp [fitDemo] at hg
  subst hg
  simp at hj
  rcases hj with rfl | rfl <;> simp [fitDemo]

example : groupDefault (E := ℚ) (fun j _ => if j = 0 then (-2, 4) else (-1, 6)) [0, 1] 10 = (-1, 4) := by decide +kernel

/-- Bounds of cameras that exclude each other leave a group without any admissible value (minimum above maximum). -/
theorem group_bounds_empty_violated :
    groupDefault (E := ℚ) (fun j _ => if j = 0 then (-2, -1) else (1, 2)) [0, 1] 10 = (1, -1) := by decide +kernel

/-! ### Weights -/

/-- C67. Weights are scaled to a mean of one, keeping their ratios. -/
theorem weights_spec (w w' : List E) (h : normalizeWeights w = some w') :
    w'.sum = w.length ∧ w'.length = w.length ∧
    ∀ i k, w'.getD i 0 * w.getD k 0 = w'.getD k 0 * w.getD i 0 := by
  unfold normalizeWeights at h
  split at h
  · cases h
  · rename_i hs
    cases h
    refine ⟨?_, by simp, ?_⟩
    · have : (w.map fun x => x * (w.length : E) / w.sum) = w.map fun x => x * ((w.length : E) / w.sum) := by
        refine List.map_congr_left ?_
        intro x _; ring
      rw [this, List.sum_map_mul_right, List.map_id']
      field_simp
    · intro i k
      have e : ∀ n : Nat, (w.map fun x => x * (w.length : E) / w.sum).getD n 0 = w.getD n 0 * (w.length : E) / w.sum := by
        intro n
        rw [List.getD_eq_getElem?_getD, List.getElem?_map, List.getD_eq_getElem?_getD]
        cases w[n]? <;> simp
      rw [e, e]; ring

/-- C67. Only the ratios matter. -/
theorem weights_scale (w : List E) (c : E) (hc : c ≠ 0) : normalizeWeights (w.map (c * ·)) = normalizeWeights w := by
  unfold normalizeWeights
  have hs : (w.map (c * ·)).sum = c * w.sum := by rw [List.sum_map_mul_left, List.map_id']
  rw [hs]
  by_cases h : w.sum = 0
  · simp [h]
  · rw [if_neg (mul_ne_zero hc h), if_neg h, List.map_map, List.length_map]
    congr 1
    refine List.map_congr_left ?_
    intro x _
    show c * x * (w.length : E) / (c * w.sum) = _
    field_simp

/-- C67. Equal weights count as no weights: each is one. -/
theorem weights_equal (n : Nat) (c : E) (hn : 0 < n) (hc : c ≠ 0) :
    normalizeWeights (List.replicate n c) = some (List.replicate n 1) := by
  unfold normalizeWeights
  have hn' : (n : E) ≠ 0 := by exact_mod_cast hn.ne'
  have hs : (List.replicate n c).sum = n * c := by rw [List.sum_replicate, nsmul_eq_mul]
  rw [hs, if_neg (mul_ne_zero hn' hc), List.map_replicate, List.length_replicate]
  congr 2
  field_simp

omit [IsStrictOrderedRing E] in
/-- C67. Weights that sum to zero are refused (by becoming infinite or NaN) and no others. -/
theorem weights_none_iff (w : List E) : normalizeWeights w = none ↔ w.sum = 0 := by
  unfold normalizeWeights
  split <;> simp_all

example : normalizeWeights [1, 2, 3, (2 : ℚ)] = some [1 / 2, 1, 3 / 2, 1] := by decide +kernel

/-! ### Fit -/

variable {α ρ : Type} (L : Layout)

private theorem minimize_ok (pred : Vecs α → Except Err ρ) (st : Strat α ρ) (V : Vecs α) (r : Option (List α))
    (h : (L.minimize pred st V).1 = .ok r) : (L.minimize pred st V).2 = V := by
  induction st with
  | done res => rfl
  | eval ps next ih =>
    unfold Layout.minimize at h ⊢
    cases e : L.predicted pred (some ps) V with
    | mk a V' =>
      cases a with
      | error er => rw [e] at h; cases h
      | ok r' =>
        have : V' = V := by
          have := (predicted_restores_partial L pred ps V r' (by rw [e])).2
          rwa [e] at this
        subst this
        rw [e] at h
        exact ih r' h

/-- C66. `fit` without iterations: whatever the optimizer does, if it returns, the cameras and their saved state are as
they were. -/
theorem fit_restores_partial (pred : Vecs α → Except Err ρ) (solve : Solver α ρ) (s : CState α) (r : Option (List α))
    (h : (L.fit pred solve [] s).1 = .ok r) : (L.fit pred solve [] s).2 = s := by
  unfold Layout.fit iterLoop at h ⊢
  simp only at h ⊢
  cases e : L.minimize pred (solve L s.vecs) s.vecs with
  | mk a V' =>
    rw [e] at h
    cases a with
    | error er => cases h
    | ok r' =>
      have := minimize_ok L pred (solve L s.vecs) s.vecs r' (by rw [e])
      rw [e] at this
      simp only at this
      simp [this]

/-- C66. `fit` with iterations resets the cameras to their saved state, which is the state before it if the cameras were
not changed since the model was made (or since the last save). -/
theorem fit_iterations_partial (pred : Vecs α → Except Err ρ) (solve : Solver α ρ) (iters : List Layout) (s : CState α)
    (r : Option (List α)) (hne : iters ≠ []) (h : (L.fit pred solve iters s).1 = .ok r) :
    (L.fit pred solve iters s).2 = ⟨s.saved, s.saved⟩ := by
  unfold Layout.fit at h ⊢
  cases e : iterLoop pred solve iters s.vecs with
  | mk a V =>
    rw [e] at h
    cases a with
    | error er => cases h
    | ok u =>
      simp only at h ⊢
      cases e2 : L.minimize pred (solve L V) V with
      | mk b V' =>
        rw [e2] at h
        cases b with
        | error er => cases h
        | ok r' => simp [hne]

/-- C66 fails: with iterations, changes made to the cameras since the model was made (and not saved) are lost. -/
theorem fit_iterations_violated : ∃ (L L' : Layout) (pred : Vecs ℚ → Except Err Unit) (solve : Solver ℚ Unit) (s : CState ℚ),
    (L.fit pred solve [L'] s).1 = .ok none ∧ (L.fit pred solve [L'] s).2.vecs 0 0 ≠ s.vecs 0 0 := by
  refine ⟨fitDemo, fitDemo, fun _ => .ok (), fun _ _ => .done none, ⟨fun _ _ => 1, fun _ _ => 0⟩, rfl, ?_⟩
  show (0 : ℚ) ≠ 1
  decide

/-- C66 fails: if the residuals raise during the fit (for instance because the camera has moved away from ray
directions), the cameras keep the parameters of the failed evaluation. -/
theorem fit_raises_violated : ∃ (L : Layout) (pred : Vecs ℚ → Except Err Unit) (solve : Solver ℚ Unit) (s : CState ℚ),
    (L.fit pred solve [] s).1 = .error .valueError ∧ (L.fit pred solve [] s).2.vecs 0 0 ≠ s.vecs 0 0 := by
  refine ⟨fitDemo, fun _ => .error .valueError, fun _ _ => .eval (List.replicate 9 7) fun _ => .done none,
    ⟨fun _ _ => 0, fun _ _ => 0⟩, rfl, ?_⟩
  have : (fitDemo.fit (fun _ => .error .valueError) (fun _ _ => .eval (List.replicate 9 (7 : ℚ)) fun _ => (.done none : Strat ℚ Unit)) []
    ⟨fun _ _ => 0, fun _ _ => 0⟩).2.vecs 0 0 = 7 := by decide +kernel
  rw [this]
  decide

/-- The saved state of the cameras is never changed by `fit`. -/
theorem fit_saved (pred : Vecs α → Except Err ρ) (solve : Solver α ρ) (iters : List Layout) (s : CState α) :
    (L.fit pred solve iters s).2.saved = s.saved := by
  unfold Layout.fit
  cases e : iterLoop pred solve iters s.vecs with
  | mk a V =>
    cases a with
    | error er => rfl
    | ok u =>
      simp only
      cases e2 : L.minimize pred (solve L V) V with
      | mk b V' =>
        cases b with
        | error er => rfl
        | ok r' => simp only; split <;> rfl

/-- C66. Each iteration that succeeds moves the cameras to its result (seen as `set_cameras` of the layout of that iteration,
with what the optimizer returned from the cameras left by the iterations before), one that does not leaves them, and the
final run starts from the last of these. `W` are the cameras before each iteration and before the final run. -/
theorem fit_iterations_chain (pred : Vecs α → Except Err ρ) (solve : Solver α ρ) (iters : List Layout) (s : CState α)
    (r : Option (List α)) (h : (L.fit pred solve iters s).1 = .ok r) :
    ∃ W : Nat → Vecs α, W 0 = s.vecs ∧
      (∀ i (hi : i < iters.length), ∃ res, (iters[i].minimize pred (solve iters[i] (W i)) (W i)).1 = .ok res ∧
        W (i + 1) = match res with
          | some values => iters[i].setCameras values (iters[i].minimize pred (solve iters[i] (W i)) (W i)).2
          | none => (iters[i].minimize pred (solve iters[i] (W i)) (W i)).2) ∧
      (L.minimize pred (solve L (W iters.length)) (W iters.length)).1 = .ok r := by
  have loop : ∀ (ls : List Layout) (V V' : Vecs α), iterLoop pred solve ls V = (.ok (), V') →
      ∃ W : Nat → Vecs α, W 0 = V ∧ (∀ i (hi : i < ls.length), ∃ res, (ls[i].minimize pred (solve ls[i] (W i)) (W i)).1 = .ok res ∧
        W (i + 1) = match res with
          | some values => ls[i].setCameras values (ls[i].minimize pred (solve ls[i] (W i)) (W i)).2
          | none => (ls[i].minimize pred (solve ls[i] (W i)) (W i)).2) ∧ W ls.length = V' := by
    intro ls
    induction ls with
    | nil =>
      intro V V' h
      cases h
      exact ⟨fun _ => V, rfl, fun i hi => absurd hi (by simp), rfl⟩
    | cons a ls ih =>
      intro V V' h
      unfold iterLoop at h
      cases e : iterStep pred solve a V with
      | mk x V1 =>
        rw [e] at h
        cases x with
        | error er => cases h
        | ok u =>
          obtain ⟨W, w0, w1, w2⟩ := ih V1 V' h
          refine ⟨fun i => match i with | 0 => V | i + 1 => W i, rfl, ?_, ?_⟩
          · intro i hi
            cases i with
            | succ i => exact w1 i (by simpa using hi)
            | zero =>
              show ∃ res, (a.minimize pred (solve a V) V).1 = .ok res ∧ W 0 = match res with
                | some values => a.setCameras values (a.minimize pred (solve a V) V).2
                | none => (a.minimize pred (solve a V) V).2
              rw [w0]
              unfold iterStep at e
              cases e2 : a.minimize pred (solve a V) V with
              | mk y V2 =>
                rw [e2] at e
                cases y with
                | error er => cases e
                | ok res =>
                  refine ⟨res, rfl, ?_⟩
                  cases res with
                  | none => cases e; rfl
                  | some v => cases e; rfl
          · show W ls.length = V'
            exact w2
  unfold Layout.fit at h
  cases e : iterLoop pred solve iters s.vecs with
  | mk a V =>
    rw [e] at h
    cases a with
    | error er => cases h
    | ok u =>
      obtain ⟨W, w0, w1, w2⟩ := loop iters s.vecs V e
      refine ⟨W, w0, w1, ?_⟩
      rw [w2]
      simp only at h
      cases e2 : L.minimize pred (solve L V) V with
      | mk y V2 =>
        rw [e2] at h
        cases y with
        | error er => cases h
        | ok r' => cases h; rfl

/-- The iterations of `fit` ignore the groups of the model: whatever the groups, an iteration gives all cameras the same
value of each element in the parameters of the first group, ... -/
theorem fit_iteration_groups_violated (ncams : Nat) (groupMask camMask : Nat → Nat → Bool) (values : List α)
    (hlen : values.length = (iterLayout ncams groupMask camMask).slots.length) (V : Vecs α) (p : Nat) (hp : p < 20)
    (hg : groupMask 0 p = true) (j k : Nat) (hj : j < ncams) (hk : k < ncams) (hcj : camMask j p = false)
    (hck : camMask k p = false) :
    (iterLayout ncams groupMask camMask).setCameras values V j p =
      (iterLayout ncams groupMask camMask).setCameras values V k p := by
  have hL : (iterLayout ncams groupMask camMask).Ok := by
    intro g hg j hj
    simp [iterLayout] at hg
    subst hg
    exact List.mem_range.1 hj
  have htest : (iterLayout ncams groupMask camMask).testOverlap = .ok () := by
    unfold Layout.testOverlap
    rw [if_pos]
    rw [List.all_eq_true]
    intro q _
    simp only [Bool.or_eq_true, decide_eq_true_eq]
    left
    have : (iterLayout ncams groupMask camMask).groups.length = 1 := rfl
    rw [this]
    exact le_trans (List.length_filter_le _ _) (by simp)
  obtain ⟨_, h2, _⟩ := set_cameras_partial _ hL htest values hlen V
  have hs : (Owner.group 0, p) ∈ (iterLayout ncams groupMask camMask).slots := by
    unfold Layout.slots
    simp [iterLayout, hp, hg]
  have hn : ∀ c, camMask c p = false → (Owner.cam c, p) ∉ (iterLayout ncams groupMask camMask).slots := by
    intro c hc
    unfold Layout.slots
    simp [iterLayout, hc]
  obtain ⟨n, hn'⟩ := List.mem_iff_getElem?.1 hs
  have a := h2 n 0 p hn' j (by simp [iterLayout, hj]) (hn j hcj)
  have b := h2 n 0 p hn' k (by simp [iterLayout, hk]) (hn k hck)
  rw [a] at b
  exact Option.some.inj b

/-- ... and no parameter of any other group. -/
theorem fit_iteration_other_groups_violated (ncams : Nat) (groupMask camMask : Nat → Nat → Bool) (i p : Nat) (hi : i ≠ 0) :
    (Owner.group i, p) ∉ (iterLayout ncams groupMask camMask).slots := by
  unfold Layout.slots
  simp [iterLayout]
  omega

example : (iterLayout 2 (fun i p => decide (p = i)) (fun _ _ => false)).slots = [(.group 0, 0)] := by decide +kernel

/-! ### Sparsity rows -/

private theorem resolve_double (n : Nat) (i : ℤ) (k : Nat) (h : resolveIn n i = some k) :
    resolveIn (2 * n) (2 * i) = some (2 * k) ∧ resolveIn (2 * n) (2 * i + 1) = some (2 * k + 1) := by
  unfold resolveIn at h ⊢
  split at h
  · rename_i h1
    cases h
    constructor
    · rw [if_pos (by push_cast; omega)]; congr 1; omega
    · rw [if_pos (by push_cast; omega)]; congr 1; omega
  · split at h
    · rename_i h1 h2
      cases h
      constructor
      · rw [if_neg (by omega), if_pos (by push_cast; omega)]; congr 1; push_cast; omega
      · rw [if_neg (by omega), if_pos (by push_cast; omega)]; congr 1; push_cast; omega
    · cases h

private theorem flat_length {γ : Type} (r : List (γ × γ)) : (r.flatMap fun p => [p.1, p.2]).length = 2 * r.length := by
  induction r with
  | nil => rfl
  | cons a r ih => simp only [List.flatMap_cons, List.length_append, ih, List.length_cons, List.length_nil]; omega

private theorem flat_get {γ : Type} (r : List (γ × γ)) (k : Nat) :
    (r.flatMap fun p => [p.1, p.2])[2 * k]? = r[k]?.map (·.1) ∧
    (r.flatMap fun p => [p.1, p.2])[2 * k + 1]? = r[k]?.map (·.2) := by
  induction r generalizing k with
  | nil => simp
  | cons a r ih =>
    cases k with
    | zero => simp
    | succ k =>
      obtain ⟨h1, h2⟩ := ih k
      constructor
      · show (a.1 :: a.2 :: (r.flatMap fun p => [p.1, p.2]))[2 * k + 1 + 1]? = _
        simpa using h1
      · show (a.1 :: a.2 :: (r.flatMap fun p => [p.1, p.2]))[2 * k + 1 + 1 + 1]? = _
        simpa using h2

/-- C68. For an index of integers (negative ones count from the end), the rows of the sparsity matrix given to the
optimizer are those of the residuals it will see: selecting rows from the full list of residuals gives the residuals at
the index, in the same order. -/
theorem sparsity_rows_partial {γ : Type} (r : List (γ × γ)) (index : List ℤ) (out : List γ)
    (h : flatResiduals r index = some out) :
    takeRows (r.flatMap fun p => [p.1, p.2]) (jacRows index) = some out := by
  unfold flatResiduals takeRows jacRows at *
  rw [flat_length]
  induction index generalizing out with
  | nil => simpa using h
  | cons i index ih =>
    rw [List.mapM_cons] at h
    cases e : resolveIn r.length i with
    | none => rw [e] at h; simp at h
    | some k =>
      rw [e] at h
      simp only [Option.bind_some] at h
      cases e2 : r[k]? with
      | none => rw [e2] at h; simp at h
      | some p =>
        rw [e2] at h
        cases e3 : index.mapM (fun i => (resolveIn r.length i).bind fun k => r[k]?) with
        | none => rw [e3] at h; simp at h
        | some l =>
          rw [e3] at h
          simp at h
          have := ih (l.flatMap fun p => [p.1, p.2]) (by rw [e3]; rfl)
          obtain ⟨d1, d2⟩ := resolve_double _ i k e
          obtain ⟨g1, g2⟩ := flat_get r k
          rw [e2] at g1 g2
          rw [List.flatMap_cons, List.cons_append, List.cons_append, List.nil_append, List.mapM_cons, List.mapM_cons,
            this, d1, d2]
          simp only [Option.bind_some, g1, g2, Option.map_some]
          simp [← h]

example : flatResiduals [((10 : ℤ), (11 : ℤ)), (20, 21), (30, 31)] [2, -3] = some [30, 31, 10, 11] ∧ jacRows [2, -3] = [4, 5, -6, -5] := by
  decide +kernel

/-- C68: what the rows are for a boolean index: those of the first or the second observation, over and over. -/
theorem fit_mask_rows (mask : List Bool) : jacRowsBool mask = mask.flatMap fun b => if b then [2, 3] else [0, 1] := by
  unfold jacRowsBool jacRows
  rw [List.flatMap_map]
  refine List.flatMap_congr fun b _ => ?_
  cases b <;> rfl

/-- C68 fails for a boolean index: it always gives two rows for each entry, whether selected or not, so that unless all are
selected there are more rows than residuals. -/
theorem sparsity_rows_bool_violated {γ : Type} (r : List (γ × γ)) (mask : List Bool) (hlen : mask.length = r.length)
    (hmask : false ∈ mask) : (flatResidualsBool r mask).length < (jacRowsBool mask).length := by
  have h1 : ∀ l : List ℤ, (jacRows l).length = 2 * l.length := by
    intro l
    unfold jacRows
    induction l with
    | nil => rfl
    | cons a l ih => simp only [List.flatMap_cons, List.length_append, ih, List.length_cons, List.length_nil]; omega
  have h2 : ∀ l : List ((γ × γ) × Bool), (l.flatMap fun x => [x.1.1, x.1.2]).length = 2 * l.length := by
    intro l
    induction l with
    | nil => rfl
    | cons a l ih => simp only [List.flatMap_cons, List.length_append, ih, List.length_cons, List.length_nil]; omega
  unfold jacRowsBool flatResidualsBool
  rw [h1, h2, List.length_map]
  have h3 : ((r.zip mask).filter fun x => x.2).length < (r.zip mask).length := by
    refine List.length_filter_lt_length_iff_exists.2 ?_
    obtain ⟨k, hk⟩ := List.mem_iff_getElem?.1 hmask
    have hk' : k < r.length := by
      rw [← hlen]
      by_contra hc
      rw [List.getElem?_eq_none (by omega)] at hk; cases hk
    refine ⟨(r[k], false), ?_, by simp⟩
    rw [List.mem_iff_getElem?]
    exact ⟨k, by rw [List.getElem?_zip_eq_some]; exact ⟨List.getElem?_eq_getElem hk', hk⟩⟩
  rw [List.length_zip] at h3
  omega

end Glimpse.Cams
