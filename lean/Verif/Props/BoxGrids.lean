import Verif.Model.BoxGrids
import Verif.Props.Boxes
import Verif.Props.PolygonMask
import Verif.Lemmas.ExceptList
import Mathlib.Data.List.GetD

/-!
`helpers.box_to_grid` in all modes and any number of dimensions, `grid_to_points` and `box_to_polygon`: C120.
-/
set_option autoImplicit false
set_option linter.unusedSimpArgs false
set_option linter.unusedSectionVars false

namespace Glimpse.BoxGrids

/-! ### Specification -/

/-- A coordinate of the grid: in the closed interval, and a whole number of steps from the snap coordinate. -/
def OnAxis (lo hi step snap x : ℚ) : Prop := lo ≤ x ∧ x ≤ hi ∧ ∃ k : ℤ, x = snap + k * step

/-- A point of the grid: as many coordinates as the box has dimensions, each on its axis. -/
def OnGrid (n : Nat) (lo hi step snap : Nat → ℚ) (p : List ℚ) : Prop :=
  p.length = n ∧ ∀ i < n, OnAxis (lo i) (hi i) (step i) (snap i) (p.getD i 0)

/-- The step along an axis. -/
def stepAt : Step → Nat → ℚ
  | .all s, _ => s
  | .each l, i => l.getD i 0

/-- Steps for a box of `n` dimensions: one for all, or one for each. -/
def StepsFor (n : Nat) : Step → Prop
  | .all _ => True
  | .each l => l.length = n

/-- Where in memory the cell with these indices is (the last index fastest). -/
def place : List Nat → List Nat → Nat
  | n :: shape, i :: index => i * (shape.foldr (· * ·) 1) + place shape index
  | _, _ => 0

/-! ### Cartesian product -/

theorem mem_cart (arrays : List (List ℚ)) (p : List ℚ) :
    p ∈ cart arrays ↔ p.length = arrays.length ∧ ∀ i < arrays.length, p.getD i 0 ∈ arrays.getD i [] := by
  induction arrays generalizing p with
  | nil => simp [cart]
  | cons a r ih =>
    simp only [cart, List.mem_flatMap, List.mem_map]
    constructor
    · rintro ⟨v, hv, q, hq, rfl⟩
      obtain ⟨h1, h2⟩ := (ih q).mp hq
      refine ⟨by simp [h1], ?_⟩
      intro i hi
      cases i with
      | zero => simpa using hv
      | succ i => simpa using h2 i (by simpa using hi)
    · rintro ⟨h1, h2⟩
      cases p with
      | nil => simp at h1
      | cons v q =>
        refine ⟨v, by simpa using h2 0 (by simp), q, (ih q).mpr ⟨by simpa using h1, ?_⟩, rfl⟩
        intro i hi
        simpa using h2 (i + 1) (by simpa using hi)

theorem nodup_cart (arrays : List (List ℚ)) (h : ∀ a ∈ arrays, a.Nodup) : (cart arrays).Nodup := by
  induction arrays with
  | nil => simp [cart]
  | cons a r ih =>
    simp only [cart]
    rw [List.nodup_flatMap]
    constructor
    · intro v _
      exact (ih fun b hb => h b (List.mem_cons_of_mem _ hb)).map (fun _ _ e => by simpa using e)
    · refine (h a List.mem_cons_self).imp ?_
      intro s t hst p hp hp'
      simp only [List.mem_map] at hp hp'
      obtain ⟨q, _, rfl⟩ := hp
      obtain ⟨q', _, e⟩ := hp'
      exact hst (by simpa using (congrArg (fun l => l.head?) e).symm)

theorem length_cart (arrays : List (List ℚ)) : (cart arrays).length = (arrays.map List.length).foldr (· * ·) 1 := by
  induction arrays with
  | nil => simp [cart]
  | cons a r ih =>
    simp only [cart, List.length_flatMap, List.length_map, List.map_cons, List.foldr_cons, ← ih]
    simp [List.map_const', List.sum_replicate]

/-- The cell at given indices of the product. -/
theorem cart_place (arrays : List (List ℚ)) (index : List Nat) (hl : index.length = arrays.length)
    (hi : ∀ i < arrays.length, index.getD i 0 < (arrays.getD i []).length) :
    (cart arrays)[place (arrays.map List.length) index]? =
      some ((List.range arrays.length).map fun (i : Nat) => (arrays.getD i []).getD (index.getD i 0) 0) := by
  induction arrays generalizing index with
  | nil => simp [cart, place]
  | cons a r ih =>
    cases index with
    | nil => simp at hl
    | cons k index =>
      have hk : k < a.length := by simpa using hi 0 (by simp)
      have hr := ih index (by simpa using hl) (fun i h => by simpa using hi (i + 1) (by simpa using h))
      have hlen : ∀ (l : List ℚ) (k : Nat) (m : Nat), k < l.length → m < (cart r).length →
          (l.flatMap fun v => (cart r).map fun p => v :: p)[k * (cart r).length + m]? =
            ((cart r)[m]?).map fun p => l.getD k 0 :: p := by
        intro l
        induction l with
        | nil => intro k m hk; simp at hk
        | cons v l ihl =>
          intro k m hk hm
          rw [List.flatMap_cons]
          cases k with
          | zero =>
            rw [List.getElem?_append_left (by simpa using hm)]
            simp
          | succ k =>
            rw [List.getElem?_append_right (by simp; nlinarith)]
            have : (k + 1) * (cart r).length + m - ((cart r).map fun p => v :: p).length = k * (cart r).length + m := by
              simp only [List.length_map]
              rw [Nat.add_mul, Nat.one_mul]; omega
            rw [this, ihl k m (by simpa using hk) hm]
            simp
      have hm : place (r.map List.length) index < (cart r).length := by
        by_contra hc
        rw [List.getElem?_eq_none (by omega)] at hr
        cases hr
      simp only [cart, List.map_cons, place, ← length_cart]
      rw [hlen a k _ hk hm, hr, List.length_cons, List.range_succ_eq_map]
      simp [Function.comp_def]

/-! ### `grid_to_points` -/

/-- C120: as many points as the arrays have cells, in their order; the coordinates of a point are the values of the arrays in its cell. -/
theorem points_of_grid (g : Nd) (r : List Nd) (h : ∀ a ∈ r, a.shape = g.shape) :
    ∃ ps : List (List ℚ), gridToPoints (g :: r) = .ok ps ∧ ps.length = g.flat.length ∧
      ∀ (k : Nat), k < g.flat.length → ∃ p : List ℚ, ps[k]? = some p ∧ p.length = r.length + 1 ∧
        ∀ (i : Nat) (a : Nd), (g :: r)[i]? = some a → p[i]? = some (a.flat.getD k 0) := by
  refine ⟨_, by rw [gridToPoints, if_pos (by simpa using h)], by simp, ?_⟩
  intro k hk
  refine ⟨_, by rw [List.getElem?_map, List.getElem?_range hk]; rfl, by simp, ?_⟩
  intro i a ha
  rw [List.getElem?_map, ha]; rfl

/-! ### `box_to_grid` -/

theorem swapFirst_length {α : Type} (l : List α) : (swapFirst l).length = l.length := by
  match l with
  | [] => rfl
  | [_] => rfl
  | _ :: _ :: _ => rfl

theorem swapFirst_swapFirst {α : Type} (l : List α) : swapFirst (swapFirst l) = l := by
  match l with
  | [] => rfl
  | [_] => rfl
  | _ :: _ :: _ => rfl

theorem swapFirst_getD {α : Type} (l : List α) (d : α) (i : Nat) (h : 2 ≤ l.length) :
    (swapFirst l).getD i d = l.getD (if i = 0 then 1 else if i = 1 then 0 else i) d := by
  match l, h with
  | a :: b :: r, _ =>
    match i with
    | 0 => rfl
    | 1 => rfl
    | i + 2 => simp [swapFirst]

theorem mem_swap_cart (arrays : List (List ℚ)) (p : List ℚ) : swapFirst p ∈ cart (swapFirst arrays) ↔ p ∈ cart arrays := by
  match arrays with
  | [] =>
    match p with
    | [] => simp [swapFirst, cart]
    | [_] => simp [swapFirst, cart]
    | _ :: _ :: _ => simp [swapFirst, cart]
  | [a] =>
    match p with
    | [] => simp [swapFirst]
    | [_] => simp [swapFirst]
    | _ :: _ :: _ => simp [swapFirst, cart]
  | a :: b :: r =>
    match p with
    | [] => simp [swapFirst, cart]
    | [_] => simp [swapFirst, cart]
    | s :: t :: q =>
      simp only [swapFirst, cart, List.mem_flatMap, List.mem_map, List.cons.injEq]
      constructor
      · rintro ⟨v, hv, w, ⟨x, hx, y, hy, hw⟩, e1, e2⟩
        rw [← hw] at e2
        obtain ⟨e3, e4⟩ := List.cons.inj e2
        exact ⟨x, hx, v :: y, ⟨v, hv, y, hy, rfl⟩, e3, by rw [e1, e4]⟩
      · rintro ⟨v, hv, w, ⟨x, hx, y, hy, hw⟩, e1, e2⟩
        rw [← hw] at e2
        obtain ⟨e3, e4⟩ := List.cons.inj e2
        exact ⟨x, hx, v :: y, ⟨v, hv, y, hy, rfl⟩, e3, by rw [e1, e4]⟩

theorem points_of_meshgrid (arrays : List (List ℚ)) (h : arrays ≠ []) :
    gridToPoints (meshgrid arrays) = .ok ((cart (swapFirst arrays)).map swapFirst) := by
  obtain ⟨n, hn⟩ : ∃ n : Nat, arrays.length = n + 1 := by
    cases arrays with
    | nil => exact absurd rfl h
    | cons a r => exact ⟨r.length, rfl⟩
  have hm : meshgrid arrays ≠ [] := by
    intro e
    have := congrArg List.length e
    simp [meshgrid, hn] at this
  have hshape : ∀ g ∈ meshgrid arrays, g.shape = swapFirst (arrays.map List.length) := by
    intro g hg
    simp only [meshgrid, List.mem_map] at hg
    obtain ⟨_, _, rfl⟩ := hg
    rfl
  have hflat : ∀ g ∈ meshgrid arrays, g.flat.length = (cart (swapFirst arrays)).length := by
    intro g hg
    simp only [meshgrid, List.mem_map] at hg
    obtain ⟨_, _, rfl⟩ := hg
    simp
  generalize hM : meshgrid arrays = M at hm hshape hflat
  cases M with
  | nil => exact absurd rfl hm
  | cons g r =>
    rw [gridToPoints, if_pos]
    · congr 1
      apply List.ext_getElem
      · simp [hflat g List.mem_cons_self]
      · intro k h1 h2
        rw [List.getElem_map, List.getElem_map]
        simp only [List.getElem_range]
        rw [← hM]
        simp only [meshgrid, List.map_map]
        have hk : k < (cart (swapFirst arrays)).length := by simpa using h2
        have hlen : (swapFirst (cart (swapFirst arrays))[k]).length = arrays.length := by
          rw [swapFirst_length, ((mem_cart _ _).mp (List.getElem_mem hk)).1, swapFirst_length]
        apply List.ext_getElem (by simp [hlen])
        intro i h3 h4
        simp [List.getD_eq_getElem, hk, h4]
    · simp only [List.all_eq_true, decide_eq_true_eq]
      intro a ha
      rw [hshape a (List.mem_cons_of_mem _ ha), hshape g List.mem_cons_self]

/-- The vectors of a box. -/
theorem vectors_of_box (lo hi : List ℚ) (step : Step) (snap : Option (List ℚ)) (hl : hi.length = lo.length)
    (hs : (step.list lo.length).length = lo.length) (hn : (snap.getD lo).length = lo.length)
    (hle : ∀ i < lo.length, lo.getD i 0 ≤ hi.getD i 0) (hpos : ∀ i < lo.length, 0 < (step.list lo.length).getD i 0) :
    ∃ arrays : List (List ℚ), boxToVectors (lo ++ hi) step snap = .ok arrays ∧ arrays.length = lo.length ∧
      ∀ i < lo.length, (arrays.getD i []).Pairwise (· < ·) ∧ ∀ x : ℚ, x ∈ arrays.getD i [] ↔
        OnAxis (lo.getD i 0) (hi.getD i 0) ((step.list lo.length).getD i 0) ((snap.getD lo).getD i 0) x := by
  have hun : unravelBox (lo ++ hi) = .ok (lo, hi) := by
    unfold unravelBox
    have e : (lo ++ hi).length / 2 = lo.length := by rw [List.length_append]; omega
    rw [if_neg (by rw [List.length_append]; omega), e]
    simp
  set axes := (lo.zip hi).zip ((step.list lo.length).zip (snap.getD lo)) with haxes
  have hax : axes.length = lo.length := by simp [haxes, hl, hs, hn]
  have hget : ∀ (i : Nat) (h : i < axes.length), axes[i] =
      ((lo.getD i 0, hi.getD i 0), ((step.list lo.length).getD i 0, (snap.getD lo).getD i 0)) := by
    intro i h
    have h0 : i < lo.length := by omega
    simp only [haxes, List.getElem_zip]
    rw [List.getD_eq_getElem _ _ h0, List.getD_eq_getElem _ _ (by omega : i < hi.length),
      List.getD_eq_getElem _ _ (by omega : i < (step.list lo.length).length),
      List.getD_eq_getElem _ _ (by omega : i < (snap.getD lo).length)]
  have hok : ∀ a ∈ axes, ∃ xs : List ℚ, axisOf a = .ok xs := by
    intro a ha
    obtain ⟨i, hi', rfl⟩ := List.mem_iff_getElem.mp ha
    rw [hget i hi']
    obtain ⟨xs, e, _⟩ := grid_axis_exact _ _ _ ((snap.getD lo).getD i 0) (hpos i (by omega)) (hle i (by omega))
    exact ⟨xs, e⟩
  classical
  have hmap := mapM_ok axisOf (fun a => if h : ∃ xs : List ℚ, axisOf a = .ok xs then h.choose else []) axes (by
    intro a ha
    have := hok a ha
    rw [dif_pos this]
    exact this.choose_spec)
  refine ⟨axes.map fun a => if h : ∃ xs : List ℚ, axisOf a = .ok xs then h.choose else [], ?_, ?_, ?_⟩
  rotate_left
  · exact (List.length_map _).trans hax
  · intro i hi'
    have h1 : i < axes.length := by omega
    rw [List.getD_eq_getElem _ _ (by simpa using h1), List.getElem_map]
    have h2 := hok _ (List.getElem_mem h1)
    rw [dif_pos h2]
    obtain ⟨xs, e, p, q⟩ := grid_axis_exact (lo.getD i 0) (hi.getD i 0) ((step.list lo.length).getD i 0) ((snap.getD lo).getD i 0)
      (hpos i hi') (hle i hi')
    have h4 : axisOf axes[i] = .ok xs := by rw [hget i h1]; exact e
    have h5 : xs = h2.choose := Except.ok.inj (h4.symm.trans h2.choose_spec)
    rw [← h5]
    exact ⟨p, q⟩
  · unfold boxToVectors
    simp only [hun, bind, Except.bind, hs, hn, ne_eq, not_true_eq_false, if_false, pure, Except.pure]
    exact hmap

/-- The vectors of a box, by the steps asked for. -/
theorem vectors_of_steps (lo hi : List ℚ) (step : Step) (snap : Option (List ℚ)) (hl : hi.length = lo.length)
    (hs : StepsFor lo.length step) (hn : (snap.getD lo).length = lo.length)
    (hle : ∀ i < lo.length, lo.getD i 0 ≤ hi.getD i 0) (hpos : ∀ i < lo.length, 0 < stepAt step i) :
    ∃ arrays : List (List ℚ), boxToVectors (lo ++ hi) step snap = .ok arrays ∧ arrays.length = lo.length ∧
      ∀ i < lo.length, (arrays.getD i []).Pairwise (· < ·) ∧ ∀ x : ℚ, x ∈ arrays.getD i [] ↔
        OnAxis (lo.getD i 0) (hi.getD i 0) (stepAt step i) ((snap.getD lo).getD i 0) x := by
  have hlen : (step.list lo.length).length = lo.length := by
    cases step with
    | all s => simp [Step.list]
    | each l => exact hs
  have hat : ∀ i < lo.length, (step.list lo.length).getD i 0 = stepAt step i := by
    intro i hi'
    cases step with
    | all s => simp [Step.list, stepAt, hi']
    | each l => rfl
  obtain ⟨arrays, h1, h2, h3⟩ := vectors_of_box lo hi step snap hl hlen hn hle fun i hi' => by rw [hat i hi']; exact hpos i hi'
  exact ⟨arrays, h1, h2, fun i hi' => by rw [← hat i hi']; exact h3 i hi'⟩

/-- C120: for any number of dimensions, `box_to_grid` with `mode='points'` returns every point of the grid exactly once
(in the order of the arrays of `grid_modes`). -/
theorem grid_points_any (lo hi : List ℚ) (step : Step) (snap : Option (List ℚ)) (h0 : lo ≠ []) (hl : hi.length = lo.length)
    (hs : StepsFor lo.length step) (hn : (snap.getD lo).length = lo.length)
    (hle : ∀ i < lo.length, lo.getD i 0 ≤ hi.getD i 0) (hpos : ∀ i < lo.length, 0 < stepAt step i) :
    ∃ ps : List (List ℚ), boxToGrid (lo ++ hi) step snap "points" = .ok (.points ps) ∧ ps.Nodup ∧
      ∀ p : List ℚ, p ∈ ps ↔ OnGrid lo.length (fun i => lo.getD i 0) (fun i => hi.getD i 0)
        (fun i => stepAt step i) (fun i => (snap.getD lo).getD i 0) p := by
  obtain ⟨arrays, h1, h2, h3⟩ := vectors_of_steps lo hi step snap hl hs hn hle hpos
  have hne : arrays ≠ [] := by
    intro e; rw [e] at h2; simp at h2
    exact h0 (List.length_eq_zero_iff.mp h2.symm)
  refine ⟨(cart (swapFirst arrays)).map swapFirst, ?_, ?_, ?_⟩
  rotate_left
  · refine List.Nodup.map ?_ (nodup_cart _ ?_)
    · intro a b hab
      rw [← swapFirst_swapFirst a, hab, swapFirst_swapFirst]
    · intro a ha
      have : a ∈ arrays := by
        match arrays, ha with
        | [_], ha => exact ha
        | s :: t :: r, ha =>
          simp only [swapFirst, List.mem_cons] at ha ⊢
          tauto
      obtain ⟨i, hi', rfl⟩ := List.mem_iff_getElem.mp this
      have := (h3 i (by omega)).1
      rw [List.getD_eq_getElem _ _ hi'] at this
      exact this.imp ne_of_lt
  · intro p
    rw [List.mem_map]
    have : (∃ a ∈ cart (swapFirst arrays), swapFirst a = p) ↔ p ∈ cart arrays := by
      rw [← mem_swap_cart]
      constructor
      · rintro ⟨a, ha, rfl⟩; rwa [swapFirst_swapFirst]
      · intro h; exact ⟨_, h, swapFirst_swapFirst p⟩
    rw [this, mem_cart, h2, OnGrid]
    constructor
    · rintro ⟨a, b⟩; exact ⟨a, fun i hi' => ((h3 i hi').2 _).mp (b i hi')⟩
    · rintro ⟨a, b⟩; exact ⟨a, fun i hi' => ((h3 i hi').2 _).mpr (b i hi')⟩
  · simp only [boxToGrid, h1, bind, Except.bind, asMode]
    rw [if_neg (by decide), if_neg (by decide), if_pos trivial, points_of_meshgrid arrays hne]
    rfl

/-- C120: with `mode='vectors'` the coordinates along each axis, with `mode='grids'` one array for each of them: in two dimensions and
more, the array of a coordinate has at `[j, i, ...]` the value of that coordinate with indices `i, j, ...` along the axes; with
`mode='points'` the points of those arrays. -/
theorem grid_modes (lo hi : List ℚ) (step : Step) (snap : Option (List ℚ)) (h0 : lo ≠ []) (hl : hi.length = lo.length)
    (hs : StepsFor lo.length step) (hn : (snap.getD lo).length = lo.length)
    (hle : ∀ i < lo.length, lo.getD i 0 ≤ hi.getD i 0) (hpos : ∀ i < lo.length, 0 < stepAt step i) :
    ∃ (vs : List (List ℚ)) (gs : List Nd) (ps : List (List ℚ)),
      boxToGrid (lo ++ hi) step snap "vectors" = .ok (.vectors vs) ∧ boxToGrid (lo ++ hi) step snap "grids" = .ok (.grids gs) ∧
      boxToGrid (lo ++ hi) step snap "points" = .ok (.points ps) ∧ gridToPoints gs = .ok ps ∧
      vs.length = lo.length ∧ gs.length = lo.length ∧
      (∀ i < lo.length, (vs.getD i []).Pairwise (· < ·) ∧ ∀ x : ℚ, x ∈ vs.getD i [] ↔
        OnAxis (lo.getD i 0) (hi.getD i 0) (stepAt step i) ((snap.getD lo).getD i 0) x) ∧
      (∀ g ∈ gs, g.shape = swapFirst (vs.map List.length)) ∧
      ∀ (index : List Nat), index.length = vs.length → (∀ i < vs.length, index.getD i 0 < (vs.getD i []).length) →
        ∀ (i : Nat) (g : Nd), gs[i]? = some g →
          g.flat[place g.shape (swapFirst index)]? = some ((vs.getD i []).getD (index.getD i 0) 0) := by
  obtain ⟨arrays, h1, h2, h3⟩ := vectors_of_steps lo hi step snap hl hs hn hle hpos
  have hne : arrays ≠ [] := by
    intro e; rw [e] at h2; simp at h2
    exact h0 (List.length_eq_zero_iff.mp h2.symm)
  refine ⟨arrays, meshgrid arrays, _, ?_, ?_, ?_, points_of_meshgrid arrays hne, h2, ?_, h3, ?_, ?_⟩
  · simp only [boxToGrid, h1, bind, Except.bind, asMode]
    rw [if_pos trivial]
  · simp only [boxToGrid, h1, bind, Except.bind, asMode]
    rw [if_neg (by decide), if_pos trivial]
  · simp only [boxToGrid, h1, bind, Except.bind, asMode]
    rw [if_neg (by decide), if_neg (by decide), if_pos trivial, points_of_meshgrid arrays hne]
    rfl
  · simp [meshgrid, h2]
  · intro g hg
    simp only [meshgrid, List.mem_map] at hg
    obtain ⟨_, _, rfl⟩ := hg
    rfl
  · intro index hil hib i g hg
    have hi' : i < arrays.length := by
      by_contra hc
      rw [List.getElem?_eq_none (by simp [meshgrid]; omega)] at hg
      cases hg
    simp only [meshgrid, List.getElem?_map, List.getElem?_range hi', Option.map_some, Option.some.injEq] at hg
    subst hg
    have hsh : swapFirst (arrays.map List.length) = (swapFirst arrays).map List.length := by
      match arrays with
      | [] => rfl
      | [_] => rfl
      | _ :: _ :: _ => rfl
    simp only [hsh, List.getElem?_map]
    rw [cart_place (swapFirst arrays) (swapFirst index) (by rw [swapFirst_length, swapFirst_length, hil])]
    · simp only [Option.map_some, Option.some.injEq]
      match arrays, index, hil, hi' with
      | [a], [k], _, hi' =>
        have : i = 0 := by simpa using hi'
        subst this
        simp [swapFirst, List.range_succ]
      | a :: b :: r, k :: m :: index, hil, hi' =>
        have : ((a :: b :: r).length) = r.length + 2 := rfl
        rw [swapFirst_length, this, List.range_succ_eq_map, List.range_succ_eq_map]
        simp only [List.map_cons, List.map_map, swapFirst, Function.comp_def]
        match i, hi' with
        | 0, _ => simp
        | 1, _ => simp
        | i + 2, hi' =>
          have : i < r.length := by simpa using hi'
          simp [this, List.getD_eq_getElem]
    · intro j hj
      rw [swapFirst_length] at hj
      match arrays, index, hil with
      | [a], [k], _ => simpa [swapFirst] using hib j hj
      | a :: b :: r, k :: m :: index, hil =>
        match j, hj with
        | 0, _ => simpa [swapFirst] using hib 1 (by simp)
        | 1, _ => simpa [swapFirst] using hib 0 (by simp)
        | j + 2, hj => simpa [swapFirst] using hib (j + 2) hj

/-- C120: what raises: a box of an odd number of limits, in any mode; any other mode. -/
theorem grid_raises (box : List ℚ) (step : Step) (snap : Option (List ℚ)) (mode : String) :
    (box.length % 2 = 1 → boxToGrid box step snap mode = .error .valueError) ∧
      (mode ≠ "vectors" → mode ≠ "grids" → mode ≠ "points" → Raises (boxToGrid box step snap mode)) := by
  constructor
  · intro h
    have : unravelBox box = .error .valueError := by rw [unravelBox, if_pos (by omega)]
    simp [boxToGrid, boxToVectors, this, bind, Except.bind]
  · intro a b c
    unfold boxToGrid
    cases boxToVectors box step snap with
    | error e => exact ⟨e, rfl⟩
    | ok v => exact ⟨.valueError, by simp [bind, Except.bind, asMode, a, b, c]⟩

/-- The examples of the documentation (helpers.py:1267-1288). -/
example : boxToGrid [0, 0, 10, 10] (.all 4) none "points" =
    .ok (.points [[0, 0], [4, 0], [8, 0], [0, 4], [4, 4], [8, 4], [0, 8], [4, 8], [8, 8]]) := by decide +kernel
example : boxToGrid [0, 0, 10, 10] (.all 4) (some [1, 2]) "vectors" = .ok (.vectors [[1, 5, 9], [2, 6, 10]]) := by decide +kernel
example : boxToGrid [0, 0, 0, 1, 1, 1] (.each [1, 1, 1]) none "points" =
    .ok (.points [[0, 0, 0], [0, 0, 1], [1, 0, 0], [1, 0, 1], [0, 1, 0], [0, 1, 1], [1, 1, 0], [1, 1, 1]]) := by decide +kernel

/-! ### `box_to_polygon` -/

theorem between_iff (s t b : ℚ) : (∃ u : ℚ, 0 ≤ u ∧ u ≤ 1 ∧ b = (1 - u) * s + u * t) ↔ min s t ≤ b ∧ b ≤ max s t := by
  constructor
  · rintro ⟨u, h0, h1, rfl⟩
    rcases le_total s t with h | h
    · rw [min_eq_left h, max_eq_right h]; constructor <;> nlinarith
    · rw [min_eq_right h, max_eq_left h]; constructor <;> nlinarith
  · rintro ⟨h1, h2⟩
    by_cases h : s = t
    · subst h
      refine ⟨0, le_refl _, zero_le_one, ?_⟩
      simp at h1 h2
      linarith
    · rcases lt_or_gt_of_ne h with h | h
      · rw [min_eq_left h.le] at h1; rw [max_eq_right h.le] at h2
        have hp : 0 < t - s := by linarith
        refine ⟨(b - s) / (t - s), div_nonneg (by linarith) hp.le, (div_le_one hp).mpr (by linarith), ?_⟩
        field_simp; ring
      · rw [min_eq_right h.le] at h1; rw [max_eq_left h.le] at h2
        have hp : 0 < s - t := by linarith
        refine ⟨(s - b) / (s - t), div_nonneg (by linarith) hp.le, (div_le_one hp).mpr (by linarith), ?_⟩
        field_simp; ring

open PolygonMask in
theorem onEdge_vertical (x s t a b : ℚ) : OnEdge (a, b) ((x, s), (x, t)) ↔ a = x ∧ min s t ≤ b ∧ b ≤ max s t := by
  rw [← between_iff]
  simp only [OnEdge, Prod.mk.injEq]
  constructor
  · rintro ⟨u, h0, h1, e1, e2⟩; exact ⟨by rw [e1]; ring, u, h0, h1, e2⟩
  · rintro ⟨e1, u, h0, h1, e2⟩; exact ⟨u, h0, h1, by rw [e1]; ring, e2⟩

open PolygonMask in
theorem onEdge_horizontal (y s t a b : ℚ) : OnEdge (a, b) ((s, y), (t, y)) ↔ b = y ∧ min s t ≤ a ∧ a ≤ max s t := by
  rw [← between_iff]
  simp only [OnEdge, Prod.mk.injEq]
  constructor
  · rintro ⟨u, h0, h1, e1, e2⟩; exact ⟨by rw [e2]; ring, u, h0, h1, e1⟩
  · rintro ⟨e1, u, h0, h1, e2⟩; exact ⟨u, h0, h1, e2, by rw [e1]; ring⟩

open PolygonMask in
/-- C120: the polygon of a box is closed, its bounding box is the box, and what is within it (off its boundary) is what is strictly
between the limits. -/
theorem polygon_of_box (x0 y0 x1 y1 : ℚ) (hx : x0 ≤ x1) (hy : y0 ≤ y1) :
    ∃ poly : List (ℚ × ℚ), boxToPolygon [x0, y0, x1, y1] = .ok poly ∧ poly.length = 5 ∧ poly.head? = poly.getLast? ∧
      boundingBox (poly.map fun p => [p.1, p.2]) = .ok [x0, y0, x1, y1] ∧
      ∀ p : ℚ × ℚ, (OffBoundary poly p ↔ ¬ (x0 ≤ p.1 ∧ p.1 ≤ x1 ∧ y0 ≤ p.2 ∧ p.2 ≤ y1 ∧ (p.1 = x0 ∨ p.1 = x1 ∨ p.2 = y0 ∨ p.2 = y1))) ∧
        (OffBoundary poly p → (Within poly p ↔ x0 < p.1 ∧ p.1 < x1 ∧ y0 < p.2 ∧ p.2 < y1)) := by
  refine ⟨[(x0, y0), (x0, y1), (x1, y1), (x1, y0), (x0, y0)], ?_, rfl, rfl, ?_, ?_⟩
  · simp [boxToPolygon, unravelBox, bind, Except.bind, pure, Except.pure]
  · simp [boundingBox, colMin, colMax, hx, hy]
  · intro p
    obtain ⟨a, b⟩ := p
    have key : OffBoundary [(x0, y0), (x0, y1), (x1, y1), (x1, y0), (x0, y0)] (a, b) ↔
        ¬ (x0 ≤ a ∧ a ≤ x1 ∧ y0 ≤ b ∧ b ≤ y1 ∧ (a = x0 ∨ a = x1 ∨ b = y0 ∨ b = y1)) := by
      have hr : ringEdges [(x0, y0), (x0, y1), (x1, y1), (x1, y0), (x0, y0)] =
          [((x0, y0), (x0, y1)), ((x0, y1), (x1, y1)), ((x1, y1), (x1, y0)), ((x1, y0), (x0, y0)), ((x0, y0), (x0, y0))] := rfl
      unfold OffBoundary
      rw [hr]
      simp only [List.mem_cons, List.not_mem_nil, or_false, forall_eq_or_imp, forall_eq, onEdge_vertical, onEdge_horizontal,
        min_eq_left hx, min_eq_right hx, max_eq_left hx, max_eq_right hx, min_eq_left hy, min_eq_right hy, max_eq_left hy, max_eq_right hy,
        min_self, max_self]
      constructor
      · rintro ⟨h1, h2, h3, h4, _⟩ ⟨k1, k2, k3, k4, k | k | k | k⟩
        · exact h1 ⟨k, k3, k4⟩
        · exact h3 ⟨k, k3, k4⟩
        · exact h4 ⟨k, k1, k2⟩
        · exact h2 ⟨k, k1, k2⟩
      · intro h
        refine ⟨?_, ?_, ?_, ?_, ?_⟩
        · rintro ⟨e, k1, k2⟩; exact h ⟨e.ge, by rw [e]; exact hx, k1, k2, .inl e⟩
        · rintro ⟨e, k1, k2⟩; exact h ⟨k1, k2, by rw [e]; exact hy, e.le, .inr (.inr (.inr e))⟩
        · rintro ⟨e, k1, k2⟩; exact h ⟨by rw [e]; exact hx, e.le, k1, k2, .inr (.inl e)⟩
        · rintro ⟨e, k1, k2⟩; exact h ⟨k1, k2, e.ge, by rw [e]; exact hy, .inr (.inr (.inl e))⟩
        · rintro ⟨e, k1, k2⟩; exact h ⟨e.ge, by rw [e]; exact hx, k1, le_trans k2 hy, .inl e⟩
    refine ⟨key, ?_⟩
    intro hoff
    rw [← fills_within _ _ hoff]
    have hk := key.mp hoff
    have he : edges [(x0, y0), (x0, y1), (x1, y1), (x1, y0), (x0, y0)] =
        [((x0, y0), (x0, y1)), ((x0, y1), (x1, y1)), ((x1, y1), (x1, y0)), ((x1, y0), (x0, y0)), ((x0, y0), (x0, y0))] := rfl
    have c1 : ∀ (s t y : ℚ), crosses b ((s, y), (t, y)) = false := by
      intro s t y; simp only [crosses, decide_eq_false_iff_not]; rintro (h | h) <;> linarith [h.1, h.2]
    have m1 : ∀ (x s t : ℚ), meets b ((x, s), (x, t)) = x := by intro x s t; simp [meets]
    have a1 : ∀ (x s t : ℚ), along (a, b) ((x, s), (x, t)) = false := by
      intro x s t; simp only [along, decide_eq_false_iff_not]; rintro ⟨_, _, h1, h2⟩; linarith
    have a2 : along (a, b) ((x0, y1), (x1, y1)) = false := by
      simp only [along, decide_eq_false_iff_not]; rintro ⟨_, _, h1, h2⟩; linarith
    have a3 : along (a, b) ((x1, y0), (x0, y0)) = false := by
      simp only [along, decide_eq_false_iff_not]; rintro ⟨h0, _, h1, h2⟩
      exact hk ⟨h1.le, h2, h0.le, by rw [← h0]; exact hy, .inr (.inr (.inl h0.symm))⟩
    have c2 : crosses b ((x0, y0), (x0, y1)) = decide (y0 ≤ b ∧ b < y1) := by
      simp only [crosses, decide_eq_decide]
      constructor
      · rintro (h | h)
        · exact h
        · exact absurd hy (by linarith [h.1, h.2])
      · exact .inl
    have c3 : crosses b ((x1, y1), (x1, y0)) = decide (y0 ≤ b ∧ b < y1) := by
      simp only [crosses, decide_eq_decide]
      constructor
      · rintro (h | h)
        · exact absurd hy (by linarith [h.1, h.2])
        · exact h
      · exact .inr
    rw [fills, he]
    simp only [List.any_cons, List.any_nil, a1, a2, a3, Bool.or_false, List.filter_cons, List.filter_nil, c1, c2, c3, m1, Bool.false_and,
      Bool.false_eq_true, if_false]
    by_cases hb : y0 ≤ b ∧ b < y1
    · by_cases h0 : x0 < a
      · by_cases h1 : x1 < a
        · simp [hb, h0, h1]
          intro h; exact absurd h1 (by linarith)
        · have : a < x1 := lt_of_le_of_ne (not_lt.mp h1) (fun e => hk ⟨h0.le, e.le, hb.1, hb.2.le, .inr (.inl e)⟩)
          have hb' : y0 < b := lt_of_le_of_ne hb.1 (fun e => hk ⟨h0.le, this.le, hb.1, hb.2.le, .inr (.inr (.inl e.symm))⟩)
          simp [hb, h0, h1, this, hb']
      · have : ¬ x1 < a := fun h => h0 (lt_of_le_of_lt hx h)
        simp [hb, h0, this]
    · simp [hb]
      intro _ _ h
      by_contra hc
      push Not at hc
      exact hb ⟨h.le, hc⟩

/-- So the mask of the polygon of a box is the cells whose centers are strictly within the box (no center on its border). -/
theorem mask_of_box (x0 y0 x1 y1 : ℚ) (hx : x0 ≤ x1) (hy : y0 ≤ y1) (size : Nat × Nat) (row col : Nat) (hr : row < size.2)
    (hc : col < size.1) (poly : List (ℚ × ℚ)) (hp : boxToPolygon [x0, y0, x1, y1] = .ok poly)
    (hx0 : (col : ℚ) + 1 / 2 ≠ x0) (hx1 : (col : ℚ) + 1 / 2 ≠ x1) (hy0 : (row : ℚ) + 1 / 2 ≠ y0) (hy1 : (row : ℚ) + 1 / 2 ≠ y1) :
    ((PolygonMask.polygonsToMask [poly] size none)[row]?.bind fun l => l[col]?) = some true ↔
      x0 < (col : ℚ) + 1 / 2 ∧ (col : ℚ) + 1 / 2 < x1 ∧ y0 < (row : ℚ) + 1 / 2 ∧ (row : ℚ) + 1 / 2 < y1 := by
  obtain ⟨poly', e, _, _, _, h⟩ := polygon_of_box x0 y0 x1 y1 hx hy
  rw [hp] at e
  have := Except.ok.inj e
  subst this
  obtain ⟨h1, h2⟩ := h ((col : ℚ) + 1 / 2, (row : ℚ) + 1 / 2)
  have hoff : PolygonMask.OffBoundary poly ((col : ℚ) + 1 / 2, (row : ℚ) + 1 / 2) := by
    rw [h1]; rintro ⟨_, _, _, _, k | k | k | k⟩
    · exact hx0 k
    · exact hx1 k
    · exact hy0 k
    · exact hy1 k
  rw [← h2 hoff, ← PolygonMask.fills_within _ _ hoff]
  simp [PolygonMask.polygonsToMask, List.getElem?_map, List.getElem?_range, hr, hc, PolygonMask.burn, PolygonMask.center]

/-- C120: a box of one dimension, or of an odd number of limits, has no polygon. -/
theorem polygon_raises (box : List ℚ) : Returns (boxToPolygon box) ↔ box.length % 2 = 0 ∧ 4 ≤ box.length := by
  unfold boxToPolygon unravelBox
  by_cases h : box.length % 2 = 0
  · rw [if_neg (by omega)]
    simp only [bind, Except.bind, h, true_and]
    have e1 : (box.take (box.length / 2)).length = box.length / 2 := by rw [List.length_take]; omega
    have e2 : (box.drop (box.length / 2)).length = box.length / 2 := by rw [List.length_drop]; omega
    generalize box.take (box.length / 2) = lo at e1
    generalize box.drop (box.length / 2) = hi at e2
    match lo, hi with
    | [], hi => simp at e1; simp [Returns, throw, throwThe, MonadExceptOf.throw]; omega
    | [_], hi => simp at e1; simp [Returns, throw, throwThe, MonadExceptOf.throw]; omega
    | _ :: _ :: _, [] => simp at e1 e2; omega
    | _ :: _ :: _, [_] => simp at e1 e2; omega
    | _ :: _ :: _, _ :: _ :: _ => simp at e1; simp [Returns, pure, Except.pure]; omega
  · rw [if_pos h]
    simp [Returns, bind, Except.bind, h]

example : boxToPolygon [0, 0, 1, 1] = .ok [(0, 0), (0, 1), (1, 1), (1, 0), (0, 0)] := by decide +kernel

/-! ### `_parse_parallel` -/

/-- C120: the number of processes: what was asked for, none for `False`, and for `True` as many as there are processors (an error if their
number is unknown). -/
theorem parallel_number (cpu : Option Int) (n : Int) :
    parseParallel cpu (.number n) = .ok n ∧ parseParallel cpu (.flag false) = .ok 0 ∧
      (∀ k : Int, parseParallel cpu (.flag true) = .ok k ↔ cpu = some k) ∧ (Raises (parseParallel cpu (.flag true)) ↔ cpu = none) := by
  refine ⟨rfl, rfl, ?_, ?_⟩
  · intro k; cases cpu <;> simp [parseParallel]
  · cases cpu <;> simp [parseParallel, Raises]

end Glimpse.BoxGrids
