import Verif.Model.Cams
import Mathlib.Tactic.Linarith
import Mathlib.Data.List.Nodup

/-!
C44: `Cameras.parse_params` selects exactly what is named.
-/
set_option autoImplicit false
set_option linter.unusedSimpArgs false

namespace Glimpse.Cams

/-! ### Specification -/

/-- Where the elements of an attribute are in the vector of a camera (`Camera.to_array`): first position and number. -/
def layoutOf (key : String) : Option (Nat × Nat) :=
  if key = "xyz" then some (0, 3)
  else if key = "viewdir" then some (3, 3)
  else if key = "imgsz" then some (6, 2)
  else if key = "f" then some (8, 2)
  else if key = "c" then some (10, 2)
  else if key = "k" then some (12, 6)
  else if key = "p" then some (18, 2)
  else none

/-- The elements named by a selection of an attribute with `n` elements. -/
def Sel.elements (n : Nat) : Sel → List Nat
  | .all => List.range n
  | .no => []
  | .nothing => []
  | .index i => [i.toNat]
  | .indices l => l.map Int.toNat

/-- A selection as documented, within the attribute (`False` is not documented, but see `parse_params_false_violated`). -/
def Sel.Valid (n : Nat) : Sel → Prop
  | .all => True
  | .no => False
  | .nothing => True
  | .index i => 0 ≤ i ∧ i < n
  | .indices l => ∀ i ∈ l, 0 ≤ i ∧ i < n

variable {β : Type}

/-- The bound meant for the `k`-th of `n` selected elements: singletons are expanded as needed. -/
def Bnd.at (b : Bnd β) (n k : Nat) : Option β :=
  match b with
  | .one b => b
  | .list l => if l.length = 1 then (l.getD 0 none) else if l.length = n then l.getD k none else none

/-- A bound fits `n` elements. -/
def Bnd.Fits (b : Bnd β) (n : Nat) : Prop :=
  match b with
  | .one _ => True
  | .list l => l.length = 1 ∨ l.length = n

/-- A dictionary value as documented: a valid selection, and bounds, if any, that fit a non-empty selection without
repetitions. -/
def Value.Valid (v : Value β) (n : Nat) : Prop :=
  v.sel.Valid n ∧ ∀ b ∈ v.bounds, (v.sel.elements n ≠ [] ∧ (v.sel.elements n).Nodup ∧
    b.1.Fits (v.sel.elements n).length ∧ b.2.Fits (v.sel.elements n).length)

/-! ### Proof -/

private theorem lookup_layout (key : String) :
    attrs.lookup key = (layoutOf key).map fun ab => (ab.1, ab.1 + ab.2) := by
  unfold attrs layoutOf
  by_cases h1 : key = "xyz"
  · subst h1; rfl
  by_cases h2 : key = "viewdir"
  · subst h2; rfl
  by_cases h3 : key = "imgsz"
  · subst h3; rfl
  by_cases h4 : key = "f"
  · subst h4; rfl
  by_cases h5 : key = "c"
  · subst h5; rfl
  by_cases h6 : key = "k"
  · subst h6; rfl
  by_cases h7 : key = "p"
  · subst h7; rfl
  have b : ∀ s : String, key ≠ s → (key == s) = false := fun s h => by simpa using h
  simp [List.lookup, h1, h2, h3, h4, h5, h6, h7, b _ h1, b _ h2, b _ h3, b _ h4, b _ h5, b _ h6, b _ h7]

private theorem layout_range (key : String) (a n : Nat) (h : layoutOf key = some (a, n)) : 0 < n ∧ a + n ≤ 20 := by
  unfold layoutOf at h
  repeat' split at h
  all_goals first | (cases h; decide) | cases h

/-- Different attributes have different positions. -/
private theorem layout_disjoint (k1 k2 : String) (a1 n1 a2 n2 i1 i2 : Nat) (h1 : layoutOf k1 = some (a1, n1))
    (h2 : layoutOf k2 = some (a2, n2)) (hi1 : i1 < n1) (hi2 : i2 < n2) (he : a1 + i1 = a2 + i2) : k1 = k2 := by
  unfold layoutOf at h1 h2
  repeat' split at h1
  all_goals (try cases h1)
  all_goals (repeat' split at h2)
  all_goals (try cases h2)
  all_goals (first | (subst_vars; rfl) | (exfalso; omega))

private theorem elements_lt (n : Nat) (s : Sel) (h : s.Valid n) : ∀ i ∈ s.elements n, i < n := by
  intro i hi
  cases s with
  | all => simpa [Sel.elements] using hi
  | no => cases hi
  | nothing => cases hi
  | index j =>
    simp only [Sel.elements, List.mem_singleton] at hi
    have : (0 : ℤ) ≤ j ∧ j < n := h
    omega
  | indices l =>
    simp only [Sel.elements, List.mem_map] at hi
    obtain ⟨j, hj, rfl⟩ := hi
    have : (0 : ℤ) ≤ j ∧ j < n := h j hj
    omega

private theorem mapM_resolve (l : List Nat) (h : ∀ p ∈ l, p < 20) :
    (l.map fun p : Nat => (p : ℤ)).mapM resolve = .ok l := by
  induction l with
  | nil => rfl
  | cons p l ih =>
    have hp := h p List.mem_cons_self
    have hr : resolve (p : ℤ) = .ok p := by
      unfold resolve
      rw [if_pos (by omega)]
      simp
    rw [List.map_cons, List.mapM_cons, hr, ih fun q hq => h q (List.mem_cons_of_mem _ hq)]
    rfl

/-- The positions that the code computes are those of the named elements. -/
private theorem positions_eq (a n : Nat) (s : Sel) (h : s.Valid n) :
    (s.elements n = [] ∧ positionsOf a (a + n) s = none) ∨
      positionsOf a (a + n) s = some ((s.elements n).map fun i => ((a + i : Nat) : ℤ)) := by
  cases s with
  | all => right; simp [positionsOf, Sel.elements]
  | no => cases h
  | nothing => left; exact ⟨rfl, rfl⟩
  | index i =>
    have : (0 : ℤ) ≤ i ∧ i < n := h
    right
    simp [positionsOf, Sel.elements, this.1]
  | indices l =>
    cases l with
    | nil => left; exact ⟨rfl, rfl⟩
    | cons i l =>
      right
      simp only [positionsOf, Sel.elements]
      rw [List.map_map]
      congr 1
      refine List.map_congr_left ?_
      intro j hj
      have : (0 : ℤ) ≤ j ∧ j < n := h j hj
      simp [this.1]

private theorem expand_length (b : Bnd β) (n : Nat) (h : b.Fits n) : (expand b n).length = n := by
  cases b with
  | one b => simp [expand]
  | list l =>
    rcases h with h | h
    · cases l with
      | nil => simp at h
      | cons x l =>
        cases l with
        | nil => simp [expand]
        | cons y l => simp at h
    · cases l with
      | nil => simpa [expand] using h
      | cons x l =>
        cases l with
        | nil => simp [expand]
        | cons y l => simpa [expand] using h

private theorem expand_get (b : Bnd β) (n k : Nat) (h : b.Fits n) (hk : k < n) :
    (expand b n)[k]? = some (b.at n k) := by
  cases b with
  | one b => simp [expand, Bnd.at, hk]
  | list l =>
    by_cases h1 : l.length = 1
    · obtain ⟨x, rfl⟩ := List.length_eq_one_iff.1 h1
      simp [expand, Bnd.at, hk]
    · have hn : l.length = n := by rcases h with h | h; exact absurd h h1; exact h
      have e : expand (.list l) n = l := by
        unfold expand
        split
        · rename_i heq; cases heq
        · rename_i heq; cases heq; simp at h1
        · rename_i heq; cases heq; rfl
      rw [e]
      simp only [Bnd.at, if_neg h1, if_pos hn]
      rw [List.getD_eq_getElem?_getD, List.getElem?_eq_getElem (by omega)]
      rfl

private theorem assign_notin (l : List (Nat × (Option β × Option β))) (f : Nat → Option β × Option β) (q : Nat)
    (h : q ∉ l.map Prod.fst) : assignBounds f l q = f q := by
  induction l generalizing f with
  | nil => rfl
  | cons a l ih =>
    obtain ⟨p, b⟩ := a
    simp only [List.map_cons, List.mem_cons, not_or] at h
    rw [assignBounds, ih _ h.2, if_neg h.1]

private theorem assign_in (l : List (Nat × (Option β × Option β))) (f : Nat → Option β × Option β) (p : Nat)
    (b : Option β × Option β) (hm : (p, b) ∈ l) (hn : (l.map Prod.fst).Nodup) : assignBounds f l p = b := by
  induction l generalizing f with
  | nil => cases hm
  | cons a l ih =>
    obtain ⟨p', b'⟩ := a
    simp only [List.map_cons, List.nodup_cons] at hn
    rw [assignBounds]
    rcases List.mem_cons.1 hm with h | h
    · cases h
      rw [assign_notin _ _ _ hn.1]
      simp
    · exact ih _ h hn.2

/-- Positions that get bounds from an item. -/
private def Bounded (kv : String × Value β) (p : Nat) : Prop :=
  ∃ a n, layoutOf kv.1 = some (a, n) ∧ kv.2.bounds.isSome = true ∧ ∃ i ∈ kv.2.sel.elements n, p = a + i

private theorem step_spec (st : PState β) (kv : String × Value β)
    (hv : ∀ a n, layoutOf kv.1 = some (a, n) → kv.2.Valid n) :
    ∃ st', parseStep st kv = .ok st' ∧
      (∀ p, st'.mask p = true ↔ st.mask p = true ∨
        ∃ a n, layoutOf kv.1 = some (a, n) ∧ ∃ i ∈ kv.2.sel.elements n, p = a + i) ∧
      (∀ p, ¬ Bounded kv p → st'.bounds p = st.bounds p) ∧
      (∀ a n b k i, layoutOf kv.1 = some (a, n) → kv.2.bounds = some b → (kv.2.sel.elements n)[k]? = some i →
        st'.bounds (a + i) =
          (b.1.at (kv.2.sel.elements n).length k, b.2.at (kv.2.sel.elements n).length k)) := by
  unfold parseStep
  rw [lookup_layout]
  cases hl : layoutOf kv.1 with
  | none =>
    refine ⟨st, rfl, ?_, ?_, ?_⟩
    · intro p; simp [hl]
    · intro p _; rfl
    · intro a n b k i h; cases h
  | some an =>
    obtain ⟨a, n⟩ := an
    have hval := hv a n hl
    have hrange := layout_range _ _ _ hl
    have hlt := elements_lt n kv.2.sel hval.1
    set els := kv.2.sel.elements n with hels
    have hpos := positions_eq a n kv.2.sel hval.1
    rw [← hels] at hpos
    have hres : (els.map fun i => ((a + i : Nat) : ℤ)).mapM resolve = .ok (els.map fun i => a + i) := by
      have := mapM_resolve (els.map fun i => a + i) (by
        intro p hp
        obtain ⟨i, hi, rfl⟩ := List.mem_map.1 hp
        have := hlt i hi
        omega)
      rw [List.map_map] at this
      exact this
    simp only [Option.map_some, bind, Except.bind]
    -- the mask
    have hmask : ∃ st1, setMask st a (a + n) kv.2.sel = .ok st1 ∧
        (∀ p, st1.mask p = true ↔ st.mask p = true ∨ ∃ i ∈ els, p = a + i) ∧ st1.bounds = st.bounds ∧
        (els ≠ [] → st1.positions = some (els.map fun i => ((a + i : Nat) : ℤ))) := by
      unfold setMask
      rcases hpos with ⟨hc, hpos⟩ | hpos
      · rw [hpos]
        exact ⟨st, rfl, by intro p; simp [hc], rfl, fun h => absurd hc h⟩
      · rw [hpos]
        simp only [hres, bind, Except.bind]
        refine ⟨_, rfl, ?_, rfl, fun _ => rfl⟩
        intro p
        simp only [Bool.or_eq_true, decide_eq_true_eq, List.mem_map]
        constructor
        · rintro (h | ⟨i, hi, rfl⟩)
          · exact Or.inl h
          · exact Or.inr ⟨i, hi, rfl⟩
        · rintro (h | ⟨i, hi, rfl⟩)
          · exact Or.inl h
          · exact Or.inr ⟨i, hi, rfl⟩
    obtain ⟨st1, e1, m1, b1, p1⟩ := hmask
    rw [e1]
    simp only
    have maskOut : ∀ p, st1.mask p = true ↔ st.mask p = true ∨
        ∃ a' n', some (a, n) = some (a', n') ∧ ∃ i ∈ kv.2.sel.elements n', p = a' + i := by
      intro p
      rw [m1 p]
      constructor
      · rintro (h | h)
        · exact Or.inl h
        · exact Or.inr ⟨a, n, rfl, h⟩
      · rintro (h | ⟨a', n', h, h'⟩)
        · exact Or.inl h
        · cases h; exact Or.inr h'
    cases hb : kv.2.bounds with
    | none =>
      refine ⟨st1, rfl, maskOut, ?_, ?_⟩
      · intro p _; rw [b1]
      · intro a' n' b k i _ h; cases h
    | some b =>
      obtain ⟨mn, mx⟩ := b
      obtain ⟨hne, hnd, f1, f2⟩ := hval.2 (mn, mx) hb
      rw [← hels] at hne hnd f1 f2
      have hlen : (els.map fun i => ((a + i : Nat) : ℤ)).length = els.length := by simp
      unfold setBounds
      simp only [p1 hne, hres, bind, Except.bind, hlen]
      rw [expand_length mn _ f1, expand_length mx _ f2]
      simp only [ne_eq, not_true_eq_false, or_self, if_false, throw, throwThe, MonadExceptOf.throw]
      have hfst : ((els.map fun i => a + i).zip ((expand mn els.length).zip (expand mx els.length))).map Prod.fst =
          els.map fun i => a + i := by
        rw [List.map_fst_zip]
        simp [expand_length mn _ f1, expand_length mx _ f2]
      refine ⟨_, rfl, maskOut, ?_, ?_⟩
      · intro p hp
        simp only
        rw [assign_notin _ _ _ (by
          rw [hfst]
          intro hm
          obtain ⟨i, hi, rfl⟩ := List.mem_map.1 hm
          exact hp ⟨a, n, hl, by rw [hb]; rfl, i, hi, rfl⟩), b1]
      · intro a' n' b k i h h' hk
        cases h
        cases h'
        rw [← hels] at hk ⊢
        have hkl : k < els.length := by
          by_contra hc
          rw [List.getElem?_eq_none (by omega)] at hk
          cases hk
        simp only
        refine assign_in _ _ _ _ ?_ (by
          rw [hfst]
          exact hnd.map (fun x y hxy => by simpa using hxy))
        refine List.mem_iff_getElem?.2 ⟨k, ?_⟩
        rw [List.getElem?_zip_eq_some]
        refine ⟨?_, ?_⟩
        · rw [List.getElem?_map, hk]; rfl
        · rw [List.getElem?_zip_eq_some]
          exact ⟨expand_get mn _ k f1 hkl, expand_get mx _ k f2 hkl⟩

private theorem fold_spec (ps : List (String × Value β)) (st : PState β)
    (hv : ∀ kv ∈ ps, ∀ a n, layoutOf kv.1 = some (a, n) → kv.2.Valid n) (hk : (ps.map Prod.fst).Nodup) :
    ∃ st', ps.foldlM parseStep st = .ok st' ∧
      (∀ p, st'.mask p = true ↔ st.mask p = true ∨
        ∃ kv ∈ ps, ∃ a n, layoutOf kv.1 = some (a, n) ∧ ∃ i ∈ kv.2.sel.elements n, p = a + i) ∧
      (∀ p, (∀ kv ∈ ps, ¬ Bounded kv p) → st'.bounds p = st.bounds p) ∧
      (∀ kv ∈ ps, ∀ a n b k i, layoutOf kv.1 = some (a, n) → kv.2.bounds = some b →
        (kv.2.sel.elements n)[k]? = some i →
        st'.bounds (a + i) =
          (b.1.at (kv.2.sel.elements n).length k, b.2.at (kv.2.sel.elements n).length k)) := by
  induction ps generalizing st with
  | nil => exact ⟨st, rfl, by simp, by simp, by simp⟩
  | cons kv ps ih =>
    simp only [List.map_cons, List.nodup_cons] at hk
    obtain ⟨st1, e1, m1, b1, g1⟩ := step_spec st kv (hv kv List.mem_cons_self)
    obtain ⟨st2, e2, m2, b2, g2⟩ := ih st1 (fun kv' h => hv kv' (List.mem_cons_of_mem _ h)) hk.2
    refine ⟨st2, ?_, ?_, ?_, ?_⟩
    · rw [List.foldlM_cons, e1]; exact e2
    · intro p
      rw [m2 p, m1 p]
      constructor
      · rintro ((h | h) | ⟨kv', h', h⟩)
        · exact Or.inl h
        · exact Or.inr ⟨kv, List.mem_cons_self, h⟩
        · exact Or.inr ⟨kv', List.mem_cons_of_mem _ h', h⟩
      · rintro (h | ⟨kv', h', h⟩)
        · exact Or.inl (Or.inl h)
        · rcases List.mem_cons.1 h' with rfl | h'
          · exact Or.inl (Or.inr h)
          · exact Or.inr ⟨kv', h', h⟩
    · intro p hp
      rw [b2 p fun kv' h' => hp kv' (List.mem_cons_of_mem _ h'), b1 p (hp kv List.mem_cons_self)]
    · intro kv' hkv' a n b k i hl hb hki
      rcases List.mem_cons.1 hkv' with rfl | h'
      · rw [b2 (a + i) (by
          rintro kv2 h2 ⟨a2, n2, hl2, -, i2, hi2, he⟩
          have v1 := hv kv' List.mem_cons_self a n hl
          have v2 := hv kv2 (List.mem_cons_of_mem _ h2) a2 n2 hl2
          have hi : i ∈ kv'.2.sel.elements n := List.mem_of_getElem? hki
          have := layout_disjoint kv'.1 kv2.1 a n a2 n2 i i2 hl hl2 (elements_lt n _ v1.1 i hi)
            (elements_lt n2 _ v2.1 i2 hi2) he
          exact hk.1 (this ▸ List.mem_map_of_mem h2))]
        exact g1 a n b k i hl hb hki
      · exact g2 kv' h' a n b k i hl hb hki

/-- C44. For every dictionary whose values are as documented, `parse_params` returns; its mask marks exactly the named
elements of the named attributes; the bounds of the `k`-th named element are those given for it, or else the default,
or else infinite; all others have the default or infinite bounds. -/
theorem parse_params_partial (params : List (String × Value β)) (hkeys : (params.map Prod.fst).Nodup)
    (hv : ∀ kv ∈ params, ∀ a n, layoutOf kv.1 = some (a, n) → kv.2.Valid n)
    (defaults : Option (Nat → Option β × Option β)) (ninf pinf : β) :
    ∃ mask bounds, parseParams params defaults ninf pinf = .ok (mask, bounds) ∧
      (∀ p, mask p = true ↔
        ∃ kv ∈ params, ∃ a n, layoutOf kv.1 = some (a, n) ∧ ∃ i ∈ kv.2.sel.elements n, p = a + i) ∧
      (∀ kv ∈ params, ∀ a n b k i, layoutOf kv.1 = some (a, n) → kv.2.bounds = some b →
        (kv.2.sel.elements n)[k]? = some i →
        bounds (a + i) =
          (((b.1.at (kv.2.sel.elements n).length k).or (defaults.bind fun f => (f (a + i)).1)).getD ninf,
            ((b.2.at (kv.2.sel.elements n).length k).or (defaults.bind fun f => (f (a + i)).2)).getD pinf)) ∧
      (∀ p, (∀ kv ∈ params, ∀ a n, layoutOf kv.1 = some (a, n) → kv.2.bounds.isSome = true →
          ∀ i ∈ kv.2.sel.elements n, p ≠ a + i) →
        bounds p = ((defaults.bind fun f => (f p).1).getD ninf, (defaults.bind fun f => (f p).2).getD pinf)) := by
  obtain ⟨st, e, m, b, g⟩ := fold_spec params ⟨fun _ => false, fun _ => (none, none), none⟩ hv hkeys
  have hfill : ∀ p, fill defaults ninf pinf st.bounds p =
      (((st.bounds p).1.or (defaults.bind fun f => (f p).1)).getD ninf,
        ((st.bounds p).2.or (defaults.bind fun f => (f p).2)).getD pinf) := by
    intro p
    unfold fill
    cases defaults <;> rfl
  refine ⟨st.mask, fill defaults ninf pinf st.bounds, ?_, ?_, ?_, ?_⟩
  · unfold parseParams; rw [e]; rfl
  · intro p
    rw [m p]
    simp
  · intro kv hkv a n bb k i hl hb hk
    rw [hfill, g kv hkv a n bb k i hl hb hk]
  · intro p hp
    rw [hfill, b p (by
      rintro kv hkv ⟨a, n, hl, hs, i, hi, rfl⟩
      exact hp kv hkv a n hl hs i hi rfl)]
    rfl

/-- C44 fails for `False`, which selects the first element of the attribute. -/
theorem parse_params_false_violated (ninf pinf : β) :
    ∃ mask bounds, parseParams [("viewdir", ⟨.no, none⟩)] none ninf pinf = .ok (mask, bounds) ∧ mask 3 = true :=
  ⟨_, _, rfl, rfl⟩

/-- C44 fails for `None` with bounds: the code raises if it is the first item, and otherwise gives its bounds to the
elements selected by the item before. -/
theorem parse_params_none_bounds_violated (lo hi ninf pinf : β) :
    parseParams [("f", ⟨.nothing, some (.one (some lo), .one (some hi))⟩)] none ninf pinf = .error .unboundLocal ∧
    ∃ mask bounds, parseParams [("xyz", ⟨.index 0, none⟩), ("f", ⟨.nothing, some (.one (some lo), .one (some hi))⟩)]
      none ninf pinf = .ok (mask, bounds) ∧ bounds 0 = (lo, hi) :=
  ⟨rfl, _, _, rfl, rfl⟩

/-- C44 fails for an element beyond its attribute: an element of another attribute is selected. -/
theorem parse_params_beyond_violated (ninf pinf : β) :
    ∃ mask bounds, parseParams [("f", ⟨.index 2, none⟩)] none ninf pinf = .ok (mask, bounds) ∧ mask 10 = true :=
  ⟨_, _, rfl, rfl⟩

private theorem resolve_spec (j : ℤ) :
    (-20 ≤ j ∧ j < 20 ∧ ∃ p : Nat, resolve j = .ok p ∧ p < 20 ∧ ((p : ℤ) = j ∨ (p : ℤ) = j + 20)) ∨
      (¬ (-20 ≤ j ∧ j < 20) ∧ resolve j = .error .indexError) := by
  unfold resolve
  by_cases h1 : 0 ≤ j ∧ j < 20
  · left
    rw [if_pos h1]
    exact ⟨by omega, by omega, j.toNat, rfl, by omega, Or.inl (by omega)⟩
  · rw [if_neg h1]
    by_cases h2 : -20 ≤ j ∧ j < 0
    · left
      rw [if_pos h2]
      exact ⟨by omega, by omega, (j + 20).toNat, rfl, by omega, Or.inr (by omega)⟩
    · right
      rw [if_neg h2]
      exact ⟨by omega, rfl⟩

private theorem mapM_resolve_spec (l : List ℤ) :
    ((∀ j ∈ l, -20 ≤ j ∧ j < 20) ∧ ∃ rs : List Nat, l.mapM resolve = .ok rs ∧ rs.length = l.length ∧
      ∀ p : Nat, p ∈ rs ↔ p < 20 ∧ ∃ j ∈ l, (p : ℤ) = j ∨ (p : ℤ) = j + 20) ∨
    ((∃ j ∈ l, ¬ (-20 ≤ j ∧ j < 20)) ∧ l.mapM resolve = .error .indexError) := by
  induction l with
  | nil => left; exact ⟨by simp, [], rfl, rfl, by simp⟩
  | cons j l ih =>
    rw [List.mapM_cons]
    rcases resolve_spec j with ⟨h1, h2, p, e, hp, hj⟩ | ⟨h, e⟩
    · rw [e]
      rcases ih with ⟨ha, rs, e', hl, hm⟩ | ⟨hx, e'⟩
      · left
        rw [e']
        refine ⟨?_, p :: rs, rfl, by simp [hl], ?_⟩
        · intro i hi
          rcases List.mem_cons.1 hi with rfl | hi
          · exact ⟨h1, h2⟩
          · exact ha i hi
        · intro q
          rw [List.mem_cons, hm q]
          constructor
          · rintro (rfl | ⟨hq, i, hi, h⟩)
            · exact ⟨hp, j, List.mem_cons_self, hj⟩
            · exact ⟨hq, i, List.mem_cons_of_mem _ hi, h⟩
          · rintro ⟨hq, i, hi, h⟩
            rcases List.mem_cons.1 hi with rfl | hi
            · left; omega
            · exact Or.inr ⟨hq, i, hi, h⟩
      · right
        rw [e']
        obtain ⟨i, hi, h⟩ := hx
        exact ⟨⟨i, List.mem_cons_of_mem _ hi, h⟩, rfl⟩
    · right
      rw [e]
      exact ⟨⟨j, List.mem_cons_self, h⟩, rfl⟩

/-- C44, every integer index: indices of an attribute that starts at `a` are positions of the whole vector of twenty,
counted from its end if negative. If one of them is not among the twenty, `parse_params` raises IndexError; if they
all are, the mask marks exactly those, whatever attribute they are of. -/
theorem parse_params_indices (key : String) (a n : Nat) (hkey : layoutOf key = some (a, n)) (l : List ℤ) (hl : l ≠ [])
    (defaults : Option (Nat → Option β × Option β)) (ninf pinf : β) :
    ((∃ i ∈ l, a + i < -20 ∨ 20 ≤ a + i) ∧
      parseParams [(key, ⟨.indices l, none⟩)] defaults ninf pinf = .error .indexError) ∨
    ((∀ i ∈ l, -20 ≤ a + i ∧ a + i < 20) ∧
      ∃ mask bounds, parseParams [(key, ⟨.indices l, none⟩)] defaults ninf pinf = .ok (mask, bounds) ∧
        ∀ p : Nat, mask p = true ↔ p < 20 ∧ ∃ i ∈ l, (p : ℤ) = a + i ∨ (p : ℤ) = a + i + 20) := by
  obtain ⟨i0, l0, rfl⟩ := List.exists_cons_of_ne_nil hl
  have hp : positionsOf a (a + n) (.indices (i0 :: l0)) = some ((i0 :: l0).map fun k : ℤ => (a : ℤ) + k) := rfl
  have hlk : attrs.lookup key = some (a, a + n) := by rw [lookup_layout, hkey]; rfl
  unfold parseParams
  simp only [List.foldlM_cons, List.foldlM_nil, parseStep, hlk, setMask, hp, setBounds]
  rcases mapM_resolve_spec ((i0 :: l0).map fun k : ℤ => (a : ℤ) + k) with ⟨ha, rs, e, -, hm⟩ | ⟨⟨j, hj, h⟩, e⟩
  · right
    rw [e]
    refine ⟨fun i hi => ha _ (List.mem_map.2 ⟨i, hi, rfl⟩), _, _, rfl, ?_⟩
    intro p
    simp only [Bool.false_or, decide_eq_true_eq]
    rw [hm p]
    constructor
    · rintro ⟨h, j, hj, h'⟩
      obtain ⟨i, hi, rfl⟩ := List.mem_map.1 hj
      exact ⟨h, i, hi, h'⟩
    · rintro ⟨h, i, hi, h'⟩
      exact ⟨h, _, List.mem_map.2 ⟨i, hi, rfl⟩, h'⟩
  · left
    rw [e]
    obtain ⟨i, hi, rfl⟩ := List.mem_map.1 hj
    exact ⟨⟨i, hi, by omega⟩, rfl⟩

/-- C44: bounds whose number fits neither one nor the number of named elements are refused with ValueError. -/
theorem parse_params_bounds_number (key : String) (a n : Nat) (hkey : layoutOf key = some (a, n)) (sel : Sel)
    (hs : sel.Valid n) (hne : sel.elements n ≠ []) (mn mx : Bnd β)
    (hb : ¬ (mn.Fits (sel.elements n).length ∧ mx.Fits (sel.elements n).length))
    (defaults : Option (Nat → Option β × Option β)) (ninf pinf : β) :
    parseParams [(key, ⟨sel, some (mn, mx)⟩)] defaults ninf pinf = .error .valueError := by
  have hlk : attrs.lookup key = some (a, a + n) := by rw [lookup_layout, hkey]; rfl
  have hr := layout_range _ _ _ hkey
  have hlt := elements_lt n sel hs
  have hpos : positionsOf a (a + n) sel = some ((sel.elements n).map fun i => ((a + i : Nat) : ℤ)) := by
    rcases positions_eq a n sel hs with ⟨h, -⟩ | h
    · exact absurd h hne
    · exact h
  have hres : ((sel.elements n).map fun i => ((a + i : Nat) : ℤ)).mapM resolve =
      .ok ((sel.elements n).map fun i => a + i) := by
    have := mapM_resolve ((sel.elements n).map fun i => a + i) (by
      intro p hp
      obtain ⟨i, hi, rfl⟩ := List.mem_map.1 hp
      have := hlt i hi
      omega)
    rw [List.map_map] at this
    exact this
  have hnot : ∀ b : Bnd β, ¬ b.Fits (sel.elements n).length → (expand b (sel.elements n).length).length ≠
      (sel.elements n).length := by
    intro b hb
    cases b with
    | one b => exact absurd trivial hb
    | list l =>
      simp only [Bnd.Fits, not_or] at hb
      match l, hb with
      | [], hb => simpa [expand] using hb.2
      | [_], hb => exact absurd rfl hb.1
      | _ :: _ :: _, hb => simpa [expand] using hb.2
  have hcond : (expand mn (sel.elements n).length).length ≠ (sel.elements n).length ∨
      (expand mx (sel.elements n).length).length ≠ (sel.elements n).length := by
    by_cases h : mn.Fits (sel.elements n).length
    · exact Or.inr (hnot mx fun h' => hb ⟨h, h'⟩)
    · exact Or.inl (hnot mn h)
  unfold parseParams
  simp only [List.foldlM_cons, List.foldlM_nil, parseStep, hlk, setMask, hpos, setBounds, hres, bind, Except.bind,
    List.length_map]
  rw [if_pos hcond]
  rfl

/-- Non-vacuity: the attribute "p" starts at 18, so that its index -1 is an element of "k", and 2 is out of range. -/
example : layoutOf "p" = some (18, 2) ∧
    ((parseParams [("p", ⟨.indices [-1, 1], none⟩)] none (-1000) (1000 : ℤ)).toOption.map fun r =>
      (List.range 20).filter r.1) = some [17, 19] ∧
    (parseParams [("p", ⟨.indices [2], none⟩)] none (-1000) (1000 : ℤ)).toOption.isNone = true ∧
    (parseParams [("p", ⟨.all, some (.list [some 1, some 2, some 3], .one none)⟩)] none (-1000)
      (1000 : ℤ)).toOption.isNone = true := by decide +kernel

/-- Non-vacuity: the example of the documentation. -/
example : ∃ mask bounds, parseParams [("viewdir", ⟨.indices [0, 1], some (.one none, .list [some 180, some 90])⟩),
      ("k", ⟨.all, none⟩)] none (-1000) (1000 : ℤ) = .ok (mask, bounds) ∧
    (List.range 20).filter mask = [3, 4, 12, 13, 14, 15, 16, 17] ∧ bounds 3 = (-1000, 180) ∧ bounds 4 = (-1000, 90) ∧
    bounds 5 = (-1000, 1000) :=
  ⟨_, _, rfl, by decide +kernel, by decide +kernel, by decide +kernel, by decide +kernel⟩

example : (⟨.indices [0, 1], some (.one none, .list [some 180, some 90])⟩ : Value ℤ).Valid 3 := by
  constructor
  · intro i hi; simp at hi; rcases hi with rfl | rfl <;> norm_num
  · intro b hb; cases hb; simp [Sel.elements, Bnd.Fits]

end Glimpse.Cams
