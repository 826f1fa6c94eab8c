import Verif.Model.Cams
import Mathlib.Tactic.Linarith
import Mathlib.Data.List.Nodup
import Mathlib.Data.List.Pairwise
import Mathlib.Data.List.GetD

/-!
C45: fitting parameters land on the right cameras and can be undone. C46: the Jacobian sparsity pattern.
-/
set_option autoImplicit false
set_option linter.unusedSimpArgs false

namespace Glimpse.Cams

/-! ### Specification -/

/-- To what a fitting parameter belongs. -/
inductive Owner where
  | group (i : Nat)
  | cam (j : Nat)
deriving DecidableEq

/-- The fitting parameters in order (optimize.py:1672-1680): first by group and camera, [group0 | group1 | cam0 | cam1 |
...], then by position in the vector of a camera. -/
def Layout.slots (L : Layout) : List (Owner × Nat) :=
  ((List.range L.groups.length).flatMap fun i => ((List.range 20).filter (L.groupMask i)).map fun p => (Owner.group i, p)) ++
  ((List.range L.ncams).flatMap fun j => ((List.range 20).filter (L.camMask j)).map fun p => (Owner.cam j, p))

/-- Group indices refer to cameras. -/
def Layout.Ok (L : Layout) : Prop := ∀ g ∈ L.groups, ∀ j ∈ g, j < L.ncams

/-! ### Lists -/

private theorem flatMap_get {γ : Type} (f : Nat → List γ) (n i r : Nat) (hi : i < n) (hr : r < (f i).length) :
    ((List.range n).flatMap f)[((List.range i).map fun k => (f k).length).sum + r]? = (f i)[r]? := by
  obtain ⟨m, rfl⟩ : ∃ m, n = i + (m + 1) := ⟨n - i - 1, by omega⟩
  rw [List.range_add, List.flatMap_append]
  have hl : ((List.range i).flatMap f).length = ((List.range i).map fun k => (f k).length).sum := by
    rw [List.length_flatMap]
  rw [List.getElem?_append_right (by omega), hl, Nat.add_sub_cancel_left, List.range_succ_eq_map, List.map_cons,
    List.flatMap_cons, List.getElem?_append_left (by simpa using hr)]
  simp

private theorem flatMap_len {γ : Type} (f : Nat → List γ) (n : Nat) :
    ((List.range n).flatMap f).length = ((List.range n).map fun k => (f k).length).sum := by
  rw [List.length_flatMap]

private theorem sum_range_succ (f : Nat → Nat) (n : Nat) :
    ((List.range (n + 1)).map f).sum = ((List.range n).map f).sum + f n := by
  rw [List.range_succ, List.map_append, List.sum_append]; simp

private theorem sum_range_mono (f : Nat → Nat) (m n : Nat) (h : m ≤ n) :
    ((List.range m).map f).sum ≤ ((List.range n).map f).sum := by
  induction n with
  | zero => have : m = 0 := by omega
            subst this; exact le_refl _
  | succ n ih =>
    rcases Nat.lt_or_ge m (n + 1) with h' | h'
    · rw [sum_range_succ]; have := ih (by omega); omega
    · have : m = n + 1 := by omega
      subst this; exact le_refl _

private theorem rank_get (m : Nat → Bool) (p : Nat) (hp : p < 20) (hm : m p = true) :
    ((List.range 20).filter m)[rank m p]? = some p := by
  obtain ⟨k, hk⟩ : ∃ k, 20 = p + (k + 1) := ⟨20 - p - 1, by omega⟩
  have e : List.range 20 = List.range p ++ p :: ((List.range k).map Nat.succ).map (p + ·) := by
    rw [hk, List.range_add, List.range_succ_eq_map]
    simp
  have hr : rank m p = ((List.range p).filter m).length := rfl
  rw [e, List.filter_append, List.filter_cons_of_pos hm, hr, List.getElem?_append_right (le_refl _)]
  simp

private theorem rank_lt (m : Nat → Bool) (p : Nat) (hp : p < 20) (hm : m p = true) : rank m p < countMask m := by
  have := rank_get m p hp hm
  by_contra hc
  rw [List.getElem?_eq_none (by unfold countMask at hc; omega)] at this
  cases this

private theorem slice_getD {α : Type} (l : List α) (a b r : Nat) (d : α) (h1 : a + r < b) (h2 : a + r < l.length) :
    l[a + r]? = some ((slice l a b).getD r d) := by
  unfold slice
  rw [List.getD_eq_getElem?_getD, List.getElem?_take, if_pos (by omega), List.getElem?_drop,
    List.getElem?_eq_getElem h2]
  rfl

/-! ### Layout -/

variable (L : Layout)

private theorem groupBreak_succ (i : Nat) : L.groupBreak (i + 1) = L.groupBreak i + countMask (L.groupMask i) := by
  unfold Layout.groupBreak; rw [sum_range_succ]

private theorem camBreak_succ (j : Nat) : L.camBreak (j + 1) = L.camBreak j + countMask (L.camMask j) := by
  unfold Layout.camBreak; rw [sum_range_succ]; omega

private theorem slot_group (i p : Nat) (hi : i < L.groups.length) (hp : p < 20) (hm : L.groupMask i p = true) :
    L.slots[L.groupBreak i + rank (L.groupMask i) p]? = some (.group i, p) := by
  have h := flatMap_get (fun i => ((List.range 20).filter (L.groupMask i)).map fun p => (Owner.group i, p))
    L.groups.length i (rank (L.groupMask i) p) hi (by
      have := rank_lt (L.groupMask i) p hp hm
      simpa [countMask] using this)
  have hb : L.groupBreak i = ((List.range i).map fun k =>
      (((List.range 20).filter (L.groupMask k)).map fun p => (Owner.group k, p)).length).sum := by
    unfold Layout.groupBreak countMask
    simp
  unfold Layout.slots
  rw [hb, List.getElem?_append_left, h, List.getElem?_map, rank_get _ p hp hm]
  · rfl
  · by_contra hc
    rw [List.getElem?_eq_none (by omega)] at h
    rw [List.getElem?_map, rank_get _ p hp hm] at h
    cases h

private theorem slot_cam (j p : Nat) (hj : j < L.ncams) (hp : p < 20) (hm : L.camMask j p = true) :
    L.slots[L.camBreak j + rank (L.camMask j) p]? = some (.cam j, p) := by
  have h := flatMap_get (fun j => ((List.range 20).filter (L.camMask j)).map fun p => (Owner.cam j, p))
    L.ncams j (rank (L.camMask j) p) hj (by
      have := rank_lt (L.camMask j) p hp hm
      simpa [countMask] using this)
  have hg : ((List.range L.groups.length).flatMap fun i =>
      ((List.range 20).filter (L.groupMask i)).map fun p => (Owner.group i, p)).length = L.groupBreak L.groups.length := by
    rw [flatMap_len]
    unfold Layout.groupBreak countMask
    simp
  have hb : ((List.range j).map fun k =>
      (((List.range 20).filter (L.camMask k)).map fun p => (Owner.cam k, p)).length).sum =
      ((List.range j).map fun (k : Nat) => countMask (L.camMask k)).sum := by
    unfold countMask
    simp
  unfold Layout.slots Layout.camBreak
  rw [List.getElem?_append_right (by omega), hg]
  have e : L.groupBreak L.groups.length + ((List.range j).map fun (k : Nat) => countMask (L.camMask k)).sum +
      rank (L.camMask j) p - L.groupBreak L.groups.length =
      ((List.range j).map fun (k : Nat) => countMask (L.camMask k)).sum + rank (L.camMask j) p := by omega
  rw [e, ← hb, h, List.getElem?_map, rank_get _ p hp hm]
  rfl

theorem slots_length : L.slots.length = L.total := by
  unfold Layout.slots Layout.total Layout.camBreak Layout.groupBreak countMask
  rw [List.length_append, flatMap_len, flatMap_len]
  simp

/-- No fitting parameter is used twice. -/
theorem slots_nodup : L.slots.Nodup := by
  have hf : ∀ (m : Nat → Bool) (o : Owner), (((List.range 20).filter m).map fun p => (o, p)).Nodup := by
    intro m o
    refine (List.Nodup.filter _ List.nodup_range).map ?_
    intro a b h
    exact (Prod.mk.inj h).2
  unfold Layout.slots
  refine List.Nodup.append ?_ ?_ ?_
  · refine List.nodup_flatMap.2 ⟨fun i _ => hf _ _, ?_⟩
    refine List.nodup_range.imp ?_
    intro a b hab x hx hy
    obtain ⟨p, _, rfl⟩ := List.mem_map.1 hx
    obtain ⟨q, _, h⟩ := List.mem_map.1 hy
    cases h; exact hab rfl
  · refine List.nodup_flatMap.2 ⟨fun i _ => hf _ _, ?_⟩
    refine List.nodup_range.imp ?_
    intro a b hab x hx hy
    obtain ⟨p, _, rfl⟩ := List.mem_map.1 hx
    obtain ⟨q, _, h⟩ := List.mem_map.1 hy
    cases h; exact hab rfl
  · intro x hx hy
    obtain ⟨i, _, h1⟩ := List.mem_flatMap.1 hx
    obtain ⟨j, _, h2⟩ := List.mem_flatMap.1 hy
    obtain ⟨p, _, rfl⟩ := List.mem_map.1 h1
    obtain ⟨q, _, h⟩ := List.mem_map.1 h2
    cases h

private theorem mem_slots_cam (j p : Nat) : (Owner.cam j, p) ∈ L.slots ↔ j < L.ncams ∧ p < 20 ∧ L.camMask j p = true := by
  unfold Layout.slots
  simp [List.mem_append, List.mem_flatMap]

private theorem mem_slots_group (i p : Nat) :
    (Owner.group i, p) ∈ L.slots ↔ i < L.groups.length ∧ p < 20 ∧ L.groupMask i p = true := by
  unfold Layout.slots
  simp [List.mem_append, List.mem_flatMap]

private theorem slot_inj (k k' : Nat) (x : Owner × Nat) (h : L.slots[k]? = some x) (h' : L.slots[k']? = some x) :
    k = k' := by
  have hk : k < L.slots.length := by
    by_contra hc; rw [List.getElem?_eq_none (by omega)] at h; cases h
  exact (List.getElem?_inj hk (slots_nodup L)).1 (h.trans h'.symm)

/-- Position of a slot of a camera. -/
private theorem slot_cam_iff (k j p : Nat) : L.slots[k]? = some (.cam j, p) ↔
    j < L.ncams ∧ p < 20 ∧ L.camMask j p = true ∧ k = L.camBreak j + rank (L.camMask j) p := by
  constructor
  · intro h
    obtain ⟨h1, h2, h3⟩ := (mem_slots_cam L j p).1 (List.mem_of_getElem? h)
    exact ⟨h1, h2, h3, slot_inj L _ _ _ h (slot_cam L j p h1 h2 h3)⟩
  · rintro ⟨h1, h2, h3, rfl⟩
    exact slot_cam L j p h1 h2 h3

private theorem slot_group_iff (k i p : Nat) : L.slots[k]? = some (.group i, p) ↔
    i < L.groups.length ∧ p < 20 ∧ L.groupMask i p = true ∧ k = L.groupBreak i + rank (L.groupMask i) p := by
  constructor
  · intro h
    obtain ⟨h1, h2, h3⟩ := (mem_slots_group L i p).1 (List.mem_of_getElem? h)
    exact ⟨h1, h2, h3, slot_inj L _ _ _ h (slot_group L i p h1 h2 h3)⟩
  · rintro ⟨h1, h2, h3, rfl⟩
    exact slot_group L i p h1 h2 h3

/-! ### Setting cameras -/

variable {α : Type}

private theorem setOne_other (params : List α) (V : Vecs α) (i j c : Nat) (h : c ≠ j) : L.setOne params V i j c = V c := by
  unfold Layout.setOne; rw [if_neg h]

/-- Values after one assignment. -/
private theorem setOne_self (params : List α) (hlen : params.length = L.total) (V : Vecs α) (i j p : Nat)
    (hi : i < L.groups.length) (hj : j < L.ncams) :
    (p < 20 → L.camMask j p = true →
      params[L.camBreak j + rank (L.camMask j) p]? = some (L.setOne params V i j j p)) ∧
    (p < 20 → L.camMask j p = false → L.groupMask i p = true →
      params[L.groupBreak i + rank (L.groupMask i) p]? = some (L.setOne params V i j j p)) ∧
    (¬ (p < 20 ∧ (L.camMask j p = true ∨ L.groupMask i p = true)) → L.setOne params V i j j p = V j p) := by
  have hs := slots_length L
  unfold Layout.setOne
  rw [if_pos rfl]
  refine ⟨?_, ?_, ?_⟩
  · intro hp hm
    unfold assign
    rw [if_pos ⟨hp, hm⟩]
    have h1 := slot_cam L j p hj hp hm
    have hlt : L.camBreak j + rank (L.camMask j) p < params.length := by
      by_contra hc
      rw [List.getElem?_eq_none (by omega)] at h1
      cases h1
    refine slice_getD _ _ _ _ _ ?_ hlt
    rw [camBreak_succ]
    have := rank_lt (L.camMask j) p hp hm
    omega
  · intro hp hm hg
    unfold assign
    rw [if_neg (by simp [hm]), if_pos ⟨hp, hg⟩]
    have h1 := slot_group L i p hi hp hg
    have hlt : L.groupBreak i + rank (L.groupMask i) p < params.length := by
      by_contra hc
      rw [List.getElem?_eq_none (by omega)] at h1
      cases h1
    refine slice_getD _ _ _ _ _ ?_ hlt
    rw [groupBreak_succ]
    have := rank_lt (L.groupMask i) p hp hg
    omega
  · intro hn
    unfold assign
    rw [if_neg (by intro h; exact hn ⟨h.1, Or.inl h.2⟩), if_neg (by intro h; exact hn ⟨h.1, Or.inr h.2⟩)]

private theorem inner_spec (params : List α) (hlen : params.length = L.total) (idx : List Nat) (V : Vecs α) (i c p : Nat)
    (hi : i < L.groups.length) (hidx : ∀ j ∈ idx, j < L.ncams) :
    let W := idx.foldl (fun W j => L.setOne params W i j) V
    (c ∉ idx → W c p = V c p) ∧
    (p < 20 → L.camMask c p = true → c ∈ idx →
      params[L.camBreak c + rank (L.camMask c) p]? = some (W c p)) ∧
    (p < 20 → L.camMask c p = false → L.groupMask i p = true → c ∈ idx →
      params[L.groupBreak i + rank (L.groupMask i) p]? = some (W c p)) ∧
    (¬ (p < 20 ∧ (L.camMask c p = true ∨ L.groupMask i p = true)) → W c p = V c p) ∧
    ((p < 20 ∧ L.camMask c p = true) → params[L.camBreak c + rank (L.camMask c) p]? = some (V c p) →
      params[L.camBreak c + rank (L.camMask c) p]? = some (W c p)) ∧
    ((p < 20 ∧ L.camMask c p = false ∧ L.groupMask i p = true) →
      params[L.groupBreak i + rank (L.groupMask i) p]? = some (V c p) →
      params[L.groupBreak i + rank (L.groupMask i) p]? = some (W c p)) := by
  induction idx generalizing V with
  | nil => simp
  | cons j idx ih =>
    intro W
    have hj := hidx j List.mem_cons_self
    obtain ⟨a1, a2, a3, a4, a5, a6⟩ := ih (L.setOne params V i j) (fun k hk => hidx k (List.mem_cons_of_mem _ hk))
    have hW : W = idx.foldl (fun W j => L.setOne params W i j) (L.setOne params V i j) := rfl
    rw [← hW] at a1 a2 a3 a4 a5 a6
    by_cases hc : c = j
    · subst hc
      obtain ⟨s1, s2, s3⟩ := setOne_self L params hlen V i c p hi hj
      refine ⟨?_, ?_, ?_, ?_, ?_, ?_⟩
      · intro h; exact absurd List.mem_cons_self h
      · intro hp hm _; exact a5 ⟨hp, hm⟩ (s1 hp hm)
      · intro hp hm hg _; exact a6 ⟨hp, hm, hg⟩ (s2 hp hm hg)
      · intro hn; rw [a4 hn, s3 hn]
      · intro h _; exact a5 h (s1 h.1 h.2)
      · intro h _; exact a6 h (s2 h.1 h.2.1 h.2.2)
    · have e := setOne_other L params V i j c hc
      rw [e] at a1 a4 a5 a6
      refine ⟨?_, ?_, ?_, a4, a5, a6⟩
      · intro h; exact a1 fun h' => h (List.mem_cons_of_mem _ h')
      · intro hp hm h
        rcases List.mem_cons.1 h with h | h
        · exact absurd h hc
        · exact a2 hp hm h
      · intro hp hm hg h
        rcases List.mem_cons.1 h with h | h
        · exact absurd h hc
        · exact a3 hp hm hg h

private theorem outer_spec (params : List α) (hlen : params.length = L.total) (gs : List (List Nat)) (i : Nat)
    (V : Vecs α) (c p : Nat) (hi : i + gs.length = L.groups.length) (hidx : ∀ g ∈ gs, ∀ j ∈ g, j < L.ncams) :
    let W := L.setFrom params V i gs
    ((∀ g ∈ gs, c ∉ g) → W c p = V c p) ∧
    (p < 20 → L.camMask c p = true → (∃ g ∈ gs, c ∈ g) →
      params[L.camBreak c + rank (L.camMask c) p]? = some (W c p)) ∧
    (p < 20 → L.camMask c p = true → params[L.camBreak c + rank (L.camMask c) p]? = some (V c p) →
      params[L.camBreak c + rank (L.camMask c) p]? = some (W c p)) ∧
    (L.camMask c p = false → (∀ k, c ∈ gs.getD k [] → p < 20 → L.groupMask (i + k) p = false) → W c p = V c p) ∧
    (¬ p < 20 → W c p = V c p) ∧
    (p < 20 → L.camMask c p = false → ∀ k, c ∈ gs.getD k [] → L.groupMask (i + k) p = true →
      (∀ k', k' ≠ k → c ∈ gs.getD k' [] → L.groupMask (i + k') p = false) →
      params[L.groupBreak (i + k) + rank (L.groupMask (i + k)) p]? = some (W c p)) := by
  induction gs generalizing i V with
  | nil =>
    intro W
    refine ⟨fun _ => rfl, ?_, ?_, fun _ _ => rfl, fun _ => rfl, ?_⟩
    · rintro _ _ ⟨g, hg, _⟩; cases hg
    · intro _ _ h; exact h
    · intro _ _ k h; simp at h
  | cons idx gs ih =>
    intro W
    have hilt : i < L.groups.length := by simp at hi; omega
    obtain ⟨b1, b2, b3, b4, b5, b6⟩ := inner_spec L params hlen idx V i c p hilt (hidx idx List.mem_cons_self)
    set U := idx.foldl (fun W j => L.setOne params W i j) V with hU
    obtain ⟨a1, a2, a3, a4, a5, a6⟩ := ih (i + 1) U (by simp at hi ⊢; omega)
      (fun g hg => hidx g (List.mem_cons_of_mem _ hg))
    have hW : W = L.setFrom params U (i + 1) gs := rfl
    rw [← hW] at a1 a2 a3 a4 a5 a6
    have shift : ∀ k, i + 1 + k = i + (k + 1) := fun k => by omega
    refine ⟨?_, ?_, ?_, ?_, ?_, ?_⟩
    · intro h
      rw [a1 fun g hg => h g (List.mem_cons_of_mem _ hg), b1 (h idx List.mem_cons_self)]
    · rintro hp hm ⟨g, hg, hcg⟩
      rcases List.mem_cons.1 hg with rfl | hg
      · exact a3 hp hm (b2 hp hm hcg)
      · exact a2 hp hm ⟨g, hg, hcg⟩
    · intro hp hm h
      exact a3 hp hm (b5 ⟨hp, hm⟩ h)
    · intro hm h
      rw [a4 hm (by
        intro k hk hp
        rw [shift]
        exact h (k + 1) (by simpa using hk) hp)]
      by_cases hc : c ∈ idx
      · refine b4 ?_
        rintro ⟨hp, h' | h'⟩
        · rw [hm] at h'; cases h'
        · have := h 0 (by simpa using hc) hp
          rw [Nat.add_zero, h'] at this; cases this
      · exact b1 hc
    · intro hp
      rw [a5 hp]
      exact b4 fun h => hp h.1
    · intro hp hm k hk hg hothers
      cases k with
      | zero =>
        have hc : c ∈ idx := by simpa using hk
        rw [a4 hm (by
          intro k hk' _
          rw [shift]
          exact hothers (k + 1) (by omega) (by simpa using hk'))]
        exact b3 hp hm hg hc
      | succ k =>
        have := a6 hp hm k (by simpa using hk) (by rw [shift]; exact hg) (by
          intro k' hne hk'
          rw [shift]
          exact hothers (k' + 1) (by omega) (by simpa using hk'))
        rwa [shift] at this

/-- `_test` passes only if no camera is in two groups that both select the same element. -/
theorem test_overlap_sound (h : L.testOverlap = .ok ()) (i i' j p : Nat) (hp : p < 20) (hne : i ≠ i')
    (h1 : L.groupMask i p = true) (h2 : L.groupMask i' p = true) (hi : j ∈ L.groups.getD i [])
    (hi' : j ∈ L.groups.getD i' []) : False := by
  have lt : ∀ k, j ∈ L.groups.getD k [] → k < L.groups.length := by
    intro k hk
    by_contra hc
    rw [List.getD_eq_default _ _ (by omega)] at hk
    cases hk
  unfold Layout.testOverlap at h
  split at h
  · rename_i hall
    have := List.all_eq_true.1 hall p (List.mem_range.2 hp)
    simp only [Bool.or_eq_true, decide_eq_true_eq] at this
    have m1 : i ∈ (List.range L.groups.length).filter fun i => L.groupMask i p :=
      List.mem_filter.2 ⟨List.mem_range.2 (lt i hi), h1⟩
    have m2 : i' ∈ (List.range L.groups.length).filter fun i => L.groupMask i p :=
      List.mem_filter.2 ⟨List.mem_range.2 (lt i' hi'), h2⟩
    rcases this with hlen | hnd
    · generalize hgs : ((List.range L.groups.length).filter fun i => L.groupMask i p) = gs at m1 m2 hlen
      cases gs with
      | nil => cases m1
      | cons a gs =>
        cases gs with
        | nil =>
          simp only [List.mem_singleton] at m1 m2
          exact hne (m1.trans m2.symm)
        | cons b gs => simp at hlen
    · obtain ⟨_, hpw⟩ := List.nodup_flatMap.1 hnd
      haveI hsym : Std.Symm (Function.onFun List.Disjoint fun i => L.groups.getD i []) := ⟨by
        intro a b hab x hx hy
        exact hab hy hx⟩
      exact hpw.forall m1 m2 hne hi hi'
  · cases h

/-- C45. `set_cameras(params)`, for a model that passes `_test`: a parameter of a camera (that is in some group) is
written to that camera; a parameter of a group is written to every camera of the group that does not have a parameter
of its own there; nothing else changes. -/
theorem set_cameras_partial (hL : L.Ok) (htest : L.testOverlap = .ok ()) (params : List α)
    (hlen : params.length = L.slots.length) (V : Vecs α) :
    (∀ (k j p : Nat), L.slots[k]? = some (Owner.cam j, p) → (∃ g ∈ L.groups, j ∈ g) →
      params[k]? = some (L.setCameras params V j p)) ∧
    (∀ (k i p : Nat), L.slots[k]? = some (Owner.group i, p) → ∀ j ∈ L.groups.getD i [], (Owner.cam j, p) ∉ L.slots →
      params[k]? = some (L.setCameras params V j p)) ∧
    (∀ j p, (Owner.cam j, p) ∉ L.slots → (∀ i, j ∈ L.groups.getD i [] → (Owner.group i, p) ∉ L.slots) →
      L.setCameras params V j p = V j p) := by
  have hlen' : params.length = L.total := by rw [hlen, slots_length]
  have lt : ∀ j k, j ∈ L.groups.getD k [] → k < L.groups.length := by
    intro j k hk
    by_contra hc
    rw [List.getD_eq_default _ _ (by omega)] at hk
    cases hk
  have memg : ∀ j k, j ∈ L.groups.getD k [] → ∃ g ∈ L.groups, j ∈ g := by
    intro j k hk
    have := lt j k hk
    rw [List.getD_eq_getElem _ _ this] at hk
    exact ⟨_, List.getElem_mem this, hk⟩
  refine ⟨?_, ?_, ?_⟩
  · intro k j p hk hg
    obtain ⟨h1, h2, h3, rfl⟩ := (slot_cam_iff L k j p).1 hk
    obtain ⟨_, o2, _⟩ := outer_spec L params hlen' L.groups 0 V j p (by simp) hL
    exact o2 h2 h3 hg
  · intro k i p hk j hj hno
    obtain ⟨h1, h2, h3, rfl⟩ := (slot_group_iff L k i p).1 hk
    obtain ⟨_, _, _, _, _, o6⟩ := outer_spec L params hlen' L.groups 0 V j p (by simp) hL
    have hjn : j < L.ncams := by obtain ⟨g, hg, hjg⟩ := memg j i hj; exact hL g hg j hjg
    have hcm : L.camMask j p = false := by
      by_contra hc
      exact hno ((mem_slots_cam L j p).2 ⟨hjn, h2, by simpa using hc⟩)
    have := o6 h2 hcm i hj (by simpa using h3) (by
      intro k' hne hk'
      by_contra hc
      rw [Nat.zero_add] at hc
      exact test_overlap_sound L htest i k' j p h2 (Ne.symm hne) h3 (by simpa using hc) hj hk')
    simpa [Layout.setCameras] using this
  · intro j p hno hgr
    obtain ⟨o1, _, _, o4, o5, _⟩ := outer_spec L params hlen' L.groups 0 V j p (by simp) hL
    by_cases hp : p < 20
    · by_cases hm : ∃ g ∈ L.groups, j ∈ g
      · obtain ⟨g, hg, hjg⟩ := hm
        have hcm : L.camMask j p = false := by
          by_contra hc
          exact hno ((mem_slots_cam L j p).2 ⟨hL g hg j hjg, hp, by simpa using hc⟩)
        refine o4 hcm ?_
        intro k hk _
        by_contra hc
        rw [Nat.zero_add] at hc
        exact hgr k hk ((mem_slots_group L k p).2 ⟨lt j k hk, hp, by simpa using hc⟩)
      · push Not at hm
        exact o1 hm
    · exact o5 hp

/-- C45 fails for a camera that is in no group: its own parameters are never written to it. -/
theorem set_cameras_no_group_violated (hL : L.Ok) (params : List α) (hlen : params.length = L.slots.length)
    (V : Vecs α) (j : Nat) (hj : ∀ g ∈ L.groups, j ∉ g) : L.setCameras params V j = V j := by
  funext p
  exact (outer_spec L params (by rw [hlen, slots_length]) L.groups 0 V j p (by simp) hL).1 hj

/-! ### Undoing -/

/-- After any history `reset_cameras` restores the vectors as they were after the last `set_cameras(save=True)`. -/
theorem reset_restores_saved {ρ : Type} (pred : Vecs α → Except Err ρ) (s : CState α) (pre post : List (CamOp α))
    (params : List α) (hpost : ∀ ps, CamOp.set ps true ∉ post) :
    (L.run pred s (pre ++ .set params true :: post ++ [.reset])).vecs =
      (L.run pred s (pre ++ [.set params true])).vecs := by
  have keep : ∀ (t : CState α), (L.run pred t post).saved = t.saved := by
    intro t
    unfold Layout.run
    induction post generalizing t with
    | nil => rfl
    | cons op post ih =>
      rw [List.foldl_cons, ih (fun ps h => hpost ps (List.mem_cons_of_mem _ h))]
      cases op with
      | set ps save =>
        cases save with
        | false => rfl
        | true => exact absurd List.mem_cons_self (hpost ps)
      | reset => rfl
      | predicted ps => rfl
      | edit V => rfl
  have e : L.run pred s (pre ++ .set params true :: post ++ [.reset]) =
      L.step pred (L.run pred (L.run pred s (pre ++ [.set params true])) post) .reset := by
    simp [Layout.run, List.foldl_append]
  rw [e]
  have h1 : (L.step pred (L.run pred (L.run pred s (pre ++ [.set params true])) post) .reset).vecs =
      (L.run pred (L.run pred s (pre ++ [.set params true])) post).saved := rfl
  rw [h1, keep]
  simp [Layout.run, List.foldl_append, Layout.step]

/-- Without any save it restores the vectors as they were when the model was made. -/
theorem reset_restores_initial {ρ : Type} (pred : Vecs α → Except Err ρ) (V : Vecs α) (ops : List (CamOp α))
    (h : ∀ ps, CamOp.set ps true ∉ ops) : (L.run pred ⟨V, V⟩ (ops ++ [.reset])).vecs = V := by
  have keep : ∀ (t : CState α), (L.run pred t ops).saved = t.saved := by
    intro t
    unfold Layout.run
    induction ops generalizing t with
    | nil => rfl
    | cons op ops ih =>
      rw [List.foldl_cons, ih (fun ps h' => h ps (List.mem_cons_of_mem _ h'))]
      cases op with
      | set ps save =>
        cases save with
        | false => rfl
        | true => exact absurd List.mem_cons_self (h ps)
      | reset => rfl
      | predicted ps => rfl
      | edit V => rfl
  have e : L.run pred ⟨V, V⟩ (ops ++ [.reset]) = L.step pred (L.run pred ⟨V, V⟩ ops) .reset := by
    simp [Layout.run, List.foldl_append]
  rw [e]
  exact keep ⟨V, V⟩

/-- When `predicted` (or `residuals`, `errors`) returns, it is the prediction for the given parameters and the cameras
are as they were. -/
theorem predicted_restores_partial {ρ : Type} (pred : Vecs α → Except Err ρ) (params : List α) (V : Vecs α) (r : ρ)
    (h : (L.predicted pred (some params) V).1 = .ok r) :
    pred (L.setCameras params V) = .ok r ∧ (L.predicted pred (some params) V).2 = V := by
  unfold Layout.predicted at h ⊢
  simp only at h ⊢
  cases e : pred (L.setCameras params V) with
  | error er => rw [e] at h; cases h
  | ok r' => rw [e] at h; cases h; exact ⟨rfl, rfl⟩

/-- C45 fails when the prediction raises: the cameras keep the given parameters. -/
theorem predicted_raises_violated {ρ : Type} (pred : Vecs α → Except Err ρ) (params : List α) (V : Vecs α) (e : Err)
    (h : pred (L.setCameras params V) = .error e) :
    L.predicted pred (some params) V = (.error e, L.setCameras params V) := by
  unfold Layout.predicted
  simp only [h]

/-! ### Sparsity -/

private theorem slot_of_lt (k : Nat) (h : k < L.slots.length) : ∃ o p, L.slots[k]? = some (o, p) :=
  ⟨(L.slots[k]).1, (L.slots[k]).2, by rw [List.getElem?_eq_getElem h]⟩

private theorem groupBreak_mono (a b : Nat) (h : a ≤ b) : L.groupBreak a ≤ L.groupBreak b := sum_range_mono _ _ _ h

private theorem camBreak_mono (a b : Nat) (h : a ≤ b) : L.camBreak a ≤ L.camBreak b :=
  Nat.add_le_add_left (sum_range_mono _ _ _ h) _

/-- The columns of a camera are those of its slots. -/
private theorem cam_columns (j c : Nat) (hj : j < L.ncams) :
    (L.camBreak j ≤ c ∧ c < L.camBreak (j + 1)) ↔ ∃ p, L.slots[c]? = some (.cam j, p) := by
  constructor
  · rintro ⟨h1, h2⟩
    have hc : c < L.slots.length := by
      rw [slots_length]
      have := camBreak_mono L (j + 1) L.ncams hj
      unfold Layout.total; omega
    obtain ⟨o, p, h⟩ := slot_of_lt L c hc
    cases o with
    | group i =>
      obtain ⟨g1, g2, g3, rfl⟩ := (slot_group_iff L c i p).1 h
      have a1 := rank_lt (L.groupMask i) p g2 g3
      have a2 := groupBreak_mono L (i + 1) L.groups.length g1
      rw [groupBreak_succ] at a2
      have : L.groupBreak L.groups.length ≤ L.camBreak j := Nat.le_add_right _ _
      omega
    | cam j' =>
      obtain ⟨g1, g2, g3, rfl⟩ := (slot_cam_iff L c j' p).1 h
      have a1 := rank_lt (L.camMask j') p g2 g3
      have a2 := camBreak_succ L j'
      have : j' = j := by
        rcases Nat.lt_trichotomy j' j with hlt | heq | hgt
        · have := camBreak_mono L (j' + 1) j hlt
          omega
        · exact heq
        · have := camBreak_mono L (j + 1) j' hgt
          omega
      subst this
      exact ⟨p, h⟩
  · rintro ⟨p, h⟩
    obtain ⟨g1, g2, g3, rfl⟩ := (slot_cam_iff L c j p).1 h
    have a1 := rank_lt (L.camMask j) p g2 g3
    rw [camBreak_succ]
    omega

/-- The columns of a group are those of its slots. -/
private theorem group_columns (i c : Nat) (hi : i < L.groups.length) :
    (L.groupBreak i ≤ c ∧ c < L.groupBreak (i + 1)) ↔ ∃ p, L.slots[c]? = some (.group i, p) := by
  constructor
  · rintro ⟨h1, h2⟩
    have hcg : c < L.groupBreak L.groups.length := by
      have := groupBreak_mono L (i + 1) L.groups.length hi
      omega
    have hc : c < L.slots.length := by
      rw [slots_length]
      have : L.groupBreak L.groups.length ≤ L.total := Nat.le_add_right _ _
      omega
    obtain ⟨o, p, h⟩ := slot_of_lt L c hc
    cases o with
    | cam j =>
      obtain ⟨g1, g2, g3, rfl⟩ := (slot_cam_iff L c j p).1 h
      have : L.groupBreak L.groups.length ≤ L.camBreak j := Nat.le_add_right _ _
      omega
    | group i' =>
      obtain ⟨g1, g2, g3, rfl⟩ := (slot_group_iff L c i' p).1 h
      have a1 := rank_lt (L.groupMask i') p g2 g3
      have a2 := groupBreak_succ L i'
      have : i' = i := by
        rcases Nat.lt_trichotomy i' i with hlt | heq | hgt
        · have := groupBreak_mono L (i' + 1) i hlt
          omega
        · exact heq
        · have := groupBreak_mono L (i + 1) i' hgt
          omega
      subst this
      exact ⟨p, h⟩
  · rintro ⟨p, h⟩
    obtain ⟨g1, g2, g3, rfl⟩ := (slot_group_iff L c i p).1 h
    have a1 := rank_lt (L.groupMask i) p g2 g3
    rw [groupBreak_succ]
    omega

/-- The sparsity matrix has a one at (r, c) exactly if row `r` belongs to a control one of whose cameras has parameter
`c`, itself or as a member of a group. -/
theorem sparsity_iff (cs : List Control) (r c : Nat) :
    L.sparsity cs r c = true ↔
      ∃ k, k < cs.length ∧ controlBreak cs k ≤ r ∧ r < controlBreak cs (k + 1) ∧
        ∃ j ∈ (cs.getD k ⟨0, []⟩).cams, j < L.ncams ∧
          ∃ p, L.slots[c]? = some (.cam j, p) ∨
            ∃ i, j ∈ L.groups.getD i [] ∧ L.slots[c]? = some (.group i, p) := by
  have lt : ∀ j k, j ∈ L.groups.getD k [] → k < L.groups.length := by
    intro j k hk
    by_contra hc
    rw [List.getD_eq_default _ _ (by omega)] at hk
    cases hk
  unfold Layout.sparsity
  simp only [List.any_eq_true, List.mem_range, Bool.and_eq_true, Bool.or_eq_true, decide_eq_true_eq]
  constructor
  · rintro ⟨k, hk, ⟨h1, h2⟩, j, hj, hjn, h⟩
    refine ⟨k, hk, h1, h2, j, hj, hjn, ?_⟩
    rcases h with ⟨h3, h4⟩ | ⟨i, hi, ⟨hji, h3⟩, h4⟩
    · obtain ⟨p, hp⟩ := (cam_columns L j c hjn).1 ⟨h3, h4⟩
      exact ⟨p, Or.inl hp⟩
    · obtain ⟨p, hp⟩ := (group_columns L i c hi).1 ⟨h3, h4⟩
      exact ⟨p, Or.inr ⟨i, hji, hp⟩⟩
  · rintro ⟨k, hk, h1, h2, j, hj, hjn, p, h⟩
    refine ⟨k, hk, ⟨h1, h2⟩, j, hj, hjn, ?_⟩
    rcases h with h | ⟨i, hi, h⟩
    · left; exact (cam_columns L j c hjn).2 ⟨p, h⟩
    · right
      have := (group_columns L i c (lt j i hi)).2 ⟨p, h⟩
      exact ⟨i, lt j i hi, ⟨hi, this.1⟩, this.2⟩

private theorem slice_congr (P Q : List α) (hl : P.length = Q.length) (a b : Nat)
    (h : ∀ c, a ≤ c → c < b → P[c]? = Q[c]?) : slice P a b = slice Q a b := by
  unfold slice
  apply List.ext_getElem?
  intro k
  rw [List.getElem?_take, List.getElem?_take]
  split
  · rw [List.getElem?_drop, List.getElem?_drop]
    exact h _ (by omega) (by omega)
  · rfl

private theorem setFrom_congr (P Q : List α) (hl : P.length = Q.length) (gs : List (List Nat)) (i : Nat) (V W : Vecs α)
    (c : Nat) (hV : V c = W c)
    (hc : (∃ g ∈ gs, c ∈ g) → ∀ k, L.camBreak c ≤ k → k < L.camBreak (c + 1) → P[k]? = Q[k]?)
    (hg : ∀ n, c ∈ gs.getD n [] → ∀ k, L.groupBreak (i + n) ≤ k → k < L.groupBreak (i + n + 1) → P[k]? = Q[k]?) :
    L.setFrom P V i gs c = L.setFrom Q W i gs c := by
  induction gs generalizing i V W with
  | nil => exact hV
  | cons idx gs ih =>
    refine ih (i + 1) _ _ ?_ ?_ ?_
    · by_cases hm : c ∈ idx
      · have s1 := slice_congr P Q hl _ _ (hc ⟨idx, List.mem_cons_self, hm⟩)
        have s2 := slice_congr P Q hl (L.groupBreak i) (L.groupBreak (i + 1)) (by
          have := hg 0 (by simpa using hm)
          simpa using this)
        have inner : ∀ (l : List Nat) (V W : Vecs α), V c = W c →
            l.foldl (fun U j => L.setOne P U i j) V c = l.foldl (fun U j => L.setOne Q U i j) W c := by
          intro l
          induction l with
          | nil => intro V W h; exact h
          | cons j l ihl =>
            intro V W h
            refine ihl _ _ ?_
            by_cases hj : c = j
            · subst hj
              simp only [Layout.setOne, if_true, s1, s2, h]
            · change L.setOne P V i j c = L.setOne Q W i j c
              rw [setOne_other L P V i j c hj, setOne_other L Q W i j c hj, h]
        exact inner idx V W hV
      · have keep : ∀ (R : List α) (l : List Nat) (V : Vecs α), c ∉ l →
            l.foldl (fun U j => L.setOne R U i j) V c = V c := by
          intro R l
          induction l with
          | nil => intro V _; rfl
          | cons j l ihl =>
            intro V h
            rw [List.foldl_cons, ihl _ fun h' => h (List.mem_cons_of_mem _ h')]
            exact setOne_other L R V i j c fun e => h (e ▸ List.mem_cons_self)
        rw [keep P idx V hm, keep Q idx W hm, hV]
    · rintro ⟨g, hgm, hcg⟩
      exact hc ⟨g, List.mem_cons_of_mem _ hgm, hcg⟩
    · intro n hn k h1 h2
      refine hg (n + 1) (by simpa using hn) k ?_ ?_
      · rw [show i + (n + 1) = i + 1 + n by omega]; exact h1
      · rw [show i + (n + 1) + 1 = i + 1 + n + 1 by omega]; exact h2

/-- C46. For every model and set of controls: if two parameter vectors agree in all columns where row `r` of the
sparsity matrix is one, the residuals of the control that row belongs to are the same, whatever function of its cameras
they are. -/
theorem sparsity_sound {ρ : Type} (hL : L.Ok) (cs : List Control) (r k : Nat) (hk : k < cs.length)
    (h1 : controlBreak cs k ≤ r) (h2 : r < controlBreak cs (k + 1)) (residuals : Vecs α → ρ)
    (hlocal : ∀ V W : Vecs α, (∀ j ∈ (cs.getD k ⟨0, []⟩).cams, V j = W j) → residuals V = residuals W)
    (P Q : List α) (hP : P.length = L.slots.length) (hQ : Q.length = L.slots.length)
    (hagree : ∀ c, L.sparsity cs r c = true → P[c]? = Q[c]?) (V : Vecs α) :
    residuals (L.setCameras P V) = residuals (L.setCameras Q V) := by
  refine hlocal _ _ ?_
  intro j hj
  have lt : ∀ j k, j ∈ L.groups.getD k [] → k < L.groups.length := by
    intro j k hk
    by_contra hc
    rw [List.getD_eq_default _ _ (by omega)] at hk
    cases hk
  by_cases hjn : j < L.ncams
  · refine setFrom_congr L P Q (hP.trans hQ.symm) L.groups 0 V V j rfl ?_ ?_
    · intro _ c h3 h4
      refine hagree c ((sparsity_iff L cs r c).2 ⟨k, hk, h1, h2, j, hj, hjn, ?_⟩)
      obtain ⟨p, hp⟩ := (cam_columns L j c hjn).1 ⟨h3, h4⟩
      exact ⟨p, Or.inl hp⟩
    · intro n hn c h3 h4
      rw [Nat.zero_add] at h3 h4
      refine hagree c ((sparsity_iff L cs r c).2 ⟨k, hk, h1, h2, j, hj, hjn, ?_⟩)
      obtain ⟨p, hp⟩ := (group_columns L n c (lt j n hn)).1 ⟨h3, h4⟩
      exact ⟨p, Or.inr ⟨n, hn, hp⟩⟩
  · have hno : ∀ g ∈ L.groups, j ∉ g := fun g hg hjg => hjn (hL g hg j hjg)
    rw [set_cameras_no_group_violated L hL P hP V j hno, set_cameras_no_group_violated L hL Q hQ V j hno]

/-! ### Example -/

/-- Three cameras; a group of cameras 0 and 1 with `f` (positions 8, 9), camera 0 with `viewdir` (3, 4, 5), camera 2, in
no group, with the first of `xyz`. -/
def demoLayout : Layout where
  ncams := 3
  groups := [[0, 1]]
  groupMask i p := decide (i = 0 ∧ (p = 8 ∨ p = 9))
  camMask j p := decide ((j = 0 ∧ 3 ≤ p ∧ p < 6) ∨ (j = 2 ∧ p = 0))

example : demoLayout.slots = [(.group 0, 8), (.group 0, 9), (.cam 0, 3), (.cam 0, 4), (.cam 0, 5), (.cam 2, 0)] := by
  decide +kernel
example : demoLayout.Ok ∧ demoLayout.testOverlap = .ok () := by
  constructor
  · intro g hg j hj
    simp only [demoLayout, List.mem_singleton] at hg
    subst hg
    simp at hj
    rcases hj with rfl | rfl <;> decide
  · decide +kernel
example : (demoLayout.setCameras [1, 2, 3, 4, 5, 6] (fun _ _ => (0 : ℤ))) 1 9 = 2 ∧
    (demoLayout.setCameras [1, 2, 3, 4, 5, 6] (fun _ _ => (0 : ℤ))) 0 4 = 4 ∧
    (demoLayout.setCameras [1, 2, 3, 4, 5, 6] (fun _ _ => (0 : ℤ))) 2 0 = 0 := by decide +kernel
example : (List.range 6).filter (demoLayout.sparsity [⟨2, [0]⟩, ⟨1, [1, 2]⟩] 5) = [0, 1, 5] := by decide +kernel

end Glimpse.Cams
