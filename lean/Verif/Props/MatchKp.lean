import Verif.Model.MatchKp
import Mathlib.Tactic.Linarith
import Mathlib.Tactic.NormNum
import Mathlib.Data.List.GetD
import Mathlib.Data.List.Forall2
import Mathlib.Data.List.Nodup

/-!
C76: `match_keypoints` returns the pairs of keypoints that pass the requested tests.
-/
set_option autoImplicit false
set_option linter.unusedSimpArgs false
set_option linter.unusedSectionVars false

namespace Glimpse.MatchKp

/-! ### Specification -/

/-- `j` is a best match for `i` among `n`, by descriptor distance `D`. -/
def IsBest (D : Nat → Nat → ℚ) (n i j : Nat) : Prop := j < n ∧ ∀ j' < n, D i j ≤ D i j'

/-- `s` is a second best match after `j`. -/
def IsSecond (D : Nat → Nat → ℚ) (n i j s : Nat) : Prop := s < n ∧ s ≠ j ∧ ∀ j' < n, j' ≠ j → D i s ≤ D i j'

/-- The better match is unique. -/
def OnlyBest (D : Nat → Nat → ℚ) (n i j : Nat) : Prop := j < n ∧ ∀ j' < n, j' ≠ j → D i j < D i j'

/-- The results of an exact matcher without mask: for each query, `k` different trains, nearest first, and none nearer
left out. -/
structure Nearest (D : Nat → Nat → ℚ) (nq nt k : Nat) (l : List (List DM)) : Prop where
  len : l.length = nq
  row : ∀ i < nq, ∃ js : List Nat, l[i]? = some (js.map fun j => (⟨i, j, D i j⟩ : DM)) ∧ js.length = k ∧ js.Nodup ∧
    (∀ j ∈ js, j < nt) ∧ js.Pairwise (fun a b => D i a ≤ D i b) ∧ ∀ j < nt, j ∉ js → ∀ a ∈ js, D i a ≤ D i j

/-- The tests on the descriptors of a pair. -/
def Passes (D : Nat → Nat → ℚ) (na nb : Nat) (a : Args) (i j : Nat) : Prop :=
  i < na ∧ IsBest D nb i j ∧
  (a.crossCheck = true → IsBest (fun j i => D i j) na j i) ∧
  (∀ r, a.maxRatio = some r → r ≠ 0 → ∃ s, IsSecond D nb i j s ∧ D i j / D i s < r)

/-- The test on the image coordinates of a pair: their distance is less than the maximum. -/
def Close (a : Args) (p q : ℚ × ℚ) : Prop :=
  ∀ m, a.maxDistance = some m → m ≠ 0 → 0 < m ∧ (p.1 - q.1) ^ 2 + (p.2 - q.2) ^ 2 < m ^ 2

/-! ### Proof -/

private theorem rows_eq (l : List (List DM)) (nq : Nat) (js : Nat → List Nat) (D : Nat → Nat → ℚ) (hl : l.length = nq)
    (h : ∀ i < nq, l[i]? = some ((js i).map fun j => (⟨i, j, D i j⟩ : DM))) :
    l = (List.range nq).map fun i => (js i).map fun j => (⟨i, j, D i j⟩ : DM) := by
  apply List.ext_getElem?
  intro i
  by_cases hi : i < nq
  · rw [h i hi]; simp [hi]
  · rw [List.getElem?_eq_none (by omega), List.getElem?_eq_none (by simp; omega)]

private theorem nearest_rows {D : Nat → Nat → ℚ} {nq nt k : Nat} {l : List (List DM)} (h : Nearest D nq nt k l) :
    ∃ js : Nat → List Nat, (l = (List.range nq).map fun i => (js i).map fun j => (⟨i, j, D i j⟩ : DM)) ∧
      ∀ i < nq, (js i).length = k ∧ (js i).Nodup ∧ (∀ j ∈ js i, j < nt) ∧ (js i).Pairwise (fun a b => D i a ≤ D i b) ∧
        ∀ j < nt, j ∉ js i → ∀ a ∈ js i, D i a ≤ D i j := by
  have hc : ∀ i, ∃ js : List Nat, i < nq → l[i]? = some (js.map fun j => (⟨i, j, D i j⟩ : DM)) ∧ js.length = k ∧ js.Nodup ∧
    (∀ j ∈ js, j < nt) ∧ js.Pairwise (fun a b => D i a ≤ D i b) ∧ ∀ j < nt, j ∉ js → ∀ a ∈ js, D i a ≤ D i j := by
    intro i
    by_cases hi : i < nq
    · obtain ⟨js, hj⟩ := h.row i hi; exact ⟨js, fun _ => hj⟩
    · exact ⟨[], fun h => absurd h hi⟩
  choose js hjs using hc
  exact ⟨js, rows_eq l nq js D h.len fun i hi => (hjs i hi).1, fun i hi => (hjs i hi).2⟩

private theorem filterE_map {α β : Type} (f : α → Except Err Bool) (g : β → α) (p : β → Bool) (l : List β)
    (h : ∀ b ∈ l, f (g b) = .ok (p b)) : filterE f (l.map g) = .ok ((l.filter p).map g) := by
  induction l with
  | nil => rfl
  | cons b l ih =>
    rw [List.map_cons, filterE, h b List.mem_cons_self, ih fun c hc => h c (List.mem_cons_of_mem _ hc)]
    simp only [bind, Except.bind]
    cases hp : p b <;> simp [List.filter_cons, hp]

private theorem mapM_map_ok {α β γ : Type} (f : α → Except Err γ) (g : β → α) (p : β → γ) (l : List β)
    (h : ∀ b ∈ l, f (g b) = .ok (p b)) : (l.map g).mapM f = .ok (l.map p) := by
  induction l with
  | nil => rfl
  | cons b l ih =>
    rw [List.map_cons, List.mapM_cons, h b List.mem_cons_self, ih fun c hc => h c (List.mem_cons_of_mem _ hc)]
    rfl

private theorem select_map {β γ : Type} (m : β → Bool) (f : β → γ) (l : List β) :
    select (l.map m) (l.map f) = (l.filter m).map f := by
  induction l with
  | nil => rfl
  | cons b l ih =>
    unfold select at ih ⊢
    cases hm : m b <;> simp [hm, ih]

private theorem head_best {D : Nat → Nat → ℚ} {nt i j : Nat} {js : List Nat} (hlt : ∀ x ∈ j :: js, x < nt)
    (hs : (j :: js).Pairwise fun a b => D i a ≤ D i b) (hout : ∀ x < nt, x ∉ j :: js → ∀ a ∈ j :: js, D i a ≤ D i x) :
    IsBest D nt i j := by
  refine ⟨hlt j List.mem_cons_self, fun x hx => ?_⟩
  by_cases hm : x ∈ j :: js
  · rcases List.mem_cons.1 hm with h | h
    · rw [h]
    · exact (List.pairwise_cons.1 hs).1 x h
  · exact hout x hx hm j List.mem_cons_self

private theorem two_second {D : Nat → Nat → ℚ} {nt i j s : Nat} (hnd : [j, s].Nodup) (hlt : ∀ x ∈ [j, s], x < nt)
    (hout : ∀ x < nt, x ∉ [j, s] → ∀ a ∈ [j, s], D i a ≤ D i x) : IsSecond D nt i j s := by
  refine ⟨hlt s (by simp), fun h => ?_, fun x hx hne => ?_⟩
  · simp [h] at hnd
  · by_cases h : x = s
    · rw [h]
    · exact hout x hx (by simp [hne, h]) s (by simp)

private theorem second_value {D : Nat → Nat → ℚ} {n i j s t : Nat} (h1 : IsSecond D n i j s) (h2 : IsSecond D n i j t) :
    D i s = D i t := le_antisymm (h1.2.2 t h2.1 h2.2.1) (h2.2.2 s h1.1 h1.2.1)

private theorem onlyBest_eq {D : Nat → Nat → ℚ} {n i j k : Nat} (h1 : OnlyBest D n i j) (h2 : IsBest D n i k) : k = j := by
  by_contra hne
  exact absurd (h2.2 j h1.1) (not_le.2 (h1.2 k h2.1 hne))

/-- The index pairs and what is returned for them. -/
private theorem core (ptsA ptsB : List (ℚ × ℚ)) (M : Matcher) (a : Args) (D : Nat → Nat → ℚ)
    (hn : neighbors a ≤ ptsA.length ∧ neighbors a ≤ ptsB.length)
    (hab : Nearest D ptsA.length ptsB.length (neighbors a) (M false (neighbors a) a.mask))
    (hba : a.crossCheck = true → Nearest (fun j i => D i j) ptsB.length ptsA.length (neighbors a) (M true (neighbors a) a.mask))
    (hpos : neighbors a = 2 → ∀ i < ptsA.length, ∀ j s, IsBest D ptsB.length i j → IsSecond D ptsB.length i j s → D i s ≠ 0)
    (hsome : (∃ m, a.maxDistance = some m ∧ m ≠ 0) → ∃ i j, i < ptsA.length ∧ OnlyBest D ptsB.length i j ∧
      (a.crossCheck = true → OnlyBest (fun j i => D i j) ptsA.length j i) ∧ Passes D ptsA.length ptsB.length a i j) :
    ∃ (b s : Nat → Nat) (idx : List Nat) (out : Out), matchKeypoints ptsA ptsB M a = .ok out ∧
      idx.Sublist (List.range ptsA.length) ∧
      out.uva = idx.map (fun i => ptsA.getD i 0) ∧ out.uvb = idx.map (fun i => ptsB.getD (b i) 0) ∧
      (out.ratios = if a.returnRatios then some (idx.map fun i => D i (b i) / D i (s i)) else none) ∧
      (∀ i < ptsA.length, IsBest D ptsB.length i (b i)) ∧
      (neighbors a = 2 → ∀ i < ptsA.length, IsSecond D ptsB.length i (b i) (s i)) ∧
      (∀ i < ptsA.length, (i ∈ idx → Passes D ptsA.length ptsB.length a i (b i) ∧ Close a (ptsA.getD i 0) (ptsB.getD (b i) 0)) ∧
        (OnlyBest D ptsB.length i (b i) → (a.crossCheck = true → OnlyBest (fun j i => D i j) ptsA.length (b i) i) →
          Passes D ptsA.length ptsB.length a i (b i) → Close a (ptsA.getD i 0) (ptsB.getD (b i) 0) → i ∈ idx)) := by
  obtain ⟨js, hrow, hjs⟩ := nearest_rows hab
  have hk1 : 1 ≤ neighbors a := by unfold neighbors; split <;> omega
  have hk2 : neighbors a ≤ 2 := by unfold neighbors; split <;> omega
  -- the first and second of each row
  let b : Nat → Nat := fun i => (js i).getD 0 0
  let s : Nat → Nat := fun i => (js i).getD 1 0
  have hshape : ∀ i < ptsA.length, (neighbors a = 1 ∧ js i = [b i]) ∨ (neighbors a = 2 ∧ js i = [b i, s i]) := by
    intro i hi
    have hl := (hjs i hi).1
    rcases (by omega : neighbors a = 1 ∨ neighbors a = 2) with h | h
    · left
      rw [h] at hl
      obtain ⟨x, hx⟩ := List.length_eq_one_iff.1 hl
      exact ⟨h, by simp only [b, hx]; rfl⟩
    · right
      rw [h] at hl
      obtain ⟨x, y, hx⟩ := List.length_eq_two.1 hl
      exact ⟨h, by simp only [b, s, hx]; rfl⟩
  have hbest : ∀ i < ptsA.length, IsBest D ptsB.length i (b i) := by
    intro i hi
    obtain ⟨_, _, h3, h4, h5⟩ := hjs i hi
    rcases hshape i hi with ⟨_, h⟩ | ⟨_, h⟩ <;> rw [h] at h3 h4 h5 <;> exact head_best h3 h4 h5
  have hsec : neighbors a = 2 → ∀ i < ptsA.length, IsSecond D ptsB.length i (b i) (s i) := by
    intro h2 i hi
    obtain ⟨_, hnd, h3, h4, h5⟩ := hjs i hi
    rcases hshape i hi with ⟨h1, _⟩ | ⟨_, h⟩
    · omega
    · rw [h] at h3 h4 h5 hnd; exact two_second hnd h3 h5
  let g : Nat → List DM := fun i => (js i).map fun j => (⟨i, j, D i j⟩ : DM)
  have hfirst : ∀ i < ptsA.length, first (g i) = .ok ⟨i, b i, D i (b i)⟩ := by
    intro i hi
    rcases hshape i hi with ⟨_, h⟩ | ⟨_, h⟩ <;> simp only [g] <;> rw [h] <;> rfl
  -- cross check
  have hcross : ∃ pc : Nat → Bool, crossed M a (neighbors a) ((List.range ptsA.length).map g) = .ok (((List.range ptsA.length).filter pc).map g) ∧
      ∀ i < ptsA.length, (pc i = true → a.crossCheck = true → IsBest (fun j i => D i j) ptsA.length (b i) i) ∧
        ((a.crossCheck = true → OnlyBest (fun j i => D i j) ptsA.length (b i) i) → pc i = true) := by
    by_cases hcc : a.crossCheck = true
    · obtain ⟨kb, hrowb, hkb⟩ := nearest_rows (hba hcc)
      let c : Nat → Nat := fun j => (kb j).getD 0 0
      have hcons : ∀ j < ptsB.length, ∃ r, kb j = c j :: r := by
        intro j hj
        have hl := (hkb j hj).1
        cases hkj : kb j with
        | nil => rw [hkj] at hl; simp at hl; omega
        | cons x r => exact ⟨r, by simp only [c, hkj]; rfl⟩
      have hcbest : ∀ j < ptsB.length, IsBest (fun j i => D i j) ptsA.length j (c j) := by
        intro j hj
        obtain ⟨_, _, h3, h4, h5⟩ := hkb j hj
        obtain ⟨r, hr⟩ := hcons j hj
        rw [hr] at h3 h4 h5
        exact head_best h3 h4 h5
      have hpairs : bestPairs (M true (neighbors a) a.mask) = .ok ((List.range ptsB.length).map fun j => (c j, j)) := by
        rw [hrowb]
        apply mapM_map_ok
        intro j hj
        obtain ⟨r, hr⟩ := hcons j (List.mem_range.1 hj)
        rw [hr]; rfl
      refine ⟨fun i => decide (c (b i) = i), ?_, fun i hi => ⟨fun hp _ => ?_, fun ho => ?_⟩⟩
      · unfold crossed
        rw [if_pos hcc, hpairs]
        simp only [bind, Except.bind]
        apply filterE_map
        intro i hi
        unfold bothWays
        rw [hfirst i (List.mem_range.1 hi)]
        simp only [bind, Except.bind, Except.ok.injEq, List.mem_map, List.mem_range, Prod.mk.injEq]
        congr 1
        apply propext
        constructor
        · rintro ⟨j, _, h1, h2⟩; rw [← h2]; exact h1
        · intro h; exact ⟨b i, (hbest i (List.mem_range.1 hi)).1, h, rfl⟩
      · have := hcbest (b i) (hbest i hi).1
        rwa [of_decide_eq_true hp] at this
      · exact decide_eq_true (onlyBest_eq (ho hcc) (hcbest (b i) (hbest i hi).1))
    · refine ⟨fun _ => true, ?_, fun i hi => ⟨fun _ h => absurd h hcc, fun _ => rfl⟩⟩
      unfold crossed
      rw [if_neg hcc]; simp
  obtain ⟨pc, hpc, hpcs⟩ := hcross
  -- ratio
  have hratio2 : ∀ i < ptsA.length, neighbors a = 2 → ratioOf (g i) = .ok (D i (b i) / D i (s i)) ∧ unpackRatio (g i) = .ok (D i (b i) / D i (s i)) := by
    intro i hi h2
    have hne := hpos h2 i hi _ _ (hbest i hi) (hsec h2 i hi)
    rcases hshape i hi with ⟨h1, _⟩ | ⟨_, h⟩
    · omega
    · constructor
      · simp only [g]
        rw [h]
        simp [ratioOf, first, second, bind, Except.bind, hne]
      · simp only [g]
        rw [h]
        simp [unpackRatio, hne]
  have hratio : ∃ pr : Nat → Bool, byRatio a (((List.range ptsA.length).filter pc).map g) =
      .ok ((((List.range ptsA.length).filter pc).filter pr).map g) ∧
      ∀ i < ptsA.length, pr i = true ↔ ∀ r, a.maxRatio = some r → r ≠ 0 → ∃ t, IsSecond D ptsB.length i (b i) t ∧ D i (b i) / D i t < r := by
    unfold byRatio
    cases ht : truthy a.maxRatio with
    | none =>
      refine ⟨fun _ => true, by simp, fun i hi => ⟨fun _ r hr hr0 => ?_, fun _ => rfl⟩⟩
      simp [truthy, hr, hr0] at ht
    | some r =>
      have hr : a.maxRatio = some r ∧ r ≠ 0 := by simpa [truthy, Option.filter_eq_some_iff] using ht
      have h2 : neighbors a = 2 := by unfold neighbors; rw [ht]; simp
      refine ⟨fun i => decide (D i (b i) / D i (s i) < r), ?_, fun i hi => ?_⟩
      · apply filterE_map
        intro i hi
        have hi' : i < ptsA.length := List.mem_range.1 (List.mem_filter.1 hi).1
        unfold underRatio
        rw [(hratio2 i hi' h2).1]; rfl
      · rw [decide_eq_true_iff]
        constructor
        · intro h r' hr' _
          rw [hr.1] at hr'
          cases hr'
          exact ⟨s i, hsec h2 i hi, h⟩
        · intro h
          obtain ⟨t, ht, hlt⟩ := h r hr.1 hr.2
          rwa [second_value (hsec h2 i hi) ht]
  obtain ⟨pr, hpr, hprs⟩ := hratio
  let idx0 := ((List.range ptsA.length).filter pc).filter pr
  have hidx0 : ∀ i ∈ idx0, i < ptsA.length := fun i hi => List.mem_range.1 (List.mem_filter.1 (List.mem_filter.1 hi).1).1
  have hA : (idx0.map g).mapM (queryPoint ptsA) = .ok (idx0.map fun i => ptsA.getD i 0) := by
    apply mapM_map_ok
    intro i hi
    have hi' := hidx0 i hi
    unfold queryPoint
    rw [hfirst i hi']
    simp only [bind, Except.bind, point]
    rw [List.getElem?_eq_getElem hi', List.getD_eq_getElem _ _ hi']
  have hB : (idx0.map g).mapM (trainPoint ptsB) = .ok (idx0.map fun i => ptsB.getD (b i) 0) := by
    apply mapM_map_ok
    intro i hi
    have hi' := hidx0 i hi
    have hb := (hbest i hi').1
    unfold trainPoint
    rw [hfirst i hi']
    simp only [bind, Except.bind, point]
    rw [List.getElem?_eq_getElem hb, List.getD_eq_getElem _ _ hb]
  have hR : ratiosOf a (idx0.map g) = .ok (if a.returnRatios then some (idx0.map fun i => D i (b i) / D i (s i)) else none) := by
    unfold ratiosOf
    by_cases hr : a.returnRatios = true
    · have h2 : neighbors a = 2 := by unfold neighbors; simp [hr]
      rw [if_pos hr, if_pos hr, mapM_map_ok unpackRatio g (fun i => D i (b i) / D i (s i)) idx0 fun i hi => (hratio2 i (hidx0 i hi) h2).2]
      rfl
    · rw [if_neg hr, if_neg hr]
  have hmem0 : ∀ i < ptsA.length, i ∈ idx0 ↔ pc i = true ∧ pr i = true := by
    intro i hi
    simp [idx0, List.mem_filter, hi, and_comm]
  have hrun : matchKeypoints ptsA ptsB M a = byDistance a { uva := idx0.map fun i => ptsA.getD i 0, uvb := idx0.map fun i => ptsB.getD (b i) 0, flat := decide (idx0.map g = []), ratios := if a.returnRatios then some (idx0.map fun i => D i (b i) / D i (s i)) else none } := by
    unfold matchKeypoints
    rw [if_pos hn, hrow]
    simp only [bind, Except.bind]
    rw [hpc]
    simp only []
    rw [hpr]
    simp only []
    rw [hA]
    simp only []
    rw [hB]
    simp only []
    rw [hR]
  -- distance
  have hsub0 : idx0.Sublist (List.range ptsA.length) := List.filter_sublist.trans List.filter_sublist
  cases ht : truthy a.maxDistance with
  | none =>
    have hcl : ∀ p q, Close a p q := by
      intro p q m hm hm0
      simp [truthy, hm, hm0] at ht
    refine ⟨b, s, idx0, _, by rw [hrun]; unfold byDistance; rw [ht], hsub0, rfl, rfl, rfl, hbest, hsec, fun i hi => ⟨fun h => ?_, fun ho hoc hp _ => ?_⟩⟩
    · obtain ⟨h1, h2⟩ := (hmem0 i hi).1 h
      exact ⟨⟨hi, hbest i hi, (hpcs i hi).1 h1, (hprs i hi).1 h2⟩, hcl _ _⟩
    · exact (hmem0 i hi).2 ⟨(hpcs i hi).2 hoc, (hprs i hi).2 hp.2.2.2⟩
  | some m =>
    have hm : a.maxDistance = some m ∧ m ≠ 0 := by simpa [truthy, Option.filter_eq_some_iff] using ht
    have hne : idx0 ≠ [] := by
      obtain ⟨i, j, hi, ho, hoc, hp⟩ := hsome ⟨m, hm⟩
      have hj : b i = j := onlyBest_eq ho (hbest i hi)
      have : i ∈ idx0 := (hmem0 i hi).2 ⟨(hpcs i hi).2 (by rw [hj]; exact hoc), (hprs i hi).2 (by rw [hj]; exact hp.2.2.2)⟩
      exact List.ne_nil_of_mem this
    let near : Nat → Bool := fun i => closer m (ptsA.getD i 0) (ptsB.getD (b i) 0)
    have hz : List.zipWith (closer m) (idx0.map fun i => ptsA.getD i 0) (idx0.map fun i => ptsB.getD (b i) 0) = idx0.map near := by
      rw [List.zipWith_map]
      simp [near]
    refine ⟨b, s, idx0.filter near, ?_, ?_, List.filter_sublist.trans hsub0, ?_, ?_, ?_, hbest, hsec, ?_⟩
    · exact { uva := (idx0.filter near).map fun i => ptsA.getD i 0, uvb := (idx0.filter near).map fun i => ptsB.getD (b i) 0, flat := false, ratios := if a.returnRatios then some ((idx0.filter near).map fun i => D i (b i) / D i (s i)) else none }
    · rw [hrun]
      unfold byDistance
      rw [ht]
      simp only
      rw [if_neg (by simpa using hne), hz, select_map, select_map]
      congr 2
      split
      · simp only [Option.map_some]; rw [select_map]
      · rfl
    · rfl
    · rfl
    · rfl
    · intro i hi
      have hnear : near i = true ↔ Close a (ptsA.getD i 0) (ptsB.getD (b i) 0) := by
        simp only [near, closer, decide_eq_true_iff, Close]
        constructor
        · intro h m' hm' _
          rw [hm.1] at hm'; cases hm'; exact h
        · intro h; exact h m hm.1 hm.2
      refine ⟨fun h => ?_, fun ho hoc hp hcl => ?_⟩
      · obtain ⟨h0, h3⟩ := List.mem_filter.1 h
        obtain ⟨h1, h2⟩ := (hmem0 i hi).1 h0
        exact ⟨⟨hi, hbest i hi, (hpcs i hi).1 h1, (hprs i hi).1 h2⟩, hnear.1 h3⟩
      · exact List.mem_filter.2 ⟨(hmem0 i hi).2 ⟨(hpcs i hi).2 hoc, (hprs i hi).2 hp.2.2.2⟩, hnear.2 hcl⟩

/-- C76: with an exact matcher, enough keypoints, no second best match at descriptor distance zero (if ratios are needed)
and some pair that passes the tests on the descriptors (if a maximum distance is given), `match_keypoints` returns the
coordinates of pairs of keypoints, each keypoint of the first image at most once and in order, which pass all tests; all
pairs that pass them are returned (where the best matches are unique); and each ratio is that of its pair. -/
theorem match_keypoints_partial (ptsA ptsB : List (ℚ × ℚ)) (M : Matcher) (a : Args) (D : Nat → Nat → ℚ)
    (hn : neighbors a ≤ ptsA.length ∧ neighbors a ≤ ptsB.length)
    (hab : Nearest D ptsA.length ptsB.length (neighbors a) (M false (neighbors a) a.mask))
    (hba : a.crossCheck = true → Nearest (fun j i => D i j) ptsB.length ptsA.length (neighbors a) (M true (neighbors a) a.mask))
    (hpos : neighbors a = 2 → ∀ i < ptsA.length, ∀ j s, IsBest D ptsB.length i j → IsSecond D ptsB.length i j s → D i s ≠ 0)
    (hsome : (∃ m, a.maxDistance = some m ∧ m ≠ 0) → ∃ i j, i < ptsA.length ∧ OnlyBest D ptsB.length i j ∧
      (a.crossCheck = true → OnlyBest (fun j i => D i j) ptsA.length j i) ∧ Passes D ptsA.length ptsB.length a i j) :
    ∃ (pairs : List (Nat × Nat)) (out : Out), matchKeypoints ptsA ptsB M a = .ok out ∧
      out.uva = pairs.map (fun p => ptsA.getD p.1 0) ∧ out.uvb = pairs.map (fun p => ptsB.getD p.2 0) ∧
      pairs.Pairwise (fun p q => p.1 < q.1) ∧
      (∀ p ∈ pairs, p.1 < ptsA.length ∧ p.2 < ptsB.length ∧ Passes D ptsA.length ptsB.length a p.1 p.2 ∧
        Close a (ptsA.getD p.1 0) (ptsB.getD p.2 0)) ∧
      (∀ i j, OnlyBest D ptsB.length i j → (a.crossCheck = true → OnlyBest (fun j i => D i j) ptsA.length j i) →
        Passes D ptsA.length ptsB.length a i j → Close a (ptsA.getD i 0) (ptsB.getD j 0) → (i, j) ∈ pairs) ∧
      (a.returnRatios = false → out.ratios = none) ∧
      (a.returnRatios = true → ∃ rs, out.ratios = some rs ∧
        List.Forall₂ (fun (p : Nat × Nat) r => ∃ s, IsSecond D ptsB.length p.1 p.2 s ∧ r = D p.1 p.2 / D p.1 s) pairs rs) := by
  obtain ⟨b, s, idx, out, hrun, hsub, hA, hB, hR, hbest, hsec, hmem⟩ := core ptsA ptsB M a D hn hab hba hpos hsome
  have hlt : ∀ i ∈ idx, i < ptsA.length := fun i hi => List.mem_range.1 (hsub.subset hi)
  refine ⟨idx.map fun i => (i, b i), out, hrun, by rw [hA, List.map_map]; rfl, by rw [hB, List.map_map]; rfl, ?_, ?_, ?_, ?_, ?_⟩
  · rw [List.pairwise_map]
    exact List.pairwise_lt_range.sublist hsub
  · intro p hp
    obtain ⟨i, hi, rfl⟩ := List.mem_map.1 hp
    have h := (hmem i (hlt i hi)).1 hi
    exact ⟨hlt i hi, (hbest i (hlt i hi)).1, h.1, h.2⟩
  · intro i j ho hoc hp hcl
    have hi : i < ptsA.length := hp.1
    have hj : b i = j := onlyBest_eq ho (hbest i hi)
    subst hj
    exact List.mem_map.2 ⟨i, (hmem i hi).2 ho hoc hp hcl, rfl⟩
  · intro h; rw [hR, h]; rfl
  · intro h
    have h2 : neighbors a = 2 := by unfold neighbors; simp [h]
    refine ⟨idx.map fun i => D i (b i) / D i (s i), by rw [hR, h]; rfl, ?_⟩
    rw [List.forall₂_map_left_iff, List.forall₂_map_right_iff, List.forall₂_same]
    exact fun i hi => ⟨s i, hsec h2 i (hlt i hi), rfl⟩

/-- C76: with too few keypoints nothing is matched. -/
theorem match_keypoints_few (ptsA ptsB : List (ℚ × ℚ)) (M : Matcher) (a : Args)
    (h : ptsA.length < neighbors a ∨ ptsB.length < neighbors a) :
    matchKeypoints ptsA ptsB M a = .ok { uva := [], uvb := [], flat := false, ratios := if a.returnRatios then some [] else none } := by
  unfold matchKeypoints
  rw [if_neg (by omega)]

/-! ### The exact matcher meets the specification -/

private theorem take_not_mem_of {D : Nat → Nat → ℚ} {i k : Nat} {l : List Nat} (hs : l.Pairwise fun a b => D i a ≤ D i b)
    (j : Nat) (hj : j ∈ l) (hn : j ∉ l.take k) (x : Nat) (hx : x ∈ l.take k) : D i x ≤ D i j := by
  rw [← List.take_append_drop k l] at hj hs
  rw [List.pairwise_append] at hs
  rcases List.mem_append.1 hj with h | h
  · exact absurd h hn
  · exact hs.2.2 x hx j h

/-- The exact matcher meets the specification of `match_keypoints_partial`. -/
theorem brute_nearest (D : Nat → Nat → ℚ) (nq nt k : Nat) (hk : k ≤ nt) : Nearest D nq nt k (brute D nq nt k none) := by
  have key : ∀ i, ∃ js : List Nat, (((((List.range nt).filter fun _ => true).insertionSort fun x y => D i x ≤ D i y).take k) = js) := fun i => ⟨_, rfl⟩
  refine ⟨by simp [brute], fun i hi => ?_⟩
  have hperm := List.perm_insertionSort (fun x y => D i x ≤ D i y) ((List.range nt).filter fun _ => true)
  have hsort : (((List.range nt).filter fun _ => true).insertionSort fun x y => D i x ≤ D i y).Pairwise fun x y => D i x ≤ D i y := by
    haveI : Std.Total fun x y : Nat => D i x ≤ D i y := ⟨fun x y => le_total _ _⟩
    haveI : IsTrans Nat fun x y : Nat => D i x ≤ D i y := ⟨fun x y z h1 h2 => le_trans h1 h2⟩
    exact List.pairwise_insertionSort _ _
  set l := ((List.range nt).filter fun _ => true).insertionSort fun x y => D i x ≤ D i y with hl
  have hlen : l.length = nt := by rw [hperm.length_eq]; simp
  have hmem : ∀ j, j ∈ l ↔ j < nt := by intro j; rw [hperm.mem_iff]; simp
  refine ⟨l.take k, ?_, by rw [List.length_take, hlen]; omega, ?_, fun j hj => (hmem j).1 (List.mem_of_mem_take hj), hsort.sublist (List.take_sublist _ _), ?_⟩
  · simp only [brute, List.getElem?_map, List.getElem?_range hi, Option.map_some]
    rw [hl]
  · refine List.Nodup.sublist (List.take_sublist _ _) ?_
    rw [hperm.nodup_iff]
    exact List.Nodup.filter _ List.nodup_range
  · intro j hj hn x hx
    exact take_not_mem_of hsort j ((hmem j).2 hj) hn x hx

/-! ### Where it fails -/

private def pts3 : List (ℚ × ℚ) := [(0, 0), (10, 0), (20, 0)]
private def pts3b : List (ℚ × ℚ) := [(1, 0), (10, 1), (90, 0)]
/-- Descriptor distances. -/
private def D3 : Nat → Nat → ℚ := fun i j => if i = j then 1 else 5

/-- The hypotheses of `match_keypoints_partial` are met, with all tests in use: two pairs pass, the third is too far. -/
example : matchKeypoints pts3 pts3b (bruteMatcher D3 3 3)
    { crossCheck := true, maxRatio := some (1 / 2), maxDistance := some 15, returnRatios := true } =
    .ok ⟨[(0, 0), (10, 0)], [(1, 0), (10, 1)], false, some [1 / 5, 1 / 5]⟩ := by decide +kernel

private theorem D3_only (i : Nat) (hi : i < 3) : OnlyBest D3 3 i i := by
  refine ⟨hi, fun j _ hne => ?_⟩
  unfold D3
  rw [if_pos rfl, if_neg (Ne.symm hne)]
  norm_num

example : ∃ (pairs : List (Nat × Nat)) (out : Out), matchKeypoints pts3 pts3b (bruteMatcher D3 3 3)
    { crossCheck := true, maxRatio := some (1 / 2), maxDistance := some 15, returnRatios := true } = .ok out ∧
    out.uva = pairs.map (fun p : Nat × Nat => pts3.getD p.1 0) ∧ out.uvb = pairs.map (fun p => pts3b.getD p.2 0) := by
  have hn : neighbors { crossCheck := true, maxRatio := some (1 / 2), maxDistance := some 15, returnRatios := true } = 2 := by simp [neighbors]
  have h33 : (pts3.length = 3) ∧ pts3b.length = 3 := ⟨rfl, rfl⟩
  have := match_keypoints_partial pts3 pts3b (bruteMatcher D3 3 3)
    { crossCheck := true, maxRatio := some (1 / 2), maxDistance := some 15, returnRatios := true } D3
    (by rw [hn, h33.1, h33.2]; norm_num)
    (by rw [hn, h33.1, h33.2]; exact brute_nearest D3 3 3 2 (by norm_num))
    (by rw [hn, h33.1, h33.2]; exact fun _ => brute_nearest (fun j i => D3 i j) 3 3 2 (by norm_num))
    (fun _ i _ j s _ _ => by unfold D3; split <;> norm_num)
    (fun _ => ⟨0, 0, by rw [h33.1]; norm_num, D3_only 0 (by norm_num), fun _ => ⟨by rw [h33.1]; norm_num, fun j _ hne => by
        simp only [D3]; rw [if_neg hne]; norm_num⟩,
      by rw [h33.1]; norm_num, ⟨by rw [h33.2]; norm_num, fun j hj => by by_cases h : 0 = j <;> simp [D3, h]⟩,
      fun _ => ⟨by rw [h33.1]; norm_num, fun j hj => by by_cases h : j = 0 <;> simp [D3, h]⟩,
      fun r hr _ => ⟨1, ⟨by rw [h33.2]; norm_num, by decide, fun j _ hne => by simp [D3, Ne.symm hne]⟩, by
        simp at hr; rw [← hr]; simp only [D3]; norm_num⟩⟩)
  obtain ⟨pairs, out, h1, h2, h3, _⟩ := this
  exact ⟨pairs, out, h1, h2, h3⟩

/-- C76 fails when nothing passes the tests on the descriptors: with a maximum distance the call raises, and without one
the coordinates are not returned as rows of two. -/
theorem match_keypoints_none_violated :
    (∃ (ptsA ptsB : List (ℚ × ℚ)) (D : Nat → Nat → ℚ) (a : Args), (∀ i j, 0 < D i j) ∧
      matchKeypoints ptsA ptsB (bruteMatcher D ptsA.length ptsB.length) a = .error .valueError) ∧
    (∃ (ptsA ptsB : List (ℚ × ℚ)) (D : Nat → Nat → ℚ) (a : Args) (out : Out), (∀ i j, 0 < D i j) ∧
      matchKeypoints ptsA ptsB (bruteMatcher D ptsA.length ptsB.length) a = .ok out ∧ out.flat = true) := by
  refine ⟨⟨pts3, pts3b, fun _ _ => 1, { maxRatio := some (1 / 2), maxDistance := some 15 }, fun _ _ => by norm_num, by decide +kernel⟩,
    ⟨pts3, pts3b, fun _ _ => 1, { maxRatio := some (1 / 2) }, ⟨[], [], true, none⟩, fun _ _ => by norm_num, by decide +kernel, rfl⟩⟩

/-- C76 fails when two keypoints of the second image have the descriptor of a keypoint of the first: the ratio test raises
ZeroDivisionError. -/
theorem match_keypoints_equal_violated (ptsA ptsB : List (ℚ × ℚ)) (M : Matcher) (r : ℚ) (hr : r ≠ 0) (i j k : Nat) (rest : List (List DM))
    (hA : 2 ≤ ptsA.length) (hB : 2 ≤ ptsB.length)
    (hM : M false 2 none = [⟨i, j, 0⟩, ⟨i, k, 0⟩] :: rest) :
    matchKeypoints ptsA ptsB M { maxRatio := some r } = .error .zeroDivision := by
  have hn : neighbors { maxRatio := some r } = 2 := by simp [neighbors, truthy, Option.filter, hr]
  unfold matchKeypoints
  rw [if_pos (by rw [hn]; exact ⟨hA, hB⟩), hn]
  simp only [hM]
  simp [crossed, byRatio, truthy, Option.filter, hr, filterE, underRatio, ratioOf, first, second, bind, Except.bind]

/-- C76 fails for a single keypoint in the first image: with a ratio, nothing is matched however good its match. -/
theorem match_keypoints_single_violated : matchKeypoints [(0, 0)] pts3 (bruteMatcher D3 1 3) { maxRatio := some (1 / 2) } =
    .ok ⟨[], [], false, none⟩ ∧ Passes D3 1 3 { maxRatio := some (1 / 2) } 0 0 := by
  refine ⟨by decide +kernel, by norm_num, ⟨by norm_num, fun j hj => by by_cases h : 0 = j <;> simp [D3, h]⟩,
    by simp, fun r hr _ => ⟨1, ⟨by norm_num, by norm_num, fun j _ hne => by simp [D3, Ne.symm hne]⟩, ?_⟩⟩
  simp at hr; rw [← hr]; simp only [D3]; norm_num

/-- C76 fails with a mask: a keypoint whose matches are all excluded raises IndexError; and the cross check applies the
mask (pairs of keypoints of `a` and `b`) to pairs of keypoints of `b` and `a`, so that a pair which is allowed and best
both ways is lost. -/
theorem match_keypoints_mask_violated :
    matchKeypoints pts3 pts3b (bruteMatcher D3 3 3) { mask := some fun i _ => decide (i ≠ 1) } = .error .indexError ∧
    ∃ D : Nat → Nat → ℚ, ∃ mask : Nat → Nat → Bool, ∃ out, mask 0 1 = true ∧ IsBest D 2 0 1 ∧ IsBest (fun j i => D i j) 2 1 0 ∧
      matchKeypoints [(0, 0), (10, 0)] [(5, 0), (6, 0)] (bruteMatcher D 2 2) { mask := some mask, crossCheck := true } = .ok out ∧
      (0, 0) ∉ out.uva := by
  refine ⟨by decide +kernel, fun i j => if i = 0 ∧ j = 1 then 1 else 5, fun i j => decide (¬ (i = 1 ∧ j = 0)), ⟨[(10, 0)], [(6, 0)], false, none⟩,
    by decide, ⟨by norm_num, fun j _ => ?_⟩, ⟨by norm_num, fun j _ => ?_⟩, by decide +kernel, by decide⟩
  · by_cases h : j = 1 <;> simp [h]
  · by_cases h : j = 0 <;> simp [h]

end Glimpse.MatchKp
