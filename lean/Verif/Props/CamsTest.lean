import Verif.Model.CamsTest
import Verif.Props.CamsSet
import Verif.Lemmas.ExceptList
import Mathlib.Data.List.Dedup
import Mathlib.Data.List.Nodup
import Mathlib.Tactic.Tauto

/-!
C98: what `optimize.Cameras` accepts, and that every fitting parameter of an accepted model is seen by some control.
-/
set_option autoImplicit false
set_option linter.unusedSimpArgs false
set_option linter.unusedSectionVars false

namespace Glimpse.Cams

/-! ### Specification -/

/-- Spec: the camera at an index, which can count from the end. -/
def CamAtIs (cams : List Nat) (i : ℤ) (c : Nat) : Prop :=
  (0 ≤ i ∧ cams[i.toNat]? = some c) ∨ (i < 0 ∧ -(cams.length : ℤ) ≤ i ∧ cams[(i + cams.length).toNat]? = some c)

/-- Spec: the dictionary is valid and selects the element `p`. -/
def Selects (d : Dict) (p : Nat) : Prop := ∃ m, maskOf d = .ok m ∧ m p = true

/-- Spec: what must hold of cameras, controls (lists of cameras), parameters of cameras, groups and their parameters. -/
structure Accepted (imgsz : Nat → ℚ × ℚ) (cams : List Nat) (controls : List (List Nat)) (cp : List Dict)
    (groups : List (List ℤ)) (gp : List Dict) : Prop where
  /-- There is a dictionary for each camera, and it is valid. -/
  camParams : ∀ i < cams.length, ∃ d m, cp[i]? = some d ∧ maskOf d = .ok m
  /-- Groups are not empty, refer to cameras, and have a valid dictionary each. -/
  groups_ne : ∀ g ∈ groups, g ≠ []
  groups_valid : ∀ g ∈ groups, ∀ i ∈ g, ∃ c, CamAtIs cams i c
  groupParams : ∀ g < groups.length, ∃ d m, gp[g]? = some d ∧ maskOf d = .ok m
  /-- Some control refers to one of the cameras. -/
  controlled : ∃ cs ∈ controls, ∃ c ∈ cams, c ∈ cs
  /-- In a group with `f` or `c` all images have the same size. -/
  sizes : ∀ (g : Nat) (idx : List ℤ) (d : Dict), groups[g]? = some idx → gp[g]? = some d →
    (∃ v, ("f", v) ∈ d ∨ ("c", v) ∈ d) → ∀ i ∈ idx, ∀ j ∈ idx, ∀ c c', CamAtIs cams i c → CamAtIs cams j c' →
      imgsz c = imgsz c'
  /-- Different groups that select the same element have no index in common (and none twice). -/
  overlap : ∀ (g g' : Nat) (idx idx' : List ℤ) (d d' : Dict) (p : Nat), g ≠ g' → p < 20 → groups[g]? = some idx →
    groups[g']? = some idx' → gp[g]? = some d → gp[g']? = some d' → Selects d p → Selects d' p →
    idx.Nodup ∧ ∀ i ∈ idx, i ∉ idx'
  /-- Every camera with parameters, its own or those of a group, appears in a control. -/
  params : ∀ (i c : Nat), cams[i]? = some c →
    ((∃ d, cp[i]? = some d ∧ d ≠ []) ∨ ∃ (g : Nat) (idx : List ℤ) (d : Dict), groups[g]? = some idx ∧ (i : ℤ) ∈ idx ∧ gp[g]? = some d ∧ d ≠ []) →
    ∃ cs ∈ controls, c ∈ cs

/-! ### Lemmas -/

private theorem pyIndex_ok (n : Nat) (i : ℤ) (k : Nat) : pyIndex n i = .ok k ↔
    (0 ≤ i ∧ i < n ∧ k = i.toNat) ∨ (-(n : ℤ) ≤ i ∧ i < 0 ∧ k = (i + n).toNat) := by
  unfold pyIndex
  split_ifs with h1 h2
  · constructor
    · intro h; left; exact ⟨h1.1, h1.2, (Except.ok.inj h).symm⟩
    · rintro (⟨-, -, rfl⟩ | ⟨-, h, -⟩)
      · rfl
      · omega
  · constructor
    · intro h; right; exact ⟨h2.1, h2.2, (Except.ok.inj h).symm⟩
    · rintro (⟨h, -, -⟩ | ⟨-, -, rfl⟩)
      · omega
      · rfl
  · constructor
    · intro h; cases h
    · rintro (⟨h, h', -⟩ | ⟨h, h', -⟩) <;> omega

private theorem pyIndex_lt (n : Nat) (i : ℤ) (k : Nat) (h : pyIndex n i = .ok k) : k < n := by
  rcases (pyIndex_ok n i k).1 h with ⟨h1, h2, rfl⟩ | ⟨h1, h2, rfl⟩ <;> omega

private theorem camAtIs_iff (cams : List Nat) (i : ℤ) (c : Nat) :
    CamAtIs cams i c ↔ ∃ k, pyIndex cams.length i = .ok k ∧ cams[k]? = some c := by
  constructor
  · rintro (⟨h0, h⟩ | ⟨h0, h1, h⟩)
    · have hl : i.toNat < cams.length := (List.getElem?_eq_some_iff.1 h).1
      exact ⟨i.toNat, (pyIndex_ok _ _ _).2 (Or.inl ⟨h0, by omega, rfl⟩), h⟩
    · exact ⟨_, (pyIndex_ok _ _ _).2 (Or.inr ⟨h1, h0, rfl⟩), h⟩
  · rintro ⟨k, hk, h⟩
    rcases (pyIndex_ok _ _ _).1 hk with ⟨h1, h2, rfl⟩ | ⟨h1, h2, rfl⟩
    · exact Or.inl ⟨h1, h⟩
    · exact Or.inr ⟨h2, h1, h⟩

private theorem camAt_of (cams : List Nat) (i : ℤ) (c : Nat) (h : CamAtIs cams i c) : camAt cams i = c := by
  obtain ⟨k, hk, hc⟩ := (camAtIs_iff cams i c).1 h
  unfold camAt
  rw [hk]
  show cams.getD k 0 = c
  rw [List.getD_eq_getElem?_getD, hc]; rfl

private theorem valid_iff (cams : List Nat) (i : ℤ) :
    (∃ c, CamAtIs cams i c) ↔ ∃ k, pyIndex cams.length i = .ok k := by
  constructor
  · rintro ⟨c, h⟩
    obtain ⟨k, hk, -⟩ := (camAtIs_iff cams i c).1 h
    exact ⟨k, hk⟩
  · rintro ⟨k, hk⟩
    have hl := pyIndex_lt _ _ _ hk
    exact ⟨cams[k], (camAtIs_iff cams i _).2 ⟨k, hk, List.getElem?_eq_getElem hl⟩⟩

/-- The mask and what `parse_params` raises do not depend on the default bounds. -/
theorem parse_mask_defaults (d : Dict) (defaults : Option (Nat → Option ℚ × Option ℚ)) (ninf pinf : ℚ) :
    (parseParams d defaults ninf pinf).map Prod.fst = maskOf d := by
  unfold maskOf parseParams
  simp only [bind, Except.bind]
  cases d.foldlM parseStep (⟨fun _ => false, fun _ => (none, none), none⟩ : PState ℚ) <;> rfl

private theorem maskOf_nil : maskOf [] = .ok fun _ => false := rfl

private theorem mapM_iff {ε α β : Type} (f : α → Except ε β) (l : List α) (out : List β) :
    l.mapM f = .ok out ↔ out.length = l.length ∧ ∀ (i : Nat) (a : α), l[i]? = some a → ∃ b, out[i]? = some b ∧ f a = .ok b := by
  constructor
  · intro h
    obtain ⟨h1, h2⟩ := mapM_ok_inv f l out h
    refine ⟨h1, ?_⟩
    intro i a hi
    obtain ⟨hl, rfl⟩ := List.getElem?_eq_some_iff.1 hi
    exact ⟨out[i], List.getElem?_eq_getElem _, h2 i hl (by omega)⟩
  · rintro ⟨h1, h2⟩
    induction l generalizing out with
    | nil =>
      have : out = [] := List.length_eq_zero_iff.1 h1
      subst this; rfl
    | cons a l ih =>
      cases out with
      | nil => cases h1
      | cons b out =>
        have e := h2 0 a rfl
        obtain ⟨b', hb, hf⟩ := e
        have : b = b' := by simpa using hb
        subst this
        have := ih out (by simpa using h1) (fun i x hx => by
          have := h2 (i + 1) x (by simpa using hx)
          simpa using this)
        simp [List.mapM_cons, hf, this, bind, Except.bind, pure, Except.pure]

private theorem mapM_exists {ε α β : Type} (f : α → Except ε β) (l : List α) :
    (∃ out, l.mapM f = .ok out) ↔ ∀ a ∈ l, ∃ b, f a = .ok b := by
  constructor
  · rintro ⟨out, h⟩ a ha
    obtain ⟨i, hi⟩ := List.mem_iff_getElem?.1 ha
    obtain ⟨b, -, hb⟩ := ((mapM_iff f l out).1 h).2 i a hi
    exact ⟨b, hb⟩
  · intro h
    induction l with
    | nil => exact ⟨[], rfl⟩
    | cons a l ih =>
      obtain ⟨b, hb⟩ := h a List.mem_cons_self
      obtain ⟨out, ho⟩ := ih fun x hx => h x (List.mem_cons_of_mem _ hx)
      exact ⟨b :: out, by simp [List.mapM_cons, hb, ho, bind, Except.bind, pure, Except.pure]⟩

private theorem groupMaskOf_ok (gp : List Dict) (m : Nat) (idx : List ℤ) (g : Nat) (mk : Nat → Bool) :
    groupMaskOf gp m (idx, g) = .ok mk ↔
      (∀ i ∈ idx, ∃ k, pyIndex m i = .ok k) ∧ idx ≠ [] ∧ ∃ d, gp[g]? = some d ∧ maskOf d = .ok mk := by
  unfold groupMaskOf
  rw [← mapM_exists]
  cases hm : idx.mapM (pyIndex m) with
  | error e =>
    simp only [bind, Except.bind]
    constructor
    · intro h; cases h
    · rintro ⟨⟨out, h⟩, -⟩; cases h
  | ok out =>
    simp only [bind, Except.bind]
    cases idx with
    | nil => simp [throw, throwThe, MonadExceptOf.throw, Except.bind]
    | cons a l =>
      cases hg : gp[g]? with
      | none => simp [throw, throwThe, MonadExceptOf.throw, pure, Except.pure]
      | some d => simp [throw, throwThe, MonadExceptOf.throw, pure, Except.pure]

private theorem updateMasks_ok (n : Nat) (cp : List Dict) (groups : List (List ℤ)) (gp : List Dict)
    (cm gm : List (Nat → Bool)) : updateMasks n cp groups gp = .ok (cm, gm) ↔
      n ≠ 0 ∧ cm.length = n ∧ (∀ i < n, ∃ d m, cp[i]? = some d ∧ cm[i]? = some m ∧ maskOf d = .ok m) ∧
      gm.length = groups.length ∧ ∀ (g : Nat) (idx : List ℤ), groups[g]? = some idx → ∃ m, gm[g]? = some m ∧
        groupMaskOf gp n (idx, g) = .ok m := by
  have hz : ∀ (g : Nat) (a : List ℤ × Nat), groups.zipIdx[g]? = some a ↔ ∃ idx, groups[g]? = some idx ∧ a = (idx, g) := by
    intro g a
    rw [List.getElem?_zipIdx]
    cases groups[g]? with
    | none => simp
    | some idx => simp [eq_comm]
  unfold updateMasks
  simp only [bind, Except.bind]
  cases hc : (cp.take n).mapM maskOf with
  | error e =>
    simp only
    constructor
    · intro h; cases h
    · rintro ⟨h0, h1, h2, -⟩
      exfalso
      obtain ⟨out, ho⟩ := (mapM_exists maskOf (cp.take n)).2 (by
        intro d hd
        obtain ⟨i, hi⟩ := List.mem_iff_getElem?.1 hd
        rw [List.getElem?_take] at hi
        split_ifs at hi with hin
        obtain ⟨d', m, hd', -, hm⟩ := h2 i hin
        rw [hd'] at hi
        cases hi
        exact ⟨m, hm⟩)
      rw [ho] at hc; cases hc
  | ok cm' =>
    obtain ⟨hl, hk⟩ := (mapM_iff _ _ _).1 hc
    rw [List.length_take] at hl
    simp only
    by_cases hn : cm'.isEmpty = true
    · simp only [hn, if_true, throw, throwThe, MonadExceptOf.throw]
      constructor
      · intro h; cases h
      · rintro ⟨h0, -, h2, -⟩
        exfalso
        have : cm'.length = 0 := by simpa using hn
        obtain ⟨d, m, hd, -⟩ := h2 0 (by omega)
        have := (List.getElem?_eq_some_iff.1 hd).1
        omega
    · simp only [hn, Bool.false_eq_true, if_false, pure, Except.pure]
      have hpos : cm'.length ≠ 0 := by
        intro h0; exact hn (by simpa using h0)
      cases hg : groups.zipIdx.mapM (groupMaskOf gp cm'.length) with
      | error e =>
        simp only
        constructor
        · intro h; cases h
        · rintro ⟨h0, h1, h2, h3, h4⟩
          exfalso
          have hcl : cm'.length = n := by
            obtain ⟨d, m, hd, -⟩ := h2 (n - 1) (by omega)
            have := (List.getElem?_eq_some_iff.1 hd).1
            omega
          obtain ⟨out, ho⟩ := (mapM_exists (groupMaskOf gp cm'.length) groups.zipIdx).2 (by
            intro a ha
            obtain ⟨i, hi⟩ := List.mem_iff_getElem?.1 ha
            obtain ⟨idx, hi', rfl⟩ := (hz i a).1 hi
            obtain ⟨m, -, hm⟩ := h4 i idx hi'
            rw [hcl]
            exact ⟨m, hm⟩)
          rw [ho] at hg; cases hg
      | ok gm' =>
        obtain ⟨gl, gk⟩ := (mapM_iff _ _ _).1 hg
        rw [List.length_zipIdx] at gl
        simp only
        by_cases hlt : cm'.length < n
        · simp only [hlt, if_true, throw, throwThe, MonadExceptOf.throw]
          constructor
          · intro h; cases h
          · rintro ⟨h0, h1, h2, -⟩
            exfalso
            obtain ⟨d, m, hd, -⟩ := h2 (n - 1) (by omega)
            have := (List.getElem?_eq_some_iff.1 hd).1
            omega
        · have hcl : cm'.length = n := by omega
          simp only [hlt, if_false]
          constructor
          · intro h
            have := Except.ok.inj h
            obtain ⟨rfl, rfl⟩ := Prod.mk.inj this
            refine ⟨by omega, hcl, ?_, gl, ?_⟩
            · intro i hi
              have hi2 : i < cp.length := by omega
              obtain ⟨b, hb, hf⟩ := hk i cp[i] (by rw [List.getElem?_take, if_pos hi, List.getElem?_eq_getElem hi2])
              exact ⟨cp[i], b, List.getElem?_eq_getElem hi2, hb, hf⟩
            · intro g idx hgi
              obtain ⟨b, hb, hf⟩ := gk g (idx, g) ((hz g _).2 ⟨idx, hgi, rfl⟩)
              rw [hcl] at hf
              exact ⟨b, hb, hf⟩
          · rintro ⟨h0, h1, h2, h3, h4⟩
            congr 2
            · apply List.ext_getElem?
              intro i
              by_cases hi : i < n
              · obtain ⟨d, m, hd, hm, hf⟩ := h2 i hi
                obtain ⟨b, hb, hf'⟩ := hk i d (by rw [List.getElem?_take, if_pos hi, hd])
                rw [hf] at hf'
                rw [hb, hm, Except.ok.inj hf']
              · rw [List.getElem?_eq_none (by omega), List.getElem?_eq_none (by omega)]
            · apply List.ext_getElem?
              intro g
              by_cases hi : g < groups.length
              · obtain ⟨m, hm, hf⟩ := h4 g groups[g] (List.getElem?_eq_getElem hi)
                obtain ⟨b, hb, hf'⟩ := gk g (groups[g], g) ((hz g _).2 ⟨_, List.getElem?_eq_getElem hi, rfl⟩)
                rw [hcl, hf] at hf'
                rw [hb, hm, Except.ok.inj hf']
              · rw [List.getElem?_eq_none (by omega), List.getElem?_eq_none (by omega)]

private theorem dedup_le_one {α : Type} [DecidableEq α] (l : List α) :
    l.dedup.length ≤ 1 ↔ ∀ x ∈ l, ∀ y ∈ l, x = y := by
  constructor
  · intro h x hx y hy
    have hx' := List.mem_dedup.2 hx
    have hy' := List.mem_dedup.2 hy
    match hd : l.dedup with
    | [] => rw [hd] at hx'; cases hx'
    | [a] =>
      rw [hd] at hx' hy'
      rw [List.mem_singleton.1 hx', List.mem_singleton.1 hy']
    | a :: b :: t => rw [hd] at h; simp at h
  · intro h
    by_contra hc
    have hn := List.nodup_dedup l
    match hd : l.dedup with
    | [] => rw [hd] at hc; simp at hc
    | [a] => rw [hd] at hc; simp at hc
    | a :: b :: t =>
      rw [hd] at hn
      have ha : a ∈ l := List.mem_dedup.1 (by rw [hd]; simp)
      have hb : b ∈ l := List.mem_dedup.1 (by rw [hd]; simp)
      have := h a ha b hb
      subst this
      simp at hn

private theorem nodup_flatMap_iff (l : List Nat) (hl : l.Nodup) (f : Nat → List ℤ) :
    (l.flatMap f).Nodup ↔ (∀ a ∈ l, (f a).Nodup) ∧ ∀ a ∈ l, ∀ b ∈ l, a ≠ b → ∀ i ∈ f a, i ∉ f b := by
  rw [List.nodup_flatMap]
  refine and_congr_right fun _ => ?_
  constructor
  · intro h a ha b hb hab i hi hi'
    have hs : ∀ x y : Nat, (Function.onFun List.Disjoint f) x y → (Function.onFun List.Disjoint f) y x :=
      fun x y h => h.symm
    rcases List.pairwise_iff_getElem.1 h with h'
    obtain ⟨m, hm, rfl⟩ := List.mem_iff_getElem.1 ha
    obtain ⟨n, hn, rfl⟩ := List.mem_iff_getElem.1 hb
    rcases Nat.lt_trichotomy m n with hlt | heq | hgt
    · exact h' m n hm hn hlt hi hi'
    · subst heq; exact hab rfl
    · exact h' n m hn hm hgt hi' hi
  · intro h
    rw [List.pairwise_iff_getElem]
    intro m n hm hn hlt
    intro i hi hi'
    refine h _ (List.getElem_mem hm) _ (List.getElem_mem hn) ?_ i hi hi'
    intro he
    have := (List.Nodup.getElem_inj_iff hl).1 he
    omega

private theorem overlapOk_iff (groups : List (List ℤ)) (gm : List (Nat → Bool)) :
    overlapOk groups gm = true ↔ ∀ p < 20, ∀ g g' : Nat, g ≠ g' → ∀ idx idx' : List ℤ, groups[g]? = some idx →
      groups[g']? = some idx' → (gm.getD g fun _ => false) p = true → (gm.getD g' fun _ => false) p = true →
      idx.Nodup ∧ ∀ i ∈ idx, i ∉ idx' := by
  unfold overlapOk
  simp only [List.all_eq_true, List.mem_range, Bool.or_eq_true, decide_eq_true_eq]
  refine forall_congr' fun p => forall_congr' fun hp => ?_
  have hnd : ((List.range groups.length).filter fun i => (gm.getD i fun _ => false) p).Nodup :=
    List.nodup_range.filter _
  have hmem : ∀ g, g ∈ ((List.range groups.length).filter fun i => (gm.getD i fun _ => false) p) ↔
      g < groups.length ∧ (gm.getD g fun _ => false) p = true := by
    intro g; rw [List.mem_filter, List.mem_range]
  have hget : ∀ (g : Nat) (idx : List ℤ), groups[g]? = some idx → groups.getD g [] = idx := by
    intro g idx h; rw [List.getD_eq_getElem?_getD, h]; rfl
  rw [nodup_flatMap_iff _ hnd]
  constructor
  · rintro (h | ⟨h1, h2⟩) g g' hne idx idx' hg hg' hm hm'
    · exfalso
      have a1 := (hmem g).2 ⟨(List.getElem?_eq_some_iff.1 hg).1, hm⟩
      have a2 := (hmem g').2 ⟨(List.getElem?_eq_some_iff.1 hg').1, hm'⟩
      match hl : (List.range groups.length).filter fun i => (gm.getD i fun _ => false) p with
      | [] => rw [hl] at a1; cases a1
      | [a] =>
        rw [hl] at a1 a2
        exact hne ((List.mem_singleton.1 a1).trans (List.mem_singleton.1 a2).symm)
      | a :: b :: t => rw [hl] at h; simp at h
    · have a1 := (hmem g).2 ⟨(List.getElem?_eq_some_iff.1 hg).1, hm⟩
      have a2 := (hmem g').2 ⟨(List.getElem?_eq_some_iff.1 hg').1, hm'⟩
      have b1 := h1 g a1
      have b2 := h2 g a1 g' a2 hne
      rw [hget g idx hg] at b1 b2
      rw [hget g' idx' hg'] at b2
      exact ⟨b1, b2⟩
  · intro h
    by_cases hc : ((List.range groups.length).filter fun i => (gm.getD i fun _ => false) p).length ≤ 1
    · exact Or.inl hc
    · right
      have other : ∀ g, g ∈ ((List.range groups.length).filter fun i => (gm.getD i fun _ => false) p) →
          ∃ g', g' ∈ ((List.range groups.length).filter fun i => (gm.getD i fun _ => false) p) ∧ g ≠ g' := by
        intro g hg
        match hl : (List.range groups.length).filter fun i => (gm.getD i fun _ => false) p with
        | [] => rw [hl] at hc; simp at hc
        | [a] => rw [hl] at hc; simp at hc
        | a :: b :: t =>
          rw [hl] at hnd
          by_cases hga : g = a
          · refine ⟨b, by simp, ?_⟩
            rintro rfl
            subst hga
            simp at hnd
          · exact ⟨a, by simp, hga⟩
      refine ⟨?_, ?_⟩
      · intro g hg
        obtain ⟨g', hg', hne⟩ := other g hg
        obtain ⟨l1, m1⟩ := (hmem g).1 hg
        obtain ⟨l2, m2⟩ := (hmem g').1 hg'
        have := (h g g' hne _ _ (List.getElem?_eq_getElem l1) (List.getElem?_eq_getElem l2) m1 m2).1
        rw [hget g _ (List.getElem?_eq_getElem l1)]
        exact this
      · intro g hg g' hg' hne
        obtain ⟨l1, m1⟩ := (hmem g).1 hg
        obtain ⟨l2, m2⟩ := (hmem g').1 hg'
        have := (h g g' hne _ _ (List.getElem?_eq_getElem l1) (List.getElem?_eq_getElem l2) m1 m2).2
        rw [hget g _ (List.getElem?_eq_getElem l1), hget g' _ (List.getElem?_eq_getElem l2)]
        exact this

private theorem testAll_ok (imgsz : Nat → ℚ × ℚ) (cams : List Nat) (controls : List (List Nat)) (cp : List Dict)
    (groups : List (List ℤ)) (gp : List Dict) (gm : List (Nat → Bool)) :
    testAll imgsz cams controls cp groups gp gm = .ok () ↔ controls ≠ [] ∧
      (∀ a ∈ groups.zipIdx, sizesOk imgsz cams gp a = true) ∧ overlapOk groups gm = true ∧
      controlledOk cams controls cp groups gp = true := by
  rw [← List.all_eq_true]
  unfold testAll
  cases controls with
  | nil => simp [throw, throwThe, MonadExceptOf.throw, bind, Except.bind]
  | cons c cs =>
    cases h1 : groups.zipIdx.all (sizesOk imgsz cams gp) <;> cases h2 : overlapOk groups gm <;>
      cases h3 : controlledOk cams (c :: cs) cp groups gp <;>
      simp [throw, throwThe, MonadExceptOf.throw, bind, Except.bind, pure, Except.pure]

private theorem sizesOk_iff (imgsz : Nat → ℚ × ℚ) (cams : List Nat) (gp : List Dict) (idx : List ℤ) (g : Nat) (d : Dict)
    (hd : gp[g]? = some d) (hv : ∀ i ∈ idx, ∃ c, CamAtIs cams i c) :
    sizesOk imgsz cams gp (idx, g) = true ↔ ((∃ v, ("f", v) ∈ d ∨ ("c", v) ∈ d) → ∀ i ∈ idx, ∀ j ∈ idx, ∀ c c',
      CamAtIs cams i c → CamAtIs cams j c' → imgsz c = imgsz c') := by
  have hk : ∀ k : String, k ∈ (gp.getD g []).map Prod.fst ↔ ∃ v, (k, v) ∈ d := by
    intro k
    rw [List.getD_eq_getElem?_getD, hd]
    simp
  unfold sizesOk
  simp only [Bool.or_eq_true, Bool.not_eq_true', Bool.or_eq_false_iff, decide_eq_false_iff_not, decide_eq_true_eq,
    dedup_le_one, hk]
  constructor
  · rintro (⟨h1, h2⟩ | h) ⟨v, hv'⟩ i hi j hj c c' hc hc'
    · rcases hv' with h | h
      · exact absurd ⟨v, h⟩ h1
      · exact absurd ⟨v, h⟩ h2
    · have := h _ (List.mem_map_of_mem hi) _ (List.mem_map_of_mem hj)
      rw [camAt_of cams i c hc, camAt_of cams j c' hc'] at this
      exact this
  · intro h
    by_cases hex : ∃ v, ("f", v) ∈ d ∨ ("c", v) ∈ d
    · right
      intro x hx y hy
      obtain ⟨i, hi, rfl⟩ := List.mem_map.1 hx
      obtain ⟨j, hj, rfl⟩ := List.mem_map.1 hy
      obtain ⟨c, hc⟩ := hv i hi
      obtain ⟨c', hc'⟩ := hv j hj
      rw [camAt_of cams i c hc, camAt_of cams j c' hc']
      exact h hex i hi j hj c c' hc hc'
    · left
      constructor
      · rintro ⟨v, h⟩; exact hex ⟨v, Or.inl h⟩
      · rintro ⟨v, h⟩; exact hex ⟨v, Or.inr h⟩

private theorem hasParams_iff (cp : List Dict) (groups : List (List ℤ)) (gp : List Dict) (i : Nat) :
    hasParams cp groups gp i = true ↔ ((∃ d, cp[i]? = some d ∧ d ≠ []) ∨ ∃ (g : Nat) (idx : List ℤ) (d : Dict),
      groups[g]? = some idx ∧ (i : ℤ) ∈ idx ∧ gp[g]? = some d ∧ d ≠ []) := by
  have hne : ∀ (l : List Dict) (k : Nat), (!(l.getD k []).isEmpty) = true ↔ ∃ d, l[k]? = some d ∧ d ≠ [] := by
    intro l k
    rw [List.getD_eq_getElem?_getD]
    cases l[k]? with
    | none => simp
    | some d => cases d <;> simp
  unfold hasParams
  rw [Bool.or_eq_true, hne]
  refine or_congr_right ?_
  rw [List.any_eq_true]
  constructor
  · rintro ⟨g, hg, h⟩
    rw [Bool.and_eq_true, decide_eq_true_eq, hne] at h
    obtain ⟨h1, d, h2, h3⟩ := h
    have hl := List.mem_range.1 hg
    refine ⟨g, groups[g], d, List.getElem?_eq_getElem hl, ?_, h2, h3⟩
    rw [List.getD_eq_getElem _ _ hl] at h1
    exact h1
  · rintro ⟨g, idx, d, h1, h2, h3, h4⟩
    refine ⟨g, List.mem_range.2 (List.getElem?_eq_some_iff.1 h1).1, ?_⟩
    rw [Bool.and_eq_true, decide_eq_true_eq, hne]
    refine ⟨?_, d, h3, h4⟩
    rw [List.getD_eq_getElem?_getD, h1]
    exact h2

private theorem mem_prune (controls : List (List Nat)) (cams : List Nat) (cs : List Nat) :
    cs ∈ pruneControls controls cams ↔ cs ∈ controls ∧ ∃ c ∈ cams, c ∈ cs := by
  unfold pruneControls
  rw [List.mem_filter, List.any_eq_true]
  simp only [decide_eq_true_eq]

/-- C98 (pruning): the controls kept are, in order, those that refer to one of the cameras. -/
theorem prune_controls (controls : List (List Nat)) (cams : List Nat) :
    (pruneControls controls cams).Sublist controls ∧
      ∀ cs, cs ∈ pruneControls controls cams ↔ cs ∈ controls ∧ ∃ c ∈ cams, c ∈ cs :=
  ⟨List.filter_sublist, mem_prune controls cams⟩

private theorem controlledOk_iff (cams : List Nat) (controls : List (List Nat)) (cp : List Dict)
    (groups : List (List ℤ)) (gp : List Dict) :
    controlledOk cams (pruneControls controls cams) cp groups gp = true ↔ ∀ i c : Nat, cams[i]? = some c →
      ((∃ d, cp[i]? = some d ∧ d ≠ []) ∨ ∃ (g : Nat) (idx : List ℤ) (d : Dict),
        groups[g]? = some idx ∧ (i : ℤ) ∈ idx ∧ gp[g]? = some d ∧ d ≠ []) → ∃ cs ∈ controls, c ∈ cs := by
  unfold controlledOk
  simp only [List.all_eq_true, List.mem_range, Bool.or_eq_true, Bool.not_eq_true', List.any_eq_true, decide_eq_true_eq]
  constructor
  · intro h i c hc hp
    have hl := (List.getElem?_eq_some_iff.1 hc).1
    rcases h i hl with h' | ⟨cs, hcs, hm⟩
    · rw [← hasParams_iff, h'] at hp; cases hp
    · rw [List.getD_eq_getElem?_getD, hc] at hm
      exact ⟨cs, ((mem_prune _ _ _).1 hcs).1, hm⟩
  · intro h i hl
    cases hp : hasParams cp groups gp i with
    | false => exact Or.inl rfl
    | true =>
      right
      obtain ⟨cs, hcs, hm⟩ := h i cams[i] (List.getElem?_eq_getElem hl) ((hasParams_iff _ _ _ _).1 hp)
      refine ⟨cs, (mem_prune _ _ _).2 ⟨hcs, cams[i], List.getElem_mem hl, hm⟩, ?_⟩
      rw [List.getD_eq_getElem _ _ hl]
      exact hm

private theorem build_eq (imgsz : Nat → ℚ × ℚ) (a : BuildArgs) (b : Built) :
    buildCameras imgsz a = .ok b ↔ ∃ groups cm gm, asGroups a.cams.toList.length a.groups = .ok groups ∧
      updateMasks a.cams.toList.length (paramsOr a.cams.toList.length a.camParams) groups
        (paramsOr groups.length a.groupParams) = .ok (cm, gm) ∧
      testAll imgsz a.cams.toList (pruneControls a.controls.toList a.cams.toList)
        (paramsOr a.cams.toList.length a.camParams) groups (paramsOr groups.length a.groupParams) gm = .ok () ∧
      b = ⟨a.cams.toList, pruneControls a.controls.toList a.cams.toList, paramsOr a.cams.toList.length a.camParams, groups,
        paramsOr groups.length a.groupParams, cm, gm⟩ := by
  unfold buildCameras
  cases hg : asGroups a.cams.toList.length a.groups with
  | error e => simp [bind, Except.bind, hg]
  | ok groups =>
    simp only [bind, Except.bind, hg]
    cases hu : updateMasks a.cams.toList.length (paramsOr a.cams.toList.length a.camParams) groups
        (paramsOr groups.length a.groupParams) with
    | error e =>
      simp only [hu]
      constructor
      · intro h; cases h
      · rintro ⟨g', cm, gm, h1, h2, -⟩
        cases h1
        rw [hu] at h2; cases h2
    | ok ms =>
      obtain ⟨cm, gm⟩ := ms
      simp only [hu]
      cases ht : testAll imgsz a.cams.toList (pruneControls a.controls.toList a.cams.toList)
          (paramsOr a.cams.toList.length a.camParams) groups (paramsOr groups.length a.groupParams) gm with
      | error e =>
        simp only [ht]
        constructor
        · intro h; cases h
        · rintro ⟨g', cm', gm', h1, h2, h3, -⟩
          cases h1
          rw [hu] at h2; cases h2
          rw [ht] at h3; cases h3
      | ok u =>
        simp only [ht, pure, Except.pure]
        constructor
        · intro h
          exact ⟨groups, cm, gm, rfl, hu, by cases u; exact ht, (Except.ok.inj h).symm⟩
        · rintro ⟨g', cm', gm', h1, h2, h3, rfl⟩
          cases h1
          rw [hu] at h2; cases h2
          rfl

/-- C98: `Cameras` accepts its arguments exactly when they meet the conditions of `Accepted`; anything else raises. -/
theorem cameras_accepted_iff (imgsz : Nat → ℚ × ℚ) (a : BuildArgs) :
    (∃ b, buildCameras imgsz a = .ok b) ↔ ∃ groups, asGroups a.cams.toList.length a.groups = .ok groups ∧
      Accepted imgsz a.cams.toList a.controls.toList (paramsOr a.cams.toList.length a.camParams) groups
        (paramsOr groups.length a.groupParams) := by
  constructor
  · rintro ⟨b, hb⟩
    obtain ⟨groups, cm, gm, hg, hu, ht, -⟩ := (build_eq _ _ _).1 hb
    obtain ⟨u0, u1, u2, u3, u4⟩ := (updateMasks_ok _ _ _ _ _ _).1 hu
    obtain ⟨t1, t2, t3, t4⟩ := (testAll_ok _ _ _ _ _ _ _).1 ht
    have G : ∀ (g : Nat) (idx : List ℤ), groups[g]? = some idx →
        (∀ i ∈ idx, ∃ c, CamAtIs a.cams.toList i c) ∧ idx ≠ [] ∧ ∃ d m, (paramsOr groups.length a.groupParams)[g]? = some d ∧
          maskOf d = .ok m ∧ gm[g]? = some m := by
      intro g idx hgi
      obtain ⟨m, hm, hf⟩ := u4 g idx hgi
      obtain ⟨f1, f2, d, f3, f4⟩ := (groupMaskOf_ok _ _ _ _ _).1 hf
      exact ⟨fun i hi => (valid_iff _ _).2 (f1 i hi), f2, d, m, f3, f4, hm⟩
    refine ⟨groups, hg, ?_, ?_, ?_, ?_, ?_, ?_, ?_, ?_⟩
    · intro i hi
      obtain ⟨d, m, h1, -, h2⟩ := u2 i hi
      exact ⟨d, m, h1, h2⟩
    · intro g hg'
      obtain ⟨k, hk⟩ := List.mem_iff_getElem?.1 hg'
      exact (G k g hk).2.1
    · intro g hg'
      obtain ⟨k, hk⟩ := List.mem_iff_getElem?.1 hg'
      exact (G k g hk).1
    · intro g hg'
      obtain ⟨-, -, d, m, h1, h2, -⟩ := G g _ (List.getElem?_eq_getElem hg')
      exact ⟨d, m, h1, h2⟩
    · obtain ⟨cs, hcs⟩ := List.exists_mem_of_ne_nil _ t1
      obtain ⟨h1, h2⟩ := (mem_prune _ _ _).1 hcs
      exact ⟨cs, h1, h2⟩
    · intro g idx d hgi hd
      refine (sizesOk_iff imgsz _ _ idx g d hd (G g idx hgi).1).1 (t2 (idx, g) ?_)
      exact List.mem_iff_getElem?.2 ⟨g, by rw [List.getElem?_zipIdx, hgi]; simp⟩
    · rintro g g' idx idx' d d' p hne hp hgi hgi' hd hd' ⟨m, hm, hmp⟩ ⟨m', hm', hmp'⟩
      obtain ⟨-, -, d1, m1, e1, e2, e3⟩ := G g idx hgi
      obtain ⟨-, -, d2, m2, e1', e2', e3'⟩ := G g' idx' hgi'
      rw [hd] at e1; cases e1
      rw [hd'] at e1'; cases e1'
      rw [hm] at e2; cases e2
      rw [hm'] at e2'; cases e2'
      refine (overlapOk_iff groups gm).1 t3 p hp g g' hne idx idx' hgi hgi' ?_ ?_
      · rw [List.getD_eq_getElem?_getD, e3]; exact hmp
      · rw [List.getD_eq_getElem?_getD, e3']; exact hmp'
    · exact (controlledOk_iff _ _ _ _ _).1 t4
  · rintro ⟨groups, hg, H⟩
    have hn : a.cams.toList.length ≠ 0 := by
      obtain ⟨cs, -, c, hc, -⟩ := H.controlled
      exact fun h0 => by rw [List.length_eq_zero_iff] at h0; rw [h0] at hc; cases hc
    have cmEx : ∃ cm, ((paramsOr a.cams.toList.length a.camParams).take a.cams.toList.length).mapM maskOf = .ok cm := by
      refine (mapM_exists _ _).2 ?_
      intro d hd
      obtain ⟨i, hi⟩ := List.mem_iff_getElem?.1 hd
      rw [List.getElem?_take] at hi
      split_ifs at hi with hin
      obtain ⟨d', m, hd', hm⟩ := H.camParams i hin
      rw [hd'] at hi; cases hi
      exact ⟨m, hm⟩
    have G : ∀ x ∈ groups.zipIdx, ∃ m, groupMaskOf (paramsOr groups.length a.groupParams) a.cams.toList.length x = .ok m := by
      intro x hx
      obtain ⟨g, hgx⟩ := List.mem_iff_getElem?.1 hx
      rw [List.getElem?_zipIdx] at hgx
      cases hgi : groups[g]? with
      | none => rw [hgi] at hgx; cases hgx
      | some idx =>
        rw [hgi] at hgx
        have : x = (idx, g) := by simpa [eq_comm] using hgx
        subst this
        have hl := (List.getElem?_eq_some_iff.1 hgi).1
        obtain ⟨d, m, h1, h2⟩ := H.groupParams g hl
        have hmem : idx ∈ groups := List.mem_iff_getElem?.2 ⟨g, hgi⟩
        exact ⟨m, (groupMaskOf_ok _ _ _ _ _).2 ⟨fun i hi => (valid_iff _ _).1 (H.groups_valid idx hmem i hi),
          H.groups_ne idx hmem, d, h1, h2⟩⟩
    obtain ⟨cm, hcm⟩ := cmEx
    obtain ⟨gm, hgm⟩ := (mapM_exists _ _).2 G
    obtain ⟨c1, c2⟩ := (mapM_iff _ _ _).1 hcm
    obtain ⟨g1, g2⟩ := (mapM_iff _ _ _).1 hgm
    have hlen : a.cams.toList.length ≤ (paramsOr a.cams.toList.length a.camParams).length := by
      obtain ⟨d, m, hd, -⟩ := H.camParams (a.cams.toList.length - 1) (by omega)
      have := (List.getElem?_eq_some_iff.1 hd).1
      omega
    rw [List.length_take, Nat.min_eq_left hlen] at c1
    rw [List.length_zipIdx] at g1
    have hu : updateMasks a.cams.toList.length (paramsOr a.cams.toList.length a.camParams) groups
        (paramsOr groups.length a.groupParams) = .ok (cm, gm) := by
      refine (updateMasks_ok _ _ _ _ _ _).2 ⟨hn, c1, ?_, g1, ?_⟩
      · intro i hi
        obtain ⟨d, m, hd, hm⟩ := H.camParams i hi
        obtain ⟨b, hb, hf⟩ := c2 i d (by rw [List.getElem?_take, if_pos hi, hd])
        exact ⟨d, b, hd, hb, hf⟩
      · intro g idx hgi
        obtain ⟨b, hb, hf⟩ := g2 g (idx, g) (by rw [List.getElem?_zipIdx, hgi]; simp)
        exact ⟨b, hb, hf⟩
    refine ⟨_, (build_eq _ _ _).2 ⟨groups, cm, gm, hg, hu, (testAll_ok _ _ _ _ _ _ _).2 ⟨?_, ?_, ?_, ?_⟩, rfl⟩⟩
    · obtain ⟨cs, h1, h2⟩ := H.controlled
      exact List.ne_nil_of_mem ((mem_prune _ _ _).2 ⟨h1, h2⟩)
    · intro x hx
      obtain ⟨g, hgx⟩ := List.mem_iff_getElem?.1 hx
      rw [List.getElem?_zipIdx] at hgx
      cases hgi : groups[g]? with
      | none => rw [hgi] at hgx; cases hgx
      | some idx =>
        rw [hgi] at hgx
        have : x = (idx, g) := by simpa [eq_comm] using hgx
        subst this
        have hl := (List.getElem?_eq_some_iff.1 hgi).1
        obtain ⟨d, m, h1, h2⟩ := H.groupParams g hl
        have hmem : idx ∈ groups := List.mem_iff_getElem?.2 ⟨g, hgi⟩
        exact (sizesOk_iff imgsz _ _ idx g d h1 (H.groups_valid idx hmem)).2 (H.sizes g idx d hgi h1)
    · refine (overlapOk_iff groups gm).2 ?_
      intro p hp g g' hne idx idx' hgi hgi' hm hm'
      have key : ∀ (g : Nat) (idx : List ℤ), groups[g]? = some idx → (gm.getD g fun _ => false) p = true →
          ∃ d, (paramsOr groups.length a.groupParams)[g]? = some d ∧ Selects d p := by
        intro g idx hgi hm
        obtain ⟨b, hb, hf⟩ := g2 g (idx, g) (by rw [List.getElem?_zipIdx, hgi]; simp)
        obtain ⟨-, -, d, e1, e2⟩ := (groupMaskOf_ok _ _ _ _ _).1 hf
        rw [List.getD_eq_getElem?_getD, hb] at hm
        exact ⟨d, e1, b, e2, hm⟩
      obtain ⟨d, hd, hs⟩ := key g idx hgi hm
      obtain ⟨d', hd', hs'⟩ := key g' idx' hgi' hm'
      exact H.overlap g g' idx idx' d d' p hne hp hgi hgi' hd hd' hs hs'
    · exact (controlledOk_iff _ _ _ _ _).2 H.params

/-- C98 (what is built): the cameras as given, the controls that refer to one of them, and for each camera and group
the elements that its dictionary selects. -/
theorem cameras_built (imgsz : Nat → ℚ × ℚ) (a : BuildArgs) (b : Built) (h : buildCameras imgsz a = .ok b) :
    b.cams = a.cams.toList ∧ b.controls = pruneControls a.controls.toList a.cams.toList ∧
      asGroups a.cams.toList.length a.groups = .ok b.groups ∧
      (∀ j < b.cams.length, ∃ d, b.camParams[j]? = some d ∧ maskOf d = .ok (b.layout.camMask j)) ∧
      (∀ i < b.groups.length, ∃ d, b.groupParams[i]? = some d ∧ maskOf d = .ok (b.layout.groupMask i)) := by
  obtain ⟨groups, cm, gm, hg, hu, ht, rfl⟩ := (build_eq _ _ _).1 h
  obtain ⟨u0, u1, u2, u3, u4⟩ := (updateMasks_ok _ _ _ _ _ _).1 hu
  refine ⟨rfl, rfl, hg, ?_, ?_⟩
  · intro j hj
    obtain ⟨d, m, h1, h2, h3⟩ := u2 j hj
    refine ⟨d, h1, ?_⟩
    rw [h3]
    congr 1
    funext p
    show m p = (cm.getD j fun _ => false) p
    rw [List.getD_eq_getElem?_getD, h2]; rfl
  · intro i hi
    obtain ⟨m, hm, hf⟩ := u4 i _ (List.getElem?_eq_getElem hi)
    obtain ⟨-, -, d, e1, e2⟩ := (groupMaskOf_ok _ _ _ _ _).1 hf
    refine ⟨d, e1, ?_⟩
    rw [e2]
    congr 1
    funext p
    show m p = (gm.getD i fun _ => false) p
    rw [List.getD_eq_getElem?_getD, hm]; rfl

private theorem layout_group (b : Built) (i : Nat) (idx : List ℤ) (h : b.groups[i]? = some idx) :
    b.layout.groups[i]? = some (idx.map fun z => match pyIndex b.cams.length z with
      | .ok k => k
      | .error _ => 0) := by
  show (b.groups.map _)[i]? = _
  rw [List.getElem?_map, h]; rfl

/-- C98: the layout of an accepted model refers to its cameras only. -/
theorem cameras_layout_ok (imgsz : Nat → ℚ × ℚ) (a : BuildArgs) (b : Built) (h : buildCameras imgsz a = .ok b) :
    b.layout.Ok := by
  obtain ⟨groups, hg, H⟩ := (cameras_accepted_iff imgsz a).1 ⟨b, h⟩
  obtain ⟨h1, -, h3, -⟩ := cameras_built imgsz a b h
  rw [hg] at h3
  have hgr := Except.ok.inj h3
  intro g hgm j hj
  obtain ⟨idx, hidx, rfl⟩ := List.mem_map.1 hgm
  obtain ⟨z, hz, rfl⟩ := List.mem_map.1 hj
  have := H.groups_valid idx (hgr ▸ hidx) z hz
  rw [valid_iff, ← h1] at this
  obtain ⟨k, hk⟩ := this
  rw [hk]
  exact pyIndex_lt _ _ _ hk

/-- C98 (partial: indices that do not count from the end): in an accepted model no two groups set the same element of the
same camera, so that every fitting parameter of a group is applied (`set_cameras_partial`). -/
theorem cameras_no_overlap_partial (imgsz : Nat → ℚ × ℚ) (a : BuildArgs) (b : Built)
    (h : buildCameras imgsz a = .ok b) (hnn : ∀ g ∈ b.groups, ∀ i ∈ g, 0 ≤ i) :
    b.layout.testOverlap = .ok () ∧ ∀ (g g' j p : Nat), g ≠ g' → p < 20 → b.layout.groupMask g p = true →
      b.layout.groupMask g' p = true → j ∈ b.layout.groups.getD g [] → j ∉ b.layout.groups.getD g' [] := by
  obtain ⟨groups, cm, gm, hg, hu, ht, rfl⟩ := (build_eq _ _ _).1 h
  obtain ⟨t1, t2, t3, t4⟩ := (testAll_ok _ _ _ _ _ _ _).1 ht
  obtain ⟨u0, u1, u2, u3, u4⟩ := (updateMasks_ok _ _ _ _ _ _).1 hu
  have conv : ∀ (i : Nat) (idx : List ℤ), groups[i]? = some idx → ∀ z ∈ idx,
      (match pyIndex a.cams.toList.length z with
        | .ok k => k
        | .error _ => 0) = z.toNat := by
    intro i idx hi z hz
    obtain ⟨m, -, hf⟩ := u4 i idx hi
    obtain ⟨k, hk⟩ := ((groupMaskOf_ok _ _ _ _ _).1 hf).1 z hz
    have h0 := hnn idx (List.mem_iff_getElem?.2 ⟨i, hi⟩) z hz
    rw [hk]
    rcases (pyIndex_ok _ _ _).1 hk with ⟨-, -, h⟩ | ⟨-, h, -⟩
    · exact h
    · omega
  have hL : ∀ i : Nat, (⟨a.cams.toList, pruneControls a.controls.toList a.cams.toList, paramsOr a.cams.toList.length a.camParams,
        groups, paramsOr groups.length a.groupParams, cm, gm⟩ : Built).layout.groups.getD i [] =
      (groups.getD i []).map Int.toNat := by
    intro i
    rw [List.getD_eq_getElem?_getD]
    cases hgi : groups[i]? with
    | none =>
      have : (⟨a.cams.toList, pruneControls a.controls.toList a.cams.toList, paramsOr a.cams.toList.length a.camParams,
        groups, paramsOr groups.length a.groupParams, cm, gm⟩ : Built).layout.groups[i]? = none := by
        show (groups.map _)[i]? = none
        rw [List.getElem?_map, hgi]; rfl
      rw [this, List.getD_eq_getElem?_getD, hgi]; rfl
    | some idx =>
      rw [layout_group _ i idx hgi, List.getD_eq_getElem?_getD, hgi]
      simp only [Option.getD_some]
      exact List.map_congr_left fun z hz => conv i idx hgi z hz
  have O := (overlapOk_iff groups gm).1 t3
  have inj : ∀ (i : Nat) (idx : List ℤ), groups[i]? = some idx → ∀ (i' : Nat) (idx' : List ℤ), groups[i']? = some idx' →
      ∀ z ∈ idx, ∀ z' ∈ idx', z.toNat = z'.toNat → z = z' := by
    intro i idx hi i' idx' hi' z hz z' hz' he
    have h0 := hnn idx (List.mem_iff_getElem?.2 ⟨i, hi⟩) z hz
    have h1 := hnn idx' (List.mem_iff_getElem?.2 ⟨i', hi'⟩) z' hz'
    omega
  have lt : ∀ (i : Nat) (x : ℤ), x ∈ groups.getD i [] → groups[i]? = some (groups.getD i []) := by
    intro i x hx
    rw [List.getD_eq_getElem?_getD] at hx ⊢
    cases hgi : groups[i]? with
    | none => rw [hgi] at hx; cases hx
    | some idx => rfl
  have main : ∀ (g g' j p : Nat), g ≠ g' → p < 20 → (gm.getD g fun _ => false) p = true →
      (gm.getD g' fun _ => false) p = true → j ∈ (groups.getD g []).map Int.toNat →
      j ∉ (groups.getD g' []).map Int.toNat := by
    intro g g' j p hne hp hm hm' hj hj'
    obtain ⟨z, hz, rfl⟩ := List.mem_map.1 hj
    obtain ⟨z', hz', he⟩ := List.mem_map.1 hj'
    have e1 := lt g z hz
    have e2 := lt g' z' hz'
    have hzz := inj g _ e1 g' _ e2 z hz z' hz' he.symm
    subst hzz
    exact (O p hp g g' hne _ _ e1 e2 hm hm').2 z hz hz'
  constructor
  · unfold Layout.testOverlap
    rw [if_pos]
    rw [List.all_eq_true]
    intro p hp
    have hp' := List.mem_range.1 hp
    simp only [Bool.or_eq_true, decide_eq_true_eq]
    have o := t3
    unfold overlapOk at o
    rw [List.all_eq_true] at o
    have o' := o p hp
    simp only [Bool.or_eq_true, decide_eq_true_eq] at o'
    have hlen : (⟨a.cams.toList, pruneControls a.controls.toList a.cams.toList, paramsOr a.cams.toList.length a.camParams,
        groups, paramsOr groups.length a.groupParams, cm, gm⟩ : Built).layout.groups.length = groups.length := by
      show (groups.map _).length = _
      simp
    rw [hlen]
    rcases o' with o' | o'
    · exact Or.inl o'
    · right
      have e : ((List.range groups.length).filter fun i => (gm.getD i fun _ => false) p).flatMap
          (fun i => (groups.getD i []).map Int.toNat) =
          (((List.range groups.length).filter fun i => (gm.getD i fun _ => false) p).flatMap
            fun i => groups.getD i []).map Int.toNat := by
        rw [List.map_flatMap]
      have e2 : (((List.range groups.length).filter fun i => (gm.getD i fun _ => false) p).flatMap fun i =>
          (⟨a.cams.toList, pruneControls a.controls.toList a.cams.toList, paramsOr a.cams.toList.length a.camParams,
        groups, paramsOr groups.length a.groupParams, cm, gm⟩ : Built).layout.groups.getD i []) =
          ((List.range groups.length).filter fun i => (gm.getD i fun _ => false) p).flatMap
          (fun i => (groups.getD i []).map Int.toNat) := by
        congr 1
        funext i
        exact hL i
      refine Eq.mpr (congrArg List.Nodup (e2.trans e)) ?_
      refine o'.map_on ?_
      intro z hz z' hz' he
      obtain ⟨i, -, hzi⟩ := List.mem_flatMap.1 hz
      obtain ⟨i', -, hzi'⟩ := List.mem_flatMap.1 hz'
      exact inj i _ (lt i z hzi) i' _ (lt i' z' hzi') z hzi z' hzi' he
  · intro g g' j p hne hp hm hm' hj
    rw [hL] at hj ⊢
    exact main g g' j p hne hp hm hm' hj

private theorem controlBreak_le (cs : List Control) (k n : Nat) (h : k ≤ n) : controlBreak cs k ≤ controlBreak cs n := by
  unfold controlBreak
  have e : cs.take k = (cs.take n).take k := by rw [List.take_take, Nat.min_eq_left h]
  have e2 : ((cs.take n).map fun c => 2 * c.size).sum = (((cs.take n).take k).map fun c => 2 * c.size).sum +
      (((cs.take n).drop k).map fun c => 2 * c.size).sum := by
    rw [← List.sum_append, ← List.map_append, List.take_append_drop]
  rw [e2, e]
  exact Nat.le_add_right _ _

private theorem slot_mem (L : Layout) (c : Nat) (o : Owner) (p : Nat) (h : L.slots[c]? = some (o, p)) :
    p < 20 ∧ match o with
      | .group i => i < L.groups.length ∧ L.groupMask i p = true
      | .cam j => j < L.ncams ∧ L.camMask j p = true := by
  have hm := List.mem_of_getElem? h
  unfold Layout.slots at hm
  rcases List.mem_append.1 hm with hm | hm
  · obtain ⟨i, hi, h2⟩ := List.mem_flatMap.1 hm
    obtain ⟨q, hq, he⟩ := List.mem_map.1 h2
    obtain ⟨rfl, rfl⟩ := Prod.mk.inj he
    obtain ⟨h3, h4⟩ := List.mem_filter.1 hq
    exact ⟨List.mem_range.1 h3, List.mem_range.1 hi, h4⟩
  · obtain ⟨i, hi, h2⟩ := List.mem_flatMap.1 hm
    obtain ⟨q, hq, he⟩ := List.mem_map.1 h2
    obtain ⟨rfl, rfl⟩ := Prod.mk.inj he
    obtain ⟨h3, h4⟩ := List.mem_filter.1 hq
    exact ⟨List.mem_range.1 h3, List.mem_range.1 hi, h4⟩

/-- C98 (partial: indices that do not count from the end): in an accepted model, of different cameras and controls that
are not empty, every fitting parameter affects some observation (row of the Jacobian). -/
theorem cameras_params_observed_partial (imgsz : Nat → ℚ × ℚ) (a : BuildArgs) (b : Built)
    (h : buildCameras imgsz a = .ok b) (hnn : ∀ g ∈ b.groups, ∀ i ∈ g, 0 ≤ i) (hnd : b.cams.Nodup) (size : List Nat)
    (hsize : size.length = b.controls.length) (hpos : ∀ n ∈ size, 0 < n) (c : Nat) (hc : c < b.layout.total) :
    ∃ r, r < controlBreak (b.controlsIdx size) b.controls.length ∧
      b.layout.sparsity (b.controlsIdx size) r c = true := by
  obtain ⟨groups, hg, H⟩ := (cameras_accepted_iff imgsz a).1 ⟨b, h⟩
  have hpr := h
  obtain ⟨g0, cm, gm, hg0, hu, ht, hbeq⟩ := (build_eq _ _ _).1 hpr
  obtain ⟨h1, h2, h3, h4, h5⟩ := cameras_built imgsz a b h
  rw [hg] at hg0; cases hg0
  have hcp : b.camParams = paramsOr a.cams.toList.length a.camParams := by rw [hbeq]
  have hgp : b.groupParams = paramsOr groups.length a.groupParams := by rw [hbeq]
  have hgr : b.groups = groups := by rw [hbeq]
  -- a camera with parameters is in a control
  have row : ∀ j < b.cams.length,
      ((∃ d, b.camParams[j]? = some d ∧ d ≠ []) ∨ ∃ (g : Nat) (idx : List ℤ) (d : Dict),
        b.groups[g]? = some idx ∧ (j : ℤ) ∈ idx ∧ b.groupParams[g]? = some d ∧ d ≠ []) →
      ∃ k r, k < (b.controlsIdx size).length ∧ controlBreak (b.controlsIdx size) k ≤ r ∧
        r < controlBreak (b.controlsIdx size) (k + 1) ∧ j ∈ ((b.controlsIdx size).getD k ⟨0, []⟩).cams ∧
        r < controlBreak (b.controlsIdx size) b.controls.length := by
    intro j hj hp
    rw [hcp, hgp, hgr] at hp
    obtain ⟨cs, hcs, hm⟩ := H.params j b.cams[j] (by rw [← h1]; exact List.getElem?_eq_getElem hj) hp
    have hcs' : cs ∈ b.controls := by
      rw [h2]
      exact (mem_prune _ _ _).2 ⟨hcs, b.cams[j], by rw [← h1]; exact List.getElem_mem hj, hm⟩
    obtain ⟨k, hk, hke⟩ := List.mem_iff_getElem.1 hcs'
    have hks : k < size.length := by omega
    have hlen : (b.controlsIdx size).length = b.controls.length := by
      unfold Built.controlsIdx
      simp [hsize]
    have hget : (b.controlsIdx size).getD k ⟨0, []⟩ =
        ⟨size[k], (cs.filter fun c => decide (c ∈ b.cams)).map fun c => b.cams.idxOf c⟩ := by
      rw [List.getD_eq_getElem _ _ (by omega)]
      unfold Built.controlsIdx
      rw [List.getElem_map, List.getElem_zip, hke]
    have hbr : controlBreak (b.controlsIdx size) (k + 1) = controlBreak (b.controlsIdx size) k + 2 * size[k] := by
      unfold controlBreak
      rw [List.take_succ_eq_append_getElem (by omega), List.map_append, List.sum_append]
      have : (b.controlsIdx size)[k]'(by omega) = (b.controlsIdx size).getD k ⟨0, []⟩ := by
        rw [List.getD_eq_getElem _ _ (by omega)]
      rw [this, hget]
      simp
    have hp0 := hpos size[k] (List.getElem_mem hks)
    refine ⟨k, controlBreak (b.controlsIdx size) k, by omega, le_refl _, by omega, ?_, ?_⟩
    · rw [hget]
      refine List.mem_map.2 ⟨b.cams[j], List.mem_filter.2 ⟨hm, by simp⟩, ?_⟩
      exact hnd.idxOf_getElem j hj
    · have := controlBreak_le (b.controlsIdx size) (k + 1) b.controls.length (by omega)
      omega
  have hs : c < b.layout.slots.length := by rw [slots_length]; exact hc
  obtain ⟨⟨o, p⟩, ho⟩ : ∃ x, b.layout.slots[c]? = some x := ⟨_, List.getElem?_eq_getElem hs⟩
  have hmem := slot_mem b.layout c o p ho
  have ne : ∀ (d : Dict) (m : Nat → Bool), maskOf d = .ok m → m p = true → d ≠ [] := by
    rintro d m hd hmp rfl
    rw [maskOf_nil] at hd
    rw [← Except.ok.inj hd] at hmp
    cases hmp
  cases o with
  | cam j =>
    obtain ⟨-, hj, hm⟩ := hmem
    obtain ⟨d, hd, hdm⟩ := h4 j hj
    obtain ⟨k, r, k1, k2, k3, k4, k5⟩ := row j hj (Or.inl ⟨d, hd, ne d _ hdm hm⟩)
    exact ⟨r, k5, (sparsity_iff _ _ _ _).2 ⟨k, k1, k2, k3, j, k4, hj, p, Or.inl ho⟩⟩
  | group i =>
    obtain ⟨-, hi, hm⟩ := hmem
    have hi' : i < b.groups.length := by
      have : b.layout.groups.length = b.groups.length := by
        show (b.groups.map _).length = _
        simp
      omega
    obtain ⟨d, hd, hdm⟩ := h5 i hi'
    have hidx : b.groups[i]? = some b.groups[i] := List.getElem?_eq_getElem hi'
    have hin : b.groups[i] ∈ b.groups := List.getElem_mem hi'
    have hin' : b.groups[i] ∈ groups := (congrArg (b.groups[i] ∈ ·) hgr).mp hin
    obtain ⟨z, hz⟩ := List.exists_mem_of_ne_nil _ (H.groups_ne b.groups[i] hin')
    have hz0 := hnn _ hin z hz
    obtain ⟨kk, hkk⟩ := (valid_iff _ _).1 (H.groups_valid b.groups[i] hin' z hz)
    rw [← h1] at hkk
    have hkz : kk = z.toNat := by
      rcases (pyIndex_ok _ _ _).1 hkk with ⟨-, -, h⟩ | ⟨-, h, -⟩
      · exact h
      · omega
    have hlt := pyIndex_lt _ _ _ hkk
    obtain ⟨k, r, k1, k2, k3, k4, k5⟩ := row kk hlt (Or.inr ⟨i, _, d, hidx, by
      rw [hkz, Int.toNat_of_nonneg hz0]; exact hz, hd, ne d _ hdm hm⟩)
    refine ⟨r, k5, (sparsity_iff _ _ _ _).2 ⟨k, k1, k2, k3, kk, k4, hlt, p, Or.inr ⟨i, ?_, ho⟩⟩⟩
    rw [List.getD_eq_getElem?_getD, layout_group b i _ hidx]
    refine List.mem_map.2 ⟨z, hz, ?_⟩
    rw [hkk]

/-! ### Examples -/

/-- Two cameras, each with a control of its own and one in common; a control of a third camera. Own view directions, a
focal length in common. -/
def testArgs : BuildArgs where
  cams := .many [7, 8]
  controls := .many [[7], [9], [8], [7, 8]]
  camParams := some (.many [[("viewdir", ⟨.all, none⟩)], [("viewdir", ⟨.all, none⟩)]])
  groups := .lists [[0, 1]]
  groupParams := some (.many [[("f", ⟨.index 0, none⟩)]])

/-- What `Cameras` keeps, if it accepts. -/
def built (imgsz : Nat → ℚ × ℚ) (a : BuildArgs) : Option (List (List Nat) × List (List ℤ)) :=
  match buildCameras imgsz a with
  | .ok b => some (b.controls, b.groups)
  | .error _ => none

/-- Non-vacuity: accepted, without the control of the other camera; refused with different image sizes, with the
control of camera 7 only, with two groups of the same camera; with a numpy array of indices. -/
example : built (fun _ => (10, 10)) testArgs = some ([[7], [8], [7, 8]], [[0, 1]]) ∧
    built (fun c => ((c : ℚ), 10)) testArgs = none ∧
    built (fun _ => (10, 10)) { testArgs with controls := .one [7] } = none ∧
    built (fun _ => (10, 10)) { testArgs with
      groups := .lists [[0, 1], [1]], groupParams := some (.many [[("f", ⟨.all, none⟩)], [("f", ⟨.index 1, none⟩)]]) } = none ∧
    built (fun _ => (10, 10)) { testArgs with groups := .array [0, 1] } = none ∧
    built (fun _ => (10, 10)) { testArgs with groups := .ints [0, 1] } = some ([[7], [8], [7, 8]], [[0, 1]]) := by
  decide +kernel

example : (match buildCameras (fun _ => (10, 10)) testArgs with
    | .ok b => (List.range b.layout.total).all fun c =>
        (List.range 8).any fun r => b.layout.sparsity (b.controlsIdx [1, 2, 1]) r c
    | .error _ => false) = true := by decide +kernel

/-- C98 (violated, overlaps): groups `[1]` and `[-1]` of two cameras are the same camera; they are accepted with the same
parameter, and the values of the parameters of the first group have no effect. -/
theorem cameras_overlap_negative_violated :
    (match buildCameras (fun _ => (10, 10)) { testArgs with
        groups := .lists [[1], [-1]], groupParams := some (.many [[("f", ⟨.all, none⟩)], [("f", ⟨.all, none⟩)]]) } with
      | .error _ => false
      | .ok b => decide (b.layout.groups = [[1], [1]]) && (List.range 2).all fun c => (List.range 20).all fun p =>
          decide ((b.layout.setCameras [1, 2, 3, 4, 5, 6, 7, 8, 9, 10] fun _ _ => (0 : ℤ)) c p =
            (b.layout.setCameras [-1, -2, 3, 4, 5, 6, 7, 8, 9, 10] fun _ _ => (0 : ℤ)) c p)) = true := by
  decide +kernel

/-- C98 (violated, cameras without control): a group of the last camera, counted from the end, is accepted although that
camera is in no control; its parameters affect no observation. -/
theorem cameras_uncontrolled_negative_violated :
    (match buildCameras (fun _ => (10, 10)) ⟨.many [7, 8], .one [7], none, .one (-1), some (.one [("f", ⟨.all, none⟩)])⟩ with
      | .error _ => false
      | .ok b => decide (b.layout.total = 2) && (List.range 6).all fun r => (List.range 2).all fun c =>
          !b.layout.sparsity (b.controlsIdx [3]) r c) = true ∧
    built (fun _ => (10, 10)) ⟨.many [7, 8], .one [7], none, .one 1, some (.one [("f", ⟨.all, none⟩)])⟩ = none := by
  decide +kernel

/-- C98 (groups): one camera is a group of its own, a list of cameras is one group, lists of cameras are groups as given,
and by default all cameras form one group. An empty argument is an IndexError, and an array of cameras a TypeError. -/
theorem group_args (imgsz : Nat → ℚ × ℚ) (a : BuildArgs) :
    (∀ b, buildCameras imgsz a = .ok b → (∀ i, a.groups = .one i → b.groups = [[i]]) ∧
      (∀ l, a.groups = .ints l → l ≠ [] ∧ b.groups = [l]) ∧ (∀ l, a.groups = .lists l → l ≠ [] ∧ b.groups = l) ∧
      (a.groups = .missing → ∃ g, b.groups = [g] ∧ g.length = a.cams.toList.length ∧
        ∀ (k : Nat), k < a.cams.toList.length → g[k]? = some (k : ℤ)) ∧ (∀ l, a.groups ≠ .array l)) ∧
    (a.groups = .ints [] ∨ a.groups = .lists [] ∨ a.groups = .array [] → buildCameras imgsz a = .error .indexError) ∧
    (∀ l, l ≠ [] → a.groups = .array l → buildCameras imgsz a = .error .typeError) := by
  refine ⟨?_, ?_, ?_⟩
  · intro b hb
    have hg := (cameras_built imgsz a b hb).2.2.1
    refine ⟨?_, ?_, ?_, ?_, ?_⟩
    · intro i hi
      rw [hi] at hg
      exact (Except.ok.inj hg).symm
    · intro l hl
      rw [hl] at hg
      cases l with
      | nil => exact absurd hg (by simp [asGroups])
      | cons x l => exact ⟨by simp, (Except.ok.inj hg).symm⟩
    · intro l hl
      rw [hl] at hg
      cases l with
      | nil => exact absurd hg (by simp [asGroups])
      | cons x l => exact ⟨by simp, (Except.ok.inj hg).symm⟩
    · intro hm
      rw [hm] at hg
      refine ⟨_, (Except.ok.inj hg).symm, by simp, ?_⟩
      intro k hk
      simp [hk]
    · intro l hl
      rw [hl] at hg
      cases l <;> exact absurd hg (by simp [asGroups])
  · intro h
    unfold buildCameras
    rcases h with h | h | h <;> rw [h] <;> rfl
  · intro l hl h
    unfold buildCameras
    rw [h]
    cases l with
    | nil => exact absurd rfl hl
    | cons x l => rfl

end Glimpse.Cams
