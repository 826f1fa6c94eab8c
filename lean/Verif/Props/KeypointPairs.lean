import Verif.Model.Keypoints
import Mathlib.Tactic.Linarith
import Mathlib.Data.List.Nodup
import Mathlib.Data.List.GetD
import Mathlib.Algebra.BigOperators.Group.List.Basic

/-!
C50: `build_matches` matches the documented pairs. C49: dropping images. C63: match files. C64: counts and breaks.
-/
set_option autoImplicit false
set_option linter.unusedSimpArgs false

namespace Glimpse.Kp

/-! ### Pairs -/

private theorem uniq_mem (l : List Nat) (x : Nat) : x ∈ uniq l ↔ x ∈ l := by
  unfold uniq; rw [List.mem_insertionSort, List.mem_dedup]

private theorem uniq_sorted (l : List Nat) : (uniq l).Pairwise (· < ·) := by
  have h1 : (uniq l).Pairwise (· ≤ ·) := List.pairwise_insertionSort _ _
  have h2 : (uniq l).Nodup := (List.perm_insertionSort _ _).nodup_iff.2 (List.nodup_dedup l)
  exact (h1.and h2).imp fun h => lt_of_le_of_ne h.1 h.2

private theorem mem_takeWhile_sorted {α : Type} [LinearOrder α] (l : List α) (p : α → Bool) (hl : l.Pairwise (· ≤ ·))
    (hp : ∀ x y, x ≤ y → p y = true → p x = true) (x : α) : x ∈ l.takeWhile p ↔ x ∈ l ∧ p x = true := by
  induction l with
  | nil => simp
  | cons a l ih =>
    obtain ⟨h1, h2⟩ := List.pairwise_cons.1 hl
    by_cases ha : p a = true
    · rw [List.takeWhile_cons_of_pos ha, List.mem_cons, List.mem_cons, ih h2]
      constructor
      · rintro (rfl | ⟨h3, h4⟩)
        · exact ⟨Or.inl rfl, ha⟩
        · exact ⟨Or.inr h3, h4⟩
      · rintro ⟨rfl | h3, h4⟩
        · exact Or.inl rfl
        · exact Or.inr ⟨h3, h4⟩
    · rw [List.takeWhile_cons_of_neg ha]
      constructor
      · intro h; cases h
      · rintro ⟨h3, h4⟩
        exfalso
        rcases List.mem_cons.1 h3 with rfl | h3
        · exact ha h4
        · exact ha (hp a x (h1 x h3) h4)

private theorem searchRight_iff (ts : List ℤ) (hs : ts.Pairwise (· ≤ ·)) (t : ℤ) (j : Nat) :
    j < searchRightZ ts t ↔ j < ts.length ∧ ts.getD j 0 ≤ t := by
  unfold searchRightZ
  induction ts generalizing j with
  | nil => simp
  | cons a ts ih =>
    obtain ⟨h1, h2⟩ := List.pairwise_cons.1 hs
    by_cases ha : a ≤ t
    · rw [List.takeWhile_cons_of_pos (by simpa using ha)]
      cases j with
      | zero => simp [ha]
      | succ j =>
        have := ih h2 j
        simp only [List.length_cons, List.getD_cons_succ, Nat.add_lt_add_iff_right]
        exact this
    · rw [List.takeWhile_cons_of_neg (by simpa using ha)]
      simp only [List.length_nil, Nat.not_lt_zero, false_iff, not_and, not_le]
      intro hj
      cases j with
      | zero => simpa using ha
      | succ j =>
        have hj' : j < ts.length := by simpa using hj
        rw [List.getD_cons_succ, List.getD_eq_getElem _ _ hj']
        have := h1 _ (List.getElem_mem hj')
        omega

private theorem mem_range_drop (n k j : Nat) : j ∈ (List.range n).drop k ↔ k ≤ j ∧ j < n := by
  rw [List.mem_drop_iff_getElem]
  constructor
  · rintro ⟨i, hi, h⟩
    simp at h hi
    omega
  · rintro ⟨h1, h2⟩
    refine ⟨j - k, by simp; omega, ?_⟩
    simp; omega

private theorem seqOf_mem (n : Nat) (seq : List ℤ) (i j : Nat) :
    j ∈ seqOf n seq i ↔ j < n ∧ i < j ∧ (j : ℤ) - (i : ℤ) ∈ seq := by
  unfold seqOf
  rw [mem_takeWhile_sorted]
  · simp only [List.mem_map, uniq_mem, List.mem_filter, decide_eq_true_eq]
    constructor
    · rintro ⟨⟨k, ⟨z, ⟨hz, h0⟩, rfl⟩, rfl⟩, hj⟩
      refine ⟨hj, by omega, ?_⟩
      have : (((z.toNat + i : Nat)) : ℤ) - (i : ℤ) = z := by push_cast; omega
      rw [this]; exact hz
    · rintro ⟨hj, hij, hm⟩
      exact ⟨⟨j - i, ⟨(j : ℤ) - i, ⟨hm, by omega⟩, by omega⟩, by omega⟩, hj⟩
  · rw [List.pairwise_map]
    exact (uniq_sorted _).imp fun h => by omega
  · intro x y hxy hy
    simp only [decide_eq_true_eq] at hy ⊢
    omega

/-- The documented pairs, before the selection by `imgs`. -/
def Documented (ts : List ℤ) (maxdt : Option ℤ) (seq : Option (List ℤ)) (i j : Nat) : Prop :=
  i < j ∧ j < ts.length ∧
    ((maxdt = none ∧ seq = none) ∨
     (∃ dt, maxdt = some dt ∧ ts.getD j 0 - ts.getD i 0 ≤ dt) ∨
     (∃ s, seq = some s ∧ (j : ℤ) - (i : ℤ) ∈ s))

private theorem matchTimes_mem (ts : List ℤ) (hs : ts.Pairwise (· ≤ ·)) (maxdt : Option ℤ) (seq : Option (List ℤ))
    (i j : Nat) :
    j ∈ matchTimes ts maxdt seq i ↔ i < j ∧ j < ts.length ∧
      ((maxdt = none ∧ seq = none) ∨ (∃ dt, maxdt = some dt ∧ ts.getD j 0 - ts.getD i 0 ≤ dt)) := by
  unfold matchTimes
  cases maxdt with
  | none =>
    cases seq with
    | none => simp [mem_range_drop]; omega
    | some s => simp
  | some dt =>
    simp only [mem_range_drop, searchRight_iff ts hs]
    constructor
    · rintro ⟨h1, h2, h3⟩
      exact ⟨by omega, h2, Or.inr ⟨dt, rfl, by omega⟩⟩
    · rintro ⟨h1, h2, ⟨h, _⟩ | ⟨dt', h, h3⟩⟩
      · cases h
      · cases h
        exact ⟨by omega, h2, by omega⟩

private theorem range_drop_sorted (n k : Nat) : ((List.range n).drop k).Pairwise (· < ·) :=
  List.pairwise_lt_range.sublist (List.drop_sublist _ _)

private theorem matchBefore_spec (ts : List ℤ) (hs : ts.Pairwise (· ≤ ·)) (maxdt : Option ℤ) (seq : Option (List ℤ))
    (i : Nat) : (matchBefore ts maxdt seq i).Pairwise (· < ·) ∧
      ∀ j, j ∈ matchBefore ts maxdt seq i ↔ Documented ts maxdt seq i j := by
  cases seq with
  | none =>
    refine ⟨?_, ?_⟩
    · unfold matchBefore matchTimes
      cases maxdt <;> exact range_drop_sorted _ _
    · intro j
      unfold matchBefore Documented
      rw [matchTimes_mem ts hs]
      simp
  | some s =>
    refine ⟨uniq_sorted _, ?_⟩
    intro j
    unfold matchBefore Documented
    rw [uniq_mem, List.mem_append, matchTimes_mem ts hs, seqOf_mem]
    constructor
    · rintro (⟨h1, h2, h3 | h3⟩ | ⟨h1, h2, h3⟩)
      · exact ⟨h1, h2, Or.inl h3⟩
      · exact ⟨h1, h2, Or.inr (Or.inl h3)⟩
      · exact ⟨h2, h1, Or.inr (Or.inr ⟨s, rfl, h3⟩)⟩
    · rintro ⟨h1, h2, h3 | h3 | ⟨s', h4, h3⟩⟩
      · exact Or.inl ⟨h1, h2, Or.inl h3⟩
      · exact Or.inl ⟨h1, h2, Or.inr h3⟩
      · cases h4
        exact Or.inr ⟨h2, h1, h3⟩

/-- C50, without `imgs`: for images in temporal order, image `i` is matched exactly to the documented images, each once
and in order. -/
theorem match_pairs_exact (ts : List ℤ) (hs : ts.Pairwise (· ≤ ·)) (maxdt : Option ℤ) (seq : Option (List ℤ)) (i : Nat) :
    (matching ts maxdt seq none i).Pairwise (· < ·) ∧
      ∀ j, j ∈ matching ts maxdt seq none i ↔ Documented ts maxdt seq i j := matchBefore_spec ts hs maxdt seq i

/-- C50, with `imgs`: the pairs matched are the documented ones whose *second* image is in `imgs`. -/
theorem match_pairs_imgs_partial (ts : List ℤ) (hs : ts.Pairwise (· ≤ ·)) (maxdt : Option ℤ) (seq : Option (List ℤ))
    (imgs : List Nat) (i j : Nat) :
    j ∈ matching ts maxdt seq (some imgs) i ↔ Documented ts maxdt seq i j ∧ j ∈ imgs := by
  unfold matching
  rw [List.mem_filter, (matchBefore_spec ts hs maxdt seq i).2, decide_eq_true_eq]

/-- C50 is false of a documented pair whose first image only is in `imgs`: it is not matched. -/
theorem match_pairs_imgs_violated (ts : List ℤ) (hs : ts.Pairwise (· ≤ ·)) (maxdt : Option ℤ) (seq : Option (List ℤ))
    (imgs : List Nat) (i j : Nat) (hj : j ∉ imgs) : j ∉ matching ts maxdt seq (some imgs) i := by
  rw [match_pairs_imgs_partial ts hs]
  exact fun h => hj h.2

/-- Every pair matched has its own place in the matrix: the element at a place is the match computed for the image of
that row and column, and each pair occurs once. -/
theorem match_matrix_aligned {M : Type} (n : Nat) (js : Nat → List Nat) (compute : Nat → Nat → M) :
    let c := buildCoo n js fun i => (js i).map (compute i)
    c.row.length = c.data.length ∧ c.col.length = c.data.length ∧
    (∀ k i j : Nat, c.row[k]? = some i → c.col[k]? = some j → c.data[k]? = some (compute i j)) ∧
    (∀ i j, (i, j) ∈ c.row.zip c.col ↔ i < n ∧ j ∈ js i) := by
  have hz : ∀ l : List Nat,
      (l.flatMap fun i => List.replicate (js i).length i).zip (l.flatMap js) =
        l.flatMap fun i => (js i).map fun j => (i, j) := by
    intro l
    induction l with
    | nil => rfl
    | cons a l ih =>
      rw [List.flatMap_cons, List.flatMap_cons, List.flatMap_cons, List.zip_append (by simp), ih]
      congr 1
      generalize js a = m
      induction m with
      | nil => rfl
      | cons b m ihm => simp [List.replicate_succ, ihm]
  have hd : ∀ l : List Nat, (l.flatMap fun i => (js i).map (compute i)) =
      (l.flatMap fun i => (js i).map fun j => (i, j)).map fun p => compute p.1 p.2 := by
    intro l
    rw [List.map_flatMap]
    congr 1
    funext i
    rw [List.map_map]
    rfl
  intro c
  have h1 : c.row.length = c.data.length := by simp [c, buildCoo, List.length_flatMap]
  have h2 : c.col.length = c.data.length := by simp [c, buildCoo, List.length_flatMap]
  refine ⟨h1, h2, ?_, ?_⟩
  · intro k i j hi hj
    have : (c.row.zip c.col)[k]? = some (i, j) := List.getElem?_zip_eq_some.2 ⟨hi, hj⟩
    have e : c.data = (c.row.zip c.col).map fun p => compute p.1 p.2 := by
      simp only [c, buildCoo]
      rw [hz, hd]
    rw [e, List.getElem?_map, this]
    rfl
  · intro i j
    simp only [c, buildCoo]
    rw [hz]
    simp [List.mem_flatMap]

/-- The shape is the smallest one that has room for all the entries; without entries it is a `ValueError`. -/
theorem match_matrix_shape (row col : List Nat) :
    (∀ sh, inferShape row col = .ok sh → (∀ i ∈ row, i < sh.1) ∧ (∀ j ∈ col, j < sh.2) ∧ sh.1 - 1 ∈ row ∧ sh.2 - 1 ∈ col) ∧
    (row = [] ∨ col = [] → inferShape row col = .error .valueError) := by
  unfold inferShape
  refine ⟨fun sh h => ?_, ?_⟩
  · split at h
    · rename_i r c hr hc
      cases h
      exact ⟨fun i hi => Nat.lt_succ_of_le ((List.max?_eq_some_iff.1 hr).2 i hi), fun j hj => Nat.lt_succ_of_le ((List.max?_eq_some_iff.1 hc).2 j hj),
        List.max?_mem hr, List.max?_mem hc⟩
    · cases h
  · rintro (rfl | rfl)
    · rfl
    · cases row.max? <;> rfl

/-- The matrix is documented as (n, n), but has never `n` rows: its shape is inferred from the greatest row. -/
theorem match_matrix_shape_violated (ts : List ℤ) (hs : ts.Pairwise (· ≤ ·)) (maxdt : Option ℤ) (seq : Option (List ℤ))
    (imgs : Option (List Nat)) (sh : Nat × Nat)
    (h : inferShape ((List.range ts.length).flatMap fun i => List.replicate (matching ts maxdt seq imgs i).length i)
      ((List.range ts.length).flatMap (matching ts maxdt seq imgs)) = .ok sh) : sh.1 < ts.length := by
  unfold inferShape at h
  split at h
  · rename_i r c hr hc
    cases h
    have hm := List.max?_mem hr
    obtain ⟨i, hi, hrep⟩ := List.mem_flatMap.1 hm
    obtain ⟨hne, rfl⟩ := List.mem_replicate.1 hrep
    obtain ⟨j, hj⟩ : ∃ j, j ∈ matching ts maxdt seq imgs r := by
      cases hl : matching ts maxdt seq imgs r with
      | nil => rw [hl] at hne; exact absurd rfl hne
      | cons j l => exact ⟨j, List.mem_cons_self⟩
    have hjb : j ∈ matchBefore ts maxdt seq r := by
      unfold matching at hj
      cases imgs with
      | none => exact hj
      | some l => exact (List.mem_filter.1 hj).1
    have := ((matchBefore_spec ts hs maxdt seq r).2 j).1 hjb
    have h1 := this.1
    have h2 := this.2.1
    show r + 1 < ts.length
    omega
  · cases h

example : matching [0, 10, 20, 100] (some 15) (some [3, -1, 3]) none 0 = [1, 3] := by decide +kernel
example : matching [0, 10, 20, 100] none none (some [0]) 0 = [] := by decide +kernel
example : Documented [0, 10, 20, 100] none none 0 1 := by
  refine ⟨by decide, by decide, Or.inl ⟨rfl, rfl⟩⟩

/-! ### Match files (C63) -/

/-- Names without a hyphen give different files to different pairs. -/
theorem match_file_injective_partial (a b c d : List Char) (ha : '-' ∉ a) (hc : '-' ∉ c)
    (h : matchFile a b = matchFile c d) : a = c ∧ b = d := by
  have h' : a ++ '-' :: b = c ++ '-' :: d := by
    have : (a ++ '-' :: b) ++ ['.', 'p', 'k', 'l'] = (c ++ '-' :: d) ++ ['.', 'p', 'k', 'l'] := by
      simpa [matchFile] using h
    exact List.append_cancel_right this
  induction a generalizing c with
  | nil =>
    cases c with
    | nil => simpa using h'
    | cons x c =>
      simp at h'
      exact absurd (h'.1 ▸ List.mem_cons_self) hc
  | cons x a ih =>
    cases c with
    | nil =>
      simp at h'
      exact absurd (h'.1 ▸ List.mem_cons_self) ha
    | cons y c =>
      simp at h'
      obtain ⟨rfl, h2⟩ := h'
      obtain ⟨e1, e2⟩ := ih c (fun h => ha (List.mem_cons_of_mem _ h)) (fun h => hc (List.mem_cons_of_mem _ h))
        (by simpa [matchFile] using congrArg (· ++ ['.', 'p', 'k', 'l']) h2) h2
      exact ⟨by rw [e1], e2⟩

/-- So do first names of equal length. -/
theorem match_file_injective_length_partial (a b c d : List Char) (hl : a.length = c.length)
    (h : matchFile a b = matchFile c d) : a = c ∧ b = d := by
  have h' : a ++ ('-' :: b) = c ++ ('-' :: d) := by
    have : (a ++ '-' :: b) ++ ['.', 'p', 'k', 'l'] = (c ++ '-' :: d) ++ ['.', 'p', 'k', 'l'] := by
      simpa [matchFile] using h
    exact List.append_cancel_right this
  obtain ⟨h1, h2⟩ := List.append_inj h' hl
  exact ⟨h1, by simpa using h2⟩

/-- In general two different pairs can share a file: ("a-b", "c") and ("a", "b-c"), for all names `a`, `b`, `c`. -/
theorem match_file_collision_violated (a b c : List Char) :
    matchFile (a ++ '-' :: b) c = matchFile a (b ++ '-' :: c) := by
  simp [matchFile]

/-- With distinct file names and `overwrite`, or no files before, each pair gets its own match, and its file holds it. -/
theorem match_files_distinct_partial {M : Type} (name : Nat × Nat → List Char) (compute : Nat × Nat → M)
    (overwrite : Bool) (pairs : List (Nat × Nat)) (hnd : pairs.Nodup)
    (hinj : ∀ p ∈ pairs, ∀ q ∈ pairs, name p = name q → p = q) (fs : List Char → Option M)
    (hfs : overwrite = true ∨ ∀ p ∈ pairs, fs (name p) = none) :
    (processPairs name compute overwrite pairs fs).1 = pairs.map compute ∧
    ∀ p ∈ pairs, (processPairs name compute overwrite pairs fs).2 (name p) = some (compute p) := by
  have keep : ∀ (ps : List (Nat × Nat)) (fs : List Char → Option M) (nm : List Char), (∀ p ∈ ps, name p ≠ nm) →
      (processPairs name compute overwrite ps fs).2 nm = fs nm := by
    intro ps
    induction ps with
    | nil => intro fs nm _; rfl
    | cons p ps ih =>
      intro fs nm h
      have := ih (fun nm => if nm = name p then (processPair (compute p) (fs (name p)) overwrite).2.1 else fs nm) nm
        (fun q hq => h q (List.mem_cons_of_mem _ hq))
      have hne : nm ≠ name p := fun e => h p List.mem_cons_self e.symm
      simp only [processPairs]
      rw [this, if_neg hne]
  induction pairs generalizing fs with
  | nil => exact ⟨rfl, fun p hp => by cases hp⟩
  | cons p ps ih =>
    obtain ⟨hp, hnd'⟩ := List.nodup_cons.1 hnd
    have hr : processPair (compute p) (fs (name p)) overwrite = (compute p, some (compute p), true) := by
      unfold processPair
      rcases hfs with h | h
      · rw [h]; cases fs (name p) <;> rfl
      · rw [h p List.mem_cons_self]
    have hne : ∀ q ∈ ps, name q ≠ name p := fun q hq e =>
      hp (hinj q (List.mem_cons_of_mem _ hq) p List.mem_cons_self e ▸ hq)
    obtain ⟨a1, a2⟩ := ih hnd' (fun q hq r hr' => hinj q (List.mem_cons_of_mem _ hq) r (List.mem_cons_of_mem _ hr'))
      (fun nm => if nm = name p then some (compute p) else fs nm) (by
        rcases hfs with h | h
        · exact Or.inl h
        · refine Or.inr fun q hq => ?_
          rw [if_neg (hne q hq)]
          exact h q (List.mem_cons_of_mem _ hq))
    simp only [processPairs, hr, List.map_cons]
    refine ⟨by rw [a1], ?_⟩
    intro q hq
    rcases List.mem_cons.1 hq with rfl | hq
    · rw [keep ps _ _ hne, if_pos rfl]
    · exact a2 q hq

/-- A second run without `overwrite` computes nothing and gives the matches of the first. -/
theorem match_files_resume {M : Type} (name : Nat × Nat → List Char) (compute : Nat × Nat → M)
    (pairs : List (Nat × Nat)) (fs : List Char → Option M) (stored : Nat × Nat → M)
    (hfs : ∀ p ∈ pairs, fs (name p) = some (stored p)) :
    processPairs name compute false pairs fs = (pairs.map stored, fs) := by
  induction pairs generalizing fs with
  | nil => rfl
  | cons p ps ih =>
    have h1 := hfs p List.mem_cons_self
    have he : (fun nm => if nm = name p then some (stored p) else fs nm) = fs := by
      funext nm
      split
      · rename_i h; rw [h, h1]
      · rfl
    simp only [processPairs, h1, processPair, he, List.map_cons]
    rw [ih fs fun q hq => hfs q (List.mem_cons_of_mem _ hq)]

/-- When two pairs share a file, without files before, the second pair gets the match of the first. -/
theorem match_files_shared_violated {M : Type} (name : Nat × Nat → List Char) (compute : Nat × Nat → M)
    (p q : Nat × Nat) (h : name p = name q) (fs : List Char → Option M) (hfs : fs (name p) = none) :
    (processPairs name compute false [p, q] fs).1 = [compute p, compute p] := by
  have e1 : processPair (compute p) (fs (name p)) false = (compute p, some (compute p), true) := by
    rw [hfs]; rfl
  simp [processPairs, e1, h]
  rw [← h, e1]
  exact ⟨rfl, rfl⟩

/-! ### Dropping images (C49) -/

private theorem uniq_of_subset (l keep : List Nat) (hk : keep.Pairwise (· < ·)) (h : ∀ x ∈ l, x ∈ keep) :
    uniq (l ++ keep) = keep := by
  have h1 := uniq_sorted (l ++ keep)
  have hp : (uniq (l ++ keep)).Perm keep :=
    (List.perm_ext_iff_of_nodup (h1.imp fun h => ne_of_lt h) (hk.imp fun h => ne_of_lt h)).2 (by
      intro x
      rw [uniq_mem, List.mem_append]
      exact ⟨fun hx => hx.elim (h x) id, Or.inr⟩)
  exact hp.eq_of_pairwise (fun a b _ _ h1 h2 => by omega) h1 hk

private theorem renumber_eq (l keep : List Nat) (hk : keep.Pairwise (· < ·)) (h : ∀ x ∈ l, x ∈ keep) :
    renumber l keep = l.map fun x => keep.idxOf x := by
  unfold renumber
  rw [uniq_of_subset l keep hk h]
  simp only
  split
  · rename_i h0
    have : keep = [] := List.eq_nil_of_length_eq_zero h0
    subst this
    cases l with
    | nil => rfl
    | cons x l => exact absurd (h x List.mem_cons_self) (by simp)
  · rw [List.map_append, List.length_append, List.length_map, List.length_map, Nat.add_sub_cancel,
      List.take_left' (by simp)]

/-- The images kept, in order, at the kept indices. -/
private theorem delete_get {Img : Type} (images : List Img) (keep : List Nat) (hk : keep.Pairwise (· < ·))
    (h : ∀ x ∈ keep, x < images.length) :
    (deleteImages images keep).map some = keep.map fun x => images[x]? := by
  unfold deleteImages
  have e1 : (images.zipIdx.filter fun x => decide (x.2 ∈ keep)).map (fun x => x.2) = keep := by
    have hs : ((images.zipIdx.filter fun x => decide (x.2 ∈ keep)).map (fun x => x.2)).Pairwise (· < ·) := by
      have : (images.zipIdx.map fun x => x.2).Pairwise (· < ·) := by
        rw [List.zipIdx_map_snd]
        exact List.pairwise_lt_range'
      exact this.sublist (List.filter_sublist.map _)
    have hp : ((images.zipIdx.filter fun x => decide (x.2 ∈ keep)).map (fun x => x.2)).Perm keep :=
      (List.perm_ext_iff_of_nodup (hs.imp fun h => ne_of_lt h) (hk.imp fun h => ne_of_lt h)).2 (by
        intro x
        simp only [List.mem_map, List.mem_filter, decide_eq_true_eq]
        constructor
        · rintro ⟨y, ⟨_, h2⟩, rfl⟩; exact h2
        · intro hx
          refine ⟨(images[x]'(h x hx), x), ⟨?_, hx⟩, rfl⟩
          rw [List.mem_iff_getElem?]
          exact ⟨x, by simp [h x hx]⟩)
    exact hp.eq_of_pairwise (fun a b _ _ h1 h2 => by omega) hs hk
  have e2 : keep.map (fun x => images[x]?) =
      (images.zipIdx.filter fun x => decide (x.2 ∈ keep)).map fun x => images[x.2]? := by
    conv_lhs => rw [← e1]
    rw [List.map_map]
    rfl
  rw [e2, List.map_map]
  refine List.map_congr_left ?_
  rintro ⟨x, k⟩ hx
  have hx' := (List.mem_filter.1 hx).1
  simp only [Function.comp_apply]
  obtain ⟨_, h2⟩ := List.mem_zipIdx' hx'
  rw [h2]
  simp

/-- The state of a matcher: every match refers to images it has. -/
def Matcher.Ok {M Img K : Type} (s : Matcher M Img K) : Prop :=
  ∀ m ∈ s.matches_, m.1 < s.images.length ∧ m.2.1 < s.images.length

/-- What a match says: the two images and the data. -/
def sees {M Img K : Type} (s : Matcher M Img K) (m : Nat × Nat × M) : Option Img × Option Img × M :=
  (s.images[m.1]?, s.images[m.2.1]?, m.2.2)

/-- C49. After `drop_images`: the matches are, in order, exactly the previous ones that involve none of the dropped
images, each still between the same two images; the images are exactly those that have one of these matches, in their
previous order; every match refers to images that exist and every image has a match. -/
theorem drop_images_spec {M Img K : Type} (s : Matcher M Img K) (hok : s.Ok) (imgs : List Nat) :
    (dropImages s imgs).matches_.map (sees (dropImages s imgs)) =
      (s.matches_.filter fun m => decide (m.1 ∉ imgs) && decide (m.2.1 ∉ imgs)).map (sees s) ∧
    (∃ keep : List Nat, keep.Pairwise (· < ·) ∧
      (∀ x, x ∈ keep ↔ ∃ m ∈ s.matches_, m.1 ∉ imgs ∧ m.2.1 ∉ imgs ∧ (x = m.1 ∨ x = m.2.1)) ∧
      (dropImages s imgs).images.map some = keep.map fun x => s.images[x]?) ∧
    (dropImages s imgs).Ok ∧
    (∀ i, i < (dropImages s imgs).images.length → ∃ m ∈ (dropImages s imgs).matches_, m.1 = i ∨ m.2.1 = i) := by
  set ms := without imgs s.matches_ with hms
  set keep := keepOf ms with hkeep
  have hk : keep.Pairwise (· < ·) := uniq_sorted _
  have hkm : ∀ x, x ∈ keep ↔ ∃ m ∈ ms, x = m.1 ∨ x = m.2.1 := by
    intro x
    rw [hkeep]
    unfold keepOf
    rw [uniq_mem, List.mem_append, List.mem_map, List.mem_map]
    constructor
    · rintro (⟨m, h1, rfl⟩ | ⟨m, h1, rfl⟩)
      · exact ⟨m, h1, Or.inl rfl⟩
      · exact ⟨m, h1, Or.inr rfl⟩
    · rintro ⟨m, h1, rfl | rfl⟩
      · exact Or.inl ⟨m, h1, rfl⟩
      · exact Or.inr ⟨m, h1, rfl⟩
  have hmem : ∀ m, m ∈ ms ↔ m ∈ s.matches_ ∧ m.1 ∉ imgs ∧ m.2.1 ∉ imgs := by
    intro m
    rw [hms]
    unfold without
    rw [List.mem_filter, Bool.and_eq_true, decide_eq_true_eq, decide_eq_true_eq]
  have hlt : ∀ x ∈ keep, x < s.images.length := by
    intro x hx
    obtain ⟨m, h1, h2⟩ := (hkm x).1 hx
    have := hok m ((hmem m).1 h1).1
    rcases h2 with rfl | rfl
    · exact this.1
    · exact this.2
  have hr1 : renumber (ms.map fun m => m.1) keep = (ms.map fun m => m.1).map fun x => keep.idxOf x := by
    refine renumber_eq _ _ hk ?_
    intro x hx
    obtain ⟨m, h1, rfl⟩ := List.mem_map.1 hx
    exact (hkm _).2 ⟨m, h1, Or.inl rfl⟩
  have hr2 : renumber (ms.map fun m => m.2.1) keep = (ms.map fun m => m.2.1).map fun x => keep.idxOf x := by
    refine renumber_eq _ _ hk ?_
    intro x hx
    obtain ⟨m, h1, rfl⟩ := List.mem_map.1 hx
    exact (hkm _).2 ⟨m, h1, Or.inr rfl⟩
  have himg : (dropImages s imgs).images = deleteImages s.images keep := rfl
  have hdel := delete_get s.images keep hk hlt
  have hmatch : (dropImages s imgs).matches_ = ms.map fun m => (keep.idxOf m.1, keep.idxOf m.2.1, m.2.2) := by
    show (renumber (ms.map fun m => m.1) keep).zip ((renumber (ms.map fun m => m.2.1) keep).zip (ms.map fun m => m.2.2)) = _
    rw [hr1, hr2, List.map_map, List.map_map, List.zip_map', List.zip_map']
    rfl
  have hget : ∀ x ∈ keep, (deleteImages s.images keep)[keep.idxOf x]? = s.images[x]? := by
    intro x hx
    have h1 : ((deleteImages s.images keep).map some)[keep.idxOf x]? = (keep.map fun x => s.images[x]?)[keep.idxOf x]? := by
      rw [hdel]
    rw [List.getElem?_map, List.getElem?_map, List.getElem?_idxOf hx] at h1
    simp only [Option.map_some] at h1
    rw [List.getElem?_eq_getElem (hlt x hx)] at h1 ⊢
    cases h2 : (deleteImages s.images keep)[keep.idxOf x]? with
    | none => rw [h2] at h1; cases h1
    | some y => rw [h2] at h1; simpa using h1
  have hlen : (deleteImages s.images keep).length = keep.length := by
    have := congrArg List.length hdel
    simpa using this
  refine ⟨?_, ⟨keep, hk, ?_, ?_⟩, ?_, ?_⟩
  · rw [hmatch, List.map_map]
    show _ = ms.map (sees s)
    refine List.map_congr_left ?_
    intro m hm
    simp only [Function.comp_apply, sees, himg]
    rw [hget m.1 ((hkm _).2 ⟨m, hm, Or.inl rfl⟩), hget m.2.1 ((hkm _).2 ⟨m, hm, Or.inr rfl⟩)]
  · intro x
    rw [hkm]
    constructor
    · rintro ⟨m, h1, h2⟩
      obtain ⟨a, b, c⟩ := (hmem m).1 h1
      exact ⟨m, a, b, c, h2⟩
    · rintro ⟨m, a, b, c, h2⟩
      exact ⟨m, (hmem m).2 ⟨a, b, c⟩, h2⟩
  · rw [himg]; exact hdel
  · intro m hm
    rw [hmatch] at hm
    obtain ⟨m', h1, rfl⟩ := List.mem_map.1 hm
    rw [himg, hlen]
    exact ⟨List.idxOf_lt_length_of_mem ((hkm _).2 ⟨m', h1, Or.inl rfl⟩),
      List.idxOf_lt_length_of_mem ((hkm _).2 ⟨m', h1, Or.inr rfl⟩)⟩
  · intro i hi
    rw [himg, hlen] at hi
    obtain ⟨m, h1, h2⟩ := (hkm keep[i]).1 (List.getElem_mem hi)
    refine ⟨(keep.idxOf m.1, keep.idxOf m.2.1, m.2.2), by rw [hmatch]; exact List.mem_map.2 ⟨m, h1, rfl⟩, ?_⟩
    have hnd : keep.Nodup := hk.imp fun h => ne_of_lt h
    rcases h2 with h2 | h2
    · left; show keep.idxOf m.1 = i; rw [← h2]; exact hnd.idxOf_getElem i hi
    · right; show keep.idxOf m.2.1 = i; rw [← h2]; exact hnd.idxOf_getElem i hi

/-- The keypoints are left as they are, so that they no longer belong to the images: when image 0 is dropped and another
remains, the first image is another one than before, but the first keypoints are still those of image 0. -/
theorem drop_images_keypoints_violated {M Img K : Type} (s : Matcher M Img K) (hok : s.Ok) (imgs : List Nat)
    (h0 : 0 ∈ imgs) (hne : ∃ m ∈ s.matches_, m.1 ∉ imgs ∧ m.2.1 ∉ imgs) :
    (∃ x, 0 < x ∧ x < s.images.length ∧ (dropImages s imgs).images[0]? = s.images[x]?) ∧
    (dropImages s imgs).keypoints = s.keypoints := by
  refine ⟨?_, rfl⟩
  obtain ⟨_, ⟨keep, hk, hkm, himg⟩, _, _⟩ := drop_images_spec s hok imgs
  obtain ⟨m, hm, h1, h2⟩ := hne
  have hx : m.1 ∈ keep := (hkm _).2 ⟨m, hm, h1, h2, Or.inl rfl⟩
  cases keep with
  | nil => cases hx
  | cons x keep =>
    obtain ⟨m', hm', g1, g2, g3⟩ := (hkm x).1 List.mem_cons_self
    have hxlt : x < s.images.length := by
      rcases g3 with rfl | rfl
      · exact (hok m' hm').1
      · exact (hok m' hm').2
    refine ⟨x, ?_, hxlt, ?_⟩
    · rcases g3 with rfl | rfl
      · by_contra hc
        exact g1 (by rw [show m'.1 = 0 by omega]; exact h0)
      · by_contra hc
        exact g2 (by rw [show m'.2.1 = 0 by omega]; exact h0)
    · have e := congrArg (fun l => l[0]?) himg
      simp only [List.getElem?_map, List.map_cons, List.getElem?_cons_zero] at e
      rw [List.getElem?_eq_getElem hxlt] at e ⊢
      cases h3 : (dropImages s imgs).images[0]? with
      | none => rw [h3] at e; cases e
      | some y => rw [h3] at e; simpa using e

def demoMatcher : Matcher String Char Nat := ⟨['a', 'b', 'c', 'd'], none, [(0, 1, "ab"), (1, 3, "bd"), (0, 2, "ac")]⟩
example : demoMatcher.Ok := by unfold Matcher.Ok; decide
example : (dropImages demoMatcher [0]).images = ['b', 'd'] ∧ (dropImages demoMatcher [0]).matches_ = [(0, 1, "bd")] := by
  decide +kernel

/-! ### Counts and breaks (C64) -/

private theorem sum_ite_range (n a v : Nat) (h : a < n) :
    ((List.range n).map fun i => if a = i then v else 0).sum = v := by
  induction n with
  | zero => omega
  | succ n ih =>
    rw [List.range_succ, List.map_append, List.sum_append]
    rcases Nat.lt_or_ge a n with h' | h'
    · rw [ih h']; simp; omega
    · have : a = n := by omega
      subst this
      have h0 : ((List.range a).map fun i => if a = i then v else 0).sum = 0 := by
        apply List.sum_eq_zero
        intro x hx
        obtain ⟨i, hi, rfl⟩ := List.mem_map.1 hx
        rw [if_neg (by have := List.mem_range.1 hi; omega)]
      rw [h0]; simp

private theorem count_sum {M : Type} (w : M → Nat) (ms : List (Nat × Nat × M)) (n : Nat)
    (h : ∀ m ∈ ms, m.1 < n ∧ m.2.1 < n ∧ m.1 ≠ m.2.1) :
    ((List.range n).map fun i =>
      ((ms.filter fun m => decide (m.1 = i) || decide (m.2.1 = i)).map fun m => w m.2.2).sum).sum =
      2 * (ms.map fun m => w m.2.2).sum := by
  induction ms with
  | nil =>
    apply List.sum_eq_zero
    intro x hx
    obtain ⟨i, _, rfl⟩ := List.mem_map.1 hx
    rfl
  | cons m ms ih =>
    obtain ⟨h1, h2, h3⟩ := h m List.mem_cons_self
    have e : ∀ i, (((m :: ms).filter fun m => decide (m.1 = i) || decide (m.2.1 = i)).map fun m => w m.2.2).sum =
        ((if m.1 = i then w m.2.2 else 0) + (if m.2.1 = i then w m.2.2 else 0)) +
        ((ms.filter fun m => decide (m.1 = i) || decide (m.2.1 = i)).map fun m => w m.2.2).sum := by
      intro i
      rw [List.filter_cons]
      by_cases a1 : m.1 = i
      · have a2 : m.2.1 ≠ i := fun h => h3 (a1.trans h.symm)
        simp [a1, a2]
      · by_cases a2 : m.2.1 = i
        · simp [a1, a2]
        · simp [a1, a2]
    simp only [e]
    rw [List.sum_map_add, List.sum_map_add, sum_ite_range n m.1 _ h1, sum_ite_range n m.2.1 _ h2,
      ih fun m' hm' => h m' (List.mem_cons_of_mem _ hm')]
    simp
    omega

/-- Every matched point is counted for exactly two images. -/
theorem matches_per_image_total {M : Type} (size : M → Nat) (ms : List (Nat × Nat × M)) (n : Nat)
    (h : ∀ m ∈ ms, m.1 < n ∧ m.2.1 < n ∧ m.1 ≠ m.2.1) :
    ((List.range n).map (matchesPerImage size ms)).sum = 2 * (ms.map fun m => size m.2.2).sum := count_sum size ms n h

/-- Every match with points is counted for exactly two images. -/
theorem images_per_image_total {M : Type} (size : M → Nat) (ms : List (Nat × Nat × M)) (n : Nat)
    (h : ∀ m ∈ ms, m.1 < n ∧ m.2.1 < n ∧ m.1 ≠ m.2.1) :
    ((List.range n).map (imagesPerImage size ms)).sum = 2 * (ms.filter fun m => decide (0 < size m.2.2)).length := by
  have := count_sum (fun m => if 0 < size m then 1 else 0) ms n h
  unfold imagesPerImage
  rw [this]
  congr 1
  clear this h
  induction ms with
  | nil => rfl
  | cons m ms ih =>
    rw [List.map_cons, List.sum_cons, List.filter_cons, ih]
    by_cases hm : 0 < size m.2.2
    · simp [hm]; omega
    · simp [hm]

/-- The breaks (without a minimum) are the images other than the last that are matched to no later image. -/
theorem match_breaks_spec (n : Nat) (rows : List Nat) :
    ∃ b, matchBreaks n rows 0 = .ok b ∧ b.Pairwise (· < ·) ∧ ∀ i, i ∈ b ↔ i + 1 < n ∧ i ∉ rows := by
  refine ⟨_, rfl, List.pairwise_lt_range.filter _, ?_⟩
  intro i
  rw [List.mem_filter, List.mem_range, decide_eq_true_eq, uniq_mem]
  constructor
  · rintro ⟨h1, h2⟩; exact ⟨by omega, h2⟩
  · rintro ⟨h1, h2⟩; exact ⟨by omega, h2⟩

/-- With a minimum number of matches it raises, whenever two or more images have matches to later images (or none has):
arrays of different lengths are compared. -/
theorem match_breaks_min_violated (n : Nat) (rows : List Nat) (m : Nat) (hm : m ≠ 0) (hn : 2 ≤ n)
    (hr : ∀ i ∈ rows, i + 1 < n) (hc : (uniq rows).length ≠ 1) : matchBreaks n rows m = .error .valueError := by
  have hlt : (uniq rows).length < n := by
    have : (uniq rows).length ≤ (List.range (n - 1)).length := by
      refine (List.subperm_of_subset ((uniq_sorted rows).imp fun h => ne_of_lt h) ?_).length_le
      intro x hx
      have := hr x ((uniq_mem rows x).1 hx)
      simp; omega
    simp at this; omega
  unfold matchBreaks
  simp only [if_neg hm, List.length_map, List.length_range]
  rw [if_neg]
  rintro (h | h | h) <;> omega

/-- If exactly one image `a` has matches to later images, the minimum works: the result is in order, and has each image but `a` and the last once, and
each image `k` from which less than `min m (n - k)` matches could start (comparing with the number of matches of `a`) once more. -/
theorem match_breaks_single (n : Nat) (rows : List Nat) (m a : Nat) (hm : m ≠ 0) (hn : 2 ≤ n) (hu : uniq rows = [a]) :
    ∃ b, matchBreaks n rows m = .ok b ∧ b.Pairwise (· ≤ ·) ∧
      ∀ k, b.count k = (if k + 1 < n ∧ k ≠ a then 1 else 0) + if k < n ∧ rows.count a < min m (n - k) then 1 else 0 := by
  unfold matchBreaks
  simp only [hu, if_neg hm, List.length_map, List.length_range, List.map_cons, List.map_nil, List.length_singleton, true_or, or_true, if_true]
  have hn1 : n ≠ 1 := by omega
  have hn0 : n ≠ 0 := by omega
  simp only [one_ne_zero, hn0, or_self, if_false, hn1, List.getD_cons_zero]
  refine ⟨_, rfl, List.pairwise_insertionSort _ _, ?_⟩
  intro k
  rw [(List.perm_insertionSort _ _).count_eq, List.count_append]
  have cnt : ∀ (N : Nat) (P : Nat → Bool), (List.count k ((List.range N).filter P)) = if k < N ∧ P k = true then 1 else 0 := by
    intro N P
    have nd : ((List.range N).filter P).Nodup := List.nodup_range.filter _
    rw [nd.count]
    simp only [List.mem_filter, List.mem_range]
  rw [cnt, cnt]
  congr 1
  · simp only [List.mem_singleton, decide_eq_true_eq]
    refine if_congr ?_ rfl rfl
    constructor
    · rintro ⟨h1, h2⟩; exact ⟨by omega, h2⟩
    · rintro ⟨h1, h2⟩; exact ⟨by omega, h2⟩
  · have hx : max 1 n = n := by omega
    rw [hx]
    refine if_congr ?_ rfl rfl
    constructor
    · rintro ⟨h1, h2⟩
      refine ⟨h1, ?_⟩
      simpa [List.getD_eq_getElem?_getD, h1] using h2
    · rintro ⟨h1, h2⟩
      refine ⟨h1, ?_⟩
      simpa [List.getD_eq_getElem?_getD, h1] using h2

example : uniq [1, 1] = [1] ∧ matchBreaks 4 [1, 1] 3 = .ok [0, 0, 1, 2] := by decide +kernel
example : matchBreaks 4 [0, 0, 1] 0 = .ok [2] := by decide +kernel
example : matchBreaks 4 [0, 0, 1] 1 = .error .valueError := by decide +kernel

end Glimpse.Kp
