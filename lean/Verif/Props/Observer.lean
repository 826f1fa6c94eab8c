import Verif.Model.Observer
import Verif.Props.Datetimes
import Verif.Props.TrackerTimes
import Mathlib.Tactic.Linarith

/-!
C40: `Observer.split`, `subset` and construction.
-/
set_option autoImplicit false
set_option linter.unusedSimpArgs false

namespace Glimpse.Observer

/-! ### Specification -/

/-- The images in `(a, b]`. -/
def between (ts : List ℤ) (a b : ℤ) : List ℤ := ts.filter fun t => decide (a < t ∧ t ≤ b)

/-- The images in `(c, b₁]`, `(b₁, b₂]`, ... -/
def partsFrom (ts : List ℤ) : ℤ → List ℤ → List (List ℤ)
  | _, [] => []
  | c, b :: bs => between ts c b :: partsFrom ts b bs

/-- The last `k` images (all of them if there are fewer). -/
def lastN (k : Nat) (l : List ℤ) : List ℤ := l.drop (l.length - k)

/-- Each observer is the last `k` images of the previous one followed by its own part. -/
def expected (k : Nat) : List ℤ → List (List ℤ) → List (List ℤ)
  | _, [] => []
  | prev, p :: ps => (lastN k prev ++ p) :: expected k (lastN k prev ++ p) ps

/-! ### Construction and subset -/

private theorem mapM_id_some (ts : List ℤ) : (ts.map some).mapM id = some ts := by
  induction ts with
  | nil => rfl
  | cons a l ih => simp [List.mapM_cons, ih]

private theorem zip_tail_pairwise (ts : List ℤ) :
    (ts.zip ts.tail).any (fun p => decide (p.2 - p.1 ≤ 0)) = false ↔ ts.Pairwise (· < ·) := by
  rw [← List.isChain_iff_pairwise]
  induction ts with
  | nil => simp
  | cons a l ih =>
    cases l with
    | nil => simp
    | cons b m =>
      simp only [List.tail_cons, List.zip_cons_cons, List.any_cons, Bool.or_eq_false_iff,
        List.isChain_cons_cons] at ih ⊢
      rw [ih]
      simp

/-- Construction succeeds exactly for two or more images that all have a time, in strictly increasing order; and it
keeps them all in order. Otherwise it raises ValueError. -/
theorem mk_spec (images : List (Option ℤ)) (ts : List ℤ) :
    (mk images = .ok ts ↔ images = ts.map some ∧ 2 ≤ ts.length ∧ ts.Pairwise (· < ·)) ∧
    ((¬ ∃ l : List ℤ, images = l.map some ∧ 2 ≤ l.length ∧ l.Pairwise (· < ·)) → mk images = .error .valueError) := by
  have hM : ∀ (im : List (Option ℤ)) (l : List ℤ), im.mapM id = some l → im = l.map some := by
    intro im
    induction im with
    | nil => intro l h; simp at h; subst h; rfl
    | cons a im ih =>
      intro l h
      rw [List.mapM_cons] at h
      cases a with
      | none => simp at h
      | some a =>
        cases e : im.mapM id with
        | none => rw [e] at h; simp at h
        | some l' => rw [e] at h; simp at h; subst h; simp [ih l' e]
  have hok : ∀ l : List ℤ, 2 ≤ l.length → l.Pairwise (· < ·) → mk (l.map some) = .ok l := by
    intro l h2 hp
    unfold mk
    rw [if_neg (by simp; omega), mapM_id_some]
    simp only [(zip_tail_pairwise l).2 hp]
    simp
  have key : ∀ l, mk images = .ok l → images = l.map some ∧ 2 ≤ l.length ∧ l.Pairwise (· < ·) := by
    intro l h
    unfold mk at h
    split at h
    · cases h
    · rename_i hlen
      split at h
      · cases h
      · rename_i ts' e
        split at h
        · cases h
        · rename_i ha
          cases h
          have hi := hM _ _ e
          refine ⟨hi, ?_, (zip_tail_pairwise _).1 (by simpa using ha)⟩
          rw [hi] at hlen; simp at hlen; omega
  refine ⟨⟨key ts, fun ⟨h1, h2, h3⟩ => h1 ▸ hok ts h2 h3⟩, ?_⟩
  intro hno
  cases e : mk images with
  | ok l => exact absurd ⟨l, key l e⟩ hno
  | error er =>
    unfold mk at e
    split at e
    · cases e; rfl
    · split at e
      · cases e; rfl
      · split at e
        · cases e; rfl
        · cases e

private theorem applyMask_filter (ts : List ℤ) (p : ℤ → Bool) : applyMask ts (ts.map p) = ts.filter p := by
  unfold applyMask
  induction ts with
  | nil => rfl
  | cons a l ih =>
    rw [List.map_cons, List.zip_cons_cons, List.filter_cons, List.filter_cons]
    by_cases h : p a = true
    · simp only [h, if_true, List.map_cons, ih]
    · have h' : p a = false := by simpa using h
      simp only [h', Bool.false_eq_true, if_false, ih]

/-- `subset` keeps exactly the images within the bounds, in order, and raises ValueError iff fewer than two remain. -/
theorem subset_spec (ts : List ℤ) (hs : ts.Pairwise (· < ·)) (h0 : ts ≠ []) (a b : ℤ) :
    subset ts a b =
      if 2 ≤ (ts.filter fun t => decide (a ≤ t ∧ t ≤ b)).length then .ok (ts.filter fun t => decide (a ≤ t ∧ t ≤ b))
      else .error .valueError := by
  obtain ⟨f, hf⟩ : ∃ f, ts.head? = some f := by cases ts with | nil => exact absurd rfl h0 | cons x l => exact ⟨x, rfl⟩
  obtain ⟨g, hg⟩ : ∃ g, ts.getLast? = some g := ⟨ts.getLast h0, List.getLast?_eq_some_getLast h0⟩
  have hsel : selectDatetimes ts (some a) (some b) none none 0 =
      if b < a then .error .valueError else .ok (ts.map fun t => decide (a ≤ t) && decide (t ≤ b)) := by
    unfold selectDatetimes
    simp only [hf, hg, bind, Except.bind]
    simp [throw, throwThe, MonadExceptOf.throw, pure, Except.pure, inRangeMask]
  have hfil : (ts.filter fun t => decide (a ≤ t) && decide (t ≤ b)) = ts.filter fun t => decide (a ≤ t ∧ t ≤ b) := by
    congr 1; funext t; simp
  unfold subset
  rw [hsel]
  by_cases hba : b < a
  · rw [if_pos hba]
    have : (ts.filter fun t => decide (a ≤ t ∧ t ≤ b)) = [] := by
      rw [List.filter_eq_nil_iff]; intro t _; simp; omega
    rw [this]; simp
  · rw [if_neg hba]
    simp only [applyMask_filter, hfil]
    set l := ts.filter fun t => decide (a ≤ t ∧ t ≤ b) with hl
    by_cases h2 : 2 ≤ l.length
    · rw [if_pos h2]
      exact (mk_spec _ l).1.2 ⟨rfl, h2, hs.filter _⟩
    · rw [if_neg h2]
      unfold mk
      rw [if_pos (by simp; omega)]

/-! ### Splitting -/

private theorem filter_split (ts : List ℤ) (hs : ts.Pairwise (· < ·)) (a c b : ℤ) (hcb : c ≤ b) :
    (ts.filter fun t => decide (a ≤ t ∧ t ≤ b)) =
      (ts.filter fun t => decide (a ≤ t ∧ t ≤ c)) ++ ts.filter fun t => decide (a ≤ t ∧ c < t ∧ t ≤ b) := by
  induction ts with
  | nil => rfl
  | cons x l ih =>
    have hx := (List.pairwise_cons.1 hs).1
    have hl := (List.pairwise_cons.1 hs).2
    by_cases hxc : x ≤ c
    · have e3 : decide (a ≤ x ∧ c < x ∧ x ≤ b) = false := by simp; omega
      have e12 : decide (a ≤ x ∧ x ≤ b) = decide (a ≤ x ∧ x ≤ c) := by rw [decide_eq_decide]; omega
      simp only [List.filter_cons, e3, e12, ih hl]
      split <;> simp
    · have e1 : ((x :: l).filter fun t => decide (a ≤ t ∧ t ≤ c)) = [] := by
        rw [List.filter_eq_nil_iff]
        intro t ht
        rcases List.mem_cons.1 ht with rfl | ht
        · simp; omega
        · have := hx t ht; simp; omega
      rw [e1, List.nil_append]
      refine List.filter_congr ?_
      intro t ht
      rw [decide_eq_decide]
      rcases List.mem_cons.1 ht with rfl | ht
      · omega
      · have := hx t ht; omega

/-- `lastN k` of the images in `[a, c]` are the images in `[s, c]`, where `s` is the first of them. -/
private theorem filter_ge_getElem (l : List ℤ) (hs : l.Pairwise (· < ·)) (i : Nat) (hi : i < l.length) :
    (l.filter fun t => decide (l[i] ≤ t)) = l.drop i := by
  induction l generalizing i with
  | nil => simp at hi
  | cons x l ih =>
    have hx := (List.pairwise_cons.1 hs).1
    have hl := (List.pairwise_cons.1 hs).2
    cases i with
    | zero =>
      simp only [List.getElem_cons_zero, List.drop_zero]
      rw [List.filter_eq_self]
      intro t ht
      rcases List.mem_cons.1 ht with rfl | ht
      · simp
      · have := hx t ht; simp; omega
    | succ i =>
      simp only [List.getElem_cons_succ, List.drop_succ_cons]
      have hi' : i < l.length := by simpa using hi
      have := hx l[i] (List.getElem_mem _)
      rw [List.filter_cons_of_neg (by simp; omega)]
      exact ih hl i (by simpa using hi)

private theorem nextStart_filter (ts : List ℤ) (hs : ts.Pairwise (· < ·)) (s b : ℤ) (k : Nat)
    (o : List ℤ) (ho : o = ts.filter fun t => decide (s ≤ t ∧ t ≤ b)) (h2 : 2 ≤ o.length) :
    (ts.filter fun t => decide (nextStart o k ≤ t ∧ t ≤ b)) = lastN k o ∧ nextStart o k ≤ b + 1 ∧
      s ≤ nextStart o k := by
  have hmem : ∀ t ∈ o, s ≤ t ∧ t ≤ b := by
    intro t ht; rw [ho] at ht; simpa using (List.mem_filter.1 ht).2
  have hso : o.Pairwise (· < ·) := ho ▸ hs.filter _
  have hfo : ∀ x : ℤ, s ≤ x → (ts.filter fun t => decide (x ≤ t ∧ t ≤ b)) = o.filter fun t => decide (x ≤ t) := by
    intro x hx
    rw [ho, List.filter_filter]
    refine List.filter_congr ?_
    intro t _
    rw [← Bool.decide_and, decide_eq_decide]; omega
  unfold nextStart
  by_cases hk : k = 0
  · subst hk
    have hne : o ≠ [] := by intro h; rw [h] at h2; simp at h2
    have hl : o.getLastD 0 = o.getLast hne := by
      rw [List.getLastD_eq_getLast?, List.getLast?_eq_some_getLast hne]; rfl
    have hm := hmem _ (List.getLast_mem hne)
    rw [if_neg (by simp), hl]
    refine ⟨?_, by omega, by omega⟩
    rw [hfo _ (by omega)]
    have : o.filter (fun t => decide (o.getLast hne + 1 ≤ t)) = [] := by
      rw [List.filter_eq_nil_iff]
      intro t ht
      have : t ≤ o.getLast hne := by
        obtain ⟨i, hi, rfl⟩ := List.getElem_of_mem ht
        rw [List.getLast_eq_getElem]
        by_cases hlt : i < o.length - 1
        · exact (List.pairwise_iff_getElem.1 hso i (o.length - 1) hi (by omega) hlt).le
        · have : i = o.length - 1 := by omega
          subst this; exact le_refl _
      simp; omega
    rw [this]; simp [lastN]
  · rw [if_pos (by simpa using hk)]
    have hi : o.length - min k o.length < o.length := by omega
    have hd : o.getD (o.length - min k o.length) 0 = o[o.length - min k o.length] := by
      rw [List.getD_eq_getElem?_getD, List.getElem?_eq_getElem hi]; rfl
    have hm := hmem _ (List.getElem_mem hi)
    rw [hd]
    refine ⟨?_, by omega, hm.1⟩
    rw [hfo _ hm.1, filter_ge_getElem o hso _ hi]
    unfold lastN
    congr 1
    omega

private theorem splitLoop_spec (ts : List ℤ) (hs : ts.Pairwise (· < ·)) (h0 : ts ≠ []) (k : Nat) :
    ∀ (bs : List ℤ) (s c : ℤ) (prev : List ℤ), (c :: bs).Pairwise (· < ·) → s ≤ c + 1 →
      (ts.filter fun t => decide (s ≤ t ∧ t ≤ c)) = lastN k prev →
      splitLoop ts k s bs =
        if ∀ o ∈ expected k prev (partsFrom ts c bs), 2 ≤ o.length then .ok (expected k prev (partsFrom ts c bs))
        else .error .valueError := by
  intro bs
  induction bs with
  | nil => intro s c prev _ _ _; simp [splitLoop, partsFrom, expected]
  | cons b bs ih =>
    intro s c prev hp hsc hl
    have hcb : c < b := (List.pairwise_cons.1 hp).1 b List.mem_cons_self
    have hfs := filter_split ts hs s c b hcb.le
    have hbt : (ts.filter fun t => decide (s ≤ t ∧ c < t ∧ t ≤ b)) = between ts c b := by
      unfold between
      refine List.filter_congr ?_
      intro t _; rw [decide_eq_decide]; omega
    rw [hl, hbt] at hfs
    simp only [splitLoop, partsFrom, expected]
    rw [subset_spec ts hs h0, hfs]
    set o := lastN k prev ++ between ts c b with ho
    by_cases h2 : 2 ≤ o.length
    · rw [if_pos h2]
      obtain ⟨n1, n2, n3⟩ := nextStart_filter ts hs s b k o hfs.symm h2
      simp only []
      rw [ih (nextStart o k) b o (List.pairwise_cons.1 hp).2 n2 n1]
      by_cases hr : ∀ o' ∈ expected k o (partsFrom ts b bs), 2 ≤ o'.length
      · rw [if_pos hr, if_pos]
        intro o' ho'
        rcases List.mem_cons.1 ho' with rfl | h
        · exact h2
        · exact hr o' h
      · rw [if_neg hr, if_neg]
        intro h
        exact hr fun o' ho' => h o' (List.mem_cons_of_mem _ ho')
    · rw [if_neg h2, if_neg]
      intro h
      exact h2 (h o List.mem_cons_self)

private theorem splitOn_spec (ts : List ℤ) (hs : ts.Pairwise (· < ·)) (h0 : ts ≠ []) (k : Nat) (b : ℤ) (bs : List ℤ)
    (hp : (b :: bs).Pairwise (· < ·)) :
    splitOn ts k (b :: bs) =
      if ∀ o ∈ expected k [] (partsFrom ts (b - (1 : ℤ)) bs), 2 ≤ o.length then
        .ok (expected k [] (partsFrom ts (b - (1 : ℤ)) bs))
      else .error .valueError := by
  unfold splitOn
  refine splitLoop_spec ts hs h0 k bs b (b - 1) [] ?_ (by omega) ?_
  · rw [List.pairwise_cons] at hp ⊢
    refine ⟨fun x hx => ?_, hp.2⟩
    have := hp.1 x hx; omega
  · have : (ts.filter fun t => decide (b ≤ t ∧ t ≤ b - 1)) = [] := by
      rw [List.filter_eq_nil_iff]; intro t _; simp; omega
    rw [this]; simp [lastN]

private theorem parts_flatten (ts : List ℤ) (hs : ts.Pairwise (· < ·)) :
    ∀ (bs : List ℤ) (c : ℤ), (c :: bs).Pairwise (· < ·) →
      (partsFrom ts c bs).flatten = between ts c (bs.getLastD c) := by
  intro bs
  induction bs with
  | nil =>
    intro c _
    simp only [partsFrom, List.flatten_nil, List.getLastD_nil]
    symm; unfold between; rw [List.filter_eq_nil_iff]; intro t _; simp
  | cons b bs ih =>
    intro c hp
    have hp' := (List.pairwise_cons.1 hp).2
    have hcb : c < b := (List.pairwise_cons.1 hp).1 b List.mem_cons_self
    simp only [partsFrom, List.flatten_cons, ih b hp']
    have hg : (b :: bs).getLastD c = bs.getLastD b := by
      cases bs with
      | nil => rfl
      | cons x l => simp only [List.getLastD_eq_getLast?, List.getLast?_cons_cons,
          List.getLast?_eq_some_getLast (List.cons_ne_nil x l)]; rfl
    rw [hg]
    have hbl : b ≤ bs.getLastD b := by
      cases bs with
      | nil => simp
      | cons x l =>
        have hm : (x :: l).getLastD b ∈ x :: l := by
          rw [List.getLastD_eq_getLast?, List.getLast?_eq_some_getLast (List.cons_ne_nil _ _)]
          exact List.getLast_mem _
        exact ((List.pairwise_cons.1 hp').1 _ hm).le
    have := filter_split ts hs (c + 1) b (bs.getLastD b) hbl
    unfold between
    have e1 : (ts.filter fun t => decide (c + 1 ≤ t ∧ t ≤ bs.getLastD b)) =
        ts.filter fun t => decide (c < t ∧ t ≤ bs.getLastD b) := by
      refine List.filter_congr ?_
      intro t _; rw [decide_eq_decide]; omega
    have e2 : (ts.filter fun t => decide (c + 1 ≤ t ∧ t ≤ b)) = ts.filter fun t => decide (c < t ∧ t ≤ b) := by
      refine List.filter_congr ?_
      intro t _; rw [decide_eq_decide]; omega
    have e3 : (ts.filter fun t => decide (c + 1 ≤ t ∧ b < t ∧ t ≤ bs.getLastD b)) =
        ts.filter fun t => decide (b < t ∧ t ≤ bs.getLastD b) := by
      refine List.filter_congr ?_
      intro t _; rw [decide_eq_decide]; omega
    rw [e1, e2, e3] at this
    exact this.symm

/-- Each observer returned is its own part preceded by the last `k` images of the previous observer. -/
theorem expected_getElem (k : Nat) (prev : List ℤ) (parts : List (List ℤ)) :
    (expected k prev parts).length = parts.length ∧
    (∀ p : List ℤ, parts[0]? = some p → (expected k prev parts)[0]? = some (lastN k prev ++ p)) ∧
    ∀ (i : Nat) (o p : List ℤ), (expected k prev parts)[i]? = some o → parts[i + 1]? = some p →
      (expected k prev parts)[i + 1]? = some (lastN k o ++ p) := by
  induction parts generalizing prev with
  | nil => simp [expected]
  | cons q ps ih =>
    obtain ⟨h1, h2, h3⟩ := ih (lastN k prev ++ q)
    refine ⟨by simp [expected, h1], by intro p hp; simp at hp; subst hp; simp [expected], ?_⟩
    intro i o p ho hp
    cases i with
    | zero =>
      simp only [expected, List.getElem?_cons_zero, Option.some.injEq] at ho
      subst ho
      simp only [expected, List.getElem?_cons_succ] at hp ⊢
      exact h2 p hp
    | succ i =>
      simp only [expected, List.getElem?_cons_succ] at ho hp ⊢
      exact h3 i o p ho hp

private theorem breaksOf_spec (ts n : List ℤ) :
    (breaksOf ts n).Pairwise (· < ·) ∧ ∀ b : ℤ, b ∈ breaksOf ts n ↔ b ∈ n ∨ b = ts.headD 0 ∨ b = ts.getLastD 0 := by
  unfold breaksOf
  constructor
  · have h1 : ((n ++ [ts.headD 0, ts.getLastD 0]).dedup.insertionSort (· ≤ ·)).Pairwise (· ≤ ·) :=
      List.pairwise_insertionSort (· ≤ ·) _
    have h2 : ((n ++ [ts.headD 0, ts.getLastD 0]).dedup.insertionSort (· ≤ ·)).Nodup :=
      (List.perm_insertionSort (· ≤ ·) _).nodup_iff.2 (List.nodup_dedup _)
    exact (h1.and h2).imp fun ⟨a, b⟩ => lt_of_le_of_ne a b
  · intro b
    rw [(List.perm_insertionSort (· ≤ ·) _).mem_iff, List.mem_dedup]
    simp

private theorem between_all (ts : List ℤ) (a b : ℤ) (h : ∀ t ∈ ts, a < t ∧ t ≤ b) : between ts a b = ts := by
  unfold between
  rw [List.filter_eq_self]; intro t ht; simpa using h t ht

/-- C40 (breaks). Splitting an observer at datetime breaks (`B` = the given breaks with the first and last image
times, sorted, without repeats): the images are divided into consecutive parts, one per interval between breaks (each
image in exactly one, an image on a break in the earlier one), and the observers returned are the parts, each preceded
by the last `overlap` images of the previous observer (all of them if it has fewer). If one of them would have fewer
than two images, split raises ValueError. -/
theorem split_breaks (ts n : List ℤ) (overlap : Nat) (hs : ts.Pairwise (· < ·)) (h2 : 2 ≤ ts.length) :
    ∃ (B : List ℤ) (parts obs : List (List ℤ)),
      B.Pairwise (· < ·) ∧ (∀ b : ℤ, b ∈ B ↔ b ∈ n ∨ ts.head? = some b ∨ ts.getLast? = some b) ∧
      parts.length + 1 = B.length ∧ parts.flatten = ts ∧
      (∀ (i : Nat) (p : List ℤ) (b c : ℤ), parts[i]? = some p → B[i]? = some b → B[i + 1]? = some c →
        ∀ t : ℤ, t ∈ p → (b < t ∨ i = 0) ∧ t ≤ c) ∧
      obs.length = parts.length ∧ obs[0]? = parts[0]? ∧
      (∀ (i : Nat) (o p : List ℤ), obs[i]? = some o → parts[i + 1]? = some p →
        obs[i + 1]? = some (o.drop (o.length - overlap) ++ p)) ∧
      splitBreaks ts n overlap =
        if ∀ o ∈ obs, 2 ≤ o.length then .ok obs else .error .valueError := by
  have h0 : ts ≠ [] := by intro h; rw [h] at h2; simp at h2
  obtain ⟨hB, hmem⟩ := breaksOf_spec ts n
  have hhead : ts.head? = some (ts.headD 0) := by
    cases ts with | nil => exact absurd rfl h0 | cons x l => rfl
  have hlast : ts.getLast? = some (ts.getLastD 0) := by
    rw [List.getLastD_eq_getLast?, List.getLast?_eq_some_getLast h0]; rfl
  have hrange : ∀ t ∈ ts, ts.headD 0 ≤ t ∧ t ≤ ts.getLastD 0 := by
    intro t ht
    obtain ⟨i, hi, rfl⟩ := List.getElem_of_mem ht
    have e1 : ts.headD 0 = ts[0] := by cases ts with | nil => exact absurd rfl h0 | cons x l => rfl
    have e2 : ts.getLastD 0 = ts[ts.length - 1] := by
      rw [List.getLastD_eq_getLast?, List.getLast?_eq_getElem?, List.getElem?_eq_getElem (by omega)]; rfl
    rw [e1, e2]
    constructor
    · by_cases h : i = 0
      · subst h; exact le_refl _
      · exact (List.pairwise_iff_getElem.1 hs 0 i (by omega) hi (by omega)).le
    · by_cases h : i = ts.length - 1
      · subst h; exact le_refl _
      · exact (List.pairwise_iff_getElem.1 hs i (ts.length - 1) hi (by omega) (by omega)).le
  cases hbr : breaksOf ts n with
  | nil =>
    have := (hmem (ts.headD 0)).2 (Or.inr (Or.inl rfl))
    rw [hbr] at this; cases this
  | cons b bs =>
    rw [hbr] at hB
    have hb1 : ((b - 1) :: bs).Pairwise (· < ·) := by
      rw [List.pairwise_cons] at hB ⊢
      exact ⟨fun x hx => by have := hB.1 x hx; omega, hB.2⟩
    have hmin : ∀ x ∈ b :: bs, b ≤ x := by
      intro x hx
      rcases List.mem_cons.1 hx with rfl | h
      · exact le_refl _
      · exact ((List.pairwise_cons.1 hB).1 x h).le
    obtain ⟨x1, x2, x3⟩ := expected_getElem overlap [] (partsFrom ts (b - 1) bs)
    have hplen : ∀ (l : List ℤ) (c : ℤ), (partsFrom ts c l).length = l.length := by
      intro l; induction l with
      | nil => intro c; rfl
      | cons d l ih => intro c; simp [partsFrom, ih]
    have hpget : ∀ (l : List ℤ) (c : ℤ) (i : Nat) (p : List ℤ) (d e : ℤ), (partsFrom ts c l)[i]? = some p →
        (c :: l)[i]? = some d → l[i]? = some e → ∀ t : ℤ, t ∈ p → d < t ∧ t ≤ e := by
      intro l
      induction l with
      | nil => intro c i p d e h; simp [partsFrom] at h
      | cons x l ih =>
        intro c i p d e hp hd he t ht
        cases i with
        | zero =>
          simp only [partsFrom, List.getElem?_cons_zero, Option.some.injEq] at hp hd he
          subst hp; subst hd; subst he
          simpa using (List.mem_filter.1 ht).2
        | succ i =>
          simp only [partsFrom, List.getElem?_cons_succ] at hp hd he
          exact ih x i p d e hp hd he t ht
    refine ⟨b :: bs, partsFrom ts (b - 1) bs, expected overlap [] (partsFrom ts (b - 1) bs), hB, ?_, ?_, ?_, ?_, x1, ?_, ?_,
      ?_⟩
    · intro y
      rw [← hbr, hmem, hhead, hlast]
      simp only [Option.some.injEq]
      exact or_congr Iff.rfl (or_congr eq_comm eq_comm)
    · simp [hplen]
    · rw [parts_flatten ts hs bs (b - 1) hb1]
      refine between_all ts _ _ ?_
      intro t ht
      have := hrange t ht
      have hbh : b ≤ ts.headD 0 := hmin _ (hbr ▸ (hmem _).2 (Or.inr (Or.inl rfl)))
      refine ⟨by omega, ?_⟩
      refine le_trans this.2 ?_
      have hin : ts.getLastD 0 ∈ b :: bs := hbr ▸ (hmem _).2 (Or.inr (Or.inr rfl))
      have hlt : ts.headD 0 < ts.getLastD 0 := by
        match ts, h2, hs with
        | x :: y :: l, _, hs =>
          have hm : (x :: y :: l).getLastD 0 ∈ y :: l := by
            rw [List.getLastD_eq_getLast?, List.getLast?_cons_cons,
              List.getLast?_eq_some_getLast (List.cons_ne_nil y l)]
            exact List.getLast_mem _
          exact (List.pairwise_cons.1 hs).1 _ hm
      have hne : bs ≠ [] := by
        intro h
        rw [h] at hin
        have := List.mem_singleton.1 hin
        omega
      have hgl : bs.getLastD (b - 1) = bs.getLast hne := by
        rw [List.getLastD_eq_getLast?, List.getLast?_eq_some_getLast hne]; rfl
      rw [hgl]
      rcases List.mem_cons.1 hin with h | h
      · omega
      · obtain ⟨i, hi, e⟩ := List.getElem_of_mem h
        rw [← e, List.getLast_eq_getElem]
        by_cases hh : i = bs.length - 1
        · subst hh; exact le_refl _
        · exact (List.pairwise_iff_getElem.1 (List.pairwise_cons.1 hB).2 i _ hi (by omega) (by omega)).le
    · intro i p c d hp hc hd t ht
      cases i with
      | zero =>
        have := hpget bs (b - 1) 0 p (b - 1) d hp rfl (by simpa using hd) t ht
        exact ⟨Or.inr rfl, this.2⟩
      | succ i =>
        have := hpget bs (b - 1) (i + 1) p c d hp (by simpa using hc) (by simpa using hd) t ht
        exact ⟨Or.inl this.1, this.2⟩
    · cases hbs : partsFrom ts (b - 1) bs with
      | nil => simp [expected]
      | cons p ps => simp [expected, lastN]
    · intro i o p ho hp
      exact x3 i o p ho hp
    · unfold splitBreaks
      rw [hbr]
      exact splitOn_spec ts hs h0 overlap b bs hB

/-- C40 (number of parts, what happens). Splitting into `n` parts uses breaks `step` apart, `step` being the length
over `n` rounded to a microsecond: the number of observers is `⌊length / step⌋`, and the images after the last break
`first + ⌊length / step⌋ * step` are in none of them. -/
theorem split_int (ts : List ℤ) (n overlap : Nat) (hs : ts.Pairwise (· < ·)) (h2 : 2 ≤ ts.length) (first last : ℤ)
    (hf : ts.head? = some first) (hl : ts.getLast? = some last) (hn : n ≠ 0) (step : ℤ)
    (hstep : step = divRound (last - first) n) (hpos : 0 < step) :
    ∃ (parts obs : List (List ℤ)),
      (parts.length : ℤ) = (last - first) / step ∧
      parts.flatten = ts.filter (fun t => decide (t ≤ first + (last - first) / step * step)) ∧
      (∀ (i : Nat) (p : List ℤ), parts[i]? = some p →
        ∀ t : ℤ, t ∈ p → (first + i * step < t ∨ i = 0) ∧ t ≤ first + (i + 1) * step) ∧
      obs.length = parts.length ∧ obs[0]? = parts[0]? ∧
      (∀ (i : Nat) (o p : List ℤ), obs[i]? = some o → parts[i + 1]? = some p →
        obs[i + 1]? = some (o.drop (o.length - overlap) ++ p)) ∧
      splitInt ts n overlap = if ∀ o ∈ obs, 2 ≤ o.length then .ok obs else .error .valueError := by
  have h0 : ts ≠ [] := by intro h; rw [h] at h2; simp at h2
  have e1 : ts.headD 0 = first := by cases ts with | nil => exact absurd rfl h0 | cons x l => simpa using hf
  have e2 : ts.getLastD 0 = last := by rw [List.getLastD_eq_getLast?, hl]; rfl
  have hfirst : ∀ t ∈ ts, first ≤ t := by
    intro t ht
    cases ts with
    | nil => cases ht
    | cons x l =>
      simp at hf; subst hf
      rcases List.mem_cons.1 ht with rfl | h
      · exact le_refl _
      · exact ((List.pairwise_cons.1 hs).1 t h).le
  have hlen : 0 ≤ last - first := by
    have := hfirst last (List.mem_of_getLast? hl); omega
  set m := ((last - first) / step).toNat with hm
  have hq : 0 ≤ (last - first) / step := Int.ediv_nonneg hlen hpos.le
  have hmq : (m : ℤ) = (last - first) / step := by omega
  set bs := (List.range m).map fun i : Nat => first + ((i : ℤ) + 1) * step with hbs
  have hrange : datetimeRange first last step = .ok (first :: bs) := by
    unfold datetimeRange
    rw [if_neg (by omega)]
    have : (Int.fdiv (last - first) step + 1).toNat = m + 1 := by
      rw [Int.fdiv_eq_ediv_of_nonneg _ hpos.le]; omega
    simp only [this, List.range_succ_eq_map, List.map_cons, List.map_map]
    congr 2
    simp
  have hp : (first :: bs).Pairwise (· < ·) := by
    obtain ⟨l, e, hl', _⟩ := datetime_range_exact first last step hpos
    rw [hrange] at e
    rw [Except.ok.inj e]; exact hl'
  have hp1 : ((first - 1) :: bs).Pairwise (· < ·) := by
    rw [List.pairwise_cons] at hp ⊢
    exact ⟨fun x hx => by have := hp.1 x hx; omega, hp.2⟩
  obtain ⟨x1, x2, x3⟩ := expected_getElem overlap [] (partsFrom ts (first - 1) bs)
  have hplen : ∀ (l : List ℤ) (c : ℤ), (partsFrom ts c l).length = l.length := by
    intro l; induction l with
    | nil => intro c; rfl
    | cons d l ih => intro c; simp [partsFrom, ih]
  have hpget : ∀ (l : List ℤ) (c : ℤ) (i : Nat) (p : List ℤ) (d e : ℤ), (partsFrom ts c l)[i]? = some p →
      (c :: l)[i]? = some d → l[i]? = some e → ∀ t : ℤ, t ∈ p → d < t ∧ t ≤ e := by
    intro l
    induction l with
    | nil => intro c i p d e h; simp [partsFrom] at h
    | cons x l ih =>
      intro c i p d e hp hd he t ht
      cases i with
      | zero =>
        simp only [partsFrom, List.getElem?_cons_zero, Option.some.injEq] at hp hd he
        subst hp; subst hd; subst he
        simpa using (List.mem_filter.1 ht).2
      | succ i =>
        simp only [partsFrom, List.getElem?_cons_succ] at hp hd he
        exact ih x i p d e hp hd he t ht
  refine ⟨partsFrom ts (first - 1) bs, expected overlap [] (partsFrom ts (first - 1) bs), ?_, ?_, ?_, x1, ?_, ?_, ?_⟩
  · rw [hplen, hbs, List.length_map, List.length_range, hmq]
  · rw [parts_flatten ts hs bs (first - 1) hp1]
    unfold between
    refine List.filter_congr ?_
    intro t ht
    rw [decide_eq_decide]
    have := hfirst t ht
    have hgl : bs.getLastD (first - 1) = if m = 0 then first - 1 else first + (m : ℤ) * step := by
      rw [hbs, List.getLastD_eq_getLast?, List.getLast?_map]
      cases m with
      | zero => simp
      | succ m' => simp [List.range_succ]
    rw [hgl, ← hmq]
    by_cases h : m = 0
    · exfalso
      -- the length is at least one step
      have hd : (last - first) / step = 0 := by omega
      have hlt : last - first < step := by
        have := Int.lt_ediv_add_one_mul_self (last - first) hpos
        rw [hd] at this; linarith
      have hfl : first < last := by
        match ts, h2, hs, hf, hl with
        | x :: y :: l, _, hs, hf, hl =>
          simp at hf; subst hf
          rw [List.getLast?_cons_cons] at hl
          exact (List.pairwise_cons.1 hs).1 _ (List.mem_of_getLast? hl)
      have hb : divRound (last - first) n ≤ last - first := by
        unfold divRound
        simp only
        have hn1 : (1 : ℤ) ≤ (n : ℤ) := by omega
        have hda := Int.emod_add_mul_ediv (last - first) (n : ℤ)
        have hr0 := Int.emod_nonneg (last - first) (show (n : ℤ) ≠ 0 by omega)
        have hq0 : 0 ≤ (last - first) / (n : ℤ) := Int.ediv_nonneg hlen (by omega)
        split
        · nlinarith
        · rename_i hc
          by_cases hrz : (last - first) % (n : ℤ) = 0
          · exfalso; exact hc (Or.inl (by omega))
          · have : 1 ≤ (last - first) % (n : ℤ) := by omega
            nlinarith
      omega
    · rw [if_neg h]
      constructor
      · exact fun h => h.2
      · exact fun h => ⟨by omega, h⟩
  · intro i p hpi t ht
    have hi : i < m := by
      have := (List.getElem?_eq_some_iff.1 hpi).1
      rw [hplen, hbs, List.length_map, List.length_range] at this; exact this
    have hbi : ∀ j : Nat, j < m → bs[j]? = some (first + ((j : ℤ) + 1) * step) := by
      intro j hj
      rw [hbs, List.getElem?_map, List.getElem?_range hj]; rfl
    cases i with
    | zero =>
      have := hpget bs (first - 1) 0 p (first - 1) _ hpi rfl (hbi 0 hi) t ht
      exact ⟨Or.inr rfl, this.2⟩
    | succ i =>
      have := hpget bs (first - 1) (i + 1) p (first + ((i : ℤ) + 1) * step) _ hpi
        (by rw [List.getElem?_cons_succ]; exact hbi i (by omega)) (hbi (i + 1) hi) t ht
      refine ⟨Or.inl ?_, this.2⟩
      push_cast; exact this.1
  · cases hbs : partsFrom ts (first - 1) bs with
    | nil => simp [expected]
    | cons p ps => simp [expected, lastN]
  · intro i o p ho hp
    exact x3 i o p ho hp
  · unfold splitInt
    rw [if_neg hn, e1, e2, ← hstep, hrange]
    exact splitOn_spec ts hs h0 overlap first bs hp

/-- C40 (number of parts, exact lengths). If the length is `n` times a whole number of microseconds, splitting into `n`
parts gives `n` observers of equal time span that cover all images. -/
theorem split_int_exact (ts : List ℤ) (n overlap : Nat) (hs : ts.Pairwise (· < ·)) (h2 : 2 ≤ ts.length)
    (first step : ℤ) (hf : ts.head? = some first) (hl : ts.getLast? = some (first + n * step)) :
    ∃ (parts obs : List (List ℤ)), parts.length = n ∧ parts.flatten = ts ∧
      (∀ (i : Nat) (p : List ℤ), parts[i]? = some p →
        ∀ t : ℤ, t ∈ p → (first + i * step < t ∨ i = 0) ∧ t ≤ first + (i + 1) * step) ∧
      obs.length = n ∧ obs[0]? = parts[0]? ∧
      (∀ (i : Nat) (o p : List ℤ), obs[i]? = some o → parts[i + 1]? = some p →
        obs[i + 1]? = some (o.drop (o.length - overlap) ++ p)) ∧
      splitInt ts n overlap = if ∀ o ∈ obs, 2 ≤ o.length then .ok obs else .error .valueError := by
  have hlt : first < first + n * step := by
    match ts, h2, hs, hf, hl with
    | x :: y :: l, _, hs, hf, hl =>
      simp at hf; subst hf
      rw [List.getLast?_cons_cons] at hl
      exact (List.pairwise_cons.1 hs).1 _ (List.mem_of_getLast? hl)
  have hn : n ≠ 0 := by rintro rfl; simp at hlt
  have hn0 : (0 : ℤ) < n := by omega
  have hpos : 0 < step := by
    by_contra h
    have : (n : ℤ) * step ≤ 0 := mul_nonpos_of_nonneg_of_nonpos hn0.le (by omega)
    omega
  have hdr : divRound (first + n * step - first) n = step := by
    unfold divRound
    have : first + n * step - first = n * step := by ring
    simp only [this, Int.mul_ediv_cancel_left step hn0.ne', Int.mul_emod_right]
    rw [if_pos (Or.inl (by omega))]
  obtain ⟨parts, obs, p1, p2, p3, p4, p5, p6, p7⟩ :=
    split_int ts n overlap hs h2 first (first + n * step) hf hl hn step hdr.symm hpos
  have hq : (first + n * step - first) / step = n := by
    have : first + n * step - first = n * step := by ring
    rw [this, Int.mul_ediv_cancel _ hpos.ne']
  rw [hq] at p1 p2
  have hl' : parts.length = n := by exact_mod_cast p1
  refine ⟨parts, obs, hl', ?_, p3, by rw [p4, hl'], p5, p6, p7⟩
  rw [p2, List.filter_eq_self]
  intro t ht
  obtain ⟨i, hi, rfl⟩ := List.getElem_of_mem ht
  have e2 : first + n * step = ts[ts.length - 1] := by
    rw [List.getLast?_eq_getElem?, List.getElem?_eq_getElem (by omega)] at hl
    exact (Option.some.inj hl).symm
  simp only [decide_eq_true_eq, e2]
  by_cases h : i = ts.length - 1
  · subst h; exact le_refl _
  · exact (List.pairwise_iff_getElem.1 hs i (ts.length - 1) hi (by omega) (by omega)).le

/-- C40 fails for a number of parts in general: with 11 images one second apart, the last one is lost when splitting
into 3 parts (the step 10 s / 3 is rounded down to a microsecond). -/
theorem split_int_violated :
    splitInt ((List.range 11).map fun i : Nat => (i : ℤ) * 1000000) 3 1 =
      .ok [[0, 1000000, 2000000, 3000000], [3000000, 4000000, 5000000, 6000000],
        [6000000, 7000000, 8000000, 9000000]] := by decide +kernel

/-- ... and with 21 images one second apart, splitting into 3 parts returns only 2 observers (the step is rounded up) and
loses a third of the images. -/
theorem split_int_violated' :
    (splitInt ((List.range 21).map fun i : Nat => (i : ℤ) * 1000000) 3 0).map
      (fun obs => (obs.length, obs.flatten.length)) = .ok (2, 14) := by decide +kernel

/-- Non-vacuity: both overlap modes and a break before the first image. -/
example : splitBreaks [0, 1, 2, 3, 4, 5, 6] [3] 1 = .ok [[0, 1, 2, 3], [3, 4, 5, 6]] := by decide +kernel
example : splitBreaks [0, 1, 2, 3, 4, 5, 6] [3, 3] 0 = .ok [[0, 1, 2, 3], [4, 5, 6]] := by decide +kernel
example : splitBreaks [0, 1, 2, 3, 4, 5, 6] [3] 9 = .ok [[0, 1, 2, 3], [0, 1, 2, 3, 4, 5, 6]] := by decide +kernel
example : splitBreaks [0, 1, 2, 3] [-5] 1 = .error .valueError := by decide +kernel
example : splitInt [0, 1, 2, 3, 4, 5, 6] 2 1 = .ok [[0, 1, 2, 3], [3, 4, 5, 6]] := by decide +kernel

/-! ### index -/

/-- `Observer.index` for a datetime returns an image at minimal time distance, and raises ValueError
exactly when that distance exceeds `|maxdt|`. -/
theorem index_spec (ts : List ℤ) (value : ℤ) (maxdt : Option ℤ) (h0 : ts ≠ []) :
    ∃ (i : Nat) (hi : i < ts.length), (∀ (j : Nat) (hj : j < ts.length), |value - ts[i]| ≤ |value - ts[j]|) ∧
      index ts value maxdt =
        if ∃ m ∈ maxdt, |m| < |value - ts[i]| then .error .valueError else .ok i := by
  obtain ⟨k, m, h1, h2, h3⟩ := Tracker.argMin_spec (Tracker.distances value ts) (by simpa [Tracker.distances] using h0)
  unfold Tracker.distances at h2
  rw [List.getElem?_map] at h2
  have hk : k < ts.length := by
    by_contra h
    rw [List.getElem?_eq_none (by omega)] at h2; cases h2
  rw [List.getElem?_eq_getElem hk] at h2
  have hm : |value - ts[k]| = m := by simpa using h2
  refine ⟨k, hk, ?_, ?_⟩
  · intro j hj
    rw [hm]
    exact h3 _ (List.mem_map.2 ⟨ts[j], List.getElem_mem hj, rfl⟩)
  · unfold index
    rw [h1, hm]
    cases maxdt with
    | none => simp
    | some x => simp

end Glimpse.Observer
