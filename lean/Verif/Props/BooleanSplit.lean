import Verif.Model.Lists
import Mathlib.Data.List.Chain

/-!
C03: `boolean_split`.
-/
set_option linter.unusedSimpArgs false

namespace Glimpse

/-- Spec: `runs` is *the* decomposition of the rows `a` and their mask into maximal runs: every run is
non-empty, consecutive runs have opposite mask values, the rows are those of `a` in order, and the
mask is the run values repeated. (`Runs a mask` is unique: see `runs_unique`.) -/
structure IsRuns {α : Type} (a : List α) (mask : List Bool) (runs : List (Bool × List α)) : Prop where
  nonempty : ∀ r ∈ runs, r.2 ≠ []
  alternate : runs.IsChain (fun r s => r.1 ≠ s.1)
  rows : (runs.map (·.2)).flatten = a
  mask : (runs.map (fun r => List.replicate r.2.length r.1)).flatten = mask

/-! ### Helper lemmas -/

private theorem splitCuts_cons (b : Bool) (c : Bool) (m : List Bool) :
    splitCuts (b :: c :: m) =
      if c = b then (splitCuts (c :: m)).map (· + 1) else 1 :: (splitCuts (c :: m)).map (· + 1) := by
  unfold splitCuts
  have h : (b :: c :: m).length - 1 = (c :: m).length - 1 + 1 := by simp
  rw [h, List.range_succ_eq_map, List.filter_cons]
  have hf : List.filter (fun i => (b :: c :: m)[i + 1]? != (b :: c :: m)[i]?)
        (List.map Nat.succ (List.range ((c :: m).length - 1))) =
      (List.filter (fun i => (c :: m)[i + 1]? != (c :: m)[i]?)
        (List.range ((c :: m).length - 1))).map Nat.succ := by
    rw [List.filter_map]
    congr 1
  rw [hf]
  by_cases hbc : c = b
  · subst hbc; simp
  · simp [hbc]

private theorem splitAtCuts_shift {α : Type} (x : α) (a : List α) (cs : List Nat) (p : Nat) :
    splitAtCuts (x :: a) (cs.map (· + 1)) (p + 1) = splitAtCuts a cs p := by
  induction cs generalizing p with
  | nil => simp [splitAtCuts]
  | cons c cs ih => simp [splitAtCuts, ih, Nat.add_sub_add_right]

private theorem splitAtCuts_ne_nil {α : Type} (a : List α) (cs : List Nat) (p : Nat) :
    splitAtCuts a cs p ≠ [] := by
  cases cs <;> simp [splitAtCuts]

private theorem splitAtCuts_cons_zero {α : Type} (x : α) (a : List α) (cs : List Nat) :
    ∃ s rest, splitAtCuts a cs 0 = s :: rest ∧
      splitAtCuts (x :: a) (cs.map (· + 1)) 0 = (x :: s) :: rest := by
  cases cs with
  | nil => exact ⟨a, [], by simp [splitAtCuts], by simp [splitAtCuts]⟩
  | cons c cs =>
    refine ⟨a.take c, splitAtCuts a cs c, by simp [splitAtCuts], ?_⟩
    simp [splitAtCuts, splitAtCuts_shift]

/-- The index-based cuts of the code produce the runs. -/
private theorem split_isRuns {α : Type} (a : List α) (mask : List Bool) (h : a.length = mask.length)
    (hne : mask ≠ []) :
    ∃ runs, IsRuns a mask runs ∧ splitAtCuts a (splitCuts mask) 0 = runs.map (·.2) ∧
      runs.head?.map (·.1) = mask.head? ∧ runs.getLast?.map (·.1) = mask.getLast? := by
  induction mask generalizing a with
  | nil => exact absurd rfl hne
  | cons b m ih =>
    match a, h with
    | x :: a, h =>
      cases m with
      | nil =>
        have ha : a = [] := List.length_eq_zero_iff.mp (by simpa using h)
        subst ha
        refine ⟨[(b, [x])], ⟨by simp, by simp, by simp, by simp⟩, ?_, by simp, by simp⟩
        simp [splitCuts, splitAtCuts]
      | cons c m =>
        obtain ⟨runs, hr, hs, hh, hl⟩ := ih a (by simpa using h) (by simp)
        match runs, hr, hs, hh, hl with
        | [], hr, hs, hh, hl => simp at hh
        | (d, s) :: runs, hr, hs, hh, hl =>
          have hd : d = c := by simpa using hh
          subst hd
          have hlast : (b :: d :: m).getLast? = (d :: m).getLast? := by simp
          rw [splitCuts_cons]
          by_cases hdb : d = b
          · subst hdb
            obtain ⟨s', rest, e1, e2⟩ := splitAtCuts_cons_zero x a (splitCuts (d :: m))
            rw [hs] at e1
            simp only [List.map_cons, List.cons.injEq] at e1
            obtain ⟨rfl, rfl⟩ := e1
            refine ⟨(d, x :: s) :: runs, ⟨?_, ?_, ?_, ?_⟩, ?_, by simp, ?_⟩
            · intro r hr'
              rcases List.mem_cons.mp hr' with rfl | hr'
              · simp
              · exact hr.nonempty r (List.mem_cons_of_mem _ hr')
            · have := hr.alternate
              cases runs with
              | nil => simp
              | cons r rs => simpa [List.isChain_cons_cons] using this
            · have := hr.rows; simp at this ⊢; exact this
            · have := hr.mask
              simp only [List.map_cons, List.flatten_cons, List.length_cons, List.replicate_succ,
                List.cons_append] at this ⊢
              rw [this]
            · simp only [if_true]; rw [e2]; simp
            · rw [hlast, ← hl]
              cases runs <;> simp
          · refine ⟨(b, [x]) :: (d, s) :: runs, ⟨?_, ?_, ?_, ?_⟩, ?_, by simp, ?_⟩
            · intro r hr'
              rcases List.mem_cons.mp hr' with rfl | hr'
              · simp
              · exact hr.nonempty r hr'
            · rw [List.isChain_cons_cons]
              exact ⟨fun e => hdb e.symm, hr.alternate⟩
            · have := hr.rows; simp at this ⊢; exact this
            · have := hr.mask
              simp only [List.map_cons, List.flatten_cons] at this ⊢
              rw [this]; simp
            · simp only [hdb, if_false, splitAtCuts, splitAtCuts_shift, hs]
              simp
            · rw [hlast, ← hl]; simp

private theorem everyOther_alternating {α : Type} (runs : List (Bool × List α))
    (h : runs.IsChain (fun r s => r.1 ≠ s.1)) (b : Bool) :
    (runs.head?.map (·.1) = some b → everyOther (runs.map (·.2)) =
      (runs.filter (·.1 == b)).map (·.2)) ∧
    (runs.head?.map (·.1) = some (!b) → everyOther (runs.map (·.2)).tail =
      (runs.filter (·.1 == b)).map (·.2)) := by
  induction runs generalizing b with
  | nil => simp
  | cons r runs ih =>
    obtain ⟨c, s⟩ := r
    have hch : runs.IsChain (fun r s => r.1 ≠ s.1) := h.tail
    constructor
    · intro hb
      have : c = b := by simpa using hb
      subst this
      cases runs with
      | nil => simp [everyOther]
      | cons r' runs =>
        obtain ⟨c', s'⟩ := r'
        have hcc : c' = !c := by
          have := (List.isChain_cons_cons.mp h).1
          cases c <;> cases c' <;> simp_all
        have := (ih hch c).2 (by simp [hcc])
        simp only [List.map_cons, List.tail_cons] at this
        simp only [List.map_cons, everyOther, List.filter_cons, beq_self_eq_true, if_true]
        have hne : (c' == c) = false := by subst hcc; cases c <;> rfl
        simp only [List.filter_cons, hne] at this
        simp only [hne]
        simpa using this
    · intro hb
      have hcb : c = !b := by simpa using hb
      have hne : (c == b) = false := by subst hcb; cases b <;> rfl
      simp only [List.map_cons, List.tail_cons, List.filter_cons, hne]
      cases runs with
      | nil => simp [everyOther]
      | cons r' runs =>
        obtain ⟨c', s'⟩ := r'
        have hcc : c' = b := by
          have : c ≠ c' := (List.isChain_cons_cons.mp h).1
          clear ih hch h hb hne; revert this hcb; revert c c' b; decide
        simpa using (ih hch b).1 (by simp [hcc])

/-! ### Property theorems -/

/-- The run decomposition is unique, so the specification determines the result completely. -/
theorem runs_unique {α : Type} (a : List α) (mask : List Bool) (r s : List (Bool × List α))
    (hr : IsRuns a mask r) (hs : IsRuns a mask s) : r = s := by
  induction r generalizing a mask s with
  | nil =>
    cases s with
    | nil => rfl
    | cons q s =>
      have h1 := hr.rows; have h2 := hs.rows
      have h3 := hs.nonempty q List.mem_cons_self
      simp at h1 h2; subst h1
      simp at h2; exact absurd h2.1 h3
  | cons p r ih =>
    cases s with
    | nil =>
      have h1 := hr.rows; have h2 := hs.rows
      have h3 := hr.nonempty p List.mem_cons_self
      simp at h1 h2; subst h2
      simp at h1; exact absurd h1.1 h3
    | cons q s =>
      -- compare the lengths of the first runs using the masks
      have key : ∀ (p q : Bool × List α) (r s : List (Bool × List α)) (a : List α) (mask : List Bool),
          IsRuns a mask (p :: r) → IsRuns a mask (q :: s) → p.2.length ≤ q.2.length →
          p.1 = q.1 ∧ ¬ p.2.length < q.2.length := by
        intro p q r s a mask hp hq hle
        have mp := hp.mask; have mq := hq.mask
        have np := hp.nonempty p List.mem_cons_self
        have nq := hq.nonempty q List.mem_cons_self
        have lp : 0 < p.2.length := List.length_pos_iff.mpr np
        simp only [List.map_cons, List.flatten_cons] at mp mq
        have e0 : p.1 = q.1 := by
          have h1 : mask[0]? = some p.1 := by
            rw [← mp, List.getElem?_append_left (by simpa using lp), List.getElem?_replicate_of_lt lp]
          have h2 : mask[0]? = some q.1 := by
            rw [← mq, List.getElem?_append_left (by simp; omega), List.getElem?_replicate_of_lt (by omega)]
          simpa [h1] using h2
        refine ⟨e0, fun hlt => ?_⟩
        cases r with
        | nil =>
          have l1 := congrArg List.length mp; have l2 := congrArg List.length mq
          simp at l1 l2; omega
        | cons p' r =>
          have np' := hp.nonempty p' (by simp)
          have lp' : 0 < p'.2.length := List.length_pos_iff.mpr np'
          have h1 : mask[p.2.length]? = some p'.1 := by
            rw [← mp, List.getElem?_append_right (by simp)]
            simp only [List.length_replicate, Nat.sub_self, List.map_cons, List.flatten_cons]
            rw [List.getElem?_append_left (by simpa using lp'), List.getElem?_replicate_of_lt lp']
          have h2 : mask[p.2.length]? = some q.1 := by
            rw [← mq, List.getElem?_append_left (by simpa using hlt), List.getElem?_replicate_of_lt hlt]
          have h3 := (List.isChain_cons_cons.mp hp.alternate).1
          rw [h1] at h2
          injection h2 with h2
          exact h3 (e0.trans h2.symm)
      have hpq : p.1 = q.1 ∧ p.2.length = q.2.length := by
        rcases Nat.le_total p.2.length q.2.length with h | h
        · have := key p q r s a mask hr hs h; exact ⟨this.1, by omega⟩
        · have := key q p s r a mask hs hr h; exact ⟨this.1.symm, by omega⟩
      have rp := hr.rows; have rq := hs.rows
      simp only [List.map_cons, List.flatten_cons] at rp rq
      have h2 := List.append_inj (rp.trans rq.symm) hpq.2
      have mp := hr.mask; have mq := hs.mask
      simp only [List.map_cons, List.flatten_cons] at mp mq
      have h3 := List.append_inj (mp.trans mq.symm) (by simp [hpq.2])
      have := ih (r.map (·.2)).flatten (r.map (fun r => List.replicate r.2.length r.1)).flatten s
        ⟨fun x hx => hr.nonempty x (List.mem_cons_of_mem _ hx), hr.alternate.tail, rfl, rfl⟩
        ⟨fun x hx => hs.nonempty x (List.mem_cons_of_mem _ hx), hs.alternate.tail, h2.2.symm, h3.2.symm⟩
      subst this
      congr 1
      exact Prod.ext hpq.1 h2.1

/-- Spec: the pieces kept by an `include` argument out of labelled pieces. -/
def keepPieces {α : Type} (incl : Include) (pieces : List (Bool × List α)) : List (List α) :=
  match incl with
  | .all => pieces.map (·.2)
  | .true => (pieces.filter (·.1 == true)).map (·.2)
  | .false => (pieces.filter (·.1 == false)).map (·.2)
  | .bad => []

private theorem select_alternating {α : Type} (pieces : List (Bool × List α)) (m : List Bool)
    (hm : pieces.head?.map (·.1) = m.head?) (hne : m ≠ [])
    (h : pieces.IsChain (fun r s => r.1 ≠ s.1)) (incl : Include) :
    (match incl with
      | .all => Except.ok (pieces.map (·.2))
      | .true => match m.head? with
        | none => Except.error Err.indexError
        | some b => Except.ok (if b then everyOther (pieces.map (·.2)) else everyOther (pieces.map (·.2)).tail)
      | .false => match m.head? with
        | none => Except.error Err.indexError
        | some b => Except.ok (if b then everyOther (pieces.map (·.2)).tail else everyOther (pieces.map (·.2)))
      | .bad => Except.ok []) = Except.ok (keepPieces incl pieces) := by
  match m, hne with
  | b :: m, _ =>
    cases incl <;> cases b <;> simp only [keepPieces, List.head?_cons, Bool.false_eq_true, if_false, if_true]
    · rw [(everyOther_alternating pieces h true).2 (by simpa using hm)]
    · rw [(everyOther_alternating pieces h true).1 (by simpa using hm)]
    · rw [(everyOther_alternating pieces h false).1 (by simpa using hm)]
    · rw [(everyOther_alternating pieces h false).2 (by simpa using hm)]

/-- C03. For rows and mask of equal, positive length, `boolean_split` returns the maximal runs:
all of them, or exactly those with mask value true / false, in order. -/
theorem boolean_split_runs {α : Type} (a : List α) (mask : List Bool) (h : a.length = mask.length)
    (hne : mask ≠ []) (incl : Include) :
    ∃ runs, IsRuns a mask runs ∧ booleanSplit a mask false incl = .ok (keepPieces incl runs) := by
  obtain ⟨runs, hr, hs, hh, hl⟩ := split_isRuns a mask h hne
  refine ⟨runs, hr, ?_⟩
  unfold booleanSplit
  simp only [hs, Bool.false_and, Bool.false_eq_true, if_false]
  exact select_alternating runs mask hh hne hr.alternate incl

/-- C03 (circular). With `circular=True` and more than one run, the last run is moved in front of the first
one and merged with it exactly when both have the same mask value; otherwise the runs are as before. -/
theorem boolean_split_circular {α : Type} (a : List α) (mask : List Bool) (h : a.length = mask.length)
    (hne : mask ≠ []) (incl : Include) :
    (∃ v s runs t, IsRuns a mask ((v, s) :: (runs ++ [(v, t)])) ∧
      booleanSplit a mask true incl = .ok (keepPieces incl ((v, t ++ s) :: runs))) ∨
    (∃ runs, IsRuns a mask runs ∧
      (runs.length = 1 ∨ runs.head?.map (·.1) ≠ runs.getLast?.map (·.1)) ∧
      booleanSplit a mask true incl = .ok (keepPieces incl runs)) := by
  obtain ⟨runs, hr, hs, hh, hl⟩ := split_isRuns a mask h hne
  by_cases hc : 1 < runs.length ∧ mask.head? = mask.getLast?
  · left
    obtain ⟨h1, h2⟩ := hc
    match runs, hr, hs, hh, hl, h1 with
    | r :: r' :: rs, hr, hs, hh, hl, h1 =>
      obtain ⟨v, s⟩ := r
      obtain ⟨mid, ⟨w, t⟩, hmid⟩ : ∃ mid l, r' :: rs = mid ++ [l] :=
        ⟨(r' :: rs).dropLast, (r' :: rs).getLast (by simp), (List.dropLast_append_getLast _).symm⟩
      rw [hmid] at hr hs hl
      have hv : v = w := by
        have e1 : some v = mask.head? := by simpa using hh
        have e2 : some w = mask.getLast? := by simpa [List.getLast?_cons, List.getLast?_append] using hl
        have := e1.trans (h2.trans e2.symm)
        simpa using this
      subst hv
      refine ⟨v, s, mid, t, hr, ?_⟩
      have hlen : 1 < (splitAtCuts a (splitCuts mask) 0).length := by rw [hs]; simp
      have hch : ((v, t ++ s) :: mid).IsChain (fun r s => r.1 ≠ s.1) := by
        have hA := hr.alternate
        cases mid with
        | nil => simp
        | cons m0 mid =>
          rw [List.cons_append, List.isChain_cons_cons] at hA
          rw [List.isChain_cons_cons]
          exact ⟨hA.1, (List.isChain_append.mp hA.2).1⟩
      have hsel := select_alternating ((v, t ++ s) :: mid) mask (by simpa using hh) hne hch incl
      rw [← hsel]
      unfold booleanSplit
      simp only
      rw [if_pos (by simp [hlen, h2]), hs]
      cases incl <;> simp [List.getLast?_cons, List.getLast?_append] <;> rfl
  · right
    refine ⟨runs, hr, ?_, ?_⟩
    · by_cases h1 : 1 < runs.length
      · right
        rw [hh, hl]; exact fun e => hc ⟨h1, e⟩
      · left
        have : runs ≠ [] := by rintro rfl; simp at hh; exact hne (by simpa using hh.symm)
        have := List.length_pos_iff.mpr this
        omega
    · have hcond : (true && decide (1 < (splitAtCuts a (splitCuts mask) 0).length) &&
          (mask.head? == mask.getLast?)) = false := by
        rw [hs]
        simp only [List.length_map, Bool.true_and, Bool.and_eq_false_iff, decide_eq_false_iff_not,
          beq_eq_false_iff_ne, ne_eq]
        by_cases h1 : 1 < runs.length
        · exact Or.inr (fun e => hc ⟨h1, e⟩)
        · exact Or.inl h1
      unfold booleanSplit
      simp only
      rw [if_neg (by rw [hcond]; decide), hs]
      exact select_alternating runs mask hh hne hr.alternate incl

-- Non-vacuity (the docstring's example).
example : booleanSplit [0, 1, 2, 3, 4] [true, true, false, false, true] false .all
    = .ok [[0, 1], [2, 3], [4]] := by decide
example : booleanSplit [0, 1, 2, 3, 4] [true, true, false, false, true] true .all
    = .ok [[4, 0, 1], [2, 3]] := by decide
example : booleanSplit [0, 1, 2, 3, 4] [true, true, false, false, true] true .true
    = .ok [[4, 0, 1]] := by decide
example : IsRuns [0, 1, 2] [true, true, false] [(true, [0, 1]), (false, [2])] :=
  ⟨by decide, by simp, rfl, rfl⟩

end Glimpse
