import Verif.Model.CamsResiduals
import Verif.Lemmas.ExceptList
import Mathlib.Algebra.Order.Field.Rat
import Mathlib.Tactic.Linarith
import Mathlib.Data.List.GetD
import Mathlib.Tactic.Ring
import Mathlib.Tactic.NormNum

/-!
C104: residuals of cameras, and the arguments of the optimizer.
-/
set_option autoImplicit false
set_option linter.unusedSimpArgs false
set_option linter.unusedSectionVars false

namespace Glimpse.Cams

variable {V W E : Type} [Field E]

/-- Controls whose arrays have matching lengths and whose cameras pass their tests. -/
def Fine (cs : List (Ctl V W E)) (v : V) : Prop :=
  cs ≠ [] ∧ ∀ c ∈ cs, c.obs.length = c.src.length ∧ ∃ f, c.proj v = .ok f

/-- Prediction of one row, if the control's tests pass. -/
def rowOf (c : Ctl V W E) (v : V) (s : W) : E × E := match c.proj v with
  | .ok f => f s
  | .error _ => (0, 0)

/-- Specification: all observations, all predictions, all residuals, control after control. -/
def allObs (cs : List (Ctl V W E)) : List (E × E) := cs.flatMap fun c => c.obs
def allPred (cs : List (Ctl V W E)) (v : V) : List (E × E) := cs.flatMap fun c => c.src.map (rowOf c v)

theorem mapM_map_ok {ι γ δ : Type} (f : γ → δ) (F : ι → Except Err γ) (is : List ι) :
    (is.mapM fun i => Except.map f (F i)) = (is.mapM F).map (List.map f) := by
  induction is with
  | nil => rfl
  | cons i is ih =>
    simp only [List.mapM_cons, ih, bind, Except.bind, pure, Except.pure]
    cases F i with
    | error e => rfl
    | ok x => cases List.mapM F is <;> rfl

theorem pick_map {γ δ : Type} (f : γ → δ) (l : List γ) (index : Idx) :
    pick (l.map f) index = (pick l index).map (List.map f) := by
  cases index with
  | all => rfl
  | ints is =>
    unfold pick
    have key : pickOne (l.map f) = fun i => Except.map f (pickOne l i) := by
      funext i
      unfold pickOne
      rw [List.length_map]
      cases resolveIn l.length i with
      | none => rfl
      | some k =>
        simp only [Option.bind_some, List.getElem?_map]
        cases l[k]? <;> rfl
    rw [key]
    exact mapM_map_ok f (pickOne l) is
  | mask m =>
    unfold pick
    simp only [List.length_map]
    split
    · simp only [Except.map]
      congr 1
      rw [List.zip_map_left, List.filter_map, List.map_map, List.map_map]
      rfl
    · rfl

private theorem pick_zip {γ δ : Type} (l : List γ) (m : List δ) (h : l.length = m.length) (index : Idx) (a : List γ)
    (b : List δ) (ha : pick l index = .ok a) (hb : pick m index = .ok b) : pick (l.zip m) index = .ok (a.zip b) := by
  have h1 : (l.zip m).map Prod.fst = l := List.map_fst_zip (by omega)
  have h2 : (l.zip m).map Prod.snd = m := List.map_snd_zip (by omega)
  rw [← h1, pick_map] at ha
  rw [← h2, pick_map] at hb
  cases hz : pick (l.zip m) index with
  | error e => rw [hz] at ha; cases ha
  | ok z =>
    rw [hz] at ha hb
    have ha := Except.ok.inj ha
    have hb := Except.ok.inj hb
    subst ha; subst hb
    exact congrArg _ (List.zip_of_prod rfl rfl)

private theorem pick_same_length {γ δ : Type} (l : List γ) (m : List δ) (h : l.length = m.length) (index : Idx)
    (a : List γ) (ha : pick l index = .ok a) : ∃ b, pick m index = .ok b ∧ b.length = a.length := by
  have h1 : (l.zip m).map Prod.fst = l := List.map_fst_zip (by omega)
  have h2 : (l.zip m).map Prod.snd = m := List.map_snd_zip (by omega)
  rw [← h1, pick_map] at ha
  cases hz : pick (l.zip m) index with
  | error e => rw [hz] at ha; cases ha
  | ok z =>
    rw [hz] at ha
    have ha := Except.ok.inj ha
    subst ha
    refine ⟨z.map Prod.snd, ?_, by simp⟩
    rw [← h2, pick_map, hz]
    rfl

private theorem pick_error {γ δ : Type} (l : List γ) (m : List δ) (h : l.length = m.length) (index : Idx) (e : Err)
    (ha : pick l index = .error e) : pick m index = .error e := by
  have h1 : (l.zip m).map Prod.fst = l := List.map_fst_zip (by omega)
  have h2 : (l.zip m).map Prod.snd = m := List.map_snd_zip (by omega)
  rw [← h1, pick_map] at ha
  rw [← h2, pick_map]
  cases hz : pick (l.zip m) index with
  | error e' => rw [hz] at ha; cases ha; rfl
  | ok z => rw [hz] at ha; cases ha

theorem pick_one_iff {γ : Type} (l : List γ) (i : ℤ) (x : γ) :
    pickOne l i = .ok x ↔ (∃ k : Nat, i = k ∧ l[k]? = some x) ∨ ∃ k : Nat, i = k - (l.length : ℤ) ∧ k < l.length ∧ l[k]? = some x := by
  unfold pickOne resolveIn
  by_cases h1 : 0 ≤ i ∧ i < l.length
  · obtain ⟨k, rfl⟩ := Int.eq_ofNat_of_zero_le h1.1
    have hk : k < l.length := by exact_mod_cast h1.2
    simp only [h1, and_self, if_true, Option.bind_some, Int.toNat_natCast]
    rw [List.getElem?_eq_getElem hk]
    constructor
    · intro h
      exact Or.inl ⟨k, rfl, by rw [List.getElem?_eq_getElem hk]; exact congrArg some (Except.ok.inj h)⟩
    · rintro (⟨j, hj, h⟩ | ⟨j, hj, hj', h⟩)
      · have : k = j := by exact_mod_cast hj
        subst this
        rw [List.getElem?_eq_getElem hk] at h
        exact congrArg _ (Option.some.inj h)
      · omega
  · rw [if_neg h1]
    by_cases h2 : -(l.length : ℤ) ≤ i ∧ i < 0
    · rw [if_pos h2]
      have hk : (i + l.length).toNat < l.length := by omega
      simp only [Option.bind_some]
      rw [List.getElem?_eq_getElem hk]
      constructor
      · intro h
        exact Or.inr ⟨(i + l.length).toNat, by omega, hk, by rw [List.getElem?_eq_getElem hk]; exact congrArg some (Except.ok.inj h)⟩
      · rintro (⟨j, hj, h⟩ | ⟨j, hj, hj', h⟩)
        · omega
        · have : (i + l.length).toNat = j := by omega
          subst this
          rw [List.getElem?_eq_getElem hk] at h
          exact congrArg _ (Option.some.inj h)
    · rw [if_neg h2]
      constructor
      · intro h; cases h
      · rintro (⟨j, hj, h⟩ | ⟨j, hj, hj', h⟩)
        · have := (List.getElem?_eq_some_iff.1 h).1
          omega
        · omega

/-- C104: what an index selects: everything; the elements at integers, counted from the end if negative, of which each must
exist; or the elements that a mask marks, which must have as many values. Anything else raises IndexError. -/
theorem index_meaning {γ : Type} (l : List γ) :
    pick l .all = .ok l ∧
    (∀ is r, pick l (.ints is) = .ok r ↔ List.Forall₂ (fun (i : ℤ) x => (∃ k : Nat, i = k ∧ l[k]? = some x) ∨
      ∃ k : Nat, i = k - (l.length : ℤ) ∧ k < l.length ∧ l[k]? = some x) is r) ∧
    (∀ m r, pick l (.mask m) = .ok r ↔ m.length = l.length ∧ r = ((l.zip m).filter fun x => x.2).map Prod.fst) ∧
    (∀ index e, pick l index = .error e → e = .indexError) := by
  have one_err : ∀ i e, pickOne l i = .error e → e = .indexError := by
    intro i e h
    unfold pickOne at h
    split at h
    · cases h
    · cases h; rfl
  refine ⟨rfl, fun is r => ?_, fun m r => ?_, fun index e h => ?_⟩
  · show is.mapM (pickOne l) = .ok r ↔ _
    induction is generalizing r with
    | nil =>
      constructor
      · intro h; cases h; exact .nil
      · intro h; cases h; rfl
    | cons i is ih =>
      rw [List.mapM_cons]
      constructor
      · intro h
        cases h1 : pickOne l i with
        | error e => rw [h1] at h; cases h
        | ok x =>
          cases h2 : is.mapM (pickOne l) with
          | error e => rw [h1, h2] at h; cases h
          | ok xs =>
            rw [h1, h2] at h
            cases h
            exact .cons ((pick_one_iff l i x).1 h1) ((ih xs).1 h2)
      · intro h
        cases h with
        | cons h1 h2 =>
          rw [(pick_one_iff l i _).2 h1, (ih _).2 h2]
          rfl
  · simp only [pick]
    by_cases h : m.length = l.length
    · rw [if_pos h]
      exact ⟨fun e => ⟨h, (Except.ok.inj e).symm⟩, fun e => by rw [e.2]⟩
    · rw [if_neg h]
      exact ⟨fun e => (by cases e), fun e => absurd e.1 h⟩
  · cases index with
    | all => cases h
    | ints is =>
      replace h : is.mapM (pickOne l) = .error e := h
      induction is with
      | nil => cases h
      | cons i is ih =>
        rw [List.mapM_cons] at h
        cases h1 : pickOne l i with
        | error e' => rw [h1] at h; cases h; exact one_err _ _ h1
        | ok x =>
          cases h2 : is.mapM (pickOne l) with
          | error e' => rw [h1, h2] at h; cases h; exact ih h2
          | ok xs => rw [h1, h2] at h; cases h
    | mask m =>
      simp only [pick] at h
      split at h
      · cases h
      · cases h; rfl

example : pick [10, 20, 30] (.ints [-1, 0]) = .ok [30, 10] ∧ pick [10, 20, 30] (.mask [true, false, true]) = .ok [10, 30] ∧
    pick [10, 20, 30] (.mask [true]) = .error .indexError := by decide +kernel

private theorem pred_all (cs : List (Ctl V W E)) (v : V) (h : ∀ c ∈ cs, ∃ f, c.proj v = .ok f) :
    (cs.mapM fun c => c.predicted v .all) = .ok (cs.map fun c => c.src.map (rowOf c v)) := by
  refine mapM_ok _ _ _ fun c hc => ?_
  obtain ⟨f, hf⟩ := h c hc
  unfold Ctl.predicted
  simp only [hf, bind, Except.bind, pick]
  congr 1
  refine List.map_congr_left fun s _ => ?_
  unfold rowOf
  rw [hf]

/-- C104. Observations and predictions for an index are the rows at that index of those of all controls one after another,
with one control as with several. -/
theorem rows_at_index (cs : List (Ctl V W E)) (v : V) (h : Fine cs v) (index : Idx) :
    observed cs index = pick (allObs cs) index ∧ predictedAt cs v index = pick (allPred cs v) index ∧
    (allObs cs).length = sizeOf_ cs ∧ (allPred cs v).length = sizeOf_ cs := by
  obtain ⟨hne, hc⟩ := h
  refine ⟨?_, ?_, ?_, ?_⟩
  · match cs, hne with
    | [c], _ => simp [observed, Ctl.observed, allObs]
    | c :: d :: cs, _ =>
      unfold observed
      simp only
      have : ((c :: d :: cs).mapM fun c => c.observed .all) = (.ok ((c :: d :: cs).map fun c => c.obs)) :=
        mapM_ok _ _ _ fun c _ => rfl
      rw [this]
      simp only [bind, Except.bind]
      congr 1
  · match cs, hne with
    | [c], _ =>
      obtain ⟨f, hf⟩ := (hc c (by simp)).2
      unfold predictedAt
      simp only
      unfold Ctl.predicted allPred
      simp only [hf, bind, Except.bind, List.flatMap_cons, List.flatMap_nil, List.append_nil]
      have hfun : rowOf c v = f := by funext s; unfold rowOf; rw [hf]
      rw [hfun, pick_map]
      cases pick c.src index <;> rfl
    | c :: d :: cs, _ =>
      unfold predictedAt
      simp only
      rw [pred_all _ _ (fun c h => (hc c h).2)]
      simp only [bind, Except.bind]
      congr 1
  · simp [allObs, sizeOf_, List.length_flatMap]
  · simp only [allPred, sizeOf_, List.length_flatMap, List.length_map]
    congr 1
    refine List.map_congr_left fun c h => ?_
    exact (hc c h).1.symm

/-- C104. Without controls there are no arrays to stack: observations, predictions and residuals raise ValueError. -/
theorem no_controls_raise (weights : Option (List E)) (v : V) (index : Idx) :
    observed ([] : List (Ctl V W E)) index = .error .valueError ∧
    predictedAt ([] : List (Ctl V W E)) v index = .error .valueError ∧
    residuals ([] : List (Ctl V W E)) weights v index = .error .valueError := ⟨rfl, rfl, rfl⟩

/-- Specification: every residual, times its weight. -/
def allResiduals (cs : List (Ctl V W E)) (weights : Option (List E)) (v : V) : List (E × E) :=
  let d := List.zipWith (fun (a b : E × E) => (a.1 - b.1, a.2 - b.2)) (allPred cs v) (allObs cs)
  match weights with
  | none => d
  | some w => List.zipWith (fun (x : E × E) (a : E) => (x.1 * a, x.2 * a)) d w

private theorem zipWith_as_map {γ δ ε : Type} (f : γ → δ → ε) (l : List γ) (m : List δ) :
    List.zipWith f l m = (l.zip m).map fun p => f p.1 p.2 := by
  rw [← List.map_uncurry_zip_eq_zipWith]; rfl

/-- C104. The residuals for an index are the rows at that index of all residuals: predicted minus observed, times the
weight of the observation if there is one weight for each. -/
theorem residuals_rows (cs : List (Ctl V W E)) (weights : Option (List E)) (v : V) (h : Fine cs v)
    (hw : ∀ w, weights = some w → w.length = sizeOf_ cs) (index : Idx) :
    residuals cs weights v index = pick (allResiduals cs weights v) index ∧
    (allResiduals cs weights v).length = sizeOf_ cs := by
  obtain ⟨ho, hp, lo, lp⟩ := rows_at_index cs v h index
  set d := List.zipWith (fun (a b : E × E) => (a.1 - b.1, a.2 - b.2)) (allPred cs v) (allObs cs) with hd
  have hdl : d.length = sizeOf_ cs := by rw [hd, List.length_zipWith, lo, lp, Nat.min_self]
  have hpd : ∀ a b, pick (allPred cs v) index = .ok a → pick (allObs cs) index = .ok b →
      pick d index = .ok (List.zipWith (fun (a b : E × E) => (a.1 - b.1, a.2 - b.2)) a b) := by
    intro a b ha hb
    rw [hd, zipWith_as_map, pick_map, pick_zip _ _ (by rw [lo, lp]) index a b ha hb, zipWith_as_map]
    rfl
  constructor
  · unfold residuals allResiduals
    rw [hp, ho]
    cases ha : pick (allPred cs v) index with
    | error e =>
      simp only [bind, Except.bind]
      cases weights with
      | none => exact (pick_error _ _ (by rw [lp, ← hdl]) index e ha).symm
      | some w =>
        simp only
        refine (pick_error _ _ ?_ index e ha).symm
        rw [List.length_zipWith, hw w rfl, lp]
        change _ = min d.length _
        rw [hdl, Nat.min_self]
    | ok a =>
      obtain ⟨b, hb, hbl⟩ := pick_same_length _ (allObs cs) (by rw [lo, lp]) index a ha
      rw [hb]
      simp only [bind, Except.bind]
      have hpick := hpd a b ha hb
      cases weights with
      | none => exact hpick.symm
      | some w =>
        simp only
        obtain ⟨u, hu, hul⟩ := pick_same_length _ w (by rw [lp, hw w rfl]) index a ha
        rw [hu]
        simp only
        unfold scaleRows
        rw [if_pos (by rw [hul, List.length_zipWith, hbl, Nat.min_self])]
        change _ = pick (List.zipWith _ d w) index
        rw [zipWith_as_map, zipWith_as_map _ d w, pick_map, pick_zip d w (by rw [hdl, hw w rfl]) index _ u hpick hu]
        rfl
  · unfold allResiduals
    cases weights with
    | none => exact hdl
    | some w =>
      simp only
      rw [List.length_zipWith, hw w rfl]
      change min d.length _ = _
      rw [hdl, Nat.min_self]

/-- C104. Errors are the Euclidean lengths of the residuals, also for an index: so the error of an observation does not
depend on which others are selected with it. -/
theorem errors_rows (cs : List (Ctl V W ℝ)) (weights : Option (List ℝ)) (v : V) (h : Fine cs v)
    (hw : ∀ w, weights = some w → w.length = sizeOf_ cs) (index : Idx) :
    errors cs weights v index =
      pick ((allResiduals cs weights v).map fun x => Real.sqrt (x.1 ^ 2 + x.2 ^ 2)) index := by
  unfold errors
  rw [(residuals_rows cs weights v h hw index).1, pick_map]
  cases pick (allResiduals cs weights v) index <;> rfl

/-- C104. As `ransac` uses it: for indices of observations, the errors are those of the single observations. -/
theorem errors_ransac (cs : List (Ctl V W ℝ)) (weights : Option (List ℝ)) (v : V) (h : Fine cs v)
    (hw : ∀ w, weights = some w → w.length = sizeOf_ cs) (idx : List Nat) (hi : ∀ i ∈ idx, i < sizeOf_ cs) :
    ∃ err : Nat → ℝ, errors cs weights v (.ints (idx.map fun (i : Nat) => (i : ℤ))) = .ok (idx.map err) ∧
      ∀ i ∈ idx, errors cs weights v (.ints [(i : ℤ)]) = .ok [err i] := by
  set L := (allResiduals cs weights v).map fun x => Real.sqrt (x.1 ^ 2 + x.2 ^ 2) with hL
  have hl : L.length = sizeOf_ cs := by rw [hL, List.length_map, (residuals_rows cs weights v h hw .all).2]
  have key : ∀ idx : List Nat, (∀ i ∈ idx, i < sizeOf_ cs) →
      pick L (.ints (idx.map fun (i : Nat) => (i : ℤ))) = .ok (idx.map fun i => L.getD i 0) := by
    intro idx hi
    unfold pick
    simp only
    rw [List.mapM_map]
    refine mapM_ok _ _ _ fun i hm => ?_
    have hlt := hi i hm
    have hr : resolveIn L.length (i : ℤ) = some i := by
      unfold resolveIn
      rw [if_pos ⟨by omega, by rw [hl]; exact_mod_cast hlt⟩]
      simp
    simp only [Function.comp_apply, pickOne, hr, Option.bind_some]
    rw [List.getElem?_eq_getElem (by rw [hl]; exact hlt), List.getD_eq_getElem _ _ (by rw [hl]; exact hlt)]
  refine ⟨fun i => L.getD i 0, ?_, ?_⟩
  · rw [errors_rows cs weights v h hw]; exact key idx hi
  · intro i hm
    rw [errors_rows cs weights v h hw]
    exact key [i] (by simpa using hi i hm)

/-- C104 (violated). Weights are given for all controls, but controls without a camera of the model are dropped and the
weights are not: with another number of weights (more than one) than observations (more than one), residuals cannot be
computed. -/
theorem weights_pruned_violated (cs : List (Ctl V W E)) (w : List E) (v : V) (h : Fine cs v)
    (hn : w.length ≠ sizeOf_ cs) (h1 : w.length ≠ 1) (h2 : sizeOf_ cs ≠ 1) :
    residuals cs (some w) v .all = .error .valueError := by
  obtain ⟨ho, hp, lo, lp⟩ := rows_at_index cs v h .all
  unfold residuals
  rw [ho, hp]
  simp only [pick, bind, Except.bind]
  have hdl : (List.zipWith (fun (a b : E × E) => (a.1 - b.1, a.2 - b.2)) (allPred cs v) (allObs cs)).length =
      sizeOf_ cs := by rw [List.length_zipWith, lo, lp, Nat.min_self]
  generalize List.zipWith (fun (a b : E × E) => (a.1 - b.1, a.2 - b.2)) (allPred cs v) (allObs cs) = d at hdl
  unfold scaleRows
  rw [if_neg (by rw [hdl]; exact hn)]
  split
  · simp at h1
  · simp at hdl; omega
  · rfl

/-! ### Arguments of the optimizer -/

/-- A model whose scales and sparsity have the right sizes (`_build_scales`, `_build_sparsity`), for `size` observations. -/
def FitModel.Sized (m : FitModel E) (size : Nat) : Prop :=
  (∀ s, m.scales = some s → s.length = m.nparams) ∧
  (∀ j, m.sparsity = some j → j.length = 2 * size ∧ ∀ r ∈ j, r.length = m.nparams)

/-- Number of observations an index selects. -/
def Idx.count (size : Nat) : Idx → Nat
  | .all => size
  | .ints l => l.length
  | .mask m => m.count true

private theorem resolveIn_double (n : Nat) (i : ℤ) (k : Nat) (h : resolveIn n i = some k) :
    resolveIn (2 * n) (2 * i) = some (2 * k) ∧ resolveIn (2 * n) (2 * i + 1) = some (2 * k + 1) ∧ k < n := by
  unfold resolveIn at h ⊢
  split at h
  · rename_i h1
    injection h with h
    rw [if_pos (by omega), if_pos (by omega)]
    refine ⟨by congr 1; omega, by congr 1; omega, by omega⟩
  · split at h
    · rename_i h1 h2
      injection h with h
      rw [if_neg (by omega), if_pos (by omega), if_neg (by omega), if_pos (by omega)]
      refine ⟨by congr 1; omega, by congr 1; omega, by omega⟩
    · cases h

private theorem mapM_pairs {γ : Type} (s : List γ) (n : Nat) (h : s.length = 2 * n) (l : List ℤ) :
    (∀ i ∈ l, (resolveIn n i).isSome) → ∃ j, (l.flatMap fun i => [2 * i, 2 * i + 1]).mapM (pickOne s) = .ok j ∧
      j.length = 2 * l.length ∧ ∀ r ∈ j, r ∈ s := by
  induction l with
  | nil => intro _; exact ⟨[], rfl, rfl, by simp⟩
  | cons i l ih =>
    intro hl
    obtain ⟨j, hj, hn, hm⟩ := ih fun i hi => hl i (List.mem_cons_of_mem _ hi)
    obtain ⟨k, hk⟩ := Option.isSome_iff_exists.1 (hl i (by simp))
    obtain ⟨h1, h2, h3⟩ := resolveIn_double n i k hk
    rw [← h] at h1 h2
    have e1 : pickOne s (2 * i) = .ok (s[2 * k]'(by omega)) := by
      unfold pickOne
      rw [h1, Option.bind_some, List.getElem?_eq_getElem (by omega)]
    have e2 : pickOne s (2 * i + 1) = .ok (s[2 * k + 1]'(by omega)) := by
      unfold pickOne
      rw [h2, Option.bind_some, List.getElem?_eq_getElem (by omega)]
    refine ⟨s[2 * k]'(by omega) :: s[2 * k + 1]'(by omega) :: j, ?_, ?_, ?_⟩
    · simp only [List.flatMap_cons, List.cons_append, List.nil_append, List.mapM_cons, e1, e2, hj, bind, Except.bind, pure,
        Except.pure]
    · simp only [List.length_cons, hn]; omega
    · intro r hr
      rcases List.mem_cons.1 hr with rfl | hr
      · exact List.getElem_mem _
      rcases List.mem_cons.1 hr with rfl | hr
      · exact List.getElem_mem _
      · exact hm r hr

/-- C104. Without iterations, and with no such arguments from the caller, the optimizer gets arguments it accepts, for all
observations or for integers, negative ones too: one scale for each parameter and a sparsity matrix of the size of the
selected residuals. -/
theorem fit_arguments (m : FitModel E) (size : Nat) (h : m.Sized size) (index : Idx)
    (hi : index = .all ∨ ∃ l, index = .ints l ∧ ∀ i ∈ l, (resolveIn size i).isSome) :
    ∃ kw, fitKw m .leastSquares index {} = .ok kw ∧ Accepts m.nparams (2 * index.count size) kw := by
  unfold fitKw
  simp only
  cases hs : m.sparsity with
  | none =>
    refine ⟨⟨none, m.scales, none⟩, by simp [jacFor, hs, Except.map, orOwn], h.1, by simp⟩
  | some s =>
    obtain ⟨h1, h2⟩ := h.2 s hs
    rcases hi with rfl | ⟨l, rfl, hl⟩
    · refine ⟨⟨none, m.scales, some s⟩, by simp [jacFor, hs, Except.map, orOwn, jacIndex, pick], h.1, ?_⟩
      intro j hj
      injection hj with hj
      subst hj
      exact ⟨h1, h2⟩
    · obtain ⟨j, hj, hn, hm⟩ := mapM_pairs s size h1 l hl
      refine ⟨⟨none, m.scales, some j⟩, by simp [jacFor, hs, Except.map, orOwn, jacIndex, pick, hj], h.1, ?_⟩
      intro j' hj'
      injection hj' with hj'
      subst hj'
      exact ⟨hn, fun r hr => h2 r (hm r hr)⟩

/-- C104. The rows of the sparsity matrix given for integers are those of the residuals of these observations. -/
theorem fit_sparsity_rows (m : FitModel E) (size : Nat) (h : m.Sized size) (s : List (List Bool)) (hs : m.sparsity = some s)
    (l : List Nat) (hl : ∀ i ∈ l, i < size) :
    (fitKw m .leastSquares (.ints (l.map fun (i : Nat) => (i : ℤ))) {}).map Kw.jac =
      .ok (some (l.flatMap fun i => [s.getD (2 * i) [], s.getD (2 * i + 1) []])) := by
  obtain ⟨h1, -⟩ := h.2 s hs
  have key : ((l.map fun (i : Nat) => (i : ℤ)).flatMap fun i => [2 * i, 2 * i + 1]).mapM (pickOne s) =
      .ok (l.flatMap fun i => [s.getD (2 * i) [], s.getD (2 * i + 1) []]) := by
    induction l with
    | nil => rfl
    | cons i l ih =>
      have hlt := hl i (by simp)
      have hr : resolveIn size (i : ℤ) = some i := by
        unfold resolveIn
        rw [if_pos ⟨by omega, by exact_mod_cast hlt⟩]
        simp
      obtain ⟨r1, r2, -⟩ := resolveIn_double size i i hr
      have e1 : pickOne s (2 * (i : ℤ)) = .ok (s.getD (2 * i) []) := by
        unfold pickOne
        rw [h1, r1, Option.bind_some, List.getElem?_eq_getElem (by omega), List.getD_eq_getElem _ _ (by omega)]
      have e2 : pickOne s (2 * (i : ℤ) + 1) = .ok (s.getD (2 * i + 1) []) := by
        unfold pickOne
        rw [h1, r2, Option.bind_some, List.getElem?_eq_getElem (by omega), List.getD_eq_getElem _ _ (by omega)]
      simp only [List.map_cons, List.flatMap_cons, List.cons_append, List.nil_append, List.mapM_cons, e1, e2,
        ih (fun i hi => hl i (List.mem_cons_of_mem _ hi)), bind, Except.bind, pure, Except.pure]
  simp only [fitKw, jacFor, hs, jacIndex, pick, key, Except.map]

/-- C104 (violated). For booleans, which select residuals correctly (`residuals_rows`), the sparsity matrix given has two
rows for every boolean instead of every selected observation: it is refused unless all are selected. And then all its rows
are those of the second observation. -/
theorem fit_mask_violated (m : FitModel E) (size : Nat) (h : m.Sized size) (s : List (List Bool)) (hs : m.sparsity = some s)
    (hz : 2 ≤ size) (mask : List Bool) (hm : mask.length = size) :
    ∃ kw, fitKw m .leastSquares (.mask mask) {} = .ok kw ∧
      ((∃ b ∈ mask, b = false) → ¬ Accepts m.nparams (2 * (Idx.mask mask).count size) kw) ∧
      ((∀ b ∈ mask, b = true) →
        kw.jac = some (List.replicate size [s.getD 2 [], s.getD 3 []]).flatten) := by
  obtain ⟨h1, -⟩ := h.2 s hs
  have key : ∀ mask : List Bool, (mask.flatMap fun (b : Bool) => if b then [(2 : ℤ), 3] else [0, 1]).mapM (pickOne s) =
      .ok (mask.flatMap fun (b : Bool) => if b then [s.getD 2 [], s.getD 3 []] else [s.getD 0 [], s.getD 1 []]) := by
    intro mask
    have e : ∀ k : Nat, k < 4 → pickOne s (k : ℤ) = .ok (s.getD k []) := by
      intro k hk
      have hr : resolveIn s.length (k : ℤ) = some k := by
        unfold resolveIn
        rw [if_pos ⟨by omega, by omega⟩]
        simp
      unfold pickOne
      rw [hr, Option.bind_some, List.getElem?_eq_getElem (by omega), List.getD_eq_getElem _ _ (by omega)]
    have e0 := e 0 (by omega)
    have e1 := e 1 (by omega)
    have e2 := e 2 (by omega)
    have e3 := e 3 (by omega)
    simp only [Nat.cast_zero, Nat.cast_one, Nat.cast_ofNat] at e0 e1 e2 e3
    induction mask with
    | nil => rfl
    | cons b mask ih =>
      cases b <;> simp only [List.flatMap_cons, if_true, if_false, Bool.false_eq_true, List.cons_append, List.nil_append,
        List.mapM_cons, e0, e1, e2, e3, ih, bind, Except.bind, pure, Except.pure]
  have len : ∀ mask : List Bool, (mask.flatMap fun (b : Bool) => if b then [s.getD 2 [], s.getD 3 []]
      else [s.getD 0 [], s.getD 1 []]).length = 2 * mask.length := by
    intro mask
    induction mask with
    | nil => rfl
    | cons b mask ih =>
      rw [List.flatMap_cons, List.length_append, ih, List.length_cons]
      cases b <;> simp <;> omega
  refine ⟨⟨none, m.scales, some (mask.flatMap fun (b : Bool) => if b then [s.getD 2 [], s.getD 3 []]
    else [s.getD 0 [], s.getD 1 []])⟩, by simp [fitKw, jacFor, hs, Except.map, orOwn, jacIndex, pick, key], ?_, ?_⟩
  · rintro ⟨b, hb, rfl⟩ ⟨-, h2⟩
    have h3 := (h2 _ rfl).1
    rw [len] at h3
    simp only [Idx.count] at h3
    have h4 : mask.count true < mask.length := by
      refine lt_of_le_of_ne List.count_le_length fun h5 => ?_
      have := List.count_eq_length.1 h5 false hb
      cases this
    omega
  · intro hall
    simp only
    congr 1
    have : mask = List.replicate size true := List.eq_replicate_iff.2 ⟨hm, hall⟩
    rw [this, List.flatMap_def, List.map_replicate]
    simp

/-- C104 (partial). In the iterations before the final run: accepted if scales and sparsity are switched off. -/
theorem iteration_arguments_partial (outer inner : FitModel E) (size : Nat) (h : inner.Sized size)
    (hs : outer.scales = none) (hj : outer.sparsity = none) (index : Idx)
    (hi : index = .all ∨ ∃ l, index = .ints l ∧ ∀ i ∈ l, (resolveIn size i).isSome) :
    ∃ kw, iterKw outer inner .leastSquares index {} = .ok kw ∧ Accepts inner.nparams (2 * index.count size) kw := by
  have : iterKw outer inner .leastSquares index {} = fitKw inner .leastSquares index {} := by
    unfold iterKw
    have : fitKw outer .leastSquares index {} = .ok {} := by simp [fitKw, jacFor, hj, hs, orOwn, Except.map]
    rw [this]
    rfl
  rw [this]
  exact fit_arguments inner size h index hi

/-- C104 (violated). By default, the scales of the model are also given to the optimizer for the iterations, instead of the
scales of these: whenever an iteration has another number of parameters than the final run, its arguments are refused. -/
theorem iteration_arguments_violated (outer inner : FitModel E) (size nres : Nat) (h : outer.Sized size)
    (s : List E) (hs : outer.scales = some s) (hn : inner.nparams ≠ outer.nparams) (index : Idx)
    (kw : Kw E) (hk : iterKw outer inner .leastSquares index {} = .ok kw) :
    ¬ Accepts inner.nparams nres kw := by
  rintro ⟨h1, -⟩
  unfold iterKw at hk
  cases ho : fitKw outer .leastSquares index {} with
  | error e => rw [ho] at hk; cases hk
  | ok k1 =>
    rw [ho] at hk
    simp only [bind, Except.bind] at hk
    have hx : k1.xScale = some s := by
      simp only [fitKw] at ho
      cases hj : jacFor outer index none with
      | error e => rw [hj] at ho; cases ho
      | ok j => rw [hj] at ho; cases Except.ok.inj ho; simp [orOwn, hs]
    have hy : kw.xScale = some s := by
      simp only [fitKw] at hk
      cases hj : jacFor inner index k1.jac with
      | error e => rw [hj] at hk; cases hk
      | ok j => rw [hj] at hk; cases Except.ok.inj hk; simp [orOwn, hx]
    have := h1 s hy
    rw [h.1 s hs] at this
    exact hn this.symm

/-! ### Examples -/

/-- Two controls of two and one points, predicted by adding the camera's number to the source. -/
private def ctl (obs : List (ℚ × ℚ)) (src : List ℚ) : Ctl ℚ ℚ ℚ := ⟨obs, src, fun v => .ok fun s => (s + v, s - v)⟩
private def demoCtls : List (Ctl ℚ ℚ ℚ) := [ctl [(1, 1), (2, 3)] [1, 2], ctl [(0, 5)] [4]]

example : Fine demoCtls 1 := ⟨by simp [demoCtls], by
  intro c hc
  simp only [demoCtls, List.mem_cons, List.not_mem_nil, or_false] at hc
  rcases hc with rfl | rfl <;> exact ⟨rfl, _, rfl⟩⟩
example : residuals demoCtls none 1 .all = .ok [(1, -1), (1, -2), (5, -2)] := by decide +kernel
example : residuals demoCtls (some [1, 2, 3]) 1 (.ints [-1, 0]) = .ok [(15, -6), (1, -1)] := by decide +kernel
example : residuals demoCtls none 1 (.mask [true, false, true]) = .ok [(1, -1), (5, -2)] := by decide +kernel
example : residuals demoCtls (some [1, 2]) 1 .all = .error .valueError := by decide +kernel
example : iterKw ⟨2, some [1, 2], none⟩ ⟨1, some [(7 : ℚ)], none⟩ .leastSquares .all {} =
    .ok ⟨none, some [1, 2], none⟩ := by
  decide +kernel

private def demoFit : FitModel ℚ :=
  ⟨2, some [1, 2], some [[true, false], [true, false], [false, true], [false, true], [true, true], [true, true]]⟩
example : demoFit.Sized 3 := ⟨by simp [demoFit], by simp [demoFit]⟩
example : fitKw demoFit .leastSquares (.ints [-1, 0]) {} =
    .ok ⟨none, some [1, 2], some [[true, true], [true, true], [true, false], [true, false]]⟩ := by decide +kernel
example : fitKw demoFit .leastSquares (.mask [true, false, true]) {} = .ok ⟨none, some [1, 2],
    some [[false, true], [false, true], [true, false], [true, false], [false, true], [false, true]]⟩ := by decide +kernel

end Glimpse.Cams
