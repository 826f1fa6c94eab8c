import Verif.Model.Tracker
import Verif.Lemmas.ExceptList
import Mathlib.Data.List.Perm.Basic
import Mathlib.Data.List.Range

/-!
C36, C37: `Tracker.track`.
-/
set_option autoImplicit false
set_option linter.unusedSimpArgs false

namespace Glimpse.Tracker

variable {P W T L M Ω E : Type}

/-! ### First and last observed time -/

theorem firstTrue_spec (b : List Bool) (i : Nat) (h : b[i]? = some true) :
    b[firstTrue b]? = some true ∧ firstTrue b ≤ i ∧ ∀ k, k < firstTrue b → b[k]? = some false := by
  unfold firstTrue
  cases hf : b.findIdx? id with
  | none =>
    rw [List.findIdx?_eq_none_iff] at hf
    have := hf true (List.mem_of_getElem? h)
    simp at this
  | some k =>
    rw [List.findIdx?_eq_some_iff_getElem] at hf
    obtain ⟨hk, h1, h2⟩ := hf
    simp only [Option.getD_some]
    refine ⟨by rw [List.getElem?_eq_getElem hk]; simpa using h1, ?_, ?_⟩
    · by_contra hc
      have hik : i < k := by omega
      have := h2 i hik
      rw [List.getElem?_eq_getElem (by omega)] at h
      simp only [Option.some.injEq] at h
      simp [h] at this
    · intro m hm
      have := h2 m hm
      rw [List.getElem?_eq_getElem (by omega)]
      simpa using this

theorem firstTrue_none (b : List Bool) (h : ∀ x ∈ b, x = false) : firstTrue b = 0 := by
  unfold firstTrue
  have : b.findIdx? id = none := by
    rw [List.findIdx?_eq_none_iff]
    intro x hx; rw [h x hx]; rfl
  rw [this]; rfl

/-- Spec: an observer used by the track has an image at time `i`. -/
def Job.Sees (j : Job) (i : Nat) : Prop :=
  i < j.times.length ∧ ∃ o, o < j.nobs ∧ j.mask o = true ∧ ∃ img, j.images i o = some img

private theorem observed_getElem (j : Job) (i : Nat) :
    j.observed[i]? = some true ↔ j.Sees i := by
  unfold Job.observed Job.Sees Job.observedAt
  rw [List.getElem?_map]
  rcases Nat.lt_or_ge i j.times.length with h | h
  · rw [List.getElem?_range h]
    simp [h, List.any_eq_true, Option.isSome_iff_exists]
  · rw [List.getElem?_eq_none (by simpa using h)]
    simp only [Option.map_none]
    constructor
    · intro h'; cases h'
    · intro h'; omega

private theorem observed_length (j : Job) : j.observed.length = j.times.length := by simp [Job.observed]

private theorem first_spec (j : Job) (i : Nat) (h : j.Sees i) :
    j.Sees j.first ∧ j.first ≤ i := by
  have := firstTrue_spec j.observed i ((observed_getElem j i).mpr h)
  exact ⟨(observed_getElem j _).mp this.1, this.2.1⟩

private theorem last_spec (j : Job) (i : Nat) (h : j.Sees i) :
    j.Sees j.last ∧ i ≤ j.last ∧ j.last < j.times.length := by
  have hi := h.1
  have hl := observed_length j
  have hrev : j.observed.reverse[j.times.length - 1 - i]? = some true := by
    rw [List.getElem?_reverse (by omega), hl]
    have : j.times.length - 1 - (j.times.length - 1 - i) = i := by omega
    rw [this]; exact (observed_getElem j i).mpr h
  obtain ⟨h1, h2, _⟩ := firstTrue_spec _ _ hrev
  unfold Job.last
  rw [hl]
  refine ⟨?_, by omega, by omega⟩
  rw [← observed_getElem]
  rw [List.getElem?_reverse (by omega), hl] at h1
  exact h1

private theorem mem_window (j : Job) (i : Nat) : i ∈ j.window ↔ j.first ≤ i ∧ i ≤ j.last := by
  unfold Job.window
  simp only [List.mem_map, List.mem_range]
  constructor
  · rintro ⟨a, ha, rfl⟩; omega
  · intro h; exact ⟨i - j.first, by omega, by omega⟩

/-! ### The loop -/

private theorem trackLoop_recorded (ops : Ops P W T L M Ω E) (j : Job) (is : List Nat) (st : TState P W T) (rng : Ω)
    (rec : Nat → Option M) (h : (trackLoop ops j is st rng rec).1.error = none) (k : Nat) :
    ((trackLoop ops j is st rng rec).1.recorded k).isSome = true ↔ k ∈ is ∨ (rec k).isSome = true := by
  induction is generalizing st rng rec with
  | nil => simp [trackLoop]
  | cons i is ih =>
    unfold trackLoop at h ⊢
    cases hs : trackStep ops j i st rng with
    | error e => rw [hs] at h; cases h
    | ok x =>
      obtain ⟨p, w, ts, r⟩ := x
      rw [hs] at h
      simp only at h ⊢
      rw [ih _ _ _ h]
      by_cases hk : k = i
      · simp [hk]
      · simp [hk]

/-- C36. When a track with at least one image completes, something is recorded exactly at the times between the
first and the last time at which one of its observers has an image. -/
theorem track_window (ops : Ops P W T L M Ω E) (j : Job) (hsees : ∃ i, j.Sees i) (st : TState P W T) (rng : Ω)
    (hok : (process ops j st rng).1.error = none) (k : Nat) :
    ((process ops j st rng).1.recorded k).isSome = true ↔ ∃ a b, j.Sees a ∧ j.Sees b ∧ a ≤ k ∧ k ≤ b := by
  obtain ⟨i, hi⟩ := hsees
  unfold process at hok ⊢
  rw [trackLoop_recorded ops j _ _ _ _ hok k, mem_window]
  simp only [Option.isSome_none, Bool.false_eq_true, or_false]
  constructor
  · intro h
    exact ⟨_, _, (first_spec j i hi).1, (last_spec j i hi).1, h.1, h.2⟩
  · rintro ⟨a, b, ha, hb, h1, h2⟩
    exact ⟨le_trans (first_spec j a ha).2 h1, le_trans h2 (last_spec j b hb).2.1⟩

/-- C36 is violated for a track none of whose observers has any image: instead of nothing, all times are recorded
(without any observation). -/
theorem track_window_unobserved_violated (ops : Ops P W T L M Ω E) (j : Job) (hsees : ¬ ∃ i, j.Sees i)
    (st : TState P W T) (rng : Ω) (hok : (process ops j st rng).1.error = none) (k : Nat)
    (hk : k < j.times.length) : ((process ops j st rng).1.recorded k).isSome = true := by
  have hall : ∀ x ∈ j.observed, x = false := by
    intro x hx
    obtain ⟨i, hi, rfl⟩ := List.getElem_of_mem hx
    by_contra hc
    have : j.observed[i]? = some true := by
      rw [List.getElem?_eq_getElem hi]; simpa using hc
    exact hsees ⟨i, (observed_getElem j i).mp this⟩
  have h1 : j.first = 0 := firstTrue_none _ hall
  have h2 : j.last = j.times.length - 1 := by
    unfold Job.last
    rw [firstTrue_none _ (by intro x hx; exact hall x (List.mem_reverse.mp hx)), observed_length]; omega
  unfold process at hok ⊢
  rw [trackLoop_recorded ops j _ _ _ _ hok k, mem_window]
  left; omega

/-! ### What each step does -/

/-- Everything about one time step: particles after moving (`moved`) and after resampling (`after`), weights
before and after, templates, and the random number generator in between. -/
structure StepRec (P W T Ω : Type) where
  moved : P
  before : W
  rng1 : Ω
  templates : Nat → Option T
  after : P
  weights : W
  rng2 : Ω

/-- Spec of the weights at time `i`: the combined log likelihoods of the observers of the track that have an image
at time `i`, each with its template, and of the motion model; unchanged if there is none. -/
def Weighed (ops : Ops P W T L M Ω E) (j : Job) (i : Nat) (templates : Nat → Option T) (p : P) (w w' : W) : Prop :=
  ∃ (lik : Nat → Option L) (lm : Option L),
    (∀ o, o < j.nobs → ∀ img, j.mask o = true → j.images i o = some img →
      ∃ t, templates o = some t ∧ ops.obsLik o img t p = .ok (lik o)) ∧
    (∀ o, o < j.nobs → j.mask o = false ∨ j.images i o = none → lik o = none) ∧
    ops.motionLik p = .ok lm ∧
    w' = if (List.range j.nobs).filterMap lik ++ lm.toList = [] then w
      else ops.combine ((List.range j.nobs).filterMap lik ++ lm.toList)

/-- Spec of the first step: the particles are the initial ones, with initial weights, not resampled. -/
def FirstStep (ops : Ops P W T L M Ω E) (rng : Ω) (s : StepRec P W T Ω) : Prop :=
  ops.init rng = .ok (s.moved, s.rng1) ∧ ops.test s.moved = .ok () ∧ s.before = ops.ones s.moved ∧
    s.after = s.moved ∧ s.weights = s.before ∧ s.rng2 = s.rng1

/-- Spec of a later step: the particles of the step before are moved by the time difference, weighted, and
resampled. -/
def NextStep (ops : Ops P W T L M Ω E) (j : Job) (i : Nat) (prev s : StepRec P W T Ω) : Prop :=
  ops.evolve prev.after (j.times.getD i 0 - j.times.getD (i - 1) 0) prev.rng2 = .ok (s.moved, s.rng1) ∧
    ops.test s.moved = .ok () ∧ s.before = prev.weights ∧
    ∃ w, Weighed ops j i s.templates s.moved s.before w ∧
      ops.resample s.moved w s.rng1 = .ok (s.after, s.weights, s.rng2)

/-- Spec of the templates at time `i`: those of the observers of the track whose first image is at time `i` are made
from that image and the moved particles; all others are kept. -/
def TemplatesAt (ops : Ops P W T L M Ω E) (j : Job) (i : Nat) (old : Nat → Option T) (s : StepRec P W T Ω) : Prop :=
  (∀ o, o < j.nobs → j.mask o = true → j.templateIndex o = i →
    ∃ img t, j.images i o = some img ∧ ops.template o img s.moved s.before = .ok t ∧ s.templates o = some t) ∧
  (∀ o, ¬ (o < j.nobs ∧ j.mask o = true ∧ j.templateIndex o = i) → s.templates o = old o)

private theorem initTemplates_spec (ops : Ops P W T L M Ω E) (j : Job) (i : Nat) (p : P) (w : W) (os : List Nat)
    (hnd : os.Nodup) (ts ts' : Nat → Option T) (h : initTemplates ops j i p w os ts = .ok ts') :
    (∀ o ∈ os, ∃ img t, j.images i o = some img ∧ ops.template o img p w = .ok t ∧ ts' o = some t) ∧
    (∀ o, o ∉ os → ts' o = ts o) := by
  induction os generalizing ts with
  | nil => cases h; simp
  | cons o os ih =>
    unfold initTemplates at h
    cases hi : j.images i o with
    | none => rw [hi] at h; cases h
    | some img =>
      rw [hi] at h
      simp only at h
      cases ht : ops.template o img p w with
      | error e => rw [ht] at h; cases h
      | ok t =>
        rw [ht] at h
        simp only at h
        obtain ⟨h1, h2⟩ := ih (List.nodup_cons.mp hnd).2 _ h
        have hno := (List.nodup_cons.mp hnd).1
        constructor
        · intro o' ho'
          rcases List.mem_cons.mp ho' with rfl | ho'
          · exact ⟨img, t, hi, ht, by rw [h2 _ hno]; simp⟩
          · exact h1 o' ho'
        · intro o' ho'
          have hne : o' ≠ o := fun e => ho' (by rw [e]; exact List.mem_cons_self)
          rw [h2 o' (fun hm => ho' (List.mem_cons_of_mem _ hm))]
          simp [hne]

private theorem atTemplate_nodup (j : Job) (i : Nat) : (j.atTemplate i).Nodup :=
  List.nodup_range.filter _

private theorem mem_atTemplate (j : Job) (i o : Nat) :
    o ∈ j.atTemplate i ↔ o < j.nobs ∧ j.mask o = true ∧ j.templateIndex o = i := by
  simp [Job.atTemplate, List.mem_filter]

private theorem filterMap_id_map {α β : Type} (f : α → Option β) (l : List α) :
    (l.map f).filterMap id = l.filterMap f := by
  rw [List.filterMap_map]; rfl

private theorem updateWeights_spec (ops : Ops P W T L M Ω E) (j : Job) (i : Nat) (ts : Nat → Option T) (p : P)
    (w w' : W) (h : updateWeights ops ts (j.imgsAt i) p w = .ok w') : Weighed ops j i ts p w w' := by
  unfold updateWeights at h
  simp only [bind, Except.bind, pure, Except.pure] at h
  cases hl : (j.imgsAt i).mapM (fun oi => obsLikelihood ops ts p oi.1 oi.2) with
  | error e => rw [hl] at h; cases h
  | ok ls =>
    rw [hl] at h
    simp only at h
    cases hm : ops.motionLik p with
    | error e => rw [hm] at h; cases h
    | ok lm =>
      rw [hm] at h
      simp only at h
      obtain ⟨hlen, hget⟩ := mapM_ok_inv _ _ _ hl
      have hn : (j.imgsAt i).length = j.nobs := by simp [Job.imgsAt]
      have hls : ls = (List.range j.nobs).map (fun o => ls.getD o none) := by
        apply List.ext_getElem
        · simp; omega
        · intro k h1 h2
          simp [h1]
      have hlo : ∀ o (ho : o < j.nobs), obsLikelihood ops ts p o (if j.mask o then j.images i o else none) =
          .ok (ls.getD o none) := by
        intro o ho
        have := hget o (by omega) (by omega)
        simp only [Job.imgsAt, List.getElem_map, List.getElem_range] at this
        rw [this]
        simp [List.getD_eq_getElem?_getD, show o < ls.length by omega]
      refine ⟨fun o => ls.getD o none, lm, ?_, ?_, hm, ?_⟩
      · intro o ho img hmask himg
        have := hlo o ho
        rw [hmask, if_pos rfl, himg] at this
        unfold obsLikelihood at this
        cases ht : ts o with
        | none => rw [ht] at this; cases this
        | some t => rw [ht] at this; exact ⟨t, rfl, this⟩
      · intro o ho hno
        have := hlo o ho
        have hnone : (if j.mask o then j.images i o else none) = none := by
          rcases hno with h' | h'
          · simp [h']
          · simp [h']
        rw [hnone] at this
        unfold obsLikelihood at this
        exact (Except.ok.inj this).symm
      · have e : (ls ++ [lm]).filterMap id =
            (List.range j.nobs).filterMap (fun o => ls.getD o none) ++ lm.toList := by
          have e1 : ls.filterMap id = (List.range j.nobs).filterMap (fun o => ls.getD o none) := by
            conv_lhs => rw [hls]
            exact filterMap_id_map _ _
          rw [List.filterMap_append, e1]
          cases lm <;> rfl
        rw [e] at h
        cases h
        cases (List.range j.nobs).filterMap (fun o => ls.getD o none) ++ lm.toList <;> rfl

private theorem trackStep_spec (ops : Ops P W T L M Ω E) (j : Job) (i : Nat) (hi : j.first ≤ i) (st : TState P W T)
    (rng : Ω) (p' : P) (w' : W) (ts' : Nat → Option T) (rng' : Ω)
    (h : trackStep ops j i st rng = .ok (p', w', ts', rng')) :
    ∃ s : StepRec P W T Ω, s.after = p' ∧ s.weights = w' ∧ s.templates = ts' ∧ s.rng2 = rng' ∧
      TemplatesAt ops j i st.templates s ∧
      (i = j.first → FirstStep ops rng s) ∧
      (j.first < i → ∃ p w, st.particles = some p ∧ st.weights = some w ∧
        ∀ prev : StepRec P W T Ω, prev.after = p → prev.weights = w → prev.rng2 = rng →
          NextStep ops j i prev s) := by
  unfold trackStep at h
  simp only [bind, Except.bind, pure, Except.pure] at h
  cases hs : startStep ops j i st rng with
  | error e => rw [hs] at h; cases h
  | ok x =>
    obtain ⟨p, w, r⟩ := x
    rw [hs] at h
    simp only at h
    cases ht : initTemplates ops j i p w (j.atTemplate i) st.templates with
    | error e => rw [ht] at h; cases h
    | ok ts =>
      rw [ht] at h
      simp only at h
      cases hw : weighStep ops j i ts p w r with
      | error e => rw [hw] at h; cases h
      | ok y =>
        obtain ⟨p2, w2, r2⟩ := y
        rw [hw] at h
        cases h
        obtain ⟨t1, t2⟩ := initTemplates_spec ops j i p w _ (atTemplate_nodup j i) _ _ ht
        refine ⟨⟨p, w, r, ts', p2, w2, r2⟩, rfl, rfl, rfl, rfl, ⟨?_, ?_⟩, ?_, ?_⟩
        · intro o h1 h2 h3
          exact t1 o ((mem_atTemplate j i o).mpr ⟨h1, h2, h3⟩)
        · intro o ho
          exact t2 o (fun hm => ho ((mem_atTemplate j i o).mp hm))
        · intro hfirst
          unfold startStep at hs
          rw [if_pos hfirst] at hs
          simp only [bind, Except.bind, pure, Except.pure] at hs
          cases hin : ops.init rng with
          | error e => rw [hin] at hs; cases hs
          | ok z =>
            obtain ⟨p0, r0⟩ := z
            rw [hin] at hs
            simp only at hs
            cases hte : ops.test p0 with
            | error e => rw [hte] at hs; cases hs
            | ok u =>
              rw [hte] at hs
              cases hs
              unfold weighStep at hw
              rw [if_neg (by omega)] at hw
              cases hw
              exact ⟨hin, hte, rfl, rfl, rfl, rfl⟩
        · intro hlt
          unfold startStep at hs
          rw [if_neg (by omega)] at hs
          cases hp : st.particles with
          | none => rw [hp] at hs; cases hs
          | some p0 =>
            cases hww : st.weights with
            | none => rw [hp, hww] at hs; cases hs
            | some w0 =>
              rw [hp, hww] at hs
              simp only [bind, Except.bind, pure, Except.pure] at hs
              refine ⟨p0, w0, rfl, rfl, ?_⟩
              intro prev e1 e2 e3
              cases hev : ops.evolve p0 (j.times.getD i 0 - j.times.getD (i - 1) 0) rng with
              | error e => rw [hev] at hs; cases hs
              | ok z =>
                obtain ⟨p1, r1⟩ := z
                rw [hev] at hs
                simp only at hs
                cases hte : ops.test p1 with
                | error e => rw [hte] at hs; cases hs
                | ok u =>
                  rw [hte] at hs
                  cases hs
                  unfold weighStep at hw
                  rw [if_pos (by omega)] at hw
                  simp only [bind, Except.bind] at hw
                  cases huw : updateWeights ops ts' (j.imgsAt i) p w with
                  | error e => rw [huw] at hw; cases hw
                  | ok w3 =>
                    rw [huw] at hw
                    simp only at hw
                    refine ⟨by rw [e1, e3]; exact hev, hte, e2.symm, w3, ?_, hw⟩
                    exact updateWeights_spec ops j i ts' p w w3 huw

private theorem range_shift (n i0 : Nat) :
    (List.range (n + 1)).map (· + i0) = i0 :: (List.range n).map (· + (i0 + 1)) := by
  rw [List.range_succ_eq_map, List.map_cons, List.map_map]
  simp only [Nat.zero_add, List.cons.injEq, true_and]
  apply List.map_congr_left
  intro a _
  simp only [Function.comp]; omega

private theorem trackLoop_keeps (ops : Ops P W T L M Ω E) (j : Job) (is : List Nat) (st : TState P W T) (rng : Ω)
    (rec : Nat → Option M) (k : Nat) (hk : k ∉ is) :
    (trackLoop ops j is st rng rec).1.recorded k = rec k := by
  induction is generalizing st rng rec with
  | nil => rfl
  | cons i is ih =>
    unfold trackLoop
    cases hs : trackStep ops j i st rng with
    | error e => rfl
    | ok x =>
      obtain ⟨p, w, ts, r⟩ := x
      simp only
      rw [ih _ _ _ (fun h => hk (List.mem_cons_of_mem _ h))]
      simp [show k ≠ i from fun e => hk (by rw [e]; exact List.mem_cons_self)]

/-- A completed sequence of steps from time `i0` on, after the step `prev` (if it is not the first). -/
private theorem trackLoop_steps (ops : Ops P W T L M Ω E) (j : Job) (n i0 : Nat) (hi0 : j.first ≤ i0)
    (st : TState P W T) (rng : Ω) (rec : Nat → Option M)
    (hsome : j.first < i0 → ∃ p w, st.particles = some p ∧ st.weights = some w)
    (h : (trackLoop ops j ((List.range (n + 1)).map (· + i0)) st rng rec).1.error = none) :
    ∃ σ : Nat → StepRec P W T Ω,
      (i0 = j.first → FirstStep ops rng (σ i0)) ∧
      (j.first < i0 → ∀ prev : StepRec P W T Ω, st.particles = some prev.after → st.weights = some prev.weights →
        rng = prev.rng2 → NextStep ops j i0 prev (σ i0)) ∧
      TemplatesAt ops j i0 st.templates (σ i0) ∧
      (∀ i, i0 < i → i ≤ i0 + n → NextStep ops j i (σ (i - 1)) (σ i) ∧
        TemplatesAt ops j i (σ (i - 1)).templates (σ i)) ∧
      (∀ i, i0 ≤ i → i ≤ i0 + n →
        (trackLoop ops j ((List.range (n + 1)).map (· + i0)) st rng rec).1.recorded i =
          some (ops.record (σ i).after (σ i).weights)) := by
  induction n generalizing i0 st rng rec with
  | zero =>
    rw [range_shift] at h ⊢
    simp only [List.range_zero, List.map_nil] at h ⊢
    unfold trackLoop at h ⊢
    cases hs : trackStep ops j i0 st rng with
    | error e => rw [hs] at h; cases h
    | ok x =>
      obtain ⟨p, w, ts, r⟩ := x
      obtain ⟨s, e1, e2, e3, e4, hT, hF, hN⟩ := trackStep_spec ops j i0 hi0 st rng p w ts r hs
      refine ⟨fun _ => s, hF, ?_, hT, by intro i h1 h2; omega, ?_⟩
      · intro hlt prev h1 h2 h3
        obtain ⟨p0, w0, hp0, hw0, hstep⟩ := hN hlt
        rw [hp0] at h1; rw [hw0] at h2
        cases h1; cases h2
        exact hstep prev rfl rfl h3.symm
      · intro i h1 h2
        have : i = i0 := by omega
        subst this
        simp only [trackLoop, if_true, e1, e2]
  | succ n ih =>
    rw [range_shift] at h ⊢
    unfold trackLoop at h ⊢
    cases hs : trackStep ops j i0 st rng with
    | error e => rw [hs] at h; cases h
    | ok x =>
      obtain ⟨p, w, ts, r⟩ := x
      rw [hs] at h
      simp only at h ⊢
      obtain ⟨s, e1, e2, e3, e4, hT, hF, hN⟩ := trackStep_spec ops j i0 hi0 st rng p w ts r hs
      obtain ⟨σ, _, hN', hT', hrest, hrec⟩ := ih (i0 + 1) (by omega) ⟨some p, some w, ts⟩ r _
        (fun _ => ⟨p, w, rfl, rfl⟩) h
      refine ⟨fun i => if i = i0 then s else σ i, ?_, ?_, ?_, ?_, ?_⟩
      · intro hf; simpa using hF hf
      · intro hlt prev h1 h2 h3
        obtain ⟨p0, w0, hp0, hw0, hstep⟩ := hN hlt
        rw [hp0] at h1; rw [hw0] at h2
        cases h1; cases h2
        simpa using hstep prev rfl rfl h3.symm
      · simpa using hT
      · intro i h1 h2
        rcases Nat.lt_or_ge (i0 + 1) i with hgt | hle
        · have hne1 : i ≠ i0 := by omega
          have hne2 : i - 1 ≠ i0 := by omega
          simp only [hne1, hne2, if_false]
          exact hrest i hgt (by omega)
        · have : i = i0 + 1 := by omega
          subst this
          have hne1 : i0 + 1 ≠ i0 := by omega
          simp only [hne1, if_false, Nat.add_sub_cancel, if_true]
          refine ⟨hN' (by omega) s (by rw [e1]) (by rw [e2]) e4.symm, ?_⟩
          rw [e3]; exact hT'
      · intro i h1 h2
        rcases Nat.lt_or_ge i0 i with hgt | hle
        · have hne1 : i ≠ i0 := by omega
          simp only [hne1, if_false]
          exact hrec i (by omega) (by omega)
        · have : i = i0 := by omega
          subst this
          simp only [if_true]
          rw [trackLoop_keeps _ _ _ _ _ _ _ (by
            simp only [List.mem_map, List.mem_range, not_exists, not_and]; intro a _; omega)]
          simp [e1, e2]

/-- C36. What a completed track is: the first step, at the first time at which one of its observers has an image,
takes the initial particles; each later step moves the particles by the time difference to the step before, weights
them by the observers with an image and the motion model, and resamples them; each observer's template is made
at its own first image; and what is recorded at a time is the mean and spread after that step. -/
theorem track_steps (ops : Ops P W T L M Ω E) (j : Job) (hsees : ∃ i, j.Sees i) (st : TState P W T) (rng : Ω)
    (hok : (process ops j st rng).1.error = none) :
    ∃ σ : Nat → StepRec P W T Ω,
      FirstStep ops rng (σ j.first) ∧ TemplatesAt ops j j.first st.templates (σ j.first) ∧
      (∀ i, j.first < i → i ≤ j.last → NextStep ops j i (σ (i - 1)) (σ i) ∧
        TemplatesAt ops j i (σ (i - 1)).templates (σ i)) ∧
      (∀ i, j.first ≤ i → i ≤ j.last →
        (process ops j st rng).1.recorded i = some (ops.record (σ i).after (σ i).weights)) := by
  obtain ⟨i, hi⟩ := hsees
  have h1 := (first_spec j i hi).2
  have h2 := (last_spec j i hi).2.1
  obtain ⟨n, hn⟩ : ∃ n, j.last + 1 - j.first = n + 1 := ⟨j.last - j.first, by omega⟩
  unfold process Job.window at hok ⊢
  rw [hn] at hok ⊢
  obtain ⟨σ, hF, _, hT, hN, hR⟩ := trackLoop_steps ops j n j.first (le_refl _) st rng (fun _ => none)
    (by intro h; omega) hok
  exact ⟨σ, hF rfl, hT, fun i a b => hN i a (by omega), fun i a b => hR i a (by omega)⟩

/-- C36. `first` and `last` in `track_steps` are the first and last time at which an observer of the track has an
image. -/
theorem track_first_last (j : Job) (hsees : ∃ i, j.Sees i) :
    j.Sees j.first ∧ j.Sees j.last ∧ ∀ i, j.Sees i → j.first ≤ i ∧ i ≤ j.last := by
  obtain ⟨i, hi⟩ := hsees
  exact ⟨(first_spec j i hi).1, (last_spec j i hi).1,
    fun k hk => ⟨(first_spec j k hk).2, (last_spec j k hk).2.1⟩⟩

/-- An observer of the track without any matching image makes the track fail with a TypeError as soon as another
observer has an image at the first time: its template is "initialized" from a missing image. -/
theorem track_unmatched_observer_violated (ops : Ops P W T L M Ω E) (j : Job) (hsees : j.Sees 0) (o : Nat)
    (ho : o < j.nobs) (hmask : j.mask o = true) (hnone : ∀ i, j.images i o = none) (st : TState P W T) (rng : Ω)
    (hother : ∀ o' img p w, ∃ t, ops.template o' img p w = .ok t)
    (p : P) (r : Ω) (hinit : ops.init rng = .ok (p, r)) (htest : ops.test p = .ok ()) :
    (process ops j st rng).1.error = some ops.typeError ∧ ∀ k, (process ops j st rng).1.recorded k = none := by
  have hfirst : j.first = 0 := by have := (first_spec j 0 hsees).2; omega
  have hti : j.templateIndex o = 0 := by
    unfold Job.templateIndex
    apply firstTrue_none
    intro x hx
    simp only [List.mem_map] at hx
    obtain ⟨i, _, rfl⟩ := hx
    rw [hnone i]; rfl
  have hmem : o ∈ j.atTemplate 0 := (mem_atTemplate j 0 o).mpr ⟨ho, hmask, hti⟩
  have hfail : ∀ os : List Nat, o ∈ os → ∀ ts : Nat → Option T,
      initTemplates ops j 0 p (ops.ones p) os ts = .error ops.typeError := by
    intro os
    induction os with
    | nil => intro h; cases h
    | cons a os ih =>
      intro h ts
      unfold initTemplates
      cases ha : j.images 0 a with
      | none => rfl
      | some img =>
        have hne : o ≠ a := by intro e; rw [← e, hnone 0] at ha; cases ha
        have ho' : o ∈ os := by
          rcases List.mem_cons.mp h with h' | h'
          · exact absurd h' hne
          · exact h'
        obtain ⟨t, ht⟩ := hother a img p (ops.ones p)
        simp only [ht]
        exact ih ho' _
  have hstep : trackStep ops j 0 st rng = .error ops.typeError := by
    unfold trackStep startStep
    simp only [hfirst, if_true, bind, Except.bind, pure, Except.pure, hinit, htest, hfail _ hmem]
  have hwin : ∃ is, j.window = 0 :: is := by
    unfold Job.window
    rw [hfirst]
    obtain ⟨n, hn⟩ : ∃ n, j.last + 1 - 0 = n + 1 := ⟨j.last, by omega⟩
    rw [hn, range_shift]
    exact ⟨_, rfl⟩
  obtain ⟨is, hw⟩ := hwin
  unfold process
  rw [hw]
  unfold trackLoop
  rw [hstep]
  exact ⟨rfl, fun _ => rfl⟩

/-! ### C37 -/

/-- Two tracker states that agree on what a track uses from time `i` on. -/
private structure Agree (j : Job) (i : Nat) (a b : TState P W T) : Prop where
  state : j.first < i → a.particles = b.particles ∧ a.weights = b.weights
  templates : ∀ o, o < j.nobs → j.mask o = true → j.first ≤ j.templateIndex o → j.templateIndex o < i →
    a.templates o = b.templates o

private theorem initTemplates_agree (ops : Ops P W T L M Ω E) (j : Job) (i : Nat) (p : P) (w : W) (os : List Nat)
    (ts1 ts2 : Nat → Option T) :
    (∃ e, initTemplates ops j i p w os ts1 = .error e ∧ initTemplates ops j i p w os ts2 = .error e) ∨
    ∃ u1 u2, initTemplates ops j i p w os ts1 = .ok u1 ∧ initTemplates ops j i p w os ts2 = .ok u2 ∧
      ∀ o, (o ∈ os ∨ ts1 o = ts2 o) → u1 o = u2 o := by
  induction os generalizing ts1 ts2 with
  | nil => exact Or.inr ⟨ts1, ts2, rfl, rfl, by intro o h; simpa using h⟩
  | cons a os ih =>
    unfold initTemplates
    cases hi : j.images i a with
    | none => exact Or.inl ⟨_, rfl, rfl⟩
    | some img =>
      simp only
      cases ht : ops.template a img p w with
      | error e => exact Or.inl ⟨e, rfl, rfl⟩
      | ok t =>
        simp only
        rcases ih (fun o' => if o' = a then some t else ts1 o') (fun o' => if o' = a then some t else ts2 o') with
          ⟨e, h1, h2⟩ | ⟨u1, u2, h1, h2, h3⟩
        · exact Or.inl ⟨e, h1, h2⟩
        · refine Or.inr ⟨u1, u2, h1, h2, ?_⟩
          intro o ho
          apply h3
          by_cases hoa : o = a
          · right; simp [hoa]
          · simp only [hoa, if_false]
            rcases ho with ho | ho
            · rcases List.mem_cons.mp ho with h' | h'
              · exact absurd h' hoa
              · exact Or.inl h'
            · exact Or.inr ho

private theorem updateWeights_congr (ops : Ops P W T L M Ω E) (imgs : List (Nat × Option Nat)) (p : P) (w : W)
    (ts1 ts2 : Nat → Option T) (h : ∀ o img, (o, some img) ∈ imgs → ts1 o = ts2 o) :
    updateWeights ops ts1 imgs p w = updateWeights ops ts2 imgs p w := by
  unfold updateWeights
  have : imgs.mapM (fun oi => obsLikelihood ops ts1 p oi.1 oi.2) =
      imgs.mapM (fun oi => obsLikelihood ops ts2 p oi.1 oi.2) := by
    clear w
    induction imgs with
    | nil => rfl
    | cons x imgs ih =>
      rw [List.mapM_cons, List.mapM_cons, ih (fun o img hm => h o img (List.mem_cons_of_mem _ hm))]
      have : obsLikelihood ops ts1 p x.1 x.2 = obsLikelihood ops ts2 p x.1 x.2 := by
        obtain ⟨o, img⟩ := x
        cases img with
        | none => rfl
        | some img => simp only [obsLikelihood, h o img List.mem_cons_self]
      rw [this]
  rw [this]

private theorem templateIndex_spec (j : Job) (i o : Nat) (hi : i < j.times.length) (ho : o < j.nobs)
    (hm : j.mask o = true) (img : Nat) (himg : j.images i o = some img) :
    j.first ≤ j.templateIndex o ∧ j.templateIndex o ≤ i := by
  have hb : ((List.range j.times.length).map fun i => (j.images i o).isSome)[i]? = some true := by
    rw [List.getElem?_map, List.getElem?_range hi]; simp [himg]
  obtain ⟨h1, h2, _⟩ := firstTrue_spec _ _ hb
  refine ⟨?_, h2⟩
  have hlt : j.templateIndex o < j.times.length := lt_of_le_of_lt h2 hi
  have hs : j.Sees (j.templateIndex o) := by
    change ((List.range j.times.length).map fun i => (j.images i o).isSome)[j.templateIndex o]? = some true at h1
    rw [List.getElem?_map, List.getElem?_range hlt] at h1
    simp only [Option.map_some, Option.some.injEq, Option.isSome_iff_exists] at h1
    exact ⟨hlt, o, ho, hm, h1⟩
  exact (first_spec j _ hs).2

private theorem trackStep_agree (ops : Ops P W T L M Ω E) (j : Job) (i : Nat) (hi : j.first ≤ i)
    (hlt : i < j.times.length) (a b : TState P W T)
    (rng : Ω) (h : Agree j i a b) :
    (∃ e, trackStep ops j i a rng = .error e ∧ trackStep ops j i b rng = .error e) ∨
    ∃ p w r u1 u2, trackStep ops j i a rng = .ok (p, w, u1, r) ∧ trackStep ops j i b rng = .ok (p, w, u2, r) ∧
      Agree j (i + 1) ⟨some p, some w, u1⟩ ⟨some p, some w, u2⟩ := by
  have hstart : startStep ops j i a rng = startStep ops j i b rng := by
    unfold startStep
    by_cases hf : i = j.first
    · rw [if_pos hf, if_pos hf]
    · obtain ⟨h1, h2⟩ := h.state (by omega)
      rw [if_neg hf, if_neg hf, h1, h2]
  unfold trackStep
  simp only [bind, Except.bind, pure, Except.pure, hstart]
  cases hs : startStep ops j i b rng with
  | error e => exact Or.inl ⟨e, rfl, rfl⟩
  | ok x =>
    obtain ⟨p, w, r⟩ := x
    simp only
    rcases initTemplates_agree ops j i p w (j.atTemplate i) a.templates b.templates with
      ⟨e, h1, h2⟩ | ⟨u1, u2, h1, h2, h3⟩
    · rw [h1, h2]; exact Or.inl ⟨e, rfl, rfl⟩
    · rw [h1, h2]
      simp only
      have hu : ∀ o, o < j.nobs → j.mask o = true → j.first ≤ j.templateIndex o → j.templateIndex o < i + 1 →
          u1 o = u2 o := by
        intro o ho hm hf hl
        apply h3
        rcases Nat.lt_or_ge (j.templateIndex o) i with h' | h'
        · exact Or.inr (h.templates o ho hm hf h')
        · exact Or.inl ((mem_atTemplate j i o).mpr ⟨ho, hm, by omega⟩)
      have hweigh : weighStep ops j i u1 p w r = weighStep ops j i u2 p w r := by
        unfold weighStep
        rw [updateWeights_congr ops (j.imgsAt i) p w u1 u2 (by
          intro o img hm
          simp only [Job.imgsAt, List.mem_map, List.mem_range, Prod.mk.injEq] at hm
          obtain ⟨o', ho', rfl, himg⟩ := hm
          cases hmask : j.mask o' with
          | false => rw [hmask] at himg; simp at himg
          | true =>
            rw [hmask, if_pos rfl] at himg
            obtain ⟨q1, q2⟩ := templateIndex_spec j i o' hlt ho' hmask img himg
            exact hu o' ho' hmask q1 (by omega))]
      rw [hweigh]
      cases hw : weighStep ops j i u2 p w r with
      | error e => exact Or.inl ⟨e, rfl, rfl⟩
      | ok y =>
        obtain ⟨p2, w2, r2⟩ := y
        exact Or.inr ⟨p2, w2, r2, u1, u2, rfl, rfl, ⟨fun _ => ⟨rfl, rfl⟩, hu⟩⟩

private theorem trackLoop_agree (ops : Ops P W T L M Ω E) (j : Job) (n i0 : Nat) (hi0 : j.first ≤ i0)
    (hn : i0 + n ≤ j.times.length) (a b : TState P W T) (rng : Ω) (rec : Nat → Option M) (h : Agree j i0 a b) :
    (trackLoop ops j ((List.range n).map (· + i0)) a rng rec).1 =
      (trackLoop ops j ((List.range n).map (· + i0)) b rng rec).1 := by
  induction n generalizing i0 a b rng rec with
  | zero => rfl
  | succ n ih =>
    rw [range_shift]
    unfold trackLoop
    rcases trackStep_agree ops j i0 hi0 (by omega) a b rng h with ⟨e, h1, h2⟩ | ⟨p, w, r, u1, u2, h1, h2, h3⟩
    · rw [h1, h2]
    · rw [h1, h2]
      exact ih (i0 + 1) (by omega) (by omega) _ _ r _ h3

/-- C37. The result of a track does not depend on the state of the tracker left behind by other tracks (particles,
weights and templates), whether it completes or fails. -/
theorem process_frame (ops : Ops P W T L M Ω E) (j : Job) (a b : TState P W T) (rng : Ω) :
    (process ops j a rng).1 = (process ops j b rng).1 := by
  unfold process Job.window
  rcases Nat.lt_or_ge 0 j.times.length with hpos | hzero
  · have hlast : j.last < j.times.length := by
      unfold Job.last; rw [observed_length]; omega
    have hfirst : j.first < j.times.length := by
      unfold Job.first
      rw [← observed_length]
      unfold firstTrue
      cases hf : j.observed.findIdx? id with
      | none => rw [observed_length]; simpa using hpos
      | some k =>
        rw [List.findIdx?_eq_some_iff_getElem] at hf
        exact hf.1
    exact trackLoop_agree ops j _ j.first (le_refl _) (by omega) a b rng _
      ⟨fun h => absurd h (lt_irrefl _), fun o _ _ h1 h2 => absurd h2 (by omega)⟩
  · have h0 : j.times.length = 0 := by omega
    have hf : j.first = 0 := by
      unfold Job.first
      apply firstTrue_none
      intro x hx
      have := List.length_pos_of_mem hx
      rw [observed_length] at this; omega
    have hl : j.last = 0 := by unfold Job.last; rw [observed_length]; omega
    rw [hf, hl]
    have hagree : Agree j 0 a b := ⟨fun h => absurd h (by omega), fun o _ _ h1 h2 => absurd h2 (by omega)⟩
    change (trackLoop ops j [0] a rng _).1 = (trackLoop ops j [0] b rng _).1
    have hstart : startStep ops j 0 a rng = startStep ops j 0 b rng := by
      unfold startStep; rw [if_pos hf.symm, if_pos hf.symm]
    have hstep : ∀ st : TState P W T, weighStep (M := M) ops j 0 = fun _ p w r => .ok (p, w, r) := by
      intro st; funext ts p w r; unfold weighStep; rw [if_neg (by omega)]
    unfold trackLoop trackStep
    simp only [bind, Except.bind, pure, Except.pure, hstart]
    cases hs : startStep ops j 0 b rng with
    | error e => rfl
    | ok x =>
      obtain ⟨p, w, r⟩ := x
      simp only
      rcases initTemplates_agree ops j 0 p w (j.atTemplate 0) a.templates b.templates with
        ⟨e, h1, h2⟩ | ⟨u1, u2, h1, h2, h3⟩
      · rw [h1, h2]
      · rw [h1, h2]
        simp only [hstep a]
        rfl

/-- The result of a task on its own, on a fresh tracker. -/
def alone (t : Task P W T L M Ω E) : TrackResult M E := (process t.ops t.job TState.reset t.rng).1

/-- C37. With two or more tracks, and exceptions whose class can be built from a message, every track gets the
result it has on its own: an exception in one track is recorded for that track and no other track is affected. -/
theorem track_all_independent (rebuild : E → Except E E) (msg : E → E) (tasks : List (Task P W T L M Ω E))
    (h2 : 2 ≤ tasks.length) (hre : ∀ t ∈ tasks, ∀ e, (alone t).error = some e → rebuild e = .ok (msg e)) :
    trackAll rebuild tasks =
      .ok (tasks.map fun t => ⟨(alone t).recorded, (alone t).error.map msg⟩) := by
  unfold trackAll
  generalize hn : tasks.length = n at h2
  clear hn
  generalize TState.reset = st
  induction tasks generalizing st with
  | nil => rfl
  | cons t ts ih =>
    unfold runSerial
    rw [process_frame t.ops t.job st TState.reset t.rng]
    have hs : settle rebuild n (alone t) = .ok ⟨(alone t).recorded, (alone t).error.map msg⟩ := by
      unfold settle
      cases he : (alone t).error with
      | none =>
        simp only [Option.map_none]
        rw [← he]
      | some e =>
        simp only [show ¬ n < 2 by omega, if_false, hre t List.mem_cons_self e he, Option.map_some]
    change (match settle rebuild n (alone t) with | .error e => _ | .ok r => _) = _
    rw [hs]
    simp only
    rw [ih (fun t' ht' => hre t' (List.mem_cons_of_mem _ ht'))]
    rfl

/-- A single track: its exception is raised. -/
theorem track_single (rebuild : E → Except E E) (t : Task P W T L M Ω E) :
    trackAll rebuild [t] = match (alone t).error with
      | none => .ok [alone t]
      | some e => .error e := by
  unfold trackAll runSerial runSerial
  change (match settle rebuild 1 (alone t) with | .error e => _ | .ok r => _) = _
  unfold settle
  cases he : (alone t).error with
  | none => rfl
  | some e => rfl

/-- C37 is violated for an exception whose class cannot be built from a single message (such as numpy's
`_ArrayMemoryError`, or `UnicodeDecodeError`): the whole call raises and the results of all tracks are lost. -/
theorem track_all_unbuildable_violated (rebuild : E → Except E E) (tasks : List (Task P W T L M Ω E))
    (t : Task P W T L M Ω E) (ht : t ∈ tasks) (e e' : E) (he : (alone t).error = some e)
    (hre : rebuild e = .error e') : Raises (trackAll rebuild tasks) := by
  unfold trackAll
  generalize tasks.length = n
  generalize TState.reset = st
  induction tasks generalizing st with
  | nil => cases ht
  | cons s ts ih =>
    unfold runSerial
    rcases List.mem_cons.mp ht with rfl | ht
    · rw [process_frame t.ops t.job st TState.reset t.rng]
      change Raises (match settle rebuild n (alone t) with | .error e => _ | .ok r => _)
      have : ∃ e'', settle rebuild n (alone t) = .error e'' := by
        unfold settle
        rw [he]
        simp only
        split
        · exact ⟨_, rfl⟩
        · rw [hre]; exact ⟨_, rfl⟩
      obtain ⟨e'', h⟩ := this
      rw [h]; exact ⟨_, rfl⟩
    · obtain ⟨e2, h⟩ := ih ht (process s.ops s.job st s.rng).2
      cases settle rebuild n (process s.ops s.job st s.rng).1 with
      | error e3 => exact ⟨_, rfl⟩
      | ok r => simp only [h]; exact ⟨_, rfl⟩

/-- C37. In parallel, whatever tracker state each worker happens to have when it starts a track and in whatever
order the tracks finish, the collected results are those of the tracks on their own, in input order. -/
theorem track_parallel (tasks : List (Task P W T L M Ω E)) (workerState : Nat → TState P W T)
    (arrived : List (Nat × TrackResult M E))
    (harr : arrived.Perm (tasks.zipIdx.map fun ti =>
      (ti.2, (process ti.1.ops ti.1.job (workerState ti.2) ti.1.rng).1))) :
    collect arrived = tasks.map alone := by
  have hresults : (tasks.zipIdx.map fun ti =>
      (ti.2, (process ti.1.ops ti.1.job (workerState ti.2) ti.1.rng).1)) =
      tasks.zipIdx.map fun ti => (ti.2, alone ti.1) := by
    apply List.map_congr_left
    rintro ⟨t, i⟩ _
    simp only [alone]
    rw [process_frame t.ops t.job (workerState i) TState.reset t.rng]
  rw [hresults] at harr
  have hfst : (tasks.zipIdx.map fun ti => (ti.2, alone ti.1)).map Prod.fst = List.range tasks.length := by
    rw [List.map_map]
    have : (Prod.fst ∘ fun ti : Task P W T L M Ω E × Nat => (ti.2, alone ti.1)) = Prod.snd := rfl
    rw [this, List.zipIdx_map_snd, List.range_eq_range']
  have hsorted : (tasks.zipIdx.map fun ti => (ti.2, alone ti.1)).Pairwise (fun a b => a.1 ≤ b.1) := by
    have : ((tasks.zipIdx.map fun ti => (ti.2, alone ti.1)).map Prod.fst).Pairwise (· ≤ ·) := by
      rw [hfst]; exact List.pairwise_lt_range.imp (fun h => Nat.le_of_lt h)
    rwa [List.pairwise_map] at this
  have hnodup : ((tasks.zipIdx.map fun ti => (ti.2, alone ti.1)).map Prod.fst).Nodup := by
    rw [hfst]; exact List.nodup_range
  have hperm : (arrived.insertionSort fun a b => a.1 ≤ b.1).Perm (tasks.zipIdx.map fun ti => (ti.2, alone ti.1)) :=
    (List.perm_insertionSort _ _).trans harr
  have hs1 : (arrived.insertionSort fun a b : Nat × TrackResult M E => a.1 ≤ b.1).Pairwise (fun a b => a.1 ≤ b.1) := by
    haveI : Std.Total (fun a b : Nat × TrackResult M E => a.1 ≤ b.1) := ⟨fun a b => Nat.le_total a.1 b.1⟩
    haveI : IsTrans (Nat × TrackResult M E) (fun a b => a.1 ≤ b.1) := ⟨fun a b c h1 h2 => Nat.le_trans h1 h2⟩
    exact List.pairwise_insertionSort _ _
  have heq : (arrived.insertionSort fun a b => a.1 ≤ b.1) = tasks.zipIdx.map fun ti => (ti.2, alone ti.1) := by
    apply List.Perm.eq_of_pairwise (le := fun a b : Nat × TrackResult M E => a.1 ≤ b.1) ?_ hs1 hsorted hperm
    intro x y hx hy h1 h2
    have hx' := hperm.mem_iff.mp hx
    have : x.1 = y.1 := Nat.le_antisymm h1 h2
    exact List.inj_on_of_nodup_map hnodup hx' hy this
  unfold collect
  rw [heq, List.map_map]
  have : (Prod.snd ∘ fun ti : Task P W T L M Ω E × Nat => (ti.2, alone ti.1)) = alone ∘ Prod.fst := rfl
  rw [this, ← List.map_map, List.zipIdx_map_fst]

/-! ### Non-vacuity -/

/-- A toy tracker: the particles are a number, moved by the time difference; the likelihoods count. -/
private def toy : Ops ℤ ℤ ℤ ℤ (ℤ × ℤ) Nat Err where
  init := fun r => .ok (100, r)
  evolve := fun p dt r => .ok (p + dt, r + 1)
  test := fun p => if p < 0 then .error .valueError else .ok ()
  ones := fun _ => 1
  template := fun _ img p _ => .ok (p + img)
  obsLik := fun _ _ t p => .ok (some (p - t))
  motionLik := fun _ => .ok none
  combine := fun l => l.sum
  resample := fun p w r => .ok (p, w, r)
  record := fun p w => (p, w)
  typeError := .typeError

/-- Two observers, three times; the second observer appears at time 1, the first is missing there. -/
private def toyJob : Job where
  times := [0, 10, 30]
  images := fun i o => if o = 0 then (if i = 1 then none else some i) else (if i = 0 then none else some i)
  mask := fun _ => true
  nobs := 2

example : toyJob.Sees 0 ∧ (process toy toyJob TState.reset 0).1.error = none ∧
    (process toy toyJob TState.reset 0).1.recorded 2 = some (130, 49) := by
  refine ⟨⟨by decide, 0, by decide, rfl, 0, rfl⟩, by decide +kernel, by decide +kernel⟩

end Glimpse.Tracker
