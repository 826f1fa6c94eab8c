import Verif.Model.Ransac
import Mathlib.Tactic.Linarith
import Mathlib.Data.Finset.Powerset
import Mathlib.Data.Finset.Card
import Mathlib.Data.Finset.Sort
import Mathlib.Data.Rat.Defs
import Mathlib.Algebra.Order.Field.Rat

/-!
C47: ransac returns a consensus that meets its criteria.
-/
set_option autoImplicit false
set_option linter.unusedSimpArgs false

namespace Glimpse.Ransac

/-! ### Samples -/

/-- A shuffle of `0 .. size - 1`. -/
def IsShuffle (size : Nat) (l : List Nat) : Prop := l.Perm (List.range size)

private theorem take_sub (n size : Nat) (h : n ≤ size) (l : List Nat) (hl : IsShuffle size l) :
    ((l.take n).toFinset).card = n ∧ (l.take n).toFinset ⊆ Finset.range size := by
  have hnd : l.Nodup := hl.nodup_iff.2 List.nodup_range
  constructor
  · rw [List.toFinset_card_of_nodup (hnd.sublist (List.take_sublist _ _)), List.length_take, hl.length_eq,
      List.length_range]
    omega
  · intro i hi
    have := List.mem_of_mem_take (List.mem_toFinset.1 hi)
    simpa using hl.mem_iff.1 this

private theorem fold_inv (n goal : Nat) (Q : Finset Nat → Prop) (draws : List (List Nat))
    (hQ : ∀ d ∈ draws, Q (d.take n).toFinset) (seen : List (Finset Nat)) (h1 : seen.Nodup) (h2 : ∀ s ∈ seen, Q s)
    (h3 : seen.length ≤ goal) :
    (draws.foldl (sampleStep n goal) seen).Nodup ∧ (∀ s ∈ draws.foldl (sampleStep n goal) seen, Q s) ∧
    (draws.foldl (sampleStep n goal) seen).length ≤ goal ∧
    (∀ s ∈ seen, s ∈ draws.foldl (sampleStep n goal) seen) ∧
    ((draws.foldl (sampleStep n goal) seen).length < goal →
      ∀ d ∈ draws, (d.take n).toFinset ∈ draws.foldl (sampleStep n goal) seen) := by
  induction draws generalizing seen with
  | nil => exact ⟨h1, h2, h3, fun s h => h, by intro _ d hd; cases hd⟩
  | cons d draws ih =>
    rw [List.foldl_cons]
    have hq := hQ d List.mem_cons_self
    have hQ' : ∀ d ∈ draws, Q (d.take n).toFinset := fun d' h' => hQ d' (List.mem_cons_of_mem _ h')
    by_cases hlt : seen.length < goal
    · by_cases hm : (d.take n).toFinset ∈ seen
      · have e : sampleStep n goal seen d = seen := by unfold sampleStep; rw [if_pos hlt, if_pos hm]
        rw [e]
        obtain ⟨a1, a2, a3, a4, a5⟩ := ih hQ' seen h1 h2 h3
        refine ⟨a1, a2, a3, a4, ?_⟩
        intro hl d' hd'
        rcases List.mem_cons.1 hd' with rfl | hd'
        · exact a4 _ hm
        · exact a5 hl d' hd'
      · have e : sampleStep n goal seen d = seen ++ [(d.take n).toFinset] := by
          unfold sampleStep; rw [if_pos hlt, if_neg hm]
        rw [e]
        obtain ⟨a1, a2, a3, a4, a5⟩ := ih hQ' (seen ++ [(d.take n).toFinset])
          (List.nodup_append.2 ⟨h1, List.nodup_singleton _, by
            intro a ha b hb hab
            rw [List.mem_singleton] at hb
            subst hb; subst hab; exact hm ha⟩)
          (by
            intro s hs
            rcases List.mem_append.1 hs with hs | hs
            · exact h2 s hs
            · rw [List.mem_singleton] at hs; rw [hs]; exact hq)
          (by simp; omega)
        refine ⟨a1, a2, a3, fun s hs => a4 s (List.mem_append_left _ hs), ?_⟩
        intro hl d' hd'
        rcases List.mem_cons.1 hd' with rfl | hd'
        · exact a4 _ (List.mem_append_right _ (List.mem_singleton.2 rfl))
        · exact a5 hl d' hd'
    · have e : sampleStep n goal seen d = seen := by unfold sampleStep; rw [if_neg hlt]
      rw [e]
      obtain ⟨a1, a2, a3, a4, a5⟩ := ih hQ' seen h1 h2 h3
      refine ⟨a1, a2, a3, a4, ?_⟩
      intro hl
      exfalso
      have hle : seen.length ≤ (draws.foldl (sampleStep n goal) seen).length :=
        (List.subperm_of_subset h1 (fun s hs => a4 s hs)).length_le
      omega

/-- Whatever the shuffles, the samples are pairwise distinct sets of exactly `n` of the indices, at most `iterations`. -/
theorem ransac_samples_distinct (n size iterations cap : Nat) (draws : List (List Nat))
    (hd : ∀ d ∈ draws, IsShuffle size d) (ss : List (Finset Nat))
    (h : samples n size iterations cap draws = .ok ss) :
    ss.Nodup ∧ (∀ s ∈ ss, s.card = n ∧ ∀ i ∈ s, i < size) ∧ ss.length ≤ iterations := by
  unfold samples at h
  split at h
  · cases h
  · rename_i hn
    injection h with h
    obtain ⟨a1, a2, a3, _, _⟩ := fold_inv n (target n size iterations cap)
      (fun s => s.card = n ∧ ∀ i ∈ s, i < size) draws
      (by
        intro d hdm
        obtain ⟨b1, b2⟩ := take_sub n size (by omega) d (hd d hdm)
        exact ⟨b1, fun i hi => by simpa using b2 hi⟩) [] List.nodup_nil (by simp) (by simp)
    rw [h] at a1 a2 a3
    refine ⟨a1, a2, ?_⟩
    unfold target at a3
    split at a3
    · exact a3
    · exact a3.trans (min_le_left _ _)

/-- Once every subset has been drawn, `n ≥ 1`, the generator has ended, with exactly `iterations` samples or all of them,
whichever is less. -/
theorem ransac_samples_complete (n size iterations : Nat) (hn : 1 ≤ n) (draws : List (List Nat))
    (hd : ∀ d ∈ draws, IsShuffle size d)
    (hall : ∀ s : Finset Nat, s.card = n → (∀ i ∈ s, i < size) → ∃ d ∈ draws, (d.take n).toFinset = s)
    (ss : List (Finset Nat)) (h : samples n size iterations (size.choose n) draws = .ok ss) :
    ss.length = min iterations (size.choose n) := by
  unfold samples at h
  split at h
  · cases h
  · rename_i hlt
    injection h with h
    have ht : target n size iterations (size.choose n) = min iterations (size.choose n) := by
      unfold target
      rw [if_neg]
      intro hc
      rcases Nat.choose_eq_one_iff.1 hc with h0 | h0 <;> omega
    rw [ht] at h
    obtain ⟨a1, a2, a3, _, a5⟩ := fold_inv n (min iterations (size.choose n))
      (fun _ => True) draws (by simp) [] List.nodup_nil (by simp) (by simp)
    rw [h] at a1 a3 a5
    by_contra hne
    have hlt' : ss.length < min iterations (size.choose n) := by omega
    have hsub : Finset.powersetCard n (Finset.range size) ⊆ ss.toFinset := by
      intro s hs
      obtain ⟨h1, h2⟩ := Finset.mem_powersetCard.1 hs
      obtain ⟨d, hdm, rfl⟩ := hall s h2 (fun i hi => by simpa using h1 hi)
      exact List.mem_toFinset.2 (a5 hlt' d hdm)
    have hc := Finset.card_le_card hsub
    rw [Finset.card_powersetCard, Finset.card_range, List.toFinset_card_of_nodup a1] at hc
    have := min_le_right iterations (size.choose n)
    omega

/-- With `n = 0` and more than one iteration the generator never ends: however many shuffles, it is still short of its
goal. -/
theorem ransac_samples_zero_violated (size iterations cap : Nat) (hs : 0 < size) (hi : 1 < iterations)
    (draws : List (List Nat)) (ss : List (Finset Nat)) (h : samples 0 size iterations cap draws = .ok ss) :
    ss.length < target 0 size iterations cap := by
  unfold samples at h
  rw [if_neg (by omega)] at h
  injection h with h
  have ht : target 0 size iterations cap = iterations := by
    unfold target; rw [if_pos (Nat.choose_zero_right _)]
  obtain ⟨a1, a2, _, _, _⟩ := fold_inv 0 (target 0 size iterations cap) (fun s => s = ∅) draws (by simp) []
    List.nodup_nil (by simp) (by simp)
  rw [h] at a1 a2
  rw [ht]
  cases ss with
  | nil => simp; omega
  | cons a ss =>
    cases ss with
    | nil => simpa using hi
    | cons b ss =>
      exfalso
      have e1 := a2 a (by simp)
      have e2 := a2 b (by simp)
      rw [e1, e2] at a1
      simp at a1

/-! ### Consensus -/

variable {P E : Type} [Field E] [LinearOrder E]

/-- What the documentation says of a valid sample `s`: it can be fitted, more than `minInliers` of the other observations
have an error below `maxError` for that fit, and `p` is the fit to sample and inliers, with mean error `e`. -/
def Consensus (M : Fitter P E) (maxError : E) (minInliers : ℤ) (enum : Finset Nat → List Nat) (s : Finset Nat) (p : P)
    (e : E) : Prop :=
  ∃ (q : P) (inl : List Nat), M.fit (enum s) = .ok (some q) ∧ inl.Pairwise (· < ·) ∧
    (∀ i, i ∈ inl ↔ i < M.size ∧ i ∉ s ∧ M.err q i < maxError) ∧ minInliers < (inl.length : ℤ) ∧
    enum s ++ inl ≠ [] ∧ M.fit (enum s ++ inl) = .ok (some p) ∧
    e = ((enum s ++ inl).map (M.err p)).sum / ((enum s ++ inl).length : E)

/-- `enum` lists the members of a set once. -/
def Lists (enum : Finset Nat → List Nat) : Prop := ∀ s, (enum s).Nodup ∧ ∀ i, i ∈ enum s ↔ i ∈ s

private theorem also_spec (M : Fitter P E) (maxError : E) (enum : Finset Nat → List Nat) (he : Lists enum)
    (s : Finset Nat) (q : P) :
    (also M maxError q (enum s)).Pairwise (· < ·) ∧
    ∀ i, i ∈ also M maxError q (enum s) ↔ i < M.size ∧ i ∉ s ∧ M.err q i < maxError := by
  unfold also others
  refine ⟨(List.pairwise_lt_range.filter _).filter _, ?_⟩
  intro i
  rw [List.mem_filter, List.mem_filter, List.mem_range, decide_eq_true_eq, decide_eq_true_eq, (he s).2, and_assoc]

private theorem sorted_ext (l l' : List Nat) (h : l.Pairwise (· < ·)) (h' : l'.Pairwise (· < ·))
    (hm : ∀ i, i ∈ l ↔ i ∈ l') : l = l' := by
  have hp : l.Perm l' := (List.perm_ext_iff_of_nodup (h.imp fun h => ne_of_lt h) (h'.imp fun h => ne_of_lt h)).2 hm
  exact hp.eq_of_pairwise (fun a b _ _ h1 h2 => by omega) h h'

/-- The consensus of a sample is what the two fits give. -/
private theorem consensus_iff (M : Fitter P E) (maxError : E) (minInliers : ℤ) (enum : Finset Nat → List Nat)
    (he : Lists enum) (s : Finset Nat) (p : P) (e : E) :
    Consensus M maxError minInliers enum s p e ↔
      ∃ q, M.fit (enum s) = .ok (some q) ∧ minInliers < ((also M maxError q (enum s)).length : ℤ) ∧
        enum s ++ also M maxError q (enum s) ≠ [] ∧ M.fit (enum s ++ also M maxError q (enum s)) = .ok (some p) ∧
        e = ((enum s ++ also M maxError q (enum s)).map (M.err p)).sum /
          ((enum s ++ also M maxError q (enum s)).length : E) := by
  constructor
  · rintro ⟨q, inl, h1, h2, h3, h4, h5, h6, h7⟩
    obtain ⟨a1, a2⟩ := also_spec M maxError enum he s q
    have : inl = also M maxError q (enum s) := sorted_ext _ _ h2 a1 fun i => (h3 i).trans (a2 i).symm
    subst this
    exact ⟨q, h1, h4, h5, h6, h7⟩
  · rintro ⟨q, h1, h4, h5, h6, h7⟩
    obtain ⟨a1, a2⟩ := also_spec M maxError enum he s q
    exact ⟨q, _, h1, a1, a2, h4, h5, h6, h7⟩

private theorem refit_spec (M : Fitter P E) (best best' : Option (P × E)) (idx : List Nat)
    (h : refit M best idx = .ok best') :
    (∃ p e, M.fit idx = .ok (some p) ∧ idx ≠ [] ∧ e = (idx.map (M.err p)).sum / (idx.length : E) ∧
      best' = some (p, e) ∧ ∀ p0 b, best = some (p0, b) → e < b) ∨
    (best' = best ∧ ∀ p, M.fit idx = .ok (some p) → idx ≠ [] →
      ∃ p0 b, best = some (p0, b) ∧ ¬ (idx.map (M.err p)).sum / (idx.length : E) < b) := by
  unfold refit at h
  simp only [bind, Except.bind] at h
  cases hf : M.fit idx with
  | error er => rw [hf] at h; cases h
  | ok o =>
    rw [hf] at h
    cases o with
    | none =>
      cases h
      right
      exact ⟨rfl, fun p hp => by cases hp⟩
    | some p =>
      simp only at h
      by_cases hn : idx = []
      · subst hn
        simp [mean, better] at h
        subst h
        right
        exact ⟨rfl, fun p _ hc => absurd rfl hc⟩
      · have hm : mean (idx.map (M.err p)) = some ((idx.map (M.err p)).sum / (idx.length : E)) := by
          unfold mean
          rw [if_neg (by simpa using hn), List.length_map]
        rw [hm] at h
        cases best with
        | none =>
          simp [better] at h
          left
          exact ⟨p, _, rfl, hn, rfl, h.symm, fun _ _ hc => by cases hc⟩
        | some b =>
          obtain ⟨p0, b⟩ := b
          by_cases hlt : (idx.map (M.err p)).sum / (idx.length : E) < b
          · simp only [better, if_pos hlt] at h
            cases h
            left
            refine ⟨p, _, rfl, hn, rfl, rfl, ?_⟩
            intro _ _ hc
            cases hc
            exact hlt
          · simp only [better, if_neg hlt] at h
            cases h
            right
            refine ⟨rfl, ?_⟩
            intro p' hp' _
            cases hp'
            exact ⟨p0, b, rfl, hlt⟩

private theorem step_spec (M : Fitter P E) (maxError : E) (minInliers : ℤ) (enum : Finset Nat → List Nat)
    (he : Lists enum) (s : Finset Nat) (best best' : Option (P × E))
    (h : ransacStep M maxError minInliers best (enum s) = .ok best') :
    (∃ p e, Consensus M maxError minInliers enum s p e ∧ best' = some (p, e) ∧ ∀ p0 b, best = some (p0, b) → e < b) ∨
    (best' = best ∧ ∀ p e, Consensus M maxError minInliers enum s p e → ∃ p0 b, best = some (p0, b) ∧ ¬ e < b) := by
  unfold ransacStep at h
  simp only [bind, Except.bind] at h
  cases hf : M.fit (enum s) with
  | error er => rw [hf] at h; cases h
  | ok o =>
    rw [hf] at h
    cases o with
    | none =>
      cases h
      right
      refine ⟨rfl, ?_⟩
      intro p e hc
      obtain ⟨q, h1, _⟩ := (consensus_iff M maxError minInliers enum he s p e).1 hc
      rw [hf] at h1; cases h1
    | some q =>
      simp only at h
      split at h
      · rename_i hmin
        rcases refit_spec M best best' _ h with ⟨p, e, h1, h2, h3, h4, h5⟩ | ⟨h1, h2⟩
        · left
          exact ⟨p, e, (consensus_iff M maxError minInliers enum he s p e).2 ⟨q, hf, hmin, h2, h1, h3⟩, h4, h5⟩
        · right
          refine ⟨h1, ?_⟩
          intro p e hc
          obtain ⟨q', g1, g2, g3, g4, g5⟩ := (consensus_iff M maxError minInliers enum he s p e).1 hc
          rw [hf] at g1
          cases g1
          rw [g5]
          exact h2 p g4 g3
      · rename_i hmin
        cases h
        right
        refine ⟨rfl, ?_⟩
        intro p e hc
        obtain ⟨q', g1, g2, _⟩ := (consensus_iff M maxError minInliers enum he s p e).1 hc
        rw [hf] at g1
        cases g1
        exact absurd g2 hmin

/-- What is known of the best parameters after the samples `ss`. -/
private def Best (C : Finset Nat → P → E → Prop) (ss : List (Finset Nat)) : Option (P × E) → Prop
  | none => ∀ s ∈ ss, ∀ p e, ¬ C s p e
  | some (p, e) => ∃ pre s post, ss = pre ++ s :: post ∧ C s p e ∧
      (∀ s' ∈ pre, ∀ p' e', C s' p' e' → e < e') ∧ (∀ s' ∈ post, ∀ p' e', C s' p' e' → e ≤ e')

private theorem fold_best (M : Fitter P E) (maxError : E) (minInliers : ℤ) (enum : Finset Nat → List Nat)
    (he : Lists enum) (done ss : List (Finset Nat)) (best best' : Option (P × E))
    (hb : Best (Consensus M maxError minInliers enum) done best)
    (h : ss.foldlM (fun best s => ransacStep M maxError minInliers best (enum s)) best = .ok best') :
    Best (Consensus M maxError minInliers enum) (done ++ ss) best' := by
  induction ss generalizing done best with
  | nil =>
    simp only [List.foldlM_nil, pure, Except.pure] at h
    cases h
    rwa [List.append_nil]
  | cons s ss ih =>
    simp only [List.foldlM_cons, bind, Except.bind] at h
    cases hs : ransacStep M maxError minInliers best (enum s) with
    | error er => rw [hs] at h; cases h
    | ok b1 =>
      rw [hs] at h
      have := ih (done ++ [s]) b1 ?_ h
      · rwa [List.append_assoc, List.singleton_append] at this
      · rcases step_spec M maxError minInliers enum he s best b1 hs with ⟨p, e, hc, rfl, hlt⟩ | ⟨rfl, hk⟩
        · refine ⟨done, s, [], rfl, hc, ?_, by simp⟩
          intro s' hs' p' e' hc'
          cases best with
          | none => exact absurd hc' (hb s' hs' p' e')
          | some b =>
            obtain ⟨p0, b⟩ := b
            obtain ⟨pre, t, post, rfl, hct, h1, h2⟩ := hb
            have hb' := hlt p0 b rfl
            rcases List.mem_append.1 hs' with hm | hm
            · exact lt_trans hb' (h1 s' hm p' e' hc')
            · rcases List.mem_cons.1 hm with rfl | hm
              · obtain ⟨q, g1, g2, g3, g4, g5⟩ := (consensus_iff M maxError minInliers enum he s' p' e').1 hc'
                obtain ⟨q', f1, f2, f3, f4, f5⟩ := (consensus_iff M maxError minInliers enum he s' p0 b).1 hct
                rw [g1] at f1
                cases f1
                rw [g4] at f4
                cases f4
                rw [g5, ← f5]
                exact hb'
              · exact lt_of_lt_of_le hb' (h2 s' hm p' e' hc')
        · cases b1 with
          | none =>
            intro s' hs' p e hc
            rcases List.mem_append.1 hs' with hm | hm
            · exact hb s' hm p e hc
            · rw [List.mem_singleton] at hm
              subst hm
              obtain ⟨_, _, hc', _⟩ := hk p e hc
              cases hc'
          | some b =>
            obtain ⟨p0, b⟩ := b
            obtain ⟨pre, t, post, rfl, hct, h1, h2⟩ := hb
            refine ⟨pre, t, post ++ [s], by simp, hct, h1, ?_⟩
            intro s' hs' p' e' hc'
            rcases List.mem_append.1 hs' with hm | hm
            · exact h2 s' hm p' e' hc'
            · rw [List.mem_singleton] at hm
              subst hm
              obtain ⟨_, _, hb', hn⟩ := hk p' e' hc'
              cases hb'
              exact not_lt.1 hn

/-- C47. For every model and every sequence of shuffles: the parameters returned are the consensus fit of one of the
samples, of minimal mean error (the first such), and the indices returned, in order, are exactly those of the
observations whose error for these parameters is at most `max_error`. -/
theorem ransac_spec (M : Fitter P E) (n : Nat) (maxError : E) (minInliers : ℤ) (iterations cap : Nat)
    (enum : Finset Nat → List Nat) (he : Lists enum) (draws : List (List Nat)) (p : P) (inl : List Nat)
    (h : ransac M n maxError minInliers iterations cap enum draws = .ok (p, inl)) :
    ∃ ss, samples n M.size iterations cap draws = .ok ss ∧
      (∃ pre s post e, ss = pre ++ s :: post ∧ Consensus M maxError minInliers enum s p e ∧
        (∀ s' ∈ pre, ∀ p' e', Consensus M maxError minInliers enum s' p' e' → e < e') ∧
        (∀ s' ∈ post, ∀ p' e', Consensus M maxError minInliers enum s' p' e' → e ≤ e')) ∧
      inl.Pairwise (· < ·) ∧ ∀ i, i ∈ inl ↔ i < M.size ∧ M.err p i ≤ maxError := by
  unfold ransac at h
  simp only [bind, Except.bind] at h
  cases hs : samples n M.size iterations cap draws with
  | error er => rw [hs] at h; cases h
  | ok ss =>
    rw [hs] at h
    simp only at h
    cases hf : ss.foldlM (fun best s => ransacStep M maxError minInliers best (enum s)) none with
    | error er => rw [hf] at h; cases h
    | ok best =>
      rw [hf] at h
      cases best with
      | none => cases h
      | some b =>
        obtain ⟨p0, e⟩ := b
        simp only at h
        cases h
        have hb := fold_best M maxError minInliers enum he [] ss none _ (by intro s hs; cases hs) hf
        obtain ⟨pre, s, post, h1, h2, h3, h4⟩ := hb
        rw [List.nil_append] at h1
        refine ⟨ss, rfl, ⟨pre, s, post, e, h1, h2, h3, h4⟩, List.pairwise_lt_range.filter _, ?_⟩
        intro i
        rw [List.mem_filter, List.mem_range, decide_eq_true_eq]

/-- When fitting never raises for `n` or more indices of observations, ransac raises exactly if the sample size is not smaller than the number of observations
or no sample has a consensus, and then it raises ValueError. -/
theorem ransac_raises_iff (M : Fitter P E) (n : Nat) (maxError : E) (minInliers : ℤ) (iterations cap : Nat)
    (enum : Finset Nat → List Nat) (he : Lists enum) (draws : List (List Nat)) (hd : ∀ d ∈ draws, IsShuffle M.size d)
    (hfit : ∀ idx : List Nat, (∀ i ∈ idx, i < M.size) → n ≤ idx.length → ∃ o, M.fit idx = .ok o) :
    (ransac M n maxError minInliers iterations cap enum draws = .error .valueError ↔
      M.size ≤ n ∨ ∃ ss, samples n M.size iterations cap draws = .ok ss ∧
        ∀ s ∈ ss, ∀ p e, ¬ Consensus M maxError minInliers enum s p e) ∧
    (∀ er, ransac M n maxError minInliers iterations cap enum draws = .error er → er = .valueError) := by
  by_cases hn : M.size ≤ n
  · have : ransac M n maxError minInliers iterations cap enum draws = .error .valueError := by
      unfold ransac samples
      simp only [if_pos hn, bind, Except.bind]
    rw [this]
    exact ⟨⟨fun _ => Or.inl hn, fun _ => rfl⟩, fun er h => by cases h; rfl⟩
  · obtain ⟨ss, hs⟩ : ∃ ss, samples n M.size iterations cap draws = .ok ss := by
      unfold samples; rw [if_neg hn]; exact ⟨_, rfl⟩
    have hstep : ∀ best (idx : List Nat), (∀ i ∈ idx, i < M.size) → n ≤ idx.length →
        ∃ b, ransacStep M maxError minInliers best idx = .ok b := by
      intro best idx hi hl
      unfold ransacStep
      simp only [bind, Except.bind]
      obtain ⟨o, ho⟩ := hfit idx hi hl
      rw [ho]
      cases o with
      | none => exact ⟨_, rfl⟩
      | some q =>
        simp only
        split
        · unfold refit
          simp only [bind, Except.bind]
          obtain ⟨o, ho⟩ := hfit (idx ++ also M maxError q idx)
            (by
              intro i hm
              rcases List.mem_append.1 hm with hm | hm
              · exact hi i hm
              · unfold also others at hm
                exact List.mem_range.1 (List.mem_filter.1 (List.mem_filter.1 hm).1).1)
            (by rw [List.length_append]; omega)
          rw [ho]
          cases o with
          | none => exact ⟨_, rfl⟩
          | some p =>
            simp only
            split <;> exact ⟨_, rfl⟩
        · exact ⟨_, rfl⟩
    have hss := (ransac_samples_distinct n M.size iterations cap draws hd ss hs).2.1
    have hfold : ∀ (ss : List (Finset Nat)), (∀ s ∈ ss, s.card = n ∧ ∀ i ∈ s, i < M.size) →
        ∀ (best : Option (P × E)), ∃ b,
        ss.foldlM (fun best s => ransacStep M maxError minInliers best (enum s)) best = .ok b := by
      intro ss
      induction ss with
      | nil => intro _ best; exact ⟨best, rfl⟩
      | cons s ss ih =>
        intro hss best
        obtain ⟨hc, hi⟩ := hss s (by simp)
        obtain ⟨b, hb⟩ := hstep best (enum s) (fun i hm => hi i ((he s).2 i |>.1 hm))
          (by
            rw [← hc]
            have e : s = (enum s).toFinset := by ext i; rw [List.mem_toFinset, (he s).2]
            calc s.card = (enum s).toFinset.card := by rw [← e]
              _ ≤ (enum s).length := List.toFinset_card_le _)
        obtain ⟨b', hb'⟩ := ih (fun s' h' => hss s' (by simp [h'])) b
        refine ⟨b', ?_⟩
        simp only [List.foldlM_cons, bind, Except.bind, hb]
        exact hb'
    obtain ⟨b, hb⟩ := hfold ss hss none
    have hbest := fold_best M maxError minInliers enum he [] ss none _ (by intro s hs; cases hs) hb
    rw [List.nil_append] at hbest
    cases b with
    | none =>
      have hr : ransac M n maxError minInliers iterations cap enum draws = .error .valueError := by
        unfold ransac
        simp only [bind, Except.bind, hs, hb]
      rw [hr]
      exact ⟨⟨fun _ => Or.inr ⟨ss, hs, hbest⟩, fun _ => rfl⟩, fun er h => by cases h; rfl⟩
    | some b =>
      obtain ⟨p, e⟩ := b
      have hr : ransac M n maxError minInliers iterations cap enum draws =
          .ok (p, (List.range M.size).filter fun i => decide (M.err p i ≤ maxError)) := by
        unfold ransac
        simp only [bind, Except.bind, hs, hb]
      rw [hr]
      refine ⟨⟨fun h => (by cases h), ?_⟩, fun er h => (by cases h)⟩
      rintro (h | ⟨ss', h1, h2⟩)
      · exact absurd h hn
      · rw [hs] at h1
        cases h1
        obtain ⟨pre, s, post, rfl, hc, _⟩ := hbest
        exact absurd hc (h2 s (by simp) p e)

/-! ### Example: the mean of a list of numbers as model -/

/-- Observations 0, 1, 2, 10: the model fits their mean. -/
def demoFitter : Fitter ℚ ℚ where
  size := 4
  fit idx := .ok (if idx = [] then none else some ((idx.map fun i => ([0, 1, 2, 10] : List ℚ).getD i 0).sum / idx.length))
  err p i := |([0, 1, 2, 10] : List ℚ).getD i 0 - p|

def demoEnum (s : Finset Nat) : List Nat := s.sort (· ≤ ·)

example : Lists demoEnum := fun s => ⟨Finset.sort_nodup _ _, fun i => Finset.mem_sort _⟩

def demoDraws : List (List Nat) := [[3, 0, 1, 2], [3, 1, 2, 0], [0, 3, 2, 1], [1, 0, 2, 3]]

example : ∀ d ∈ demoDraws, IsShuffle 4 d := by unfold IsShuffle; decide
example : samples 1 4 100 4 demoDraws = .ok [{3}, {0}, {1}] := by decide +kernel
example : ransac demoFitter 1 (3/2) 1 100 4 demoEnum demoDraws = .ok (1, [0, 1, 2]) := by decide +kernel
example : ransac demoFitter 1 (3/2) 2 100 4 demoEnum demoDraws = .error .valueError := by decide +kernel

/-- The documentation calls a sample valid when it has `min_inliers` inliers in addition to `n`; the code needs one more.
Here the sample `{1}` of the observations 0, 1, 2, 10 is fitted by 1, and two others have an error below 3/2; with
`min_inliers = 2` and all four samples of one tried, `ransac` raises. -/
theorem ransac_min_inliers_violated :
    demoFitter.fit [1] = .ok (some 1) ∧ (∀ i, i ∈ [0, 2] → demoFitter.err 1 i < 3/2) ∧
    samples 1 4 100 4 [[3, 0, 1, 2], [0, 3, 2, 1], [1, 0, 2, 3], [2, 0, 1, 3]] = .ok [{3}, {0}, {1}, {2}] ∧
    ransac demoFitter 1 (3/2) 2 100 4 demoEnum [[3, 0, 1, 2], [0, 3, 2, 1], [1, 0, 2, 3], [2, 0, 1, 3]] =
      .error .valueError := by
  refine ⟨?_, ?_, ?_, ?_⟩ <;> decide +kernel

end Glimpse.Ransac
