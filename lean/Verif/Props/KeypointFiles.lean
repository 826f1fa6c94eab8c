import Verif.Model.Keypoints

/-!
C51: building keypoints can be interrupted and resumed.
-/
set_option autoImplicit false
set_option linter.unusedSimpArgs false

namespace Glimpse.Kp

variable {K : Type}

/-- A run without `overwrite` and with a path. -/
def KpFlags.Resumable (fl : KpFlags) : Prop := fl.path = true ∧ fl.overwrite = false

/-- After a complete run with a path every image has a complete file, if no file was partly written before. -/
theorem keypoints_all_files (fl : KpFlags) (hp : fl.path = true) (detect : Nat → K) (files : Nat → FileSt K)
    (mem : Nat → Option K) (i : Nat) (hf : files i ≠ .part) : ∃ k, finalFiles fl detect files mem i = .full k := by
  obtain ⟨path, ow, cl⟩ := fl
  simp only at hp
  subst hp
  unfold finalFiles processImg afterWrites
  cases hm : mem i <;> cases hfi : files i <;> cases ow <;> cases cl <;> simp_all [readFile, ret]

/-- The second run, in the same process or a new one, detects nothing and changes no file. -/
theorem keypoints_second_run (fl fl' : KpFlags) (hp : fl.path = true) (hr : fl'.Resumable) (detect detect' : Nat → K)
    (files : Nat → FileSt K) (mem mem' : Nat → Option K) (i : Nat) (hf : files i ≠ .part) :
    (processImg fl' (detect' i) (finalFiles fl detect files mem i) (mem' i)).detected = false ∧
    finalFiles fl' detect' (finalFiles fl detect files mem) mem' i = finalFiles fl detect files mem i := by
  obtain ⟨k, hk⟩ := keypoints_all_files fl hp detect files mem i hf
  obtain ⟨path, ow, cl⟩ := fl'
  obtain ⟨h1, h2⟩ := hr
  simp only at h1 h2
  subst h1 h2
  have e : ∀ g : Nat → FileSt K, g i = .full k →
      (processImg ⟨true, false, cl⟩ (detect' i) (g i) (mem' i)).detected = false ∧
      finalFiles ⟨true, false, cl⟩ detect' g mem' i = g i := by
    intro g hg
    unfold finalFiles processImg afterWrites
    cases hm : mem' i <;> cases cl <;> simp [hg, readFile]
  exact e _ hk

/-- A new process: nothing in memory. -/
def fresh : Nat → Option K := fun _ => none

/-- Any number of interrupted runs in new processes, none of them inside the writing of a file. -/
inductive Interrupted (detect : Nat → K) (files : Nat → FileSt K) : (Nat → FileSt K) → Prop
  | start : Interrupted detect files files
  | crash (fl : KpFlags) (fs fs' : Nat → FileSt K) : Interrupted detect files fs → fl.Resumable →
      Crash fl detect fs fresh fs' → (∀ i, fs' i ≠ .part) → Interrupted detect files fs'

private theorem interrupted_inv (detect : Nat → K) (files fs : Nat → FileSt K) (h : Interrupted detect files fs)
    (h0 : ∀ i, files i ≠ .part) (i : Nat) :
    fs i ≠ .part ∧ (fs i = files i ∨ (files i = .absent ∧ fs i = .full (detect i))) := by
  induction h with
  | start => exact ⟨h0 i, Or.inl rfl⟩
  | crash fl fs fs' _ hr hc hp ih =>
    refine ⟨hp i, ?_⟩
    obtain ⟨c, hc⟩ := hc i
    obtain ⟨path, ow, cl⟩ := fl
    obtain ⟨h1, h2⟩ := hr
    simp only at h1 h2
    subst h1 h2
    obtain ⟨ih1, ih2⟩ := ih
    have hpi := hp i
    rw [hc] at hpi ⊢
    unfold processImg afterWrites fresh at hpi ⊢
    cases hf : fs i with
    | absent =>
      have ha : files i = .absent := by
        rcases ih2 with h | ⟨_, h⟩
        · rw [← h, hf]
        · rw [hf] at h; cases h
      rw [hf] at hpi
      match c with
      | 0 => left; simp [ha]
      | 1 => simp at hpi
      | c + 2 => right; simp [ha]
    | part => exact absurd hf ih1
    | full k =>
      cases cl with
      | false => simpa [hf, readFile] using ih2
      | true => simpa [hf, readFile] using ih2

/-- C51. For every initial set of files, every number of interrupted runs (whatever the crash points and schedule, but not
inside the writing of a file) and restart: after a complete run each file that existed before is as it was, and each
other file holds the keypoints detected in its image; the same as after one uninterrupted run. -/
theorem keypoints_resume_partial (detect : Nat → K) (files fs : Nat → FileSt K) (h : Interrupted detect files fs)
    (h0 : ∀ i, files i ≠ .part) (fl : KpFlags) (hr : fl.Resumable) (i : Nat) :
    finalFiles fl detect fs fresh i = (match files i with
      | .absent => .full (detect i)
      | f => f) ∧
    finalFiles fl detect fs fresh i = finalFiles fl detect files fresh i := by
  obtain ⟨path, ow, cl⟩ := fl
  obtain ⟨h1, h2⟩ := hr
  simp only at h1 h2
  subst h1 h2
  have key : ∀ g : Nat → FileSt K, (∀ i, files i ≠ .part) →
      (g i ≠ .part ∧ (g i = files i ∨ (files i = .absent ∧ g i = .full (detect i)))) →
      finalFiles ⟨true, false, cl⟩ detect g fresh i = (match files i with
        | .absent => .full (detect i)
        | f => f) := by
    intro g _ hg
    obtain ⟨hg1, hg2⟩ := hg
    unfold finalFiles processImg afterWrites fresh
    rcases hg2 with hg2 | ⟨ha, hg2⟩
    · rw [hg2] at hg1 ⊢
      cases hf : files i with
      | absent => cases cl <;> simp
      | part => exact absurd hf hg1
      | full k => cases cl <;> simp [readFile]
    · rw [ha, hg2]
      cases cl <;> simp [readFile]
  have a := key fs h0 (interrupted_inv detect files fs h h0 i)
  have b := key files h0 ⟨h0 i, Or.inl rfl⟩
  exact ⟨a, a.trans b.symm⟩

/-- C51 is false of a crash inside the writing of a file (the file is written in place): the restarted run raises, … -/
theorem keypoints_torn_raises_violated (detect : Nat → K) (fl : KpFlags) (hp : fl.path = true) (hc : fl.clear = false)
    (files : Nat → FileSt K) (i : Nat) (hf : files i = .part) :
    (processImg fl (detect i) (files i) (fresh i)).result = .error .other := by
  unfold processImg fresh
  rw [hf]
  simp [hp, hc, readFile]

/-- … or, with `clear_keypoints`, keeps the partly written file for good. -/
theorem keypoints_torn_kept_violated (detect : Nat → K) (fl : KpFlags) (hr : fl.Resumable) (hc : fl.clear = true)
    (files : Nat → FileSt K) (i : Nat) (hf : files i = .part) :
    (processImg fl (detect i) (files i) (fresh i)).result = .ok none ∧ finalFiles fl detect files fresh i = .part := by
  obtain ⟨path, ow, cl⟩ := fl
  obtain ⟨h1, h2⟩ := hr
  simp only at h1 h2 hc
  subst h1 h2 hc
  unfold finalFiles processImg afterWrites fresh
  rw [hf]
  simp [ret]

/-- Such a crash can happen: of a run with a path on an image without file and keypoints. -/
theorem keypoints_torn_reachable (detect : Nat → K) (fl : KpFlags) (hp : fl.path = true) (files : Nat → FileSt K)
    (h : ∀ i, files i = .absent) : Crash fl detect files fresh (fun _ => .part) := by
  intro i
  refine ⟨1, ?_⟩
  unfold processImg afterWrites fresh
  rw [h i]
  simp [hp]

/-- `overwrite=True` recomputes an image exactly if its keypoints are neither in file nor memory, or in both, or in a
file only and `clear_keypoints` is set (with a path; without one it always does). -/
theorem keypoints_overwrite_partial (fl : KpFlags) (ho : fl.overwrite = true) (d : K) (f : FileSt K) (mem : Option K) :
    (processImg fl d f mem).detected = true ↔
      (fl.path = false ∨ (f = .absent ∧ mem = none) ∨ (f ≠ .absent ∧ mem ≠ none) ∨
        (f ≠ .absent ∧ mem = none ∧ fl.clear = true)) := by
  obtain ⟨path, ow, cl⟩ := fl
  simp only at ho
  subst ho
  unfold processImg
  cases mem <;> cases f <;> cases path <;> cases cl <;> simp [readFile]

/-- C51 is false of `overwrite=True`: with a complete file and nothing in memory, the file is read and kept, … -/
theorem keypoints_overwrite_file_violated (fl : KpFlags) (hp : fl.path = true) (hc : fl.clear = false) (d k : K) :
    processImg fl d (.full k) none = ⟨[], .ok (some k), false⟩ := by
  unfold processImg
  simp [hp, hc, readFile, ret]

/-- … and with keypoints in memory and no file, those are written. -/
theorem keypoints_overwrite_memory_violated (fl : KpFlags) (hp : fl.path = true) (hc : fl.clear = false) (d k : K) :
    processImg fl d .absent (some k) = ⟨[.part, .full k], .ok (some k), false⟩ := by
  unfold processImg
  simp [hp, hc, ret]

/-- What a complete run returns, in general: with `clear_keypoints` nothing, else keypoints for every image. -/
theorem keypoints_returned (fl : KpFlags) (d : K) (f : FileSt K) (mem : Option K) (hf : f ≠ .part) :
    (fl.clear = true → (processImg fl d f mem).result = .ok none) ∧
    (fl.clear = false → ∃ k, (processImg fl d f mem).result = .ok (some k) ∧
      (k = d ∨ mem = some k ∨ f = .full k)) := by
  obtain ⟨path, ow, cl⟩ := fl
  unfold processImg
  cases mem <;> cases f <;> cases path <;> cases cl <;> cases ow <;> simp_all [readFile, ret]

/-! ### Example: three images, the first with a file; a run is interrupted after the second, then resumed -/

def demoFiles : Nat → FileSt Nat := fun i => if i = 0 then .full 100 else .absent
def demoCrashed : Nat → FileSt Nat := fun i => if i = 0 then .full 100 else if i = 1 then .full 11 else .absent

example : Interrupted (fun i => 10 + i) demoFiles demoCrashed := by
  refine .crash ⟨true, false, false⟩ demoFiles demoCrashed .start ⟨rfl, rfl⟩ ?_ ?_
  · intro i
    refine ⟨if i = 1 then 2 else 0, ?_⟩
    unfold demoCrashed demoFiles afterWrites processImg fresh
    by_cases h0 : i = 0
    · subst h0; rfl
    · by_cases h1 : i = 1
      · subst h1; rfl
      · simp [h0, h1]
  · intro i
    unfold demoCrashed
    split
    · intro h; cases h
    · split <;> (intro h; cases h)
example : finalFiles ⟨true, false, false⟩ (fun i => 10 + i) demoCrashed fresh 2 = .full 12 := by decide

end Glimpse.Kp
