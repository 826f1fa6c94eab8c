import Verif.Model.ObserverFit
import Mathlib.Algebra.BigOperators.Group.List.Basic
import Mathlib.Algebra.Order.BigOperators.Group.List
import Mathlib.Analysis.Calculus.Deriv.Add
import Mathlib.Analysis.Calculus.Deriv.Mul
import Mathlib.Analysis.Calculus.Deriv.Pow
import Mathlib.Data.List.GetD
import Mathlib.Tactic.Ring
import Mathlib.Tactic.Linarith
import Mathlib.Tactic.Positivity

/-!
C115: the cameras of an observer that is being oriented. `reset_cameras` restores the view directions the cameras had when the
`ObserverCameras` was made, after any history; `set_cameras` sets each camera; `fit` returns what the optimizer makes of the
documented objective, which depends on nothing but the directions asked for, and resets the cameras.
-/
set_option autoImplicit false
set_option linter.unusedSimpArgs false
set_option linter.unusedSectionVars false

namespace Glimpse.ObsCams

variable {ρ β : Type}

/-! ### Specification -/

/-- Spec: the weighted squared distances of the anchors from their original directions. -/
noncomputable def anchorTerm (w : ℝ) (orig : Nat → V3) (anchors : List Nat) (x : Nat → V3) : ℝ :=
  (anchors.map fun i => w / 2 * ∑ k, (x i k - orig i k) ^ 2).sum

/-- Spec: the sum over all matched points of the absolute differences between the two rays. -/
noncomputable def rayTerm (ms : List (Nat × Nat × Match)) (x : Nat → V3) : ℝ :=
  (ms.map fun m => (m.2.2.xys.map fun p => ∑ k, |predictedXyz (x m.1) p.1 k - predictedXyz (x m.2.1) p.2 k|).sum).sum

/-- Spec: the objective of the documentation: L1 norm of the differences plus the anchors. -/
noncomputable def Objective (w : ℝ) (orig : Nat → V3) (anchors : List Nat) (ms : List (Nat × Nat × Match)) (x : Nat → V3) : ℝ :=
  anchorTerm w orig anchors x + rayTerm ms x

/-- Spec: the sum over the points of a match of the gradient that is used for one point. -/
noncomputable def raysGradient (v0 v1 : V3) (xys : List (V2 × V2)) : V3 :=
  fun a => (xys.map fun p => pairGradient v0 v1 p.1 p.2 a).sum

/-- Spec: what the code hands over as the gradient for image `k` (of which `pairGradient` is the subject of C54). -/
noncomputable def Gradient (w : ℝ) (orig : Nat → V3) (anchors : List Nat) (ms : List (Nat × Nat × Match)) (x : Nat → V3) (k : Nat) : V3 :=
  (anchors.map fun i => if i = k then fun a => w * (x k a - orig k a) else 0).sum +
  (ms.map fun m => (if m.1 = k then raysGradient (x m.1) (x m.2.1) m.2.2.xys else 0) -
    (if m.2.1 = k then raysGradient (x m.1) (x m.2.1) m.2.2.xys else 0)).sum

/-- Spec: an optimizer that is given the values of a function, without any cameras. -/
def optimize (f : List V3 → Acc) : Strat β → Except Err β
  | .done r => .ok r
  | .raises e => .error e
  | .eval x next => optimize f (next (f x))

/-- Spec: an optimizer that only asks for `n` directions at a time. -/
inductive Sized (n : Nat) : Strat β → Prop
  | done (r : β) : Sized n (.done r)
  | raises (e : Err) : Sized n (.raises e)
  | eval (x : List V3) (next : Acc → Strat β) (hx : x.length = n) (h : ∀ a, Sized n (next a)) : Sized n (.eval x next)

/-- Spec: an object whose anchors exist, and whose matches are between the cameras of the images of their row and column, which
differ in nothing but the direction. -/
structure Fits (same : ρ → ρ → Bool) (o : Obj) (h : Heap ρ) : Prop where
  anchors : ∀ i ∈ o.anchors, i < o.images.length
  rows : ∀ m ∈ o.matches_, m.1 < o.images.length ∧ m.2.1 < o.images.length
  cams : ∀ m ∈ o.matches_, o.images[m.1]? = some m.2.2.cam0 ∧ o.images[m.2.1]? = some m.2.2.cam1
  same : ∀ m ∈ o.matches_, same (h m.2.2.cam0).rest (h m.2.2.cam1).rest = true

/-! ### Setting cameras -/

private theorem setDir_rest (h : Heap ρ) (c : Nat) (v : V3) (d : Nat) : (setDir h c v d).rest = (h d).rest := by
  unfold setDir
  split
  · rename_i e; rw [e]
  · rfl

private theorem setCameras_rest : ∀ (cs : List Nat) (x : List V3) (h : Heap ρ) (d : Nat),
    ((setCameras cs x h).2 d).rest = (h d).rest
  | [], _, h, d => rfl
  | c :: cs, [], h, d => rfl
  | c :: cs, v :: vs, h, d => by
    unfold setCameras
    rw [setCameras_rest cs vs _ d, setDir_rest]

private theorem setCameras_other : ∀ (cs : List Nat) (x : List V3) (h : Heap ρ) (d : Nat), d ∉ cs →
    (setCameras cs x h).2 d = h d
  | [], _, h, d, _ => rfl
  | c :: cs, [], h, d, _ => rfl
  | c :: cs, v :: vs, h, d, hd => by
    unfold setCameras
    rw [setCameras_other cs vs _ d (fun hm => hd (List.mem_cons_of_mem _ hm))]
    unfold setDir
    rw [if_neg (fun (e : d = c) => hd (by rw [e]; exact List.mem_cons_self))]

private theorem setCameras_ok : ∀ (cs : List Nat) (x : List V3) (h : Heap ρ), cs.length ≤ x.length → (setCameras cs x h).1 = .ok ()
  | [], _, h, _ => rfl
  | c :: cs, [], h, hl => absurd hl (by simp)
  | c :: cs, v :: vs, h, hl => by
    unfold setCameras
    exact setCameras_ok cs vs _ (by simpa using hl)

/-- C115: directions that are fewer than the images raise an error. -/
theorem set_cameras_short : ∀ (cs : List Nat) (x : List V3) (h : Heap ρ), x.length < cs.length →
    (setCameras cs x h).1 = .error .indexError
  | [], _, h, hl => absurd hl (by simp)
  | c :: cs, [], h, hl => rfl
  | c :: cs, v :: vs, h, hl => by
    unfold setCameras
    exact set_cameras_short cs vs _ (by simpa using hl)

private theorem setCameras_dir : ∀ (cs : List Nat) (x : List V3) (h : Heap ρ), cs.Nodup → cs.length ≤ x.length →
    ∀ i (hi : i < cs.length), ((setCameras cs x h).2 cs[i]).viewdir = x.getD i 0
  | [], _, h, _, _, i, hi => absurd hi (by simp)
  | c :: cs, [], h, _, hl, i, hi => absurd hl (by simp)
  | c :: cs, v :: vs, h, hn, hl, i, hi => by
    unfold setCameras
    obtain ⟨h1, h2⟩ := List.nodup_cons.1 hn
    cases i with
    | zero =>
      simp only [List.getElem_cons_zero, List.getD_cons_zero]
      rw [setCameras_other cs vs _ c h1]
      simp [setDir]
    | succ i =>
      simp only [List.getElem_cons_succ, List.getD_cons_succ]
      exact setCameras_dir cs vs _ h2 (by simpa using hl) i (by simpa using hi)

/-- C115: `set_cameras` gives the camera of each image its direction (images with different cameras) and changes nothing else. -/
theorem set_cameras_spec (cs : List Nat) (x : List V3) (h : Heap ρ) (hn : cs.Nodup) (hl : cs.length ≤ x.length) :
    (setCameras cs x h).1 = .ok () ∧
    (∀ i (hi : i < cs.length), ((setCameras cs x h).2 cs[i]).viewdir = x.getD i 0) ∧
    (∀ c, ((setCameras cs x h).2 c).rest = (h c).rest) ∧ ∀ c, c ∉ cs → (setCameras cs x h).2 c = h c :=
  ⟨setCameras_ok cs x h hl, setCameras_dir cs x h hn hl, setCameras_rest cs x h, setCameras_other cs x h⟩

/-- C115 fails for images that share a camera: the first does not get its direction if the second gets another. -/
theorem set_cameras_shared_violated (c : Nat) (v w : V3) (hv : v ≠ w) (h : Heap ρ) :
    (setCameras [c, c] [v, w] h).1 = .ok () ∧ ((setCameras [c, c] [v, w] h).2 c).viewdir ≠ v := by
  refine ⟨rfl, ?_⟩
  simp [setCameras, setDir]
  exact fun e => hv e.symm

private theorem setCameras_same (f : Nat → V3) : ∀ (cs : List Nat) (h : Heap ρ) (c : Nat),
    (c ∈ cs ∨ (h c).viewdir = f c) → ((setCameras cs (cs.map f) h).2 c).viewdir = f c
  | [], h, c, hc => by
    rcases hc with hc | hc
    · cases hc
    · exact hc
  | d :: cs, h, c, hc => by
    rw [List.map_cons]
    unfold setCameras
    refine setCameras_same f cs _ c ?_
    by_cases hcs : c ∈ cs
    · exact .inl hcs
    · right
      unfold setDir
      by_cases e : c = d
      · rw [if_pos e, e]
      · rw [if_neg e]
        rcases hc with hc | hc
        · rcases List.mem_cons.1 hc with hc | hc
          · exact absurd hc e
          · exact absurd hc hcs
        · exact hc

/-- C115: after any history of setting cameras, fits (whatever the optimizer does, also if it raises), resets and changes of
cameras by others, `reset_cameras` gives every camera of the observer the view direction it had when the object was made (also if
images share cameras), and changes nothing else. -/
theorem reset_restores (same : ρ → ρ → Bool) (h0 : Heap ρ) (images : List Nat) (anchors : Option (List Nat))
    (ms : List (Nat × Nat × Match)) (ops : List (Op ρ β)) :
    let o := init h0 images anchors ms
    let h := run same o h0 ops
    (reset o h).1 = .ok () ∧ (∀ c ∈ images, ((reset o h).2 c).viewdir = (h0 c).viewdir) ∧
      (∀ c, ((reset o h).2 c).rest = (h c).rest) ∧ ∀ c, c ∉ images → (reset o h).2 c = h c := by
  intro o h
  refine ⟨setCameras_ok _ _ _ (by simp [o, init]), fun c hc => ?_, setCameras_rest _ _ _, setCameras_other _ _ _⟩
  exact setCameras_same (fun c => (h0 c).viewdir) images h c (.inl hc)

private theorem fun_rest (same : ρ → ρ → Bool) (w : ℝ) (o : Obj) (x : List V3) (h : Heap ρ) :
    (fun_ same w o x h).2 = (setCameras o.images x h).2 := by
  unfold fun_
  split <;> (rename_i e; rw [e])

private theorem minimize_frame (same : ρ → ρ → Bool) (w : ℝ) (o : Obj) (s : Strat β) : ∀ (h : Heap ρ) (d : Nat),
    ((minimize same w o s h).2 d).rest = (h d).rest ∧ (d ∉ o.images → (minimize same w o s h).2 d = h d) := by
  induction s with
  | done r => intro h d; exact ⟨rfl, fun _ => rfl⟩
  | raises e => intro h d; exact ⟨rfl, fun _ => rfl⟩
  | eval x next ih =>
    intro h d
    have hf := fun_rest same w o x h
    unfold minimize
    split
    · rename_i e h' e'
      rw [e'] at hf
      simp only at hf ⊢
      rw [hf]
      exact ⟨setCameras_rest _ _ _ _, setCameras_other _ _ _ _⟩
    · rename_i a h' e'
      rw [e'] at hf
      simp only at hf ⊢
      obtain ⟨h1, h2⟩ := ih a h' d
      rw [hf] at h1 h2 ⊢
      exact ⟨h1.trans (setCameras_rest _ _ _ _), fun hd => (h2 hd).trans (setCameras_other _ _ _ _ hd)⟩

/-- C115: a fit, whether it returns or raises, changes nothing of any camera but the view direction, and that only of the cameras
of the observer. -/
theorem fit_frame (same : ρ → ρ → Bool) (w : ℝ) (o : Obj) (solver : List V3 → Strat β) (h : Heap ρ) (d : Nat) :
    ((fit same w o solver h).2 d).rest = (h d).rest ∧ (d ∉ o.images → (fit same w o solver h).2 d = h d) := by
  have hm := minimize_frame same w o (solver (o.images.map fun c => (h c).viewdir)) h d
  unfold fit
  split
  · rename_i e h' e'
    rw [e'] at hm
    exact hm
  · rename_i r h' e'
    rw [e'] at hm
    simp only at hm
    have hr : ∀ d, ((reset o h').2 d).rest = (h' d).rest := setCameras_rest _ _ _
    have ho : ∀ d, d ∉ o.images → (reset o h').2 d = h' d := setCameras_other _ _ _
    split
    · rename_i e'' h'' e3
      rw [e3] at hr ho
      exact ⟨(hr d).trans hm.1, fun hd => (ho d hd).trans (hm.2 hd)⟩
    · rename_i h'' e3
      rw [e3] at hr ho
      exact ⟨(hr d).trans hm.1, fun hd => (ho d hd).trans (hm.2 hd)⟩

/-- C115: after any history, a fit that returns leaves every camera of the observer with the view direction it had when the object
was made. -/
theorem fit_resets (same : ρ → ρ → Bool) (h0 : Heap ρ) (images : List Nat) (anchors : Option (List Nat))
    (ms : List (Nat × Nat × Match)) (ops : List (Op ρ β)) (w : ℝ) (solver : List V3 → Strat β) (r : β) (h' : Heap ρ)
    (hfit : fit same w (init h0 images anchors ms) solver (run same (init h0 images anchors ms) h0 ops) = (.ok r, h')) :
    ∀ c ∈ images, (h' c).viewdir = (h0 c).viewdir := by
  intro c hc
  unfold fit at hfit
  split at hfit
  · cases hfit
  · rename_i r1 h1 e1
    split at hfit
    · cases hfit
    · rename_i h2 e2
      simp only [Prod.mk.injEq, Except.ok.injEq] at hfit
      rw [← hfit.2]
      have := setCameras_same (fun c => (h0 c).viewdir) images h1 c (.inl hc)
      have e3 : (reset (init h0 images anchors ms) h1).2 = h2 := by rw [e2]
      rw [← e3]
      exact this

/-! ### The objective -/

private theorem anchorLoop_eq (w : ℝ) (o : Obj) (x : List V3) : ∀ (is : List Nat) (a : Acc),
    (∀ i ∈ is, i < x.length ∧ i < o.viewdirs.length) →
    anchorLoop w o x is a = .ok ⟨a.obj + anchorTerm w (fun i => o.viewdirs.getD i 0) is (fun i => x.getD i 0),
      fun k => a.grads k + (is.map fun i => if i = k then fun a => w * (x.getD k 0 a - o.viewdirs.getD k 0 a) else 0).sum⟩
  | [], a, _ => by simp [anchorLoop, anchorTerm]
  | i :: is, a, hi => by
    obtain ⟨h1, h2⟩ := hi i List.mem_cons_self
    have hs : anchorStep w o x a i = .ok ⟨a.obj + w / 2 * ∑ k, (x.getD i 0 k - o.viewdirs.getD i 0 k) ^ 2,
        a.add i fun k => w * (x.getD i 0 k - o.viewdirs.getD i 0 k)⟩ := by
      unfold anchorStep
      rw [List.getElem?_eq_getElem h1, List.getElem?_eq_getElem h2, List.getD_eq_getElem _ _ h1, List.getD_eq_getElem _ _ h2]
    unfold anchorLoop
    simp only [hs, bind, Except.bind]
    rw [anchorLoop_eq w o x is _ fun j hj => hi j (List.mem_cons_of_mem _ hj)]
    congr 1
    simp only [Acc.mk.injEq]
    constructor
    · simp only [anchorTerm, List.map_cons, List.sum_cons]; ring
    · funext k
      simp only [Acc.add, List.map_cons, List.sum_cons]
      by_cases hk : k = i
      · subst hk
        rw [if_pos rfl, if_pos rfl, add_assoc]
      · rw [if_neg hk, if_neg (fun e => hk e.symm), zero_add]

private theorem matchLoop_eq (same : ρ → ρ → Bool) (h : Heap ρ) (n : Nat) (x : Nat → V3) : ∀ (ms : List (Nat × Nat × Match)) (a : Acc),
    (∀ m ∈ ms, m.1 < n ∧ m.2.1 < n) → (∀ m ∈ ms, same (h m.2.2.cam0).rest (h m.2.2.cam1).rest = true) →
    (∀ m ∈ ms, (h m.2.2.cam0).viewdir = x m.1 ∧ (h m.2.2.cam1).viewdir = x m.2.1) →
    matchLoop same h n ms a = .ok ⟨a.obj + rayTerm ms x,
      fun k => a.grads k + (ms.map fun m =>
        (if m.1 = k then raysGradient (x m.1) (x m.2.1) m.2.2.xys else 0) -
        (if m.2.1 = k then raysGradient (x m.1) (x m.2.1) m.2.2.xys else 0)).sum⟩
  | [], a, _, _, _ => by simp [matchLoop, rayTerm]
  | m :: ms, a, h1, h2, h3 => by
    have e1 := h1 m List.mem_cons_self
    have e2 := h2 m List.mem_cons_self
    obtain ⟨e3, e4⟩ := h3 m List.mem_cons_self
    have hg : matchGradient h m.2.2 = raysGradient (x m.1) (x m.2.1) m.2.2.xys := by
      unfold matchGradient raysGradient; rw [e3, e4]
    have ho : matchObjective h m.2.2 =
        (m.2.2.xys.map fun p => ∑ k, |predictedXyz (x m.1) p.1 k - predictedXyz (x m.2.1) p.2 k|).sum := by
      unfold matchObjective pairObjective; rw [e3, e4]
    unfold matchLoop matchStep
    simp only [e2, e1, and_self, if_true, bind, Except.bind]
    rw [matchLoop_eq same h n x ms _ (fun k hk => h1 k (List.mem_cons_of_mem _ hk)) (fun k hk => h2 k (List.mem_cons_of_mem _ hk))
      (fun k hk => h3 k (List.mem_cons_of_mem _ hk))]
    rw [hg, ho]
    congr 1
    simp only [Acc.mk.injEq]
    constructor
    · simp only [rayTerm, List.map_cons, List.sum_cons]; ring
    · funext k
      simp only [Acc.add, List.map_cons, List.sum_cons]
      generalize raysGradient (x m.1) (x m.2.1) m.2.2.xys = G
      generalize (List.map (β := V3) _ ms).sum = S
      by_cases k1 : m.1 = k
      · by_cases k2 : m.2.1 = k
        · rw [if_pos k2.symm, if_pos k1.symm, if_pos k1, if_pos k2]; abel
        · rw [if_neg (fun e => k2 e.symm), if_pos k1.symm, if_pos k1, if_neg k2]; abel
      · by_cases k2 : m.2.1 = k
        · rw [if_pos k2.symm, if_neg (fun e => k1 e.symm), if_neg k1, if_pos k2]; abel
        · rw [if_neg (fun e => k2 e.symm), if_neg (fun e => k1 e.symm), if_neg k1, if_neg k2]; abel

/-- The pair handed to the optimizer at some directions, as a function of these alone. -/
noncomputable def valueAt (w : ℝ) (o : Obj) (x : List V3) : Acc :=
  ⟨Objective w (fun i => o.viewdirs.getD i 0) o.anchors o.matches_ (fun i => x.getD i 0),
    Gradient w (fun i => o.viewdirs.getD i 0) o.anchors o.matches_ (fun i => x.getD i 0)⟩

/-- C115: the function that is optimized depends on nothing but the directions it is given: it returns the documented objective, and
the sums over anchors and matches of the gradients, whatever the directions of the cameras before. -/
theorem fun_value (same : ρ → ρ → Bool) (w : ℝ) (o : Obj) (x : List V3) (h : Heap ρ) (hf : Fits same o h) (hn : o.images.Nodup)
    (hv : o.viewdirs.length = o.images.length) (hx : x.length = o.images.length) :
    (fun_ same w o x h).1 = .ok (valueAt w o x) := by
  have hset : setCameras o.images x h = (.ok (), (setCameras o.images x h).2) :=
    Prod.ext (setCameras_ok o.images x h (by omega)) rfl
  unfold fun_
  rw [hset]
  simp only []
  rw [anchorLoop_eq w o x o.anchors _ fun i hi => by have := hf.anchors i hi; omega]
  simp only [bind, Except.bind]
  rw [matchLoop_eq same _ x.length (fun i => x.getD i 0) o.matches_ _ (fun m hm => by have := hf.rows m hm; omega)
    (fun m hm => by rw [setCameras_rest, setCameras_rest]; exact hf.same m hm)
    (fun m hm => by
      obtain ⟨r1, r2⟩ := hf.rows m hm
      obtain ⟨c1, c2⟩ := hf.cams m hm
      rw [List.getElem?_eq_getElem r1] at c1
      rw [List.getElem?_eq_getElem r2] at c2
      have d1 := setCameras_dir o.images x h hn (by omega) m.1 r1
      have d2 := setCameras_dir o.images x h hn (by omega) m.2.1 r2
      rw [Option.some.inj c1] at d1
      rw [Option.some.inj c2] at d2
      exact ⟨d1, d2⟩)]
  congr 1
  unfold valueAt Objective Gradient
  simp only [Acc.mk.injEq, zero_add]

private theorem fits_after (same : ρ → ρ → Bool) (o : Obj) (h h' : Heap ρ) (hf : Fits same o h) (hr : ∀ d, (h' d).rest = (h d).rest) :
    Fits same o h' :=
  ⟨hf.anchors, hf.rows, hf.cams, fun m hm => by rw [hr, hr]; exact hf.same m hm⟩

private theorem minimize_value (same : ρ → ρ → Bool) (w : ℝ) (o : Obj) (hn : o.images.Nodup) (hv : o.viewdirs.length = o.images.length)
    (s : Strat β) (hs : Sized o.images.length s) : ∀ (h : Heap ρ), Fits same o h →
    (minimize same w o s h).1 = optimize (valueAt w o) s := by
  induction hs with
  | done r => intro h _; rfl
  | raises e => intro h _; rfl
  | eval x next hx _ ih =>
    intro h hf
    have h1 := fun_value same w o x h hf hn hv hx
    have h2 := fun_rest same w o x h
    unfold minimize optimize
    split
    · rename_i e h' e'
      rw [e'] at h1
      cases h1
    · rename_i a h' e'
      rw [e'] at h1 h2
      simp only [Except.ok.injEq] at h1 h2
      subst h1 h2
      exact ih _ _ (fits_after same o h _ hf (setCameras_rest _ _ _))

/-- C115: the result of a fit is what the optimizer makes of the documented objective, from the current directions: no camera
plays a role but for the directions the optimizer starts from. -/
theorem fit_result (same : ρ → ρ → Bool) (w : ℝ) (o : Obj) (solver : List V3 → Strat β) (h : Heap ρ) (hf : Fits same o h)
    (hn : o.images.Nodup) (hv : o.viewdirs.length = o.images.length) (hs : ∀ x, Sized o.images.length (solver x)) :
    (fit same w o solver h).1 = optimize (valueAt w o) (solver (o.images.map fun c => (h c).viewdir)) := by
  have hm := minimize_value same w o hn hv _ (hs (o.images.map fun c => (h c).viewdir)) h hf
  unfold fit
  split
  · rename_i e h' e'
    rw [e'] at hm
    exact hm
  · rename_i r h' e'
    rw [e'] at hm
    have hr : (reset o h').1 = .ok () := setCameras_ok _ _ _ (by omega)
    split
    · rename_i e'' h'' e3
      rw [e3] at hr
      cases hr
    · exact hm

/-- Spec: what the optimizer is told for directions `x` by an object made with these images and anchors (the first image if none are given)
when the cameras had the directions of `h0`. -/
noncomputable def valueFor (w : ℝ) (h0 : Heap ρ) (images : List Nat) (anchors : Option (List Nat)) (ms : List (Nat × Nat × Match))
    (x : List V3) : Acc :=
  let orig : Nat → V3 := fun i => (images.map fun c => (h0 c).viewdir).getD i 0
  let at_ : List Nat := match anchors with | none => [0] | some l => l
  ⟨Objective w orig at_ ms (fun i => x.getD i 0), Gradient w orig at_ ms (fun i => x.getD i 0)⟩

/-- C115: for an object as it is made, at any time later: the result of a fit is what the optimizer makes of the documented objective with
the directions at construction and the anchors given, or the first image if none are. -/
theorem fit_result_new (same : ρ → ρ → Bool) (w : ℝ) (h0 : Heap ρ) (images : List Nat) (anchors : Option (List Nat))
    (ms : List (Nat × Nat × Match)) (solver : List V3 → Strat β) (h : Heap ρ) (hf : Fits same (init h0 images anchors ms) h)
    (hn : images.Nodup) (hs : ∀ x, Sized images.length (solver x)) :
    (fit same w (init h0 images anchors ms) solver h).1 =
      optimize (valueFor w h0 images anchors ms) (solver (images.map fun c => (h c).viewdir)) := by
  have hval : valueAt w (init h0 images anchors ms) = valueFor w h0 images anchors ms := by
    cases anchors <;> rfl
  rw [← hval]
  exact fit_result same w (init h0 images anchors ms) solver h hf hn (by simp [init]) hs

/-- C115: the objective is never negative, and (for a positive weight) is zero exactly if every anchor has its original direction and
the two rays of every matched pair of points are the same. -/
theorem objective_zero_iff (w : ℝ) (hw : 0 < w) (orig : Nat → V3) (anchors : List Nat) (ms : List (Nat × Nat × Match)) (x : Nat → V3) :
    0 ≤ Objective w orig anchors ms x ∧ (Objective w orig anchors ms x = 0 ↔
      (∀ i ∈ anchors, x i = orig i) ∧
      ∀ m ∈ ms, ∀ p ∈ m.2.2.xys, predictedXyz (x m.1) p.1 = predictedXyz (x m.2.1) p.2) := by
  have a1 : ∀ i, 0 ≤ w / 2 * ∑ k, (x i k - orig i k) ^ 2 := fun i =>
    mul_nonneg (by linarith) (Finset.sum_nonneg fun k _ => sq_nonneg _)
  have r1 : ∀ (m : Nat × Nat × Match) (p : V2 × V2), 0 ≤ ∑ k, |predictedXyz (x m.1) p.1 k - predictedXyz (x m.2.1) p.2 k| := fun m p =>
    Finset.sum_nonneg fun k _ => abs_nonneg _
  have r2 : ∀ m : Nat × Nat × Match, 0 ≤ (m.2.2.xys.map fun p => ∑ k, |predictedXyz (x m.1) p.1 k - predictedXyz (x m.2.1) p.2 k|).sum := by
    intro m
    refine List.sum_nonneg fun v hv => ?_
    obtain ⟨p, -, rfl⟩ := List.mem_map.1 hv
    exact r1 m p
  have hA : 0 ≤ anchorTerm w orig anchors x := by
    refine List.sum_nonneg fun v hv => ?_
    obtain ⟨i, -, rfl⟩ := List.mem_map.1 hv
    exact a1 i
  have hR : 0 ≤ rayTerm ms x := by
    refine List.sum_nonneg fun v hv => ?_
    obtain ⟨m, -, rfl⟩ := List.mem_map.1 hv
    exact r2 m
  refine ⟨add_nonneg hA hR, ?_⟩
  have zero_iff : ∀ l : List ℝ, (∀ v ∈ l, 0 ≤ v) → (l.sum = 0 ↔ ∀ v ∈ l, v = 0) := by
    intro l
    induction l with
    | nil => intro _; simp
    | cons v l ih =>
      intro hl
      have h1 := hl v List.mem_cons_self
      have h2 : 0 ≤ l.sum := List.sum_nonneg fun u hu => hl u (List.mem_cons_of_mem _ hu)
      have h3 := ih fun u hu => hl u (List.mem_cons_of_mem _ hu)
      rw [List.sum_cons]
      constructor
      · intro e
        have e1 : v = 0 := by linarith
        have e2 : l.sum = 0 := by linarith
        intro u hu
        rcases List.mem_cons.1 hu with rfl | hu
        · exact e1
        · exact h3.1 e2 u hu
      · intro e
        rw [e v List.mem_cons_self, h3.2 fun u hu => e u (List.mem_cons_of_mem _ hu), add_zero]
  have hz : Objective w orig anchors ms x = 0 ↔ anchorTerm w orig anchors x = 0 ∧ rayTerm ms x = 0 := by
    unfold Objective
    constructor
    · intro e; constructor <;> linarith
    · rintro ⟨e1, e2⟩; rw [e1, e2, add_zero]
  rw [hz]
  refine and_congr ?_ ?_
  · unfold anchorTerm
    rw [zero_iff _ (fun v hv => by obtain ⟨i, -, rfl⟩ := List.mem_map.1 hv; exact a1 i)]
    constructor
    · intro e i hi
      have := e _ (List.mem_map.2 ⟨i, hi, rfl⟩)
      have h2 : ∑ k, (x i k - orig i k) ^ 2 = 0 := by
        rcases mul_eq_zero.1 this with h | h
        · linarith
        · exact h
      funext k
      have := (Finset.sum_eq_zero_iff_of_nonneg (fun k _ => sq_nonneg (x i k - orig i k))).1 h2 k (Finset.mem_univ k)
      have := pow_eq_zero_iff (two_ne_zero) |>.1 this
      linarith
    · intro e v hv
      obtain ⟨i, hi, rfl⟩ := List.mem_map.1 hv
      rw [e i hi]
      simp
  · unfold rayTerm
    rw [zero_iff _ (fun v hv => by obtain ⟨m, -, rfl⟩ := List.mem_map.1 hv; exact r2 m)]
    constructor
    · intro e m hm p hp
      have h1 := e _ (List.mem_map.2 ⟨m, hm, rfl⟩)
      rw [zero_iff _ (fun v hv => by obtain ⟨q, -, rfl⟩ := List.mem_map.1 hv; exact r1 m q)] at h1
      have h2 := h1 _ (List.mem_map.2 ⟨p, hp, rfl⟩)
      funext k
      have := (Finset.sum_eq_zero_iff_of_nonneg (fun k _ => abs_nonneg _)).1 h2 k (Finset.mem_univ k)
      have := abs_eq_zero.1 this
      linarith
    · intro e v hv
      obtain ⟨m, hm, rfl⟩ := List.mem_map.1 hv
      rw [zero_iff _ (fun v hv => by obtain ⟨q, -, rfl⟩ := List.mem_map.1 hv; exact r1 m q)]
      intro u hu
      obtain ⟨p, hp, rfl⟩ := List.mem_map.1 hu
      rw [e m hm p hp]
      simp

/-- C115: without matches, the gradient handed over is the derivative of the objective: the anchors' part of it is right. -/
theorem anchor_gradient (w : ℝ) (orig : Nat → V3) (anchors : List Nat) (x : Nat → V3) (i : Nat) (a : Fin 3) :
    HasDerivAt (fun t => anchorTerm w orig anchors (Function.update x i (Function.update (x i) a t)))
      (Gradient w orig anchors [] x i a) (x i a) := by
  unfold anchorTerm Gradient
  simp only [List.map_nil, List.sum_nil, add_zero]
  induction anchors with
  | nil => simpa using hasDerivAt_const (x i a) (0 : ℝ)
  | cons j js ih =>
    simp only [List.map_cons, List.sum_cons, Pi.add_apply]
    refine HasDerivAt.add ?_ ih
    by_cases hj : j = i
    · subst hj
      rw [if_pos rfl]
      simp only [Function.update_self]
      have h1 : HasDerivAt (fun t : ℝ => ∑ k, (Function.update (x j) a t k - orig j k) ^ 2) (2 * (x j a - orig j a)) (x j a) := by
        have := HasDerivAt.fun_sum (u := (Finset.univ : Finset (Fin 3))) (x := x j a)
          (A := fun k t => (Function.update (x j) a t k - orig j k) ^ 2)
          (A' := fun k => if k = a then 2 * (x j a - orig j a) else 0)
          (fun k _ => by
            by_cases hk : k = a
            · subst hk
              simp only [Function.update_self, if_true]
              have := ((hasDerivAt_id (x j k)).sub_const (orig j k)).pow 2
              refine HasDerivAt.congr_of_eventuallyEq (this.congr_deriv (by simp)) (Filter.Eventually.of_forall fun t => by simp)
            · simp only [Function.update_of_ne hk, if_neg hk]
              exact hasDerivAt_const _ _)
        simpa using this
      have := h1.const_mul (w / 2)
      exact this.congr_deriv (by ring)
    · rw [if_neg hj]
      simp only [Function.update_of_ne hj, Pi.zero_apply]
      exact hasDerivAt_const _ _

/-! ### Where the claim fails -/

/-- C115 fails for cameras that were turned since the object was made: a fit that does not evaluate anything still changes them. -/
theorem fit_keeps_violated (same : ρ → ρ → Bool) (w : ℝ) (h0 : Heap ρ) (c : Nat) (v : V3) (hv : v ≠ (h0 c).viewdir) (r : β) :
    let o := init h0 [c] none []
    let h := run same o h0 [Op.set (β := β) [v]]
    (h c).viewdir = v ∧ (fit same w o (fun _ => Strat.done r) h).1 = .ok r ∧
      ((fit same w o (fun _ => Strat.done r) h).2 c).viewdir ≠ (h c).viewdir := by
  intro o h
  have e : (h c).viewdir = v := by simp [h, o, run, step, init, setCameras, setDir]
  refine ⟨e, rfl, ?_⟩
  rw [e]
  have : ((fit same w o (fun _ => Strat.done r) h).2 c).viewdir = (h0 c).viewdir := by
    simp [fit, minimize, reset, o, init, setCameras, setDir]
  rw [this]
  exact fun e => hv e.symm

/-- C115 fails if the optimizer is interrupted (or raises): the cameras keep the directions that were tried last. -/
theorem fit_raises_violated (same : ρ → ρ → Bool) (w : ℝ) (h0 : Heap ρ) (c : Nat) (v : V3) (e : Err) :
    let o := init h0 [c] none []
    let s : Strat β := .eval [v] fun _ => .raises e
    (fit same w o (fun _ => s) h0).1 = .error e ∧ ((fit same w o (fun _ => s) h0).2 c).viewdir = v := by
  intro o s
  simp [fit, minimize, s, o, init, fun_, setCameras, setDir, anchorLoop, anchorStep, matchLoop, bind, Except.bind]

/-- A case of the theorems: two images with different cameras that are matched in one point. -/
example : Fits (ρ := Nat) (fun a b => a == b) (init (fun _ => ⟨0, 7⟩) [3, 5] none [(0, 1, ⟨3, 5, [(0, 0)]⟩)]) (fun _ => ⟨0, 7⟩) := by
  refine ⟨?_, ?_, ?_, ?_⟩ <;> simp [init]

end Glimpse.ObsCams
