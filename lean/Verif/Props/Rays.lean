import Verif.Model.Boxes
import Mathlib.Order.Bounds.Basic
import Mathlib.Tactic.Linarith
import Mathlib.Tactic.Ring
import Mathlib.Tactic.FieldSimp
import Mathlib.Tactic.Push

/-!
C08: `intersect_rays_box`.
-/
set_option autoImplicit false
set_option linter.unusedSimpArgs false

namespace Glimpse

/-- Spec: the point at parameter `t` of the line `origin + t * direction` lies in the closed box. -/
def InBoxAt (axes : List Axis) (t : ℚ) : Prop :=
  ∀ ax ∈ axes, ax.lo ≤ ax.o + t * ax.d ∧ ax.o + t * ax.d ≤ ax.hi

/-! ### Helper lemmas -/

private abbrev E := WithBot (WithTop ℚ)
private def emb (q : ℚ) : E := ((q : WithTop ℚ) : WithBot (WithTop ℚ))

private theorem emb_le {a b : ℚ} : emb a ≤ emb b ↔ a ≤ b := by simp [emb]
private theorem emb_lt {a b : ℚ} : emb a < emb b ↔ a < b := by simp [emb]
private theorem emb_inj {a b : ℚ} : emb a = emb b ↔ a = b := by simp [emb]
private theorem fin_eq (q : ℚ) : XF.fin q = some (emb q) := rfl
private theorem pinf_eq : XF.pinf = some (((⊤ : WithTop ℚ) : E)) := rfl

private theorem le_pinf (a : E) : a ≤ ((⊤ : WithTop ℚ) : E) := by
  induction a using WithBot.recBotCoe with
  | bot => exact bot_le
  | coe a => exact WithBot.coe_le_coe.mpr le_top

private theorem not_pinf_le_emb (q : ℚ) : ¬ ((⊤ : WithTop ℚ) : E) ≤ emb q := by
  simp [emb]

private theorem not_emb_le_bot (q : ℚ) : ¬ emb q ≤ (⊥ : E) := by
  simp [emb]

private theorem finite_between (a b : ℚ) (x : E) (h1 : emb a ≤ x) (h2 : x ≤ emb b) : ∃ q, x = emb q := by
  induction x using WithBot.recBotCoe with
  | bot => exact absurd h1 (not_emb_le_bot a)
  | coe x =>
    induction x using WithTop.recTopCoe with
    | top => exact absurd h2 (not_pinf_le_emb b)
    | coe x => exact ⟨x, rfl⟩

private theorem slabT_pos (ax : Axis) (b : ℚ) (hd : ax.d = 0) (h : ax.o < b) : slabT ax b = XF.pinf := by
  unfold slabT; rw [if_pos hd, if_pos (by linarith)]

private theorem slabT_neg (ax : Axis) (b : ℚ) (hd : ax.d = 0) (h : b < ax.o) : slabT ax b = XF.ninf := by
  unfold slabT; rw [if_pos hd, if_neg (by linarith), if_pos (by linarith)]

/-- An axis gives an interval of parameters, unless it has zero direction and its origin is on a face. -/
private theorem slab_interval (ax : Axis) (hle : ax.lo ≤ ax.hi) (hf : ax.d = 0 → ax.o ≠ ax.lo ∧ ax.o ≠ ax.hi) :
    ∃ a b : E, slab ax = (some a, some b) ∧ a ≤ b ∧
      (∀ t : ℚ, (ax.lo ≤ ax.o + t * ax.d ∧ ax.o + t * ax.d ≤ ax.hi) ↔ a ≤ emb t ∧ emb t ≤ b) ∧
      (ax.d ≠ 0 → ∃ p q, a = emb p ∧ b = emb q) := by
  rcases lt_trichotomy ax.d 0 with hd | hd | hd
  · refine ⟨emb ((ax.hi - ax.o) * (1 / ax.d)), emb ((ax.lo - ax.o) * (1 / ax.d)), ?_, ?_, ?_, ?_⟩
    · have : 1 / ax.d < 0 := one_div_neg.mpr hd
      simp only [slab, this, if_true, slabT, hd.ne, if_false, fin_eq]
    · rw [emb_le, mul_one_div, mul_one_div]
      exact div_le_div_of_nonpos_of_le hd.le (by linarith)
    · intro t
      rw [emb_le, emb_le, mul_one_div, mul_one_div, div_le_iff_of_neg hd, le_div_iff_of_neg hd]
      constructor <;> rintro ⟨h1, h2⟩ <;> constructor <;> linarith
    · intro _; exact ⟨_, _, rfl, rfl⟩
  · obtain ⟨f1, f2⟩ := hf hd
    have hs : ¬ (1 / ax.d < 0) := by rw [hd]; simp
    rcases lt_or_gt_of_ne f1 with h1 | h1
    · refine ⟨_, _, ?_, le_refl (((⊤ : WithTop ℚ) : E)), ?_, fun h => absurd hd h⟩
      · simp only [slab, hs, if_false]
        rw [slabT_pos _ _ hd h1, slabT_pos _ _ hd (by linarith)]; rfl
      · intro t; rw [hd]
        constructor
        · rintro ⟨h2, _⟩; linarith
        · rintro ⟨h2, _⟩; exact absurd h2 (not_pinf_le_emb t)
    · rcases lt_or_gt_of_ne f2 with h2 | h2
      · refine ⟨⊥, ((⊤ : WithTop ℚ) : E), ?_, bot_le, ?_, fun h => absurd hd h⟩
        · simp only [slab, hs, if_false]
          rw [slabT_neg _ _ hd h1, slabT_pos _ _ hd h2]; rfl
        · intro t; rw [hd]
          exact ⟨fun _ => ⟨bot_le, le_pinf _⟩, fun _ => ⟨by linarith, by linarith⟩⟩
      · refine ⟨⊥, ⊥, ?_, le_refl _, ?_, fun h => absurd hd h⟩
        · simp only [slab, hs, if_false]
          rw [slabT_neg _ _ hd h1, slabT_neg _ _ hd h2]; rfl
        · intro t; rw [hd]
          constructor
          · rintro ⟨_, h3⟩; linarith
          · rintro ⟨_, h3⟩; exact absurd h3 (not_emb_le_bot t)
  · refine ⟨emb ((ax.lo - ax.o) * (1 / ax.d)), emb ((ax.hi - ax.o) * (1 / ax.d)), ?_, ?_, ?_, ?_⟩
    · have : ¬ (1 / ax.d < 0) := by have := one_div_pos.mpr hd; linarith
      simp only [slab, this, if_false, slabT, hd.ne', fin_eq]
    · rw [emb_le, mul_one_div, mul_one_div]
      exact div_le_div_of_nonneg_right (by linarith) hd.le
    · intro t
      rw [emb_le, emb_le, mul_one_div, mul_one_div, div_le_iff₀ hd, le_div_iff₀ hd]
      constructor <;> rintro ⟨h1, h2⟩ <;> constructor <;> linarith
    · intro _; exact ⟨_, _, rfl, rfl⟩

/-- Loop invariant after the axes `done`. -/
private def Inv (done : List Axis) (s : XF × XF) : Prop :=
  (s = (XF.nan, XF.nan) ∧ ∀ t, ¬ InBoxAt done t) ∨
  (∃ a b : E, s = (some a, some b) ∧ a ≤ b ∧ (∀ t : ℚ, InBoxAt done t ↔ a ≤ emb t ∧ emb t ≤ b) ∧
    ((∃ ax ∈ done, ax.d ≠ 0) → ∃ p q, a = emb p ∧ b = emb q))

private theorem inBoxAt_append (l : List Axis) (ax : Axis) (t : ℚ) :
    InBoxAt (l ++ [ax]) t ↔ InBoxAt l t ∧ (ax.lo ≤ ax.o + t * ax.d ∧ ax.o + t * ax.d ≤ ax.hi) := by
  simp only [InBoxAt, List.mem_append, List.mem_singleton, or_imp, forall_and, forall_eq]
  tauto

private theorem slabStep_nan (ax : Axis) : slabStep (XF.nan, XF.nan) ax = (XF.nan, XF.nan) := by
  simp [slabStep, XF.lt, XF.nan]

private theorem inv_step (done : List Axis) (s : XF × XF) (ax : Axis) (hle : ax.lo ≤ ax.hi) (h : Inv done s) :
    Inv (done ++ [ax]) (slabStep s ax) := by
  rcases h with ⟨rfl, hno⟩ | ⟨a, b, rfl, hab, hiff, hfin⟩
  · left
    rw [slabStep_nan]
    exact ⟨rfl, fun t ht => hno t ((inBoxAt_append _ _ _).mp ht).1⟩
  · by_cases hf : ax.d = 0 → ax.o ≠ ax.lo ∧ ax.o ≠ ax.hi
    · obtain ⟨p, q, hs, hpq, hax, hfx⟩ := slab_interval ax hle hf
      by_cases hmiss : q < a ∨ b < p
      · left
        have e : slabStep (some a, some b) ax = (XF.nan, XF.nan) := by
          have hm : (decide (q < a) || decide (b < p)) = true := by simpa using hmiss
          simp [slabStep, hs, XF.lt, hm, XF.nan]
        refine ⟨e, fun t ht => ?_⟩
        rw [inBoxAt_append, hiff, hax] at ht
        rcases hmiss with h | h
        · exact absurd (le_trans ht.1.1 ht.2.2) (not_le.mpr h)
        · exact absurd (le_trans ht.2.1 ht.1.2) (not_le.mpr h)
      · right
        push Not at hmiss
        have e : slabStep (some a, some b) ax = (some (max a p), some (min b q)) := by
          have m1 : decide (q < a) = false := by simpa using hmiss.1
          have m2 : decide (b < p) = false := by simpa using hmiss.2
          have e1 : (if a < p then some p else some a : XF) = some (max a p) := by
            split
            · rw [max_eq_right (by rename_i h; exact h.le)]
            · rw [max_eq_left (by rename_i h; exact not_lt.mp h)]
          have e2 : (if q < b then some q else some b : XF) = some (min b q) := by
            split
            · rw [min_eq_right (by rename_i h; exact h.le)]
            · rw [min_eq_left (by rename_i h; exact not_lt.mp h)]
          simp [slabStep, hs, XF.lt, m1, m2, e1, e2]
        refine ⟨max a p, min b q, e, le_min (max_le hab hmiss.2) (max_le hmiss.1 hpq), ?_, ?_⟩
        · intro t
          rw [inBoxAt_append, hiff, hax, max_le_iff, le_min_iff]
          tauto
        · rintro ⟨bx, hbx, hd⟩
          have hord : max a p ≤ min b q := le_min (max_le hab hmiss.2) (max_le hmiss.1 hpq)
          rcases List.mem_append.mp hbx with hbx | hbx
          · obtain ⟨u, v, rfl, rfl⟩ := hfin ⟨bx, hbx, hd⟩
            obtain ⟨x, hx⟩ := finite_between u v (max (emb u) p) (le_max_left _ _) (le_trans hord (min_le_left _ _))
            obtain ⟨y, hy⟩ := finite_between u v (min (emb v) q) (le_trans (le_max_left _ _) hord) (min_le_left _ _)
            exact ⟨x, y, hx, hy⟩
          · rw [List.mem_singleton] at hbx; subst hbx
            obtain ⟨u, v, rfl, rfl⟩ := hfx hd
            obtain ⟨x, hx⟩ := finite_between u v (max a (emb u)) (le_max_right _ _) (le_trans hord (min_le_right _ _))
            obtain ⟨y, hy⟩ := finite_between u v (min b (emb v)) (le_trans (le_max_right _ _) hord) (min_le_right _ _)
            exact ⟨x, y, hx, hy⟩
    · -- zero direction with the origin on a face: the axis changes nothing
      right
      have hd : ax.d = 0 := by by_contra hd; exact hf (fun h => absurd h hd)
      have hface : ax.o = ax.lo ∨ ax.o = ax.hi := by
        by_contra hc
        push Not at hc
        exact hf (fun _ => hc)
      have hs0 : ¬ (1 / ax.d < 0) := by rw [hd]; simp
      have hpin : ∀ b : E, decide (((⊤ : WithTop ℚ) : E) < b) = false := fun b => by simp [le_pinf b]
      have hbot : ∀ b : E, decide (b < (⊥ : E)) = false := fun b => by simp
      have e : slabStep (some a, some b) ax = (some a, some b) := by
        have hT : slab ax = (slabT ax ax.lo, slabT ax ax.hi) := by simp only [slab, hs0, if_false]
        have hlo : slabT ax ax.lo = XF.nan ∨ slabT ax ax.lo = XF.ninf := by
          unfold slabT; rw [if_pos hd]
          rw [if_neg (by rcases hface with h | h <;> rw [h] <;> linarith)]
          split
          · right; rfl
          · left; rfl
        have hhi : slabT ax ax.hi = XF.nan ∨ slabT ax ax.hi = XF.pinf := by
          unfold slabT; rw [if_pos hd]
          split
          · right; rfl
          · rw [if_neg (by rcases hface with h | h <;> rw [h] <;> linarith)]
            left; rfl
        rcases hlo with h1 | h1 <;> rcases hhi with h2 | h2 <;>
          simp only [slabStep, hT, h1, h2, XF.lt, XF.nan, XF.ninf, XF.pinf, hpin, hbot, Bool.or_false, Bool.false_or,
            Bool.false_eq_true, if_false]
      refine ⟨a, b, e, hab, fun t => ?_, ?_⟩
      · rw [inBoxAt_append, hiff, hd]
        constructor
        · exact fun h => h.1
        · intro h
          refine ⟨h, ?_⟩
          rcases hface with h | h <;> constructor <;> linarith
      · rintro ⟨bx, hbx, hdx⟩
        rcases List.mem_append.mp hbx with hbx | hbx
        · exact hfin ⟨bx, hbx, hdx⟩
        · rw [List.mem_singleton] at hbx; subst hbx; exact absurd hd hdx

private theorem inv_fold (axs done : List Axis) (s : XF × XF) (hle : ∀ ax ∈ axs, ax.lo ≤ ax.hi) (h : Inv done s) :
    Inv (done ++ axs) (axs.foldl slabStep s) := by
  induction axs generalizing done s with
  | nil => simpa using h
  | cons ax axs ih =>
    have := ih (done ++ [ax]) (slabStep s ax) (fun x hx => hle x (List.mem_cons_of_mem _ hx))
      (inv_step done s ax (hle ax List.mem_cons_self) h)
    simpa using this

/-! ### Main theorem -/

/-- C08. For a box with `min ≤ max` in every dimension and a direction that is not the zero vector, provided the
ray does not run inside an x-face (first direction component zero with the origin exactly on that face):
the entrance parameter is `t` iff `t ≥ 0` and `t` is the smallest parameter of the ray's line that is in the box;
the exit parameter is `t` iff `t ≥ 0` and `t` is the largest such parameter; in all other cases the result is NaN. -/
theorem ray_box_exact (ax : Axis) (axs : List Axis) (hle : ∀ a ∈ ax :: axs, a.lo ≤ a.hi)
    (hd : ∃ a ∈ ax :: axs, a.d ≠ 0) (hf : ax.d = 0 → ax.o ≠ ax.lo ∧ ax.o ≠ ax.hi) :
    (∀ t, (rayBox (ax :: axs)).1 = XF.fin t ↔ 0 ≤ t ∧ IsLeast {s | InBoxAt (ax :: axs) s} t) ∧
    (∀ t, (rayBox (ax :: axs)).2 = XF.fin t ↔ 0 ≤ t ∧ IsGreatest {s | InBoxAt (ax :: axs) s} t) ∧
    ((rayBox (ax :: axs)).1 = XF.nan ∨ ∃ t, (rayBox (ax :: axs)).1 = XF.fin t) ∧
    ((rayBox (ax :: axs)).2 = XF.nan ∨ ∃ t, (rayBox (ax :: axs)).2 = XF.fin t) := by
  have h0 : Inv [ax] (slab ax) := by
    right
    obtain ⟨p, q, hs, hpq, hax, hfx⟩ := slab_interval ax (hle ax List.mem_cons_self) hf
    refine ⟨p, q, hs, hpq, fun t => by simpa [InBoxAt] using hax t, ?_⟩
    rintro ⟨bx, hbx, hdx⟩
    rw [List.mem_singleton] at hbx; subst hbx
    exact hfx hdx
  have hinv := inv_fold axs [ax] (slab ax) (fun x hx => hle x (List.mem_cons_of_mem _ hx)) h0
  rw [List.singleton_append] at hinv
  rcases hinv with ⟨hs, hno⟩ | ⟨a, b, hs, hab, hiff, hfin⟩
  · have hr : rayBox (ax :: axs) = (XF.nan, XF.nan) := by
      simp only [rayBox, hs]; simp [XF.lt, XF.nan]
    rw [hr]
    refine ⟨fun t => ⟨fun h => by simp [XF.nan, XF.fin] at h, fun h => absurd h.2.1 (hno t)⟩,
      fun t => ⟨fun h => by simp [XF.nan, XF.fin] at h, fun h => absurd h.2.1 (hno t)⟩, Or.inl rfl, Or.inl rfl⟩
  · obtain ⟨p, q, rfl, rfl⟩ := hfin hd
    rw [emb_le] at hab
    have hiff' : ∀ t, InBoxAt (ax :: axs) t ↔ p ≤ t ∧ t ≤ q := fun t => by rw [hiff, emb_le, emb_le]
    have hleast : IsLeast {s | InBoxAt (ax :: axs) s} p :=
      ⟨(hiff' p).mpr ⟨le_refl _, hab⟩, fun s hs => ((hiff' s).mp hs).1⟩
    have hgreat : IsGreatest {s | InBoxAt (ax :: axs) s} q :=
      ⟨(hiff' q).mpr ⟨hab, le_refl _⟩, fun s hs => ((hiff' s).mp hs).2⟩
    have hr : rayBox (ax :: axs) = (if p < 0 then XF.nan else XF.fin p, if q < 0 then XF.nan else XF.fin q) := by
      simp only [rayBox, hs]
      simp only [XF.lt, fin_eq, emb_lt, decide_eq_true_iff]
    have finj : ∀ x y : ℚ, XF.fin x = XF.fin y ↔ x = y := fun x y => by
      rw [fin_eq, fin_eq, Option.some_inj, emb_inj]
    have nf : ∀ x : ℚ, XF.nan ≠ XF.fin x := fun x => by simp [XF.nan, XF.fin]
    rw [hr]
    refine ⟨fun t => ?_, fun t => ?_, ?_, ?_⟩
    · by_cases h : p < 0
      · simp only [h, if_true]
        exact ⟨fun h' => absurd h' (nf t), fun h' => by have := hleast.unique h'.2; linarith⟩
      · simp only [h, if_false, finj]
        constructor
        · rintro rfl; exact ⟨not_lt.mp h, hleast⟩
        · rintro ⟨_, h2⟩; exact hleast.unique h2
    · by_cases h : q < 0
      · simp only [h, if_true]
        exact ⟨fun h' => absurd h' (nf t), fun h' => by have := hgreat.unique h'.2; linarith⟩
      · simp only [h, if_false, finj]
        constructor
        · rintro rfl; exact ⟨not_lt.mp h, hgreat⟩
        · rintro ⟨_, h2⟩; exact hgreat.unique h2
    · by_cases h : p < 0
      · left; simp [h]
      · right; exact ⟨p, by simp [h]⟩
    · by_cases h : q < 0
      · left; simp [h]
      · right; exact ⟨q, by simp [h]⟩

/-- Under the same conditions, a line that meets the box meets it in one closed interval of parameters `[p, q]`, and
the returned pair is `(p, q)` with negative values replaced by NaN. -/
theorem ray_box_interval (ax : Axis) (axs : List Axis) (hle : ∀ a ∈ ax :: axs, a.lo ≤ a.hi)
    (hd : ∃ a ∈ ax :: axs, a.d ≠ 0) (hf : ax.d = 0 → ax.o ≠ ax.lo ∧ ax.o ≠ ax.hi)
    (hin : ∃ t, InBoxAt (ax :: axs) t) :
    ∃ p q, p ≤ q ∧ (∀ t, InBoxAt (ax :: axs) t ↔ p ≤ t ∧ t ≤ q) ∧
      rayBox (ax :: axs) = (if p < 0 then XF.nan else XF.fin p, if q < 0 then XF.nan else XF.fin q) := by
  have h0 : Inv [ax] (slab ax) := by
    right
    obtain ⟨p, q, hs, hpq, hax, hfx⟩ := slab_interval ax (hle ax List.mem_cons_self) hf
    refine ⟨p, q, hs, hpq, fun t => by simpa [InBoxAt] using hax t, ?_⟩
    rintro ⟨bx, hbx, hdx⟩
    rw [List.mem_singleton] at hbx; subst hbx
    exact hfx hdx
  have hinv := inv_fold axs [ax] (slab ax) (fun x hx => hle x (List.mem_cons_of_mem _ hx)) h0
  rw [List.singleton_append] at hinv
  obtain ⟨t, hin⟩ := hin
  rcases hinv with ⟨hs, hno⟩ | ⟨a, b, hs, hab, hiff, hfin⟩
  · exact absurd hin (hno t)
  · obtain ⟨p, q, rfl, rfl⟩ := hfin hd
    refine ⟨p, q, emb_le.mp hab, fun t => by rw [hiff, emb_le, emb_le], ?_⟩
    simp only [rayBox, hs]
    simp only [XF.lt, fin_eq, emb_lt, decide_eq_true_iff]

/-- C08 (completeness). Under the same conditions the exit parameter is NaN exactly when no point of the forward
half-line is in the box. -/
theorem ray_box_miss_iff (ax : Axis) (axs : List Axis) (hle : ∀ a ∈ ax :: axs, a.lo ≤ a.hi)
    (hd : ∃ a ∈ ax :: axs, a.d ≠ 0) (hf : ax.d = 0 → ax.o ≠ ax.lo ∧ ax.o ≠ ax.hi) :
    (rayBox (ax :: axs)).2 = XF.nan ↔ ∀ t, 0 ≤ t → ¬ InBoxAt (ax :: axs) t := by
  obtain ⟨_, h2, _, h4⟩ := ray_box_exact ax axs hle hd hf
  constructor
  · intro hn t ht hin
    obtain ⟨p, q, hpq, hiff, hr⟩ := ray_box_interval ax axs hle hd hf ⟨t, hin⟩
    have hq : ¬ q < 0 := by have := (hiff t).mp hin; linarith
    rw [hr] at hn
    simp only [hq, if_false] at hn
    simp [XF.nan, XF.fin] at hn
  · intro hno
    rcases h4 with h | ⟨t, ht⟩
    · exact h
    · obtain ⟨h0, hg⟩ := (h2 t).mp ht
      exact absurd hg.1 (hno t h0)

/-- C08 (the excluded case is a defect). A vertical ray in the plane that runs along the left face of the box enters
it, but the returned entrance is NaN; the same ray with the axes exchanged is handled. -/
theorem ray_box_face_violated :
    ∃ ax ay : Axis, ax.lo < ax.hi ∧ ay.lo < ay.hi ∧ IsLeast {s | InBoxAt [ax, ay] s} 1 ∧
      (rayBox [ax, ay]).1 = XF.nan ∧ (rayBox [ay, ax]).1 = XF.fin 1 := by
  refine ⟨⟨0, 0, 0, 1⟩, ⟨-1, 1, 0, 1⟩, by norm_num, by norm_num, ⟨?_, ?_⟩, by decide +kernel, by decide +kernel⟩
  · intro a ha
    simp only [List.mem_cons, List.not_mem_nil, or_false] at ha
    rcases ha with rfl | rfl <;> norm_num
  · intro s hs
    have := (hs ⟨-1, 1, 0, 1⟩ (by simp)).1
    simp only at this
    linarith

/-- C08 (the same defect in three dimensions). With zero x-direction and the origin on an x-face, a ray that misses
the box is reported as leaving it at a point outside the box. -/
theorem ray_box_face_false_hit :
    ∃ ax ay az : Axis, ax.lo < ax.hi ∧ ay.lo < ay.hi ∧ az.lo < az.hi ∧ (∀ t, ¬ InBoxAt [ax, ay, az] t) ∧
      (rayBox [ax, ay, az]).2 = XF.fin 1 := by
  refine ⟨⟨0, 0, 0, 1⟩, ⟨0, 1, 2, 3⟩, ⟨0, 1, 0, 1⟩, by norm_num, by norm_num, by norm_num, ?_, by decide +kernel⟩
  intro t ht
  have h1 := (ht ⟨0, 1, 2, 3⟩ (by simp)).1
  have h2 := (ht ⟨0, 1, 0, 1⟩ (by simp)).2
  simp only at h1 h2
  linarith

/-- Non-vacuity: a diagonal ray meets the hypotheses and crosses the box. -/
example : (∀ a ∈ [(⟨0, 1, 1, 2⟩ : Axis), ⟨0, 1, -1, 2⟩], a.lo ≤ a.hi) ∧ (∃ a ∈ [(⟨0, 1, 1, 2⟩ : Axis), ⟨0, 1, -1, 2⟩], a.d ≠ 0) ∧
    rayBox [⟨0, 1, 1, 2⟩, ⟨0, 1, -1, 2⟩] = (XF.fin 1, XF.fin 2) := by decide +kernel

end Glimpse
