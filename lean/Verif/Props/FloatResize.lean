import Verif.Model.FloatResize
import Verif.Props.Double
import Mathlib.Tactic.Linarith
import Mathlib.Tactic.Ring
import Mathlib.Tactic.Positivity
import Mathlib.Tactic.FieldSimp
import Mathlib.Tactic.GCongr
import Mathlib.Tactic.FinCases
import Mathlib.Algebra.Order.Ring.Pow

/-!
C131: resizing cameras in floating point: sizes are exact and independent of the history; focal length and principal point offset drift by a bounded
number of rounding errors.
-/
set_option autoImplicit false
set_option linter.unusedSimpArgs false
set_option linter.unusedSectionVars false

namespace Glimpse.FloatResize
open Double

variable {r : ℚ → ℚ} {ev : (Fin 2 → ℤ) → (Fin 2 → ℤ) → ℚ}

/-! ### Rounding to whole numbers of pixels -/

/-- Between two whole numbers from one up, the numbers with 53 bits are multiples of one power of two, which divides one half. -/
theorem double_add_half (x : ℚ) (hx : IsDouble x) (t : ℤ) (h1 : 1 ≤ t) (h2 : t ≤ 2 ^ 51) (ht : (t : ℚ) ≤ x) (hu : x + 1 / 2 ≤ t + 1) :
    IsDouble (x + 1 / 2) := by
  obtain ⟨m, e, hm, rfl⟩ := hx
  have ht0 : (0 : ℚ) < t := by exact_mod_cast (by omega : (0 : ℤ) < t)
  have hl1 : (2 : ℚ) ^ Int.log 2 |(t : ℚ)| ≤ t := by have := log_le (t : ℚ) ht0.ne'; have e := abs_of_pos ht0; linarith
  have hl2 : (t : ℚ) < 2 ^ (Int.log 2 |(t : ℚ)| + 1) := by have := lt_log (t : ℚ); have e := abs_of_pos ht0; linarith
  generalize hK : Int.log 2 |(t : ℚ)| = K at hl1 hl2
  have two : (1 : ℚ) < 2 := by norm_num
  have hK51 : K ≤ 51 := by
    have : (2 : ℚ) ^ K ≤ 2 ^ (51 : ℤ) := le_trans hl1 (by exact_mod_cast h2)
    exact (zpow_le_zpow_iff_right₀ two).1 this
  have hK0 : 0 ≤ K := by
    have : (2 : ℚ) ^ (0 : ℤ) < 2 ^ (K + 1) := lt_of_le_of_lt (by simpa using (by exact_mod_cast h1 : (1 : ℚ) ≤ t)) hl2
    have := (zpow_lt_zpow_iff_right₀ two).1 this
    omega
  have hmq : |(m : ℚ)| < 2 ^ (53 : ℤ) := by exact_mod_cast hm
  have he : K - 52 ≤ e := by
    by_contra hc
    have hc' : e + 53 ≤ K := by omega
    have : (m : ℚ) * 2 ^ e < 2 ^ K := by
      calc (m : ℚ) * 2 ^ e ≤ |(m : ℚ)| * 2 ^ e := by gcongr; exact le_abs_self _
        _ < 2 ^ (53 : ℤ) * 2 ^ e := by gcongr
        _ = 2 ^ (53 + e) := (zpow_split _ _).symm
        _ ≤ 2 ^ K := (zpow_le_zpow_iff_right₀ two).2 (by omega)
    linarith
  -- t + 1 is at most 2 ^ (K + 1)
  have ht1 : (t : ℚ) + 1 ≤ 2 ^ (K + 1) := by
    obtain ⟨k, rfl⟩ : ∃ k : ℕ, K = k := ⟨K.toNat, (Int.toNat_of_nonneg hK0).symm⟩
    have : (t : ℚ) < ((2 ^ (k + 1) : ℤ) : ℚ) := by push_cast; exact_mod_cast hl2
    have : t < 2 ^ (k + 1) := by exact_mod_cast this
    have : t + 1 ≤ 2 ^ (k + 1) := this
    exact_mod_cast this
  obtain ⟨p, hp⟩ : ∃ p : ℕ, (p : ℤ) = e - (K - 52) := ⟨(e - (K - 52)).toNat, Int.toNat_of_nonneg (by omega)⟩
  obtain ⟨q, hq⟩ : ∃ q : ℕ, (q : ℤ) = 51 - K := ⟨(51 - K).toNat, Int.toNat_of_nonneg (by omega)⟩
  have hpe : (2 : ℚ) ^ e = 2 ^ p * 2 ^ (K - 52) := by
    rw [← zpow_natCast (2 : ℚ) p, ← zpow_split, hp]; congr 1; ring
  have hqe : (1 / 2 : ℚ) = 2 ^ q * 2 ^ (K - 52) := by
    rw [← zpow_natCast (2 : ℚ) q, ← zpow_split, hq, show (51 - K + (K - 52) : ℤ) = -1 by ring]; norm_num
  have hsum : (m : ℚ) * 2 ^ e + 1 / 2 = ((m * 2 ^ p + 2 ^ q : ℤ) : ℚ) * 2 ^ (K - 52) := by
    push_cast; rw [hpe, hqe]; ring
  rw [hsum]
  apply isDouble_scale
  have hpos : (0 : ℚ) < 2 ^ (K - 52) := by positivity
  have hx0 : (0 : ℚ) < ((m * 2 ^ p + 2 ^ q : ℤ) : ℚ) := by
    have : (0 : ℚ) < ((m * 2 ^ p + 2 ^ q : ℤ) : ℚ) * 2 ^ (K - 52) := by rw [← hsum]; linarith
    exact (pos_iff_pos_of_mul_pos this).2 hpos
  have hle : ((m * 2 ^ p + 2 ^ q : ℤ) : ℚ) ≤ 2 ^ (53 : ℤ) := by
    have : ((m * 2 ^ p + 2 ^ q : ℤ) : ℚ) * 2 ^ (K - 52) ≤ 2 ^ (53 : ℤ) * 2 ^ (K - 52) := by
      rw [← hsum, ← zpow_split, show (53 + (K - 52) : ℤ) = K + 1 by ring]; linarith
    exact le_of_mul_le_mul_right this hpos
  have h0' : (0 : ℤ) < m * 2 ^ p + 2 ^ q := by exact_mod_cast hx0
  rw [abs_of_pos h0']
  exact_mod_cast hle

theorem isDouble_quarters (n : ℤ) (h : |n| ≤ 2 ^ 53) : IsDouble ((n : ℚ) / 4) := by
  have := isDouble_scale n (-2) h
  rwa [show (2 : ℚ) ^ (-2 : ℤ) = 1 / 4 by norm_num, mul_one_div] at this

/-- `np.floor(x + 0.5)` is the nearest whole number, from one to `2 ^ 51` (of halves, the upper). -/
theorem floor_add_half (hr : Nearest r) (x : ℚ) (hx : IsDouble x) (t : ℤ) (h1 : 1 ≤ t) (h2 : t ≤ 2 ^ 50) (hl : (t : ℚ) - 1 / 2 ≤ x)
    (hu : x < t + 1 / 2) : ⌊r (x + 1 / 2)⌋ = t := by
  rw [Int.floor_eq_iff]
  have ht : IsDouble (t : ℚ) := isDouble_int t (by rw [abs_le]; constructor <;> omega)
  refine ⟨?_, ?_⟩
  · calc (t : ℚ) = r t := (hr.exact _ ht).symm
      _ ≤ r (x + 1 / 2) := hr.mono _ _ (by linarith)
  · rcases le_or_gt (t : ℚ) x with h | h
    · rw [hr.exact _ (double_add_half x hx t h1 (by omega) h (by linarith))]
      linarith
    · have hd : IsDouble ((t : ℚ) + 1 / 2) := by
        have := isDouble_quarters (4 * t + 2) (by rw [abs_le]; constructor <;> omega)
        push_cast at this
        rwa [show (4 * (t : ℚ) + 2) / 4 = t + 1 / 2 by ring] at this
      calc r (x + 1 / 2) ≤ r (t + 1 / 2) := hr.mono _ _ (by linarith)
        _ = t + 1 / 2 := hr.exact _ hd
        _ < t + 1 := by linarith

/-! ### Sizes -/

theorem resize_ok {cam cam' : Cam} {size : Size} {force : Bool} (h : resize r ev cam size force = .ok cam') :
    newSize r ev cam size force = .ok cam'.size ∧ cam'.orig = cam.orig ∧
    (∀ i, cam'.f i = r (cam.f i * r (cam'.size i / cam.size i))) ∧ ∀ i, cam'.c i = r (cam.c i * r (cam'.size i / cam.size i)) := by
  unfold resize at h
  cases hn : newSize r ev cam size force with
  | error e => rw [hn] at h; cases h
  | ok new => rw [hn] at h; cases h; exact ⟨rfl, rfl, fun _ => rfl, fun _ => rfl⟩

theorem newSize_congr {a b : Cam} (h : a.orig = b.orig) (size : Size) (force : Bool) : newSize r ev a size force = newSize r ev b size force := by
  have : ∀ s, byScale r a s = byScale r b s := fun s => by funext i; simp only [byScale, h]
  unfold newSize
  cases size with
  | factor s => simp only [this]
  | target t => simp only [this, h]

theorem run_orig (cam : Cam) (ops : List (Size × Bool)) : (run r ev cam ops).orig = cam.orig := by
  induction ops generalizing cam with
  | nil => rfl
  | cons o os ih =>
    rw [run, ih]
    cases h : resize r ev cam o.1 o.2 with
    | error e => rfl
    | ok cam' => exact (resize_ok h).2.1

/-- C131: whatever the rounding, the image size after a resize (and whether it raises) does not depend on earlier ones. -/
theorem size_history_independent (cam : Cam) (ops : List (Size × Bool)) (size : Size) (force : Bool) :
    (resize r ev (run r ev cam ops) size force).map (·.size) = (resize r ev cam size force).map (·.size) := by
  unfold resize
  rw [newSize_congr (run_orig cam ops)]
  cases newSize r ev cam size force <;> rfl

/-- Numbers of pixels for which sizes are exact. -/
def Pixels (n : Fin 2 → ℤ) : Prop := ∀ i, 1 ≤ n i ∧ n i ≤ 2 ^ 40

theorem byScale_ratio (hr : Nearest r) (cam : Cam) (ho : Pixels cam.orig) (t : ℤ) (h1 : 1 ≤ t) (h2 : t ≤ 2 ^ 40) (i : Fin 2) (s : ℚ)
    (hs : s = r (t / cam.orig i)) : byScale r cam s i = t := by
  obtain ⟨o1, o2⟩ := ho i
  have ho0 : (0 : ℚ) < cam.orig i := by exact_mod_cast (by omega : (0 : ℤ) < cam.orig i)
  have ht0 : (0 : ℚ) < t := by exact_mod_cast (by omega : (0 : ℤ) < t)
  have ht2 : (t : ℚ) ≤ 2 ^ 40 := by exact_mod_cast h2
  have e1 : |s * cam.orig i - t| ≤ t / 2 ^ 53 := by
    have := hr.near (t / cam.orig i)
    rw [← hs, abs_of_pos (div_pos ht0 ho0)] at this
    calc |s * cam.orig i - t| = |(s - t / cam.orig i) * cam.orig i| := by congr 1; field_simp
      _ = |s - t / cam.orig i| * cam.orig i := by rw [abs_mul, abs_of_pos ho0]
      _ ≤ (t / cam.orig i / 2 ^ 53) * cam.orig i := by gcongr
      _ = t / 2 ^ 53 := by field_simp
  have e2 : |r (s * cam.orig i) - t| ≤ t / 2 ^ 53 + (2 * t) / 2 ^ 53 := by
    apply hr.near_of _ _ _ _ e1
    have hb : (t : ℚ) / 2 ^ 53 ≤ t := by rw [div_le_iff₀ (by positivity)]; nlinarith
    calc |s * cam.orig i| = |(s * cam.orig i - t) + t| := by ring_nf
      _ ≤ |s * cam.orig i - t| + |(t : ℚ)| := abs_add_le _ _
      _ ≤ 2 * t := by rw [abs_of_pos ht0]; linarith
  have e3 : |r (s * cam.orig i) - t| ≤ 1 / 4 := by
    refine le_trans e2 ?_
    rw [← add_div, div_le_iff₀ (by positivity)]
    linarith
  rw [abs_le] at e3
  exact floor_add_half hr _ (hr.double _) t h1 (by omega) (by linarith) (by linarith)

/-- C131: a resize to a size with the same ratio in both directions succeeds and gives exactly this size. -/
theorem target_same_ratio (hr : Nearest r) (cam : Cam) (ho : Pixels cam.orig) (t : Fin 2 → ℤ) (ht : Pixels t)
    (h : t 0 * cam.orig 1 = t 1 * cam.orig 0) (force : Bool) :
    ∃ cam', resize r ev cam (.target t) force = .ok cam' ∧ cam'.size = t := by
  have key : newSize r ev cam (.target t) force = .ok t := by
    unfold newSize
    cases force with
    | true => rfl
    | false =>
      have hq : (t 0 : ℚ) / cam.orig 0 = t 1 / cam.orig 1 := by
        have h0 : (cam.orig 0 : ℚ) ≠ 0 := by have := (ho 0).1; exact_mod_cast (by omega : cam.orig 0 ≠ 0)
        have h1 : (cam.orig 1 : ℚ) ≠ 0 := by have := (ho 1).1; exact_mod_cast (by omega : cam.orig 1 ≠ 0)
        rw [div_eq_div_iff h0 h1]; exact_mod_cast h
      by_cases he : t 0 = cam.orig 0 ∧ t 1 = cam.orig 1
      · simp only [Bool.false_eq_true, if_false, scaleOf, if_pos he]
        congr 1
        funext i
        refine byScale_ratio hr cam ho (t i) (ht i).1 (ht i).2 i 1 ?_
        have hi : t i = cam.orig i := by fin_cases i <;> first | exact he.1 | exact he.2
        have h0 : (cam.orig i : ℚ) ≠ 0 := by have := (ho i).1; exact_mod_cast (by omega : cam.orig i ≠ 0)
        rw [hi, div_self h0]
        exact (hr.exact 1 ⟨1, 0, by norm_num, by norm_num⟩).symm
      · simp only [Bool.false_eq_true, if_false, scaleOf, if_neg he, hq, if_true]
        congr 1
        funext i
        refine byScale_ratio hr cam ho (t i) (ht i).1 (ht i).2 i _ ?_
        fin_cases i
        · show r (t 1 / cam.orig 1) = r (t 0 / cam.orig 0); rw [hq]
        · rfl
  unfold resize
  rw [key]
  exact ⟨_, rfl, rfl⟩

theorem halfEven_bounds (x : ℚ) (t : ℤ) (h : halfEven x = t) : (t : ℚ) - 1 / 2 ≤ x ∧ x ≤ t + 1 / 2 := by
  have := halfEven_near x
  rw [h, abs_le] at this
  constructor <;> linarith

/-- C131: a resize to any size that succeeds gives exactly this size, unless the scale that was found puts a side at half a pixel exactly (where
`np.round` and `np.floor(x + 0.5)` differ). -/
theorem target_size_partial (hr : Nearest r) (cam cam' : Cam) (ho : Pixels cam.orig) (t : Fin 2 → ℤ) (ht : Pixels t) (force : Bool)
    (h : resize r ev cam (.target t) force = .ok cam') (hhalf : ∀ i, r (ev cam.orig t * cam.orig i) ≠ t i + 1 / 2) : cam'.size = t := by
  obtain ⟨hn, _⟩ := resize_ok h
  unfold newSize at hn
  cases force with
  | true => simp only [if_true] at hn; exact (Except.ok.inj hn).symm
  | false =>
    simp only [Bool.false_eq_true, if_false] at hn
    cases hs : scaleOf r ev cam.orig t with
    | none => rw [hs] at hn; cases hn
    | some s =>
      rw [hs] at hn
      have hn : byScale r cam s = cam'.size := Except.ok.inj hn
      rw [← hn]
      funext i
      simp only [scaleOf] at hs
      split at hs
      · rename_i he
        cases hs
        refine byScale_ratio hr cam ho (t i) (ht i).1 (ht i).2 i 1 ?_
        have hi : t i = cam.orig i := by fin_cases i <;> first | exact he.1 | exact he.2
        have h0 : (cam.orig i : ℚ) ≠ 0 := by have := (ho i).1; exact_mod_cast (by omega : cam.orig i ≠ 0)
        rw [hi, div_self h0]
        exact (hr.exact 1 ⟨1, 0, by norm_num, by norm_num⟩).symm
      · split at hs
        · rename_i he
          cases hs
          refine byScale_ratio hr cam ho (t i) (ht i).1 (ht i).2 i _ ?_
          fin_cases i
          · rfl
          · exact he
        · split at hs
          · rename_i he
            cases hs
            rw [hr.eq_zero_iff] at he
            have z0 := abs_nonneg (r (halfEven (r (ev cam.orig t * cam.orig 0)) - t 0))
            have z1 := abs_nonneg (r (halfEven (r (ev cam.orig t * cam.orig 1)) - t 1))
            have a0 : |r (halfEven (r (ev cam.orig t * cam.orig 0)) - t 0)| = 0 := by linarith
            have a1 : |r (halfEven (r (ev cam.orig t * cam.orig 1)) - t 1)| = 0 := by linarith
            rw [abs_eq_zero, hr.eq_zero_iff, sub_eq_zero] at a0 a1
            have hi : halfEven (r (ev cam.orig t * cam.orig i)) = t i := by
              fin_cases i
              · exact_mod_cast a0
              · exact_mod_cast a1
            obtain ⟨b1, b2⟩ := halfEven_bounds _ _ hi
            exact floor_add_half hr _ (hr.double _) (t i) (ht i).1 (by have := (ht i).2; omega) b1 (lt_of_le_of_ne b2 (hhalf i))
          · cases hs

/-- C131: the size by a factor is the exact one (the product rounded half up), if the product is not within a relative `2 ^ -53` below half a
pixel. -/
theorem factor_size_partial (hr : Nearest r) (cam cam' : Cam) (s : ℚ) (force : Bool) (h : resize r ev cam (.factor s) force = .ok cam') (i : Fin 2)
    (h1 : 1 ≤ ⌊s * cam.orig i + 1 / 2⌋) (h2 : ⌊s * cam.orig i + 1 / 2⌋ ≤ 2 ^ 40)
    (hn : s * cam.orig i * (1 + 1 / 2 ^ 53) < ⌊s * cam.orig i + 1 / 2⌋ + 1 / 2) : cam'.size i = ⌊s * cam.orig i + 1 / 2⌋ := by
  obtain ⟨hs, _⟩ := resize_ok h
  have : cam'.size i = ⌊r (r (s * cam.orig i) + 1 / 2)⌋ := congrFun (Except.ok.inj hs).symm i
  rw [this]
  have hf := Int.floor_le (s * (cam.orig i : ℚ) + 1 / 2)
  generalize hT : ⌊s * (cam.orig i : ℚ) + 1 / 2⌋ = T at *
  have hT1 : (1 : ℚ) ≤ T := by exact_mod_cast h1
  have hx0 : 0 < s * (cam.orig i : ℚ) := by linarith
  have hnear := hr.near (s * cam.orig i)
  rw [abs_of_pos hx0, abs_le] at hnear
  refine floor_add_half hr _ (hr.double _) T h1 (by omega) ?_ (by linarith)
  have hd : IsDouble ((T : ℚ) - 1 / 2) := by
    have := isDouble_quarters (4 * T - 2) (by rw [abs_le]; constructor <;> omega)
    push_cast at this
    rwa [show (4 * (T : ℚ) - 2) / 4 = T - 1 / 2 by ring] at this
  calc (T : ℚ) - 1 / 2 = r (T - 1 / 2) := (hr.exact _ hd).symm
    _ ≤ r (s * cam.orig i) := hr.mono _ _ (by linarith)

/-- C131 fails otherwise: the double nearest to 0.3 is less than 0.3, and five times it less than 1.5, but a camera of 5 pixels resized by it has 2. -/
theorem factor_size_violated : let s := rnd (3 / 10); ⌊s * 5 + 1 / 2⌋ = 1 ∧
    ∀ f c, ∃ cam', resize rnd ev ⟨![5, 5], ![5, 5], f, c⟩ (.factor s) false = .ok cam' ∧ cam'.size 0 = 2 := by
  refine ⟨by decide +kernel, fun f c => ⟨_, rfl, ?_⟩⟩
  show ⌊rnd (rnd (rnd (3 / 10) * ((5 : ℤ) : ℚ)) + 1 / 2)⌋ = 2
  decide +kernel

/-- C131: a resize raises only for a size without `force`, and then it is a `ValueError` of a size that the scale found does not give. -/
theorem resize_error (hr : Nearest r) (cam : Cam) (size : Size) (force : Bool) (e : Err) (h : resize r ev cam size force = .error e) :
    e = .valueError ∧ force = false ∧ ∃ t, size = .target t ∧ t ≠ cam.orig ∧ ¬ ∀ i, halfEven (r (ev cam.orig t * cam.orig i)) = t i := by
  unfold resize newSize at h
  cases size with
  | factor s => cases h
  | target t =>
    cases force with
    | true => cases h
    | false =>
      simp only [Bool.false_eq_true, if_false] at h
      cases hs : scaleOf r ev cam.orig t with
      | some s => rw [hs] at h; cases h
      | none =>
        rw [hs] at h
        cases h
        refine ⟨rfl, rfl, t, rfl, ?_, ?_⟩
        · rintro rfl
          simp [scaleOf] at hs
        · intro hall
          unfold scaleOf at hs
          simp only [hall, sub_self, hr.exact 0 ⟨0, 0, by norm_num, by norm_num⟩, abs_zero, add_zero, if_true] at hs
          split_ifs at hs

/-- Non-vacuity: the size (11, 20) of a camera of 10 by 20 pixels. -/
example (f c : Fin 2 → ℚ) : resize rnd (fun _ _ => 1) ⟨![10, 20], ![10, 20], f, c⟩ (.target ![11, 20]) false = .error .valueError := by
  have h : scaleOf rnd (fun _ _ => 1) ![10, 20] ![11, 20] = none := by decide +kernel
  unfold resize newSize
  simp only [Bool.false_eq_true, if_false, h]
  rfl

/-! ### Focal length and principal point offset -/

/-- `x` is `y` up to `k` rounding errors. -/
def Within (k : Nat) (x y : ℚ) : Prop := |x - y| ≤ |y| * ((1 + 1 / 2 ^ 53) ^ k - 1)

theorem within_round (hr : Nearest r) {k : Nat} {x y : ℚ} (h : Within k x y) : Within (k + 1) (r x) y := by
  unfold Within at *
  have h1 := hr.near x
  have h2 : |x| ≤ |y| * (1 + 1 / 2 ^ 53) ^ k := by
    calc |x| = |(x - y) + y| := by ring_nf
      _ ≤ |x - y| + |y| := abs_add_le _ _
      _ ≤ _ := by linarith
  calc |r x - y| = |(r x - x) + (x - y)| := by ring_nf
    _ ≤ |r x - x| + |x - y| := abs_add_le _ _
    _ ≤ |x| / 2 ^ 53 + |y| * ((1 + 1 / 2 ^ 53) ^ k - 1) := by linarith
    _ ≤ |y| * (1 + 1 / 2 ^ 53) ^ k / 2 ^ 53 + |y| * ((1 + 1 / 2 ^ 53) ^ k - 1) := by gcongr
    _ = |y| * ((1 + 1 / 2 ^ 53) ^ (k + 1) - 1) := by rw [pow_succ]; ring

theorem within_mul {j k : Nat} {x y a b : ℚ} (h : Within j x y) (g : Within k a b) : Within (j + k) (x * a) (y * b) := by
  unfold Within at *
  have hP : (1 : ℚ) ≤ (1 + 1 / 2 ^ 53) ^ j := one_le_pow₀ (by norm_num)
  have hx : |x| ≤ |y| * (1 + 1 / 2 ^ 53) ^ j := by
    calc |x| = |(x - y) + y| := by ring_nf
      _ ≤ |x - y| + |y| := abs_add_le _ _
      _ ≤ _ := by linarith
  have hQ : (0 : ℚ) ≤ |b| * ((1 + 1 / 2 ^ 53) ^ k - 1) := le_trans (abs_nonneg _) g
  calc |x * a - y * b| = |x * (a - b) + (x - y) * b| := by ring_nf
    _ ≤ |x * (a - b)| + |(x - y) * b| := abs_add_le _ _
    _ = |x| * |a - b| + |x - y| * |b| := by rw [abs_mul, abs_mul]
    _ ≤ |y| * (1 + 1 / 2 ^ 53) ^ j * (|b| * ((1 + 1 / 2 ^ 53) ^ k - 1)) + |y| * ((1 + 1 / 2 ^ 53) ^ j - 1) * |b| := by gcongr
    _ = |y * b| * ((1 + 1 / 2 ^ 53) ^ (j + k) - 1) := by rw [abs_mul, pow_add]; ring

theorem within_refl (y : ℚ) : Within 0 y y := by simp [Within]

/-- The sizes after each call of a history are positive. -/
def Positive (r : ℚ → ℚ) (ev : (Fin 2 → ℤ) → (Fin 2 → ℤ) → ℚ) : Cam → List (Size × Bool) → Prop
  | cam, [] => ∀ i, 0 < cam.size i
  | cam, o :: os => (∀ i, 0 < cam.size i) ∧ Positive r ev (run r ev cam [o]) os

theorem positive_first (cam : Cam) (ops : List (Size × Bool)) (h : Positive r ev cam ops) : ∀ i, 0 < cam.size i := by
  cases ops with
  | nil => exact h
  | cons o os => exact h.1

theorem run_cons (cam : Cam) (o : Size × Bool) (os : List (Size × Bool)) : run r ev cam (o :: os) = run r ev (run r ev cam [o]) os := rfl

theorem drift_aux (hr : Nearest r) (cam : Cam) (ops : List (Size × Bool)) (hp : Positive r ev cam ops) (i : Fin 2) (k : Nat) (a b : ℚ)
    (ha : Within k (cam.f i) (a * cam.size i)) (hb : Within k (cam.c i) (b * cam.size i)) :
    Within (k + 2 * ops.length) ((run r ev cam ops).f i) (a * (run r ev cam ops).size i) ∧
    Within (k + 2 * ops.length) ((run r ev cam ops).c i) (b * (run r ev cam ops).size i) := by
  induction ops generalizing cam k with
  | nil => exact ⟨ha, hb⟩
  | cons o os ih =>
    rw [run_cons]
    have h0 : (cam.size i : ℚ) ≠ 0 := by exact_mod_cast (hp.1 i).ne'
    have step : Within (k + 2) ((run r ev cam [o]).f i) (a * (run r ev cam [o]).size i) ∧
        Within (k + 2) ((run r ev cam [o]).c i) (b * (run r ev cam [o]).size i) := by
      simp only [run]
      cases h : resize r ev cam o.1 o.2 with
      | error e =>
        have weak : ∀ x y, Within k x y → Within (k + 2) x y := by
          intro x y hxy
          refine le_trans hxy ?_
          have : (1 + 1 / 2 ^ 53 : ℚ) ^ k ≤ (1 + 1 / 2 ^ 53) ^ (k + 2) := pow_le_pow_right₀ (by norm_num) (by omega)
          gcongr
        exact ⟨weak _ _ ha, weak _ _ hb⟩
      | ok cam' =>
        obtain ⟨_, _, hf, hc⟩ := resize_ok h
        have hq : Within 1 (r (cam'.size i / cam.size i)) (cam'.size i / cam.size i) := within_round hr (within_refl _)
        have e : ∀ z : ℚ, z * cam.size i * (cam'.size i / cam.size i) = z * cam'.size i := fun z => by field_simp
        show Within (k + 2) (cam'.f i) _ ∧ Within (k + 2) (cam'.c i) _
        rw [hf i, hc i, ← e a, ← e b]
        exact ⟨within_round hr (within_mul ha hq), within_round hr (within_mul hb hq)⟩
    have := ih (run r ev cam [o]) hp.2 (k + 2) step.1 step.2
    rw [List.length_cons, show k + 2 * (os.length + 1) = k + 2 + 2 * os.length by ring]
    exact this

theorem pow_bound (m : Nat) (h : m ≤ 2 ^ 52) : (1 + 1 / 2 ^ 53 : ℚ) ^ m - 1 ≤ m / 2 ^ 52 := by
  have h1 : (1 : ℚ) + m * (-(1 / 2 ^ 53)) ≤ (1 + -(1 / 2 ^ 53)) ^ m := one_add_mul_le_pow (by norm_num) m
  have hm : (m : ℚ) ≤ 2 ^ 52 := by exact_mod_cast h
  have hb : (1 : ℚ) / 2 ≤ 1 + m * (-(1 / 2 ^ 53)) := by
    have : (m : ℚ) * (1 / 2 ^ 53) ≤ 2 ^ 52 * (1 / 2 ^ 53) := by gcongr
    norm_num at this ⊢; linarith
  have h2 : ((1 + 1 / 2 ^ 53 : ℚ)) ^ m * (1 + -(1 / 2 ^ 53)) ^ m ≤ 1 := by
    rw [← mul_pow]; exact pow_le_one₀ (by norm_num) (by norm_num)
  have hP : (0 : ℚ) ≤ (1 + 1 / 2 ^ 53) ^ m := by positivity
  generalize (1 + 1 / 2 ^ 53 : ℚ) ^ m = P at *
  generalize hN : (1 + -(1 / 2 ^ 53) : ℚ) ^ m = N at *
  set u : ℚ := m * (1 / 2 ^ 53) with hu
  have hu' : (m : ℚ) / 2 ^ 52 = 2 * u := by rw [hu]; norm_num; ring
  have hn : (m : ℚ) * (-(1 / 2 ^ 53)) = -u := by rw [hu]; ring
  rw [hn] at h1 hb
  have hu0 : 0 ≤ u := by rw [hu]; positivity
  rw [hu']
  have h3 : P * (1 - u) ≤ 1 := le_trans (mul_le_mul_of_nonneg_left (by linarith) hP) h2
  nlinarith

/-- C131: after any history of resizes, focal length and principal point offset are in proportion to the image size up to a relative error of `2 ^ -51` per
call. -/
theorem drift (hr : Nearest r) (cam : Cam) (ops : List (Size × Bool)) (hp : Positive r ev cam ops) (hn : ops.length ≤ 2 ^ 51) (i : Fin 2) :
    |(run r ev cam ops).f i - cam.f i * ((run r ev cam ops).size i / cam.size i)| ≤
        |cam.f i * ((run r ev cam ops).size i / cam.size i)| * (ops.length / 2 ^ 51) ∧
    |(run r ev cam ops).c i - cam.c i * ((run r ev cam ops).size i / cam.size i)| ≤
        |cam.c i * ((run r ev cam ops).size i / cam.size i)| * (ops.length / 2 ^ 51) := by
  have h0 : (cam.size i : ℚ) ≠ 0 := by exact_mod_cast (positive_first cam ops hp i).ne'
  have e : ∀ x : ℚ, x / cam.size i * cam.size i = x := fun x => by field_simp
  obtain ⟨h1, h2⟩ := drift_aux hr cam ops hp i 0 (cam.f i / cam.size i) (cam.c i / cam.size i) (by rw [e]; exact within_refl _)
    (by rw [e]; exact within_refl _)
  have hb := pow_bound (2 * ops.length) (by omega)
  have hb' : ((2 * ops.length : ℕ) : ℚ) / 2 ^ 52 = ops.length / 2 ^ 51 := by push_cast; ring
  rw [hb'] at hb
  rw [zero_add] at h1 h2
  unfold Within at h1 h2
  have c1 : ∀ x : ℚ, x / cam.size i * (run r ev cam ops).size i = x * ((run r ev cam ops).size i / cam.size i) := fun x => by ring
  rw [c1] at h1 h2
  exact ⟨le_trans h1 (by gcongr), le_trans h2 (by gcongr)⟩

/-- C131 fails exactly: a camera of 49 pixels with focal length 1, resized to one pixel and back, does not have focal length 1. -/
theorem restore_violated : ∃ cam : Cam, cam.orig = cam.size ∧
    (run rnd ev cam [(.target ![1, 1], true), (.factor 1, false)]).size = cam.size ∧
    cam.f 0 = 1 ∧ (run rnd ev cam [(.target ![1, 1], true), (.factor 1, false)]).f 0 = 1 - 1 / 2 ^ 53 := by
  refine ⟨⟨![49, 49], ![49, 49], ![1, 1], ![0, 0]⟩, rfl, ?_, rfl, ?_⟩
  · show (fun i => ⌊rnd (rnd (1 * ((![49, 49] : Fin 2 → ℤ) i : ℚ)) + 1 / 2)⌋) = ![49, 49]
    funext i
    fin_cases i <;> decide +kernel
  · show rnd (rnd (1 * rnd (((1 : ℤ) : ℚ) / ((49 : ℤ) : ℚ))) * rnd (((⌊rnd (rnd (1 * ((49 : ℤ) : ℚ)) + 1 / 2)⌋ : ℤ) : ℚ) / ((1 : ℤ) : ℚ))) = _
    decide +kernel

/-- All sizes of a history are the first by a power of two. -/
def Dyadic (r : ℚ → ℚ) (ev : (Fin 2 → ℤ) → (Fin 2 → ℤ) → ℚ) : Cam → List (Size × Bool) → Prop
  | _, [] => True
  | cam, o :: os => (∀ i, ∃ k : ℤ, ((run r ev cam [o]).size i : ℚ) = cam.size i * 2 ^ k) ∧ Dyadic r ev (run r ev cam [o]) os

/-- C131: with sizes that are halved and doubled, focal length and principal point offset stay exactly in proportion: the original size restores them. -/
theorem dyadic_exact (hr : Nearest r) (cam : Cam) (ops : List (Size × Bool)) (hp : Positive r ev cam ops) (hd : Dyadic r ev cam ops)
    (hf : ∀ i, IsDouble (cam.f i)) (hc : ∀ i, IsDouble (cam.c i)) (i : Fin 2) :
    (run r ev cam ops).f i = cam.f i * ((run r ev cam ops).size i / cam.size i) ∧
    (run r ev cam ops).c i = cam.c i * ((run r ev cam ops).size i / cam.size i) := by
  induction ops generalizing cam with
  | nil =>
    have h0 : (cam.size i : ℚ) ≠ 0 := by exact_mod_cast (hp i).ne'
    simp only [run, div_self h0, mul_one, and_self]
  | cons o os ih =>
    have scale : ∀ x k, IsDouble x → IsDouble (x * (2 : ℚ) ^ (k : ℤ)) := by
      rintro x k ⟨m, e, hm, rfl⟩
      exact ⟨m, e + k, hm, by rw [zpow_split]; ring⟩
    have one : ∀ k : ℤ, IsDouble ((2 : ℚ) ^ k) := fun k => ⟨1, k, by norm_num, by simp⟩
    have step : ∀ i, IsDouble ((run r ev cam [o]).f i) ∧ IsDouble ((run r ev cam [o]).c i) ∧
        (run r ev cam [o]).f i = cam.f i * ((run r ev cam [o]).size i / cam.size i) ∧
        (run r ev cam [o]).c i = cam.c i * ((run r ev cam [o]).size i / cam.size i) := by
      intro i
      have h0 : (cam.size i : ℚ) ≠ 0 := by exact_mod_cast (hp.1 i).ne'
      obtain ⟨k, hk⟩ := hd.1 i
      simp only [run] at hk ⊢
      cases h : resize r ev cam o.1 o.2 with
      | error e => exact ⟨hf i, hc i, by simp [h0], by simp [h0]⟩
      | ok cam' =>
        rw [h] at hk
        simp only at hk ⊢
        obtain ⟨_, _, e1, e2⟩ := resize_ok h
        have hq : (cam'.size i : ℚ) / cam.size i = 2 ^ k := by rw [hk]; field_simp
        rw [e1 i, e2 i, hq, hr.exact _ (one k), hr.exact _ (scale _ k (hf i)), hr.exact _ (scale _ k (hc i))]
        exact ⟨scale _ k (hf i), scale _ k (hc i), rfl, rfl⟩
    rw [run_cons]
    obtain ⟨g1, g2⟩ := ih (run r ev cam [o]) hp.2 hd.2 (fun i => (step i).1) (fun i => (step i).2.1)
    obtain ⟨_, _, s1, s2⟩ := step i
    have h0 : (cam.size i : ℚ) ≠ 0 := by exact_mod_cast (hp.1 i).ne'
    have h1 : ((run r ev cam [o]).size i : ℚ) ≠ 0 := by exact_mod_cast (positive_first _ _ hp.2 i).ne'
    rw [g1, g2, s1, s2]
    constructor <;> field_simp

/-! ### Concrete cases -/

/-- A camera of 640 by 480 pixels, resized to a quarter of it and to the next proportional size: the theorems apply. -/
example : Pixels ![640, 480] ∧ Pixels ![160, 120] ∧ (![160, 120] : Fin 2 → ℤ) 0 * (![640, 480] : Fin 2 → ℤ) 1 = (![160, 120] : Fin 2 → ℤ) 1 * (![640, 480] : Fin 2 → ℤ) 0 := by
  refine ⟨fun i => ?_, fun i => ?_, by decide⟩ <;> fin_cases i <;> decide

example : let cam : Cam := ⟨![640, 480], ![640, 480], ![700, 701], ![1, -2]⟩
    Positive rnd ev cam [(.target ![160, 120], true), (.target ![320, 240], true)] ∧ Dyadic rnd ev cam [(.target ![160, 120], true), (.target ![320, 240], true)] := by
  intro cam
  refine ⟨⟨fun i => ?_, fun i => ?_, fun i => ?_⟩, ⟨fun i => ⟨-2, ?_⟩, fun i => ⟨1, ?_⟩, trivial⟩⟩
  · fin_cases i <;> decide
  · show 0 < (![160, 120] : Fin 2 → ℤ) i; fin_cases i <;> decide
  · show 0 < (![320, 240] : Fin 2 → ℤ) i; fin_cases i <;> decide
  · show (((![160, 120] : Fin 2 → ℤ) i : ℤ) : ℚ) = ((![640, 480] : Fin 2 → ℤ) i : ℤ) * 2 ^ (-2 : ℤ)
    fin_cases i <;> norm_num
  · show (((![320, 240] : Fin 2 → ℤ) i : ℤ) : ℚ) = ((![160, 120] : Fin 2 → ℤ) i : ℤ) * 2 ^ (1 : ℤ)
    fin_cases i <;> norm_num

end Glimpse.FloatResize
