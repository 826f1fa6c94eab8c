import Verif.Model.ImageProject
import Verif.Lemmas.ExceptList
import Verif.Props.CameraProjection
import Mathlib.Data.List.GetD
import Mathlib.Algebra.Order.Field.Basic
import Mathlib.Tactic.Linarith
import Mathlib.Tactic.Ring
import Mathlib.Tactic.FieldSimp
import Mathlib.Tactic.NormNum

/-!
C106: an image projected into another camera.
-/
set_option autoImplicit false
set_option linter.unusedSimpArgs false
set_option linter.unusedSectionVars false

namespace Glimpse.ImgProject

variable {K : Type} [Field K] [LinearOrder K] [IsStrictOrderedRing K] [FloorRing K]

/-! ### Specification -/

/-- An image of `h` rows and `w` columns. -/
def Shape (h w : Nat) (a : List (List K)) : Prop := a.length = h ∧ ∀ r ∈ a, r.length = w

/-- `x` is the bilinear interpolation of the pixels around the image coordinates (u, v), whose centers are at half
coordinates. -/
def Bilinear (a : List (List K)) (h w : Nat) (u v x : K) : Prop :=
  ∃ (i j : Nat) (s t : K), i + 1 < w ∧ j + 1 < h ∧ 0 ≤ s ∧ s ≤ 1 ∧ 0 ≤ t ∧ t ≤ 1 ∧ u = i + 1 / 2 + s ∧ v = j + 1 / 2 + t ∧
    x = (1 - t) * ((1 - s) * pixel a j i + s * pixel a j (i + 1)) + t * ((1 - s) * pixel a (j + 1) i + s * pixel a (j + 1) (i + 1))

/-- `x` is the value of a pixel (i, j) that contains the image coordinates (u, v). -/
def Nearest (a : List (List K)) (h w : Nat) (u v x : K) : Prop :=
  ∃ i j : Nat, i < w ∧ j < h ∧ (i : K) ≤ u ∧ u ≤ i + 1 ∧ (j : K) ≤ v ∧ v ≤ j + 1 ∧ x = pixel a j i

/-- Image coordinates between the centers of the outer pixels. -/
def Within (h w : Nat) (u v : K) : Prop := 1 / 2 ≤ u ∧ u ≤ w - 1 / 2 ∧ 1 / 2 ≤ v ∧ v ≤ h - 1 / 2

/-! ### Intervals -/

private theorem centers_length (n : Nat) : (centers n : List K).length = n := by simp [centers]

private theorem centers_getD (n i : Nat) (h : i < n) : (centers n : List K).getD i 0 = i + 1 / 2 := by
  rw [List.getD_eq_getElem _ _ (by rw [centers_length]; exact h)]
  simp [centers]

private theorem takeWhile_count {γ : Type} (p : γ → Bool) (l : List γ) :
    (∀ j (hj : j < (l.takeWhile p).length), ∀ x, l[j]? = some x → p x = true) ∧
    (∀ x, l[(l.takeWhile p).length]? = some x → p x = false) ∧ (l.takeWhile p).length ≤ l.length := by
  induction l with
  | nil => simp
  | cons a l ih =>
    by_cases hp : p a = true
    · rw [List.takeWhile_cons_of_pos hp]
      refine ⟨?_, ?_, by simpa using ih.2.2⟩
      · intro j hj x hx
        cases j with
        | zero => simp at hx; subst hx; exact hp
        | succ j => exact ih.1 j (by simpa using hj) x (by simpa using hx)
      · intro x hx
        exact ih.2.1 x (by simpa using hx)
    · rw [List.takeWhile_cons_of_neg (by simpa using hp)]
      refine ⟨by simp, ?_, by simp⟩
      intro x hx
      simp at hx
      subst hx
      simpa using hp

private theorem below_spec (n : Nat) (x : K) :
    (∀ j, j < below (centers n) (some x) → (j : K) + 1 / 2 < x) ∧
    (below (centers n) (some x) < n → x ≤ (below (centers n) (some x) : Nat) + 1 / 2) ∧
    below (centers n) (some x) ≤ n := by
  obtain ⟨h1, h2, h3⟩ := takeWhile_count (fun g : K => decide (g < x)) (centers n)
  rw [centers_length] at h3
  refine ⟨?_, ?_, h3⟩
  · intro j hj
    have hjn : j < n := lt_of_lt_of_le hj h3
    have := h1 j hj ((j : K) + 1 / 2) (by simp [centers, hjn])
    simpa using this
  · intro hk
    have hk' : (List.takeWhile (fun g : K => decide (g < x)) (centers n)).length < n := hk
    have := h2 (((List.takeWhile (fun g : K => decide (g < x)) (centers n)).length : Nat) + 1 / 2) (by
      generalize (List.takeWhile (fun g : K => decide (g < x)) (centers n)).length = m at hk'
      simp [centers, hk'])
    have h4 := of_decide_eq_false this
    exact not_lt.1 h4

private theorem findCell_spec (n : Nat) (hn : 2 ≤ n) (x : K) (h1 : 1 / 2 ≤ x) (h2 : x ≤ n - 1 / 2) :
    ∃ (i : Nat) (f : K), findCell (centers n) (some x) = ⟨i, i + 1, some f⟩ ∧ i + 1 < n ∧ 0 ≤ f ∧ f ≤ 1 ∧ x = i + 1 / 2 + f := by
  obtain ⟨b1, b2, b3⟩ := below_spec n x
  set k := below (centers n) (some x) with hk
  set i := min (k - 1) (n - 2) with hi
  have hin : i + 1 < n := by omega
  have e1 : (centers n : List K).getD i 0 = i + 1 / 2 := centers_getD n i (by omega)
  have e2 : (centers n : List K).getD (i + 1) 0 = (i + 1 : Nat) + 1 / 2 := centers_getD n (i + 1) hin
  refine ⟨i, x - (i + 1 / 2), ?_, hin, ?_, ?_, by ring⟩
  · unfold findCell
    rw [centers_length, if_neg (by omega), ← hk, ← hi]
    simp only [Option.map_some, e1, e2]
    congr 2
    push_cast
    field_simp
    ring
  · by_cases h0 : k = 0
    · have : i = 0 := by omega
      rw [this]; push_cast; linarith
    · have := b1 i (by omega)
      linarith
  · by_cases hkn : k < n
    · have := b2 hkn
      by_cases h0 : k = 0
      · have : i = 0 := by omega
        rw [this]
        rw [h0] at b2
        have := b2 (by omega)
        push_cast at this ⊢
        linarith
      · have hik : (k : K) = i + 1 := by
          have : k = i + 1 := by omega
          rw [this]; push_cast; rfl
        rw [hik] at this
        linarith
    · have hi2 : (n : K) = i + 2 := by
        have : n = i + 2 := by omega
        rw [this]; push_cast; rfl
      rw [hi2] at h2
      linarith

private theorem outside_iff (n : Nat) (hn : 0 < n) (x : K) :
    outside (centers n) (some x) = true ↔ ¬ (1 / 2 ≤ x ∧ x ≤ n - 1 / 2) := by
  have h1 : (centers n : List K).headD 0 = 1 / 2 := by
    cases n with
    | zero => omega
    | succ n => simp [centers, List.range_succ_eq_map]
  have h2 : (centers n : List K).getLastD 0 = n - 1 / 2 := by
    cases n with
    | zero => omega
    | succ n =>
      simp [centers, List.range_succ]
      ring
  unfold outside
  rw [h1, h2]
  simp only [Bool.or_eq_true, decide_eq_true_eq, not_and_or, not_le]

/-! ### Samples -/

private theorem sample_within (a : List (List K)) (h w : Nat) (hh : 2 ≤ h) (hw : 2 ≤ w) (u v : K) (hin : Within h w u v) :
    (∃ x, sample .linear a (centers h) (centers w) (some v) (some u) = some x ∧ Bilinear a h w u v x) ∧
    (∃ x, sample .nearest a (centers h) (centers w) (some v) (some u) = some x ∧ Nearest a h w u v x) := by
  obtain ⟨i1, i2, i3, i4⟩ := hin
  have o1 : outside (centers h) (some v) = false := by
    rw [Bool.eq_false_iff, Ne, outside_iff h (by omega)]; exact not_not.2 ⟨i3, i4⟩
  have o2 : outside (centers w) (some u) = false := by
    rw [Bool.eq_false_iff, Ne, outside_iff w (by omega)]; exact not_not.2 ⟨i1, i2⟩
  obtain ⟨j, t, c1, j1, t0, t1, ev⟩ := findCell_spec h hh v i3 i4
  obtain ⟨i, s, c2, k1, s0, s1, eu⟩ := findCell_spec w hw u i1 i2
  constructor
  · refine ⟨(1 - t) * (1 - s) * pixel a j i + (1 - t) * s * pixel a j (i + 1) + t * (1 - s) * pixel a (j + 1) i +
      t * s * pixel a (j + 1) (i + 1), ?_, i, j, s, t, k1, j1, s0, s1, t0, t1, eu, ev, by ring⟩
    unfold sample
    rw [o1, o2, c1, c2]
    rfl
  · refine ⟨pixel a (nearer ⟨j, j + 1, some t⟩) (nearer ⟨i, i + 1, some s⟩), ?_,
      nearer ⟨i, i + 1, some s⟩, nearer ⟨j, j + 1, some t⟩, ?_, ?_, ?_, ?_, ?_, ?_, rfl⟩
    · unfold sample
      rw [o1, o2, c1, c2]
      rfl
    · unfold nearer; simp only; split <;> omega
    · unfold nearer; simp only; split <;> omega
    all_goals unfold nearer; simp only; split
    all_goals push_cast
    all_goals rename_i hle
    all_goals try rw [not_le] at hle
    all_goals linarith

/-- C106. Without equal positions, `project` raises ValueError; with equal positions, a method it has and an image of the size
of its camera, it returns one band for each of the image, of the size of the target camera. -/
theorem project_raises (same : Bool) (method : Method) (view : K × K → Option (K × K)) (tw th sw sh : Nat) (isInt : Bool)
    (junk : K) (img : Pixels K) :
    (same = false → project same method view tw th sw sh isInt junk img = .error .valueError) ∧
    (same = true → method ≠ .other → (∀ a ∈ img.list, Shape sh sw a) →
      ∃ out, project same method view tw th sw sh isInt junk img = .ok out ∧ out.length = img.list.length ∧
        ∀ b ∈ out, b.length = th ∧ ∀ r ∈ b, r.length = tw) := by
  constructor
  · rintro rfl; rfl
  · rintro rfl hm hs
    have : ∀ a ∈ img.list, (fun a => if method == .other || !hasShape sh sw a then (Except.error Err.valueError : Except Err (List (List (Option K))))
        else .ok ((centers th).map fun v => (centers tw).map fun u =>
      store isInt junk (sample method a (centers sh) (centers sw) ((view (u, v)).map Prod.snd) ((view (u, v)).map Prod.fst)))) a =
      .ok ((fun a => (centers th).map fun v => (centers tw).map fun u =>
      store isInt junk (sample method a (centers sh) (centers sw) ((view (u, v)).map Prod.snd) ((view (u, v)).map Prod.fst))) a) := by
      intro a ha
      obtain ⟨h1, h2⟩ := hs a ha
      have : hasShape sh sw a = true := by simp [hasShape, h1]; exact h2
      simp [this, hm]
    refine ⟨_, mapM_ok _ _ _ this, by simp, ?_⟩
    intro b hb
    obtain ⟨a, -, rfl⟩ := List.mem_map.1 hb
    refine ⟨by simp [centers_length], fun r hr => ?_⟩
    obtain ⟨v, -, rfl⟩ := List.mem_map.1 hr
    simp [centers_length]

/-- Pixel of the result: band `n`, row `r`, column `c`. -/
def at3 (out : List (List (List (Option K)))) (n r c : Nat) : Option (Option K) :=
  (out[n]?.bind fun b => b[r]?).bind fun row => row[c]?

private theorem project_pixel (method : Method) (view : K × K → Option (K × K)) (tw th sw sh : Nat) (isInt : Bool)
    (junk : K) (img : Pixels K) (out : List (List (List (Option K))))
    (ho : project true method view tw th sw sh isInt junk img = .ok out) (n : Nat) (a : List (List K)) (ha : img.list[n]? = some a)
    (r c : Nat) (hr : r < th) (hc : c < tw) :
    at3 out n r c = some (store isInt junk (sample method a (centers sh) (centers sw)
      ((view ((c : K) + 1 / 2, (r : K) + 1 / 2)).map Prod.snd) ((view ((c : K) + 1 / 2, (r : K) + 1 / 2)).map Prod.fst))) := by
  unfold project at ho
  simp only [Bool.not_true, Bool.false_eq_true, if_false] at ho
  obtain ⟨hl, hg⟩ := mapM_ok_inv _ _ _ ho
  obtain ⟨hn, ha'⟩ := List.getElem?_eq_some_iff.1 ha
  have := hg n hn (by omega)
  rw [ha'] at this
  split at this
  · cases this
  · have := Except.ok.inj this
    unfold at3
    rw [List.getElem?_eq_getElem (by omega : n < out.length), ← this]
    simp [centers, hr, hc]

/-- C106. A pixel of the target image whose ray meets the source image between the centers of its outer pixels gets, with
method `linear`, the bilinear interpolation of the pixels around; with method `nearest`, the value of the pixel it meets. In an
image of integers, the former is truncated. -/
theorem project_value (view : K × K → Option (K × K)) (tw th sw sh : Nat) (hw : 2 ≤ sw) (hh : 2 ≤ sh) (isInt : Bool)
    (junk : K) (img : Pixels K) (n : Nat) (a : List (List K)) (ha : img.list[n]? = some a)
    (r c : Nat) (hr : r < th) (hc : c < tw) (u v : K) (hv : view ((c : K) + 1 / 2, (r : K) + 1 / 2) = some (u, v))
    (hin : Within sh sw u v) :
    (∀ out, project true .linear view tw th sw sh isInt junk img = .ok out →
      ∃ x, Bilinear a sh sw u v x ∧ at3 out n r c = some (some (if isInt then truncate x else x))) ∧
    (∀ out, project true .nearest view tw th sw sh isInt junk img = .ok out →
      ∃ x, Nearest a sh sw u v x ∧ at3 out n r c = some (some (if isInt then truncate x else x))) := by
  obtain ⟨⟨x, hx, hb⟩, ⟨y, hy, hn⟩⟩ := sample_within a sh sw hh hw u v hin
  constructor
  · intro out ho
    refine ⟨x, hb, ?_⟩
    rw [project_pixel _ view tw th sw sh isInt junk img out ho n a ha r c hr hc, hv]
    simp only [Option.map_some, hx, store]
    split <;> rfl
  · intro out ho
    refine ⟨y, hn, ?_⟩
    rw [project_pixel _ view tw th sw sh isInt junk img out ho n a ha r c hr hc, hv]
    simp only [Option.map_some, hy, store]
    split <;> rfl

/-- C106. The interpolated value lies between those of the four pixels around. -/
theorem bilinear_bounds (a : List (List K)) (h w : Nat) (u v x lo hi : K) (hb : Bilinear a h w u v x)
    (hp : ∀ r < h, ∀ c < w, lo ≤ pixel a r c ∧ pixel a r c ≤ hi) : lo ≤ x ∧ x ≤ hi := by
  obtain ⟨i, j, s, t, i1, j1, s0, s1, t0, t1, -, -, rfl⟩ := hb
  have a1 := hp j (by omega) i (by omega)
  have a2 := hp j (by omega) (i + 1) (by omega)
  have a3 := hp (j + 1) (by omega) i (by omega)
  have a4 := hp (j + 1) (by omega) (i + 1) (by omega)
  have conv : ∀ p q f : K, 0 ≤ f → f ≤ 1 → lo ≤ p ∧ p ≤ hi → lo ≤ q ∧ q ≤ hi →
      lo ≤ (1 - f) * p + f * q ∧ (1 - f) * p + f * q ≤ hi := by
    intro p q f f0 f1 ⟨p0, p1⟩ ⟨q0, q1⟩
    have e1 : 0 ≤ (1 - f) * (p - lo) := mul_nonneg (by linarith) (by linarith)
    have e2 : 0 ≤ f * (q - lo) := mul_nonneg f0 (by linarith)
    have e3 : 0 ≤ (1 - f) * (hi - p) := mul_nonneg (by linarith) (by linarith)
    have e4 : 0 ≤ f * (hi - q) := mul_nonneg f0 (by linarith)
    constructor <;> nlinarith
  exact conv _ _ t t0 t1 (conv _ _ s s0 s1 a1 a2) (conv _ _ s s0 s1 a3 a4)

/-- At the center of a pixel, both methods have its value. -/
theorem value_at_center (a : List (List K)) (h w i j : Nat) (x : K) :
    (Bilinear a h w ((i : K) + 1 / 2) ((j : K) + 1 / 2) x → x = pixel a j i) ∧
    (Nearest a h w ((i : K) + 1 / 2) ((j : K) + 1 / 2) x → x = pixel a j i) := by
  have near : ∀ (i k : Nat) (s : K), 0 ≤ s → s ≤ 1 → (i : K) + 1 / 2 = k + 1 / 2 + s →
      (i = k ∧ s = 0) ∨ (i = k + 1 ∧ s = 1) := by
    intro i k s s0 s1 e
    have e' : (i : K) = k + s := by linarith
    rcases lt_trichotomy i k with hl | rfl | hl
    · have : (i : K) + 1 ≤ k := by exact_mod_cast hl
      linarith
    · exact .inl ⟨rfl, by linarith⟩
    · have h1 : (k : K) + 1 ≤ i := by exact_mod_cast hl
      have hs : s = 1 := by linarith
      rw [hs] at e'
      exact .inr ⟨by exact_mod_cast e', hs⟩
  constructor
  · rintro ⟨k, l, s, t, -, -, s0, s1, t0, t1, eu, ev, rfl⟩
    rcases near i k s s0 s1 eu with ⟨rfl, rfl⟩ | ⟨rfl, rfl⟩ <;> rcases near j l t t0 t1 ev with ⟨rfl, rfl⟩ | ⟨rfl, rfl⟩ <;> ring
  · rintro ⟨k, l, -, -, u0, u1, v0, v1, rfl⟩
    have same : ∀ i k : Nat, (k : K) ≤ i + 1 / 2 → (i : K) + 1 / 2 ≤ k + 1 → k = i := by
      intro i k h0 h1
      rcases lt_trichotomy i k with hl | rfl | hl
      · have : (i : K) + 1 ≤ k := by exact_mod_cast hl
        linarith
      · rfl
      · have : (k : K) + 1 ≤ i := by exact_mod_cast hl
        linarith
    rw [same i k u0 u1, same j l v0 v1]

/-- C106. A pixel whose ray does not meet the source image is NaN (an unspecified integer in an image of integers). -/
theorem project_outside (method : Method) (view : K × K → Option (K × K)) (tw th sw sh : Nat)
    (hw : 0 < sw) (hh : 0 < sh) (isInt : Bool) (junk : K)
    (img : Pixels K) (out : List (List (List (Option K))))
    (ho : project true method view tw th sw sh isInt junk img = .ok out) (n : Nat) (a : List (List K)) (ha : img.list[n]? = some a)
    (r c : Nat) (hr : r < th) (hc : c < tw) (u v : K) (hv : view ((c : K) + 1 / 2, (r : K) + 1 / 2) = some (u, v))
    (hout : ¬ Within sh sw u v) : at3 out n r c = some (if isInt then some junk else none) := by
  rw [project_pixel _ view tw th sw sh isInt junk img out ho n a ha r c hr hc, hv]
  have : sample method a (centers sh) (centers sw) (some v) (some u) = none := by
    unfold sample
    rw [if_pos]
    rw [Bool.or_eq_true, outside_iff sh hh, outside_iff sw hw]
    unfold Within at hout
    tauto
  simp only [Option.map_some, this, store]

/-- C106. A pixel whose ray does not go to the front of the source camera is NaN with method `linear`. -/
theorem project_behind_linear (view : K × K → Option (K × K)) (tw th sw sh : Nat) (isInt : Bool) (junk : K)
    (img : Pixels K) (out : List (List (List (Option K))))
    (ho : project true .linear view tw th sw sh isInt junk img = .ok out) (n : Nat) (a : List (List K)) (ha : img.list[n]? = some a)
    (r c : Nat) (hr : r < th) (hc : c < tw) (hv : view ((c : K) + 1 / 2, (r : K) + 1 / 2) = none) :
    at3 out n r c = some (if isInt then some junk else none) := by
  rw [project_pixel _ view tw th sw sh isInt junk img out ho n a ha r c hr hc, hv]
  have : sample .linear a (centers sh) (centers sw) none none = none := by
    unfold sample outside
    simp only [Bool.or_self, Bool.false_eq_true, if_false, blend]
    unfold findCell
    split <;> rfl
  simp only [Option.map_none, this, store]

/-- C106 (violated). With method `nearest`, all pixels whose rays do not go to the front of the source camera get the value of
the last pixel of the source image (lower right). -/
theorem project_behind_nearest_violated (view : K × K → Option (K × K)) (tw th sw sh : Nat) (hw : 2 ≤ sw) (hh : 2 ≤ sh) (junk : K)
    (img : Pixels K) (out : List (List (List (Option K))))
    (ho : project true .nearest view tw th sw sh false junk img = .ok out) (n : Nat) (a : List (List K)) (ha : img.list[n]? = some a)
    (r c : Nat) (hr : r < th) (hc : c < tw) (hv : view ((c : K) + 1 / 2, (r : K) + 1 / 2) = none) :
    at3 out n r c = some (some (pixel a (sh - 1) (sw - 1))) := by
  rw [project_pixel _ view tw th sw sh false junk img out ho n a ha r c hr hc, hv]
  have h1 : nearer (findCell (centers sh : List K) none) = sh - 1 := by
    unfold findCell
    rw [centers_length, if_neg (by omega)]
    simp only [below, centers_length, nearer, Option.map_none]
    omega
  have h2 : nearer (findCell (centers sw : List K) none) = sw - 1 := by
    unfold findCell
    rw [centers_length, if_neg (by omega)]
    simp only [below, centers_length, nearer, Option.map_none]
    omega
  simp only [Option.map_none, store, sample, outside, Bool.or_self, Bool.false_eq_true, if_false, blend, h1, h2]

/-! ### Cameras -/

/-- C106. Where a pixel's value is taken from: the point of the source image in the same direction. For a source camera
without lens distortion, the ray of the target pixel is a positive multiple of the ray of that point. -/
theorem project_same_direction (src tgt : Camera) (hf : ∀ i, src.vec.f i ≠ 0) (hk : src.vec.k = 0) (hp : src.vec.p = 0)
    (p q : ℝ × ℝ) (h : view src tgt p = some q) :
    ∃ s : ℝ, 0 < s ∧ ∀ i, tgt.uvToXyz ![p.1, p.2] true 1 i = s * src.uvToXyz ![q.1, q.2] true 1 i := by
  set d := tgt.uvToXyz ![p.1, p.2] true 1 with hd
  set cam0 : Camera := { src with vec := { src.vec with xyz := 0 }, correction := none } with h0
  have e1 : cam0.xyzToUv d false = src.xyzToUv d true := by
    have : cam0.dxyz d false = d := by funext i; simp [Camera.dxyz, h0]
    unfold Camera.xyzToUv Camera.xyzToXy
    rw [this]
    rfl
  unfold view at h
  rw [← hd] at h
  have hfront : cam0.infront d false := by
    have : ¬ (src.xyzToUv d true).1 = none := by
      intro hn
      rw [hn] at h
      cases h
    rw [directions_nan_iff] at this
    simpa [Camera.infront, h0] using not_not.1 this
  obtain ⟨uv, depth, h1, h2, h3⟩ := xyz_to_uv_to_xyz_ideal cam0 hf hk hp rfl d hfront
  rw [e1] at h1
  rw [h1] at h
  simp only [Option.map_some, Option.some.injEq] at h
  have huv : (![q.1, q.2] : V2) = uv := by
    rw [← h]
    funext i
    fin_cases i <;> rfl
  refine ⟨depth, h2, fun i => ?_⟩
  rw [huv, ← h3]
  simp only [Camera.uvToXyz, Camera.xyToXyz, h0, Camera.uvToXy]
  by_cases hdp : depth = 1
  · simp [hdp]
  · simp [hdp]; ring

/-- C106. Projected into its own camera (without lens distortion), an image is unchanged, with both methods, apart from the
axis for bands an image of one band gets. -/
theorem project_same (cam : Camera) (hf : ∀ i, cam.vec.f i ≠ 0) (hk : cam.vec.k = 0) (hp : cam.vec.p = 0)
    (w h : Nat) (hs : cam.vec.imgsz = ![(w : ℤ), (h : ℤ)]) (hw : 2 ≤ w) (hh : 2 ≤ h) (method : Method) (hm : method ≠ .other)
    (isInt : Bool) (junk : ℝ) (img : Pixels ℝ) (hi : ∀ a ∈ img.list, Shape h w a)
    (hint : isInt = true → ∀ a ∈ img.list, ∀ r ∈ a, ∀ x ∈ r, ∃ z : ℤ, x = z) :
    projectCam cam cam method isInt junk img = .ok (img.list.map fun a => a.map fun r => r.map some) := by
  have hv : ∀ p : ℝ × ℝ, view cam cam p = some p := by
    intro p
    unfold view
    rw [uv_to_xyz_to_uv_ideal cam hf hk hp _ 1 one_pos]
    rfl
  unfold projectCam
  have hsz : (cam.vec.imgsz 0).toNat = w ∧ (cam.vec.imgsz 1).toNat = h := by rw [hs]; simp
  rw [hsz.1, hsz.2]
  simp only [decide_true]
  obtain ⟨out, ho, hl, hsh⟩ := (project_raises true method (view cam cam) w h w h isInt junk img).2 rfl hm hi
  rw [ho]
  congr 1
  refine List.ext_getElem (by simp [hl]) fun n hn hn' => ?_
  have hn2 : n < img.list.length := by omega
  have hb := hsh out[n] (List.getElem_mem _)
  have ha := hi img.list[n] (List.getElem_mem _)
  have hmem : img.list[n] ∈ img.list := List.getElem_mem _
  refine List.ext_getElem (by simp [hb.1, ha.1]) fun r hr hr' => ?_
  have hrh : r < h := by rw [← hb.1]; exact hr
  have hra : r < img.list[n].length := by rw [ha.1]; exact hrh
  have hrow := hb.2 out[n][r] (List.getElem_mem _)
  have harow := ha.2 img.list[n][r] (List.getElem_mem _)
  have hmem2 : img.list[n][r] ∈ img.list[n] := List.getElem_mem _
  refine List.ext_getElem (by simp [hrow, harow]) fun c hc hc' => ?_
  have hcw : c < w := by rw [← hrow]; exact hc
  have hca : c < img.list[n][r].length := by rw [harow]; exact hcw
  have hmem3 : img.list[n][r][c] ∈ img.list[n][r] := List.getElem_mem _
  have hpix : pixel img.list[n] r c = img.list[n][r][c] := by
    unfold pixel
    rw [List.getD_eq_getElem _ _ hra, List.getD_eq_getElem _ _ hca]
  have hat : at3 out n r c = some out[n][r][c] := by
    unfold at3
    simp [List.getElem?_eq_getElem hn, List.getElem?_eq_getElem hr, List.getElem?_eq_getElem hc]
  have hwh : (2 : ℝ) ≤ w ∧ (2 : ℝ) ≤ h := ⟨by exact_mod_cast hw, by exact_mod_cast hh⟩
  have hcr : (c : ℝ) + 1 ≤ w ∧ (r : ℝ) + 1 ≤ h := ⟨by exact_mod_cast hcw, by exact_mod_cast hrh⟩
  have hin : Within h w ((c : ℝ) + 1 / 2) ((r : ℝ) + 1 / 2) := by
    have hc0 : (0 : ℝ) ≤ c := Nat.cast_nonneg c
    have hr0 : (0 : ℝ) ≤ r := Nat.cast_nonneg r
    refine ⟨by linarith, by linarith, by linarith, by linarith⟩
  obtain ⟨v1, v2⟩ := project_value (view cam cam) w h w h hw hh isInt junk img n img.list[n]
    (List.getElem?_eq_getElem hn2) r c hrh hcw _ _ (hv _) hin
  have fin : ∀ x, x = pixel img.list[n] r c → at3 out n r c = some (some (if isInt then truncate x else x)) →
      out[n][r][c] = some img.list[n][r][c] := by
    intro x hx hx'
    rw [hat] at hx'
    rw [Option.some.inj hx', hx, hpix]
    congr 1
    split
    · rename_i ht
      obtain ⟨z, hz⟩ := hint ht _ hmem _ hmem2 _ hmem3
      rw [hz]
      unfold truncate
      split <;> simp
    · rfl
  simp only [List.getElem_map]
  cases method with
  | other => exact absurd rfl hm
  | linear =>
    obtain ⟨x, hx, hx'⟩ := v1 out ho
    exact fin x ((value_at_center _ _ _ _ _ _).1 hx) hx'
  | nearest =>
    obtain ⟨x, hx, hx'⟩ := v2 out ho
    exact fin x ((value_at_center _ _ _ _ _ _).2 hx) hx'

/-- C106 (violated), in terms of cameras: an image projected with method `nearest` into a camera at the same place that looks
the other way shows the lower right pixel of the image everywhere, instead of nothing. -/
theorem project_opposite_violated (src tgt : Camera) (hx : tgt.vec.xyz = src.vec.xyz) (hs : src.vec.viewdir = ![0, 0, 0])
    (ht : tgt.vec.viewdir = ![180, 0, 0]) (sw sh tw th : Nat)
    (h1 : src.vec.imgsz = ![(sw : ℤ), (sh : ℤ)]) (h2 : tgt.vec.imgsz = ![(tw : ℤ), (th : ℤ)])
    (hw : 2 ≤ sw) (hh : 2 ≤ sh) (junk : ℝ) (a : List (List ℝ)) (ha : Shape sh sw a) :
    ∃ out, projectCam src tgt .nearest false junk (.gray a) = .ok out ∧
      ∀ r < th, ∀ c < tw, at3 out 0 r c = some (some (pixel a (sh - 1) (sw - 1))) := by
  have hv : ∀ p : ℝ × ℝ, view src tgt p = none := by
    intro p
    unfold view
    rw [Option.map_eq_none_iff, directions_nan_iff]
    unfold Camera.infront
    simp only [if_true, not_lt, Camera.uvToXyz, Camera.xyToXyz, hs, ht, ne_eq, not_true, if_false]
    generalize tgt.uvToXy ![p.1, p.2] = xy
    have d1 : deg2rad 180 = Real.pi := by unfold deg2rad; ring
    have d0 : deg2rad 0 = 0 := by unfold deg2rad; ring
    simp [Fin.sum_univ_three, rotR, d0, d1]
  unfold projectCam
  rw [hx]
  simp only [decide_true]
  have hsz : (src.vec.imgsz 0).toNat = sw ∧ (src.vec.imgsz 1).toNat = sh ∧ (tgt.vec.imgsz 0).toNat = tw ∧
      (tgt.vec.imgsz 1).toNat = th := by rw [h1, h2]; simp
  rw [hsz.1, hsz.2.1, hsz.2.2.1, hsz.2.2.2]
  obtain ⟨out, ho, -, -⟩ := (project_raises true .nearest (view src tgt) tw th sw sh false junk (.gray a)).2 rfl (by simp)
    (by intro b hb; simp only [Pixels.list, List.mem_singleton] at hb; rw [hb]; exact ha)
  refine ⟨out, ho, fun r hr c hc => ?_⟩
  exact project_behind_nearest_violated (view src tgt) tw th sw sh hw hh junk (.gray a) out ho 0 a rfl r c hr hc (hv _)

/-! ### Examples -/

/-- Half a pixel to the right: the last column is outside; integers are truncated. -/
example : project true .linear (fun p : ℚ × ℚ => some (p.1 + 1 / 2, p.2)) 3 2 3 2 false 0 (.gray [[1, 2, 5], [3, 4, 6]]) =
    .ok [[[some (3 / 2), some (7 / 2), none], [some (7 / 2), some 5, none]]] := by decide +kernel
example : project true .linear (fun p : ℚ × ℚ => some (p.1 + 1 / 2, p.2)) 3 2 3 2 true 0 (.gray [[1, 2, 5], [3, 4, 6]]) =
    .ok [[[some 1, some 3, some 0], [some 3, some 5, some 0]]] := by decide +kernel
example : project true .nearest (fun _ : ℚ × ℚ => none) 1 2 3 2 false 0 (.gray [[1, 2, 5], [3, 4, 6]]) =
    .ok [[[some 6], [some 6]]] := by decide +kernel
example : project false .nearest (fun p : ℚ × ℚ => some p) 1 2 3 2 false 0 (.gray [[1, 2, 5], [3, 4, 6]]) =
    .error .valueError := by decide +kernel

/-- Truncation in images of integers: to an integer, towards zero, by less than one. -/
theorem truncate_spec (x : K) : (∃ z : ℤ, truncate x = (z : K)) ∧ |truncate x| ≤ |x| ∧ |x - truncate x| < 1 := by
  have h1 := Int.floor_le x
  have h2 := Int.lt_floor_add_one x
  have h3 := Int.le_ceil x
  have h4 := Int.ceil_lt_add_one x
  unfold truncate
  split
  · rename_i h
    have h0 : (0 : K) ≤ (⌊x⌋ : K) := by exact_mod_cast Int.floor_nonneg.2 h
    refine ⟨⟨_, rfl⟩, ?_, ?_⟩
    · rw [abs_of_nonneg h0, abs_of_nonneg h]; exact h1
    · rw [abs_of_nonneg (by linarith)]; linarith
  · rename_i h
    have h0 : (⌈x⌉ : K) ≤ 0 := by
      have : ⌈x⌉ ≤ 0 := Int.ceil_le.2 (by push_cast; linarith)
      exact_mod_cast this
    refine ⟨⟨_, rfl⟩, ?_, ?_⟩
    · rw [abs_of_nonpos h0, abs_of_nonpos (by linarith)]; linarith
    · rw [abs_of_nonpos (by linarith)]; linarith

end Glimpse.ImgProject
