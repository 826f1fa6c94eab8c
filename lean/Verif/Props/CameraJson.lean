import Verif.Model.CameraJson
import Verif.Lemmas.ExceptList
import Mathlib.Tactic.Linarith
import Mathlib.Tactic.FieldSimp
import Mathlib.Tactic.Ring

/-!
C89: what a camera is made of, and when it is refused. C90: cameras written to JSON and read again.
-/
set_option autoImplicit false
set_option linter.unusedSimpArgs false
set_option linter.unusedSectionVars false

namespace Glimpse.CamJson

/-! ### Specification -/

/-- `r` has `n` elements: those given, then zeros. -/
def Padded (n : Nat) (given r : List Num) : Prop :=
  r.length = n ∧ ∀ i < n, r[i]? = if i < given.length then given[i]? else some (some 0)

/-- `r` has two elements: the first two given, or the only one twice. -/
def Both (given r : List Num) : Prop :=
  (∃ a, given = [a] ∧ r = [a, a]) ∨ ∃ a b l, given = a :: b :: l ∧ r = [a, b]

/-- An integer. -/
def IsInt : Num → Prop
  | none => False
  | some x => ∃ n : ℤ, x = n

/-- Arguments that the documentation refuses: lengths in millimeters without a sensor size, the same length in pixels and in
millimeters, no focal length, an image size that is not of integers. -/
def Refused (a : Args) : Prop :=
  ((a.fmm ≠ none ∨ a.cmm ≠ none) ∧ a.sensorsz = none) ∨ (a.f ≠ none ∧ a.fmm ≠ none) ∨ (a.c ≠ none ∧ a.cmm ≠ none) ∨
    (a.f = none ∧ a.fmm = none) ∨ ∃ l, a.imgsz = some l ∧ ∃ x ∈ l.take 2, ¬IsInt x

/-- No list is empty where the code repeats elements. -/
def NonEmpty (a : Args) : Prop :=
  a.imgsz ≠ some [] ∧ a.f ≠ some [] ∧ a.fmm ≠ some [] ∧ a.cmm ≠ some [] ∧ a.sensorsz ≠ some []

/-! ### Arguments -/

private def pad (n : Nat) (l : List Num) : List Num := l.take n ++ List.replicate (n - l.length) (some 0)

private theorem pad_length (n : Nat) (l : List Num) : (pad n l).length = n := by
  unfold pad; simp; omega

private theorem pad_spec (n : Nat) (l : List Num) : Padded n l (pad n l) := by
  refine ⟨pad_length n l, fun i hi => ?_⟩
  unfold pad
  split
  · rw [List.getElem?_append_left (by simp; omega), List.getElem?_take_of_lt hi]
  · rw [List.getElem?_append_right (by simp; omega), List.getElem?_replicate]
    rw [if_pos (by simp; omega)]

private theorem pad_self (n : Nat) (l : List Num) (h : l.length = n) : pad n l = l := by
  unfold pad; subst h; simp

private def two : List Num → List Num
  | [] => []
  | [a] => [a, a]
  | a :: b :: _ => [a, b]

private theorem two_spec (l : List Num) (h : l ≠ []) : Both l (two l) := by
  match l, h with
  | [a], _ => exact Or.inl ⟨a, rfl, rfl⟩
  | a :: b :: l, _ => exact Or.inr ⟨a, b, l, rfl, rfl⟩

private theorem two_length (l : List Num) (h : l ≠ []) : (two l).length = 2 := by
  match l, h with
  | [a], _ => rfl
  | a :: b :: l, _ => rfl

private theorem two_self (l : List Num) (h : l.length = 2) : two l = l := by
  match l, h with
  | [a, b], _ => rfl

private theorem two_two (l : List Num) : two (two l) = two l := by
  match l with
  | [] => rfl
  | [a] => rfl
  | a :: b :: l => rfl

private theorem fmt_pad (n : Nat) (hn : 0 < n) (l : List Num) : fmt (some l) n (some (some 0)) = .ok (some (pad n l)) := by
  unfold fmt formatList pad
  obtain ⟨m, rfl⟩ := Nat.exists_eq_succ_of_ne_zero hn.ne'
  simp only [bind, Except.bind, pure, Except.pure]
  split
  · simp [Except.map]; omega
  · split
    · rw [List.take_of_length_le (by omega)]; rfl
    · rw [List.take_of_length_le (by omega), show m.succ - l.length = 0 by omega]; simp [Except.map]

private theorem fmt_two (l : List Num) : fmt (some l) 2 none = .ok (some (two l)) := by
  match l with
  | [] => rfl
  | [a] =>
    unfold fmt formatList
    simp only [bind, Except.bind, pure, Except.pure, List.length_singleton]
    rfl
  | [a, b] => rfl
  | a :: b :: c :: l =>
    unfold fmt formatList
    simp only [bind, Except.bind, pure, Except.pure]
    rw [if_pos (by simp)]
    rfl

private theorem assign_len (n : Nat) (l : List Num) (h : l.length = n) : assign n (some l) = .ok l := by
  unfold assign; simp only; rw [if_pos h]

private theorem setPadded_eq (n : Nat) (hn : 0 < n) (l : List Num) : setPadded n (some l) = .ok (pad n l) := by
  unfold setPadded
  rw [fmt_pad n hn l]
  exact assign_len n _ (pad_length n l)

private theorem setPadded_none (n : Nat) : setPadded n none = .ok (List.replicate n none) := rfl

private theorem setPadded_ok (n : Nat) (hn : 0 < n) (x : Arg) : ∃ r, setPadded n x = .ok r := by
  cases x with
  | none => exact ⟨_, rfl⟩
  | some l => exact ⟨_, setPadded_eq n hn l⟩

private theorem setF_eq (l : List Num) (h : l ≠ []) : setF (some l) = .ok (two l) := by
  unfold setF
  rw [fmt_two]
  exact assign_len 2 _ (two_length l h)

private theorem setF_nil : setF (some []) = .error .valueError := rfl

private theorem truncInt_int (n : ℤ) : truncInt (n : ℚ) = n := by
  unfold truncInt; split <;> simp

private theorem isInt_iff (x : ℚ) : IsInt (some x) ↔ (truncInt x : ℚ) = x := by
  constructor
  · rintro ⟨n, rfl⟩
    rw [truncInt_int]
  · intro h
    exact ⟨truncInt x, h.symm⟩

private theorem asInts_ok (l : List Num) (h : ∀ x ∈ l, IsInt x) : asInts l = .ok l := by
  induction l with
  | nil => rfl
  | cons x l ih =>
    cases x with
    | none => exact absurd (h none List.mem_cons_self) (by simp [IsInt])
    | some x =>
      unfold asInts
      rw [ih fun y hy => h y (List.mem_cons_of_mem _ hy)]
      have := (isInt_iff x).1 (h _ List.mem_cons_self)
      simp only [bind, Except.bind, this]

private theorem asInts_inv (l r : List Num) (h : asInts l = .ok r) (he : r = l) : ∀ x ∈ l, IsInt x := by
  induction l generalizing r with
  | nil => intro x hx; cases hx
  | cons x l ih =>
    cases x with
    | none => cases h
    | some x =>
      unfold asInts at h
      cases e : asInts l with
      | error er => rw [e] at h; cases h
      | ok r' =>
        rw [e] at h
        simp only [bind, Except.bind, Except.ok.injEq] at h
        rw [he] at h
        simp only [List.cons.injEq, Option.some.injEq] at h
        intro y hy
        rcases List.mem_cons.1 hy with rfl | hy
        · exact (isInt_iff x).2 h.1
        · exact ih r' e h.2 y hy

private theorem asInts_err (l : List Num) (e : Err) (h : asInts l = .error e) : e = .valueError := by
  induction l with
  | nil => cases h
  | cons x l ih =>
    cases x with
    | none => cases h; rfl
    | some x =>
      unfold asInts at h
      cases e' : asInts l with
      | error er => rw [e'] at h; simp only [bind, Except.bind] at h; cases h; exact ih e'
      | ok r' => rw [e'] at h; cases h

private theorem two_mem (l : List Num) (h : l ≠ []) (x : Num) : x ∈ two l ↔ x ∈ l.take 2 := by
  match l, h with
  | [a], _ => simp [two]
  | a :: b :: l, _ => simp [two]

private theorem setImgsz_ok (l : List Num) (hl : l ≠ []) (h : ∀ x ∈ l.take 2, IsInt x) : setImgsz (some l) = .ok (two l) := by
  unfold setImgsz
  rw [fmt_two]
  simp only [bind, Except.bind]
  rw [asInts_ok _ fun x hx => h x ((two_mem l hl x).1 hx)]
  simp only [ne_eq, not_true, if_false, pure, Except.pure]
  exact assign_len 2 _ (two_length l hl)

private theorem setImgsz_err (l : List Num) (hl : l ≠ []) (h : ∃ x ∈ l.take 2, ¬IsInt x) : setImgsz (some l) = .error .valueError := by
  unfold setImgsz
  rw [fmt_two]
  simp only [bind, Except.bind]
  cases e : asInts (two l) with
  | error er => rw [asInts_err _ _ e]
  | ok r =>
    simp only
    rw [if_pos]
    · rfl
    · intro he
      obtain ⟨x, hx, hn⟩ := h
      exact hn (asInts_inv _ r e he x ((two_mem l hl x).2 hx))

private theorem setImgsz_inv (x : Arg) (r : List Num) (h : setImgsz x = .ok r) (hx : x ≠ none) :
    ∃ l, x = some l ∧ l ≠ [] ∧ (∀ y ∈ l.take 2, IsInt y) ∧ r = two l := by
  cases x with
  | none => exact absurd rfl hx
  | some l =>
    by_cases hl : l = []
    · subst hl; cases h
    · by_cases hi : ∀ y ∈ l.take 2, IsInt y
      · rw [setImgsz_ok l hl hi] at h
        cases h
        exact ⟨l, rfl, hl, hi, rfl⟩
      · push Not at hi
        rw [setImgsz_err l hl hi] at h
        cases h

private theorem imgsz_len (x : Arg) (r : List Num) (h : setImgsz x = .ok r) : r.length = 2 := by
  by_cases hx : x = none
  · subst hx
    cases h; rfl
  · obtain ⟨l, _, hl, _, rfl⟩ := setImgsz_inv x r h hx
    exact two_length l hl

private theorem argError_iff (a : Args) : argError a = true ↔
    ((a.fmm ≠ none ∨ a.cmm ≠ none) ∧ a.sensorsz = none) ∨ (a.f ≠ none ∧ a.fmm ≠ none) ∨ (a.c ≠ none ∧ a.cmm ≠ none) := by
  unfold argError
  simp only [Bool.or_eq_true, Bool.and_eq_true, Option.isSome_iff_ne_none, Option.isNone_iff_eq_none]
  tauto

/-- C89. Of arguments without empty lists, `Camera` refuses exactly those the documentation says, with ValueError. -/
theorem camera_refused_iff (a : Args) (hne : NonEmpty a) :
    (Refused a → construct a = .error .valueError) ∧ (¬Refused a → ∃ cam, construct a = .ok cam) := by
  obtain ⟨h1, h2, h3, h4, h5⟩ := hne
  obtain ⟨xyz, hxyz⟩ := setPadded_ok 3 (by norm_num) a.xyz
  obtain ⟨vd, hvd⟩ := setPadded_ok 3 (by norm_num) a.viewdir
  obtain ⟨k, hk⟩ := setPadded_ok 6 (by norm_num) a.k
  obtain ⟨p, hp⟩ := setPadded_ok 2 (by norm_num) a.p
  by_cases he : argError a = true
  · constructor
    · intro _
      unfold construct
      simp only [he, if_true, bind, Except.bind]; rfl
    · intro hr
      rcases (argError_iff a).1 he with h | h | h
      · exact absurd (Or.inl h) hr
      · exact absurd (Or.inr (Or.inl h)) hr
      · exact absurd (Or.inr (Or.inr (Or.inl h))) hr
  have hcon : construct a = (do
      let imgsz ← setImgsz a.imgsz
      let sensor ← setSensor a.sensorsz
      let f ← setF (← focal a imgsz sensor)
      let c ← setPadded 2 (← center a imgsz sensor)
      .ok ⟨xyz, vd, imgsz, f, c, k, p, sensor, setCorrection a.correction⟩) := by
    unfold construct
    simp only [he, if_false, bind, Except.bind, pure, Except.pure, hxyz, hvd, hk, hp, Bool.false_eq_true]
  have hsens : ∃ s, setSensor a.sensorsz = .ok s ∧ (s = none ↔ a.sensorsz = none) ∧ ∀ l, s = some l → l.length = 2 := by
    unfold setSensor
    cases hs : a.sensorsz with
    | none => exact ⟨none, rfl, by simp, by simp⟩
    | some l =>
      refine ⟨some (two l), fmt_two l, by simp, ?_⟩
      intro l' hl'
      cases hl'
      exact two_length l fun h => h5 (by rw [hs, h])
  obtain ⟨s, hs, hs0, hs2⟩ := hsens
  have notE := mt (argError_iff a).2 he
  have hbad : (∃ l, a.imgsz = some l ∧ ∃ x ∈ l.take 2, ¬IsInt x) → setImgsz a.imgsz = .error .valueError := by
    rintro ⟨l, hl, hx⟩
    rw [hl]
    exact setImgsz_err l (fun h => h1 (by rw [hl, h])) hx
  have hgood : (¬∃ l, a.imgsz = some l ∧ ∃ x ∈ l.take 2, ¬IsInt x) → ∃ r, setImgsz a.imgsz = .ok r ∧ r.length = 2 := by
    intro h
    cases hi : a.imgsz with
    | none => exact ⟨_, rfl, rfl⟩
    | some l =>
      have hl : l ≠ [] := fun h => h1 (by rw [hi, h])
      refine ⟨two l, setImgsz_ok l hl ?_, two_length l hl⟩
      intro x hx
      by_contra hn
      exact h ⟨l, hi, x, hx, hn⟩
  constructor
  · intro hr
    rw [hcon]
    by_cases hb : ∃ l, a.imgsz = some l ∧ ∃ x ∈ l.take 2, ¬IsInt x
    · rw [hbad hb]; rfl
    · obtain ⟨r, hr1, -⟩ := hgood hb
      have hf : a.f = none ∧ a.fmm = none := by
        rcases hr with hr | hr | hr | hr | hr
        · exact absurd (Or.inl hr) notE
        · exact absurd (Or.inr (Or.inl hr)) notE
        · exact absurd (Or.inr (Or.inr hr)) notE
        · exact hr
        · exact absurd hr hb
      simp only [hr1, bind, Except.bind, hs]
      unfold focal
      rw [hf.1, hf.2]
  · intro hr
    rw [hcon]
    obtain ⟨r, hr1, hr2⟩ := hgood (fun h => hr (Or.inr (Or.inr (Or.inr (Or.inr h)))))
    have hpix : ∀ v : List Num, v ≠ [] → (a.sensorsz ≠ none) → ∃ q, toPixels (some (two v)) r s = .ok (some q) ∧ q ≠ [] := by
      intro v hv hsz
      cases hss : s with
      | none => exact absurd (hs0.1 hss) hsz
      | some l =>
        unfold toPixels
        simp only
        have hl2 := hs2 l hss
        have hv2 := two_length v hv
        rw [if_pos ⟨hv2, hr2, hl2⟩]
        refine ⟨_, rfl, ?_⟩
        rw [← List.length_pos_iff]
        simp only [List.length_zipWith, hv2, hr2, hl2]
        norm_num
    have hfoc : ∃ q, focal a r s = .ok (some q) ∧ q ≠ [] := by
      unfold focal
      cases hm : a.fmm with
      | some v =>
        simp only [fmt_two, bind, Except.bind]
        refine hpix v (fun h => h3 (by rw [hm, h])) ?_
        intro hsz; apply notE; left; exact ⟨Or.inl (by rw [hm]; simp), hsz⟩
      | none =>
        cases hff : a.f with
        | none => exact absurd (Or.inr (Or.inr (Or.inr (Or.inl ⟨hff, hm⟩)))) hr
        | some f => exact ⟨f, rfl, fun h => h2 (by rw [hff, h])⟩
    have hcen : ∃ q, center a r s = .ok (some q) := by
      unfold center
      cases hm : a.cmm with
      | some v =>
        simp only [fmt_two, bind, Except.bind]
        obtain ⟨q, hq, -⟩ := hpix v (fun h => h4 (by rw [hm, h])) (by
          intro hsz; apply notE; left; exact ⟨Or.inr (by rw [hm]; simp), hsz⟩)
        exact ⟨q, hq⟩
      | none => exact ⟨_, rfl⟩
    obtain ⟨q, hq, hq0⟩ := hfoc
    obtain ⟨c, hc⟩ := hcen
    simp only [hr1, bind, Except.bind, hs, hq, hc, setF_eq q hq0, setPadded_eq 2 (by norm_num) c]
    exact ⟨_, rfl⟩

/-- The steps of a construction that returned. -/
private theorem construct_inv (a : Args) (cam : Cam) (h : construct a = .ok cam) : argError a = false ∧
    setPadded 3 a.xyz = .ok cam.xyz ∧ setPadded 3 a.viewdir = .ok cam.viewdir ∧ setImgsz a.imgsz = .ok cam.imgsz ∧
    setSensor a.sensorsz = .ok cam.sensorsz ∧ (∃ q, focal a cam.imgsz cam.sensorsz = .ok q ∧ setF q = .ok cam.f) ∧
    (∃ q, center a cam.imgsz cam.sensorsz = .ok q ∧ setPadded 2 q = .ok cam.c) ∧ setPadded 6 a.k = .ok cam.k ∧
    setPadded 2 a.p = .ok cam.p ∧ cam.correction = setCorrection a.correction := by
  unfold construct at h
  simp only [bind, Except.bind, pure, Except.pure] at h
  split at h
  · cases h
  · rename_i he
    split at h; · cases h
    split at h; · cases h
    split at h; · cases h
    split at h; · cases h
    split at h; · cases h
    split at h; · cases h
    split at h; · cases h
    split at h; · cases h
    split at h; · cases h
    split at h; · cases h
    cases h
    exact ⟨by simpa using he, by assumption, by assumption, by assumption, by assumption, ⟨_, by assumption, by assumption⟩,
      ⟨_, by assumption, by assumption⟩, by assumption, by assumption, rfl⟩

private theorem padded_of (n : Nat) (hn : 0 < n) (l r : List Num) (h : setPadded n (some l) = .ok r) : Padded n l r := by
  rw [setPadded_eq n hn] at h
  cases h
  exact pad_spec n l

private theorem both_of (l r : List Num) (h : setF (some l) = .ok r) : Both l r := by
  by_cases hl : l = []
  · subst hl; cases h
  · rw [setF_eq l hl] at h
    cases h
    exact two_spec l hl

/-- C89. Attributes given in pixels: elements left out are zero (position, view direction, principal point, distortion) or
repeat the only one given (image size, focal length, sensor size); elements beyond the length of the attribute are ignored. -/
theorem camera_attributes (a : Args) (cam : Cam) (h : construct a = .ok cam) :
    (∀ l, a.xyz = some l → Padded 3 l cam.xyz) ∧ (∀ l, a.viewdir = some l → Padded 3 l cam.viewdir) ∧
    (∀ l, a.k = some l → Padded 6 l cam.k) ∧ (∀ l, a.p = some l → Padded 2 l cam.p) ∧
    (∀ l, a.imgsz = some l → Both l cam.imgsz ∧ ∀ x ∈ cam.imgsz, IsInt x) ∧ (∀ l, a.f = some l → Both l cam.f) ∧
    (∀ l, a.c = some l → Padded 2 l cam.c) ∧ (a.c = none → a.cmm = none → cam.c = [some 0, some 0]) ∧
    (a.sensorsz = none → cam.sensorsz = none) ∧ (∀ l, l ≠ [] → a.sensorsz = some l → ∃ s, cam.sensorsz = some s ∧ Both l s) ∧
    (a.correction = .off → cam.correction = .off) ∧
    (a.correction = .on → cam.correction = .dict (some [some 6378100]) (some [some (13 / 100)])) ∧
    ∀ r n, a.correction = .dict r n → cam.correction = .dict (some (r.getD [some 6378100])) (some (n.getD [some (13 / 100)])) := by
  obtain ⟨h0, h1, h2, h3, h4, ⟨q, h5, h6⟩, ⟨q', h7, h8⟩, h9, h10, h11⟩ := construct_inv a cam h
  have nE := mt (argError_iff a).2 (by rw [h0]; simp)
  refine ⟨?_, ?_, ?_, ?_, ?_, ?_, ?_, ?_, ?_, ?_, ?_, ?_, ?_⟩
  · intro l hl; rw [hl] at h1; exact padded_of 3 (by norm_num) l _ h1
  · intro l hl; rw [hl] at h2; exact padded_of 3 (by norm_num) l _ h2
  · intro l hl; rw [hl] at h9; exact padded_of 6 (by norm_num) l _ h9
  · intro l hl; rw [hl] at h10; exact padded_of 2 (by norm_num) l _ h10
  · intro l hl
    obtain ⟨l', e, hne, hi, hr⟩ := setImgsz_inv _ _ h3 (by rw [hl]; simp)
    rw [hl] at e; cases e
    rw [hr]
    exact ⟨two_spec l hne, fun x hx => hi x ((two_mem l hne x).1 hx)⟩
  · intro l hl
    unfold focal at h5
    have hm : a.fmm = none := by
      by_contra hm
      exact nE (Or.inr (Or.inl ⟨by rw [hl]; simp, hm⟩))
    rw [hm, hl] at h5
    cases h5
    exact both_of l _ h6
  · intro l hl
    unfold center at h7
    have hm : a.cmm = none := by
      by_contra hm
      exact nE (Or.inr (Or.inr ⟨by rw [hl]; simp, hm⟩))
    rw [hm, hl] at h7
    cases h7
    exact padded_of 2 (by norm_num) l _ h8
  · intro hc hm
    unfold center at h7
    rw [hm, hc] at h7
    cases h7
    exact (Except.ok.inj h8).symm
  · intro hs
    rw [hs] at h4
    exact (Except.ok.inj h4).symm
  · intro l hl hs
    rw [hs] at h4
    unfold setSensor at h4
    rw [fmt_two] at h4
    exact ⟨two l, (Except.ok.inj h4).symm, two_spec l hl⟩
  · intro hc; rw [h11, hc]; rfl
  · intro hc; rw [h11, hc]; rfl
  · intro r n hc
    rw [h11, hc]
    cases r <;> cases n <;> rfl

private theorem pair (l : List Num) (h : l.length = 2) : ∃ a b, l = [a, b] := by
  match l, h with
  | [a, b], _ => exact ⟨a, b, rfl⟩

private theorem back (v n s : Num) (hn : ∀ x, n = some x → x ≠ 0) (hs : ∀ x, s = some x → x ≠ 0) (hn' : n ≠ none) (hs' : s ≠ none) :
    numDiv (numMul (numDiv (numMul v n) s) s) n = v := by
  cases n with
  | none => exact absurd rfl hn'
  | some n =>
    cases s with
    | none => exact absurd rfl hs'
    | some s =>
      cases v with
      | none => rfl
      | some v =>
        have h1 := hn n rfl
        have h2 := hs s rfl
        simp only [numDiv, numMul, Option.bind_some, Option.map_some, h1, h2, if_false]
        congr 1
        field_simp

/-- C89. Attributes given in millimeters are converted by the number of pixels per millimeter in each direction, so that the
camera's lengths in millimeters are those given (a single value applies to both directions). -/
theorem camera_millimeters (a : Args) (cam : Cam) (h : construct a = .ok cam) (s : List Num) (hs : cam.sensorsz = some s)
    (hpos : ∀ x ∈ s ++ cam.imgsz, ∃ q : ℚ, x = some q ∧ q ≠ 0) :
    (∀ l, l ≠ [] → a.fmm = some l → ∃ r, cam.fmm = some r ∧ Both l r) ∧
    (∀ l, l ≠ [] → a.cmm = some l → ∃ r, cam.cmm = some r ∧ Both l r) := by
  obtain ⟨h0, h1, h2, h3, h4, ⟨q, h5, h6⟩, ⟨q', h7, h8⟩, h9, h10, h11⟩ := construct_inv a cam h
  have hi := imgsz_len _ _ h3
  obtain ⟨n0, n1, hn⟩ := pair _ hi
  have key : ∀ l : List Num, l ≠ [] → ∀ q, toPixels (some (two l)) cam.imgsz (some s) = .ok q →
      ∃ p, q = some p ∧ p.length = 2 ∧ List.zipWith numDiv (List.zipWith numMul p s) cam.imgsz = two l := by
    intro l hl q hq
    unfold toPixels at hq
    simp only at hq
    split at hq
    · rename_i hlen
      cases hq
      obtain ⟨s0, s1, rfl⟩ := pair _ hlen.2.2
      obtain ⟨v0, v1, hv⟩ := pair _ hlen.1
      rw [hn] at hpos
      have f := fun x (hx : x ∈ [s0, s1] ++ [n0, n1]) => hpos x hx
      have g : ∀ x ∈ [s0, s1] ++ [n0, n1], (∀ y, x = some y → y ≠ 0) ∧ x ≠ none := by
        intro x hx
        obtain ⟨y, rfl, hy⟩ := f x hx
        exact ⟨fun z hz => by cases hz; exact hy, by simp⟩
      refine ⟨_, rfl, by rw [hn, hv]; rfl, ?_⟩
      rw [hn, hv]
      simp only [List.zipWith_cons_cons, List.zipWith_nil_left]
      rw [back v0 n0 s0 (g n0 (by simp)).1 (g s0 (by simp)).1 (g n0 (by simp)).2 (g s0 (by simp)).2,
        back v1 n1 s1 (g n1 (by simp)).1 (g s1 (by simp)).1 (g n1 (by simp)).2 (g s1 (by simp)).2]
    · cases hq
  constructor
  · intro l hl hm
    unfold focal at h5
    rw [hm] at h5
    simp only [fmt_two, bind, Except.bind, hs] at h5
    obtain ⟨p, rfl, hp, hk⟩ := key l hl q h5
    rw [setF_eq p (by rintro rfl; simp at hp), two_self p hp] at h6
    have hp' : p = cam.f := Except.ok.inj h6
    refine ⟨two l, ?_, two_spec l hl⟩
    unfold Cam.fmm
    rw [hs, ← hp']
    simp only [Option.map_some, hk]
  · intro l hl hm
    unfold center at h7
    rw [hm] at h7
    simp only [fmt_two, bind, Except.bind, hs] at h7
    obtain ⟨p, rfl, hp, hk⟩ := key l hl q' h7
    rw [setPadded_eq 2 (by norm_num), pad_self 2 p hp] at h8
    have hp' : p = cam.c := Except.ok.inj h8
    refine ⟨two l, ?_, two_spec l hl⟩
    unfold Cam.cmm
    rw [hs, ← hp']
    simp only [Option.map_some, hk]

/-- C89 fails: a single principal point offset means different things. In pixels, or in millimeters when set later, it is the
offset in x and the one in y is zero; in millimeters when the camera is made it is the offset in both directions. -/
theorem camera_cmm_violated : ∃ (made : Cam) (later : Cam),
    construct { Args.default with imgsz := some [some 10], f := some [some 10], sensorsz := some [some 5], cmm := some [some 1] } = .ok made ∧
    made.c = [some 2, some 2] ∧ made.setCmm (some [some 1]) = .ok later ∧ later.c = [some 2, some 0] := by
  refine ⟨⟨[some 0, some 0, some 0], [some 0, some 0, some 0], [some 10, some 10], [some 10, some 10], [some 2, some 2],
    List.replicate 6 (some 0), [some 0, some 0], some [some 5, some 5], .off⟩, ⟨[some 0, some 0, some 0], [some 0, some 0, some 0],
    [some 10, some 10], [some 10, some 10], [some 2, some 0],
    List.replicate 6 (some 0), [some 0, some 0], some [some 5, some 5], .off⟩, ?_, rfl, ?_, rfl⟩ <;> decide +kernel

/-- Non-vacuity: a camera with lengths in millimeters, one number for both directions of the image. -/
example : construct { Args.default with imgsz := some [some 400, some 300], fmm := some [some 20], sensorsz := some [some 24, some 16], xyz := some [some 1, some 2] }
    = .ok ⟨[some 1, some 2, some 0], [some 0, some 0, some 0], [some 400, some 300], [some (1000 / 3), some 375], [some 0, some 0],
        List.replicate 6 (some 0), [some 0, some 0], some [some 24, some 16], .off⟩ := by decide +kernel

example : construct { Args.default with imgsz := some [some (3 / 2)], f := some [some 1] } = .error .valueError := by decide +kernel

/-! ### JSON -/

/-- A camera as made by `Camera`, with numbers in all elements: the lengths of the attributes and an image size of
integers. -/
structure Complete (cam : Cam) : Prop where
  xyz : cam.xyz.length = 3
  viewdir : cam.viewdir.length = 3
  imgsz : cam.imgsz.length = 2
  f : cam.f.length = 2
  c : cam.c.length = 2
  k : cam.k.length = 6
  p : cam.p.length = 2
  sensorsz : ∀ s, cam.sensorsz = some s → s.length = 2 ∧ none ∉ s
  numbers : ∀ l ∈ [cam.xyz, cam.viewdir, cam.imgsz, cam.f, cam.c, cam.k, cam.p], none ∉ l
  ints : ∀ x ∈ cam.imgsz, IsInt x

/-- The camera with only the attributes in a list; the others have their default values. -/
def onlyAttributes (cam : Cam) (attributes : List String) : Cam :=
  { xyz := if "xyz" ∈ attributes then cam.xyz else [some 0, some 0, some 0]
    viewdir := if "viewdir" ∈ attributes then cam.viewdir else [some 0, some 0, some 0]
    imgsz := cam.imgsz
    f := cam.f
    c := if "c" ∈ attributes then cam.c else [some 0, some 0]
    k := if "k" ∈ attributes then cam.k else List.replicate 6 (some 0)
    p := if "p" ∈ attributes then cam.p else [some 0, some 0]
    sensorsz := if "sensorsz" ∈ attributes then cam.sensorsz else none
    correction := .off }

theorem imgsz_attr (cam : Cam) (h : Complete cam) : cam.imgsz.map (fun x => some (truncInt (x.getD 0) : ℚ)) = cam.imgsz := by
  have := h.ints
  have key : ∀ l : List Num, (∀ x ∈ l, IsInt x) → l.map (fun x => some (truncInt (x.getD 0) : ℚ)) = l := by
    intro l
    induction l with
    | nil => intro _; rfl
    | cons x l ih =>
      intro hl
      rw [List.map_cons, ih fun y hy => hl y (List.mem_cons_of_mem _ hy)]
      cases x with
      | none => exact absurd (hl none List.mem_cons_self) (by simp [IsInt])
      | some x =>
        have := (isInt_iff x).1 (hl _ List.mem_cons_self)
        simp [this]
  exact key _ this

/-- The value read back for each attribute. -/
private def valueOf (cam : Cam) (name : String) : Arg :=
  if name = "xyz" then some cam.xyz else if name = "viewdir" then some cam.viewdir else if name = "imgsz" then some cam.imgsz
  else if name = "f" then some cam.f else if name = "c" then some cam.c else if name = "k" then some cam.k
  else if name = "p" then some cam.p else if name = "sensorsz" then cam.sensorsz else if name = "fmm" then cam.fmm
  else cam.cmm

private theorem read_nums (l : List Num) (hl : l ≠ []) (hn : none ∉ l) : readValue (.nums l) = .ok (some l) := by
  show Except.ok (if l.all Option.isNone then none else some l) = _
  rw [if_neg]
  intro h
  obtain ⟨x, hx⟩ := List.exists_mem_of_ne_nil _ hl
  have := List.all_eq_true.1 h x hx
  cases x with
  | none => exact hn hx
  | some x => cases this

private theorem lookup_map (names : List String) (g : String → KwVal) (n : String) :
    (names.map fun k => (k, g k)).lookup n = if n ∈ names then some (g n) else none := by
  induction names with
  | nil => rfl
  | cons k names ih =>
    rw [List.map_cons, List.lookup_cons]
    by_cases h : n = k
    · subst h; simp
    · rw [ih]
      have : (n == k) = false := by simpa using h
      simp [this, h]

/-- Names allowed in the round trip. -/
private def storable : List String := ["xyz", "viewdir", "imgsz", "f", "c", "k", "p", "sensorsz"]

private theorem attr_read (cam : Cam) (h : Complete cam) (name : String) (hn : name ∈ storable) :
    ∃ j, cam.attr name = .ok j ∧ readValue j = .ok (valueOf cam name) := by
  have num : ∀ l ∈ [cam.xyz, cam.viewdir, cam.imgsz, cam.f, cam.c, cam.k, cam.p], l ≠ [] → readValue (.nums l) = .ok (some l) :=
    fun l hl hne => read_nums l hne (h.numbers l hl)
  have len : ∀ (l : List Num) (n : Nat), l.length = n + 1 → l ≠ [] := by rintro _ n hl rfl; simp at hl
  simp only [storable, List.mem_cons, List.not_mem_nil, or_false] at hn
  rcases hn with rfl | rfl | rfl | rfl | rfl | rfl | rfl | rfl
  · exact ⟨_, rfl, num _ (by simp) (len _ _ h.xyz)⟩
  · exact ⟨_, rfl, num _ (by simp) (len _ _ h.viewdir)⟩
  · exact ⟨_, rfl, by rw [imgsz_attr cam h]; exact num _ (by simp) (len _ _ h.imgsz)⟩
  · exact ⟨_, rfl, num _ (by simp) (len _ _ h.f)⟩
  · exact ⟨_, rfl, num _ (by simp) (len _ _ h.c)⟩
  · exact ⟨_, rfl, num _ (by simp) (len _ _ h.k)⟩
  · exact ⟨_, rfl, num _ (by simp) (len _ _ h.p)⟩
  · refine ⟨_, rfl, ?_⟩
    show readValue ((cam.sensorsz.map JVal.nums).getD .null) = .ok cam.sensorsz
    cases hs : cam.sensorsz with
    | none => rfl
    | some s =>
      obtain ⟨s1, s2⟩ := h.sensorsz s hs
      exact read_nums s (len _ _ s1) s2

/-- What is read is what `Camera` is called with. -/
private theorem from_to (cam : Cam) (names : List String) (P : String → Prop) (hP : ∀ n ∈ names, P n)
    (hr : ∀ n, P n → ∃ j, cam.attr n = .ok j ∧ readValue j = .ok (valueOf cam n)) :
    ∃ file, cam.toDict names = .ok file ∧ fromJson file [] = call (names.map fun k => (k, KwVal.vec (valueOf cam k))) := by
  have key : ∃ file, cam.toDict names = .ok file ∧
      (file.mapM fun e => do .ok (e.1, KwVal.vec (← readValue e.2)) : Except Err _) = .ok (names.map fun k => (k, KwVal.vec (valueOf cam k))) := by
    unfold Cam.toDict
    induction names with
    | nil => exact ⟨[], rfl, rfl⟩
    | cons n names ih =>
      obtain ⟨file, h1, h2⟩ := ih fun m hm => hP m (List.mem_cons_of_mem _ hm)
      obtain ⟨j, j1, j2⟩ := hr n (hP n List.mem_cons_self)
      refine ⟨(n, j) :: file, ?_, ?_⟩
      · rw [List.mapM_cons]
        simp only [bind, Except.bind, j1, pure, Except.pure]
        simp only [bind, Except.bind] at h1
        rw [h1]
      · rw [List.mapM_cons]
        simp only [bind, Except.bind, j2, pure, Except.pure]
        simp only [bind, Except.bind] at h2
        rw [h2]; rfl
  obtain ⟨file, h1, h2⟩ := key
  refine ⟨file, h1, ?_⟩
  unfold fromJson
  rw [h2]
  rfl

private theorem call_names (names : List String) (g : String → KwVal) (hsub : ∀ n ∈ names, n ∈ argNames) (hi : "imgsz" ∈ names) :
    call (names.map fun k => (k, g k)) =
      construct ⟨vecArg (names.map fun k => (k, g k)) "imgsz" none, vecArg (names.map fun k => (k, g k)) "f" none,
        vecArg (names.map fun k => (k, g k)) "c" none, vecArg (names.map fun k => (k, g k)) "sensorsz" none,
        vecArg (names.map fun k => (k, g k)) "fmm" none, vecArg (names.map fun k => (k, g k)) "cmm" none,
        vecArg (names.map fun k => (k, g k)) "k" Args.default.k, vecArg (names.map fun k => (k, g k)) "p" Args.default.p,
        vecArg (names.map fun k => (k, g k)) "xyz" Args.default.xyz, vecArg (names.map fun k => (k, g k)) "viewdir" Args.default.viewdir,
        corrArg (names.map fun k => (k, g k))⟩ := by
  unfold call
  rw [if_neg]
  rw [Bool.or_eq_true]
  rintro (h | h)
  · obtain ⟨x, hx, hx'⟩ := List.any_eq_true.1 h
    obtain ⟨k, hk, rfl⟩ := List.mem_map.1 hx
    have := hsub k hk
    simp [this] at hx'
  · rw [lookup_map, if_pos hi] at h
    cases h

private theorem vecArg_names (names : List String) (g : String → Arg) (n : String) (d : Arg) :
    vecArg (names.map fun k => (k, KwVal.vec (g k))) n d = if n ∈ names then g n else d := by
  unfold vecArg
  rw [lookup_map names (fun k => KwVal.vec (g k))]
  by_cases h : n ∈ names <;> simp [h]

/-- C90. A camera written to JSON with any list of attributes (among the default ones and the sensor size) that has the image
size and the focal length, and read again, has the same values of these attributes, and default values of the others. -/
theorem json_roundtrip_partial (cam : Cam) (h : Complete cam) (attributes : List String)
    (hsub : ∀ a ∈ attributes, a ∈ ["xyz", "viewdir", "imgsz", "f", "c", "k", "p", "sensorsz"])
    (hi : "imgsz" ∈ attributes) (hf : "f" ∈ attributes) :
    ∃ file, cam.toDict attributes = .ok file ∧ fromJson file [] = .ok (onlyAttributes cam attributes) := by
  obtain ⟨file, h1, h2⟩ := from_to cam attributes (fun n => n ∈ storable) hsub (attr_read cam h)
  refine ⟨file, h1, ?_⟩
  rw [h2, call_names attributes _ (fun n hn => by
    have := hsub n hn
    simp only [List.mem_cons, List.not_mem_nil, or_false] at this
    rcases this with rfl | rfl | rfl | rfl | rfl | rfl | rfl | rfl <;> decide) hi]
  have hcorr : corrArg (attributes.map fun k => (k, KwVal.vec (valueOf cam k))) = .off := by
    unfold corrArg
    rw [lookup_map attributes (fun k => KwVal.vec (valueOf cam k)), if_neg]
    intro hc
    have := hsub _ hc
    revert this; decide
  have hmm : "fmm" ∉ attributes ∧ "cmm" ∉ attributes := by
    constructor <;> intro hc <;> have := hsub _ hc <;> revert this <;> decide
  rw [hcorr]
  simp only [vecArg_names, hi, hf, hmm.1, hmm.2, if_true, if_false]
  have v : ∀ n, valueOf cam n = _ := fun n => rfl
  simp only [show valueOf cam "imgsz" = some cam.imgsz from rfl, show valueOf cam "f" = some cam.f from rfl,
    show valueOf cam "c" = some cam.c from rfl, show valueOf cam "sensorsz" = cam.sensorsz from rfl,
    show valueOf cam "k" = some cam.k from rfl, show valueOf cam "p" = some cam.p from rfl,
    show valueOf cam "xyz" = some cam.xyz from rfl, show valueOf cam "viewdir" = some cam.viewdir from rfl]
  have hfne : cam.f ≠ [] := by intro hh; have := h.f; rw [hh] at this; simp at this
  have hine : cam.imgsz ≠ [] := by intro hh; have := h.imgsz; rw [hh] at this; simp at this
  have hS : setSensor (if "sensorsz" ∈ attributes then cam.sensorsz else none) = .ok (if "sensorsz" ∈ attributes then cam.sensorsz else none) := by
    unfold setSensor
    split
    · cases hs : cam.sensorsz with
      | none => rfl
      | some s => rw [fmt_two, two_self s (h.sensorsz s hs).1]
    · rfl
  have hP : ∀ (b : Prop) [Decidable b] (n : Nat) (l : List Num), 0 < n → l.length = n →
      setPadded n (if b then some l else some (List.replicate n (some 0))) = .ok (if b then l else List.replicate n (some 0)) := by
    intro b _ n l hn hl
    split
    · rw [setPadded_eq n hn, pad_self n l hl]
    · rw [setPadded_eq n hn, pad_self n _ (by simp)]
  have hI : setImgsz (some cam.imgsz) = .ok cam.imgsz := by
    rw [setImgsz_ok _ hine, two_self _ h.imgsz]
    rw [List.take_of_length_le (by rw [h.imgsz])]
    exact h.ints
  have hF : setF (some cam.f) = .ok cam.f := by rw [setF_eq _ hfne, two_self _ h.f]
  unfold construct
  have hnoerr : argError ⟨some cam.imgsz, some cam.f, if "c" ∈ attributes then some cam.c else none, if "sensorsz" ∈ attributes then cam.sensorsz else none,
      none, none, if "k" ∈ attributes then some cam.k else Args.default.k, if "p" ∈ attributes then some cam.p else Args.default.p,
      if "xyz" ∈ attributes then some cam.xyz else Args.default.xyz, if "viewdir" ∈ attributes then some cam.viewdir else Args.default.viewdir, CorrArg.off⟩ = false := by
    simp [argError]
  have hC : setPadded 2 (some ((if "c" ∈ attributes then some cam.c else none).getD (List.replicate 2 (some 0)))) =
      .ok (if "c" ∈ attributes then cam.c else List.replicate 2 (some 0)) := by
    split
    · rw [Option.getD_some, setPadded_eq 2 (by norm_num), pad_self 2 _ h.c]
    · rfl
  simp only [hnoerr, Bool.false_eq_true, if_false, bind, Except.bind, pure, Except.pure, hI, hS, focal, hF, center, hC]
  rw [show Args.default.k = some (List.replicate 6 (some 0)) from rfl, show Args.default.p = some (List.replicate 2 (some 0)) from rfl,
    show Args.default.xyz = some (List.replicate 3 (some 0)) from rfl, show Args.default.viewdir = some (List.replicate 3 (some 0)) from rfl]
  simp only [hP _ 3 _ (by norm_num) h.xyz, hP _ 3 _ (by norm_num) h.viewdir, hP _ 6 _ (by norm_num) h.k, hP _ 2 _ (by norm_num) h.p]
  rfl

/-- C90. In particular with the default attributes everything is restored but the sensor size and the correction. -/
theorem json_roundtrip_default (cam : Cam) (h : Complete cam) :
    ∃ file, cam.toDict defaultAttributes = .ok file ∧ fromJson file [] = .ok { cam with sensorsz := none, correction := .off } := by
  obtain ⟨file, h1, h2⟩ := json_roundtrip_partial cam h defaultAttributes (by decide) (by decide) (by decide)
  refine ⟨file, h1, ?_⟩
  rw [h2]
  rfl

/-- C90 fails: a camera with elevation corrections cannot be written with them and read again. -/
theorem json_correction_violated (cam : Cam) (h : Complete cam) (r n : Arg) (hc : cam.correction = .dict r n) :
    ∃ file, cam.toDict (defaultAttributes ++ ["correction"]) = .ok file ∧ fromJson file [] = .error .typeError := by
  have len : ∀ (l : List Num) (n : Nat), l.length = n + 1 → l ≠ [] := by rintro _ n hl rfl; simp at hl
  have num : ∀ l ∈ [cam.xyz, cam.viewdir, cam.imgsz, cam.f, cam.c, cam.k, cam.p], l ≠ [] → readValue (.nums l) = .ok (some l) :=
    fun l hl hne => read_nums l hne (h.numbers l hl)
  have hcorr : cam.attr "correction" = .ok .dict := by
    show Except.ok (match cam.correction with | .off => JVal.bool false | .dict _ _ => .dict | .other x => .nums x) = _
    rw [hc]
  refine ⟨[("xyz", .nums cam.xyz), ("viewdir", .nums cam.viewdir), ("imgsz", .nums cam.imgsz), ("f", .nums cam.f), ("c", .nums cam.c),
    ("k", .nums cam.k), ("p", .nums cam.p), ("correction", .dict)], ?_, ?_⟩
  · unfold Cam.toDict defaultAttributes
    simp only [List.cons_append, List.nil_append, List.mapM_cons, List.mapM_nil, bind, Except.bind, pure, Except.pure, hcorr]
    have hi : cam.attr "imgsz" = .ok (.nums cam.imgsz) := by
      show Except.ok (JVal.nums (cam.imgsz.map fun x => some (truncInt (x.getD 0) : ℚ))) = _
      rw [imgsz_attr cam h]
    simp only [hi, show cam.attr "xyz" = .ok (.nums cam.xyz) from rfl, show cam.attr "viewdir" = .ok (.nums cam.viewdir) from rfl,
      show cam.attr "f" = .ok (.nums cam.f) from rfl, show cam.attr "c" = .ok (.nums cam.c) from rfl,
      show cam.attr "k" = .ok (.nums cam.k) from rfl, show cam.attr "p" = .ok (.nums cam.p) from rfl]
  · unfold fromJson
    simp only [List.mapM_cons, List.mapM_nil, bind, Except.bind, pure, Except.pure, num cam.xyz (by simp) (len _ _ h.xyz),
      num cam.viewdir (by simp) (len _ _ h.viewdir), num cam.imgsz (by simp) (len _ _ h.imgsz), num cam.f (by simp) (len _ _ h.f),
      num cam.c (by simp) (len _ _ h.c), num cam.k (by simp) (len _ _ h.k), num cam.p (by simp) (len _ _ h.p)]
    rfl

/-- C90. Keyword arguments override what is in the file. -/
theorem json_override (file : List (String × JVal)) (kw : List (String × KwVal)) (cam : Cam) (h : fromJson file kw = .ok cam) :
    (∀ l, kw.lookup "xyz" = some (.vec (some l)) → Padded 3 l cam.xyz) ∧
    (∀ l, kw.lookup "viewdir" = some (.vec (some l)) → Padded 3 l cam.viewdir) ∧
    (∀ l, kw.lookup "f" = some (.vec (some l)) → Both l cam.f) ∧ (∀ l, kw.lookup "c" = some (.vec (some l)) → Padded 2 l cam.c) ∧
    (∀ l, kw.lookup "k" = some (.vec (some l)) → Padded 6 l cam.k) ∧ (∀ l, kw.lookup "p" = some (.vec (some l)) → Padded 2 l cam.p) ∧
    (∀ l, kw.lookup "imgsz" = some (.vec (some l)) → Both l cam.imgsz) ∧
    (kw.lookup "correction" = some (.corr .on) → cam.correction = .dict (some [some 6378100]) (some [some (13 / 100)])) := by
  unfold fromJson at h
  simp only [bind, Except.bind] at h
  split at h
  · cases h
  rename_i args _
  unfold call at h
  split at h
  · cases h
  have hl : ∀ n v, kw.lookup n = some v → (kw ++ args).lookup n = some v := by
    intro n v hv
    rw [List.lookup_append, hv]; rfl
  have hv : ∀ n l d, kw.lookup n = some (.vec (some l)) → vecArg (kw ++ args) n d = some l := by
    intro n l d hn
    unfold vecArg
    rw [hl n _ hn]
  obtain ⟨a1, a2, a3, a4, a5, a6, a7, -, -, -, -, a8, -⟩ := camera_attributes _ cam h
  refine ⟨fun l hh => a1 l (hv _ _ _ hh), fun l hh => a2 l (hv _ _ _ hh), fun l hh => a6 l (hv _ _ _ hh), fun l hh => a7 l (hv _ _ _ hh),
    fun l hh => a3 l (hv _ _ _ hh), fun l hh => a4 l (hv _ _ _ hh), fun l hh => (a5 l (hv _ _ _ hh)).1, fun hh => a8 ?_⟩
  show corrArg (kw ++ args) = .on
  unfold corrArg
  rw [hl _ _ hh]

/-- Non-vacuity. -/
private def demo : Cam := ⟨[some 1, some 2, some 3], [some 4, some 5, some 6], [some 8, some 6], [some (79 / 10), some (61 / 10)], [some 0, some 1],
  [some (1 / 10), some 0, some 0, some 0, some 0, some 0], [some 0, some 0], some [some 4, some 3], .dict (some [some 6378100]) (some [some (13 / 100)])⟩

private theorem demo_complete : Complete demo := by
  refine ⟨rfl, rfl, rfl, rfl, rfl, rfl, rfl, ?_, by decide, ?_⟩
  · intro s hs; cases hs; exact ⟨rfl, by decide⟩
  · intro x hx
    simp [demo] at hx
    rcases hx with rfl | rfl
    · exact ⟨8, by norm_num⟩
    · exact ⟨6, by norm_num⟩

example : ∃ file, demo.toDict ["f", "imgsz", "sensorsz"] = .ok file ∧ fromJson file [] = .ok (onlyAttributes demo ["f", "imgsz", "sensorsz"]) :=
  json_roundtrip_partial demo demo_complete _ (by decide) (by decide) (by decide)

example : ∃ file cam, demo.toDict defaultAttributes = .ok file ∧ fromJson file [("k", .vec (some [some 1]))] = .ok cam ∧
    cam.k = [some 1, some 0, some 0, some 0, some 0, some 0] ∧ cam.f = demo.f := by
  refine ⟨[("xyz", .nums demo.xyz), ("viewdir", .nums demo.viewdir), ("imgsz", .nums demo.imgsz), ("f", .nums demo.f), ("c", .nums demo.c),
    ("k", .nums demo.k), ("p", .nums demo.p)], { demo with k := [some 1, some 0, some 0, some 0, some 0, some 0], sensorsz := none, correction := .off }, ?_, ?_, rfl, rfl⟩ <;>
    decide +kernel

end Glimpse.CamJson
