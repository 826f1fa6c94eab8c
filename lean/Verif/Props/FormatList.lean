import Verif.Model.Lists

/-!
C01, C02: `format_list`.
-/
set_option linter.unusedSimpArgs false

namespace Glimpse

/-- Spec: what the caller gets at position `i` of a list of `len` items built from `x`:
`x`'s own item, then `default` if there is one, otherwise `x` repeated cyclically. -/
def formatSpec {α : Type} (x : List α) (default : Option α) (i : Nat) : Option α :=
  if i < x.length then x[i]?
  else match default with
    | some d => some d
    | none => x[i % x.length]?

private theorem flatten_replicate_getElem? {α : Type} (x : List α) (m i : Nat)
    (h : i < m * x.length) : (List.replicate m x).flatten[i]? = x[i % x.length]? := by
  induction m generalizing i with
  | zero => simp at h
  | succ m ih =>
    rw [List.replicate_succ, List.flatten_cons]
    by_cases hi : i < x.length
    · rw [List.getElem?_append_left hi, Nat.mod_eq_of_lt hi]
    · have hi' : x.length ≤ i := Nat.le_of_not_lt hi
      rw [List.getElem?_append_right hi', ih _ (by rw [Nat.succ_mul] at h; omega),
        ← Nat.mod_eq_sub_mod hi']

/-- C01 (content). For a positive length, whenever `format_list` returns, position `i` of the result is the
one prescribed by the specification, for every `i` (so the result has exactly `len` items), provided the
input is non-empty or a default is given. -/
theorem format_list_content {α : Type} (isList : Bool) (x : List α) (len : Nat) (default : Option α)
    (hlen : 0 < len) (hx : x ≠ [] ∨ default.isSome) (out caller : List α)
    (h : formatList isList x (some len) default none = .ok (out, caller)) :
    out.length = len ∧ ∀ i, i < len → out[i]? = formatSpec x default i := by
  obtain ⟨n, rfl⟩ : ∃ n, len = n + 1 := ⟨len - 1, by omega⟩
  unfold formatList at h
  simp only [bind, Except.bind, pure, Except.pure] at h
  split at h
  · rename_i hgt
    injection h with h; injection h with h1 h2
    subst h1
    refine ⟨by simp; omega, fun i hi => ?_⟩
    have : i < x.length := by omega
    simp [formatSpec, this, List.getElem?_take, hi]
  · split at h
    · rename_i hlt
      cases default with
      | some d =>
        injection h with h; injection h with h1 h2
        subst h1
        refine ⟨by simp; omega, fun i hi => ?_⟩
        unfold formatSpec
        split
        · rename_i hi'; rw [List.getElem?_append_left hi']
        · rename_i hi'
          rw [List.getElem?_append_right (by omega), List.getElem?_replicate_of_lt (by omega)]
      | none =>
        have hx' : 0 < x.length := by
          rcases hx with hx | hx
          · exact List.length_pos_iff.mpr hx
          · simp at hx
        simp only [hx', if_true] at h
        split at h
        · exact absurd h (by simp [throw, throwThe, MonadExceptOf.throw])
        · rename_i hmod
          injection h with h; injection h with h1 h2
          subst h1
          have hdvd : (n + 1) / x.length * x.length = n + 1 :=
            Nat.div_mul_cancel (Nat.dvd_of_mod_eq_zero (by omega))
          refine ⟨by simp [List.length_flatten, hdvd], fun i hi => ?_⟩
          rw [flatten_replicate_getElem? x _ i (by omega)]
          unfold formatSpec
          split
          · rename_i hi'; rw [Nat.mod_eq_of_lt hi']
          · rfl
    · injection h with h; injection h with h1 h2
      subst h1
      have : x.length = n + 1 := by omega
      refine ⟨this, fun i hi => ?_⟩
      simp [formatSpec, this, hi]

/-- C01 (errors). `format_list` raises exactly when no default is given and the input is
non-empty, shorter than the requested positive length, and does not divide it. -/
theorem format_list_raises_iff {α : Type} (isList : Bool) (x : List α) (len : Option Nat)
    (default : Option α) (dtype : Option (α → α)) :
    Raises (formatList isList x len default dtype) ↔
      default = none ∧ x ≠ [] ∧ ∃ n, len = some n ∧ x.length < n ∧ ¬ x.length ∣ n := by
  constructor
  · rintro ⟨e, h⟩
    unfold formatList at h
    simp only [bind, Except.bind, pure, Except.pure, throw, throwThe, MonadExceptOf.throw] at h
    match len, h with
    | none, h => cases h
    | some 0, h => cases h
    | some (n + 1), h =>
      simp only at h
      split at h
      · cases h
      · split at h
        · rename_i h2
          cases default with
          | some d => cases h
          | none =>
            simp only at h
            split at h
            · rename_i h3
              split at h
              · rename_i h4
                refine ⟨rfl, List.length_pos_iff.mp h3, n + 1, rfl, h2, fun hd => h4 ?_⟩
                exact Nat.mod_eq_zero_of_dvd hd
              · cases h
            · cases h
        · cases h
  · rintro ⟨rfl, hx, n, rfl, hlt, hd⟩
    refine ⟨.valueError, ?_⟩
    obtain ⟨m, rfl⟩ : ∃ m, n = m + 1 := ⟨n - 1, by omega⟩
    have h0 : 0 < x.length := List.length_pos_iff.mpr hx
    have hm : (m + 1) % x.length ≠ 0 := fun h => hd (Nat.dvd_of_mod_eq_zero h)
    have hnot : ¬ (x.length > m + 1) := by omega
    unfold formatList
    simp only [hnot, if_false, hlt, if_true, h0, hm, ne_eq, not_false_eq_true]
    rfl

/-- C01: `dtype` only maps the elements of the result. -/
theorem format_list_dtype {α : Type} (isList : Bool) (x : List α) (len : Option Nat)
    (default : Option α) (f : α → α) :
    formatList isList x len default (some f) =
      (formatList isList x len default none).map (fun r => (r.1.map f, r.2)) := by
  unfold formatList
  match len with
  | none => rfl
  | some 0 => rfl
  | some (n + 1) =>
    simp only
    split
    · rfl
    · split
      · cases default with
        | some d => rfl
        | none =>
          simp only
          split
          · split <;> rfl
          · rfl
      · rfl

/-- C01, the case the documented length promise misses: an empty input without default stays empty. -/
theorem format_list_length_violated :
    ∃ (x : List Nat) (len : Nat), 0 < len ∧
      formatList true x (some len) none none = .ok ([], []) :=
  ⟨[], 3, by decide, rfl⟩

-- Non-vacuity: padding, repetition, truncation and the error are all reachable.
example : formatList true [0, 1] (some 3) (some 2) none = .ok ([0, 1, 2], [0, 1, 2]) := rfl
example : formatList false [0, 1] (some 4) none none = .ok ([0, 1, 0, 1], [0, 1]) := rfl
example : formatList true [0, 1] (some 1) none none = .ok ([0], [0, 1]) := rfl
example : formatList true [0, 1] (some 3) none none = .error .valueError := rfl

/-- C02 (violated). A caller's list is modified in place. -/
theorem format_list_argument_unchanged_violated :
    ∃ (x out caller : List Nat), formatList true x (some 3) (some 7) none = .ok (out, caller) ∧ caller ≠ x :=
  ⟨[1], [1, 7, 7], [1, 7, 7], rfl, by decide⟩

/-- C02 (what holds). The caller's object is unchanged if it is not a list, or if the requested length is
missing or at most the current length, or (list, repeat/pad) it is changed to exactly the undtyped result.
In particular a second call with the same arguments never changes it again. -/
theorem format_list_argument_partial {α : Type} (isList : Bool) (x : List α) (len : Option Nat)
    (default : Option α) (dtype : Option (α → α)) (out caller : List α)
    (h : formatList isList x len default dtype = .ok (out, caller)) :
    ((isList = false ∨ ∀ n, len = some n → n = 0 ∨ n ≤ x.length) → caller = x) ∧
    (isList = true → ∀ out' caller',
      formatList true caller len default dtype = .ok (out', caller') → caller' = caller) := by
  unfold formatList at h
  simp only [bind, Except.bind, pure, Except.pure, throw, throwThe, MonadExceptOf.throw] at h
  match len, h with
  | none, h =>
    injection h with h; injection h with h1 h2; subst h2
    refine ⟨fun _ => rfl, fun _ out' caller' h' => ?_⟩
    unfold formatList at h'
    injection h' with h'; injection h' with h1 h2; exact h2.symm
  | some 0, h =>
    injection h with h; injection h with h1 h2; subst h2
    refine ⟨fun _ => rfl, fun _ out' caller' h' => ?_⟩
    unfold formatList at h'
    injection h' with h'; injection h' with h1 h2; exact h2.symm
  | some (n + 1), h =>
    -- a list of at least the requested length is never modified
    have stable : ∀ (c : List α), n + 1 ≤ c.length → ∀ out' caller',
        formatList true c (some (n + 1)) default dtype = .ok (out', caller') → caller' = c := by
      intro c hc out' caller' h'
      unfold formatList at h'
      simp only [bind, Except.bind, pure, Except.pure, throw, throwThe, MonadExceptOf.throw] at h'
      split at h'
      · injection h' with h'; injection h' with h1 h2; exact h2.symm
      · split at h'
        · omega
        · injection h' with h'; injection h' with h1 h2; exact h2.symm
    simp only at h
    split at h
    · injection h with h; injection h with h1 h2; subst h2
      exact ⟨fun _ => rfl, fun _ => stable _ (by omega)⟩
    · split at h
      · rename_i hlt
        cases default with
        | some d =>
          injection h with h; injection h with h1 h2
          constructor
          · rintro (rfl | hn)
            · simpa using h2.symm
            · have := hn (n + 1) rfl; omega
          · rintro rfl
            apply stable
            rw [← h2]; simp; omega
        | none =>
          simp only at h
          split at h
          · split at h
            · cases h
            · rename_i h0 hmod
              injection h with h; injection h with h1 h2
              constructor
              · rintro (rfl | hn)
                · simpa using h2.symm
                · have := hn (n + 1) rfl; omega
              · rintro rfl
                apply stable
                rw [← h2]
                have hdvd : (n + 1) / x.length * x.length = n + 1 :=
                  Nat.div_mul_cancel (Nat.dvd_of_mod_eq_zero (by omega))
                simp [List.length_flatten, hdvd]
          · rename_i h0
            injection h with h; injection h with h1 h2; subst h2
            have hx : x = [] := List.length_eq_zero_iff.mp (by omega)
            subst hx
            refine ⟨fun _ => rfl, fun _ out' caller' h' => ?_⟩
            unfold formatList at h'
            simp only [List.length_nil, Nat.lt_irrefl, if_false, Nat.not_lt_zero, gt_iff_lt,
              Nat.zero_lt_succ, if_true] at h'
            injection h' with h'; injection h' with h1 h2; exact h2.symm
      · injection h with h; injection h with h1 h2; subst h2
        exact ⟨fun _ => rfl, fun _ => stable _ (by omega)⟩

example : formatList false [1] (some 3) (some 7) none = .ok ([1, 7, 7], [1]) := rfl

end Glimpse
