import Verif.Model.ConvertRead
import Verif.Lemmas.ExceptList
import Mathlib.Tactic.Linarith
import Mathlib.Tactic.Ring
import Mathlib.Tactic.NormNum

/-!
C101: readers of calibration files return the parameters that are written in the file.
-/
set_option autoImplicit false
set_option linter.unusedSimpArgs false
set_option linter.unusedSectionVars false

namespace Glimpse.Convert

open Svg (Xml iterTag)

/-! ### Regular expressions -/

private def minLen : List Atom → Nat
  | [] => 0
  | .lit l :: as => l.length + minLen as
  | .one _ :: as => 1 + minLen as
  | .star _ :: as => minLen as
  | .cap _ m :: as => m + minLen as

private theorem findSome_desc {β : Type} (f : Nat → Option β) (n : Nat) (p : Nat → Bool) (x : β)
    (h : ((List.range (n + 1)).reverse.filter p).findSome? f = some x) : ∃ k ≤ n, p k = true ∧ f k = some x := by
  rw [List.findSome?_eq_some_iff] at h
  obtain ⟨l1, a, l2, e, ha, -⟩ := h
  have : a ∈ (List.range (n + 1)).reverse.filter p := by rw [e]; simp
  rw [List.mem_filter, List.mem_reverse, List.mem_range] at this
  exact ⟨a, by omega, this.2, ha⟩

private theorem match_len (as : List Atom) (s : List Char) (caps : List (List Char)) (r : List Char)
    (h : matchAt as s = some (caps, r)) : r.length + minLen as ≤ s.length := by
  induction as generalizing s caps r with
  | nil =>
    simp only [matchAt, Option.some.injEq, Prod.mk.injEq] at h
    rw [h.2]; simp [minLen]
  | cons a as ih =>
    cases a with
    | lit l =>
      unfold matchAt at h
      split at h
      · rename_i hp
        have := ih _ _ _ h
        rw [List.length_drop] at this
        have hl := (List.isPrefixOf_iff_prefix.1 hp).length_le
        unfold minLen
        omega
      · cases h
    | one p =>
      cases s with
      | nil => simp [matchAt] at h
      | cons c s =>
        unfold matchAt at h
        simp only at h
        split at h
        · have := ih _ _ _ h
          unfold minLen
          simp
          omega
        · cases h
    | star p =>
      unfold matchAt at h
      have h' : ((List.range ((s.takeWhile p).length + 1)).reverse.filter fun _ => true).findSome?
          (fun n => matchAt as (s.drop n)) = some (caps, r) := by
        rw [List.filter_true]; exact h
      obtain ⟨k, -, -, hk⟩ := findSome_desc _ _ _ _ h'
      have := ih _ _ _ hk
      rw [List.length_drop] at this
      unfold minLen
      omega
    | cap p m =>
      unfold matchAt at h
      obtain ⟨k, hkn, hkm, hk⟩ := findSome_desc _ _ _ _ h
      rw [Option.map_eq_some_iff] at hk
      obtain ⟨⟨c', r'⟩, h1, h2⟩ := hk
      simp only [Prod.mk.injEq] at h2
      have := ih _ _ _ h1
      rw [List.length_drop, h2.2] at this
      have hle : k ≤ s.length := le_trans hkn (List.takeWhile_prefix p).length_le
      simp only [decide_eq_true_eq] at hkm
      unfold minLen
      omega

private theorem findall_fuel (as : List Atom) (ha : 0 < minLen as) (s : List Char) (n m : Nat) (hn : s.length ≤ n) (hm : s.length ≤ m) :
    findallAux as n s = findallAux as m s := by
  induction n generalizing s m with
  | zero =>
    have : s = [] := List.eq_nil_of_length_eq_zero (by omega)
    subst this
    cases m <;> rfl
  | succ n ih =>
    cases s with
    | nil => cases m <;> rfl
    | cons c s =>
      cases m with
      | zero => simp at hm
      | succ m =>
        simp only [List.length_cons, Nat.add_le_add_iff_right] at hn hm
        unfold findallAux
        cases hx : matchAt as (c :: s) with
        | none => exact ih s m hn hm
        | some x =>
          obtain ⟨caps, r⟩ := x
          have := match_len _ _ _ _ hx
          simp only [List.length_cons] at this
          simp only
          rw [ih r m (by omega) (by omega)]

private theorem findall_skip1 (as : List Atom) (ha : 0 < minLen as) (c : Char) (s : List Char) (h : matchAt as (c :: s) = none) :
    findall as (c :: s) = findall as s := by
  unfold findall
  rw [List.length_cons, findallAux, h]

private theorem findall_hit (as : List Atom) (ha : 0 < minLen as) (s : List Char) (caps : List (List Char)) (r : List Char)
    (h : matchAt as s = some (caps, r)) : findall as s = caps :: findall as r := by
  have hl := match_len _ _ _ _ h
  unfold findall
  cases s with
  | nil => simp at hl; omega
  | cons c s =>
    simp only [List.length_cons] at hl
    rw [List.length_cons, findallAux, h]
    simp only
    rw [findall_fuel as ha r s.length r.length (by omega) (le_refl _)]

private theorem lit_none (l : List Char) (as : List Atom) (s : List Char) (h : ¬ l <+: s) : matchAt (.lit l :: as) s = none := by
  unfold matchAt
  rw [if_neg]
  rw [List.isPrefixOf_iff_prefix]; exact h

private theorem lit_hit (l : List Char) (as : List Atom) (s : List Char) : matchAt (.lit l :: as) (l ++ s) = matchAt as s := by
  rw [matchAt, if_pos (List.isPrefixOf_iff_prefix.2 (List.prefix_append l s)), List.drop_left]

private theorem findall_skip (l : List Char) (hl : l ≠ []) (as : List Atom) (pre s : List Char)
    (h : ∀ i < pre.length, ¬ l <+: (pre ++ s).drop i) : findall (.lit l :: as) (pre ++ s) = findall (.lit l :: as) s := by
  have hm : 0 < minLen (.lit l :: as) := by
    unfold minLen
    have : 0 < l.length := List.length_pos_iff.2 hl
    omega
  induction pre with
  | nil => rfl
  | cons c pre ih =>
    rw [List.cons_append, findall_skip1 _ hm c (pre ++ s) (lit_none l as _ (h 0 (by simp)))]
    exact ih (fun i hi => h (i + 1) (by simpa using hi))

private theorem findall_nil (l : List Char) (hl : l ≠ []) (as : List Atom) (s : List Char) (h : ∀ i, ¬ l <+: s.drop i) :
    findall (.lit l :: as) s = [] := by
  have := findall_skip l hl as s [] (fun i _ => by rw [List.append_nil]; exact h i)
  rw [List.append_nil] at this
  rw [this]
  rfl

private theorem range_reverse (n : Nat) : (List.range (n + 1)).reverse = n :: (List.range n).reverse := by
  rw [List.range_succ, List.reverse_append]; rfl

private theorem findSome_rev {β : Type} (f : Nat → Option β) (n k : Nat) (x : β) (hk : k ≤ n) (hf : ∀ i, k < i → i ≤ n → f i = none)
    (hx : f k = some x) : (List.range (n + 1)).reverse.findSome? f = some x := by
  induction n with
  | zero =>
    have : k = 0 := by omega
    subst this
    simp [hx]
  | succ n ih =>
    rw [range_reverse, List.findSome?_cons]
    by_cases e : k = n + 1
    · subst e; rw [hx]
    · rw [hf (n + 1) (by omega) (le_refl _)]
      exact ih (by omega) (fun i h1 h2 => hf i h1 (by omega))

private theorem findSome_rev_none {β : Type} (f : Nat → Option β) (n : Nat) (hf : ∀ i, i ≤ n → f i = none) :
    (List.range (n + 1)).reverse.findSome? f = none := by
  rw [List.findSome?_eq_none_iff]
  intro i hi
  rw [List.mem_reverse, List.mem_range] at hi
  exact hf i (by omega)

private theorem star_first (p : Char → Bool) (as : List Atom) (a s : List Char) (x : List (List Char) × List Char)
    (ha : ∀ c ∈ a, p c = true) (hs : ∀ i, a.length < i → i ≤ ((a ++ s).takeWhile p).length → matchAt as ((a ++ s).drop i) = none)
    (hx : matchAt as s = some x) : matchAt (.star p :: as) (a ++ s) = some x := by
  unfold matchAt
  apply findSome_rev _ _ a.length
  · rw [List.takeWhile_append_of_pos ha]; simp
  · exact hs
  · rw [List.drop_left]; exact hx

private theorem star_whole (p : Char → Bool) (as : List Atom) (a s : List Char) (x : List (List Char) × List Char)
    (ha : ∀ c ∈ a, p c = true) (hs : ∀ c r, s = c :: r → p c = false) (hx : matchAt as s = some x) :
    matchAt (.star p :: as) (a ++ s) = some x := by
  apply star_first p as a s x ha _ hx
  intro i h1 h2
  rw [List.takeWhile_append_of_pos ha] at h2
  have : s.takeWhile p = [] := by
    cases s with
    | nil => rfl
    | cons c r => rw [List.takeWhile_cons_of_neg]; rw [hs c r rfl]; simp
  rw [this] at h2
  simp at h2
  omega

private theorem cap_first (p : Char → Bool) (m : Nat) (as : List Atom) (a s : List Char) (x : List (List Char) × List Char)
    (ha : ∀ c ∈ a, p c = true) (hm : m ≤ a.length)
    (hs : ∀ i, a.length < i → i ≤ ((a ++ s).takeWhile p).length → matchAt as ((a ++ s).drop i) = none)
    (hx : matchAt as s = some x) : matchAt (.cap p m :: as) (a ++ s) = some (a :: x.1, x.2) := by
  unfold matchAt
  have key : ∀ (l : List Nat) (f : Nat → Option (List (List Char) × List Char)),
      (l.filter fun n => decide (m ≤ n)).findSome? f = l.findSome? fun n => if m ≤ n then f n else none := by
    intro l f
    induction l with
    | nil => rfl
    | cons y l ih =>
      by_cases hy : m ≤ y
      · rw [List.filter_cons_of_pos (by simpa using hy), List.findSome?_cons, List.findSome?_cons, if_pos hy, ih]
      · rw [List.filter_cons_of_neg (by simpa using hy), List.findSome?_cons, if_neg hy, ih]
  rw [key]
  apply findSome_rev _ _ a.length
  · rw [List.takeWhile_append_of_pos ha]; simp
  · intro i h1 h2
    rw [hs i h1 h2]
    simp
  · rw [if_pos hm, List.drop_left, hx, List.take_left]; rfl

private theorem cap_whole (p : Char → Bool) (m : Nat) (as : List Atom) (a s : List Char) (x : List (List Char) × List Char)
    (ha : ∀ c ∈ a, p c = true) (hm : m ≤ a.length) (hs : ∀ c r, s = c :: r → p c = false) (hx : matchAt as s = some x) :
    matchAt (.cap p m :: as) (a ++ s) = some (a :: x.1, x.2) := by
  apply cap_first p m as a s x ha hm _ hx
  intro i h1 h2
  rw [List.takeWhile_append_of_pos ha] at h2
  have : s.takeWhile p = [] := by
    cases s with
    | nil => rfl
    | cons c r => rw [List.takeWhile_cons_of_neg]; rw [hs c r rfl]; simp
  rw [this] at h2
  simp at h2
  omega

/-! ### PhotoModeler -/

/-- The text has, at the first place where the label occurs, the label, the rest of its line, white space, and `Value: ` with the
numeral `val`. -/
def HasValue (txt label val : List Char) : Prop :=
  ∃ pre mid ws post, txt = pre ++ (label ++ (mid ++ ('\n' :: ws ++ ("Value: ".toList ++ (val ++ post))))) ∧
    (∀ i < pre.length, ¬ label <+: txt.drop i) ∧ '\n' ∉ mid ∧ (∀ c ∈ ws, isWs c = true) ∧ (∀ c ∈ val, isNum c = true) ∧ val ≠ [] ∧
    (∀ c r, post = c :: r → isNum c = false)

/-- The text has, at the first place where the label occurs, the label, the rest of its line, one more line, white space, and
`Deviation: ` with some name and the numeral `val`. -/
def HasDeviation (txt label val : List Char) : Prop :=
  ∃ pre mid line ws name post,
    txt = pre ++ (label ++ (mid ++ ('\n' :: (line ++ ('\n' :: ws ++ ("Deviation: ".toList ++ (name ++ (": ".toList ++ (val ++ post))))))))) ∧
    (∀ i < pre.length, ¬ label <+: txt.drop i) ∧ '\n' ∉ mid ∧ '\n' ∉ line ∧ (∀ c ∈ ws, isWs c = true) ∧ '\n' ∉ name ∧
    (∀ c ∈ val, isNum c = true) ∧ val ≠ [] ∧ (∀ c r, post = c :: r → isNum c = false) ∧ ':' ∉ post.takeWhile isDot

private theorem dot_of (l : List Char) (h : '\n' ∉ l) : ∀ c ∈ l, isDot c = true := by
  intro c hc
  have : c ≠ '\n' := fun e => h (e ▸ hc)
  simp [isDot, this]

private theorem pm_value_match (label mid ws val post : List Char) (h1 : '\n' ∉ mid) (h2 : ∀ c ∈ ws, isWs c = true)
    (h3 : ∀ c ∈ val, isNum c = true) (h4 : val ≠ []) (h5 : ∀ c r, post = c :: r → isNum c = false) :
    matchAt (.lit label :: pmAtoms false) (label ++ (mid ++ ('\n' :: ws ++ ("Value: ".toList ++ (val ++ post))))) = some ([val], post) := by
  rw [lit_hit]
  unfold pmAtoms
  rw [if_neg (by simp)]
  apply star_whole
  · exact dot_of mid h1
  · intro c r e
    simp only [List.cons_append, List.cons.injEq] at e
    rw [← e.1]; rfl
  · apply star_whole
    · intro c hc
      rcases List.mem_cons.1 hc with rfl | hc
      · rfl
      · exact h2 c hc
    · intro c r e
      have : "Value: ".toList ++ (val ++ post) = 'V' :: ("alue: ".toList ++ (val ++ post)) := rfl
      rw [this] at e
      rw [← (List.cons.inj e).1]; rfl
    · rw [lit_hit]
      have := cap_whole isNum 1 [] val post ([], post) h3 (List.length_pos_iff.2 h4) h5 rfl
      exact this

private theorem isWs_line : isWs '\n' = true := rfl

private theorem lit_mem (l : List Char) (as : List Atom) (s : List Char) (x : List (List Char) × List Char)
    (h : matchAt (.lit l :: as) s = some x) : l <+: s := by
  unfold matchAt at h
  split at h
  · rename_i hp; exact List.isPrefixOf_iff_prefix.1 hp
  · cases h

private theorem pm_deviation_match (label mid line ws name val post : List Char) (h1 : '\n' ∉ mid) (hl : '\n' ∉ line)
    (h2 : ∀ c ∈ ws, isWs c = true) (hn : '\n' ∉ name) (h3 : ∀ c ∈ val, isNum c = true) (h4 : val ≠ [])
    (h5 : ∀ c r, post = c :: r → isNum c = false) (h6 : ':' ∉ post.takeWhile isDot) :
    matchAt (.lit label :: pmAtoms true)
      (label ++ (mid ++ ('\n' :: (line ++ ('\n' :: ws ++ ("Deviation: ".toList ++ (name ++ (": ".toList ++ (val ++ post))))))))) =
      some ([val], post) := by
  rw [lit_hit]
  unfold pmAtoms
  rw [if_pos rfl]
  apply star_whole
  · exact dot_of mid h1
  · intro c r e
    simp only [List.cons_append, List.cons.injEq] at e
    rw [← e.1]; rfl
  · show matchAt (.one isWs :: _) ('\n' :: _) = _
    unfold matchAt
    simp only [isWs_line, if_true]
    apply star_whole
    · exact dot_of line hl
    · intro c r e
      simp only [List.cons_append, List.cons.injEq] at e
      rw [← e.1]; rfl
    · apply star_whole
      · intro c hc
        rcases List.mem_cons.1 hc with rfl | hc
        · rfl
        · exact h2 c hc
      · intro c r e
        have : "Deviation: ".toList ++ (name ++ (": ".toList ++ (val ++ post))) =
          'D' :: ("eviation: ".toList ++ (name ++ (": ".toList ++ (val ++ post)))) := rfl
        rw [this] at e
        rw [← (List.cons.inj e).1]; rfl
      · rw [lit_hit]
        have hval : ∀ c ∈ val, isDot c = true := by
          intro c hc
          have := h3 c hc
          by_contra hd
          have : c = '\n' := by simpa [isDot] using hd
          subst this
          revert this
          exact absurd (h3 _ hc) (by decide)
        apply star_first
        · exact dot_of name hn
        · intro i hi1 hi2
          apply lit_none
          intro hp
          -- a colon at position i ≥ |name| + 1
          have hc : (name ++ (": ".toList ++ (val ++ post)))[i]? = some ':' := by
            obtain ⟨t, ht⟩ := hp
            have : ((name ++ (": ".toList ++ (val ++ post))).drop i)[0]? = some ':' := by rw [← ht]; rfl
            simpa using this
          obtain ⟨j, rfl⟩ : ∃ j, i = name.length + (j + 1) := ⟨i - name.length - 1, by omega⟩
          rw [List.getElem?_append_right (by omega), Nat.add_sub_cancel_left] at hc
          have e1 : ": ".toList ++ (val ++ post) = ':' :: ' ' :: (val ++ post) := rfl
          rw [e1, List.getElem?_cons_succ] at hc
          cases j with
          | zero => exact absurd hc (by simp)
          | succ j =>
            rw [List.getElem?_cons_succ] at hc
            rw [List.takeWhile_append_of_pos (dot_of name hn), List.length_append, e1, List.takeWhile_cons_of_pos (by rfl),
              List.takeWhile_cons_of_pos (by rfl), List.takeWhile_append_of_pos hval] at hi2
            simp only [List.length_cons, List.length_append] at hi2
            by_cases hj : j < val.length
            · rw [List.getElem?_append_left hj] at hc
              have := h3 ':' (List.mem_of_getElem? hc)
              exact absurd this (by decide)
            · rw [List.getElem?_append_right (by omega)] at hc
              -- position in post; must be within the line
              obtain ⟨q, hq⟩ : ∃ q, q = j - val.length := ⟨_, rfl⟩
              rw [← hq] at hc
              by_cases hq2 : q < (post.takeWhile isDot).length
              · have hpre := (List.takeWhile_prefix isDot (l := post))
                have : (post.takeWhile isDot)[q]? = some ':' := by
                  obtain ⟨t, ht⟩ := hpre
                  rw [← ht, List.getElem?_append_left hq2] at hc
                  exact hc
                exact h6 (List.mem_of_getElem? this)
              · have hq3 : q = (post.takeWhile isDot).length := by omega
                have hsplit : post.takeWhile isDot ++ post.dropWhile isDot = post := List.takeWhile_append_dropWhile
                rw [← hsplit, List.getElem?_append_right (by omega), hq3, Nat.sub_self] at hc
                have hd : ∀ l : List Char, (l.dropWhile isDot)[0]? ≠ some ':' := by
                  intro l
                  induction l with
                  | nil => simp
                  | cons c l ih =>
                    by_cases hc : isDot c = true
                    · rw [List.dropWhile_cons_of_pos hc]; exact ih
                    · rw [List.dropWhile_cons_of_neg hc]
                      intro e
                      simp only [List.getElem?_cons_zero, Option.some.injEq] at e
                      exact hc (e ▸ rfl)
                exact hd post hc
        · rw [lit_hit]
          exact cap_whole isNum 1 [] val post ([], post) h3 (List.length_pos_iff.2 h4) h5 rfl

variable (num : List Char → Except Err ℝ)

private theorem pm_value (label txt val : List Char) (hl : label ≠ []) (h : HasValue txt label val) :
    pmValue num false label txt = num val := by
  obtain ⟨pre, mid, ws, post, e, h0, h1, h2, h3, h4, h5⟩ := h
  unfold pmValue
  rw [e, findall_skip label hl _ pre _ (by rw [← e]; exact h0),
    findall_hit _ (by unfold minLen; have := List.length_pos_iff.2 hl; omega) _ _ _ (pm_value_match label mid ws val post h1 h2 h3 h4 h5)]
  rfl

private theorem pm_deviation (label txt val : List Char) (hl : label ≠ []) (h : HasDeviation txt label val) :
    pmValue num true label txt = num val := by
  obtain ⟨pre, mid, line, ws, name, post, e, h0, h1, h2, h3, h4, h5, h6, h7, h8⟩ := h
  unfold pmValue
  rw [e, findall_skip label hl _ pre _ (by rw [← e]; exact h0),
    findall_hit _ (by unfold minLen; have := List.length_pos_iff.2 hl; omega) _ _ _
      (pm_deviation_match label mid line ws name val post h1 h2 h3 h4 h5 h6 h7 h8)]
  rfl

private theorem pm_missing (sigmas : Bool) (label txt : List Char) (hl : label ≠ []) (h : ∀ i, ¬ label <+: txt.drop i) :
    pmValue num sigmas label txt = .ok 0 := by
  unfold pmValue
  rw [findall_nil label hl _ txt h]

/-- What a report has for a label: `none` if the label does not occur. -/
def PmEntry (sigmas : Bool) (txt label : List Char) (x : Option ℝ) : Prop :=
  match x with
  | none => ∀ i, ¬ label <+: txt.drop i
  | some v => ∃ val, (if sigmas then HasDeviation txt label val else HasValue txt label val) ∧ num val = .ok v

/-- C101 (PhotoModeler): the parameters read are those that the report has first for each label (values or deviations), 0 for
labels that do not occur. -/
theorem photomodeler_report (imgsz : Fin 2 → ℤ) (sigmas : Bool) (txt : List Char)
    (focal xp yp fw fh k1 k2 k3 p1 p2 : Option ℝ) (h0 : PmEntry num sigmas txt "Focal Length".toList focal)
    (h1 : PmEntry num sigmas txt "Xp".toList xp) (h2 : PmEntry num sigmas txt "Yp".toList yp)
    (h3 : PmEntry num sigmas txt "Fw".toList fw) (h4 : PmEntry num sigmas txt "Fh".toList fh)
    (h5 : PmEntry num sigmas txt "K1".toList k1) (h6 : PmEntry num sigmas txt "K2".toList k2)
    (h7 : PmEntry num sigmas txt "K3".toList k3) (h8 : PmEntry num sigmas txt "P1".toList p1)
    (h9 : PmEntry num sigmas txt "P2".toList p2) :
    photomodelerFromReport num imgsz sigmas txt = .ok
      { imgsz := imgsz, focal := focal.getD 0, xp := xp.getD 0, yp := yp.getD 0, fw := fw.getD 0, fh := fh.getD 0,
        k1 := k1.getD 0, k2 := k2.getD 0, k3 := k3.getD 0, p1 := p1.getD 0, p2 := p2.getD 0 } := by
  have key : ∀ (label : List Char) (x : Option ℝ), label ≠ [] → PmEntry num sigmas txt label x →
      pmValue num sigmas label txt = .ok (x.getD 0) := by
    intro label x hl h
    cases x with
    | none => exact pm_missing num sigmas label txt hl h
    | some v =>
      obtain ⟨val, hv, hn⟩ := h
      cases sigmas with
      | true => rw [pm_deviation num label txt val hl hv, hn]; rfl
      | false => rw [pm_value num label txt val hl hv, hn]; rfl
  unfold photomodelerFromReport
  rw [key _ _ (by decide) h0, key _ _ (by decide) h1, key _ _ (by decide) h2, key _ _ (by decide) h3, key _ _ (by decide) h4,
    key _ _ (by decide) h5, key _ _ (by decide) h6, key _ _ (by decide) h7, key _ _ (by decide) h8, key _ _ (by decide) h9]
  rfl

/-- C101 (PhotoModeler, violated): a text that is not a report is not refused: the camera has focal length, format and all other
parameters 0. -/
theorem photomodeler_any_text_violated (imgsz : Fin 2 → ℤ) : photomodelerFromReport num imgsz false [] = .ok
    { imgsz := imgsz, focal := 0, xp := 0, yp := 0, fw := 0, fh := 0, k1 := 0, k2 := 0, k3 := 0, p1 := 0, p2 := 0 } := by
  have key : ∀ (label : List Char), label ≠ [] → PmEntry num false [] label none := by
    intro label hl i
    simp [hl]
  exact photomodeler_report num imgsz false [] none none none none none none none none none none (key _ (by decide)) (key _ (by decide))
    (key _ (by decide)) (key _ (by decide)) (key _ (by decide)) (key _ (by decide)) (key _ (by decide)) (key _ (by decide))
    (key _ (by decide)) (key _ (by decide))

/-! ### Matlab -/

/-- The text has the assignment `key = val;` at the end of a line, and `key = ` occurs nowhere else. -/
def Assigned (txt key val : List Char) : Prop :=
  ∃ pre post, txt = pre ++ (key ++ " = ".toList ++ (val ++ ";\n".toList ++ post)) ∧ '\n' ∉ val ∧
    ∀ i, (key ++ " = ".toList) <+: txt.drop i → i = pre.length

/-- `a ; b ; c`. -/
def semis : List (List Char) → List Char
  | [] => []
  | [v] => v
  | v :: w :: l => v ++ (" ; ".toList ++ semis (w :: l))

private theorem assigned_one (key txt val : List Char) (as : List Atom) (r : List Char → List Char) (caps : List (List Char))
    (hk : Assigned txt key val)
    (hm : ∀ post, matchAt as (val ++ ";\n".toList ++ post) = some (caps, r post)) (hr : ∀ post, ∃ t, t ++ r post = val ++ ";\n".toList ++ post) :
    findall (.lit (key ++ " = ".toList) :: as) txt = [caps] := by
  obtain ⟨pre, post, e, hn, honly⟩ := hk
  have hl : key ++ " = ".toList ≠ [] := by simp
  rw [e, findall_skip _ hl as pre _ (fun i hi hp => by
    have := honly i (by rw [e]; exact hp)
    omega)]
  rw [findall_hit _ (by unfold minLen; have := List.length_pos_iff.2 hl; omega) _ _ _ (by rw [lit_hit]; exact hm post)]
  congr 1
  apply findall_nil _ hl
  intro i hp
  obtain ⟨t, ht⟩ := hr post
  have hdrop : txt.drop (pre.length + (key ++ " = ".toList).length + t.length + i) = (r post).drop i := by
    have : txt = (pre ++ (key ++ " = ".toList) ++ t) ++ r post := by rw [e, ← ht]; simp
    rw [this]
    rw [← List.drop_drop]
    congr 1
    rw [← List.length_append, ← List.length_append]
    exact List.drop_left
  have := honly _ (by rw [hdrop]; exact hp)
  have : 0 < (key ++ " = ".toList).length := List.length_pos_iff.2 hl
  omega

private def cnt (s : List Char) : Nat := (s.takeWhile isDot).count ';'

private theorem takeWhile_drop (s : List Char) (n : Nat) (h : n ≤ (s.takeWhile isDot).length) :
    (s.drop n).takeWhile isDot = (s.takeWhile isDot).drop n := by
  induction n generalizing s with
  | zero => rfl
  | succ n ih =>
    cases s with
    | nil => rfl
    | cons c s =>
      by_cases hc : isDot c = true
      · rw [List.takeWhile_cons_of_pos hc] at h ⊢
        simp only [List.drop_succ_cons]
        exact ih s (by simpa using h)
      · rw [List.takeWhile_cons_of_neg hc] at h
        simp at h

private theorem cnt_drop (s : List Char) (n : Nat) (h : n ≤ (s.takeWhile isDot).length) : cnt (s.drop n) ≤ cnt s := by
  unfold cnt
  rw [takeWhile_drop s n h]
  exact List.Sublist.count_le _ (List.drop_sublist _ _)

private theorem cnt_lit (a s : List Char) (h : ∀ c ∈ a, isDot c = true) : cnt (a ++ s) = a.count ';' + cnt s := by
  unfold cnt
  rw [List.takeWhile_append_of_pos h, List.count_append]

private theorem cap_some (m : Nat) (as : List Atom) (s : List Char) (x : List (List Char) × List Char)
    (h : matchAt (.cap isDot m :: as) s = some x) : ∃ n ≤ (s.takeWhile isDot).length, ∃ y, matchAt as (s.drop n) = some y := by
  unfold matchAt at h
  obtain ⟨k, h1, -, h2⟩ := findSome_desc _ _ _ _ h
  rw [Option.map_eq_some_iff] at h2
  obtain ⟨y, hy, -⟩ := h2
  exact ⟨k, h1, y, hy⟩

private theorem need_semis (k : Nat) (s : List Char) (x : List (List Char) × List Char)
    (h : matchAt (groupAtoms (k + 1) ++ [.lit " ];".toList]) s = some x) : k + 1 ≤ cnt s := by
  induction k generalizing s x with
  | zero =>
    obtain ⟨n, hn, y, hy⟩ := cap_some 0 [.lit " ];".toList] s x h
    obtain ⟨t, ht⟩ := lit_mem _ _ _ _ hy
    have h1 := cnt_drop s n hn
    rw [← ht, cnt_lit _ _ (by decide)] at h1
    have : (" ];".toList).count ';' = 1 := by decide
    omega
  | succ k ih =>
    obtain ⟨n, hn, y, hy⟩ := cap_some 0 (Atom.lit " ; ".toList :: (groupAtoms (k + 1) ++ [Atom.lit " ];".toList])) s x (by simpa only [groupAtoms, List.cons_append] using h)
    obtain ⟨t, ht⟩ := lit_mem _ _ _ _ hy
    have h1 := cnt_drop s n hn
    rw [← ht, lit_hit] at hy
    have h2 := ih t y hy
    rw [← ht, cnt_lit _ _ (by decide)] at h1
    have : (" ; ".toList).count ';' = 1 := by decide
    omega

/-- A component of a vector: no blank, semicolon or line break. -/
def Plain (v : List Char) : Prop := ' ' ∉ v ∧ ';' ∉ v ∧ '\n' ∉ v

private theorem cnt_semis (v : List Char) (l : List (List Char)) (h : ∀ w ∈ v :: l, Plain w) (s : List Char) :
    cnt (semis (v :: l) ++ s) = l.length + cnt s := by
  induction l generalizing v with
  | nil =>
    have hv := h v (by simp)
    show cnt (v ++ s) = _
    rw [cnt_lit _ _ (dot_of v hv.2.2), List.count_eq_zero_of_not_mem hv.2.1]
    simp
  | cons w l ih =>
    have hv := h v (by simp)
    show cnt (v ++ (" ; ".toList ++ semis (w :: l)) ++ s) = _
    rw [List.append_assoc, List.append_assoc, cnt_lit _ _ (dot_of v hv.2.2), cnt_lit _ _ (by decide),
      ih w (fun w' hw' => h w' (by simp only [List.mem_cons] at hw' ⊢; tauto)), List.count_eq_zero_of_not_mem hv.2.1]
    have : (" ; ".toList).count ';' = 1 := by decide
    rw [this, List.length_cons]
    omega

private theorem groups_match (v : List Char) (l : List (List Char)) (h : ∀ w ∈ v :: l, Plain w) (post : List Char) :
    matchAt (groupAtoms (l.length + 1) ++ [.lit " ];".toList]) (semis (v :: l) ++ (" ];\n".toList ++ post)) =
      some (v :: l, '\n' :: post) := by
  induction l generalizing v with
  | nil =>
    have hv := h v (by simp)
    show matchAt [.cap isDot 0, .lit " ];".toList] (v ++ (" ];\n".toList ++ post)) = _
    have e : " ];\n".toList ++ post = " ];".toList ++ ('\n' :: post) := rfl
    refine cap_first isDot 0 [.lit " ];".toList] v _ ([], '\n' :: post) (dot_of v hv.2.2) (Nat.zero_le _) ?_ (by rw [e, lit_hit]; rfl)
    intro i hi1 hi2
    apply lit_none
    rw [List.takeWhile_append_of_pos (dot_of v hv.2.2)] at hi2
    have e2 : (" ];\n".toList ++ post).takeWhile isDot = " ];".toList := rfl
    rw [e2, List.length_append] at hi2
    have e3 : (" ];".toList).length = 3 := rfl
    obtain ⟨j, rfl⟩ : ∃ j, i = v.length + j := ⟨i - v.length, by omega⟩
    rw [List.drop_length_add_append]
    have : j = 1 ∨ j = 2 ∨ j = 3 := by omega
    rcases this with rfl | rfl | rfl
    · show ¬ (" ];".toList <+: ']' :: _)
      rintro ⟨t, ht⟩
      exact absurd (List.cons.inj ht).1 (by decide)
    · show ¬ (" ];".toList <+: ';' :: _)
      rintro ⟨t, ht⟩
      exact absurd (List.cons.inj ht).1 (by decide)
    · show ¬ (" ];".toList <+: '\n' :: _)
      rintro ⟨t, ht⟩
      exact absurd (List.cons.inj ht).1 (by decide)
  | cons w l ih =>
    have hv := h v (by simp)
    have hrest : ∀ w' ∈ w :: l, Plain w' := fun w' hw' => h w' (by simp only [List.mem_cons] at hw' ⊢; tauto)
    have ih := ih w hrest
    have e : semis (v :: w :: l) ++ (" ];\n".toList ++ post) = v ++ (" ; ".toList ++ (semis (w :: l) ++ (" ];\n".toList ++ post))) := by
      simp [semis]
    rw [e]
    show matchAt (.cap isDot 0 :: (.lit " ; ".toList :: (groupAtoms (l.length + 1) ++ [.lit " ];".toList]))) _ = _
    refine cap_first isDot 0 _ v _ (w :: l, '\n' :: post) (dot_of v hv.2.2) (Nat.zero_le _) ?_ (by rw [lit_hit]; exact ih)
    intro i hi1 hi2
    obtain ⟨j, rfl⟩ : ∃ j, i = v.length + (j + 1) := ⟨i - v.length - 1, by omega⟩
    rw [List.drop_length_add_append]
    cases hm : matchAt (.lit " ; ".toList :: (groupAtoms (l.length + 1) ++ [.lit " ];".toList]))
        ((" ; ".toList ++ (semis (w :: l) ++ (" ];\n".toList ++ post))).drop (j + 1)) with
    | none => rfl
    | some x =>
      exfalso
      obtain ⟨t, ht⟩ := lit_mem _ _ _ _ hm
      rw [← ht, lit_hit] at hm
      have h1 := need_semis _ _ _ hm
      have hcnt : cnt (semis (w :: l) ++ (" ];\n".toList ++ post)) = l.length + 1 := by
        rw [cnt_semis w l hrest]
        rfl
      rw [List.takeWhile_append_of_pos (dot_of v hv.2.2), List.length_append] at hi2
      cases j with
      | zero =>
        have e4 : (" ; ".toList ++ (semis (w :: l) ++ (" ];\n".toList ++ post))).drop (0 + 1) =
          ';' :: ' ' :: (semis (w :: l) ++ (" ];\n".toList ++ post)) := rfl
        rw [e4] at ht
        exact absurd (List.cons.inj ht).1 (by decide)
      | succ j =>
        have e5 : (" ; ".toList ++ (semis (w :: l) ++ (" ];\n".toList ++ post))) =
          ' ' :: ';' :: ([' '] ++ (semis (w :: l) ++ (" ];\n".toList ++ post))) := rfl
        rw [e5, List.takeWhile_cons_of_pos (by rfl), List.takeWhile_cons_of_pos (by rfl), List.length_cons, List.length_cons] at hi2
        rw [e5, List.drop_succ_cons, List.drop_succ_cons] at ht
        have h2 := cnt_drop _ j (by omega : j ≤ (([' '] ++ (semis (w :: l) ++ (" ];\n".toList ++ post))).takeWhile isDot).length)
        rw [← ht, cnt_lit _ _ (by decide), cnt_lit [' '] _ (by decide), hcnt] at h2
        have c1 : (" ; ".toList).count ';' = 1 := by decide
        have c2 : [' '].count ';' = 0 := by decide
        omega

private theorem one_match (val post : List Char) (h : '\n' ∉ val) :
    matchAt [.cap isDot 0, .lit [';']] (val ++ ";\n".toList ++ post) = some ([val], '\n' :: post) := by
  rw [List.append_assoc]
  have e : ";\n".toList ++ post = [';'] ++ ('\n' :: post) := rfl
  refine cap_first isDot 0 [.lit [';']] val _ ([], '\n' :: post) (dot_of val h) (Nat.zero_le _) ?_ (by rw [e, lit_hit]; rfl)
  intro i hi1 hi2
  apply lit_none
  rw [List.takeWhile_append_of_pos (dot_of val h)] at hi2
  have e2 : (";\n".toList ++ post).takeWhile isDot = [';'] := rfl
  rw [e2, List.length_append] at hi2
  simp only [List.length_cons, List.length_nil] at hi2
  obtain rfl : i = val.length + 1 := by omega
  rw [List.drop_length_add_append]
  show ¬ ([';'] <+: '\n' :: _)
  rintro ⟨t, ht⟩
  exact absurd (List.cons.inj ht).1 (by decide)

private theorem matlab_one (scale : ℝ) (key txt val : List Char) (x : ℝ) (h : Assigned txt key val) (hx : num val = .ok x) :
    firstOf (matlabOne num scale key txt) = .ok (x * scale) := by
  have hv : '\n' ∉ val := by obtain ⟨_, _, _, h, _⟩ := h; exact h
  unfold matlabOne
  rw [assigned_one key txt val _ (fun post => '\n' :: post) [val] h (fun post => one_match val post hv)
    (fun post => ⟨val ++ [';'], by simp⟩)]
  simp [List.mapM_cons, hx, bind, Except.bind, pure, Except.pure, firstOf]

/-- The first of several values. -/
example : firstOf (.ok [1, 2]) = .ok 1 := rfl

private theorem matlab_vec (scale : ℝ) (key txt : List Char) (v : List Char) (l : List (List Char)) (xs : List ℝ)
    (h : Assigned txt key ("[ ".toList ++ semis (v :: l) ++ " ]".toList)) (hp : ∀ w ∈ v :: l, Plain w)
    (hx : (v :: l).mapM num = .ok xs) : matlabVec num scale key (l.length + 1) txt = .ok (xs.map fun x => x * scale) := by
  obtain ⟨pre, post, e, -, honly⟩ := h
  have hl : key ++ " = [ ".toList ≠ [] := by simp
  have e' : txt = pre ++ ((key ++ " = [ ".toList) ++ (semis (v :: l) ++ (" ];\n".toList ++ post))) := by
    rw [e]; simp
  have hfind : findall (.lit (key ++ " = [ ".toList) :: groupAtoms (l.length + 1) ++ [.lit " ];".toList]) txt =
      (v :: l) :: findall (.lit (key ++ " = [ ".toList) :: groupAtoms (l.length + 1) ++ [.lit " ];".toList]) ('\n' :: post) := by
    rw [List.cons_append]
    conv_lhs => rw [e']
    rw [findall_skip _ hl _ pre _ (fun i hi hpre => by
      have hh : (key ++ " = ".toList) <+: txt.drop i := by
        rw [e']
        refine List.IsPrefix.trans ⟨"[ ".toList, ?_⟩ hpre
        simp
      have := honly i hh
      omega)]
    exact findall_hit _ (by unfold minLen; have := List.length_pos_iff.2 hl; omega) _ _ _ (by rw [lit_hit]; exact groups_match v l hp post)
  unfold matlabVec
  rw [hfind]
  simp only
  have key : ∀ (ws : List (List Char)) (ys : List ℝ), ws.mapM num = .ok ys →
      (ws.mapM fun s => do let v ← num s; pure (v * scale)) = .ok (ys.map fun x => x * scale) := by
    intro ws
    induction ws with
    | nil => intro ys h; obtain rfl := Except.ok.inj h; rfl
    | cons w ws ih =>
      intro ys h
      rw [List.mapM_cons] at h ⊢
      cases hw : num w with
      | error e => simp [hw, bind, Except.bind] at h
      | ok y =>
        cases hws : ws.mapM num with
        | error e => simp [hw, hws, bind, Except.bind] at h
        | ok ys' =>
          simp only [hw, hws, bind, Except.bind, pure, Except.pure] at h
          obtain rfl := Except.ok.inj h
          have ih := ih ys' hws
          simp only [bind, Except.bind, pure, Except.pure] at ih
          simp only [ih, bind, Except.bind, pure, Except.pure, List.map_cons]
  exact key _ _ hx

/-- C101 (Matlab): the parameters read are those assigned in the report; the standard deviations are a third of the errors, and
then the image size is 0. -/
theorem matlab_report (txt : List Char) (sigmas : Bool) (nx ny : List Char) (fc : Fin 2 → List Char) (cc : Fin 2 → List Char)
    (kc : Fin 5 → List Char) (alpha : List Char) (w h a : ℝ) (f c : Fin 2 → ℝ) (k : Fin 5 → ℝ)
    (hp : (∀ i, Plain (fc i)) ∧ (∀ i, Plain (cc i)) ∧ ∀ i, Plain (kc i))
    (hn : num nx = .ok w ∧ num ny = .ok h ∧ num alpha = .ok a ∧ (∀ i, num (fc i) = .ok (f i)) ∧ (∀ i, num (cc i) = .ok (c i)) ∧
      ∀ i, num (kc i) = .ok (k i))
    (h1 : sigmas = false → Assigned txt "nx".toList nx ∧ Assigned txt "ny".toList ny)
    (h2 : Assigned txt (if sigmas then "fc_error".toList else "fc".toList) ("[ ".toList ++ semis [fc 0, fc 1] ++ " ]".toList))
    (h3 : Assigned txt (if sigmas then "cc_error".toList else "cc".toList) ("[ ".toList ++ semis [cc 0, cc 1] ++ " ]".toList))
    (h4 : Assigned txt (if sigmas then "kc_error".toList else "kc".toList)
      ("[ ".toList ++ semis [kc 0, kc 1, kc 2, kc 3, kc 4] ++ " ]".toList))
    (h5 : Assigned txt (if sigmas then "alpha_c_error".toList else "alpha_c".toList) alpha) :
    matlabFromReport num sigmas txt = .ok (if sigmas
      then { imgsz := ![0, 0], fc := fun i => f i / 3, cc := fun i => c i / 3, kc := fun i => k i / 3, alpha := a / 3 }
      else { imgsz := ![truncate w, truncate h], fc := f, cc := c, kc := k, alpha := a }) := by
  obtain ⟨p1, p2, p3⟩ := hp
  obtain ⟨n1, n2, n3, n4, n5, n6⟩ := hn
  have hfc : ([fc 0, fc 1]).mapM num = .ok [f 0, f 1] := by
    simp [List.mapM_cons, n4, bind, Except.bind, pure, Except.pure]
  have hcc : ([cc 0, cc 1]).mapM num = .ok [c 0, c 1] := by
    simp [List.mapM_cons, n5, bind, Except.bind, pure, Except.pure]
  have hkc : ([kc 0, kc 1, kc 2, kc 3, kc 4]).mapM num = .ok [k 0, k 1, k 2, k 3, k 4] := by
    simp [List.mapM_cons, n6, bind, Except.bind, pure, Except.pure]
  have q1 : ∀ w ∈ [fc 0, fc 1], Plain w := by
    intro w hw; simp only [List.mem_cons, List.not_mem_nil, or_false] at hw
    rcases hw with rfl | rfl <;> exact p1 _
  have q2 : ∀ w ∈ [cc 0, cc 1], Plain w := by
    intro w hw; simp only [List.mem_cons, List.not_mem_nil, or_false] at hw
    rcases hw with rfl | rfl <;> exact p2 _
  have q3 : ∀ w ∈ [kc 0, kc 1, kc 2, kc 3, kc 4], Plain w := by
    intro w hw; simp only [List.mem_cons, List.not_mem_nil, or_false] at hw
    rcases hw with rfl | rfl | rfl | rfl | rfl <;> exact p3 _
  cases sigmas with
  | false =>
    simp only [Bool.false_eq_true, if_false] at h2 h3 h4 h5
    obtain ⟨g1, g2⟩ := h1 rfl
    have r1 := matlab_one num 1 _ _ _ _ g1 n1
    have r2 := matlab_one num 1 _ _ _ _ g2 n2
    have r3 := matlab_vec num 1 _ _ _ _ _ h2 q1 hfc
    have r4 := matlab_vec num 1 _ _ _ _ _ h3 q2 hcc
    have r5 := matlab_vec num 1 _ _ _ _ _ h4 q3 hkc
    have r6 := matlab_one num 1 _ _ _ _ h5 n3
    simp only [mul_one, List.map_id', List.length_cons, List.length_nil] at r1 r2 r3 r4 r5 r6
    unfold matlabFromReport
    simp only [Bool.false_eq_true, if_false, List.append_nil, r1, r2, r3, r4, r5, r6, bind, Except.bind, pure, Except.pure]
    congr 2
    · funext i; fin_cases i <;> rfl
    · funext i; fin_cases i <;> rfl
    · funext i; fin_cases i <;> rfl
  | true =>
    simp only [if_true] at h2 h3 h4 h5
    have r3 := matlab_vec num (1 / 3) _ _ _ _ _ h2 q1 hfc
    have r4 := matlab_vec num (1 / 3) _ _ _ _ _ h3 q2 hcc
    have r5 := matlab_vec num (1 / 3) _ _ _ _ _ h4 q3 hkc
    have r6 := matlab_one num (1 / 3) _ _ _ _ h5 n3
    simp only [List.length_cons, List.length_nil] at r3 r4 r5 r6
    unfold matlabFromReport
    have s1 : "fc".toList ++ "_error".toList = "fc_error".toList := rfl
    have s2 : "cc".toList ++ "_error".toList = "cc_error".toList := rfl
    have s3 : "kc".toList ++ "_error".toList = "kc_error".toList := rfl
    have s4 : "alpha_c".toList ++ "_error".toList = "alpha_c_error".toList := rfl
    simp only [if_true, s1, s2, s3, s4, r3, r4, r5, r6, bind, Except.bind, pure, Except.pure]
    congr 2
    · funext i; fin_cases i <;> exact mul_one_div _ _
    · funext i; fin_cases i <;> exact mul_one_div _ _
    · funext i; fin_cases i <;> exact mul_one_div _ _
    · exact mul_one_div _ _

/-- C101 (Matlab, violated): names are not anchored: a variable whose name ends with the key and that comes first is read instead. -/
theorem matlab_suffix_violated : ∃ txt : List Char, (∃ pre, txt = pre ++ "\nnx = 640;\n".toList) ∧
    (findall [.lit ("nx".toList ++ " = ".toList), .cap isDot 0, .lit [';']] txt).head? = some ["5".toList] := by
  exact ⟨"max_nx = 5;\nnx = 640;\n".toList, ⟨"max_nx = 5;".toList, by decide +kernel⟩, by decide +kernel⟩

/-! ### OpenCV -/

/-- Numerals separated by other characters. -/
def Words : List (List Char) → List Char → Prop
  | [], s => ∀ c ∈ s, isNum c = false
  | w :: ws, s => ∃ sep rest, s = sep ++ (w ++ rest) ∧ (∀ c ∈ sep, isNum c = false) ∧ (∀ c ∈ w, isNum c = true) ∧ w ≠ [] ∧
      (∀ c r, rest = c :: r → isNum c = false) ∧ Words ws rest

private theorem tokens_skip (sep s : List Char) (h : ∀ c ∈ sep, isNum c = false) :
    findall [.cap isNum 1] (sep ++ s) = findall [.cap isNum 1] s := by
  induction sep with
  | nil => rfl
  | cons c sep ih =>
    rw [List.cons_append, findall_skip1 _ (by decide) c, ih (fun c' hc' => h c' (by simp [hc']))]
    have hc := h c (by simp)
    unfold matchAt
    rw [List.takeWhile_cons_of_neg (by simp [hc])]
    rfl

/-- C101 (OpenCV): the numerals found are the words of the text made of digits, signs, points and `e`. -/
theorem num_tokens (ws : List (List Char)) (s : List Char) (h : Words ws s) : numTokens s = ws := by
  unfold numTokens
  induction ws generalizing s with
  | nil =>
    have := tokens_skip s [] h
    rw [List.append_nil] at this
    rw [this]; rfl
  | cons w ws ih =>
    obtain ⟨sep, rest, rfl, h1, h2, h3, h4, h5⟩ := h
    have hm : matchAt [.cap isNum 1] (w ++ rest) = some ([w], rest) :=
      cap_whole isNum 1 [] w rest ([], rest) h2 (List.length_pos_iff.2 h3) h4 rfl
    rw [tokens_skip _ _ h1, findall_hit _ (by decide) _ _ _ hm, List.map_cons, ih rest h5]
    rfl

/-- The text of the first `data` in an element with this tag. -/
def DataText (tag : List Char) (root : Xml) (t : Option (List Char)) : Prop :=
  (dataElems tag root).head?.bind Xml.text = t

/-- The element `x` is somewhere below `e`. -/
inductive Below (x : Xml) : Xml → Prop
  | child (e : Xml) : x ∈ e.children → Below x e
  | deeper (e c : Xml) : c ∈ e.children → Below x c → Below x e

mutual
private theorem mem_iter_tag (tag : List Char) (x : Xml) :
    (e : Xml) → (x ∈ iterTag tag e ↔ x.tag = tag ∧ (x = e ∨ Below x e))
  | .node t a tx tl ch => by
    have ih := mem_iter_tags tag x ch
    have hb : Below x (.node t a tx tl ch) ↔ ∃ c ∈ ch, x = c ∨ Below x c := by
      constructor
      · intro h
        cases h with
        | child _ h => exact ⟨x, h, Or.inl rfl⟩
        | deeper _ c h1 h2 => exact ⟨c, h1, Or.inr h2⟩
      · rintro ⟨c, hc, rfl | h⟩
        · exact .child _ hc
        · exact .deeper _ c hc h
    unfold iterTag
    rw [List.mem_append, ih, hb]
    by_cases h : t = tag
    · simp only [h, if_true, List.mem_singleton]
      constructor
      · rintro (rfl | ⟨h1, h2⟩)
        · exact ⟨rfl, Or.inl rfl⟩
        · exact ⟨h1, Or.inr h2⟩
      · rintro ⟨h1, h2 | h2⟩
        · exact Or.inl h2
        · exact Or.inr ⟨h1, h2⟩
    · simp only [h, if_false, List.not_mem_nil, false_or]
      refine and_congr_right fun h1 => ⟨Or.inr, ?_⟩
      rintro (rfl | h2)
      · exact absurd h1 h
      · exact h2
private theorem mem_iter_tags (tag : List Char) (x : Xml) :
    (l : List Xml) → (x ∈ Svg.iterTags tag l ↔ x.tag = tag ∧ ∃ c ∈ l, x = c ∨ Below x c)
  | [] => by simp [Svg.iterTags]
  | c :: cs => by
    unfold Svg.iterTags
    rw [List.mem_append, mem_iter_tag tag x c, mem_iter_tags tag x cs]
    simp only [List.mem_cons, exists_eq_or_imp]
    rw [← and_or_left]
end

private theorem iter_tags_append (tag : List Char) (l m : List Xml) : Svg.iterTags tag (l ++ m) = Svg.iterTags tag l ++ Svg.iterTags tag m := by
  induction l with
  | nil => rw [Svg.iterTags]; rfl
  | cons c l ih => rw [List.cons_append, Svg.iterTags, ih, Svg.iterTags, List.append_assoc]

private theorem iter_tags_none (tag : List Char) (l : List Xml) (h : ∀ c ∈ l, c.tag ≠ tag ∧ ∀ x, Below x c → x.tag ≠ tag) :
    Svg.iterTags tag l = [] := by
  rw [List.eq_nil_iff_forall_not_mem]
  intro x hx
  obtain ⟨h1, c, hc, rfl | h2⟩ := (mem_iter_tags tag x l).1 hx
  · exact (h _ hc).1 h1
  · exact (h c hc).2 x h2 h1

/-- C101 (OpenCV): the text used for a tag is that of the first `data` in the first element of the root with the tag,
whatever else the document and the element contain. -/
theorem data_text_first (tag : List Char) (root e d : Xml) (pre post before after : List Xml)
    (hr : root.children = pre ++ e :: post) (he : e.tag = tag) (hp : ∀ c ∈ pre, c.tag ≠ tag ∧ ∀ x, Below x c → x.tag ≠ tag)
    (hc : e.children = before ++ d :: after) (hd : d.tag = "data".toList) (hb : ∀ c ∈ before, c.tag ≠ "data".toList) :
    DataText tag root d.text := by
  unfold DataText dataElems
  rw [hr, iter_tags_append, iter_tags_none tag pre hp, List.nil_append, Svg.iterTags]
  have h1 : ∃ rest, iterTag tag e = e :: rest := by
    cases e with
    | node t a tx tl ch =>
      have : t = tag := he
      exact ⟨_, by rw [iterTag, if_pos this]; rfl⟩
  obtain ⟨rest, h1⟩ := h1
  rw [h1, List.cons_append, List.flatMap_cons, hc]
  have h2 : (before ++ d :: after).filter (fun c => decide (c.tag = "data".toList)) =
      d :: after.filter fun c => decide (c.tag = "data".toList) := by
    rw [List.filter_append, List.filter_eq_nil_iff.2 (fun c hc => by simpa using hb c hc), List.nil_append, List.filter_cons, if_pos (by simpa using hd)]
  rw [h2]
  rfl

/-- C101 (OpenCV): without an element with the tag, or without a `data` in these, there is no text. -/
theorem data_text_none (tag : List Char) (root : Xml)
    (h : ∀ e, Below e root → e.tag = tag → ∀ d ∈ e.children, d.tag ≠ "data".toList) : DataText tag root none := by
  unfold DataText dataElems
  have : (Svg.iterTags tag root.children).flatMap (fun e => e.children.filter fun c => decide (c.tag = "data".toList)) = [] := by
    rw [List.flatMap_eq_nil_iff]
    intro e he
    rw [List.filter_eq_nil_iff]
    intro d hd
    obtain ⟨h1, c, hc, h2⟩ := (mem_iter_tags tag e root.children).1 he
    have hb : Below e root := by
      rcases h2 with rfl | h2
      · exact .child _ hc
      · exact .deeper _ c hc h2
    simpa using h e hb h1 d hd
  rw [this]; rfl

/-- C101 (OpenCV): no text for the camera matrix, or a number of numerals other than nine, raises ValueError. -/
theorem opencv_xml_raises (imgsz : Fin 2 → ℤ) (root : Xml) :
    (DataText "camera_matrix".toList root none → opencvFromXml num imgsz root = .error .valueError) ∧
    (∀ t ws m, DataText "camera_matrix".toList root (some t) → Words ws t → ws.mapM num = .ok m → m.length ≠ 9 →
      opencvFromXml num imgsz root = .error .valueError) := by
  refine ⟨fun h => ?_, fun t ws m h1 h2 h3 h4 => ?_⟩
  · unfold DataText at h
    unfold opencvFromXml
    rw [h]
  · unfold DataText at h1
    have hm : numbers num t = .ok m := by
      unfold numbers
      rw [num_tokens ws t h2, h3]
    unfold opencvFromXml
    rw [h1]
    cases t with
    | nil => rfl
    | cons c t => simp [hm, h4, bind, Except.bind, throw, throwThe, MonadExceptOf.throw]

/-- C101 (OpenCV): given nine numerals for the camera matrix and at most twelve for distortion, the camera has the entries of the
matrix (row by row) and the coefficients, in the order k1, k2, p1, p2, k3, k4, k5, k6, s1, s2, s3, s4; 0 if missing. -/
theorem opencv_xml (imgsz : Fin 2 → ℤ) (root : Xml) (t : List Char) (ws : List (List Char)) (m : Fin 9 → ℝ) (ds : List ℝ)
    (h1 : DataText "camera_matrix".toList root (some t)) (h2 : Words ws t) (h3 : ws.mapM num = .ok (List.ofFn m))
    (h4 : (DataText "distortion_coefficients".toList root none ∧ ds = []) ∨
      ∃ t' ws', DataText "distortion_coefficients".toList root (some t') ∧ Words ws' t' ∧ ws'.mapM num = .ok ds) :
    ∃ cam, opencvFromXml num imgsz root = .ok cam ∧ cam.imgsz = imgsz ∧ cam.fx = m 0 ∧ cam.cx = m 2 ∧ cam.fy = m 4 ∧ cam.cy = m 5 ∧
      [cam.k1, cam.k2, cam.p1, cam.p2, cam.k3, cam.k4, cam.k5, cam.k6, cam.s1, cam.s2, cam.s3, cam.s4] =
        (List.range 12).map fun i => ds.getD i 0 := by
  have hne : t ≠ [] := by
    rintro rfl
    cases ws with
    | nil =>
      have h3 : Except.ok [] = (Except.ok (List.ofFn m) : Except Err (List ℝ)) := h3
      have := congrArg List.length (Except.ok.inj h3)
      simp at this
    | cons w ws =>
      obtain ⟨sep, rest, e, -, -, hw, -⟩ := h2
      simp at e
      exact hw e.2.1
  have hm : numbers num t = .ok (List.ofFn m) := by
    unfold numbers
    rw [num_tokens ws t h2, h3]
  have hof : List.ofFn m = [m 0, m 1, m 2, m 3, m 4, m 5, m 6, m 7, m 8] := by
    simp [List.ofFn_succ]
  have hd : distCoeffs num root = .ok ds := by
    unfold distCoeffs
    rcases h4 with ⟨h4, rfl⟩ | ⟨t', ws', h4, h5, h6⟩
    · unfold DataText at h4
      rw [h4]
    · unfold DataText at h4
      rw [h4]
      show numbers num t' = _
      unfold numbers
      rw [num_tokens ws' t' h5, h6]
  unfold DataText at h1
  refine ⟨OpenCV.fromArrays [[m 0, m 1, m 2], [m 3, m 4, m 5], [m 6, m 7, m 8]] ds imgsz, ?_, rfl, rfl, rfl, rfl, rfl, rfl⟩
  unfold opencvFromXml
  rw [h1]
  cases t with
  | nil => exact absurd rfl hne
  | cons c t =>
    simp [hm, hof, hd, bind, Except.bind, pure, Except.pure]

/-- C101 (OpenCV, violated): an exponent written with a capital letter splits a numeral in two, without an error for distortion
coefficients: `1E-2, 3` is read as 1, -2, 3. -/
theorem opencv_exponent_violated : numTokens "1E-2 3".toList = ["1".toList, "-2".toList, "3".toList] := by decide +kernel

/-! ### Agisoft -/

/-- The last non-empty text of an element with this tag. -/
def lastText (cs : List Xml) (tag : List Char) : Option (List Char) :=
  (cs.filterMap fun c => if c.tag = tag then c.text.filter fun t => !t.isEmpty else none).getLast?

/-- The number in the last non-empty element with this tag. -/
noncomputable def valueOf (cs : List Xml) (tag : String) : Option ℝ :=
  (lastText cs tag.toList).bind fun t => (num t).toOption

/-- Every number that is read is a numeral. -/
def Numerals (cs : List Xml) : Prop :=
  ∀ c ∈ cs, ∀ t, c.tag ∈ agiTags.map String.toList → c.text = some t → t ≠ [] → ∃ v, num t = .ok v

/-- All projections are `frame`. -/
def AllFrame (cs : List Xml) : Prop := ∀ c ∈ cs, c.tag = "projection".toList → c.text = some "frame".toList

private theorem lastText_cons (c : Xml) (cs : List Xml) (tag : List Char) :
    lastText (c :: cs) tag = (lastText cs tag).or (if c.tag = tag then c.text.filter fun t => !t.isEmpty else none) := by
  unfold lastText
  rw [List.filterMap_cons]
  split
  · rename_i h
    rw [h]; simp
  · rename_i t h
    rw [h, List.getLast?_cons]
    cases (cs.filterMap fun c => if c.tag = tag then c.text.filter fun t => !t.isEmpty else none).getLast? <;> rfl

private theorem agi_step_skip (c : Xml) (kw : List Char → Option ℝ) (hproj : ¬ (c.tag = "projection".toList ∧ c.text ≠ some "frame".toList))
    (h : ¬ ∃ t, c.text = some t ∧ t ≠ [] ∧ c.tag ∈ agiTags.map String.toList) : agiStep num kw c = .ok kw := by
  unfold agiStep
  rw [if_neg hproj]
  cases ht : c.text with
  | none => rfl
  | some t =>
    simp only
    rw [if_neg]
    rintro ⟨a, b⟩
    exact h ⟨t, ht, a, b⟩

private theorem agi_fold (cs : List Xml) (hn : Numerals num cs) (hf : AllFrame cs) (kw : List Char → Option ℝ) :
    ∃ kw', agiFold num cs kw = .ok kw' ∧ ∀ tag ∈ agiTags, kw' tag.toList = (valueOf num cs tag).or (kw tag.toList) := by
  induction cs generalizing kw with
  | nil => exact ⟨kw, rfl, fun _ _ => rfl⟩
  | cons c cs ih =>
    have hn' : Numerals num cs := fun c' hc' => hn c' (by simp [hc'])
    have hf' : AllFrame cs := fun c' hc' => hf c' (by simp [hc'])
    have hproj : ¬ (c.tag = "projection".toList ∧ c.text ≠ some "frame".toList) := by
      rintro ⟨a, b⟩
      exact b (hf c (by simp) a)
    by_cases h : ∃ t, c.text = some t ∧ t ≠ [] ∧ c.tag ∈ agiTags.map String.toList
    · obtain ⟨t, h1, h2, h3⟩ := h
      obtain ⟨v, hv⟩ := hn c (by simp) t h3 h1 h2
      have hs : agiStep num kw c = .ok fun k => if k = c.tag then some v else kw k := by
        unfold agiStep
        rw [if_neg hproj, h1]
        simp only
        rw [if_pos ⟨h2, h3⟩, hv]
      obtain ⟨kw', e1, e2⟩ := ih hn' hf' (fun k => if k = c.tag then some v else kw k)
      refine ⟨kw', by unfold agiFold; rw [hs]; exact e1, ?_⟩
      intro tag htag
      rw [e2 tag htag]
      unfold valueOf
      rw [lastText_cons, h1]
      cases hl : lastText cs tag.toList with
      | some t' =>
        have : ∃ v', num t' = .ok v' := by
          unfold lastText at hl
          have hmem := List.mem_of_getLast? hl
          rw [List.mem_filterMap] at hmem
          obtain ⟨c', hc', hc''⟩ := hmem
          split at hc''
          · rename_i htg
            rw [Option.filter_eq_some_iff] at hc''
            exact hn' c' hc' t' (by rw [htg]; exact List.mem_map_of_mem htag) hc''.1 (by simpa using hc''.2)
          · cases hc''
        obtain ⟨v', hv'⟩ := this
        simp [hv', Except.toOption]
      | none =>
        by_cases htg : c.tag = tag.toList
        · have hfl : Option.filter (fun t : List Char => !t.isEmpty) (some t) = some t := by simp [h2]
          simp [htg, hfl, hv, Except.toOption]
        · have : tag.toList ≠ c.tag := fun e => htg e.symm
          simp [htg, this]
    · obtain ⟨kw', e1, e2⟩ := ih hn' hf' kw
      refine ⟨kw', by unfold agiFold; rw [agi_step_skip num c kw hproj h]; exact e1, ?_⟩
      intro tag htag
      rw [e2 tag htag]
      unfold valueOf
      rw [lastText_cons]
      have : (if c.tag = tag.toList then c.text.filter fun t => !t.isEmpty else none) = none := by
        split
        · rename_i htg
          rw [Option.filter_eq_none_iff]
          intro t ht hte
          exact h ⟨t, ht, by simpa using hte, by rw [htg]; exact List.mem_map_of_mem htag⟩
        · rfl
      rw [this]
      simp

/-- C101 (Agisoft): with a first `calibration` element that has children, numerals where numbers are read, and no projection but
`frame`: the parameters read are those in the last element of each name, 0 if there is none; the image size is truncated. Without
width or height it is a KeyError, without focal length a TypeError. -/
theorem agisoft_xml (root e : Xml) (he : (iterTag "calibration".toList root).head? = some e) (hc : e.children ≠ [])
    (hn : Numerals num e.children) (hf : AllFrame e.children) :
    (∀ w h f, valueOf num e.children "width" = some w → valueOf num e.children "height" = some h →
      valueOf num e.children "f" = some f → agisoftFromXml num root = .ok
        { imgsz := ![truncate w, truncate h], f := f
          cx := (valueOf num e.children "cx").getD 0, cy := (valueOf num e.children "cy").getD 0
          k1 := (valueOf num e.children "k1").getD 0, k2 := (valueOf num e.children "k2").getD 0
          k3 := (valueOf num e.children "k3").getD 0, k4 := (valueOf num e.children "k4").getD 0
          p1 := (valueOf num e.children "p1").getD 0, p2 := (valueOf num e.children "p2").getD 0
          b1 := (valueOf num e.children "b1").getD 0, b2 := (valueOf num e.children "b2").getD 0 }) ∧
    (valueOf num e.children "width" = none ∨ valueOf num e.children "height" = none → agisoftFromXml num root = .error .keyError) ∧
    (valueOf num e.children "width" ≠ none → valueOf num e.children "height" ≠ none → valueOf num e.children "f" = none →
      agisoftFromXml num root = .error .typeError) := by
  obtain ⟨kw, h1, h2⟩ := agi_fold num e.children hn hf (fun _ => none)
  have hk : ∀ tag ∈ agiTags, kw tag.toList = valueOf num e.children tag := by
    intro tag ht
    rw [h2 tag ht]; simp
  have hr : agisoftFromXml num root = agiMake kw := by
    unfold agisoftFromXml
    rw [he]
    simp only
    rw [if_neg (by simpa using hc), h1]
  rw [hr]
  unfold agiMake
  rw [hk "width" (by decide), hk "height" (by decide), hk "f" (by decide), hk "cx" (by decide), hk "cy" (by decide),
    hk "k1" (by decide), hk "k2" (by decide), hk "k3" (by decide), hk "k4" (by decide), hk "p1" (by decide), hk "p2" (by decide),
    hk "b1" (by decide), hk "b2" (by decide)]
  refine ⟨?_, ?_, ?_⟩
  · intro w h f a b c
    rw [a, b, c]
  · intro h
    cases ha : valueOf num e.children "width" with
    | none => rfl
    | some w =>
      rcases h with h | h
      · rw [ha] at h; cases h
      · rw [h]
  · intro a b c
    obtain ⟨w, hw⟩ := Option.ne_none_iff_exists'.1 a
    obtain ⟨h, hh⟩ := Option.ne_none_iff_exists'.1 b
    rw [hw, hh, c]

/-- C101 (Agisoft): a document without a `calibration` element with children, or with another projection, is refused (ValueError
if texts are numerals). -/
theorem agisoft_refused (root : Xml) :
    ((iterTag "calibration".toList root).head? = none → agisoftFromXml num root = .error .valueError) ∧
    (∀ e, (iterTag "calibration".toList root).head? = some e → e.children = [] → agisoftFromXml num root = .error .valueError) ∧
    (∀ e, (iterTag "calibration".toList root).head? = some e → Numerals num e.children → ¬ AllFrame e.children →
      agisoftFromXml num root = .error .valueError) := by
  refine ⟨?_, ?_, ?_⟩
  · intro h; unfold agisoftFromXml; rw [h]
  · intro e h hc; unfold agisoftFromXml; rw [h]; simp [hc]
  · intro e h hn hf
    have key : ∀ (cs : List Xml) (kw : List Char → Option ℝ), Numerals num cs → ¬ AllFrame cs → agiFold num cs kw = .error .valueError := by
      intro cs
      induction cs with
      | nil => intro kw _ hf; exact absurd (fun c hc => by cases hc) hf
      | cons c cs ih =>
        intro kw hn hf
        have hn' : Numerals num cs := fun c' hc' => hn c' (by simp [hc'])
        unfold agiFold
        by_cases hproj : c.tag = "projection".toList ∧ c.text ≠ some "frame".toList
        · have : agiStep num kw c = .error .valueError := by unfold agiStep; rw [if_pos hproj]
          rw [this]
        · have hf' : ¬ AllFrame cs := by
            intro hall
            apply hf
            intro c' hc' ht
            rcases List.mem_cons.1 hc' with rfl | hc'
            · by_contra hne
              exact hproj ⟨ht, hne⟩
            · exact hall c' hc' ht
          have : ∃ kw', agiStep num kw c = .ok kw' := by
            by_cases h : ∃ t, c.text = some t ∧ t ≠ [] ∧ c.tag ∈ agiTags.map String.toList
            · obtain ⟨t, h1, h2, h3⟩ := h
              obtain ⟨v, hv⟩ := hn c (by simp) t h3 h1 h2
              refine ⟨fun k => if k = c.tag then some v else kw k, ?_⟩
              unfold agiStep
              rw [if_neg hproj, h1]
              simp only
              rw [if_pos ⟨h2, h3⟩, hv]
            · exact ⟨kw, agi_step_skip num c kw hproj h⟩
          obtain ⟨kw', hkw⟩ := this
          rw [hkw]
          exact ih kw' hn' hf'
    unfold agisoftFromXml
    rw [h]
    simp only
    rw [key _ _ hn hf]
    split <;> rfl

/-! ### Non-vacuity -/

private def exReport : List Char :=
  "%-- Focal length:\nfc = [ 3750.8 ; 3747.9 ];\n\nalpha_c = 0.0;\nfc_error = [ 1.80 ; 1.82 ];\nnx = 4288;\n".toList

private theorem onlyAt_of (l txt : List Char) (n : Nat)
    (h : (List.range (txt.length + 1)).all (fun i => !(l.isPrefixOf (txt.drop i)) || decide (i = n)) = true) (hl : l ≠ []) :
    ∀ i, l <+: txt.drop i → i = n := by
  intro i hp
  by_cases hi : i < txt.length + 1
  · rw [List.all_eq_true] at h
    have := h i (List.mem_range.2 hi)
    rw [List.isPrefixOf_iff_prefix.2 hp] at this
    simpa using this
  · rw [List.drop_eq_nil_of_le (by omega)] at hp
    exact absurd (List.prefix_nil.1 hp) hl

example : Assigned exReport "fc".toList ("[ ".toList ++ semis ["3750.8".toList, "3747.9".toList] ++ " ]".toList) :=
  ⟨"%-- Focal length:\n".toList, "\nalpha_c = 0.0;\nfc_error = [ 1.80 ; 1.82 ];\nnx = 4288;\n".toList, by decide +kernel,
    by decide +kernel, onlyAt_of _ _ _ (by decide +kernel) (by decide)⟩
example : Assigned exReport "nx".toList "4288".toList :=
  ⟨"%-- Focal length:\nfc = [ 3750.8 ; 3747.9 ];\n\nalpha_c = 0.0;\nfc_error = [ 1.80 ; 1.82 ];\n".toList, [], by decide +kernel,
    by decide +kernel, onlyAt_of _ _ _ (by decide +kernel) (by decide)⟩
example : Assigned exReport "alpha_c".toList "0.0".toList :=
  ⟨"%-- Focal length:\nfc = [ 3750.8 ; 3747.9 ];\n\n".toList, "fc_error = [ 1.80 ; 1.82 ];\nnx = 4288;\n".toList, by decide +kernel,
    by decide +kernel, onlyAt_of _ _ _ (by decide +kernel) (by decide)⟩
example : Plain "3750.8".toList := by unfold Plain; decide
example : findall (.lit ("fc".toList ++ " = [ ".toList) :: groupAtoms 2 ++ [.lit " ];".toList]) exReport =
    [["3750.8".toList, "3747.9".toList]] := by decide +kernel

private def exPm : List Char :=
  "  Focal Length\n    Value: 29.41 mm\n    Deviation: Focal: 0.001 mm\n  Fh - height\n    Value: 15.9 mm\n  K1 - radial\n    Value: 1.4e-004\n    Deviation: K1: 2.0e-007\n".toList

example : findall (.lit "Focal Length".toList :: pmAtoms false) exPm = [["29.41".toList]] := by decide +kernel
example : findall (.lit "Focal Length".toList :: pmAtoms true) exPm = [["0.001".toList]] := by decide +kernel
/- A value without deviation is followed by another parameter; its deviation is not taken from there. -/
example : findall (.lit "Fh".toList :: pmAtoms true) exPm = [] := by decide +kernel
example : HasValue exPm "K1".toList "1.4e-004".toList :=
  ⟨"  Focal Length\n    Value: 29.41 mm\n    Deviation: Focal: 0.001 mm\n  Fh - height\n    Value: 15.9 mm\n  ".toList, " - radial".toList,
    "    ".toList, "\n    Deviation: K1: 2.0e-007\n".toList, by decide +kernel, by decide +kernel, by decide +kernel, by decide +kernel,
    by decide +kernel, by decide, by
      intro c r e
      have : c = '\n' := by
        have := congrArg List.head? e
        simpa using this.symm
      rw [this]; decide⟩
example : HasDeviation exPm "K1".toList "2.0e-007".toList :=
  ⟨"  Focal Length\n    Value: 29.41 mm\n    Deviation: Focal: 0.001 mm\n  Fh - height\n    Value: 15.9 mm\n  ".toList, " - radial".toList,
    "    Value: 1.4e-004".toList, "    ".toList, "K1".toList, "\n".toList, by decide +kernel, by decide +kernel, by decide +kernel,
    by decide +kernel, by decide +kernel, by decide +kernel, by decide +kernel, by decide, by
      intro c r e
      have : c = '\n' := by
        have := congrArg List.head? e
        simpa using this.symm
      rw [this]; decide, by decide +kernel⟩

example : numTokens "\n 3.57e+03 0. 2.15e+03\n".toList = ["3.57e+03".toList, "0.".toList, "2.15e+03".toList] := by decide +kernel
example : Words ["1".toList, "2".toList] " 1, 2\n".toList :=
  ⟨" ".toList, ", 2\n".toList, by decide, by decide, by decide, by decide, by
      intro c r e
      have : c = ',' := by simpa using (congrArg List.head? e).symm
      rw [this]; decide,
    ", ".toList, "\n".toList, by decide, by decide, by decide, by decide, by
      intro c r e
      have : c = '\n' := by simpa using (congrArg List.head? e).symm
      rw [this]; decide, by unfold Words; decide⟩

private def exXml : Xml := .node "calibration".toList [] none none
  [.node "projection".toList [] (some "frame".toList) none [], .node "width".toList [] (some "640".toList) none [],
    .node "f".toList [] (some "500".toList) none []]
example : (iterTag "calibration".toList exXml).head? = some exXml := rfl
example : AllFrame exXml.children := by
  intro c hc ht
  simp only [exXml, Xml.children, List.mem_cons, List.not_mem_nil, or_false] at hc
  rcases hc with rfl | rfl | rfl
  · rfl
  · exact absurd ht (by decide)
  · exact absurd ht (by decide)
example : Numerals (fun t => if t = "640".toList then .ok 640 else if t = "500".toList then .ok 500 else .error .valueError) exXml.children := by
  intro c hc t htag ht hne
  simp only [exXml, Xml.children, List.mem_cons, List.not_mem_nil, or_false] at hc
  rcases hc with rfl | rfl | rfl
  · exact absurd htag (by decide)
  · obtain rfl := Option.some.inj ht; exact ⟨640, by simp⟩
  · obtain rfl := Option.some.inj ht; exact ⟨500, by simp⟩
example : lastText exXml.children "f".toList = some "500".toList := by decide +kernel

end Glimpse.Convert
