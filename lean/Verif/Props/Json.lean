import Verif.Model.Json
import Verif.Props.JsonText
import Mathlib.Tactic.Linarith
import Mathlib.Tactic.IntervalCases

/-!
C128: what `write_json` writes is read back by `read_json`, with and without indentation and flat arrays.
-/
set_option autoImplicit false
set_option linter.unusedSimpArgs false
set_option linter.unusedSectionVars false

namespace Glimpse.Json
open Glimpse Glimpse.JsonText

variable {N : Type}

/-! ### Specification: texts of a value -/

/-- Only whitespace. -/
def Blank (w : List Char) : Prop := ∀ c ∈ w, isSpace c = true

/-- Digits, at least one. -/
def Digits (t : List Char) : Prop := t ≠ [] ∧ ∀ c ∈ t, isDigit c = true

/-- A JSON number: sign, integer part without leading zeros, fraction, exponent. -/
def IsNumber (t : List Char) : Prop :=
  ∃ g i f e : List Char, t = g ++ i ++ f ++ e ∧ (g = [] ∨ g = ['-']) ∧ (i = ['0'] ∨ Digits i ∧ i.head? ≠ some '0') ∧
    (f = [] ∨ ∃ d, f = '.' :: d ∧ Digits d) ∧
    (e = [] ∨ ∃ x s d, e = x :: (s ++ d) ∧ (x = 'e' ∨ x = 'E') ∧ (s = [] ∨ s = ['-'] ∨ s = ['+']) ∧ Digits d)

/-- A faithful format: what is written is a JSON number and is read as the number it was written for. -/
def NumFmt.Faithful (F : NumFmt N) : Prop := ∀ x, IsNumber (F.write x) ∧ F.read (F.write x) = x

mutual
/-- `s` is a JSON text of the value, with any whitespace between its parts. -/
def Renders (F : NumFmt N) : Json N → List Char → Prop
  | .null, s => s = "null".toList
  | .bool b, s => s = if b then "true".toList else "false".toList
  | .num x, s => s = F.write x
  | .nan, s => s = "NaN".toList
  | .inf, s => s = "Infinity".toList
  | .ninf, s => s = "-Infinity".toList
  | .str t, s => s = quote t
  | .arr l, s => ∃ w t, Blank w ∧ RendersItems F l t ∧ s = '[' :: (w ++ t ++ [']'])
  | .obj m, s => ∃ w t, Blank w ∧ RendersMembers F m t ∧ s = '{' :: (w ++ t ++ ['}'])
/-- Values separated by commas. -/
def RendersItems (F : NumFmt N) : Items N → List Char → Prop
  | .nil, t => t = []
  | .cons v .nil, t => ∃ a w, Renders F v a ∧ Blank w ∧ t = a ++ w
  | .cons v (.cons v' l), t => ∃ a w w' b, Renders F v a ∧ Blank w ∧ Blank w' ∧ RendersItems F (.cons v' l) b ∧ t = a ++ w ++ ',' :: (w' ++ b)
/-- Keys and values separated by colons and commas. -/
def RendersMembers (F : NumFmt N) : Members N → List Char → Prop
  | .nil, t => t = []
  | .cons k v .nil, t => ∃ w1 w2 a w, Blank w1 ∧ Blank w2 ∧ Renders F v a ∧ Blank w ∧ t = quote k ++ w1 ++ ':' :: (w2 ++ a ++ w)
  | .cons k v (.cons k' v' m), t => ∃ w1 w2 a w w' b, Blank w1 ∧ Blank w2 ∧ Renders F v a ∧ Blank w ∧ Blank w' ∧
      RendersMembers F (.cons k' v' m) b ∧ t = quote k ++ w1 ++ ':' :: (w2 ++ a ++ w ++ ',' :: (w' ++ b))
end

/-- The keys of an object. -/
def Members.keys : Members N → List (List Char)
  | .nil => []
  | .cons k _ m => k :: m.keys

mutual
/-- No object has a key twice (as in every dictionary). -/
def Distinct : Json N → Prop
  | .arr l => DistinctItems l
  | .obj m => m.keys.Nodup ∧ DistinctMembers m
  | _ => True
/-- The same for all items. -/
def DistinctItems : Items N → Prop
  | .nil => True
  | .cons v l => Distinct v ∧ DistinctItems l
/-- The same for all values. -/
def DistinctMembers : Members N → Prop
  | .nil => True
  | .cons _ v m => Distinct v ∧ DistinctMembers m
end

/-! ### Strings -/

theorem hexVal_hexDigit (d : Nat) (h : d < 16) : hexVal (hexDigit d) = some d := by
  interval_cases d <;> rfl

theorem hex4_u4 (n : Nat) (h : n < 65536) (r : List Char) :
    hex4 (hexDigit (n / 4096 % 16) :: hexDigit (n / 256 % 16) :: hexDigit (n / 16 % 16) :: hexDigit (n % 16) :: r) = some (n, r) := by
  simp only [hex4, hexVal_hexDigit _ (Nat.mod_lt _ (by norm_num)), bind, Option.bind]
  congr 2
  omega

theorem char_toNat_valid (c : Char) : c.toNat < 0xd800 ∨ (0xdfff < c.toNat ∧ c.toNat < 0x110000) := c.valid

theorem scanU_u4 (n : Nat) (h : n < 65536) (hs : n < 0xd800 ∨ 0xdfff < n) (r : List Char) :
    scanEscape ((u4 n).tail ++ r) = some (Char.ofNat n, r) := by
  simp only [u4, List.tail_cons, List.cons_append, List.nil_append, scanEscape, scanU, hex4_u4 n h, bind, Option.bind]
  rw [if_neg (by omega)]
  simp only [codeChar, if_pos hs]

theorem scanU_pair (n m : Nat) (hn : 0xd800 ≤ n ∧ n ≤ 0xdbff) (hm : 0xdc00 ≤ m ∧ m ≤ 0xdfff) (r : List Char) :
    scanEscape ((u4 n).tail ++ (u4 m ++ r)) = some (Char.ofNat (65536 + (n - 0xd800) * 1024 + (m - 0xdc00)), r) := by
  simp only [u4, List.tail_cons, List.cons_append, List.nil_append, scanEscape, scanU, hex4_u4 n (by omega), bind, Option.bind]
  rw [if_pos hn]
  simp only [hex4_u4 m (by omega)]
  rw [if_pos hm]

/-- One character of a string is read back. -/
theorem scan_escape (c : Char) (n : Nat) (r : List Char) :
    scanString (n + 1) (escape c ++ r) = (scanString n r).map fun x => (c :: x.1, x.2) := by
  have hstep : ∀ (t r' : List Char), scanEscape t = some (c, r') →
      scanString (n + 1) ('\\' :: t) = (scanString n r').map fun x => (c :: x.1, x.2) := by
    intro t r' h
    simp only [scanString, h, bind, Option.bind]
    rw [if_neg (by decide), if_pos trivial]
    cases scanString n r' <;> rfl
  have hv := char_toNat_valid c
  unfold escape
  split_ifs with h1 h2 h3 h4 h5 h6 h7 h8 h9
  · subst h1; exact hstep _ _ rfl
  · subst h2; exact hstep _ _ rfl
  · subst h3; exact hstep _ _ rfl
  · subst h4; exact hstep _ _ rfl
  · subst h5; exact hstep _ _ rfl
  · subst h6; exact hstep _ _ rfl
  · subst h7; exact hstep _ _ rfl
  · simp only [List.cons_append, List.nil_append, scanString]
    rw [if_neg h1, if_neg h2, if_neg (by omega)]
    cases scanString n r <;> rfl
  · have : u4 c.toNat ++ r = '\\' :: ((u4 c.toNat).tail ++ r) := rfl
    rw [this]
    apply hstep
    rw [scanU_u4 _ h9 (by omega), Char.ofNat_toNat]
  · have : ∀ a b, u4 a ++ u4 b ++ r = '\\' :: ((u4 a).tail ++ (u4 b ++ r)) := fun a b => rfl
    rw [this]
    apply hstep
    rw [scanU_pair _ _ (by omega) (by omega)]
    have : 65536 + (55296 + (c.toNat - 65536) / 1024 - 55296) * 1024 + (56320 + (c.toNat - 65536) % 1024 - 56320) = c.toNat := by omega
    rw [this, Char.ofNat_toNat]

theorem escape_length (c : Char) : 1 ≤ (escape c).length := by
  unfold escape
  split_ifs <;> simp [u4]

/-- A string is read back. -/
theorem scan_quote (s r : List Char) (n : Nat) (hn : s.length < n) : scanString n (s.flatMap escape ++ '"' :: r) = some (s, r) := by
  induction s generalizing n with
  | nil =>
    obtain ⟨n, rfl⟩ : ∃ k, n = k + 1 := ⟨n - 1, by simp at hn; omega⟩
    simp [scanString]
  | cons c s ih =>
    simp only [List.length_cons] at hn
    obtain ⟨n, rfl⟩ : ∃ k, n = k + 1 := ⟨n - 1, by omega⟩
    rw [List.flatMap_cons, List.append_assoc, scan_escape, ih n (by omega)]
    rfl

theorem flatMap_escape_length (s : List Char) : s.length ≤ (s.flatMap escape).length := by
  induction s with
  | nil => simp
  | cons c s ih =>
    have := escape_length c
    simp only [List.flatMap_cons, List.length_append, List.length_cons]
    omega

theorem scan_quoted (s r : List Char) :
    scanString (s.flatMap escape ++ '"' :: r).length (s.flatMap escape ++ '"' :: r) = some (s, r) := by
  apply scan_quote
  have := flatMap_escape_length s
  simp only [List.length_append, List.length_cons]
  omega

/-! ### Numbers -/

/-- What can follow a value. -/
def Ends (r : List Char) : Prop := ∀ c, r.head? = some c → isDigit c = false ∧ c ≠ '.' ∧ c ≠ 'e' ∧ c ≠ 'E'

theorem takeWhile_digits (d r : List Char) (hd : ∀ c ∈ d, isDigit c = true) (hr : ∀ c, r.head? = some c → isDigit c = false) :
    (d ++ r).takeWhile isDigit = d ∧ (d ++ r).dropWhile isDigit = r := by
  induction d with
  | nil =>
    cases r with
    | nil => simp
    | cons c r =>
      have := hr c rfl
      simp [this]
  | cons c d ih =>
    have hc := hd c List.mem_cons_self
    obtain ⟨h1, h2⟩ := ih fun x hx => hd x (List.mem_cons_of_mem _ hx)
    simp [hc, h1, h2]

theorem scanFrac_none (r : List Char) (hr : r.head? ≠ some '.') : scanFrac r = ([], r) := by
  unfold scanFrac
  split
  · simp at hr
  · rfl

theorem scanExp_none (r : List Char) (hr : r.head? ≠ some 'e' ∧ r.head? ≠ some 'E') : scanExp r = ([], r) := by
  unfold scanExp
  split
  · rename_i c r'
    rw [if_neg (by rintro (rfl | rfl) <;> simp at hr)]
  · rfl

theorem scanNumber_ok (t : List Char) (ht : IsNumber t) (r : List Char) (hr : Ends r) : scanNumber (t ++ r) = some (t, r) := by
  obtain ⟨g, i, f, e, rfl, hg, hi, hf, he⟩ := ht
  -- exponent
  have hdig : ∀ c, r.head? = some c → isDigit c = false := fun c hc => (hr c hc).1
  have h1 : scanExp (e ++ r) = (e, r) := by
    rcases he with rfl | ⟨x, s, d, rfl, hx, hs, hd⟩
    · rw [List.nil_append]
      apply scanExp_none
      constructor
      · intro h; exact (hr _ h).2.2.1 rfl
      · intro h; exact (hr _ h).2.2.2 rfl
    · obtain ⟨q1, q2⟩ := takeWhile_digits d r hd.2 hdig
      have hs' : scanSign (s ++ (d ++ r)) = (s, d ++ r) := by
        rcases hs with rfl | rfl | rfl
        · rw [List.nil_append]
          obtain ⟨y, d', hy⟩ : ∃ y d', d = y :: d' := by
            cases d with
            | nil => exact absurd rfl hd.1
            | cons y d' => exact ⟨y, d', rfl⟩
          subst hy
          have hyd := hd.2 y List.mem_cons_self
          unfold scanSign
          split
          · rename_i heq
            simp only [List.cons_append, List.cons.injEq] at heq
            rw [heq.1] at hyd
            exact absurd hyd (by decide)
          · rename_i heq
            simp only [List.cons_append, List.cons.injEq] at heq
            rw [heq.1] at hyd
            exact absurd hyd (by decide)
          · rfl
        · rfl
        · rfl
      simp only [List.cons_append, List.append_assoc, scanExp, if_pos hx, hs', q1, q2, if_neg hd.1]
  -- what follows the fraction
  have hE : ∀ c, (e ++ r).head? = some c → isDigit c = false ∧ c ≠ '.' := by
    intro c hc
    rcases he with rfl | ⟨x, s, d, rfl, hx, _, _⟩
    · exact ⟨(hr c hc).1, (hr c hc).2.1⟩
    · simp only [List.cons_append, List.head?_cons, Option.some.injEq] at hc
      subst hc
      rcases hx with rfl | rfl <;> exact ⟨by decide, by decide⟩
  have h2 : scanFrac (f ++ (e ++ r)) = (f, e ++ r) := by
    rcases hf with rfl | ⟨d, rfl, hd⟩
    · rw [List.nil_append]
      apply scanFrac_none
      intro h
      exact (hE _ h).2 rfl
    · obtain ⟨q1, q2⟩ := takeWhile_digits d (e ++ r) hd.2 fun c hc => (hE c hc).1
      simp only [List.cons_append, scanFrac, q1, q2, if_neg hd.1]
  have hF : ∀ c, (f ++ (e ++ r)).head? = some c → isDigit c = false := by
    intro c hc
    rcases hf with rfl | ⟨d, rfl, hd⟩
    · exact (hE c hc).1
    · simp only [List.cons_append, List.head?_cons, Option.some.injEq] at hc
      subst hc
      decide
  have h3 : scanInt (i ++ (f ++ (e ++ r))) = some (i, f ++ (e ++ r)) := by
    rcases hi with rfl | ⟨hd, h0⟩
    · rfl
    · obtain ⟨q1, q2⟩ := takeWhile_digits i (f ++ (e ++ r)) hd.2 hF
      cases i with
      | nil => exact absurd rfl hd.1
      | cons c i =>
        have hc := hd.2 c List.mem_cons_self
        obtain ⟨q1, q2⟩ := takeWhile_digits i (f ++ (e ++ r)) (fun x hx => hd.2 x (List.mem_cons_of_mem _ hx)) hF
        unfold scanInt
        split
        · rename_i heq
          simp only [List.cons_append, List.cons.injEq] at heq
          exact absurd (by rw [heq.1]; rfl) h0
        · rename_i heq
          simp only [List.cons_append, List.cons.injEq] at heq
          obtain ⟨rfl, rfl⟩ := heq
          rw [if_pos hc, q1, q2]
        · rename_i heq; simp at heq
  have h4 : ∀ x, (i ++ x).head? ≠ some '-' := by
    intro x h
    rcases hi with rfl | ⟨hd, _⟩
    · simp at h
    · cases i with
      | nil => exact absurd rfl hd.1
      | cons c i =>
        simp only [List.cons_append, List.head?_cons, Option.some.injEq] at h
        have := hd.2 c List.mem_cons_self
        rw [h] at this
        exact absurd this (by decide)
  have e0 : g ++ i ++ f ++ e ++ r = g ++ (i ++ (f ++ (e ++ r))) := by simp only [List.append_assoc]
  rw [e0]
  unfold scanNumber
  rcases hg with rfl | rfl
  · have hm : scanMinus (i ++ (f ++ (e ++ r))) = ([], i ++ (f ++ (e ++ r))) := by
      unfold scanMinus
      split
      · rename_i heq
        exact absurd (by rw [heq]; rfl) (h4 (f ++ (e ++ r)))
      · rfl
    simp only [List.nil_append, hm, h3, bind, Option.bind, h2, h1]
  · simp only [List.cons_append, List.nil_append, scanMinus, h3, bind, Option.bind, h2, h1]

theorem number_head (t : List Char) (ht : IsNumber t) : ∃ c s, t = c :: s ∧ (c = '-' ∨ isDigit c = true) := by
  obtain ⟨g, i, f, e, rfl, hg, hi, _, _⟩ := ht
  rcases hg with rfl | rfl
  · rcases hi with rfl | ⟨hd, _⟩
    · exact ⟨'0', f ++ e, rfl, Or.inr (by decide)⟩
    · cases i with
      | nil => exact absurd rfl hd.1
      | cons c i => exact ⟨c, i ++ f ++ e, rfl, Or.inr (hd.2 c List.mem_cons_self)⟩
  · exact ⟨'-', i ++ f ++ e, rfl, Or.inl rfl⟩

theorem number_chars (t : List Char) (ht : IsNumber t) (c : Char) (hc : c ∈ t) : isDigit c = true ∨ c ∈ ['-', '+', '.', 'e', 'E'] := by
  obtain ⟨g, i, f, e, rfl, hg, hi, hf, he⟩ := ht
  simp only [List.mem_append] at hc
  rcases hc with ((hc | hc) | hc) | hc
  · rcases hg with rfl | rfl <;> simp_all
  · rcases hi with rfl | ⟨hd, _⟩
    · left; simp at hc; subst hc; decide
    · exact Or.inl (hd.2 c hc)
  · rcases hf with rfl | ⟨d, rfl, hd⟩
    · simp at hc
    · rcases List.mem_cons.mp hc with rfl | hc
      · simp
      · exact Or.inl (hd.2 c hc)
  · rcases he with rfl | ⟨x, s, d, rfl, hx, hs, hd⟩
    · simp at hc
    · rcases List.mem_cons.mp hc with rfl | hc
      · rcases hx with rfl | rfl <;> simp
      · rcases List.mem_append.mp hc with hc | hc
        · rcases hs with rfl | rfl | rfl <;> simp_all
        · exact Or.inl (hd.2 c hc)

/-! ### Values -/

theorem skip_blank (w s : List Char) (hw : Blank w) (hs : ∀ c, s.head? = some c → isSpace c = false) : skip (w ++ s) = s := by
  unfold skip
  induction w with
  | nil =>
    cases s with
    | nil => rfl
    | cons c s => simp [hs c rfl]
  | cons c w ih =>
    have hc := hw c List.mem_cons_self
    simp only [List.cons_append, List.dropWhile_cons, hc, if_true]
    exact ih fun x hx => hw x (List.mem_cons_of_mem _ hx)

theorem digit_facts (c : Char) (h : c = '-' ∨ isDigit c = true) :
    isSpace c = false ∧ c ≠ ']' ∧ c ≠ '}' ∧ c ≠ '"' ∧ c ≠ '{' ∧ c ≠ '[' ∧ c ≠ 'n' ∧ c ≠ 't' ∧ c ≠ 'f' ∧ c ≠ ',' := by
  rcases h with rfl | h
  · decide
  · have hx : ∀ x : Char, isDigit x = false → c ≠ x := by
      rintro x hx rfl
      rw [h] at hx
      cases hx
    refine ⟨?_, hx _ (by decide), hx _ (by decide), hx _ (by decide), hx _ (by decide), hx _ (by decide), hx _ (by decide), hx _ (by decide),
      hx _ (by decide), hx _ (by decide)⟩
    have h1 := hx ' ' (by decide)
    have h2 := hx '\t' (by decide)
    have h3 := hx '\n' (by decide)
    have h4 := hx '\r' (by decide)
    simp [isSpace, h1, h2, h3, h4]

theorem renders_head (F : NumFmt N) (hF : F.Faithful) (v : Json N) (a : List Char) (h : Renders F v a) :
    ∃ c s, a = c :: s ∧ isSpace c = false ∧ c ≠ ']' ∧ c ≠ '}' := by
  cases v with
  | null => subst h; exact ⟨_, _, rfl, by decide, by decide, by decide⟩
  | bool b => simp only [Renders] at h; subst h; cases b <;> exact ⟨_, _, rfl, by decide, by decide, by decide⟩
  | num x =>
    simp only [Renders] at h
    subst h
    obtain ⟨c, s, h1, h2⟩ := number_head _ (hF x).1
    obtain ⟨q1, q2, q3, _⟩ := digit_facts c h2
    exact ⟨c, s, h1, q1, q2, q3⟩
  | nan => subst h; exact ⟨_, _, rfl, by decide, by decide, by decide⟩
  | inf => subst h; exact ⟨_, _, rfl, by decide, by decide, by decide⟩
  | ninf => subst h; exact ⟨_, _, rfl, by decide, by decide, by decide⟩
  | str t => simp only [Renders] at h; subst h; exact ⟨_, _, rfl, by decide, by decide, by decide⟩
  | arr l => obtain ⟨w, t, _, _, rfl⟩ := h; exact ⟨_, _, rfl, by decide, by decide, by decide⟩
  | obj l => obtain ⟨w, t, _, _, rfl⟩ := h; exact ⟨_, _, rfl, by decide, by decide, by decide⟩

theorem parse_atom (F : NumFmt N) (n : Nat) (c : Char) (s : List Char) (h1 : c ≠ '"') (h2 : c ≠ '{') (h3 : c ≠ '[') :
    parseValue F (n + 1) (c :: s) = scanAtom F (c :: s) := by
  rw [parseValue]
  all_goals
    intro r h
    simp only [List.cons.injEq] at h
    first | exact h1 h.1 | exact h2 h.1 | exact h3 h.1

theorem scan_number_atom (F : NumFmt N) (t r : List Char) (ht : IsNumber t) (hr : Ends r) :
    scanAtom F (t ++ r) = some (.num (F.read t), r) := by
  have hn := scanNumber_ok t ht r hr
  obtain ⟨c, s, rfl, hc⟩ := number_head t ht
  obtain ⟨_, _, _, _, _, _, q1, q2, q3, _⟩ := digit_facts c hc
  have w1 : word "null" (c :: s ++ r) = none := by simp [word, List.isPrefixOf, Ne.symm q1]
  have w2 : word "true" (c :: s ++ r) = none := by simp [word, List.isPrefixOf, Ne.symm q2]
  have w3 : word "false" (c :: s ++ r) = none := by simp [word, List.isPrefixOf, Ne.symm q3]
  unfold scanAtom
  rw [w1, w2, w3, hn]

theorem ends_of_head (c : Char) (s : List Char) (h : isDigit c = false ∧ c ≠ '.' ∧ c ≠ 'e' ∧ c ≠ 'E') : Ends (c :: s) := by
  intro x hx
  simp only [List.head?_cons, Option.some.injEq] at hx
  subst hx
  exact h

theorem ends_blank (w s : List Char) (hw : Blank w) (hs : Ends s) : Ends (w ++ s) := by
  cases w with
  | nil => exact hs
  | cons c w =>
    have hc := hw c List.mem_cons_self
    simp only [isSpace, Bool.or_eq_true, beq_iff_eq] at hc
    apply ends_of_head
    rcases hc with ((rfl | rfl) | rfl) | rfl <;> decide

/-- Two lists of members one after the other. -/
def Members.append : Members N → Members N → Members N
  | .nil, m => m
  | .cons k v a, m => .cons k v (a.append m)

theorem Members.append_nil : ∀ m : Members N, m.append .nil = m
  | .nil => rfl
  | .cons k v m => by rw [Members.append, Members.append_nil m]

theorem Members.append_assoc : ∀ a b c : Members N, (a.append b).append c = a.append (b.append c)
  | .nil, _, _ => rfl
  | .cons k v m, b, c => by simp only [Members.append, Members.append_assoc m b c]

theorem Members.set_new (k : List Char) (v : Json N) : ∀ d : Members N, k ∉ d.keys → d.set k v = d.append (.cons k v .nil)
  | .nil, _ => rfl
  | .cons k' v' m, h => by
    simp only [Members.keys, List.mem_cons, not_or] at h
    simp only [Members.set, Members.append, if_neg (Ne.symm h.1), Members.set_new k v m h.2]

theorem Members.keys_append : ∀ a b : Members N, (a.append b).keys = a.keys ++ b.keys
  | .nil, _ => rfl
  | .cons k v m, b => by simp only [Members.append, Members.keys, Members.keys_append m b, List.cons_append]

theorem Members.into_append : ∀ m d : Members N, (d.keys ++ m.keys).Nodup → m.into d = d.append m
  | .nil, d, _ => by rw [Members.into, Members.append_nil]
  | .cons k v m, d, h => by
    simp only [Members.keys] at h
    have hk : k ∉ d.keys := by
      rw [List.nodup_append] at h
      intro hc
      exact h.2.2 k hc k List.mem_cons_self rfl
    rw [Members.into, Members.set_new k v d hk, Members.into_append m _ (by
      rw [Members.keys_append]
      simpa [Members.keys] using h), Members.append_assoc]
    rfl

/-- A dictionary made of distinct keys has them in order. -/
theorem Members.into_nil (m : Members N) (h : m.keys.Nodup) : m.into .nil = m := by
  rw [Members.into_append m .nil (by simpa [Members.keys] using h)]
  rfl

theorem items_head (F : NumFmt N) (hF : F.Faithful) (v : Json N) (l : Items N) (t : List Char) (h : RendersItems F (.cons v l) t) :
    ∃ c s, t = c :: s ∧ isSpace c = false ∧ c ≠ ']' := by
  cases l with
  | nil =>
    obtain ⟨a, w, h1, _, rfl⟩ := h
    obtain ⟨c, s, rfl, q1, q2, _⟩ := renders_head F hF v a h1
    exact ⟨c, s ++ w, rfl, q1, q2⟩
  | cons v' l =>
    obtain ⟨a, w, w', b, h1, _, _, _, rfl⟩ := h
    obtain ⟨c, s, rfl, q1, q2, _⟩ := renders_head F hF v a h1
    exact ⟨c, s ++ w ++ ',' :: (w' ++ b), by simp, q1, q2⟩

theorem members_head (F : NumFmt N) (k : List Char) (v : Json N) (m : Members N) (t : List Char)
    (h : RendersMembers F (.cons k v m) t) : ∃ s, t = '"' :: s := by
  cases m with
  | nil => obtain ⟨w1, w2, a, w, _, _, _, _, rfl⟩ := h; exact ⟨_, rfl⟩
  | cons k' v' m => obtain ⟨w1, w2, a, w, w', b, _, _, _, _, _, _, rfl⟩ := h; exact ⟨_, rfl⟩

theorem head_of_cons {c : Char} {s : List Char} (h : isSpace c = false) : ∀ x, (c :: s).head? = some x → isSpace x = false := by
  intro x hx
  simp only [List.head?_cons, Option.some.injEq] at hx
  subst hx
  exact h

mutual
/-- A text of a value is read as this value, whatever follows. -/
theorem parse_value (F : NumFmt N) (hF : F.Faithful) (v : Json N) (a r : List Char) (n : Nat) (h : Renders F v a) (hd : Distinct v)
    (hr : Ends r) (hn : 2 * a.length ≤ n) : parseValue F n (a ++ r) = some (v, r) := by
  match v, h, hd with
  | .null, h, _ => 
    simp only [Renders] at h; subst h
    obtain ⟨n, rfl⟩ : ∃ k, n = k + 1 := ⟨n - 1, by simp at hn; omega⟩
    rfl
  | .bool b, h, _ => 
    simp only [Renders] at h; subst h
    obtain ⟨n, rfl⟩ : ∃ k, n = k + 1 := ⟨n - 1, by cases b <;> simp at hn <;> omega⟩
    cases b <;> rfl
  | .num x, h, _ =>
    simp only [Renders] at h; subst h
    obtain ⟨hx, hx'⟩ := hF x
    have hs := scan_number_atom F (F.write x) r hx hr
    obtain ⟨c, s, he, hc⟩ := number_head _ hx
    rw [hx'] at hs
    rw [he] at hs hn ⊢
    obtain ⟨n, rfl⟩ : ∃ k, n = k + 1 := ⟨n - 1, by simp at hn; omega⟩
    obtain ⟨_, _, _, q1, q2, q3, _⟩ := digit_facts c hc
    rw [List.cons_append, parse_atom F n c _ q1 q2 q3]
    exact hs
  | .nan, h, _ => 
    simp only [Renders] at h; subst h
    obtain ⟨n, rfl⟩ : ∃ k, n = k + 1 := ⟨n - 1, by simp at hn; omega⟩
    rfl
  | .inf, h, _ => 
    simp only [Renders] at h; subst h
    obtain ⟨n, rfl⟩ : ∃ k, n = k + 1 := ⟨n - 1, by simp at hn; omega⟩
    rfl
  | .ninf, h, _ => 
    simp only [Renders] at h; subst h
    obtain ⟨n, rfl⟩ : ∃ k, n = k + 1 := ⟨n - 1, by simp at hn; omega⟩
    rfl
  | .str t, h, _ =>
    simp only [Renders] at h; subst h
    obtain ⟨n, rfl⟩ : ∃ k, n = k + 1 := ⟨n - 1, by simp [quote] at hn; omega⟩
    have e : quote t ++ r = '"' :: (t.flatMap escape ++ '"' :: r) := by simp [quote]
    rw [e, parseValue]
    simp only [scan_quoted, bind, Option.bind]
  | .arr .nil, h, _ =>
    obtain ⟨w, t, hw, ht, rfl⟩ := h
    simp only [RendersItems] at ht
    subst ht
    obtain ⟨n, rfl⟩ : ∃ k, n = k + 1 := ⟨n - 1, by simp at hn; omega⟩
    have e : '[' :: (w ++ [] ++ [']']) ++ r = '[' :: (w ++ ']' :: r) := by simp
    rw [e, parseValue]
    simp only [skip_blank w (']' :: r) hw (head_of_cons (by decide))]
  | .arr (.cons v l), h, hd =>
    obtain ⟨w, t, hw, ht, rfl⟩ := h
    obtain ⟨n, rfl⟩ : ∃ k, n = k + 1 := ⟨n - 1, by simp at hn; omega⟩
    have hp := parse_items F hF (.cons v l) t r n (by simp) ht hd (by
      simp only [List.length_cons, List.length_append, List.length_nil] at hn; omega)
    obtain ⟨c, s, hcs, q1, q2⟩ := items_head F hF v l t ht
    have e : '[' :: (w ++ t ++ [']']) ++ r = '[' :: (w ++ (t ++ ']' :: r)) := by simp
    rw [e, parseValue]
    have hsk : skip (w ++ (t ++ ']' :: r)) = t ++ ']' :: r := skip_blank w _ hw (by rw [hcs]; exact head_of_cons q1)
    simp only [hsk]
    split
    · rename_i heq
      rw [hcs] at heq
      simp only [List.cons_append, List.cons.injEq] at heq
      exact absurd heq.1 q2
    · simp only [hp, bind, Option.bind]
  | .obj .nil, h, _ =>
    obtain ⟨w, t, hw, ht, rfl⟩ := h
    simp only [RendersMembers] at ht
    subst ht
    obtain ⟨n, rfl⟩ : ∃ k, n = k + 1 := ⟨n - 1, by simp at hn; omega⟩
    have e : '{' :: (w ++ [] ++ ['}']) ++ r = '{' :: (w ++ '}' :: r) := by simp
    rw [e, parseValue]
    simp only [skip_blank w ('}' :: r) hw (head_of_cons (by decide))]
  | .obj (.cons k v m), h, hd =>
    obtain ⟨w, t, hw, ht, rfl⟩ := h
    obtain ⟨n, rfl⟩ : ∃ k, n = k + 1 := ⟨n - 1, by simp at hn; omega⟩
    have hp := parse_members F hF (.cons k v m) t r n (by simp) ht hd.2 (by
      simp only [List.length_cons, List.length_append, List.length_nil] at hn; omega)
    obtain ⟨s, hcs⟩ := members_head F k v m t ht
    have e : '{' :: (w ++ t ++ ['}']) ++ r = '{' :: (w ++ (t ++ '}' :: r)) := by simp
    rw [e, parseValue]
    have hsk : skip (w ++ (t ++ '}' :: r)) = t ++ '}' :: r := skip_blank w _ hw (by rw [hcs]; exact head_of_cons (by decide))
    simp only [hsk]
    split
    · rename_i heq
      rw [hcs] at heq
      simp at heq
    · simp only [hp, bind, Option.bind, Members.into_nil _ hd.1]
termination_by structural v

theorem parse_items (F : NumFmt N) (hF : F.Faithful) (l : Items N) (t r : List Char) (n : Nat) (hl : l ≠ .nil) (h : RendersItems F l t)
    (hd : DistinctItems l) (hn : 2 * t.length + 1 ≤ n) : parseItems F n (t ++ ']' :: r) = some (l, r) := by
  match l, h, hd, hl with
  | .cons v .nil, h, hd, _ =>
    obtain ⟨a, w, ha, hw, rfl⟩ := h
    obtain ⟨n, rfl⟩ : ∃ k, n = k + 1 := ⟨n - 1, by omega⟩
    simp only [List.length_append] at hn
    have hv := parse_value F hF v a (w ++ ']' :: r) n ha hd.1 (ends_blank w _ hw (ends_of_head _ _ (by decide))) (by omega)
    rw [List.append_assoc, parseItems]
    simp only [hv, bind, Option.bind, skip_blank w (']' :: r) hw (head_of_cons (by decide))]
  | .cons v (.cons v' l), h, hd, _ =>
    obtain ⟨a, w, w', b, ha, hw, hw', hb, rfl⟩ := h
    obtain ⟨n, rfl⟩ : ∃ k, n = k + 1 := ⟨n - 1, by omega⟩
    simp only [List.length_append, List.length_cons] at hn
    have hv := parse_value F hF v a (w ++ ',' :: (w' ++ (b ++ ']' :: r))) n ha hd.1
      (ends_blank w _ hw (ends_of_head _ _ (by decide))) (by omega)
    have hp := parse_items F hF (.cons v' l) b r n (by simp) hb hd.2 (by omega)
    obtain ⟨c, s, hcs, q1, _⟩ := items_head F hF v' l b hb
    have hsk : skip (w' ++ (b ++ ']' :: r)) = b ++ ']' :: r := skip_blank w' _ hw' (by rw [hcs]; exact head_of_cons q1)
    have e : a ++ w ++ ',' :: (w' ++ b) ++ ']' :: r = a ++ (w ++ ',' :: (w' ++ (b ++ ']' :: r))) := by simp
    rw [e, parseItems]
    simp only [hv, bind, Option.bind, skip_blank w (',' :: (w' ++ (b ++ ']' :: r))) hw (head_of_cons (by decide)), hsk, hp]
termination_by structural l

theorem parse_members (F : NumFmt N) (hF : F.Faithful) (m : Members N) (t r : List Char) (n : Nat) (hm : m ≠ .nil)
    (h : RendersMembers F m t) (hd : DistinctMembers m) (hn : 2 * t.length + 1 ≤ n) :
    parseMembers F n (t ++ '}' :: r) = some (m, r) := by
  match m, h, hd, hm with
  | .cons k v .nil, h, hd, _ =>
    obtain ⟨w1, w2, a, w, hw1, hw2, ha, hw, rfl⟩ := h
    obtain ⟨n, rfl⟩ : ∃ k, n = k + 1 := ⟨n - 1, by omega⟩
    simp only [List.length_append, List.length_cons] at hn
    have hv := parse_value F hF v a (w ++ '}' :: r) n ha hd.1 (ends_blank w _ hw (ends_of_head _ _ (by decide))) (by omega)
    obtain ⟨c, s, hcs, q1, _⟩ := renders_head F hF v a ha
    have hsk : skip (w2 ++ (a ++ (w ++ '}' :: r))) = a ++ (w ++ '}' :: r) := skip_blank w2 _ hw2 (by rw [hcs]; exact head_of_cons q1)
    have e : quote k ++ w1 ++ ':' :: (w2 ++ a ++ w) ++ '}' :: r =
        '"' :: (k.flatMap escape ++ '"' :: (w1 ++ ':' :: (w2 ++ (a ++ (w ++ '}' :: r))))) := by simp [quote]
    rw [e, parseMembers]
    simp only [scan_quoted, bind, Option.bind, skip_blank w1 (':' :: (w2 ++ (a ++ (w ++ '}' :: r)))) hw1 (head_of_cons (by decide)), hsk, hv,
      skip_blank w ('}' :: r) hw (head_of_cons (by decide))]
  | .cons k v (.cons k' v' m), h, hd, _ =>
    obtain ⟨w1, w2, a, w, w', b, hw1, hw2, ha, hw, hw', hb, rfl⟩ := h
    obtain ⟨n, rfl⟩ : ∃ k, n = k + 1 := ⟨n - 1, by omega⟩
    simp only [List.length_append, List.length_cons] at hn
    have hv := parse_value F hF v a (w ++ ',' :: (w' ++ (b ++ '}' :: r))) n ha hd.1
      (ends_blank w _ hw (ends_of_head _ _ (by decide))) (by omega)
    have hp := parse_members F hF (.cons k' v' m) b r n (by simp) hb hd.2 (by omega)
    obtain ⟨c, s, hcs, q1, _⟩ := renders_head F hF v a ha
    obtain ⟨sb, hcb⟩ := members_head F k' v' m b hb
    have hsk : skip (w2 ++ (a ++ (w ++ ',' :: (w' ++ (b ++ '}' :: r))))) = a ++ (w ++ ',' :: (w' ++ (b ++ '}' :: r))) :=
      skip_blank w2 _ hw2 (by rw [hcs]; exact head_of_cons q1)
    have hsb : skip (w' ++ (b ++ '}' :: r)) = b ++ '}' :: r := skip_blank w' _ hw' (by rw [hcb]; exact head_of_cons (by decide))
    have e : quote k ++ w1 ++ ':' :: (w2 ++ a ++ w ++ ',' :: (w' ++ b)) ++ '}' :: r =
        '"' :: (k.flatMap escape ++ '"' :: (w1 ++ ':' :: (w2 ++ (a ++ (w ++ ',' :: (w' ++ (b ++ '}' :: r))))))) := by simp [quote]
    rw [e, parseMembers]
    simp only [scan_quoted, bind, Option.bind, skip_blank w1 (':' :: (w2 ++ (a ++ (w ++ ',' :: (w' ++ (b ++ '}' :: r)))))) hw1
      (head_of_cons (by decide)), hsk, hv, skip_blank w (',' :: (w' ++ (b ++ '}' :: r))) hw (head_of_cons (by decide)), hsb, hp]
termination_by structural m
end

/-- C128: every JSON text of a value, with any whitespace between and around its parts, is read as this value. -/
theorem loads_renders (F : NumFmt N) (hF : F.Faithful) (v : Json N) (hd : Distinct v) (a w w' : List Char) (h : Renders F v a)
    (hw : Blank w) (hw' : Blank w') : loads F (w ++ a ++ w') = some v := by
  obtain ⟨c, s, hcs, q1, _⟩ := renders_head F hF v a h
  have hsk : skip (w ++ a ++ w') = a ++ w' := by
    rw [List.append_assoc]
    exact skip_blank w _ hw (by rw [hcs]; exact head_of_cons q1)
  have he : Ends w' := by
    have := ends_blank w' [] hw' (by intro c hc; cases hc)
    simpa using this
  have hp := parse_value F hF v a w' (2 * (w ++ a ++ w').length + 1) h hd he (by simp only [List.length_append]; omega)
  unfold loads
  rw [hsk, hp]
  have : skip w' = [] := by
    have := skip_blank w' [] hw' (by intro c hc; cases hc)
    simpa using this
  simp [this]

end Glimpse.Json
