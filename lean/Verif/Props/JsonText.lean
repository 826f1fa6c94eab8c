import Verif.Model.JsonText
import Mathlib.Data.List.Basic
import Mathlib.Data.List.TakeWhile
import Mathlib.Data.List.Infix

/-!
C91: JSON with arrays on one line is the same JSON. C92: names of files without extensions.
-/
set_option autoImplicit false
set_option linter.unusedSimpArgs false
set_option linter.unusedSectionVars false

namespace Glimpse.JsonText

/-! ### Specification -/

/-- Where a character of a JSON text is: outside strings, in a string, or in a string after a backslash. -/
inductive Place where
  | out
  | str
  | esc
deriving DecidableEq

/-- Where the next character is. -/
def Place.next : Place → Char → Place
  | .out, c => if c = '"' then .str else .out
  | .str, c => if c = '\\' then .esc else if c = '"' then .out else .str
  | .esc, _ => .str

/-- The text without whitespace outside strings: what JSON makes of a text. -/
def significant : Place → List Char → List Char
  | _, [] => []
  | p, c :: l => if p = .out ∧ isSpace c = true then significant p l else c :: significant (p.next c) l

/-- No string in the text has whitespace or a comma. -/
def PlainStrings : Place → List Char → Prop
  | _, [] => True
  | p, c :: l => (p ≠ .out → isSpace c = false ∧ c ≠ ',') ∧ PlainStrings (p.next c) l

/-! ### What is changed -/

/-- Whitespace removed, and a space after commas. -/
inductive Edit : List Char → List Char → Prop
  | nil : Edit [] []
  | keep (c : Char) {a b : List Char} : Edit a b → Edit (c :: a) (c :: b)
  | drop (c : Char) {a b : List Char} : isSpace c = true → Edit a b → Edit (c :: a) b
  | comma {a b : List Char} : Edit a b → Edit (',' :: a) (',' :: ' ' :: b)

private theorem edit_append {a b c d : List Char} (h1 : Edit a b) (h2 : Edit c d) : Edit (a ++ c) (b ++ d) := by
  induction h1 with
  | nil => exact h2
  | keep x _ ih => exact .keep x ih
  | drop x hx _ ih => exact .drop x hx ih
  | comma _ ih => exact .comma ih

private theorem edit_refl (a : List Char) : Edit a a := by
  induction a with
  | nil => exact .nil
  | cons c a ih => exact .keep c ih

private theorem edit_inline (m : List Char) : Edit m (inline m) := by
  induction m with
  | nil => exact .nil
  | cons c m ih =>
    unfold inline at ih ⊢
    by_cases h : isSpace c = true
    · rw [List.filter_cons_of_neg (by simp [h])]
      exact .drop c h ih
    · rw [List.filter_cons_of_pos (by simp [h]), List.flatMap_cons]
      by_cases h2 : c = ','
      · subst h2
        exact .comma ih
      · rw [if_neg h2]
        exact .keep c ih

private theorem closings_split (n : Nat) (s : List Char) : (closings n s).1 ++ (closings n s).2 = s := by
  induction n generalizing s with
  | zero => rfl
  | succ n ih =>
    unfold closings
    split
    · rename_i r h
      simp only [List.append_assoc, List.cons_append, ih r]
      rw [← h]
      exact List.takeWhile_append_dropWhile
    · rfl

private theorem match_split (s m r : List Char) (h : matchArray s = some (m, r)) : s = m ++ r := by
  unfold matchArray at h
  split at h
  · rename_i r' hr
    cases h
    rw [List.append_assoc, List.cons_append, closings_split, ← hr]
    exact List.takeWhile_append_dropWhile.symm
  · cases h

/-- C91. `write_json(flat_arrays=True)` changes the text only by removing whitespace and by adding a space after commas. -/
theorem flat_edit (n : Nat) (s : List Char) : Edit s (flatAux n s) := by
  induction n generalizing s with
  | zero => exact edit_refl s
  | succ n ih =>
    cases s with
    | nil => exact .nil
    | cons c s =>
      unfold flatAux
      split
      · rename_i hc
        split
        · rename_i m r hm
          have := match_split s m r hm
          rw [this, hc]
          exact edit_append (edit_inline ('[' :: m)) (ih r)
        · exact .keep c (ih s)
      · exact .keep c (ih s)

private theorem edit_significant {a b : List Char} (h : Edit a b) (p : Place) (hp : PlainStrings p a) :
    significant p a = significant p b := by
  induction h generalizing p with
  | nil => rfl
  | keep c _ ih =>
    obtain ⟨h1, h2⟩ := hp
    unfold significant
    split
    · rename_i hs
      refine ih p ?_
      have : p.next c = p := by
        rw [hs.1]
        have : c ≠ '"' := by rintro rfl; exact absurd hs.2 (by decide)
        simp [Place.next, this]
      rwa [this] at h2
    · rw [ih _ h2]
  | drop c hs _ ih =>
    obtain ⟨h1, h2⟩ := hp
    have hout : p = .out := by
      by_contra hne
      rw [(h1 hne).1] at hs; cases hs
    rw [significant, if_pos ⟨hout, hs⟩]
    refine ih p ?_
    have : p.next c = p := by
      rw [hout]
      have : c ≠ '"' := by rintro rfl; exact absurd hs (by decide)
      simp [Place.next, this]
    rwa [this] at h2
  | comma _ ih =>
    obtain ⟨h1, h2⟩ := hp
    have hout : p = .out := by
      by_contra hne
      exact (h1 hne).2 rfl
    subst hout
    have hn : Place.out.next ',' = .out := rfl
    rw [significant, if_neg (by decide), significant, if_neg (by decide), hn, ih _ (hn ▸ h2)]
    rw [significant, if_pos ⟨rfl, by decide⟩]

/-- C91. Texts whose strings have no whitespace and no comma are the same JSON on fewer lines: outside strings only whitespace
changes, and strings do not change. -/
theorem flat_same_partial (txt : List Char) (h : PlainStrings .out txt) (i : Int) :
    ∃ out, writeJson txt true (some i) = .ok out ∧ significant .out out = significant .out txt := by
  refine ⟨_, rfl, ?_⟩
  split
  · exact (edit_significant (flat_edit _ txt) .out h).symm
  · rfl

/-- C91 fails: whitespace and commas in the strings of an array are changed. -/
theorem flat_strings_violated :
    writeJson "[\n  \"a b\",\n  \"c,d\"\n]".toList true (some 2) = .ok "[\"ab\", \"c, d\"]".toList := by decide +kernel

/-- C91 fails: without an indent, `flat_arrays` raises. -/
theorem flat_indent_violated (txt : List Char) : writeJson txt true none = .error .typeError := rfl

/-! ### On one line -/

private theorem flat_skip (n : Nat) (pre s : List Char) (h : '[' ∉ pre) (hn : pre.length ≤ n) :
    flatAux n (pre ++ s) = pre ++ flatAux (n - pre.length) s := by
  induction pre generalizing n with
  | nil => rfl
  | cons c pre ih =>
    cases n with
    | zero => simp at hn
    | succ n =>
      rw [List.cons_append, flatAux, if_neg (by rintro rfl; simp at h),
        ih n (fun hh => h (List.mem_cons_of_mem _ hh)) (by simpa using hn)]
      simp

private theorem closings_length (n : Nat) (s : List Char) : (closings n s).2.length ≤ s.length := by
  have := congrArg List.length (closings_split n s)
  rw [List.length_append] at this
  omega

/-- More steps than the length of the text make no difference. -/
private theorem flat_fuel (s : List Char) (n m : Nat) (hn : s.length ≤ n) (hm : s.length ≤ m) : flatAux n s = flatAux m s := by
  induction n generalizing s m with
  | zero =>
    have : s = [] := by simpa using hn
    subst this
    cases m <;> rfl
  | succ n ih =>
    cases s with
    | nil => cases m <;> rfl
    | cons c s =>
      cases m with
      | zero => simp at hm
      | succ m =>
        simp at hn hm
        unfold flatAux
        split
        · split
          · rename_i x r hx
            have := match_split s x r hx
            have hl : r.length ≤ s.length := by rw [this]; simp
            rw [ih r m (by omega) (by omega)]
          · rw [ih s m hn hm]
        · rw [ih s m hn hm]

/-- C91. Text without arrays is not changed. -/
theorem flat_none (txt : List Char) (h : '[' ∉ txt) : flatArrays txt = txt := by
  unfold flatArrays
  have := flat_skip txt.length txt [] h (le_refl _)
  simp at this
  rw [this]
  cases txt.length - txt.length <;> simp [flatAux]

/-- C91. An array without arrays or objects in it, and not itself the last in an array, is written on one line: without
whitespace, but for a space after each comma. What is around it is treated in the same way. -/
theorem flat_array (pre body post : List Char) (hpre : '[' ∉ pre) (hbody : ']' ∉ body ∧ '{' ∉ body)
    (hpost : ∀ r, post.dropWhile isSpace ≠ ']' :: r) :
    flatArrays (pre ++ '[' :: (body ++ ']' :: post)) = pre ++ '[' :: (inline body ++ ']' :: flatArrays post) ∧ '\n' ∉ inline body := by
  constructor
  · unfold flatArrays
    rw [flat_skip _ pre _ hpre (by simp)]
    congr 1
    have hlen : (pre ++ '[' :: (body ++ ']' :: post)).length - pre.length = (body.length + post.length + 1) + 1 := by simp; omega
    rw [hlen, flatAux, if_pos rfl]
    have hin : ∀ c ∈ body, inBody c = true := by
      intro c hc
      have h1 : c ≠ ']' := fun h => hbody.1 (h ▸ hc)
      have h2 : c ≠ '{' := fun h => hbody.2 (h ▸ hc)
      simp [inBody, h1, h2]
    have hcl : closings post.length post = ([], post) := by
      cases hp : post.length with
      | zero => rfl
      | succ n =>
        unfold closings
        split
        · rename_i r hr
          exact absurd hr (hpost r)
        · rfl
    have hm : matchArray (body ++ ']' :: post) = some (body ++ [']'], post) := by
      have hd : (body ++ ']' :: post).dropWhile inBody = ']' :: post := by
        rw [List.dropWhile_append_of_pos hin]; rfl
      have ht : (body ++ ']' :: post).takeWhile inBody = body := by
        rw [List.takeWhile_append_of_pos hin]; simp [inBody]
      unfold matchArray
      rw [hd, ht]
      simp only [hcl]
    rw [hm]
    simp only
    rw [flat_fuel post _ post.length (by omega) (le_refl _)]
    have : inline ('[' :: (body ++ [']'])) = '[' :: (inline body ++ [']']) := by
      unfold inline
      rw [List.filter_cons_of_pos (by decide), List.filter_append, List.flatMap_cons, List.flatMap_append]
      rfl
    rw [this]
    simp
  · unfold inline
    intro h
    obtain ⟨c, hc, hn⟩ := List.mem_flatMap.1 h
    obtain ⟨_, h2⟩ := List.mem_filter.1 hc
    split at hn
    · simp at hn
    · simp at hn
      subst hn
      exact absurd h2 (by decide)

/-- C91. An array of objects keeps its brackets and everything up to the first object as they are; what follows is treated
in the same way. -/
theorem flat_objects (pre body post : List Char) (hpre : '[' ∉ pre) (hbody : ']' ∉ body ∧ '{' ∉ body ∧ '[' ∉ body) :
    flatArrays (pre ++ '[' :: (body ++ '{' :: post)) = pre ++ '[' :: (body ++ '{' :: flatArrays post) := by
  unfold flatArrays
  rw [flat_skip _ pre _ hpre (by simp)]
  congr 1
  have hlen : (pre ++ '[' :: (body ++ '{' :: post)).length - pre.length = (body.length + (post.length + 1)) + 1 := by simp
  have hin : ∀ c ∈ body, inBody c = true := by
    intro c hc
    have h1 : c ≠ ']' := fun h => hbody.1 (h ▸ hc)
    have h2 : c ≠ '{' := fun h => hbody.2.1 (h ▸ hc)
    simp [inBody, h1, h2]
  have hm : matchArray (body ++ '{' :: post) = none := by
    have hd : (body ++ '{' :: post).dropWhile inBody = '{' :: post := by
      rw [List.dropWhile_append_of_pos hin]; rfl
    unfold matchArray
    rw [hd]
    rfl
  rw [hlen, flatAux, if_pos rfl, hm]
  simp only
  rw [flat_skip _ body _ hbody.2.2 (by omega)]
  congr 2
  rw [show body.length + (post.length + 1) - body.length = post.length + 1 by omega, flatAux, if_neg (by decide)]

example : flatArrays "[\n {\n \"x\": [\n 0\n ]\n }\n]".toList = "[\n {\n \"x\": [0]\n }\n]".toList := by decide +kernel

/-- C91 fails: the arrays in an array are on lines of their own. -/
theorem flat_nested_violated :
    writeJson "{\n  \"x\": [\n    [\n      0,\n      1\n    ],\n    [\n      2\n    ]\n  ]\n}".toList true (some 2) =
      .ok "{\n  \"x\": [[0, 1],\n    [2]]\n}".toList := by decide +kernel

example : writeJson "{\n  \"x\": [\n    0,\n    1\n  ]\n}".toList true (some 2) = .ok "{\n  \"x\": [0, 1]\n}".toList := by decide +kernel

example : PlainStrings .out "{\n  \"x\": [\n    0,\n    1\n  ]\n}".toList := by
  refine ⟨by decide, by decide, by decide, by decide, by decide, by decide, by decide, by decide, by decide, by decide, by decide, by decide, by decide,
    by decide, by decide, by decide, by decide, by decide, by decide, by decide, by decide, by decide, by decide, by decide, by decide, by decide,
    by decide, by decide, by decide, trivial⟩

/-! ### Names of files -/

private theorem splitMax_none (sep : Char) (m : Option Nat) (s : List Char) (h : sep ∉ s) : splitMax sep m s = [s] := by
  induction s with
  | nil => rfl
  | cons c s ih =>
    rw [splitMax, if_neg (by rintro ⟨rfl, _⟩; simp at h), ih fun hh => h (List.mem_cons_of_mem _ hh)]

private theorem splitMax_zero (sep : Char) (s : List Char) : splitMax sep (some 0) s = [s] := by
  induction s with
  | nil => rfl
  | cons c s ih => rw [splitMax, if_neg (by simp), ih]

private theorem splitMax_cons (sep : Char) (m : Option Nat) (a s : List Char) (h : sep ∉ a) (hm : m ≠ some 0) :
    splitMax sep m (a ++ sep :: s) = a :: splitMax sep (m.map (· - 1)) s := by
  induction a with
  | nil => rw [List.nil_append, splitMax, if_pos ⟨rfl, hm⟩]
  | cons c a ih =>
    rw [List.cons_append, splitMax, if_neg (by rintro ⟨rfl, _⟩; simp at h), ih fun hh => h (List.mem_cons_of_mem _ hh)]

/-- A name made of a stem and extensions. -/
def withExtensions (stem : List Char) (exts : List (List Char)) : List Char := stem ++ (exts.map fun e => '.' :: e).flatten

private theorem reverse_ext (stem : List Char) (exts : List (List Char)) (e : List Char) :
    (withExtensions stem (exts ++ [e])).reverse = e.reverse ++ '.' :: (withExtensions stem exts).reverse := by
  unfold withExtensions
  simp

/-- C92. `strip_path` with all extensions: of a name without dots in the stem, the stem, whatever the extensions. -/
theorem strip_all (stem : List Char) (exts : List (List Char)) (hs : '.' ∉ stem) (he : ∀ e ∈ exts, '.' ∉ e) :
    stripName none (withExtensions stem exts) = stem := by
  have key : (splitMax '.' none (withExtensions stem exts).reverse).getLast? = some stem.reverse := by
    induction exts using List.reverseRecOn with
    | nil =>
      unfold withExtensions
      simp only [List.map_nil, List.flatten_nil, List.append_nil]
      rw [splitMax_none _ _ _ (by simpa using hs)]
      rfl
    | append_singleton exts e ih =>
      rw [reverse_ext, splitMax_cons _ _ _ _ (by simpa using he e (by simp)) (by simp)]
      have := ih fun x hx => he x (by simp [hx])
      simp only [Option.map_none]
      rw [List.getLast?_cons, this]
      rfl
  unfold stripName
  simp only [key, Option.getD_some, List.reverse_reverse]

/-- C92. `strip_path` with a number of extensions removes that many from the end, or all there are. -/
theorem strip_some (n : Nat) (stem : List Char) (exts : List (List Char)) (hs : '.' ∉ stem) (he : ∀ e ∈ exts, '.' ∉ e) :
    stripName (some n) (withExtensions stem exts) = withExtensions stem (exts.take (exts.length - n)) := by
  cases n with
  | zero => simp [stripName]
  | succ n =>
    have key : ∀ n, (splitMax '.' (some n) (withExtensions stem exts).reverse).getLast? =
        some (withExtensions stem (exts.take (exts.length - n))).reverse := by
      induction exts using List.reverseRecOn with
      | nil =>
        intro n
        have : splitMax '.' (some n) (withExtensions stem []).reverse = [(withExtensions stem []).reverse] :=
          splitMax_none _ _ _ (by simpa [withExtensions] using hs)
        rw [this]; simp
      | append_singleton exts e ih =>
        intro n
        cases n with
        | zero =>
          rw [splitMax_zero, Nat.sub_zero, List.take_length]; rfl
        | succ n =>
          rw [reverse_ext, splitMax_cons _ _ _ _ (by simpa using he e (by simp)) (by simp)]
          have := ih (fun x hx => he x (by simp [hx])) n
          simp only [Option.map_some, Nat.add_sub_cancel]
          rw [List.getLast?_cons, this]
          simp only [Option.getD_some, List.length_append, List.length_singleton]
          rw [List.take_append_of_le_length (by omega)]
          congr 4
          omega
    unfold stripName
    simp only [key (n + 1), Option.getD_some, List.reverse_reverse]

/-- C92. Directories are removed first, whatever dots they have. -/
theorem strip_directory (dir name : List Char) (extensions : Option Nat) (h : '/' ∉ name) :
    stripPath (dir ++ '/' :: name) extensions = stripName extensions name ∧ stripPath name extensions = stripName extensions name := by
  have hx : ∀ x ∈ name.reverse, decide (x ≠ '/') = true := by
    intro x hx
    simp
    rintro rfl
    exact h (by simpa using hx)
  constructor
  · unfold stripPath basename
    rw [List.reverse_append, List.reverse_cons, List.append_assoc, List.takeWhile_append_of_pos hx]
    simp
  · unfold stripPath basename
    rw [List.takeWhile_eq_self_iff.2 hx]
    simp

/-- C92 fails as a name for files of results: two images of which only the part after the first dot differs have the same
name, and names that begin with a dot are empty. -/
theorem strip_collision_violated : stripPath "a/IMG.1.jpg".toList none = stripPath "a/IMG.2.jpg".toList none ∧
    stripPath "a/.jpg".toList none = [] := by
  have h : ∀ s e1 e2 : List Char, '.' ∉ s → '.' ∉ e1 → '.' ∉ e2 → stripName none (withExtensions s [e1, e2]) = s := by
    intro s e1 e2 h1 h2 h3
    exact strip_all s [e1, e2] h1 (by simp [h2, h3])
  refine ⟨?_, ?_⟩
  · rw [show "a/IMG.1.jpg".toList = "a".toList ++ '/' :: "IMG.1.jpg".toList from rfl,
      show "a/IMG.2.jpg".toList = "a".toList ++ '/' :: "IMG.2.jpg".toList from rfl,
      (strip_directory _ _ none (by decide)).1, (strip_directory _ _ none (by decide)).1,
      show "IMG.1.jpg".toList = withExtensions "IMG".toList ["1".toList, "jpg".toList] from rfl,
      show "IMG.2.jpg".toList = withExtensions "IMG".toList ["2".toList, "jpg".toList] from rfl,
      h _ _ _ (by decide) (by decide) (by decide), h _ _ _ (by decide) (by decide) (by decide)]
  · rw [show "a/.jpg".toList = "a".toList ++ '/' :: ".jpg".toList from rfl, (strip_directory _ _ none (by decide)).1,
      show ".jpg".toList = withExtensions [] ["jpg".toList] from rfl]
    exact strip_all [] _ (by simp) (by decide)

end Glimpse.JsonText
