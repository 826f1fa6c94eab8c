import Verif.Props.Json
import Verif.Props.SvgText
import Mathlib.Data.Nat.Digits.Lemmas

/-!
C128, continued: the texts that `write_json` writes.
-/
set_option autoImplicit false
set_option linter.unusedSimpArgs false
set_option linter.unusedSectionVars false

namespace Glimpse.Json
open Glimpse Glimpse.JsonText

variable {N : Type}

/-! ### What `json.dumps` writes -/

theorem blank_nil : Blank [] := by
  intro c hc
  cases hc

theorem blank_newline (indent : Option Int) (level : Nat) : Blank (newline indent level) := by
  intro c hc
  unfold newline at hc
  cases indent with
  | none => simp at hc
  | some i =>
    rcases List.mem_cons.mp hc with rfl | hc
    · decide
    · rw [(List.mem_replicate.mp hc).2]; decide

theorem itemSep_eq (indent : Option Int) (level : Nat) : ∃ w, Blank w ∧ itemSep indent level = ',' :: w := by
  cases indent with
  | none => exact ⟨[' '], by intro c hc; simp at hc; subst hc; decide, rfl⟩
  | some i => exact ⟨newline (some i) level, blank_newline _ _, rfl⟩

mutual
theorem dumps_renders (F : NumFmt N) (indent : Option Int) (level : Nat) (v : Json N) : Renders F v (dumpsAt F indent level v) := by
  match v with
  | .null => rw [Renders, dumpsAt]; simp
  | .bool b => rw [Renders, dumpsAt]; cases b <;> simp
  | .num x => rw [Renders, dumpsAt]
  | .nan => rw [Renders, dumpsAt]; simp
  | .inf => rw [Renders, dumpsAt]; simp
  | .ninf => rw [Renders, dumpsAt]; simp
  | .str s => rw [Renders, dumpsAt]
  | .arr l =>
    rw [Renders, dumpsAt]
    split
    · rename_i h
      cases l with
      | nil => exact ⟨[], [], blank_nil, by rw [RendersItems], rfl⟩
      | cons => cases h
    · exact ⟨newline indent (level + 1), _, blank_newline _ _, dumps_items F indent (level + 1) l (newline indent level) (blank_newline _ _)
        (by rintro rfl; simp [Items.isEmpty] at *), by simp only [List.append_assoc]⟩
  | .obj m =>
    rw [Renders, dumpsAt]
    split
    · rename_i h
      cases m with
      | nil => exact ⟨[], [], blank_nil, by rw [RendersMembers], rfl⟩
      | cons => cases h
    · exact ⟨newline indent (level + 1), _, blank_newline _ _, dumps_members F indent (level + 1) m (newline indent level) (blank_newline _ _)
        (by rintro rfl; simp [Members.isEmpty] at *), by simp only [List.append_assoc]⟩
termination_by structural v

theorem dumps_items (F : NumFmt N) (indent : Option Int) (level : Nat) (l : Items N) (w : List Char) (hw : Blank w) (hl : l ≠ .nil) :
    RendersItems F l (dumpsItems F indent level true l ++ w) := by
  match l, hl with
  | .cons v .nil, _ =>
    exact ⟨_, w, dumps_renders F indent level v, hw, by simp only [dumpsItems, if_true, List.append_nil, List.nil_append]⟩
  | .cons v (.cons v' l), _ =>
    obtain ⟨w', h1, h2⟩ := itemSep_eq indent level
    refine ⟨_, [], w', _, dumps_renders F indent level v, blank_nil, h1, dumps_items F indent level (.cons v' l) w hw nofun, ?_⟩
    simp only [dumpsItems, h2, if_true, if_false, Bool.false_eq_true, List.append_assoc, List.cons_append, List.nil_append, List.append_nil]
termination_by structural l

theorem dumps_members (F : NumFmt N) (indent : Option Int) (level : Nat) (m : Members N) (w : List Char) (hw : Blank w) (hm : m ≠ .nil) :
    RendersMembers F m (dumpsMembers F indent level true m ++ w) := by
  have hb : Blank [' '] := by intro c hc; simp at hc; subst hc; decide
  match m, hm with
  | .cons k v .nil, _ =>
    exact ⟨[], [' '], _, w, blank_nil, hb, dumps_renders F indent level v, hw, by
      simp only [dumpsMembers, if_true, List.append_nil, List.nil_append, List.append_assoc, List.cons_append]⟩
  | .cons k v (.cons k' v' m), _ =>
    obtain ⟨w', h1, h2⟩ := itemSep_eq indent level
    refine ⟨[], [' '], _, [], w', _, blank_nil, hb, dumps_renders F indent level v, blank_nil, h1,
      dumps_members F indent level (.cons k' v' m) w hw nofun, ?_⟩
    simp only [dumpsMembers, h2, if_true, if_false, Bool.false_eq_true, List.append_assoc, List.cons_append, List.nil_append, List.append_nil]
termination_by structural m
end

/-- C128: what `write_json` writes (with any indent or none) is read by `read_json` as the same value, for every value. -/
theorem json_round_trip (F : NumFmt N) (hF : F.Faithful) (indent : Option Int) (v : Json N) (hd : Distinct v) :
    loads F (dumps F indent v) = some v := by
  have := loads_renders F hF v hd _ [] [] (dumps_renders F indent 0 v) blank_nil blank_nil
  simpa [dumps] using this

/-- C128: so two values with the same text are the same, whatever the indents. -/
theorem dumps_injective (F : NumFmt N) (hF : F.Faithful) (i j : Option Int) (v w : Json N) (hv : Distinct v) (hw : Distinct w)
    (h : dumps F i v = dumps F j w) : v = w := by
  have h1 := json_round_trip F hF i v hv
  rw [h, json_round_trip F hF j w hw] at h1
  exact (Option.some.inj h1).symm

/-- C128: the text is printable ASCII but for new lines, and has those only with an indent. -/
theorem escape_ascii (c x : Char) (h : x ∈ escape c) : 32 ≤ x.toNat ∧ x.toNat < 127 := by
  have hex : ∀ d, d < 16 → 32 ≤ (hexDigit d).toNat ∧ (hexDigit d).toNat < 127 := by
    intro d hd; interval_cases d <;> decide
  have hu : ∀ n, x ∈ u4 n → 32 ≤ x.toNat ∧ x.toNat < 127 := by
    intro n hx
    simp only [u4, List.mem_cons, List.not_mem_nil, or_false] at hx
    rcases hx with rfl | rfl | rfl | rfl | rfl | rfl
    · decide
    · decide
    all_goals exact hex _ (Nat.mod_lt _ (by norm_num))
  unfold escape at h
  split_ifs at h with h1 h2 h3 h4 h5 h6 h7 h8 h9
  any_goals
    simp only [List.mem_cons, List.not_mem_nil, or_false] at h
    rcases h with rfl | rfl <;> decide
  · simp only [List.mem_cons, List.not_mem_nil, or_false] at h
    subst h; exact h8
  · exact hu _ h
  · rcases List.mem_append.mp h with h | h <;> exact hu _ h

/-! ### Repeated keys -/

/-- The value of a key of a dictionary. -/
def Members.get (k : List Char) : Members N → Option (Json N)
  | .nil => none
  | .cons k' v m => if k' = k then some v else m.get k

/-- The last value that a text gives a key. -/
def Members.last (k : List Char) : Members N → Option (Json N)
  | .nil => none
  | .cons k' v m => (m.last k).or (if k' = k then some v else none)

theorem Members.get_set (k k' : List Char) (v : Json N) : ∀ m : Members N, (m.set k' v).get k = if k' = k then some v else m.get k
  | .nil => by simp only [Members.set, Members.get]
  | .cons a x m => by
    by_cases h : a = k'
    · subst h
      by_cases hk : a = k
      · simp only [Members.set, if_true, Members.get, if_pos hk]
      · simp only [Members.set, if_true, Members.get, if_neg hk]
    · have ih := Members.get_set k k' v m
      by_cases hk : a = k
      · subst hk
        simp only [Members.set, if_neg h, Members.get, if_true, if_neg (Ne.symm h)]
      · simp only [Members.set, if_neg h, Members.get, if_neg hk, ih]

theorem Members.get_into (k : List Char) : ∀ m d : Members N, (m.into d).get k = (m.last k).or (d.get k)
  | .nil, d => by simp [Members.into, Members.last]
  | .cons a x m, d => by
    rw [Members.into, Members.get_into k m, Members.get_set, Members.last]
    by_cases h : a = k <;> cases m.last k <;> simp [h]

theorem Members.mem_set (k : List Char) (v : Json N) (b : List Char) : ∀ m : Members N, b ∈ (m.set k v).keys → b = k ∨ b ∈ m.keys
  | .nil, hb => by simpa [Members.set, Members.keys] using hb
  | .cons c y n, hb => by
    rw [Members.set] at hb
    split at hb
    · right; simpa [Members.keys] using hb
    · simp only [Members.keys, List.mem_cons] at hb ⊢
      rcases hb with rfl | hb
      · simp
      · rcases Members.mem_set k v b n hb with h | h <;> simp [h]

theorem Members.keys_set (k : List Char) (v : Json N) : ∀ m : Members N, m.keys.Nodup → (m.set k v).keys.Nodup
  | .nil, _ => by simp [Members.set, Members.keys]
  | .cons a x m, h => by
    simp only [Members.keys, List.nodup_cons] at h
    rw [Members.set]
    split
    · simpa [Members.keys] using h
    · rename_i hne
      simp only [Members.keys, List.nodup_cons]
      refine ⟨fun hc => ?_, Members.keys_set k v m h.2⟩
      rcases Members.mem_set k v a m hc with h' | h'
      · exact hne h'
      · exact h.1 h'

theorem Members.keys_into : ∀ m d : Members N, d.keys.Nodup → (m.into d).keys.Nodup
  | .nil, d, h => by rwa [Members.into]
  | .cons a x m, d, h => by rw [Members.into]; exact Members.keys_into m _ (Members.keys_set a x d h)

/-- C128: of a text that repeats a key of an object, `read_json` gives each key its last value, once. -/
theorem loads_repeated (F : NumFmt N) (hF : F.Faithful) (m : Members N) (hd : DistinctMembers m) (a : List Char) (h : Renders F (.obj m) a) :
    ∃ d : Members N, loads F a = some (.obj d) ∧ d.keys.Nodup ∧ ∀ k, d.get k = m.last k := by
  refine ⟨m.into .nil, ?_, Members.keys_into m .nil (by simp [Members.keys]), fun k => by rw [Members.get_into]; simp [Members.get]⟩
  have hread : parseValue F (2 * a.length + 1) a = some (.obj (m.into .nil), []) := by
    cases m with
    | nil =>
      have := parse_value F hF (.obj .nil) a [] (2 * a.length + 1) h (by simp [Distinct, Members.keys, DistinctMembers]) (by intro c hc; cases hc)
        (by omega)
      simpa [Members.into] using this
    | cons k v m =>
      obtain ⟨w, t, hw, ht, rfl⟩ := h
      have hp := parse_members F hF (.cons k v m) t [] (2 * ('{' :: (w ++ t ++ ['}'])).length) (by simp) ht hd (by
        simp only [List.length_cons, List.length_append, List.length_nil]; omega)
      obtain ⟨s, hcs⟩ := members_head F k v m t ht
      have e : '{' :: (w ++ t ++ ['}']) = '{' :: (w ++ (t ++ ['}'])) := by simp
      rw [parseValue]
      have hsk : skip (w ++ t ++ ['}']) = t ++ ['}'] := by
        rw [List.append_assoc]
        exact skip_blank w _ hw (by rw [hcs]; exact head_of_cons (by decide))
      simp only [hsk]
      split
      · rename_i heq
        rw [hcs] at heq
        simp at heq
      · simp only [hp, bind, Option.bind]
  have hs : skip a = a := by
    obtain ⟨w, t, _, _, rfl⟩ := h
    rfl
  unfold loads
  rw [hs, hread]
  rfl

/-! ### Flat arrays -/

/-- A text without a space or a comma. -/
def PlainText (s : List Char) : Prop := ' ' ∉ s ∧ ',' ∉ s

mutual
/-- No string (or key) has a space or a comma. -/
def Plain : Json N → Prop
  | .str s => PlainText s
  | .arr l => PlainItems l
  | .obj m => PlainMembers m
  | _ => True
/-- The same for all items. -/
def PlainItems : Items N → Prop
  | .nil => True
  | .cons v l => Plain v ∧ PlainItems l
/-- The same for all keys and values. -/
def PlainMembers : Members N → Prop
  | .nil => True
  | .cons k v m => PlainText k ∧ Plain v ∧ PlainMembers m
end

theorem edit_split {a b c : List Char} (h : Edit (a ++ b) c) : ∃ c1 c2, c = c1 ++ c2 ∧ Edit a c1 ∧ Edit b c2 := by
  induction a generalizing c with
  | nil => exact ⟨[], c, rfl, .nil, h⟩
  | cons x a ih =>
    rw [List.cons_append] at h
    cases h with
    | keep _ h =>
      obtain ⟨c1, c2, rfl, h1, h2⟩ := ih h
      exact ⟨x :: c1, c2, rfl, .keep x h1, h2⟩
    | drop _ hx h =>
      obtain ⟨c1, c2, rfl, h1, h2⟩ := ih h
      exact ⟨c1, c2, rfl, .drop x hx h1, h2⟩
    | comma h =>
      obtain ⟨c1, c2, rfl, h1, h2⟩ := ih h
      exact ⟨',' :: ' ' :: c1, c2, rfl, .comma h1, h2⟩

/-- Characters other than whitespace and commas stay as they are. -/
theorem edit_token {a c : List Char} (h : Edit a c) (ha : ∀ x ∈ a, isSpace x = false ∧ x ≠ ',') : c = a := by
  induction h with
  | nil => rfl
  | keep x _ ih => rw [ih fun y hy => ha y (List.mem_cons_of_mem _ hy)]
  | drop x hx _ _ =>
    have := (ha x List.mem_cons_self).1
    rw [hx] at this; cases this
  | comma _ _ => exact absurd rfl (ha ',' List.mem_cons_self).2

theorem edit_blank {a c : List Char} (h : Edit a c) (ha : Blank a) : Blank c := by
  induction h with
  | nil => exact ha
  | keep x _ ih =>
    intro y hy
    rcases List.mem_cons.mp hy with rfl | hy
    · exact ha y List.mem_cons_self
    · exact ih (fun z hz => ha z (List.mem_cons_of_mem _ hz)) y hy
  | drop x _ _ ih => exact ih fun z hz => ha z (List.mem_cons_of_mem _ hz)
  | comma _ _ =>
    have := ha ',' List.mem_cons_self
    exact absurd this (by decide)

theorem edit_cons {x : Char} {a c : List Char} (h : Edit (x :: a) c) (hx : isSpace x = false) (hc : x ≠ ',') : ∃ c', c = x :: c' ∧ Edit a c' := by
  cases h with
  | keep _ h => exact ⟨_, rfl, h⟩
  | drop _ hs _ => rw [hx] at hs; cases hs
  | comma _ => exact absurd rfl hc

theorem edit_comma {w b c : List Char} (h : Edit (',' :: (w ++ b)) c) (hw : Blank w) : ∃ w' b', c = ',' :: (w' ++ b') ∧ Blank w' ∧ Edit b b' := by
  cases h with
  | keep _ h =>
    obtain ⟨c1, c2, rfl, h1, h2⟩ := edit_split h
    exact ⟨c1, c2, rfl, edit_blank h1 hw, h2⟩
  | drop _ hs _ => exact absurd hs (by decide)
  | comma h =>
    obtain ⟨c1, c2, rfl, h1, h2⟩ := edit_split h
    refine ⟨' ' :: c1, c2, rfl, ?_, h2⟩
    intro y hy
    rcases List.mem_cons.mp hy with rfl | hy
    · decide
    · exact edit_blank h1 hw y hy

theorem isSpace_iff (x : Char) : isSpace x = true ↔ x = ' ' ∨ x = '\t' ∨ x = '\n' ∨ x = '\r' := by
  simp [isSpace, or_assoc]

theorem escape_plain (c x : Char) (hc : c ≠ ' ' ∧ c ≠ ',') (h : x ∈ escape c) : isSpace x = false ∧ x ≠ ',' := by
  have hex : ∀ d, d < 16 → isSpace (hexDigit d) = false ∧ hexDigit d ≠ ',' := by
    intro d hd; interval_cases d <;> decide
  have hu : ∀ n, x ∈ u4 n → isSpace x = false ∧ x ≠ ',' := by
    intro n hx
    simp only [u4, List.mem_cons, List.not_mem_nil, or_false] at hx
    rcases hx with rfl | rfl | rfl | rfl | rfl | rfl
    · decide
    · decide
    all_goals exact hex _ (Nat.mod_lt _ (by norm_num))
  unfold escape at h
  split_ifs at h with h1 h2 h3 h4 h5 h6 h7 h8 h9
  any_goals
    simp only [List.mem_cons, List.not_mem_nil, or_false] at h
    rcases h with rfl | rfl <;> decide
  · simp only [List.mem_cons, List.not_mem_nil, or_false] at h
    subst h
    refine ⟨?_, hc.2⟩
    rw [Bool.eq_false_iff]
    intro hs
    rcases (isSpace_iff x).mp hs with rfl | rfl | rfl | rfl
    · exact hc.1 rfl
    · exact h5 rfl
    · exact h3 rfl
    · exact h4 rfl
  · exact hu _ h
  · rcases List.mem_append.mp h with h | h <;> exact hu _ h

theorem quote_plain (s : List Char) (hs : PlainText s) : ∀ x ∈ quote s, isSpace x = false ∧ x ≠ ',' := by
  intro x hx
  simp only [quote, List.mem_cons, List.mem_append, List.mem_flatMap, List.not_mem_nil, or_false] at hx
  rcases hx with rfl | ⟨c, hc, hx⟩ | rfl
  · decide
  · refine escape_plain c x ⟨?_, ?_⟩ hx
    · rintro rfl; exact hs.1 hc
    · rintro rfl; exact hs.2 hc
  · decide

theorem number_plain (t : List Char) (ht : IsNumber t) : ∀ x ∈ t, isSpace x = false ∧ x ≠ ',' := by
  intro x hx
  rcases number_chars t ht x hx with h | h
  · obtain ⟨q, _, _, _, _, _, _, _, _, q'⟩ := digit_facts x (Or.inr h)
    exact ⟨q, q'⟩
  · simp only [List.mem_cons, List.not_mem_nil, or_false] at h
    rcases h with rfl | rfl | rfl | rfl | rfl <;> decide

mutual
theorem edit_renders (F : NumFmt N) (hF : F.Faithful) (v : Json N) (a b : List Char) (h : Renders F v a) (hp : Plain v) (he : Edit a b) :
    Renders F v b := by
  match v, h, hp with
  | .null, h, _ => simp only [Renders] at h ⊢; subst h; exact edit_token he (by decide)
  | .bool x, h, _ => simp only [Renders] at h ⊢; subst h; exact edit_token he (by cases x <;> decide)
  | .num x, h, _ => simp only [Renders] at h ⊢; subst h; exact edit_token he (number_plain _ (hF x).1)
  | .nan, h, _ => simp only [Renders] at h ⊢; subst h; exact edit_token he (by decide)
  | .inf, h, _ => simp only [Renders] at h ⊢; subst h; exact edit_token he (by decide)
  | .ninf, h, _ => simp only [Renders] at h ⊢; subst h; exact edit_token he (by decide)
  | .str s, h, hp => simp only [Renders] at h ⊢; subst h; exact edit_token he (quote_plain s hp)
  | .arr l, h, hp =>
    obtain ⟨w, t, hw, ht, rfl⟩ := h
    obtain ⟨c, rfl, he'⟩ := edit_cons he (by decide) (by decide)
    obtain ⟨c1, c2, rfl, h1, h2⟩ := edit_split he'
    obtain ⟨d1, d2, rfl, g1, g2⟩ := edit_split h1
    rw [edit_token h2 (by decide)]
    exact ⟨d1, d2, edit_blank g1 hw, edit_items F hF l t d2 ht hp g2, rfl⟩
  | .obj m, h, hp =>
    obtain ⟨w, t, hw, ht, rfl⟩ := h
    obtain ⟨c, rfl, he'⟩ := edit_cons he (by decide) (by decide)
    obtain ⟨c1, c2, rfl, h1, h2⟩ := edit_split he'
    obtain ⟨d1, d2, rfl, g1, g2⟩ := edit_split h1
    rw [edit_token h2 (by decide)]
    exact ⟨d1, d2, edit_blank g1 hw, edit_members F hF m t d2 ht hp g2, rfl⟩
termination_by structural v

theorem edit_items (F : NumFmt N) (hF : F.Faithful) (l : Items N) (a b : List Char) (h : RendersItems F l a) (hp : PlainItems l)
    (he : Edit a b) : RendersItems F l b := by
  match l, h, hp with
  | .nil, h, _ => simp only [RendersItems] at h ⊢; subst h; cases he; rfl
  | .cons v .nil, h, hp =>
    obtain ⟨t, w, ht, hw, rfl⟩ := h
    obtain ⟨c1, c2, rfl, h1, h2⟩ := edit_split he
    exact ⟨c1, c2, edit_renders F hF v t c1 ht hp.1 h1, edit_blank h2 hw, rfl⟩
  | .cons v (.cons v' l), h, hp =>
    obtain ⟨t, w, w', s, ht, hw, hw', hs, rfl⟩ := h
    obtain ⟨c1, c2, rfl, h1, h2⟩ := edit_split he
    obtain ⟨d1, d2, rfl, g1, g2⟩ := edit_split h1
    obtain ⟨w'', s', rfl, k1, k2⟩ := edit_comma h2 hw'
    exact ⟨d1, d2, w'', s', edit_renders F hF v t d1 ht hp.1 g1, edit_blank g2 hw, k1, edit_items F hF (.cons v' l) s s' hs hp.2 k2, rfl⟩
termination_by structural l

theorem edit_members (F : NumFmt N) (hF : F.Faithful) (m : Members N) (a b : List Char) (h : RendersMembers F m a) (hp : PlainMembers m)
    (he : Edit a b) : RendersMembers F m b := by
  match m, h, hp with
  | .nil, h, _ => simp only [RendersMembers] at h ⊢; subst h; cases he; rfl
  | .cons k v .nil, h, hp =>
    obtain ⟨w1, w2, t, w, hw1, hw2, ht, hw, rfl⟩ := h
    obtain ⟨c1, c2, rfl, h1, h2⟩ := edit_split he
    obtain ⟨d1, d2, rfl, g1, g2⟩ := edit_split h1
    rw [edit_token g1 (quote_plain k hp.1)]
    obtain ⟨c, rfl, h3⟩ := edit_cons h2 (by decide) (by decide)
    obtain ⟨e1, e2, rfl, k1, k2⟩ := edit_split h3
    obtain ⟨f1, f2, rfl, l1, l2⟩ := edit_split k1
    exact ⟨d2, f1, f2, e2, edit_blank g2 hw1, edit_blank l1 hw2, edit_renders F hF v t f2 ht hp.2.1 l2, edit_blank k2 hw, rfl⟩
  | .cons k v (.cons k' v' m), h, hp =>
    obtain ⟨w1, w2, t, w, w', s, hw1, hw2, ht, hw, hw', hs, rfl⟩ := h
    obtain ⟨c1, c2, rfl, h1, h2⟩ := edit_split he
    obtain ⟨d1, d2, rfl, g1, g2⟩ := edit_split h1
    rw [edit_token g1 (quote_plain k hp.1)]
    obtain ⟨c, rfl, h3⟩ := edit_cons h2 (by decide) (by decide)
    obtain ⟨e1, e2, rfl, k1, k2⟩ := edit_split h3
    obtain ⟨f1, f2, rfl, l1, l2⟩ := edit_split k1
    obtain ⟨u1, u2, rfl, m1, m2⟩ := edit_split l1
    obtain ⟨w'', s', rfl, n1, n2⟩ := edit_comma k2 hw'
    exact ⟨d2, u1, u2, f2, w'', s', edit_blank g2 hw1, edit_blank m1 hw2, edit_renders F hF v t u2 ht hp.2.1 m2, edit_blank l2 hw, n1,
      edit_members F hF (.cons k' v' m) s s' hs hp.2.2 n2, rfl⟩
termination_by structural m
end

/-- C91, C128: `write_json(flat_arrays=True)` of a value whose strings have no spaces and no commas is read by `read_json` as this value. -/
theorem flat_round_trip_partial (F : NumFmt N) (hF : F.Faithful) (i : Int) (v : Json N) (hd : Distinct v) (hp : Plain v) :
    ∃ out, writeJson (dumps F (some i) v) true (some i) = .ok out ∧ loads F out = some v := by
  refine ⟨_, rfl, ?_⟩
  have h := dumps_renders F (some i) 0 v
  have hb : Blank [] := blank_nil
  split
  · have := loads_renders F hF v hd _ [] [] (edit_renders F hF v _ _ h hp (flat_edit (dumpsAt F (some i) 0 v).length _)) hb hb
    simpa [flatArrays, dumps] using this
  · have := loads_renders F hF v hd _ [] [] h hb hb
    simpa [dumps] using this

/-! ### Numbers of Python -/

/-- How Python writes and reads numbers in JSON: integers as integers, floats by `repr` and `float`. -/
def pyNumFmt {φ : Type} (repr : φ → List Char) (float : List Char → φ) : NumFmt (Svg.Number φ) where
  write
    | .int z => Svg.intStr z
    | .flt f => repr f
  read t := match Svg.intOf t with
    | some z => .int z
    | none => .flt (float t)

theorem isDigit_iff (c : Char) : isDigit c = c.isDigit := by
  rw [Bool.eq_iff_iff]
  simp only [isDigit, decide_eq_true_eq, Char.isDigit, Bool.and_eq_true, ge_iff_le, Char.le_def]

theorem natStr_isNumber (n : Nat) : Svg.natStr n = ['0'] ∨ Digits (Svg.natStr n) ∧ (Svg.natStr n).head? ≠ some '0' := by
  by_cases h : n = 0
  · left; simp [Svg.natStr, h]
  · right
    have hd := Svg.natStr_digits n
    refine ⟨⟨hd.1, fun c hc => by rw [isDigit_iff]; exact hd.2 c hc⟩, ?_⟩
    have hne : Nat.digits 10 n ≠ [] := Nat.digits_ne_nil_iff_ne_zero.mpr h
    have hl := Nat.getLast_digit_ne_zero 10 h
    have hlt : (Nat.digits 10 n).getLast hne < 10 := Nat.digits_lt_base (by norm_num) (List.getLast_mem hne)
    simp only [Svg.natStr, h, if_false, List.head?_map, List.head?_reverse, List.getLast?_eq_some_getLast hne, Option.map_some, ne_eq,
      Option.some.injEq]
    generalize (Nat.digits 10 n).getLast hne = d at hl hlt
    interval_cases d <;> first | exact absurd rfl hl | decide

theorem intStr_isNumber (z : ℤ) : IsNumber (Svg.intStr z) := by
  unfold Svg.intStr
  split
  · exact ⟨['-'], Svg.natStr z.natAbs, [], [], by simp, Or.inr rfl, natStr_isNumber _, Or.inl rfl, Or.inl rfl⟩
  · exact ⟨[], Svg.natStr z.natAbs, [], [], by simp, Or.inl rfl, natStr_isNumber _, Or.inl rfl, Or.inl rfl⟩

/-- C128: Python's integers of every size are faithful, and floats are if `repr` of a finite float is a JSON number with a point or an exponent
that `float` reads as the same float. -/
theorem pyNumFmt_faithful {φ : Type} (repr : φ → List Char) (float : List Char → φ)
    (h : ∀ f, IsNumber (repr f) ∧ Svg.intOf (repr f) = none ∧ float (repr f) = f) : (pyNumFmt repr float).Faithful := by
  intro x
  cases x with
  | int z => exact ⟨intStr_isNumber z, by simp only [pyNumFmt, Svg.intOf_intStr]⟩
  | flt f => exact ⟨(h f).1, by simp only [pyNumFmt, (h f).2.1, (h f).2.2]⟩

/-- Integers alone. -/
def intNumFmt : NumFmt ℤ where
  write := Svg.intStr
  read t := (Svg.intOf t).getD 0

theorem intNumFmt_faithful : intNumFmt.Faithful := fun z => ⟨intStr_isNumber z, by simp [intNumFmt, Svg.intOf_intStr]⟩

/-- The value of the examples: `{"a b": [1, -20], "é": [], "n": {"x": NaN, "y": "\n😀"}}`. -/
def sample : Json ℤ :=
  .obj (.cons "a b".toList (.arr (.cons (.num 1) (.cons (.num (-20)) .nil)))
    (.cons "é".toList (.arr .nil) (.cons ['n'] (.obj (.cons ['x'] .nan (.cons ['y'] (.str ['\n', '😀']) .nil))) .nil)))

example : Distinct sample := by
  simp only [sample, Distinct, DistinctMembers, DistinctItems, Members.keys, and_true]
  decide

example : loads intNumFmt (dumps intNumFmt (some 4) sample) = some sample := by
  refine json_round_trip _ intNumFmt_faithful _ _ ?_
  simp only [sample, Distinct, DistinctMembers, DistinctItems, Members.keys, and_true]
  decide

/-- The layout with an indent of two: each level is two spaces deeper, and what is empty stays on the line. -/
example : dumps intNumFmt (some 2) (.obj (.cons ['a'] (.arr (.cons (.num 1) (.cons (.arr (.cons .null .nil)) .nil))) (.cons ['b'] (.obj .nil) .nil))) =
    "{\n  \"a\": [\n    1,\n    [\n      null\n    ]\n  ],\n  \"b\": {}\n}".toList := by
  simp only [dumps, dumpsAt, dumpsItems, dumpsMembers, Items.isEmpty, Members.isEmpty]
  decide +kernel

/-- Without an indent all is on one line. -/
example : dumps intNumFmt none (.arr (.cons (.num 1) (.cons (.obj (.cons ['b'] (.bool true) .nil)) .nil))) = "[1, {\"b\": true}]".toList := by
  simp only [dumps, dumpsAt, dumpsItems, dumpsMembers, Items.isEmpty, Members.isEmpty]
  decide +kernel

/-- C91, C128: without the condition on strings it fails: a flat array of the text `"a,b"` is read as `"a, b"`, and of `"a b"` as `"ab"`. -/
theorem flat_text_violated :
    ∃ v : Json ℤ, Distinct v ∧ ∃ out, writeJson (dumps intNumFmt (some 0) v) true (some 0) = .ok out ∧ loads intNumFmt out ≠ some v := by
  refine ⟨.arr (.cons (.str ['a', ' ', 'b']) .nil), by simp [Distinct, DistinctItems], "[\"ab\"]".toList, ?_, ?_⟩
  · decide +kernel
  · intro h
    have h' : loads intNumFmt (dumps intNumFmt none (.arr (.cons (.str ['a', 'b']) .nil))) = some (.arr (.cons (.str ['a', 'b']) .nil)) :=
      json_round_trip _ intNumFmt_faithful _ _ (by simp [Distinct, DistinctItems])
    have h2 : dumps intNumFmt none (.arr (.cons (.str ['a', 'b']) .nil)) = "[\"ab\"]".toList := by decide +kernel
    rw [h2, h] at h'
    simp at h'

end Glimpse.Json
