import Verif.Model.Svg
import Mathlib.Tactic.Linarith
import Mathlib.Tactic.Abel
import Mathlib.Algebra.Order.Group.Int

/-!
C41: SVG coordinates survive a write/read round trip.
-/
set_option autoImplicit false
set_option linter.unusedSimpArgs false

namespace Glimpse.Svg

/-! ### Specification -/

/-- A non-empty string of digits. -/
def IsDigits (s : List Char) : Prop := s ≠ [] ∧ ∀ c ∈ s, c.isDigit = true

/-- A sign or nothing. -/
def IsSign (s : List Char) : Prop := s = [] ∨ s = ['+'] ∨ s = ['-']

/-- `12`, `.5` or `12.5`. -/
def IsMantissa (s : List Char) : Prop :=
  IsDigits s ∨ (∃ f, s = '.' :: f ∧ IsDigits f) ∨ (∃ d f, s = d ++ '.' :: f ∧ IsDigits d ∧ IsDigits f)

/-- An exponent (`e-07`) or nothing. -/
def IsExponent (s : List Char) : Prop :=
  s = [] ∨ ∃ c sg d, s = c :: (sg ++ d) ∧ (c = 'e' ∨ c = 'E') ∧ IsSign sg ∧ IsDigits d

/-- A numeral: what Python's `str` gives for an `int` or a finite `float`. -/
def IsNumeral (s : List Char) : Prop :=
  ∃ sg m e, s = sg ++ m ++ e ∧ IsSign sg ∧ IsMantissa m ∧ IsExponent e

/-- Text of a number is a numeral, and reads back as the number. -/
def Fmt.Faithful {ν : Type} (F : Fmt ν) : Prop := ∀ x : ν, IsNumeral (F.str x) ∧ F.num (F.str x) = x

/-! ### Scanning -/

/-- What may follow a number. -/
def Stop (r : List Char) : Prop := ∀ c ∈ r.head?, c ≠ '.' ∧ c.isDigit = false ∧ c ≠ 'e' ∧ c ≠ 'E'

theorem Stop.nil : Stop [] := by intro c hc; cases hc

theorem Stop.cons {c : Char} (r : List Char) (h : c ≠ '.' ∧ c.isDigit = false ∧ c ≠ 'e' ∧ c ≠ 'E') :
    Stop (c :: r) := by
  intro d hd; cases hd; exact h

private theorem digits_append (d r : List Char) (hd : ∀ c ∈ d, c.isDigit = true)
    (hr : ∀ c ∈ r.head?, c.isDigit = false) : digits (d ++ r) = d := by
  unfold digits
  rw [List.takeWhile_append_of_pos hd]
  cases r with
  | nil => simp
  | cons c r => rw [List.takeWhile_cons_of_neg (by simp [hr c rfl])]; simp

private theorem digit_not (c : Char) (h : c.isDigit = true) :
    c ≠ '.' ∧ c ≠ '+' ∧ c ≠ '-' ∧ c ≠ ',' ∧ c ≠ ' ' ∧ c ≠ 'e' ∧ c ≠ 'E' := by
  refine ⟨?_, ?_, ?_, ?_, ?_, ?_, ?_⟩ <;> (rintro rfl; revert h; decide)

private theorem mantissa_append (m r : List Char) (hm : IsMantissa m)
    (hr : ∀ c ∈ r.head?, c ≠ '.' ∧ c.isDigit = false) : matchMantissa (m ++ r) = some m := by
  have hr' : ∀ c ∈ r.head?, c.isDigit = false := fun c hc => (hr c hc).2
  rcases hm with h | ⟨f, rfl, hf⟩ | ⟨d, f, rfl, hd, hf⟩
  · obtain ⟨hne, hall⟩ := h
    cases m with
    | nil => exact absurd rfl hne
    | cons c m =>
      have hc := digit_not c (hall c List.mem_cons_self)
      have hds : digits (c :: (m ++ r)) = c :: m := digits_append (c :: m) r hall hr'
      unfold matchMantissa
      simp only [List.cons_append, if_neg hc.1, hds, List.cons_ne_nil, if_false]
      have hdrop : (c :: (m ++ r)).drop (c :: m).length = r := by
        rw [← List.cons_append]; simp
      rw [hdrop]
      cases r with
      | nil => rfl
      | cons p q =>
        simp only
        rw [if_neg (by intro h; exact (hr p rfl).1 h.1)]
  · have hds := digits_append f r hf.2 hr'
    unfold matchMantissa
    simp [hds, hf.1]
  · obtain ⟨hne, hall⟩ := hd
    cases d with
    | nil => exact absurd rfl hne
    | cons c d =>
      have hc := digit_not c (hall c List.mem_cons_self)
      have hds : digits (c :: (d ++ '.' :: (f ++ r))) = c :: d :=
        digits_append (c :: d) ('.' :: (f ++ r)) hall (by intro x hx; cases hx; decide)
      have hfs := digits_append f r hf.2 hr'
      unfold matchMantissa
      simp only [List.cons_append, List.append_assoc, if_neg hc.1, hds, List.cons_ne_nil, if_false]
      have hdrop : (c :: (d ++ '.' :: (f ++ r))).drop (c :: d).length = '.' :: (f ++ r) := by
        rw [← List.cons_append]; simp
      rw [hdrop]
      simp [hfs, hf.1]

private theorem sign_append (sg r : List Char) (h : IsSign sg) (hr : ∀ c ∈ r.head?, c ≠ '+' ∧ c ≠ '-') :
    matchSign (sg ++ r) = sg := by
  rcases h with rfl | rfl | rfl
  · cases r with
    | nil => rfl
    | cons c r => have := hr c rfl; simp [matchSign, this.1, this.2]
  · simp [matchSign]
  · simp [matchSign]

private theorem exp_append (e r : List Char) (he : IsExponent e) (hr : Stop r) : matchExp (e ++ r) = e := by
  rcases he with rfl | ⟨c, sg, d, rfl, hc, hsg, hd⟩
  · cases r with
    | nil => rfl
    | cons c r =>
      have := hr c rfl
      simp [matchExp, this.2.2.1, this.2.2.2]
  · have hd0 : ∀ x ∈ (d ++ r).head?, x ≠ '+' ∧ x ≠ '-' := by
      intro x hx
      cases d with
      | nil => exact absurd rfl hd.1
      | cons y d =>
        cases hx
        have := digit_not x (hd.2 x List.mem_cons_self)
        exact ⟨this.2.1, this.2.2.1⟩
    have h1 : matchSign (sg ++ (d ++ r)) = sg := sign_append sg (d ++ r) hsg hd0
    have h2 : digits (d ++ r) = d := digits_append d r hd.2 (fun x hx => (hr x hx).2.1)
    unfold matchExp
    simp only [List.cons_append, if_pos hc, List.append_assoc, h1, List.drop_left, h2, if_neg hd.1]

private theorem mantissa_head (m r : List Char) (hm : IsMantissa m) :
    ∀ c ∈ (m ++ r).head?, c = '.' ∨ c.isDigit = true := by
  intro c hc
  rcases hm with h | ⟨f, rfl, hf⟩ | ⟨d, f, rfl, hd, hf⟩
  · cases m with
    | nil => exact absurd rfl h.1
    | cons x m => cases hc; right; exact h.2 c List.mem_cons_self
  · cases hc; left; rfl
  · cases d with
    | nil => exact absurd rfl hd.1
    | cons x m => cases hc; right; exact hd.2 c List.mem_cons_self

/-- A numeral at the start of a text is found as a whole, if followed by something that cannot continue it. -/
private theorem matchNum_append (t r : List Char) (ht : IsNumeral t) (hr : Stop r) : matchNum (t ++ r) = some t := by
  obtain ⟨sg, m, e, rfl, hsg, hm, he⟩ := ht
  have h0 : ∀ x ∈ (m ++ (e ++ r)).head?, x ≠ '+' ∧ x ≠ '-' := by
    intro x hx
    rcases mantissa_head m (e ++ r) hm x hx with rfl | h
    · decide
    · have := digit_not x h; exact ⟨this.2.1, this.2.2.1⟩
  have h1 : matchSign (sg ++ (m ++ (e ++ r))) = sg := sign_append sg _ hsg h0
  have h2 : ∀ c ∈ (e ++ r).head?, c ≠ '.' ∧ c.isDigit = false := by
    intro c hc
    rcases he with rfl | ⟨k, s', d, rfl, hk, _, _⟩
    · exact ⟨(hr c hc).1, (hr c hc).2.1⟩
    · cases hc
      rcases hk with rfl | rfl <;> decide
  have h3 := mantissa_append m (e ++ r) hm h2
  have h4 := exp_append e r he hr
  unfold matchNum
  simp only [List.append_assoc, h1, List.drop_left, h3]
  have : (sg ++ (m ++ (e ++ r))).drop (sg.length + m.length) = e ++ r := by
    rw [← List.append_assoc, ← List.length_append, List.drop_left]
  rw [this, h4]

private theorem numeral_ne_nil (t : List Char) (ht : IsNumeral t) : t ≠ [] := by
  obtain ⟨sg, m, e, rfl, hsg, hm, he⟩ := ht
  rcases hm with h | ⟨f, rfl, hf⟩ | ⟨d, f, rfl, hd, hf⟩
  · have := h.1; simp [this]
  · simp
  · simp

private theorem findNumsFrom_skip (a r : List Char) : findNumsFrom (a ++ r) a.length = findNumsFrom r 0 := by
  induction a with
  | nil => rfl
  | cons c a ih => simpa [findNumsFrom] using ih

theorem findNums_token (t r : List Char) (ht : IsNumeral t) (hr : Stop r) :
    findNums (t ++ r) = t :: findNums r := by
  have h := matchNum_append t r ht hr
  cases t with
  | nil => exact absurd rfl (numeral_ne_nil [] ht)
  | cons c t =>
    unfold findNums
    rw [List.cons_append] at h ⊢
    rw [findNumsFrom, h]
    simp only [List.length_cons, Nat.add_sub_cancel]
    rw [findNumsFrom_skip]

theorem findNums_sep (c : Char) (r : List Char) (hc : c = ',' ∨ c = ' ') : findNums (c :: r) = findNums r := by
  have : matchNum (c :: r) = none := by
    have hd : digits (c :: r) = [] := by
      unfold digits
      rw [List.takeWhile_cons_of_neg (by rcases hc with rfl | rfl <;> decide)]
    have hs : matchSign (c :: r) = [] := by
      rcases hc with rfl | rfl <;> simp [matchSign]
    unfold matchNum
    simp only [hs, List.length_nil, List.drop_zero]
    have : matchMantissa (c :: r) = none := by
      unfold matchMantissa
      simp only [hd, if_true]
      rw [if_neg (by rcases hc with rfl | rfl <;> decide)]
    rw [this]
  unfold findNums
  rw [findNumsFrom, this]

theorem stop_sep (c : Char) (r : List Char) (hc : c = ',' ∨ c = ' ') : Stop (c :: r) := by
  apply Stop.cons
  rcases hc with rfl | rfl <;> decide

variable {ν : Type}

private theorem findNums_pair (F : Fmt ν) (hF : F.Faithful) (p : ν × ν) (r : List Char) (hr : Stop r) :
    findNums (F.pair p ++ r) = F.str p.1 :: F.str p.2 :: findNums r := by
  unfold Fmt.pair
  rw [List.append_assoc, findNums_token _ _ (hF p.1).1 (by rw [List.cons_append]; exact stop_sep _ _ (Or.inl rfl)),
    List.cons_append, findNums_sep _ _ (Or.inl rfl), findNums_token _ _ (hF p.2).1 hr]

private theorem findNums_join (F : Fmt ν) (hF : F.Faithful) (xy : List (ν × ν)) (r : List Char) (hr : Stop r) :
    findNums (joinSpace (xy.map F.pair) ++ r) = (xy.flatMap fun p => [F.str p.1, F.str p.2]) ++ findNums r := by
  induction xy with
  | nil => simp [joinSpace]
  | cons p xy ih =>
    cases xy with
    | nil => simpa [joinSpace] using findNums_pair F hF p r hr
    | cons q xy =>
      have e : joinSpace ((p :: q :: xy).map F.pair) ++ r =
          F.pair p ++ (' ' :: (joinSpace ((q :: xy).map F.pair) ++ r)) := by
        simp [joinSpace]
      rw [e, findNums_pair F hF p _ (stop_sep _ _ (Or.inr rfl)), findNums_sep _ _ (Or.inr rfl), ih]
      simp

private theorem chunks2_flat {α β : Type} (f : α → β) (g : α → β) (l : List α) :
    chunks2 (l.flatMap fun p => [f p, g p]) = l.map fun p => (f p, g p) := by
  induction l with
  | nil => rfl
  | cons a l ih => simp [chunks2, ih]

private theorem points_round (F : Fmt ν) (hF : F.Faithful) (xy : List (ν × ν)) :
    F.pointsToXy (F.xyToPoints xy) = xy := by
  have h := findNums_join F hF xy [] Stop.nil
  unfold Fmt.pointsToXy Fmt.xyToPoints
  rw [List.append_nil] at h
  have h0 : findNums [] = [] := rfl
  rw [h, h0, List.append_nil, chunks2_flat, List.map_map]
  conv_rhs => rw [← List.map_id xy]
  refine List.map_congr_left ?_
  intro p _
  simp [(hF p.1).2, (hF p.2).2]

/-! ### Round trips -/

/-- Every list of points survives writing as a polyline and reading. -/
theorem svg_polyline_round_trip (F : Fmt ν) (hF : F.Faithful) (xy : List (ν × ν)) :
    F.fromPolyline (F.toPolyline xy) = xy := points_round F hF xy

/-- A polygon: an open list of points is read back with its first point appended; a closed one, whose points without
the closing point are at least two and not themselves closed, is read back as it is. -/
theorem svg_polygon_round_trip_partial [DecidableEq ν] (F : Fmt ν) (hF : F.Faithful) (p : ν × ν)
    (xy : List (ν × ν)) (hne : (p :: xy).getLast? ≠ some p) :
    F.fromPolygon (F.toPolygon (p :: xy)) = (p :: xy) ++ [p] ∧
      F.fromPolygon (F.toPolygon ((p :: xy) ++ [p])) = (p :: xy) ++ [p] := by
  have hlen : xy ≠ [] := by rintro rfl; exact hne rfl
  have hl : 1 < (p :: xy).length := by
    cases xy with
    | nil => exact absurd rfl hlen
    | cons q xy => simp
  have hc : closed (p :: xy) = false := by
    unfold closed
    rw [if_pos hl]
    refine decide_eq_false ?_
    intro h
    exact hne h.symm
  have hc' : closed ((p :: xy) ++ [p]) = true := by
    unfold closed
    rw [if_pos (by simp), List.getLast?_concat]
    simp
  have hd : ((p :: xy) ++ [p]).dropLast = p :: xy := List.dropLast_concat
  constructor
  · unfold Fmt.toPolygon Fmt.fromPolygon
    simp only [hc, Bool.false_eq_true, if_false, points_round F hF]
    rfl
  · unfold Fmt.toPolygon Fmt.fromPolygon
    rw [if_pos hc', hd]
    simp only [points_round F hF, hc, Bool.false_eq_true, if_false]
    rfl

/-- C41 fails for polygons of a single point (which is lost) and of one point repeated (read back once). -/
theorem svg_polygon_point_violated [DecidableEq ν] (F : Fmt ν) (hF : F.Faithful) (p : ν × ν) :
    F.fromPolygon (F.toPolygon [p]) = [] ∧ F.fromPolygon (F.toPolygon [p, p]) = [p] := by
  have e0 : closed [p] = true := rfl
  have e1 : closed [p, p] = true := by simp [closed]
  constructor
  · unfold Fmt.toPolygon Fmt.fromPolygon
    rw [if_pos e0]
    simp only [points_round F hF]
    rfl
  · unfold Fmt.toPolygon Fmt.fromPolygon
    rw [if_pos e1]
    simp only [points_round F hF]
    rfl

/-- A line keeps its two end points. -/
theorem svg_line_round_trip [Zero ν] (F : Fmt ν) (hF : F.Faithful) (p : ν × ν) (xy : List (ν × ν)) :
    F.fromLine (F.toLine (p :: xy)) = [p, (p :: xy).getLast (by simp)] := by
  unfold Fmt.fromLine Fmt.toLine
  simp [(hF _).2, List.getLast?_eq_some_getLast]

/-- A circle keeps its centre. -/
theorem svg_circle_round_trip [Zero ν] (F : Fmt ν) (hF : F.Faithful) (p : ν × ν) (xy : List (ν × ν)) :
    F.fromCircle (F.toCircle (p :: xy)) = [p] := by
  unfold Fmt.fromCircle Fmt.toCircle
  simp [(hF _).2]

/-! ### Boxes -/

private theorem foldl_min_le [LinearOrder ν] (l : List ν) (a : ν) : pyMin a l ≤ a ∧ ∀ x ∈ l, pyMin a l ≤ x := by
  induction l generalizing a with
  | nil => exact ⟨le_refl _, by simp⟩
  | cons b l ih =>
    have e : pyMin a (b :: l) = pyMin (min a b) l := rfl
    rw [e]
    obtain ⟨h1, h2⟩ := ih (min a b)
    refine ⟨le_trans h1 (min_le_left _ _), ?_⟩
    intro x hx
    rcases List.mem_cons.1 hx with rfl | hx
    · exact le_trans h1 (min_le_right _ _)
    · exact h2 x hx

private theorem le_foldl_max [LinearOrder ν] (l : List ν) (a : ν) : a ≤ pyMax a l ∧ ∀ x ∈ l, x ≤ pyMax a l := by
  induction l generalizing a with
  | nil => exact ⟨le_refl _, by simp⟩
  | cons b l ih =>
    have e : pyMax a (b :: l) = pyMax (max a b) l := rfl
    rw [e]
    obtain ⟨h1, h2⟩ := ih (max a b)
    refine ⟨le_trans (le_max_left _ _) h1, ?_⟩
    intro x hx
    rcases List.mem_cons.1 hx with rfl | hx
    · exact le_trans (le_max_right _ _) h1
    · exact h2 x hx

private theorem foldl_min_mem [LinearOrder ν] (l : List ν) (a : ν) : pyMin a l = a ∨ pyMin a l ∈ l := by
  induction l generalizing a with
  | nil => left; rfl
  | cons b l ih =>
    have e : pyMin a (b :: l) = pyMin (min a b) l := rfl
    rw [e]
    rcases ih (min a b) with h | h
    · rcases min_choice a b with h' | h'
      · left; rw [h, h']
      · right; rw [h, h']; exact List.mem_cons_self
    · right; exact List.mem_cons_of_mem _ h

private theorem foldl_max_mem [LinearOrder ν] (l : List ν) (a : ν) : pyMax a l = a ∨ pyMax a l ∈ l := by
  induction l generalizing a with
  | nil => left; rfl
  | cons b l ih =>
    have e : pyMax a (b :: l) = pyMax (max a b) l := rfl
    rw [e]
    rcases ih (max a b) with h | h
    · rcases max_choice a b with h' | h'
      · left; rw [h, h']
      · right; rw [h, h']; exact List.mem_cons_self
    · right; exact List.mem_cons_of_mem _ h

/-- `bbox` is the smallest box around the points: it contains them all and each of its sides touches one. -/
theorem bbox_spec [AddCommGroup ν] [LinearOrder ν] (xy : List (ν × ν)) (x y w h : ν)
    (hb : bbox xy = some (x, y, w, h)) :
    (∀ p ∈ xy, x ≤ p.1 ∧ p.1 ≤ x + w ∧ y ≤ p.2 ∧ p.2 ≤ y + h) ∧
      (∃ p ∈ xy, p.1 = x) ∧ (∃ p ∈ xy, p.1 = x + w) ∧ (∃ p ∈ xy, p.2 = y) ∧ (∃ p ∈ xy, p.2 = y + h) := by
  cases xy with
  | nil => cases hb
  | cons a l =>
    simp only [bbox, Option.some.injEq, Prod.mk.injEq] at hb
    obtain ⟨h1, h2, h3, h4⟩ := hb
    have ew : x + w = pyMax a.1 (l.map Prod.fst) := by rw [← h3, h1]; abel
    have eh : y + h = pyMax a.2 (l.map Prod.snd) := by rw [← h4, h2]; abel
    rw [ew, eh]
    subst h1 h2
    refine ⟨?_, ?_, ?_, ?_, ?_⟩
    · intro p hp
      rcases List.mem_cons.1 hp with rfl | hp
      · exact ⟨(foldl_min_le _ _).1, (le_foldl_max _ _).1, (foldl_min_le _ _).1, (le_foldl_max _ _).1⟩
      · exact ⟨(foldl_min_le _ _).2 _ (List.mem_map_of_mem hp), (le_foldl_max _ _).2 _ (List.mem_map_of_mem hp),
          (foldl_min_le _ _).2 _ (List.mem_map_of_mem hp), (le_foldl_max _ _).2 _ (List.mem_map_of_mem hp)⟩
    · rcases foldl_min_mem (l.map Prod.fst) a.1 with h | h
      · exact ⟨a, List.mem_cons_self, h.symm⟩
      · obtain ⟨p, hp, e⟩ := List.mem_map.1 h
        exact ⟨p, List.mem_cons_of_mem _ hp, e⟩
    · rcases foldl_max_mem (l.map Prod.fst) a.1 with h | h
      · exact ⟨a, List.mem_cons_self, h.symm⟩
      · obtain ⟨p, hp, e⟩ := List.mem_map.1 h
        exact ⟨p, List.mem_cons_of_mem _ hp, e⟩
    · rcases foldl_min_mem (l.map Prod.snd) a.2 with h | h
      · exact ⟨a, List.mem_cons_self, h.symm⟩
      · obtain ⟨p, hp, e⟩ := List.mem_map.1 h
        exact ⟨p, List.mem_cons_of_mem _ hp, e⟩
    · rcases foldl_max_mem (l.map Prod.snd) a.2 with h | h
      · exact ⟨a, List.mem_cons_self, h.symm⟩
      · obtain ⟨p, hp, e⟩ := List.mem_map.1 h
        exact ⟨p, List.mem_cons_of_mem _ hp, e⟩

/-- Points written as `rect` or `image` are read back as the corners of their bounding box. -/
theorem svg_rect_round_trip [AddCommGroup ν] [LinearOrder ν] (F : Fmt ν) (hF : F.Faithful) (xy : List (ν × ν))
    (x y w h : ν) (hb : bbox xy = some (x, y, w, h)) :
    F.fromRect (F.toRect xy) = [(x, y), (x + w, y), (x + w, y + h), (x, y + h), (x, y)] := by
  unfold Fmt.fromRect Fmt.toRect
  simp only [hb, Option.getD_some, (hF _).2]
  rfl

/-- The corners of a box survive writing as `rect` or `image`. -/
theorem svg_rect_of_rect [AddCommGroup ν] [LinearOrder ν] [IsOrderedAddMonoid ν] (F : Fmt ν) (hF : F.Faithful)
    (x y w h : ν) (hw : 0 ≤ w) (hh : 0 ≤ h) :
    F.fromRect (F.toRect [(x, y), (x + w, y), (x + w, y + h), (x, y + h), (x, y)]) =
      [(x, y), (x + w, y), (x + w, y + h), (x, y + h), (x, y)] := by
  refine svg_rect_round_trip F hF _ x y w h ?_
  have h1 : x ≤ x + w := le_add_of_nonneg_right hw
  have h2 : y ≤ y + h := le_add_of_nonneg_right hh
  simp [bbox, pyMin, pyMax, h1, h2]

/-- Points written as the `viewBox` of `svg` are read back as the corners of their bounding box. -/
theorem svg_viewbox_round_trip [AddCommGroup ν] [LinearOrder ν] (F : Fmt ν) (hF : F.Faithful) (xy : List (ν × ν))
    (x y w h : ν) (hb : bbox xy = some (x, y, w, h)) :
    F.fromSvg (F.toSvg xy) = .ok [(x, y), (x + w, y), (x + w, y + h), (x, y + h), (x, y)] := by
  have e : findNums (joinSpace [F.str x, F.str y, F.str w, F.str h]) = [F.str x, F.str y, F.str w, F.str h] := by
    have s : ∀ r, Stop (' ' :: r) := fun r => stop_sep ' ' r (Or.inr rfl)
    simp only [joinSpace]
    rw [findNums_token _ _ (hF x).1 (s _), findNums_sep _ _ (Or.inr rfl), findNums_token _ _ (hF y).1 (s _),
      findNums_sep _ _ (Or.inr rfl), findNums_token _ _ (hF w).1 (s _), findNums_sep _ _ (Or.inr rfl)]
    have := findNums_token _ [] (hF h).1 Stop.nil
    rw [List.append_nil] at this
    rw [this]; rfl
  unfold Fmt.toSvg
  rw [hb]
  simp only [Option.map_some]
  cases e2 : joinSpace [F.str x, F.str y, F.str w, F.str h] with
  | nil => rw [e2] at e; cases e
  | cons c cs =>
    unfold Fmt.fromSvg
    simp only
    rw [← e2, e]
    simp only [(hF _).2]
    rfl

/-! ### Paths -/

theorem token_not_cmd (t : List Char) (ht : IsNumeral t) : ∀ c ∈ t, isCmd c = false := by
  have dg : ∀ c : Char, c.isDigit = true → isCmd c = false := by
    intro c h
    unfold isCmd Char.isAlpha Char.isUpper Char.isLower
    unfold Char.isDigit at h
    simp only [Bool.and_eq_true, decide_eq_true_eq, ge_iff_le] at h
    have h2 := h.2
    have a : ¬ (65 ≤ c.val) := by
      intro h'
      have : (65 : UInt32) ≤ 57 := UInt32.le_trans h' h2
      revert this; decide
    have b : ¬ (97 ≤ c.val) := by
      intro h'
      have : (97 : UInt32) ≤ 57 := UInt32.le_trans h' h2
      revert this; decide
    simp [a, b]
  have sg : ∀ s : List Char, IsSign s → ∀ c ∈ s, isCmd c = false := by
    intro s hs c hc
    rcases hs with rfl | rfl | rfl
    · cases hc
    · simp only [List.mem_singleton] at hc; subst hc; decide
    · simp only [List.mem_singleton] at hc; subst hc; decide
  obtain ⟨s, m, e, rfl, hs, hm, he⟩ := ht
  intro c hc
  rcases List.mem_append.1 hc with hc | hc
  · rcases List.mem_append.1 hc with hc | hc
    · exact sg s hs c hc
    · rcases hm with h | ⟨f, rfl, hf⟩ | ⟨d, f, rfl, hd, hf⟩
      · exact dg c (h.2 c hc)
      · rcases List.mem_cons.1 hc with rfl | hc
        · decide
        · exact dg c (hf.2 c hc)
      · rcases List.mem_append.1 hc with hc | hc
        · exact dg c (hd.2 c hc)
        · rcases List.mem_cons.1 hc with rfl | hc
          · decide
          · exact dg c (hf.2 c hc)
  · rcases he with rfl | ⟨k, s', d, rfl, hk, hs', hd⟩
    · cases hc
    · rcases List.mem_cons.1 hc with rfl | hc
      · rcases hk with rfl | rfl <;> decide
      · rcases List.mem_append.1 hc with hc | hc
        · exact sg s' hs' c hc
        · exact dg c (hd.2 c hc)

private theorem pair_not_cmd (F : Fmt ν) (hF : F.Faithful) (p : ν × ν) : ∀ c ∈ F.pair p, isCmd c = false := by
  intro c hc
  unfold Fmt.pair at hc
  rcases List.mem_append.1 hc with hc | hc
  · exact token_not_cmd _ (hF p.1).1 c hc
  · rcases List.mem_cons.1 hc with rfl | hc
    · decide
    · exact token_not_cmd _ (hF p.2).1 c hc

private theorem join_not_cmd (F : Fmt ν) (hF : F.Faithful) (xy : List (ν × ν)) :
    ∀ c ∈ joinSpace (xy.map F.pair), isCmd c = false := by
  induction xy with
  | nil => intro c hc; cases hc
  | cons p xy ih =>
    cases xy with
    | nil => exact pair_not_cmd F hF p
    | cons q xy =>
      intro c hc
      have e : joinSpace ((p :: q :: xy).map F.pair) = F.pair p ++ (' ' :: joinSpace ((q :: xy).map F.pair)) := by
        simp [joinSpace]
      rw [e] at hc
      rcases List.mem_append.1 hc with hc | hc
      · exact pair_not_cmd F hF p c hc
      · rcases List.mem_cons.1 hc with rfl | hc
        · decide
        · exact ih c hc

theorem groups_head (c : Char) (cs : List Char) : ∃ g gs, groups (c :: cs) = (isCmd c, g) :: gs := by
  rw [groups]
  cases e : groups cs with
  | nil => exact ⟨_, _, rfl⟩
  | cons b gs =>
    obtain ⟨b, g⟩ := b
    by_cases h : b = isCmd c
    · simp only [h, if_true]; exact ⟨_, _, rfl⟩
    · simp only [if_neg h]; exact ⟨_, _, rfl⟩

theorem groups_run (s r : List Char) (b : Bool) (hs : s ≠ []) (h : ∀ c ∈ s, isCmd c = b)
    (hr : ∀ c ∈ r.head?, isCmd c = !b) : groups (s ++ r) = (b, s) :: groups r := by
  induction s with
  | nil => exact absurd rfl hs
  | cons c s ih =>
    have hc := h c List.mem_cons_self
    rw [List.cons_append, groups]
    cases s with
    | nil =>
      rw [List.nil_append]
      cases r with
      | nil => simp [groups, hc]
      | cons d r =>
        obtain ⟨g, gs, e⟩ := groups_head d r
        rw [e]
        have := hr d rfl
        simp [this, hc]
    | cons d s =>
      rw [ih (by simp) (fun c hc => h c (List.mem_cons_of_mem _ hc))]
      simp [hc]

private theorem groups_block (k : Char) (s r : List Char) (hk : isCmd k = true) (hs : s ≠ [])
    (h : ∀ c ∈ s, isCmd c = false) (hr : ∀ c ∈ r.head?, isCmd c = true) :
    groups (k :: (s ++ r)) = (true, [k]) :: (false, s) :: groups r := by
  have h1 := groups_run s r false hs h hr
  have h2 := groups_run [k] (s ++ r) true (by simp) (by simpa using hk) (by
    intro c hc
    cases s with
    | nil => exact absurd rfl hs
    | cons d s => cases hc; exact h c List.mem_cons_self)
  rw [List.singleton_append] at h2
  rw [h2, h1]

private theorem groups_Z : groups ['Z'] = [(true, ['Z'])] := by decide

private theorem pathWords_two (F : Fmt ν) (i : Nat) (ps : List (ν × ν)) : F.pathWords (i + 2) ps = ps.map F.pair := by
  induction ps generalizing i with
  | nil => simp [Fmt.pathWords]
  | cons p ps ih =>
    simp only [Fmt.pathWords, List.map_cons]
    rw [show i + 3 = (i + 1) + 2 from rfl, ih (i + 1)]

private theorem join_snoc (ws : List (List Char)) (z : List Char) (h : ws ≠ []) :
    joinSpace (ws ++ [z]) = joinSpace ws ++ ' ' :: z := by
  induction ws with
  | nil => exact absurd rfl h
  | cons w ws ih =>
    cases ws with
    | nil => simp [joinSpace]
    | cons v ws =>
      have := ih (by simp)
      simp only [List.cons_append, joinSpace] at this ⊢
      rw [this]; simp

private theorem nums_join (F : Fmt ν) (hF : F.Faithful) (xy : List (ν × ν)) (r : List Char) (hr : r = [] ∨ r = [' ']) :
    chunks2 ((findNums (' ' :: (joinSpace (xy.map F.pair) ++ r))).map F.num) = xy := by
  have hr' : Stop r := by
    rcases hr with rfl | rfl
    · exact Stop.nil
    · exact stop_sep _ _ (Or.inr rfl)
  have h0 : findNums r = [] := by rcases hr with rfl | rfl <;> rfl
  rw [findNums_sep _ _ (Or.inr rfl), findNums_join F hF xy r hr', h0, List.append_nil]
  have : ((xy.flatMap fun p => [F.str p.1, F.str p.2])).map F.num = xy.flatMap fun p => [p.1, p.2] := by
    rw [List.map_flatMap]
    congr 1
    funext p
    simp [(hF _).2]
  rw [this, chunks2_flat]
  simp

/-- The text of a path. -/
private theorem path_text (F : Fmt ν) (p q : ν × ν) (r : List (ν × ν)) :
    joinSpace (F.pathWords 0 (p :: q :: r)) =
      'M' :: ((' ' :: (joinSpace ([p].map F.pair) ++ [' '])) ++
        'L' :: ((' ' :: (joinSpace ((q :: r).map F.pair) ++ [])) ++ [])) := by
  simp only [Fmt.pathWords, pathWords_two F 0]
  cases r with
  | nil => simp [joinSpace]
  | cons s r => simp [joinSpace]

private theorem foldl_lines [Add ν] (p : ν × ν) (r : List (ν × ν)) (ps qs : List ν) (hp : chunks2 ps = [p])
    (hq : chunks2 qs = r) : pathLoop [(['M'], ps), (['L'], qs)] = .ok (p :: r) := by
  simp [pathLoop, pathCommand, hp, hq, bind, Except.bind, pure, Except.pure]

/-- Every list of at least two points survives writing as a path and reading. -/
theorem svg_path_round_trip_partial [DecidableEq ν] [Add ν] (F : Fmt ν) (hF : F.Faithful) (p q : ν × ν)
    (r : List (ν × ν)) : F.fromPath (F.toPath (p :: q :: r)) = .ok (p :: q :: r) := by
  have hM : isCmd 'M' = true := by decide
  have hL : isCmd 'L' = true := by decide
  have hZ : isCmd 'Z' = true := by decide
  have blk : ∀ (xy : List (ν × ν)) (t : List Char), t = [] ∨ t = [' '] →
      ∀ c ∈ (' ' :: (joinSpace (xy.map F.pair) ++ t)), isCmd c = false := by
    intro xy t ht c hc
    rcases List.mem_cons.1 hc with rfl | hc
    · decide
    · rcases List.mem_append.1 hc with hc | hc
      · exact join_not_cmd F hF xy c hc
      · rcases ht with rfl | rfl
        · cases hc
        · simp only [List.mem_singleton] at hc; subst hc; decide
  unfold Fmt.toPath
  cases hc : closed (p :: q :: r) with
  | false =>
    simp only [Bool.false_eq_true, if_false, List.append_nil]
    rw [path_text]
    have g := groups_block 'M' (' ' :: (joinSpace ([p].map F.pair) ++ [' ']))
      ('L' :: ((' ' :: (joinSpace ((q :: r).map F.pair) ++ [])) ++ [])) hM (by simp) (blk [p] _ (Or.inr rfl))
      (by intro c hc; cases hc; exact hL)
    have g2 := groups_block 'L' (' ' :: (joinSpace ((q :: r).map F.pair) ++ [])) [] hL (by simp)
      (blk (q :: r) _ (Or.inl rfl)) (by intro c hc; cases hc)
    rw [g2] at g
    unfold Fmt.fromPath Fmt.pathPairs pathCommands pathSeqs
    rw [g]
    have n1 := nums_join F hF [p] [' '] (Or.inr rfl)
    have n2 := nums_join F hF (q :: r) [] (Or.inl rfl)
    have := foldl_lines p (q :: r) _ _ n1 n2
    simpa [groups] using this
  | true =>
    have hlast : (p :: q :: r).getLast? = some p := by
      unfold closed at hc
      rw [if_pos (by simp)] at hc
      exact (of_decide_eq_true hc).symm
    have hsplit : p :: q :: r = (p :: q :: r).dropLast ++ [p] := by
      have h1 := List.dropLast_concat_getLast (l := p :: q :: r) (by simp)
      rw [List.getLast?_eq_some_getLast (by simp)] at hlast
      rw [Option.some.inj hlast] at h1
      exact h1.symm
    simp only [if_true]
    cases r with
    | nil =>
      have hq : q = p := by simpa using hlast
      subst hq
      have e : joinSpace (F.pathWords 0 ([q, q] : List (ν × ν)).dropLast ++ [['Z']]) =
          'M' :: ((' ' :: (joinSpace ([q].map F.pair) ++ [' '])) ++ ['Z']) := by
        simp [Fmt.pathWords, joinSpace]
      rw [e]
      have g := groups_block 'M' (' ' :: (joinSpace ([q].map F.pair) ++ [' '])) ['Z'] hM (by simp)
        (blk [q] _ (Or.inr rfl)) (by intro c hc; cases hc; exact hZ)
      rw [groups_Z] at g
      have n1 := nums_join F hF [q] [' '] (Or.inr rfl)
      unfold Fmt.fromPath Fmt.pathPairs pathCommands pathSeqs
      rw [g]
      have : ∀ ps : List ν, chunks2 ps = [q] → pathLoop [(['M'], ps), (['Z'], [])] = .ok [q, q] := by
        intro ps h1
        simp [pathLoop, pathCommand, h1, bind, Except.bind, pure, Except.pure]
      simpa using this _ n1
    | cons s r =>
      have hd : (p :: q :: s :: r).dropLast = p :: q :: (s :: r).dropLast := by simp
      rw [hd] at hsplit ⊢
      set t := (s :: r).dropLast with ht
      rw [join_snoc _ _ (by simp [Fmt.pathWords]), path_text]
      have e : ('M' :: ((' ' :: (joinSpace ([p].map F.pair) ++ [' '])) ++
          'L' :: ((' ' :: (joinSpace ((q :: t).map F.pair) ++ [])) ++ []))) ++ [' ', 'Z'] =
          'M' :: ((' ' :: (joinSpace ([p].map F.pair) ++ [' '])) ++
          'L' :: ((' ' :: (joinSpace ((q :: t).map F.pair) ++ [' '])) ++ ['Z'])) := by simp
      rw [e]
      have g := groups_block 'M' (' ' :: (joinSpace ([p].map F.pair) ++ [' ']))
        ('L' :: ((' ' :: (joinSpace ((q :: t).map F.pair) ++ [' '])) ++ ['Z'])) hM (by simp)
        (blk [p] _ (Or.inr rfl)) (by intro c hc; cases hc; exact hL)
      have g2 := groups_block 'L' (' ' :: (joinSpace ((q :: t).map F.pair) ++ [' '])) ['Z'] hL (by simp)
        (blk (q :: t) _ (Or.inr rfl)) (by intro c hc; cases hc; exact hZ)
      rw [g2, groups_Z] at g
      have n1 := nums_join F hF [p] [' '] (Or.inr rfl)
      have n2 := nums_join F hF (q :: t) [' '] (Or.inr rfl)
      unfold Fmt.fromPath Fmt.pathPairs pathCommands pathSeqs
      rw [g, hsplit]
      have : ∀ ps qs : List ν, chunks2 ps = [p] → chunks2 qs = q :: t →
          pathLoop [(['M'], ps), (['L'], qs), (['Z'], [])] = .ok (p :: q :: t ++ [p]) := by
        intro ps qs h1 h2
        simp [pathLoop, pathCommand, h1, h2, bind, Except.bind, pure, Except.pure]
      simpa using this _ _ n1 n2

/-- C41 fails for paths of no point or of one point: what is written cannot be read. -/
theorem svg_path_point_violated [DecidableEq ν] [Add ν] (F : Fmt ν) (p : ν × ν) :
    F.fromPath (F.toPath [p]) = .error .indexError ∧ F.fromPath (F.toPath ([] : List (ν × ν))) = .error .indexError := by
  have h : ∀ xy : List (ν × ν), xy = [p] ∨ xy = [] → F.toPath xy = ['Z'] := by
    intro xy h
    rcases h with rfl | rfl <;> rfl
  have hz : F.fromPath ['Z'] = .error .indexError := by
    have h1 : pathCommands ['Z'] = [['Z']] := by decide
    have h2 : pathSeqs ['Z'] = [] := by decide
    unfold Fmt.fromPath Fmt.pathPairs
    rw [h1, h2]
    rfl
  exact ⟨by rw [h _ (Or.inl rfl), hz], by rw [h _ (Or.inr rfl), hz]⟩

/-! ### Python's numbers -/

private theorem digitChar_facts : ∀ d : Nat, d < 10 →
    (Nat.digitChar d).isDigit = true ∧ (Nat.digitChar d).toNat - '0'.toNat = d := by decide

theorem natStr_digits (n : Nat) : IsDigits (natStr n) := by
  unfold natStr
  split
  · exact ⟨by simp, by simp⟩
  · rename_i h
    constructor
    · simpa [Nat.digits_ne_nil_iff_ne_zero] using h
    · intro c hc
      obtain ⟨d, hd, rfl⟩ := List.mem_map.1 hc
      exact (digitChar_facts d (Nat.digits_lt_base (by norm_num) (List.mem_reverse.1 hd))).1

theorem natOf_natStr (n : Nat) : natOf (natStr n) = n := by
  unfold natStr natOf
  split
  · rename_i h; subst h; decide
  · rw [← List.map_reverse, List.reverse_reverse, List.map_map]
    have : (Nat.digits 10 n).map ((fun c : Char => c.toNat - '0'.toNat) ∘ Nat.digitChar) = Nat.digits 10 n := by
      conv_rhs => rw [← List.map_id (Nat.digits 10 n)]
      refine List.map_congr_left ?_
      intro d hd
      exact (digitChar_facts d (Nat.digits_lt_base (by norm_num) hd)).2
    rw [this, Nat.ofDigits_digits]

private theorem intStr_numeral (z : ℤ) : IsNumeral (intStr z) := by
  unfold intStr
  split
  · exact ⟨['-'], natStr z.natAbs, [], by simp, Or.inr (Or.inr rfl), Or.inl (natStr_digits _), Or.inl rfl⟩
  · exact ⟨[], natStr z.natAbs, [], by simp, Or.inl rfl, Or.inl (natStr_digits _), Or.inl rfl⟩

theorem intOf_intStr (z : ℤ) : intOf (intStr z) = some z := by
  have hd := natStr_digits z.natAbs
  have hv := natOf_natStr z.natAbs
  have hall : (natStr z.natAbs).all Char.isDigit = true := List.all_eq_true.2 hd.2
  unfold intStr
  split
  · rename_i h
    simp only [intOf, hd.1, hall, ne_eq, not_false_eq_true, and_self, if_true, hv, Option.some.injEq]
    omega
  · rename_i h
    cases e : natStr z.natAbs with
    | nil => exact absurd e hd.1
    | cons c r =>
      have hc := digit_not c (hd.2 c (by rw [e]; exact List.mem_cons_self))
      have : intOf (c :: r) = if (c :: r) ≠ [] ∧ (c :: r).all Char.isDigit then some (natOf (c :: r) : ℤ) else none := by
        unfold intOf
        split
        · rename_i h; exact absurd (List.cons.inj h).1 hc.2.2.1
        · rename_i h; exact absurd (List.cons.inj h).1 hc.2.1
        · rfl
      rw [this, ← e, if_pos ⟨hd.1, hall⟩, hv]
      congr 1
      omega

/-- Python's numbers are written and read faithfully, given of floats only that their `repr` is a numeral that is not
an integer and that `float` inverts it (true of finite floats). -/
theorem pyFmt_faithful {φ : Type} (repr : φ → List Char) (float : List Char → φ)
    (h : ∀ f, IsNumeral (repr f) ∧ intOf (repr f) = none ∧ float (repr f) = f) : (pyFmt repr float).Faithful := by
  intro x
  cases x with
  | int z => exact ⟨intStr_numeral z, by simp only [pyFmt, intOf_intStr]⟩
  | flt f => exact ⟨(h f).1, by simp only [pyFmt, (h f).2.1, (h f).2.2]⟩

/-- Integers, written and read. -/
def intFmt : Fmt ℤ where
  str := intStr
  num s := (intOf s).getD 0

theorem intFmt_faithful : intFmt.Faithful := by
  intro z
  exact ⟨intStr_numeral z, by simp [intFmt, intOf_intStr]⟩

example : intFmt.toPath [(0, 0), (-12, 305), (7, 8), (0, 0)] = "M 0,0 L -12,305 7,8 Z".toList := by decide +kernel
example : intFmt.fromPath "M 0,0 L -12,305 7,8 Z".toList = .ok [(0, 0), (-12, 305), (7, 8), (0, 0)] := by decide +kernel
example : findNums "translate(1-1 .5e-3+2.25E10,4.)".toList =
    ["1".toList, "-1".toList, ".5e-3".toList, "+2.25E10".toList, "4".toList] := by decide +kernel
example : IsNumeral "-1.5e-07".toList :=
  ⟨['-'], "1.5".toList, "e-07".toList, by decide, Or.inr (Or.inr rfl),
    Or.inr (Or.inr ⟨['1'], ['5'], rfl, ⟨by simp, by simp⟩, ⟨by simp, by simp⟩⟩),
    Or.inr ⟨'e', ['-'], ['0', '7'], rfl, Or.inl rfl, Or.inr (Or.inr rfl), ⟨by simp, by simp⟩⟩⟩

/-- A viewBox with any other number of numbers than four raises ValueError; with four it is the box with its corner and size; a
missing or empty one gives no points. -/
theorem from_svg_cases {ν : Type} [Add ν] (F : Fmt ν) :
    F.fromSvg none = .ok [] ∧ F.fromSvg (some []) = .ok [] ∧
    (∀ s : List Char, s ≠ [] → (findNums s).length ≠ 4 → F.fromSvg (some s) = .error .valueError) ∧
    ∀ (s x y w h : List Char), s ≠ [] → findNums s = [x, y, w, h] → F.fromSvg (some s) =
      .ok [(F.num x, F.num y), (F.num x + F.num w, F.num y), (F.num x + F.num w, F.num y + F.num h),
        (F.num x, F.num y + F.num h), (F.num x, F.num y)] := by
  refine ⟨rfl, rfl, ?_, ?_⟩
  · intro s hs hn
    cases s with
    | nil => exact absurd rfl hs
    | cons c cs =>
      unfold Fmt.fromSvg
      split
      · rename_i e; cases e
      · rename_i e; cases e
      · rename_i e
        cases e
        split
        · rename_i e; rw [e] at hn; exact absurd rfl hn
        · rfl
  · intro s x y w h hs hn
    cases s with
    | nil => exact absurd rfl hs
    | cons c cs =>
      simp only [Fmt.fromSvg, hn, rectXy]

example : ((⟨fun _ => [], fun _ => 0⟩ : Fmt ℚ).fromSvg (some "1 2 3".toList)).toOption = none := by decide +kernel

end Glimpse.Svg
