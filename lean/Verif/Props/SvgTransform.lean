import Verif.Model.SvgRead
import Verif.Props.SvgPath
import Mathlib.Algebra.Ring.Defs
import Mathlib.Tactic.Ring

/-!
C42: SVG transforms.
-/
set_option autoImplicit false
set_option linter.unusedSimpArgs false

namespace Glimpse.Svg

/-! ### Specification -/

/-- A transform function of the SVG standard. -/
inductive Fn (ν : Type) where
  | translate (x : ν) (y : Option ν)
  | scale (x : ν) (y : Option ν)
  | matrix (a b c d e f : ν)

variable {ν : Type}

/-- Its name. -/
def Fn.name : Fn ν → List Char
  | translate _ _ => "translate".toList
  | scale _ _ => "scale".toList
  | matrix _ _ _ _ _ _ => "matrix".toList

/-- Its arguments. -/
def Fn.args : Fn ν → List ν
  | translate x y => x :: y.toList
  | scale x y => x :: y.toList
  | matrix a b c d e f => [a, b, c, d, e, f]

/-- Its effect on a point: translate by (x, y or 0), scale by (x, y or x), or the matrix [a c e; b d f; 0 0 1]. -/
def Fn.apply [Mul ν] [Add ν] [Zero ν] : Fn ν → ν × ν → ν × ν
  | translate x y, p => (p.1 + x, p.2 + y.getD 0)
  | scale x y, p => (p.1 * x, p.2 * y.getD x)
  | matrix a b c d e f, p => (a * p.1 + c * p.2 + e, b * p.1 + d * p.2 + f)

/-- The text of a transform attribute. -/
def Fmt.fnText (F : Fmt ν) (l : List (Fn ν)) : List Char :=
  l.flatMap fun f => f.name ++ '(' :: ((' ' :: joinSpace (f.args.map F.str)) ++ [')'])

/-- The standard: the transform listed last is applied to the point first. -/
def svgApply [Mul ν] [Add ν] [Zero ν] (l : List (Fn ν)) (p : ν × ν) : ν × ν := l.foldr Fn.apply p

/-- What the code does: the transform listed first is applied first. -/
def inListedOrder [Mul ν] [Add ν] [Zero ν] (l : List (Fn ν)) (p : ν × ν) : ν × ν := l.foldl (fun q f => f.apply q) p

/-! ### Text -/

theorem numeral_no_paren (t : List Char) (ht : IsNumeral t) : ∀ c ∈ t, c ≠ ')' := by
  have dg : ∀ c : Char, c.isDigit = true → c ≠ ')' := by
    rintro c h rfl; revert h; decide
  have sg : ∀ s : List Char, IsSign s → ∀ c ∈ s, c ≠ ')' := by
    intro s hs c hc
    rcases hs with rfl | rfl | rfl
    · cases hc
    · simp only [List.mem_singleton] at hc; subst hc; decide
    · simp only [List.mem_singleton] at hc; subst hc; decide
  obtain ⟨s, m, e, rfl, hs, hm, he⟩ := ht
  intro c hc
  rcases List.mem_append.1 hc with hc | hc
  · rcases List.mem_append.1 hc with hc | hc
    · exact sg s hs c hc
    · rcases hm with h | ⟨f, rfl, hf⟩ | ⟨d, f, rfl, hd, hf⟩
      · exact dg c (h.2 c hc)
      · rcases List.mem_cons.1 hc with rfl | hc
        · decide
        · exact dg c (hf.2 c hc)
      · rcases List.mem_append.1 hc with hc | hc
        · exact dg c (hd.2 c hc)
        · rcases List.mem_cons.1 hc with rfl | hc
          · decide
          · exact dg c (hf.2 c hc)
  · rcases he with rfl | ⟨k, s', d, rfl, hk, hs', hd⟩
    · cases hc
    · rcases List.mem_cons.1 hc with rfl | hc
      · rcases hk with rfl | rfl <;> decide
      · rcases List.mem_append.1 hc with hc | hc
        · exact sg s' hs' c hc
        · exact dg c (hd.2 c hc)

private theorem args_no_paren (F : Fmt ν) (hF : F.Faithful) (l : List ν) :
    ∀ c ∈ (' ' :: joinSpace (l.map F.str)), c ≠ ')' := by
  intro c hc
  rcases List.mem_cons.1 hc with rfl | hc
  · decide
  · induction l with
    | nil => cases hc
    | cons a l ih =>
      cases l with
      | nil => exact numeral_no_paren _ (hF a).1 c hc
      | cons b l =>
        simp only [List.map_cons, joinSpace] at ih hc
        rcases List.mem_append.1 hc with hc | hc
        · exact numeral_no_paren _ (hF a).1 c hc
        · rcases List.mem_cons.1 hc with rfl | hc
          · decide
          · exact ih (List.mem_cons_of_mem _ hc) hc

private theorem findCallsFrom_skip (a r : List Char) : findCallsFrom (a ++ r) a.length = findCallsFrom r 0 := by
  induction a with
  | nil => rfl
  | cons c a ih => simpa [findCallsFrom] using ih

private theorem name_facts (f : Fn ν) : f.name ≠ [] ∧ ∀ c ∈ f.name, c.isAlpha = true := by
  have key : ∀ n : List Char, n ∈ ["translate".toList, "scale".toList, "matrix".toList] →
      n ≠ [] ∧ ∀ c ∈ n, c.isAlpha = true := by decide
  refine key f.name ?_
  cases f with
  | translate x y => exact List.mem_cons_self
  | scale x y => exact List.mem_cons_of_mem _ List.mem_cons_self
  | matrix a b c d e g => exact List.mem_cons_of_mem _ (List.mem_cons_of_mem _ List.mem_cons_self)

private theorem matchCall_text (n ps r : List Char) (hn : n ≠ [] ∧ ∀ c ∈ n, c.isAlpha = true) (hp : ∀ c ∈ ps, c ≠ ')') :
    matchCall (n ++ '(' :: (ps ++ ')' :: r)) = some (n, ps) := by
  have h1 : (n ++ '(' :: (ps ++ ')' :: r)).takeWhile Char.isAlpha = n := by
    rw [List.takeWhile_append_of_pos hn.2, List.takeWhile_cons_of_neg (by decide), List.append_nil]
  have h2 : (ps ++ ')' :: r).takeWhile (fun c => c != ')') = ps := by
    rw [List.takeWhile_append_of_pos (by intro c hc; simpa using hp c hc), List.takeWhile_cons_of_neg (by decide),
      List.append_nil]
  unfold matchCall
  simp only [h1, if_neg hn.1, List.drop_left, if_true, h2]
  simp

private theorem findCalls_text (n ps r : List Char) (hn : n ≠ [] ∧ ∀ c ∈ n, c.isAlpha = true) (hp : ∀ c ∈ ps, c ≠ ')') :
    findCalls (n ++ '(' :: (ps ++ ')' :: r)) = (n, ps) :: findCalls r := by
  have h := matchCall_text n ps r hn hp
  cases n with
  | nil => exact absurd rfl hn.1
  | cons c n =>
    unfold findCalls
    rw [List.cons_append] at h ⊢
    rw [findCallsFrom, h]
    simp only
    have e : n ++ '(' :: (ps ++ ')' :: r) = (n ++ '(' :: (ps ++ [')'])) ++ r := by simp
    have hl : (c :: n).length + ps.length + 1 = (n ++ '(' :: (ps ++ [')'])).length := by simp; omega
    rw [e, hl, findCallsFrom_skip]

private theorem findCalls_fns (F : Fmt ν) (hF : F.Faithful) (l : List (Fn ν)) (r : List Char) :
    findCalls (F.fnText l ++ r) = (l.map fun f => (f.name, ' ' :: joinSpace (f.args.map F.str))) ++ findCalls r := by
  induction l with
  | nil => rfl
  | cons f l ih =>
    have e : F.fnText (f :: l) ++ r =
        f.name ++ '(' :: ((' ' :: joinSpace (f.args.map F.str)) ++ ')' :: (F.fnText l ++ r)) := by
      simp [Fmt.fnText]
    rw [e, findCalls_text _ _ _ (name_facts f) (args_no_paren F hF f.args), ih]
    simp

section
variable [Mul ν] [Add ν] [Zero ν]

private theorem callPts_scale (args : List ν) (xy : List (ν × ν)) :
    callPts "scale".toList args xy = (match args with
      | [x] => .ok (scalePts x none xy)
      | [x, y] => .ok (scalePts x (some y) xy)
      | _ => .error .typeError) := by
  unfold callPts; exact if_pos rfl

private theorem callPts_translate (args : List ν) (xy : List (ν × ν)) :
    callPts "translate".toList args xy = (match args with
      | [x] => .ok (translatePts x none xy)
      | [x, y] => .ok (translatePts x (some y) xy)
      | _ => .error .typeError) := by
  have h1 : ¬ ("translate".toList = "scale".toList) := by decide
  unfold callPts; exact (if_neg h1).trans (if_pos rfl)

private theorem callPts_matrix (args : List ν) (xy : List (ν × ν)) :
    callPts "matrix".toList args xy = (match args with
      | [a, b, c, d, e, f] => .ok (matrixPts a b c d e f xy)
      | _ => .error .typeError) := by
  have h1 : ¬ ("matrix".toList = "scale".toList) := by decide
  have h2 : ¬ ("matrix".toList = "translate".toList) := by decide
  unfold callPts; exact (if_neg h1).trans ((if_neg h2).trans (if_pos rfl))

private theorem callPts_fn (f : Fn ν) (xy : List (ν × ν)) : callPts f.name f.args xy = .ok (xy.map f.apply) := by
  cases f with
  | translate x y => exact (callPts_translate _ _).trans (by cases y <;> rfl)
  | scale x y => exact (callPts_scale _ _).trans (by cases y <;> rfl)
  | matrix a b c d e g => exact callPts_matrix _ _

/-- Every transform attribute is applied to every point, function by function in the order of the text (also when it is
put together from several attributes, as for nested groups). -/
theorem svg_transform_listed_order (F : Fmt ν) (hF : F.Faithful) (l : List (Fn ν)) (xy : List (ν × ν)) :
    F.transform (F.fnText l) xy = .ok (xy.map (inListedOrder l)) := by
  have h := findCalls_fns F hF l []
  rw [List.append_nil] at h
  have h0 : findCalls [] = [] := rfl
  unfold Fmt.transform
  rw [h, h0, List.append_nil]
  clear h
  induction l generalizing xy with
  | nil =>
    have : inListedOrder ([] : List (Fn ν)) = id := rfl
    simp [this, pure, Except.pure]
  | cons f l ih =>
    simp only [List.map_cons, List.foldlM_cons, findNums_args F hF, callPts_fn, bind, Except.bind]
    rw [ih, List.map_map]
    rfl

/-- Attributes of an ancestor and of the element itself are joined by writing one after the other. -/
theorem svg_transform_nested (F : Fmt ν) (hF : F.Faithful) (outer inner : List (Fn ν)) (xy : List (ν × ν)) :
    F.transform (F.fnText outer ++ F.fnText inner) xy =
      .ok (xy.map fun p => inListedOrder inner (inListedOrder outer p)) := by
  have : F.fnText outer ++ F.fnText inner = F.fnText (outer ++ inner) := by simp [Fmt.fnText]
  rw [this, svg_transform_listed_order F hF]
  congr 1
  refine List.map_congr_left ?_
  intro p _
  simp [inListedOrder]

/-- The code applies a transform attribute as the standard would apply it written backwards. -/
theorem svg_transform_reversed (F : Fmt ν) (hF : F.Faithful) (l : List (Fn ν)) (xy : List (ν × ν)) :
    F.transform (F.fnText l) xy = .ok (xy.map (svgApply l.reverse)) := by
  rw [svg_transform_listed_order F hF]
  congr 1
  refine List.map_congr_left ?_
  intro p _
  simp [inListedOrder, svgApply, List.foldr_reverse]

private theorem foldl_comm (l : List (Fn ν)) (f : Fn ν) (h : ∀ g ∈ l, ∀ p, f.apply (g.apply p) = g.apply (f.apply p))
    (p : ν × ν) : inListedOrder l (f.apply p) = f.apply (inListedOrder l p) := by
  induction l generalizing p with
  | nil => rfl
  | cons g l ih =>
    have e : inListedOrder (g :: l) (f.apply p) = inListedOrder l (g.apply (f.apply p)) := rfl
    rw [e, ← h g List.mem_cons_self, ih (fun k hk => h k (List.mem_cons_of_mem _ hk))]
    rfl

/-- C42. A transform attribute whose functions commute (such as any number of translations, or of scalings) is applied
as the standard says. -/
theorem svg_transform_standard_partial (F : Fmt ν) (hF : F.Faithful) (l : List (Fn ν))
    (hcomm : ∀ f ∈ l, ∀ g ∈ l, ∀ p, f.apply (g.apply p) = g.apply (f.apply p)) (xy : List (ν × ν)) :
    F.transform (F.fnText l) xy = .ok (xy.map (svgApply l)) := by
  rw [svg_transform_listed_order F hF]
  congr 1
  refine List.map_congr_left ?_
  intro p hp
  clear hp xy
  induction l with
  | nil => rfl
  | cons f l ih =>
    have e : inListedOrder (f :: l) p = inListedOrder l (f.apply p) := rfl
    have e2 : svgApply (f :: l) p = f.apply (svgApply l p) := rfl
    rw [e, foldl_comm l f (fun g hg => hcomm f List.mem_cons_self g (List.mem_cons_of_mem _ hg)), e2,
      ih (fun a ha b hb => hcomm a (List.mem_cons_of_mem _ ha) b (List.mem_cons_of_mem _ hb))]

/-- A name that is no transform function raises, whatever comes after. -/
theorem svg_transform_unknown (F : Fmt ν) (hF : F.Faithful) (l : List (Fn ν)) (n ps r : List Char)
    (hn : n ≠ [] ∧ ∀ c ∈ n, c.isAlpha = true) (hp : ∀ c ∈ ps, c ≠ ')')
    (hno : n ∉ ["translate".toList, "scale".toList, "matrix".toList]) (xy : List (ν × ν)) :
    F.transform (F.fnText l ++ (n ++ '(' :: (ps ++ ')' :: r))) xy = .error .valueError := by
  simp only [List.mem_cons, List.not_mem_nil, or_false, not_or] at hno
  unfold Fmt.transform
  rw [findCalls_fns F hF l, findCalls_text n ps r hn hp, List.foldlM_append]
  have h1 := svg_transform_listed_order F hF l xy
  unfold Fmt.transform at h1
  have h := findCalls_fns F hF l []
  rw [List.append_nil] at h
  have h0 : findCalls [] = [] := rfl
  rw [h, h0, List.append_nil] at h1
  rw [h1]
  simp only [bind, Except.bind, List.foldlM_cons]
  have : callPts n ((findNums ps).map F.num) (xy.map (inListedOrder l)) = .error .valueError := by
    unfold callPts
    rw [if_neg hno.2.1, if_neg hno.1, if_neg hno.2.2]
  rw [this]

end

/-- Translations and scalings are the matrices of the standard, and a row of functions is one matrix: the product of
theirs (in the order the code applies them). -/
theorem svg_transform_as_matrix [CommRing ν] (F : Fmt ν) (hF : F.Faithful) (xy : List (ν × ν)) :
    (∀ x y : ν, F.transform (F.fnText [.translate x (some y)]) xy = F.transform (F.fnText [.matrix 1 0 0 1 x y]) xy) ∧
    (∀ x : ν, F.transform (F.fnText [.translate x none]) xy = F.transform (F.fnText [.matrix 1 0 0 1 x 0]) xy) ∧
    (∀ x y : ν, F.transform (F.fnText [.scale x (some y)]) xy = F.transform (F.fnText [.matrix x 0 0 y 0 0]) xy) ∧
    (∀ x : ν, F.transform (F.fnText [.scale x none]) xy = F.transform (F.fnText [.matrix x 0 0 x 0 0]) xy) ∧
    (∀ a b c d e f a' b' c' d' e' f' : ν,
      F.transform (F.fnText [.matrix a b c d e f, .matrix a' b' c' d' e' f']) xy =
        F.transform (F.fnText [.matrix (a' * a + c' * b) (b' * a + d' * b) (a' * c + c' * d) (b' * c + d' * d)
          (a' * e + c' * f + e') (b' * e + d' * f + f')]) xy) := by
  refine ⟨?_, ?_, ?_, ?_, ?_⟩ <;> intros <;> rw [svg_transform_listed_order F hF, svg_transform_listed_order F hF] <;>
    congr 1 <;> refine List.map_congr_left ?_ <;> intro p _ <;> simp only [inListedOrder, List.foldl_cons,
      List.foldl_nil, Fn.apply, Option.getD_some, Option.getD_none] <;> ext <;> simp only <;> ring

/-- C42 fails: a translation followed by a scaling is not applied in the order of the standard (nor is the transform of
a group applied after that of its children). -/
theorem svg_transform_order_violated :
    let l : List (Fn ℤ) := [.translate 1 (some 2), .scale 2 none]
    intFmt.transform (intFmt.fnText l) [(1, 2)] = .ok [(4, 8)] ∧ svgApply l (1, 2) = (3, 6) := by
  decide +kernel

/-- Non-vacuity: translations commute, and so do scalings. -/
example (x y x' y' : ℤ) (p : ℤ × ℤ) : (Fn.translate x (some y)).apply ((Fn.translate x' (some y')).apply p) =
    (Fn.translate x' (some y')).apply ((Fn.translate x (some y)).apply p) := by
  simp only [Fn.apply, Option.getD_some]; ext <;> simp only <;> ring

example (x y x' y' : ℤ) (p : ℤ × ℤ) : (Fn.scale x (some y)).apply ((Fn.scale x' (some y')).apply p) =
    (Fn.scale x' (some y')).apply ((Fn.scale x (some y)).apply p) := by
  simp only [Fn.apply, Option.getD_some]; ext <;> simp only <;> ring

example : intFmt.transform "translate(1,2)scale(2) matrix(1 2,3 4-5 6)".toList [(1, 2)] = .ok [(23, 46)] := by
  decide +kernel

end Glimpse.Svg
