import Verif.Model.SvgWrite
import Mathlib.Data.List.Basic
import Mathlib.Data.List.Induction
import Mathlib.Data.List.Nodup
import Mathlib.Tactic.Common

/-!
C96: writing SVG documents. C97: namespaces.
-/
set_option autoImplicit false
set_option linter.unusedSimpArgs false
set_option linter.unusedSectionVars false

namespace Glimpse.Svg

/-! ### Specification -/

/-- Spec: text that is not only whitespace. -/
def realText (t : Option (List Char)) : Option (List Char) :=
  match t with
  | none => none
  | some t => if t.all Char.isWhitespace then none else some t

mutual
/-- Spec: the document without whitespace between tags. -/
def content : Xml → Xml
  | .node tag at_ text tail ch => .node tag at_ (realText text) (realText tail) (contents ch)
/-- The same for a list of elements. -/
def contents : List Xml → List Xml
  | [] => []
  | c :: cs => content c :: contents cs
end

/-- Spec: the element without what follows its closing tag. -/
def dropTail : Xml → Xml
  | .node tag at_ text _ ch => .node tag at_ text none ch

mutual
/-- Spec: every element on its own line, indented by its depth; closing tags are aligned with opening tags. -/
def pretty (T : Tags) (sep tab : List Char) (level : Nat) : Xml → List Char
  | .node tag at_ _ _ [] => T.empty tag at_
  | .node tag at_ _ _ (c :: cs) =>
    T.opening tag at_ ++ prettys T sep tab (level + 1) (c :: cs) ++ (sep ++ repStr tab level) ++ T.closing tag
/-- Children, each on its own line. -/
def prettys (T : Tags) (sep tab : List Char) (level : Nat) : List Xml → List Char
  | [] => []
  | c :: cs => (sep ++ repStr tab level) ++ pretty T sep tab level c ++ prettys T sep tab level cs
end

mutual
/-- Spec: a document without texts in which only the last child of an element has children. -/
def Tidy : Xml → Prop
  | .node _ _ text tail ch => text = none ∧ tail = none ∧ Tidys ch
/-- The same for the children of an element. -/
def Tidys : List Xml → Prop
  | [] => True
  | c :: cs => Tidy c ∧ (cs ≠ [] → c.children = []) ∧ Tidys cs
end

/-! ### Lemmas -/

private theorem rep_white (tab : List Char) (h : tab.all Char.isWhitespace = true) (n : Nat) :
    (repStr tab n).all Char.isWhitespace = true := by
  induction n with
  | zero => rfl
  | succ n ih => simp only [repStr, List.all_append, h, ih, Bool.and_self]

private theorem sep_white (sep tab : List Char) (hs : sep.all Char.isWhitespace = true)
    (h : tab.all Char.isWhitespace = true) (n : Nat) : (sep ++ repStr tab n).all Char.isWhitespace = true := by
  rw [List.all_append, hs, rep_white tab h]; rfl

private theorem realText_white (t : List Char) (h : t.all Char.isWhitespace = true) : realText (some t) = none := by
  unfold realText; simp only; rw [if_pos h]

private theorem realText_blank (t : Option (List Char)) (h : blank t = true) : realText t = none := by
  cases t with
  | none => rfl
  | some t => exact realText_white t h

private theorem realText_leafTail (sep tab : List Char) (hs : sep.all Char.isWhitespace = true)
    (h : tab.all Char.isWhitespace = true) (level : Nat) (last : Bool) (t : Option (List Char)) :
    realText (leafTail sep tab level last t) = realText t := by
  unfold leafTail
  split
  · rename_i hc
    rw [realText_white _ (sep_white sep tab hs h _), realText_blank t hc.2]
  · rfl

private theorem parentTail_white (sep tab : List Char) (hs : sep.all Char.isWhitespace = true)
    (h : tab.all Char.isWhitespace = true) (level : Nat) (t : Option (List Char)) :
    parentTail sep tab level t = if blank t then some (sep ++ repStr tab (level - 1)) else t := by
  unfold parentTail
  by_cases hb : blank t = true
  · simp only [hb, if_true]
    rw [if_pos]
    exact sep_white sep tab hs h level
  · simp only [hb, Bool.false_eq_true, if_false]

private theorem realText_parentTail (sep tab : List Char) (hs : sep.all Char.isWhitespace = true)
    (h : tab.all Char.isWhitespace = true) (level : Nat) (t : Option (List Char)) :
    realText (parentTail sep tab level t) = realText t := by
  rw [parentTail_white sep tab hs h]
  split
  · rename_i hb
    rw [realText_white _ (sep_white sep tab hs h _), realText_blank t hb]
  · rfl

private theorem realText_head (sep tab : List Char) (hs : sep.all Char.isWhitespace = true)
    (h : tab.all Char.isWhitespace = true) (n : Nat) (t : Option (List Char)) :
    realText (if blank t then some (sep ++ repStr tab n) else t) = realText t := by
  split
  · rename_i hb
    rw [realText_white _ (sep_white sep tab hs h _), realText_blank t hb]
  · rfl

mutual
private theorem content_indent (sep tab : List Char) (hs : sep.all Char.isWhitespace = true)
    (h : tab.all Char.isWhitespace = true) (level : Nat) (last : Bool) :
    ∀ e : Xml, (level ≠ 0 → content (indentNode sep tab level last e) = content e) ∧
      (level = 0 → content (indentNode sep tab level last e) = content (dropTail e))
  | .node tag at_ text tail [] => by
    refine ⟨fun hl => ?_, fun hl => ?_⟩
    · unfold indentNode
      rw [if_neg hl]
      simp only [content, realText_leafTail sep tab hs h]
    · unfold indentNode
      rw [if_pos hl]
      simp only [content, dropTail]
  | .node tag at_ text tail (c :: cs) => by
    have hc := contents_indent sep tab hs h level (c :: cs)
    refine ⟨fun hl => ?_, fun hl => ?_⟩
    · unfold indentNode
      rw [if_neg hl]
      simp only [content, realText_parentTail sep tab hs h, realText_head sep tab hs h, hc]
    · unfold indentNode
      rw [if_pos hl]
      simp only [content, dropTail, realText_head sep tab hs h, hc]
private theorem contents_indent (sep tab : List Char) (hs : sep.all Char.isWhitespace = true)
    (h : tab.all Char.isWhitespace = true) (level : Nat) :
    ∀ l : List Xml, contents (indentNodes sep tab (level + 1) l) = contents l
  | [] => rfl
  | c :: cs => by
    have h1 := (content_indent sep tab hs h (level + 1) cs.isEmpty c).1 (by omega)
    have h2 := contents_indent sep tab hs h level cs
    simp only [indentNodes, contents, h1, h2]
end

private theorem indentArgs_white (n : Int) :
    (indentArgs (some (.inl n))).1.all Char.isWhitespace = true ∧
    (indentArgs (some (.inl n))).2.all Char.isWhitespace = true := by
  refine ⟨rfl, ?_⟩
  simp only [indentArgs, List.all_replicate]
  split <;> rfl

/-! ### C96 -/

/-- C96: writing with any number of spaces per level, with an indentation string of whitespace, or on one line, keeps
the document: tags, attributes, order and nesting of all elements, and all text that is not only whitespace (only what
follows the root element is dropped). -/
theorem write_content (indent : Option (Int ⊕ List Char))
    (hi : ∀ s, indent = some (.inr s) → s.all Char.isWhitespace = true) (e : Xml) :
    content (indentNode (indentArgs indent).1 (indentArgs indent).2 0 false e) = content (dropTail e) := by
  have : (indentArgs indent).1.all Char.isWhitespace = true ∧ (indentArgs indent).2.all Char.isWhitespace = true := by
    rcases indent with _ | n | s
    · exact ⟨rfl, rfl⟩
    · exact indentArgs_white n
    · exact ⟨rfl, hi s rfl⟩
  exact (content_indent _ _ this.1 this.2 0 false e).2 rfl

/-- C96: what is written is the serialization of the indented copy. -/
theorem write_text (T : Tags) (indent : Option (Int ⊕ List Char)) (e : Xml) :
    writeXml T indent e = serialize T (indentNode (indentArgs indent).1 (indentArgs indent).2 0 false e) := rfl

private def tailOf (sep tab : List Char) (level : Nat) (last : Bool) (e : Xml) : List Char :=
  match e.children with
  | [] => sep ++ repStr tab (level - if last then 1 else 0)
  | _ :: _ => sep ++ repStr tab (level - 1)

mutual
private theorem ser_indent (T : Tags) (sep tab : List Char) (hs : sep.all Char.isWhitespace = true)
    (h : tab.all Char.isWhitespace = true) (hesc : ∀ n, T.escape (sep ++ repStr tab n) = sep ++ repStr tab n)
    (h0 : T.escape [] = []) (level : Nat) (last : Bool) :
    ∀ e : Xml, Tidy e → serialize T (indentNode sep tab level last e) =
      pretty T sep tab level e ++ (if level = 0 then [] else tailOf sep tab level last e)
  | .node tag at_ text tail [] => by
    rintro ⟨rfl, rfl, -⟩
    unfold indentNode
    by_cases hl : level = 0
    · simp [serialize, hl, pretty, h0]
    · simp [serialize, hl, pretty, leafTail, blank, tailOf, Xml.children, hesc]
  | .node tag at_ text tail (c :: cs) => by
    rintro ⟨rfl, rfl, ht⟩
    have hc := sers_indent T sep tab hs h hesc h0 level (c :: cs) (by simp) ht
    unfold indentNode
    simp only [serialize, blank, if_true, Option.getD_some, hesc]
    rw [if_neg (by simp [indentNodes])]
    simp only [pretty]
    have e1 : T.opening tag at_ ++ (sep ++ repStr tab (level + 1)) ++ serializes T (indentNodes sep tab (level + 1) (c :: cs)) =
        T.opening tag at_ ++ prettys T sep tab (level + 1) (c :: cs) ++ (sep ++ repStr tab level) := by
      rw [List.append_assoc, hc, List.append_assoc]
    rw [e1]
    by_cases hl : level = 0
    · simp [hl, h0]
    · rw [if_neg hl, if_neg hl, parentTail_white sep tab hs h]
      simp only [blank, if_true, Option.getD_some, hesc, tailOf, Xml.children]
private theorem sers_indent (T : Tags) (sep tab : List Char) (hs : sep.all Char.isWhitespace = true)
    (h : tab.all Char.isWhitespace = true) (hesc : ∀ n, T.escape (sep ++ repStr tab n) = sep ++ repStr tab n)
    (h0 : T.escape [] = []) (level : Nat) :
    ∀ l : List Xml, l ≠ [] → Tidys l → (sep ++ repStr tab (level + 1)) ++ serializes T (indentNodes sep tab (level + 1) l) =
      prettys T sep tab (level + 1) l ++ (sep ++ repStr tab level)
  | [] => fun hne => absurd rfl hne
  | c :: cs => by
    rintro - ⟨hc, hleaf, hcs⟩
    have h1 := ser_indent T sep tab hs h hesc h0 (level + 1) cs.isEmpty c hc
    simp only [indentNodes, serializes, prettys, h1]
    rw [if_neg (by omega)]
    cases cs with
    | nil =>
      have ht : tailOf sep tab (level + 1) true c = sep ++ repStr tab level := by
        unfold tailOf
        cases c.children with
        | nil => simp only [if_true, Nat.add_sub_cancel]
        | cons x xs => simp only [Nat.add_sub_cancel]
      simp only [List.isEmpty_nil, ht, indentNodes, serializes, prettys, List.append_nil, List.append_assoc]
    | cons d ds =>
      have h2 := sers_indent T sep tab hs h hesc h0 level (d :: ds) (by simp) hcs
      have ht : tailOf sep tab (level + 1) false c = sep ++ repStr tab (level + 1) := by
        unfold tailOf
        rw [hleaf (by simp)]
        simp
      simp only [List.isEmpty_cons, ht]
      have h3 : pretty T sep tab (level + 1) c ++ (sep ++ repStr tab (level + 1)) ++
          serializes T (indentNodes sep tab (level + 1) (d :: ds)) =
          pretty T sep tab (level + 1) c ++ (prettys T sep tab (level + 1) (d :: ds) ++ (sep ++ repStr tab level)) := by
        rw [List.append_assoc, h2]
      rw [h3]
      simp only [List.append_assoc]
end

/-- C96 (partial): a document without text in which only last children have children is written with every element on
its own line, indented by its depth. Missing: an element that follows a sibling with children, see
`write_layout_violated`. -/
theorem write_layout_partial (T : Tags) (sep tab : List Char) (hs : sep.all Char.isWhitespace = true)
    (h : tab.all Char.isWhitespace = true) (hesc : ∀ n, T.escape (sep ++ repStr tab n) = sep ++ repStr tab n)
    (h0 : T.escape [] = []) (e : Xml) (he : Tidy e) :
    serialize T (indentNode sep tab 0 false e) = pretty T sep tab 0 e := by
  rw [ser_indent T sep tab hs h hesc h0 0 false e he]
  simp

/-- A serializer for examples. -/
private def plain : Tags where
  opening t _ := '<' :: t ++ ['>']
  closing t := '<' :: '/' :: t ++ ['>']
  empty t _ := '<' :: t ++ ['/', '>']
  escape s := s

private def leaf (t : String) : Xml := .node t.toList [] none none []

/-- C96 (violated, layout): the element after a group is indented one level less than its siblings. -/
theorem write_layout_violated :
    writeXml plain (some (.inl 2)) (.node "svg".toList [] none none [gElem [leaf "path"] [], leaf "image"]) =
      "<svg>\n  <g>\n    <path/>\n  </g>\n<image/>\n</svg>".toList ∧
    pretty plain ['\n'] [' ', ' '] 0 (.node "svg".toList [] none none [gElem [leaf "path"] [], leaf "image"]) =
      "<svg>\n  <g>\n    <path/>\n  </g>\n  <image/>\n</svg>".toList := by
  decide +kernel

/-- C96 (violated, indent string): an indentation string that is not whitespace becomes text of the document. -/
theorem write_indent_text_violated :
    ∃ e, content (indentNode ['\n'] ['-'] 0 false e) ≠ content (dropTail e) := by
  refine ⟨.node "g".toList [] none none [leaf "path"], ?_⟩
  intro h
  have := congrArg Xml.text h
  revert this
  decide +kernel

/-! ### Builders -/

private theorem getKey_setKey (at_ : List (List Char × List Char)) (k v k' : List Char) :
    getKey (setKey at_ k v) k' = if k' = k then some v else getKey at_ k' := by
  unfold setKey
  by_cases hk : hasKey at_ k = true
  · rw [if_pos hk]
    unfold getKey hasKey at *
    induction at_ with
    | nil => simp at hk
    | cons p at_ ih =>
      simp only [List.map_cons, List.find?_cons]
      by_cases hp : p.1 = k
      · simp only [hp, if_true]
        by_cases hkk : k' = k
        · simp [hkk]
        · rw [if_neg hkk]
          have h1 : decide (k = k') = false := by simpa using fun e => hkk e.symm
          simp only [h1]
          -- the remaining list
          clear ih hk
          induction at_ with
          | nil => rfl
          | cons q at_ ih =>
            simp only [List.map_cons, List.find?_cons]
            by_cases hq : q.1 = k
            · simp only [hq, if_true, h1]
              exact ih
            · simp only [hq, if_false]
              by_cases hq' : q.1 = k'
              · simp [hq']
              · simp only [hq', decide_false]
                exact ih
      · simp only [hp, if_false]
        by_cases hpk : p.1 = k'
        · have : k' ≠ k := fun e => hp (hpk.trans e)
          simp [hpk, this]
        · simp only [hpk, decide_false]
          apply ih
          simpa [hp] using hk
  · rw [if_neg hk]
    unfold getKey hasKey at *
    simp only [List.find?_append]
    by_cases hkk : k' = k
    · subst hkk
      have : at_.find? (fun p => decide (p.1 = k')) = none := by
        rw [List.find?_eq_none]
        intro x hx hx'
        exact hk (List.any_eq_true.mpr ⟨x, hx, hx'⟩)
      rw [this]; simp
    · rw [if_neg hkk]
      have h1 : decide (k = k') = false := by simpa using fun e => hkk e.symm
      simp [h1]

/-- C96 (builders): attributes are merged like dictionaries: the last value given for a key wins. -/
theorem merge_get (a b : List (List Char × List Char)) (k : List Char) :
    getKey (mergeKeys a b) k = match getKey b.reverse k with
      | some v => some v
      | none => getKey a k := by
  unfold mergeKeys
  induction b using List.reverseRecOn with
  | nil => rfl
  | append_singleton b p ih =>
    rw [List.foldl_append]
    simp only [List.foldl_cons, List.foldl_nil]
    rw [getKey_setKey, ih]
    simp only [List.reverse_append, List.reverse_cons, List.reverse_nil, List.nil_append, List.singleton_append]
    by_cases hk : k = p.1
    · subst hk
      simp [getKey]
    · rw [if_neg hk]
      have h1 : decide (p.1 = k) = false := by simpa using fun e => hk e.symm
      have : getKey (p :: b.reverse) k = getKey b.reverse k := by
        unfold getKey; rw [List.find?_cons]; simp only [h1]
      rw [this]

/-- C96 (builders): the root element carries the SVG namespaces whatever attributes are given, its children are the
given ones in order, and if neither width nor height is given it takes those of the last image in the document. -/
theorem svg_elem (children : List Xml) (attrib : List (List Char × List Char)) :
    (svgElem children attrib).children = children ∧
    getKey (svgElem children attrib).attrib "xmlns".toList = some "http://www.w3.org/2000/svg".toList ∧
    getKey (svgElem children attrib).attrib "xmlns:xlink".toList = some "http://www.w3.org/1999/xlink".toList ∧
    (∀ im w h, hasKey attrib "width".toList = false → hasKey attrib "height".toList = false →
      (iterTags "image".toList children).getLast? = some im →
      getKey im.attrib "width".toList = some w → getKey im.attrib "height".toList = some h → w ≠ [] → h ≠ [] →
      getKey (svgElem children attrib).attrib "width".toList = some w ∧
      getKey (svgElem children attrib).attrib "height".toList = some h) := by
  refine ⟨rfl, ?_, ?_, ?_⟩
  · show getKey (mergeKeys _ _) _ = _
    rw [merge_get]; rfl
  · show getKey (mergeKeys _ _) _ = _
    rw [merge_get]; rfl
  · intro im w h h1 h2 h3 h4 h5 h6 h7
    have hno : ∀ k : List Char, hasKey attrib k = false → getKey attrib.reverse k = none := by
      intro k hk
      unfold getKey
      rw [Option.map_eq_none_iff, List.find?_eq_none]
      intro x hx hx'
      unfold hasKey at hk
      rw [List.any_eq_false] at hk
      exact hk x (List.mem_reverse.mp hx) hx'
    have hat : (svgElem children attrib).attrib = mergeKeys (mergeKeys [("height".toList, h), ("width".toList, w)] attrib)
        [("xmlns".toList, "http://www.w3.org/2000/svg".toList), ("xmlns:xlink".toList, "http://www.w3.org/1999/xlink".toList)] := by
      unfold svgElem
      simp only [h1, h2, h3, h4, h5, Bool.or_self, Bool.false_eq_true, if_false]
      rw [if_neg]
      · rfl
      cases w with
      | nil => exact absurd rfl h6
      | cons a w =>
        cases h with
        | nil => exact absurd rfl h7
        | cons b h => simp
    constructor
    · rw [hat, merge_get]
      show getKey (mergeKeys _ attrib) _ = _
      rw [merge_get, hno _ h1]
      rfl
    · rw [hat, merge_get]
      show getKey (mergeKeys _ attrib) _ = _
      rw [merge_get, hno _ h2]
      rfl

private theorem getKey_rev_none (attrib : List (List Char × List Char)) (k : List Char) (hk : hasKey attrib k = false) :
    getKey attrib.reverse k = none := by
  unfold getKey
  rw [Option.map_eq_none_iff, List.find?_eq_none]
  intro x hx hx'
  unfold hasKey at hk
  rw [List.any_eq_false] at hk
  exact hk x (List.mem_reverse.mp hx) hx'

/-- C96 (builders): a group holds its children in order, and the attributes given. -/
theorem g_elem (children : List Xml) (attrib : List (List Char × List Char)) :
    (gElem children attrib).tag = "g".toList ∧ (gElem children attrib).children = children ∧
      (gElem children attrib).attrib = attrib := ⟨rfl, rfl, rfl⟩

/-- C96 (builders): a path has no children; its data is the shape unless the attributes given override it, and its other
attributes are those given. -/
theorem path_elem (d : List Char) (attrib : List (List Char × List Char)) :
    (pathElem d attrib).tag = "path".toList ∧ (pathElem d attrib).children = [] ∧
    (hasKey attrib "d".toList = false → getKey (pathElem d attrib).attrib "d".toList = some d) ∧
    (∀ k v, getKey attrib.reverse k = some v → getKey (pathElem d attrib).attrib k = some v) ∧
    (∀ k, k ≠ "d".toList → hasKey attrib k = false → getKey (pathElem d attrib).attrib k = none) := by
  refine ⟨rfl, rfl, ?_, ?_, ?_⟩
  · intro h
    show getKey (mergeKeys _ _) _ = _
    rw [merge_get, getKey_rev_none _ _ h]; rfl
  · intro k v h
    show getKey (mergeKeys _ _) _ = _
    rw [merge_get, h]
  · intro k hk h
    show getKey (mergeKeys _ _) _ = _
    rw [merge_get, getKey_rev_none _ _ h]
    have : decide ("d".toList = k) = false := by simpa using fun e => hk e.symm
    simp only [getKey, List.find?_cons, this, List.find?_nil, Option.map_none]

/-- C96 (builders): an image has no children; unless overridden by the attributes given, its width and height are those
of the argument and a non-empty reference is kept under its namespaced name. Without a reference there is none. -/
theorem image_elem (w h : List Char) (href : Option (List Char)) (attrib : List (List Char × List Char)) :
    (imageElem w h href attrib).tag = "image".toList ∧ (imageElem w h href attrib).children = [] ∧
    (hasKey attrib "width".toList = false → getKey (imageElem w h href attrib).attrib "width".toList = some w) ∧
    (hasKey attrib "height".toList = false → getKey (imageElem w h href attrib).attrib "height".toList = some h) ∧
    (∀ r, href = some r → r ≠ [] → hasKey attrib "xlink:href".toList = false →
      getKey (imageElem w h href attrib).attrib "xlink:href".toList = some r) ∧
    (href = none ∨ href = some [] → hasKey attrib "xlink:href".toList = false →
      getKey (imageElem w h href attrib).attrib "xlink:href".toList = none) ∧
    (∀ k v, getKey attrib.reverse k = some v → getKey (imageElem w h href attrib).attrib k = some v) := by
  have hb : ∀ k : List Char, hasKey attrib k = false → getKey (imageElem w h href attrib).attrib k =
      getKey (match href with
        | some r => if r.isEmpty then [("height".toList, h), ("width".toList, w)]
          else mergeKeys [("height".toList, h), ("width".toList, w)] [("xlink:href".toList, r)]
        | none => [("height".toList, h), ("width".toList, w)]) k := by
    intro k hk
    show getKey (mergeKeys _ _) _ = _
    rw [merge_get, getKey_rev_none _ _ hk]
    cases href <;> rfl
  refine ⟨rfl, rfl, ?_, ?_, ?_, ?_, ?_⟩
  · intro hk
    rw [hb _ hk]
    rcases href with _ | r
    · rfl
    · cases r <;> rfl
  · intro hk
    rw [hb _ hk]
    rcases href with _ | r
    · rfl
    · cases r <;> rfl
  · intro r hr hne hk
    rw [hb _ hk, hr]
    cases r with
    | nil => exact absurd rfl hne
    | cons c r => rfl
  · intro hr hk
    rw [hb _ hk]
    rcases hr with rfl | rfl <;> rfl
  · intro k v hk
    show getKey (mergeKeys _ _) _ = _
    rw [merge_get, hk]

example : hasKey [("id".toList, "a".toList)] "xlink:href".toList = false := by decide

/-- C96 (builders, violated): if only one of width and height is given, the other is not filled in. -/
theorem svg_elem_one_size_violated :
    getKey (svgElem [imageElem "12".toList "8".toList none []] [("width".toList, "6".toList)]).attrib "height".toList = none := by
  decide +kernel

/-! ### C97: namespaces -/

private theorem braceEnd_none (s : List Char) (h : '}' ∉ s) : braceEnd s = none := by
  induction s with
  | nil => rfl
  | cons c s ih =>
    simp only [List.mem_cons, not_or] at h
    unfold braceEnd
    rw [ih h.2]
    have : ¬ c = '}' := fun e => h.1 e.symm
    simp [this]

private theorem strip_skip (p s : List Char) : stripBracesFrom (p ++ s) p.length = stripBracesFrom s 0 := by
  induction p with
  | nil => rfl
  | cons c p ih => exact ih

private theorem braceEnd_app (uri l : List Char) (hu : '\n' ∉ uri) (hl : '}' ∉ l) :
    braceEnd (uri ++ '}' :: l) = some (uri.length + 1) := by
  induction uri with
  | nil =>
    show braceEnd ('}' :: l) = some 1
    unfold braceEnd
    rw [braceEnd_none l hl]; simp
  | cons c uri ih =>
    simp only [List.mem_cons, not_or] at hu
    have hc : ¬ c = '\n' := fun e => hu.1 e.symm
    show braceEnd (c :: (uri ++ '}' :: l)) = _
    unfold braceEnd
    rw [ih hu.2, if_neg hc]
    rfl

/-- C97: names and values without an opening brace, or without a closing one, are kept. -/
theorem strip_braces_none (s : List Char) (h : '{' ∉ s ∨ '}' ∉ s) : stripBraces s = s := by
  unfold stripBraces
  induction s with
  | nil => rfl
  | cons c s ih =>
    have h' : '{' ∉ s ∨ '}' ∉ s := by
      rcases h with h | h
      · left; exact fun hm => h (List.mem_cons_of_mem _ hm)
      · right; exact fun hm => h (List.mem_cons_of_mem _ hm)
    unfold stripBracesFrom
    by_cases hc : c = '{'
    · rcases h with h | h
      · exact absurd (hc ▸ List.mem_cons_self) h
      · rw [if_pos hc, braceEnd_none s (fun hm => h (List.mem_cons_of_mem _ hm))]
        simp only [ih h']
    · rw [if_neg hc, ih h']

/-- C97: a qualified name `{uri}local` becomes `local`. -/
theorem strip_braces_qualified (uri l : List Char) (hu : '\n' ∉ uri) (hl : '{' ∉ l ∧ '}' ∉ l) :
    stripBraces ('{' :: uri ++ '}' :: l) = l := by
  unfold stripBraces
  show stripBracesFrom ('{' :: (uri ++ '}' :: l)) 0 = l
  unfold stripBracesFrom
  rw [if_pos rfl, braceEnd_app uri l hu hl.2]
  simp only
  have : uri ++ '}' :: l = (uri ++ ['}']) ++ l := by simp
  rw [this, show uri.length + 1 = (uri ++ ['}']).length by simp, strip_skip]
  exact strip_braces_none l (Or.inl hl.1)

/-- Spec: the local part of a name: what follows `{uri}`, or the whole. -/
def LocalName (name l : List Char) : Prop :=
  (name = l ∧ '{' ∉ l) ∨ ∃ uri, '\n' ∉ uri ∧ name = '{' :: uri ++ '}' :: l ∧ '{' ∉ l ∧ '}' ∉ l

/-- C97 (partial): if all attributes of an element have different local names and values without braces, then after
stripping each local name has the value of its attribute, and there are no others. Missing: attributes of different
namespaces with the same local name, and values with braces, see `strip_collision_attr_violated` and
`strip_values_violated`. -/
theorem strip_attrib_partial (at_ : List (List Char × List Char)) (names : List (List Char))
    (hlen : names.length = at_.length)
    (hloc : ∀ (i : Nat) (p : List Char × List Char) (l : List Char), at_[i]? = some p → names[i]? = some l → LocalName p.1 l)
    (hval : ∀ p ∈ at_, '{' ∉ p.2) (hnd : names.Nodup) (k : List Char) :
    getKey (stripAttrib at_) k = getKey (names.zip (at_.map (·.2))) k := by
  have hform : at_.map (fun p => (stripBraces p.1, stripBraces p.2)) = names.zip (at_.map (·.2)) := by
    apply List.ext_getElem?
    intro i
    by_cases hi : i < at_.length
    · have h1 : at_[i]? = some at_[i] := List.getElem?_eq_getElem hi
      have h2 : names[i]? = some names[i] := List.getElem?_eq_getElem (by omega)
      have hz : (names.zip (at_.map (·.2)))[i]? = some (names[i]'(by omega), at_[i].2) := by
        rw [List.getElem?_zip_eq_some]
        simp [h2, hi]
      rw [hz, List.getElem?_map, h1]
      simp only [Option.map_some, Option.some.injEq, Prod.mk.injEq]
      refine ⟨?_, strip_braces_none _ (Or.inl (hval _ (List.getElem_mem hi)))⟩
      rcases hloc i _ _ h1 h2 with ⟨e, hb⟩ | ⟨uri, hu, e, hb⟩
      · rw [e]; exact strip_braces_none _ (Or.inl hb)
      · rw [e]; exact strip_braces_qualified uri _ hu hb
    · rw [List.getElem?_eq_none (by simp; omega), List.getElem?_eq_none (by simp; omega)]
  have hfold : stripAttrib at_ = mergeKeys [] (names.zip (at_.map (·.2))) := by
    unfold stripAttrib mergeKeys
    rw [← hform, List.foldl_map]
  rw [hfold, merge_get]
  have hkeys : ((names.zip (at_.map (·.2))).map (·.1)).Nodup := by
    rw [List.map_fst_zip (by simp [hlen])]; exact hnd
  generalize names.zip (at_.map (·.2)) = z at hkeys
  -- in a list with distinct keys the first and the last match agree
  have hrev : getKey z.reverse k = getKey z k := by
    unfold getKey
    congr 1
    cases hf : z.find? (fun p => decide (p.1 = k)) with
    | none =>
      rw [List.find?_eq_none] at hf ⊢
      intro x hx; exact hf x (List.mem_reverse.mp hx)
    | some p =>
      have hp := List.find?_some hf
      have hpm := List.mem_of_find?_eq_some hf
      cases hg : z.reverse.find? (fun p => decide (p.1 = k)) with
      | none =>
        rw [List.find?_eq_none] at hg
        exact absurd hp (hg p (List.mem_reverse.mpr hpm))
      | some q =>
        have hq := List.find?_some hg
        have hqm := List.mem_reverse.mp (List.mem_of_find?_eq_some hg)
        have hpk : p.1 = k := by simpa using hp
        have hqk : q.1 = k := by simpa using hq
        have := List.inj_on_of_nodup_map hkeys hqm hpm (by rw [hqk, hpk])
        rw [this]
  rw [hrev]
  cases getKey z k with
  | none => rfl
  | some v => rfl

/-- C97: tags are stripped throughout and the structure is kept: same number of children, in the same order. -/
theorem strip_children (e : Xml) : (stripNs e).children.length = e.children.length ∧
    (stripNs e).tag = stripBraces e.tag ∧ (stripNs e).attrib = stripAttrib e.attrib ∧
    ∀ (i : Nat) (c : Xml), e.children[i]? = some c → (stripNs e).children[i]? = some (stripNs c) := by
  have hmap : ∀ l : List Xml, stripNss l = l.map stripNs := by
    intro l
    induction l with
    | nil => rfl
    | cons c cs ih => simp only [stripNss, List.map_cons, ih]
  cases e with
  | node t a tx tl ch =>
    refine ⟨by simp [stripNs, Xml.children, hmap], rfl, rfl, fun i c h => ?_⟩
    simp only [stripNs, Xml.children, hmap, List.getElem?_map] at h ⊢
    rw [h]; rfl

/-- C97 (violated, collisions): an attribute of another namespace with the same local name replaces the element's own:
a circle at `cx` 1 with an editor's attribute `{sodipodi}cx` 9 is read at 9. -/
theorem strip_collision_attr_violated :
    getKey (stripAttrib [("cx".toList, "1".toList), ("{sodipodi}cx".toList, "9".toList)]) "cx".toList = some "9".toList := by
  decide +kernel

/-- C97 (violated, values): values are stripped too, from the first opening to the last closing brace. -/
theorem strip_values_violated :
    getKey (stripAttrib [("id".toList, "{a} ridge {b}".toList)]) "id".toList = some [] := by decide +kernel

/-! ### Non-vacuity -/

example : Tidy (.node "svg".toList [] none none [leaf "image", gElem [leaf "path", leaf "path"] []]) := by
  simp [Tidy, Tidys, leaf, gElem, Xml.children]
example : writeXml plain (some (.inl 2)) (.node "svg".toList [] none none [leaf "image", gElem [leaf "path", leaf "path"] []]) =
    "<svg>\n  <image/>\n  <g>\n    <path/>\n    <path/>\n  </g>\n</svg>".toList := by decide +kernel
example : writeXml plain none (.node "svg".toList [] (some " \n ".toList) none [leaf "image"]) = "<svg><image/></svg>".toList := by
  decide +kernel
example : (∀ n, plain.escape (['\n'] ++ repStr [' '] n) = ['\n'] ++ repStr [' '] n) ∧ plain.escape [] = [] := ⟨fun _ => rfl, rfl⟩
example : (svgElem [pathElem [] [], imageElem "12".toList "8".toList none []] []).attrib =
    [("height".toList, "8".toList), ("width".toList, "12".toList), ("xmlns".toList, "http://www.w3.org/2000/svg".toList),
      ("xmlns:xlink".toList, "http://www.w3.org/1999/xlink".toList)] := by decide +kernel
example : stripAttrib [("{http://x}href".toList, "a.jpg".toList), ("width".toList, "12".toList)] =
    [("href".toList, "a.jpg".toList), ("width".toList, "12".toList)] := by decide +kernel
example : LocalName "{http://x}href".toList "href".toList :=
  Or.inr ⟨"http://x".toList, by decide, rfl, by decide, by decide⟩

end Glimpse.Svg
