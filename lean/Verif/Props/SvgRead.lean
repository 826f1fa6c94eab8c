import Verif.Props.SvgTransform
import Mathlib.Data.List.Perm.Basic
import Mathlib.Data.List.Forall2
import Mathlib.Tactic.FieldSimp
import Mathlib.Algebra.Order.Field.Basic

/-!
C62: reading an SVG document.
-/
set_option autoImplicit false
set_option linter.unusedSimpArgs false

namespace Glimpse.Svg

/-! ### Specification -/

/-- A shape of a document: whether it is the image, its vertices, and the transforms of its ancestors and itself. -/
structure Shape where
  isImage : Bool
  xy : List (ℚ × ℚ)
  tf : List Char

mutual
/-- The shapes of a document, in document order. -/
def Elem.shapes (tf : List Char) : Elem → List Shape
  | .shape _ b xy tf' => [⟨b, xy, tf ++ tf'⟩]
  | .group _ es tf' => shapesOf (tf ++ tf') es
  | .other _ => []
def shapesOf (tf : List Char) : List Elem → List Shape
  | [] => []
  | e :: es => e.shapes tf ++ shapesOf tf es
end

mutual
/-- All lists of coordinates in a result. -/
def Tree.leaves : Tree → List (List (ℚ × ℚ))
  | .pts xy => [xy]
  | .dict items => leavesDict items
  | .many items => leavesMany items
def leavesDict : List (String × Tree) → List (List (ℚ × ℚ))
  | [] => []
  | (_, t) :: r => t.leaves ++ leavesDict r
def leavesMany : List Tree → List (List (ℚ × ℚ))
  | [] => []
  | t :: r => t.leaves ++ leavesMany r
end

/-- The vertices of a shape in the coordinates of the document. -/
def Placed (F : Fmt ℚ) (s : Shape) (v : List (ℚ × ℚ)) : Prop := F.transform s.tf s.xy = .ok v

/-- From document to image coordinates: the image's box (x, y, w, h) goes to (0, 0, W, H). -/
def imageFrame (box : ℚ × ℚ × ℚ × ℚ) (sz : ℚ × ℚ) (p : ℚ × ℚ) : ℚ × ℚ :=
  ((p.1 - box.1) / box.2.2.1 * sz.1, (p.2 - box.2.1) / box.2.2.2 * sz.2)

/-- The last image of a list of shapes. -/
def lastImage (l : List Shape) : Option Shape := (l.filter (·.isImage)).getLast?

/-! ### Dictionaries -/

private theorem leavesDict_eq (l : List (String × Tree)) : leavesDict l = l.flatMap fun kv => kv.2.leaves := by
  induction l with
  | nil => rfl
  | cons a l ih => obtain ⟨k, t⟩ := a; simp [leavesDict, ih]

private theorem leavesMany_eq (l : List Tree) : leavesMany l = l.flatMap Tree.leaves := by
  induction l with
  | nil => rfl
  | cons a l ih => simp [leavesMany, ih]

private theorem collapse_leaves (vs : List Tree) : (collapse vs).leaves = vs.flatMap Tree.leaves := by
  unfold collapse
  split
  · simp
  · simp [Tree.leaves, leavesMany_eq]

/-- Leaves of a dictionary of lists. -/
private def ddLeaves (dd : List (String × List Tree)) : List (List (ℚ × ℚ)) :=
  dd.flatMap fun kv => kv.2.flatMap Tree.leaves

private theorem ddAppend_leaves (dd : List (String × List Tree)) (k : String) (v : Tree) :
    (ddLeaves (ddAppend dd k v)).Perm (ddLeaves dd ++ v.leaves) := by
  induction dd with
  | nil => simp [ddLeaves, ddAppend]
  | cons a dd ih =>
    obtain ⟨k', vs⟩ := a
    unfold ddAppend
    split
    · simp only [ddLeaves, List.flatMap_cons, List.flatMap_append, List.flatMap_nil, List.append_nil]
      rw [List.append_assoc, List.append_assoc]
      exact List.Perm.append_left _ List.perm_append_comm
    · have e : ddLeaves ((k', vs) :: ddAppend dd k v) = vs.flatMap Tree.leaves ++ ddLeaves (ddAppend dd k v) := by
        simp [ddLeaves]
      have e2 : ddLeaves ((k', vs) :: dd) = vs.flatMap Tree.leaves ++ ddLeaves dd := by simp [ddLeaves]
      rw [e, e2, List.append_assoc]
      exact List.Perm.append_left _ ih

private theorem fold_leaves (l : List (String × Tree)) (dd : List (String × List Tree)) :
    (ddLeaves (l.foldl (fun dd kv => ddAppend dd kv.1 kv.2) dd)).Perm (ddLeaves dd ++ leavesDict l) := by
  induction l generalizing dd with
  | nil => simp [leavesDict]
  | cons a l ih =>
    obtain ⟨k, t⟩ := a
    refine (ih (ddAppend dd k t)).trans ?_
    rw [leavesDict, ← List.append_assoc]
    exact List.Perm.append_right _ (ddAppend_leaves dd k t)

private theorem groupDict_leaves (l : List (String × Tree)) : (groupDict l).leaves.Perm (leavesDict l) := by
  have h := fold_leaves l []
  have e : (groupDict l).leaves = ddLeaves (l.foldl (fun dd kv => ddAppend dd kv.1 kv.2) []) := by
    unfold groupDict
    rw [Tree.leaves, leavesDict_eq, ddLeaves, List.flatMap_map]
    congr 1
    funext kv
    exact collapse_leaves kv.2
  rw [e]
  simpa [ddLeaves] using h

/-- Lookup in a dictionary. -/
private theorem ddAppend_lookup (dd : List (String × List Tree)) (k : String) (v : Tree) (q : String) :
    (ddAppend dd k v).lookup q = if q = k then some ((dd.lookup k).getD [] ++ [v]) else dd.lookup q := by
  induction dd with
  | nil =>
    unfold ddAppend
    by_cases h : q = k
    · subst h; simp [List.lookup]
    · have : (q == k) = false := by simpa using h
      simp [List.lookup, h, this]
  | cons a dd ih =>
    obtain ⟨k', vs⟩ := a
    unfold ddAppend
    by_cases h : k' = k
    · subst h
      rw [if_pos rfl]
      by_cases hq : q = k'
      · subst hq; simp [List.lookup]
      · have : (q == k') = false := by simpa using hq
        simp [List.lookup, this, hq]
    · rw [if_neg h]
      by_cases hq : q = k'
      · subst hq
        simp [List.lookup, h]
      · have h1 : (q == k') = false := by simpa using hq
        have h2 : (k == k') = false := by simpa using fun e : k = k' => h e.symm
        simp only [List.lookup, h1, h2, ih]

private theorem fold_lookup (l : List (String × Tree)) (dd : List (String × List Tree)) (q : String) :
    (l.foldl (fun dd kv => ddAppend dd kv.1 kv.2) dd).lookup q =
      if (l.filter fun kv => kv.1 == q) = [] then dd.lookup q
      else some ((dd.lookup q).getD [] ++ (l.filter fun kv => kv.1 == q).map Prod.snd) := by
  induction l generalizing dd with
  | nil => simp
  | cons a l ih =>
    obtain ⟨k, t⟩ := a
    rw [List.foldl_cons, ih, ddAppend_lookup]
    by_cases h : k = q
    · subst h
      simp only [beq_self_eq_true, List.filter_cons_of_pos, if_true, List.cons_ne_nil, if_false, Option.getD_some,
        List.map_cons]
      split
      · rename_i h0; rw [h0]; simp
      · simp
    · have h1 : (k == q) = false := by simpa using h
      have h2 : ¬ q = k := fun e => h e.symm
      simp only [List.filter_cons, h1, Bool.false_eq_true, if_false, h2]

/-- The dictionary of a group has, under each name, the results of exactly the children of that name: by itself if there
is one, as a list in document order if there are more. -/
theorem svg_group_lookup (l : List (String × Tree)) (q : String) :
    ∃ items, groupDict l = .dict items ∧
      items.lookup q = (match (l.filter fun kv => kv.1 == q).map Prod.snd with
        | [] => none
        | [t] => some t
        | ts => some (.many ts)) := by
  refine ⟨_, rfl, ?_⟩
  have h := fold_lookup l [] q
  have hm : ∀ dd : List (String × List Tree),
      (dd.map fun kv => (kv.1, collapse kv.2)).lookup q = (dd.lookup q).map collapse := by
    intro dd
    induction dd with
    | nil => rfl
    | cons a dd ih =>
      simp only [List.map_cons, List.lookup]
      cases (q == a.1)
      · exact ih
      · rfl
  rw [hm, h]
  cases e : l.filter (fun kv => kv.1 == q) with
  | nil => simp
  | cons a r =>
    cases r with
    | nil => simp [collapse]
    | cons b r => simp [collapse]

/-! ### Maps over results -/

mutual
private theorem leaves_map (f : List (ℚ × ℚ) → List (ℚ × ℚ)) (hf : f [] = []) :
    (t : Tree) → (t.mapPts f).leaves = t.leaves.map f
  | .pts xy => by
    simp only [Tree.mapPts, Tree.leaves, List.map_cons, List.map_nil]
    split
    · rename_i h; rw [h, hf]
    · rfl
  | .dict items => by
    simp only [Tree.mapPts, Tree.leaves]
    exact leaves_mapDict f hf items
  | .many items => by
    simp only [Tree.mapPts, Tree.leaves]
    exact leaves_mapMany f hf items
private theorem leaves_mapDict (f : List (ℚ × ℚ) → List (ℚ × ℚ)) (hf : f [] = []) :
    (l : List (String × Tree)) → leavesDict (mapDict f l) = (leavesDict l).map f
  | [] => rfl
  | (_, t) :: r => by
    simp only [mapDict, leavesDict, List.map_append]
    rw [leaves_map f hf t, leaves_mapDict f hf r]
private theorem leaves_mapMany (f : List (ℚ × ℚ) → List (ℚ × ℚ)) (hf : f [] = []) :
    (l : List Tree) → leavesMany (mapMany f l) = (leavesMany l).map f
  | [] => rfl
  | t :: r => by
    simp only [mapMany, leavesMany, List.map_append]
    rw [leaves_map f hf t, leaves_mapMany f hf r]
end

/-! ### Parsing -/

/-- The state `img` after parsing. -/
private def ImgAfter (F : Fmt ℚ) (l : List Shape) (img img' : ImgBox) : Prop :=
  match lastImage l with
  | none => img' = img
  | some s => ∃ v o t, Placed F s v ∧ bbox s.xy = some o ∧ bbox v = some t ∧ img' = some (o, t)

private theorem imgAfter_append (F : Fmt ℚ) (l1 l2 : List Shape) (a b c : ImgBox) (h1 : ImgAfter F l1 a b)
    (h2 : ImgAfter F l2 b c) : ImgAfter F (l1 ++ l2) a c := by
  unfold ImgAfter lastImage at *
  rw [List.filter_append]
  cases e : (l2.filter (·.isImage)).getLast? with
  | none =>
    rw [e] at h2
    have : l2.filter (·.isImage) = [] := List.getLast?_eq_none_iff.1 e
    rw [this, List.append_nil]
    simp only at h2
    rw [h2]; exact h1
  | some s =>
    rw [e] at h2
    rw [List.getLast?_append, e]
    exact h2

mutual
private theorem parse_spec (F : Fmt ℚ) (tf : List Char) (img : ImgBox) :
    (e : Elem) → (k : String) → (t : Tree) → (img' : ImgBox) → parseElem F tf img e = .ok (k, t, img') →
      (∃ vs, List.Forall₂ (Placed F) (e.shapes tf) vs ∧ t.leaves.Perm vs) ∧ ImgAfter F (e.shapes tf) img img'
  | .shape key b xy tf', k, t, img', h => by
    simp only [parseElem, bind, Except.bind] at h
    cases e : F.transform (tf ++ tf') xy with
    | error er => rw [e] at h; cases h
    | ok xy' =>
      rw [e] at h
      simp only at h
      cases b with
      | false =>
        simp only [Bool.false_eq_true, if_false, Except.ok.injEq, Prod.mk.injEq] at h
        obtain ⟨-, rfl, rfl⟩ := h
        exact ⟨⟨[xy'], List.Forall₂.cons e List.Forall₂.nil, List.Perm.refl _⟩, rfl⟩
      | true =>
        simp only [if_true] at h
        cases e1 : bbox xy with
        | none => rw [e1] at h; cases h
        | some o =>
          cases e2 : bbox xy' with
          | none => rw [e1, e2] at h; cases h
          | some t' =>
            rw [e1, e2] at h
            simp only [Except.ok.injEq, Prod.mk.injEq] at h
            obtain ⟨-, rfl, rfl⟩ := h
            exact ⟨⟨[xy'], List.Forall₂.cons e List.Forall₂.nil, List.Perm.refl _⟩, ⟨xy', o, t', e, e1, e2, rfl⟩⟩
  | .group key es tf', k, t, img', h => by
    simp only [parseElem, bind, Except.bind] at h
    cases e : parseElems F (tf ++ tf') img es with
    | error er => rw [e] at h; cases h
    | ok r =>
      obtain ⟨l, img1⟩ := r
      rw [e] at h
      simp only [Except.ok.injEq, Prod.mk.injEq] at h
      obtain ⟨-, rfl, rfl⟩ := h
      obtain ⟨⟨vs, h1, h2⟩, h3⟩ := parses_spec F (tf ++ tf') img es l img1 e
      exact ⟨⟨vs, h1, (groupDict_leaves l).trans h2⟩, h3⟩
  | .other key, k, t, img', h => by
    simp only [parseElem, Except.ok.injEq, Prod.mk.injEq] at h
    obtain ⟨-, rfl, rfl⟩ := h
    exact ⟨⟨[], List.Forall₂.nil, List.Perm.refl _⟩, rfl⟩
private theorem parses_spec (F : Fmt ℚ) (tf : List Char) (img : ImgBox) :
    (es : List Elem) → (l : List (String × Tree)) → (img' : ImgBox) → parseElems F tf img es = .ok (l, img') →
      (∃ vs, List.Forall₂ (Placed F) (shapesOf tf es) vs ∧ (leavesDict l).Perm vs) ∧
        ImgAfter F (shapesOf tf es) img img'
  | [], l, img', h => by
    simp only [parseElems, Except.ok.injEq, Prod.mk.injEq] at h
    obtain ⟨rfl, rfl⟩ := h
    exact ⟨⟨[], List.Forall₂.nil, List.Perm.refl _⟩, rfl⟩
  | e :: es, l, img', h => by
    simp only [parseElems, bind, Except.bind] at h
    cases e1 : parseElem F tf img e with
    | error er => rw [e1] at h; cases h
    | ok r =>
      obtain ⟨k, t, img1⟩ := r
      rw [e1] at h
      simp only at h
      cases e2 : parseElems F tf img1 es with
      | error er => rw [e2] at h; cases h
      | ok r2 =>
        obtain ⟨l2, img2⟩ := r2
        rw [e2] at h
        simp only [Except.ok.injEq, Prod.mk.injEq] at h
        obtain ⟨rfl, rfl⟩ := h
        obtain ⟨⟨vs, h1, h2⟩, h3⟩ := parse_spec F tf img e k t img1 e1
        obtain ⟨⟨ws, g1, g2⟩, g3⟩ := parses_spec F tf img1 es l2 img2 e2
        refine ⟨⟨vs ++ ws, List.rel_append h1 g1, ?_⟩, imgAfter_append F _ _ _ _ _ h3 g3⟩
        rw [leavesDict]
        exact h2.append g2
end

/-! ### Reading -/

private theorem frame_eq (o t : ℚ × ℚ × ℚ × ℚ) (imgsz : Option (ℚ × ℚ)) (s : ℚ × ℚ) (hw : t.2.2.1 ≠ 0)
    (hh : t.2.2.2 ≠ 0) (h : readScale (some (o, t)) imgsz = .ok s) (xy : List (ℚ × ℚ)) :
    scalePts s.1 (some s.2) (translatePts (readTranslate (some (o, t))).1 (some (readTranslate (some (o, t))).2) xy) =
      xy.map (imageFrame t (imgsz.getD (o.2.2.1, o.2.2.2))) := by
  have hd : readTranslate (some (o, t)) = (-t.1, -t.2.1) := by
    unfold readTranslate
    simp only
    split
    · rfl
    · rename_i h0
      push Not at h0
      simp only [Prod.mk.injEq] at h0
      rw [h0.1, h0.2]; simp
  have hs : s = ((imgsz.getD (o.2.2.1, o.2.2.2)).1 / t.2.2.1, (imgsz.getD (o.2.2.1, o.2.2.2)).2 / t.2.2.2) := by
    unfold readScale at h
    simp only at h
    split at h
    · split at h
      · cases h
      · exact (Except.ok.inj h).symm
    · rename_i h0
      push Not at h0
      rw [← Except.ok.inj h, h0.1, h0.2, div_self hw, div_self hh]
  unfold scalePts translatePts
  rw [List.map_map]
  refine List.map_congr_left ?_
  intro p _
  simp only [Function.comp_apply, hd, hs, imageFrame, Option.getD_some]
  ext <;> simp only <;> ring

/-- C62. What `read` returns holds the vertices of every shape of the document exactly once, each moved by the transforms
of its ancestors and itself (in the code's order) and then, if there is an image, to the frame in which the bounding box
of the last image is (0, 0, W, H), where (W, H) is `imgsz` or the image's own size. (`hdeg`: the image is not
degenerate.) -/
theorem svg_read_spec (F : Fmt ℚ) (root : Elem) (imgsz : Option (ℚ × ℚ)) (T : Tree)
    (h : readSvg F root imgsz = .ok T) :
    ∃ vs, List.Forall₂ (Placed F) (root.shapes []) vs ∧
      match lastImage (root.shapes []) with
      | none => imgsz = none ∧ T.leaves.Perm vs
      | some s => ∃ v o t, Placed F s v ∧ bbox s.xy = some o ∧ bbox v = some t ∧
          (t.2.2.1 ≠ 0 → t.2.2.2 ≠ 0 →
            T.leaves.Perm (vs.map (List.map (imageFrame t (imgsz.getD (o.2.2.1, o.2.2.2)))))) := by
  unfold readSvg at h
  simp only [bind, Except.bind, pure, Except.pure, throw, throwThe, MonadExceptOf.throw] at h
  have key : ∃ v s, parseElem F [] none root = .ok v ∧ readScale v.2.2 imgsz = .ok s ∧
        T = (v.2.1.mapPts fun xy => scalePts s.1 (some s.2)
            (translatePts (readTranslate v.2.2).1 (some (readTranslate v.2.2).2) xy)) := by
    split at h
    · cases h
    · cases e1 : parseElem F [] none root with
      | error e => rw [e1] at h; cases h
      | ok v =>
        rw [e1] at h
        simp only at h
        cases e2 : readScale v.2.2 imgsz with
        | error e => rw [e2] at h; cases h
        | ok s =>
          rw [e2] at h
          exact ⟨v, s, rfl, e2, (Except.ok.inj h).symm⟩
  have hno : imgsz.isSome = true → root.hasImage = true := by
    intro hi
    by_contra hc
    have : root.hasImage = false := by simpa using hc
    rw [hi, this] at h
    cases h
  obtain ⟨⟨k, t, img⟩, s, e1, e2, rfl⟩ := key
  obtain ⟨⟨vs, h1, h2⟩, h3⟩ := parse_spec F [] none root k t img e1
  refine ⟨vs, h1, ?_⟩
  have hnil : ∀ (a b : ℚ) (c d : Option ℚ), scalePts a c (translatePts b d ([] : List (ℚ × ℚ))) = [] := fun _ _ _ _ => rfl
  unfold ImgAfter at h3
  cases e : lastImage (root.shapes []) with
  | none =>
    rw [e] at h3
    simp only at h3
    subst h3
    refine ⟨?_, ?_⟩
    · cases imgsz with
      | none => rfl
      | some z =>
        exfalso
        have hi := hno rfl
        have : ∀ e' : Elem, ∀ tf, e'.hasImage = true → lastImage (e'.shapes tf) ≠ none := by
          intro e' tf
          exact image_shape e' tf
        exact this root [] hi e
    · simp only at e2
      have hs : s = (1, 1) := by
        unfold readScale at e2; exact (Except.ok.inj e2).symm
      rw [leaves_map _ (by exact hnil _ _ _ _)]
      have : (fun xy : List (ℚ × ℚ) => scalePts s.1 (some s.2) (translatePts (readTranslate none).1
          (some (readTranslate none).2) xy)) = id := by
        funext xy
        rw [hs]
        simp [readTranslate, scalePts, translatePts]
      simp only
      rw [this, List.map_id]
      exact h2
  | some sh =>
    rw [e] at h3
    obtain ⟨v, o, t', p1, p2, p3, p4⟩ := h3
    refine ⟨v, o, t', p1, p2, p3, ?_⟩
    intro hw hh
    simp only at e2
    rw [leaves_map _ (by exact hnil _ _ _ _)]
    subst p4
    have : (fun xy : List (ℚ × ℚ) => scalePts s.1 (some s.2) (translatePts (readTranslate (some (o, t'))).1
          (some (readTranslate (some (o, t'))).2) xy)) =
        List.map (imageFrame t' (imgsz.getD (o.2.2.1, o.2.2.2))) := by
      funext xy
      exact frame_eq o t' imgsz s hw hh e2 xy
    simp only
    rw [this]
    exact h2.map _
where
  image_shape (e : Elem) (tf : List Char) : e.hasImage = true → lastImage (e.shapes tf) ≠ none := by
    have main : ∀ (n : Nat) (e : Elem) (tf : List Char), sizeOf e ≤ n → e.hasImage = true →
        ∃ s ∈ e.shapes tf, s.isImage = true := by
      intro n
      induction n with
      | zero => intro e tf hn; cases e <;> simp at hn
      | succ n ih =>
        intro e tf hn hi
        cases e with
        | shape k b xy tf' => exact ⟨_, List.mem_singleton_self _, by simpa [Elem.hasImage] using hi⟩
        | other k => simp [Elem.hasImage] at hi
        | group k es tf' =>
          have hl : ∀ es : List Elem, sizeOf es ≤ n → anyImage es = true →
              ∃ s ∈ shapesOf (tf ++ tf') es, s.isImage = true := by
            intro es
            induction es with
            | nil => intro _ h; simp [anyImage] at h
            | cons a es ihes =>
              intro hs h
              simp only [List.cons.sizeOf_spec] at hs
              rw [anyImage, Bool.or_eq_true] at h
              rcases h with h | h
              · obtain ⟨s, hs', hi'⟩ := ih a (tf ++ tf') (by omega) h
                exact ⟨s, by rw [shapesOf]; exact List.mem_append_left _ hs', hi'⟩
              · obtain ⟨s, hs', hi'⟩ := ihes (by omega) h
                exact ⟨s, by rw [shapesOf]; exact List.mem_append_right _ hs', hi'⟩
          have := hl es (by simp only [Elem.group.sizeOf_spec] at hn; omega) (by simpa [Elem.hasImage] using hi)
          simpa [Elem.shapes] using this
    intro hi hl
    obtain ⟨s, hs, hi'⟩ := main (sizeOf e) e tf (le_refl _) hi
    unfold lastImage at hl
    have := List.getLast?_eq_none_iff.1 hl
    have hm : s ∈ (e.shapes tf).filter (·.isImage) := List.mem_filter.2 ⟨hs, hi'⟩
    rw [this] at hm
    cases hm

/-- In those coordinates the image itself spans (0, 0) to (W, H). -/
theorem svg_image_frame (v : List (ℚ × ℚ)) (t : ℚ × ℚ × ℚ × ℚ) (ht : bbox v = some t) (hw : 0 < t.2.2.1)
    (hh : 0 < t.2.2.2) (sz : ℚ × ℚ) (hs : 0 ≤ sz.1 ∧ 0 ≤ sz.2) :
    (∀ p ∈ v.map (imageFrame t sz), 0 ≤ p.1 ∧ p.1 ≤ sz.1 ∧ 0 ≤ p.2 ∧ p.2 ≤ sz.2) ∧
      (∃ p ∈ v.map (imageFrame t sz), p.1 = 0) ∧ (∃ p ∈ v.map (imageFrame t sz), p.1 = sz.1) ∧
      (∃ p ∈ v.map (imageFrame t sz), p.2 = 0) ∧ (∃ p ∈ v.map (imageFrame t sz), p.2 = sz.2) := by
  obtain ⟨x, y, w, h⟩ := t
  simp only at hw hh
  obtain ⟨b1, ⟨p1, m1, e1⟩, ⟨p2, m2, e2⟩, ⟨p3, m3, e3⟩, ⟨p4, m4, e4⟩⟩ := bbox_spec v x y w h ht
  refine ⟨?_, ⟨_, List.mem_map_of_mem m1, ?_⟩, ⟨_, List.mem_map_of_mem m2, ?_⟩, ⟨_, List.mem_map_of_mem m3, ?_⟩,
    ⟨_, List.mem_map_of_mem m4, ?_⟩⟩
  · intro p hp
    obtain ⟨q, hq, rfl⟩ := List.mem_map.1 hp
    obtain ⟨q1, q2, q3, q4⟩ := b1 q hq
    have u1 : 0 ≤ (q.1 - x) / w := div_nonneg (by linarith) hw.le
    have u2 : (q.1 - x) / w ≤ 1 := (div_le_one hw).2 (by linarith)
    have u3 : 0 ≤ (q.2 - y) / h := div_nonneg (by linarith) hh.le
    have u4 : (q.2 - y) / h ≤ 1 := (div_le_one hh).2 (by linarith)
    refine ⟨mul_nonneg u1 hs.1, ?_, mul_nonneg u3 hs.2, ?_⟩
    · have := mul_le_mul_of_nonneg_right u2 hs.1; simpa [imageFrame] using this
    · have := mul_le_mul_of_nonneg_right u4 hs.2; simpa [imageFrame] using this
  · simp [imageFrame, e1]
  · simp only [imageFrame, e2, add_sub_cancel_left, div_self hw.ne', one_mul]
  · simp [imageFrame, e3]
  · simp only [imageFrame, e4, add_sub_cancel_left, div_self hh.ne', one_mul]

/-- `imgsz` without an image raises. -/
theorem svg_read_imgsz_needs_image (F : Fmt ℚ) (root : Elem) (sz : ℚ × ℚ) (h : root.hasImage = false) :
    readSvg F root (some sz) = .error .valueError := by
  unfold readSvg
  simp only [h]
  rfl

/-- Integers in rational arithmetic. -/
def ratFmt : Fmt ℚ where
  str q := intStr q.num
  num s := ((intOf s).getD 0 : ℤ)

/-- A document with an image scaled by 2 at (10, 0) and two paths in a group. -/
def demoDoc : Elem :=
  .group "svg" [.shape "image" true [(0, 0), (6, 0), (6, 4), (0, 4), (0, 0)] "scale(2)translate(10)".toList,
    .group "g" [.shape "path" false [(10, 0), (12, 4)] [], .shape "path" false [(16, 8)] []] []] []

example : (readSvg ratFmt demoDoc none).map Tree.leaves =
    .ok [[(0, 0), (6, 0), (6, 4), (0, 4), (0, 0)], [(0, 0), (1, 2)], [(3, 4)]] := by decide +kernel

end Glimpse.Svg
