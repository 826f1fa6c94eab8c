import Verif.Model.Controls
import Mathlib.Algebra.CharZero.Defs
import Mathlib.Algebra.Field.Rat
import Mathlib.Algebra.Order.Ring.Rat
import Mathlib.Tactic.FieldSimp
import Mathlib.Tactic.Ring
import Mathlib.Tactic.IntervalCases
import Mathlib.Data.Rat.Lemmas
import Mathlib.Data.List.Forall2

/-!
C69: control points, lines and matches keep their position relative to the image through any history of resizing.
C70: controls never change the arrays of the caller.
-/
set_option autoImplicit false
set_option linter.unusedSimpArgs false
set_option linter.unusedSectionVars false

namespace Glimpse.Controls

variable {E κ σ : Type} [Field E] [DecidableEq E]

/-! ### Specification -/

/-- The arrays passed to a constructor, with their cameras. -/
def New.given (h : Heap E) : New → List (Nat × List (Pt E))
  | .points cam src => [(cam, h.arr src.1)]
  | .lines cam srcs => srcs.map fun s => (cam, h.arr s.1)
  | .matches_ c0 c1 s0 s1 => [(c0, h.arr s0.1), (c1, h.arr s1.1)]

/-- A point of an image of size `old`, at the same relative position in an image of size `now`. -/
def moved (old now : Sz) (p : Pt E) : Pt E := (p.1 * ((now.1 : E) / (old.1 : E)), p.2 * ((now.2 : E) / (old.2 : E)))

/-- Image sizes are positive. -/
def Positive (C : CamOps κ σ) (S : State κ E) : Prop := ∀ j, 0 < (C.imgsz (S.cams j)).1 ∧ 0 < (C.imgsz (S.cams j)).2

/-- References passed to a constructor. -/
def New.refs : New → List Nat
  | .points _ src => [src.1]
  | .lines _ srcs => srcs.map (·.1)
  | .matches_ _ _ s0 s1 => [s0.1, s1.1]

/-- The merged array `uv` which a `Lines` object makes for itself. -/
def own : Control → Option Nat
  | .lines _ _ uv _ => some uv
  | _ => none

/-- The program passes existing arrays to constructors, but not the attribute `uv` of a `Lines` object. -/
def Proper (S : State κ E) : Op E σ → Prop
  | .new c => ∀ r ∈ c.refs, r < S.heap.next ∧ ∀ d ∈ S.ctls, own d ≠ some r
  | _ => True

/-- Along a history, operations are proper and image sizes stay positive. -/
def Allowed (C : CamOps κ σ) (S : State κ E) : List (Op E σ) → Prop
  | [] => Positive C S
  | o :: os => Positive C S ∧ Proper S o ∧ Allowed C (step C S o) os

/-- The state of a program that has not yet made any array or control. -/
def start (cams : Nat → κ) : State κ E := ⟨cams, ⟨fun _ => [], 0⟩, []⟩

/-! ### Heap -/

omit [Field E] [DecidableEq E] in
private theorem alloc_arr (h : Heap E) (l : List (Pt E)) (r : Nat) (hr : r < h.next) : (h.alloc l).2.arr r = h.arr r := by
  simp [Heap.alloc, Nat.ne_of_lt hr]

omit [Field E] [DecidableEq E] in
private theorem alloc_new (h : Heap E) (l : List (Pt E)) : (h.alloc l).2.arr (h.alloc l).1 = l := by simp [Heap.alloc]

/-- `h'` extends `h`: arrays are kept and new ones may be added. -/
private def Ext (h h' : Heap E) : Prop := h.next ≤ h'.next ∧ ∀ r, r < h.next → h'.arr r = h.arr r

omit [Field E] [DecidableEq E] in
private theorem Ext.rfl' (h : Heap E) : Ext h h := ⟨le_refl _, fun _ _ => rfl⟩

omit [Field E] [DecidableEq E] in
private theorem Ext.trans' {a b c : Heap E} (h1 : Ext a b) (h2 : Ext b c) : Ext a c :=
  ⟨le_trans h1.1 h2.1, fun r hr => by rw [h2.2 r (lt_of_lt_of_le hr h1.1), h1.2 r hr]⟩

omit [Field E] [DecidableEq E] in
private theorem alloc_ext (h : Heap E) (l : List (Pt E)) : Ext h (h.alloc l).2 :=
  ⟨Nat.le_succ _, fun r hr => alloc_arr h l r hr⟩

omit [Field E] [DecidableEq E] in
private theorem asArray_spec (h : Heap E) (s : Nat × Bool) (hs : s.1 < h.next) :
    Ext h (asArray h s).2 ∧ (asArray h s).1 < (asArray h s).2.next ∧ (asArray h s).2.arr (asArray h s).1 = h.arr s.1 ∧
    ((asArray h s).1 = s.1 ∨ h.next ≤ (asArray h s).1) := by
  unfold asArray
  split
  · exact ⟨Ext.rfl' h, hs, rfl, Or.inl rfl⟩
  · exact ⟨alloc_ext _ _, by simp [Heap.alloc], alloc_new _ _, Or.inr (by simp [Heap.alloc])⟩

omit [Field E] [DecidableEq E] in
private theorem asArrays_spec (ss : List (Nat × Bool)) (h : Heap E) (hs : ∀ s ∈ ss, s.1 < h.next) :
    Ext h (asArrays h ss).2 ∧ (∀ r ∈ (asArrays h ss).1, r < (asArrays h ss).2.next ∧ ((∃ s ∈ ss, r = s.1) ∨ h.next ≤ r)) ∧
    (asArrays h ss).1.map (asArrays h ss).2.arr = ss.map fun s => h.arr s.1 := by
  induction ss generalizing h with
  | nil => exact ⟨Ext.rfl' h, by simp [asArrays], rfl⟩
  | cons s ss ih =>
    obtain ⟨e1, l1, a1, o1⟩ := asArray_spec h s (hs s List.mem_cons_self)
    obtain ⟨e2, l2, a2⟩ := ih (asArray h s).2 fun t ht => lt_of_lt_of_le (hs t (List.mem_cons_of_mem _ ht)) e1.1
    have e3 := e1.trans' e2
    refine ⟨e3, ?_, ?_⟩
    · intro r hr
      change r ∈ (asArray h s).1 :: (asArrays (asArray h s).2 ss).1 at hr
      rcases List.mem_cons.1 hr with rfl | hr
      · refine ⟨lt_of_lt_of_le l1 e2.1, ?_⟩
        rcases o1 with o | o
        · exact Or.inl ⟨s, List.mem_cons_self, o⟩
        · exact Or.inr o
      · obtain ⟨x, y⟩ := l2 r hr
        refine ⟨x, ?_⟩
        rcases y with ⟨t, ht, rfl⟩ | y
        · exact Or.inl ⟨t, List.mem_cons_of_mem _ ht, rfl⟩
        · exact Or.inr (le_trans e1.1 y)
    · show (asArrays (asArray h s).2 ss).2.arr (asArray h s).1 :: (asArrays (asArray h s).2 ss).1.map (asArrays (asArray h s).2 ss).2.arr = _
      rw [a2, e2.2 _ l1, a1, List.map_cons]
      congr 1
      refine List.map_congr_left ?_
      intro t ht
      exact e1.2 _ (hs t (List.mem_cons_of_mem _ ht))

omit [DecidableEq E] in
private theorem rescaledAll_spec (s : Pt E) (rs : List Nat) (h : Heap E) (hr : ∀ r ∈ rs, r < h.next) :
    Ext h (rescaledAll h s rs).2 ∧ (∀ r ∈ (rescaledAll h s rs).1, r < (rescaledAll h s rs).2.next ∧ h.next ≤ r) ∧
    (rescaledAll h s rs).1.map (rescaledAll h s rs).2.arr = rs.map fun r => scalePts s (h.arr r) := by
  induction rs generalizing h with
  | nil => exact ⟨Ext.rfl' h, by simp [rescaledAll], rfl⟩
  | cons r rs ih =>
    have e1 := alloc_ext h (scalePts s (h.arr r))
    have l1 : (h.alloc (scalePts s (h.arr r))).1 < (h.alloc (scalePts s (h.arr r))).2.next := by simp [Heap.alloc]
    obtain ⟨e2, l2, a2⟩ := ih (h.alloc (scalePts s (h.arr r))).2 fun t ht => lt_of_lt_of_le (hr t (List.mem_cons_of_mem _ ht)) e1.1
    refine ⟨e1.trans' e2, ?_, ?_⟩
    · intro q hq
      change q ∈ (h.alloc (scalePts s (h.arr r))).1 :: (rescaledAll (h.alloc (scalePts s (h.arr r))).2 s rs).1 at hq
      rcases List.mem_cons.1 hq with rfl | hq
      · exact ⟨lt_of_lt_of_le l1 e2.1, le_refl _⟩
      · exact ⟨(l2 q hq).1, le_trans e1.1 (l2 q hq).2⟩
    · show (rescaledAll (h.alloc (scalePts s (h.arr r))).2 s rs).2.arr (h.alloc (scalePts s (h.arr r))).1 ::
        (rescaledAll (h.alloc (scalePts s (h.arr r))).2 s rs).1.map
          (rescaledAll (h.alloc (scalePts s (h.arr r))).2 s rs).2.arr = _
      rw [a2, e2.2 _ l1, alloc_new, List.map_cons]
      congr 1
      refine List.map_congr_left ?_
      intro t ht
      rw [e1.2 _ (hr t (List.mem_cons_of_mem _ ht))]

/-! ### Arrays of a control -/

/-- Arrays of a control that are replaced, never changed in place. -/
private def shared : Control → List (Nat × Sz × Nat)
  | .points cam uv z => [(cam, z, uv)]
  | .lines cam uvs _ z => uvs.map fun r => (cam, z, r)
  | .matches_ c0 c1 u0 u1 z0 z1 => [(c0, z0, u0), (c1, z1, u1)]

private theorem coords_eq (S : State κ E) (c : Control) : coords S c = (shared c).map fun x => (x.1, S.heap.arr x.2.2) := by
  cases c <;> simp [coords, shared]

/-- Well-formedness: arrays exist, and the merged array of a `Lines` is not used elsewhere and is the merged array. -/
private structure Inv (S : State κ E) : Prop where
  lt : ∀ (i : Nat) c, S.ctls[i]? = some c → ∀ x ∈ shared c, x.2.2 < S.heap.next
  pos : ∀ (i : Nat) c, S.ctls[i]? = some c → ∀ x ∈ shared c, 0 < x.2.1.1 ∧ 0 < x.2.1.2
  dist : ∀ (i : Nat) c0 c1 u0 u1 z0 z1, S.ctls[i]? = some (.matches_ c0 c1 u0 u1 z0 z1) → c0 ≠ c1
  ownLt : ∀ (i : Nat) c r, S.ctls[i]? = some c → own c = some r → r < S.heap.next
  priv : ∀ (i k : Nat) c d r, S.ctls[i]? = some c → own c = some r → S.ctls[k]? = some d → ∀ x ∈ shared d, x.2.2 ≠ r
  uniq : ∀ (i k : Nat) c d r, S.ctls[i]? = some c → own c = some r → S.ctls[k]? = some d → own d = some r → i = k
  merged : ∀ (i : Nat) c r, S.ctls[i]? = some c → own c = some r →
    S.heap.arr r = (shared c).flatMap fun x => S.heap.arr x.2.2

/-- What resizing does to a control (`c` to `c'`) and the heap: the same cameras, each array scaled by the ratio of its new
size to its old size, new arrays beyond the old ones, nothing else changed but the merged array of the control. -/
private structure Changed (S : State κ E) (i : Nat) (S' : State κ E) (c c' : Control) : Prop where
  ctls : S'.ctls = S.ctls.set i c'
  same : own c' = own c
  next : S.heap.next ≤ S'.heap.next
  frame : ∀ r, r < S.heap.next → own c ≠ some r → S'.heap.arr r = S.heap.arr r
  slots : List.Forall₂ (fun x y => y.1 = x.1 ∧ (y.2.2 = x.2.2 ∨ S.heap.next ≤ y.2.2) ∧ y.2.2 < S'.heap.next ∧
    S'.heap.arr y.2.2 = scalePts (scaleOf y.2.1 x.2.1) (S.heap.arr x.2.2) ∧ 0 < y.2.1.1 ∧ 0 < y.2.1.2) (shared c) (shared c')
  merged : ∀ r, own c' = some r → S'.heap.arr r = (shared c').flatMap fun y => S'.heap.arr y.2.2

variable [CharZero E]

omit [DecidableEq E] in
private theorem scale_self (z : Sz) (h1 : 0 < z.1) (h2 : 0 < z.2) (l : List (Pt E)) : scalePts (scaleOf z z) l = l := by
  have a : (z.1 : E) ≠ 0 := by exact_mod_cast h1.ne'
  have b : (z.2 : E) ≠ 0 := by exact_mod_cast h2.ne'
  unfold scalePts scaleOf
  simp [div_self a, div_self b]

omit [DecidableEq E] [CharZero E] in
private theorem scale_one (now z : Sz) (s1 : ((scaleOf now z : Pt E)).1 = 1) (s2 : ((scaleOf now z : Pt E)).2 = 1)
    (l : List (Pt E)) : scalePts (scaleOf now z) l = l := by
  unfold scalePts
  rw [s1, s2]
  simp

omit [DecidableEq E] in
private theorem scale_scale (a b c : Sz) (h1 : 0 < b.1) (h2 : 0 < b.2) (l : List (Pt E)) :
    scalePts (scaleOf c b) (scalePts (scaleOf b a) l) = scalePts (scaleOf c a) l := by
  have x : (b.1 : E) ≠ 0 := by exact_mod_cast h1.ne'
  have y : (b.2 : E) ≠ 0 := by exact_mod_cast h2.ne'
  unfold scalePts scaleOf
  rw [List.map_map]
  refine List.map_congr_left ?_
  intro p _
  simp only [Function.comp]
  ext
  · field_simp
  · field_simp


/-! ### Resizing a control -/

private theorem unchanged (S : State κ E) (hI : Inv S) (i : Nat) (c : Control) (hc : S.ctls[i]? = some c) (cams : Nat → κ) :
    Changed S i ⟨cams, S.heap, S.ctls⟩ c c := by
  have hi : i < S.ctls.length := by
    by_contra h
    rw [List.getElem?_eq_none (by omega)] at hc; cases hc
  refine ⟨?_, rfl, le_refl _, fun _ _ _ => rfl, ?_, fun r hr => hI.merged i c r hc hr⟩
  · refine List.ext_getElem? fun n => ?_
    rw [List.getElem?_set]
    split
    · rename_i h; subst h; simp [hi, ← hc]
    · rfl
  · rw [List.forall₂_same]
    intro x hx
    obtain ⟨p, q⟩ := hI.pos i c hc x hx
    exact ⟨rfl, Or.inl rfl, hI.lt i c hc x hx, (scale_self _ p q _).symm, p, q⟩

private theorem rescaled_spec (h : Heap E) (r : Nat) (now z : Sz) (hr : r < h.next) :
    Ext h (rescaled h r (scaleOf now z)).2 ∧ (rescaled h r (scaleOf now z)).1 < (rescaled h r (scaleOf now z)).2.next ∧
    ((rescaled h r (scaleOf now z)).1 = r ∨ h.next ≤ (rescaled h r (scaleOf now z)).1) ∧
    (rescaled h r (scaleOf now z)).2.arr (rescaled h r (scaleOf now z)).1 = scalePts (scaleOf now z) (h.arr r) := by
  unfold rescaled
  split
  · exact ⟨alloc_ext _ _, by simp [Heap.alloc], Or.inr (by simp [Heap.alloc]), alloc_new _ _⟩
  · rename_i hs
    push Not at hs
    exact ⟨Ext.rfl' h, hr, Or.inl rfl, (scale_one _ _ hs.1 hs.2 _).symm⟩

private theorem points_changed (C : CamOps κ σ) (S : State κ E) (hI : Inv S) (i cam uv : Nat) (z : Sz)
    (hc : S.ctls[i]? = some (.points cam uv z)) (a : Option σ)
    (hpos : Positive C (resizePoints C S i cam uv z a).2) :
    ∃ c', Changed S i (resizePoints C S i cam uv z a).2 (.points cam uv z) c' := by
  unfold resizePoints at hpos ⊢
  cases e : resizeCam C S.cams cam a with
  | error er => exact ⟨_, unchanged S hI i _ hc S.cams⟩
  | ok cams =>
    simp only [e] at hpos ⊢
    obtain ⟨e1, l1, o1, a1⟩ := rescaled_spec S.heap uv (C.imgsz (cams cam)) z (hI.lt i _ hc (cam, z, uv) (by simp [shared]))
    refine ⟨_, rfl, rfl, e1.1, fun r hr _ => e1.2 r hr, ?_, by simp [own]⟩
    simp only [shared]
    exact List.Forall₂.cons ⟨rfl, o1, l1, a1, (hpos cam).1, (hpos cam).2⟩ List.Forall₂.nil

private theorem lines_changed (C : CamOps κ σ) (S : State κ E) (hI : Inv S) (i cam : Nat) (uvs : List Nat) (uv : Nat) (z : Sz)
    (hc : S.ctls[i]? = some (.lines cam uvs uv z)) (a : Option σ)
    (hpos : Positive C (resizeLines C S i cam uvs uv z a).2) :
    ∃ c', Changed S i (resizeLines C S i cam uvs uv z a).2 (.lines cam uvs uv z) c' := by
  unfold resizeLines at hpos ⊢
  have hlt : ∀ r ∈ uvs, r < S.heap.next := fun r hr =>
    hI.lt i _ hc (cam, z, r) (by simp [shared, hr])
  have hne : ∀ r ∈ uvs, r ≠ uv := fun r hr => hI.priv i i _ _ uv hc rfl hc (cam, z, r) (by simp [shared, hr])
  have hul := hI.ownLt i _ uv hc rfl
  have hm := hI.merged i _ uv hc rfl
  have hm' : S.heap.arr uv = uvs.flatMap S.heap.arr := by rw [hm]; simp [shared, List.flatMap_map]
  cases e : resizeCam C S.cams cam a with
  | error er => exact ⟨_, unchanged S hI i _ hc S.cams⟩
  | ok cams =>
    simp only [e] at hpos ⊢
    by_cases hs : (scaleOf (C.imgsz (cams cam)) z : Pt E).1 ≠ 1 ∨ (scaleOf (C.imgsz (cams cam)) z : Pt E).2 ≠ 1
    · rw [if_pos hs] at hpos ⊢
      simp only at hpos ⊢
      obtain ⟨e1, l1, a1⟩ := rescaledAll_spec (scaleOf (C.imgsz (cams cam)) z : Pt E) uvs S.heap hlt
      generalize rescaledAll S.heap (scaleOf (C.imgsz (cams cam)) z : Pt E) uvs = b at *
      have hb : ∀ r ∈ b.1, r ≠ uv := fun r hr => by have := (l1 r hr).2; omega
      have ha : b.1.map (b.2.write uv (scalePts (scaleOf (C.imgsz (cams cam)) z) (b.2.arr uv))).arr =
          uvs.map fun r => scalePts (scaleOf (C.imgsz (cams cam)) z) (S.heap.arr r) := by
        rw [← a1]
        refine List.map_congr_left ?_
        intro r hr
        simp [Heap.write, hb r hr]
      refine ⟨_, rfl, rfl, e1.1, ?_, ?_, ?_⟩
      · intro r hr ho
        have : r ≠ uv := by rintro rfl; exact ho rfl
        simp only [Heap.write, if_neg this]
        exact e1.2 r hr
      · simp only [shared]
        rw [List.forall₂_map_left_iff, List.forall₂_map_right_iff]
        rw [List.forall₂_iff_get]
        have hlen : uvs.length = b.1.length := by simpa using (congrArg List.length a1).symm
        refine ⟨hlen, ?_⟩
        intro k h1 h2
        have hk := congrArg (fun l => l[k]?) ha
        simp only [List.getElem?_map, List.getElem?_eq_getElem h1, List.getElem?_eq_getElem h2, Option.map_some,
          Option.some.injEq] at hk
        have hm := l1 b.1[k] (List.getElem_mem h2)
        exact ⟨rfl, Or.inr hm.2, hm.1, hk, (hpos cam).1, (hpos cam).2⟩
      · intro r hr
        cases hr
        have : (shared (.lines cam b.1 uv (C.imgsz (cams cam)))).flatMap (fun y =>
            (b.2.write uv (scalePts (scaleOf (C.imgsz (cams cam)) z) (b.2.arr uv))).arr y.2.2) =
            (b.1.map (b.2.write uv (scalePts (scaleOf (C.imgsz (cams cam)) z) (b.2.arr uv))).arr).flatten := by
          simp only [shared, List.flatMap_map]
          rfl
        rw [this, ha]
        simp only [Heap.write, if_true]
        rw [e1.2 uv hul, hm']
        unfold scalePts
        rw [List.flatMap, List.map_flatten, List.map_map]
        rfl
    · rw [if_neg hs] at hpos ⊢
      push Not at hs
      refine ⟨_, rfl, rfl, le_refl _, fun _ _ _ => rfl, ?_, ?_⟩
      · simp only [shared]
        rw [List.forall₂_map_left_iff, List.forall₂_map_right_iff, List.forall₂_same]
        intro r hr
        exact ⟨rfl, Or.inl rfl, hlt r hr, (scale_one _ _ hs.1 hs.2 _).symm, (hpos cam).1, (hpos cam).2⟩
      · intro r hr
        cases hr
        rw [hm']
        simp [shared, List.flatMap_map]

private theorem side_spec (C : CamOps κ σ) (cams : Nat → κ) (h : Heap E) (cam uv : Nat) (z : Sz) (hz : 0 < z.1 ∧ 0 < z.2)
    (hr : uv < h.next) (a : Option σ) (cams' : Nat → κ) (h' : Heap E) (r : Nat) (y : Sz)
    (he : resizeSide C cams h cam uv z a = .ok (cams', h', r, y)) :
    Ext h h' ∧ r < h'.next ∧ (r = uv ∨ h.next ≤ r) ∧ h'.arr r = scalePts (scaleOf y z) (h.arr uv) ∧
    y = C.imgsz (cams' cam) := by
  unfold resizeSide at he
  cases e : resizeCam C cams cam a with
  | error er => rw [e] at he; cases he
  | ok c =>
    rw [e] at he
    simp only at he
    split at he
    · cases he
      exact ⟨alloc_ext _ _, by simp [Heap.alloc], Or.inr (by simp [Heap.alloc]), alloc_new _ _, rfl⟩
    · rename_i hs
      push Not at hs
      cases he
      have x : (z.1 : E) ≠ 0 := by exact_mod_cast hz.1.ne'
      have y : (z.2 : E) ≠ 0 := by exact_mod_cast hz.2.ne'
      have h1 := hs.1
      have h2 := hs.2
      simp only [scaleOf] at h1 h2
      rw [div_eq_one_iff_eq x] at h1
      rw [div_eq_one_iff_eq y] at h2
      refine ⟨Ext.rfl' h, hr, Or.inl rfl, (scale_self _ hz.1 hz.2 _).symm, ?_⟩
      ext
      · exact_mod_cast h1.symm
      · exact_mod_cast h2.symm

private theorem resizeCam_other (C : CamOps κ σ) (cams cams' : Nat → κ) (j k : Nat) (a : Option σ) (hjk : k ≠ j)
    (h : resizeCam C cams j a = .ok cams') : cams' k = cams k := by
  unfold resizeCam at h
  cases a with
  | none => cases h; rfl
  | some a =>
    simp only at h
    cases e : C.resize (cams j) a with
    | error er => rw [e] at h; cases h
    | ok q => rw [e] at h; cases h; simp [hjk]

private theorem side_cams (C : CamOps κ σ) (cams : Nat → κ) (h : Heap E) (cam uv : Nat) (z : Sz) (a : Option σ) (cams' : Nat → κ)
    (h' : Heap E) (r : Nat) (y : Sz) (he : resizeSide C cams h cam uv z a = .ok (cams', h', r, y)) :
    resizeCam C cams cam a = .ok cams' := by
  unfold resizeSide at he
  cases e : resizeCam C cams cam a with
  | error er => rw [e] at he; cases he
  | ok c =>
    rw [e] at he
    simp only at he
    split at he <;> (cases he; rfl)

private theorem matches_changed (C : CamOps κ σ) (S : State κ E) (hI : Inv S) (i c0 c1 u0 u1 : Nat) (z0 z1 : Sz)
    (hc : S.ctls[i]? = some (.matches_ c0 c1 u0 u1 z0 z1)) (a : Option σ)
    (hpos : Positive C (resizeMatches C S i c0 c1 u0 u1 z0 z1 a).2) :
    ∃ c', Changed S i (resizeMatches C S i c0 c1 u0 u1 z0 z1 a).2 (.matches_ c0 c1 u0 u1 z0 z1) c' := by
  have hd := hI.dist i _ _ _ _ _ _ hc
  have l0 := hI.lt i _ hc (c0, z0, u0) (by simp [shared])
  have l1 := hI.lt i _ hc (c1, z1, u1) (by simp [shared])
  have p0 := hI.pos i _ hc (c0, z0, u0) (by simp [shared])
  have p1 := hI.pos i _ hc (c1, z1, u1) (by simp [shared])
  simp only at l0 l1 p0 p1
  unfold resizeMatches at hpos ⊢
  cases e : resizeSide C S.cams S.heap c0 u0 z0 a with
  | error er => exact ⟨_, unchanged S hI i _ hc S.cams⟩
  | ok t =>
    obtain ⟨cams, h, r0, y0⟩ := t
    obtain ⟨e1, b1, o1, a1, q1⟩ := side_spec C _ _ _ _ _ p0 l0 _ _ _ _ _ e
    simp only [e] at hpos ⊢
    have l1' : u1 < h.next := lt_of_lt_of_le l1 e1.1
    cases e' : resizeSide C cams h c1 u1 z1 a with
    | error er =>
      simp only [e'] at hpos ⊢
      refine ⟨_, rfl, rfl, e1.1, fun r hr _ => e1.2 r hr, ?_, by simp [own]⟩
      simp only [shared]
      refine List.Forall₂.cons ⟨rfl, o1, b1, a1, ?_, ?_⟩ (List.Forall₂.cons ⟨rfl, Or.inl rfl, l1', ?_, p1.1, p1.2⟩ List.Forall₂.nil)
      · rw [q1]; exact (hpos c0).1
      · rw [q1]; exact (hpos c0).2
      · rw [scale_self _ p1.1 p1.2]
        exact e1.2 _ l1
    | ok t =>
      obtain ⟨cams', h', r1, y1⟩ := t
      obtain ⟨e2, b2, o2, a2, q2⟩ := side_spec C _ _ _ _ _ p1 l1' _ _ _ _ _ e'
      have hk : cams' c0 = cams c0 := resizeCam_other C _ _ _ _ a hd (side_cams C _ _ _ _ _ _ _ _ _ _ e')
      simp only [e'] at hpos ⊢
      refine ⟨_, rfl, rfl, (e1.trans' e2).1, fun r hr _ => (e1.trans' e2).2 r hr, ?_, by simp [own]⟩
      simp only [shared]
      refine List.Forall₂.cons ⟨rfl, o1, lt_of_lt_of_le b1 e2.1, ?_, ?_, ?_⟩ (List.Forall₂.cons ⟨rfl, ?_, b2, ?_, ?_, ?_⟩ List.Forall₂.nil)
      · rw [e2.2 _ b1, a1]
      · rw [q1, ← hk]; exact (hpos c0).1
      · rw [q1, ← hk]; exact (hpos c0).2
      · rcases o2 with o2 | o2
        · exact Or.inl o2
        · exact Or.inr (le_trans e1.1 o2)
      · rw [a2, e1.2 _ l1]
      · rw [q2]; exact (hpos c1).1
      · rw [q2]; exact (hpos c1).2

private theorem resize_changed (C : CamOps κ σ) (S : State κ E) (hI : Inv S) (i : Nat) (c : Control)
    (hc : S.ctls[i]? = some c) (a : Option σ) (hpos : Positive C (resize C S i a).2) :
    ∃ c', Changed S i (resize C S i a).2 c c' := by
  unfold resize at hpos ⊢
  rw [hc] at hpos ⊢
  cases c with
  | points cam uv z => exact points_changed C S hI i cam uv z hc a hpos
  | lines cam uvs uv z => exact lines_changed C S hI i cam uvs uv z hc a hpos
  | matches_ c0 c1 u0 u1 z0 z1 => exact matches_changed C S hI i c0 c1 u0 u1 z0 z1 hc a hpos

private theorem kind_kept (S S' : State κ E) (i : Nat) (c c' : Control) (h : Changed S i S' c c')
    (hd : ∀ c0 c1 u0 u1 z0 z1, c = .matches_ c0 c1 u0 u1 z0 z1 → c0 ≠ c1) :
    ∀ c0 c1 u0 u1 z0 z1, c' = .matches_ c0 c1 u0 u1 z0 z1 → c0 ≠ c1 := by
  rintro c0 c1 u0 u1 z0 z1 rfl
  have ho := h.same
  have hs := h.slots
  cases c with
  | lines => simp [own] at ho
  | points =>
    simp only [shared] at hs
    cases hs with
    | cons a b => cases b
  | matches_ =>
    simp only [shared] at hs
    cases hs with
    | cons a b =>
      cases b with
      | cons b c =>
        have h1 : c0 = _ := a.1
        have h2 : c1 = _ := b.1
        rw [h1, h2]
        exact hd _ _ _ _ _ _ rfl

private theorem changed_inv (S S' : State κ E) (hI : Inv S) (i : Nat) (c c' : Control) (hc : S.ctls[i]? = some c)
    (h : Changed S i S' c c') : Inv S' := by
  have hi : i < S.ctls.length := by
    by_contra h
    rw [List.getElem?_eq_none (by omega)] at hc; cases hc
  have get : ∀ (k : Nat) (d : Control), S'.ctls[k]? = some d → (k = i ∧ d = c') ∨ (k ≠ i ∧ S.ctls[k]? = some d) := by
    intro k d hd
    rw [h.ctls, List.getElem?_set] at hd
    split at hd
    · rename_i hk
      subst hk
      cases hd
      exact Or.inl ⟨rfl, rfl⟩
    · rename_i hk
      exact Or.inr ⟨fun e => hk e.symm, hd⟩
  have back : ∀ y ∈ shared c', ∃ x ∈ shared c, y.1 = x.1 ∧ (y.2.2 = x.2.2 ∨ S.heap.next ≤ y.2.2) ∧ y.2.2 < S'.heap.next ∧
      S'.heap.arr y.2.2 = scalePts (scaleOf y.2.1 x.2.1) (S.heap.arr x.2.2) ∧ 0 < y.2.1.1 ∧ 0 < y.2.1.2 := by
    intro y hy
    obtain ⟨k, hk⟩ := List.mem_iff_getElem?.1 hy
    have hl := h.slots.length_eq
    have hk' : k < (shared c').length := by
      by_contra hh; rw [List.getElem?_eq_none (by omega)] at hk; cases hk
    have := List.Forall₂.get h.slots (i := k) (by omega) hk'
    rw [List.getElem?_eq_getElem hk'] at hk
    cases hk
    exact ⟨_, List.getElem_mem (by omega), this⟩
  have ownBack : ∀ (k : Nat) (d : Control) (r : Nat), S'.ctls[k]? = some d → own d = some r → ∃ d0, S.ctls[k]? = some d0 ∧ own d0 = some r := by
    intro k d r hd ho
    rcases get k d hd with ⟨rfl, rfl⟩ | ⟨_, hd'⟩
    · exact ⟨c, hc, by rw [← h.same]; exact ho⟩
    · exact ⟨d, hd', ho⟩
  refine ⟨?_, ?_, ?_, ?_, ?_, ?_, ?_⟩
  · intro k d hd x hx
    rcases get k d hd with ⟨rfl, rfl⟩ | ⟨_, hd'⟩
    · obtain ⟨_, _, _, _, hlt, _⟩ := back x hx
      exact hlt
    · exact lt_of_lt_of_le (hI.lt k d hd' x hx) h.next
  · intro k d hd x hx
    rcases get k d hd with ⟨rfl, rfl⟩ | ⟨_, hd'⟩
    · obtain ⟨_, _, _, _, _, _, hp⟩ := back x hx
      exact hp
    · exact hI.pos k d hd' x hx
  · intro k c0 c1 u0 u1 z0 z1 hd
    rcases get k _ hd with ⟨rfl, he⟩ | ⟨_, hd'⟩
    · refine kind_kept S S' k c c' h ?_ c0 c1 u0 u1 z0 z1 he.symm
      rintro _ _ _ _ _ _ rfl
      exact hI.dist k _ _ _ _ _ _ hc
    · exact hI.dist k _ _ _ _ _ _ hd'
  · intro k d r hd ho
    obtain ⟨d0, h1, h2⟩ := ownBack k d r hd ho
    exact lt_of_lt_of_le (hI.ownLt k d0 r h1 h2) h.next
  · intro k m d e r hd ho he x hx
    obtain ⟨d0, h1, h2⟩ := ownBack k d r hd ho
    rcases get m e he with ⟨rfl, rfl⟩ | ⟨_, he'⟩
    · obtain ⟨x0, hx0, _, hr, _⟩ := back x hx
      rcases hr with hr | hr
      · rw [hr]; exact hI.priv k m d0 c r h1 h2 hc x0 hx0
      · have := hI.ownLt k d0 r h1 h2
        omega
    · exact hI.priv k m d0 e r h1 h2 he' x hx
  · intro k m d e r hd ho he hoe
    obtain ⟨d0, h1, h2⟩ := ownBack k d r hd ho
    obtain ⟨e0, h3, h4⟩ := ownBack m e r he hoe
    exact hI.uniq k m d0 e0 r h1 h2 h3 h4
  · intro k d r hd ho
    rcases get k d hd with ⟨rfl, rfl⟩ | ⟨hk, hd'⟩
    · exact h.merged r ho
    · have hne : own c ≠ some r := fun hx => hk (hI.uniq k i d c r hd' ho hc hx)
      rw [h.frame r (hI.ownLt k d r hd' ho) hne, hI.merged k d r hd' ho]
      refine List.flatMap_congr ?_
      intro x hx
      have : own c ≠ some x.2.2 := fun hh => hI.priv i k c d x.2.2 hc hh hd' x hx rfl
      rw [h.frame _ (hI.lt k d hd' x hx) this]

/-! ### New controls -/

private theorem ext_inv (S : State κ E) (hI : Inv S) (h' : Heap E) (he : Ext S.heap h') (cams : Nat → κ) :
    Inv (⟨cams, h', S.ctls⟩ : State κ E) := by
  refine ⟨fun i c hc x hx => lt_of_lt_of_le (hI.lt i c hc x hx) he.1, hI.pos, hI.dist,
    fun i c r hc ho => lt_of_lt_of_le (hI.ownLt i c r hc ho) he.1, hI.priv, hI.uniq, ?_⟩
  intro i c r hc ho
  show h'.arr r = _
  rw [he.2 r (hI.ownLt i c r hc ho), hI.merged i c r hc ho]
  refine List.flatMap_congr ?_
  intro x hx
  exact (he.2 _ (hI.lt i c hc x hx)).symm

/-- What a constructor makes. -/
private structure Made (C : CamOps κ σ) (S : State κ E) (n : New) (c : Control) (h' : Heap E) : Prop where
  ext : Ext S.heap h'
  slots : (shared c).map (fun x => (x.1, h'.arr x.2.2)) = n.given S.heap
  size : ∀ x ∈ shared c, x.2.1 = C.imgsz (S.cams x.1)
  lt : ∀ x ∈ shared c, x.2.2 < h'.next
  src : ∀ x ∈ shared c, x.2.2 ∈ n.refs ∨ S.heap.next ≤ x.2.2
  own : ∀ r, own c = some r → S.heap.next ≤ r ∧ r < h'.next ∧ (∀ x ∈ shared c, x.2.2 ≠ r) ∧
    h'.arr r = (shared c).flatMap fun x => h'.arr x.2.2
  dist : ∀ c0 c1 u0 u1 z0 z1, c = .matches_ c0 c1 u0 u1 z0 z1 → c0 ≠ c1

private theorem construct_made (C : CamOps κ σ) (S : State κ E) (n : New) (c : Control) (h' : Heap E)
    (hr : ∀ r ∈ n.refs, r < S.heap.next) (h : construct C S n = .ok (c, h')) : Made C S n c h' := by
  cases n with
  | points cam src =>
    obtain ⟨e1, l1, a1, o1⟩ := asArray_spec S.heap src (hr _ (by simp [New.refs]))
    cases h
    refine ⟨e1, ?_, ?_, ?_, ?_, by simp [Controls.own], by simp⟩
    · simp [shared, New.given, a1]
    · simp [shared]
    · simpa [shared] using l1
    · simpa [shared, New.refs] using o1
  | lines cam srcs =>
    simp only [construct] at h
    split at h
    · cases h
    · obtain ⟨e1, l1, a1⟩ := asArrays_spec srcs S.heap fun s hs => hr _ (by simp only [New.refs, List.mem_map]; exact ⟨s, hs, rfl⟩)
      cases h
      generalize asArrays S.heap srcs = b at *
      have e2 := alloc_ext b.2 (b.1.flatMap b.2.arr)
      have ha : ∀ r ∈ b.1, (b.2.alloc (b.1.flatMap b.2.arr)).2.arr r = b.2.arr r := fun r hr => e2.2 r (l1 r hr).1
      have hm : b.1.map (b.2.alloc (b.1.flatMap b.2.arr)).2.arr = srcs.map fun s => S.heap.arr s.1 := by
        rw [← a1]; exact List.map_congr_left ha
      refine ⟨e1.trans' e2, ?_, ?_, ?_, ?_, ?_, by simp⟩
      · simp only [shared, New.given, List.map_map]
        have := congrArg (List.map fun l => (cam, l)) hm
        rw [List.map_map, List.map_map] at this
        exact this
      · simp [shared]
      · intro x hx
        simp only [shared, List.mem_map] at hx
        obtain ⟨r, hr, rfl⟩ := hx
        exact lt_of_lt_of_le (l1 r hr).1 e2.1
      · intro x hx
        simp only [shared, List.mem_map] at hx
        obtain ⟨r, hr, rfl⟩ := hx
        rcases (l1 r hr).2 with ⟨s, hs, rfl⟩ | h
        · exact Or.inl (by simp only [New.refs, List.mem_map]; exact ⟨s, hs, rfl⟩)
        · exact Or.inr h
      · intro r ho
        cases ho
        refine ⟨e1.1, by simp [Heap.alloc], ?_, ?_⟩
        · intro x hx
          simp only [shared, List.mem_map] at hx
          obtain ⟨r, hr, rfl⟩ := hx
          have := (l1 r hr).1
          show r ≠ b.2.next
          omega
        · rw [alloc_new]
          simp only [shared, List.flatMap_map]
          exact (List.flatMap_congr ha).symm
  | matches_ c0 c1 s0 s1 =>
    unfold construct at h
    simp only at h
    obtain ⟨e1, l1, a1, o1⟩ := asArray_spec S.heap s0 (hr _ (by simp [New.refs]))
    obtain ⟨e2, l2, a2, o2⟩ := asArray_spec (asArray S.heap s0).2 s1 (lt_of_lt_of_le (hr _ (by simp [New.refs])) e1.1)
    split at h
    · cases h
    · rename_i hne
      split at h
      · cases h
      · cases h
        refine ⟨e1.trans' e2, ?_, ?_, ?_, ?_, by simp [Controls.own], ?_⟩
        · simp only [shared, New.given, List.map_cons, List.map_nil]
          rw [e2.2 _ l1, a1, a2, e1.2 _ (hr _ (by simp [New.refs]))]
        · simp [shared]
        · simp only [shared, List.forall_mem_cons]
          exact ⟨lt_of_lt_of_le l1 e2.1, l2, by simp⟩
        · simp only [shared, List.forall_mem_cons]
          refine ⟨?_, ?_, by simp⟩
          · rcases o1 with o | o
            · exact Or.inl (by simp [New.refs, o])
            · exact Or.inr o
          · rcases o2 with o | o
            · exact Or.inl (by simp [New.refs, o])
            · exact Or.inr (le_trans e1.1 o)
        · rintro _ _ _ _ _ _ he
          cases he
          exact hne

private theorem made_inv (C : CamOps κ σ) (S : State κ E) (hI : Inv S) (hpos : Positive C S) (n : New) (c : Control) (h' : Heap E)
    (hp : ∀ r ∈ n.refs, r < S.heap.next ∧ ∀ d ∈ S.ctls, own d ≠ some r) (h : Made C S n c h') :
    Inv (⟨S.cams, h', S.ctls ++ [c]⟩ : State κ E) := by
  have hI' := ext_inv S hI h' h.ext S.cams
  have get : ∀ (k : Nat) (d : Control), (S.ctls ++ [c])[k]? = some d → S.ctls[k]? = some d ∨ (k = S.ctls.length ∧ d = c) := by
    intro k d hd
    rcases lt_trichotomy k S.ctls.length with hk | hk | hk
    · rw [List.getElem?_append_left hk] at hd; exact Or.inl hd
    · subst hk
      rw [List.getElem?_append_right (le_refl _)] at hd
      simp at hd
      exact Or.inr ⟨rfl, hd.symm⟩
    · rw [List.getElem?_eq_none (by simp; omega)] at hd; cases hd
  refine ⟨?_, ?_, ?_, ?_, ?_, ?_, ?_⟩
  · intro i d hd x hx
    rcases get i d hd with hd' | ⟨rfl, rfl⟩
    · exact hI'.lt i d hd' x hx
    · exact h.lt x hx
  · intro i d hd x hx
    rcases get i d hd with hd' | ⟨rfl, rfl⟩
    · exact hI'.pos i d hd' x hx
    · rw [h.size x hx]; exact hpos _
  · intro i c0 c1 u0 u1 z0 z1 hd
    rcases get i _ hd with hd | ⟨rfl, he⟩
    · exact hI'.dist i _ _ _ _ _ _ hd
    · exact h.dist _ _ _ _ _ _ he.symm
  · intro i d r hd ho
    rcases get i d hd with hd' | ⟨rfl, rfl⟩
    · exact hI'.ownLt i d r hd' ho
    · exact (h.own r ho).2.1
  · intro i k d e r hd ho he x hx
    rcases get i d hd with hd' | ⟨rfl, rfl⟩
    · rcases get k e he with he' | ⟨rfl, rfl⟩
      · exact hI'.priv i k d e r hd' ho he' x hx
      · rintro rfl
        rcases h.src x hx with hs | hs
        · exact (hp _ hs).2 d (List.mem_iff_getElem?.2 ⟨i, hd'⟩) ho
        · have := hI.ownLt i d _ hd' ho
          omega
    · rcases get k e he with he' | ⟨rfl, rfl⟩
      · have := hI.lt k e he' x hx
        have := (h.own r ho).1
        omega
      · exact (h.own r ho).2.2.1 x hx
  · intro i k d e r hd ho he hoe
    rcases get i d hd with hd' | ⟨rfl, rfl⟩
    · rcases get k e he with he' | ⟨rfl, rfl⟩
      · exact hI'.uniq i k d e r hd' ho he' hoe
      · have := hI.ownLt i d r hd' ho
        have := (h.own r hoe).1
        omega
    · rcases get k e he with he' | ⟨rfl, rfl⟩
      · have := hI.ownLt k e r he' hoe
        have := (h.own r ho).1
        omega
      · rfl
  · intro i d r hd ho
    rcases get i d hd with hd' | ⟨rfl, rfl⟩
    · exact hI'.merged i d r hd' ho
    · exact (h.own r ho).2.2.2

/-! ### Steps and histories -/

private theorem step_inv (C : CamOps κ σ) (S : State κ E) (hI : Inv S) (hpos : Positive C S) (o : Op E σ) (hp : Proper S o)
    (hpos' : Positive C (step C S o)) : Inv (step C S o) := by
  cases o with
  | array l => exact ext_inv S hI _ (alloc_ext _ _) S.cams
  | new n =>
    simp only [step]
    cases e : construct C S n with
    | error er => exact hI
    | ok t => exact made_inv C S hI hpos n t.1 t.2 hp (construct_made C S n t.1 t.2 (fun r hr => (hp r hr).1) e)
  | camResize j a =>
    simp only [step]
    cases e : resizeCam C S.cams j (some a) with
    | error er => exact hI
    | ok cams => exact ext_inv S hI _ (Ext.rfl' _) cams
  | resize i a =>
    cases hc : S.ctls[i]? with
    | none =>
      have : step C S (.resize i a) = S := by simp [step, resize, hc]
      rw [this]; exact hI
    | some c =>
      obtain ⟨c', h⟩ := resize_changed C S hI i c hc a hpos'
      exact changed_inv S _ hI i c c' hc h

/-- The control at `i` has the arrays `O`, given with their cameras and the sizes of these at the time, scaled. -/
private def At (S : State κ E) (i : Nat) (O : List (Nat × Sz × List (Pt E))) : Prop :=
  ∃ c, S.ctls[i]? = some c ∧ List.Forall₂ (fun x o => x.1 = o.1 ∧ S.heap.arr x.2.2 = scalePts (scaleOf x.2.1 o.2.1) o.2.2) (shared c) O

private theorem at_ext (S : State κ E) (hI : Inv S) (i : Nat) (O : List (Nat × Sz × List (Pt E))) (h : At S i O)
    (S' : State κ E) (hc : ∀ c, S.ctls[i]? = some c → S'.ctls[i]? = some c ∧ ∀ x ∈ shared c, S'.heap.arr x.2.2 = S.heap.arr x.2.2) :
    At S' i O := by
  obtain ⟨c, h1, h2⟩ := h
  refine ⟨c, (hc c h1).1, ?_⟩
  rw [List.forall₂_iff_get] at h2 ⊢
  refine ⟨h2.1, ?_⟩
  intro k hk1 hk2
  obtain ⟨a, b⟩ := h2.2 k hk1 hk2
  exact ⟨a, by rw [(hc c h1).2 _ (List.get_mem _ _)]; exact b⟩

/-- Operations other than resizing the control itself leave it and its arrays alone. -/
private theorem step_frame (C : CamOps κ σ) (S : State κ E) (hI : Inv S) (o : Op E σ) (hp : Proper S o)
    (hpos' : Positive C (step C S o)) (i : Nat) (ho : ∀ a, o ≠ .resize i a) (c : Control) (hc : S.ctls[i]? = some c) :
    (step C S o).ctls[i]? = some c ∧ ∀ x ∈ shared c, (step C S o).heap.arr x.2.2 = S.heap.arr x.2.2 := by
  cases o with
  | array l => exact ⟨hc, fun x hx => alloc_arr _ _ _ (hI.lt i c hc x hx)⟩
  | new n =>
    simp only [step]
    cases e : construct C S n with
    | error er => exact ⟨hc, fun _ _ => rfl⟩
    | ok t =>
      have hm := construct_made C S n t.1 t.2 (fun r hr => (hp r hr).1) e
      refine ⟨?_, fun x hx => hm.ext.2 _ (hI.lt i c hc x hx)⟩
      have hi : i < S.ctls.length := by
        by_contra h
        rw [List.getElem?_eq_none (by omega)] at hc; cases hc
      show (S.ctls ++ [t.1])[i]? = some c
      rw [List.getElem?_append_left hi]; exact hc
  | camResize j a =>
    simp only [step]
    cases e : resizeCam C S.cams j (some a) with
    | error er => exact ⟨hc, fun _ _ => rfl⟩
    | ok cams => exact ⟨hc, fun _ _ => rfl⟩
  | resize k a =>
    have hki : k ≠ i := by rintro rfl; exact ho a rfl
    cases hd : S.ctls[k]? with
    | none =>
      have : step C S (.resize k a) = S := by simp [step, resize, hd]
      rw [this]; exact ⟨hc, fun _ _ => rfl⟩
    | some d =>
      obtain ⟨c', h⟩ := resize_changed C S hI k d hd a hpos'
      refine ⟨?_, ?_⟩
      · have := h.ctls
        show (resize C S k a).2.ctls[i]? = some c
        rw [this, List.getElem?_set_ne hki]; exact hc
      · intro x hx
        refine h.frame _ (hI.lt i c hc x hx) ?_
        intro hh
        exact hI.priv k i d c _ hd hh hc x hx rfl

private theorem step_at (C : CamOps κ σ) (S : State κ E) (hI : Inv S) (o : Op E σ) (hp : Proper S o)
    (hpos' : Positive C (step C S o)) (i : Nat) (O : List (Nat × Sz × List (Pt E))) (h : At S i O) : At (step C S o) i O := by
  by_cases ho : ∃ a, o = .resize i a
  · obtain ⟨a, rfl⟩ := ho
    obtain ⟨c, hc, hO⟩ := h
    obtain ⟨c', hh⟩ := resize_changed C S hI i c hc a hpos'
    have hi : i < S.ctls.length := by
      by_contra h
      rw [List.getElem?_eq_none (by omega)] at hc; cases hc
    refine ⟨c', ?_, ?_⟩
    · show (resize C S i a).2.ctls[i]? = _
      rw [hh.ctls]; simp [hi]
    · have hs := hh.slots
      rw [List.forall₂_iff_get] at hO hs ⊢
      refine ⟨by rw [← hs.1]; exact hO.1, ?_⟩
      intro k h1 h2
      have h0 : k < (shared c).length := by rw [hs.1]; exact h1
      obtain ⟨a1, a2⟩ := hO.2 k h0 h2
      obtain ⟨b1, _, _, b2, _⟩ := hs.2 k h0 h1
      obtain ⟨p1, p2⟩ := hI.pos i c hc _ (List.get_mem _ ⟨k, h0⟩)
      refine ⟨by rw [b1]; exact a1, ?_⟩
      show (resize C S i a).2.heap.arr _ = _
      rw [b2, a2, scale_scale _ _ _ p1 p2]
  · push Not at ho
    exact at_ext S hI i O h _ fun c hc => step_frame C S hI o hp hpos' i ho c hc

private theorem allowed_pos (C : CamOps κ σ) (S : State κ E) (os : List (Op E σ)) (h : Allowed C S os) : Positive C S := by
  cases os with
  | nil => exact h
  | cons o os => exact h.1

private theorem run_append (C : CamOps κ σ) (S : State κ E) (a b : List (Op E σ)) : run C S (a ++ b) = run C (run C S a) b := by
  induction a generalizing S with
  | nil => rfl
  | cons o a ih => exact ih _

private theorem allowed_append (C : CamOps κ σ) (S : State κ E) (a b : List (Op E σ)) (h : Allowed C S (a ++ b)) :
    Allowed C S a ∧ Allowed C (run C S a) b := by
  induction a generalizing S with
  | nil => exact ⟨allowed_pos C S b h, h⟩
  | cons o a ih =>
    obtain ⟨h1, h2, h3⟩ := h
    obtain ⟨i1, i2⟩ := ih _ h3
    exact ⟨⟨h1, h2, i1⟩, i2⟩

private theorem run_inv (C : CamOps κ σ) (S : State κ E) (hI : Inv S) (os : List (Op E σ)) (h : Allowed C S os) :
    Inv (run C S os) := by
  induction os generalizing S with
  | nil => exact hI
  | cons o os ih =>
    obtain ⟨h1, h2, h3⟩ := h
    exact ih _ (step_inv C S hI h1 o h2 (allowed_pos C _ _ h3)) h3

private theorem run_at (C : CamOps κ σ) (S : State κ E) (hI : Inv S) (os : List (Op E σ)) (h : Allowed C S os) (i : Nat)
    (O : List (Nat × Sz × List (Pt E))) (hO : At S i O) : At (run C S os) i O := by
  induction os generalizing S with
  | nil => exact hO
  | cons o os ih =>
    obtain ⟨h1, h2, h3⟩ := h
    exact ih _ (step_inv C S hI h1 o h2 (allowed_pos C _ _ h3)) h3 (step_at C S hI o h2 (allowed_pos C _ _ h3) i O hO)

private theorem start_inv (cams : Nat → κ) : Inv (start cams : State κ E) := by
  refine ⟨?_, ?_, ?_, ?_, ?_, ?_, ?_⟩ <;> intros <;> simp_all [start]

/-- A resize that returns leaves the control at the size of its cameras. -/
private theorem resize_size (C : CamOps κ σ) (S : State κ E) (hI : Inv S) (i : Nat) (a : Option σ)
    (h : (resize C S i a).1 = .ok ()) :
    ∀ c, (resize C S i a).2.ctls[i]? = some c → ∀ x ∈ shared c, x.2.1 = C.imgsz ((resize C S i a).2.cams x.1) := by
  unfold resize at h ⊢
  cases hc : S.ctls[i]? with
  | none => rw [hc] at h; cases h
  | some c =>
    have hi : i < S.ctls.length := by
      by_contra h
      rw [List.getElem?_eq_none (by omega)] at hc; cases hc
    rw [hc] at h
    cases c with
    | points cam uv z =>
      simp only [resizePoints] at h ⊢
      cases e : resizeCam C S.cams cam a with
      | error er => rw [e] at h; cases h
      | ok cams =>
        intro c' hc' x hx
        simp [hi] at hc'
        subst hc'
        simp [shared] at hx
        subst hx
        rfl
    | lines cam uvs uv z =>
      simp only [resizeLines] at h ⊢
      cases e : resizeCam C S.cams cam a with
      | error er => rw [e] at h; cases h
      | ok cams =>
        simp only
        split
        all_goals
          intro c' hc' x hx
          simp [hi] at hc'
          subst hc'
          simp only [shared, List.mem_map] at hx
          obtain ⟨r, _, rfl⟩ := hx
          rfl
    | matches_ c0 c1 u0 u1 z0 z1 =>
      have hd := hI.dist i _ _ _ _ _ _ hc
      have l0 := hI.lt i _ hc (c0, z0, u0) (by simp [shared])
      have l1 := hI.lt i _ hc (c1, z1, u1) (by simp [shared])
      have p0 := hI.pos i _ hc (c0, z0, u0) (by simp [shared])
      have p1 := hI.pos i _ hc (c1, z1, u1) (by simp [shared])
      simp only [resizeMatches] at h ⊢
      cases e : resizeSide C S.cams S.heap c0 u0 z0 a with
      | error er => rw [e] at h; cases h
      | ok t =>
        obtain ⟨cams, hp, r0, y0⟩ := t
        obtain ⟨e1, b1, o1, a1, q1⟩ := side_spec C _ _ _ _ _ p0 l0 _ _ _ _ _ e
        rw [e] at h
        simp only at h ⊢
        cases e' : resizeSide C cams hp c1 u1 z1 a with
        | error er => rw [e'] at h; cases h
        | ok t =>
          obtain ⟨cams', hp', r1, y1⟩ := t
          obtain ⟨e2, b2, o2, a2, q2⟩ := side_spec C _ _ _ _ _ p1 (lt_of_lt_of_le l1 e1.1) _ _ _ _ _ e'
          have hk : cams' c0 = cams c0 := resizeCam_other C _ _ _ _ a hd (side_cams C _ _ _ _ _ _ _ _ _ _ e')
          intro c' hc' x hx
          simp [hi] at hc'
          subst hc'
          simp [shared] at hx
          rcases hx with rfl | rfl
          · simp only; rw [hk]; exact q1
          · exact q2

/-! ### C69, C70 -/

/-- C69. However a program came to make a control (after any history `pre`), and whatever resizing of cameras and controls
and making of further controls follows (`ops`, including calls that raise): once the control is resized, its image
coordinates are those given to its constructor, at the same relative position in the current image of their camera. -/
theorem controls_keep_position (C : CamOps κ σ) (cams : Nat → κ) (pre : List (Op E σ)) (n : New) (ops : List (Op E σ))
    (a : Option σ) (i : Nat) (S S3 : State κ E) (hS : run C (start cams) pre = S) (hi : S.ctls.length = i)
    (hmade : ∃ t, construct C S n = .ok t) (hrun : run C (start cams) (pre ++ .new n :: ops ++ [.resize i a]) = S3)
    (hallow : Allowed C (start cams) (pre ++ .new n :: ops ++ [.resize i a]))
    (hret : (resize C (run C S (.new n :: ops)) i a).1 = .ok ()) :
    ∃ ctl, S3.ctls[i]? = some ctl ∧ coords S3 ctl = (n.given S.heap).map fun g =>
      (g.1, g.2.map (moved (C.imgsz (S.cams g.1)) (C.imgsz (S3.cams g.1)))) := by
  rw [List.append_assoc] at hrun hallow
  obtain ⟨A1, A2⟩ := allowed_append C _ _ _ hallow
  rw [run_append] at hrun
  have hI := run_inv C _ (start_inv cams) _ A1
  rw [hS] at A2 hrun hI
  obtain ⟨P1, P2, A3⟩ := A2
  change Allowed C (step C S (.new n)) (ops ++ [.resize i a]) at A3
  obtain ⟨t, ht⟩ := hmade
  have hm := construct_made C S n t.1 t.2 (fun r hr => (P2 r hr).1) ht
  have hstep : step C S (.new n) = ⟨S.cams, t.2, S.ctls ++ [t.1]⟩ := by simp [step, ht]
  have hI1 := step_inv C S hI P1 (.new n) P2 (allowed_pos C _ _ A3)
  have hat : At (step C S (.new n)) i ((n.given S.heap).map fun g => (g.1, C.imgsz (S.cams g.1), g.2)) := by
    rw [hstep]
    refine ⟨t.1, by subst hi; simp, ?_⟩
    rw [← hm.slots, List.map_map, List.forall₂_map_right_iff, List.forall₂_same]
    intro x hx
    refine ⟨rfl, ?_⟩
    show t.2.arr x.2.2 = scalePts (scaleOf x.2.1 (C.imgsz (S.cams x.1))) (t.2.arr x.2.2)
    rw [hm.size x hx, scale_self _ (P1 _).1 (P1 _).2]
  have hrun' : run C (step C S (.new n)) (ops ++ [.resize i a]) = S3 := hrun
  have hat3 := run_at C _ hI1 _ A3 i _ hat
  rw [hrun'] at hat3
  obtain ⟨B1, B2⟩ := allowed_append C _ _ _ A3
  have hI2 := run_inv C _ hI1 _ B1
  obtain ⟨ctl, hc, hO⟩ := hat3
  refine ⟨ctl, hc, ?_⟩
  rw [run_append] at hrun'
  have hS3 : (resize C (run C (step C S (.new n)) ops) i a).2 = S3 := hrun'
  have hsz := resize_size C _ hI2 i a hret
  rw [hS3] at hsz
  have hsz := hsz ctl hc
  rw [coords_eq]
  rw [List.forall₂_map_right_iff, List.forall₂_iff_get] at hO
  refine List.ext_getElem (by simpa using hO.1) ?_
  intro k h1 h2
  rw [List.length_map] at h1 h2
  obtain ⟨c1, c2⟩ := hO.2 k h1 h2
  rw [List.getElem_map, List.getElem_map]
  have hz := hsz _ (List.getElem_mem h1)
  simp only [List.get_eq_getElem] at c1 c2
  ext1
  · exact c1
  · simp only
    rw [c2, hz, c1]
    rfl

/-- C69. Between its own resizes, no operation on cameras or other controls changes the coordinates of a control. -/
theorem controls_untouched (C : CamOps κ σ) (cams : Nat → κ) (pre : List (Op E σ)) (o : Op E σ) (i : Nat) (ctl : Control)
    (hallow : Allowed C (start cams) (pre ++ [o])) (ho : ∀ a, o ≠ .resize i a)
    (hc : (run C (start cams) pre).ctls[i]? = some ctl) :
    (run C (start cams) (pre ++ [o])).ctls[i]? = some ctl ∧
    coords (run C (start cams) (pre ++ [o])) ctl = coords (run C (start cams) pre) ctl := by
  obtain ⟨A1, A2⟩ := allowed_append C _ _ _ hallow
  have hI := run_inv C _ (start_inv cams) _ A1
  obtain ⟨_, P2, A3⟩ := A2
  rw [run_append]
  obtain ⟨h1, h2⟩ := step_frame C _ hI o P2 A3 i ho ctl hc
  refine ⟨h1, ?_⟩
  rw [coords_eq, coords_eq]
  refine List.map_congr_left ?_
  intro x hx
  exact congrArg (Prod.mk x.1) (h2 x hx)

/-- C69. The merged image points of lines (`uv`, what `observed` returns) stay the points of its lines (`uvs`). -/
theorem lines_merged (C : CamOps κ σ) (cams : Nat → κ) (ops : List (Op E σ)) (hallow : Allowed C (start cams) ops)
    (i cam : Nat) (uvs : List Nat) (uv : Nat) (z : Sz) (S : State κ E) (hS : run C (start cams) ops = S)
    (hc : S.ctls[i]? = some (.lines cam uvs uv z)) : S.heap.arr uv = (uvs.map S.heap.arr).flatten := by
  have hI := run_inv C _ (start_inv cams) _ hallow
  rw [hS] at hI
  rw [hI.merged i _ uv hc rfl]
  simp only [shared, List.flatMap_map]
  rfl

private theorem step_keeps (C : CamOps κ σ) (S : State κ E) (hI : Inv S) (o : Op E σ) (hp : Proper S o)
    (hpos' : Positive C (step C S o)) (r : Nat) (hr : r < S.heap.next) (hno : ∀ (i : Nat) c, S.ctls[i]? = some c → own c ≠ some r) :
    r < (step C S o).heap.next ∧ (step C S o).heap.arr r = S.heap.arr r ∧
    ∀ (i : Nat) c, (step C S o).ctls[i]? = some c → own c ≠ some r := by
  cases o with
  | array l => exact ⟨lt_of_lt_of_le hr (alloc_ext S.heap l).1, alloc_arr _ _ _ hr, hno⟩
  | new n =>
    simp only [step]
    cases e : construct C S n with
    | error er => exact ⟨hr, rfl, hno⟩
    | ok t =>
      have hm := construct_made C S n t.1 t.2 (fun r hr => (hp r hr).1) e
      refine ⟨lt_of_lt_of_le hr hm.ext.1, hm.ext.2 r hr, ?_⟩
      intro i c hc
      have hc' : (S.ctls ++ [t.1])[i]? = some c := hc
      rcases lt_or_ge i S.ctls.length with hi | hi
      · rw [List.getElem?_append_left hi] at hc'
        exact hno i c hc'
      · rw [List.getElem?_append_right hi] at hc'
        have : c = t.1 := by
          cases hk : i - S.ctls.length with
          | zero => rw [hk] at hc'; simpa using hc'.symm
          | succ m => rw [hk] at hc'; simp at hc'
        subst this
        intro ho
        have := (hm.own r ho).1
        omega
  | camResize j a =>
    simp only [step]
    cases e : resizeCam C S.cams j (some a) with
    | error er => exact ⟨hr, rfl, hno⟩
    | ok cams => exact ⟨hr, rfl, hno⟩
  | resize k a =>
    cases hd : S.ctls[k]? with
    | none =>
      have : step C S (.resize k a) = S := by simp [step, resize, hd]
      rw [this]; exact ⟨hr, rfl, hno⟩
    | some d =>
      obtain ⟨c', h⟩ := resize_changed C S hI k d hd a hpos'
      refine ⟨lt_of_lt_of_le hr h.next, h.frame r hr (hno k d hd), ?_⟩
      intro i c hc
      have hc' : (resize C S k a).2.ctls[i]? = some c := hc
      rw [h.ctls, List.getElem?_set] at hc'
      split at hc'
      · split at hc'
        · cases hc'
          rw [h.same]
          exact hno k d hd
        · cases hc'
      · exact hno i c hc'

/-- C70. Whatever a program does with controls and cameras, an array that it made keeps its values, even if controls were
made from it. -/
theorem arrays_kept (C : CamOps κ σ) (cams : Nat → κ) (pre : List (Op E σ)) (l : List (Pt E)) (ops : List (Op E σ))
    (hallow : Allowed C (start cams) (pre ++ .array l :: ops)) :
    (run C (start cams) (pre ++ .array l :: ops)).heap.arr (run C (start cams) pre).heap.next = l := by
  obtain ⟨A1, A2⟩ := allowed_append C _ _ _ hallow
  have hI := run_inv C _ (start_inv cams) _ A1
  obtain ⟨P1, P2, A3⟩ := A2
  rw [run_append]
  have hI1 := step_inv C _ hI P1 (.array l) P2 (allowed_pos C _ _ A3)
  show (run C (step C (run C (start cams) pre) (.array l)) ops).heap.arr _ = l
  generalize run C (start cams) pre = S at *
  have key : ∀ (os : List (Op E σ)) (T : State κ E), Inv T → Allowed C T os → ∀ r, r < T.heap.next →
      (∀ (i : Nat) c, T.ctls[i]? = some c → own c ≠ some r) → (run C T os).heap.arr r = T.heap.arr r := by
    intro os
    induction os with
    | nil => intro T _ _ r _ _; rfl
    | cons o os ih =>
      intro T hT hA r hr hno
      obtain ⟨Q1, Q2, Q3⟩ := hA
      obtain ⟨k1, k2, k3⟩ := step_keeps C T hT o Q2 (allowed_pos C _ _ Q3) r hr hno
      rw [← k2]
      exact ih _ (step_inv C T hT Q1 o Q2 (allowed_pos C _ _ Q3)) Q3 r k1 k3
  rw [key ops _ hI1 A3 S.heap.next (by simp [step, Heap.alloc]) ?_]
  · simp [step, Heap.alloc]
  · intro i c hc ho
    have := hI.ownLt i c _ hc ho
    omega

/-! ### Cases -/

/-- A camera that is only its image size, resized by a factor of its size; a result without pixels raises. -/
def sizeCam : CamOps Sz (ℚ × ℚ) where
  imgsz := id
  resize z a := if 0 < a.1 * z.1 ∧ 0 < a.2 * z.2 ∧ a.1 * z.1 = (a.1 * z.1).num.toNat ∧ a.2 * z.2 = (a.2 * z.2).num.toNat then
    .ok ((a.1 * z.1).num.toNat, (a.2 * z.2).num.toNat) else .error .valueError

/-- Two cameras of 10 by 20 pixels. -/
def twoCams : Nat → Sz := fun _ => (10, 20)

/-- Points, lines and matches made from the same array, cameras resized between and by controls. -/
def demoOps : List (Op ℚ (ℚ × ℚ)) :=
  [.array [(1, 2), (3, 4)], .array [(5, 6)], .new (.points 0 (0, true)), .new (.lines 0 [(0, true), (1, false)]), .camResize 0 (2, 2),
   .new (.matches_ 0 1 (0, true) (0, false)), .resize 2 (some (1 / 2, 1 / 2)), .resize 0 (some (3, 3)), .camResize 1 (1 / 3, 1)]

/-- The coordinates of a control after a history. -/
def after (ops : List (Op ℚ (ℚ × ℚ))) (i : Nat) : List (Nat × List (Pt ℚ)) :=
  ((run sizeCam (start twoCams) ops).ctls[i]?.map (coords (run sizeCam (start twoCams) ops))).getD []

example : after demoOps 0 = [(0, [(3, 6), (9, 12)])] := by decide +kernel
example : after demoOps 1 = [(0, [(1, 2), (3, 4)]), (0, [(5, 6)])] := by decide +kernel
example : after (demoOps ++ [.resize 1 none]) 1 = [(0, [(3, 6), (9, 12)]), (0, [(15, 18)])] := by decide +kernel
example : after (demoOps ++ [.resize 2 none]) 2 = [(0, [(3 / 2, 3), (9 / 2, 6)]), (1, [(1 / 2, 1), (3 / 2, 2)])] := by decide +kernel
example : (run sizeCam (start twoCams) demoOps).heap.arr 0 = [((1 : ℚ), (2 : ℚ)), (3, 4)] := by decide +kernel

private theorem sizeCam_pos (S : State Sz ℚ) (h : Positive sizeCam S) (o : Op ℚ (ℚ × ℚ)) : Positive sizeCam (step sizeCam S o) := by
  have hz : ∀ (cams : Nat → Sz) (j : Nat) (a : Option (ℚ × ℚ)) (cams' : Nat → Sz), (∀ j, 0 < (cams j).1 ∧ 0 < (cams j).2) →
      resizeCam sizeCam cams j a = .ok cams' → ∀ j, 0 < (cams' j).1 ∧ 0 < (cams' j).2 := by
    intro cams j a cams' hp he
    cases a with
    | none => cases he; exact hp
    | some a =>
      simp only [resizeCam, sizeCam] at he
      split at he
      · cases he
      · rename_i k hk
        split at hk
        · rename_i hq
          cases hk
          cases he
          intro i
          simp only
          split
          · obtain ⟨q1, q2, _⟩ := hq
            have r1 := Rat.num_pos.2 q1
            have r2 := Rat.num_pos.2 q2
            exact ⟨by simp only; omega, by simp only; omega⟩
          · exact hp i
        · cases hk
  cases o with
  | array l => exact h
  | new n =>
    simp only [step]
    cases e : construct sizeCam S n <;> exact h
  | camResize j a =>
    simp only [step]
    cases e : resizeCam sizeCam S.cams j (some a) with
    | error er => exact h
    | ok cams => exact hz _ _ _ _ h e
  | resize i a =>
    simp only [step, resize]
    cases hc : S.ctls[i]? with
    | none => exact h
    | some c =>
      cases c with
      | points cam uv z =>
        simp only [resizePoints]
        cases e : resizeCam sizeCam S.cams cam a with
        | error er => exact h
        | ok cams => exact hz _ _ _ _ h e
      | lines cam uvs uv z =>
        simp only [resizeLines]
        cases e : resizeCam sizeCam S.cams cam a with
        | error er => exact h
        | ok cams =>
          simp only
          split <;> exact hz _ _ _ _ h e
      | matches_ c0 c1 u0 u1 z0 z1 =>
        simp only [resizeMatches]
        cases e : resizeSide sizeCam S.cams S.heap c0 u0 z0 a with
        | error er => exact h
        | ok t =>
          obtain ⟨cams, hp, r0, y0⟩ := t
          have h1 := hz _ _ _ _ h (side_cams _ _ _ _ _ _ _ _ _ _ _ e)
          simp only
          cases e' : resizeSide sizeCam cams hp c1 u1 z1 a with
          | error er => exact h1
          | ok t =>
            obtain ⟨cams', hp', r1, y1⟩ := t
            exact hz _ _ _ _ h1 (side_cams _ _ _ _ _ _ _ _ _ _ _ e')

/-- The history above and a resize of the lines. -/
def demoAll : List (Op ℚ (ℚ × ℚ)) := demoOps ++ [.resize 1 none]

/-- The hypotheses of C69 and C70 hold of the history above. -/
example : Allowed sizeCam (start twoCams) demoAll := by
  have hp : Positive sizeCam (start twoCams : State Sz ℚ) := fun j => (by decide : 0 < (10, 20).1 ∧ 0 < (10, 20).2)
  have key : ∀ (os : List (Op ℚ (ℚ × ℚ))) (S : State Sz ℚ), Positive sizeCam S →
      (∀ a b o, os = a ++ o :: b → Proper (run sizeCam S a) o) → Allowed sizeCam S os := by
    intro os
    induction os with
    | nil => intro S h _; exact h
    | cons o os ih =>
      intro S h hq
      refine ⟨h, hq [] os o rfl, ih _ (sizeCam_pos S h o) ?_⟩
      intro a b o' he
      exact hq (o :: a) b o' (by rw [he]; rfl)
  have hd : ∀ n, n < 10 → ∀ c, demoAll[n]? = some (.new c) → ∀ r ∈ c.refs,
      r < (run sizeCam (start twoCams) (demoAll.take n)).heap.next ∧
      ∀ d ∈ (run sizeCam (start twoCams) (demoAll.take n)).ctls, own d ≠ some r := by
    intro n hn
    interval_cases n
    all_goals
      intro c hc
      simp only [demoAll, demoOps, List.cons_append, List.nil_append, List.getElem?_cons_zero, List.getElem?_cons_succ, Option.some.injEq,
        reduceCtorEq, Op.new.injEq] at hc
      try (subst hc; decide +kernel)
  refine key _ _ hp ?_
  intro a b o he
  cases o with
  | new c =>
    have hl : a.length < 10 := by
      have := congrArg List.length he
      simp [demoAll, demoOps] at this
      omega
    have ht : demoAll.take a.length = a := by rw [he]; simp
    have hg : demoAll[a.length]? = some (.new c) := by rw [he]; simp
    have := hd a.length hl c hg
    rw [ht] at this
    exact this
  | array l => trivial
  | camResize j a => trivial
  | resize i a => trivial

/-- C69 fails if the `uv` of a `Lines` object is passed to another control: it is changed in place by the lines, so that the
other control is scaled twice. -/
theorem lines_uv_shared_violated :
    after [.array [(1, 2)], .new (.lines 0 [(0, true)]), .new (.points 0 (1, true)), .camResize 0 (2, 2), .resize 0 none,
      .resize 1 none] 1 = [(0, [(4, 8)])] := by decide +kernel

/-- C69 fails for the rotation matches: their `resize` always raises, with its first camera already resized. -/
theorem rotation_resize_violated (C : CamOps κ σ) (cams : Nat → κ) (c0 : Nat) (a : Option σ) :
    (∃ e, (resizeRotation C cams c0 a).1 = .error e) ∧
    ((∀ b, a = some b → ∃ k, C.resize (cams c0) b = .ok k) → (resizeRotation C cams c0 a).1 = .error .attributeError) ∧
    ∀ k b, a = some b → C.resize (cams c0) b = .ok k → (resizeRotation C cams c0 a).2 c0 = k := by
  unfold resizeRotation
  refine ⟨?_, fun h => ?_, ?_⟩
  rotate_left
  · cases a with
    | none => simp [resizeCam]
    | some b =>
      obtain ⟨k, hk⟩ := h b rfl
      simp [resizeCam, hk]
  rotate_left
  · cases e : resizeCam C cams c0 a with
    | error er => exact ⟨er, rfl⟩
    | ok c => exact ⟨_, rfl⟩
  · rintro k b rfl hk
    simp [resizeCam, hk]

/-- C69 fails for matches converted (`to_type`) after their camera was resized, but not they: the new object takes the
old coordinates for those of the new size. -/
theorem to_type_violated :
    (toType sizeCam (run sizeCam (start twoCams) [.array [((1 : ℚ), (2 : ℚ))], .new (.matches_ 0 1 (0, true) (0, true)), .camResize 0 (2, 2)])
      (.matches_ 0 1 0 0 (10, 20) (10, 20))) = some (.matches_ 0 1 0 0 (20, 40) (10, 20)) ∧
    (resizeMatches sizeCam ⟨(run sizeCam (start twoCams) [.array [((1 : ℚ), (2 : ℚ))], .new (.matches_ 0 1 (0, true) (0, true)),
      .camResize 0 (2, 2)]).cams, ⟨fun _ => [((1 : ℚ), (2 : ℚ))], 1⟩, [.matches_ 0 1 0 0 (20, 40) (10, 20)]⟩ 0 0 1 0 0 (20, 40) (10, 20)
      none).2.heap.arr 0 = [(1, 2)] := by
  constructor <;> decide +kernel

end Glimpse.Controls
