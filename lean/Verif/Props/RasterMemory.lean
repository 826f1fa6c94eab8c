import Verif.Model.RasterMemory
import Mathlib.Tactic.Ring
import Mathlib.Tactic.NormNum
import Mathlib.Tactic.Linarith
import Mathlib.Data.List.GetD

/-!
C111: grids and rasters made from one another, and the memory they share.
-/
set_option autoImplicit false
set_option linter.unusedSimpArgs false
set_option linter.unusedSectionVars false

namespace Glimpse.RasterMemory

/-! ### Specification -/

/-- All arrays of an object. -/
def Obj.refs (b : Obj) : List Ref :=
  [b.xlim, b.ylim] ++ b.x.toList ++ b.y.toList ++ b.bigX.toList ++ b.bigY.toList ++ b.array.toList

/-- What can be seen of an object: size, limits, cached coordinates and values. -/
structure Seen where
  size : Nat × Nat
  xlim : List ℚ
  ylim : List ℚ
  x : Option (List ℚ)
  y : Option (List ℚ)
  bigX : Option (List ℚ)
  bigY : Option (List ℚ)
  array : Option (List ℚ)
deriving DecidableEq

/-- What is seen of an object now. -/
def look (m : Mem) (b : Obj) : Seen :=
  ⟨(b.nx, b.ny), b.xlim.get m, b.ylim.get m, b.x.map fun r => r.get m, b.y.map fun r => r.get m, b.bigX.map fun r => r.get m,
    b.bigY.map fun r => r.get m, b.array.map fun r => r.get m⟩

/-- What is seen of the object with a name. -/
def World.seen (w : World) (o : Nat) : Option Seen := (w.objs[o]?).map (look w.mem)

/-- Two objects have arrays in the same block of memory. -/
def World.Shares (w : World) (o p : Nat) : Prop :=
  ∃ a b, w.objs[o]? = some a ∧ w.objs[p]? = some b ∧ ∃ r ∈ a.refs, ∃ s ∈ b.refs, r.addr = s.addr

/-- All arrays are in memory. -/
def World.Sound (w : World) : Prop := ∀ b ∈ w.objs, ∀ r ∈ b.refs, r.addr < w.mem.length

/-- The world without objects. -/
def World.empty : World := ⟨[], []⟩

/-! ### Memory that is not touched -/

/-- An array outside of the protected blocks. -/
private def RefOk (A : Nat → Prop) (m : Mem) (r : Ref) : Prop := ¬ A r.addr ∧ r.addr < m.length

private def OptOk (A : Nat → Prop) (m : Mem) (r : Option Ref) : Prop := ∀ s, r = some s → RefOk A m s

/-- The protected blocks are kept. -/
private def Keep (A : Nat → Prop) (m m' : Mem) : Prop := m.length ≤ m'.length ∧ ∀ a, A a → m'.getD a [] = m.getD a []

private structure ObjOk (A : Nat → Prop) (m : Mem) (b : Obj) : Prop where
  xlim : RefOk A m b.xlim
  ylim : RefOk A m b.ylim
  x : OptOk A m b.x
  y : OptOk A m b.y
  bigX : OptOk A m b.bigX
  bigY : OptOk A m b.bigY
  array : OptOk A m b.array

variable {A : Nat → Prop} {m m' m'' : Mem} {b : Obj} {r : Ref}

private theorem objOk_iff : ObjOk A m b ↔ ∀ r ∈ b.refs, RefOk A m r := by
  unfold Obj.refs
  constructor
  · intro h r hr
    simp only [List.mem_append, List.mem_cons, List.not_mem_nil, or_false, Option.mem_toList, Option.mem_def] at hr
    rcases hr with ((((((rfl | rfl) | hr) | hr) | hr) | hr) | hr)
    · exact h.xlim
    · exact h.ylim
    · exact h.x _ hr
    · exact h.y _ hr
    · exact h.bigX _ hr
    · exact h.bigY _ hr
    · exact h.array _ hr
  · intro h
    exact ⟨h _ (by simp), h _ (by simp), fun s hs => h _ (by simp [hs]), fun s hs => h _ (by simp [hs]),
      fun s hs => h _ (by simp [hs]), fun s hs => h _ (by simp [hs]), fun s hs => h _ (by simp [hs])⟩

private theorem keep_refl : Keep A m m := ⟨le_refl _, fun _ _ => rfl⟩

private theorem Keep.trans (h : Keep A m m') (h' : Keep A m' m'') : Keep A m m'' :=
  ⟨h.1.trans h'.1, fun a ha => (h'.2 a ha).trans (h.2 a ha)⟩

private theorem RefOk.mono (h : RefOk A m r) (hk : Keep A m m') : RefOk A m' r := ⟨h.1, h.2.trans_le hk.1⟩

private theorem OptOk.mono {r : Option Ref} (h : OptOk A m r) (hk : Keep A m m') : OptOk A m' r := fun s hs => (h s hs).mono hk

private theorem ObjOk.mono (h : ObjOk A m b) (hk : Keep A m m') : ObjOk A m' b :=
  ⟨h.xlim.mono hk, h.ylim.mono hk, h.x.mono hk, h.y.mono hk, h.bigX.mono hk, h.bigY.mono hk, h.array.mono hk⟩

private theorem optOk_none : OptOk A m none := fun _ h => by cases h

private theorem optOk_some (h : RefOk A m r) : OptOk A m (some r) := fun s hs => by cases hs; exact h

/-- The protected blocks exist. -/
private def Below (A : Nat → Prop) (m : Mem) : Prop := ∀ a, A a → a < m.length

private theorem Below.mono (h : Below A m) (hk : Keep A m m') : Below A m' := fun a ha => (h a ha).trans_le hk.1

private theorem alloc_ok (hA : Below A m) (l : List ℚ) : RefOk A (alloc l m).2 (alloc l m).1 ∧ Keep A m (alloc l m).2 := by
  refine ⟨⟨fun h => absurd (hA _ h) (lt_irrefl _), by simp [alloc]⟩, by simp [alloc], fun a ha => ?_⟩
  simp only [alloc]
  rw [List.getD_append _ _ _ _ (hA a ha)]

private theorem modify_ok (h : RefOk A m r) (f : ℚ → ℚ) : Keep A m (r.modify f m) := by
  refine ⟨by simp [Ref.modify], fun a ha => ?_⟩
  have hne : r.addr ≠ a := fun e => h.1 (e ▸ ha)
  unfold Ref.modify
  simp only [List.getD_eq_getElem?_getD, List.getElem?_modify, if_neg hne]
  simp

private theorem addTo_ok {r : Option Ref} (h : OptOk A m r) (d : ℚ) : Keep A m (addTo r d m) := by
  cases r with
  | none => exact keep_refl
  | some r => exact modify_ok (h r rfl) _

private theorem shiftAxis_ok {lim : Ref} {x big : Option Ref} (hl : RefOk A m lim) (hx : OptOk A m x) (hb : OptOk A m big) (d : Option ℚ) :
    Keep A m (shiftAxis lim x big d m) := by
  cases d with
  | none => exact keep_refl
  | some d =>
    have k1 := addTo_ok (optOk_some hl) d
    have k2 := k1.trans (addTo_ok (hx.mono k1) d)
    exact k2.trans (addTo_ok (hb.mono k2) d)

private theorem cachedOr_ok {r : Option Ref} (hA : Below A m) (h : OptOk A m r) (l : List ℚ) :
    RefOk A (cachedOr r l m).2 (cachedOr r l m).1 ∧ Keep A m (cachedOr r l m).2 := by
  cases r with
  | none => exact alloc_ok hA l
  | some r => exact ⟨h r rfl, keep_refl⟩

private theorem subAxis_ok {x : Ref} (hA : Below A m) (h : RefOk A m x) (sel : List Nat) (d : ℚ) :
    RefOk A (subAxis x sel d m).2 (subAxis x sel d m).1.1 ∧ OptOk A (subAxis x sel d m).2 (subAxis x sel d m).1.2 ∧
      Keep A m (subAxis x sel d m).2 := by
  unfold subAxis
  simp only
  split
  · obtain ⟨h1, h2⟩ := alloc_ok hA [((x.slice sel).get m).headD 0 - d / 2, ((x.slice sel).get m).getLastD 0 + d / 2]
    exact ⟨h1, optOk_none, h2⟩
  · obtain ⟨h1, h2⟩ := alloc_ok hA [((x.slice sel).get m).headD 0 - (((x.slice sel).get m).getD 1 0 - ((x.slice sel).get m).getD 0 0) / 2,
      ((x.slice sel).get m).getLastD 0 + (((x.slice sel).get m).getD 1 0 - ((x.slice sel).get m).getD 0 0) / 2]
    exact ⟨h1, optOk_some (RefOk.mono (show RefOk A m (x.slice sel) from h) h2), h2⟩

private theorem assignXlim_ok (h : ObjOk A m b) (hr : RefOk A m r) : ObjOk A m (b.assignXlim r m') := by
  unfold Obj.assignXlim
  split
  · exact h
  · exact ⟨hr, h.ylim, optOk_none, h.y, optOk_none, h.bigY, h.array⟩

private theorem assignYlim_ok (h : ObjOk A m b) (hr : RefOk A m r) : ObjOk A m (b.assignYlim r m') := by
  unfold Obj.assignYlim
  split
  · exact h
  · exact ⟨h.xlim, hr, h.x, optOk_none, h.bigX, optOk_none, h.array⟩

private theorem assignArray_ok (h : ObjOk A m b) (hr : RefOk A m r) (nx ny : Nat) : ObjOk A m (b.assignArray r nx ny) := by
  unfold Obj.assignArray
  split
  · exact ⟨h.xlim, h.ylim, h.x, h.y, h.bigX, h.bigY, optOk_some hr⟩
  · exact ⟨h.xlim, h.ylim, optOk_none, optOk_none, optOk_none, optOk_none, optOk_some hr⟩

private theorem copyOf_ok (hA : Below A m) (b : Obj) : ObjOk A (copyOf m b).2 (copyOf m b).1 ∧ Keep A m (copyOf m b).2 := by
  unfold copyOf
  simp only
  obtain ⟨h1, k1⟩ := alloc_ok hA (b.xlim.get m)
  obtain ⟨h2, k2⟩ := alloc_ok (hA.mono k1) (b.ylim.get m)
  cases b.array with
  | none => exact ⟨⟨h1.mono k2, h2, optOk_none, optOk_none, optOk_none, optOk_none, optOk_none⟩, k1.trans k2⟩
  | some a =>
    obtain ⟨h3, k3⟩ := alloc_ok ((hA.mono k1).mono k2) (a.get m)
    exact ⟨⟨(h1.mono k2).mono k3, h2.mono k3, optOk_none, optOk_none, optOk_none, optOk_none, optOk_some h3⟩, (k1.trans k2).trans k3⟩

private theorem newOf_ok (hA : Below A m) (nx ny : Nat) (x0 x1 y0 y1 : ℚ) (values : Option (List ℚ)) :
    ObjOk A (newOf m nx ny x0 x1 y0 y1 values).2 (newOf m nx ny x0 x1 y0 y1 values).1 ∧ Keep A m (newOf m nx ny x0 x1 y0 y1 values).2 := by
  unfold newOf
  simp only
  obtain ⟨h1, k1⟩ := alloc_ok hA [x0, x1]
  obtain ⟨h2, k2⟩ := alloc_ok (hA.mono k1) [y0, y1]
  cases values with
  | none => exact ⟨⟨h1.mono k2, h2, optOk_none, optOk_none, optOk_none, optOk_none, optOk_none⟩, k1.trans k2⟩
  | some a =>
    obtain ⟨h3, k3⟩ := alloc_ok ((hA.mono k1).mono k2) a
    exact ⟨⟨(h1.mono k2).mono k3, h2.mono k3, optOk_none, optOk_none, optOk_none, optOk_none, optOk_some h3⟩, (k1.trans k2).trans k3⟩

/-! ### One operation -/

/-- What an operation on objects outside of protected memory does. -/
private structure Effect (A : Nat → Prop) (ops : List Nat) (w w' : World) : Prop where
  keep : Keep A w.mem w'.mem
  len : w.objs.length ≤ w'.objs.length
  objs : ∀ p c, w'.objs[p]? = some c → (p < w.objs.length ∧ p ∉ ops ∧ w.objs[p]? = some c) ∨ ((p ∈ ops ∨ w.objs.length ≤ p) ∧ ObjOk A w'.mem c)

private theorem effect_append (ops : List Nat) (w : World) (m' : Mem) (c : Obj) (hk : Keep A w.mem m') (hc : ObjOk A m' c)
    (ho : ∀ o ∈ ops, ∀ b, w.objs[o]? = some b → ObjOk A w.mem b) : Effect A ops w ⟨m', w.objs ++ [c]⟩ := by
  refine ⟨hk, by simp, fun p d hd => ?_⟩
  simp only at hd
  by_cases hp : p < w.objs.length
  · rw [List.getElem?_append_left hp] at hd
    by_cases hm : p ∈ ops
    · exact Or.inr ⟨Or.inl hm, (ho p hm d hd).mono hk⟩
    · exact Or.inl ⟨hp, hm, hd⟩
  · rw [List.getElem?_append_right (by omega)] at hd
    have : d = c := by
      have hz : p - w.objs.length = 0 := by
        by_contra hz
        rw [List.getElem?_eq_none (by simp; omega)] at hd
        cases hd
      rw [hz] at hd
      simpa using hd.symm
    subst this
    exact Or.inr ⟨Or.inr (by omega), hc⟩

private theorem effect_set (ops : List Nat) (w : World) (m' : Mem) (o : Nat) (c : Obj) (hoo : o ∈ ops) (hk : Keep A w.mem m') (hc : ObjOk A m' c)
    (ho : ∀ o ∈ ops, ∀ b, w.objs[o]? = some b → ObjOk A w.mem b) : Effect A ops w ⟨m', w.objs.set o c⟩ := by
  refine ⟨hk, by simp, fun p d hd => ?_⟩
  simp only at hd
  by_cases hp : p = o
  · subst hp
    have : d = c := by
      rw [List.getElem?_set] at hd
      simp only [if_true] at hd
      split at hd
      · exact (Option.some.inj hd).symm
      · cases hd
    subst this
    exact Or.inr ⟨Or.inl hoo, hc⟩
  · rw [List.getElem?_set_ne (fun e => hp e.symm)] at hd
    have hlt := (List.getElem?_eq_some_iff.1 hd).1
    by_cases hm : p ∈ ops
    · exact Or.inr ⟨Or.inl hm, (ho p hm d hd).mono hk⟩
    · exact Or.inl ⟨hlt, hm, hd⟩

private theorem effect_mem (ops : List Nat) (w : World) (m' : Mem) (hk : Keep A w.mem m')
    (ho : ∀ o ∈ ops, ∀ b, w.objs[o]? = some b → ObjOk A w.mem b) : Effect A ops w { w with mem := m' } := by
  refine ⟨hk, le_refl _, fun p d hd => ?_⟩
  simp only at hd
  have hlt := (List.getElem?_eq_some_iff.1 hd).1
  by_cases hm : p ∈ ops
  · exact Or.inr ⟨Or.inl hm, (ho p hm d hd).mono hk⟩
  · exact Or.inl ⟨hlt, hm, hd⟩

private theorem effect_refl (ops : List Nat) (w : World) (ho : ∀ o ∈ ops, ∀ b, w.objs[o]? = some b → ObjOk A w.mem b) : Effect A ops w w :=
  effect_mem ops w w.mem keep_refl ho

private theorem Effect.ok {ops : List Nat} {w w' : World} (h : Effect A ops w w') : ∀ o ∈ ops, ∀ b, w'.objs[o]? = some b → ObjOk A w'.mem b := by
  intro o ho b hb
  rcases h.objs o b hb with ⟨_, h2, _⟩ | ⟨_, h2⟩
  · exact absurd ho h2
  · exact h2

private theorem Effect.trans {ops : List Nat} {w w' w'' : World} (h : Effect A ops w w') (h' : Effect A ops w' w'') : Effect A ops w w'' := by
  refine ⟨h.keep.trans h'.keep, h.len.trans h'.len, fun p c hc => ?_⟩
  rcases h'.objs p c hc with ⟨h1, h2, h3⟩ | ⟨h1, h2⟩
  · rcases h.objs p c h3 with h4 | ⟨h4, h5⟩
    · exact Or.inl h4
    · exact Or.inr ⟨h4, h5.mono h'.keep⟩
  · refine Or.inr ⟨?_, h2⟩
    rcases h1 with h1 | h1
    · exact Or.inl h1
    · exact Or.inr (h.len.trans h1)

private theorem readx_effect (ops : List Nat) (w : World) (o : Nat) (b : Obj) (hoo : o ∈ ops) (hA : Below A w.mem)
    (hb : ObjOk A w.mem b) (ho : ∀ o ∈ ops, ∀ b, w.objs[o]? = some b → ObjOk A w.mem b) :
    Effect A ops w (w.readx o b).2 ∧ RefOk A (w.readx o b).2.mem (w.readx o b).1 ∧ ObjOk A (w.readx o b).2.mem { b with x := some (w.readx o b).1 } := by
  obtain ⟨h1, k1⟩ := cachedOr_ok hA hb.x (centersOf (b.xlim.get w.mem) b.nx)
  have hb' := hb.mono k1
  have hc : ObjOk A (cachedOr b.x (centersOf (b.xlim.get w.mem) b.nx) w.mem).2
      { b with x := some (cachedOr b.x (centersOf (b.xlim.get w.mem) b.nx) w.mem).1 } :=
    ⟨hb'.xlim, hb'.ylim, optOk_some h1, hb'.y, hb'.bigX, hb'.bigY, hb'.array⟩
  exact ⟨effect_set ops w _ o _ hoo k1 hc ho, h1, hc⟩

private theorem ready_effect (ops : List Nat) (w : World) (o : Nat) (b : Obj) (hoo : o ∈ ops) (hA : Below A w.mem)
    (hb : ObjOk A w.mem b) (ho : ∀ o ∈ ops, ∀ b, w.objs[o]? = some b → ObjOk A w.mem b) :
    Effect A ops w (w.ready o b).2 ∧ RefOk A (w.ready o b).2.mem (w.ready o b).1 ∧ ObjOk A (w.ready o b).2.mem { b with y := some (w.ready o b).1 } := by
  obtain ⟨h1, k1⟩ := cachedOr_ok hA hb.y (centersOf (b.ylim.get w.mem) b.ny)
  have hb' := hb.mono k1
  have hc : ObjOk A (cachedOr b.y (centersOf (b.ylim.get w.mem) b.ny) w.mem).2
      { b with y := some (cachedOr b.y (centersOf (b.ylim.get w.mem) b.ny) w.mem).1 } :=
    ⟨hb'.xlim, hb'.ylim, hb'.x, optOk_some h1, hb'.bigX, hb'.bigY, hb'.array⟩
  exact ⟨effect_set ops w _ o _ hoo k1 hc ho, h1, hc⟩

private theorem step_effect (w : World) (hA : Below A w.mem) (op : Op)
    (ho : ∀ o ∈ op.operands, ∀ b, w.objs[o]? = some b → ObjOk A w.mem b) : Effect A op.operands w (w.step op) := by
  cases op with
  | new nx ny x0 x1 y0 y1 values =>
    simp only [World.step]
    obtain ⟨h1, k1⟩ := newOf_ok hA nx ny x0 x1 y0 y1 values
    exact effect_append _ w _ _ k1 h1 ho
  | copy o =>
    simp only [World.step]
    cases hb : w.objs[o]? with
    | none => exact effect_refl _ w ho
    | some b =>
      obtain ⟨h1, k1⟩ := copyOf_ok hA b
      exact effect_append _ w _ _ k1 h1 ho
  | grid o =>
    simp only [World.step]
    cases hb : w.objs[o]? with
    | none => exact effect_refl _ w ho
    | some b =>
      have h := ho o (by simp [Op.operands]) b hb
      exact effect_append _ w w.mem _ keep_refl ⟨h.xlim, h.ylim, optOk_none, optOk_none, optOk_none, optOk_none, optOk_none⟩ ho
  | item o rows cols =>
    simp only [World.step]
    cases hb : w.objs[o]? with
    | none => exact effect_refl _ w ho
    | some b =>
      simp only
      cases ha : b.array with
      | none => exact effect_refl _ w ho
      | some a =>
        simp only [World.itemOf]
        have hoo : o ∈ (Op.item o rows cols).operands := by simp [Op.operands]
        have h := ho o hoo b hb
        obtain ⟨e1, r1, o1⟩ := readx_effect _ w o b hoo hA h ho
        obtain ⟨e2, r2, o2⟩ := ready_effect _ (w.readx o b).2 o { b with x := some (w.readx o b).1 } hoo (hA.mono e1.keep) o1 e1.ok
        have e12 := e1.trans e2
        refine e12.trans ?_
        generalize hw2 : ((w.readx o b).2.ready o { b with x := some (w.readx o b).1 }).2 = w2 at *
        have hA2 := hA.mono e12.keep
        obtain ⟨s1, s2, s3⟩ := subAxis_ok hA2 (r1.mono e2.keep) cols (cellSize (b.xlim.get w2.mem) b.nx * stepOf cols)
        obtain ⟨t1, t2, t3⟩ := subAxis_ok (hA2.mono s3) (r2.mono s3) rows (cellSize (b.ylim.get w2.mem) b.ny * stepOf rows)
        have hra : RefOk A w2.mem (a.slice (cellsOf b.nx rows cols)) := (h.array a ha).mono e12.keep
        exact effect_append _ w2 _ _ (s3.trans t3)
          ⟨s1.mono t3, t1, s2.mono t3, t2, optOk_none, optOk_none, optOk_some (hra.mono (s3.trans t3))⟩ e12.ok
  | wrap o =>
    simp only [World.step]
    cases hb : w.objs[o]? with
    | none => exact effect_refl _ w ho
    | some b =>
      simp only
      cases ha : b.array with
      | none => exact effect_refl _ w ho
      | some a =>
        simp only
        have h := ho o (by simp [Op.operands]) b hb
        obtain ⟨h1, k1⟩ := alloc_ok hA [0, (b.nx : ℚ)]
        obtain ⟨h2, k2⟩ := alloc_ok (hA.mono k1) [0, (b.ny : ℚ)]
        exact effect_append _ w _ _ (k1.trans k2)
          ⟨h1.mono k2, h2, optOk_none, optOk_none, optOk_none, optOk_none, optOk_some ((h.array a ha).mono (k1.trans k2))⟩ ho
  | resample o g samples =>
    simp only [World.step]
    cases hg : w.objs[g]? with
    | none => exact effect_refl _ w ho
    | some t =>
      simp only
      have hgg : g ∈ (Op.resample o g samples).operands := by simp [Op.operands]
      have hoo : o ∈ (Op.resample o g samples).operands := by simp [Op.operands]
      have h := ho g hgg t hg
      obtain ⟨e1, r1, o1⟩ := readx_effect _ w g t hgg hA h ho
      obtain ⟨e2, r2, o2⟩ := ready_effect _ (w.readx g t).2 g { t with x := some (w.readx g t).1 } hgg (hA.mono e1.keep) o1 e1.ok
      have e12 := e1.trans e2
      refine e12.trans ?_
      generalize hw2 : ((w.readx g t).2.ready g { t with x := some (w.readx g t).1 }).2 = w2 at *
      cases hb : w2.objs[o]? with
      | none => exact effect_refl _ w2 e12.ok
      | some b =>
        simp only
        have hb2 := e12.ok o hoo b hb
        obtain ⟨a1, k1⟩ := alloc_ok (hA.mono e12.keep) samples
        have ht := h.mono (e12.keep.trans k1)
        have hn := assignYlim_ok (m' := w2.mem) (assignXlim_ok (m' := w2.mem) (assignArray_ok (hb2.mono k1) a1 t.nx t.ny) ht.xlim) ht.ylim
        exact effect_set _ w2 _ o _ hoo k1
          ⟨hn.xlim, hn.ylim, optOk_some ((r1.mono e2.keep).mono k1), optOk_some (r2.mono k1), hn.bigX, hn.bigY, hn.array⟩ e12.ok
  | readx o =>
    simp only [World.step]
    cases hb : w.objs[o]? with
    | none => exact effect_refl _ w ho
    | some b =>
      have hoo : o ∈ (Op.readx o).operands := by simp [Op.operands]
      exact (readx_effect _ w o b hoo hA (ho o hoo b hb) ho).1
  | ready o =>
    simp only [World.step]
    cases hb : w.objs[o]? with
    | none => exact effect_refl _ w ho
    | some b =>
      have hoo : o ∈ (Op.ready o).operands := by simp [Op.operands]
      exact (ready_effect _ w o b hoo hA (ho o hoo b hb) ho).1
  | readX o =>
    simp only [World.step]
    cases hb : w.objs[o]? with
    | none => exact effect_refl _ w ho
    | some b =>
      simp only
      have hoo : o ∈ (Op.readX o).operands := by simp [Op.operands]
      obtain ⟨e1, r1, o1⟩ := readx_effect _ w o b hoo hA (ho o hoo b hb) ho
      refine e1.trans ?_
      generalize (w.readx o b).2 = w2 at *
      obtain ⟨c1, k1⟩ := cachedOr_ok (hA.mono e1.keep) o1.bigX (tileX ((w.readx o b).1.get w2.mem) b.ny)
      have o1' := o1.mono k1
      exact effect_set _ w2 _ o _ hoo k1 ⟨o1'.xlim, o1'.ylim, o1'.x, o1'.y, optOk_some c1, o1'.bigY, o1'.array⟩ e1.ok
  | readY o =>
    simp only [World.step]
    cases hb : w.objs[o]? with
    | none => exact effect_refl _ w ho
    | some b =>
      simp only
      have hoo : o ∈ (Op.readY o).operands := by simp [Op.operands]
      obtain ⟨e1, r1, o1⟩ := ready_effect _ w o b hoo hA (ho o hoo b hb) ho
      refine e1.trans ?_
      generalize (w.ready o b).2 = w2 at *
      obtain ⟨c1, k1⟩ := cachedOr_ok (hA.mono e1.keep) o1.bigY (tileY ((w.ready o b).1.get w2.mem) b.nx)
      have o1' := o1.mono k1
      exact effect_set _ w2 _ o _ hoo k1 ⟨o1'.xlim, o1'.ylim, o1'.x, o1'.y, o1'.bigX, optOk_some c1, o1'.array⟩ e1.ok
  | shift o dx dy dz =>
    simp only [World.step]
    cases hb : w.objs[o]? with
    | none => exact effect_refl _ w ho
    | some b =>
      simp only
      have h := ho o (by simp [Op.operands]) b hb
      have k1 := shiftAxis_ok h.xlim h.x h.bigX dx
      have h' := h.mono k1
      have k2 := k1.trans (shiftAxis_ok h'.ylim h'.y h'.bigY dy)
      cases dz with
      | none => exact effect_mem _ w _ k2 ho
      | some d => exact effect_mem _ w _ (k2.trans (addTo_ok (h.mono k2).array d)) ho
  | write o cells v =>
    simp only [World.step]
    cases hb : w.objs[o]? with
    | none => exact effect_refl _ w ho
    | some b =>
      simp only
      cases ha : b.array with
      | none => exact effect_refl _ w ho
      | some a =>
        have h := (ho o (by simp [Op.operands]) b hb).array a ha
        exact effect_mem _ w _ (modify_ok (r := a.slice cells) h _) ho
  | setXlim o a c =>
    simp only [World.step]
    cases hb : w.objs[o]? with
    | none => exact effect_refl _ w ho
    | some b =>
      have hoo : o ∈ (Op.setXlim o a c).operands := by simp [Op.operands]
      obtain ⟨a1, k1⟩ := alloc_ok hA [a, c]
      exact effect_set _ w _ o _ hoo k1 (assignXlim_ok ((ho o hoo b hb).mono k1) a1) ho
  | setYlim o a c =>
    simp only [World.step]
    cases hb : w.objs[o]? with
    | none => exact effect_refl _ w ho
    | some b =>
      have hoo : o ∈ (Op.setYlim o a c).operands := by simp [Op.operands]
      obtain ⟨a1, k1⟩ := alloc_ok hA [a, c]
      exact effect_set _ w _ o _ hoo k1 (assignYlim_ok ((ho o hoo b hb).mono k1) a1) ho
  | setArray o nx ny values =>
    simp only [World.step]
    cases hb : w.objs[o]? with
    | none => exact effect_refl _ w ho
    | some b =>
      have hoo : o ∈ (Op.setArray o nx ny values).operands := by simp [Op.operands]
      obtain ⟨a1, k1⟩ := alloc_ok hA values
      exact effect_set _ w _ o _ hoo k1 (assignArray_ok ((ho o hoo b hb).mono k1) a1 nx ny) ho

/-! ### Independence -/

private theorem look_keep (b : Obj) (m m' : Mem) (h : ∀ r ∈ b.refs, m'.getD r.addr [] = m.getD r.addr []) : look m' b = look m b := by
  have hg : ∀ r ∈ b.refs, r.get m' = r.get m := fun r hr => by unfold Ref.get; rw [h r hr]
  have ho : ∀ o : Option Ref, (∀ r, o = some r → r ∈ b.refs) → (o.map fun r => r.get m') = o.map fun r => r.get m := by
    intro o ho
    cases o with
    | none => rfl
    | some r => exact congrArg some (hg r (ho r rfl))
  unfold look
  rw [hg b.xlim (by simp [Obj.refs]), hg b.ylim (by simp [Obj.refs]), ho b.x (fun r hr => by simp [Obj.refs, hr]),
    ho b.y (fun r hr => by simp [Obj.refs, hr]), ho b.bigX (fun r hr => by simp [Obj.refs, hr]),
    ho b.bigY (fun r hr => by simp [Obj.refs, hr]), ho b.array (fun r hr => by simp [Obj.refs, hr])]

/-- C111: in every history from an empty world, all arrays are in memory. -/
theorem reachable_sound (ops : List Op) : (World.empty.run ops).Sound := by
  have key : ∀ w : World, w.Sound → (w.run ops).Sound := by
    induction ops with
    | nil => exact fun w h => h
    | cons op ops ih =>
      intro w hw
      refine ih (w.step op) ?_
      have hok : ∀ p b, w.objs[p]? = some b → ObjOk (fun _ => False) w.mem b :=
        fun p b hb => objOk_iff.2 fun r hr => ⟨fun h => h, hw b (List.mem_of_getElem? hb) r hr⟩
      have e := step_effect (A := fun _ => False) w (fun a ha => ha.elim) op (fun p _ b hb => hok p b hb)
      intro b hb r hr
      obtain ⟨p, hp⟩ := List.mem_iff_getElem?.1 hb
      rcases e.objs p b hp with ⟨_, _, h⟩ | ⟨_, h⟩
      · exact ((objOk_iff.1 ((hok p b h).mono e.keep)) r hr).2
      · exact (objOk_iff.1 h r hr).2
  exact key _ (fun b hb => by simp [World.empty] at hb)

/-- C111: objects that share no memory with those a history works on (and with those it makes) look the same after it as before:
limits, coordinates and values. -/
theorem untouched (w : World) (hw : w.Sound) (mine : Nat → Prop) (hs : ∀ o p, mine o → ¬ mine p → ¬ w.Shares o p) (ops : List Op)
    (ho : ∀ op ∈ ops, ∀ o ∈ op.operands, mine o ∨ w.objs.length ≤ o) (p : Nat) (hp : p < w.objs.length) (hm : ¬ mine p) :
    (w.run ops).seen p = w.seen p := by
  let A : Nat → Prop := fun a => ∃ p b, p < w.objs.length ∧ ¬ mine p ∧ w.objs[p]? = some b ∧ ∃ r ∈ b.refs, r.addr = a
  have key : ∀ w' : World, Keep A w.mem w'.mem → w.objs.length ≤ w'.objs.length →
      (∀ p < w.objs.length, ¬ mine p → w'.objs[p]? = w.objs[p]?) →
      (∀ p c, w'.objs[p]? = some c → mine p ∨ w.objs.length ≤ p → ObjOk A w'.mem c) →
      (∀ op ∈ ops, ∀ o ∈ op.operands, mine o ∨ w.objs.length ≤ o) →
      Keep A w.mem (w'.run ops).mem ∧ ∀ p < w.objs.length, ¬ mine p → (w'.run ops).objs[p]? = w.objs[p]? := by
    clear ho
    induction ops with
    | nil => exact fun w' h1 _ h3 _ _ => ⟨h1, h3⟩
    | cons op ops ih =>
      intro w' h1 h2 h3 h4 h5
      have hA : Below A w'.mem := by
        rintro a ⟨p, b, _, _, hb, r, hr, rfl⟩
        exact (hw b (List.mem_of_getElem? hb) r hr).trans_le h1.1
      have hop := h5 op List.mem_cons_self
      have e := step_effect w' hA op (fun o ho b hb => h4 o b hb (hop o ho))
      refine ih (w'.step op) (h1.trans e.keep) (h2.trans e.len) (fun q hq hqm => ?_) (fun q c hc hq => ?_)
        (fun op' ho' => h5 op' (List.mem_cons_of_mem _ ho'))
      · have hlt : q < (w'.step op).objs.length := by have := e.len; omega
        have hc := List.getElem?_eq_getElem hlt
        rcases e.objs q _ hc with ⟨_, _, h⟩ | ⟨h, _⟩
        · rw [hc, ← h, h3 q hq hqm]
        · exfalso
          rcases h with h | h
          · rcases hop q h with h | h
            · exact hqm h
            · omega
          · omega
      · rcases e.objs q c hc with ⟨_, _, h⟩ | ⟨_, h⟩
        · exact (h4 q c h hq).mono e.keep
        · exact h
  obtain ⟨k1, k2⟩ := key w keep_refl (le_refl _) (fun _ _ _ => rfl) (fun q c hc hq => by
    have hlt := (List.getElem?_eq_some_iff.1 hc).1
    have hq : mine q := hq.resolve_right (by omega)
    refine objOk_iff.2 fun r hr => ⟨?_, hw c (List.mem_of_getElem? hc) r hr⟩
    rintro ⟨p, b, _, hpm, hb, s, hs', e⟩
    exact hs q p hq hpm ⟨c, b, hc, hb, r, hr, s, hs', e.symm⟩) ho
  unfold World.seen
  rw [k2 p hp hm]
  cases hb : w.objs[p]? with
  | none => rfl
  | some b =>
    simp only [Option.map_some]
    rw [look_keep b w.mem _ fun r hr => k1.2 _ ⟨p, b, hp, hm, hb, r, hr, rfl⟩]

/-- C111: a copy looks like the original when it is made, except that its coordinates are not cached yet, and shares memory with
nothing. -/
theorem copy_fresh (w : World) (hw : w.Sound) (o : Nat) (b : Obj) (hb : w.objs[o]? = some b) :
    (w.step (.copy o)).objs.length = w.objs.length + 1 ∧
    (∀ p < w.objs.length, (w.step (.copy o)).seen p = w.seen p ∧ ¬ (w.step (.copy o)).Shares w.objs.length p ∧
      ¬ (w.step (.copy o)).Shares p w.objs.length) ∧
    (w.step (.copy o)).seen w.objs.length = some ⟨(b.nx, b.ny), b.xlim.get w.mem, b.ylim.get w.mem, none, none, none, none,
      b.array.map fun r => r.get w.mem⟩ := by
  have getAlloc : ∀ (l : List ℚ) (m m' : Mem), m'.getD m.length [] = l → (alloc l m).1.get m' = l := by
    intro l m m' h
    simp only [alloc, Ref.get]
    rw [h]
    refine List.ext_getElem (by simp) fun i h1 h2 => ?_
    simp at h1 ⊢
    rw [List.getElem?_eq_getElem h2]
    rfl
  have hstep : w.step (.copy o) = ⟨(copyOf w.mem b).2, w.objs ++ [(copyOf w.mem b).1]⟩ := by simp only [World.step, hb]
  obtain ⟨h1, k1⟩ := copyOf_ok (A := fun a => a < w.mem.length) (m := w.mem) (fun a ha => ha) b
  have hnew : (w.step (.copy o)).objs[w.objs.length]? = some (copyOf w.mem b).1 := by rw [hstep]; simp
  have hold : ∀ p < w.objs.length, (w.step (.copy o)).objs[p]? = w.objs[p]? := by
    intro p hp
    rw [hstep]
    exact List.getElem?_append_left hp
  have disj : ∀ p < w.objs.length, ∀ c, w.objs[p]? = some c → ∀ r ∈ (copyOf w.mem b).1.refs, ∀ s ∈ c.refs, r.addr ≠ s.addr := by
    intro p hp c hc r hr s hs e
    have := (objOk_iff.1 h1 r hr).1
    rw [e] at this
    exact this (hw c (List.mem_of_getElem? hc) s hs)
  refine ⟨by rw [hstep]; simp, fun p hp => ⟨?_, ?_, ?_⟩, ?_⟩
  · unfold World.seen
    rw [hold p hp]
    cases hc : w.objs[p]? with
    | none => rfl
    | some c =>
      simp only [Option.map_some]
      rw [look_keep c w.mem _ fun r hr => by rw [hstep]; exact k1.2 _ (hw c (List.mem_of_getElem? hc) r hr)]
  · rintro ⟨a, c, ha, hc, r, hr, s, hs, e⟩
    rw [hnew] at ha
    rw [hold p hp] at hc
    cases ha
    exact disj p hp c hc r hr s hs e
  · rintro ⟨a, c, ha, hc, r, hr, s, hs, e⟩
    rw [hnew] at hc
    rw [hold p hp] at ha
    cases hc
    exact disj p hp a ha s hs r hr e.symm
  · unfold World.seen
    rw [hnew]
    simp only [Option.map_some]
    rw [hstep]
    simp only [look, copyOf]
    cases b.array with
    | none =>
      simp only [Option.map_none]
      rw [getAlloc _ _ _ (by simp [alloc]), getAlloc _ _ _ (by simp [alloc])]
    | some a =>
      simp only [Option.map_some, Option.map_none]
      rw [getAlloc _ _ _ (by simp [alloc]), getAlloc _ _ _ (by simp [alloc]), getAlloc _ _ _ (by simp [alloc])]

/-- C111: assigning an array gives the raster that array and its size and keeps the limits; coordinates and their matrices are kept if the size is the
same and dropped otherwise. -/
theorem set_array_seen (w : World) (hw : w.Sound) (o : Nat) (b : Obj) (hb : w.objs[o]? = some b) (nx ny : Nat) (values : List ℚ) :
    ∃ s s', w.seen o = some s ∧ (w.step (.setArray o nx ny values)).seen o = some s' ∧ s'.size = (nx, ny) ∧ s'.xlim = s.xlim ∧ s'.ylim = s.ylim ∧
      s'.array = some values ∧
      ((nx, ny) = s.size → s'.x = s.x ∧ s'.y = s.y ∧ s'.bigX = s.bigX ∧ s'.bigY = s.bigY) ∧
      ((nx, ny) ≠ s.size → s'.x = none ∧ s'.y = none ∧ s'.bigX = none ∧ s'.bigY = none) := by
  have ho : o < w.objs.length := (List.getElem?_eq_some_iff.1 hb).1
  have hstep : w.step (.setArray o nx ny values) = ⟨(alloc values w.mem).2, w.objs.set o (b.assignArray (alloc values w.mem).1 nx ny)⟩ := by
    simp only [World.step, hb]
  have hkeep : look (alloc values w.mem).2 b = look w.mem b := by
    refine look_keep b w.mem _ fun r hr => ?_
    have := hw b (List.mem_of_getElem? hb) r hr
    simp [alloc, List.getD_eq_getElem?_getD, List.getElem?_append_left this]
  have hval : (alloc values w.mem).1.get (alloc values w.mem).2 = values := by
    simp only [alloc, Ref.get]
    refine List.ext_getElem (by simp) fun i h1 h2 => ?_
    simp at h1 ⊢
    rw [List.getElem?_eq_getElem h2]
    rfl
  refine ⟨look w.mem b, look (alloc values w.mem).2 (b.assignArray (alloc values w.mem).1 nx ny), ?_, ?_, ?_⟩
  · simp [World.seen, hb]
  · rw [hstep]
    simp [World.seen, ho]
  · rw [← hkeep]
    unfold Obj.assignArray
    by_cases h : nx = b.nx ∧ ny = b.ny
    · rw [if_pos h]
      simp [look, hval, h.1, h.2]
    · rw [if_neg h]
      simp only [look, hval, Option.map_some, Option.map_none, true_and, and_self, implies_true, and_true, Prod.mk.injEq]
      intro h'
      exact absurd h' h

/-- C111: assigning limits in x gives the raster those limits and keeps everything else, except that the coordinates in x and their matrix are
dropped if the limits differ from before. -/
theorem set_xlim_seen (w : World) (hw : w.Sound) (o : Nat) (b : Obj) (hb : w.objs[o]? = some b) (a c : ℚ) :
    ∃ s, w.seen o = some s ∧ (w.step (.setXlim o a c)).seen o = some (if s.xlim = [a, c] then s
      else { s with xlim := [a, c], x := none, bigX := none }) := by
  have ho : o < w.objs.length := (List.getElem?_eq_some_iff.1 hb).1
  have hstep : w.step (.setXlim o a c) = ⟨(alloc [a, c] w.mem).2, w.objs.set o (b.assignXlim (alloc [a, c] w.mem).1 (alloc [a, c] w.mem).2)⟩ := by
    simp only [World.step, hb]
  have hkeep : look (alloc [a, c] w.mem).2 b = look w.mem b := by
    refine look_keep b w.mem _ fun r hr => ?_
    have := hw b (List.mem_of_getElem? hb) r hr
    simp [alloc, List.getD_eq_getElem?_getD, List.getElem?_append_left this]
  have hval : (alloc [a, c] w.mem).1.get (alloc [a, c] w.mem).2 = [a, c] := by
    simp [alloc, Ref.get, List.range_succ]
  refine ⟨look w.mem b, by simp [World.seen, hb], ?_⟩
  rw [← hkeep, hstep]
  have : (look (alloc [a, c] w.mem).2 b).xlim = b.xlim.get (alloc [a, c] w.mem).2 := rfl
  rw [this]
  simp only [World.seen, Obj.assignXlim, hval, List.getElem?_set_self ho, Option.map_some, Option.some.injEq]
  by_cases h : b.xlim.get (alloc [a, c] w.mem).2 = [a, c]
  · rw [if_pos h, if_pos h]
  · rw [if_neg h, if_neg h]
    simp [look, hval]

/-- C111: assigning limits in y gives the raster those limits and keeps everything else, except that the coordinates in y and their matrix are
dropped if the limits differ from before. -/
theorem set_ylim_seen (w : World) (hw : w.Sound) (o : Nat) (b : Obj) (hb : w.objs[o]? = some b) (a c : ℚ) :
    ∃ s, w.seen o = some s ∧ (w.step (.setYlim o a c)).seen o = some (if s.ylim = [a, c] then s
      else { s with ylim := [a, c], y := none, bigY := none }) := by
  have ho : o < w.objs.length := (List.getElem?_eq_some_iff.1 hb).1
  have hstep : w.step (.setYlim o a c) = ⟨(alloc [a, c] w.mem).2, w.objs.set o (b.assignYlim (alloc [a, c] w.mem).1 (alloc [a, c] w.mem).2)⟩ := by
    simp only [World.step, hb]
  have hkeep : look (alloc [a, c] w.mem).2 b = look w.mem b := by
    refine look_keep b w.mem _ fun r hr => ?_
    have := hw b (List.mem_of_getElem? hb) r hr
    simp [alloc, List.getD_eq_getElem?_getD, List.getElem?_append_left this]
  have hval : (alloc [a, c] w.mem).1.get (alloc [a, c] w.mem).2 = [a, c] := by
    simp [alloc, Ref.get, List.range_succ]
  refine ⟨look w.mem b, by simp [World.seen, hb], ?_⟩
  rw [← hkeep, hstep]
  have : (look (alloc [a, c] w.mem).2 b).ylim = b.ylim.get (alloc [a, c] w.mem).2 := rfl
  rw [this]
  simp only [World.seen, Obj.assignYlim, hval, List.getElem?_set_self ho, Option.map_some, Option.some.injEq]
  by_cases h : b.ylim.get (alloc [a, c] w.mem).2 = [a, c]
  · rw [if_pos h, if_pos h]
  · rw [if_neg h, if_neg h]
    simp [look, hval]

private theorem seen_step (w : World) (op : Op) (ops : List Op) : w.run (op :: ops) = (w.step op).run ops := rfl

/-- C111: whatever is done with a copy, and with everything made from it, no other object changes. -/
theorem copy_independent (ops0 : List Op) (o : Nat) (b : Obj) (hb : (World.empty.run ops0).objs[o]? = some b) (ops : List Op)
    (ho : ∀ op ∈ ops, ∀ q ∈ op.operands, (World.empty.run ops0).objs.length ≤ q) (p : Nat) (hp : p < (World.empty.run ops0).objs.length) :
    ((World.empty.run ops0).run (.copy o :: ops)).seen p = (World.empty.run ops0).seen p := by
  have hw := reachable_sound ops0
  generalize World.empty.run ops0 = w at *
  obtain ⟨h1, h2, _⟩ := copy_fresh w hw o b hb
  rw [seen_step, ← (h2 p hp).1]
  have hs : (w.step (.copy o)).Sound := by
    have hok : ∀ p b, w.objs[p]? = some b → ObjOk (fun _ => False) w.mem b :=
      fun p b hb => objOk_iff.2 fun r hr => ⟨fun h => h, hw b (List.mem_of_getElem? hb) r hr⟩
    have e := step_effect (A := fun _ => False) w (fun a ha => ha.elim) (.copy o) (fun p _ b hb => hok p b hb)
    intro b hb r hr
    obtain ⟨p, hp⟩ := List.mem_iff_getElem?.1 hb
    rcases e.objs p b hp with ⟨_, _, h⟩ | ⟨_, h⟩
    · exact ((objOk_iff.1 ((hok p b h).mono e.keep)) r hr).2
    · exact (objOk_iff.1 h r hr).2
  refine untouched (w.step (.copy o)) hs (fun q => q = w.objs.length) (fun q r hq hr => ?_) ops (fun op hop q hq => ?_) p (by omega) (by omega)
  · subst hq
    by_cases hlt : r < w.objs.length
    · exact (h2 r hlt).2.1
    · rintro ⟨_, c, _, hc, _⟩
      have := (List.getElem?_eq_some_iff.1 hc).1
      omega
  · have := ho op hop q hq
    omega

/-- C111: whatever is done with the other objects, and with everything made from them, a copy does not change. -/
theorem copy_kept (ops0 : List Op) (o : Nat) (b : Obj) (hb : (World.empty.run ops0).objs[o]? = some b) (ops : List Op)
    (ho : ∀ op ∈ ops, ∀ q ∈ op.operands, q ≠ (World.empty.run ops0).objs.length) :
    ((World.empty.run ops0).run (.copy o :: ops)).seen (World.empty.run ops0).objs.length =
      ((World.empty.run ops0).run [.copy o]).seen (World.empty.run ops0).objs.length := by
  have hw := reachable_sound ops0
  have hs : ((World.empty.run ops0).step (.copy o)).Sound := by
    have : World.empty.run (ops0 ++ [.copy o]) = (World.empty.run ops0).step (.copy o) := by
      simp [World.run, List.foldl_append]
    rw [← this]
    exact reachable_sound _
  generalize World.empty.run ops0 = w at *
  obtain ⟨h1, h2, _⟩ := copy_fresh w hw o b hb
  rw [seen_step]
  show _ = (w.step (.copy o)).seen _
  refine untouched (w.step (.copy o)) hs (fun q => q ≠ w.objs.length) (fun q r hq hr => ?_) ops (fun op hop q hq => Or.inl (ho op hop q hq)) _ (by omega) (by simp)
  have hr : r = w.objs.length := by simpa using hr
  subst hr
  by_cases hlt : q < w.objs.length
  · exact (h2 q hlt).2.2
  · rintro ⟨c, _, hc, _⟩
    have := (List.getElem?_eq_some_iff.1 hc).1
    omega

/-! ### Memory that is shared -/

/-- C111 (violated): shifting the grid of a raster (`raster.grid.shift(dx)`) moves the limits of the raster, but not its cached
coordinates, whatever the raster. -/
theorem grid_shared_violated (w : World) (o : Nat) (b : Obj) (hb : w.objs[o]? = some b) (dx : ℚ) (hx : b.xlim.addr < w.mem.length)
    (hi : ∀ i ∈ b.xlim.idx, i < (w.mem.getD b.xlim.addr []).length) (r : Ref) (hr : b.x = some r) (hd : r.addr ≠ b.xlim.addr) :
    ∃ s, (w.run [.grid o, .shift w.objs.length (some dx) none none]).seen o = some s ∧
      s.xlim = (b.xlim.get w.mem).map (· + dx) ∧ s.x = some (r.get w.mem) := by
  have h1 : w.step (.grid o) = { w with objs := w.objs ++ [⟨b.nx, b.ny, b.xlim, b.ylim, none, none, none, none, none⟩] } := by
    simp only [World.step, hb]
  have h2 : w.run [.grid o, .shift w.objs.length (some dx) none none] =
      ⟨b.xlim.modify (· + dx) w.mem, w.objs ++ [⟨b.nx, b.ny, b.xlim, b.ylim, none, none, none, none, none⟩]⟩ := by
    simp only [World.run, List.foldl_cons, List.foldl_nil, h1]
    simp [World.step, shiftAxis, addTo]
  have h3 : (w.objs ++ [(⟨b.nx, b.ny, b.xlim, b.ylim, none, none, none, none, none⟩ : Obj)])[o]? = some b := by
    rw [List.getElem?_append_left (List.getElem?_eq_some_iff.1 hb).1, hb]
  refine ⟨look (b.xlim.modify (· + dx) w.mem) b, ?_, ?_, ?_⟩
  · unfold World.seen
    rw [h2]
    simp only [h3, Option.map_some]
  · simp only [look, Ref.get, List.map_map]
    refine List.map_congr_left fun i hi' => ?_
    have hlt := hi i hi'
    unfold Ref.modify
    simp only [List.getD_eq_getElem?_getD, List.getElem?_modify, if_true, Function.comp]
    rw [List.getElem?_eq_getElem hx] at *
    simp only [List.getD_eq_getElem?_getD, List.getElem?_eq_getElem hx, Option.getD_some] at hlt
    simp [List.getElem?_mapIdx, hi', hlt]
  · simp only [look, hr, Option.map_some, Option.some.injEq, Ref.get]
    refine List.map_congr_left fun i _ => ?_
    unfold Ref.modify
    simp only [List.getD_eq_getElem?_getD, List.getElem?_modify, if_neg hd.symm]
    simp

/-- A raster of three columns and one row. -/
private def demo : List Op := [.new 3 1 0 3 1 0 (some [10, 20, 30])]

/-- C111 (violated): a part of a raster (`part = raster[:, 0:3]`) shares its coordinates and its values: shifting the part moves the cached
coordinates of the raster away from its limits, and writing into the part writes into the raster. -/
theorem item_shared_violated :
    (∃ s, (World.empty.run (demo ++ [.item 0 [0] [0, 1, 2], .shift 1 (some 5) none none])).seen 0 = some s ∧
      s.xlim = [0, 3] ∧ s.x = some [11 / 2, 13 / 2, 15 / 2]) ∧
    (∃ s, (World.empty.run (demo ++ [.item 0 [0] [0, 1], .write 1 [1] 7])).seen 0 = some s ∧ s.array = some [10, 7, 30]) := by
  refine ⟨⟨_, rfl, by decide +kernel, by decide +kernel⟩, ⟨_, rfl, by decide +kernel⟩⟩

/-- The limits of parts: half a cell (of the part) beyond their centres. -/
example : ((World.empty.run (demo ++ [.item 0 [0] [0, 1]])).seen 1).map (fun s => (s.xlim, s.ylim)) = some ([0, 2], [1, 0]) ∧
    ((World.empty.run (demo ++ [.item 0 [0] [0, 2]])).seen 1).map (fun s => (s.xlim, s.ylim)) = some ([-1 / 2, 7 / 2], [1, 0]) ∧
    ((World.empty.run (demo ++ [.item 0 [0] [2]])).seen 1).map (fun s => (s.xlim, s.ylim)) = some ([2, 3], [1, 0]) := by
  decide +kernel

/-- C111 (violated): `raster.resample(grid)` makes the raster share limits and coordinates with the grid: shifting the raster moves the grid. -/
theorem resample_shared_violated :
    ∃ s, (World.empty.run (demo ++ [.new 2 1 0 2 1 0 none, .resample 0 1 [12, 22], .shift 0 (some 5) none none])).seen 1 = some s ∧
      s.xlim = [5, 7] ∧ s.x = some [11 / 2, 13 / 2] := ⟨_, rfl, by decide +kernel, by decide +kernel⟩

/-- C111 (violated): a raster made of an array keeps that array: writing into the raster writes into it. -/
theorem array_shared_violated :
    ∃ s, (World.empty.run (demo ++ [.wrap 0, .shift 1 none none (some 1), .write 1 [0] 0])).seen 0 = some s ∧
      s.array = some [0, 21, 31] := ⟨_, rfl, by decide +kernel⟩

/-- Hypotheses met: a copy, parts and grids made of the copy, all changed. -/
example : (World.empty.run (demo ++ [.readx 0, .copy 0, .item 1 [0] [0, 1, 2], .grid 1, .shift 2 (some 5) none (some 1),
    .shift 3 none (some 2) none, .write 1 [0] 0])).seen 0 = (World.empty.run (demo ++ [.readx 0])).seen 0 ∧
    ((World.empty.run (demo ++ [.readx 0, .copy 0, .item 1 [0] [0, 1, 2], .grid 1, .shift 2 (some 5) none (some 1),
    .shift 3 none (some 2) none, .write 1 [0] 0])).seen 1).map (fun s => (s.ylim, s.x, s.array)) =
      some ([3, 2], some [11 / 2, 13 / 2, 15 / 2], some [0, 21, 31]) := by
  decide +kernel

end Glimpse.RasterMemory
