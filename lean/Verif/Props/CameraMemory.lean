import Verif.Model.CameraMemory
import Mathlib.Tactic.Linarith

/-!
C130: cameras do not share memory, views of attributes are live, and `reset` restores the original state.
-/
set_option autoImplicit false
set_option linter.unusedSimpArgs false
set_option linter.unusedSectionVars false

namespace Glimpse.CamMem

/-! ### Specification -/

/-- Reachable by some history. -/
def Reachable (w : World) : Prop := ∃ ops, run .empty ops = some w

/-- The camera that a step is about: that of its argument, or that from which the written value was got. Making and copying cameras is about
none. -/
def subject (w : World) : Op → Option Nat
  | .new _ _ => none
  | .copy _ => none
  | .reset i => some i
  | .get i _ => some i
  | .set i _ _ => some i
  | .getSensor i => some i
  | .setSensor i _ => some i
  | .toArray i => some i
  | .idealize i => some i
  | .write h _ _ => (w.held[h]?).map fun v => v.1

/-! ### Invariant -/

/-- The references of a camera. -/
def Cam.refs (c : Cam) : List Ref := c.vec :: c.orig :: c.sensor.toList

/-- No two cameras share an array, no camera uses one twice, the caller has no original vector and only values of the camera they came from. -/
structure Inv (w : World) : Prop where
  fresh : ∀ (j : Nat) cam, w.cams[j]? = some cam → ∀ r ∈ cam.refs, r < w.next
  nodup : ∀ (j : Nat) cam, w.cams[j]? = some cam → cam.refs.Nodup
  disj : ∀ (j j' : Nat) cam cam', w.cams[j]? = some cam → w.cams[j']? = some cam' → ∀ r ∈ cam.refs, r ∈ cam'.refs → j = j'
  len : ∀ (j : Nat) cam, w.cams[j]? = some cam → (w.heap cam.vec).length = 20 ∧ (w.heap cam.orig).length = 20
  held : ∀ (h : Nat) i v, w.held[h]? = some (i, v) → v.ref < w.next ∧
    ∀ (j : Nat) cam, w.cams[j]? = some cam → v.ref ∈ cam.refs → j = i ∧ v.ref ≠ cam.orig

/-- The memory has grown: what was there is as it was. -/
structure Grows (w w' : World) : Prop where
  next : w.next ≤ w'.next
  heap : ∀ r, r < w.next → w'.heap r = w.heap r
  cams : w'.cams = w.cams
  held : w'.held = w.held

theorem grows_refl (w : World) : Grows w w := ⟨le_refl _, fun _ _ => rfl, rfl, rfl⟩

theorem Grows.trans {a b c : World} (h : Grows a b) (g : Grows b c) : Grows a c :=
  ⟨le_trans h.next g.next, fun r hr => (g.heap r (lt_of_lt_of_le hr h.next)).trans (h.heap r hr), g.cams.trans h.cams, g.held.trans h.held⟩

theorem grows_alloc (w : World) (a : List ℚ) : Grows w (w.alloc a).1 := by
  refine ⟨Nat.le_succ _, ?_, rfl, rfl⟩
  intro r hr
  simp only [World.alloc, World.put, if_neg (Nat.ne_of_lt hr)]

theorem alloc_heap (w : World) (a : List ℚ) : (w.alloc a).1.heap w.next = a := by simp [World.alloc, World.put]

theorem grows_allocOpt (w : World) (a : Option (List ℚ)) : Grows w (w.allocOpt a).1 := by
  cases a with
  | none => exact grows_refl w
  | some a => exact grows_alloc w a

theorem inv_empty : Inv .empty :=
  ⟨by intro j cam h; simp [World.empty] at h, by intro j cam h; simp [World.empty] at h, by intro j j' cam cam' h; simp [World.empty] at h,
    by intro j cam h; simp [World.empty] at h, by intro h i v hv; simp [World.empty] at hv⟩

theorem inv_grows {w w' : World} (hw : Inv w) (g : Grows w w') : Inv w' := by
  refine ⟨?_, ?_, ?_, ?_, ?_⟩
  · intro j cam h r hr; rw [g.cams] at h; exact lt_of_lt_of_le (hw.fresh j cam h r hr) g.next
  · intro j cam h; rw [g.cams] at h; exact hw.nodup j cam h
  · intro j j' cam cam' h h'; rw [g.cams] at h h'; exact hw.disj j j' cam cam' h h'
  · intro j cam h; rw [g.cams] at h
    rw [g.heap _ (hw.fresh j cam h _ (by simp [Cam.refs])), g.heap _ (hw.fresh j cam h _ (by simp [Cam.refs]))]
    exact hw.len j cam h
  · intro h i v hv; rw [g.held] at hv
    obtain ⟨h1, h2⟩ := hw.held h i v hv
    exact ⟨lt_of_lt_of_le h1 g.next, fun j cam hc => by rw [g.cams] at hc; exact h2 j cam hc⟩

/-- A camera with new arrays. -/
theorem inv_addcam {w w' : World} (hw : Inv w) (g : Grows w w') (cam : Cam) (hfresh : ∀ r ∈ cam.refs, w.next ≤ r ∧ r < w'.next)
    (hnd : cam.refs.Nodup) (hlen : (w'.heap cam.vec).length = 20 ∧ (w'.heap cam.orig).length = 20) :
    Inv { w' with cams := w'.cams ++ [cam] } := by
  have hw' := inv_grows hw g
  have old : ∀ (j : Nat) c, w'.cams[j]? = some c → ∀ r ∈ c.refs, r < w.next := fun j c h r hr => by
    rw [g.cams] at h; exact hw.fresh j c h r hr
  have split : ∀ (j : Nat) c, (w'.cams ++ [cam])[j]? = some c → w'.cams[j]? = some c ∨ (j = w'.cams.length ∧ c = cam) := by
    intro j c h
    rw [List.getElem?_append] at h
    split at h
    · exact Or.inl h
    · right
      rename_i hj
      rw [List.getElem?_singleton] at h
      split at h
      · exact ⟨by omega, (Option.some.inj h).symm⟩
      · cases h
  refine ⟨?_, ?_, ?_, ?_, ?_⟩
  · intro j c h r hr
    rcases split j c h with h | ⟨_, rfl⟩
    · exact hw'.fresh j c h r hr
    · exact (hfresh r hr).2
  · intro j c h
    rcases split j c h with h | ⟨_, rfl⟩
    · exact hw'.nodup j c h
    · exact hnd
  · intro j j' c c' h h' r hr hr'
    rcases split j c h with g1 | ⟨e1, e2⟩
    · rcases split j' c' h' with g2 | ⟨e1, e2⟩
      · exact hw'.disj j j' c c' g1 g2 r hr hr'
      · subst e2; exact absurd (hfresh r hr').1 (Nat.not_le.mpr (old j c g1 r hr))
    · rcases split j' c' h' with g2 | ⟨e3, e4⟩
      · subst e2; exact absurd (hfresh r hr).1 (Nat.not_le.mpr (old j' c' g2 r hr'))
      · rw [e1, e3]
  · intro j c h
    rcases split j c h with h | ⟨_, rfl⟩
    · exact hw'.len j c h
    · exact hlen
  · intro h i v hv
    obtain ⟨h1, h2⟩ := hw'.held h i v hv
    refine ⟨h1, fun j c hc hr => ?_⟩
    rcases split j c hc with hc | ⟨_, rfl⟩
    · exact h2 j c hc hr
    · have h3 : v.ref < w.next := (hw.held h i v (by rw [← g.held]; exact hv)).1
      exact absurd (hfresh _ hr).1 (Nat.not_le.mpr h3)

/-- A camera that changes arrays for new ones. -/
theorem inv_setcam {w w' : World} (hw : Inv w) (g : Grows w w') (i : Nat) (cam new : Cam) (hi : w.cams[i]? = some cam)
    (horig : new.orig = cam.orig) (hrefs : ∀ r ∈ new.refs, r ∈ cam.refs ∨ (w.next ≤ r ∧ r < w'.next)) (hnd : new.refs.Nodup)
    (hlen : (w'.heap new.vec).length = 20) : Inv { w' with cams := w'.cams.set i new } := by
  have hw' := inv_grows hw g
  have hi' : w'.cams[i]? = some cam := by rw [g.cams]; exact hi
  have old : ∀ (j : Nat) c, w'.cams[j]? = some c → ∀ r ∈ c.refs, r < w.next := fun j c h r hr => by
    rw [g.cams] at h; exact hw.fresh j c h r hr
  have split : ∀ (j : Nat) c, (w'.cams.set i new)[j]? = some c → (w'.cams[j]? = some c ∧ j ≠ i) ∨ (j = i ∧ c = new) := by
    intro j c h
    rw [List.getElem?_set] at h
    split at h
    · rename_i hij
      split at h
      · exact Or.inr ⟨hij.symm, (Option.some.inj h).symm⟩
      · cases h
    · rename_i hij; exact Or.inl ⟨h, Ne.symm hij⟩
  refine ⟨?_, ?_, ?_, ?_, ?_⟩
  · intro j c h r hr
    rcases split j c h with ⟨h, _⟩ | ⟨rfl, rfl⟩
    · exact hw'.fresh j c h r hr
    · rcases hrefs r hr with h1 | h1
      · exact hw'.fresh j cam hi' r h1
      · exact h1.2
  · intro j c h
    rcases split j c h with ⟨h, _⟩ | ⟨_, rfl⟩
    · exact hw'.nodup j c h
    · exact hnd
  · intro j j' c c' h h' r hr hr'
    rcases split j c h with ⟨g1, hj⟩ | ⟨e1, e2⟩
    · rcases split j' c' h' with ⟨g2, _⟩ | ⟨e1, e2⟩
      · exact hw'.disj j j' c c' g1 g2 r hr hr'
      · subst e1; subst e2
        rcases hrefs r hr' with h1 | h1
        · exact hw'.disj j j' c cam g1 hi' r hr h1
        · exact absurd h1.1 (Nat.not_le.mpr (old j c g1 r hr))
    · rcases split j' c' h' with ⟨g2, hj⟩ | ⟨e3, e4⟩
      · subst e1; subst e2
        rcases hrefs r hr with h1 | h1
        · exact hw'.disj j j' cam c' hi' g2 r h1 hr'
        · exact absurd h1.1 (Nat.not_le.mpr (old j' c' g2 r hr'))
      · rw [e1, e3]
  · intro j c h
    rcases split j c h with ⟨h, _⟩ | ⟨rfl, rfl⟩
    · exact hw'.len j c h
    · exact ⟨hlen, by rw [horig]; exact (hw'.len j cam hi').2⟩
  · intro h k v hv
    obtain ⟨h1, h2⟩ := hw'.held h k v hv
    have h3 : v.ref < w.next := (hw.held h k v (by rw [← g.held]; exact hv)).1
    refine ⟨h1, fun j c hc hr => ?_⟩
    rcases split j c hc with ⟨hc, _⟩ | ⟨rfl, rfl⟩
    · exact h2 j c hc hr
    · rcases hrefs _ hr with h4 | h4
      · rw [horig]; exact h2 j cam hi' h4
      · exact absurd h4.1 (Nat.not_le.mpr h3)

/-- One more value for the caller. -/
theorem inv_hold {w : World} (hw : Inv w) (i : Nat) (v : View) (hv : v.ref < w.next)
    (hc : ∀ (j : Nat) cam, w.cams[j]? = some cam → v.ref ∈ cam.refs → j = i ∧ v.ref ≠ cam.orig) :
    Inv { w with held := w.held ++ [(i, v)] } := by
  refine ⟨hw.fresh, hw.nodup, hw.disj, hw.len, ?_⟩
  intro h k u hu
  simp only [List.getElem?_append] at hu
  split at hu
  · exact hw.held h k u hu
  · rw [List.getElem?_singleton] at hu
    split at hu
    · cases hu; exact ⟨hv, hc⟩
    · cases hu

/-- Other elements of an array. -/
theorem inv_put {w : World} (hw : Inv w) (r : Ref) (a : List ℚ) (h : a.length = (w.heap r).length) : Inv (w.put r a) := by
  refine ⟨hw.fresh, hw.nodup, hw.disj, ?_, hw.held⟩
  intro j cam hc
  obtain ⟨h1, h2⟩ := hw.len j cam hc
  constructor
  · show (if cam.vec = r then a else w.heap cam.vec).length = 20
    split
    · rename_i e; rw [h, ← e]; exact h1
    · exact h1
  · show (if cam.orig = r then a else w.heap cam.orig).length = 20
    split
    · rename_i e; rw [h, ← e]; exact h2
    · exact h2

theorem assign_length (a : List ℚ) (s : Nat) (v : List ℚ) (h : s + v.length ≤ a.length) : (assign a s v).length = a.length := by
  simp only [assign, List.length_append, List.length_take, List.length_drop]; omega

/-- C130: the attributes share the vector without gaps or overlaps: position (3), view direction (3), image size (2), focal length (2), principal
point offset (2), radial (6) and tangential (2) distortion, in this order, are its 20 elements. -/
theorem attributes_partition : [Attr.xyz, .viewdir, .imgsz, .f, .c, .k, .p].flatMap (fun a => List.range' a.start a.len) = List.range 20 ∧
    [Attr.xyz, .viewdir, .imgsz, .f, .c, .k, .p].map Attr.len = [3, 3, 2, 2, 2, 6, 2] := by decide

theorem attr_fits (a : Attr) : a.start + a.len ≤ 20 := by cases a <;> decide

theorem inv_setAttr {w : World} (hw : Inv w) (i : Nat) (cam : Cam) (hi : w.cams[i]? = some cam) (a : Attr) (v : List ℚ) (hv : v.length = a.len) :
    Inv (w.setAttr cam a v) := by
  refine inv_put hw _ _ (assign_length _ _ _ ?_)
  rw [(hw.len i cam hi).1, hv]; exact attr_fits a

/-- A camera made of copies of arrays (`new` and `copy`). -/
def addCam (w : World) (v : List ℚ) (s : Option (List ℚ)) : World :=
  let a := w.alloc v
  let b := a.1.allocOpt s
  let c := b.1.alloc (b.1.heap a.2)
  { c.1 with cams := c.1.cams ++ [⟨a.2, c.2, b.2⟩] }

theorem allocOpt_ref (w : World) (s : Option (List ℚ)) (r : Ref) (h : (w.allocOpt s).2 = some r) : r = w.next ∧ ∃ a, s = some a ∧
    (w.allocOpt s).1.heap r = a ∧ (w.allocOpt s).1.next = w.next + 1 := by
  cases s with
  | none => cases h
  | some a =>
    cases h
    exact ⟨rfl, a, rfl, alloc_heap w a, rfl⟩

theorem addCam_facts (w : World) (v : List ℚ) (s : Option (List ℚ)) :
    ∃ w' cam, Grows w w' ∧ addCam w v s = { w' with cams := w'.cams ++ [cam] } ∧ (∀ r ∈ cam.refs, w.next ≤ r ∧ r < w'.next) ∧ cam.refs.Nodup ∧
      w'.heap cam.vec = v ∧ w'.heap cam.orig = v ∧ cam.sensor.map w'.heap = s := by
  have g1 := grows_alloc w v
  have g2 := grows_allocOpt (w.alloc v).1 s
  have g3 := grows_alloc ((w.alloc v).1.allocOpt s).1 (((w.alloc v).1.allocOpt s).1.heap (w.alloc v).2)
  have hn1 : (w.alloc v).1.next = w.next + 1 := rfl
  have hv1 : ((w.alloc v).1.allocOpt s).1.heap w.next = v := by
    rw [g2.heap _ (by rw [hn1]; exact Nat.lt_succ_self _)]; exact alloc_heap w v
  have hle : w.next + 1 ≤ ((w.alloc v).1.allocOpt s).1.next := g2.next
  refine ⟨_, ⟨(w.alloc v).2, _, ((w.alloc v).1.allocOpt s).2⟩, g1.trans (g2.trans g3), rfl, ?_, ?_, ?_, ?_, ?_⟩
  · intro r hr
    simp only [Cam.refs, List.mem_cons, Option.mem_toList] at hr
    have hn3 : (((w.alloc v).1.allocOpt s).1.alloc (((w.alloc v).1.allocOpt s).1.heap (w.alloc v).2)).1.next =
      ((w.alloc v).1.allocOpt s).1.next + 1 := rfl
    rw [hn3]
    rcases hr with h | h | h
    · subst h; exact ⟨Nat.le_refl _, Nat.lt_succ_of_le (le_trans (Nat.le_succ _) hle)⟩
    · subst h; exact ⟨le_trans (Nat.le_succ _) hle, Nat.lt_succ_self _⟩
    · obtain ⟨rfl, a, _, _, h4⟩ := allocOpt_ref _ _ _ h
      rw [h4]
      exact ⟨Nat.le_succ _, Nat.lt_succ_of_lt (Nat.lt_succ_self _)⟩
  · simp only [Cam.refs]
    cases s with
    | none => simp [World.allocOpt, World.alloc, World.put]
    | some a =>
      simp only [World.allocOpt, World.alloc, World.put, Option.toList_some, List.nodup_cons, List.mem_cons, List.not_mem_nil, or_false, not_or,
        not_false_eq_true, List.nodup_nil, and_true]
      exact ⟨⟨(Nat.lt_succ_of_lt (Nat.lt_succ_self _)).ne, (Nat.lt_succ_self _).ne⟩, (Nat.lt_succ_self _).ne'⟩
  · show (((w.alloc v).1.allocOpt s).1.alloc _).1.heap w.next = v
    rw [g3.heap _ (lt_of_lt_of_le (Nat.lt_succ_self _) hle)]; exact hv1
  · show (((w.alloc v).1.allocOpt s).1.alloc _).1.heap ((w.alloc v).1.allocOpt s).1.next = v
    rw [alloc_heap]; exact hv1
  · cases hs : ((w.alloc v).1.allocOpt s).2 with
    | none =>
      cases s with
      | none => rfl
      | some a => cases hs
    | some r =>
      obtain ⟨rfl, a, ha, h3, h4⟩ := allocOpt_ref _ _ _ hs
      subst ha
      simp only [Option.map_some]
      rw [g3.heap _ (by rw [h4]; exact Nat.lt_succ_self _), h3]

theorem step_new (w : World) (v : List ℚ) (s : Option (List ℚ)) : step w (.new v s) = if v.length = 20 then some (addCam w v s) else none := rfl

theorem step_copy {w : World} (hw : Inv w) (i : Nat) : step w (.copy i) = (w.cams[i]?).map fun cam => addCam w (w.heap cam.vec) (cam.sensor.map w.heap) := by
  show ((w.cams[i]?).map _) = _
  cases hc : w.cams[i]? with
  | none => rfl
  | some cam =>
    simp only [Option.map_some, Option.some.injEq]
    have : cam.sensor.map (w.alloc (w.heap cam.vec)).1.heap = cam.sensor.map w.heap := by
      cases hs : cam.sensor with
      | none => rfl
      | some r =>
        simp only [Option.map_some]
        rw [(grows_alloc w _).heap r (hw.fresh i cam hc r (by simp [Cam.refs, hs]))]
    unfold addCam
    simp only [this]

theorem inv_addCam {w : World} (hw : Inv w) (v : List ℚ) (s : Option (List ℚ)) (hv : v.length = 20) : Inv (addCam w v s) := by
  obtain ⟨w', cam, g, e, h1, h2, h3, h4, _⟩ := addCam_facts w v s
  rw [e]
  exact inv_addcam hw g cam h1 h2 ⟨by rw [h3]; exact hv, by rw [h4]; exact hv⟩

/-- The invariant holds after every step. -/
theorem inv_step {w w' : World} (hw : Inv w) (o : Op) (h : step w o = some w') : Inv w' := by
  cases o with
  | new v s =>
    rw [step_new] at h
    split at h
    · cases h; exact inv_addCam hw v s (by assumption)
    · cases h
  | copy i =>
    rw [step_copy hw, Option.map_eq_some_iff] at h
    obtain ⟨cam, hc, rfl⟩ := h
    exact inv_addCam hw _ _ (hw.len i cam hc).1
  | reset i =>
    simp only [step, Option.map_eq_some_iff] at h
    obtain ⟨cam, hc, rfl⟩ := h
    have hnd := hw.nodup i cam hc
    have hf := hw.fresh i cam hc
    refine inv_setcam hw (grows_alloc w (w.heap cam.orig)) i cam _ hc rfl ?_ ?_ ?_
    · intro r hr
      simp only [Cam.refs, List.mem_cons, Option.mem_toList] at hr
      rcases hr with rfl | rfl | hr
      · exact Or.inr ⟨Nat.le_refl _, Nat.lt_succ_self _⟩
      · left; simp [Cam.refs]
      · left; simp only [Cam.refs, List.mem_cons, Option.mem_toList]; exact Or.inr (Or.inr hr)
    · simp only [Cam.refs, List.nodup_cons] at hnd ⊢
      refine ⟨fun hm => ?_, hnd.2⟩
      have : w.next ∈ cam.refs := List.mem_cons_of_mem _ hm
      exact absurd (hf _ this) (Nat.lt_irrefl _)
    · show ((w.alloc (w.heap cam.orig)).1.heap w.next).length = 20
      rw [alloc_heap]; exact (hw.len i cam hc).2
  | get i a =>
    simp only [step, Option.map_eq_some_iff] at h
    obtain ⟨cam, hc, rfl⟩ := h
    have view : ∀ s l, Inv { w with held := w.held ++ [(i, ⟨cam.vec, s, l⟩)] } := by
      intro s l
      refine inv_hold hw i ⟨cam.vec, s, l⟩ (hw.fresh i cam hc _ (by simp [Cam.refs])) ?_
      intro j c hj hr
      have hij := hw.disj j i c cam hj hc _ hr (by simp [Cam.refs])
      subst hij
      rw [hc] at hj; cases hj
      refine ⟨rfl, ?_⟩
      have := hw.nodup j cam hc
      simp only [Cam.refs, List.nodup_cons, List.mem_cons, not_or] at this
      exact this.1.1
    cases a with
    | imgsz =>
      refine inv_hold (inv_grows hw (grows_alloc w _)) i _ (Nat.lt_succ_self _) ?_
      intro j c hj hr
      exact absurd (hw.fresh j c hj _ hr) (Nat.lt_irrefl _)
    | _ => exact view _ _
  | set i a v =>
    simp only [step, Option.bind_eq_some_iff] at h
    obtain ⟨cam, hc, h⟩ := h
    split at h
    · cases h; exact inv_setAttr hw i cam hc a v (by assumption)
    · cases h
  | getSensor i =>
    simp only [step, Option.bind_eq_some_iff, Option.map_eq_some_iff] at h
    obtain ⟨cam, hc, r, hr, rfl⟩ := h
    have hmem : r ∈ cam.refs := by simp [Cam.refs, hr]
    refine inv_hold hw i ⟨r, 0, _⟩ (hw.fresh i cam hc _ hmem) ?_
    intro j c hj hr'
    have hij := hw.disj j i c cam hj hc _ hr' hmem
    subst hij
    rw [hc] at hj; cases hj
    refine ⟨rfl, ?_⟩
    have := hw.nodup j cam hc
    simp only [Cam.refs, List.nodup_cons, List.mem_cons, not_or, Option.mem_toList] at this
    intro e
    have e' : r = cam.orig := e
    exact this.2.1 (by rw [hr, e'])
  | setSensor i v =>
    simp only [step, Option.map_eq_some_iff] at h
    obtain ⟨cam, hc, rfl⟩ := h
    have hnd := hw.nodup i cam hc
    have hf := hw.fresh i cam hc
    simp only [Cam.refs, List.nodup_cons, List.mem_cons, not_or] at hnd
    refine inv_setcam hw (grows_allocOpt w v) i cam _ hc rfl ?_ ?_ ?_
    · intro r hr
      simp only [Cam.refs, List.mem_cons, Option.mem_toList] at hr
      rcases hr with rfl | rfl | hr
      · left; simp [Cam.refs]
      · left; simp [Cam.refs]
      · obtain ⟨rfl, a, _, _, h4⟩ := allocOpt_ref _ _ _ hr
        right; rw [h4]; exact ⟨Nat.le_refl _, Nat.lt_succ_self _⟩
    · have fresh : ∀ r ∈ cam.refs, (w.allocOpt v).2 ≠ some r := by
        intro r hr he
        obtain ⟨rfl, _⟩ := allocOpt_ref _ _ _ he
        exact absurd (hf _ hr) (Nat.lt_irrefl _)
      simp only [Cam.refs, List.nodup_cons, List.mem_cons, not_or, Option.mem_toList]
      exact ⟨⟨hnd.1.1, fresh _ (by simp [Cam.refs])⟩, fresh _ (by simp [Cam.refs]), by cases (w.allocOpt v).2 <;> simp⟩
    · show ((w.allocOpt v).1.heap cam.vec).length = 20
      rw [(grows_allocOpt w v).heap _ (hf _ (by simp [Cam.refs]))]; exact (hw.len i cam hc).1
  | toArray i =>
    simp only [step, Option.map_eq_some_iff] at h
    obtain ⟨cam, hc, rfl⟩ := h
    refine inv_hold (inv_grows hw (grows_alloc w _)) i _ (Nat.lt_succ_self _) ?_
    intro j c hj hr
    exact absurd (hw.fresh j c hj _ hr) (Nat.lt_irrefl _)
  | idealize i =>
    simp only [step, Option.map_eq_some_iff] at h
    obtain ⟨cam, hc, rfl⟩ := h
    have h1 := inv_setAttr hw i cam hc .k (List.replicate 6 0) rfl
    have h2 := inv_setAttr h1 i cam hc .p (List.replicate 2 0) rfl
    exact inv_setAttr h2 i cam hc .c (List.replicate 2 0) rfl
  | write k i x =>
    simp only [step, Option.bind_eq_some_iff] at h
    obtain ⟨v, hv, h⟩ := h
    split at h
    · cases h; exact inv_put hw _ _ (by simp)
    · cases h

/-- What a step leaves as it was of a camera that it is not about. -/
theorem frame {w w' : World} (hw : Inv w) (o : Op) (h : step w o = some w') (j : Nat) (cam : Cam) (hj : w.cams[j]? = some cam)
    (hs : subject w o ≠ some j) : w'.cams[j]? = some cam ∧ ∀ r ∈ cam.refs, w'.heap r = w.heap r := by
  have add : ∀ v s, (addCam w v s).cams[j]? = some cam ∧ ∀ r ∈ cam.refs, (addCam w v s).heap r = w.heap r := by
    intro v s
    obtain ⟨w1, c1, g, e, _⟩ := addCam_facts w v s
    rw [e]
    refine ⟨?_, fun r hr => g.heap r (hw.fresh j cam hj r hr)⟩
    show (w1.cams ++ [c1])[j]? = some cam
    rw [g.cams, List.getElem?_append_left (List.getElem?_eq_some_iff.1 hj).1]; exact hj
  have other : ∀ (i : Nat) (c c' : Cam) (w1 : World), w.cams[i]? = some c → i ≠ j → Grows w w1 →
      (w1.cams.set i c')[j]? = some cam ∧ ∀ r ∈ cam.refs, w1.heap r = w.heap r := by
    intro i c c' w1 _ hij g
    exact ⟨by rw [List.getElem?_set_ne hij, g.cams]; exact hj, fun r hr => g.heap r (hw.fresh j cam hj r hr)⟩
  have vec : ∀ (i : Nat) (c : Cam), w.cams[i]? = some c → i ≠ j → ∀ r ∈ cam.refs, r ≠ c.vec := by
    intro i c hc hij r hr e
    exact hij (hw.disj j i cam c hj hc r hr (by simp [Cam.refs, e])).symm
  cases o with
  | new v s =>
    rw [step_new] at h
    split at h
    · cases h; exact add v s
    · cases h
  | copy i =>
    rw [step_copy hw, Option.map_eq_some_iff] at h
    obtain ⟨c, hc, rfl⟩ := h
    exact add _ _
  | reset i =>
    simp only [step, Option.map_eq_some_iff] at h
    obtain ⟨c, hc, rfl⟩ := h
    exact other i c _ _ hc (fun e => hs (by rw [e]; rfl)) (grows_alloc w _)
  | get i a =>
    simp only [step, Option.map_eq_some_iff] at h
    obtain ⟨c, hc, rfl⟩ := h
    cases a with
    | imgsz => exact ⟨hj, fun r hr => (grows_alloc w _).heap r (hw.fresh j cam hj r hr)⟩
    | _ => exact ⟨hj, fun r hr => rfl⟩
  | set i a v =>
    simp only [step, Option.bind_eq_some_iff] at h
    obtain ⟨c, hc, h⟩ := h
    split at h
    · cases h
      refine ⟨hj, fun r hr => ?_⟩
      exact if_neg (vec i c hc (fun e => hs (by rw [e]; rfl)) r hr)
    · cases h
  | getSensor i =>
    simp only [step, Option.bind_eq_some_iff, Option.map_eq_some_iff] at h
    obtain ⟨c, hc, r, hr, rfl⟩ := h
    exact ⟨hj, fun r hr => rfl⟩
  | setSensor i v =>
    simp only [step, Option.map_eq_some_iff] at h
    obtain ⟨c, hc, rfl⟩ := h
    exact other i c _ _ hc (fun e => hs (by rw [e]; rfl)) (grows_allocOpt w _)
  | toArray i =>
    simp only [step, Option.map_eq_some_iff] at h
    obtain ⟨c, hc, rfl⟩ := h
    exact ⟨hj, fun r hr => (grows_alloc w _).heap r (hw.fresh j cam hj r hr)⟩
  | idealize i =>
    simp only [step, Option.map_eq_some_iff] at h
    obtain ⟨c, hc, rfl⟩ := h
    refine ⟨hj, fun r hr => ?_⟩
    have := vec i c hc (fun e => hs (by rw [e]; rfl)) r hr
    simp only [World.setAttr, World.put, if_neg this]
  | write k i x =>
    simp only [step, Option.bind_eq_some_iff] at h
    obtain ⟨v, hv, h⟩ := h
    split at h
    · cases h
      refine ⟨hj, fun r hr => ?_⟩
      refine if_neg fun e => ?_
      obtain ⟨i', v'⟩ := v
      have := (hw.held k i' v' hv).2 j cam hj (by rw [← e]; exact hr)
      apply hs
      simp only [subject, hv, Option.map_some, this.1]
    · cases h

/-- No step changes an original vector. -/
theorem keeps_orig {w w' : World} (hw : Inv w) (o : Op) (h : step w o = some w') (j : Nat) (cam : Cam) (hj : w.cams[j]? = some cam) :
    ∃ cam', w'.cams[j]? = some cam' ∧ cam'.orig = cam.orig ∧ w'.heap cam.orig = w.heap cam.orig := by
  by_cases hs : subject w o = some j
  · have hlt := (List.getElem?_eq_some_iff.1 hj).1
    have hf := hw.fresh j cam hj cam.orig (by simp [Cam.refs])
    have hnd := hw.nodup j cam hj
    simp only [Cam.refs, List.nodup_cons, List.mem_cons, not_or] at hnd
    cases o with
    | new => cases hs
    | copy => cases hs
    | reset i =>
      cases hs
      simp only [step, hj, Option.map_some, Option.some.injEq] at h
      subst h
      exact ⟨_, List.getElem?_set_self hlt, rfl, (grows_alloc w _).heap _ hf⟩
    | get i a =>
      cases hs
      simp only [step, hj, Option.map_some, Option.some.injEq] at h
      subst h
      cases a with
      | imgsz => exact ⟨cam, hj, rfl, (grows_alloc w _).heap _ hf⟩
      | _ => exact ⟨cam, hj, rfl, rfl⟩
    | set i a v =>
      cases hs
      simp only [step, hj, Option.bind_some] at h
      split at h
      · cases h
        exact ⟨cam, hj, rfl, if_neg (Ne.symm hnd.1.1)⟩
      · cases h
    | getSensor i =>
      cases hs
      simp only [step, hj, Option.bind_some, Option.map_eq_some_iff] at h
      obtain ⟨r, _, rfl⟩ := h
      exact ⟨cam, hj, rfl, rfl⟩
    | setSensor i v =>
      cases hs
      simp only [step, hj, Option.map_some, Option.some.injEq] at h
      subst h
      refine ⟨{ cam with sensor := (w.allocOpt v).2 }, ?_, rfl, (grows_allocOpt w _).heap _ hf⟩
      show ((w.allocOpt v).1.cams.set j _)[j]? = _
      rw [(grows_allocOpt w v).cams]
      exact List.getElem?_set_self hlt
    | toArray i =>
      cases hs
      simp only [step, hj, Option.map_some, Option.some.injEq] at h
      subst h
      exact ⟨cam, hj, rfl, (grows_alloc w _).heap _ hf⟩
    | idealize i =>
      cases hs
      simp only [step, hj, Option.map_some, Option.some.injEq] at h
      subst h
      refine ⟨cam, hj, rfl, ?_⟩
      simp only [World.setAttr, World.put, if_neg (Ne.symm hnd.1.1)]
    | write k i x =>
      simp only [step, Option.bind_eq_some_iff] at h
      obtain ⟨⟨i', v⟩, hv, h⟩ := h
      split at h
      · cases h
        refine ⟨cam, hj, rfl, if_neg fun e => ?_⟩
        exact ((hw.held k i' v hv).2 j cam hj (by rw [← e]; simp [Cam.refs])).2 e.symm
      · cases h
  · obtain ⟨h1, h2⟩ := frame hw o h j cam hj hs
    exact ⟨cam, h1, rfl, h2 _ (by simp [Cam.refs])⟩

theorem inv_run {w w' : World} (hw : Inv w) (ops : List Op) (h : run w ops = some w') : Inv w' := by
  induction ops generalizing w with
  | nil => cases h; exact hw
  | cons o ops ih =>
    simp only [run, Option.bind_eq_some_iff] at h
    obtain ⟨w1, h1, h2⟩ := h
    exact ih (inv_step hw o h1) h2

theorem inv_reachable {w : World} (h : Reachable w) : Inv w := by
  obtain ⟨ops, h⟩ := h
  exact inv_run inv_empty ops h

theorem run_keeps_orig {w w' : World} (hw : Inv w) (ops : List Op) (h : run w ops = some w') (j : Nat) (cam : Cam) (hj : w.cams[j]? = some cam) :
    ∃ cam', w'.cams[j]? = some cam' ∧ cam'.orig = cam.orig ∧ w'.heap cam.orig = w.heap cam.orig := by
  induction ops generalizing w cam with
  | nil => cases h; exact ⟨cam, hj, rfl, rfl⟩
  | cons o ops ih =>
    simp only [run, Option.bind_eq_some_iff] at h
    obtain ⟨w1, h1, h2⟩ := h
    obtain ⟨c1, g1, g2, g3⟩ := keeps_orig hw o h1 j cam hj
    obtain ⟨c2, k1, k2, k3⟩ := ih (inv_step hw o h1) h2 c1 g1
    exact ⟨c2, k1, k2.trans g2, by rw [← g2, k3, g2, g3]⟩

theorem reset_vector {w : World} (j : Nat) (cam : Cam) (hj : w.cams[j]? = some cam) :
    ∃ w', step w (.reset j) = some w' ∧ w'.vector j = some (w.heap cam.orig) := by
  have hlt := (List.getElem?_eq_some_iff.1 hj).1
  refine ⟨_, by simp only [step, hj, Option.map_some]; rfl, ?_⟩
  show ((w.cams.set j _)[j]?).map _ = _
  rw [List.getElem?_set_self hlt]
  exact congrArg some (alloc_heap w _)

theorem addCam_vector {w : World} (v : List ℚ) (s : Option (List ℚ)) :
    (addCam w v s).cams.length = w.cams.length + 1 ∧
    ∃ cam, (addCam w v s).cams[w.cams.length]? = some cam ∧ (addCam w v s).heap cam.vec = v ∧ (addCam w v s).heap cam.orig = v ∧
      cam.sensor.map (addCam w v s).heap = s := by
  obtain ⟨w1, c1, g, e, _, _, h3, h4, h5⟩ := addCam_facts w v s
  rw [e]
  refine ⟨by simp [g.cams], c1, ?_, h3, h4, h5⟩
  show (w1.cams ++ [c1])[w.cams.length]? = some c1
  rw [g.cams]; simp

/-- C130: whatever is done with a camera after it was made (and with all others), `reset` succeeds and restores the twenty numbers which it was made
of. -/
theorem reset_restores_new {w w1 w2 : World} (hw : Reachable w) (v : List ℚ) (s : Option (List ℚ)) (h : step w (.new v s) = some w1)
    (ops : List Op) (h2 : run w1 ops = some w2) : ∃ w3, step w2 (.reset w.cams.length) = some w3 ∧ w3.vector w.cams.length = some v := by
  have hi := inv_reachable hw
  have hi1 := inv_step hi _ h
  rw [step_new] at h
  split at h
  · cases h
    obtain ⟨_, cam, g1, _, g3, _⟩ := addCam_vector (w := w) v s
    obtain ⟨c2, k1, k2, k3⟩ := run_keeps_orig hi1 ops h2 _ cam g1
    obtain ⟨w3, l1, l2⟩ := reset_vector (w := w2) w.cams.length c2 k1
    exact ⟨w3, l1, by rw [l2, k2, k3, g3]⟩
  · cases h

/-- C130: a copy has the state of the camera, and `reset` of the copy, whatever was done since, restores this state. -/
theorem reset_restores_copy {w w1 w2 : World} (hw : Reachable w) (i : Nat) (h : step w (.copy i) = some w1) (ops : List Op)
    (h2 : run w1 ops = some w2) :
    w1.vector w.cams.length = w.vector i ∧ w1.sensorsz w.cams.length = w.sensorsz i ∧
    ∃ w3, step w2 (.reset w.cams.length) = some w3 ∧ w3.vector w.cams.length = w.vector i := by
  have hi := inv_reachable hw
  have hi1 := inv_step hi _ h
  rw [step_copy hi, Option.map_eq_some_iff] at h
  obtain ⟨c, hc, rfl⟩ := h
  have hv : w.vector i = some (w.heap c.vec) := by simp only [World.vector, hc, Option.map_some]
  obtain ⟨_, cam, g1, g2, g3, g4⟩ := addCam_vector (w := w) (w.heap c.vec) (c.sensor.map w.heap)
  obtain ⟨c2, k1, k2, k3⟩ := run_keeps_orig hi1 ops h2 _ cam g1
  obtain ⟨w3, l1, l2⟩ := reset_vector (w := w2) w.cams.length c2 k1
  refine ⟨?_, ?_, w3, l1, ?_⟩
  · simp only [World.vector, g1, hc, Option.map_some, g2]
  · simp only [World.sensorsz, g1, hc, Option.map_some, g4]
  · rw [l2, k2, k3, g3, hv]

/-- C130: a step that is about another camera (or a value got from another camera), or about none, changes nothing of a camera. -/
theorem others_unchanged {w w' : World} (hw : Reachable w) (o : Op) (h : step w o = some w') (j : Nat) (hj : j < w.cams.length)
    (hs : subject w o ≠ some j) : w'.vector j = w.vector j ∧ w'.sensorsz j = w.sensorsz j := by
  obtain ⟨cam, hc⟩ : ∃ cam, w.cams[j]? = some cam := ⟨_, List.getElem?_eq_getElem hj⟩
  obtain ⟨h1, h2⟩ := frame (inv_reachable hw) o h j cam hc hs
  refine ⟨?_, ?_⟩
  · simp only [World.vector, hc, h1, Option.map_some, h2 cam.vec (by simp [Cam.refs])]
  · simp only [World.sensorsz, hc, h1, Option.map_some]
    cases hsn : cam.sensor with
    | none => rfl
    | some r => simp only [Option.map_some, h2 r (by simp [Cam.refs, hsn])]

/-! ### Views -/

theorem addCam_held (w : World) (v : List ℚ) (s : Option (List ℚ)) : (addCam w v s).held = w.held := by
  obtain ⟨w1, c1, g, e, _⟩ := addCam_facts w v s
  rw [e]; exact g.held

/-- Values stay where they are. -/
theorem step_held {w w' : World} (hw : Inv w) (o : Op) (h : step w o = some w') (k : Nat) (v : Nat × View) (hv : w.held[k]? = some v) :
    w'.held[k]? = some v := by
  have app : ∀ u : Nat × View, (w.held ++ [u])[k]? = some v := fun u => by
    rw [List.getElem?_append_left (List.getElem?_eq_some_iff.1 hv).1]; exact hv
  cases o with
  | new a s =>
    rw [step_new] at h
    split at h
    · cases h; rw [addCam_held]; exact hv
    · cases h
  | copy i =>
    rw [step_copy hw, Option.map_eq_some_iff] at h
    obtain ⟨c, hc, rfl⟩ := h
    rw [addCam_held]; exact hv
  | reset i =>
    simp only [step, Option.map_eq_some_iff] at h
    obtain ⟨c, hc, rfl⟩ := h
    exact hv
  | get i a =>
    simp only [step, Option.map_eq_some_iff] at h
    obtain ⟨c, hc, rfl⟩ := h
    cases a <;> exact app _
  | set i a x =>
    simp only [step, Option.bind_eq_some_iff] at h
    obtain ⟨c, hc, h⟩ := h
    split at h
    · cases h; exact hv
    · cases h
  | getSensor i =>
    simp only [step, Option.bind_eq_some_iff, Option.map_eq_some_iff] at h
    obtain ⟨c, hc, r, hr, rfl⟩ := h
    exact app _
  | setSensor i a =>
    simp only [step, Option.map_eq_some_iff] at h
    obtain ⟨c, hc, rfl⟩ := h
    show (w.allocOpt a).1.held[k]? = some v
    rw [(grows_allocOpt w a).held]; exact hv
  | toArray i =>
    simp only [step, Option.map_eq_some_iff] at h
    obtain ⟨c, hc, rfl⟩ := h
    exact app _
  | idealize i =>
    simp only [step, Option.map_eq_some_iff] at h
    obtain ⟨c, hc, rfl⟩ := h
    exact hv
  | write n i x =>
    simp only [step, Option.bind_eq_some_iff] at h
    obtain ⟨u, hu, h⟩ := h
    split at h
    · cases h; exact hv
    · cases h

/-- Only `reset` gives a camera another vector. -/
theorem step_vec {w w' : World} (hw : Inv w) (o : Op) (h : step w o = some w') (j : Nat) (cam : Cam) (hj : w.cams[j]? = some cam)
    (hr : o ≠ .reset j) : ∃ cam', w'.cams[j]? = some cam' ∧ cam'.vec = cam.vec := by
  by_cases hs : subject w o = some j
  · have hlt := (List.getElem?_eq_some_iff.1 hj).1
    cases o with
    | new => cases hs
    | copy => cases hs
    | reset i => cases hs; exact absurd rfl hr
    | get i a =>
      cases hs
      simp only [step, hj, Option.map_some, Option.some.injEq] at h
      subst h
      cases a <;> exact ⟨cam, hj, rfl⟩
    | set i a v =>
      cases hs
      simp only [step, hj, Option.bind_some] at h
      split at h
      · cases h; exact ⟨cam, hj, rfl⟩
      · cases h
    | getSensor i =>
      cases hs
      simp only [step, hj, Option.bind_some, Option.map_eq_some_iff] at h
      obtain ⟨r, _, rfl⟩ := h
      exact ⟨cam, hj, rfl⟩
    | setSensor i v =>
      cases hs
      simp only [step, hj, Option.map_some, Option.some.injEq] at h
      subst h
      refine ⟨{ cam with sensor := (w.allocOpt v).2 }, ?_, rfl⟩
      show ((w.allocOpt v).1.cams.set j _)[j]? = _
      rw [(grows_allocOpt w v).cams]
      exact List.getElem?_set_self hlt
    | toArray i =>
      cases hs
      simp only [step, hj, Option.map_some, Option.some.injEq] at h
      subst h
      exact ⟨cam, hj, rfl⟩
    | idealize i =>
      cases hs
      simp only [step, hj, Option.map_some, Option.some.injEq] at h
      subst h
      exact ⟨cam, hj, rfl⟩
    | write k i x =>
      simp only [step, Option.bind_eq_some_iff] at h
      obtain ⟨u, hu, h⟩ := h
      split at h
      · cases h; exact ⟨cam, hj, rfl⟩
      · cases h
  · obtain ⟨h1, _⟩ := frame hw o h j cam hj hs
    exact ⟨cam, h1, rfl⟩

theorem run_live {w w' : World} (hw : Inv w) (ops : List Op) (h : run w ops = some w') (j k : Nat) (cam : Cam) (u : Nat × View)
    (hj : w.cams[j]? = some cam) (hk : w.held[k]? = some u) (hr : Op.reset j ∉ ops) :
    w'.held[k]? = some u ∧ ∃ cam', w'.cams[j]? = some cam' ∧ cam'.vec = cam.vec := by
  induction ops generalizing w cam with
  | nil => cases h; exact ⟨hk, cam, hj, rfl⟩
  | cons o ops ih =>
    simp only [run, Option.bind_eq_some_iff] at h
    obtain ⟨w1, h1, h2⟩ := h
    obtain ⟨c1, g1, g2⟩ := step_vec hw o h1 j cam hj (fun e => hr (by rw [e]; exact List.mem_cons_self))
    obtain ⟨k1, c2, k2, k3⟩ := ih (inv_step hw o h1) h2 c1 g1 (step_held hw o h1 k u hk) (fun hm => hr (List.mem_cons_of_mem _ hm))
    exact ⟨k1, c2, k2, k3.trans g2⟩

/-- An attribute other than the image size, as part of the vector. -/
theorem get_view {w w1 : World} (i : Nat) (a : Attr) (ha : a ≠ .imgsz) (h : step w (.get i a) = some w1) :
    ∃ cam, w.cams[i]? = some cam ∧ w1.cams = w.cams ∧ w1.heap = w.heap ∧ w1.held[w.held.length]? = some (i, ⟨cam.vec, a.start, a.len⟩) := by
  simp only [step, Option.map_eq_some_iff] at h
  obtain ⟨c, hc, rfl⟩ := h
  cases a with
  | imgsz => exact absurd rfl ha
  | _ => exact ⟨c, hc, rfl, rfl, by simp⟩

/-- C130: an attribute `x = cam.a` (other than `imgsz`) stays equal to `cam.a` through all that is done with any cameras and values, as long as `cam` is
not reset. -/
theorem view_live {w w1 w2 : World} (hw : Reachable w) (i : Nat) (a : Attr) (ha : a ≠ .imgsz) (h : step w (.get i a) = some w1) (ops : List Op)
    (h2 : run w1 ops = some w2) (hr : Op.reset i ∉ ops) :
    ∃ v, w2.vector i = some v ∧ w2.read w.held.length = some ((v.drop a.start).take a.len) := by
  have hi1 := inv_step (inv_reachable hw) _ h
  obtain ⟨cam, g1, g2, _, g4⟩ := get_view i a ha h
  obtain ⟨k1, c2, k2, k3⟩ := run_live hi1 ops h2 i w.held.length cam _ (by rw [g2]; exact g1) g4 hr
  exact ⟨w2.heap c2.vec, by simp only [World.vector, k2, Option.map_some], by simp only [World.read, k1, Option.map_some, k3]⟩

/-- C130: writing to element `n` of it writes to this element of the attribute, and to no other number of the camera. -/
theorem view_write {w w1 w2 : World} (hw : Reachable w) (i : Nat) (a : Attr) (ha : a ≠ .imgsz) (h : step w (.get i a) = some w1) (ops : List Op)
    (h2 : run w1 ops = some w2) (hr : Op.reset i ∉ ops) (n : Nat) (hn : n < a.len) (x : ℚ) :
    ∃ v w3, w2.vector i = some v ∧ v.length = 20 ∧ step w2 (.write w.held.length n x) = some w3 ∧ w3.vector i = some (v.set (a.start + n) x) := by
  have hi1 := inv_step (inv_reachable hw) _ h
  have hi2 := inv_run hi1 ops h2
  obtain ⟨cam, g1, g2, _, g4⟩ := get_view i a ha h
  obtain ⟨k1, c2, k2, k3⟩ := run_live hi1 ops h2 i w.held.length cam _ (by rw [g2]; exact g1) g4 hr
  refine ⟨w2.heap c2.vec, w2.put cam.vec ((w2.heap cam.vec).set (a.start + n) x), by simp only [World.vector, k2, Option.map_some], (hi2.len i c2 k2).1, ?_, ?_⟩
  · simp only [step, k1, Option.bind_some, if_pos hn]
  · show ((w2.cams[i]?).map fun c => if c.vec = cam.vec then _ else _) = _
    simp only [k2, Option.map_some, k3, if_true]

theorem assign_get (l v : List ℚ) (s n : Nat) (h : s + v.length ≤ l.length) :
    (assign l s v)[n]? = if s ≤ n ∧ n < s + v.length then v[n - s]? else l[n]? := by
  unfold assign
  by_cases h1 : n < s
  · rw [if_neg (by omega), List.append_assoc, List.getElem?_append_left (by rw [List.length_take]; omega), List.getElem?_take_of_lt h1]
  · by_cases h2 : n < s + v.length
    · rw [if_pos ⟨by omega, h2⟩, List.append_assoc, List.getElem?_append_right (by rw [List.length_take]; omega), List.length_take,
        Nat.min_eq_left (by omega), List.getElem?_append_left (by omega)]
    · rw [if_neg (by omega), List.getElem?_append_right (by rw [List.length_append, List.length_take]; omega), List.length_append,
        List.length_take, Nat.min_eq_left (by omega), List.getElem?_drop]
      congr 1; omega

/-- C130: setting an attribute (`cam.a = v`) gives it these elements and changes no other number of the camera. -/
theorem set_attribute {w w' : World} (hw : Reachable w) (i : Nat) (a : Attr) (v : List ℚ) (h : step w (.set i a v) = some w') :
    ∃ old new, w.vector i = some old ∧ w'.vector i = some new ∧ old.length = 20 ∧ new.length = 20 ∧
      ∀ n < 20, new[n]? = if a.start ≤ n ∧ n < a.start + a.len then v[n - a.start]? else old[n]? := by
  simp only [step, Option.bind_eq_some_iff] at h
  obtain ⟨cam, hc, h⟩ := h
  split at h
  · rename_i hv
    cases h
    have hl := ((inv_reachable hw).len i cam hc).1
    have hfit := attr_fits a
    refine ⟨w.heap cam.vec, assign (w.heap cam.vec) a.start v, by simp only [World.vector, hc, Option.map_some], ?_, hl,
      by rw [assign_length _ _ _ (by omega)]; exact hl, ?_⟩
    · show ((w.cams[i]?).map fun c => if c.vec = cam.vec then _ else _) = _
      simp only [hc, Option.map_some, if_true]
    · intro n hn
      rw [assign_get _ _ _ _ (by omega), hv]
  · cases h

/-! ### Values that are not views -/

/-- The number of a value is the caller's own: no camera uses its array. -/
def Own (w : World) (k : Nat) : Prop := ∀ v, w.held[k]? = some v → ∀ (j : Nat) cam, w.cams[j]? = some cam → v.2.ref ∉ cam.refs

theorem own_write {w w' : World} (k n : Nat) (x : ℚ) (ho : Own w k) (h : step w (.write k n x) = some w') (j : Nat) :
    w'.vector j = w.vector j ∧ w'.sensorsz j = w.sensorsz j := by
  simp only [step, Option.bind_eq_some_iff] at h
  obtain ⟨v, hv, h⟩ := h
  split at h
  · cases h
    have keep : ∀ (cam : Cam), w.cams[j]? = some cam → ∀ r ∈ cam.refs, (if r = v.2.ref then (w.heap v.2.ref).set (v.2.start + n) x else w.heap r) = w.heap r := by
      intro cam hc r hr
      exact if_neg fun e => ho v hv j cam hc (by rw [← e]; exact hr)
    constructor
    · show ((w.cams[j]?).map _) = (w.cams[j]?).map _
      cases hc : w.cams[j]? with
      | none => rfl
      | some cam => exact congrArg some (keep cam hc cam.vec (by simp [Cam.refs]))
    · show ((w.cams[j]?).map _) = (w.cams[j]?).map _
      cases hc : w.cams[j]? with
      | none => rfl
      | some cam =>
        refine congrArg some ?_
        show cam.sensor.map _ = cam.sensor.map _
        cases hs : cam.sensor with
        | none => rfl
        | some r => exact congrArg some (keep cam hc r (by simp [Cam.refs, hs]))
  · cases h

theorem own_step {w w' : World} (hw : Inv w) (o : Op) (h : step w o = some w') (k : Nat) (v : Nat × View) (hv : w.held[k]? = some v)
    (ho : Own w k) : Own w' k := by
  have hlt : v.2.ref < w.next := by obtain ⟨i, u⟩ := v; exact (hw.held k i u hv).1
  have ho' := ho v hv
  have keep : ∀ w1 : World, w1.held[k]? = some v → (∀ (j : Nat) cam, w1.cams[j]? = some cam → v.2.ref ∉ cam.refs) → Own w1 k := by
    intro w1 h1 h2 u hu
    rw [h1] at hu; cases hu; exact h2
  refine keep w' (step_held hw o h k v hv) ?_
  have add : ∀ a s, ∀ (j : Nat) cam, (addCam w a s).cams[j]? = some cam → v.2.ref ∉ cam.refs := by
    intro a s j cam hj
    obtain ⟨w1, c1, g, e, h1, _⟩ := addCam_facts w a s
    rw [e] at hj
    simp only [g.cams, List.getElem?_append] at hj
    split at hj
    · exact ho' j cam hj
    · rw [List.getElem?_singleton] at hj
      split at hj
      · cases hj
        intro hm
        exact absurd (h1 _ hm).1 (Nat.not_le.mpr hlt)
      · cases hj
  have setc : ∀ (i : Nat) (c c' : Cam), w.cams[i]? = some c → (∀ r ∈ c'.refs, r ∈ c.refs ∨ w.next ≤ r) →
      ∀ (j : Nat) cam, (w.cams.set i c')[j]? = some cam → v.2.ref ∉ cam.refs := by
    intro i c c' hc hr j cam hj hm
    rw [List.getElem?_set] at hj
    split at hj
    · split at hj
      · cases hj
        rcases hr _ hm with h1 | h1
        · exact ho' i c hc h1
        · exact absurd h1 (Nat.not_le.mpr hlt)
      · cases hj
    · exact ho' j cam hj hm
  cases o with
  | new a s =>
    rw [step_new] at h
    split at h
    · cases h; exact add _ _
    · cases h
  | copy i =>
    rw [step_copy hw, Option.map_eq_some_iff] at h
    obtain ⟨c, hc, rfl⟩ := h
    exact add _ _
  | reset i =>
    simp only [step, Option.map_eq_some_iff] at h
    obtain ⟨c, hc, rfl⟩ := h
    refine setc i c { c with vec := w.next } hc ?_
    intro r hr
    simp only [Cam.refs, List.mem_cons] at hr ⊢
    rcases hr with rfl | rfl | hr
    · exact Or.inr (Nat.le_refl _)
    · exact Or.inl (Or.inr (Or.inl rfl))
    · exact Or.inl (Or.inr (Or.inr hr))
  | get i a =>
    simp only [step, Option.map_eq_some_iff] at h
    obtain ⟨c, hc, rfl⟩ := h
    cases a <;> exact ho'
  | set i a x =>
    simp only [step, Option.bind_eq_some_iff] at h
    obtain ⟨c, hc, h⟩ := h
    split at h
    · cases h; exact ho'
    · cases h
  | getSensor i =>
    simp only [step, Option.bind_eq_some_iff, Option.map_eq_some_iff] at h
    obtain ⟨c, hc, r, hr, rfl⟩ := h
    exact ho'
  | setSensor i a =>
    simp only [step, Option.map_eq_some_iff] at h
    obtain ⟨c, hc, rfl⟩ := h
    have := setc i c { c with sensor := (w.allocOpt a).2 } hc (by
      intro r hr
      simp only [Cam.refs, List.mem_cons, Option.mem_toList] at hr ⊢
      rcases hr with rfl | rfl | hr
      · exact Or.inl (Or.inl rfl)
      · exact Or.inl (Or.inr (Or.inl rfl))
      · obtain ⟨rfl, _⟩ := allocOpt_ref _ _ _ hr
        exact Or.inr (Nat.le_refl _))
    intro j cam hj
    refine this j cam ?_
    rw [← (grows_allocOpt w a).cams]; exact hj
  | toArray i =>
    simp only [step, Option.map_eq_some_iff] at h
    obtain ⟨c, hc, rfl⟩ := h
    exact ho'
  | idealize i =>
    simp only [step, Option.map_eq_some_iff] at h
    obtain ⟨c, hc, rfl⟩ := h
    exact ho'
  | write n i x =>
    simp only [step, Option.bind_eq_some_iff] at h
    obtain ⟨u, hu, h⟩ := h
    split at h
    · cases h; exact ho'
    · cases h

theorem own_run {w w' : World} (hw : Inv w) (ops : List Op) (h : run w ops = some w') (k : Nat) (v : Nat × View) (hv : w.held[k]? = some v)
    (ho : Own w k) : Own w' k := by
  induction ops generalizing w with
  | nil => cases h; exact ho
  | cons o ops ih =>
    simp only [run, Option.bind_eq_some_iff] at h
    obtain ⟨w1, h1, h2⟩ := h
    exact ih (inv_step hw o h1) h2 (step_held hw o h1 k v hv) (own_step hw o h1 k v hv ho)

/-- C130: `to_array()` gives the twenty numbers in an array of the caller's own: writing to it never changes a camera. -/
theorem to_array_own {w w1 w2 w3 : World} (hw : Reachable w) (i : Nat) (h : step w (.toArray i) = some w1) (ops : List Op) (h2 : run w1 ops = some w2)
    (n : Nat) (x : ℚ) (h3 : step w2 (.write w.held.length n x) = some w3) :
    w1.read w.held.length = w.vector i ∧ ∀ j, w3.vector j = w2.vector j ∧ w3.sensorsz j = w2.sensorsz j := by
  have hi := inv_reachable hw
  have hi1 := inv_step hi _ h
  simp only [step, Option.map_eq_some_iff] at h
  obtain ⟨c, hc, rfl⟩ := h
  have hh : (w.held ++ [(i, (⟨w.next, 0, 20⟩ : View))])[w.held.length]? = some (i, ⟨w.next, 0, 20⟩) := by simp
  refine ⟨?_, fun j => own_write _ n x (own_run hi1 ops h2 _ (i, ⟨w.next, 0, 20⟩) hh ?_) h3 j⟩
  · show ((w.held ++ [(i, (⟨w.next, 0, 20⟩ : View))])[w.held.length]?).map _ = _
    rw [hh]
    simp only [World.vector, hc, Option.map_some]
    have : (w.alloc (w.heap c.vec)).1.heap w.next = w.heap c.vec := alloc_heap w _
    show some ((((w.alloc (w.heap c.vec)).1.heap w.next).drop 0).take 20) = _
    rw [this, List.drop_zero, List.take_of_length_le (by rw [(hi.len i c hc).1])]
  · intro v hv j cam hj hm
    have : v = (i, ⟨w.next, 0, 20⟩) := by
      have e : (w.held ++ [(i, (⟨w.next, 0, 20⟩ : View))])[w.held.length]? = some v := hv
      rw [hh] at e; exact (Option.some.inj e).symm
    subst this
    exact absurd (hi.fresh j cam hj _ hm) (Nat.lt_irrefl _)

/-- C130 fails for the image size: `cam.imgsz[n] = x` changes no camera (nor raises). -/
theorem imgsz_write_violated {w w1 : World} (hw : Reachable w) (i : Nat) (h : step w (.get i .imgsz) = some w1) (n : Nat) (hn : n < 2) (x : ℚ) :
    ∃ w2, step w1 (.write w.held.length n x) = some w2 ∧ ∀ j, w2.vector j = w.vector j := by
  have hi := inv_reachable hw
  simp only [step, Option.map_eq_some_iff] at h
  obtain ⟨c, hc, rfl⟩ := h
  have hh : (w.held ++ [(i, (⟨w.next, 0, 2⟩ : View))])[w.held.length]? = some (i, ⟨w.next, 0, 2⟩) := by simp
  refine ⟨({ (w.alloc (((w.heap c.vec).drop 6).take 2 |>.map fun x => (truncInt x : ℚ))).1 with held := w.held ++ [(i, (⟨w.next, 0, 2⟩ : View))] } :
      World).put w.next (((w.alloc (((w.heap c.vec).drop 6).take 2 |>.map fun x => (truncInt x : ℚ))).1.heap w.next).set (0 + n) x), ?_, ?_⟩
  · simp only [step]
    rw [show ((w.alloc (((w.heap c.vec).drop 6).take 2 |>.map fun x => (truncInt x : ℚ))).1.held ++
      [(i, (⟨(w.alloc (((w.heap c.vec).drop 6).take 2 |>.map fun x => (truncInt x : ℚ))).2, 0, 2⟩ : View))])[w.held.length]? =
        some (i, ⟨w.next, 0, 2⟩) from hh]
    simp only [Option.bind_some, if_pos hn]
    rfl
  · intro j
    show ((w.cams[j]?).map _) = (w.cams[j]?).map _
    cases hj : w.cams[j]? with
    | none => rfl
    | some cam =>
      have hlt := hi.fresh j cam hj cam.vec (by simp [Cam.refs])
      refine congrArg some ?_
      show (if cam.vec = w.next then _ else (if cam.vec = w.next then _ else w.heap cam.vec)) = w.heap cam.vec
      rw [if_neg (Nat.ne_of_lt hlt), if_neg (Nat.ne_of_lt hlt)]

/-- C130 fails for the sensor size: `reset` does not restore it. -/
theorem reset_sensor_violated {w w' : World} (i : Nat) (h : step w (.reset i) = some w') (hw : Reachable w) : w'.sensorsz i = w.sensorsz i := by
  have hi := inv_reachable hw
  simp only [step, Option.map_eq_some_iff] at h
  obtain ⟨c, hc, rfl⟩ := h
  show ((w.cams.set i _)[i]?).map _ = (w.cams[i]?).map _
  rw [List.getElem?_set_self (List.getElem?_eq_some_iff.1 hc).1, hc]
  refine congrArg some ?_
  show c.sensor.map _ = c.sensor.map _
  cases hs : c.sensor with
  | none => rfl
  | some r =>
    refine congrArg some ?_
    exact (grows_alloc w _).heap r (hi.fresh i c hc r (by simp [Cam.refs, hs]))

/-- Setting the sensor size is what is seen. -/
theorem set_sensor {w w' : World} (i : Nat) (v : Option (List ℚ)) (h : step w (.setSensor i v) = some w') : w'.sensorsz i = some v := by
  simp only [step, Option.map_eq_some_iff] at h
  obtain ⟨c, hc, rfl⟩ := h
  show (((w.allocOpt v).1.cams.set i _)[i]?).map _ = _
  rw [(grows_allocOpt w v).cams, List.getElem?_set_self (List.getElem?_eq_some_iff.1 hc).1]
  refine congrArg some ?_
  cases hs : (w.allocOpt v).2 with
  | none => cases v with
    | none => rfl
    | some => cases hs
  | some r =>
    obtain ⟨rfl, a, rfl, h3, _⟩ := allocOpt_ref _ _ _ hs
    show some ((w.allocOpt (some a)).1.heap w.next) = some a
    rw [h3]

/-- C130 fails after `reset`: a view taken before is no longer of the camera. -/
theorem view_reset_violated {w w1 w2 : World} (hw : Reachable w) (i : Nat) (a : Attr) (ha : a ≠ .imgsz) (h : step w (.get i a) = some w1)
    (h2 : step w1 (.reset i) = some w2) (n : Nat) (hn : n < a.len) (x : ℚ) :
    ∃ w3, step w2 (.write w.held.length n x) = some w3 ∧ w3.vector i = w2.vector i := by
  have hi := inv_reachable hw
  have hi1 := inv_step hi _ h
  obtain ⟨cam, g1, g2, g3, g4⟩ := get_view i a ha h
  have hc1 : w1.cams[i]? = some cam := by rw [g2]; exact g1
  have hk := step_held hi1 _ h2 _ _ g4
  refine ⟨_, by simp only [step, hk, Option.bind_some, if_pos hn]; rfl, ?_⟩
  simp only [step, hc1, Option.map_some, Option.some.injEq] at h2
  subst h2
  have hlt := hi1.fresh i cam hc1 cam.vec (by simp [Cam.refs])
  show ((w1.cams.set i _)[i]?).map _ = ((w1.cams.set i _)[i]?).map _
  rw [List.getElem?_set_self (List.getElem?_eq_some_iff.1 hc1).1]
  refine congrArg some ?_
  show (if w1.next = cam.vec then _ else _) = _
  rw [if_neg (Nat.ne_of_gt hlt)]

/-- C130: `idealize` sets principal point offset and distortion to zero, and changes no other number. -/
theorem idealize_spec {w w' : World} (hw : Reachable w) (i : Nat) (h : step w (.idealize i) = some w') :
    ∃ old new, w.vector i = some old ∧ w'.vector i = some new ∧ new.length = 20 ∧ ∀ n < 20, new[n]? = if 10 ≤ n then some 0 else old[n]? := by
  have hi := inv_reachable hw
  simp only [step, Option.map_eq_some_iff] at h
  obtain ⟨cam, hc, rfl⟩ := h
  have hl := (hi.len i cam hc).1
  refine ⟨w.heap cam.vec, assign (assign (assign (w.heap cam.vec) 12 (List.replicate 6 0)) 18 (List.replicate 2 0)) 10 (List.replicate 2 0),
    by simp only [World.vector, hc, Option.map_some], ?_, ?_, ?_⟩
  · simp only [World.vector, World.setAttr, World.put, Attr.start, hc, Option.map_some, if_true]
  · rw [assign_length, assign_length, assign_length] <;> simp [assign_length, hl, assign]
  · generalize w.heap cam.vec = l at hl
    intro n hn
    have e6 : (List.replicate 6 (0 : ℚ)).length = 6 := List.length_replicate
    have e2 : (List.replicate 2 (0 : ℚ)).length = 2 := List.length_replicate
    have l1 := assign_length l 12 (List.replicate 6 0) (by omega)
    have l2 := assign_length (assign l 12 (List.replicate 6 0)) 18 (List.replicate 2 0) (by omega)
    rw [assign_get _ _ _ _ (by omega), assign_get _ _ _ _ (by omega), assign_get _ _ _ _ (by omega), e2, e6]
    simp only [List.getElem?_replicate]
    split_ifs <;> first | rfl | omega

/-! ### A concrete history -/

/-- A camera is made, its focal length changed through a view, copied, reset; then the copy is written to. -/
def story : List Op :=
  [.new ((List.range 20).map fun n => (n : ℚ)) (some [36, 24]), .get 0 .f, .write 0 1 99, .copy 0, .reset 0, .get 1 .xyz, .write 1 0 7, .idealize 1]

/-- The history runs to its end: there are reachable worlds with several cameras and values. -/
example : (run World.empty story).isSome = true := by decide +kernel

/-- The first camera has its original vector; the second has the focal length of the first when it was copied, and its own position. -/
example : (run World.empty story).bind (World.vector · 0) = some ((List.range 20).map fun n => (n : ℚ)) := by decide +kernel

example : (run World.empty story).bind (World.vector · 1) = some [7, 1, 2, 3, 4, 5, 6, 7, 8, 99, 0, 0, 0, 0, 0, 0, 0, 0, 0, 0] := by decide +kernel

end Glimpse.CamMem
