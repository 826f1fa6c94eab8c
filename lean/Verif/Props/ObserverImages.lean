import Verif.Model.ObserverImages
import Verif.Props.ImageRead
import Verif.Lemmas.ExceptList
import Mathlib.Data.List.GetD

/-!
C113: the images of an `Observer`, cached or not.
-/
set_option autoImplicit false
set_option linter.unusedSimpArgs false
set_option linter.unusedSectionVars false

namespace Glimpse.ObserverImages

open Glimpse.ImageRead

variable {α : Type}

/-! ### Specification -/

/-- A history in which `shift_tile` is only used on tiles that are not part of the array cached for an image. -/
def Safe : Obs α → List (Op α) → Prop
  | _, [] => True
  | o, op :: ops => (match op with
      | .shift t _ => ∀ v, o.tiles[t]? = some v → ∀ r ∈ o.imgs, r.arr ≠ some v.1
      | .resize _ nx ny => 0 < nx ∧ 0 < ny
      | _ => True) ∧ Safe (o.step op) ops

/-- Files that GDAL reads, with cameras of positive size. -/
def FilesOk (files : List (File α × (Nat × Nat))) : Prop := ∀ p ∈ files, p.1.Ok ∧ 0 < p.2.1 ∧ 0 < p.2.2

/-- Index `img` means image number `k` of `n`, counted from the end if negative. -/
def Means (n : Nat) (img : ℤ) (k : Nat) : Prop := k < n ∧ (img = k ∨ img = (k : ℤ) - n)

/-! ### Invariant -/

private structure ImgOk (o : Obs α) (r : ImgRef α) : Prop where
  file : r.file.Ok
  cam : 0 < r.cam.1 ∧ 0 < r.cam.2
  addr : ∀ a, r.arr = some a → a < o.heap.length
  cached : Cached (o.img r)

private def Inv (o : Obs α) : Prop := ∀ r ∈ o.imgs, ImgOk o r

private theorem img_heap (o : Obs α) (r : ImgRef α) (h : ∀ a, r.arr = some a → a < o.heap.length) (l : List (List (List α))) (imgs cache tiles) :
    (⟨o.heap ++ l, imgs, cache, tiles⟩ : Obs α).img r = o.img r := by
  unfold Obs.img
  cases hr : r.arr with
  | none => rfl
  | some a =>
    simp only [Option.bind_some]
    rw [List.getElem?_append_left (h a hr)]

private theorem imgOk_heap (o : Obs α) (r : ImgRef α) (h : ImgOk o r) (l : List (List (List α))) (imgs cache tiles) :
    ImgOk (⟨o.heap ++ l, imgs, cache, tiles⟩ : Obs α) r :=
  ⟨h.file, h.cam, fun a ha => by rw [List.length_append]; have := h.addr a ha; omega, by rw [img_heap o r h.addr]; exact h.cached⟩

/-- What a read does, for all observers. -/
private theorem readImg_spec (o : Obs α) (hI : Inv o) (k : Nat) (r : ImgRef α) (hr : o.imgs[k]? = some r) (box : Option Box) (cache : Bool) :
    Inv (o.readImg k r box cache).1 ∧
    (∃ l, (o.readImg k r box cache).1.heap = o.heap ++ l) ∧
    (o.readImg k r box cache).1.cache = o.cache ∧ (o.readImg k r box cache).1.tiles = o.tiles ∧
    (∀ j, j ≠ k → (o.readImg k r box cache).1.imgs[j]? = o.imgs[j]?) ∧
    (∃ r', (o.readImg k r box cache).1.imgs[k]? = some r' ∧ r'.file = r.file ∧ r'.cam = r.cam ∧
      (o.readImg k r box cache).1.img r' = ((o.img r).read box cache).2) ∧
    (o.readImg k r box cache).1.imgs.length = o.imgs.length ∧
    (o.readImg k r box cache).2.map (fun v => (o.readImg k r box cache).1.content v) = ((o.img r).read box cache).1 ∧
    (∀ v, (o.readImg k r box cache).2 = .ok v → v.1 < (o.readImg k r box cache).1.heap.length) ∧
    (cache = false → (o.readImg k r box cache).1.imgs = o.imgs) := by
  have hok := hI r (List.mem_of_getElem? hr)
  have hk : k < o.imgs.length := (List.getElem?_eq_some_iff.1 hr).1
  have hstep := step_cached (o.img r) hok.file hok.cam hok.cached box cache
  have file : ((o.img r).array = none ∨ (o.img r).cam ≠ (o.img r).size) → ∀ p, p = o.fromFile k r box cache →
      ((o.img r).read box cache) = (o.img r).fromFile box cache →
      Inv p.1 ∧ (∃ l, p.1.heap = o.heap ++ l) ∧ p.1.cache = o.cache ∧ p.1.tiles = o.tiles ∧ (∀ j, j ≠ k → p.1.imgs[j]? = o.imgs[j]?) ∧
      (∃ r', p.1.imgs[k]? = some r' ∧ r'.file = r.file ∧ r'.cam = r.cam ∧ p.1.img r' = ((o.img r).read box cache).2) ∧
      p.1.imgs.length = o.imgs.length ∧ p.2.map (fun v => p.1.content v) = ((o.img r).read box cache).1 ∧
      (∀ v, p.2 = .ok v → v.1 < p.1.heap.length) ∧ (cache = false → p.1.imgs = o.imgs) := by
    intro hno p hp hread
    rw [hread] at hstep ⊢
    unfold Img.fromFile at hstep ⊢
    unfold Obs.fromFile at hp
    cases e : (o.img r).readFile box cache with
    | error er =>
      rw [e] at hp hstep
      subst hp
      exact ⟨hI, ⟨[], by simp⟩, rfl, rfl, fun _ _ => rfl, ⟨r, hr, rfl, rfl, rfl⟩, rfl, rfl, fun v hv => (by cases hv), fun _ => rfl⟩
    | ok a =>
      rw [e] at hp hstep
      simp only [Obs.store] at hp hstep ⊢
      cases cache with
      | false =>
        simp only [Bool.false_eq_true, if_false] at hp hstep ⊢
        subst hp
        refine ⟨fun r' hr' => imgOk_heap o r' (hI r' hr') _ _ _ _, ⟨[a], rfl⟩, rfl, rfl, fun _ _ => rfl, ⟨r, hr, rfl, rfl, ?_⟩, rfl, ?_, ?_, fun _ => rfl⟩
        · rw [img_heap o r hok.addr]; cases box <;> rfl
        · cases box <;> simp [Except.map, Obs.content, window, List.getD_eq_getElem?_getD]
        · intro v hv; cases hv; simp
      | true =>
        simp only [if_true] at hp hstep ⊢
        subst hp
        have himg : ∀ imgs cache tiles, (⟨o.heap ++ [a], imgs, cache, tiles⟩ : Obs α).img ⟨r.file, r.cam, some o.heap.length⟩ = ⟨r.file, r.cam, some a⟩ := by
          intro _ _ _
          unfold Obs.img; simp
        refine ⟨?_, ⟨[a], rfl⟩, rfl, rfl, ?_, ⟨⟨r.file, r.cam, some o.heap.length⟩, ?_, rfl, rfl, ?_⟩, by simp, ?_, ?_, fun h => by cases h⟩
        · intro r' hr'
          rcases List.mem_or_eq_of_mem_set hr' with h | h
          · exact imgOk_heap o r' (hI r' h) _ _ _ _
          · subst h
            refine ⟨hok.file, hok.cam, fun b hb => by cases hb; simp, ?_⟩
            rw [himg]
            cases box <;> exact hstep.1
        · intro j hj
          exact List.getElem?_set_ne (Ne.symm hj)
        · rw [List.getElem?_set_self hk]
        · rw [himg]; cases box <;> rfl
        · cases box <;> simp [Except.map, Obs.content, window, List.getD_eq_getElem?_getD]
        · intro v hv; cases hv; simp
  unfold Obs.readImg
  cases ha : (o.img r).array with
  | none =>
    refine file (Or.inl ha) _ rfl ?_
    unfold Img.read; rw [ha]
  | some a =>
    cases hd : decide ((o.img r).cam = (o.img r).size) with
    | false =>
      refine file (Or.inr (of_decide_eq_false hd)) _ rfl ?_
      unfold Img.read; rw [ha, hd]
    | true =>
      have hrd : (o.img r).read box cache = (.ok (window a box), o.img r) := by
        unfold Img.read; rw [ha, hd]; cases box <;> rfl
      obtain ⟨ad, had⟩ : ∃ ad, r.arr = some ad := by
        unfold Obs.img at ha
        cases h : r.arr with
        | none => rw [h] at ha; simp at ha
        | some ad => exact ⟨ad, rfl⟩
      have hget : o.heap[ad]? = some a := by
        unfold Obs.img at ha; rw [had] at ha; exact ha
      rw [hrd]
      refine ⟨hI, ⟨[], by simp⟩, rfl, rfl, fun _ _ => rfl, ⟨r, hr, rfl, rfl, rfl⟩, rfl, ?_, ?_, fun _ => rfl⟩
      · simp only [Except.map, Obs.content, had, Option.getD_some, List.getD_eq_getElem?_getD, hget]
      · intro v hv; cases hv; simp only [had, Option.getD_some]; exact hok.addr ad had

private theorem pyIndex_means (n : Nat) (img : ℤ) (k : Nat) : pyIndex n img = .ok k ↔ Means n img k := by
  unfold pyIndex Means
  constructor
  · intro h
    split at h
    · cases h; rename_i h; exact ⟨by omega, Or.inl (by omega)⟩
    · split at h
      · cases h; rename_i h; exact ⟨by omega, Or.inr (by omega)⟩
      · cases h
  · rintro ⟨h1, h2 | h2⟩
    · rw [if_pos (by omega)]; congr 1; omega
    · rw [if_neg (by omega), if_pos (by omega)]; congr 1; omega

/-- What the operations keep: the invariant, the files, and the memory already used. -/
private theorem extract_inv (o : Obs α) (hI : Inv o) (img : ℤ) (box : Box) : Inv (o.extract img box).1 ∧
    (∃ l, (o.extract img box).1.heap = o.heap ++ l) ∧ (o.extract img box).1.imgs.map ImgRef.file = o.imgs.map ImgRef.file ∧
    (o.extract img box).1.cache = o.cache ∧ (o.cache = false → (o.extract img box).1.imgs = o.imgs) := by
  unfold Obs.extract
  cases hp : pyIndex o.imgs.length img with
  | error e => exact ⟨hI, ⟨[], by simp⟩, rfl, rfl, fun _ => rfl⟩
  | ok k =>
    simp only []
    unfold Obs.extractAt
    cases hr : o.imgs[k]? with
    | none => exact ⟨hI, ⟨[], by simp⟩, rfl, rfl, fun _ => rfl⟩
    | some r =>
      obtain ⟨h1, h2, h3, h4, h5, ⟨r', h6, h7, h8, h9⟩, h10, h11, h12, h13⟩ := readImg_spec o hI k r hr (some box) o.cache
      have hfiles : (o.readImg k r (some box) o.cache).1.imgs.map ImgRef.file = o.imgs.map ImgRef.file := by
        apply List.ext_getElem?
        intro j
        rw [List.getElem?_map, List.getElem?_map]
        by_cases hj : j = k
        · subst hj; rw [h6, hr]; simp [h7]
        · rw [h5 j hj]
      simp only []
      generalize o.readImg k r (some box) o.cache = g at *
      obtain ⟨o', res⟩ := g
      cases res with
      | error e => exact ⟨h1, h2, hfiles, h3, h13⟩
      | ok v => exact ⟨fun r hr => ⟨(h1 r hr).file, (h1 r hr).cam, (h1 r hr).addr, (h1 r hr).cached⟩, h2, hfiles, h3, h13⟩

private theorem cacheLoop_inv (ks : List Nat) : ∀ (o : Obs α), Inv o → Inv (o.cacheLoop ks).1 ∧
    (∃ l, (o.cacheLoop ks).1.heap = o.heap ++ l) ∧ (o.cacheLoop ks).1.imgs.map ImgRef.file = o.imgs.map ImgRef.file ∧
    (o.cacheLoop ks).1.cache = o.cache ∧ (o.cacheLoop ks).1.tiles = o.tiles ∧
    (o.cacheLoop ks).1.imgs.map ImgRef.cam = o.imgs.map ImgRef.cam ∧
    ∀ j, j ∉ ks → (o.cacheLoop ks).1.imgs[j]? = o.imgs[j]? := by
  induction ks with
  | nil => intro o hI; exact ⟨hI, ⟨[], by simp [Obs.cacheLoop]⟩, rfl, rfl, rfl, rfl, fun _ _ => rfl⟩
  | cons k ks ih =>
    intro o hI
    unfold Obs.cacheLoop Obs.cacheOne
    cases hr : o.imgs[k]? with
    | none => exact ⟨hI, ⟨[], by simp⟩, rfl, rfl, rfl, rfl, fun _ _ => rfl⟩
    | some r =>
      obtain ⟨h1, h2, h3, h4, h5, ⟨r', h6, h7, h8, h9⟩, h10, h11, h12, h13⟩ := readImg_spec o hI k r hr none true
      have hfiles : (o.readImg k r none true).1.imgs.map ImgRef.file = o.imgs.map ImgRef.file := by
        apply List.ext_getElem?
        intro j
        rw [List.getElem?_map, List.getElem?_map]
        by_cases hj : j = k
        · subst hj; rw [h6, hr]; simp [h7]
        · rw [h5 j hj]
      have hcams : (o.readImg k r none true).1.imgs.map ImgRef.cam = o.imgs.map ImgRef.cam := by
        apply List.ext_getElem?
        intro j
        rw [List.getElem?_map, List.getElem?_map]
        by_cases hj : j = k
        · subst hj; rw [h6, hr]; simp [h8]
        · rw [h5 j hj]
      simp only []
      generalize o.readImg k r none true = g at *
      obtain ⟨o', res⟩ := g
      simp only at *
      cases res with
      | error e => exact ⟨h1, h2, hfiles, h3, h4, hcams, fun j hj => h5 j (fun h => hj (by simp [h]))⟩
      | ok v =>
        obtain ⟨i1, ⟨l', i2⟩, i3, i4, i5, i6, i7⟩ := ih o' h1
        obtain ⟨l, h2⟩ := h2
        refine ⟨i1, ⟨l ++ l', by simp only []; rw [i2, h2, List.append_assoc]⟩, i3.trans hfiles, i4.trans h3, i5.trans h4, i6.trans hcams, fun j hj => ?_⟩
        simp only [List.mem_cons, not_or] at hj
        exact (i7 j hj.2).trans (h5 j hj.1)

private theorem clear_inv (ks : List Nat) : ∀ (o : Obs α), Inv o → Inv (ks.foldl Obs.clearOne o) ∧
    (ks.foldl Obs.clearOne o).heap = o.heap ∧ (ks.foldl Obs.clearOne o).imgs.map ImgRef.file = o.imgs.map ImgRef.file ∧
    (ks.foldl Obs.clearOne o).cache = o.cache ∧ (ks.foldl Obs.clearOne o).tiles = o.tiles ∧
    ∀ j, (ks.foldl Obs.clearOne o).imgs[j]? = if j ∈ ks then o.imgs[j]?.map (fun r => { r with arr := none }) else o.imgs[j]? := by
  induction ks with
  | nil => intro o hI; exact ⟨hI, rfl, rfl, rfl, rfl, fun j => by simp⟩
  | cons k ks ih =>
    intro o hI
    rw [List.foldl_cons]
    have h1 : Inv (o.clearOne k) := by
      intro r hr
      obtain ⟨j, hj⟩ := List.getElem?_of_mem hr
      unfold Obs.clearOne at hj
      simp only [List.getElem?_modify] at hj
      cases ho : o.imgs[j]? with
      | none => rw [ho] at hj; simp at hj
      | some r0 =>
        rw [ho] at hj
        have h0 := hI r0 (List.mem_of_getElem? ho)
        simp only [Option.map_eq_map, Option.map_some, Option.some.injEq] at hj
        split at hj
        · subst hj
          exact ⟨h0.file, h0.cam, fun a ha => (by cases ha), fun a ha => (by cases ha)⟩
        · subst hj; exact ⟨h0.file, h0.cam, h0.addr, h0.cached⟩
    have h2 : ∀ j, (o.clearOne k).imgs[j]? = if j = k then o.imgs[j]?.map (fun r => { r with arr := none }) else o.imgs[j]? := by
      intro j
      unfold Obs.clearOne
      simp only [List.getElem?_modify]
      by_cases hjk : j = k
      · subst hjk; simp
      · simp only [if_neg hjk, if_neg (Ne.symm hjk)]; cases o.imgs[j]? <;> rfl
    have h3 : (o.clearOne k).imgs.map ImgRef.file = o.imgs.map ImgRef.file := by
      apply List.ext_getElem?
      intro j
      rw [List.getElem?_map, List.getElem?_map, h2]
      split
      · cases o.imgs[j]? <;> rfl
      · rfl
    obtain ⟨i1, i2, i3, i4, i5, i6⟩ := ih (o.clearOne k) h1
    refine ⟨i1, i2, i3.trans h3, i4, i5, fun j => ?_⟩
    rw [i6 j, h2 j]
    cases o.imgs[j]? with
    | none => simp
    | some r => by_cases hk : j = k <;> by_cases hm : j ∈ ks <;> simp [hk, hm]

private theorem modify_heap_img (o : Obs α) (r : ImgRef α) (a : Nat) (f) (h : r.arr ≠ some a) :
    ({ o with heap := o.heap.modify a f } : Obs α).img r = o.img r := by
  unfold Obs.img
  cases hr : r.arr with
  | none => rfl
  | some b =>
    simp only [Option.bind_some, List.getElem?_modify]
    have hab : a ≠ b := fun e => h (by rw [hr, e])
    simp only [if_neg hab]
    cases o.heap[b]? <;> rfl

private theorem step_inv (o : Obs α) (hI : Inv o) (op : Op α) (hs : Safe o [op]) : Inv (o.step op) ∧
    (o.step op).imgs.map ImgRef.file = o.imgs.map ImgRef.file ∧ (o.step op).cache = o.cache := by
  obtain ⟨hs, -⟩ := hs
  cases op with
  | extract img box => obtain ⟨h1, -, h2, h3, -⟩ := extract_inv o hI img box; exact ⟨h1, h2, h3⟩
  | shift t f =>
    simp only [Obs.step, Obs.shiftTile]
    cases ht : o.tiles[t]? with
    | none => exact ⟨hI, rfl, rfl⟩
    | some v =>
      refine ⟨fun r hr => ?_, rfl, rfl⟩
      have h0 := hI r hr
      refine ⟨h0.file, h0.cam, fun a ha => ?_, ?_⟩
      · simp only [List.length_modify]; exact h0.addr a ha
      · rw [modify_heap_img o r v.1 _ (hs v ht r hr)]; exact h0.cached
  | cacheImages index =>
    simp only [Obs.step, Obs.cacheImages]
    cases index.mapM (pyIndex o.imgs.length) with
    | error e => exact ⟨hI, rfl, rfl⟩
    | ok ks => obtain ⟨h1, -, h2, h3, -⟩ := cacheLoop_inv ks o hI; exact ⟨h1, h2, h3⟩
  | clearImages index =>
    simp only [Obs.step, Obs.clearImages]
    cases index.mapM (pyIndex o.imgs.length) with
    | error e => exact ⟨hI, rfl, rfl⟩
    | ok ks => obtain ⟨h1, -, h2, h3, -⟩ := clear_inv ks o hI; exact ⟨h1, h2, h3⟩
  | resize k nx ny =>
    simp only [Obs.step]
    refine ⟨fun r hr => ?_, ?_, trivial⟩
    · obtain ⟨j, hj⟩ := List.getElem?_of_mem hr
      simp only [List.getElem?_modify] at hj
      cases ho : o.imgs[j]? with
      | none => rw [ho] at hj; simp at hj
      | some r0 =>
        rw [ho] at hj
        have h0 := hI r0 (List.mem_of_getElem? ho)
        simp only [Option.map_eq_map, Option.map_some, Option.some.injEq] at hj
        split at hj
        · subst hj; exact ⟨h0.file, hs, h0.addr, h0.cached⟩
        · subst hj; exact ⟨h0.file, h0.cam, h0.addr, h0.cached⟩
    · apply List.ext_getElem?
      intro j
      rw [List.getElem?_map, List.getElem?_map, List.getElem?_modify]
      split <;> cases o.imgs[j]? <;> simp

private theorem run_inv (ops : List (Op α)) : ∀ (o : Obs α), Inv o → Safe o ops → Inv (o.run ops) ∧
    (o.run ops).imgs.map ImgRef.file = o.imgs.map ImgRef.file ∧ (o.run ops).cache = o.cache := by
  induction ops with
  | nil => intro o hI _; exact ⟨hI, rfl, rfl⟩
  | cons op ops ih =>
    intro o hI hs
    obtain ⟨h1, h2, h3⟩ := step_inv o hI op ⟨hs.1, trivial⟩
    obtain ⟨i1, i2, i3⟩ := ih (o.step op) h1 hs.2
    exact ⟨i1, i2.trans h2, i3.trans h3⟩

private theorem new_inv (files : List (File α × (Nat × Nat))) (cache : Bool) (h : FilesOk files) : Inv (Obs.new files cache) := by
  intro r hr
  obtain ⟨p, hp, rfl⟩ := List.mem_map.1 hr
  exact ⟨(h p hp).1, (h p hp).2, fun a ha => (by cases ha), fun a ha => (by cases ha)⟩

/-! ### C113 -/

/-- C113: after every history of extracting tiles, caching and clearing images, resizing cameras, and shifting tiles that
are not part of a cached array, `extract_tile(box, img)` returns the pixels of that box of the whole image at the size of
its camera, whatever is cached - except (C43) when part of an image is read uncached at another size. -/
theorem observer_tiles_partial (files : List (File α × (Nat × Nat))) (hf : FilesOk files) (cache : Bool) (ops : List (Op α))
    (hs : Safe (Obs.new files cache) ops) (img : ℤ) (k : Nat) (hk : Means files.length img k) (p : File α × (Nat × Nat))
    (hp : files[k]? = some p) (box : Box) :
    ∃ r, ((Obs.new files cache).run ops).imgs[k]? = some r ∧ r.file = p.1 ∧ (box.Within r.cam →
      (cache = true ∨ r.cam = (((Obs.new files cache).run ops).img r).size) →
      ∃ o v, ((Obs.new files cache).run ops).extract img box = (o, .ok v) ∧
        o.content v = crop (p.1.whole r.cam) box.x0 box.y0 box.x1 box.y1) := by
  obtain ⟨h1, h2, h3⟩ := run_inv ops _ (new_inv files cache hf) hs
  set o := (Obs.new files cache).run ops with ho
  have hfiles : o.imgs.map ImgRef.file = files.map Prod.fst := by
    rw [h2]; simp [Obs.new, List.map_map, Function.comp_def]
  have hlen : o.imgs.length = files.length := by
    have := congrArg List.length hfiles; simpa using this
  have hr : ∃ r, o.imgs[k]? = some r := ⟨o.imgs[k]'(by rw [hlen]; exact hk.1), List.getElem?_eq_getElem _⟩
  obtain ⟨r, hr⟩ := hr
  have hfile : r.file = p.1 := by
    have := congrArg (·[k]?) hfiles
    simp only [List.getElem?_map, hr, hp, Option.map_some, Option.some.injEq] at this
    exact this
  refine ⟨r, hr, hfile, fun hb hc => ?_⟩
  have hok := h1 r (List.mem_of_getElem? hr)
  obtain ⟨-, -, -, -, -, -, -, h11, -, -⟩ := readImg_spec o h1 k r hr (some box) o.cache
  have hrc : o.cache = cache := h3
  have hread := read_of_cached (o.img r) hok.file hok.cached hok.cam (some box) o.cache
    (fun b hb' => by cases hb'; exact hb) (by
      rcases hc with hc | hc
      · exact Or.inr (Or.inl (by rw [hrc, hc]))
      · exact Or.inr (Or.inr hc))
  rw [hread] at h11
  unfold Obs.extract
  rw [(pyIndex_means _ _ _).2 (by rw [hlen]; exact hk)]
  simp only [Obs.extractAt, hr]
  generalize o.readImg k r (some box) o.cache = g at *
  obtain ⟨o', res⟩ := g
  cases res with
  | error e => cases h11
  | ok v =>
    refine ⟨_, v, rfl, ?_⟩
    have := Except.ok.inj h11
    rw [← hfile]
    exact this

/-- C113: an observer that does not cache, of images never cached, may shift any tile at any time: every history is safe. -/
theorem uncached_safe (files : List (File α × (Nat × Nat))) (hf : FilesOk files) (ops : List (Op α))
    (hno : ∀ op ∈ ops, (∀ index, op ≠ .cacheImages index) ∧ ∀ k nx ny, op = .resize k nx ny → 0 < nx ∧ 0 < ny) :
    Safe (Obs.new files false) ops := by
  have main : ∀ (ops : List (Op α)) (o : Obs α), Inv o → o.cache = false → (∀ r ∈ o.imgs, r.arr = none) →
      (∀ op ∈ ops, (∀ index, op ≠ .cacheImages index) ∧ ∀ k nx ny, op = .resize k nx ny → 0 < nx ∧ 0 < ny) → Safe o ops := by
    intro ops
    induction ops with
    | nil => intro _ _ _ _ _; trivial
    | cons op ops ih =>
      intro o hI hc harr hno
      have hop := hno op List.mem_cons_self
      have hs : Safe o [op] := by
        refine ⟨?_, trivial⟩
        cases op with
        | shift t f => intro v _ r hr; rw [harr r hr]; simp
        | resize k nx ny => exact hop.2 k nx ny rfl
        | _ => trivial
      obtain ⟨h1, h2, h3⟩ := step_inv o hI op hs
      refine ⟨hs.1, ih _ h1 (h3.trans hc) ?_ (fun q hq => hno q (List.mem_cons_of_mem _ hq))⟩
      cases op with
      | extract img box =>
        have := (extract_inv o hI img box).2.2.2.2 hc
        simp only [Obs.step]
        rw [this]; exact harr
      | shift t f =>
        simp only [Obs.step, Obs.shiftTile]
        cases o.tiles[t]? <;> exact harr
      | cacheImages index => exact absurd rfl (hop.1 index)
      | clearImages index =>
        simp only [Obs.step, Obs.clearImages]
        cases index.mapM (pyIndex o.imgs.length) with
        | error e => exact harr
        | ok ks =>
          intro r hr
          obtain ⟨j, hj⟩ := List.getElem?_of_mem hr
          have := (clear_inv ks o hI).2.2.2.2.2 j
          rw [hj] at this
          split at this
          · cases ho : o.imgs[j]? with
            | none => rw [ho] at this; cases this
            | some r0 => rw [ho] at this; cases this; rfl
          · exact harr r (List.mem_of_getElem? this.symm)
      | resize k nx ny =>
        intro r hr
        obtain ⟨j, hj⟩ := List.getElem?_of_mem hr
        simp only [Obs.step, List.getElem?_modify] at hj
        cases ho : o.imgs[j]? with
        | none => rw [ho] at hj; simp at hj
        | some r0 =>
          rw [ho] at hj
          have h0 := harr r0 (List.mem_of_getElem? ho)
          simp only [Option.map_eq_map, Option.map_some, Option.some.injEq] at hj
          split at hj
          · subst hj; exact h0
          · subst hj; exact h0
  exact main ops _ (new_inv files false hf) rfl (fun r hr => by obtain ⟨p, -, rfl⟩ := List.mem_map.1 hr; rfl) hno

/-- C113: a history without `shift_tile` is safe. -/
theorem no_shift_safe (o : Obs α) (ops : List (Op α))
    (hno : ∀ op ∈ ops, (∀ t f, op ≠ .shift t f) ∧ ∀ k nx ny, op = .resize k nx ny → 0 < nx ∧ 0 < ny) : Safe o ops := by
  induction ops generalizing o with
  | nil => trivial
  | cons op ops ih =>
    have hop := hno op List.mem_cons_self
    refine ⟨?_, ih _ fun q hq => hno q (List.mem_cons_of_mem _ hq)⟩
    cases op with
    | shift t f => exact absurd rfl (hop.1 t f)
    | resize k nx ny => exact hop.2 k nx ny rfl
    | _ => trivial

private theorem heap_step (o : Obs α) (hI : Inv o) (op : Op α) (hop : ∀ t f, op ≠ .shift t f) :
    ∃ l, (o.step op).heap = o.heap ++ l := by
  cases op with
  | extract img box => exact (extract_inv o hI img box).2.1
  | shift t f => exact absurd rfl (hop t f)
  | cacheImages index =>
    simp only [Obs.step, Obs.cacheImages]
    cases index.mapM (pyIndex o.imgs.length) with
    | error e => exact ⟨[], by simp⟩
    | ok ks => exact (cacheLoop_inv ks o hI).2.1
  | clearImages index =>
    simp only [Obs.step, Obs.clearImages]
    cases index.mapM (pyIndex o.imgs.length) with
    | error e => exact ⟨[], by simp⟩
    | ok ks => exact ⟨[], by simp only [List.append_nil]; exact (clear_inv ks o hI).2.1⟩
  | resize k nx ny => exact ⟨[], by simp [Obs.step]⟩

private theorem extract_addr (o o' : Obs α) (hI : Inv o) (img : ℤ) (box : Box) (v : View) (h : o.extract img box = (o', .ok v)) :
    v.1 < o'.heap.length := by
  unfold Obs.extract at h
  cases hp : pyIndex o.imgs.length img with
  | error e => rw [hp] at h; cases h
  | ok k =>
    rw [hp] at h
    simp only [Obs.extractAt] at h
    cases hr : o.imgs[k]? with
    | none => rw [hr] at h; cases h
    | some r =>
      rw [hr] at h
      have h12 := (readImg_spec o hI k r hr (some box) o.cache).2.2.2.2.2.2.2.2.1
      simp only at h
      generalize o.readImg k r (some box) o.cache = g at *
      obtain ⟨o1, res⟩ := g
      cases res with
      | error e => cases h
      | ok w =>
        simp only [addTile, Prod.mk.injEq, Except.ok.injEq] at h
        rw [← h.1, ← h.2]
        exact h12 w rfl

/-- C113: a tile once extracted keeps its pixels, whatever is extracted, cached, cleared or resized later (but `shift_tile`
changes it and all that share its memory). -/
theorem tile_stable (files : List (File α × (Nat × Nat))) (hf : FilesOk files) (cache : Bool) (ops : List (Op α))
    (hs : Safe (Obs.new files cache) ops) (img : ℤ) (box : Box) (o' : Obs α) (v : View)
    (h : ((Obs.new files cache).run ops).extract img box = (o', .ok v)) (later : List (Op α))
    (hno : ∀ op ∈ later, (∀ t f, op ≠ .shift t f) ∧ ∀ k nx ny, op = .resize k nx ny → 0 < nx ∧ 0 < ny) :
    (o'.run later).content v = o'.content v := by
  obtain ⟨h1, -, -⟩ := run_inv ops _ (new_inv files cache hf) hs
  have ha := extract_addr _ o' h1 img box v h
  have hI' : Inv o' := by
    have := (extract_inv _ h1 img box).1
    rw [h] at this; exact this
  clear h h1 hs
  induction later generalizing o' with
  | nil => rfl
  | cons op later ih =>
    have hop := hno op List.mem_cons_self
    obtain ⟨l, hl⟩ := heap_step o' hI' op hop.1
    have hs : Safe o' [op] := no_shift_safe o' [op] (fun q hq => by rw [List.mem_singleton.1 hq]; exact hop)
    have hI2 := (step_inv o' hI' op hs).1
    have hc : (o'.step op).content v = o'.content v := by
      unfold Obs.content
      rw [hl, List.getD_append _ _ _ _ ha]
    have := ih (o'.step op) (fun q hq => hno q (List.mem_cons_of_mem _ hq)) (by rw [hl, List.length_append]; omega) hI2
    exact this.trans hc

/-- C113: indices out of range raise before anything is cached or cleared. -/
theorem images_index_error (o : Obs α) (index : List ℤ) (i : ℤ) (hi : i ∈ index) (hout : i < -(o.imgs.length : ℤ) ∨ (o.imgs.length : ℤ) ≤ i) :
    o.cacheImages index = (o, some .indexError) ∧ o.clearImages index = (o, some .indexError) := by
  have h1 : ∀ j, pyIndex o.imgs.length j = .error .indexError ∨ ∃ k, pyIndex o.imgs.length j = .ok k := by
    intro j
    unfold pyIndex
    split
    · exact Or.inr ⟨_, rfl⟩
    · split
      · exact Or.inr ⟨_, rfl⟩
      · exact Or.inl rfl
  have hbad : pyIndex o.imgs.length i = .error .indexError := by
    unfold pyIndex
    rw [if_neg (by omega), if_neg (by omega)]
  have : index.mapM (pyIndex o.imgs.length) = .error .indexError := by
    induction index with
    | nil => cases hi
    | cons j index ih =>
      rw [List.mapM_cons]
      rcases h1 j with h | ⟨k, h⟩
      · rw [h]; rfl
      · rw [h]
        rcases List.mem_cons.1 hi with e | e
        · subst e; rw [hbad] at h; cases h
        · rw [ih e]; rfl
  unfold Obs.cacheImages Obs.clearImages
  rw [this]
  exact ⟨rfl, rfl⟩

private theorem mapM_index (n : Nat) (index : List ℤ) (ks : List Nat) (h : index.mapM (pyIndex n) = .ok ks) :
    ∀ k, k ∈ ks ↔ ∃ i ∈ index, Means n i k := by
  induction index generalizing ks with
  | nil => cases h; simp
  | cons i index ih =>
    rw [List.mapM_cons] at h
    cases h1 : pyIndex n i with
    | error e => rw [h1] at h; cases h
    | ok k0 =>
      rw [h1] at h
      cases h2 : index.mapM (pyIndex n) with
      | error e => rw [h2] at h; cases h
      | ok ks' =>
        rw [h2] at h
        cases h
        intro k
        rw [List.mem_cons, ih ks' h2 k]
        constructor
        · rintro (e | ⟨j, hj, hm⟩)
          · exact ⟨i, List.mem_cons_self, (pyIndex_means _ _ _).1 (by rw [h1, e])⟩
          · exact ⟨j, List.mem_cons_of_mem _ hj, hm⟩
        · rintro ⟨j, hj, hm⟩
          rcases List.mem_cons.1 hj with e | e
          · left
            have := (pyIndex_means _ _ _).2 hm
            rw [e, h1] at this
            exact (Except.ok.inj this).symm
          · exact Or.inr ⟨j, e, hm⟩

/-- C113: `clear_images(index)` clears the array of exactly the images meant, and changes nothing else. -/
theorem clear_images_spec (files : List (File α × (Nat × Nat))) (hf : FilesOk files) (cache : Bool) (ops : List (Op α))
    (hs : Safe (Obs.new files cache) ops) (index : List ℤ) (o' : Obs α)
    (h : ((Obs.new files cache).run ops).clearImages index = (o', none)) (k : Nat) (r : ImgRef α)
    (hr : ((Obs.new files cache).run ops).imgs[k]? = some r) :
    o'.heap = ((Obs.new files cache).run ops).heap ∧ ∃ r', o'.imgs[k]? = some r' ∧ r'.file = r.file ∧ r'.cam = r.cam ∧
      ((∃ i ∈ index, Means ((Obs.new files cache).run ops).imgs.length i k) → r'.arr = none) ∧
      ((¬ ∃ i ∈ index, Means ((Obs.new files cache).run ops).imgs.length i k) → r'.arr = r.arr) := by
  obtain ⟨h1, -, -⟩ := run_inv ops _ (new_inv files cache hf) hs
  unfold Obs.clearImages at h
  cases hm : index.mapM (pyIndex ((Obs.new files cache).run ops).imgs.length) with
  | error e => rw [hm] at h; cases h
  | ok ks =>
    rw [hm] at h
    simp only [Prod.mk.injEq, and_true] at h
    subst h
    obtain ⟨-, i2, -, -, -, i6⟩ := clear_inv ks _ h1
    refine ⟨i2, ?_⟩
    rw [← mapM_index _ _ _ hm k, i6 k, hr]
    by_cases hk : k ∈ ks
    · exact ⟨⟨r.file, r.cam, none⟩, by rw [if_pos hk]; rfl, rfl, rfl, fun _ => rfl, fun h => absurd hk h⟩
    · exact ⟨_, by rw [if_neg hk], rfl, rfl, fun h => absurd h hk, fun _ => rfl⟩

/-- An image is cached at the size of its camera. -/
def Held (o : Obs α) (r : ImgRef α) : Prop := (o.img r).array = some (r.file.whole r.cam)

private theorem img_prefix (o o' : Obs α) (r : ImgRef α) (h : ∀ a, r.arr = some a → a < o.heap.length) (l : List (List (List α)))
    (hl : o'.heap = o.heap ++ l) : o'.img r = o.img r := by
  have := img_heap o r h l o'.imgs o'.cache o'.tiles
  rw [← hl] at this
  exact this

private theorem cacheLoop_held (ks : List Nat) : ∀ (o : Obs α), Inv o → (∀ k ∈ ks, k < o.imgs.length) →
    (o.cacheLoop ks).2 = none ∧ ∀ k, k < o.imgs.length → ∃ r', (o.cacheLoop ks).1.imgs[k]? = some r' ∧
      ((k ∈ ks ∨ ∀ r, o.imgs[k]? = some r → Held o r) → Held (o.cacheLoop ks).1 r') := by
  induction ks with
  | nil =>
    intro o hI _
    refine ⟨rfl, fun k hk => ⟨o.imgs[k], List.getElem?_eq_getElem hk, fun h => ?_⟩⟩
    rcases h with h | h
    · cases h
    · exact h _ (List.getElem?_eq_getElem hk)
  | cons k0 ks ih =>
    intro o hI hks
    have hk0 := hks k0 List.mem_cons_self
    have hr : o.imgs[k0]? = some o.imgs[k0] := List.getElem?_eq_getElem hk0
    have hok := hI _ (List.getElem_mem hk0)
    obtain ⟨h1, ⟨l, h2⟩, h3, h4, h5, ⟨r', h6, h7, h8, h9⟩, h10, h11, h12, h13⟩ := readImg_spec o hI k0 _ hr none true
    have hread := read_of_cached (o.img o.imgs[k0]) hok.file hok.cached hok.cam none true (fun b hb => by cases hb) (Or.inl rfl)
    have hthen := (read_then_cached (o.img o.imgs[k0]) hok.file hok.cached hok.cam none).1
    rw [hread] at h11
    unfold Obs.cacheLoop Obs.cacheOne
    rw [hr]
    simp only []
    generalize o.readImg k0 o.imgs[k0] none true = g at *
    obtain ⟨o', res⟩ := g
    simp only at *
    cases res with
    | error e => cases h11
    | ok v =>
      obtain ⟨i1, i2⟩ := ih o' h1 (fun k hk => by rw [h10]; exact hks k (List.mem_cons_of_mem _ hk))
      refine ⟨i1, fun k hk => ?_⟩
      obtain ⟨r2, j1, j2⟩ := i2 k (by rw [h10]; exact hk)
      refine ⟨r2, j1, fun h => j2 ?_⟩
      have hheld : Held o' r' := by
        unfold Held
        rw [h9, hthen, h7, h8]; rfl
      by_cases hkk : k = k0
      · right
        intro r hr'
        rw [hkk, h6] at hr'
        cases hr'
        exact hheld
      · rcases h with h | h
        · rcases List.mem_cons.1 h with e | e
          · exact absurd e hkk
          · exact Or.inl e
        · right
          intro r hr'
          rw [h5 k hkk] at hr'
          have := h r hr'
          unfold Held at this ⊢
          rw [img_prefix o o' r (hI r (List.mem_of_getElem? hr')).addr l h2]
          exact this

/-- C113: `cache_images(index)` with indices in range caches every image meant at the size of its camera, and leaves the
other images, and all tiles, as they were. -/
theorem cache_images_spec (files : List (File α × (Nat × Nat))) (hf : FilesOk files) (cache : Bool) (ops : List (Op α))
    (hs : Safe (Obs.new files cache) ops) (index : List ℤ)
    (hin : ∀ i ∈ index, ∃ k, Means ((Obs.new files cache).run ops).imgs.length i k) :
    ∃ o', ((Obs.new files cache).run ops).cacheImages index = (o', none) ∧ ∀ k r, ((Obs.new files cache).run ops).imgs[k]? = some r →
      ∃ r', o'.imgs[k]? = some r' ∧ r'.file = r.file ∧ r'.cam = r.cam ∧
      ((∃ i ∈ index, Means ((Obs.new files cache).run ops).imgs.length i k) → Held o' r') ∧
      ((¬ ∃ i ∈ index, Means ((Obs.new files cache).run ops).imgs.length i k) → r' = r) := by
  obtain ⟨h1, -, -⟩ := run_inv ops _ (new_inv files cache hf) hs
  generalize (Obs.new files cache).run ops = o at *
  unfold Obs.cacheImages
  have : ∃ ks, index.mapM (pyIndex o.imgs.length) = .ok ks := by
    clear hs
    induction index with
    | nil => exact ⟨[], rfl⟩
    | cons i index ih =>
      obtain ⟨k, hk⟩ := hin i List.mem_cons_self
      obtain ⟨ks, hks⟩ := ih fun j hj => hin j (List.mem_cons_of_mem _ hj)
      exact ⟨k :: ks, by rw [List.mapM_cons, (pyIndex_means _ _ _).2 hk, hks]; rfl⟩
  obtain ⟨ks, hks⟩ := this
  have hmem := mapM_index _ _ _ hks
  rw [hks]
  obtain ⟨e1, e2⟩ := cacheLoop_held ks o h1 (fun k hk => by obtain ⟨i, -, hm⟩ := (hmem k).1 hk; exact hm.1)
  obtain ⟨-, -, i3, -, -, i6, i7⟩ := cacheLoop_inv ks o h1
  refine ⟨(o.cacheLoop ks).1, by rw [← e1], fun k r hr => ?_⟩
  obtain ⟨r', f1, f2⟩ := e2 k (List.getElem?_eq_some_iff.1 hr).1
  have g1 := congrArg (·[k]?) i3
  have g2 := congrArg (·[k]?) i6
  simp only [List.getElem?_map, f1, hr, Option.map_some, Option.some.injEq] at g1 g2
  refine ⟨r', f1, g1, g2, fun h => f2 (Or.inl ((hmem k).2 h)), fun h => ?_⟩
  have := i7 k (fun hk => h ((hmem k).1 hk))
  rw [f1, hr] at this
  exact Option.some.inj this

/-- C113: tiles of an image cached at the size of its camera are taken from memory: the file may be gone, and no flag
matters. -/
theorem held_no_file (o : Obs α) (r : ImgRef α) (hf : r.file.Ok) (hcam : 0 < r.cam.1 ∧ 0 < r.cam.2) (h : Held o r) (k : Nat)
    (box : Option Box) (cache : Bool) (other : File α) :
    o.readImg k { r with file := other } box cache = (o, .ok (r.arr.getD 0, box)) ∧
      o.content (r.arr.getD 0, box) = window (r.file.whole r.cam) box := by
  have harr : (o.img { r with file := other }).array = some (r.file.whole r.cam) := h
  have hsize : (o.img { r with file := other }).size = r.cam := by
    unfold Img.size
    rw [harr]
    unfold ImageRead.sizeOf File.whole
    have h1 := hf.rows 0 0 r.file.w r.file.h r.cam.1 r.cam.2
    have h2 := hf.cols 0 0 r.file.w r.file.h r.cam.1 r.cam.2
    cases e : r.file.pixels 0 0 r.file.w r.file.h r.cam.1 r.cam.2 with
    | nil => rw [e] at h1; simp at h1; omega
    | cons row l =>
      rw [e] at h1 h2
      simp only [List.headD_cons]
      rw [h2 row List.mem_cons_self, h1]
  constructor
  · unfold Obs.readImg
    rw [harr, hsize]
    simp [Obs.img]
  · unfold Held Obs.img at h
    cases ha : r.arr with
    | none => rw [ha] at h; simp at h
    | some a =>
      rw [ha] at h
      simp only [Option.bind_some] at h
      simp only [Obs.content, Option.getD_some, List.getD_eq_getElem?_getD, h]

private theorem crop_paste (a v : List (List α)) (b : Box) (hb : b.x0 ≤ b.x1 ∧ b.y0 ≤ b.y1) (hrows : b.y1 ≤ a.length)
    (hcols : ∀ row ∈ a, b.x1 ≤ row.length) (hv : v.length = b.y1 - b.y0) (hvc : ∀ row ∈ v, row.length = b.x1 - b.x0) :
    crop (paste a b v) b.x0 b.y0 b.x1 b.y1 = v := by
  unfold crop paste
  apply List.ext_getElem
  · simp; omega
  intro i h1 h2
  have hiv : i < b.y1 - b.y0 := by omega
  simp only [List.getElem_map, List.getElem_drop, List.getElem_take, List.getElem_mapIdx]
  rw [if_pos (by omega)]
  have hrow := hcols a[b.y0 + i] (List.getElem_mem _)
  have hvi := hvc v[i] (List.getElem_mem _)
  have e : v.getD (b.y0 + i - b.y0) [] = v[i] := by
    rw [show b.y0 + i - b.y0 = i by omega, List.getD_eq_getElem _ _ h2]
  apply List.ext_getElem
  · simp; omega
  intro j g1 g2
  simp only [List.getElem_drop, List.getElem_take, List.getElem_mapIdx]
  rw [if_pos (by omega)]
  simp only [e]
  rw [show b.x0 + j - b.x0 = j by omega, List.getD_eq_getElem _ _ g2]

/-- C113 fails for `shift_tile` on a tile of a caching observer: the tile is part of the cached image, and the next tile
extracted there has the shifted pixels, not those of the image - whatever the shift computes. -/
theorem shift_tile_cached_violated (f : File α) (hf : f.Ok) (cam : Nat × Nat) (hcam : 0 < cam.1 ∧ 0 < cam.2) (box : Box) (hb : box.Within cam)
    (shift : List (List α) → List (List α))
    (hshape : ∀ t : List (List α), (shift t).length = t.length ∧ ∀ n, (∀ row ∈ t, row.length = n) → ∀ row ∈ shift t, row.length = n) :
    ∃ o v, ((Obs.new [(f, cam), (f, cam)] true).run [.extract 0 box, .shift 0 shift]).extract 0 box = (o, .ok v) ∧
      o.content v = shift (crop (f.whole cam) box.x0 box.y0 box.x1 box.y1) := by
  have hfiles : FilesOk [(f, cam), (f, cam)] := by
    intro p hp
    simp only [List.mem_cons, List.not_mem_nil, or_false, or_self] at hp
    subst hp; exact ⟨hf, hcam⟩
  set o0 : Obs α := Obs.new [(f, cam), (f, cam)] true with ho0
  have hw : (o0.img ⟨f, cam, none⟩).readFile (some box) true = .ok (f.whole cam) := by
    have hr := read_of_cached (o0.img ⟨f, cam, none⟩) hf (fun a ha => by cases ha) hcam none true (fun b hb => by cases hb) (Or.inl rfl)
    unfold Img.read Img.fromFile at hr
    have e1 : (o0.img ⟨f, cam, none⟩).array = none := rfl
    have e2 : (o0.img ⟨f, cam, none⟩).readFile (some box) true = (o0.img ⟨f, cam, none⟩).readFile none true := rfl
    rw [e2]
    rw [e1] at hr
    simp only at hr
    cases hx : (o0.img ⟨f, cam, none⟩).readFile none true with
    | error e => rw [hx] at hr; cases hr
    | ok a => rw [hx] at hr; exact hr
  have hrow := hf.rows 0 0 f.w f.h cam.1 cam.2
  have hcol := hf.cols 0 0 f.w f.h cam.1 cam.2
  have hstep1 : o0.step (.extract 0 box) = ⟨[f.whole cam], [⟨f, cam, some 0⟩, ⟨f, cam, none⟩], true, [(0, some box)]⟩ := by
    show (o0.extract 0 box).1 = _
    have e0 : pyIndex o0.imgs.length 0 = .ok 0 := by simp [ho0, Obs.new, pyIndex]
    unfold Obs.extract
    rw [e0]
    simp only [Obs.extractAt]
    have e1 : o0.imgs[0]? = some ⟨f, cam, none⟩ := by simp [ho0, Obs.new]
    rw [e1]
    simp only []
    have e2 : o0.readImg 0 ⟨f, cam, none⟩ (some box) o0.cache = (o0.store 0 ⟨f, cam, none⟩ (f.whole cam) true, .ok (0, some box)) := by
      unfold Obs.readImg
      have e3 : (o0.img ⟨f, cam, none⟩).array = none := rfl
      rw [e3]
      simp only [Obs.fromFile]
      have e4 : o0.cache = true := rfl
      rw [e4, hw]
      rfl
    rw [e2]
    rfl
  have hpaste : ((o0.step (.extract 0 box)).step (.shift 0 shift)) =
      ⟨[paste (f.whole cam) box (shift (crop (f.whole cam) box.x0 box.y0 box.x1 box.y1))], [⟨f, cam, some 0⟩, ⟨f, cam, none⟩], true, [(0, some box)]⟩ := by
    rw [hstep1]; rfl
  have hrun : o0.run [.extract 0 box, .shift 0 shift] = (o0.step (.extract 0 box)).step (.shift 0 shift) := rfl
  rw [hrun, hpaste]
  set A := paste (f.whole cam) box (shift (crop (f.whole cam) box.x0 box.y0 box.x1 box.y1)) with hA
  obtain ⟨b1, b2, b3, b4⟩ := hb
  have hAsize : ImageRead.sizeOf A = cam := by
    unfold ImageRead.sizeOf
    have hl : A.length = cam.2 := by rw [hA]; unfold paste; rw [List.length_mapIdx]; exact hrow
    have hne : 0 < A.length := by rw [hl]; exact hcam.2
    have h00 : ∀ (B : List (List α)) (hB : 0 < B.length), B.headD [] = B[0] := by
      intro B hB
      cases B with
      | nil => simp at hB
      | cons x y => rfl
    have h0 : A.headD [] = A[0] := h00 A hne
    rw [h0]
    have : A[0].length = cam.1 := by
      simp only [hA, paste, List.getElem_mapIdx]
      have hc := hcol ((f.whole cam)[0]'(by unfold File.whole; rw [hrow]; exact hcam.2)) (List.getElem_mem _)
      split
      · rw [List.length_mapIdx]; exact hc
      · exact hc
    rw [this, hl]
  have hcropsize : (crop (f.whole cam) box.x0 box.y0 box.x1 box.y1).length = box.y1 - box.y0 ∧
      ∀ row ∈ crop (f.whole cam) box.x0 box.y0 box.x1 box.y1, row.length = box.x1 - box.x0 := by
    unfold crop
    constructor
    · have : (f.whole cam).length = cam.2 := hrow
      simp [this]; omega
    · intro row hr
      obtain ⟨row', hr', rfl⟩ := List.mem_map.1 hr
      have : row'.length = cam.1 := hcol row' (List.mem_of_mem_take (List.mem_of_mem_drop hr'))
      simp [this]; omega
  refine ⟨⟨[A], [⟨f, cam, some 0⟩, ⟨f, cam, none⟩], true, [(0, some box), (0, some box)]⟩, (0, some box), ?_, ?_⟩
  · have e0 : pyIndex 2 0 = .ok 0 := by decide
    unfold Obs.extract
    simp only [List.length_cons, List.length_nil, Nat.zero_add, Nat.reduceAdd, e0, Obs.extractAt, List.getElem?_cons_zero]
    have e1 : ∀ tiles, (⟨[A], [⟨f, cam, some 0⟩, ⟨f, cam, none⟩], true, tiles⟩ : Obs α).readImg 0 ⟨f, cam, some 0⟩ (some box) true =
        (⟨[A], [⟨f, cam, some 0⟩, ⟨f, cam, none⟩], true, tiles⟩, .ok (0, some box)) := by
      intro tiles
      unfold Obs.readImg Obs.img
      simp only [Option.bind_some, List.getElem?_cons_zero, Img.size, hAsize, decide_true, Option.getD_some]
    rw [e1]
    rfl
  · show crop A box.x0 box.y0 box.x1 box.y1 = _
    apply crop_paste _ _ _ ⟨by omega, by omega⟩
    · have : (f.whole cam).length = cam.2 := hrow
      omega
    · intro row hr
      have : row.length = cam.1 := hcol row hr
      omega
    · rw [(hshape _).1, hcropsize.1]
    · exact (hshape _).2 _ hcropsize.2

/-- A history with a shift of an uncached tile is safe, and files exist. -/
example (f : File α) (hf : f.Ok) : Safe (Obs.new [(f, (4, 4)), (f, (4, 4))] false) [.extract (-1) ⟨0, 0, 2, 2⟩, .shift 0 id, .resize 1 2 2] :=
  uncached_safe _ (by
    intro p hp
    simp only [List.mem_cons, List.not_mem_nil, or_false, or_self] at hp
    subst hp; exact ⟨hf, Nat.succ_pos _, Nat.succ_pos _⟩) _ (by
    intro op hop
    simp only [List.mem_cons, List.not_mem_nil, or_false] at hop
    rcases hop with rfl | rfl | rfl
    · exact ⟨fun _ h => (by cases h), fun _ _ _ h => (by cases h)⟩
    · exact ⟨fun _ h => (by cases h), fun _ _ _ h => (by cases h)⟩
    · exact ⟨fun _ h => (by cases h), fun _ _ _ h => by cases h; exact ⟨by decide, by decide⟩⟩)

example : Means 3 (-1) 2 := ⟨by decide, Or.inr rfl⟩

end Glimpse.ObserverImages
