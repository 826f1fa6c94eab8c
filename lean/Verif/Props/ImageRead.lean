import Verif.Model.ImageRead
import Mathlib.Tactic.Linarith
import Mathlib.Tactic.NormNum
import Mathlib.Tactic.FieldSimp

/-!
C43: `Image.read` and its cache.
-/
set_option autoImplicit false
set_option linter.unusedSimpArgs false

namespace Glimpse.ImageRead

variable {α : Type}

/-! ### Specification -/

/-- What GDAL guarantees: a read has the size of its buffer, and a read at full resolution returns the pixels of the
window. -/
structure File.Ok (f : File α) : Prop where
  pos : 0 < f.w ∧ 0 < f.h
  rows : ∀ xo yo wx wy bx by', (f.pixels xo yo wx wy bx by').length = by'
  cols : ∀ xo yo wx wy bx by', ∀ r ∈ f.pixels xo yo wx wy bx by', r.length = bx
  exact : ∀ xo yo wx wy, xo + wx ≤ f.w → yo + wy ≤ f.h →
    f.pixels xo yo wx wy wx wy = crop (f.pixels 0 0 f.w f.h f.w f.h) xo yo (xo + wx) (yo + wy)

/-- The whole image at a size. -/
def File.whole (f : File α) (size : Nat × Nat) : List (List α) := f.pixels 0 0 f.w f.h size.1 size.2

/-- The requested part of an image. -/
def part (a : List (List α)) : Option Box → List (List α)
  | none => a
  | some b => crop a b.x0 b.y0 b.x1 b.y1

/-- A box within an image of the given size, not empty. -/
def Box.Within (b : Box) (size : Nat × Nat) : Prop := b.x0 < b.x1 ∧ b.x1 ≤ size.1 ∧ b.y0 < b.y1 ∧ b.y1 ≤ size.2

/-- The reads that work: those that do not need to read part of a file and resize it. -/
def Fine (i : Img α) (box : Option Box) (cache : Bool) : Prop :=
  box = none ∨ cache = true ∨ i.cam = i.size

/-! ### Invariant -/

/-- The cached array is the whole image at some size. -/
def Cached (i : Img α) : Prop := ∀ a ∈ i.array, ∃ s : Nat × Nat, 0 < s.1 ∧ 0 < s.2 ∧ a = i.file.whole s

private theorem sizeOf_whole (f : File α) (hf : f.Ok) (s : Nat × Nat) (h : 0 < s.2) : sizeOf (f.whole s) = s := by
  unfold sizeOf File.whole
  have hr := hf.rows 0 0 f.w f.h s.1 s.2
  have hc := hf.cols 0 0 f.w f.h s.1 s.2
  cases e : f.pixels 0 0 f.w f.h s.1 s.2 with
  | nil => rw [e] at hr; simp at hr; omega
  | cons r l =>
    rw [e] at hr hc
    have := hc r List.mem_cons_self
    ext
    · simpa using this
    · exact hr

private theorem read_whole (f : File α) (hf : f.Ok) (buf : Option (Nat × Nat))
    (hb : ∀ b ∈ buf, 0 < b.1 ∧ 0 < b.2) :
    f.read 0 0 f.w f.h buf = .ok (f.whole (buf.getD (f.w, f.h))) := by
  have := hf.pos
  have hb' : 0 < (buf.getD (f.w, f.h)).1 ∧ 0 < (buf.getD (f.w, f.h)).2 := by
    cases buf with
    | none => exact this
    | some b => exact hb b rfl
  unfold File.read
  rw [if_neg (by omega)]
  simp only [Int.toNat_natCast, Int.toNat_zero]
  rw [if_neg (by omega)]
  rfl

private theorem readFile_whole (i : Img α) (hf : i.file.Ok) (hcam : 0 < i.cam.1 ∧ 0 < i.cam.2)
    (hno : i.array = none ∨ i.cam ≠ i.size) (box : Option Box) (cache : Bool) (h : box = none ∨ cache = true) :
    i.readFile box cache = .ok (i.file.whole i.cam) := by
  have key : i.file.read 0 0 i.file.w i.file.h (if i.cam ≠ i.size then some i.cam else none) =
      .ok (i.file.whole i.cam) := by
    rw [read_whole i.file hf _ (by
      intro b hb
      split at hb
      · cases hb; exact hcam
      · cases hb)]
    by_cases hc : i.cam = i.size
    · rcases hno with h | h
      · have hs : i.size = (i.file.w, i.file.h) := by unfold Img.size; rw [h]
        rw [if_neg (by simpa using hc), hc, hs]; rfl
      · exact absurd hc h
    · rw [if_pos hc]; rfl
  unfold Img.readFile
  rcases h with rfl | rfl
  · simpa using key
  · cases box <;> simpa using key

theorem step_cached (i : Img α) (hf : i.file.Ok) (hcam : 0 < i.cam.1 ∧ 0 < i.cam.2) (hc : Cached i)
    (box : Option Box) (cache : Bool) :
    Cached (i.read box cache).2 ∧ (i.read box cache).2.file = i.file ∧ (i.read box cache).2.cam = i.cam := by
  have main : ∀ (a? : Option (List (List α))) (d : Bool), i.array = a? → decide (i.cam = i.size) = d →
      (a?.isSome = false ∨ d = false) →
      let r := (i.fromFile box cache).2
      Cached r ∧ r.file = i.file ∧ r.cam = i.cam := by
    intro a? d ha hd hor
    unfold Img.fromFile
    cases e : i.readFile box cache with
    | error er => exact ⟨hc, rfl, rfl⟩
    | ok a =>
      cases cache with
      | false => cases box <;> exact ⟨hc, rfl, rfl⟩
      | true =>
        have hno : i.array = none ∨ i.cam ≠ i.size := by
          rcases hor with h | h
          · left; rw [ha]; cases a? with | none => rfl | some x => simp at h
          · right; rw [h] at hd; exact of_decide_eq_false hd
        have hw := readFile_whole i hf hcam hno box true (Or.inr rfl)
        rw [e] at hw
        have hw' := Except.ok.inj hw
        have : Cached ({ i with array := some a } : Img α) := by
          intro x hx
          cases hx
          exact ⟨i.cam, hcam.1, hcam.2, hw'⟩
        cases box <;> exact ⟨this, rfl, rfl⟩
  unfold Img.read
  cases ha : i.array with
  | none => exact main none _ ha rfl (Or.inl rfl)
  | some a =>
    cases hd : decide (i.cam = i.size) with
    | true => cases box <;> exact ⟨hc, rfl, rfl⟩
    | false => exact main (some a) false ha hd (Or.inr rfl)

/-- Every history of operations (any reads, resizes to positive sizes, clearings) leaves a cached array that is the
whole image at some size. -/
theorem run_cached (i : Img α) (hf : i.file.Ok) (hcam : 0 < i.cam.1 ∧ 0 < i.cam.2) (hc : Cached i) (ops : List Op)
    (hops : ∀ nx ny, Op.resize nx ny ∈ ops → 0 < nx ∧ 0 < ny) :
    Cached (i.run ops) ∧ (i.run ops).file = i.file ∧ 0 < (i.run ops).cam.1 ∧ 0 < (i.run ops).cam.2 := by
  induction ops generalizing i with
  | nil => exact ⟨hc, rfl, hcam⟩
  | cons op ops ih =>
    have hrest : ∀ nx ny, Op.resize nx ny ∈ ops → 0 < nx ∧ 0 < ny :=
      fun nx ny h => hops nx ny (List.mem_cons_of_mem _ h)
    have : (i.run (op :: ops)) = (i.step op).run ops := rfl
    rw [this]
    cases op with
    | read b c =>
      obtain ⟨h1, h2, h3⟩ := step_cached i hf hcam hc b c
      have := ih (i.read b c).2 (h2 ▸ hf) (h3 ▸ hcam) h1 hrest
      rw [h2] at this
      exact this
    | resize nx ny =>
      exact ih { i with cam := (nx, ny) } hf (hops nx ny List.mem_cons_self) hc hrest
    | clear =>
      exact ih { i with array := none } hf hcam (by intro a ha; cases ha) hrest

private theorem pyRound_int (z : ℤ) : pyRound (z : ℚ) = z := by
  unfold pyRound; simp

/-! ### Reading -/

/-- Reading an image whose array is the whole image at some size. -/
theorem read_of_cached (j : Img α) (hf : j.file.Ok) (h1 : Cached j) (h3 : 0 < j.cam.1 ∧ 0 < j.cam.2) (box : Option Box) (cache : Bool)
    (hbox : ∀ b ∈ box, b.Within j.cam) (hfine : Fine j box cache) :
    (j.read box cache).1 = .ok (part (j.file.whole j.cam) box) := by
  unfold Img.read
  have fromFile : (j.array = none ∨ j.cam ≠ j.size) →
      (j.fromFile box cache).1 =
        .ok (part (j.file.whole j.cam) box) := by
    intro hno
    unfold Img.fromFile
    cases box with
    | none => rw [readFile_whole j hf h3 hno none cache (Or.inl rfl)]; rfl
    | some b =>
      cases cache with
      | true => rw [readFile_whole j hf h3 hno (some b) true (Or.inr rfl)]; rfl
      | false =>
        have hcs : j.cam = j.size := by
          rcases hfine with h | h | h
          · cases h
          · cases h
          · exact h
        have harr : j.array = none := by
          rcases hno with h | h
          · exact h
          · exact absurd hcs h
        have hs : j.size = (j.file.w, j.file.h) := by unfold Img.size; rw [harr]
        obtain ⟨b1, b2, b3, b4⟩ := hbox b rfl
        rw [hcs, hs] at b2 b4
        simp only at b2 b4
        have hp := hf.pos
        have hwq : (j.file.w : ℚ) ≠ 0 := by exact_mod_cast hp.1.ne'
        have hhq : (j.file.h : ℚ) ≠ 0 := by exact_mod_cast hp.2.ne'
        have r1 : ∀ n : Nat, pyRound (n : ℚ) = n := fun n => by have := pyRound_int (n : ℤ); push_cast at this; exact this
        have r2 : ∀ m n : Nat, pyRound ((m : ℚ) - (n : ℚ)) = (m : ℤ) - n := fun m n => by
          have := pyRound_int ((m : ℤ) - n); push_cast at this; exact this
        have : j.readFile (some b) false =
            .ok (crop (j.file.whole j.cam) b.x0 b.y0 b.x1 b.y1) := by
          unfold Img.readFile
          simp only [hcs, hs, ne_eq, not_true_eq_false, if_false, div_self hwq, div_self hhq, mul_one, r1, r2]
          unfold File.read
          rw [if_neg (by omega)]
          have t1 : ((b.x1 : ℤ) - (b.x0 : ℤ)).toNat = b.x1 - b.x0 := by omega
          have t2 : ((b.y1 : ℤ) - (b.y0 : ℤ)).toNat = b.y1 - b.y0 := by omega
          simp only [Option.getD_none, Int.toNat_natCast, t1, t2]
          rw [if_neg (by omega), hf.exact b.x0 b.y0 (b.x1 - b.x0) (b.y1 - b.y0) (by omega) (by omega)]
          have u1 : b.x0 + (b.x1 - b.x0) = b.x1 := by omega
          have u2 : b.y0 + (b.y1 - b.y0) = b.y1 := by omega
          rw [u1, u2]; rfl
        rw [this]; rfl
  cases ha : j.array with
  | none => exact fromFile (Or.inl ha)
  | some a =>
    cases hd : decide (j.cam = j.size) with
    | false => exact fromFile (Or.inr (of_decide_eq_false hd))
    | true =>
      have hcs : j.cam = j.size := of_decide_eq_true hd
      obtain ⟨s, s1, s2, hs⟩ := h1 a ha
      have : j.size = s := by
        unfold Img.size; rw [ha]; simp only; rw [hs, sizeOf_whole j.file hf s s2]
      have haw : a = j.file.whole j.cam := by rw [hs, hcs, this]
      cases box with
      | none => simp [part, haw]
      | some b => simp [part, haw]

/-- C43. For every file and every history of reads, camera resizes and cache clearings, `read(box, cache)` then returns
that part of the whole image at the camera's current size, whatever is cached - except when part of the image is read
without caching at a size other than that of the cached array (or, without one, of the file). -/
theorem image_read_partial (i : Img α) (hf : i.file.Ok) (hnew : i.array = none) (hcam : 0 < i.cam.1 ∧ 0 < i.cam.2)
    (ops : List Op) (hops : ∀ nx ny, Op.resize nx ny ∈ ops → 0 < nx ∧ 0 < ny) (box : Option Box) (cache : Bool)
    (hbox : ∀ b ∈ box, b.Within (i.run ops).cam) (hfine : Fine (i.run ops) box cache) :
    ((i.run ops).read box cache).1 = .ok (part (i.file.whole (i.run ops).cam) box) := by
  obtain ⟨h1, h2, h3⟩ := run_cached i hf hcam (by intro a ha; rw [hnew] at ha; cases ha) ops hops
  rw [← h2] at hf ⊢
  exact read_of_cached _ hf h1 h3 box cache hbox hfine

/-- The same for an image whose array is the whole image at some size. -/
theorem read_then_cached (j : Img α) (hf : j.file.Ok) (h1 : Cached j) (h3 : 0 < j.cam.1 ∧ 0 < j.cam.2) (box : Option Box) :
    (j.read box true).2.array = some (j.file.whole j.cam) ∧
      ∀ (box' : Option Box) (cache' : Bool),
        (j.read box true).2.read box' cache' = (.ok (part (j.file.whole j.cam) box'), (j.read box true).2) := by
  have harr : (j.read box true).2.array = some (j.file.whole j.cam) ∧ (j.read box true).2.cam = j.cam := by
    unfold Img.read
    have fromFile : (j.array = none ∨ j.cam ≠ j.size) →
        let r := (j.fromFile box true).2
        r.array = some (j.file.whole j.cam) ∧ r.cam = j.cam := by
      intro hno
      unfold Img.fromFile
      rw [readFile_whole j hf h3 hno box true (Or.inr rfl)]
      cases box <;> exact ⟨rfl, rfl⟩
    cases ha : j.array with
    | none => exact fromFile (Or.inl ha)
    | some a =>
      cases hd : decide (j.cam = j.size) with
      | false => exact fromFile (Or.inr (of_decide_eq_false hd))
      | true =>
        have hcs : j.cam = j.size := of_decide_eq_true hd
        obtain ⟨s, s1, s2, hs⟩ := h1 a ha
        have : j.size = s := by
          unfold Img.size; rw [ha]; simp only; rw [hs, sizeOf_whole j.file hf s s2]
        have haw : a = j.file.whole j.cam := by rw [hs, hcs, this]
        cases box <;> exact ⟨by rw [← haw]; exact ha, rfl⟩
  refine ⟨harr.1, ?_⟩
  intro box' cache'
  set r := (j.read box true).2 with hr
  have hsz : r.size = j.cam := by
    unfold Img.size; rw [harr.1]; exact sizeOf_whole j.file hf j.cam h3.2
  unfold Img.read
  rw [harr.1]
  have : decide (r.cam = r.size) = true := by rw [harr.2, hsz]; simp
  rw [this]
  cases box' <;> rfl

/-- A read with caching leaves the array cached at the camera's size: the next read of any box with any flag works and
reads nothing from the file. -/
theorem image_read_then_cached (i : Img α) (hf : i.file.Ok) (hnew : i.array = none)
    (hcam : 0 < i.cam.1 ∧ 0 < i.cam.2) (ops : List Op) (hops : ∀ nx ny, Op.resize nx ny ∈ ops → 0 < nx ∧ 0 < ny)
    (box : Option Box) :
    ((i.run ops).read box true).2.array = some (i.file.whole (i.run ops).cam) ∧
      ∀ (box' : Option Box) (cache' : Bool),
        ((i.run ops).read box true).2.read box' cache' =
          (.ok (part (i.file.whole (i.run ops).cam) box'), ((i.run ops).read box true).2) := by
  obtain ⟨h1, h2, h3⟩ := run_cached i hf hcam (by intro a ha; rw [hnew] at ha; cases ha) ops hops
  rw [← h2] at hf ⊢
  exact read_then_cached _ hf h1 h3 box

/-- C43 fails in the excluded case, for every file and every box that GDAL accepts: reading a part without caching at a
camera size that differs from the file's returns an array of the size of the whole camera image, not of the box. -/
theorem image_read_box_resized_violated (f : File α) (hf : f.Ok) (cam : Nat × Nat) (hne : cam ≠ (f.w, f.h)) (b : Box)
    (a : List (List α)) (h : ((⟨f, cam, none⟩ : Img α).read (some b) false).1 = .ok a) (hpos : 0 < cam.2) :
    sizeOf a = cam := by
  unfold Img.read Img.fromFile at h
  simp only at h
  cases e : (⟨f, cam, none⟩ : Img α).readFile (some b) false with
  | error er => rw [e] at h; cases h
  | ok a' =>
    rw [e] at h
    have : a' = a := by simpa using h
    subst this
    unfold Img.readFile at e
    simp only [Img.size, ne_eq, hne, not_false_eq_true, if_true] at e
    unfold File.read at e
    split at e
    · cases e
    · simp only [Option.getD_some] at e
      split at e
      · cases e
      · cases e
        unfold sizeOf
        have hr := hf.rows (pyRound ((b.x0 : ℚ) * ((f.w : ℚ) / (cam.1 : ℚ)))).toNat
          (pyRound ((b.y0 : ℚ) * ((f.h : ℚ) / (cam.2 : ℚ)))).toNat
          (pyRound (((b.x1 : ℚ) - (b.x0 : ℚ)) * ((f.w : ℚ) / (cam.1 : ℚ)))).toNat
          (pyRound (((b.y1 : ℚ) - (b.y0 : ℚ)) * ((f.h : ℚ) / (cam.2 : ℚ)))).toNat cam.1 cam.2
        have hc := hf.cols (pyRound ((b.x0 : ℚ) * ((f.w : ℚ) / (cam.1 : ℚ)))).toNat
          (pyRound ((b.y0 : ℚ) * ((f.h : ℚ) / (cam.2 : ℚ)))).toNat
          (pyRound (((b.x1 : ℚ) - (b.x0 : ℚ)) * ((f.w : ℚ) / (cam.1 : ℚ)))).toNat
          (pyRound (((b.y1 : ℚ) - (b.y0 : ℚ)) * ((f.h : ℚ) / (cam.2 : ℚ)))).toNat cam.1 cam.2
        generalize f.pixels _ _ _ _ cam.1 cam.2 = px at hr hc ⊢
        cases px with
        | nil => simp at hr; omega
        | cons r l =>
          have := hc r List.mem_cons_self
          ext
          · simpa using this
          · exact hr

/-- A file of `w × h` pixels numbered `10 * row + col`, resampled to the nearest pixel. -/
def demoFile (w h : Nat) : File Nat where
  w := w
  h := h
  pixels xo yo wx wy bx bz := (List.range bz).map fun (r : Nat) => (List.range bx).map fun (c : Nat) =>
    10 * (yo + r * wy / bz) + (xo + c * wx / bx)

/-- The same on a concrete file, also after caching at another size: the cached size (4, 4) is used for the scale
instead of the file's size (8, 8), so that with the camera back at the file's size the wrong window is read. -/
theorem image_read_stale_size_violated :
    let i : Img Nat := ⟨demoFile 8 8, (4, 4), none⟩
    let j := i.run [.read none true, .resize 8 8]
    (j.read (some ⟨4, 4, 8, 8⟩) false).1.map (fun a => (sizeOf a, a.head?)) =
      .ok ((8, 8), some [22, 22, 22, 22, 23, 23, 23, 23]) ∧
    part (i.file.whole (8, 8)) (some ⟨4, 4, 8, 8⟩) =
      [[44, 45, 46, 47], [54, 55, 56, 57], [64, 65, 66, 67], [74, 75, 76, 77]] := by
  constructor
  · decide +kernel
  · decide +kernel

/-- Non-vacuity: the demonstration file meets GDAL's guarantees. -/
theorem demoFile_ok (w h : Nat) (hw : 0 < w) (hh : 0 < h) : (demoFile w h).Ok where
  pos := ⟨hw, hh⟩
  rows := by intros; simp [demoFile]
  cols := by
    intro xo yo wx wy bx bz r hr
    simp only [demoFile, List.mem_map] at hr
    obtain ⟨_, _, rfl⟩ := hr
    simp
  exact := by
    intro xo yo wx wy hx hy
    unfold crop demoFile
    simp only [← List.map_take, ← List.map_drop, List.map_map]
    have hr : ∀ n o m : Nat, o + m ≤ n → ((List.range n).take (o + m)).drop o = (List.range m).map (o + ·) := by
      intro n o m hle
      apply List.ext_getElem
      · simp; omega
      · intro k h1 h2
        simp
    rw [hr h yo wy (by simpa [demoFile] using hy)]
    rw [List.map_map]
    refine List.map_congr_left ?_
    intro r hrm
    have hrm' := List.mem_range.1 hrm
    simp only [Function.comp_apply, ← List.map_take, ← List.map_drop]
    rw [hr w xo wx (by simpa [demoFile] using hx), List.map_map]
    refine List.map_congr_left ?_
    intro c hcm
    have hcm' := List.mem_range.1 hcm
    simp only [Function.comp_apply, Nat.zero_add]
    have e1 : r * wy / wy = r := Nat.mul_div_cancel _ (by omega)
    have e2 : c * wx / wx = c := Nat.mul_div_cancel _ (by omega)
    have e3 : (yo + r) * h / h = yo + r := Nat.mul_div_cancel _ hh
    have e4 : (xo + c) * w / w = xo + c := Nat.mul_div_cancel _ hw
    rw [e1, e2, e3, e4]

example : (((⟨demoFile 8 6, (8, 6), none⟩ : Img Nat).run [.read none true, .resize 4 3, .read (some ⟨0, 0, 2, 2⟩) true,
    .clear, .resize 8 6]).read (some ⟨1, 2, 4, 4⟩) false).1 = .ok [[21, 22, 23], [31, 32, 33]] := by decide +kernel

/-- C43 (resized reads): box corners are rounded to the nearest pixel of the file, halves to the even one. -/
theorem round_half_even (x : ℚ) : |(pyRound x : ℚ) - x| ≤ 1 / 2 ∧ (|(pyRound x : ℚ) - x| = 1 / 2 → pyRound x % 2 = 0) := by
  have h1 := Int.floor_le x
  have h2 := Int.lt_floor_add_one x
  unfold pyRound
  split
  · rename_i h
    constructor
    · rw [abs_le]; constructor <;> linarith
    · intro he
      rw [abs_of_nonpos (by linarith)] at he
      linarith
  · rename_i h
    split
    · rename_i h'
      push_cast
      constructor
      · rw [abs_le]; constructor <;> linarith
      · intro he
        rw [abs_of_nonneg (by linarith)] at he
        linarith
    · rename_i h'
      split
      · rename_i h3
        refine ⟨?_, fun _ => h3⟩
        rw [abs_le]; constructor <;> linarith
      · rename_i h3
        refine ⟨?_, fun _ => by omega⟩
        push_cast
        rw [abs_le]; constructor <;> linarith

end Glimpse.ImageRead
