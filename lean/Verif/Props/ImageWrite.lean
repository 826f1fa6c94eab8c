import Verif.Model.ImageWrite
import Mathlib.Tactic.Linarith

/-!
C118: `Image.write` writes the pixels of the image, and images read what was written.
-/
set_option autoImplicit false
set_option linter.unusedSimpArgs false
set_option linter.unusedSectionVars false

namespace Glimpse.ImageWrite

open Glimpse.ImageRead

variable {α : Type}

/-! ### Specification -/

/-- Spec: an array of pixels with at least one row and column. -/
def Solid (a : Pix α) : Prop := 0 < (ImageRead.sizeOf a).1 ∧ 0 < (ImageRead.sizeOf a).2

/-- Spec of GDAL: a file has the size of the array it holds; its full window read at its own size is that array, and what is read has the
size of the buffer. -/
structure Faithful (gdal : Pix α → File α) : Prop where
  w : ∀ c, (gdal c).w = (ImageRead.sizeOf c).1
  h : ∀ c, (gdal c).h = (ImageRead.sizeOf c).2
  same : ∀ c, Solid c → (gdal c).pixels 0 0 (ImageRead.sizeOf c).1 (ImageRead.sizeOf c).2 (ImageRead.sizeOf c).1 (ImageRead.sizeOf c).2 = c
  size : ∀ c (x y wx wy bx by_ : Nat), 0 < bx → 0 < by_ → ImageRead.sizeOf ((gdal c).pixels x y wx wy bx by_) = (bx, by_)

/-- Spec: the pixels of a file that holds `c`, resampled to a size (the array itself if that is its own). -/
def pixelsAt (gdal : Pix α → File α) (c : Pix α) (size : Nat × Nat) : Pix α :=
  (gdal c).pixels 0 0 (ImageRead.sizeOf c).1 (ImageRead.sizeOf c).2 size.1 size.2

/-- Spec: whatever image `k` has cached are the pixels of its file. -/
def Fresh (gdal : Pix α → File α) (w : World α) (k : Nat) : Prop :=
  ∀ a, (w.imgs k).array = some a → Solid a ∧ ∃ c, w.files (w.imgs k).path = some c ∧ Solid c ∧ a = pixelsAt gdal c (ImageRead.sizeOf a)

/-- Spec: a write does not replace the file of an image that has cached pixels (or caches them by this write). -/
def Careful (w : World α) : Act α → Prop
  | .write k p none _ => ∀ j, (w.imgs j).path = p → (w.imgs j).array = none ∧ j ≠ k
  | .write _ p (some a) _ => Solid a ∧ ∀ j, (w.imgs j).path = p → (w.imgs j).array = none
  | .resize _ nx ny => 0 < nx ∧ 0 < ny
  | _ => True

/-- Spec: every action of a history is careful when it happens. -/
def CarefulRun (gdal : Pix α → File α) : World α → List (Act α) → Prop
  | _, [] => True
  | w, a :: as => Careful w a ∧ CarefulRun gdal (w.step gdal a) as

/-- Spec: a good world: files hold pixels, cameras have a size, all caches are fresh. -/
structure Good (gdal : Pix α → File α) (w : World α) : Prop where
  files : ∀ p c, w.files p = some c → Solid c
  cams : ∀ k, 0 < (w.imgs k).cam.1 ∧ 0 < (w.imgs k).cam.2
  fresh : ∀ k, Fresh gdal w k

/-! ### Proofs -/

private theorem setImg_self (w : World α) (k : Nat) (i : Im α) : (w.setImg k i).imgs k = i := by simp [World.setImg]

private theorem setImg_other (w : World α) (k j : Nat) (i : Im α) (h : j ≠ k) : (w.setImg k i).imgs j = w.imgs j := by
  simp [World.setImg, h]

/-- Reading the full window of a file. -/
private theorem file_read (gdal : Pix α → File α) (hg : Faithful gdal) (c : Pix α) (hc : Solid c) (size : Nat × Nat)
    (h1 : 0 < size.1) (h2 : 0 < size.2) (buf : Option (Nat × Nat)) (hb : buf = some size ∨ (buf = none ∧ size = ImageRead.sizeOf c)) :
    (gdal c).read 0 0 (gdal c).w (gdal c).h buf = .ok (pixelsAt gdal c size) := by
  unfold File.read pixelsAt
  have c1 := hc.1
  have c2 := hc.2
  rw [hg.w, hg.h]
  rw [if_neg (by omega)]
  have hbuf : buf.getD (((ImageRead.sizeOf c).1 : ℤ).toNat, ((ImageRead.sizeOf c).2 : ℤ).toNat) = size := by
    rcases hb with hb | ⟨hb, hs⟩
    · rw [hb]; rfl
    · rw [hb, hs]; simp
  simp only [hbuf]
  rw [if_neg (by omega)]
  simp

/-- What a full cached read does in a good world. -/
private theorem read_full (gdal : Pix α → File α) (hg : Faithful gdal) (w : World α) (k : Nat) (c : Pix α)
    (hf : w.files (w.imgs k).path = some c) (hc : Solid c) (hcam : 0 < (w.imgs k).cam.1 ∧ 0 < (w.imgs k).cam.2)
    (hfr : Fresh gdal w k) :
    (w.read gdal k none true).1 = .ok (pixelsAt gdal c (w.imgs k).cam) ∧
    (w.read gdal k none true).2 = w.setImg k ⟨(w.imgs k).path, (w.imgs k).cam, some (pixelsAt gdal c (w.imgs k).cam)⟩ := by
  have key : (⟨gdal c, (w.imgs k).cam, (w.imgs k).array⟩ : Img α).read none true =
      (.ok (pixelsAt gdal c (w.imgs k).cam), ⟨gdal c, (w.imgs k).cam, some (pixelsAt gdal c (w.imgs k).cam)⟩) := by
    cases ha : (w.imgs k).array with
    | none =>
      unfold Img.read
      simp only
      unfold Img.fromFile Img.readFile
      have hsz : (⟨gdal c, (w.imgs k).cam, none⟩ : Img α).size = ImageRead.sizeOf c := by
        unfold Img.size
        simp only
        rw [hg.w, hg.h]
      simp only [hsz]
      rw [file_read gdal hg c hc (w.imgs k).cam hcam.1 hcam.2 _ (by
        by_cases he : (w.imgs k).cam = ImageRead.sizeOf c
        · right; simp [he]
        · left; simp [he])]
      rfl
    | some a =>
      obtain ⟨hs, c', hf', hc', hpa⟩ := hfr a ha
      rw [hf] at hf'
      obtain rfl := Option.some.inj hf'
      by_cases he : (w.imgs k).cam = ImageRead.sizeOf a
      · unfold Img.read
        have hsz : (⟨gdal c, (w.imgs k).cam, some a⟩ : Img α).size = ImageRead.sizeOf a := rfl
        have hd : decide ((w.imgs k).cam = ImageRead.sizeOf a) = true := by simp [he]
        simp only [hsz, hd]
        rw [he, ← hpa]
      · unfold Img.read
        have hsz : (⟨gdal c, (w.imgs k).cam, some a⟩ : Img α).size = ImageRead.sizeOf a := rfl
        simp only [hsz, he, decide_false]
        unfold Img.fromFile Img.readFile
        simp only [hsz, he, ne_eq, not_false_eq_true, if_true]
        rw [file_read gdal hg c hc (w.imgs k).cam hcam.1 hcam.2 _ (.inl rfl)]
        try rfl
  unfold World.read
  simp only [hf, key]
  exact ⟨trivial, trivial⟩

/-- What any read leaves: files and other images untouched, and this image's path and camera. -/
private theorem read_frame (gdal : Pix α → File α) (w : World α) (k : Nat) (box : Option Box) (cache : Bool) :
    (w.read gdal k box cache).2.files = w.files ∧ (∀ j, j ≠ k → (w.read gdal k box cache).2.imgs j = w.imgs j) ∧
    ((w.read gdal k box cache).2.imgs k).path = (w.imgs k).path ∧ ((w.read gdal k box cache).2.imgs k).cam = (w.imgs k).cam := by
  unfold World.read
  simp only
  split
  · exact ⟨rfl, fun j hj => setImg_other w k j _ hj, by rw [setImg_self], by rw [setImg_self]⟩
  · split
    · split <;> exact ⟨rfl, fun _ _ => rfl, rfl, rfl⟩
    · exact ⟨rfl, fun _ _ => rfl, rfl, rfl⟩

private theorem img_read_array (gdal : Pix α → File α) (hg : Faithful gdal) (c : Pix α) (hc : Solid c) (cam : Nat × Nat)
    (hcam : 0 < cam.1 ∧ 0 < cam.2) (arr : Option (Pix α)) (box : Option Box) (cache : Bool) :
    ((⟨gdal c, cam, arr⟩ : Img α).read box cache).2.array = arr ∨
    ((⟨gdal c, cam, arr⟩ : Img α).read box cache).2.array = some (pixelsAt gdal c cam) := by
  unfold Img.read
  split
  · left; split <;> rfl
  · unfold Img.fromFile
    split
    · left; rfl
    · rename_i a hrd
      cases cache with
      | false => left; cases box <;> rfl
      | true =>
        right
        have : a = pixelsAt gdal c cam := by
          have hfull : (⟨gdal c, cam, arr⟩ : Img α).readFile box true =
              (gdal c).read 0 0 (gdal c).w (gdal c).h (if cam ≠ (⟨gdal c, cam, arr⟩ : Img α).size then some cam else none) := by
            unfold Img.readFile
            cases box <;> rfl
          rw [hfull] at hrd
          by_cases he : cam = (⟨gdal c, cam, arr⟩ : Img α).size
          · -- then the array is not cached, or its size differs: only the former gets here
            cases arr with
            | none =>
              have hsz : (⟨gdal c, cam, none⟩ : Img α).size = ImageRead.sizeOf c := by
                unfold Img.size
                simp only
                rw [hg.w, hg.h]
              rw [if_neg (by simpa using he), file_read gdal hg c hc cam hcam.1 hcam.2 none (.inr ⟨rfl, he.trans hsz⟩)] at hrd
              exact (Except.ok.inj hrd).symm
            | some b =>
              rename_i hne
              exact absurd rfl (hne b · (by simpa using he))
          · rw [if_pos he, file_read gdal hg c hc cam hcam.1 hcam.2 _ (.inl rfl)] at hrd
            exact (Except.ok.inj hrd).symm
        subst this
        cases box <;> rfl

private theorem good_read (gdal : Pix α → File α) (hg : Faithful gdal) (w : World α) (hw : Good gdal w) (k : Nat) (box : Option Box)
    (cache : Bool) : Good gdal (w.read gdal k box cache).2 := by
  obtain ⟨h1, h2, h3, h4⟩ := read_frame gdal w k box cache
  refine ⟨by rw [h1]; exact hw.files, fun j => ?_, fun j => ?_⟩
  · by_cases hj : j = k
    · rw [hj, h4]; exact hw.cams k
    · rw [h2 j hj]; exact hw.cams j
  · by_cases hj : j = k
    · subst hj
      intro a ha
      rw [h1, h3]
      unfold World.read at ha
      simp only at ha
      split at ha
      · rename_i c hc
        rw [setImg_self] at ha
        simp only at ha
        have hs := hw.files _ c hc
        rcases img_read_array gdal hg c hs (w.imgs j).cam (hw.cams j) (w.imgs j).array box cache with e | e
        · rw [e] at ha
          exact hw.fresh j a ha
        · rw [e] at ha
          obtain rfl := Option.some.inj ha
          have hsz := hg.size c 0 0 (ImageRead.sizeOf c).1 (ImageRead.sizeOf c).2 _ _ (hw.cams j).1 (hw.cams j).2
          refine ⟨?_, c, hc, hs, ?_⟩
          · unfold Solid pixelsAt
            rw [hsz]
            exact hw.cams j
          · unfold pixelsAt at hsz ⊢
            rw [hsz]
      · split at ha
        · split at ha <;> exact hw.fresh j a ha
        · exact hw.fresh j a ha
    · intro a ha
      rw [h2 j hj] at ha ⊢
      rw [h1]
      exact hw.fresh j a ha

private theorem good_setFile (gdal : Pix α → File α) (w : World α) (hw : Good gdal w) (p : Nat) (a : Pix α) (ha : Solid a)
    (hp : ∀ j, (w.imgs j).path = p → (w.imgs j).array = none) : Good gdal (w.setFile p a) := by
  refine ⟨fun q c hq => ?_, hw.cams, fun j b hb => ?_⟩
  · simp only [World.setFile] at hq
    split at hq
    · obtain rfl := Option.some.inj hq; exact ha
    · exact hw.files q c hq
  · obtain ⟨h1, c, h2, h3⟩ := hw.fresh j b hb
    refine ⟨h1, c, ?_, h3⟩
    simp only [World.setFile]
    rw [if_neg]
    · exact h2
    · intro e
      have := hp j e
      have hb' : (w.imgs j).array = some b := hb
      rw [this] at hb'
      cases hb'

private theorem read_solid (gdal : Pix α → File α) (hg : Faithful gdal) (w : World α) (hw : Good gdal w) (k : Nat) (a : Pix α) (w' : World α)
    (h : w.read gdal k none true = (.ok a, w')) : Solid a := by
  cases hf : w.files (w.imgs k).path with
  | some c =>
    have := (read_full gdal hg w k c hf (hw.files _ c hf) (hw.cams k) (hw.fresh k)).1
    rw [h] at this
    obtain rfl := Except.ok.inj this
    unfold Solid pixelsAt
    rw [hg.size c 0 0 _ _ _ _ (hw.cams k).1 (hw.cams k).2]
    exact hw.cams k
  | none =>
    unfold World.read at h
    simp only [hf] at h
    split at h
    · rename_i b hb
      obtain ⟨-, c, hc, -⟩ := hw.fresh k b hb
      rw [hf] at hc
      cases hc
    · simp at h

private theorem good_step (gdal : Pix α → File α) (hg : Faithful gdal) (w : World α) (hw : Good gdal w) (a : Act α) (ha : Careful w a) :
    Good gdal (w.step gdal a) := by
  cases a with
  | read k b c => exact good_read gdal hg w hw k b c
  | resize k nx ny =>
    refine ⟨hw.files, fun j => ?_, fun j b hb => ?_⟩
    · by_cases hj : j = k
      · subst hj; unfold World.step; rw [setImg_self]; exact ha
      · unfold World.step; rw [setImg_other _ _ _ _ hj]; exact hw.cams j
    · by_cases hj : j = k
      · subst hj
        unfold World.step at hb ⊢
        rw [setImg_self] at hb ⊢
        exact hw.fresh j b hb
      · unfold World.step at hb ⊢
        rw [setImg_other _ _ _ _ hj] at hb ⊢
        exact hw.fresh j b hb
  | clear k =>
    refine ⟨hw.files, fun j => ?_, fun j b hb => ?_⟩
    · by_cases hj : j = k
      · subst hj; unfold World.step; rw [setImg_self]; exact hw.cams j
      · unfold World.step; rw [setImg_other _ _ _ _ hj]; exact hw.cams j
    · by_cases hj : j = k
      · subst hj
        unfold World.step at hb
        rw [setImg_self] at hb
        cases hb
      · unfold World.step at hb ⊢
        rw [setImg_other _ _ _ _ hj] at hb ⊢
        exact hw.fresh j b hb
  | write k p arr d =>
    unfold World.step World.write
    cases arr with
    | some a =>
      simp only
      cases d with
      | false => exact hw
      | true => exact good_setFile gdal w hw p a ha.1 ha.2
    | none =>
      simp only
      have hgr := good_read gdal hg w hw k none true
      obtain ⟨f1, f2, f3, f4⟩ := read_frame gdal w k none true
      split
      · rename_i e w' hr
        rw [hr] at hgr
        exact hgr
      · rename_i a w' hr
        have hsol := read_solid gdal hg w hw k a w' hr
        rw [hr] at hgr f2 f3
        cases d with
        | false => exact hgr
        | true =>
          refine good_setFile gdal w' hgr p a hsol fun j hj => ?_
          by_cases hjk : j = k
          · subst hjk
            simp only at f3
            exact absurd rfl (ha j (by rw [← f3]; exact hj)).2
          · simp only at f2
            rw [f2 j hjk] at hj ⊢
            exact (ha j hj).1

/-- C118: a good world stays good in every careful history. -/
theorem careful_good (gdal : Pix α → File α) (hg : Faithful gdal) (acts : List (Act α)) : ∀ (w : World α), Good gdal w → CarefulRun gdal w acts →
    Good gdal (w.run gdal acts) := by
  induction acts with
  | nil => intro w hw _; exact hw
  | cons a as ih => intro w hw hc; exact ih _ (good_step gdal hg w hw a hc.1) hc.2

/-- C118 (partial: no file is replaced while an image has its pixels cached): after any such history of reads, writes, resizes and clearings
of any number of images, reading an image returns the pixels its file holds now, at the size of its camera. -/
theorem read_after_writes_partial (gdal : Pix α → File α) (hg : Faithful gdal) (w : World α) (hw : Good gdal w) (acts : List (Act α))
    (hc : CarefulRun gdal w acts) (k : Nat) (c : Pix α) (hf : (w.run gdal acts).files ((w.run gdal acts).imgs k).path = some c) :
    ((w.run gdal acts).read gdal k none true).1 = .ok (pixelsAt gdal c ((w.run gdal acts).imgs k).cam) := by
  have h := careful_good gdal hg acts w hw hc
  exact (read_full gdal hg _ k c hf (h.files _ c hf) (h.cams k) (h.fresh k)).1

/-- C118 (partial: the camera has the size of the file): `write` without an array writes the pixels of the image's file, and no other file. -/
theorem write_original_partial (gdal : Pix α → File α) (hg : Faithful gdal) (w : World α) (hw : Good gdal w) (k p : Nat) (c : Pix α)
    (hf : w.files (w.imgs k).path = some c) (hcam : (w.imgs k).cam = ImageRead.sizeOf c) :
    (w.write gdal k p none true).1 = .ok () ∧ (w.write gdal k p none true).2.files p = some c ∧
    (∀ q, q ≠ p → (w.write gdal k p none true).2.files q = w.files q) ∧
    ∀ j, j ≠ k → (w.write gdal k p none true).2.imgs j = w.imgs j := by
  obtain ⟨r1, r2⟩ := read_full gdal hg w k c hf (hw.files _ c hf) (hw.cams k) (hw.fresh k)
  have hr : w.read gdal k none true = (.ok (pixelsAt gdal c (w.imgs k).cam), (w.read gdal k none true).2) := Prod.ext r1 rfl
  have hpc : pixelsAt gdal c (w.imgs k).cam = c := by
    rw [hcam]; exact hg.same c (hw.files _ c hf)
  obtain ⟨f1, f2, -, -⟩ := read_frame gdal w k none true
  unfold World.write
  rw [hr, hpc]
  simp only [if_true]
  refine ⟨trivial, by simp [World.setFile], fun q hq => ?_, fun j hj => f2 j hj⟩
  simp only [World.setFile, if_neg hq]
  rw [f1]

/-- C118: `write` with an array writes it to the path given, and changes nothing else; without a driver it raises and changes nothing. -/
theorem write_array (gdal : Pix α → File α) (w : World α) (k p : Nat) (a : Pix α) :
    w.write gdal k p (some a) true = (.ok (), w.setFile p a) ∧ w.write gdal k p (some a) false = (.error .valueError, w) ∧
    (w.setFile p a).files p = some a ∧ (∀ q, q ≠ p → (w.setFile p a).files q = w.files q) ∧ (w.setFile p a).imgs = w.imgs :=
  ⟨rfl, rfl, by simp [World.setFile], fun q hq => by simp [World.setFile, hq], rfl⟩

/-- C118 fails for resized cameras: not the original data is written but pixels of another size; written to the image's own file, they
replace it. -/
theorem write_resized_violated (gdal : Pix α → File α) (hg : Faithful gdal) (w : World α) (hw : Good gdal w) (k : Nat) (c : Pix α)
    (hf : w.files (w.imgs k).path = some c) (hcam : (w.imgs k).cam ≠ ImageRead.sizeOf c) (p : Nat) :
    ∃ b, (w.write gdal k p none true).1 = .ok () ∧ (w.write gdal k p none true).2.files p = some b ∧ ImageRead.sizeOf b = (w.imgs k).cam ∧ b ≠ c := by
  obtain ⟨r1, r2⟩ := read_full gdal hg w k c hf (hw.files _ c hf) (hw.cams k) (hw.fresh k)
  have hr : w.read gdal k none true = (.ok (pixelsAt gdal c (w.imgs k).cam), (w.read gdal k none true).2) := Prod.ext r1 rfl
  have hsz : ImageRead.sizeOf (pixelsAt gdal c (w.imgs k).cam) = (w.imgs k).cam := hg.size c 0 0 _ _ _ _ (hw.cams k).1 (hw.cams k).2
  refine ⟨pixelsAt gdal c (w.imgs k).cam, ?_, ?_, hsz, fun e => hcam ?_⟩
  · unfold World.write; rw [hr]; rfl
  · unfold World.write; rw [hr]; simp [World.setFile]
  · rw [← hsz, e]

/-- C118 fails for cached images: one that replaces its own file (with pixels of the same size) goes on reading the pixels from before. -/
theorem read_stale_violated (gdal : Pix α → File α) (hg : Faithful gdal) (w : World α) (k : Nat) (a b : Pix α) (ha : Solid a)
    (hc : (w.imgs k).array = some a) (hcam : (w.imgs k).cam = ImageRead.sizeOf a) (hb : ImageRead.sizeOf b = ImageRead.sizeOf a) (hne : a ≠ b) :
    let w' := (w.write gdal k (w.imgs k).path (some b) true).2
    w'.files (w'.imgs k).path = some b ∧ pixelsAt gdal b (w'.imgs k).cam = b ∧ (w'.read gdal k none true).1 = .ok a ∧ a ≠ b := by
  intro w'
  have hsb : Solid b := by unfold Solid at ha ⊢; rw [hb]; exact ha
  refine ⟨by simp [w', World.write, World.setFile], ?_, ?_, hne⟩
  · have : (w'.imgs k).cam = ImageRead.sizeOf b := by rw [hb]; exact hcam
    rw [this]
    exact hg.same b hsb
  · have hw' : w' = w.setFile (w.imgs k).path b := rfl
    rw [hw']
    unfold World.read
    have h1 : (w.setFile (w.imgs k).path b).imgs k = w.imgs k := rfl
    have h2 : (w.setFile (w.imgs k).path b).files (w.imgs k).path = some b := by simp [World.setFile]
    simp only [h1, h2]
    unfold Img.read
    have hsz : (⟨gdal b, (w.imgs k).cam, some a⟩ : Img α).size = ImageRead.sizeOf a := rfl
    have hd : decide ((w.imgs k).cam = ImageRead.sizeOf a) = true := by simp [hcam]
    simp only [hc, hsz, hd]

/-- A case of the theorems: GDAL as the identity for files read at their own size, one image. -/
def plain (c : Pix Nat) : File Nat :=
  ⟨(ImageRead.sizeOf c).1, (ImageRead.sizeOf c).2, fun x y wx wy bx by_ =>
    if x = 0 ∧ y = 0 ∧ (wx, wy) = ImageRead.sizeOf c ∧ (bx, by_) = ImageRead.sizeOf c then c else List.replicate by_ (List.replicate bx 0)⟩

example : Faithful plain := by
  refine ⟨fun _ => rfl, fun _ => rfl, fun c _ => by simp [plain], fun c x y wx wy bx by_ h1 h2 => ?_⟩
  simp only [plain]
  split
  · rename_i h; exact h.2.2.2.symm
  · cases by_ with
    | zero => omega
    | succ n => simp [ImageRead.sizeOf, List.replicate_succ]

example : Good plain ⟨fun p => if p = 0 then some [[1, 2], [3, 4]] else none, fun _ => ⟨0, (2, 2), none⟩⟩ := by
  refine ⟨fun p c h => ?_, fun k => by simp, fun k a h => by cases h⟩
  simp only at h
  split at h
  · obtain rfl := Option.some.inj h; exact ⟨by decide, by decide⟩
  · cases h

end Glimpse.ImageWrite
