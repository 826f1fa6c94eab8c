import Verif.Model.ImageNew
import Verif.Props.CameraJson
import Mathlib.Data.List.TakeWhile

/-!
C105: what an image is made of.
-/
set_option autoImplicit false
set_option linter.unusedSimpArgs false
set_option linter.unusedSectionVars false

namespace Glimpse.ImgNew

open Glimpse.CamJson Glimpse.Exif

/-- C105. With a camera, or image size and focal length (in pixels, or in mm with the sensor size), and with a time,
metadata is not read: whatever the file holds, even if it cannot be read. And none is kept unless it was given. -/
theorem image_without_metadata (arg : CamArg) (t : DT) (exif : Option Meta) (file file' : Except Err Meta)
    (h : match arg with
      | .cam _ => True
      | .dict kw => (has kw "imgsz" = true ∧ has kw "f" = true) ∨
          (has kw "imgsz" = true ∧ has kw "fmm" = true ∧ has kw "sensorsz" = true)) :
    new arg (some t) exif file = new arg (some t) exif file' ∧
    (∀ i, new arg (some t) exif file = .ok i → i.exif = exif ∧ i.datetime = some t) ∧
    (∀ kw i, arg = .dict kw → new arg (some t) exif file = .ok i → call kw = .ok i.cam) ∧
    (∀ c, arg = .cam c → new arg (some t) exif file = .ok ⟨c, some t, exif⟩) := by
  cases arg with
  | cam c => exact ⟨rfl, fun i hi => by cases hi; exact ⟨rfl, rfl⟩, (fun _ _ h => by cases h), fun c' hc => by cases hc; rfl⟩
  | dict kw =>
    have hc : complete kw = true := by
      unfold complete
      rcases h with ⟨h1, h2⟩ | ⟨h1, h2, h3⟩
      · rw [h1, h2]; rfl
      · rw [h1, h2, h3]; simp
    have e : ∀ file, new (.dict kw) (some t) exif file = (call kw).map fun c => ⟨c, some t, exif⟩ := by
      intro file
      unfold new camOf
      simp only [hc, if_true, bind, Except.bind]
      cases call kw <;> rfl
    refine ⟨by rw [e, e], ?_, ?_, by intro c hc; cases hc⟩
    · intro i hi
      rw [e] at hi
      cases hk : call kw with
      | error x => rw [hk] at hi; cases hi
      | ok c => rw [hk] at hi; cases hi; exact ⟨rfl, rfl⟩
    · intro kw' i hkw hi
      cases hkw
      rw [e] at hi
      cases hk : call kw with
      | error x => rw [hk] at hi; cases hi
      | ok c => rw [hk] at hi; cases hi; rfl

/-- C105. Metadata that is given is used instead of that of the file. -/
theorem image_given_metadata (arg : CamArg) (t : Option DT) (m : Meta) (file file' : Except Err Meta) :
    new arg t (some m) file = new arg t (some m) file' ∧
    ∀ i, new arg t (some m) file = .ok i → i.exif = some m := by
  have hc : ∀ file, camOf arg (some m) file = camOf arg (some m) file' := by
    intro file
    cases arg <;> rfl
  have hs : ∀ r, camOf arg (some m) file = .ok r → r.2 = some m := by
    intro r hr
    cases arg with
    | cam c => cases hr; rfl
    | dict kw =>
      unfold camOf at hr
      simp only [bind, Except.bind, orRead] at hr
      split at hr
      · cases hk : call kw with
        | error x => rw [hk] at hr; cases hr
        | ok c => rw [hk] at hr; cases hr; rfl
      · cases hd : metaKw m with
        | error x => rw [hd] at hr; cases hr
        | ok d =>
          rw [hd] at hr
          simp only at hr
          cases hk : call (kw ++ d) with
          | error x => rw [hk] at hr; cases hr
          | ok c => rw [hk] at hr; cases hr; rfl
  constructor
  · unfold new
    rw [hc file]
    rw [hc file] at hs
    cases hr : camOf arg (some m) file' with
    | error e => rfl
    | ok r =>
      simp only [bind, Except.bind]
      have := hs r hr
      cases t with
      | some t => rfl
      | none => rw [this]; rfl
  · intro i hi
    unfold new at hi
    cases hr : camOf arg (some m) file with
    | error e => rw [hr] at hi; cases hi
    | ok r =>
      rw [hr] at hi
      simp only [bind, Except.bind] at hi
      have := hs r hr
      cases t with
      | some t => cases hi; exact this
      | none =>
        rw [this] at hi
        simp only [orRead] at hi
        cases hd : m.datetime with
        | error e => rw [hd] at hi; cases hi
        | ok t => rw [hd] at hi; cases hi; rfl

/-- C105. The time is the one given, or else that of the metadata (None if it has none). -/
theorem image_datetime (arg : CamArg) (t : Option DT) (exif : Option Meta) (file : Except Err Meta) (i : Img)
    (h : new arg t exif file = .ok i) :
    (∀ d, t = some d → i.datetime = some d) ∧
    (t = none → ∃ m, i.exif = some m ∧ m.datetime = .ok i.datetime ∧ (exif = some m ∨ exif = none ∧ file = .ok m)) := by
  unfold new at h
  cases hr : camOf arg exif file with
  | error e => rw [hr] at h; cases h
  | ok r =>
    rw [hr] at h
    simp only [bind, Except.bind] at h
    have hm : ∀ m, r.2 = some m → (exif = some m ∨ exif = none ∧ file = .ok m) := by
      intro m hm
      cases arg with
      | cam c => cases hr; exact .inl hm
      | dict kw =>
        unfold camOf at hr
        simp only [bind, Except.bind] at hr
        split at hr
        · cases hk : call kw with
          | error x => rw [hk] at hr; cases hr
          | ok c => rw [hk] at hr; cases hr; exact .inl hm
        · cases ho : orRead exif file with
          | error x => rw [ho] at hr; cases hr
          | ok m' =>
            rw [ho] at hr
            simp only at hr
            cases hd : metaKw m' with
            | error x => rw [hd] at hr; cases hr
            | ok d =>
              rw [hd] at hr
              simp only at hr
              cases hk : call (kw ++ d) with
              | error x => rw [hk] at hr; cases hr
              | ok c =>
                rw [hk] at hr
                cases hr
                cases hm
                cases exif with
                | some e => cases ho; exact .inl rfl
                | none => exact .inr ⟨rfl, ho⟩
    constructor
    · rintro d rfl
      cases h; rfl
    · rintro rfl
      simp only at h
      cases ho : orRead r.2 file with
      | error e => rw [ho] at h; cases h
      | ok m =>
        rw [ho] at h
        simp only at h
        cases hd : m.datetime with
        | error e => rw [hd] at h; cases h
        | ok t =>
          rw [hd] at h
          cases h
          refine ⟨m, rfl, hd, ?_⟩
          cases h2 : r.2 with
          | some m' =>
            rw [h2] at ho
            cases ho
            exact hm m h2
          | none =>
            rw [h2] at ho
            have hex : exif = none := by
              cases exif with
              | none => rfl
              | some e =>
                have := (image_given_metadata arg (some (⟨0, 0, 0, 0, 0, 0, 0⟩ : DT)) e file file).2 ⟨r.1, _, r.2⟩
                  (by unfold new; rw [hr]; rfl)
                simp only at this
                rw [h2] at this
                cases this
            exact .inr ⟨hex, ho⟩

/-- The dictionary, or else the metadata, decides an attribute. -/
theorem lookup_with_meta (kw d : List (String × KwVal)) (n : String) :
    (kw ++ d).lookup n = match kw.lookup n with
      | some v => some v
      | none => d.lookup n := by
  rw [List.lookup_append]
  cases kw.lookup n <;> rfl

/-- C105. If metadata is used for the camera: what is in the dictionary overrides it, image size, focal length (mm) and
sensor size not in the dictionary are those of the metadata. (A focal length in pixels cannot be in the dictionary unless the
metadata has none, `image_override_f_violated`.) -/
theorem image_override (kw : List (String × KwVal)) (t : Option DT) (m : Meta) (file : Except Err Meta) (i : Img)
    (hc : complete kw = false) (h : new (.dict kw) t (some m) file = .ok i) :
    (∀ l, kw.lookup "xyz" = some (.vec (some l)) → Padded 3 l i.cam.xyz) ∧
    (∀ l, kw.lookup "viewdir" = some (.vec (some l)) → Padded 3 l i.cam.viewdir) ∧
    (∀ l, kw.lookup "k" = some (.vec (some l)) → Padded 6 l i.cam.k) ∧
    (∀ l, kw.lookup "p" = some (.vec (some l)) → Padded 2 l i.cam.p) ∧
    (∀ l, kw.lookup "c" = some (.vec (some l)) → Padded 2 l i.cam.c) ∧
    (∀ l, kw.lookup "imgsz" = some (.vec (some l)) → Both l i.cam.imgsz) ∧
    (∀ x y, kw.lookup "imgsz" = none → m.imgsz = .ok (some (x, y)) → i.cam.imgsz = [some (x : ℚ), some (y : ℚ)]) ∧
    (∀ l, l ≠ [] → kw.lookup "sensorsz" = some (.vec (some l)) → ∃ s, i.cam.sensorsz = some s ∧ Both l s) ∧
    (∀ x y, kw.lookup "sensorsz" = none → m.sensorsz = .ok (some (x, y)) → i.cam.sensorsz = some [some x, some y]) ∧
    (∀ s, i.cam.sensorsz = some s → (∀ x ∈ s ++ i.cam.imgsz, ∃ q : ℚ, x = some q ∧ q ≠ 0) →
      (∀ l, l ≠ [] → kw.lookup "fmm" = some (.vec (some l)) → ∃ r, i.cam.fmm = some r ∧ Both l r) ∧
      (∀ x, kw.lookup "fmm" = none → m.fmm = .ok (some x) → i.cam.fmm = some [some x, some x])) := by
  -- the camera is made of both
  obtain ⟨d, hd, hk⟩ : ∃ d, metaKw m = .ok d ∧ call (kw ++ d) = .ok i.cam := by
    unfold new camOf at h
    simp only [hc, Bool.false_eq_true, if_false, orRead, bind, Except.bind] at h
    cases hd : metaKw m with
    | error x => rw [hd] at h; cases h
    | ok d =>
      rw [hd] at h
      simp only at h
      cases hk : call (kw ++ d) with
      | error x => rw [hk] at h; cases h
      | ok c =>
        rw [hk] at h
        simp only at h
        cases t with
        | some t => cases h; exact ⟨d, rfl, hk⟩
        | none =>
          simp only at h
          cases ht : m.datetime with
          | error e => rw [ht] at h; cases h
          | ok t => rw [ht] at h; cases h; exact ⟨d, rfl, hk⟩
  have hdl : ∃ a b c, m.imgsz = .ok a ∧ m.fmm = .ok b ∧ m.sensorsz = .ok c ∧
      d = [("imgsz", .vec (intsArg a)), ("fmm", .vec (numArg b)), ("sensorsz", .vec (numsArg c))] := by
    unfold metaKw at hd
    simp only [bind, Except.bind] at hd
    cases ha : m.imgsz with
    | error e => rw [ha] at hd; cases hd
    | ok a =>
      cases hb : m.fmm with
      | error e => rw [ha, hb] at hd; cases hd
      | ok b =>
        cases hc : m.sensorsz with
        | error e => rw [ha, hb, hc] at hd; cases hd
        | ok c => rw [ha, hb, hc] at hd; cases hd; exact ⟨a, b, c, rfl, rfl, rfl, rfl⟩
  obtain ⟨a, b, c, ha, hb, hcc, rfl⟩ := hdl
  unfold call at hk
  split at hk
  · cases hk
  have hv : ∀ n l df, kw.lookup n = some (.vec (some l)) →
      vecArg (kw ++ [("imgsz", .vec (intsArg a)), ("fmm", .vec (numArg b)), ("sensorsz", .vec (numsArg c))]) n df = some l := by
    intro n l df hn
    unfold vecArg
    rw [lookup_with_meta, hn]
  have hw : ∀ n l df, kw.lookup n = none →
      [("imgsz", KwVal.vec (intsArg a)), ("fmm", .vec (numArg b)), ("sensorsz", .vec (numsArg c))].lookup n = some (.vec l) →
      vecArg (kw ++ [("imgsz", .vec (intsArg a)), ("fmm", .vec (numArg b)), ("sensorsz", .vec (numsArg c))]) n df = l := by
    intro n l df hn hl
    unfold vecArg
    rw [lookup_with_meta, hn]
    simp only [hl]
  obtain ⟨a1, a2, a3, a4, a5, a6, a7, -, a9, a10, -, -, -⟩ := camera_attributes _ i.cam hk
  refine ⟨fun l hh => a1 l (hv _ _ _ hh), fun l hh => a2 l (hv _ _ _ hh), fun l hh => a3 l (hv _ _ _ hh),
    fun l hh => a4 l (hv _ _ _ hh), fun l hh => a7 l (hv _ _ _ hh), fun l hh => (a5 l (hv _ _ _ hh)).1, ?_, ?_, ?_, ?_⟩
  · intro x y hn hx
    rw [ha] at hx
    cases hx
    have := (a5 _ (hw "imgsz" _ none hn rfl)).1
    rcases this with ⟨u, h1, -⟩ | ⟨u, v, l, h1, h2⟩
    · cases h1
    · cases h1; exact h2
  · intro l hl hh
    exact a10 l hl (hv _ _ _ hh)
  · intro x y hn hx
    rw [hcc] at hx
    cases hx
    obtain ⟨s, hs, hB⟩ := a10 _ (by simp) (hw "sensorsz" (some [some x, some y]) none hn rfl)
    rcases hB with ⟨u, h1, -⟩ | ⟨u, v, l, h1, h2⟩
    · cases h1
    · cases h1; rw [hs, h2]
  · intro s hs hp
    have hmm := (camera_millimeters _ i.cam hk s hs hp).1
    constructor
    · intro l hl hh
      exact hmm l hl (hv _ _ _ hh)
    · intro x hn hx
      rw [hb] at hx
      cases hx
      obtain ⟨r, hr, hB⟩ := hmm _ (by simp) (hw "fmm" (some [some x]) none hn rfl)
      rcases hB with ⟨u, h1, h2⟩ | ⟨u, v, l, h1, -⟩
      · cases h1; rw [hr, h2]
      · cases h1

/-- C105 (violated). A focal length in pixels does not override that of the metadata: unless the image size is given too, the
camera is refused because both are present. -/
theorem image_override_f_violated (kw : List (String × KwVal)) (t : Option DT) (m : Meta) (file : Except Err Meta)
    (hkw : ∀ x ∈ kw, x.1 ∈ argNames) (l : List Num) (hf : kw.lookup "f" = some (.vec (some l)))
    (hi : kw.lookup "imgsz" = none) (hm : kw.lookup "fmm" = none)
    (a : Option (ℤ × ℤ)) (x : ℚ) (c : Option (ℚ × ℚ))
    (h1 : m.imgsz = .ok a) (h2 : m.fmm = .ok (some x)) (h3 : m.sensorsz = .ok c) :
    new (.dict kw) t (some m) file = .error .valueError := by
  have hc : complete kw = false := by
    unfold complete has
    rw [hi, hm]; simp
  have hd : metaKw m = .ok [("imgsz", .vec (intsArg a)), ("fmm", .vec (numArg (some x))), ("sensorsz", .vec (numsArg c))] := by
    unfold metaKw
    rw [h1, h2, h3]
    rfl
  have hk : call (kw ++ [("imgsz", .vec (intsArg a)), ("fmm", .vec (numArg (some x))), ("sensorsz", .vec (numsArg c))]) =
      .error .valueError := by
    unfold call
    rw [if_neg]
    · unfold construct
      rw [if_pos]
      · rfl
      · unfold argError
        simp only [vecArg, lookup_with_meta, hf, hm]
        simp [List.lookup, numArg]
    · rw [lookup_with_meta, hi]
      simp only [List.any_append, List.any_cons, List.any_nil, Bool.or_false, Bool.or_eq_true, not_or, List.any_eq_true,
        decide_eq_true_eq, not_exists, not_and, not_not]
      refine ⟨⟨hkw, by simp [argNames], by simp [argNames], by simp [argNames]⟩, ?_⟩
      simp [List.lookup]
  unfold new camOf
  simp only [hc, Bool.false_eq_true, if_false, orRead, bind, Except.bind, hd, hk]

/-- C105 (violated). A focal length in mm and a sensor size are not supplemented by the image size of the metadata: without an
image size the image cannot be made. -/
theorem image_supplement_violated (kw : List (String × KwVal)) (t : Option DT) (exif : Option Meta) (file : Except Err Meta)
    (h1 : has kw "fmm" = true) (h2 : has kw "sensorsz" = true) (h3 : kw.lookup "imgsz" = none) :
    new (.dict kw) t exif file = .error .typeError := by
  have hc : complete kw = true := by
    unfold complete
    rw [h1, h2]; simp
  have hk : call kw = .error .typeError := by
    unfold call
    rw [if_pos]
    rw [h3]; simp
  unfold new camOf
  simp only [hc, if_true, hk, bind, Except.bind]

/-! ### Sensor size -/

/-- Only blanks. -/
def Blank (s : List Char) : Prop := ∀ c ∈ s, isBlank c = true

/-- The blanks that `str.strip` and `float` drop (ASCII). -/
theorem blank_iff (c : Char) : isBlank c = true ↔ c ∈ [' ', '\t', '\n', '\r', '\x0b', '\x0c'] := by
  simp [isBlank, or_assoc]

private theorem strip_pad (a s b : List Char) (ha : Blank a) (hb : Blank b) : strip (a ++ s ++ b) = strip s := by
  have hd : ∀ (a s : List Char), Blank a → (a ++ s).dropWhile isBlank = s.dropWhile isBlank := by
    intro a s ha
    induction a with
    | nil => rfl
    | cons c a ih =>
      rw [List.cons_append, List.dropWhile_cons_of_pos (ha c (by simp))]
      exact ih fun x hx => ha x (List.mem_cons_of_mem _ hx)
  have hr : Blank b.reverse := fun c hc => hb c (List.mem_reverse.1 hc)
  unfold strip
  rw [List.append_assoc, hd a _ ha]
  by_cases hs : Blank s
  · have h0 : ∀ l : List Char, Blank l → l.dropWhile isBlank = [] := by
      intro l hl
      exact List.dropWhile_eq_nil_iff.2 hl
    rw [hd s b hs, h0 b hb, h0 s hs]
  · have : (s ++ b).dropWhile isBlank = s.dropWhile isBlank ++ b := by
      rw [List.dropWhile_append]
      rw [if_neg]
      intro h
      rw [List.isEmpty_iff] at h
      exact hs (List.dropWhile_eq_nil_iff.1 h)
    rw [this, List.reverse_append, hd _ _ hr]

/-- C105. The sensor size is found in the table by make and model, with one blank between and whatever blanks around them. -/
theorem sensorsz_found (table : List (List Char × (ℚ × ℚ))) (tags : Tags) (g : List (String × Val)) (a b make model c d : List Char)
    (ha : Blank a) (hb : Blank b) (hc : Blank c) (hd : Blank d) (h0 : tags.lookup "0th" = some g)
    (h1 : g.lookup "Make" = some (.bytes (a ++ make ++ b))) (h2 : g.lookup "Model" = some (.bytes (c ++ model ++ d)))
    (n1 : make ≠ []) (n2 : model ≠ []) (s1 : strip make = make) (s2 : strip model = model) :
    sensorsz table tags = .ok (table.lookup (make ++ ' ' :: model)) := by
  have e : ∀ tag x, g.lookup tag = some (.bytes x) → x ≠ [] → text tags tag = .ok (some x) := by
    intro tag x hx hn
    unfold text parseTag
    rw [h0]
    simp only [Option.bind_some, hx, parseVal, bind, Except.bind]
    rw [if_neg (by simpa using hn)]
  unfold sensorsz
  rw [e _ _ h1 (by simp [n1]), e _ _ h2 (by simp [n2])]
  simp only [bind, Except.bind]
  rw [strip_pad a make b ha hb, strip_pad c model d hc hd, s1, s2]

/-- C105. Without make or model there is no sensor size. -/
theorem sensorsz_missing (table : List (List Char × (ℚ × ℚ))) (tags : Tags) (g : List (String × Val))
    (h0 : tags.lookup "0th" = some g) (h : g.lookup "Make" = none ∧ ∃ s, g.lookup "Model" = some (.bytes s)) :
    sensorsz table tags = .ok none := by
  obtain ⟨h1, s, h2⟩ := h
  unfold sensorsz text parseTag
  rw [h0]
  simp only [Option.bind_some, h1, h2, parseVal, bind, Except.bind]

/-! ### Examples -/

private def demoMeta : Meta := ⟨.ok (some (800, 536)), .ok (some 20), .ok (some (236 / 10, 158 / 10)), .ok (some ⟨2014, 10, 13, 2, 3, 36, 280000⟩)⟩

example : (new (.dict [("fmm", .vec (some [some 28])), ("xyz", .vec (some [some 1, some 2, some 3]))]) none none (.ok demoMeta)).map
    (fun i => (i.cam.imgsz, i.cam.fmm, i.cam.xyz, i.datetime.map DT.year)) =
    .ok ([some 800, some 536], some [some 28, some 28], [some 1, some 2, some 3], some 2014) := by decide +kernel
example : (new (.dict [("imgsz", .vec (some [some 800, some 536])), ("sensorsz", .vec (some [some 23, some 16])),
    ("fmm", .vec (some [some 20]))]) (some ⟨2014, 10, 13, 2, 3, 36, 0⟩) none (.error .other)).map (fun i => i.exif) = .ok none := by
  decide +kernel
example : new (.dict [("f", .vec (some [some 28]))]) none none (.ok demoMeta) = .error .valueError := by decide +kernel
example : new (.dict [("fmm", .vec (some [some 28])), ("sensorsz", .vec (some [some 23]))]) none none (.ok demoMeta) =
    .error .typeError := by decide +kernel
example : sensorsz [("NIKON CORPORATION NIKON D200".toList, (236 / 10, 158 / 10))]
    [("0th", [("Make", .bytes "NIKON CORPORATION ".toList), ("Model", .bytes "NIKON D200".toList)])] =
    .ok (some (236 / 10, 158 / 10)) := by decide +kernel

end Glimpse.ImgNew
