import Verif.Model.Exif
import Mathlib.Tactic.Ring
import Mathlib.Tactic.FieldSimp
import Mathlib.Tactic.Linarith
import Mathlib.Tactic.NormNum
import Mathlib.Data.List.GetD
import Mathlib.Data.List.Forall2

/-!
C73: values read from Exif tags are those stored. C74: `Exif.dump` writes every tag under its code. C75: endpoints of
tracks.
-/
set_option autoImplicit false
set_option linter.unusedSimpArgs false
set_option linter.unusedSectionVars false

namespace Glimpse.Exif

/-! ### Specification -/

/-- The character of a digit. -/
def digitChar (d : Nat) : Char := Char.ofNat (48 + d)

/-- A number with `w` digits, padded with zeros. -/
def pad : Nat → Nat → List Char
  | 0, _ => []
  | w + 1, n => pad w (n / 10) ++ [digitChar (n % 10)]

/-- The Exif text of a date and time: `YYYY:MM:DD HH:MM:SS`. -/
def exifText (d : DT) : List Char :=
  pad 4 d.year ++ ':' :: (pad 2 d.month ++ ':' :: (pad 2 d.day ++ ' ' ::
    (pad 2 d.hour ++ ':' :: (pad 2 d.minute ++ ':' :: pad 2 d.second))))

/-- A leap year of the Gregorian calendar. -/
def LeapYear (y : Nat) : Prop := 4 ∣ y ∧ (100 ∣ y → 400 ∣ y)

instance (y : Nat) : Decidable (LeapYear y) := by unfold LeapYear; infer_instance

/-- A day that exists: thirty days have September, April, June and November, February has 28, or 29 in leap years, all the
others 31. -/
def DayExists (y m d : Nat) : Prop :=
  1 ≤ m ∧ m ≤ 12 ∧ 1 ≤ d ∧ d ≤ 31 ∧ (m ∈ [4, 6, 9, 11] → d ≤ 30) ∧ (m = 2 → d ≤ 29) ∧ (m = 2 → ¬LeapYear y → d ≤ 28)

instance (y m d : Nat) : Decidable (DayExists y m d) := by unfold DayExists; infer_instance

/-- A date and time that exists. -/
def DT.Valid (d : DT) : Prop :=
  1 ≤ d.year ∧ d.year ≤ 9999 ∧ DayExists d.year d.month d.day ∧
    d.hour ≤ 23 ∧ d.minute ≤ 59 ∧ d.second ≤ 59 ∧ d.micro < 1000000

/-- The decimal fraction `0.d₁d₂d₃…`. -/
def fraction : List Nat → ℚ
  | [] => 0
  | d :: ds => ((d : ℚ) + fraction ds) / 10

/-- The tag is stored with this value. -/
def Stored (tags : Tags) (group tag : String) (v : Val) : Prop := ∃ g, tags.lookup group = some g ∧ g.lookup tag = some v

/-! ### Values of tags -/

private theorem lookup_of_stored {tags : Tags} {group tag : String} {v : Val} (h : Stored tags group tag v) :
    ((tags.lookup group).bind fun g => g.lookup tag) = some v := by
  obtain ⟨g, h1, h2⟩ := h
  rw [h1]; exact h2

/-- C73: a rational tag is read as its quotient: exposure, aperture and focal length. -/
theorem number_exact (tags : Tags) (tag : String) (a b : ℤ) (h : Stored tags "Exif" tag (.ints [a, b])) (ha : a ≠ 0) (hb : b ≠ 0) :
    number tags tag = .ok (some ((a : ℚ) / (b : ℚ))) := by
  have h0 : ((a : ℚ) / (b : ℚ)) ≠ 0 := div_ne_zero (by exact_mod_cast ha) (by exact_mod_cast hb)
  unfold number parseTag
  rw [lookup_of_stored h]
  simp [parseVal, hb, bind, Except.bind, Parsed.truthy, h0, toNum]

/-- C73: a tag that is not stored, or is zero, is read as None; a zero denominator raises. -/
theorem number_absent (tags : Tags) (tag : String) :
    ((∀ v, ¬ Stored tags "Exif" tag v) → number tags tag = .ok none) ∧
    (∀ b : ℤ, b ≠ 0 → Stored tags "Exif" tag (.ints [0, b]) → number tags tag = .ok none) ∧
    (Stored tags "Exif" tag (.int 0) → number tags tag = .ok none) ∧
    (∀ a : ℤ, Stored tags "Exif" tag (.ints [a, 0]) → number tags tag = .error .zeroDivision) := by
  refine ⟨fun h => ?_, fun b hb h => ?_, fun h => ?_, fun a h => ?_⟩
  · have : ((tags.lookup "Exif").bind fun g => g.lookup tag) = none := by
      cases hg : tags.lookup "Exif" with
      | none => rfl
      | some g =>
        cases ht : g.lookup tag with
        | none => simp [ht]
        | some v => exact absurd ⟨g, hg, ht⟩ (h v)
    unfold number parseTag
    rw [this]; rfl
  · unfold number parseTag
    rw [lookup_of_stored h]
    simp [parseVal, hb, bind, Except.bind, Parsed.truthy, toNum]
  · unfold number parseTag
    rw [lookup_of_stored h]
    simp [parseVal, bind, Except.bind, Parsed.truthy, toNum]
  · unfold number parseTag
    rw [lookup_of_stored h]
    simp [parseVal, bind, Except.bind]

/-- C73: the image size and film speed are the stored integers. -/
theorem integers_exact (tags : Tags) (w h n : ℤ) (hw : Stored tags "Exif" "PixelXDimension" (.int w))
    (hh : Stored tags "Exif" "PixelYDimension" (.int h)) (hn : Stored tags "Exif" "ISOSpeedRatings" (.int n))
    (hw0 : w ≠ 0) (hh0 : h ≠ 0) (hn0 : n ≠ 0) : imgsz tags = .ok (some (w, h)) ∧ iso tags = .ok (some n) := by
  constructor
  · unfold imgsz parseTag
    rw [lookup_of_stored hw, lookup_of_stored hh]
    simp [parseVal, bind, Except.bind, Parsed.truthy, hw0, hh0, toNum, toInt]
  · unfold iso number parseTag
    rw [lookup_of_stored hn]
    simp [parseVal, bind, Except.bind, Parsed.truthy, hn0, toNum, toInt]

/-- C73 fails for tags of two integers that are not one rational number (for example the two of YCbCrSubSampling or of
SubjectArea): they are read as a quotient; and for tags of two rational numbers (WhitePoint), which raise. -/
theorem parse_tag_pair_violated (tags : Tags) (group tag : String) :
    (∀ a b : ℤ, b ≠ 0 → Stored tags group tag (.ints [a, b]) → parseTag tags tag group = .ok (some (.num ((a : ℚ) / (b : ℚ))))) ∧
    (∀ a b : ℤ × ℤ, Stored tags group tag (.rats [a, b]) → parseTag tags tag group = .error .typeError) := by
  refine ⟨fun a b hb h => ?_, fun a b h => ?_⟩
  · unfold parseTag
    rw [lookup_of_stored h]
    simp [parseVal, hb]
  · unfold parseTag
    rw [lookup_of_stored h]
    simp [parseVal]

/-- C73: every other value is returned as stored (bytes as text). -/
theorem parse_tag_other (tags : Tags) (group tag : String) :
    (∀ s, Stored tags group tag (.bytes s) → parseTag tags tag group = .ok (some (.str s))) ∧
    (∀ n, Stored tags group tag (.int n) → parseTag tags tag group = .ok (some (.int n))) ∧
    (∀ l, l.length ≠ 2 → Stored tags group tag (.ints l) → parseTag tags tag group = .ok (some (.ints l))) ∧
    (∀ l, l.length ≠ 2 → Stored tags group tag (.rats l) → parseTag tags tag group = .ok (some (.rats l))) := by
  refine ⟨fun s h => ?_, fun n h => ?_, fun l hl h => ?_, fun l hl h => ?_⟩ <;> unfold parseTag <;> rw [lookup_of_stored h]
  · rfl
  · rfl
  · match l, hl with
    | [], _ => rfl
    | [_], _ => rfl
    | _ :: _ :: _ :: _, _ => rfl
  · match l, hl with
    | [], _ => rfl
    | [_], _ => rfl
    | _ :: _ :: _ :: _, _ => rfl

example : number [("Exif", [("FNumber", .ints [8, 1]), ("ExposureTime", .ints [10, 800])])] "ExposureTime" = .ok (some (1 / 80)) := by
  rw [number_exact _ _ 10 800 ⟨_, rfl, rfl⟩ (by norm_num) (by norm_num)]; norm_num

example : imgsz [("Exif", [("PixelXDimension", .int 800), ("PixelYDimension", .int 536), ("ISOSpeedRatings", .int 200)])] =
    .ok (some (800, 536)) :=
  (integers_exact _ 800 536 200 ⟨_, rfl, rfl⟩ ⟨_, rfl, rfl⟩ ⟨_, rfl, rfl⟩ (by norm_num) (by norm_num) (by norm_num)).1

/-! ### Capture time -/

private theorem digitChar_spec (d : Nat) (h : d < 10) :
    (digitChar d).isDigit = true ∧ (digitChar d).toNat - '0'.toNat = d ∧ digitChar d ≠ ':' ∧ digitChar d ≠ ' ' ∧ digitChar d ≠ '.' := by
  have : d = 0 ∨ d = 1 ∨ d = 2 ∨ d = 3 ∨ d = 4 ∨ d = 5 ∨ d = 6 ∨ d = 7 ∨ d = 8 ∨ d = 9 := by omega
  rcases this with h | h | h | h | h | h | h | h | h | h <;> subst h <;> decide

private theorem pad_length (w n : Nat) : (pad w n).length = w := by
  induction w generalizing n with
  | zero => rfl
  | succ w ih => simp [pad, ih]

private theorem pad_mem (w n : Nat) (c : Char) (h : c ∈ pad w n) : ∃ d, d < 10 ∧ c = digitChar d := by
  induction w generalizing n with
  | zero => simp [pad] at h
  | succ w ih =>
    simp only [pad, List.mem_append, List.mem_singleton] at h
    rcases h with h | h
    · exact ih _ h
    · exact ⟨_, Nat.mod_lt _ (by norm_num), h⟩

private theorem pad_foldl (w n : Nat) (h : n < 10 ^ w) :
    (pad w n).foldl (fun n c => 10 * n + (c.toNat - '0'.toNat)) 0 = n := by
  induction w generalizing n with
  | zero => simp at h; simp [pad, h]
  | succ w ih =>
    rw [pad, List.foldl_append, ih _ (by rw [pow_succ] at h; omega)]
    simp only [List.foldl_cons, List.foldl_nil]
    rw [(digitChar_spec _ (Nat.mod_lt n (by norm_num : 10 > 0))).2.1]
    omega

private theorem pad_isDigit (w n : Nat) : (pad w n).all Char.isDigit = true := by
  rw [List.all_eq_true]
  intro c hc
  obtain ⟨d, hd, rfl⟩ := pad_mem _ _ _ hc
  exact (digitChar_spec d hd).1

private theorem field_pad (lo hi a b w n : Nat) (h1 : lo ≤ w) (h2 : w ≤ hi) (h : n < 10 ^ w) (ha : a ≤ n) (hb : n ≤ b) :
    field lo hi a b (pad w n) = some n := by
  unfold field digits
  rw [if_pos ⟨by rw [pad_length]; exact h1, by rw [pad_length]; exact h2, pad_isDigit w n⟩, pad_foldl w n h]
  simp [ha, hb]

private theorem split_none (c : Char) (a : List Char) (h : c ∉ a) : splitAtChar c a = [a] := by
  induction a with
  | nil => rfl
  | cons x a ih =>
    simp only [List.mem_cons, not_or] at h
    rw [splitAtChar, if_neg (fun e => h.1 e.symm), ih h.2]

private theorem split_at (c : Char) (a b : List Char) (h : c ∉ a) : splitAtChar c (a ++ c :: b) = a :: splitAtChar c b := by
  induction a with
  | nil => simp [splitAtChar]
  | cons x a ih =>
    simp only [List.mem_cons, not_or] at h
    rw [List.cons_append, splitAtChar, if_neg (fun e => h.1 e.symm), ih h.2]

private theorem pad_not_mem (w n : Nat) : ':' ∉ pad w n ∧ ' ' ∉ pad w n ∧ '.' ∉ pad w n := by
  refine ⟨fun h => ?_, fun h => ?_, fun h => ?_⟩ <;> obtain ⟨d, hd, e⟩ := pad_mem _ _ _ h <;>
    obtain ⟨_, _, h1, h2, h3⟩ := digitChar_spec d hd
  · exact h1 e.symm
  · exact h2 e.symm
  · exact h3 e.symm

private theorem monthDays_le (y m : Nat) : monthDays y m ≤ 31 := by
  unfold monthDays; split
  · split <;> omega
  · split <;> omega

private theorem monthDays_iff (y m d : Nat) :
    (1 ≤ m ∧ m ≤ 12 ∧ 1 ≤ d ∧ d ≤ monthDays y m) ↔ DayExists y m d := by
  have hl : (y % 4 = 0 ∧ (y % 100 ≠ 0 ∨ y % 400 = 0)) ↔ LeapYear y := by
    unfold LeapYear
    rw [Nat.dvd_iff_mod_eq_zero, Nat.dvd_iff_mod_eq_zero, Nat.dvd_iff_mod_eq_zero]
    tauto
  unfold DayExists monthDays
  simp only [hl, List.mem_cons, List.not_mem_nil, or_false]
  by_cases h : LeapYear y <;> simp only [h, if_true, if_false, not_true, not_false_iff, true_implies, false_implies, implies_true, and_true] <;>
    (repeat' split) <;> omega

private def dateText (d : DT) : List Char := pad 4 d.year ++ ':' :: (pad 2 d.month ++ ':' :: pad 2 d.day)
private def timeText (d : DT) : List Char := pad 2 d.hour ++ ':' :: (pad 2 d.minute ++ ':' :: pad 2 d.second)

private theorem exifText_eq (d : DT) : exifText d = dateText d ++ ' ' :: timeText d := by
  simp [exifText, dateText, timeText]

private theorem dateParts_text (d : DT) (h : d.Valid) : dateParts (dateText d) = some (d.year, d.month, d.day) := by
  obtain ⟨y1, y2, hday, _⟩ := h
  obtain ⟨m1, m2, d1, d2⟩ := (monthDays_iff _ _ _).2 hday
  unfold dateParts dateText
  rw [split_at _ _ _ (pad_not_mem _ _).1, split_at _ _ _ (pad_not_mem _ _).1, split_none _ _ (pad_not_mem _ _).1]
  have := monthDays_le d.year d.month
  simp only [bind, Option.bind]
  rw [field_pad 4 4 1 9999 4 d.year (by norm_num) (by norm_num) (by norm_num; omega) y1 y2]
  simp only
  rw [field_pad 1 2 1 12 2 d.month (by norm_num) (by norm_num) (by norm_num; omega) m1 m2]
  simp only
  rw [field_pad 1 2 1 _ 2 d.day (by norm_num) (by norm_num) (by norm_num; omega) d1 d2]

private theorem timeParts_text (d : DT) (h : d.Valid) : timeParts (timeText d) = some (d.hour, d.minute, d.second) := by
  obtain ⟨_, _, _, h1, h2, h3, _⟩ := h
  unfold timeParts timeText
  rw [split_at _ _ _ (pad_not_mem _ _).1, split_at _ _ _ (pad_not_mem _ _).1, split_none _ _ (pad_not_mem _ _).1]
  simp only [bind, Option.bind]
  rw [field_pad 1 2 0 23 2 d.hour (by norm_num) (by norm_num) (by norm_num; omega) (Nat.zero_le _) h1]
  simp only
  rw [field_pad 1 2 0 59 2 d.minute (by norm_num) (by norm_num) (by norm_num; omega) (Nat.zero_le _) h2]
  simp only
  rw [field_pad 1 2 0 59 2 d.second (by norm_num) (by norm_num) (by norm_num; omega) (Nat.zero_le _) h3]

private theorem colon_cases {c x : Char} {l : List Char} (h1 : c ≠ x) (h2 : c ∉ l) : c ∉ x :: l := by simp [h1, h2]

private theorem dateText_not_mem (d : DT) : ' ' ∉ dateText d ∧ '.' ∉ dateText d := by
  unfold dateText
  constructor <;> simp [pad_not_mem]

private theorem timeText_not_mem (d : DT) : ' ' ∉ timeText d ∧ '.' ∉ timeText d := by
  unfold timeText
  constructor <;> simp [pad_not_mem]

private theorem foldl_value (ds : List Nat) (h : ∀ d ∈ ds, d < 10) (a : Nat) :
    (ds.map digitChar).foldl (fun n c => 10 * n + (c.toNat - '0'.toNat)) a = ds.foldl (fun n d => 10 * n + d) a := by
  induction ds generalizing a with
  | nil => rfl
  | cons d ds ih =>
    rw [List.map_cons, List.foldl_cons, List.foldl_cons, (digitChar_spec d (h d List.mem_cons_self)).2.1]
    exact ih (fun d hd => h d (List.mem_cons_of_mem _ hd)) _

private theorem foldl_fraction (ds : List Nat) (a : Nat) :
    ((ds.foldl (fun n d => 10 * n + d) a : Nat) : ℚ) = 10 ^ ds.length * ((a : ℚ) + fraction ds) := by
  induction ds generalizing a with
  | nil => simp [fraction]
  | cons d ds ih =>
    rw [List.foldl_cons, ih, fraction, List.length_cons, pow_succ]
    push_cast
    field_simp
    ring

private theorem digits_map (lo hi : Nat) (ds : List Nat) (h : ∀ d ∈ ds, d < 10) (h1 : lo ≤ ds.length) (h2 : ds.length ≤ hi) :
    digits lo hi (ds.map digitChar) = some (ds.foldl (fun n d => 10 * n + d) 0) := by
  unfold digits
  rw [if_pos, foldl_value ds h]
  refine ⟨by simpa using h1, by simpa using h2, ?_⟩
  rw [List.all_eq_true]
  intro c hc
  obtain ⟨d, hd, rfl⟩ := List.mem_map.1 hc
  exact (digitChar_spec d (h d hd)).1

private theorem map_not_mem (ds : List Nat) (h : ∀ d ∈ ds, d < 10) :
    ':' ∉ ds.map digitChar ∧ ' ' ∉ ds.map digitChar ∧ '.' ∉ ds.map digitChar := by
  refine ⟨fun hm => ?_, fun hm => ?_, fun hm => ?_⟩ <;> obtain ⟨d, hd, e⟩ := List.mem_map.1 hm <;>
    obtain ⟨_, _, h1, h2, h3⟩ := digitChar_spec d (h d hd)
  · exact h1 e
  · exact h2 e
  · exact h3 e

private theorem exifText_ne (d : DT) : (exifText d).isEmpty = false := by
  rw [exifText_eq]
  cases h : dateText d <;> simp

/-- C73: the capture time without sub-second digits. -/
theorem datetime_exact (d : DT) (h : d.Valid) : datetime (some (exifText d)) none = .ok (some { d with micro := 0 }) := by
  unfold datetime
  simp only [Option.filter, exifText_ne, Bool.not_false, if_true]
  unfold strptime
  rw [exifText_eq, split_at _ _ _ (dateText_not_mem d).1, split_none _ _ (timeText_not_mem d).1]
  simp [bind, Option.bind, Except.bind, dateParts_text d h, timeParts_text d h]

/-- C73: sub-second digits are a decimal fraction of a second, however many there are (up to six). -/
theorem datetime_subsec (d : DT) (h : d.Valid) (ds : List Nat) (hd : ∀ k ∈ ds, k < 10) (h1 : 1 ≤ ds.length) (h6 : ds.length ≤ 6) :
    ∃ us : Nat, (us : ℚ) / 1000000 = fraction ds ∧
      datetime (some (exifText d)) (some (ds.map digitChar)) = .ok (some { d with micro := us }) := by
  refine ⟨ds.foldl (fun n d => 10 * n + d) 0 * 10 ^ (6 - ds.length), ?_, ?_⟩
  · push_cast
    rw [foldl_fraction]
    have : (10 : ℚ) ^ ds.length * 10 ^ (6 - ds.length) = 1000000 := by
      rw [← pow_add, Nat.add_sub_cancel' h6]; norm_num
    have h0 : (10 : ℚ) ^ ds.length * ((0 : ℕ) + fraction ds) * 10 ^ (6 - ds.length) =
        (10 ^ ds.length * 10 ^ (6 - ds.length)) * fraction ds := by push_cast; ring
    rw [h0, this]
    field_simp
  · have hne : (ds.map digitChar).isEmpty = false := by
      cases ds with
      | nil => simp at h1
      | cons => rfl
    unfold datetime
    simp only [Option.filter, exifText_ne, hne, Bool.not_false, if_true]
    have he : exifText d ++ '.' :: ds.map digitChar = dateText d ++ ' ' :: (timeText d ++ '.' :: ds.map digitChar) := by
      rw [exifText_eq]; simp
    have hs : ' ' ∉ timeText d ++ '.' :: ds.map digitChar := by
      have h1 := (timeText_not_mem d).1
      have h2 := (map_not_mem ds hd).2.1
      rw [List.mem_append, List.mem_cons]
      rintro (h | h | h)
      · exact h1 h
      · exact absurd h (by decide)
      · exact h2 h
    have hmic : micros (ds.map digitChar) = some (ds.foldl (fun n d => 10 * n + d) 0 * 10 ^ (6 - ds.length)) := by
      unfold micros
      rw [digits_map 1 6 ds hd h1 h6]; simp
    unfold strptime
    rw [he, split_at _ _ _ (dateText_not_mem d).1, split_none _ _ hs]
    simp [bind, Option.bind, Except.bind, dateParts_text d h, split_at _ _ _ (timeText_not_mem d).2,
      split_none _ _ (map_not_mem ds hd).2.2, timeParts_text d h, hmic]

/-- C73: more than six sub-second digits raise; no text of the time means no capture time. -/
theorem datetime_raises (d : DT) (ds : List Nat) (hd : ∀ k ∈ ds, k < 10) (h6 : 6 < ds.length) :
    datetime (some (exifText d)) (some (ds.map digitChar)) = .error .valueError ∧
    ∀ f, datetime none f = .ok none ∧ datetime (some []) f = .ok none := by
  refine ⟨?_, fun f => ⟨rfl, rfl⟩⟩
  have hne : (ds.map digitChar).isEmpty = false := by
    cases ds with
    | nil => simp at h6
    | cons => rfl
  unfold datetime
  simp only [Option.filter, exifText_ne, hne, Bool.not_false, if_true]
  have he : exifText d ++ '.' :: ds.map digitChar = dateText d ++ ' ' :: (timeText d ++ '.' :: ds.map digitChar) := by
    rw [exifText_eq]; simp
  have hs : ' ' ∉ timeText d ++ '.' :: ds.map digitChar := by
    have h1 := (timeText_not_mem d).1
    have h2 := (map_not_mem ds hd).2.1
    rw [List.mem_append, List.mem_cons]
    rintro (h | h | h)
    · exact h1 h
    · exact absurd h (by decide)
    · exact h2 h
  have hmic : micros (ds.map digitChar) = none := by
    unfold micros digits
    rw [if_neg (by simp; omega)]; rfl
  unfold strptime
  rw [he, split_at _ _ _ (dateText_not_mem d).1, split_none _ _ hs]
  simp only [bind, Option.bind, Except.bind, split_at _ _ _ (timeText_not_mem d).2, split_none _ _ (map_not_mem ds hd).2.2, hmic]
  cases dateParts (dateText d) with
  | none => rfl
  | some p => cases timeParts (timeText d) <;> rfl

/-- C73: the text of a day that does not exist (30 February, 29 February of a year that is not a leap year) raises. -/
theorem datetime_nonexistent (d : DT) (hy : 1 ≤ d.year ∧ d.year ≤ 9999) (hm : 1 ≤ d.month ∧ d.month ≤ 99) (hd : d.day ≤ 99)
    (h : ¬DayExists d.year d.month d.day) : datetime (some (exifText d)) none = .error .valueError := by
  have hfield : ∀ (w n a b : Nat), 1 ≤ w → w ≤ 2 → n < 10 ^ w → ¬(a ≤ n ∧ n ≤ b) → field 1 2 a b (pad w n) = none := by
    intro w n a b h1 h2 hn hab
    have := field_pad 1 2 n n w n h1 h2 hn (le_refl _) (le_refl _)
    unfold field at this ⊢
    cases hdig : digits 1 2 (pad w n) with
    | none => rfl
    | some k =>
      rw [hdig] at this
      have hk : k = n := by
        by_contra hne
        have : ¬(n ≤ k ∧ k ≤ n) := by omega
        simp [Option.filter, this] at *
      subst hk
      simp only [Option.filter, hab, decide_false, Bool.false_eq_true, if_false]
  have hparts : dateParts (dateText d) = none := by
    unfold dateParts dateText
    rw [split_at _ _ _ (pad_not_mem _ _).1, split_at _ _ _ (pad_not_mem _ _).1, split_none _ _ (pad_not_mem _ _).1]
    simp only [bind, Option.bind]
    rw [field_pad 4 4 1 9999 4 d.year (by norm_num) (by norm_num) (by norm_num; omega) hy.1 hy.2]
    simp only
    by_cases hm12 : d.month ≤ 12
    · rw [field_pad 1 2 1 12 2 d.month (by norm_num) (by norm_num) (by norm_num; omega) hm.1 hm12]
      simp only
      rw [hfield 2 d.day 1 _ (by norm_num) (by norm_num) (by norm_num; omega)]
      rintro ⟨h1, h2⟩
      exact h ((monthDays_iff _ _ _).1 ⟨hm.1, hm12, h1, h2⟩)
    · rw [hfield 2 d.month 1 12 (by norm_num) (by norm_num) (by norm_num; omega) (by omega)]
  unfold datetime
  simp only [Option.filter, exifText_ne, Bool.not_false, if_true]
  unfold strptime
  rw [exifText_eq, split_at _ _ _ (dateText_not_mem d).1, split_none _ _ (timeText_not_mem d).1]
  simp [bind, Option.bind, Except.bind, hparts]

example : DayExists 2012 2 29 ∧ ¬DayExists 2013 2 29 ∧ ¬DayExists 1900 2 29 ∧ DayExists 2000 2 29 := by decide

private def d0 : DT := ⟨2014, 10, 13, 2, 3, 36, 280000⟩

private theorem d0_valid : d0.Valid := by unfold DT.Valid d0; decide

example : datetime (some "2014:10:13 02:03:36".toList) (some "28".toList) = .ok (some d0) := by
  have : (exifText d0 = "2014:10:13 02:03:36".toList) := by decide
  obtain ⟨us, h1, h2⟩ := datetime_subsec d0 d0_valid [2, 8] (by decide) (by decide) (by decide)
  have h3 : [2, 8].map digitChar = "28".toList := by decide
  rw [this, h3] at h2
  rw [h2]
  have : us = 280000 := by
    have : (us : ℚ) = 280000 := by
      rw [div_eq_iff (by norm_num)] at h1
      rw [h1]; norm_num [fraction]
    exact_mod_cast this
  rw [this]; rfl

example : datetime (some (exifText d0)) none = .ok (some { d0 with micro := 0 }) := datetime_exact d0 d0_valid

/-! ### Writing -/

/-- Entries under codes. -/
def coded (l : List (Nat × Val)) : List ((String ⊕ Nat) × Val) := l.map fun e => (Sum.inr e.1, e.2)

/-- One step of the loop: with the names of the tags still to be replaced distinct and the codes given so far different
from the next, the next entry moves to the end under its code. -/
private theorem recode_next (t : String) (v : Val) (c : Nat) (todo : List (String × Val)) (done : List (Nat × Val))
    (ht : t ∉ todo.map (·.1)) (hc : c ∉ done.map (·.1)) :
    recode (named ((t, v) :: todo) ++ coded done) t c = named todo ++ coded (done ++ [(c, v)]) := by
  unfold recode
  have h0 : named ((t, v) :: todo) ++ coded done = (Sum.inl t, v) :: (named todo ++ coded done) := rfl
  rw [h0, List.find?_cons_of_pos (by simp)]
  have h2 : ((Sum.inl t, v) :: (named todo ++ coded done)).filter (fun e => decide (e.1 ≠ (Sum.inl t : String ⊕ Nat))) =
      named todo ++ coded done := by
    rw [List.filter_cons_of_neg (by simp), List.filter_eq_self]
    intro e he
    rcases List.mem_append.1 he with he | he
    · obtain ⟨x, hx, rfl⟩ := List.mem_map.1 he
      have : x.1 ≠ t := fun h => ht (h ▸ List.mem_map_of_mem hx)
      simpa using this
    · obtain ⟨x, hx, rfl⟩ := List.mem_map.1 he
      simp
  simp only [h2]
  rw [if_neg]
  · simp [coded]
  · rw [List.any_eq_true]
    rintro ⟨e, he, h⟩
    rcases List.mem_append.1 he with he | he
    · obtain ⟨x, hx, rfl⟩ := List.mem_map.1 he
      simp at h
    · obtain ⟨x, hx, rfl⟩ := List.mem_map.1 he
      simp at h
      exact hc (h ▸ List.mem_map_of_mem hx)

private theorem dump_loop (codeOf : String → Option Nat) (todo : List (String × Val)) (done : List (Nat × Val)) (codes : List Nat)
    (hcodes : todo.map (fun e => codeOf e.1) = codes.map some) (hnd : (todo.map (·.1)).Nodup) (hci : (done.map (·.1) ++ codes).Nodup) :
    todo.foldlM (dumpStep codeOf) (named todo ++ coded done) = .ok (coded (done ++ codes.zip (todo.map (·.2)))) := by
  induction todo generalizing done codes with
  | nil =>
    cases codes with
    | nil => simp [pure, Except.pure, named]
    | cons => simp at hcodes
  | cons e todo ih =>
    obtain ⟨t, v⟩ := e
    cases codes with
    | nil => simp at hcodes
    | cons c codes =>
      simp only [List.map_cons, List.cons.injEq] at hcodes
      simp only [List.map_cons, List.nodup_cons] at hnd
      have hc : c ∉ done.map (·.1) := by
        rw [List.nodup_append] at hci
        intro h
        exact hci.2.2 c h c List.mem_cons_self rfl
      rw [List.foldlM_cons]
      have hstep : dumpStep codeOf (named ((t, v) :: todo) ++ coded done) (t, v) = .ok (named todo ++ coded (done ++ [(c, v)])) := by
        unfold dumpStep
        simp only [hcodes.1]
        rw [recode_next t v c todo done hnd.1 hc]
      rw [hstep]
      simp only [bind, Except.bind]
      rw [ih (done ++ [(c, v)]) codes hcodes.2 hnd.2 (by simpa using hci)]
      simp

/-- C74: the entries written for a group are the stored values in their order, each under the code of its name, given that
the names are distinct (keys of a dictionary) and have distinct codes. -/
theorem dump_group_exact (codeOf : String → Option Nat) (entries : List (String × Val)) (codes : List Nat)
    (hnames : (entries.map (·.1)).Nodup) (hcodes : entries.map (fun e => codeOf e.1) = codes.map some) (hdistinct : codes.Nodup) :
    dumpGroup codeOf entries = .ok ((codes.zip (entries.map (·.2))).map fun e => (Sum.inr e.1, e.2)) := by
  have := dump_loop codeOf entries [] codes hcodes hnames (by simpa using hdistinct)
  simpa [dumpGroup, coded] using this

private theorem dumpGroup_ok_iff (codeOf : String → Option Nat) (todo : List (String × Val)) (acc : List ((String ⊕ Nat) × Val)) :
    (∃ r, todo.foldlM (dumpStep codeOf) acc = .ok r) ↔ ∀ e ∈ todo, codeOf e.1 ≠ none := by
  induction todo generalizing acc with
  | nil => simp [pure, Except.pure]
  | cons e todo ih =>
    rw [List.foldlM_cons]
    unfold dumpStep
    cases hc : codeOf e.1 with
    | none => simp [bind, Except.bind, hc]
    | some c =>
      simp only [bind, Except.bind]
      have := ih (recode acc e.1 c)
      unfold dumpStep at this
      rw [this]
      simp [hc]

private theorem mapM_ok_iff {α β : Type} (f : α → Except Err β) (l : List α) :
    (∃ r, l.mapM f = .ok r) ↔ ∀ a ∈ l, ∃ b, f a = .ok b := by
  induction l with
  | nil => simp [pure, Except.pure]
  | cons a l ih =>
    rw [List.mapM_cons]
    simp only [bind, Except.bind, pure, Except.pure, List.mem_cons, forall_eq_or_imp]
    cases hf : f a with
    | error e => simp
    | ok b =>
      simp only [Except.ok.injEq, exists_eq', true_and]
      rw [← ih]
      cases hl : l.mapM f with
      | error e => simp
      | ok r => simp

/-- C74: `dump` succeeds exactly when every group is one of the five and every tag has a code in its group. -/
theorem dump_ok_iff (codeOf : String → String → Option Nat) (tags : Tags) :
    (∃ r, dump codeOf tags = .ok r) ↔
      ∀ g ∈ tags, (g.1 = "0th" ∨ g.1 = "1st" ∨ g.1 = "Exif" ∨ g.1 = "GPS" ∨ g.1 = "Interop") ∧ ∀ e ∈ g.2, codeOf g.1 e.1 ≠ none := by
  unfold dump
  rw [mapM_ok_iff]
  refine forall₂_congr fun g hg => ?_
  have hgn : g.1 ∈ groupNames ↔ (g.1 = "0th" ∨ g.1 = "1st" ∨ g.1 = "Exif" ∨ g.1 = "GPS" ∨ g.1 = "Interop") := by simp [groupNames]
  rw [← hgn]
  by_cases h : g.1 ∈ groupNames
  · rw [if_pos h]
    have := dumpGroup_ok_iff (codeOf g.1) g.2 (named g.2)
    simp only [h, true_and, ← this]
    unfold dumpGroup
    simp only [bind, Except.bind]
    constructor
    · rintro ⟨b, hb⟩
      split at hb
      · cases hb
      · exact ⟨_, by assumption⟩
    · rintro ⟨r, hr⟩
      exact ⟨(g.1, r), by rw [hr]⟩
  · rw [if_neg h]; simp [h]

/-- C74: where `dump` fails it raises a ValueError. -/
theorem dump_error (codeOf : String → String → Option Nat) (tags : Tags) (e : Err) (h : dump codeOf tags = .error e) : e = .valueError := by
  have step : ∀ (code : String → Option Nat) (l : List (String × Val)) (acc : List ((String ⊕ Nat) × Val)) (e : Err),
      l.foldlM (dumpStep code) acc = .error e → e = .valueError := by
    intro code l
    induction l with
    | nil => intro acc e h; simp [pure, Except.pure] at h
    | cons x l ih =>
      intro acc e h
      rw [List.foldlM_cons] at h
      unfold dumpStep at h
      cases hc : code x.1 with
      | none => simp only [hc, bind, Except.bind, Except.error.injEq] at h; exact h.symm
      | some c =>
        simp only [hc, bind, Except.bind] at h
        exact ih _ _ h
  unfold dump at h
  induction tags with
  | nil => simp [pure, Except.pure] at h
  | cons g tags ih =>
    rw [List.mapM_cons] at h
    by_cases hg : g.1 ∈ groupNames
    · simp only [hg, if_true, bind, Except.bind] at h
      cases hd : dumpGroup (codeOf g.1) g.2 with
      | error e' =>
        simp only [hd, Except.error.injEq] at h
        exact h ▸ step _ _ _ _ hd
      | ok r =>
        simp only [hd] at h
        split at h
        · rename_i e' he'
          simp only [Except.error.injEq] at h
          exact ih (h ▸ he')
        · simp [pure, Except.pure] at h
    · simp only [hg, if_false, bind, Except.bind, Except.error.injEq] at h
      exact h.symm

/-- C74: what is written has the groups of `tags` in their order, and in each the stored values under their codes. -/
theorem dump_exact (codeOf : String → String → Option Nat) (tags : Tags) (out : List (String × List ((String ⊕ Nat) × Val)))
    (h : dump codeOf tags = .ok out) (hnames : ∀ g ∈ tags, (g.2.map (·.1)).Nodup)
    (hinj : ∀ g s t c, codeOf g s = some c → codeOf g t = some c → s = t) :
    List.Forall₂ (fun (g : String × List (String × Val)) o => o.1 = g.1 ∧
      List.Forall₂ (fun (e : String × Val) (w : (String ⊕ Nat) × Val) => ∃ c, codeOf g.1 e.1 = some c ∧ w = (Sum.inr c, e.2)) g.2 o.2) tags out := by
  unfold dump at h
  induction tags generalizing out with
  | nil => simp [pure, Except.pure] at h; subst h; exact List.Forall₂.nil
  | cons g tags ih =>
    have hall := (dump_ok_iff codeOf (g :: tags)).1 ⟨out, h⟩
    rw [List.mapM_cons] at h
    simp only [bind, Except.bind, pure, Except.pure] at h
    have hg := hall g List.mem_cons_self
    have hgn : g.1 ∈ groupNames := by simp [groupNames]; exact hg.1
    rw [if_pos hgn] at h
    have hcodes : g.2.map (fun e => codeOf g.1 e.1) = (g.2.map fun e => (codeOf g.1 e.1).getD 0).map some := by
      rw [List.map_map]
      refine List.map_congr_left fun e he => ?_
      cases hc : codeOf g.1 e.1 with
      | none => exact absurd hc (hg.2 e he)
      | some c => simp [hc]
    have hnd : (g.2.map fun e => (codeOf g.1 e.1).getD 0).Nodup := by
      have h1 := hnames g List.mem_cons_self
      rw [List.nodup_iff_pairwise_ne, List.pairwise_map] at h1 ⊢
      refine List.Pairwise.imp_of_mem (fun {a b} ha hb hne heq => hne ?_) h1
      cases hca : codeOf g.1 a.1 with
      | none => exact absurd hca (hg.2 a ha)
      | some c =>
        cases hcb : codeOf g.1 b.1 with
        | none => exact absurd hcb (hg.2 b hb)
        | some c' =>
          rw [hca, hcb] at heq
          simp at heq
          exact hinj g.1 _ _ c hca (heq ▸ hcb)
    rw [dump_group_exact (codeOf g.1) g.2 _ (hnames g List.mem_cons_self) hcodes hnd] at h
    simp only at h
    split at h
    · cases h
    rename_i r hr
    simp only [Except.ok.injEq] at h
    subst h
    refine List.Forall₂.cons ⟨rfl, ?_⟩ (ih r hr fun g' hg' => hnames g' (List.mem_cons_of_mem _ hg'))
    rw [List.zip_map', List.map_map, List.forall₂_map_right_iff, List.forall₂_same]
    intro e he
    cases hc : codeOf g.1 e.1 with
    | none => exact absurd hc (hg.2 e he)
    | some c => exact ⟨c, rfl, by simp [hc]⟩

private def someCodes (g t : String) : Option Nat :=
  if g = "Exif" ∧ t = "FNumber" then some 33437 else if g = "Exif" ∧ t = "FocalLength" then some 37386 else none

example : dump someCodes [("Exif", [("FNumber", .ints [8, 1]), ("FocalLength", .ints [20, 1])])] =
    .ok [("Exif", [(Sum.inr 33437, .ints [8, 1]), (Sum.inr 37386, .ints [20, 1])])] := by decide +kernel

example : ∀ g s t c, someCodes g s = some c → someCodes g t = some c → s = t := by
  intro g s t c hs ht
  unfold someCodes at hs ht
  split at hs <;> split at ht
  · simp_all
  · split at ht
    · simp at hs ht; omega
    · cases ht
  · split at hs
    · simp at hs ht; omega
    · cases hs
  · split at hs <;> split at ht <;> simp_all

end Glimpse.Exif

namespace Glimpse.Tracks

private theorem argmax_true (l : List Bool) (h : true ∈ l) :
    ∃ k : Nat, argmaxBool l = .ok k ∧ l[k]? = some true ∧ ∀ i < k, l[i]? ≠ some true := by
  refine ⟨l.idxOf true, ?_, ?_, ?_⟩
  · unfold argmaxBool
    rw [if_neg (List.ne_nil_of_mem h), if_pos h]
  · exact List.getElem?_idxOf h
  · intro i hi hc
    have hlt : i < l.length := lt_of_lt_of_le hi List.idxOf_le_length
    have h1 := List.not_of_lt_findIdx (p := (· == true)) (xs := l) (i := i) (by simpa [List.idxOf] using hi)
    rw [List.getElem?_eq_getElem hlt] at hc
    simp at hc h1
    simp [hc] at h1

/-- C75: of a track with a valid datetime, the first and last valid datetimes. -/
theorem endpoints_one (valid : List Bool) (h : true ∈ valid) :
    ∃ first last : Nat, endpointsOne valid = .ok (true, first, last) ∧ valid[first]? = some true ∧ valid[last]? = some true ∧
      ∀ i : Nat, valid[i]? = some true → first ≤ i ∧ i ≤ last := by
  obtain ⟨a, ha, ha1, ha2⟩ := argmax_true valid h
  obtain ⟨b, hb, hb1, hb2⟩ := argmax_true valid.reverse (by simpa using h)
  have hbl : b < valid.length := by
    have := (List.getElem?_eq_some_iff.1 hb1).1
    simpa using this
  refine ⟨a, valid.length - 1 - b, ?_, ha1, ?_, fun i hi => ⟨?_, ?_⟩⟩
  · unfold endpointsOne
    simp only [bind, Except.bind, ha, hb]
    rw [List.getD_eq_getElem?_getD, ha1]; rfl
  · rw [List.getElem?_reverse hbl] at hb1
    exact hb1
  · by_contra hlt
    exact ha2 i (by omega) hi
  · have hil := (List.getElem?_eq_some_iff.1 hi).1
    by_contra hlt
    apply hb2 (valid.length - 1 - i) (by omega)
    rw [List.getElem?_reverse (by omega)]
    rw [show valid.length - 1 - (valid.length - 1 - i) = i by omega]
    exact hi

private theorem endpoints_none (valid : List Bool) (h : true ∉ valid) (hne : valid ≠ []) :
    ∃ p, endpointsOne valid = .ok (false, p) := by
  have h1 : argmaxBool valid = .ok 0 := by unfold argmaxBool; rw [if_neg hne, if_neg h]
  have h2 : argmaxBool valid.reverse = .ok 0 := by unfold argmaxBool; rw [if_neg (by simpa using hne), if_neg (by simpa using h)]
  refine ⟨(0, valid.length - 1 - 0), ?_⟩
  unfold endpointsOne
  simp only [bind, Except.bind, h1, h2]
  cases valid with
  | nil => exact absurd rfl hne
  | cons b l =>
    cases b with
    | true => simp at h
    | false => rfl

/-- C75: `endpoints` says which tracks have a valid datetime, and lists, for these and in their order, the first and the
last valid datetime. -/
theorem endpoints_exact (valid : List (List Bool)) (hne : ∀ v ∈ valid, v ≠ []) :
    ∃ firsts lasts, endpoints valid = .ok (valid.map fun v => decide (true ∈ v), firsts, lasts) ∧
      List.Forall₂ (fun (v : List Bool) (f : Nat) => v[f]? = some true ∧ ∀ i : Nat, v[i]? = some true → f ≤ i)
        (valid.filter fun v => decide (true ∈ v)) firsts ∧
      List.Forall₂ (fun (v : List Bool) (l : Nat) => v[l]? = some true ∧ ∀ i : Nat, v[i]? = some true → i ≤ l)
        (valid.filter fun v => decide (true ∈ v)) lasts := by
  induction valid with
  | nil => exact ⟨[], [], rfl, List.Forall₂.nil, List.Forall₂.nil⟩
  | cons v valid ih =>
    obtain ⟨fs, ls, h1, h2, h3⟩ := ih fun w hw => hne w (List.mem_cons_of_mem _ hw)
    unfold endpoints at h1 ⊢
    simp only [bind, Except.bind] at h1 ⊢
    rw [List.mapM_cons]
    simp only [bind, Except.bind, pure, Except.pure]
    split at h1
    · cases h1
    rename_i r hr
    simp only [Except.ok.injEq, Prod.mk.injEq] at h1
    obtain ⟨e1, e2, e3⟩ := h1
    by_cases h : true ∈ v
    · obtain ⟨f, l, he, hf, hl, hfl⟩ := endpoints_one v h
      rw [he]
      refine ⟨f :: fs, l :: ls, ?_, ?_, ?_⟩
      · simp [h, e1, e2, e3]
      · rw [List.filter_cons_of_pos (by simpa using h)]
        exact List.Forall₂.cons ⟨hf, fun i hi => (hfl i hi).1⟩ h2
      · rw [List.filter_cons_of_pos (by simpa using h)]
        exact List.Forall₂.cons ⟨hl, fun i hi => (hfl i hi).2⟩ h3
    · obtain ⟨p, he⟩ := endpoints_none v h (hne v List.mem_cons_self)
      rw [he]
      refine ⟨fs, ls, ?_, ?_, ?_⟩
      · simp [h, e1, e2, e3]
      · rw [List.filter_cons_of_neg (by simpa using h)]; exact h2
      · rw [List.filter_cons_of_neg (by simpa using h)]; exact h3

/-- C75: tracks without datetimes raise. -/
theorem endpoints_raises (valid : List (List Bool)) (h : [] ∈ valid) : ∃ e, endpoints valid = .error e := by
  induction valid with
  | nil => cases h
  | cons v valid ih =>
    unfold endpoints
    rw [List.mapM_cons]
    simp only [bind, Except.bind, pure, Except.pure]
    rcases List.mem_cons.1 h with h | h
    · subst h
      exact ⟨.valueError, by simp [endpointsOne, argmaxBool, bind, Except.bind]⟩
    · cases hv : endpointsOne v with
      | error e => exact ⟨e, rfl⟩
      | ok p =>
        obtain ⟨e, he⟩ := ih h
        unfold endpoints at he
        simp only [bind, Except.bind] at he
        cases hr : valid.mapM endpointsOne with
        | error e' => exact ⟨e', by simp⟩
        | ok r => rw [hr] at he; cases he

/-- C75: a track succeeded exactly when no error was recorded for it; unknown if none were recorded at all. -/
theorem success_exact {ε : Type} (errors : List (Option ε)) :
    success (some errors) = some (errors.map fun e => match e with | none => true | some _ => false) ∧ success (none : Option (List (Option ε))) = none := by
  refine ⟨?_, rfl⟩
  simp only [success, Option.map_some, Option.some.injEq]
  refine List.map_congr_left fun e _ => ?_
  cases e <;> rfl

example : endpoints [[false, true, false, true, false], [false, false, false, false, false], [true, true, false, false, false]] =
    .ok ([true, false, true], [1, 0], [3, 1]) := by decide +kernel

end Glimpse.Tracks
