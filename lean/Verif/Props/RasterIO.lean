import Verif.Model.RasterIO
import Verif.Props.RasterRead
import Verif.Props.GridCrop
import Mathlib.Tactic.FieldSimp

/-!
C103: rasters written to a file and opened again.
-/
set_option autoImplicit false
set_option linter.unusedSimpArgs false
set_option linter.unusedSectionVars false

namespace Glimpse.RasterIO

/-! ### Drivers -/

/-- C103. The extension is what follows the last dot of the file name, if anything but dots precedes it. -/
theorem splitext_spec (dir stem ext : List Char) (hd : dir = [] ∨ dir.getLast? = some '/') (hs : '/' ∉ stem)
    (hstem : ∃ c ∈ stem, c ≠ '.') (he : '.' ∉ ext) (he' : '/' ∉ ext) :
    splitext (dir ++ stem ++ '.' :: ext) = '.' :: ext := by
  have hbase : ((dir ++ stem ++ '.' :: ext).reverse.takeWhile (· ≠ '/')).reverse = stem ++ '.' :: ext := by
    rw [List.append_assoc, List.reverse_append, List.takeWhile_append_of_pos]
    · have : dir.reverse.takeWhile (· ≠ '/') = [] := by
        rcases hd with rfl | hd
        · rfl
        · rw [List.getLast?_eq_head?_reverse] at hd
          cases hr : dir.reverse with
          | nil => rfl
          | cons a l =>
            rw [hr] at hd
            simp at hd
            subst hd
            simp
      rw [this, List.append_nil, List.reverse_reverse]
    · intro a ha
      simp only [List.mem_reverse, List.mem_append, List.mem_cons] at ha
      simp only [ne_eq, decide_eq_true_eq]
      rintro rfl
      rcases ha with h | h | h
      · exact hs h
      · exact absurd h (by decide)
      · exact he' h
  unfold splitext
  simp only [hbase]
  have hdrop : ∃ s', (stem ++ '.' :: ext).dropWhile (· = '.') = s' ++ '.' :: ext := by
    obtain ⟨c, hc, hne⟩ := hstem
    clear hs hbase
    induction stem with
    | nil => cases hc
    | cons a l ih =>
      by_cases ha : a = '.'
      · subst ha
        rcases List.mem_cons.1 hc with h | h
        · exact absurd h hne
        · obtain ⟨s', hs'⟩ := ih h
          refine ⟨s', ?_⟩
          rw [List.cons_append, List.dropWhile_cons_of_pos (by simp)]
          exact hs'
      · exact ⟨a :: l, by rw [List.cons_append, List.dropWhile_cons_of_neg (by simpa using ha)]⟩
  obtain ⟨s', hs'⟩ := hdrop
  rw [hs', if_pos (by simp)]
  congr 1
  rw [List.reverse_append, List.reverse_cons, List.append_assoc, List.takeWhile_append_of_pos]
  · simp
  · intro a ha
    simp only [List.mem_reverse] at ha
    simp only [ne_eq, decide_eq_true_eq]
    rintro rfl
    exact he ha

/-- A raster driver for a path: one of its extensions, separated by blanks, is that of the path in lower case. -/
def ForPath (path : List Char) (d : Driver) : Prop :=
  d.raster = true ∧ d.extensions ≠ [] ∧ ((splitext path).drop 1).map Char.toLower ∈ d.extensions.splitOn ' '

/-- C103. Without a driver, the first raster driver for the extension is used; with a name, the first of that name, in any
case; without such a driver, `write` refuses. -/
theorem driver_chosen (drivers : List Driver) (path : List Char) (d : Driver) :
    (chooseDriver drivers path none = .ok d ↔
      ∃ pre post, drivers = pre ++ d :: post ∧ ForPath path d ∧ ∀ d' ∈ pre, ¬ ForPath path d') ∧
    (∀ name : List Char, name ≠ [] → (chooseDriver drivers path (some name) = .ok d ↔
      ∃ pre post, drivers = pre ++ d :: post ∧ d.name.map Char.toLower = name.map Char.toLower ∧
        ∀ d' ∈ pre, d'.name.map Char.toLower ≠ name.map Char.toLower)) ∧
    (∀ driver e, chooseDriver drivers path driver = .error e → e = .valueError) := by
  have hpred : ∀ a : Driver, (((true && a.raster) || (false && a.vector)) && (decide (a.extensions ≠ []) &&
      decide (((splitext path).drop 1).map Char.toLower ∈ a.extensions.splitOn ' '))) = true ↔ ForPath path a := by
    intro a
    simp only [ForPath, Bool.and_eq_true, Bool.or_eq_true, decide_eq_true_eq, Bool.true_and, Bool.false_and,
      Bool.false_eq_true, or_false]
  refine ⟨?_, ?_, ?_⟩
  · unfold chooseDriver
    simp only
    constructor
    · intro h
      split at h
      · rename_i d' hd'
        have := Except.ok.inj h
        subst this
        unfold driverFromPath at hd'
        rw [List.find?_eq_some_iff_append] at hd'
        obtain ⟨h1, pre, post, h2, h3⟩ := hd'
        refine ⟨pre, post, h2, (hpred _).1 h1, ?_⟩
        intro a ha hc
        have := h3 a ha
        rw [(hpred a).2 hc] at this
        cases this
      · cases h
    · rintro ⟨pre, post, h2, h1, h3⟩
      have : driverFromPath drivers path true false = some d := by
        unfold driverFromPath
        rw [List.find?_eq_some_iff_append]
        refine ⟨(hpred _).2 h1, pre, post, h2, ?_⟩
        intro a ha
        have := mt (hpred a).1 (h3 a ha)
        simpa only [Bool.not_eq_true, Bool.not_eq_true'] using this
      rw [this]
  · intro name hn
    unfold chooseDriver
    simp only [if_neg hn]
    constructor
    · intro h
      split at h
      · rename_i d' hd'
        have := Except.ok.inj h
        subst this
        rw [List.find?_eq_some_iff_append] at hd'
        obtain ⟨h1, pre, post, h2, h3⟩ := hd'
        refine ⟨pre, post, h2, by simpa using h1, ?_⟩
        intro a ha
        simpa using h3 a ha
      · cases h
    · rintro ⟨pre, post, h2, h1, h3⟩
      have : (drivers.find? fun d => decide (d.name.map Char.toLower = name.map Char.toLower)) = some d := by
        rw [List.find?_eq_some_iff_append]
        refine ⟨by simpa using h1, pre, post, h2, ?_⟩
        intro a ha
        simpa using h3 a ha
      rw [this]
  · intro driver e h
    unfold chooseDriver at h
    split at h
    · cases h
    · cases h; rfl

/-- C103: an empty name counts as none. -/
theorem driver_empty_name (drivers : List Driver) (path : List Char) :
    chooseDriver drivers path (some []) = chooseDriver drivers path none := by
  simp [chooseDriver]

/-! ### Writing -/

/-- A coordinate reference system that can be written: none, a code, or a string in WKT (with brackets) or Proj4 (with a
plus sign). -/
def Crs.Ok : Crs → Prop
  | .none => True
  | .epsg _ => True
  | .text s => s = [] ∨ '[' ∈ s ∨ '+' ∈ s
  | .other => False

/-- C103: how a coordinate reference system is read: a number as an EPSG code; a text with a bracket as WKT, whatever else it
contains; another text with a plus sign as Proj4; anything else raises ValueError. -/
theorem crs_reading (osr : Osr) :
    (∀ code, crsToWkt osr (.epsg code) = .ok (osr.epsg code)) ∧
    (∀ l r, crsToWkt osr (.text (l ++ '[' :: r)) = .ok (osr.wkt (l ++ '[' :: r))) ∧
    (∀ l r, '[' ∉ l → '[' ∉ r → crsToWkt osr (.text (l ++ '+' :: r)) = .ok (osr.proj4 (l ++ '+' :: r))) ∧
    (∀ s, '[' ∉ s → '+' ∉ s → crsToWkt osr (.text s) = .error .valueError) ∧
    crsToWkt osr .none = .error .valueError ∧ crsToWkt osr .other = .error .valueError := by
  refine ⟨fun _ => rfl, fun l r => ?_, fun l r h1 h2 => ?_, fun s h1 h2 => ?_, rfl, rfl⟩
  · simp [crsToWkt]
  · simp [crsToWkt, h1, h2]
  · simp [crsToWkt, h1, h2]

private theorem projection_iff (osr : Osr) (c : Crs) : (∃ p, projectionOf osr c = .ok p) ↔ c.Ok := by
  unfold projectionOf
  cases c with
  | none => simp [Crs.truthy, Crs.Ok]
  | epsg n => by_cases h : n = 0 <;> simp [Crs.truthy, Crs.Ok, crsToWkt, h]
  | text s =>
    by_cases h : s = []
    · simp [Crs.truthy, Crs.Ok, h]
    · by_cases h1 : '[' ∈ s
      · simp [Crs.truthy, Crs.Ok, h, h1, crsToWkt]
      · by_cases h2 : '+' ∈ s <;> simp [Crs.truthy, Crs.Ok, h, h1, h2, crsToWkt]
  | other => simp [Crs.truthy, Crs.Ok, crsToWkt]

/-- C103. Writing succeeds exactly if the type is supported, there are cells, a driver that can write is found and the
coordinate reference system can be converted. -/
theorem write_ok_iff (drivers : List Driver) (osr : Osr) (a : Arr) (path : List Char) (args : WriteArgs) (fs : Files) :
    (writeRaster drivers osr a path args fs).1 = .ok () ↔
      a.supported = true ∧ 0 < a.nx ∧ 0 < a.ny ∧
      (∃ d, chooseDriver drivers path args.driver = .ok d ∧ (d.create = true ∨ d.createCopy = true)) ∧ args.crs.Ok := by
  rw [← projection_iff osr]
  unfold writeRaster
  by_cases h1 : a.supported = true
  · simp only [h1, Bool.not_true, Bool.false_eq_true, if_false, true_and]
    cases hd : chooseDriver drivers path args.driver with
    | error e => simp
    | ok d =>
      simp only
      unfold writeWith
      cases hp : projectionOf osr args.crs with
      | error e =>
        cases h2 : d.create <;> cases h3 : d.createCopy <;> by_cases h4 : a.nx = 0 <;> by_cases h5 : a.ny = 0 <;>
          simp [h2, h3, h4, h5, hd, hp]
      | ok p =>
        cases h2 : d.create <;> cases h3 : d.createCopy <;> by_cases h4 : a.nx = 0 <;> by_cases h5 : a.ny = 0 <;>
          simp [h2, h3, h4, h5, hd, hp, Nat.pos_iff_ne_zero]
  · simp [h1]

/-- C103. A successful write changes nothing but the file, which then has the size, values and type of the array, the
transform and the no-data value given. Whatever the value given for NaN, the values are written as they are. -/
theorem write_effect (drivers : List Driver) (osr : Osr) (a : Arr) (path : List Char) (args : WriteArgs) (fs : Files)
    (h : (writeRaster drivers osr a path args fs).1 = .ok ()) :
    ∃ ds, (writeRaster drivers osr a path args fs).2 path = some ds ∧
      (∀ p, p ≠ path → (writeRaster drivers osr a path args fs).2 p = fs p) ∧
      ds.nx = a.nx ∧ ds.ny = a.ny ∧ ds.bands = a.bands ∧ ds.isFloat = a.isFloat ∧ ds.nodata = args.nan ∧
      (∀ t, args.transform = some t → ds.transform = t) ∧
      (args.transform = none → ds.transform = ⟨0, 1, 0, 0, 0, 1⟩) ∧
      (args.crs.truthy = true → crsToWkt osr args.crs = .ok ds.projection) ∧
      (args.crs.truthy = false → ds.projection = []) := by
  have h0 := (write_ok_iff drivers osr a path args fs).1 h
  obtain ⟨h1, h2, h3, ⟨d, hd, hc⟩, h5⟩ := h0
  obtain ⟨p, hp⟩ := (projection_iff osr _).2 h5
  have e : writeRaster drivers osr a path args fs = (.ok (), Function.update fs path (some (filled a args p))) := by
    unfold writeRaster
    simp only [h1, Bool.not_true, Bool.false_eq_true, if_false, hd]
    unfold writeWith
    rw [if_neg (by rcases hc with hc | hc <;> simp [hc]), if_neg (by omega)]
    simp only [hp]
  rw [e]
  refine ⟨filled a args p, by simp, ?_, rfl, rfl, rfl, rfl, rfl, ?_, ?_, ?_, ?_⟩
  · intro q hq; simp [Function.update_of_ne hq]
  · intro t ht; simp [filled, ht]
  · intro ht; simp [filled, ht, blank]
  · intro ht
    unfold projectionOf at hp
    rw [if_pos ht] at hp
    exact hp
  · intro ht
    unfold projectionOf at hp
    rw [if_neg (by simp [ht])] at hp
    exact (Except.ok.inj hp).symm

/-- C103 (partial). A write that raises changes no other file; if the coordinate reference system can be converted, or if
the driver only copies, it does not change the file either. -/
theorem write_failed_partial (drivers : List Driver) (osr : Osr) (a : Arr) (path : List Char) (args : WriteArgs)
    (fs : Files) (er : Err) (h : (writeRaster drivers osr a path args fs).1 = .error er) :
    (∀ p, p ≠ path → (writeRaster drivers osr a path args fs).2 p = fs p) ∧
    (args.crs.Ok → (writeRaster drivers osr a path args fs).2 = fs) ∧
    ((∀ d, chooseDriver drivers path args.driver = .ok d → d.create = false) →
      (writeRaster drivers osr a path args fs).2 = fs) := by
  rw [← projection_iff osr]
  unfold writeRaster at h ⊢
  by_cases h1 : a.supported = true
  · simp only [h1, Bool.not_true, Bool.false_eq_true, if_false] at h ⊢
    cases hd : chooseDriver drivers path args.driver with
    | error e => simp
    | ok d =>
      rw [hd] at h
      simp only at h ⊢
      unfold writeWith at h ⊢
      by_cases h2 : (!d.create && !d.createCopy) = true
      · simp [h2]
      · by_cases h3 : a.nx = 0 ∨ a.ny = 0
        · simp only [h2, h3, if_true, if_false, Bool.false_eq_true]; simp
        · simp only [h2, h3, if_false, Bool.false_eq_true] at h ⊢
          cases hp : projectionOf osr args.crs with
          | ok p => rw [hp] at h; simp at h
          | error e =>
            simp only
            refine ⟨?_, ?_, ?_⟩
            · intro p hpp
              split
              · simp [Function.update_of_ne hpp]
              · rfl
            · rintro ⟨p, hc⟩; cases hc
            · intro hcr
              have := hcr d rfl
              rw [this]
              simp
  · simp [h1]

/-- C103 (violated). With a coordinate reference system that cannot be converted, a driver that creates files has already
emptied the file when `write` raises: what was there is lost. -/
theorem write_failed_violated (drivers : List Driver) (osr : Osr) (a : Arr) (path : List Char) (args : WriteArgs)
    (fs : Files) (hs : a.supported = true) (hx : 0 < a.nx) (hy : 0 < a.ny) (d : Driver)
    (hd : chooseDriver drivers path args.driver = .ok d) (hc : d.create = true) (hcrs : ¬ args.crs.Ok) :
    (writeRaster drivers osr a path args fs).1 = .error .valueError ∧
    ∃ ds, (writeRaster drivers osr a path args fs).2 path = some ds ∧
      ∀ b ∈ ds.bands, ∀ row ∈ b, ∀ v ∈ row, v = some 0 := by
  have hp : projectionOf osr args.crs = .error .valueError := by
    cases hp : projectionOf osr args.crs with
    | ok p => exact absurd ((projection_iff osr _).1 ⟨p, hp⟩) hcrs
    | error e =>
      unfold projectionOf at hp
      split at hp
      · unfold crsToWkt at hp
        split at hp
        · cases hp
        · split at hp
          · cases hp
          · split at hp
            · cases hp
            · cases hp; rfl
        · cases hp; rfl
      · cases hp
  have e : writeRaster drivers osr a path args fs = (.error .valueError, Function.update fs path (some (blank a))) := by
    unfold writeRaster
    simp only [hs, Bool.not_true, Bool.false_eq_true, if_false, hd]
    unfold writeWith
    rw [if_neg (by simp [hc]), if_neg (by omega)]
    simp only [hp, hc, if_true]
  rw [e]
  refine ⟨rfl, blank a, by simp, ?_⟩
  intro b hb row hr v hv
  unfold blank at hb
  have h1 := List.eq_of_mem_replicate hb
  subst h1
  have h2 := List.eq_of_mem_replicate hr
  subst h2
  exact List.eq_of_mem_replicate hv

/-! ### Opening -/

/-- A dataset with cells, of its size. -/
structure Dataset.Valid (ds : Dataset) : Prop where
  nx : 0 < ds.nx
  ny : 0 < ds.ny
  dx : ds.transform.dx ≠ 0
  dy : ds.transform.dy ≠ 0
  rows : ∀ b ∈ ds.bands, b.length = ds.ny
  cols : ∀ b ∈ ds.bands, Rect ds.nx b

/-- Limits of the file along x and y. -/
def Dataset.grid (ds : Dataset) : Grid :=
  ⟨⟨ds.transform.x0, ds.transform.x0 + ds.transform.dx * ds.nx, ds.nx⟩,
    ⟨ds.transform.y0, ds.transform.y0 + ds.transform.dy * ds.ny, ds.ny⟩⟩

theorem fileGrid_eq (ds : Dataset) (h : ds.Valid) : fileGrid ds = .ok ds.grid ∧ ds.grid.Valid := by
  have hx : (ds.nx : ℚ) ≠ 0 := by exact_mod_cast h.nx.ne'
  have hy : (ds.ny : ℚ) ≠ 0 := by exact_mod_cast h.ny.ne'
  have h1 : ds.transform.dx * (ds.nx : ℚ) ≠ 0 := mul_ne_zero h.dx hx
  have h2 : ds.transform.dy * (ds.ny : ℚ) ≠ 0 := mul_ne_zero h.dy hy
  refine ⟨?_, h.nx, h.ny, ?_, ?_⟩
  · unfold fileGrid
    simp only [mul_zero, add_zero]
    rw [if_neg]
    · rfl
    · intro hc
      rcases hc with hc | hc
      · exact h1 (by linarith)
      · exact h2 (by linarith)
  · simp only [Dataset.grid]; intro hc; exact h1 (by linarith)
  · simp only [Dataset.grid]; intro hc; exact h2 (by linarith)

private theorem nanOf_clean (ds : Dataset) (nan : Option ℚ) (v : Option ℚ) (o : Opened) (ho : o.nan = nanOf ds nan) :
    (o.file ds).clean v = match nanOf ds nan with
      | some z => if v = some z then none else v
      | none => v := by
  unfold Opened.file
  simp only [ho]
  rfl

/-- What a cell reads as: NaN if its value is the `nan` argument, or, without one, if the file holds floats and the value
is a no-data value other than zero. -/
def CellRead (ds : Dataset) (nan : Option ℚ) (v w : Option ℚ) : Prop :=
  ((∃ z, v = some z ∧ (nan = some z ∨ (nan = none ∧ ds.isFloat = true ∧ ds.nodata = some z ∧ z ≠ 0))) → w = none) ∧
  (¬ (∃ z, v = some z ∧ (nan = some z ∨ (nan = none ∧ ds.isFloat = true ∧ ds.nodata = some z ∧ z ≠ 0))) → w = v)

theorem clean_spec (ds : Dataset) (nan : Option ℚ) (v : Option ℚ) (o : Opened) (ho : o.nan = nanOf ds nan) :
    CellRead ds nan v ((o.file ds).clean v) := by
  rw [nanOf_clean ds nan v o ho]
  unfold CellRead nanOf
  cases nan with
  | some z =>
    simp only
    constructor
    · rintro ⟨z', rfl, hz | hz⟩
      · cases hz; simp
      · cases hz.1
    · intro hn
      rw [if_neg]
      rintro rfl
      exact hn ⟨z, rfl, Or.inl rfl⟩
  | none =>
    cases hf : ds.isFloat with
    | false =>
      simp
    | true =>
      cases hnd : ds.nodata with
      | none => simp
      | some z =>
        by_cases hz : z = 0
        · subst hz
          simp only [if_true]
          refine ⟨?_, fun _ => by trivial⟩
          rintro ⟨z, -, hz | ⟨-, -, hz, hz0⟩⟩
          · cases hz
          · cases hz; exact absurd rfl hz0
        · simp only [hz, if_false, if_true]
          constructor
          · rintro ⟨z', rfl, hz' | hz'⟩
            · cases hz'
            · have := hz'.2.2.1
              cases this
              simp
          · intro hn
            rw [if_neg]
            rintro rfl
            exact hn ⟨z, rfl, Or.inr ⟨by trivial, by trivial, by trivial, hz⟩⟩

theorem open_eq (fs : Files) (path : List Char) (ds : Dataset) (hfs : fs path = some ds) (h : ds.Valid)
    (band : Nat) (d : Option ℚ) (xlim ylim : Option (ℚ × ℚ)) (nan : Option ℚ) :
    openRaster fs path band d xlim ylim nan =
      (match ds.grid.cropExtent xlim ylim with
        | .ok e => openWith ds ds.grid e band d nan
        | .error er => .error er) := by
  unfold openRaster
  simp only [hfs, (fileGrid_eq ds h).1, bind, Except.bind]
  cases ds.grid.cropExtent xlim ylim <;> rfl

/-- C103. Opening raises exactly for a missing file, a band that does not exist, or a request that does not overlap the
file. -/
theorem open_raises_iff (fs : Files) (path : List Char) (band : Nat) (d : Option ℚ) (xlim ylim : Option (ℚ × ℚ))
    (nan : Option ℚ) (hv : ∀ ds, fs path = some ds → ds.Valid) :
    Raises (openRaster fs path band d xlim ylim nan) ↔
      fs path = none ∨ ∃ ds, fs path = some ds ∧ (band = 0 ∨ ds.bands.length < band ∨
        ¬ (Overlaps (request xlim ds.grid.ax) ds.grid.ax ∧ Overlaps (request ylim ds.grid.ay) ds.grid.ay)) := by
  cases hfs : fs path with
  | none => simp [openRaster, hfs, Raises]
  | some ds =>
    rw [open_eq fs path ds hfs (hv ds hfs)]
    simp only [reduceCtorEq, false_or, Option.some.injEq, exists_eq_left']
    rw [← crop_extent_raises_iff]
    cases hc : ds.grid.cropExtent xlim ylim with
    | error er => simp [Raises]
    | ok e =>
      simp only [Raises, reduceCtorEq, exists_false, or_false]
      unfold openWith
      by_cases hb : band = 0 ∨ ds.bands.length < band
      · simp [hb]
      · simp only [if_neg hb]
        simp only [reduceCtorEq, exists_false, false_iff]
        exact hb

/-- C103. For every request, at full resolution: the opened raster covers the part of the request in the file, its cells
are cells of the file, at the same place, and their values are those of the file but for missing values. -/
theorem open_cells (fs : Files) (path : List Char) (ds : Dataset) (hfs : fs path = some ds) (h : ds.Valid)
    (band : Nat) (xlim ylim : Option (ℚ × ℚ)) (nan : Option ℚ) (o : Opened)
    (ho : openRaster fs path band none xlim ylim nan = .ok o) :
    ∃ (a : FArray) (nx ny : Nat), (o.file ds).array.1 = .ok a ∧ o.bufx = nx ∧ o.bufy = ny ∧ 0 < nx ∧ 0 < ny ∧
      a.length = ny ∧ Rect nx a ∧
      (∀ v, InClipped (request xlim ds.grid.ax) ds.grid.ax v → Between o.xlim.1 o.xlim.2 v) ∧
      (∀ v, InClipped (request ylim ds.grid.ay) ds.grid.ay v → Between o.ylim.1 o.ylim.2 v) ∧
      ∃ r0 c0 : Nat, r0 + ny ≤ ds.ny ∧ c0 + nx ≤ ds.nx ∧
        (∀ j : Nat, cellEdge o.xlim.1 o.xlim.2 nx j = cellEdge ds.grid.ax.lo ds.grid.ax.hi ds.nx ((c0 + j : Nat) : ℤ)) ∧
        (∀ i : Nat, cellEdge o.ylim.1 o.ylim.2 ny i = cellEdge ds.grid.ay.lo ds.grid.ay.hi ds.ny ((r0 + i : Nat) : ℤ)) ∧
        ∀ i j : Nat, i < ny → j < nx →
          CellRead ds nan (((ds.bands.getD (band - 1) []).getD (r0 + i) []).getD (c0 + j) none)
            ((a.getD i []).getD j none) := by
  obtain ⟨_, hg⟩ := fileGrid_eq ds h
  rw [open_eq fs path ds hfs h] at ho
  cases hc : ds.grid.cropExtent xlim ylim with
  | error er => rw [hc] at ho; cases ho
  | ok e =>
    rw [hc] at ho
    simp only at ho
    unfold openWith at ho
    split at ho
    · cases ho
    rename_i hb
    push Not at hb
    have ho := (Except.ok.inj ho).symm
    obtain ⟨⟨c1, c2, c3⟩, ⟨r1, r2, r3⟩, hx, hy, cx, cy, -, -⟩ := crop_extent_spec ds.grid hg xlim ylim e hc
    -- sizes as natural numbers
    obtain ⟨c0, hc0⟩ := Int.eq_ofNat_of_zero_le c1
    obtain ⟨r0, hr0⟩ := Int.eq_ofNat_of_zero_le r1
    obtain ⟨nx, hnx⟩ : ∃ n : Nat, e.cols.2 - e.cols.1 + 1 = n := Int.eq_ofNat_of_zero_le (by omega)
    obtain ⟨ny, hny⟩ : ∃ n : Nat, e.rows.2 - e.rows.1 + 1 = n := Int.eq_ofNat_of_zero_le (by omega)
    have hnx0 : 0 < nx := by omega
    have hny0 : 0 < ny := by omega
    have hcols : c0 + nx ≤ ds.nx := by
      have : (e.cols.2 : ℤ) < ds.nx := c3
      omega
    have hrows : r0 + ny ≤ ds.ny := by
      have : (e.rows.2 : ℤ) < ds.ny := r3
      omega
    have hbm : ds.bands.getD (band - 1) [] ∈ ds.bands := by
      have : band - 1 < ds.bands.length := by omega
      rw [List.getD_eq_getElem _ _ this]
      exact List.getElem_mem _
    set B := ds.bands.getD (band - 1) [] with hB
    have hBl := h.rows B hbm
    have hBr := h.cols B hbm
    -- the file
    have hfile : (o.file ds).xoff = c0 ∧ (o.file ds).yoff = r0 ∧ (o.file ds).xsize = nx ∧ (o.file ds).ysize = ny ∧
        (o.file ds).band = B ∧ (o.file ds).bandCols = ds.nx ∧ (o.file ds).cached = none := by
      subst ho
      rw [hc0] at hnx
      rw [hr0] at hny
      simp only [Opened.file, hc0, hr0, hnx, hny, Int.toNat_natCast]
      exact ⟨by trivial, by trivial, by trivial, by trivial, rfl, by trivial, by trivial⟩
    obtain ⟨f1, f2, f3, f4, f5, f6, f7⟩ := hfile
    have hvalid : (o.file ds).Valid := by
      refine ⟨?_, ?_, ?_, ?_, ?_⟩
      · rw [f5, f6]; exact hBr
      · rw [f3]; exact hnx0
      · rw [f4]; exact hny0
      · rw [f1, f3, f6]; exact hcols
      · rw [f2, f4, f5, hBl]; exact hrows
    have harr := (raster_read_partial (o.file ds) hvalid f7 [] trivial none true (by simp)).2
    have hrun : (o.file ds).run [] = o.file ds := rfl
    rw [hrun] at harr
    have honan : o.nan = nanOf ds nan := by subst ho; rfl
    have hpix : (o.file ds).pixels =
        ((B.drop r0).take ny).map fun row => ((row.drop c0).take nx).map (o.file ds).clean := by
      unfold RasterFile.pixels window
      rw [f1, f2, f3, f4, f5]
      simp only [List.map_map, Nat.add_sub_cancel_left]
      rfl
    refine ⟨(o.file ds).pixels, nx, ny, harr, ?_, ?_, hnx0, hny0, ?_, ?_, ?_, ?_, r0, c0, hrows, hcols, ?_, ?_, ?_⟩
    · subst ho; simp only [bufSize, hnx]
    · subst ho; simp only [bufSize, hny]
    · rw [hpix, List.length_map, List.length_take, List.length_drop, hBl]; omega
    · rw [hpix]
      intro row hrow
      obtain ⟨row', hr', rfl⟩ := List.mem_map.1 hrow
      have : row'.length = ds.nx := hBr row' (List.mem_of_mem_drop (List.mem_of_mem_take hr'))
      rw [List.length_map, List.length_take, List.length_drop, this]
      omega
    · intro v hv
      have := cx v hv
      unfold InCells at this
      subst ho
      simp only [hx]
      exact this
    · intro v hv
      have := cy v hv
      unfold InCells at this
      subst ho
      simp only [hy]
      exact this
    · intro j
      have e1 : o.xlim = e.xlim := by subst ho; rfl
      rw [e1, hx]
      have e2 : e.cols.2 + 1 = ((c0 + nx : Nat) : ℤ) := by push_cast; omega
      rw [e2, hc0]
      have hn : (nx : ℚ) ≠ 0 := by exact_mod_cast hnx0.ne'
      have hn' : (ds.nx : ℚ) ≠ 0 := by exact_mod_cast h.nx.ne'
      have e3 : ds.grid.ax.n = ds.nx := rfl
      rw [e3]
      unfold cellEdge
      push_cast
      field_simp
      ring
    · intro i
      have e1 : o.ylim = e.ylim := by subst ho; rfl
      rw [e1, hy]
      have e2 : e.rows.2 + 1 = ((r0 + ny : Nat) : ℤ) := by push_cast; omega
      rw [e2, hr0]
      have hn : (ny : ℚ) ≠ 0 := by exact_mod_cast hny0.ne'
      have hn' : (ds.ny : ℚ) ≠ 0 := by exact_mod_cast h.ny.ne'
      have e3 : ds.grid.ay.n = ds.ny := rfl
      rw [e3]
      unfold cellEdge
      push_cast
      field_simp
      ring
    · intro i j hi hj
      have hil : r0 + i < B.length := by omega
      have hjl : c0 + j < (B[r0 + i]).length := by
        rw [hBr _ (List.getElem_mem hil)]; omega
      have hval : (((o.file ds).pixels.getD i []).getD j none) = (o.file ds).clean ((B[r0 + i])[c0 + j]) := by
        rw [hpix]
        have l1 : i < (((B.drop r0).take ny).map fun row => ((row.drop c0).take nx).map (o.file ds).clean).length := by
          rw [List.length_map, List.length_take, List.length_drop, hBl]; omega
        rw [List.getD_eq_getElem _ _ l1]
        simp only [List.getElem_map, List.getElem_take, List.getElem_drop]
        have l2 : j < (((B[r0 + i].drop c0).take nx).map (o.file ds).clean).length := by
          rw [List.length_map, List.length_take, List.length_drop]
          rw [hBr _ (List.getElem_mem hil)]; omega
        rw [List.getD_eq_getElem _ _ l2]
        simp only [List.getElem_map, List.getElem_take, List.getElem_drop]
      rw [hval, List.getD_eq_getElem _ _ hil, List.getD_eq_getElem _ _ hjl]
      exact clean_spec ds nan _ o honan

/-- Both axes of the opened raster: limits and cells. -/
private theorem open_axis (fs : Files) (path : List Char) (ds : Dataset) (hfs : fs path = some ds) (h : ds.Valid)
    (band : Nat) (d : Option ℚ) (xlim ylim : Option (ℚ × ℚ)) (nan : Option ℚ) (o : Opened)
    (ho : openRaster fs path band d xlim ylim nan = .ok o) :
    (0 < o.winx ∧ o.xlim.2 - o.xlim.1 = o.winx * ds.transform.dx ∧ o.bufx = bufSize o.winx ds.transform.dx d) ∧
    (0 < o.winy ∧ o.ylim.2 - o.ylim.1 = o.winy * ds.transform.dy ∧ o.bufy = bufSize o.winy ds.transform.dy d) := by
  obtain ⟨_, hg⟩ := fileGrid_eq ds h
  have hn : (ds.nx : ℚ) ≠ 0 := by exact_mod_cast h.nx.ne'
  have hn' : (ds.ny : ℚ) ≠ 0 := by exact_mod_cast h.ny.ne'
  have dx : ds.grid.ax.d = ds.transform.dx := by
    simp only [GAxis.d, Dataset.grid]; field_simp; ring
  have dy : ds.grid.ay.d = ds.transform.dy := by
    simp only [GAxis.d, Dataset.grid]; field_simp; ring
  rw [open_eq fs path ds hfs h] at ho
  cases hc : ds.grid.cropExtent xlim ylim with
  | error er => rw [hc] at ho; cases ho
  | ok e =>
    rw [hc] at ho
    simp only at ho
    unfold openWith at ho
    split at ho
    · cases ho
    have ho := (Except.ok.inj ho).symm
    obtain ⟨⟨c1, c2, c3⟩, ⟨r1, r2, r3⟩, hx, hy, -⟩ := crop_extent_spec ds.grid hg xlim ylim e hc
    subst ho
    simp only [dx, dy, hx, hy]
    refine ⟨⟨by omega, ?_, by trivial⟩, by omega, ?_, by trivial⟩
    · unfold cellEdge
      simp only [Dataset.grid]
      push_cast
      field_simp
      ring
    · unfold cellEdge
      simp only [Dataset.grid]
      push_cast
      field_simp
      ring

/-- C103. With a target cell size `d`, the opened raster has the fewest cells, at least one, that are not larger than `d`,
along each axis. -/
theorem open_cell_size (fs : Files) (path : List Char) (ds : Dataset) (hfs : fs path = some ds) (h : ds.Valid)
    (band : Nat) (d : ℚ) (hd : d ≠ 0) (xlim ylim : Option (ℚ × ℚ)) (nan : Option ℚ) (o : Opened)
    (ho : openRaster fs path band (some d) xlim ylim nan = .ok o) :
    (0 < o.bufx ∧ |o.xlim.2 - o.xlim.1| ≤ o.bufx * |d| ∧ (o.bufx - 1 : ℤ) * |d| < |o.xlim.2 - o.xlim.1|) ∧
    (0 < o.bufy ∧ |o.ylim.2 - o.ylim.1| ≤ o.bufy * |d| ∧ (o.bufy - 1 : ℤ) * |d| < |o.ylim.2 - o.ylim.1|) := by
  have key : ∀ (win : ℤ) (cell w : ℚ), 0 < win → cell ≠ 0 → w = win * cell →
      0 < bufSize win cell (some d) ∧ |w| ≤ bufSize win cell (some d) * |d| ∧
        (bufSize win cell (some d) - 1 : ℤ) * |d| < |w| := by
    intro win cell w hw hcell hww
    have hdp : 0 < |d| := abs_pos.2 hd
    have hq : |(win : ℚ) * cell / d| = |w| / |d| := by rw [abs_div, hww]
    have hwp : 0 < |w| := abs_pos.2 (by
      rw [hww]; exact mul_ne_zero (by exact_mod_cast hw.ne') hcell)
    simp only [bufSize, if_neg hd, hq]
    refine ⟨Int.ceil_pos.2 (div_pos hwp hdp), ?_, ?_⟩
    · have := Int.le_ceil (|w| / |d|)
      rw [div_le_iff₀ hdp] at this
      exact this
    · have := Int.ceil_lt_add_one (|w| / |d|)
      push_cast
      have h2 : ((⌈|w| / |d|⌉ : ℚ) - 1) < |w| / |d| := by linarith
      rw [lt_div_iff₀ hdp] at h2
      exact h2
  obtain ⟨⟨a1, a2, a3⟩, b1, b2, b3⟩ := open_axis fs path ds hfs h band (some d) xlim ylim nan o ho
  rw [a3, b3]
  exact ⟨key _ _ _ a1 h.dx a2, key _ _ _ b1 h.dy b2⟩

/-! ### Writing and opening -/

/-- C103. A raster that was written is opened with the same limits, size and coordinate reference system, and each cell of
each band reads as it was, but for cells of floats that hold the value given for NaN (when that is not zero), which read
as missing. -/
theorem write_open (drivers : List Driver) (osr : Osr) (r : Ras) (hg : r.grid.Valid)
    (hrows : ∀ b ∈ r.a.bands, b.length = r.a.ny) (hcols : ∀ b ∈ r.a.bands, Rect r.a.nx b) (path : List Char)
    (driver : Option (List Char)) (nan : Option ℚ) (fs : Files)
    (hw : (r.write drivers osr path driver nan fs).1 = .ok ()) (band : Nat) (hb : 0 < band)
    (hb' : band ≤ r.a.bands.length) :
    ∃ ds o a, (r.write drivers osr path driver nan fs).2 path = some ds ∧
      openRaster (r.write drivers osr path driver nan fs).2 path band none none none none = .ok o ∧
      o.xlim = r.xlim ∧ o.ylim = r.ylim ∧ o.bufx = r.a.nx ∧ o.bufy = r.a.ny ∧
      (r.crs.truthy = false → o.crs = none) ∧
      (r.crs.truthy = true → ∀ w, crsToWkt osr r.crs = .ok w → w ≠ [] → o.crs = some w) ∧
      (o.file ds).array.1 = .ok a ∧ a.length = r.a.ny ∧ Rect r.a.nx a ∧
      ∀ i j : Nat, i < r.a.ny → j < r.a.nx →
        let v := ((r.a.bands.getD (band - 1) []).getD i []).getD j none
        let w := (a.getD i []).getD j none
        ((∃ z, v = some z ∧ r.a.isFloat = true ∧ nan = some z ∧ z ≠ 0) → w = none) ∧
        (¬ (∃ z, v = some z ∧ r.a.isFloat = true ∧ nan = some z ∧ z ≠ 0) → w = v) := by
  unfold Ras.write at hw ⊢
  obtain ⟨ds, h1, -, h3, h4, h5, h6, h7, h8, -, h10, h11⟩ := write_effect drivers osr r.a path _ fs hw
  have ht := h8 _ rfl
  generalize (writeRaster drivers osr r.a path _ fs).2 = fs' at h1 ⊢
  have hn : (r.a.nx : ℚ) ≠ 0 := by exact_mod_cast hg.nx.ne'
  have hn' : (r.a.ny : ℚ) ≠ 0 := by exact_mod_cast hg.ny.ne'
  have hdx : ds.transform.dx * (ds.nx : ℚ) = r.xlim.2 - r.xlim.1 := by
    rw [ht, h3]; simp only [GAxis.d, Ras.grid]; field_simp
  have hdy : ds.transform.dy * (ds.ny : ℚ) = r.ylim.2 - r.ylim.1 := by
    rw [ht, h4]; simp only [GAxis.d, Ras.grid]; field_simp
  have hds : ds.grid = r.grid := by
    have ex : ds.transform.x0 = r.xlim.1 := by rw [ht]
    have ey : ds.transform.y0 = r.ylim.1 := by rw [ht]
    unfold Dataset.grid
    rw [hdx, hdy, ex, ey, h3, h4]
    simp [Ras.grid]
  have hv : ds.Valid := by
    refine ⟨by rw [h3]; exact hg.nx, by rw [h4]; exact hg.ny, ?_, ?_, ?_, ?_⟩
    · rw [ht]; exact GAxis.d_ne hg.nx hg.x
    · rw [ht]; exact GAxis.d_ne hg.ny hg.y
    · rw [h5, h4]; exact hrows
    · rw [h5, h3]; exact hcols
  have hopen : ∃ o, openRaster fs' path band none none none none = .ok o ∧ o.xlim = r.xlim ∧ o.ylim = r.ylim ∧
      o.crs = crsOf ds := by
    rw [open_eq fs' path ds h1 hv, hds, crop_extent_none r.grid hg]
    simp only
    unfold openWith
    rw [if_neg (by rw [h5]; omega)]
    exact ⟨_, rfl, rfl, rfl, rfl⟩
  obtain ⟨o, ho, hox, hoy, hoc⟩ := hopen
  obtain ⟨a, nx, ny, e1, e2, e3, e4, e5, e6, e7, -, -, r0, c0, g1, g2, g3, g4, g5⟩ :=
    open_cells fs' path ds h1 hv band none none none o ho
  -- the window is the whole file
  have hnx : c0 = 0 ∧ nx = ds.nx := by
    have k0 := g3 0
    have k1 := g3 nx
    have hnxq : (nx : ℚ) ≠ 0 := by exact_mod_cast e4.ne'
    rw [hds] at k0 k1
    simp only [Ras.grid, hox, cellEdge] at k0 k1
    have hne : r.xlim.2 - r.xlim.1 ≠ 0 := sub_ne_zero.2 hg.x.symm
    have hdn : (ds.nx : ℚ) ≠ 0 := by rw [h3]; exact hn
    simp only [Nat.add_zero, Int.cast_natCast, Nat.cast_zero, zero_mul, zero_div, add_zero] at k0
    have c00 : (c0 : ℚ) = 0 := by
      have : (c0 : ℚ) * (r.xlim.2 - r.xlim.1) / ds.nx = 0 := by
        have := k0; push_cast at this; simp at this
        rcases this with (h | h) | h
        · rw [h]; simp
        · exact absurd h hne
        · exact absurd h (by exact_mod_cast hv.nx.ne')
      have := div_eq_zero_iff.1 this
      rcases this with h | h
      · exact (mul_eq_zero.1 h).resolve_right hne
      · exact absurd h hdn
    have c000 : c0 = 0 := by exact_mod_cast c00
    subst c000
    refine ⟨rfl, ?_⟩
    simp only [Nat.zero_add, Int.cast_natCast] at k1
    have : (nx : ℚ) * (r.xlim.2 - r.xlim.1) / nx = (nx : ℚ) * (r.xlim.2 - r.xlim.1) / ds.nx := by linarith
    field_simp at this
    exact_mod_cast this.symm
  have hny : r0 = 0 ∧ ny = ds.ny := by
    have k0 := g4 0
    have k1 := g4 ny
    have hnyq : (ny : ℚ) ≠ 0 := by exact_mod_cast e5.ne'
    rw [hds] at k0 k1
    simp only [Ras.grid, hoy, cellEdge] at k0 k1
    have hne : r.ylim.2 - r.ylim.1 ≠ 0 := sub_ne_zero.2 hg.y.symm
    have hdn : (ds.ny : ℚ) ≠ 0 := by rw [h4]; exact hn'
    have c00 : (r0 : ℚ) = 0 := by
      have : (r0 : ℚ) * (r.ylim.2 - r.ylim.1) / ds.ny = 0 := by
        have := k0; push_cast at this; simp at this
        rcases this with (h | h) | h
        · rw [h]; simp
        · exact absurd h hne
        · exact absurd h (by exact_mod_cast hv.ny.ne')
      have := div_eq_zero_iff.1 this
      rcases this with h | h
      · exact (mul_eq_zero.1 h).resolve_right hne
      · exact absurd h hdn
    have c000 : r0 = 0 := by exact_mod_cast c00
    subst c000
    refine ⟨rfl, ?_⟩
    simp only [Nat.zero_add, Int.cast_natCast] at k1
    have : (ny : ℚ) * (r.ylim.2 - r.ylim.1) / ny = (ny : ℚ) * (r.ylim.2 - r.ylim.1) / ds.ny := by linarith
    field_simp at this
    exact_mod_cast this.symm
  obtain ⟨rfl, hnx⟩ := hnx
  obtain ⟨rfl, hny⟩ := hny
  rw [h3] at hnx
  rw [h4] at hny
  subst hnx
  subst hny
  refine ⟨ds, o, a, h1, ho, hox, hoy, e2, e3, ?_, ?_, e1, e6, e7, ?_⟩
  · intro hf
    rw [hoc]; unfold crsOf
    rw [if_pos (h11 hf)]
  · intro htr w hww hwne
    have := h10 htr
    simp only at this
    rw [hww] at this
    have := Except.ok.inj this
    rw [hoc]; unfold crsOf
    rw [if_neg (by rw [← this]; exact hwne), this]
  · intro i j hi hj
    have := g5 i j hi hj
    rw [h5] at this
    unfold CellRead at this
    simp only [h6, h7, Nat.zero_add, reduceCtorEq, false_or, true_and] at this
    exact this

/-- C103 (violated). "nan: Value to use in raster to represent NaN in array": missing values are not replaced, whatever the
value given; and a no-data value of zero is not replaced on opening, against the documentation of `open`. -/
theorem write_nan_violated (ds : Dataset) (hz : ds.nodata = some 0) :
    nanOf ds none = none ∧
    (∀ (drivers : List Driver) (osr : Osr) (a : Arr) (path : List Char) (args : WriteArgs) (fs : Files) (ds' : Dataset),
      (writeRaster drivers osr a path args fs).1 = .ok () → (writeRaster drivers osr a path args fs).2 path = some ds' →
      [[none]] ∈ a.bands → [[none]] ∈ ds'.bands) := by
  constructor
  · unfold nanOf; simp only [hz]; split <;> simp
  · intro drivers osr a path args fs ds' h1 h2 h3
    obtain ⟨ds, k1, -, -, -, k2, -⟩ := write_effect drivers osr a path args fs h1
    rw [h2] at k1
    cases k1
    rw [k2]; exact h3

/-- C103. Read without cropping, a grid has the limits and size of the file. -/
theorem grid_read_full (fs : Files) (path : List Char) (ds : Dataset) (hfs : fs path = some ds) (h : ds.Valid) :
    gridRead fs path none none none = .ok ds.grid := by
  obtain ⟨h1, hg⟩ := fileGrid_eq ds h
  unfold gridRead
  simp only [hfs, h1, bind, Except.bind, crop_extent_none ds.grid hg]

/-- C103 (violated). Cropped or with a cell size, a grid read from file keeps the number of cells of the whole file: its
cells are cells of the file only if nothing was cropped. -/
theorem grid_read_violated (fs : Files) (path : List Char) (ds : Dataset) (hfs : fs path = some ds) (h : ds.Valid)
    (d : Option ℚ) (xlim ylim : Option (ℚ × ℚ)) (g : Grid) (hr : gridRead fs path d xlim ylim = .ok g) :
    g.ax.n = ds.nx ∧ g.ay.n = ds.ny ∧
    (∀ o band nan, openRaster fs path band none xlim ylim nan = .ok o → o.winx < ds.nx →
      (g.ax.lo, g.ax.hi) = o.xlim ∧ |g.ax.d| < |ds.transform.dx|) := by
  obtain ⟨h1, hg⟩ := fileGrid_eq ds h
  unfold gridRead at hr
  simp only [hfs, h1, bind, Except.bind] at hr
  cases hc : ds.grid.cropExtent xlim ylim with
  | error er => rw [hc] at hr; cases hr
  | ok e =>
    rw [hc] at hr
    have hr := (Except.ok.inj hr).symm
    subst hr
    refine ⟨rfl, rfl, ?_⟩
    intro o band nan ho hlt
    obtain ⟨⟨a1, a2, a3⟩, -⟩ := open_axis fs path ds hfs h band none xlim ylim nan o ho
    have hox : o.xlim = e.xlim := by
      rw [open_eq fs path ds hfs h, hc] at ho
      simp only at ho
      unfold openWith at ho
      split at ho
      · cases ho
      · rw [← Except.ok.inj ho]
    refine ⟨hox.symm, ?_⟩
    rw [hox] at a2
    simp only [GAxis.d, a2]
    have hn : (0 : ℚ) < ds.nx := by exact_mod_cast h.nx
    have e3 : ds.grid.ax.n = ds.nx := rfl
    rw [e3, abs_div, abs_mul, abs_of_pos hn, div_lt_iff₀ hn]
    have hw : |(o.winx : ℚ)| = o.winx := abs_of_pos (by exact_mod_cast a1)
    rw [hw, mul_comm]
    have hd : 0 < |ds.transform.dx| := abs_pos.2 h.dx
    have : (o.winx : ℚ) < ds.nx := by exact_mod_cast hlt
    exact mul_lt_mul_of_pos_left this hd

/-- C103 (violated). A copy of a raster has no coordinate reference system, and so neither has the file it is written to. -/
theorem copy_crs_violated (drivers : List Driver) (osr : Osr) (r : Ras) (path : List Char)
    (driver : Option (List Char)) (nan : Option ℚ) (fs : Files)
    (hw : (r.copy.write drivers osr path driver nan fs).1 = .ok ()) :
    r.copy.xlim = r.xlim ∧ r.copy.ylim = r.ylim ∧ r.copy.a = r.a ∧
    ∃ ds, (r.copy.write drivers osr path driver nan fs).2 path = some ds ∧ ds.projection = [] := by
  refine ⟨rfl, rfl, rfl, ?_⟩
  unfold Ras.write at hw ⊢
  obtain ⟨ds, h1, -, -, -, -, -, -, -, -, -, h11⟩ := write_effect drivers osr r.copy.a path _ fs hw
  exact ⟨ds, h1, h11 rfl⟩

/-! ### Examples -/

private def gtiff : Driver := ⟨"GTiff".toList, true, false, "tif tiff".toList, true, true⟩
private def png : Driver := ⟨"PNG".toList, true, false, "png".toList, false, true⟩
private def shp : Driver := ⟨"ESRI Shapefile".toList, false, true, "shp dbf".toList, true, false⟩
private def osr0 : Osr := ⟨fun _ => "GEOGCS".toList, id, id⟩
private def ras0 : Ras :=
  ⟨(10, 16), (8, 4), ⟨3, 2, [[[some 1, none, some 3], [some 4, some (-9999), some 6]]], true, true⟩, .epsg 4326⟩
private def fs0 : Files := fun _ => none

example : splitext "a/b.c/.x.tar.TIF".toList = ".TIF".toList := by decide
example : splitext "a/b.c/.x".toList = [] := by decide
example : chooseDriver [shp, png, gtiff] "a/b.c/x.TIFF".toList none = .ok gtiff := by decide +kernel
example : ras0.grid.Valid := by refine ⟨?_, ?_, ?_, ?_⟩ <;> decide +kernel
example : (ras0.write [shp, png, gtiff] osr0 "x.tif".toList none (some (-9999)) fs0).1 = .ok () := by decide +kernel
example : (openRaster (ras0.write [shp, png, gtiff] osr0 "x.tif".toList none (some (-9999)) fs0).2 "x.tif".toList 1
    none (some (13, 20)) none none) = .ok ⟨(12, 16), (8, 4), some "GEOGCS".toList, 1, some (-9999), 1, 0, 2, 2, 2, 2⟩ := by
  decide +kernel
example : (openRaster (ras0.write [shp, png, gtiff] osr0 "x.tif".toList none (some (-9999)) fs0).2 "x.tif".toList 1
    (some 3) none none none).map (fun o => (o.bufx, o.bufy)) = .ok (2, 2) := by decide +kernel
example : (gridRead (ras0.write [shp, png, gtiff] osr0 "x.tif".toList none none fs0).2 "x.tif".toList none
    (some (13, 20)) none) = .ok ⟨⟨12, 16, 3⟩, ⟨8, 4, 2⟩⟩ := by decide +kernel
example : ¬ (Crs.text "EPSG:4326".toList).Ok := by simp [Crs.Ok]

/-- Opening a file that does not exist raises AttributeError (gdal.Open returns None), whatever else is asked for. -/
theorem open_missing (fs : Files) (path : List Char) (h : fs path = none) (band : Nat) (d : Option ℚ) (xlim ylim : Option (ℚ × ℚ))
    (nan : Option ℚ) : openRaster fs path band d xlim ylim nan = .error .attributeError := by
  simp [openRaster, h]

end Glimpse.RasterIO
