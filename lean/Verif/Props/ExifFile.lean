import Verif.Model.ExifFile
import Verif.Props.Exif

/-!
`Exif.insert` and `Exif.dump` with files: C122.
-/
set_option autoImplicit false
set_option linter.unusedSimpArgs false
set_option linter.unusedSectionVars false

namespace Glimpse.ExifFile

open Glimpse.Exif

/-! ### Specification -/

/-- The value of a tag in an `Exif`. -/
def value (o : Obj) (group tag : String) : Option Val := (o.tags.lookup group).bind fun g => g.lookup tag

/-- The tables of piexif agree: within a group, a name is the name of its code. -/
def Agree (T : Tables) : Prop := ∀ (g t : String) (c : Nat), T.codeOf g t = some c ↔ T.nameOf g c = some t

/-- Dictionaries: no group and no tag twice. -/
def Dict (o : Obj) : Prop := (o.tags.map (·.1)).Nodup ∧ ∀ g ∈ o.tags, (g.2.map (·.1)).Nodup

/-- All groups and tags are known to piexif. -/
def Known (T : Tables) (o : Obj) : Prop :=
  ∀ g ∈ o.tags, (g.1 = "0th" ∨ g.1 = "1st" ∨ g.1 = "Exif" ∨ g.1 = "GPS" ∨ g.1 = "Interop") ∧ ∀ e ∈ g.2, T.codeOf g.1 e.1 ≠ none

/-- There is a thumbnail, and the group about it. -/
def HasThumbnail (o : Obj) (b : List Nat) : Prop := o.thumb = some (some b) ∧ "1st" ∈ o.tags.map (·.1)

/-! ### Lemmas -/

private theorem agree_inj (T : Tables) (h : Agree T) (g s t : String) (c : Nat) (hs : T.codeOf g s = some c) (ht : T.codeOf g t = some c) :
    s = t := Option.some.inj (((h g s c).mp hs).symm.trans ((h g t c).mp ht))

private theorem byName_entries (T : Tables) (h : Agree T) (g : String) (entries : List (String × Val)) (out : List ((String ⊕ Nat) × Val))
    (hf : List.Forall₂ (fun (e : String × Val) (w : (String ⊕ Nat) × Val) => ∃ c, T.codeOf g e.1 = some c ∧ w = (Sum.inr c, e.2)) entries out) :
    byName T g (out.filterMap codeEntry) = entries := by
  induction hf with
  | nil => rfl
  | cons hd _ ih =>
    obtain ⟨c, hc, rfl⟩ := hd
    simp only [byName, List.filterMap_cons, codeEntry] at ih ⊢
    rw [(h g _ c).mp hc]
    simp [ih]

/-- The groups as they are written. -/
private theorem lookup_dumped (T : Tables) (h : Agree T) (tags : Tags) (d : List (String × List ((String ⊕ Nat) × Val))) (name : String)
    (hf : List.Forall₂ (fun (g : String × List (String × Val)) o => o.1 = g.1 ∧
      List.Forall₂ (fun (e : String × Val) (w : (String ⊕ Nat) × Val) => ∃ c, T.codeOf g.1 e.1 = some c ∧ w = (Sum.inr c, e.2)) g.2 o.2) tags d) :
    byName T name (((d.map fun g => (g.1, g.2.filterMap codeEntry)).lookup name).getD []) = (tags.lookup name).getD [] := by
  induction hf with
  | nil => rfl
  | @cons g o tags d hd _ ih =>
    obtain ⟨h1, h2⟩ := hd
    obtain ⟨gn, ge⟩ := g
    obtain ⟨on, oe⟩ := o
    simp only at h1 h2
    subst h1
    simp only [List.map_cons, List.lookup_cons]
    by_cases e : name = on
    · subst e
      simp only [beq_self_eq_true, Option.getD_some]
      exact byName_entries T h name ge oe h2
    · have : (name == on) = false := by simpa using e
      simp only [this]
      exact ih

private theorem lookup_filter {α : Type} (l : List (String × α)) (drop name : String) (h : name ≠ drop) :
    (l.filter fun g => decide (g.1 ≠ drop)).lookup name = l.lookup name := by
  induction l with
  | nil => rfl
  | cons g l ih =>
    rw [List.filter_cons, List.lookup_cons]
    by_cases e : g.1 = drop
    · have : (name == g.1) = false := by rw [e]; simpa using h
      simp only [e, ne_eq, not_true_eq_false, decide_false, Bool.false_eq_true, if_false, this, ih]
      rw [e] at this; simp [this]
    · rw [if_pos (by simpa using e), List.lookup_cons, ih]

private theorem lookup_filter_self {α : Type} (l : List (String × α)) (name : String) :
    (l.filter fun g => decide (g.1 ≠ name)).lookup name = none := by
  induction l with
  | nil => rfl
  | cons g l ih =>
    rw [List.filter_cons]
    by_cases e : g.1 = name
    · simp [e]; simpa using ih
    · have : (name == g.1) = false := by simpa using fun h => e h.symm
      rw [if_pos (by simpa using e), List.lookup_cons, this]; exact ih

private theorem dumped_names (codeOf : String → String → Option Nat) (tags : Tags) (d : List (String × List ((String ⊕ Nat) × Val)))
    (h : dump codeOf tags = .ok d) (hn : ∀ g ∈ tags, (g.2.map (·.1)).Nodup)
    (hinj : ∀ g s t c, codeOf g s = some c → codeOf g t = some c → s = t) : d.map (·.1) = tags.map (·.1) := by
  have key : ∀ (tags : Tags) (d : List (String × List ((String ⊕ Nat) × Val))),
      List.Forall₂ (fun (g : String × List (String × Val)) (o : String × List ((String ⊕ Nat) × Val)) => o.1 = g.1) tags d →
      d.map (·.1) = tags.map (·.1) := by
    intro tags d hf
    induction hf with
    | nil => rfl
    | cons a _ ih => simp [a, ih]
  exact key tags d ((dump_exact codeOf tags d h hn hinj).imp fun _ _ h => h.1)

private theorem load_lookup (T : Tables) (m : Meta) (name : String) (h : name ∈ groupNames) :
    (load T m).tags.lookup name = some (byName T name ((m.groups.lookup name).getD [])) := by
  have key : ∀ l : List String, name ∈ l →
      (l.map fun g => (g, byName T g ((m.groups.lookup g).getD []))).lookup name = some (byName T name ((m.groups.lookup name).getD [])) := by
    intro l
    induction l with
    | nil => intro h; cases h
    | cons a l ih =>
      intro h
      rw [List.map_cons, List.lookup_cons]
      by_cases e : name = a
      · subst e; simp
      · have : (name == a) = false := by simpa using e
        simp only [this]
        exact ih (by rcases List.mem_cons.mp h with h | h; exact absurd h e; exact h)
  exact key _ h

/-! ### Results -/

/-- C122: inserting succeeds exactly if all groups and tags are known. -/
theorem insert_returns {P : Type} (T : Tables) (files : Nat → File P) (o : Obj) (path : Nat) :
    Returns (insertMeta T files o path) ↔ Known T o := by
  have := dump_ok_iff T.codeOf o.tags
  unfold Known
  rw [← this]
  unfold insertMeta dumpAll
  cases h : dump T.codeOf o.tags with
  | error e => simp [Returns, bind, Except.bind]
  | ok d => simp [Returns, bind, Except.bind, pure, Except.pure]

/-- C122: what was inserted is read back: every tag of the four groups has the value it has in the object, and no other tag has one; the
pixels and all other files are as before. With a thumbnail, that and the group about it are read back too. -/
theorem insert_read {P : Type} (T : Tables) (hT : Agree T) (files out : Nat → File P) (o : Obj) (path : Nat) (hd : Dict o)
    (h : insertMeta T files o path = .ok out) :
    (∀ p : Nat, (out p).pixels = (files p).pixels) ∧ (∀ p : Nat, p ≠ path → out p = files p) ∧
      (∀ (th : Bool) (g t : String), g ≠ "1st" → value (new T (out path).info th) g t = value o g t) ∧
      (∀ b : List Nat, HasThumbnail o b → (new T (out path).info true).thumb = some (some b) ∧
        ∀ t : String, value (new T (out path).info true) "1st" t = value o "1st" t) := by
  unfold insertMeta dumpAll at h
  cases hdump : dump T.codeOf o.tags with
  | error e => rw [hdump] at h; cases h
  | ok d =>
    rw [hdump] at h
    simp only [bind, Except.bind, pure, Except.pure] at h
    have hout := (Except.ok.inj h).symm
    have hex := dump_exact T.codeOf o.tags d hdump hd.2 (agree_inj T hT)
    have hnames := dumped_names T.codeOf o.tags d hdump hd.2 (agree_inj T hT)
    have hpath : (out path).info = encode d o.thumb := by rw [hout]; simp [withInfo]
    have hok := (dump_ok_iff T.codeOf o.tags).mp ⟨d, hdump⟩
    have hnone : ∀ g : String, g ∉ groupNames → o.tags.lookup g = none := by
      intro g hg
      rw [List.lookup_eq_none_iff]
      intro p hp
      simp only [bne_iff_ne, ne_eq, beq_eq_false_iff_ne]
      intro e
      apply hg
      have := (hok p hp).1
      rw [← e] at this
      simpa [groupNames] using this
    have hgroups : ∀ g : String, g ≠ "1st" → byName T g (((encode d o.thumb).groups.lookup g).getD []) = (o.tags.lookup g).getD [] := by
      intro g hg
      rw [← lookup_dumped T hT o.tags d g hex]
      congr 1
      unfold encode
      split
      · split <;> rfl
      · simp only [lookup_filter _ _ _ hg]
    refine ⟨?_, ?_, ?_, ?_⟩
    · intro p
      rw [hout]
      by_cases e : p = path
      · subst e; simp [withInfo]
      · simp [Function.update_of_ne e]
    · intro p e; rw [hout]; simp [Function.update_of_ne e]
    · intro th g t hg
      have hl : value (load T (encode d o.thumb)) g t = value o g t := by
        unfold value
        by_cases hin : g ∈ groupNames
        · rw [load_lookup T _ g hin, hgroups g hg]
          cases ho : o.tags.lookup g with
          | none => simp
          | some e => simp
        · rw [hnone g hin]
          have : (load T (encode d o.thumb)).tags.lookup g = none := by
            rw [List.lookup_eq_none_iff]
            intro p hp
            simp only [load, List.mem_map] at hp
            obtain ⟨a, ha, rfl⟩ := hp
            simp only [bne_iff_ne, ne_eq, beq_eq_false_iff_ne]
            intro e; exact hin (e ▸ ha)
          rw [this]
      rw [hpath]
      unfold new
      cases th with
      | true => simpa using hl
      | false =>
        simp only [Bool.false_eq_true, if_false]
        unfold value at hl ⊢
        simp only
        rw [lookup_filter _ _ _ hg]
        exact hl
    · rintro b ⟨hb1, hb2⟩
      have hany : d.any (fun g => decide (g.1 = "1st")) = true := by
        rw [List.any_eq_true]
        rw [← hnames, List.mem_map] at hb2
        obtain ⟨g, hg, e⟩ := hb2
        exact ⟨g, hg, by simpa using e⟩
      have henc : encode d o.thumb = { groups := d.map fun g => (g.1, g.2.filterMap codeEntry), thumb := some b } := by
        rw [hb1]; unfold encode; simp only [hany, if_true]
      rw [hpath, henc]
      refine ⟨by simp [new, load], ?_⟩
      intro t
      unfold value
      simp only [new, if_true]
      rw [load_lookup T _ "1st" (by simp [groupNames])]
      simp only
      rw [lookup_dumped T hT o.tags d "1st" hex]
      cases ho : o.tags.lookup "1st" with
      | none => simp
      | some e => simp

/-- C122: over any history of reading, editing and inserting, no file's pixels change, and a file that no insertion was made to is as
it was. -/
theorem history_files {P : Type} (T : Tables) (s : State P) (ops : List Op) :
    (∀ p : Nat, ((run T s ops).files p).pixels = (s.files p).pixels) ∧
      ∀ p : Nat, (∀ o : Nat, Op.insert o p ∉ ops) → (run T s ops).files p = s.files p := by
  induction ops generalizing s with
  | nil => exact ⟨fun _ => rfl, fun _ _ => rfl⟩
  | cons op ops ih =>
    obtain ⟨h1, h2⟩ := ih (step T s op)
    have hs : (∀ p : Nat, ((step T s op).files p).pixels = (s.files p).pixels) ∧
        ∀ p : Nat, (∀ o : Nat, op ≠ Op.insert o p) → (step T s op).files p = s.files p := by
      cases op with
      | read => exact ⟨fun _ => rfl, fun _ _ => rfl⟩
      | edit => exact ⟨fun _ => rfl, fun _ _ => rfl⟩
      | insert obj path =>
        simp only [step]
        cases s.objs obj with
        | none => exact ⟨fun _ => rfl, fun _ _ => rfl⟩
        | some o =>
          simp only
          cases h : insertMeta T s.files o path with
          | error e => exact ⟨fun _ => rfl, fun _ _ => rfl⟩
          | ok files =>
            unfold insertMeta at h
            cases hm : dumpAll T o with
            | error e => rw [hm] at h; cases h
            | ok m =>
              rw [hm] at h
              simp only [bind, Except.bind, pure, Except.pure] at h
              have := (Except.ok.inj h).symm
              subst this
              constructor
              · intro p
                by_cases e : p = path
                · subst e; simp [withInfo]
                · simp [Function.update_of_ne e]
              · intro p hp
                have : p ≠ path := fun e => hp obj (by rw [e])
                simp [Function.update_of_ne this]
    refine ⟨fun p => (h1 p).trans (hs.1 p), ?_⟩
    intro p hp
    rw [show run T s (op :: ops) = run T (step T s op) ops from rfl, h2 p fun o ho => hp o (List.mem_cons_of_mem _ ho),
      hs.2 p fun o e => hp o (by rw [e]; exact List.mem_cons_self)]

/-- C122: after any history, then an insertion that succeeds, then any history without insertion in that file, reading the file gives the
tags the object had when it was inserted, whatever happened to the object since. -/
theorem history_insert {P : Type} (T : Tables) (hT : Agree T) (s : State P) (before after : List Op) (obj path : Nat) (o : Obj)
    (ho : (run T s before).objs obj = some o) (hk : Known T o) (hd : Dict o) (hafter : ∀ k : Nat, Op.insert k path ∉ after)
    (th : Bool) (g t : String) (hg : g ≠ "1st") :
    value (new T ((run T s (before ++ Op.insert obj path :: after)).files path).info th) g t = value o g t := by
  have e : run T s (before ++ Op.insert obj path :: after) = run T (step T (run T s before) (.insert obj path)) after := by
    simp [run, List.foldl_append]
  rw [e, (history_files T _ after).2 path hafter]
  obtain ⟨out, hout⟩ := (insert_returns T (run T s before).files o path).mpr hk
  have : (step T (run T s before) (.insert obj path)).files = out := by simp [step, ho, hout]
  rw [this]
  exact (insert_read T hT _ out o path hd hout).2.2.1 th g t hg

/-- C122: inserting (or failing to) changes no object. -/
theorem insert_objects {P : Type} (T : Tables) (s : State P) (obj path : Nat) : (step T s (.insert obj path)).objs = s.objs := by
  simp only [step]
  cases s.objs obj with
  | none => rfl
  | some o =>
    simp only
    cases insertMeta T s.files o path <;> rfl

/-- C122 is false of the thumbnail: reading the metadata of a file (as by default) and inserting it in the same file, unchanged, removes
the thumbnail and everything in the group about it. -/
theorem insert_thumbnail_violated {P : Type} (T : Tables) (s : State P) (obj path : Nat) :
    ∀ t : String, (((run T s [.read obj path false, .insert obj path]).files path).info.thumb = none ∨
        (run T s [.read obj path false, .insert obj path]).files path = s.files path) ∧
      (Known T (new T (s.files path).info false) →
        ((run T s [.read obj path false, .insert obj path]).files path).info.thumb = none ∧
        value (new T ((run T s [.read obj path false, .insert obj path]).files path).info true) "1st" t = none) := by
  intro t
  have hth : (new T (s.files path).info false).thumb = none := by simp [new]
  simp only [run, List.foldl_cons, List.foldl_nil]
  have hobj : (step T s (.read obj path false)).objs obj = some (new T (s.files path).info false) := by simp [step]
  have hfiles : (step T s (.read obj path false)).files = s.files := rfl
  constructor
  · simp only [step, Function.update_self]
    cases h : insertMeta T s.files (new T (s.files path).info false) path with
    | error e => right; rfl
    | ok files =>
      left
      unfold insertMeta dumpAll at h
      cases hdmp : dump T.codeOf (new T (s.files path).info false).tags with
      | error e => rw [hdmp] at h; cases h
      | ok d =>
        rw [hdmp, hth] at h
        simp only [bind, Except.bind, pure, Except.pure] at h
        have := (Except.ok.inj h).symm
        subst this
        simp [withInfo, encode]
  · intro hk
    obtain ⟨out, hout⟩ := (insert_returns T s.files _ path).mpr hk
    have hf : (step T (step T s (.read obj path false)) (.insert obj path)).files = out := by
      simp only [step, Function.update_self, hout]
    rw [hf]
    unfold insertMeta dumpAll at hout
    cases hdmp : dump T.codeOf (new T (s.files path).info false).tags with
    | error e => rw [hdmp] at hout; cases hout
    | ok d =>
      rw [hdmp, hth] at hout
      simp only [bind, Except.bind, pure, Except.pure] at hout
      have := (Except.ok.inj hout).symm
      subst this
      have e : ∀ th : Bool, (Function.update s.files path (withInfo (s.files path) (encode d none)) path).info = encode d none := by
        intro _; simp [withInfo]
      rw [e true]
      refine ⟨rfl, ?_⟩
      unfold value
      simp only [new, if_true]
      rw [load_lookup T _ "1st" (by simp [groupNames])]
      simp only [encode, lookup_filter_self]
      rfl

/-! ### A case -/

private def T0 : Tables where
  codeOf g t := if g = "Exif" ∧ t = "FNumber" then some 33437 else if g = "1st" ∧ t = "Make" then some 271 else none
  nameOf g c := if g = "Exif" ∧ c = 33437 then some "FNumber" else if g = "1st" ∧ c = 271 then some "Make" else none

private theorem T0_agree : Agree T0 := by
  intro g t c
  simp only [T0]
  by_cases h1 : g = "Exif"
  · subst h1
    by_cases h2 : t = "FNumber" <;> by_cases h3 : c = 33437 <;> simp [h2, h3] <;> tauto
  · by_cases h4 : g = "1st"
    · subst h4
      by_cases h2 : t = "Make" <;> by_cases h3 : c = 271 <;> simp [h2, h3] <;> tauto
    · simp [h1, h4]

private def o0 : Obj := { tags := [("Exif", [("FNumber", .ints [8, 1])]), ("1st", [("Make", .int 3)])], thumb := some (some [1, 2]) }

example : Agree T0 ∧ Known T0 o0 ∧ Dict o0 ∧ HasThumbnail o0 [1, 2] := by
  refine ⟨T0_agree, ?_, ?_, ?_⟩
  · intro g hg
    simp [o0] at hg
    rcases hg with rfl | rfl <;> simp [T0]
  · simp [Dict, o0]
  · simp [HasThumbnail, o0]

end Glimpse.ExifFile
