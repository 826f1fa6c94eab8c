import Verif.Model.Exif

/-!
Model of `Exif.__init__` (exif.py:84-88), `Exif.dump` (exif.py:179-224) and `Exif.insert` (exif.py:226-249) together with the files they
read and write. Of piexif: an image file holds pixels and groups of tags under codes, and maybe a thumbnail; `piexif.insert` replaces all
of the tags; values of the type of their tag are read back as written. (The tags by which piexif points to groups are left out.)
-/
set_option autoImplicit false

namespace Glimpse.ExifFile

open Glimpse.Exif

/-- The tables of piexif: the code of a tag, and the name of a code, in a group. -/
structure Tables where
  codeOf : String → String → Option Nat
  nameOf : String → Nat → Option String

/-- Metadata as it is in a file: groups of values under codes, and the thumbnail. -/
structure Meta where
  groups : List (String × List (Nat × Val))
  thumb : Option (List Nat)
deriving DecidableEq

/-- An image file. -/
structure File (P : Type) where
  pixels : P
  info : Meta

/-- An `Exif`: the groups in `tags`, and the entry `tags['thumbnail']` (absent, `None` or bytes). -/
structure Obj where
  tags : Tags
  thumb : Option (Option (List Nat))
deriving DecidableEq

/-- Entries by name; piexif skips codes it does not know. -/
def byName (T : Tables) (g : String) (entries : List (Nat × Val)) : List (String × Val) :=
  entries.filterMap fun e => (T.nameOf g e.1).map fun t => (t, e.2)

/-- `piexif.load(path, key_is_name=True)` (exif.py:85): all groups, and the thumbnail. -/
def load (T : Tables) (m : Meta) : Obj :=
  { tags := groupNames.map fun g => (g, byName T g ((m.groups.lookup g).getD [])), thumb := some m.thumb }

/-- `Exif(path, thumbnail)` (exif.py:84-88): without thumbnail, it and the group about it are dropped. -/
def new (T : Tables) (m : Meta) (thumbnail : Bool) : Obj :=
  if thumbnail then load T m else { tags := (load T m).tags.filter fun g => decide (g.1 ≠ "1st"), thumb := none }

/-- An entry under its code (all keys of `Exif.dump`'s copy are codes when it is done). -/
def codeEntry (e : (String ⊕ Nat) × Val) : Option (Nat × Val) :=
  match e.1 with
  | .inl _ => none
  | .inr c => some (c, e.2)

/-- `piexif.dump` of the copy with codes (exif.py:224): the group about the thumbnail is written only with a thumbnail. -/
def encode (d : List (String × List ((String ⊕ Nat) × Val))) (thumb : Option (Option (List Nat))) : Meta :=
  let groups := d.map fun g => (g.1, g.2.filterMap codeEntry)
  match thumb with
  | some (some b) => if d.any fun g => decide (g.1 = "1st") then { groups := groups, thumb := some b } else { groups := groups, thumb := none }
  | _ => { groups := groups.filter fun g => decide (g.1 ≠ "1st"), thumb := none }

/-- `Exif.dump()` (exif.py:203-224). -/
def dumpAll (T : Tables) (o : Obj) : Except Err Meta := do
  let d ← dump T.codeOf o.tags
  return encode d o.thumb

/-- The files and the `Exif` objects of a program, by number. -/
structure State (P : Type) where
  files : Nat → File P
  objs : Nat → Option Obj

/-- What a program may do: read metadata, edit it, insert it in a file. -/
inductive Op where
  | read (obj path : Nat) (thumbnail : Bool)
  | edit (obj : Nat) (f : Obj → Obj)
  | insert (obj path : Nat)

/-- A file with other metadata. -/
def withInfo {P : Type} (f : File P) (m : Meta) : File P := { pixels := f.pixels, info := m }

/-- `piexif.insert(self.dump(), path)` (exif.py:249). -/
def insertMeta {P : Type} (T : Tables) (files : Nat → File P) (o : Obj) (path : Nat) : Except Err (Nat → File P) := do
  let m ← dumpAll T o
  return Function.update files path (withInfo (files path) m)

/-- One step; one that raises leaves everything as it is. -/
def step {P : Type} (T : Tables) (s : State P) : Op → State P
  | .read obj path th => { s with objs := Function.update s.objs obj (some (new T (s.files path).info th)) }
  | .edit obj f => { s with objs := Function.update s.objs obj ((s.objs obj).map f) }
  | .insert obj path =>
    match s.objs obj with
    | none => s
    | some o =>
      match insertMeta T s.files o path with
      | .error _ => s
      | .ok files => { s with files := files }

/-- A history. -/
def run {P : Type} (T : Tables) (s : State P) (ops : List Op) : State P := ops.foldl (step T) s

end Glimpse.ExifFile
