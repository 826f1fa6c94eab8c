import Verif.Model.ImageRead

/-!
Model of `Image.write` (src/glimpse/image.py:210-222) in a world of files and images: any number of images, each with the path of its
file, the image size of its camera and maybe cached pixels, and files that are written and read.

What a file holds is the array that was written to it (`helpers.write_raster`, Model/RasterIO.lean; simplification: formats without
loss, and arrays that GDAL has a type for). GDAL is a parameter: it presents the content of a file as in Model/ImageRead.lean.
-/
set_option autoImplicit false

namespace Glimpse.ImageWrite

open Glimpse.ImageRead

variable {α : Type}

/-- An array of pixels. -/
abbrev Pix (α : Type) := List (List α)

/-- An `Image`: path, camera image size, cached pixels (image.py:85-113). -/
structure Im (α : Type) where
  path : Nat
  cam : Nat × Nat
  array : Option (Pix α)

/-- Files by path, images by identity. -/
structure World (α : Type) where
  files : Nat → Option (Pix α)
  imgs : Nat → Im α

/-- The same world with one image changed. -/
def World.setImg (w : World α) (k : Nat) (i : Im α) : World α := ⟨w.files, fun j => if j = k then i else w.imgs j⟩

/-- The same world with one file changed. -/
def World.setFile (w : World α) (p : Nat) (a : Pix α) : World α := ⟨fun q => if q = p then some a else w.files q, w.imgs⟩

/-- `Image.read(box, cache)` (image.py:131-208) of image `k`. Without a file, `osgeo.gdal.Open` returns None and its size raises
(120-122) unless cached pixels are used. -/
def World.read (gdal : Pix α → File α) (w : World α) (k : Nat) (box : Option Box) (cache : Bool) : Except Err (Pix α) × World α :=
  let i := w.imgs k
  match w.files i.path with
  | some c =>
    let r := (⟨gdal c, i.cam, i.array⟩ : Img α).read box cache
    (r.1, w.setImg k ⟨i.path, i.cam, r.2.array⟩)
  | none =>
    match i.array with
    | some a => if i.cam = ImageRead.sizeOf a then (.ok (match box with | none => a | some b => crop a b.x0 b.y0 b.x1 b.y1), w)
        else (.error .attributeError, w)
    | none => (.error .attributeError, w)

/-- `Image.write(path, array, driver)` (image.py:210-222): the array given, or what `read()` returns, which is cached. `driver` is false
if `write_raster` raises because it has no driver (helpers.py:582-595). -/
def World.write (gdal : Pix α → File α) (w : World α) (k : Nat) (path : Nat) (array : Option (Pix α)) (driver : Bool) :
    Except Err Unit × World α :=
  match array with
  | some a => if driver then (.ok (), w.setFile path a) else (.error .valueError, w)
  | none =>
    match w.read gdal k none true with
    | (.error e, w') => (.error e, w')
    | (.ok a, w') => if driver then (.ok (), w'.setFile path a) else (.error .valueError, w')

/-- What can happen. -/
inductive Act (α : Type) where
  | read (k : Nat) (box : Option Box) (cache : Bool)
  | write (k : Nat) (path : Nat) (array : Option (Pix α)) (driver : Bool)
  | resize (k : Nat) (nx ny : Nat)
  | clear (k : Nat)

/-- One action. -/
def World.step (gdal : Pix α → File α) (w : World α) : Act α → World α
  | .read k b c => (w.read gdal k b c).2
  | .write k p a d => (w.write gdal k p a d).2
  | .resize k nx ny => w.setImg k ⟨(w.imgs k).path, (nx, ny), (w.imgs k).array⟩
  | .clear k => w.setImg k ⟨(w.imgs k).path, (w.imgs k).cam, none⟩

/-- A history. -/
def World.run (gdal : Pix α → File α) (w : World α) (acts : List (Act α)) : World α := acts.foldl (World.step gdal) w

end Glimpse.ImageWrite
