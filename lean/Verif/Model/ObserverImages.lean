import Verif.Model.ImageRead

/-!
Model of the images of an `Observer` (src/glimpse/track/observer.py): `extract_tile` (132-144), `shift_tile` (146-180) as
far as memory is concerned, `cache_images` (260-268) and `clear_images` (270-278), over the model of `Image.read`
(image.py:131-208), with the memory that arrays and tiles share. Images are photographs (`Image`), not rasters.

Facts used about numpy: `array[y0:y1, x0:x1]` is a view; `np.atleast_3d` of an array with two dimensions is a view, so
`shift_tile` writes to the memory of the tile it is given; fancy indexing raises before anything is read.
-/
set_option autoImplicit false

namespace Glimpse.ObserverImages

open Glimpse.ImageRead

variable {α : Type}

/-- An image (image.py:85-113): its file, its camera's image size, and the address of its cached array. -/
structure ImgRef (α : Type) where
  file : File α
  cam : Nat × Nat
  arr : Option Nat

/-- A tile: the address of the array it is a part of, and the part (all if none). -/
abbrev View := Nat × Option Box

/-- An observer (observer.py:50-71), the memory of all arrays, and the tiles extracted so far. -/
structure Obs (α : Type) where
  heap : List (List (List α))
  imgs : List (ImgRef α)
  cache : Bool
  tiles : List View

/-- The image with the content of its array. -/
def Obs.img (o : Obs α) (r : ImgRef α) : Img α := ⟨r.file, r.cam, r.arr.bind fun a => o.heap[a]?⟩

/-- The requested part of an array (`array[box[1] : box[3], box[0] : box[2]]`, image.py:205-207). -/
def window (a : List (List α)) : Option Box → List (List α)
  | none => a
  | some b => crop a b.x0 b.y0 b.x1 b.y1

/-- Content of a tile. -/
def Obs.content (o : Obs α) (v : View) : List (List α) := window (o.heap.getD v.1 []) v.2

/-- The array read from the file joins the memory; with `cache` it becomes the cached array (image.py:202-204). -/
def Obs.store (o : Obs α) (k : Nat) (r : ImgRef α) (a : List (List α)) (cache : Bool) : Obs α :=
  { o with heap := o.heap ++ [a], imgs := if cache then o.imgs.set k { r with arr := some o.heap.length } else o.imgs }

/-- The branch of `Image.read` that reads from the file (image.py:178-208) into new memory. -/
def Obs.fromFile (o : Obs α) (k : Nat) (r : ImgRef α) (box : Option Box) (cache : Bool) : Obs α × Except Err View :=
  match (o.img r).readFile box cache with
  | .error e => (o, .error e)
  | .ok a => (o.store k r a cache, .ok (o.heap.length, if cache then box else none))

/-- `Image.read` (image.py:131-208) of image number `k`, with memory: a cached array of the right size is used (175-177);
else the file is read. -/
def Obs.readImg (o : Obs α) (k : Nat) (r : ImgRef α) (box : Option Box) (cache : Bool) : Obs α × Except Err View :=
  match (o.img r).array, decide ((o.img r).cam = (o.img r).size) with
  | some _, true => (o, .ok (r.arr.getD 0, box))
  | _, _ => o.fromFile k r box cache

/-- A Python index into a list of `n`. -/
def pyIndex (n : Nat) (i : ℤ) : Except Err Nat :=
  if 0 ≤ i ∧ i < n then .ok i.toNat else if -(n : ℤ) ≤ i ∧ i < 0 then .ok (i + n).toNat else .error .indexError

/-- The tile joins those extracted. -/
def addTile (p : Obs α × Except Err View) : Obs α × Except Err View :=
  match p.2 with
  | .ok v => ({ p.1 with tiles := p.1.tiles ++ [v] }, .ok v)
  | .error e => (p.1, .error e)

/-- `Observer.extract_tile(box, img)` (observer.py:132-144) for image number `k`. -/
def Obs.extractAt (o : Obs α) (k : Nat) (box : Box) : Obs α × Except Err View :=
  match o.imgs[k]? with
  | none => (o, .error .indexError)
  | some r => addTile (o.readImg k r (some box) o.cache)

/-- `Observer.extract_tile(box, img)` (observer.py:132-144). -/
def Obs.extract (o : Obs α) (img : ℤ) (box : Box) : Obs α × Except Err View :=
  match pyIndex o.imgs.length img with
  | .error e => (o, .error e)
  | .ok k => o.extractAt k box

/-- `img.read(cache=True)` (observer.py:268) for image number `k`. -/
def Obs.cacheOne (o : Obs α) (k : Nat) : Obs α × Except Err View :=
  match o.imgs[k]? with
  | none => (o, .error .indexError)
  | some r => o.readImg k r none true

/-- The loop of `cache_images` (observer.py:267-268) over image numbers. -/
def Obs.cacheLoop (o : Obs α) : List Nat → Obs α × Option Err
  | [] => (o, none)
  | k :: ks =>
    match (o.cacheOne k).2 with
    | .ok _ => (o.cacheOne k).1.cacheLoop ks
    | .error e => ((o.cacheOne k).1, some e)

/-- `Observer.cache_images(index)` (observer.py:260-268) for a list of indices (a slice is one). -/
def Obs.cacheImages (o : Obs α) (index : List ℤ) : Obs α × Option Err :=
  match index.mapM (pyIndex o.imgs.length) with
  | .error e => (o, some e)
  | .ok ks => o.cacheLoop ks

/-- `img.array = None` (observer.py:278) for image number `k`. -/
def Obs.clearOne (o : Obs α) (k : Nat) : Obs α :=
  { o with imgs := o.imgs.modify k fun r => { r with arr := none } }

/-- `Observer.clear_images(index)` (observer.py:270-278). -/
def Obs.clearImages (o : Obs α) (index : List ℤ) : Obs α × Option Err :=
  match index.mapM (pyIndex o.imgs.length) with
  | .error e => (o, some e)
  | .ok ks => (ks.foldl Obs.clearOne o, none)

/-- Replacement of a part of an array. -/
def paste (a : List (List α)) (b : Box) (v : List (List α)) : List (List α) :=
  a.mapIdx fun y row => if b.y0 ≤ y ∧ y < b.y1 then
    row.mapIdx fun x p => if b.x0 ≤ x ∧ x < b.x1 then (v.getD (y - b.y0) []).getD (x - b.x0) p else p else row

/-- Replacement of the requested part of an array. -/
def pasteWindow (a : List (List α)) (v : List (List α)) : Option Box → List (List α)
  | none => v
  | some b => paste a b v

/-- `Observer.shift_tile(tile, duv)` (observer.py:168-180) as far as memory is concerned, for a tile extracted before:
`f` computes the shifted values, which replace those of the tile (176). The result is the same memory. -/
def Obs.shiftTile (o : Obs α) (t : Nat) (f : List (List α) → List (List α)) : Obs α :=
  match o.tiles[t]? with
  | none => o
  | some v => { o with heap := o.heap.modify v.1 fun a => pasteWindow a (f (window a v.2)) v.2 }

/-- What can be done with an observer. -/
inductive Op (α : Type) where
  | extract (img : ℤ) (box : Box)
  | shift (tile : Nat) (f : List (List α) → List (List α))
  | cacheImages (index : List ℤ)
  | clearImages (index : List ℤ)
  /-- the camera of an image is resized -/
  | resize (img : Nat) (nx ny : Nat)

/-- One operation. -/
def Obs.step (o : Obs α) : Op α → Obs α
  | .extract img box => (o.extract img box).1
  | .shift t f => o.shiftTile t f
  | .cacheImages index => (o.cacheImages index).1
  | .clearImages index => (o.clearImages index).1
  | .resize k nx ny => { o with imgs := o.imgs.modify k fun r => { r with cam := (nx, ny) } }

/-- A history of operations. -/
def Obs.run (o : Obs α) (ops : List (Op α)) : Obs α := ops.foldl Obs.step o

/-- An observer of images that have not been read. -/
def Obs.new (files : List (File α × (Nat × Nat))) (cache : Bool) : Obs α :=
  ⟨[], files.map fun p => ⟨p.1, p.2, none⟩, cache, []⟩

end Glimpse.ObserverImages
