import Verif.Model.Basic
import Mathlib.Data.List.Sort
import Mathlib.Data.List.Dedup
import Mathlib.Algebra.Order.Ring.Int

/-!
Model of `optimize.KeypointMatcher` (src/glimpse/optimize.py:2297-2752): which image pairs are matched, the matrix of
matches, dropping of images, and the building of keypoints with files.
-/
set_option autoImplicit false

namespace Glimpse.Kp

/-! ### Pairs of images -/

/-- `np.unique` of indices. -/
def uniq (l : List Nat) : List Nat := l.dedup.insertionSort (· ≤ ·)

/-- `np.searchsorted(datetimes, t, side="right")`. -/
def searchRightZ (ts : List ℤ) (t : ℤ) : Nat := (ts.takeWhile fun x => decide (x ≤ t)).length

/-- Selection by time (optimize.py:2494-2502), for image `i` of `ts.length`, which are given by their times. -/
def matchTimes (ts : List ℤ) (maxdt : Option ℤ) (seq : Option (List ℤ)) (i : Nat) : List Nat :=
  match maxdt, seq with
  | none, none => (List.range ts.length).drop (i + 1)
  | some dt, _ => (List.range (searchRightZ ts (ts.getD i 0 + dt))).drop (i + 1)
  | none, some _ => []

/-- `seq[seq > 0]`, `np.unique`, `seq + i`, those below `n` (2504-2509). The list is sorted, so that the slice up to
`np.searchsorted(iseq, n)` holds the elements below `n`. -/
def seqOf (n : Nat) (seq : List ℤ) (i : Nat) : List Nat :=
  ((uniq ((seq.filter fun k => decide (0 < k)).map Int.toNat)).map fun k => k + i).takeWhile fun k => decide (k < n)

/-- Images matched to image `i` before the selection by `imgs` (2494-2510). -/
def matchBefore (ts : List ℤ) (maxdt : Option ℤ) (seq : Option (List ℤ)) (i : Nat) : List Nat :=
  match seq with
  | none => matchTimes ts maxdt seq i
  | some s => uniq (matchTimes ts maxdt seq i ++ seqOf ts.length s i)

/-- `matching_images[i]` (2494-2514). -/
def matching (ts : List ℤ) (maxdt : Option ℤ) (seq : Option (List ℤ)) (imgs : Option (List Nat)) (i : Nat) : List Nat :=
  match imgs with
  | none => matchBefore ts maxdt seq i
  | some l => (matchBefore ts maxdt seq i).filter fun j => decide (j ∈ l)

/-- A sparse matrix in coordinate form. -/
structure Coo (M : Type) where
  data : List M
  row : List Nat
  col : List Nat

/-- Results of the processes put together (2576-2596), `ms i` being the list returned for image `i`. -/
def buildCoo {M : Type} (n : Nat) (js : Nat → List Nat) (ms : Nat → List M) : Coo M where
  data := (List.range n).flatMap ms
  row := (List.range n).flatMap fun i => List.replicate (js i).length i
  col := (List.range n).flatMap js

/-- The shape that `scipy.sparse.coo_matrix` infers from row and column indices (2594): one more than the greatest;
ValueError if there are none. -/
def inferShape (row col : List Nat) : Except Err (Nat × Nat) :=
  match row.max?, col.max? with
  | some r, some c => .ok (r + 1, c + 1)
  | _, _ => .error .valueError

/-! ### Match files -/

/-- `basenames[i] + "-" + basenames[j] + ".pkl"` (2543-2545). -/
def matchFile (a b : List Char) : List Char := a ++ ['-'] ++ b ++ ['.', 'p', 'k', 'l']

/-- What `build_matches` does for one pair with a path (2542-2569): the match, the file afterwards, and whether the
keypoints were matched. -/
def processPair {M : Type} (computed : M) (file : Option M) (overwrite : Bool) : M × Option M × Bool :=
  match file, overwrite with
  | some m, false => (m, some m, false)
  | _, _ => (computed, some computed, true)

/-- The pairs one after another: matches, and files by name afterwards. -/
def processPairs {M : Type} (name : Nat × Nat → List Char) (compute : Nat × Nat → M) (overwrite : Bool) :
    List (Nat × Nat) → (List Char → Option M) → List M × (List Char → Option M)
  | [], fs => ([], fs)
  | p :: ps, fs =>
    let r := processPair (compute p) (fs (name p)) overwrite
    let rest := processPairs name compute overwrite ps fun nm => if nm = name p then r.2.1 else fs nm
    (r.1 :: rest.1, rest.2)

/-! ### Counting and dropping images -/

variable {M Img : Type}

/-- Matches as (row, column, match), images, keypoints. -/
structure Matcher (M Img K : Type) where
  images : List Img
  keypoints : Option (List (Option K))
  matches_ : List (Nat × Nat × M)

/-- `_images_mask` (2688-2692), negated: matches that involve none of the images. -/
def without (imgs : List Nat) (ms : List (Nat × Nat × M)) : List (Nat × Nat × M) :=
  ms.filter fun m => decide (m.1 ∉ imgs) && decide (m.2.1 ∉ imgs)

/-- `keep` (2722): `np.union1d` of rows and columns. -/
def keepOf (ms : List (Nat × Nat × M)) : List Nat := uniq ((ms.map fun m => m.1) ++ ms.map fun m => m.2.1)

/-- `np.unique(np.concatenate((index, keep)), return_inverse=True)[1][: -len(keep)]` (2725-2732): positions in the sorted
distinct values. With `keep` empty, the slice `[: -0]` is empty. -/
def renumber (index keep : List Nat) : List Nat :=
  let u := uniq (index ++ keep)
  let inv := (index ++ keep).map fun x => u.idxOf x
  if keep.length = 0 then [] else inv.take (inv.length - keep.length)

/-- `np.delete(images, drop)` with `drop = setdiff1d(arange(n), keep)` (2721-2723, 2737). -/
def deleteImages (images : List Img) (keep : List Nat) : List Img :=
  ((images.zipIdx).filter fun x => decide (x.2 ∈ keep)).map fun x => x.1

/-- `drop_images` (2714-2737). The rows and columns are replaced one after another. -/
def dropImages {K : Type} (s : Matcher M Img K) (imgs : List Nat) : Matcher M Img K :=
  let ms := without imgs s.matches_
  let keep := keepOf ms
  let rows := renumber (ms.map fun m => m.1) keep
  let cols := renumber (ms.map fun m => m.2.1) keep
  { s with
    images := deleteImages s.images keep
    matches_ := rows.zip (cols.zip (ms.map fun m => m.2.2)) }

/-- `matches_per_image()[i]` (2699-2706), `size` being the number of points of a match. -/
def matchesPerImage (size : M → Nat) (ms : List (Nat × Nat × M)) (i : Nat) : Nat :=
  ((ms.filter fun m => decide (m.1 = i) || decide (m.2.1 = i)).map fun m => size m.2.2).sum

/-- `images_per_image()[i]` (2708-2712). -/
def imagesPerImage (size : M → Nat) (ms : List (Nat × Nat × M)) (i : Nat) : Nat :=
  ((ms.filter fun m => decide (m.1 = i) || decide (m.2.1 = i)).map fun m => if 0 < size m.2.2 then 1 else 0).sum

/-- `match_breaks(min_matches)` (2739-2752). With a `min_matches` other than zero, `counts < min_matches` compares an
array with one element for each distinct row with one of `len(images)` elements, which numpy can broadcast only if one of
the lengths is 1 or they are equal. -/
def matchBreaks (n : Nat) (rows : List Nat) (minMatches : Nat) : Except Err (List Nat) :=
  let starts := uniq rows
  let breaks := (List.range (n - 1)).filter fun i => decide (i ∉ starts)
  if minMatches = 0 then .ok breaks
  else
    let counts := starts.map fun i => rows.count i
    let mins := (List.range n).map fun k => min minMatches (n - k)
    if counts.length = mins.length ∨ counts.length = 1 ∨ mins.length = 1 then
      let m := max counts.length mins.length
      let m := if counts.length = 0 ∨ mins.length = 0 then 0 else m
      let low := (List.range m).filter fun k =>
        decide ((if counts.length = 1 then counts.getD 0 0 else counts.getD k 0) <
          (if mins.length = 1 then mins.getD 0 0 else mins.getD k 0))
      .ok ((breaks ++ low).insertionSort (· ≤ ·))
    else .error .valueError

/-! ### Keypoint files -/

/-- A keypoint file: absent, partly written (`pickle.dump` into an opened file, helpers.write_pickle), or complete. -/
inductive FileSt (K : Type) where
  | absent
  | part
  | full (k : K)
deriving DecidableEq

/-- Arguments of `build_keypoints` (2352-2361). -/
structure KpFlags where
  path : Bool
  overwrite : Bool
  clear : Bool

/-- One image: successive states of its file, what `process` returns, and whether keypoints were detected. -/
structure Proc (K : Type) where
  writes : List (FileSt K)
  result : Except Err (Option K)
  detected : Bool

variable {K : Type}

/-- `read_pickle` of a file. -/
def readFile : FileSt K → Except Err K
  | .full k => .ok k
  | _ => .error .other

/-- What `process` returns at the end (2421-2423). -/
def ret (fl : KpFlags) (k : Option K) : Except Err (Option K) := .ok (if fl.clear then none else k)

/-- `process` (2397-2423), for the keypoints `d` that detection would give, the file `f` and the keypoints in memory. -/
def processImg (fl : KpFlags) (d : K) (f : FileSt K) (mem : Option K) : Proc K :=
  let written := fl.path && (match f with
    | .absent => false
    | _ => true)
  match mem with
  | none =>
    if written && !fl.clear then
      match readFile f with
      | .ok k => ⟨[], ret fl (some k), false⟩
      | .error e => ⟨[], .error e, false⟩
    else if !written || fl.overwrite then
      ⟨if fl.path then [.part, .full d] else [], ret fl (some d), true⟩
    else ⟨[], ret fl none, false⟩
  | some k =>
    if !written && fl.path then ⟨[.part, .full k], ret fl (some k), false⟩
    else if fl.overwrite then ⟨if fl.path then [.part, .full d] else [], ret fl (some d), true⟩
    else ⟨[], ret fl (some k), false⟩

/-- The file after the first `c` of the writes. -/
def afterWrites (f : FileSt K) (ws : List (FileSt K)) (c : Nat) : FileSt K := (ws.take c).getLastD f

/-- The files after a complete run, for every image. -/
def finalFiles (fl : KpFlags) (detect : Nat → K) (files : Nat → FileSt K) (mem : Nat → Option K) (i : Nat) : FileSt K :=
  let p := processImg fl (detect i) (files i) (mem i)
  afterWrites (files i) p.writes p.writes.length

/-- The files after a run that was interrupted: whatever the schedule, each file is in some state of its own process. -/
def Crash (fl : KpFlags) (detect : Nat → K) (files : Nat → FileSt K) (mem : Nat → Option K) (files' : Nat → FileSt K) :
    Prop :=
  ∀ i, ∃ c, files' i = afterWrites (files i) (processImg fl (detect i) (files i) (mem i)).writes c

end Glimpse.Kp
