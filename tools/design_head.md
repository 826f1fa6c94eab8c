# Formal model of ezwelty/glimpse in Lean 4

## Method

* Python source: `/repo/src/glimpse` (paths below are relative to it). The code is never run; the model is a hand
  translation, function by function and branch by branch. Every definition carries a comment with the file and lines it
  models and every simplification.
* Layout: `lean/Verif/Model/*.lean` (definitions that mirror the code), `lean/Verif/Lemmas/*.lean` (helper lemmas),
  `lean/Verif/Props/*.lean` (specification vocabulary at the head, property theorems, and `example`s showing that concrete,
  non-trivial cases meet the hypotheses).
* Exceptions are values (`Except Err α`). Mutation is explicit: a function that mutates returns the new object; where
  aliasing matters (grid caches, `Raster.shift`, `format_list`, cameras shared by controls) there is an explicit heap or
  state machine, and theorems are by induction over histories of operations.
* Random draws, images, optimizer results, directory listings, schedules of worker processes, crash points and third-party
  functions are parameters: theorems quantify over all their values, under stated assumptions where any are needed.
* Numbers: `float64` is modelled by exact arithmetic: `ℚ` where only field operations and comparison occur, `ℝ` where
  roots or trigonometry occur, a general ordered field where it makes no difference. NaN, where the code produces it on
  purpose, is `none : Option _`. Exceptions are C123, C124, C131, C132, C134, C135, C137, C138, C139, C141, C143, C144, C145, C146, C147 and C148, where every operation is rounded to
  nearest with 53 bits (`Model/Double.lean` defines the IEEE rounding, ties to even) and unbounded exponents, and C133, with overflow, subnormals, infinities and NaN. Datetimes and timedeltas are integers (microseconds): exact, as in Python.
* Where the code violates the English property, the negation is proved with a concrete witness or for a whole class of
  inputs (`..._violated`), beside the part that does hold (`..._partial`, or without suffix when the theorem is the whole
  of one clause). The property keeps its full English statement; the manifest then says `partial`.
* Seeded bugs: `seeded/LOG.jsonl` records edits of the model as realistic bugs would change the program, which theorems
  failed, and which theorems were tightened because they did not.

## Trusted base

* Lean 4.33.0's kernel. Axioms: every theorem depends on no others than `propext`, `Classical.choice` and `Quot.sound`
  (checked by `vcheck`, which also replays all modules through the kernel); no compiled code is trusted, no axiom is added.
* That the model definitions say what the Python code does: numpy's and Python's semantics as described in their comments.
* Not modelled: rounding of floating point other than in C123, C124, C131, C132, C133, C134, C135, C137, C138, C139, C141, C143, C144, C145, C146, C147 and C148, overflow and subnormals other than in C133, and signed zeros; the insides of GDAL, PIL, OpenCV, scipy, lmfit,
  piexif, lxml and sklearn (parameters with the assumptions stated in each theorem); real process scheduling (only the order
  of completion); operating system errors other than the crash points named in the properties.
