import Verif.Model.Lists

/-!
Model of `helpers.write_json` (src/glimpse/helpers.py:265-305) from the text of `json.dumps` on (`json` is not modelled), with
the default separators, and of `helpers.strip_path` (134-157).
-/
set_option autoImplicit false

namespace Glimpse.JsonText

/-- `\s` for the characters that `json.dumps` writes (it escapes all control and non-ASCII characters in strings). -/
def isSpace (c : Char) : Bool := c == ' ' || c == '\t' || c == '\n' || c == '\r'

/-- Whether a character is in `[^\]\{]` (299). -/
def inBody (c : Char) : Bool := c != ']' && c != '{'

/-- `(\s*\])*`, greedy: what is taken, and the rest. The first argument bounds the number of repetitions; the length of the
text suffices. -/
def closings : Nat → List Char → List Char × List Char
  | 0, s => ([], s)
  | n + 1, s =>
    match s.dropWhile isSpace with
    | ']' :: r => ((s.takeWhile isSpace ++ ']' :: (closings n r).1), (closings n r).2)
    | _ => ([], s)

/-- The match of `(\[\s*)+[^\]\{]*(\s*\])+` (299) in a text after its first character `[`: the matched text after this
character, and the rest. `[^\]\{]*` takes all that `\[\s*` can take, and must be followed by `]`. -/
def matchArray (s : List Char) : Option (List Char × List Char) :=
  match s.dropWhile inBody with
  | ']' :: r => some (s.takeWhile inBody ++ ']' :: (closings r.length r).1, (closings r.length r).2)
  | _ => none

/-- `flatten` (296-297): remove whitespace, then replace `,` by `, `. -/
def inline (m : List Char) : List Char :=
  (m.filter fun c => !isSpace c).flatMap fun c => if c = ',' then [',', ' '] else [c]

/-- `re.sub` (299): the first argument bounds the number of steps; the length of the text suffices. -/
def flatAux : Nat → List Char → List Char
  | 0, s => s
  | _ + 1, [] => []
  | n + 1, c :: s =>
    if c = '[' then match matchArray s with
      | some (m, r) => inline ('[' :: m) ++ flatAux n r
      | none => c :: flatAux n s
    else c :: flatAux n s

/-- Arrays written on one line (299). -/
def flatArrays (s : List Char) : List Char := flatAux s.length s

/-- `write_json` (289-305) of a text made by `json.dumps`: `None >= 0` raises TypeError. -/
def writeJson (txt : List Char) (flat : Bool) (indent : Option Int) : Except Err (List Char) :=
  if flat then match indent with
    | none => .error .typeError
    | some i => .ok (if 0 ≤ i then flatArrays txt else txt)
  else .ok txt

/-- `os.path.basename` (150): what follows the last slash. -/
def basename (path : List Char) : List Char := (path.reverse.takeWhile (· ≠ '/')).reverse

/-- `strip_path` (150-157). -/
def stripPath (path : List Char) (extensions : Option Nat) : List Char := stripName extensions (basename path)

end Glimpse.JsonText
