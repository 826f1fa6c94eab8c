import Verif.Model.JsonText

/-!
Model of the text that `json.dumps` writes and `json.load` reads, as `helpers.write_json` and `helpers.read_json` use them
(src/glimpse/helpers.py:253-305; `json` itself is Python's standard library, of which the pure Python encoder and decoder are followed).

Simplifications: keys are text; strings have no lone surrogates; numbers are of a type with a format (`NumFmt`); options other than `indent` are
left out. What `json` refuses with JSONDecodeError is `none`.
-/
set_option autoImplicit false

namespace Glimpse.Json
open Glimpse.JsonText

variable {N : Type}

mutual
/-- A value. -/
inductive Json (N : Type) where
  | null
  | bool (b : Bool)
  | num (x : N)
  | nan
  | inf
  | ninf
  | str (s : List Char)
  | arr (l : Items N)
  | obj (m : Members N)
/-- The values of an array. -/
inductive Items (N : Type) where
  | nil
  | cons (v : Json N) (l : Items N)
/-- The keys and values of an object, in order. -/
inductive Members (N : Type) where
  | nil
  | cons (k : List Char) (v : Json N) (m : Members N)
end

/-- How numbers are written and read: `repr` of an integer or a float, and `int` or `float` of a numeral. -/
structure NumFmt (N : Type) where
  write : N → List Char
  read : List Char → N

/-! ### Writing -/

/-- A hexadecimal digit (lower case). -/
def hexDigit (d : Nat) : Char := "0123456789abcdef".toList.getD d '0'

/-- `'\\u{0:04x}'.format(n)`. -/
def u4 (n : Nat) : List Char :=
  ['\\', 'u', hexDigit (n / 4096 % 16), hexDigit (n / 256 % 16), hexDigit (n / 16 % 16), hexDigit (n % 16)]

/-- One character in a string with `ensure_ascii` (the default): short escapes, itself if printable ASCII, else its code (two surrogates for
codes above 0xffff). -/
def escape (c : Char) : List Char :=
  if c = '"' then ['\\', '"'] else if c = '\\' then ['\\', '\\'] else if c = '\n' then ['\\', 'n'] else if c = '\r' then ['\\', 'r']
  else if c = '\t' then ['\\', 't'] else if c = '\x0c' then ['\\', 'f'] else if c = '\x08' then ['\\', 'b']
  else if 32 ≤ c.toNat ∧ c.toNat < 127 then [c]
  else if c.toNat < 65536 then u4 c.toNat
  else u4 (0xd800 + (c.toNat - 65536) / 1024) ++ u4 (0xdc00 + (c.toNat - 65536) % 1024)

/-- A string in quotes. -/
def quote (s : List Char) : List Char := '"' :: (s.flatMap escape ++ ['"'])

/-- `'\n' + indent * level`; nothing without indent. -/
def newline (indent : Option Int) (level : Nat) : List Char :=
  match indent with
  | none => []
  | some i => '\n' :: List.replicate (i.toNat * level) ' '

/-- The item separator: `", "`, or `","` and a new line with an indent. -/
def itemSep (indent : Option Int) (level : Nat) : List Char :=
  match indent with
  | none => [',', ' ']
  | some _ => ',' :: newline indent level

/-- `not lst`. -/
def Items.isEmpty : Items N → Bool
  | .nil => true
  | .cons _ _ => false

/-- `not dct`. -/
def Members.isEmpty : Members N → Bool
  | .nil => true
  | .cons _ _ _ => false

mutual
/-- `json.dumps(v, indent=indent)` at a level (helpers.py:288). -/
def dumpsAt (F : NumFmt N) (indent : Option Int) : Nat → Json N → List Char
  | _, .null => ['n', 'u', 'l', 'l']
  | _, .bool b => if b then ['t', 'r', 'u', 'e'] else ['f', 'a', 'l', 's', 'e']
  | _, .num x => F.write x
  | _, .nan => ['N', 'a', 'N']
  | _, .inf => ['I', 'n', 'f', 'i', 'n', 'i', 't', 'y']
  | _, .ninf => ['-', 'I', 'n', 'f', 'i', 'n', 'i', 't', 'y']
  | _, .str s => quote s
  | level, .arr l => if l.isEmpty then ['[', ']'] else
      '[' :: (newline indent (level + 1) ++ dumpsItems F indent (level + 1) true l ++ newline indent level ++ [']'])
  | level, .obj m => if m.isEmpty then ['{', '}'] else
      '{' :: (newline indent (level + 1) ++ dumpsMembers F indent (level + 1) true m ++ newline indent level ++ ['}'])
/-- The items, each but the first after a separator. -/
def dumpsItems (F : NumFmt N) (indent : Option Int) : Nat → Bool → Items N → List Char
  | _, _, .nil => []
  | level, first, .cons v l =>
    (if first then [] else itemSep indent level) ++ dumpsAt F indent level v ++ dumpsItems F indent level false l
/-- The members. -/
def dumpsMembers (F : NumFmt N) (indent : Option Int) : Nat → Bool → Members N → List Char
  | _, _, .nil => []
  | level, first, .cons k v m =>
    (if first then [] else itemSep indent level) ++ quote k ++ [':', ' '] ++ dumpsAt F indent level v ++ dumpsMembers F indent level false m
end

/-- `json.dumps(v, indent=indent)` (helpers.py:288). -/
def dumps (F : NumFmt N) (indent : Option Int) (v : Json N) : List Char := dumpsAt F indent 0 v

/-! ### Reading -/

/-- Skip whitespace. -/
def skip (s : List Char) : List Char := s.dropWhile isSpace

/-- The value of a hexadecimal digit (either case). -/
def hexVal (c : Char) : Option Nat :=
  if '0' ≤ c ∧ c ≤ '9' then some (c.toNat - 48)
  else if 'a' ≤ c ∧ c ≤ 'f' then some (c.toNat - 87)
  else if 'A' ≤ c ∧ c ≤ 'F' then some (c.toNat - 55)
  else none

/-- Four hexadecimal digits. -/
def hex4 : List Char → Option (Nat × List Char)
  | a :: b :: c :: d :: r => do
    let a ← hexVal a
    let b ← hexVal b
    let c ← hexVal c
    let d ← hexVal d
    some (((a * 16 + b) * 16 + c) * 16 + d, r)
  | _ => none

/-- A code that is not part of a pair; lone surrogates are left out (see above). -/
def codeChar (n : Nat) : Option Char := if n < 0xd800 ∨ 0xdfff < n then some (Char.ofNat n) else none

/-- The character after `\u`, with the low surrogate that follows a high one. -/
def scanU (s : List Char) : Option (Char × List Char) := do
  let (n, r) ← hex4 s
  if 0xd800 ≤ n ∧ n ≤ 0xdbff then
    match r with
    | '\\' :: 'u' :: r' => do
      let (m, r'') ← hex4 r'
      if 0xdc00 ≤ m ∧ m ≤ 0xdfff then some (Char.ofNat (65536 + (n - 0xd800) * 1024 + (m - 0xdc00)), r'') else none
    | _ => none
  else do
    let c ← codeChar n
    some (c, r)

/-- A character after a backslash. -/
def scanEscape : List Char → Option (Char × List Char)
  | '"' :: r => some ('"', r)
  | '\\' :: r => some ('\\', r)
  | '/' :: r => some ('/', r)
  | 'b' :: r => some ('\x08', r)
  | 'f' :: r => some ('\x0c', r)
  | 'n' :: r => some ('\n', r)
  | 'r' :: r => some ('\r', r)
  | 't' :: r => some ('\t', r)
  | 'u' :: r => scanU r
  | _ => none

/-- A string after its opening quote: its characters and the rest. Control characters are refused (strict). The first argument bounds the
number of characters; the length of the text suffices. -/
def scanString : Nat → List Char → Option (List Char × List Char)
  | 0, _ => none
  | _ + 1, [] => none
  | n + 1, c :: r =>
    if c = '"' then some ([], r)
    else if c = '\\' then do
      let (x, r') ← scanEscape r
      let (t, r'') ← scanString n r'
      some (x :: t, r'')
    else if c.toNat < 32 then none
    else do
      let (t, r') ← scanString n r
      some (c :: t, r')

/-- Decimal digit. -/
def isDigit (c : Char) : Bool := decide ('0' ≤ c ∧ c ≤ '9')

/-- `(\.\d+)?`. -/
def scanFrac (s : List Char) : List Char × List Char :=
  match s with
  | '.' :: r => if r.takeWhile isDigit = [] then ([], s) else ('.' :: r.takeWhile isDigit, r.dropWhile isDigit)
  | _ => ([], s)

/-- `[-+]?`. -/
def scanSign (s : List Char) : List Char × List Char :=
  match s with
  | '-' :: r => (['-'], r)
  | '+' :: r => (['+'], r)
  | _ => ([], s)

/-- `([eE][-+]?\d+)?`. -/
def scanExp (s : List Char) : List Char × List Char :=
  match s with
  | c :: r =>
    if c = 'e' ∨ c = 'E' then
      let (g, q) := scanSign r
      if q.takeWhile isDigit = [] then ([], s) else (c :: (g ++ q.takeWhile isDigit), q.dropWhile isDigit)
    else ([], s)
  | [] => ([], [])

/-- `(?:0|[1-9]\d*)`. -/
def scanInt (s : List Char) : Option (List Char × List Char) :=
  match s with
  | '0' :: r => some (['0'], r)
  | c :: r => if isDigit c then some (c :: r.takeWhile isDigit, r.dropWhile isDigit) else none
  | [] => none

/-- `-?`. -/
def scanMinus (s : List Char) : List Char × List Char :=
  match s with
  | '-' :: r => (['-'], r)
  | _ => ([], s)

/-- A number: `(-?(?:0|[1-9]\d*))(\.\d+)?([eE][-+]?\d+)?`. -/
def scanNumber (s : List Char) : Option (List Char × List Char) := do
  let (i, r) ← scanInt (scanMinus s).2
  some ((scanMinus s).1 ++ i ++ (scanFrac r).1 ++ (scanExp (scanFrac r).2).1, (scanExp (scanFrac r).2).2)

/-- A constant at the start of a text. -/
def word (w : String) (s : List Char) : Option (List Char) :=
  if w.toList.isPrefixOf s then some (s.drop w.length) else none

/-- Constants and numbers, in the order in which they are tried. -/
def scanAtom (F : NumFmt N) (s : List Char) : Option (Json N × List Char) :=
  match word "null" s, word "true" s, word "false" s, scanNumber s, word "NaN" s, word "Infinity" s, word "-Infinity" s with
  | some r, _, _, _, _, _, _ => some (.null, r)
  | _, some r, _, _, _, _, _ => some (.bool true, r)
  | _, _, some r, _, _, _, _ => some (.bool false, r)
  | _, _, _, some (t, r), _, _, _ => some (.num (F.read t), r)
  | _, _, _, _, some r, _, _ => some (.nan, r)
  | _, _, _, _, _, some r, _ => some (.inf, r)
  | _, _, _, _, _, _, some r => some (.ninf, r)
  | _, _, _, _, _, _, _ => none

/-- Setting a key of a dictionary: an existing key keeps its place. -/
def Members.set (k : List Char) (v : Json N) : Members N → Members N
  | .nil => .cons k v .nil
  | .cons k' v' m => if k' = k then .cons k' v m else .cons k' v' (m.set k v)

/-- `dict(pairs)`, after what is already in it. -/
def Members.into : Members N → Members N → Members N
  | .nil, d => d
  | .cons k v m, d => m.into (d.set k v)

mutual
/-- A value at the start of a text, and the rest. The first argument bounds the depth of calls; twice the length of the text suffices. -/
def parseValue (F : NumFmt N) : Nat → List Char → Option (Json N × List Char)
  | 0, _ => none
  | n + 1, s =>
    match s with
    | '"' :: r => do
      let (t, r) ← scanString r.length r
      some (.str t, r)
    | '{' :: r =>
      match skip r with
      | '}' :: r => some (.obj .nil, r)
      | r => do
        let (m, r) ← parseMembers F n r
        some (.obj (m.into .nil), r)
    | '[' :: r =>
      match skip r with
      | ']' :: r => some (.arr .nil, r)
      | r => do
        let (l, r) ← parseItems F n r
        some (.arr l, r)
    | s => scanAtom F s
/-- The items of an array up to its closing bracket. -/
def parseItems (F : NumFmt N) : Nat → List Char → Option (Items N × List Char)
  | 0, _ => none
  | n + 1, s => do
    let (v, r) ← parseValue F n s
    match skip r with
    | ']' :: r => some (.cons v .nil, r)
    | ',' :: r => do
      let (l, r) ← parseItems F n (skip r)
      some (.cons v l, r)
    | _ => none
/-- The members of an object up to its closing brace. -/
def parseMembers (F : NumFmt N) : Nat → List Char → Option (Members N × List Char)
  | 0, _ => none
  | n + 1, s =>
    match s with
    | '"' :: r => do
      let (k, r) ← scanString r.length r
      match skip r with
      | ':' :: r => do
        let (v, r) ← parseValue F n (skip r)
        match skip r with
        | '}' :: r => some (.cons k v .nil, r)
        | ',' :: r => do
          let (m, r) ← parseMembers F n (skip r)
          some (.cons k v m, r)
        | _ => none
      | _ => none
    | _ => none
end

/-- `json.loads(text)` (helpers.py:262): whitespace around the value, and nothing else. -/
def loads (F : NumFmt N) (s : List Char) : Option (Json N) := do
  let (v, r) ← parseValue F (2 * s.length + 1) (skip s)
  if skip r = [] then some v else none

end Glimpse.Json
