import Verif.Model.Basic

/-!
Model of `helpers.write_pickle` and `helpers.read_pickle` (src/glimpse/helpers.py:207-247) on a file system, with the streams they open.

Simplifications: a file is its content; directories are made as needed (221) and opening does not fail otherwise; `pickle` and `gzip` are
parameters; `pickle.dump` writes its bytes at once (a crash before `close` leaves a part of them: `writeTorn`); errors of `pickle.load` and
`gzip` are `other`.
-/
set_option autoImplicit false

namespace Glimpse.Pickle

variable {Obj P : Type}

/-- Content of a file. -/
abbrev Bytes := List UInt8

/-- `pickle.dump`, `pickle.load`, `gzip.compress` and `gzip.decompress`; `none` if they raise. -/
structure Codec (Obj : Type) where
  dump : Obj → Bytes
  load : Bytes → Option Obj
  zip : Bytes → Bytes
  unzip : Bytes → Option Bytes

/-- What `open` or `gzip.open` (223-226, 241-244) returns: a stream of bytes, of text, or of compressed bytes (`gzip.open` takes the modes "w"
and "r" for "wb" and "rb"). -/
inductive Stream where
  | bytes
  | text
  | gzip
deriving DecidableEq

/-- 222-226, 240-244. -/
def stream (gz binary : Bool) : Stream := if gz then .gzip else if binary then .bytes else .text

/-- Files: `none` if there is none at the path. -/
abbrev Files (P : Type) := P → Option Bytes

/-- Set the content of one file. -/
def put [DecidableEq P] (fs : Files P) (p : P) (b : Bytes) : Files P := fun q => if q = p then some b else fs q

/-- `write_pickle` (221-228): opening truncates; bytes cannot be written to a text stream. -/
def write [DecidableEq P] (C : Codec Obj) (fs : Files P) (obj : Obj) (path : P) (gz binary : Bool) : Files P × Except Err Unit :=
  let opened := put fs path []
  match stream gz binary with
  | .bytes => (put opened path (C.dump obj), .ok ())
  | .gzip => (put opened path (C.zip (C.dump obj)), .ok ())
  | .text => (opened, .error .typeError)

/-- `write_pickle` stopped after `n` bytes reached the file. -/
def writeTorn [DecidableEq P] (C : Codec Obj) (fs : Files P) (obj : Obj) (path : P) (gz binary : Bool) (n : Nat) : Files P :=
  match (write C fs obj path gz binary).1 path with
  | some b => put fs path (b.take n)
  | none => fs

/-- `read_pickle` (240-247). A text stream gives text, which `pickle.load` refuses (TypeError; or it cannot be decoded: `other`). -/
def read (C : Codec Obj) (fs : Files P) (path : P) (gz binary : Bool) : Except Err Obj :=
  match fs path with
  | none => .error .other
  | some b =>
    match stream gz binary with
    | .bytes => match C.load b with
      | some o => .ok o
      | none => .error .other
    | .gzip => match (C.unzip b).bind C.load with
      | some o => .ok o
      | none => .error .other
    | .text => .error .typeError

end Glimpse.Pickle
