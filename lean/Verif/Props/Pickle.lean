import Verif.Model.Pickle

/-!
C129: what `write_pickle` writes is read back by `read_pickle`.
-/
set_option autoImplicit false
set_option linter.unusedSimpArgs false
set_option linter.unusedSectionVars false

namespace Glimpse.Pickle

variable {Obj P : Type} [DecidableEq P]

/-- Python's codecs read what they write. -/
structure Codec.Faithful (C : Codec Obj) : Prop where
  load_dump : ∀ o, C.load (C.dump o) = some o
  unzip_zip : ∀ b, C.unzip (C.zip b) = some b

/-- C129: with the same `gz`, whatever `binary` if compressed, `read_pickle` returns the object, and keeps doing so after any later writes to
other paths; other files keep their content. -/
theorem pickle_round_trip_partial (C : Codec Obj) (hC : C.Faithful) (fs : Files P) (obj : Obj) (path : P) (gz b1 b2 : Bool)
    (h : gz = true ∨ b1 = true ∧ b2 = true) (later : List (P × Obj × Bool × Bool)) (hl : ∀ e ∈ later, e.1 ≠ path) :
    (write C fs obj path gz b1).2 = .ok () ∧
    read C (later.foldl (fun s e => (write C s e.2.1 e.1 e.2.2.1 e.2.2.2).1) (write C fs obj path gz b1).1) path gz b2 = .ok obj ∧
    ∀ q, q ≠ path → (write C fs obj path gz b1).1 q = fs q := by
  have other : ∀ (s : Files P) (o : Obj) (p : P) (g b : Bool) (q : P), q ≠ p → (write C s o p g b).1 q = s q := by
    intro s o p g b q hq
    unfold write
    cases stream g b <;> simp [put, hq]
  have keep : ∀ s : Files P, later.foldl (fun s e => (write C s e.2.1 e.1 e.2.2.1 e.2.2.2).1) s path = s path := by
    induction later with
    | nil => intro s; rfl
    | cons e l ih =>
      intro s
      rw [List.foldl_cons, ih fun e he => hl e (List.mem_cons_of_mem _ he)]
      exact other _ _ _ _ _ _ (Ne.symm (hl e List.mem_cons_self))
  refine ⟨?_, ?_, fun q hq => other _ _ _ _ _ q hq⟩
  · rcases h with rfl | ⟨rfl, _⟩
    · rfl
    · cases gz <;> rfl
  · unfold read
    rw [keep]
    rcases h with rfl | ⟨rfl, rfl⟩
    · simp [write, stream, put, hC.load_dump, hC.unzip_zip]
    · cases gz <;> simp [write, stream, put, hC.load_dump, hC.unzip_zip]

/-- C129 fails: without compression, `binary=False` always raises, and what was in the file is lost. -/
theorem pickle_text_violated (C : Codec Obj) (fs : Files P) (obj : Obj) (path : P) :
    (write C fs obj path false false).2 = .error .typeError ∧ (write C fs obj path false false).1 path = some [] := by
  exact ⟨rfl, by simp [write, stream, put]⟩

/-- So a file cannot be read with `binary=False`, whatever wrote it. -/
theorem pickle_read_text_violated (C : Codec Obj) (fs : Files P) (path : P) : ∃ e, read C fs path false false = .error e := by
  unfold read
  cases fs path with
  | none => exact ⟨_, rfl⟩
  | some b => exact ⟨_, rfl⟩

/-- C129: a file read with the wrong `gz` raises, as no pickle is a compressed file and no compressed file a pickle. -/
theorem pickle_wrong_gz (C : Codec Obj) (fs : Files P) (obj : Obj) (path : P) (gz b1 b2 : Bool) (h1 : ∀ b, C.load (C.zip b) = none)
    (h2 : ∀ o, C.unzip (C.dump o) = none) (hb : gz = true ∨ b1 = true) : ∃ e, read C (write C fs obj path gz b1).1 path (!gz) b2 = .error e := by
  rcases hb with rfl | rfl
  · cases b2 <;> simp [read, write, stream, put, h1]
  · cases gz
    · simp [read, write, stream, put, h2]
    · cases b2 <;> simp [read, write, stream, put, h1]

/-- C129: the previous content is never kept by an interruption: the file is then the first bytes of the new one, which is not read if no
proper prefix can be read. -/
theorem pickle_torn (C : Codec Obj) (fs : Files P) (obj : Obj) (path : P) (n : Nat) (hn : n < (C.dump obj).length)
    (hp : ∀ m < (C.dump obj).length, C.load ((C.dump obj).take m) = none) :
    (∃ e, read C (writeTorn C fs obj path false true n) path false true = .error e) ∧
    ∀ q, q ≠ path → writeTorn C fs obj path false true n q = fs q := by
  refine ⟨?_, ?_⟩
  · simp [read, writeTorn, write, stream, put, hp n hn]
  · intro q hq
    simp [writeTorn, write, stream, put, hq]

/-- A codec of one-byte objects meets the hypotheses. -/
def sampleCodec : Codec UInt8 where
  dump o := [0x80, o]
  load b := match b with
    | [0x80, o] => some o
    | _ => none
  zip b := 0x1f :: b
  unzip b := match b with
    | 0x1f :: b => some b
    | _ => none

example : sampleCodec.Faithful ∧ (∀ b, sampleCodec.load (sampleCodec.zip b) = none) ∧ (∀ o, sampleCodec.unzip (sampleCodec.dump o) = none) ∧
    ∀ o, ∀ m < (sampleCodec.dump o).length, sampleCodec.load ((sampleCodec.dump o).take m) = none := by
  refine ⟨⟨fun o => rfl, fun b => rfl⟩, fun b => ?_, fun o => rfl, fun o m hm => ?_⟩
  · simp [sampleCodec]
  · simp only [sampleCodec, List.length_cons, List.length_nil] at hm
    rcases m with _ | _ | m
    · rfl
    · rfl
    · omega

end Glimpse.Pickle
