/-!
# String builder over a fixed-size buffer

Model of `src/internal_modules/roc_core/string_builder.cpp` with `StaticBufferWriter`. The caller's buffer is
an explicit list of bytes; every store is bounds-checked and a store outside of the buffer is the
outcome `none` (undefined behaviour). `size_t` arithmetic is unbounded: the counters are sums of
sizes of strings in memory. `DynamicBufferWriter` is not modelled. Null string arguments
(panics) are excluded by typing.
-/

namespace Verif.StringBuilder

/-- One byte. (Part of the model of roc_core/string_builder.h:34-115.) -/
abbrev Byte := Fin 256

/-- Fields of `StringBuilder` and of its `StaticBufferWriter` (string_builder.h:117-161). -/
structure St where
  /-- memory at `buf_`; `none` is a null pointer -/
  buf : Option (List Byte)
  /-- `buf_max_size_` -/
  maxSize : Nat
  /-- `buf_cur_size_` -/
  curSize : Nat
  /-- `buf_wr_ptr_` as an offset from `buf_` -/
  wrPtr : Option Nat
  nProcessed : Nat
  nWritten : Nat
  truncErr : Bool
  writeErr : Bool
deriving DecidableEq, Repr

/-- `memcpy` to an offset of a buffer; `none` when it does not fit (undefined behaviour). (Part of the model of roc_core/string_builder.h:34-115.) -/
def store (b : List Byte) (off : Nat) (s : List Byte) : Option (List Byte) :=
  if off + s.length ≤ b.length then some (b.take off ++ s ++ b.drop (off + s.length)) else none

/-- `StaticBufferWriter::reset` (string_builder.cpp:25-39): result and new state. -/
def writerReset (s : St) : Option (Bool × St) :=
  if s.buf.isSome ∧ s.maxSize = 0 then some (false, s)
  else
    let s := { s with curSize := 1, wrPtr := none }
    match s.buf with
    | none => some (true, s)
    | some b => match store b 0 [0] with
      | none => none
      | some b => some (true, { s with buf := some b })

/-- `StaticBufferWriter::extend_by` (string_builder.cpp:50-77): number of characters (`none` inside is
the -1 result) and new state. -/
def extendBy (s : St) (n : Nat) : Option (Option Nat × St) :=
  if s.buf.isSome ∧ s.maxSize = 0 then some (none, s)
  else if s.buf.isNone ∧ s.maxSize = 0 then some (some n, s)
  else
    let maxChars := s.maxSize - s.curSize
    let n := if n > maxChars then maxChars else n
    match s.buf with
    | none => some (some n, { s with curSize := s.curSize + n })
    | some b =>
      let s := { s with wrPtr := some (s.curSize - 1), curSize := s.curSize + n }
      match store b (s.curSize - 1) [0] with
      | none => none
      | some b => some (some n, { s with buf := some b })

/-- `StringBuilder::is_ok` (string_builder.cpp:133-135). -/
def isOk (s : St) : Bool := !s.truncErr && !s.writeErr

/-- `StringBuilder::needed_size` (string_builder.cpp:121-123). -/
def neededSize (s : St) : Nat := s.nProcessed + 1

/-- `StringBuilder::actual_size` (string_builder.cpp:125-131). -/
def actualSize (s : St) : Nat := if s.buf.isNone || s.writeErr then 0 else s.nWritten + 1

/-- `StringBuilder::reset_` (string_builder.cpp:196-208). -/
def reset (s : St) : Option St :=
  let s := { s with nProcessed := 0, nWritten := 0 }
  if s.writeErr then some s
  else match writerReset s with
    | none => none
    | some (false, s) => some { s with writeErr := true }
    | some (true, s) => some { s with truncErr := false }

/-- Constructor and `initialize_` (string_builder.cpp:18-23, 111-114, 186-194). -/
def init (buf : Option (List Byte)) (size : Nat) : Option St :=
  reset ⟨buf, size, 1, none, 0, 0, false, false⟩

/-- The part of `append_` after `extend_by` (string_builder.cpp:231-240). -/
def copyOut (s : St) (str : List Byte) (w : Nat) : Option St :=
  let t := if w < str.length then true else s.truncErr
  if w > 0 then
    match s.wrPtr, s.buf with
    | some off, some b => match store b off (str.take w) with
      | none => none
      | some b => some { s with buf := some b, nWritten := s.nWritten + w, truncErr := t }
    | some _, none => none
    | none, _ => some { s with truncErr := t }
  else some { s with truncErr := t }

/-- `StringBuilder::append_` (string_builder.cpp:210-245); `grow_by` does nothing for a static buffer
(string_builder.cpp:45-48). -/
def append (s : St) (str : List Byte) : Option St :=
  let s := { s with nProcessed := s.nProcessed + str.length }
  if s.writeErr then some s
  else if str.length ≠ 0 then
    match extendBy s str.length with
    | none => none
    | some (none, s) => some { s with writeErr := true }
    | some (some w, s) => copyOut s str w
  else some s

/-- `StringBuilder::assign_str` (string_builder.cpp:137-150). -/
def assign (s : St) (str : List Byte) : Option St :=
  match reset s with
  | none => none
  | some s => append s str

/-- The digit table of `append_uint` (string_builder.cpp:178). -/
def digitTable : List Byte := [48, 49, 50, 51, 52, 53, 54, 55, 56, 57, 65, 66, 67, 68, 69, 70]

/-- The digit loop of `append_uint` (string_builder.cpp:175-181): `room` is the number of free bytes
in front of the digits produced so far; running out of room is a store outside of `tmp`. -/
def digitLoop (base : Nat) : Nat → Nat → List Byte → Option (List Byte)
  | 0, _, _ => none
  | room + 1, n, acc =>
    let acc := digitTable.getD (n % base) 0 :: acc
    if n / base > 0 then digitLoop base room (n / base) acc else some acc

/-- The characters appended by `StringBuilder::append_uint` (string_builder.cpp:169-184). The index
`tmp_pos` starts at 127 and the loop must leave it non-negative: 127 digits fit. -/
def uintChars (n base : Nat) : Option (List Byte) :=
  if 2 ≤ base ∧ base ≤ 16 then digitLoop base 127 n [] else none

/-- An API call. (Part of the model of roc_core/string_builder.h:34-115.) -/
inductive Op where
  | assign (s : List Byte)
  | append (s : List Byte)
deriving DecidableEq, Repr

/-- Effect of a call; the C++ return value is `isOk` of the new state (string_builder.cpp:244). -/
def step (s : St) : Op → Option St
  | .assign t => assign s t
  | .append t => append s t

/-- A sequence of calls. (Part of the model of roc_core/string_builder.h:34-115.) -/
def run (s : St) : List Op → Option St
  | [] => some s
  | op :: ops => match step s op with
    | none => none
    | some s => run s ops

end Verif.StringBuilder
