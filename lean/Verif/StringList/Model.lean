/-!
# List of strings in one memory block

Model of `src/internal_modules/roc_core/string_list.cpp` at the level of bytes. `data_` is a list of bytes,
pointers into it are offsets; `front_` and `back_` are offsets of headers. Allocation always
succeeds; a failed one returns early with the list unchanged (string_list.cpp:109-115). Null and
foreign pointers (panics) are outside of the model. Machine integers of the block headers are
little-endian 32-bit numbers; `size_t` is unbounded.
-/

namespace Verif.StringList

/-- One byte. (Part of the model of roc_core/string_list.h:36-106.) -/
abbrev Byte := Fin 256

/-- Bytes of an `uint32_t`. (Part of the model of roc_core/string_list.h:36-106.) -/
def le32 (n : Nat) : List Byte :=
  [Fin.ofNat 256 n, Fin.ofNat 256 (n / 256), Fin.ofNat 256 (n / 65536), Fin.ofNat 256 (n / 16777216)]

/-- Value of four bytes. (Part of the model of roc_core/string_list.h:36-106.) -/
def unle32 : List Byte → Nat
  | [a, b, c, d] => a.val + 256 * b.val + 65536 * c.val + 16777216 * d.val
  | _ => 0

/-- `AlignOps::align_as(size, 4)` (roc_core/align_ops.cpp:22-32). -/
def align4 (n : Nat) : Nat := if n % 4 ≠ 0 then n + (4 - n % 4) else n

/-- `blk_sz` (string_list.cpp:106-107, 148-149): header, string with terminator, padded, footer. -/
def blkSize (strSize : Nat) : Nat := 4 + align4 (strSize + 1) + 4

/-- `StringList` fields (string_list.cpp:16-21); the offsets are meaningful when `size > 0`. -/
structure SL where
  data : List Byte
  front : Nat
  back : Nat
  size : Nat
deriving DecidableEq, Repr

/-- Constructor (string_list.cpp:16-21) and `clear` (string_list.cpp:85-90). -/
def init : SL := ⟨[], 0, 0, 0⟩

/-- Contents of the new block (string_list.cpp:121-128): `resize` zero-fills it (roc_core/array.h), then
header, string, terminator and footer are stored. -/
def block (s : List Byte) : List Byte :=
  le32 (blkSize s.length % 2 ^ 32) ++ s ++ List.replicate (align4 (s.length + 1) - s.length) 0 ++
    le32 (blkSize s.length % 2 ^ 32)

/-- `StringList::push_back` (string_list.cpp:100-131). -/
def pushBack (l : SL) (s : List Byte) : SL :=
  { data := l.data ++ block s, front := 0, back := l.data.length, size := l.size + 1 }

/-- The `uint32_t` at an offset. (Part of the model of roc_core/string_list.h:36-106.) -/
def lenAt (l : SL) (off : Nat) : Nat := unle32 ((l.data.drop off).take 4)

/-- `StringList::nextof` (string_list.cpp:47-63), on header offsets. -/
def nextof (l : SL) (off : Nat) : Option Nat :=
  if off = l.back then none else some (off + lenAt l off)

/-- `StringList::prevof` (string_list.cpp:65-83), on header offsets. -/
def prevof (l : SL) (off : Nat) : Option Nat :=
  if off = l.front then none else some (off - lenAt l (off - 4))

/-- The C string of the block at an offset: what the caller sees. (Part of the model of roc_core/string_list.h:36-106.) -/
def cstrAt (l : SL) (off : Nat) : List Byte := (l.data.drop (off + 4)).takeWhile (· ≠ 0)

/-- The loop of `StringList::find` (string_list.cpp:151-161); `fuel` bounds the number of blocks. -/
def findLoop (l : SL) (s : List Byte) : Nat → Nat → Option Nat
  | 0, _ => none
  | fuel + 1, off =>
    if lenAt l off = blkSize s.length ∧ (l.data.drop (off + 4)).take s.length = s then some off
    else if off = l.back then none
    else findLoop l s fuel (off + lenAt l off)

/-- `StringList::find` (string_list.cpp:141-165). -/
def find (l : SL) (s : List Byte) : Option Nat :=
  if l.size ≠ 0 then findLoop l s l.size l.front else none

/-- A client iterating forward from a block. (Part of the model of roc_core/string_list.h:36-106.) -/
def forward (l : SL) : Nat → Nat → List (List Byte)
  | 0, _ => []
  | fuel + 1, off => cstrAt l off :: match nextof l off with
    | none => []
    | some o => forward l fuel o

/-- A client iterating backward from a block. (Part of the model of roc_core/string_list.h:36-106.) -/
def backward (l : SL) : Nat → Nat → List (List Byte)
  | 0, _ => []
  | fuel + 1, off => cstrAt l off :: match prevof l off with
    | none => []
    | some o => backward l fuel o

end Verif.StringList
