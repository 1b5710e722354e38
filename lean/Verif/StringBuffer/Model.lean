/-!
# String buffer: model

Model of `StringBuffer` (`src/internal_modules/roc_core/string_buffer.cpp`), the zero-terminated string in URIs and names of devices.

Simplified: the array below is a list of elements with its capacity; that `Array` behaves so is the subject of C107. The arena answers each request of memory
with success or failure. Texts given to `assign` lie outside of the buffer.
-/

namespace Verif.StringBuffer

/-- `data_` (roc_core/string_buffer.h:80): elements and capacity of `Array<char, 32>`. -/
structure Buf where
  data : List Nat
  cap : Nat

/-- `EmbeddedCapacity` (roc_core/string_buffer.h:80). -/
def embedded : Nat := 32

/-- `Array::grow` (roc_core/array.h:217-248): `none` if the arena has no memory. -/
def grow (fit : Bool) (n : Nat) (b : Buf) : Option Buf :=
  if n ≤ b.cap then some b
  else if n ≤ embedded ∨ fit = true then some { b with cap := n }
  else none

/-- `Array::resize` (roc_core/array.h:183-202); new characters are zero. -/
def resize (fit : Bool) (n : Nat) (b : Buf) : Option Buf :=
  match grow fit n b with
  | some b => some { b with data := b.data.take n ++ List.replicate (n - b.data.length) 0 }
  | none => none

/-- `clear` (roc_core/string_buffer.cpp:31-36); `none` is `roc_panic`. -/
def clear (fit : Bool) (b : Buf) : Option Buf :=
  match resize fit 1 b with
  | some b => if 0 < b.data.length then some { b with data := b.data.set 0 0 } else none
  | none => none

/-- The constructor (roc_core/string_buffer.cpp:14-17) with an arena that gives no memory. -/
def init : Option Buf := clear false ⟨[], 0⟩

/-- `len` (roc_core/string_buffer.cpp:23-25). -/
def len (b : Buf) : Nat := (b.data.length + 2 ^ 64 - 1) % 2 ^ 64

/-- `assign` (roc_core/string_buffer.cpp:46-67). The arena is asked once; its answer for the memory needed by `clear` is failure. -/
def assign (fit : Bool) (t : List Nat) (b : Buf) : Option (Buf × Bool) :=
  match resize fit ((t.length + 1) % 2 ^ 64) b with
  | none =>
    match clear false b with
    | some b => some (b, false)
    | none => none
  | some b =>
    let d := t ++ b.data.drop t.length
    if t.length < d.length then some ({ b with data := d.set t.length 0 }, true) else none

/-- `extend` (roc_core/string_buffer.cpp:69-80), and then the caller stores `fill` at the address returned. -/
def extend (fit : Bool) (n : Nat) (fill : List Nat) (b : Buf) : Option (Buf × Bool) :=
  let orig := b.data.length
  match (if 0 < n then resize fit ((orig + n) % 2 ^ 64) b else some b) with
  | none =>
    match clear false b with
    | some b => some (b, false)
    | none => none
  | some b =>
    if b.data.length = 0 then none
    else some ({ b with data := b.data.take (orig - 1) ++ fill ++ b.data.drop (orig - 1 + fill.length) }, true)

/-- Calls (roc_core/string_buffer.cpp:31-84); `fit` is the answer of the arena. -/
inductive Op where
  | clear
  | assign (fit : Bool) (t : List Nat)
  | extend (fit : Bool) (n : Nat) (fill : List Nat)
  | grow (fit : Bool) (n : Nat)

/-- One call and its result (roc_core/string_buffer.cpp:31-84). -/
def step (b : Buf) : Op → Option (Buf × Bool)
  | .clear =>
    match clear false b with
    | some b => some (b, true)
    | none => none
  | .assign fit t => assign fit t b
  | .extend fit n fill => extend fit n fill b
  | .grow fit n =>
    match grow fit ((n + 1) % 2 ^ 64) b with
    | some b => some (b, true)
    | none => some (b, false)

/-- Calls one after another (roc_core/string_buffer.cpp:31-84). -/
def run : List Op → Buf → Option (Buf × List Bool)
  | [], b => some (b, [])
  | o :: l, b =>
    match step b o with
    | some (b, r) =>
      match run l b with
      | some (b, rs) => some (b, r :: rs)
      | none => none
    | none => none

end Verif.StringBuffer
