/-!
# Ring queue

Model of `src/internal_modules/roc_core/ring_queue.h`.

Simplifications: allocation succeeds; index arithmetic of `size_t` such as
`begin_ - 1 + buff_len_` is done in `Nat` in an order that does not go below zero
(same result modulo 2^64). The main model is for trivially destructible elements (the only
users in the repository store numbers, mov_stats.h:222-224); the object lifetimes of
`pop_back` have a model of their own at the end.
-/

namespace Verif.RingQueue

/-- Fields of `RingQueue` (roc_core/ring_queue.h:196-199). The buffer is a function on
indices. -/
structure State (α : Type) where
  buf : Nat → α
  len : Nat
  beg : Nat
  end_ : Nat

variable {α : Type}

/-- Constructor (roc_core/ring_queue.h:42-53); `none` is the panic for zero length.
`junk` is the initial content of the memory. -/
def State.init (junk : Nat → α) (maxLen : Nat) : Option (State α) :=
  if maxLen = 0 then none else some ⟨junk, maxLen, 0, 0⟩

/-- `capacity` (roc_core/ring_queue.h:67-69). -/
def State.capacity (s : State α) : Nat := s.len

/-- `size` (roc_core/ring_queue.h:72-74). -/
def State.size (s : State α) : Nat := (s.end_ + s.len - s.beg) % s.len

/-- `is_empty` (roc_core/ring_queue.h:77-79). -/
def State.isEmpty (s : State α) : Bool := s.beg == s.end_

/-- `is_full` (roc_core/ring_queue.h:82-84). -/
def State.isFull (s : State α) : Bool := s.size == s.capacity

/-- `front` (roc_core/ring_queue.h:89-94, 99-104); `none` is a panic. -/
def State.front (s : State α) : Option α := if s.isEmpty then none else some (s.buf s.beg)

/-- `back` (roc_core/ring_queue.h:109-114, 119-124). -/
def State.back (s : State α) : Option α :=
  if s.isEmpty then none else some (s.buf ((s.end_ + s.len - 1) % s.len))

/-- Write to one buffer element. (Part of the model of roc_core/ring_queue.h:37-203.) -/
def upd (f : Nat → α) (i : Nat) (v : α) : Nat → α := fun k => if k = i then v else f k

/-- `push_front` (roc_core/ring_queue.h:129-135). -/
def State.pushFront (s : State α) (x : α) : Option (State α) :=
  if s.isFull then none
  else
    let b := (s.beg + s.len - 1) % s.len
    some { s with beg := b, buf := upd s.buf b x }

/-- `pop_front` (roc_core/ring_queue.h:140-146). -/
def State.popFront (s : State α) : Option (State α) :=
  if s.isEmpty then none else some { s with beg := (s.beg + 1) % s.len }

/-- `push_back` (roc_core/ring_queue.h:151-157). -/
def State.pushBack (s : State α) (x : α) : Option (State α) :=
  if s.isFull then none
  else some { s with buf := upd s.buf s.end_ x, end_ := (s.end_ + 1) % s.len }

/-- `pop_back` (roc_core/ring_queue.h:162-168), for trivially destructible elements. -/
def State.popBack (s : State α) : Option (State α) :=
  if s.isEmpty then none else some { s with end_ := (s.end_ + s.len - 1) % s.len }

/-- Operations of a history. (Part of the model of roc_core/ring_queue.h:37-203.) -/
inductive Op (α : Type) where
  | pushFront (x : α) | popFront | pushBack (x : α) | popBack

/-- One operation; `none` is a panic. (Part of the model of roc_core/ring_queue.h:37-203.) -/
def State.step (s : State α) : Op α → Option (State α)
  | .pushFront x => s.pushFront x
  | .popFront => s.popFront
  | .pushBack x => s.pushBack x
  | .popBack => s.popBack

/-- A history of operations. (Part of the model of roc_core/ring_queue.h:37-203.) -/
def State.run (s : State α) : List (Op α) → Option (State α)
  | [] => some s
  | op :: ops => (s.step op).bind (·.run ops)

/-! ### Object lifetimes -/

/-- Indices and the set of slots holding a constructed object. (Part of the model of roc_core/ring_queue.h:37-203.) -/
structure Life where
  alive : Nat → Bool
  len : Nat
  beg : Nat
  end_ : Nat

/-- `push_back` constructs at `end_` (roc_core/ring_queue.h:151-157). -/
def Life.pushBack (s : Life) : Life :=
  { s with alive := upd s.alive s.end_ true, end_ := (s.end_ + 1) % s.len }

/-- `pop_back` destroys the slot `end_` *before* decrementing it
(roc_core/ring_queue.h:166-167). `none`: the destructor runs on a slot that holds no object. -/
def Life.popBack (s : Life) : Option Life :=
  if s.alive s.end_ then
    some { s with alive := upd s.alive s.end_ false, end_ := (s.end_ + s.len - 1) % s.len }
  else none

end Verif.RingQueue
