/-!
# Slice

Model of `Slice<T>` (`src/internal_modules/roc_core/slice.h`) with the reference counter of `Buffer` (`shared_ptr.h`, `ref_counted.h`).

Buffers and slices are numbered in the order of creation. A buffer is the list of its elements of type `T` (the remainder of `size() / sizeof(T)` is never accessed); a buffer that was returned to its pool is `none`.
`data_` is the buffer and the position in it; NULL is `buf = none`. Access to an element outside of a buffer or in a buffer that was returned is `ub`; a panic is `panic`; using a slice that does not exist is `bad`.
`size_t` is a number below `2^64`. `print` is not modelled.
-/

namespace Verif.Slice

/-- Number of values of `size_t` on a 64-bit machine (arithmetic in slice.h:154). -/
def M : Nat := 2 ^ 64

/-- Ways to not return: `roc_panic` (slice.h:129), undefined behaviour; `bad` is a mistake of the history (no such slice). -/
inductive Err where
  | panic
  | ub
  | bad
deriving DecidableEq

/-- `Slice` (slice.h:209-211). -/
structure Sl where
  buf : Option Nat
  off : Nat
  size : Nat
deriving DecidableEq

/-- A buffer with its reference counter (buffer.h:40-63, ref_counted.h:75). -/
structure Buf (α : Type) where
  cells : Option (List α)
  refs : Nat
deriving DecidableEq

/-- Memory of the program: buffers (buffer.h:40) and slices (slice.h:55); a destroyed slice is `none`. -/
structure World (α : Type) where
  bufs : List (Buf α)
  sls : List (Option Sl)
deriving DecidableEq

variable {α : Type}

/-- Empty memory: no buffers (buffer.h:40). -/
def World.init : World α := ⟨[], []⟩

/-- `acquire_` (shared_ptr.h:119-123). Touching the counter of a returned buffer is undefined. -/
def World.acquire (w : World α) : Option Nat → Except Err (World α)
  | none => .ok w
  | some b =>
    match w.bufs[b]? with
    | some ⟨some c, n⟩ => .ok { w with bufs := w.bufs.set b ⟨some c, n + 1⟩ }
    | _ => .error .ub

/-- `release_` (shared_ptr.h:125-129) and `decref` (ref_counted.h:65-72): the buffer is returned when the counter becomes zero; a counter below zero is a panic. -/
def World.release (w : World α) : Option Nat → Except Err (World α)
  | none => .ok w
  | some b =>
    match w.bufs[b]? with
    | some ⟨some _, 0⟩ => .error .panic
    | some ⟨some c, n + 1⟩ => .ok { w with bufs := w.bufs.set b ⟨if n = 0 then none else some c, n⟩ }
    | _ => .error .ub

/-- A slice that exists (slice.h:55). -/
def World.sl (w : World α) (i : Nat) : Except Err Sl :=
  match w.sls[i]? with
  | some (some s) => .ok s
  | _ => .error .bad

/-- Memory of a buffer (buffer.h:51). -/
def World.mem (w : World α) (b : Nat) : Except Err (List α) :=
  match w.bufs[b]? with
  | some ⟨some c, _⟩ => .ok c
  | _ => .error .ub

/-- A new slice object (slice.h:58). -/
def World.add (w : World α) (s : Sl) : World α := { w with sls := w.sls ++ [some s] }

/-- Change of a slice object (slice.h:138-139). -/
def World.put (w : World α) (i : Nat) (s : Option Sl) : World α := { w with sls := w.sls.set i s }

/-- A buffer from the pool with a slice for all of it (slice.h:65-74); the factory's own pointer is gone. -/
def World.alloc (w : World α) (c : List α) : World α :=
  { bufs := w.bufs ++ [⟨some c, 1⟩], sls := w.sls ++ [some ⟨some w.bufs.length, 0, c.length⟩] }

/-- `capacity` (slice.h:114-120). -/
def World.cap (w : World α) (s : Sl) : Except Err Nat :=
  match s.buf with
  | none => .ok 0
  | some b => do
    let c ← w.mem b
    .ok (c.length - s.off)

/-- Construction of a slice for a part of the buffer of slice `i` (slice.h:77-90). -/
def World.part (w : World α) (i lo hi : Nat) : Except Err (World α) := do
  let s ← w.sl i
  match s.buf with
  | none => .error .bad
  | some b =>
    let c ← w.mem b
    if lo > hi then .error .panic
    else if hi > c.length then .error .panic
    else do
      let w ← w.acquire (some b)
      .ok (w.add ⟨some b, lo, hi - lo⟩)

/-- Copy construction (slice.h:55, implicit; shared_ptr.h:52-55). -/
def World.copy (w : World α) (i : Nat) : Except Err (World α) := do
  let s ← w.sl i
  let w ← w.acquire s.buf
  .ok (w.add s)

/-- Assignment (slice.h:55, implicit; `reset` in shared_ptr.h:84-90: release, then acquire, if the buffers are different). -/
def World.assign (w : World α) (i j : Nat) : Except Err (World α) := do
  let s ← w.sl i
  let t ← w.sl j
  if s.buf = t.buf then .ok (w.put i (some t))
  else do
    let w ← w.release s.buf
    let w ← w.acquire t.buf
    .ok (w.put i (some t))

/-- Destruction (slice.h:55, implicit; shared_ptr.h:68-70). -/
def World.destroy (w : World α) (i : Nat) : Except Err (World α) := do
  let s ← w.sl i
  let w ← w.release s.buf
  .ok (w.put i none)

/-- `reslice` (slice.h:126-141). -/
def World.reslice (w : World α) (i lo hi : Nat) : Except Err (World α) := do
  let s ← w.sl i
  let cap ← w.cap s
  if lo > hi then .error .panic
  else if hi > cap then .error .panic
  else if s.buf.isSome then .ok (w.put i (some ⟨s.buf, s.off + lo, hi - lo⟩))
  else .ok w

/-- `extend` (slice.h:146-156). The result is the position of the returned pointer. -/
def World.extend (w : World α) (i n : Nat) : Except Err (World α × Nat) := do
  let s ← w.sl i
  if s.buf = none then .error .panic
  else if n = 0 then .error .panic
  else do
    let w ← w.reslice i 0 ((s.size + n) % M)
    .ok (w, s.off + s.size)

/-- `subslice` (slice.h:162-177). -/
def World.sub (w : World α) (i lo hi : Nat) : Except Err (World α) := do
  let s ← w.sl i
  if lo > hi then .error .panic
  else if hi > s.size then .error .panic
  else do
    let w ← w.acquire s.buf
    .ok (w.add ⟨s.buf, s.off + lo, hi - lo⟩)

/-- `operator[]` (slice.h:190-199): buffer and position of the element. -/
def World.index (w : World α) (i k : Nat) : Except Err (Nat × Nat) := do
  let s ← w.sl i
  match s.buf with
  | none => .error .panic
  | some b => if k > s.size then .error .panic else .ok (b, s.off + k)

/-- Reading through `operator[]` (slice.h:198). -/
def World.get (w : World α) (i k : Nat) : Except Err α := do
  let (b, j) ← w.index i k
  let c ← w.mem b
  match c[j]? with
  | some x => .ok x
  | none => .error .ub

/-- Writing through `operator[]` (slice.h:198). -/
def World.set (w : World α) (i k : Nat) (x : α) : Except Err (World α) := do
  let (b, j) ← w.index i k
  match w.bufs[b]? with
  | some ⟨some c, n⟩ => if j < c.length then .ok { w with bufs := w.bufs.set b ⟨some (c.set j x), n⟩ } else .error .ub
  | _ => .error .ub

end Verif.Slice
