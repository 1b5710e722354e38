/-!
# Heap arena

Model of `src/internal_modules/roc_core/heap_arena.cpp` and `memory_ops.cpp`, on a 64-bit platform
(`sizeof(ChunkHeader)` is 16, `sizeof(ChunkCanary)` is 8).

Memory is a function from addresses to bytes. `malloc` is an arbitrary choice: it returns null or the
address of a block that is disjoint from all blocks in use. The two words of a chunk header are kept in a
function of their own, indexed by the address of the chunk; overwriting a header is not modelled. The
content of a freed block stays in memory until it is given out again. Outcomes other than a result: an
abort (`roc_panic`); an access outside of the allocated block; `free` of memory that is not allocated.

Several arenas share the memory and the guards (a static member). Calls are atomic: the shared members
are atomic counters, and a chunk is used by one thread at a time.
-/

namespace Verif.HeapArena

/-- Outcomes other than a result. (Part of the model of roc_core/heap_arena.cpp:27-157.) -/
inductive Err where
  | panic
  | outside
  | badFree
deriving DecidableEq, Repr

/-- Memory, header words (owner and size, `heap_arena.h:97-104`), blocks given out by `malloc` (address,
length), and for each arena the counters `num_allocations_` and `num_guard_failures_`; the guards
(`heap_arena.h:110-114`). -/
structure World where
  mem : Nat → Nat
  hdr : Nat → Nat × Nat
  blocks : List (Nat × Nat)
  cnt : Nat → Int
  fails : Nat → Nat
  guards : Nat

/-- `HeapArenaGuard` (`heap_arena.h:23-30`). -/
def leakGuard : Nat := 1
/-- `heap_arena.h:27`. -/
def overflowGuard : Nat := 2
/-- `heap_arena.h:29`. -/
def ownershipGuard : Nat := 4
/-- `HeapArena_DefaultGuards` (`heap_arena.h:37`). -/
def defaultGuards : Nat := overflowGuard ||| ownershipGuard

/-- `Pattern_BeforeUse`, `Pattern_AfterUse`, `Pattern_Canary` (`memory_ops.h:44-48`). -/
def beforeUse : Nat := 0x7a
/-- `memory_ops.h:46`. -/
def afterUse : Nat := 0x7d
/-- `memory_ops.h:47`. -/
def canary : Nat := 0x7b

/-- `memset`, as in `poison_before_use`, `poison_after_use`, `prepare_canary`
(`memory_ops.cpp:15-48`). -/
def fill (mem : Nat → Nat) (lo len v : Nat) : Nat → Nat :=
  fun x => if lo ≤ x ∧ x < lo + len then v else mem x

/-- `check_canary` (`memory_ops.cpp:50-67`). -/
def checkCanary (mem : Nat → Nat) (lo len : Nat) : Bool :=
  match len with
  | 0 => true
  | n + 1 => if mem lo ≠ canary then false else checkCanary mem (lo + 1) n

/-- `compute_allocated_size` (`heap_arena.cpp:128-130`), a `size_t`. -/
def chunkSize (size : Nat) : Nat := (16 + 8 + size + 8) % 2 ^ 64

/-- The address may be returned by `malloc` for this length: it is not null and the block is disjoint from
all others. (Part of the model of roc_core/heap_arena.cpp:27-157.) -/
def World.fresh (w : World) (c n : Nat) : Bool :=
  decide (0 < c) && w.blocks.all fun b => decide (c + n ≤ b.1 ∨ b.1 + b.2 ≤ c)

/-- One counter. (Part of the model of roc_core/heap_arena.cpp:27-157.) -/
def upd {α : Type} (f : Nat → α) (a : Nat) (v : α) : Nat → α := fun i => if i = a then v else f i

/-- `allocate` (`heap_arena.cpp:48-76`) by the arena `a`; `m` is what `malloc` returns. Nothing: `malloc`
can not return this. -/
def World.alloc (w : World) (a size : Nat) (m : Option Nat) : Option (Except Err (World × Option Nat)) :=
  match m with
  | none => some (.ok (w, none))
  | some c =>
    if w.fresh c (chunkSize size) = false then none
    else if chunkSize size < 16 + 8 + size + 8 then some (.error .outside)
    else
      let mem := fill w.mem (c + 16) 8 canary
      let mem := fill mem (c + 24) size beforeUse
      let mem := fill mem (c + 24 + size) 8 canary
      some (.ok ({ w with
        mem, hdr := upd w.hdr c (a, size), blocks := (c, chunkSize size) :: w.blocks,
        cnt := upd w.cnt a (w.cnt a + 1) }, some (c + 24)))

/-- `report_guard_` (`heap_arena.cpp:154-157`). -/
def World.report (w : World) (a guard : Nat) : World × Bool :=
  ({ w with fails := upd w.fails a (w.fails a + 1) }, w.guards &&& guard != 0)

/-- `free`. (Part of the model of roc_core/heap_arena.cpp:27-157.) -/
def World.free (w : World) (c : Nat) : Except Err World :=
  if w.blocks.any fun b => b.1 == c then .ok { w with blocks := w.blocks.filter fun b => b.1 != c }
  else .error .badFree

/-- `heap_arena.cpp:118-126`: the end of `deallocate`. -/
def World.release (w : World) (a c size : Nat) : Except Err World :=
  let n := w.cnt a
  let w := { w with cnt := upd w.cnt a (n - 1) }
  if n = 0 then .error .panic
  else { w with mem := fill w.mem (c + 24) size afterUse }.free c

/-- `deallocate` (`heap_arena.cpp:78-126`) by the arena `a`; the chunk is 24 bytes before the pointer. -/
def World.dealloc (w : World) (a p : Nat) : Except Err World :=
  if p = 0 then .error .panic
  else
    let c := p - 24
    if (w.hdr c).1 ≠ a then
      let r := w.report a ownershipGuard
      if r.2 then .error .panic else .ok r.1
    else
      let size := (w.hdr c).2
      if checkCanary w.mem (c + 16) 8 && checkCanary w.mem (c + 24 + size) 8 then w.release a c size
      else
        let r := w.report a overflowGuard
        if r.2 then .error .panic else r.1.release a c size

/-- `allocated_size` (`heap_arena.cpp:132-152`). -/
def World.allocatedSize (w : World) (a p : Nat) : Except Err (World × Nat) :=
  if p = 0 then .error .panic
  else
    let c := p - 24
    if (w.hdr c).1 ≠ a then
      let r := w.report a ownershipGuard
      if r.2 then .error .panic else .ok (r.1, 0)
    else .ok (w, chunkSize (w.hdr c).2)

/-- The destructor (`heap_arena.cpp:27-34`). -/
def World.destroy (w : World) (a : Nat) : Except Err World :=
  if w.cnt a ≠ 0 then
    let r := w.report a leakGuard
    if r.2 then .error .panic else .ok r.1
  else .ok w

end Verif.HeapArena
