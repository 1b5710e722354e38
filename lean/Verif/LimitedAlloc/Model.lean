import Verif.MemoryLimiter.Model

/-!
# Arenas and pools with a limit: model

Model of `LimitedArena` (`src/internal_modules/roc_core/limited_arena.cpp`) and `LimitedPool` (roc_core/limited_pool.cpp) which share one `MemoryLimiter`
(roc_core/memory_limiter.cpp, modelled in `Verif.MemoryLimiter`), used by any number of threads.

The allocators below are a `HeapArena` (roc_core/heap_arena.cpp) and pools with slots of some size (roc_core/slab_pool_impl.cpp). They are thread-safe and
are taken as one step, which returns a null pointer or any memory not in use, as the environment decides. Steps of the limiter are its atomic accesses.
-/

namespace Verif.LimitedAlloc

/-- The allocator that is limited: a heap arena, or a pool with the given size of slots (roc_core/limited_arena.h:23-48, limited_pool.h:23-52). -/
inductive Src where
  | arena
  | pool (slot : Nat)
deriving DecidableEq

/-- What is acquired from the limiter: `compute_allocated_size` of the heap arena (roc_core/heap_arena.cpp:128-130), in `size_t`, or `allocation_size` of the
pool (slab_pool_impl.cpp:117-120). -/
def Src.charge (r : Src) (size : Nat) : Nat :=
  match r with
  | .arena => (size + 32) % 2 ^ 64
  | .pool slot => slot

/-- Memory in use: address, allocator, requested size, which the heap arena keeps in the header (roc_core/heap_arena.cpp:71). -/
structure Block where
  ptr : Nat
  src : Src
  size : Nat

/-- What a thread is doing (roc_core/limited_arena.cpp:19-34, limited_pool.cpp:31-45). -/
inductive Pc where
  /-- outside of the allocators -/
  | idle
  /-- in `memory_limiter_.acquire` (limited_arena.cpp:21, limited_pool.cpp:33) -/
  | acquiring (r : Src) (size : Nat)
  /-- about to call `allocate` of the allocator below (limited_arena.cpp:22, limited_pool.cpp:34) -/
  | granted (r : Src) (size : Nat)
  /-- about to call `memory_limiter_.release` (limited_arena.cpp:24, 33, limited_pool.cpp:36, 44) -/
  | releasing (n : Nat)

/-- Limiter, memory in use, threads, and results of calls of `allocate` in the order of returning (roc_core/limited_arena.cpp:14-28). -/
structure Sys where
  lim : MemoryLimiter.State
  blocks : List Block
  pc : Nat → Pc
  results : List (Nat × Option Nat)

/-- Nothing is allocated (roc_core/limited_arena.cpp:14-17, limited_pool.cpp:14-17, memory_limiter.cpp:17-21). -/
def Sys.init (max : Nat) : Sys := ⟨.init max, [], fun _ => .idle, []⟩

/-- Program counter update (for roc_core/limited_arena.cpp:19-34). -/
def upd (f : Nat → Pc) (t : Nat) (v : Pc) : Nat → Pc := fun k => if k = t then v else f k

/-- Choices of the scheduler and of the environment (for roc_core/limited_arena.cpp:19-34). -/
inductive Step where
  /-- thread `t` calls `allocate` -/
  | call (t : Nat) (r : Src) (size : Nat)
  /-- thread `t` does its next atomic step inside of `acquire` -/
  | run (t : Nat)
  /-- the allocator below returns `m` to thread `t` -/
  | inner (t : Nat) (m : Option Nat)
  /-- thread `t` calls `deallocate` -/
  | free (t p : Nat)
  /-- thread `t` does the call of `release` -/
  | release (t : Nat)

/-- Is the address not in use (what an allocator guarantees, roc_core/heap_arena.cpp:48-76). -/
def Sys.fresh (s : Sys) (p : Nat) : Bool := s.blocks.all fun b => decide (b.ptr ≠ p)

/-- One step; a step that is not possible changes nothing.
* `call`: `allocate` until `acquire` is entered (roc_core/limited_arena.cpp:19-21, limited_pool.cpp:31-33).
* `run`: a step of `acquire`; when it returns false, `allocate` returns a null pointer (limited_arena.cpp:27, limited_pool.cpp:39).
* `inner`: `allocate` of the allocator below, and the test of its result (limited_arena.cpp:22-25, limited_pool.cpp:34-37).
* `free`: the allocator below is asked for the size and gets the memory back (limited_arena.cpp:31-32, limited_pool.cpp:43).
* `release`: limited_arena.cpp:24, 33, limited_pool.cpp:36, 44. -/
def Sys.step (s : Sys) : Step → Sys
  | .call t r size =>
    match s.pc t with
    | .idle => { s with lim := s.lim.step (.call t (r.charge size)), pc := upd s.pc t (.acquiring r size) }
    | _ => s
  | .run t =>
    match s.pc t with
    | .acquiring r size =>
      let lim := s.lim.step (.run t)
      match s.lim.pc t, lim.pc t with
      | .start _, .idle => { s with lim := lim, pc := upd s.pc t .idle, results := s.results ++ [(t, none)] }
      | .loaded _ _, .idle => { s with lim := lim, pc := upd s.pc t (.granted r size) }
      | _, _ => { s with lim := lim }
    | _ => s
  | .inner t m =>
    match s.pc t with
    | .granted r size =>
      match m with
      | none => { s with pc := upd s.pc t (.releasing (r.charge size)), results := s.results ++ [(t, none)] }
      | some p =>
        if s.fresh p then
          { s with blocks := ⟨p, r, size⟩ :: s.blocks, pc := upd s.pc t .idle, results := s.results ++ [(t, some p)] }
        else s
    | _ => s
  | .free t p =>
    match s.pc t with
    | .idle =>
      match s.blocks.find? fun b => decide (b.ptr = p) with
      | some b =>
        { s with blocks := s.blocks.eraseP fun b => decide (b.ptr = p), pc := upd s.pc t (.releasing (b.src.charge b.size)) }
      | none => s
    | _ => s
  | .release t =>
    match s.pc t with
    | .releasing n => { s with lim := s.lim.step (.release n), pc := upd s.pc t .idle }
    | _ => s

/-- A schedule (for roc_core/limited_arena.cpp:19-34). -/
def Sys.run (s : Sys) (l : List Step) : Sys := l.foldl Sys.step s

/-- Bytes charged for memory in use (sum over roc_core/limited_arena.cpp:20). -/
def Sys.used (s : Sys) : Nat := (s.blocks.map fun b => b.src.charge b.size).sum

end Verif.LimitedAlloc
