/-!
# Single producer, single consumer buffer

Model of `src/internal_modules/roc_core/spsc_byte_buffer.cpp` (and of
`roc_core/spsc_ring_buffer.h`, whose `push_back`/`pop_front` are begin, copy, end) as a transition
system of one writer and one reader. A step is one atomic access to a position, or one store
into the chunk handed out to the writer. Memory is sequentially consistent (the accesses that
synchronise the threads are `seq_cst`; each relaxed load is of a variable only its own thread
writes). The content of a chunk is one value of an arbitrary type.
-/

namespace Verif.Spsc

/-- The writer thread. (Part of the model of roc_core/spsc_byte_buffer.cpp:15-71.) -/
inductive WPc (β : Type) where
  | idle
  /-- in `begin_write`, has loaded `write_pos_` (spsc_byte_buffer.cpp:57) -/
  | loaded (wr : BitVec 32)
  /-- `begin_write` returned this chunk; `cur` is what the writer has put into it so far -/
  | writing (slot : Nat) (cur : β)

/-- The reader thread. (Part of the model of roc_core/spsc_byte_buffer.cpp:15-71.) -/
inductive RPc where
  | idle
  /-- in `begin_read`, has loaded `read_pos_` (spsc_byte_buffer.cpp:76) -/
  | loaded (rd : BitVec 32)
  /-- `begin_read` returned this chunk -/
  | reading (slot : Nat)

/-- Fields of `SpscByteBuffer` (spsc_byte_buffer.h:69-76): `count` is `chunk_count_`. The lists are
ghosts: chunks committed by `end_write` and chunks consumed by `end_read`. -/
structure State (β : Type) where
  count : Nat
  rpos : BitVec 32
  wpos : BitVec 32
  mem : Nat → β
  w : WPc β
  r : RPc
  written : List β
  popped : List β

/-- Constructor (spsc_byte_buffer.cpp:15-33); `fill` is the initial content of the memory. -/
def State.init {β : Type} (nChunks : Nat) (fill : Nat → β) : State β :=
  ⟨nChunks + 1, 0, 1, fill, .idle, .idle, [], []⟩

/-- Scheduler choices. (Part of the model of roc_core/spsc_byte_buffer.cpp:15-71.) -/
inductive Step (β : Type) where
  | wBegin
  | wLoad
  | wStore (v : β)
  | wEnd
  | rBegin
  | rLoad
  | rEnd

/-- One step; a step that does not fit the thread's state does nothing.
* `wBegin`, `wLoad`: `begin_write` (spsc_byte_buffer.cpp:54-65). The difference of the positions is
  a 32-bit number compared with the `size_t` count; on failure NULL is returned.
* `wStore`: the writer fills the chunk.
* `wEnd`: `end_write` (67-71).
* `rBegin`, `rLoad`: `begin_read` (73-84).
* `rEnd`: `end_read` (86-90); what the reader got is the content of the chunk. -/
def State.step {β : Type} (s : State β) : Step β → State β
  | .wBegin =>
    match s.w with
    | .idle => { s with w := .loaded s.wpos }
    | _ => s
  | .wLoad =>
    match s.w with
    | .loaded wr =>
      if (wr - s.rpos).toNat ≥ s.count then { s with w := .idle }
      else { s with w := .writing (wr.toNat % s.count) (s.mem (wr.toNat % s.count)) }
    | _ => s
  | .wStore v =>
    match s.w with
    | .writing slot _ => { s with mem := fun k => if k = slot then v else s.mem k, w := .writing slot v }
    | _ => s
  | .wEnd =>
    match s.w with
    | .writing _ cur => { s with wpos := s.wpos + 1, w := .idle, written := s.written ++ [cur] }
    | _ => s
  | .rBegin =>
    match s.r with
    | .idle => { s with r := .loaded s.rpos }
    | _ => s
  | .rLoad =>
    match s.r with
    | .loaded rd =>
      if rd + 1 = s.wpos then { s with r := .idle }
      else { s with r := .reading ((rd + 1).toNat % s.count) }
    | _ => s
  | .rEnd =>
    match s.r with
    | .reading slot => { s with rpos := s.rpos + 1, r := .idle, popped := s.popped ++ [s.mem slot] }
    | _ => s

/-- States reachable by any interleaving. (Part of the model of roc_core/spsc_byte_buffer.cpp:15-71.) -/
inductive Reach {β : Type} (nChunks : Nat) (fill : Nat → β) : State β → Prop where
  | init : Reach nChunks fill (State.init nChunks fill)
  | step {s : State β} (st : Step β) : Reach nChunks fill s → Reach nChunks fill (s.step st)

/-- `is_empty` (spsc_byte_buffer.cpp:45-52), both loads taken in one state. -/
def State.isEmpty {β : Type} (s : State β) : Bool := s.rpos + 1 == s.wpos

end Verif.Spsc
