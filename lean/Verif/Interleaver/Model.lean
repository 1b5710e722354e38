/-!
# Packet interleaver and bounded random numbers

Model of `src/internal_modules/roc_packet/interleaver.cpp` and of `fast_random_range` of
`src/internal_modules/roc_core/fast_random.cpp`.

Simplifications: the arrays `packets_` and `send_seq_` are total functions on indices (that
only indices below the block size are used is a theorem, see `Props.lean`); the downstream
writer is a predicate `w` telling for each packet whether the writer accepts it during the
call; construction never fails to allocate.
-/

namespace Verif.Interleaver

/-- `fast_random_range` (roc_core/fast_random.cpp:49-67). `zs` are the successive values of
`fast_random()` (each a `uint32_t`). `none` is `roc_panic`; `some (v, k)` is the result and
the number of random values consumed. If `zs` ends before the loop exits, the result is
`none` as well. -/
def fastRandomRange (from_ to : Nat) : List Nat → Option (Nat × Nat)
  | [] => none
  | z :: zs =>
    if to < from_ then none
    else
      let range := to - from_ + 1
      let r := z % range
      -- `z - r > -range` in uint64_t
      if z - r > (2 ^ 64 - range) % 2 ^ 64 then
        (fastRandomRange from_ to zs).map (fun x => (x.1, x.2 + 1))
      else
        let ret := (from_ + r % 2 ^ 32) % 2 ^ 32
        if ret < from_ ∨ to < ret then none else some (ret, 1)

/-- Function update, used for array assignment. (Part of the model of roc_packet/interleaver.h:25-69.) -/
def upd {α : Type} (f : Nat → α) (i : Nat) (v : α) : Nat → α := fun k => if k = i then v else f k

/-- The swap in the body of the shuffle loop (roc_packet/interleaver.cpp:100-102). -/
def swap (f : Nat → Nat) (i j : Nat) : Nat → Nat := upd (upd f i (f j)) j (f i)

/-- `Interleaver::reinit_seq_` (roc_packet/interleaver.cpp:94-104). `rnd i` is the value
returned by `fast_random_range(0, i - 1)` in the iteration `i`; the loop counts `i` down
from the block size to 1. -/
def shuffle (rnd : Nat → Nat) : Nat → (Nat → Nat) → (Nat → Nat)
  | 0, f => f
  | i + 1, f => shuffle rnd i (swap f i (rnd (i + 1)))

/-- `send_seq_` after the constructor (roc_packet/interleaver.cpp:95-103). -/
def initSeq (rnd : Nat → Nat) (blockSize : Nat) : Nat → Nat := shuffle rnd blockSize (fun i => i)

/-- Fields of `Interleaver` (roc_packet/interleaver.h, interleaver.cpp:17-24). -/
structure State (P : Type) where
  blockSize : Nat
  /-- `send_seq_` -/
  seq : Nat → Nat
  /-- `packets_`; `none` is a null pointer -/
  packets : Nat → Option P
  /-- `next_2_put_` -/
  put : Nat
  /-- `next_2_send_` -/
  send : Nat

/-- Constructor (roc_packet/interleaver.cpp:17-44). -/
def State.init (P : Type) (blockSize : Nat) (seq : Nat → Nat) : State P :=
  ⟨blockSize, seq, fun _ => none, 0, 0⟩

variable {P : Type}

/-- The loop of `Interleaver::write` (roc_packet/interleaver.cpp:56-64). Returns the packets
accepted by the writer and whether the loop ended without an error. The number of
iterations is bounded by `fuel`; `Props.lean` proves that `blockSize` is enough for the
loop to exit by its own condition. -/
def sendLoop (w : P → Bool) : Nat → State P → State P × List P × Bool
  | 0, s => (s, [], true)
  | fuel + 1, s =>
    match s.packets (s.seq s.send) with
    | none => (s, [], true)
    | some p =>
      if w p then
        let r := sendLoop w fuel
          { s with packets := upd s.packets (s.seq s.send) none,
                   send := (s.send + 1) % s.blockSize }
        (r.1, p :: r.2.1, r.2.2)
      else (s, [], false)

/-- `Interleaver::write` (roc_packet/interleaver.cpp:50-67). -/
def State.write (w : P → Bool) (s : State P) (p : P) : State P × List P × Bool :=
  sendLoop w s.blockSize
    { s with packets := upd s.packets s.put (some p), put := (s.put + 1) % s.blockSize }

/-- The loop of `Interleaver::flush` (roc_packet/interleaver.cpp:72-83) over the indices
`is`. -/
def flushLoop (w : P → Bool) : List Nat → State P → State P × List P × Bool
  | [], s => (s, [], true)
  | i :: is, s =>
    match s.packets i with
    | none => flushLoop w is s
    | some p =>
      if w p then
        let r := flushLoop w is { s with packets := upd s.packets i none }
        (r.1, p :: r.2.1, r.2.2)
      else (s, [], false)

/-- `Interleaver::flush` (roc_packet/interleaver.cpp:69-88). -/
def State.flush (w : P → Bool) (s : State P) : State P × List P × Bool :=
  let r := flushLoop w (List.range s.blockSize) s
  if r.2.2 then ({ r.1 with put := 0, send := 0 }, r.2.1, true) else r

/-- One API call. (Part of the model of roc_packet/interleaver.h:25-69.) -/
inductive Op (P : Type) where
  | write (p : P)
  | flush

/-- Effect of a call sequence with a downstream writer that always succeeds. Returns the
final state and everything sent downstream. (Part of the model of roc_packet/interleaver.h:25-69.) -/
def run : State P → List (Op P) → State P × List P
  | s, [] => (s, [])
  | s, .write p :: ops =>
    let r := s.write (fun _ => true) p
    let r' := run r.1 ops
    (r'.1, r.2.1 ++ r'.2)
  | s, .flush :: ops =>
    let r := s.flush (fun _ => true)
    let r' := run r.1 ops
    (r'.1, r.2.1 ++ r'.2)

end Verif.Interleaver
