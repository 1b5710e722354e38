/-!
# Memory limiter

Model of `src/internal_modules/roc_core/memory_limiter.cpp` as a transition system. Any number
of threads; a step is one atomic access to `bytes_acquired_`; memory is sequentially
consistent. `total` is a ghost counter: bytes granted and not yet released.
-/

namespace Verif.MemoryLimiter

/-- What a thread is doing. (roc_core/memory_limiter.h:27-54) -/
inductive Pc where
  /-- outside of the limiter -/
  | idle
  /-- in `acquire(n)`, about to read `bytes_acquired_` (memory_limiter.cpp:37) -/
  | start (n : Nat)
  /-- in `acquire(n)`, has read `cur`, about to compare and exchange (memory_limiter.cpp:42) -/
  | loaded (n cur : Nat)
deriving DecidableEq, Repr

/-- Shared and per-thread state. `max` is `max_bytes_`, `acq` is `bytes_acquired_` (both
`size_t`), roc_core/memory_limiter.h:52-53. -/
structure State where
  max : Nat
  acq : Nat
  pc : Nat → Pc
  total : Nat
  panicked : Bool

/-- Constructor (roc_core/memory_limiter.cpp:17-21). -/
def State.init (max : Nat) : State := ⟨max, 0, fun _ => .idle, 0, false⟩

/-- Program counter update. (Part of the model of roc_core/memory_limiter.cpp:17-53.) -/
def upd (f : Nat → Pc) (t : Nat) (v : Pc) : Nat → Pc := fun k => if k = t then v else f k

/-- Scheduler choices. (Part of the model of roc_core/memory_limiter.cpp:17-53.) -/
inductive Step where
  /-- thread `t` calls `acquire(n)` -/
  | call (t n : Nat)
  /-- thread `t` performs its next atomic step inside `acquire` -/
  | run (t : Nat)
  /-- some thread calls `release(n)` -/
  | release (n : Nat)
deriving DecidableEq, Repr

/-- One step.
* `call`: `acquire` entry, panic on zero (memory_limiter.cpp:31-34).
* `run` on `start`: load, then the limit check on the sum modulo 2^64 (37-41); a failed check
  leaves the loop and returns false (51).
* `run` on `loaded`: compare and exchange (42-44); on failure the loop repeats (45-46).
* `release`: the fetch-and-subtract and the check of 55-66. -/
def State.step (s : State) : Step → State
  | .call t n =>
    match s.pc t with
    | .idle => if n = 0 then { s with panicked := true } else { s with pc := upd s.pc t (.start n) }
    | _ => s
  | .run t =>
    match s.pc t with
    | .idle => s
    | .start n =>
      if 0 < s.max ∧ (s.acq + n) % 2 ^ 64 > s.max then { s with pc := upd s.pc t .idle }
      else { s with pc := upd s.pc t (.loaded n s.acq) }
    | .loaded n cur =>
      if s.acq = cur then
        { s with acq := (cur + n) % 2 ^ 64, pc := upd s.pc t .idle, total := s.total + n }
      else { s with pc := upd s.pc t (.start n) }
  | .release n =>
    let next := (s.acq + 2 ^ 64 - n) % 2 ^ 64
    let prev := (next + n) % 2 ^ 64
    { s with acq := next, total := s.total - n,
             panicked := s.panicked || decide (n = 0) || decide (next > prev) }

/-- What callers must obey: sizes are `size_t`; only granted memory is released. (Part of the model of roc_core/memory_limiter.cpp:17-53.) -/
def State.legal (s : State) : Step → Prop
  | .call _ n => 0 < n ∧ n < 2 ^ 64
  | .run _ => True
  | .release n => 0 < n ∧ n ≤ s.total

/-- All states reachable by legal steps in which every request satisfies `ok`. (Part of the model of roc_core/memory_limiter.cpp:17-53.) -/
inductive Reach (max : Nat) (ok : Nat → Prop) : State → Prop where
  | init : Reach max ok (State.init max)
  | step {s : State} (st : Step) : Reach max ok s → s.legal st →
      (∀ t n, st = .call t n → ok n) → Reach max ok (s.step st)

end Verif.MemoryLimiter
