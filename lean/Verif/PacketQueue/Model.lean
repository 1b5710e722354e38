/-!
# Concurrent queue of packets: model

Model of `ConcurrentQueue` (`src/internal_modules/roc_packet/concurrent_queue.cpp`) as a transition system: any number of threads call `read` and
`write`, each step is one operation on the mutex, on the semaphore or on the queue inside.

Simplified: the queue inside is a list; `Verif.Mpsc` (C18) is about its implementation (`pop_front_exclusive` may have to wait there for a `push_back`
that has begun, roc_core/mpsc_queue.h:103-124). Packets are numbers; a packet that is in the queue is not written again. Counts of the semaphore
do not overflow. Lists `written` and `results` record what happened.
-/

namespace Verif.PacketQueue

/-- What a thread does next: nothing; in `read` (concurrent_queue.cpp:22-35) take the mutex, wait for the semaphore, take a packet, release the mutex and
return; in `write` (:37-49) push the packet, post the semaphore. -/
inductive Pc where
  | idle
  | lock
  | wait
  | pop
  | ret (x : Option Nat)
  | push (p : Nat)
  | post
deriving DecidableEq

/-- Members (concurrent_queue.h:51-53): is there a semaphore, its count, owner of the mutex, packets; program counters of threads. `written`: packets in
the order of `push_back`; `results`: what `read` returned, in the order in which the mutex was released (`none` is `StatusNoData`). -/
structure State where
  blocking : Bool
  sem : Nat
  owner : Option Nat
  queue : List Nat
  pc : Nat → Pc
  written : List Nat
  results : List (Option Nat)

/-- Constructor (concurrent_queue.cpp:16-20). -/
def State.init (blocking : Bool) : State := ⟨blocking, 0, none, [], fun _ => .idle, [], []⟩

/-- Sets the program counter of a thread (concurrent_queue.cpp:22-49). -/
def State.go (s : State) (t : Nat) (c : Pc) : State := { s with pc := fun u => if u = t then c else s.pc u }

/-- What happens: a thread calls `read` or `write`, or continues with its call (concurrent_queue.cpp:22-49). -/
inductive Ev where
  | read (t : Nat)
  | write (t : Nat) (p : Nat)
  | next (t : Nat)

/-- The next step of a call (concurrent_queue.cpp:22-49); nothing: the thread waits or is not in a call. -/
def State.next (s : State) (t : Nat) : Option State :=
  match s.pc t with
  | .idle => none
  | .lock => -- line 23
    if s.owner = none then some ({ s with owner := some t }.go t (if s.blocking then .wait else .pop)) else none
  | .wait => -- lines 25-27
    if 0 < s.sem then some ({ s with sem := s.sem - 1 }.go t .pop) else none
  | .pop => -- lines 29-32
    match s.queue with
    | [] => some (s.go t (.ret none))
    | p :: q => some ({ s with queue := q }.go t (.ret (some p)))
  | .ret x => -- lines 31, 34: the mutex is released
    some ({ s with owner := none, results := s.results ++ [x] }.go t .idle)
  | .push p => -- line 42
    some ({ s with queue := s.queue ++ [p], written := s.written ++ [p] }.go t (if s.blocking then .post else .idle))
  | .post => -- lines 44-46
    some ({ s with sem := s.sem + 1 }.go t .idle)

/-- An event; nothing: it is not possible (concurrent_queue.cpp:22-49). -/
def State.step (s : State) : Ev → Option State
  | .read t => if s.pc t = .idle then some (s.go t .lock) else none
  | .write t p => if s.pc t = .idle then some (s.go t (.push p)) else none
  | .next t => s.next t

/-- States that are reached by any interleaving (of calls of concurrent_queue.cpp:22-49). -/
inductive Reach (blocking : Bool) : State → Prop where
  | init : Reach blocking (.init blocking)
  | step {s s' : State} (e : Ev) : Reach blocking s → s.step e = some s' → Reach blocking s'

end Verif.PacketQueue
