/-!
# Multi-producer, single-consumer queue

Model of `src/internal_modules/roc_core/mpsc_queue_impl.cpp` as a transition system: any number of
threads in `push_back`, one thread in `pop_front`. A step is one access to shared memory
(sequentially consistent). Nodes are numbers, the embedded `stub_` is node 0. `head_` is used by
the consumer only.
-/

namespace Verif.Mpsc

/-- `&stub_` (mpsc_queue_impl.h:48). -/
abbrev stub : Nat := 0

/-- A thread in `push_back` (mpsc_queue_impl.cpp:27-30, 40-44). -/
inductive Prod where
  | idle
  /-- about to store NULL to `node->next` (41) -/
  | clear (node : Nat)
  /-- about to exchange `tail_` (42) -/
  | xchg (node : Nat)
  /-- about to store `prev->next` (43) -/
  | link (prev node : Nat)
deriving DecidableEq, Repr

/-- The thread in `pop_front` (mpsc_queue_impl.cpp:32-38, 46-91). -/
inductive Cons where
  | idle
  /-- about to load `head->next` (47-48) -/
  | start
  /-- head is the stub without successor: about to load `tail_` (52) -/
  | tail1
  /-- waiting for the stub's successor (58) -/
  | wait1
  /-- the stub was removed: about to load `next->next` (67) -/
  | second
  /-- head has no successor: about to load `tail_` (73) -/
  | tail2
  /-- `push_node_(&stub_)` (77): about to clear, exchange, link -/
  | sclear | sxchg
  | slink (prev : Nat)
  /-- waiting for the successor of head (81) -/
  | wait2
  /-- about to give up the ownership of the popped node (35) -/
  | release (node : Nat)
deriving DecidableEq, Repr

/-- What `pop_front` returned last. (Part of the model of roc_core/mpsc_queue_impl.cpp:16-127.) -/
inductive Ret where
  | none
  /-- NULL, because the queue was seen empty (54) -/
  | empty
  /-- NULL, because a push in progress was not waited for (60, 83) -/
  | gaveUp
  | node (x : Nat)
  /-- panic in `change_owner_` (132) -/
  | panic
deriving DecidableEq, Repr

/-- Fields of `MpscQueueImpl` (mpsc_queue_impl.h:45-48) and `MpscQueueData` (mpsc_queue_node.h:24-35).
`owner` says whether `queue` of a node points to this queue. `pushed` and `popped` are ghosts: the
nodes in the order in which `tail_` was exchanged, and in the order in which they were removed. -/
structure State where
  head : Nat
  tail : Nat
  next : Nat → Option Nat
  owner : Nat → Bool
  prod : Nat → Prod
  cons : Cons
  spin : Bool
  ret : Ret
  pushed : List Nat
  popped : List Nat

/-- Constructor (mpsc_queue_impl.cpp:16-19). -/
def State.init : State := ⟨stub, stub, fun _ => none, fun _ => false, fun _ => .idle, .idle, false, .none, [], []⟩

/-- Function update. (Part of the model of roc_core/mpsc_queue_impl.cpp:16-127.) -/
def upd {γ : Type} (f : Nat → γ) (t : Nat) (v : γ) : Nat → γ := fun k => if k = t then v else f k

/-- One step of a thread in `push_node_` (mpsc_queue_impl.cpp:40-44). -/
def State.prodStep (s : State) (t : Nat) : State :=
  match s.prod t with
  | .idle => s
  | .clear x => { s with next := upd s.next x none, prod := upd s.prod t (.xchg x) }
  | .xchg x => { s with tail := x, prod := upd s.prod t (.link s.tail x), pushed := s.pushed ++ [x] }
  | .link p x => { s with next := upd s.next p (some x), prod := upd s.prod t .idle }

/-- `head_ = next; return head` (mpsc_queue_impl.cpp:88-90). -/
def State.pop (s : State) (n : Nat) : State :=
  { s with head := n, cons := .release s.head, popped := s.popped ++ [s.head] }

/-- One step of the thread in `pop_front` (mpsc_queue_impl.cpp:32-38, 46-127). `giveUp` says
whether `try_wait_next_` (115-127) ends after this load; `wait_next_` (99-109) never does. -/
def State.consStep (s : State) (giveUp : Bool) : State :=
  match s.cons with
  | .idle => s
  | .start =>
    match s.next s.head with
    | none => if s.head = stub then { s with cons := .tail1 } else { s with cons := .tail2 }
    | some n => if s.head = stub then { s with head := n, cons := .second } else s.pop n
  | .tail1 =>
    if s.tail = s.head then { s with cons := .idle, ret := .empty } else { s with cons := .wait1 }
  | .wait1 =>
    match s.next s.head with
    | none => if giveUp && !s.spin then { s with cons := .idle, ret := .gaveUp } else s
    | some n => { s with head := n, cons := .second }
  | .second =>
    match s.next s.head with
    | none => { s with cons := .tail2 }
    | some n => s.pop n
  | .tail2 => if s.tail = s.head then { s with cons := .sclear } else { s with cons := .wait2 }
  | .sclear => { s with next := upd s.next stub none, cons := .sxchg }
  | .sxchg => { s with tail := stub, cons := .slink s.tail }
  | .slink p => { s with next := upd s.next p (some stub), cons := .wait2 }
  | .wait2 =>
    match s.next s.head with
    | none => if giveUp && !s.spin then { s with cons := .idle, ret := .gaveUp } else s
    | some n => s.pop n
  | .release x =>
    if s.owner x then { s with owner := upd s.owner x false, cons := .idle, ret := .node x }
    else { s with cons := .idle, ret := .panic }

/-- One step of the system.
* `push`: a thread calls `push_back` with an element that is in no queue (27-28; otherwise
  `change_owner_` panics).
* `pop`: the consumer calls `pop_front`. -/
inductive Step : State → State → Prop where
  | push (s : State) (t x : Nat) : s.prod t = .idle → x ≠ stub → s.owner x = false →
      Step s { s with owner := upd s.owner x true, prod := upd s.prod t (.clear x) }
  | prod (s : State) (t : Nat) : Step s (s.prodStep t)
  | pop (s : State) (spin : Bool) : s.cons = .idle → Step s { s with cons := .start, spin := spin }
  | cons (s : State) (giveUp : Bool) : Step s (s.consStep giveUp)

/-- States reachable by any interleaving. (Part of the model of roc_core/mpsc_queue_impl.cpp:16-127.) -/
inductive Reach : State → Prop where
  | init : Reach State.init
  | step {s s' : State} : Reach s → Step s s' → Reach s'

end Verif.Mpsc
