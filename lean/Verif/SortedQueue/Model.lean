import Verif.Units.Model

/-!
# Sorted packet queue

Model of `src/internal_modules/roc_packet/sorted_queue.cpp`. The packet type and its virtual
`compare` are parameters; `Rtp.compare` and `Fec.compare` below are the two instances.
The intrusive list is a Lean list, front first. Null packets (`roc_panic`) are excluded by
typing. All status codes are `StatusOK`, except for `read` from an empty queue (`none`).
-/

namespace Verif.SortedQueue

/-- `SortedQueue` fields (roc_packet/sorted_queue.h, sorted_queue.cpp:17-19). -/
structure Queue (P : Type) where
  /-- `list_`, front first -/
  list : List P
  /-- `latest_` -/
  latest : Option P
  /-- `max_size_`, zero means unlimited -/
  maxSize : Nat

/-- Constructor (roc_packet/sorted_queue.cpp:17-19). -/
def Queue.init (P : Type) (maxSize : Nat) : Queue P := ⟨[], none, maxSize⟩

variable {P : Type}

/-- The search loop and insertion of `SortedQueue::write` (roc_packet/sorted_queue.cpp:48-69).
`none` means that a duplicate was found (line 57-60). -/
def insert (cmp : P → P → Int) (p : P) : List P → Option (List P)
  | [] => some [p]
  | x :: xs =>
    if cmp p x < 0 then (insert cmp p xs).map (x :: ·)
    else if cmp p x = 0 then none
    else some (p :: x :: xs)

/-- `SortedQueue::write` (roc_packet/sorted_queue.cpp:31-72). -/
def Queue.write (cmp : P → P → Int) (q : Queue P) (p : P) : Queue P :=
  if q.maxSize > 0 ∧ q.list.length = q.maxSize then q
  else
    let latest := match q.latest with
      | none => some p
      | some l => if cmp l p ≤ 0 then some p else some l
    match insert cmp p q.list with
    | none => { q with latest := latest }
    | some l => { q with list := l, latest := latest }

/-- `SortedQueue::read` (roc_packet/sorted_queue.cpp:21-29). -/
def Queue.read (q : Queue P) : Option P × Queue P :=
  match q.list.getLast? with
  | none => (none, q)
  | some p => (some p, { q with list := q.list.dropLast })

/-- `SortedQueue::head` (roc_packet/sorted_queue.cpp:78-80). -/
def Queue.head (q : Queue P) : Option P := q.list.getLast?

/-- `SortedQueue::tail` (roc_packet/sorted_queue.cpp:82-84). -/
def Queue.tail (q : Queue P) : Option P := q.list.head?

/-- `RTP::compare` (roc_packet/rtp.cpp:24-32) on sequence numbers. -/
def rtpCompare (a b : Units.Seqnum) : Int :=
  if Units.snLt a b then -1 else if a = b then 0 else 1

/-- `FEC::compare` (roc_packet/fec.cpp:23-37) on (source block number, symbol id). -/
def fecCompare (a b : Units.Blknum × Nat) : Int :=
  if Units.blkLt a.1 b.1 then -1
  else if a.1 = b.1 then
    if a.2 < b.2 then -1 else if a.2 = b.2 then 0 else 1
  else 1

/-- One API call on the queue. (Part of the model of roc_packet/sorted_queue.h:27-76.) -/
inductive Op (P : Type) where
  | write (p : P)
  | read

/-- Effect of a call sequence (not in the source: it is the client). Returns the final queue
and the packets returned by the `read` calls, in order. (Part of the model of roc_packet/sorted_queue.h:27-76.) -/
def run (cmp : P → P → Int) : Queue P → List (Op P) → Queue P × List P
  | q, [] => (q, [])
  | q, .write p :: ops => run cmp (q.write cmp p) ops
  | q, .read :: ops =>
    let r := run cmp q.read.2 ops
    (r.1, q.read.1.toList ++ r.2)

end Verif.SortedQueue
