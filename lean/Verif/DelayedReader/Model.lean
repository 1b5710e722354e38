import Verif.SortedQueue.Model

/-!
# Start-up delay queue

Model of `src/internal_modules/roc_packet/delayed_reader.cpp`. The inner reader is a script: the list of
results of its next `read` calls (an exhausted script gives `NoData` for ever). `delay_` is given
in samples: the conversion from nanoseconds (line 28-30) is not part of this model. Writing to
the queue always succeeds (sorted_queue.cpp:31-72 returns `StatusOK` on every path), so the
panic of line 74 is unreachable. Logging is not modelled.
-/

namespace Verif.DelayedReader

open Verif.SortedQueue

/-- The packet fields in use: RTP sequence number (queue order), `stream_timestamp()`, `duration()`. (roc_packet/packet.h:31-169) -/
structure Pkt where
  seq : Units.Seqnum
  ts : Units.Timestamp
  dur : Units.Timestamp
deriving DecidableEq, Repr

/-- Result of a `read` call: a packet, `StatusNoData`, or any other status. (Part of the model of roc_packet/delayed_reader.cpp:19-137.) -/
inductive Res where
  | ok (p : Pkt)
  | noData
  | err (code : Nat)
deriving DecidableEq, Repr

/-- `Packet::compare` for RTP packets (roc_packet/packet.cpp:173-187, rtp.cpp:24-32). -/
def cmp (a b : Pkt) : Int := rtpCompare a.seq b.seq

/-- Mutable fields of `DelayedReader` (delayed_reader.cpp:22-27). -/
structure St where
  queue : Queue Pkt
  started : Bool

/-- Constructor (delayed_reader.cpp:19-36). -/
def init : St := ⟨Queue.init Pkt 0, false⟩

/-- `DelayedReader::queue_size_` (delayed_reader.cpp:121-137), as an unsigned number. -/
def queueSize (q : Queue Pkt) : Nat :=
  match q.tail, q.head with
  | some t, some h =>
    let qs := Units.tsDiff (t.ts + t.dur) h.ts
    if qs < 0 then 0 else qs.toNat
  | _, _ => 0

/-- The loop of `fetch_packets_` (delayed_reader.cpp:62-75): the queue, the rest of the script, and
the error which ended the loop, if any. -/
def fetchLoop (q : Queue Pkt) : List Res → Queue Pkt × List Res × Option Nat
  | [] => (q, [], none)
  | .ok p :: inner => fetchLoop (q.write cmp p) inner
  | .noData :: inner => (q, inner, none)
  | .err c :: inner => (q, inner, some c)

/-- `read_queued_packet_` (delayed_reader.cpp:92-119). `pp` is the output parameter. The loop
ends because each iteration removes a packet (`fuel` is the queue length plus one). When the
queue runs empty (line 97) the result is `NoData`. -/
def readQueued (delay : Nat) : Nat → Queue Pkt → Res × Queue Pkt
  | 0, q => (.noData, q)
  | fuel + 1, q =>
    match q.read with
    | (none, q) => (.noData, q)
    | (some p, q) => if queueSize q < delay then (.ok p, q) else readQueued delay fuel q

/-- `DelayedReader::read` (delayed_reader.cpp:42-59), with `fetch_packets_` (61-90) inlined. -/
def read (delay : Nat) (s : St) (inner : List Res) : Res × St × List Res :=
  let afterStart := fun (q : Queue Pkt) (inner : List Res) =>
    if q.list.length ≠ 0 then
      let r := readQueued delay (q.list.length + 1) q
      (r.1, (⟨r.2, true⟩ : St), inner)
    else match inner with
      | [] => (.noData, ⟨q, true⟩, [])
      | r :: inner => (r, ⟨q, true⟩, inner)
  if s.started then afterStart s.queue inner
  else
    match fetchLoop s.queue inner with
    | (q, inner, some c) => (.err c, ⟨q, false⟩, inner)
    | (q, inner, none) =>
      if queueSize q < delay then (.noData, ⟨q, false⟩, inner)
      else afterStart q inner

/-- A number of consecutive reads (the client): results in order, final state. (Part of the model of roc_packet/delayed_reader.cpp:19-137.) -/
def reads (delay : Nat) : Nat → St → List Res → List Res × St × List Res
  | 0, s, inner => ([], s, inner)
  | n + 1, s, inner =>
    let r := read delay s inner
    let rest := reads delay n r.2.1 r.2.2
    (r.1 :: rest.1, rest.2)

end Verif.DelayedReader
