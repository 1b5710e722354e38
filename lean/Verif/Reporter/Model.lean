import Mathlib.Tactic.SplitIfs
import Mathlib.Tactic.Tauto

/-!
# RTCP reporter

Model of `src/internal_modules/roc_rtcp/reporter.cpp`: tracking of streams and destinations, collisions and timeouts.
Allocation succeeds. Contents of reports that do not influence control flow (counters, round-trip time, see
`Verif.PacketCounter`, `Verif.Rtt`) are not kept; the report of the pipeline about one receiving stream is one number.
The participant behaves as documented (participant interface, iparticipant.h), so `validate_send_report_` and
`validate_recv_report_` (reporter.cpp:1312-1387) pass; what it returns is an argument of every call. Failed allocation of packets and the writer of packets are not modelled.

Objects in the stream pool have identifiers that are never reused; a pointer to a stream is its identifier, and it is
dangling when no stream in the map has this identifier. A pointer to a report is an index in the array of reports.
-/

namespace Verif.Reporter

/-- `Reporter::Stream` (reporter.h:261-353). `recvTs` and `sendTs`: the timestamp of the report is not zero. -/
structure Stream where
  id : Nat
  ssrc : Nat
  cname : List Nat
  hasRecv : Bool
  recvTs : Bool
  hasSend : Bool
  sendTs : Bool
  report : Option Nat
  addr : Nat
  last : Int
  looped : Bool
deriving DecidableEq

/-- `Reporter::Address` (reporter.h:358-396). -/
structure Addr where
  addr : Nat
  send : List Nat
  recv : List Nat
  last : Int
deriving DecidableEq

/-- What the participant returns (reporter.cpp:989-1046): whether there is a sending stream, and the receiving streams (source and report). -/
structure Part where
  hasSend : Bool
  recvs : List (Nat × Nat)

/-- Members (reporter.h:420-479). `streams` and `addrs` are the maps in the order of iteration, `lru` and `addrLru` are
the lists. `dest` is the configured address, if any (`Report_ToAddress`). -/
structure St where
  src : Nat
  cname : List Nat
  dest : Option Nat
  timeout : Int
  hasSend : Bool
  recvs : List (Nat × Nat)
  streams : List Stream
  lru : List Nat
  addrs : List Addr
  addrLru : List Nat
  index : List Nat
  rebuild : Bool
  detected : Bool
  reported : Bool
  time : Int
  next : Nat
deriving DecidableEq

/-- Constructor (reporter.cpp:24-72). -/
def St.init (src : Nat) (cname : List Nat) (dest : Option Nat) (timeout : Int) : St :=
  ⟨src, cname, dest, timeout, false, [], [], [], [], [], [], true, false, false, 0, 0⟩

/-- Outcome of a call (panic as in reporter.cpp:1272-1275). -/
inductive Out (α : Type) where
  /-- `roc_panic` -/
  | abort
  /-- a dangling pointer is used -/
  | ub
  /-- the call does not return -/
  | hang
  | ok (a : α)
deriving DecidableEq

/-! ## Streams -/

/-- `stream_map_.find` (reporter.cpp:1391). -/
def St.find (s : St) (ssrc : Nat) : Option Stream := s.streams.find? (fun x => x.ssrc = ssrc)

/-- A new stream (reporter.h:264-286). -/
def newStream (id ssrc : Nat) (time : Int) : Stream := ⟨id, ssrc, [], false, false, false, false, none, 0, time, false⟩

/-- `find_stream_` with `AutoCreate` (reporter.cpp:1389-1419): the stream is in the map afterwards. -/
def St.ensure (s : St) (ssrc : Nat) : St :=
  match s.find ssrc with
  | some _ => s
  | none => { s with streams := s.streams ++ [newStream s.next ssrc s.time], lru := s.next :: s.lru, rebuild := true, next := s.next + 1 }

/-- Assignment to members of a stream (as in reporter.cpp:215-242). -/
def St.edit (s : St) (ssrc : Nat) (f : Stream → Stream) : St :=
  { s with streams := s.streams.map (fun x => if x.ssrc = ssrc then f x else x) }

/-- `remove_stream_` (reporter.cpp:1421-1429). -/
def St.remove (s : St) (x : Stream) : St :=
  { s with streams := s.streams.filter (fun y => y.id ≠ x.id), lru := s.lru.filter (fun i => i ≠ x.id), rebuild := true }

/-- `update_stream_` (reporter.cpp:1431-1440). -/
def St.update (s : St) (ssrc : Nat) : St :=
  match s.find ssrc with
  | none => s
  | some x =>
    if x.last = s.time then s
    else { s.edit ssrc (fun y => { y with last := s.time }) with lru := x.id :: s.lru.filter (fun i => i ≠ x.id) }

/-! ## Addresses -/

/-- `find_address_` with `AutoCreate` and `rebuild_address_` (reporter.cpp:1442-1470, 1484-1499). -/
def St.touch (s : St) (a : Nat) : St :=
  match s.addrs.find? (fun x => x.addr = a) with
  | none => { s with addrs := s.addrs ++ [⟨a, [], [], s.time⟩], addrLru := a :: s.addrLru }
  | some x =>
    if x.last = s.time then s
    else { s with addrs := s.addrs.map (fun y => if y.addr = a then ⟨a, [], [], s.time⟩ else y),
                  addrLru := a :: s.addrLru.filter (fun b => b ≠ a) }

/-- `send_stream_index.push_back` (reporter.cpp:1098-1100). -/
def St.pushSend (s : St) (a id : Nat) : St :=
  { s with addrs := s.addrs.map (fun y => if y.addr = a then { y with send := y.send ++ [id] } else y) }

/-- `recv_stream_index.push_back` (reporter.cpp:1137-1139). -/
def St.pushRecv (s : St) (a id : Nat) : St :=
  { s with addrs := s.addrs.map (fun y => if y.addr = a then { y with recv := y.recv ++ [id] } else y) }

/-- One iteration over sending streams (reporter.cpp:1073-1101). -/
def rebuildSend (s : St) (x : Stream) : St :=
  if x.looped then s
  else if !x.hasRecv || !x.recvTs then s
  else (s.touch (s.dest.getD x.addr)).pushSend (s.dest.getD x.addr) x.id

/-- One iteration over receiving streams (reporter.cpp:1108-1146), `i` is the index. -/
def rebuildRecv (s : St) (i : Nat) (ssrc : Nat) : St :=
  match (s.ensure ssrc).find ssrc with
  | none => s -- does not happen
  | some x =>
    if x.looped then s.ensure ssrc
    else if s.dest = none ∧ (!x.hasSend || !x.sendTs) then s.ensure ssrc
    else (((s.ensure ssrc).touch (s.dest.getD x.addr)).pushRecv (s.dest.getD x.addr) x.id).edit ssrc (fun y => { y with report := some i })

/-- Loop over receiving streams (reporter.cpp:1108-1146). -/
def rebuildRecvs : St → Nat → List (Nat × Nat) → St
  | s, _, [] => s
  | s, i, r :: rs => rebuildRecvs (rebuildRecv s i r.1) (i + 1) rs

/-- Loop that removes addresses (reporter.cpp:1152-1157); the argument is the list from back to front. -/
def prune (s : St) : List Nat → St
  | [] => s
  | a :: as =>
    match s.addrs.find? (fun x => x.addr = a) with
    | none => s -- does not happen
    | some x =>
      if x.last = s.time then s
      else prune { s with addrs := s.addrs.filter (fun y => y.addr ≠ a), addrLru := s.addrLru.filter (fun b => b ≠ a) } as

/-- The configured address is always present when sending (reporter.cpp:1060-1071). -/
def touchDest (s : St) : St :=
  match s.dest with
  | some a => s.touch a
  | none => s

/-- Sending part of `rebuild_index_` (reporter.cpp:1059-1102). -/
def rebuildSends (s : St) : St := if s.hasSend then s.streams.foldl rebuildSend (touchDest s) else s

/-- `rebuild_index_` (reporter.cpp:1048-1175) and the assignment after it (983). -/
def St.rebuildIndex (s : St) : St :=
  let s1 := rebuildRecvs (rebuildSends s) 0 s.recvs
  let s2 := prune s1 s1.addrLru.reverse
  { s2 with index := s2.addrs.map (·.addr), rebuild := false }

/-- Receiving stream list changed, as seen by `query_streams_` (reporter.cpp:1010-1041). -/
def changed (s : St) (p : Part) : Bool :=
  decide (s.recvs.length ≠ p.recvs.length) || p.recvs.any (fun r => (s.find r.1).isNone)

/-- `refresh_streams_` (reporter.cpp:967-1046). -/
def St.refresh (s : St) (p : Part) : St :=
  let s1 := { s with hasSend := p.hasSend, recvs := p.recvs, rebuild := s.rebuild || changed s p }
  if s1.rebuild then s1.rebuildIndex else s1

/-- `begin_processing` and `begin_generation` (reporter.cpp:107-129, 599-619). -/
def St.begin (s : St) (now : Int) (p : Part) : St :=
  { s with time := if now ≠ s.time then now else now + 1 }.refresh p

/-! ## Collisions and timeouts -/

/-- `detect_collision_` (reporter.cpp:1220-1265). -/
def St.collide (s : St) (ssrc : Nat) : St :=
  if s.detected then s
  else if ssrc ≠ s.src then s
  else
    match s.find ssrc with
    | none => { s with detected := true, reported := false }
    | some x =>
      if x.looped then s
      else if x.cname = s.cname then s.edit ssrc (fun y => { y with looped := true })
      else { s with detected := true, reported := false }

/-- `detect_timeouts_` (reporter.cpp:1177-1218); the first argument limits the number of iterations. -/
def timeouts : Nat → St → Out St
  | n, s =>
    match s.lru.getLast? with
    | none => .ok s
    | some i =>
      match s.streams.find? (fun x => x.id = i) with
      | none => .ub -- does not happen
      | some x =>
        if x.last > s.time - s.timeout then .ok s
        else
          match n with
          | 0 => .hang
          | n + 1 =>
            if !x.hasRecv && !x.hasSend then timeouts n (s.update x.ssrc)
            else timeouts n (s.remove x)

/-- `detect_timeouts_` as a whole: every stream is visited at most once (see `timeouts_ok`). (roc_rtcp/reporter.cpp:1177-1218) -/
def St.expire (s : St) : Out St := timeouts s.lru.length s

/-! ## Processing -/

/-- Calls made by the communicator for the contents of a packet (communicator.cpp:123-330). `about` is the source inside of the block. `ts`: the
timestamp is not zero. -/
inductive Ev where
  | cname (ssrc : Nat) (text : List Nat)
  | sr (ssrc : Nat) (ts : Bool)
  | reception (ssrc about : Nat)
  | dlrr (ssrc about : Nat)
  | rrtr (ssrc : Nat) (ts : Bool)
  | metrics (ssrc about : Nat)
  | bye (ssrc : Nat)
deriving DecidableEq

/-- Re-creation of a stream whose CNAME changed (reporter.cpp:158-179). -/
def St.recreate (s : St) (ssrc : Nat) (text : List Nat) : St :=
  match s.find ssrc with
  | none => s
  | some x => if x.cname ≠ [] ∧ x.cname ≠ text then (s.remove x).ensure ssrc else s

/-- CNAME is up-to-date (reporter.cpp:150-153). -/
def St.sameCname (s : St) (ssrc : Nat) (text : List Nat) : Bool :=
  match s.find ssrc with
  | none => false
  | some x => decide (x.cname = text)

/-- `process_cname` (reporter.cpp:131-189). -/
def St.onCname (s : St) (ssrc : Nat) (text : List Nat) : St :=
  if text = [] then s
  else if (s.ensure ssrc).sameCname ssrc text then s.ensure ssrc
  else
    let s1 := ((s.ensure ssrc).recreate ssrc text).edit ssrc (fun x => { x with cname := text })
    ({ s1 with rebuild := true }.collide ssrc).update ssrc

/-- Flag and address of a stream that got a report (reporter.cpp:210-213, 228-238, 278-281, 304-314). -/
def St.mark (s : St) (ssrc addr : Nat) (has : Stream → Bool) (f : Stream → Stream) : St :=
  match s.find ssrc with
  | none => s
  | some x => { s.edit ssrc (fun y => { f y with addr := addr }) with rebuild := s.rebuild || !has x || decide (x.addr ≠ addr) }

/-- `process_sr` (reporter.cpp:191-245). -/
def St.onSr (s : St) (addr ssrc : Nat) (ts : Bool) : St :=
  (((s.collide ssrc).ensure ssrc).mark ssrc addr (·.hasSend) (fun x => { x with hasSend := true, sendTs := ts })).update ssrc

/-- `process_reception_block` (reporter.cpp:247-317). -/
def St.onReception (s : St) (addr ssrc about : Nat) : St :=
  if !s.hasSend || decide (about ≠ (s.collide ssrc).src) then s.collide ssrc
  else (((s.collide ssrc).ensure ssrc).mark ssrc addr (·.hasRecv) (fun x => { x with hasRecv := true })).update ssrc

/-- A stream exists and has a report (reporter.cpp:339-344, 394-400, 452-456). -/
def St.known (s : St) (ssrc : Nat) (has : Stream → Bool) : Bool :=
  match s.find ssrc with
  | none => false
  | some x => has x

/-- `process_dlrr_subblock` (reporter.cpp:319-380). -/
def St.onDlrr (s : St) (ssrc about : Nat) : St :=
  if about ≠ (s.collide ssrc).src then s.collide ssrc
  else if !(s.collide ssrc).known ssrc (·.hasSend) then s.collide ssrc
  else (s.collide ssrc).update ssrc

/-- `process_rrtr_block` (reporter.cpp:382-430). -/
def St.onRrtr (s : St) (ssrc : Nat) (ts : Bool) : St :=
  if !(s.collide ssrc).known ssrc (·.hasRecv) then s.collide ssrc
  else ((s.collide ssrc).edit ssrc (fun x => { x with recvTs := ts })).update ssrc

/-- `process_measurement_info_block`, `process_delay_metrics_block`, `process_queue_metrics_block`
(reporter.cpp:432-551). -/
def St.onMetrics (s : St) (ssrc about : Nat) : St :=
  if about ≠ (s.collide ssrc).src then s.collide ssrc
  else if !(s.collide ssrc).known ssrc (·.hasRecv) then s.collide ssrc
  else (s.collide ssrc).update ssrc

/-- `process_goodbye` (reporter.cpp:553-578). -/
def St.onBye (s : St) (ssrc : Nat) : St :=
  match s.find ssrc with
  | none => s
  | some x => s.remove x

/-- One call, for a packet that came from `addr` (communicator.cpp:103-108). -/
def St.on (addr : Nat) (s : St) : Ev → St
  | .cname ssrc text => s.onCname ssrc text
  | .sr ssrc ts => s.onSr addr ssrc ts
  | .reception ssrc about => s.onReception addr ssrc about
  | .dlrr ssrc about => s.onDlrr ssrc about
  | .rrtr ssrc ts => s.onRrtr ssrc ts
  | .metrics ssrc about => s.onMetrics ssrc about
  | .bye ssrc => s.onBye ssrc

/-- Processing of one packet: `begin_processing`, calls, `end_processing` (reporter.cpp:580-597). -/
def St.process (s : St) (now : Int) (p : Part) (addr : Nat) (evs : List Ev) : Out St :=
  if now ≤ 0 then .abort else (evs.foldl (St.on addr) (s.begin now p)).expire

/-! ## Generation -/

/-- What is reported to one destination (reporter.cpp:699-877): sources of sending streams; sources and reports of receiving
streams; the source that leaves, if any. -/
structure Rep where
  addr : Nat
  send : List Nat
  recv : List (Nat × Nat)
  bye : Option Nat
deriving DecidableEq

/-- A stream pointer is used (reporter.cpp:758-763). -/
def St.derefSend (s : St) (i : Nat) : Option Nat := (s.streams.find? (fun x => x.id = i)).map (·.ssrc)

/-- A stream pointer and its report pointer are used (reporter.cpp:709-724, 794-804, 816-835, 845-858). -/
def St.derefRecv (s : St) (i : Nat) : Option (Nat × Nat) :=
  match s.streams.find? (fun x => x.id = i) with
  | none => none
  | some x =>
    match x.report with
    | none => none
    | some k =>
      match s.recvs[k]? with
      | none => none
      | some r => some (x.ssrc, r.2)

/-- Reports for one destination (reporter.cpp:629-651); `none` if a dangling pointer is used. Directions that are not active are skipped
(communicator.cpp:488-495). -/
def St.repTo (s : St) (p : Part) (a : Nat) : Option Rep :=
  match s.addrs.find? (fun x => x.addr = a) with
  | none => none
  | some x =>
    match (if p.hasSend then x.send else []).mapM s.derefSend, (if p.recvs.isEmpty then [] else x.recv).mapM s.derefRecv with
    | some l, some m => some ⟨a, l, m, if s.detected then some s.src else none⟩
    | _, _ => none

/-- `resolve_collision_` (reporter.cpp:1267-1310); `ids` are the numbers that the participant chooses. -/
def St.resolve (s : St) (ids : List Nat) : Out St :=
  if !s.detected then .ok s
  else if !s.reported then .abort
  else
    match ids.find? (fun i => (s.find i).isNone) with
    | none => .hang
    | some i => .ok { s with src := i, detected := false, reported := false }

/-- A packet is generated for every destination; each packet has a goodbye when a collision was detected
(communicator.cpp:654-670, reporter.cpp:861-877). -/
def St.sayBye (s : St) : St := if s.detected && !s.index.isEmpty then { s with reported := true } else s

/-- One generation: `begin_generation`, reports for all destinations (see `Verif.RtcpGen`), `end_generation`
(reporter.cpp:879-894). -/
def St.generate (s : St) (now : Int) (p : Part) (ids : List Nat) : Out (St × List Rep) :=
  if now ≤ 0 then .abort
  else
  match (s.begin now p).index.mapM ((s.begin now p).repTo p) with
  | none => .ub
  | some l =>
    match (s.begin now p).sayBye.resolve ids with
    | .ok s' =>
      match s'.expire with
      | .ok s'' => .ok (s'', l)
      | .abort => .abort
      | .ub => .ub
      | .hang => .hang
    | .abort => .abort
    | .ub => .ub
    | .hang => .hang

end Verif.Reporter
