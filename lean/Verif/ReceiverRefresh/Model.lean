import Verif.LinkMeter.Model

/-!
# Slots and sessions of a receiver between two frames: refresh, reports, metrics

Functions modelled: `ReceiverSource::create_slot`, `delete_slot`, `refresh`, `reclock` (roc_pipeline/receiver_source.cpp:77-131, 177-189), `ReceiverSlot::refresh`,
`reclock`, `get_metrics` (receiver_slot.cpp:76-122), `ReceiverSessionGroup::refresh_sessions`, `reclock_sessions`, `get_slot_metrics`, `get_participant_metrics`,
`num_recv_streams`, `query_recv_streams`, `create_session_`, `remove_session_`, `remove_all_sessions_` (receiver_session_group.cpp:85-230, 351-432),
`ReceiverSession::num_reports`, `generate_reports` (receiver_session.cpp:279-351), `LinkMeter::write` (roc_rtp/link_meter.cpp:53-77), `Router::write`
(roc_packet/router.cpp:51-133), flags of packets (roc_rtp/parser.cpp:92-94, roc_fec/parser.h:49-51), `Reporter::query_streams_` for receiving streams and
`validate_recv_report_` (roc_rtcp/reporter.cpp:1007-1042, 1358-1389), `Receiver::get_metrics` (roc_node/receiver.cpp:268-323), `roc_receiver_query`
(public_api/src/receiver.cpp:150-177).

Left out: which session a packet or an RTCP element concerns (`Verif.SessionRouter`; here any choice is allowed), when the communicator generates reports
(`Verif.RtcpGen`; here any choice), when watchdog and latency monitor end a session (`Verif.Watchdog`, `Verif.LatencyMonitor`; here any choice), latency, loss and
jitter in a report, failures of memory allocation. A session is named by the number of sessions created before it. The encoding map is shared with other threads
that register encodings: this may happen between parsing and routing of a packet.
-/

namespace Verif.ReceiverRefresh

open Verif.Units (Seqnum)

/-- `EncodingMap` (roc_rtp/encoding_map.cpp:43-51): sampling rate of the encoding that is registered for a payload type. Only audio encodings can be registered
(encoding_map.cpp:22-40, public_api/src/context.cpp:88). -/
abbrev Encodings := List (Nat × Nat)

/-- `find_by_pt` (encoding_map.cpp:43-51). -/
def find (m : Encodings) (pt : Nat) : Option Nat := (m.find? fun e => e.1 = pt).map (·.2)

/-- Encodings of a new map (encoding_map.cpp:18-41): L16 stereo (10) and mono (11) at 44100 Hz. -/
def builtin : Encodings := [(11, 44100), (10, 44100)]

/-- `add_encoding` (encoding_map.cpp:66-106): a payload type that exists is refused; an invalid specification panics (its rate is not zero). -/
def register (m : Encodings) (e : Nat × Nat) : Encodings := if (find m e.1).isSome ∨ e.2 = 0 then m else m ++ [e]

/-- A packet that comes from the network: from the source endpoint, with or without a FEC footer, or from the repair endpoint, whose packets are not RTP packets
(receiver_endpoint.cpp:40-95). -/
inductive Wire
  | source (pt src : Nat) (sn : Seqnum) (fec : Bool)
  | repair
deriving DecidableEq

/-- `packet::Packet` after the parser: `rtp` is payload type, source and number; flags `FlagAudio`, `FlagRepair` (roc_packet/packet.h:48-68). -/
structure Packet where
  rtp : Option (Nat × Nat × Seqnum)
  audio : Bool
  repair : Bool
  fec : Bool
deriving DecidableEq

/-- `rtp::Parser::parse` (roc_rtp/parser.cpp:78-98) after or inside of `fec::Parser::parse` (roc_fec/parser.h:34-72). -/
def parse (m : Encodings) : Wire → Packet
  | .source pt src sn fec => ⟨some (pt, src, sn), (find m pt).isSome, false, fec⟩
  | .repair => ⟨none, false, true, true⟩

/-- `Router::Route` (roc_packet/router.h:70-90). -/
structure Route where
  source : Option Nat
  started : Bool
deriving DecidableEq

/-- Initial route (router.h:82-86). -/
def Route.init : Route := ⟨none, false⟩

/-- `Router::allow_route_` (router.cpp:87-130); `none`: no match. -/
def Route.allow (r : Route) (p : Packet) : Option Route :=
  match p.rtp with
  | some (_, src, _) =>
    match r.source with
    | some x => if x = src then some r else none
    | none => if r.started then none else some ⟨some src, true⟩
  | none =>
    match r.source with
    | some _ => none
    | none => some ⟨none, true⟩

/-- `LinkMeter` (roc_rtp/link_meter.h:85-110): `encoding_` as payload type and rate, `has_metrics_`, sequence numbers. -/
structure Meter where
  enc : Option (Nat × Nat)
  has : Bool
  sn : LinkMeter.State
deriving DecidableEq

/-- Constructor (link_meter.cpp:15-26). -/
def Meter.init : Meter := ⟨none, false, LinkMeter.State.init⟩

/-- Lookup of the encoding (link_meter.cpp:67-69). -/
def Meter.look (m : Encodings) (x : Meter) (pt : Nat) : Option (Nat × Nat) :=
  match x.enc with
  | some e => if e.1 = pt then some e else (find m pt).map fun r => (pt, r)
  | none => (find m pt).map fun r => (pt, r)

/-- `LinkMeter::write` (link_meter.cpp:53-77). -/
def Meter.write (m : Encodings) (x : Meter) (p : Packet) : Meter :=
  match p.rtp with
  | none => x
  | some (pt, _, sn) =>
    match x.look m pt with
    | none => { x with enc := none }
    | some e => ⟨some e, true, x.sn.update sn⟩

/-- `ReceiverSession` (receiver_session.h:96-150): is there a FEC decoder, routes and meters of source and repair packets. -/
structure Session where
  id : Nat
  fec : Bool
  audio : Route
  repair : Route
  src : Meter
  rep : Meter
deriving DecidableEq

/-- `ReceiverSession::route_packet` (receiver_session.cpp:244-248): `Router::write` and `find_route_` (router.cpp:51-83). -/
def Session.write (m : Encodings) (s : Session) (p : Packet) : Session :=
  if p.audio then
    match s.audio.allow p with
    | some r => { s with audio := r, src := s.src.write m p }
    | none => s
  else if s.fec && p.repair then
    match s.repair.allow p with
    | some r => { s with repair := r, rep := s.rep.write m p }
    | none => s
  else s

/-- `num_reports` (receiver_session.cpp:279-295). -/
def Session.num (s : Session) : Nat := (if s.audio.source.isSome && s.src.has then 1 else 0) + (if s.fec && s.repair.source.isSome && s.rep.has then 1 else 0)

/-- `rtcp::RecvReport` (roc_rtcp/reports.h:94-190): `receiver_source_id`, `sender_source_id`, `report_timestamp`, `sample_rate`, `ext_first_seqnum`,
`ext_last_seqnum`. -/
structure Report where
  receiver : Nat
  sender : Nat
  time : Int
  rate : Nat
  first : BitVec 32
  last : BitVec 32
deriving DecidableEq

/-- Constructor (reports.h:173-189). -/
def Report.zero : Report := ⟨0, 0, 0, 0, 0, 0⟩

/-- One filled report (receiver_session.cpp:308-327, 336-347); not there if there is no source, no metrics, or no encoding. -/
def one (me : Nat) (time : Int) (r : Route) (x : Meter) : List Report :=
  match r.source, x.has, x.enc with
  | some k, true, some e => [⟨me, k, time, e.2, x.sn.extFirst, x.sn.extLast⟩]
  | _, _, _ => []

/-- The reports that `generate_reports` can fill (receiver_session.cpp:297-351). -/
def Session.all (s : Session) (me : Nat) (time : Int) : List Report := one me time s.audio s.src ++ (if s.fec then one me time s.repair s.rep else [])

/-- `generate_reports` (receiver_session.cpp:297-351) overwrites the beginning of its part of the array. -/
def Session.gen (s : Session) (me : Nat) (time : Int) (b : List Report) : List Report :=
  (s.all me time).take b.length ++ b.drop ((s.all me time).take b.length).length

/-- `query_recv_streams` (receiver_session_group.cpp:207-230). -/
def query (me : Nat) (time : Int) : List Session → List Report → List Report
  | [], b => b
  | s :: ss, b => if b.length = 0 then b else s.gen me time (b.take (min s.num b.length)) ++ query me time ss (b.drop (min s.num b.length))

/-- `num_recv_streams` (receiver_session_group.cpp:195-205). -/
def numStreams (l : List Session) : Nat := (l.map Session.num).sum

/-- `validate_recv_report_` (reporter.cpp:1358-1389); the fields that are read-only stay zero. -/
def Report.valid (me : Nat) (time : Int) (r : Report) : Bool := decide (r.receiver = me ∧ r.time = time ∧ r.rate ≠ 0)

/-- `DynArray::resize` (roc_core/array.h) of `local_recv_reports_` (reporter.cpp:1010-1013): old reports stay. -/
def resize (b : List Report) (n : Nat) : List Report := b.take n ++ List.replicate (n - b.length) Report.zero

/-- `ReceiverSlot` with its group (receiver_slot.h:80-100, receiver_session_group.h:141-157): `ssrc` is `identity_`, `rtcp` tells if there is a communicator;
`buf`, `time` are `local_recv_reports_` and `report_time_` of its reporter. -/
structure Slot where
  key : Nat
  ssrc : Nat
  rtcp : Bool
  sessions : List Session
  buf : List Report
  time : Int
deriving DecidableEq

/-- `begin_processing`, `begin_generation` (reporter.cpp:107-129, 599-619): the time of the report is new. -/
def Slot.fresh (s : Slot) (now : Int) : Int := if now ≠ s.time then now else now + 1

/-- `query_streams_` for receiving streams (reporter.cpp:1007-1042); `none`: panic of `validate_recv_report_`. -/
def Slot.ask (s : Slot) (now : Int) : Option Slot :=
  let b := query s.ssrc (s.fresh now) s.sessions (resize s.buf (numStreams s.sessions))
  if b.all (Report.valid s.ssrc (s.fresh now)) then some { s with buf := b, time := s.fresh now } else none

/-- `ReceiverSource` (receiver_source.h:80-110): slots, inputs of the mixer, `active_sessions_` of the state tracker, number of sessions created. -/
structure St where
  map : Encodings
  slots : List Slot
  mixer : List Nat
  active : Int
  next : Nat
deriving DecidableEq

/-- Constructor (receiver_source.cpp:17-70). -/
def St.init : St := ⟨builtin, [], [], 0, 0⟩

/-- Sessions and mixer during an operation of one slot. (Part of the model of roc_pipeline/receiver_source.cpp:16-189, receiver_session_group.cpp:45-432.) -/
structure Work where
  sessions : List Session
  mixer : List Nat
  active : Int
deriving DecidableEq

/-- `remove_session_` (receiver_session_group.cpp:415-423): `List::remove` panics for an element of no list (roc_core/list_impl.h). -/
def Work.remove (w : Work) (s : Session) : Option Work :=
  if s.id ∈ w.mixer ∧ s ∈ w.sessions then some ⟨w.sessions.erase s, w.mixer.erase s.id, w.active - 1⟩ else none

/-- Loop over sessions in `refresh_sessions`, `reclock_sessions` (receiver_session_group.cpp:86-125, 127-140): those that have ended are removed. `l` are the
sessions to be visited. -/
def Work.sweep (dead : Nat → Bool) : Work → List Session → Option Work
  | w, [] => some w
  | w, s :: l =>
    if dead s.id then
      match w.remove s with
      | some w' => w'.sweep dead l
      | none => none
    else w.sweep dead l

/-- Smaller of two deadlines, zero being none (receiver_session_group.cpp:116-122, receiver_source.cpp:121-127). -/
def earlier (d e : Int) : Int := if e ≠ 0 then (if d = 0 then e else min d e) else d

/-- What the environment decides during `refresh`: `due` — does the communicator of this slot generate reports now; its `generation_deadline`; which sessions
have ended. (Part of the model of roc_pipeline/receiver_source.cpp:16-189, receiver_session_group.cpp:45-432.) -/
structure Env where
  due : Nat → Bool
  deadline : Nat → Int
  dead : Nat → Bool

/-- `refresh_sessions` (receiver_session_group.cpp:86-125); the deadline of a session is always zero (receiver_session.cpp:256-258). -/
def St.refreshSlot (t : St) (env : Env) (now : Int) (s : Slot) : Option (Slot × List Nat × Int × Int) :=
  match (if s.rtcp && env.due s.key then s.ask now else some s) with
  | none => none
  | some s' =>
    match Work.sweep env.dead ⟨s'.sessions, t.mixer, t.active⟩ s'.sessions with
    | none => none
    | some w => some ({ s' with sessions := w.sessions }, w.mixer, w.active, if s.rtcp then env.deadline s.key else 0)

/-- Loop of `ReceiverSource::refresh` over the slots (receiver_source.cpp:115-130); packets are pulled before (`Op.packet`, `Op.control`). `done` are the slots
that were visited. -/
def St.refreshAll (env : Env) (now : Int) : St → List Slot → List Slot → Int → Option (St × Int)
  | t, done, [], d => some ({ t with slots := done }, d)
  | t, done, s :: l, d =>
    match t.refreshSlot env now s with
    | none => none
    | some (s', mix, act, e) => St.refreshAll env now { t with mixer := mix, active := act } (done ++ [s']) l (earlier d e)

/-- `ReceiverSource::refresh` (receiver_source.cpp:107-131). -/
def St.refresh (t : St) (env : Env) (now : Int) : Option (St × Int) := if now ≤ 0 then none else t.refreshAll env now [] t.slots 0

/-- `ReceiverSource::reclock` (receiver_source.cpp:177-189, receiver_slot.cpp:100-104, receiver_session_group.cpp:127-140). -/
def St.reclockAll (dead : Nat → Bool) : St → List Slot → List Slot → Option St
  | t, done, [] => some { t with slots := done }
  | t, done, s :: l =>
    match Work.sweep dead ⟨s.sessions, t.mixer, t.active⟩ s.sessions with
    | none => none
    | some w => St.reclockAll dead { t with mixer := w.mixer, active := w.active } (done ++ [{ s with sessions := w.sessions }]) l

/-- Replaces a slot. (Part of the model of roc_pipeline/receiver_source.cpp:16-189, receiver_session_group.cpp:45-432.) -/
def St.put (t : St) (s : Slot) : St := { t with slots := t.slots.map fun x => if x.key = s.key then s else x }

/-- The slot that a handle points to (roc_pipeline/receiver_loop.cpp:208-226). -/
def St.slot (t : St) (k : Nat) : Option Slot := t.slots.find? fun x => x.key = k

/-- `create_session_` (receiver_session_group.cpp:351-413): the session is not made for packets that are not RTP packets and for unknown payload types
(receiver_session.cpp:28-32). -/
def St.create (t : St) (s : Slot) (p : Packet) : St :=
  match p.rtp with
  | none => t
  | some (pt, _, _) =>
    match find t.map pt with
    | none => t
    | some _ =>
      let x := Session.write t.map ⟨t.next, p.fec, Route.init, Route.init, Meter.init, Meter.init⟩ p
      { t.put { s with sessions := s.sessions ++ [x] } with mixer := t.mixer ++ [x.id], active := t.active + 1, next := t.next + 1 }

/-- `route_transport_packet_` (receiver_session_group.cpp:280-328): `target` is the session found. -/
def St.route (t : St) (s : Slot) (p : Packet) (target : Option Nat) : St :=
  match target.bind fun i => s.sessions.find? fun x => x.id = i with
  | some x => t.put { s with sessions := s.sessions.map fun y => if y.id = x.id then y.write t.map p else y }
  | none => if p.repair then t else t.create s p

/-- Removal of sessions of one slot, by RTCP (receiver_session_group.cpp:232-278). -/
def Work.drops : Work → List Nat → Option Work
  | w, [] => some w
  | w, i :: l =>
    match w.sessions.find? fun x => x.id = i with
    | none => w.drops l
    | some s =>
      match w.remove s with
      | some w' => w'.drops l
      | none => none

/-- `remove_all_sessions_` (receiver_session_group.cpp:425-432): from the last one. -/
def Work.clear : Nat → Work → Option Work
  | 0, w => some w
  | n + 1, w =>
    match w.sessions.getLast? with
    | none => some w
    | some s =>
      match w.remove s with
      | some w' => w'.clear n
      | none => none

/-- Operations on a receiver. (Part of the model of roc_pipeline/receiver_source.cpp:16-189, receiver_session_group.cpp:45-432.) -/
inductive Op
  /-- `create_slot` (receiver_source.cpp:76-93); `ssrc` is random (roc_rtp/identity.cpp). -/
  | slot (key ssrc : Nat)
  /-- `delete_slot` (receiver_source.cpp:95-101, receiver_session_group.cpp:45-47). -/
  | delete (key : Nat)
  /-- `create_control_pipeline` (receiver_session_group.cpp:53-72). -/
  | rtcp (key : Nat)
  /-- `add_encoding` by any thread (encoding_map.cpp:66-106). -/
  | register (e : Nat × Nat)
  /-- A packet is parsed, encodings are registered meanwhile, the packet is routed (receiver_endpoint.cpp:191-214). -/
  | packet (key : Nat) (w : Wire) (regs : List (Nat × Nat)) (target : Option Nat)
  /-- An RTCP packet is processed at the time `now` and removes some sessions (receiver_session_group.cpp:330-340, reporter.cpp:107-129). -/
  | control (key : Nat) (now : Int) (gone : List Nat)
  /-- `change_source_id` (receiver_session_group.cpp:191-193) called by the reporter, which keeps the new source (reporter.cpp:1267-1310). -/
  | source (key ssrc : Nat)
  /-- `refresh` (receiver_source.cpp:107-131). -/
  | refresh (env : Env) (now : Int)
  /-- `reclock` (receiver_source.cpp:177-189). -/
  | reclock (dead : Nat → Bool)

/-- `route_control_packet_` (receiver_session_group.cpp:330-340): reports are queried, then sessions may be removed. Panics without communicator. -/
def St.process (t : St) (s : Slot) (now : Int) (gone : List Nat) : Option St :=
  if s.rtcp = false ∨ now ≤ 0 then none
  else
    match s.ask now with
    | none => none
    | some s' =>
      match Work.drops ⟨s'.sessions, t.mixer, t.active⟩ gone with
      | none => none
      | some w => some { t.put { s' with sessions := w.sessions } with mixer := w.mixer, active := w.active }

/-- `delete_slot` (receiver_source.cpp:95-101) and the destructor of the group (receiver_session_group.cpp:45-47). -/
def St.deleteSlot (t : St) (s : Slot) : Option St :=
  match Work.clear s.sessions.length ⟨s.sessions, t.mixer, t.active⟩ with
  | none => none
  | some w => some { t with slots := t.slots.filter fun x => x.key ≠ s.key, mixer := w.mixer, active := w.active }

/-- One operation; `none` is a panic. An operation on a slot that does not exist has no effect (no handle). (Part of the model of roc_pipeline/receiver_source.cpp:16-189, receiver_session_group.cpp:45-432.) -/
def St.step (t : St) : Op → Option St
  | .slot k ssrc => some (if (t.slot k).isSome then t else { t with slots := t.slots ++ [⟨k, ssrc, false, [], [], 0⟩] })
  | .delete k =>
    match t.slot k with
    | none => some t
    | some s => t.deleteSlot s
  | .rtcp k =>
    match t.slot k with
    | none => some t
    | some s => some (t.put { s with rtcp := true })
  | .register e => some { t with map := register t.map e }
  | .packet k w regs target =>
    match t.slot k with
    | none => some t
    | some s => some (St.route { t with map := regs.foldl register t.map } s (parse t.map w) target)
  | .control k now gone =>
    match t.slot k with
    | none => some t
    | some s => t.process s now gone
  | .source k ssrc =>
    match t.slot k with
    | none => some t
    | some s => some (t.put { s with ssrc := ssrc })
  | .refresh env now => (t.refresh env now).map (·.1)
  | .reclock dead => t.reclockAll dead [] t.slots

/-- A history. (Part of the model of roc_pipeline/receiver_source.cpp:16-189, receiver_session_group.cpp:45-432.) -/
def St.run : St → List Op → Option St
  | t, [] => some t
  | t, o :: os =>
    match t.step o with
    | none => none
    | some t' => t'.run os

/-! ## Metrics -/

/-- `get_participant_metrics` (receiver_session_group.cpp:155-173): `arr` is the array (`none`: null), `count` the value that is pointed to. -/
def participants {α : Type} (met : Session → α) (l : List Session) (arr : Option (List α)) (count : Option Nat) : Option (List α) × Option Nat :=
  match arr, count with
  | some a, some n => (some ((l.map met).take (min n l.length) ++ a.drop (min n l.length)), some (min n l.length))
  | a, some _ => (a, some 0)
  | a, none => (a, none)

/-- `party_metrics_.resize` and `party_metrics_.size() != 0 ? party_metrics_.data() : NULL` (roc_node/receiver.cpp:294-308); `zero` is a metrics object made by
the default constructor, `buf` the content of `party_metrics_` before the call. -/
def inner {α : Type} (zero : α) (buf : List α) (count : Option Nat) : List α :=
  match count with
  | none => buf
  | some n => buf.take n ++ List.replicate (n - buf.length) zero

/-- `data()` (roc_node/receiver.cpp:305-308). -/
def dataOf {α : Type} (l : List α) : Option (List α) := if l.length ≠ 0 then some l else none

/-- What a query returns: connections of the slot, the array of the caller, the value of `conn_metrics_count`, and `party_metrics_` afterwards. (Part of the model of roc_pipeline/receiver_source.cpp:16-189, receiver_session_group.cpp:45-432.) -/
structure Answer (α : Type) where
  connections : Option Nat
  arr : Option (List α)
  count : Option Nat
  buf : List α

/-- `roc_receiver_query` (public_api/src/receiver.cpp:150-177) with `Receiver::get_metrics` (roc_node/receiver.cpp:268-323) for a slot that exists; `slot`: is
`slot_metrics` not null. The outer `none` is the error code. `met` gives the metrics of a session in the form of the API (adapters.cpp:617-629). -/
def userQuery {α : Type} (zero : α) (met : Session → α) (buf : List α) (l : List Session) (slot : Bool) (arr : Option (List α)) (count : Option Nat) :
    Option (Answer α) :=
  if arr.isSome ∧ count.isNone then none
  else
    let r := participants met l (dataOf (inner zero buf count)) count
    let buf' := r.1.getD (inner zero buf count)
    some ⟨if slot then some l.length else none,
      match arr, r.2 with
      | some a, some n => some (buf'.take n ++ a.drop n)
      | a, _ => a,
      r.2, buf'⟩

end Verif.ReceiverRefresh
