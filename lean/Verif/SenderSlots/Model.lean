import Verif.EncoderApi.Model

/-!
# Slots of the sender pipeline: model

Models `SenderSink` (roc_pipeline/sender_sink.cpp), `SenderSlot` (sender_slot.cpp), the parts of `SenderSession` that
create the pipeline, start the feedback monitor and refresh (sender_session.cpp), and `Fanout` (roc_audio/fanout.cpp).
All of it runs in the pipeline thread, one call after another (sender_loop.cpp:217-301).

Not modelled: what the writers of a session do with frames, contents of reports (see `Verif.Reporter`), the pull of inbound
packets. The results of allocations and of constructors of components are given by the environment. Slots are named by
numbers that are not reused; a call with a handle of a slot that does not exist (any more) is undefined behaviour.
-/

namespace Verif.SenderSlots

open ApiConfig (Iface Proto Fec)
open EncoderApi (validate consistent pairOk hasComposer)

/-- `feedback_monitor_` of a session: not constructed, constructed but not valid, valid and not started, started
(sender_session.cpp:189-195, roc_audio/feedback_monitor.cpp:18-68). -/
inductive Mon where
  | none
  | bad
  | stopped
  | started
  deriving DecidableEq

/-- `SenderSlot` with its `SenderSession` (sender_slot.h, sender_session.h): protocols of `source_endpoint_`,
`repair_endpoint_`, `control_endpoint_`; whether there is a `frame_writer_`; `feedback_monitor_`; whether there is an
`rtcp_communicator_`; whether `rtcp_outbound_addr_` is a multicast address. (sender_slot.h:38-96, sender_session.h:52-163) -/
structure Slot where
  source : Option Proto
  repair : Option Proto
  control : Option Proto
  writer : Bool
  mon : Mon
  rtcp : Bool
  mcast : Bool
  deriving DecidableEq

/-- A new slot (sender_slot.cpp:17-36, sender_session.cpp:18-36). -/
def Slot.empty : Slot := ⟨none, none, none, false, .none, false, false⟩

/-- How the construction of the transport pipeline ends (sender_session.cpp:42-207): some component before the feedback
monitor cannot be created (:50-187), the feedback monitor is not valid (:189-194), or all is well. -/
inductive Pipe where
  | early
  | badMonitor
  | ok
  deriving DecidableEq

/-- Environment of `add_endpoint`: the endpoint can be allocated, the pipeline can be constructed, the RTCP communicator is
valid. (Part of the model of roc_pipeline/sender_sink.cpp:17-169, sender_slot.cpp:17-249.) -/
structure Env where
  endpoint : Bool
  pipe : Pipe
  comm : Bool
  deriving DecidableEq

/-- FEC schemes that were compiled in, FEC scheme of the configuration. (Part of the model of roc_pipeline/sender_sink.cpp:17-169, sender_slot.cpp:17-249.) -/
structure Conf where
  supp : Fec → Bool
  scheme : Fec

/-- Outcome of a function of the slot: endpoint, NULL, abort. (Part of the model of roc_pipeline/sender_sink.cpp:17-169, sender_slot.cpp:17-249.) -/
inductive SRes where
  | added (s : Slot)
  | refused (s : Slot)
  | abort
  deriving DecidableEq

/-- `start_feedback_monitor_` (sender_session.cpp:352-375), and what the caller returns after it. -/
def Slot.startMonitor (s : Slot) : SRes :=
  if s.mon = .none then .added s
  else if s.rtcp = false then .added s
  else if s.mcast then .added s
  else match s.mon with
    | .started => .added s
    | .bad => .abort -- feedback_monitor.cpp:59-60
    | _ => .added { s with mon := .started }

/-- `create_transport_pipeline` (sender_session.cpp:42-207). -/
def Slot.transport (s : Slot) (e : Env) : SRes :=
  if s.writer then .abort
  else match e.pipe with
    | .early => .refused s
    | .badMonitor => .refused { s with mon := .bad }
    | .ok => Slot.startMonitor { s with mon := .stopped, writer := true }

/-- `create_control_pipeline` (sender_session.cpp:209-228). -/
def Slot.createControl (s : Slot) (mc : Bool) (e : Env) : SRes :=
  if s.rtcp then .abort
  else if e.comm = false then .refused { s with mcast := mc }
  else Slot.startMonitor { s with mcast := mc, rtcp := true }

/-- Checks of `create_source_endpoint_`, `create_repair_endpoint_`, `create_control_endpoint_` (sender_slot.cpp:157-249) and
the default case of `add_endpoint` (:81-83). -/
def Slot.checks (c : Conf) (s : Slot) (i : Iface) (p : Proto) (e : Env) : Bool :=
  match i with
  | .audioSource => s.source.isNone && validate c.supp .audioSource p && s.repair.all (fun r => pairOk p r)
      && consistent c.scheme .audioSource p && e.endpoint && hasComposer p
  | .audioRepair => s.repair.isNone && validate c.supp .audioRepair p && s.source.all (fun r => pairOk r p)
      && consistent c.scheme .audioRepair p && e.endpoint && hasComposer p
  | .audioControl => s.control.isNone && validate c.supp .audioControl p && e.endpoint && hasComposer p
  | .consolidated => false

/-- The endpoint is set (sender_slot.cpp:180, 212, 238). -/
def Slot.set (s : Slot) (i : Iface) (p : Proto) : Slot :=
  match i with
  | .audioSource => { s with source := some p }
  | .audioRepair => { s with repair := some p }
  | .audioControl => { s with control := some p }
  | .consolidated => s

/-- Condition for the transport pipeline (sender_slot.cpp:90-92). -/
def Slot.full (c : Conf) (s : Slot) : Bool := s.source.isSome && (s.repair.isSome || decide (c.scheme = .none))

/-- `SenderSlot::add_endpoint` (sender_slot.cpp:49-119) without the fanout; `mc`: the outbound address is a multicast
address. The endpoint is not removed if the pipeline cannot be created. -/
def Slot.add (c : Conf) (s : Slot) (i : Iface) (p : Proto) (mc : Bool) (e : Env) : SRes :=
  if s.checks c i p e = false then .refused s
  else match i with
    | .audioControl => (s.set i p).createControl mc e
    | _ =>
      if (s.set i p).full c then (s.set i p).transport e
      else .added (s.set i p)

/-- A frame (its number). (Part of the model of roc_pipeline/sender_sink.cpp:17-169, sender_slot.cpp:17-249.) -/
abbrev Frame := Nat

/-- `SenderSink`: `slots_` in order, the slots, the outputs of `fanout_` (every writer is named by its slot),
`active_sessions_` of the state tracker, and the next number. (roc_pipeline/sender_sink.h:43-131) -/
structure Sink where
  ids : List Nat
  slot : Nat → Slot
  outs : List Nat
  active : Int
  next : Nat

/-- A new sink (sender_sink.cpp:17-61). -/
def Sink.init : Sink := ⟨[], fun _ => .empty, [], 0, 0⟩

/-- Function update. (Part of the model of roc_pipeline/sender_sink.cpp:17-169, sender_slot.cpp:17-249.) -/
def upd {α : Type} (f : Nat → α) (i : Nat) (x : α) : Nat → α := fun j => if j = i then x else f j

/-- What happened. `created`, `deleted`: of slots; `added`: an endpoint was returned; `refused`: NULL was returned;
`wrote`: a frame was given to these outputs; `report`: a report of a receiver came for the slot and the feedback monitor
used it, or not; `refreshed`: the returned deadline; `metrics`: `is_complete`. (Part of the model of roc_pipeline/sender_sink.cpp:17-169, sender_slot.cpp:17-249.) -/
inductive Log where
  | created (id : Nat)
  | deleted (id : Nat)
  | added (id : Nat) (i : Iface) (p : Proto) (mc : Bool)
  | refused
  | wrote (f : Frame) (outs : List Nat)
  | report (id : Nat) (used : Bool)
  | refreshed (deadline : Int)
  | metrics (id : Nat) (complete : Bool)
  deriving DecidableEq

/-- What can happen. (Part of the model of roc_pipeline/sender_sink.cpp:17-169, sender_slot.cpp:17-249.) -/
inductive Ev where
  /-- `create_slot`: the slot can be allocated, its identity can be generated. -/
  | create (alloc identity : Bool)
  /-- `delete_slot`. -/
  | delete (id : Nat)
  /-- `add_endpoint`. -/
  | add (id : Nat) (i : Iface) (p : Proto) (mc : Bool) (e : Env)
  /-- `write`. -/
  | write (f : Frame)
  /-- A report about the stream of the slot arrives (`notify_send_stream`). -/
  | report (id : Nat)
  /-- `refresh`: current time, and for every slot the deadline of its RTCP communicator. -/
  | refresh (now : Int) (deadline : Nat → Int)
  /-- `get_metrics`. -/
  | query (id : Nat)

/-- Outcome of a call. (Part of the model of roc_pipeline/sender_sink.cpp:17-169, sender_slot.cpp:17-249.) -/
inductive Res where
  | ok (t : Sink) (l : Log)
  | abort
  | ub

/-- Fanout and state tracker after an endpoint was added (sender_slot.cpp:98-104). -/
def Sink.connect (t : Sink) (id : Nat) (i : Iface) : Sink :=
  if i ≠ .audioControl ∧ (t.slot id).writer = true ∧ id ∉ t.outs then
    { t with outs := t.outs ++ [id], active := t.active + 1 }
  else t

/-- `SenderSink::refresh` (sender_sink.cpp:101-125): earliest of the deadlines that are not zero. -/
def earliest (t : Sink) (dl : Nat → Int) : List Nat → Int → Int
  | [], next => next
  | id :: ids, next =>
    -- SenderSession::refresh (sender_session.cpp:246-263)
    let d := if (t.slot id).rtcp then dl id else 0
    earliest t dl ids (if d = 0 then next else if next = 0 then d else min next d)

/-- One call. (Part of the model of roc_pipeline/sender_sink.cpp:17-169, sender_slot.cpp:17-249.) -/
def Sink.step (c : Conf) (t : Sink) : Ev → Res
  | .create alloc identity =>
    -- sender_sink.cpp:67-86
    if alloc = false then .ok t .refused
    else if identity = false then .abort -- ~SenderSlot calls frame_writer() (sender_slot.cpp:38-43, sender_session.cpp:230-234)
    else .ok { t with ids := t.ids ++ [t.next], slot := upd t.slot t.next .empty, next := t.next + 1 } (.created t.next)
  | .delete id =>
    -- sender_sink.cpp:88-94, sender_slot.cpp:38-43
    if id ∉ t.ids then .ub
    else if (t.slot id).writer = true ∧ id ∈ t.outs then
      if t.active - 1 < 0 then .abort -- state_tracker.cpp:41-44
      else .ok { t with ids := t.ids.erase id, outs := t.outs.erase id, active := t.active - 1 } (.deleted id)
    else .ok { t with ids := t.ids.erase id } (.deleted id)
  | .add id i p mc e =>
    if id ∉ t.ids then .ub
    else match (t.slot id).add c i p mc e with
      | .abort => .abort
      | .refused s => .ok { t with slot := upd t.slot id s } .refused
      | .added s => .ok (Sink.connect { t with slot := upd t.slot id s } id i) (.added id i p mc)
  | .write f => .ok t (.wrote f t.outs) -- sender_sink.cpp:167-171, fanout.cpp:28-32
  | .report id =>
    -- sender_session.cpp:326-350; reports come through the communicator
    if id ∉ t.ids then .ub
    else .ok t (.report id ((t.slot id).rtcp && decide ((t.slot id).mon = .started)))
  | .refresh now dl => if now ≤ 0 then .abort else .ok t (.refreshed (earliest t dl t.ids 0))
  | .query id =>
    -- sender_session.cpp:265-272
    if id ∉ t.ids then .ub else .ok t (.metrics id (t.slot id).writer)

/-- A list of calls: the sink and what happened, one entry for every call; nothing: abort or undefined behaviour. (Part of the model of roc_pipeline/sender_sink.cpp:17-169, sender_slot.cpp:17-249.) -/
def Sink.run (c : Conf) : Sink → List Ev → Option (Sink × List Log)
  | t, [] => some (t, [])
  | t, e :: es =>
    match t.step c e with
    | .ok t' l => (Sink.run c t' es).map fun x => (x.1, l :: x.2)
    | _ => none

end Verif.SenderSlots
