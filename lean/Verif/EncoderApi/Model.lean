import Verif.ApiConfig.Model

/-!
# Encoder and decoder: model

Models `roc_sender_encoder_*` and `roc_receiver_decoder_*` (public_api/src/sender_encoder.cpp,
receiver_decoder.cpp), the nodes behind them (roc_node/sender_encoder.cpp, receiver_decoder.cpp) and
the way their pipeline slot keeps its endpoints (roc_pipeline/sender_slot.cpp, receiver_slot.cpp,
endpoint_helpers.cpp).

Packets are lists of bytes. Calls are made one after another (`activate` holds a mutex; the queues
are lock-free and proved to be FIFO in `Verif.Mpsc`). What the pipeline does with packets is not
modelled here: it may write any packets to the endpoints that are connected to it, and takes packets
from the inbound queues at any time. Allocations, and the construction of the components of a
pipeline, may fail at any time.
-/

namespace Verif.EncoderApi

open ApiConfig (Iface Proto Fec ifaceFromUser protoFromUser)

/-- A packet or buffer. (Part of the model of roc_node/sender_encoder.cpp:19-329, roc_node/receiver_decoder.cpp:18-339.) -/
abbrev Bytes := List UInt8

/-- `ProtocolAttrs::iface` (roc_address/protocol_map.cpp:15-86); nothing for an unknown protocol
(:88-102). -/
def protoIface : Proto → Option Iface
  | .rtsp => some .consolidated
  | .rtp => some .audioSource
  | .rtpRs8mSource => some .audioSource
  | .rs8mRepair => some .audioRepair
  | .rtpLdpcSource => some .audioSource
  | .ldpcRepair => some .audioRepair
  | .rtcp => some .audioControl
  | .none => none

/-- `ProtocolAttrs::fec_scheme` (roc_address/protocol_map.cpp:15-86). -/
def protoFec : Proto → Fec
  | .rtpRs8mSource => .rs8m
  | .rs8mRepair => .rs8m
  | .rtpLdpcSource => .ldpc
  | .ldpcRepair => .ldpc
  | _ => .none

/-- `validate_endpoint` (roc_pipeline/endpoint_helpers.cpp:18-47); `supp`: schemes that were compiled
in (`CodecMap::is_supported`). -/
def validate (supp : Fec → Bool) (i : Iface) (p : Proto) : Bool :=
  match protoIface p with
  | none => false
  | some j => decide (j = i) && (decide (protoFec p = .none) || supp (protoFec p))

/-- `validate_endpoint_and_pipeline_consistency` (endpoint_helpers.cpp:49-83). -/
def consistent (scheme : Fec) (i : Iface) (p : Proto) : Bool :=
  match protoIface p with
  | none => false
  | some _ =>
    if i = .audioRepair ∧ p ≠ .none ∧ scheme = .none then false
    else decide (protoFec p = scheme)

/-- `validate_endpoint_pair_consistency` (endpoint_helpers.cpp:83-149). -/
def pairOk (source repair : Proto) : Bool :=
  if source = .none then false
  else if protoIface source = none then false
  else if protoFec source ≠ .none ∧ repair = .none then false
  else if protoFec source = .none ∧ repair ≠ .none then false
  else if repair ≠ .none then
    if protoIface repair = none then false
    else decide (protoFec source = protoFec repair)
  else true

/-- Endpoints of a pipeline slot (sender_slot.h, receiver_slot.h: `source_endpoint_`,
`repair_endpoint_`, `control_endpoint_`; only their protocols), `frame_writer_` of the session
(sender_session.h; sender only), `rtcp_communicator_`, and whether there is a `feedback_monitor_` that is not
valid (sender_session.cpp:189-195). -/
structure Slot where
  source : Option Proto
  repair : Option Proto
  control : Option Proto
  transport : Bool
  rtcp : Bool
  broken : Bool
  deriving DecidableEq

/-- A new slot (sender_slot.cpp:17-36, receiver_slot.cpp:16-43). -/
def Slot.empty : Slot := ⟨none, none, none, false, false, false⟩

/-- Whether an endpoint can be allocated, and whether the pipeline (or its control part) can be
created. (Part of the model of roc_node/sender_encoder.cpp:19-329, roc_node/receiver_decoder.cpp:18-339.) -/
structure Env where
  endpoint : Bool
  pipeline : Bool
  deriving DecidableEq

/-- Outcome of `add_endpoint`: endpoint, NULL, or abort. (Part of the model of roc_node/sender_encoder.cpp:19-329, roc_node/receiver_decoder.cpp:18-339.) -/
inductive Res where
  | ok (s : Slot)
  | fail (s : Slot)
  | panic
  deriving DecidableEq

/-- Whether a sender endpoint has a composer, otherwise it is not valid (sender_endpoint.cpp:36-121). -/
def hasComposer : Proto → Bool
  | .rtp | .rtpLdpcSource | .rtpRs8mSource | .ldpcRepair | .rs8mRepair | .rtcp => true
  | _ => false

/-- Whether a receiver endpoint has a parser, otherwise it is not valid (receiver_endpoint.cpp:39-123);
it has a composer only for RTCP (:98-115). -/
def hasParser : Proto → Bool
  | .rtp | .rtpLdpcSource | .rtpRs8mSource | .ldpcRepair | .rs8mRepair | .rtcp => true
  | _ => false

/-- Second part of `SenderSlot::add_endpoint` for source and repair (sender_slot.cpp:87-104) with the
begin of `create_transport_pipeline` (sender_session.cpp:42-47) and its end (:189-206). `monitor`: the feedback
monitor, which is the last component, is valid. The endpoint is not removed if this fails, nor is the monitor. -/
def senderTransport (scheme : Fec) (monitor : Bool) (e : Env) (s : Slot) : Res :=
  if s.source.isSome ∧ (s.repair.isSome ∨ scheme = .none) then
    if s.transport then .panic
    else if e.pipeline = false then .fail s
    else if monitor then .ok { s with transport := true }
    else .fail { s with broken := true }
  else .ok s

/-- Second part of `SenderSlot::add_endpoint` for control (sender_slot.cpp:106-112) with
`create_control_pipeline` (sender_session.cpp:209-228). The endpoint is not removed if this fails. At the end
`start_feedback_monitor_` (:349-372) calls `start` of the monitor, if there is one, which aborts if it is not valid
(feedback_monitor.cpp:59-60); the address of an encoder is not a multicast address (:360-364). -/
def senderControl (e : Env) (s : Slot) : Res :=
  if s.rtcp then .panic
  else if e.pipeline = false then .fail s
  else if s.broken then .panic
  else .ok { s with rtcp := true }

/-- `SenderSlot::add_endpoint` (sender_slot.cpp:49-119) with `create_source_endpoint_`,
`create_repair_endpoint_`, `create_control_endpoint_` (:157-249). -/
def senderAdd (supp : Fec → Bool) (scheme : Fec) (monitor : Bool) (e : Env) (s : Slot) (i : Iface) (p : Proto) : Res :=
  match i with
  | .audioSource =>
    if s.source.isSome then .fail s
    else if validate supp .audioSource p = false then .fail s
    else if s.repair.any (fun r => !pairOk p r) then .fail s
    else if consistent scheme .audioSource p = false then .fail s
    else if (e.endpoint && hasComposer p) = false then .fail s
    else senderTransport scheme monitor e { s with source := some p }
  | .audioRepair =>
    if s.repair.isSome then .fail s
    else if validate supp .audioRepair p = false then .fail s
    else if s.source.any (fun r => !pairOk r p) then .fail s
    else if consistent scheme .audioRepair p = false then .fail s
    else if (e.endpoint && hasComposer p) = false then .fail s
    else senderTransport scheme monitor e { s with repair := some p }
  | .audioControl =>
    if s.control.isSome then .fail s
    else if validate supp .audioControl p = false then .fail s
    else if (e.endpoint && hasComposer p) = false then .fail s
    else senderControl e { s with control := some p }
  | .consolidated => .fail s

/-- End of `ReceiverSlot::create_control_endpoint_` (receiver_slot.cpp:211-217) with
`create_control_pipeline` (receiver_session_group.cpp:53-72). If this fails, the endpoint is removed. -/
def receiverControl (e : Env) (s : Slot) (p : Proto) : Res :=
  if p ≠ .rtcp then .panic -- no outbound composer and writer
  else if s.rtcp then .panic
  else if e.pipeline then .ok { s with control := some p, rtcp := true }
  else .fail { s with control := none }

/-- `ReceiverSlot::add_endpoint` (receiver_slot.cpp:49-74) with `create_source_endpoint_`,
`create_repair_endpoint_`, `create_control_endpoint_` (:124-218). -/
def receiverAdd (supp : Fec → Bool) (e : Env) (s : Slot) (i : Iface) (p : Proto) : Res :=
  match i with
  | .audioSource =>
    if s.source.isSome then .fail s
    else if validate supp .audioSource p = false then .fail s
    else if s.repair.any (fun r => !pairOk p r) then .fail s
    else if (e.endpoint && hasParser p) = false then .fail { s with source := none }
    else .ok { s with source := some p }
  | .audioRepair =>
    if s.repair.isSome then .fail s
    else if validate supp .audioRepair p = false then .fail s
    else if s.source.any (fun r => !pairOk r p) then .fail s
    else if (e.endpoint && hasParser p) = false then .fail { s with repair := none }
    else .ok { s with repair := some p }
  | .audioControl =>
    if s.control.isSome then .fail s
    else if validate supp .audioControl p = false then .fail s
    else if (e.endpoint && hasParser p) = false then .fail { s with control := none }
    else receiverControl e s p
  | .consolidated => .fail s

/-- What kind of node, with the FEC scheme of the configuration of an encoder. (Part of the model of roc_node/sender_encoder.cpp:19-329, roc_node/receiver_decoder.cpp:18-339.) -/
inductive Kind where
  | encoder (scheme : Fec)
  | decoder
  deriving DecidableEq

/-- Fixed parameters: schemes compiled in, kind of the node, size of packet buffers
(`max_packet_size` of the context); for an encoder, whether its latency configuration makes a valid feedback monitor
(feedback_monitor.cpp:38-48, latency_tuner.cpp:187-258). -/
structure Conf where
  supp : Fec → Bool
  kind : Kind
  maxSize : Nat
  monitor : Bool

/-- `AddEndpoint` task of the pipeline (sender_loop.cpp, receiver_loop.cpp: `task_add_endpoint_`). (Part of the model of roc_node/sender_encoder.cpp:19-329, roc_node/receiver_decoder.cpp:18-339.) -/
def Conf.add (c : Conf) (e : Env) (s : Slot) (i : Iface) (p : Proto) : Res :=
  match c.kind with
  | .encoder scheme => senderAdd c.supp scheme c.monitor e s i p
  | .decoder => receiverAdd c.supp e s i p

/-- A node: pipeline slot; for every interface `endpoint_queues_` (whether it is constructed, and what
is in it), `endpoint_readers_`, `endpoint_writers_` (whether they are set), and the inbound queue of the
endpoint (roc_node/sender_encoder.h:86-100, receiver_decoder.h:81-95, sender_endpoint.h, receiver_endpoint.h:
`inbound_queue_`). -/
structure Node where
  slot : Slot
  queue : Iface → Option (List Bytes)
  readers : Iface → Bool
  writers : Iface → Bool
  inbound : Iface → List Bytes

/-- A new node (sender_encoder.cpp:19-55, receiver_decoder.cpp:18-55). -/
def Node.init : Node := ⟨.empty, fun _ => none, fun _ => false, fun _ => false, fun _ => []⟩

/-- Function update. (Part of the model of roc_node/sender_encoder.cpp:19-329, roc_node/receiver_decoder.cpp:18-339.) -/
def upd {α : Type} (f : Iface → α) (i : Iface) (x : α) : Iface → α := fun j => if j = i then x else f j

/-- What happened, as seen by the user and by the pipeline.
`activated`: `activate` returned zero; `wrote`: the pipeline wrote a packet to an endpoint; `took`: the
pipeline took an inbound packet; `popped`: a pop function returned zero and this packet; `pushed`: a push
function returned zero; `failed`: a function returned a negative value; `nothing`: no event. (Part of the model of roc_node/sender_encoder.cpp:19-329, roc_node/receiver_decoder.cpp:18-339.) -/
inductive Log where
  | activated (i : Iface) (p : Proto)
  | wrote (i : Iface) (b : Bytes)
  | took (i : Iface) (b : Bytes)
  | popped (i : Iface) (b : Bytes)
  | pushed (i : Iface) (b : Bytes)
  | failed
  | nothing
  deriving DecidableEq

/-- `activate` of the node (sender_encoder.cpp:81-120, receiver_decoder.cpp:81-119). A queue is
constructed by placement new into `core::Optional`, which aborts if there already is an object
(roc_core/optional.h:79-84, 97-101). Nothing: abort. -/
def Conf.activate (c : Conf) (n : Node) (i : Iface) (p : Proto) (e : Env) : Option (Node × Bool) :=
  if n.readers i || n.writers i then some (n, false)
  else if (n.queue i).isSome then none
  else
    let q := upd n.queue i (some [])
    match c.add e n.slot i p with
    | .panic => none
    | .fail s => some ({ n with slot := s, queue := q }, false)
    | .ok s =>
      some (match c.kind with
        | .encoder _ =>
          -- inbound_writer() is not null only if there is a parser (sender_endpoint.cpp:163-172)
          { n with slot := s, queue := q, readers := upd n.readers i true
                   writers := if i = .audioControl then upd n.writers i (decide (p = .rtcp)) else n.writers }
        | .decoder =>
          { n with slot := s, queue := q
                   readers := if i = .audioControl then upd n.readers i true else n.readers
                   writers := upd n.writers i true }, true)

/-- Whether the pipeline can write to the outbound writer of the endpoint: packets of the session go to the
source and repair endpoint (sender_session.cpp:66-76), reports to the control endpoint (:217-219,
receiver_session_group.cpp:63-65). -/
def Conf.connected (c : Conf) (s : Slot) (i : Iface) : Bool :=
  match c.kind, i with
  | .encoder _, .audioSource => s.transport && s.source.isSome
  | .encoder _, .audioRepair => s.transport && s.repair.isSome
  | _, .audioControl => s.rtcp && s.control.isSome
  | _, _ => false

/-- What can happen. (Part of the model of roc_node/sender_encoder.cpp:19-329, roc_node/receiver_decoder.cpp:18-339.) -/
inductive Ev where
  /-- `roc_sender_encoder_activate`, `roc_receiver_decoder_activate` with these numbers. -/
  | activate (iface proto : Int) (e : Env)
  /-- The pipeline writes a packet. -/
  | produce (i : Iface) (b : Bytes)
  /-- The pipeline takes a packet from the inbound queue. -/
  | consume (i : Iface)
  /-- `roc_sender_encoder_pop_packet`, `roc_receiver_decoder_pop_feedback_packet`: `packet` may be null, or
  `packet->bytes` may be null, or else there is `packet->bytes_size`. -/
  | pop (iface : Int) (buf : Option (Option Nat))
  /-- `roc_sender_encoder_push_feedback_packet`, `roc_receiver_decoder_push_packet`: the packet may be null, or
  its bytes; `alloc`: a buffer and a packet can be allocated. -/
  | push (iface : Int) (pkt : Option (Option Bytes)) (alloc : Bool)
  deriving DecidableEq

/-- `pop` with the interface converted: the rest of the public function (sender_encoder.cpp:269-329,
receiver_decoder.cpp:226-287) and `read_packet` (roc_node/sender_encoder.cpp:171-189,
receiver_decoder.cpp:176-203). The packet is removed from the queue before sizes are compared. -/
def Node.pop (n : Node) (i : Iface) (size : Nat) : Option (Node × Log) :=
  if n.readers i = false then some (n, .failed)
  else match n.queue i with
    | none => none
    | some [] => some (n, .failed)
    | some (b :: q) =>
      let n' := { n with queue := upd n.queue i (some q) }
      if size < b.length then some (n', .failed) else some (n', .popped i b)

/-- `push` with the interface converted: the rest of the public function (sender_encoder.cpp:183-267,
receiver_decoder.cpp:140-224) and `write_packet` (roc_node/sender_encoder.cpp:191-218,
receiver_decoder.cpp:156-174). -/
def Node.push (n : Node) (c : Conf) (i : Iface) (b : Bytes) (alloc : Bool) : Node × Log :=
  if b.length = 0 then (n, .failed)
  else if alloc = false then (n, .failed)
  else if c.maxSize < b.length then (n, .failed)
  else if n.writers i = false then (n, .failed)
  else ({ n with inbound := upd n.inbound i (n.inbound i ++ [b]) }, .pushed i b)

/-- One event; nothing: abort. (Part of the model of roc_node/sender_encoder.cpp:19-329, roc_node/receiver_decoder.cpp:18-339.) -/
def Conf.step (c : Conf) (n : Node) : Ev → Option (Node × Log)
  | .activate iface proto e =>
    match ifaceFromUser iface with
    | none => some (n, .failed)
    | some i =>
      match protoFromUser proto with
      | none => some (n, .failed)
      | some p =>
        match c.activate n i p e with
        | none => none
        | some (n', r) => some (n', if r then .activated i p else .failed)
  | .produce i b =>
    if c.connected n.slot i then
      match n.queue i with
      | none => none
      | some q => some ({ n with queue := upd n.queue i (some (q ++ [b])) }, .wrote i b)
    else some (n, .nothing)
  | .consume i =>
    match n.inbound i with
    | [] => some (n, .nothing)
    | b :: q => some ({ n with inbound := upd n.inbound i q }, .took i b)
  | .pop iface buf =>
    match ifaceFromUser iface with
    | none => some (n, .failed)
    | some i =>
      match buf with
      | none => some (n, .failed)
      | some none => some (n, .failed)
      | some (some size) => n.pop i size
  | .push iface pkt alloc =>
    match ifaceFromUser iface with
    | none => some (n, .failed)
    | some i =>
      match pkt with
      | none => some (n, .failed)
      | some none => some (n, .failed)
      | some (some b) => some (n.push c i b alloc)

/-- A list of events: the node and what happened, one entry for every event; nothing: abort. (Part of the model of roc_node/sender_encoder.cpp:19-329, roc_node/receiver_decoder.cpp:18-339.) -/
def Conf.run (c : Conf) : Node → List Ev → Option (Node × List Log)
  | n, [] => some (n, [])
  | n, e :: es =>
    match c.step n e with
    | none => none
    | some (n', l) =>
      match c.run n' es with
      | none => none
      | some (n'', ls) => some (n'', l :: ls)

/-- `roc_sender_encoder_push_frame` (sender_encoder.cpp:137-181) and `roc_receiver_decoder_pop_frame`
(receiver_decoder.cpp:289-339): `frame`: null, or whether `samples` is not null with `samples_size`;
`channels` of the configuration; `eof`: the pipeline returns false (receiver only, otherwise not set).
Result: the returned value and the number of samples given to the pipeline. -/
def frame (channels : Nat) (fr : Option (Bool × Nat)) (eof : Bool) : Int × Option Nat :=
  match fr with
  | none => (-1, none)
  | some (samples, size) =>
    if size = 0 then (0, none)
    else if size % (channels * 4) ≠ 0 then (-1, none)
    else if samples = false then (-1, none)
    else (if eof then -1 else 0, some (size / 4))

end Verif.EncoderApi
