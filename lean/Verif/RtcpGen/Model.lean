import Verif.RtcpBuild.Spec

/-!
# Generation of RTCP packets

Model of the generating part of `src/internal_modules/roc_rtcp/communicator.cpp`. The reporter is constant while packets
are generated, so it is a record of what it returns; structures filled by the reporter are their bytes. Packets are built
by the model of the builder (`Verif.RtcpBuild`). Allocation of packets and buffers and writing of packets succeed; when
they fail the loop ends earlier. The composer copies the payload and is not modelled.
-/

namespace Verif.RtcpGen

open Verif.Bytes Verif.RtcpFields Verif.RtcpParse Verif.RtcpBuild

/-- What the reporter returns during generation (reporter.cpp:580-894). First index is the index of a destination
address, second one is the index of a stream. XR blocks are the type specific byte and the bytes after the header. -/
structure Rep where
  numDest : Nat
  isSending : Bool
  isReceiving : Bool
  numSend : Nat → Nat
  numRecv : Nat → Nat
  needGoodbye : Bool
  ssrc : Nat
  cname : Bytes
  sr : Bytes
  rr : Bytes
  xr : Bytes
  rrtr : Bytes
  reception : Nat → Nat → Bytes
  dlrr : Nat → Nat → Bytes
  measurement : Nat → Nat → Byte × Bytes
  delay : Nat → Nat → Byte × Bytes
  queue : Nat → Nat → Byte × Bytes

/-- Members used for generation (communicator.h:150-164). -/
structure St where
  destCount : Nat
  destIdx : Nat
  sendCount : Nat
  sendIdx : Nat
  recvCount : Nat
  recvIdx : Nat
  maxStreams : Nat
  curSend : Nat
  curRecv : Nat

/-- `header::MaxPacketBlocks`, initial limit (headers.h:85, communicator.cpp:46). -/
abbrev maxPacketBlocks : Nat := 31

/-- Members after construction (communicator.cpp:40-48). -/
def initSt : St := ⟨0, 0, 0, 0, 0, 0, maxPacketBlocks, 0, 0⟩

/-- `next_send_stream_` (communicator.cpp:514-530). -/
def nextSend (s : St) (i : Nat) : Option St :=
  if max s.curSend (i - s.sendIdx + 1) + s.curRecv ≥ s.maxStreams then none
  else some { s with curSend := max s.curSend (i - s.sendIdx + 1) }

/-- `next_recv_stream_` (communicator.cpp:532-543). -/
def nextRecv (s : St) (i : Nat) : Option St :=
  if s.curSend + max s.curRecv (i - s.recvIdx + 1) ≥ s.maxStreams then none
  else some { s with curRecv := max s.curRecv (i - s.recvIdx + 1) }

/-- Loop over streams with `break` (communicator.cpp:697-707, 722-732, 753-763, 775-798): indices of streams that
were added; `k` is how many streams are left. -/
def streams (next : St → Nat → Option St) : Nat → Nat → St → St × List Nat
  | 0, _, s => (s, [])
  | k + 1, i, s =>
    match next s i with
    | none => (s, [])
    | some s' => ((streams next k (i + 1) s').1, i :: (streams next k (i + 1) s').2)

/-- Loop over receiving streams. (roc_rtcp/communicator.cpp:697, 722, 775) -/
def recvStreams (s : St) : St × List Nat := streams nextRecv (s.recvCount - s.recvIdx) s.recvIdx s

/-- Loop over sending streams. (roc_rtcp/communicator.cpp:753) -/
def sendStreams (s : St) : St × List Nat := streams nextSend (s.sendCount - s.sendIdx) s.sendIdx s

/-- Loop over receiving streams that is only done when receiving (communicator.cpp:696, 721, 768). -/
def recvIf (r : Rep) (s : St) : St × List Nat := if r.isReceiving then recvStreams s else (s, [])

/-- `generate_standard_report_` (communicator.cpp:686-737). -/
def standard (r : Rep) (s : St) : St × List Call :=
  if r.isSending then
    ((recvIf r s).1, .beginSr (resetHeader 200 ++ r.sr) :: ((recvIf r s).2.map (fun i => .srReport (r.reception s.destIdx i))) ++ [.endSr])
  else
    ((recvIf r s).1, .beginRr (resetHeader 201 ++ r.rr) :: ((recvIf r s).2.map (fun i => .rrReport (r.reception s.destIdx i))) ++ [.endRr])

/-- Bytes of an XR block before its length is set. (Part of the model of roc_rtcp/communicator.cpp:28-842.) -/
def xrBytes (type : Nat) (b : Byte × Bytes) : Bytes := [BitVec.ofNat 8 type, b.1, 0, 0] ++ b.2

/-- There are sending streams to report about (communicator.cpp:740, 747). -/
def hasDlrr (r : Rep) (s : St) : Bool := r.isSending && decide (s.sendIdx < s.sendCount)

/-- DLRR part of an extended report (communicator.cpp:747-766). -/
def dlrrPart (r : Rep) (s : St) : St × List Call :=
  if hasDlrr r s then
    ((sendStreams s).1, .beginDlrr (xrBytes 5 (0, [])) :: (sendStreams s).2.map (fun i => .dlrrReport (r.dlrr s.destIdx i)) ++ [.endDlrr])
  else (s, [])

/-- Receiver part of an extended report (communicator.cpp:768-799). -/
def recvPart (r : Rep) (s : St) : St × List Call :=
  if r.isReceiving then
    ((recvStreams s).1, .xrBlock (xrBytes 4 (0, r.rrtr)) :: (recvStreams s).2.flatMap (fun i =>
      [.xrBlock (xrBytes 14 (r.measurement s.destIdx i)), .xrBlock (xrBytes 16 (r.delay s.destIdx i)),
       .xrBlock (xrBytes 220 (r.queue s.destIdx i))]))
  else (s, [])

/-- `generate_extended_report_` (communicator.cpp:739-803). -/
def extended (r : Rep) (s : St) : St × List Call :=
  if hasDlrr r s || r.isReceiving then
    ((recvPart r (dlrrPart r s).1).1,
      .beginXr (resetHeader 207 ++ r.xr) :: (dlrrPart r s).2 ++ (recvPart r (dlrrPart r s).1).2 ++ [.endXr])
  else (s, [])

/-- `generate_description_` (communicator.cpp:813-828). -/
def description (r : Rep) : List Call := [.beginSdes, .beginChunk r.ssrc, .item 1 r.cname, .endChunk, .endSdes]

/-- `generate_goodbye_` (communicator.cpp:830-842). -/
def goodbye (r : Rep) : List Call := [.beginBye, .byeSsrc r.ssrc, .endBye]

/-- `generate_empty_report_` (communicator.cpp:805-811). -/
def emptyReport (r : Rep) : List Call := [.beginRr (resetHeader 201 ++ r.rr), .endRr]

/-- `PacketType` (communicator.h:100). -/
inductive PacketType where
  | reports | goodbye
deriving DecidableEq

/-- A part that is done only if it is enabled. (Part of the model of roc_rtcp/communicator.cpp:28-842.) -/
def partIf (b : Bool) (f : St → St × List Call) (s : St) : St × List Call := if b then f s else (s, [])

/-- `generate_reports_payload_` and `generate_goodbye_payload_` (communicator.cpp:654-684). -/
def payloadCalls (cfg : Config) (r : Rep) (s : St) : PacketType → St × List Call
  | .reports =>
    ((partIf cfg.enableXr (extended r) (partIf cfg.enableSrRr (standard r) s).1).1,
      (partIf cfg.enableSrRr (standard r) s).2 ++ (partIf cfg.enableXr (extended r) (partIf cfg.enableSrRr (standard r) s).1).2 ++
        (if cfg.enableSdes then description r else []) ++ (if r.needGoodbye then goodbye r else []))
  | .goodbye =>
    (s, (if cfg.enableSrRr then emptyReport r else []) ++ (if cfg.enableSdes then description r else []) ++ goodbye r)

/-- Result of a function that may abort or return an error. (Part of the model of roc_rtcp/communicator.cpp:28-842.) -/
inductive Out (α : Type) where
  /-- panic -/
  | abort
  /-- `StatusNoSpace` -/
  | noSpace (s : St)
  | ok (a : α)

/-- `generate_packet_payload_` (communicator.cpp:605-652). The limit becomes smaller with every attempt. -/
def payload (cfg : Config) (cap : Nat) (r : Rep) (type : PacketType) (s : St) : Out (St × Bytes) :=
  let p := payloadCalls cfg r { s with curSend := 0, curRecv := 0 } type
  match build cfg cap p.2 with
  | none => .abort
  | some b =>
    if b.ok then .ok ({ p.1 with sendIdx := p.1.sendIdx + p.1.curSend, recvIdx := p.1.recvIdx + p.1.curRecv }, b.done)
    else if p.1.curSend + p.1.curRecv ≤ 1 then .noSpace { p.1 with maxStreams := 1 }
    else if _h : p.1.curSend + p.1.curRecv - 1 < s.maxStreams then
      payload cfg cap r type { p.1 with maxStreams := p.1.curSend + p.1.curRecv - 1 }
    else .abort -- does not happen
termination_by s.maxStreams

/-- Number of streams if the direction is active (communicator.cpp:488-495). -/
def countIf (b : Bool) (n : Nat) : Nat := if b then n else 0

/-- `continue_packet_generation_` (communicator.cpp:462-500). -/
def continueGen (r : Rep) (s : St) : St × Bool :=
  if s.sendIdx ≥ s.sendCount ∧ s.recvIdx ≥ s.recvCount then
    let s1 := if s.destCount = 0 then { s with destCount := r.numDest, destIdx := 0 } else { s with destIdx := s.destIdx + 1 }
    if s1.destIdx ≥ s1.destCount then (s1, false)
    else ({ s1 with curSend := 0, curRecv := 0, sendIdx := 0, sendCount := countIf r.isSending (r.numSend s1.destIdx),
                    recvIdx := 0, recvCount := countIf r.isReceiving (r.numRecv s1.destIdx) }, true)
  else (s, true)

/-- Loop of `generate_packets_` (communicator.cpp:407-420) with at most `n` iterations: destination and payload of
packets that were written. `none`: the loop has not ended. -/
def loop (cfg : Config) (cap : Nat) (r : Rep) (type : PacketType) : Nat → St → Option (Out (St × List (Nat × Bytes)))
  | 0, _ => none
  | n + 1, s =>
    if (continueGen r s).2 then
      match payload cfg cap r type (continueGen r s).1 with
      | .abort => some .abort
      | .noSpace s' => some (.noSpace s')
      | .ok (s', b) =>
        match loop cfg cap r type n s' with
        | some (.ok (s'', l)) => some (.ok (s'', ((continueGen r s).1.destIdx, b) :: l))
        | o => o
    else some (.ok ((continueGen r s).1, []))

/-- `generate_packets_` (communicator.cpp:396-430). -/
def generate (cfg : Config) (cap : Nat) (r : Rep) (type : PacketType) (n : Nat) (s : St) : Option (Out (St × List (Nat × Bytes))) :=
  loop cfg cap r type n { s with destCount := 0, destIdx := 0, sendCount := 0, sendIdx := 0, recvCount := 0, recvIdx := 0 }

/-! ## Deadlines -/

/-- `generation_deadline` (communicator.cpp:332-347): the deadline, which is also the new value of the member. Zero is
"not set". Times are positive. -/
def generationDeadline (next now : Int) : Int := if next = 0 then now else next

/-- Deadline part of `generate_reports` (communicator.cpp:349-367): new value of the member and whether packets are
generated. Sums do not overflow for times below `2^62`. -/
def generateReports (interval next now : Int) : Int × Bool :=
  if generationDeadline next now > now then (generationDeadline next now, false)
  else (now + interval - (now - generationDeadline next now) % interval, true)

end Verif.RtcpGen
