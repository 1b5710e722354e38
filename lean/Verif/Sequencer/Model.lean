import Verif.Units.Model

/-!
# RTP sequencer

Model of `src/internal_modules/roc_rtp/sequencer.cpp`.
-/

namespace Verif.Sequencer

open Verif.Units

/-- The fields of `packet::RTP` set by the sequencer (roc_packet/rtp.h:27-58). -/
structure Rtp where
  source : BitVec 32
  payloadType : Nat
  seqnum : Seqnum
  ts : Timestamp
  duration : BitVec 32
  captureTs : Int
deriving DecidableEq, Repr

/-- Fields of `Sequencer` (roc_rtp/sequencer.h:37-43). `identity_` is shared with the RTCP
code which can change its SSRC; here the current SSRC is an argument of `next`. -/
structure State where
  payloadType : Nat
  seqnum : Seqnum
  ts : Timestamp

/-- Constructor (roc_rtp/sequencer.cpp:16-28); `r1` and `r2` are the two results of
`fast_random_range`. -/
def State.init (payloadType r1 r2 : Nat) : State :=
  ⟨payloadType, BitVec.ofNat 16 r1, BitVec.ofNat 32 r2⟩

/-- One call: the SSRC read from the identity, capture timestamp and duration. (Part of the model of roc_rtp/sequencer.cpp:16-53.) -/
structure Call where
  ssrc : BitVec 32
  captureTs : Int
  duration : BitVec 32

/-- `Sequencer::next` (roc_rtp/sequencer.cpp:34-53). The second component is the header
written into the packet, `none` is the panic on a packet without RTP header. -/
def State.next (s : State) (hasRtp : Bool) (c : Call) : Option (State × Rtp) :=
  if hasRtp then
    some ({ s with seqnum := s.seqnum + 1, ts := s.ts + c.duration },
      { source := c.ssrc, payloadType := s.payloadType, seqnum := s.seqnum, ts := s.ts,
        duration := c.duration, captureTs := c.captureTs })
  else none

/-- Successive calls on packets with RTP header (packetizer.cpp:158 is the only caller). -/
def run (s : State) : List Call → Option (List Rtp)
  | [] => some []
  | c :: cs => do
    let (s', r) ← s.next true c
    let rs ← run s' cs
    return r :: rs

end Verif.Sequencer
