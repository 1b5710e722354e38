import Verif.Packetizer.Model
import Verif.Sequencer.Model
import Verif.Depacketizer.Model

/-!
# Sender and receiver together

The packetizer with its sequencer on one side, the depacketizer on the other. What is between them (interleaving, the network, queues
of the receiver) is not a program here: it can lose, repeat, delay and reorder packets in any way, but does not change them.
-/

namespace Verif.EndToEnd

variable {α : Type}

/-- The packet with the header written by the sequencer (packetizer.cpp:137-152, roc_rtp/sequencer.cpp:34-53), as seen by the
depacketizer. -/
def stamp (outs : List (Packetizer.Out α)) (hdrs : List Sequencer.Rtp) : List (Depacketizer.Pkt α) :=
  List.zipWith (fun o r => ⟨r.ts.toNat, o.audio, r.captureTs⟩) outs hdrs

/-- The call of the sequencer for a packet (packetizer.cpp:141-143). The duration is converted to 32 bits. -/
def seqCall (ssrc : BitVec 32) (o : Packetizer.Out α) : Sequencer.Call := ⟨ssrc, o.cts, BitVec.ofNat 32 o.dur⟩

/-- All packets sent by the packetizer for calls `ops` (packetizer.cpp:75-170). `sn0` and `ts0` are the random initial values of the
sequencer. -/
def send (c : Packetizer.Cfg) (pt sn0 ts0 : Nat) (ssrc : BitVec 32) (ops : List (Packetizer.Op α)) : Option (List (Depacketizer.Pkt α)) :=
  (Packetizer.run c ⟨none⟩ ops).bind fun r =>
    (Sequencer.run (Sequencer.State.init pt sn0 ts0) (r.1.flatten.map (seqCall ssrc))).map fun hs => stamp r.1.flatten hs

end Verif.EndToEnd
