import Verif.FecFlow.Props
import Verif.EndToEnd.Props

/-!
# Audio over a lossy network with FEC: composition

The sender is the packetizer (C67) followed by the FEC writer, the receiver is the FEC reader followed by the depacketizer. Between the
FEC writer and the FEC reader is the lossy network of C124. Packets are identified by tags: the tag of a packet is its number in the order of
writing. Stages of the receiver between the FEC reader and the depacketizer that pass packets through unchanged (filter, delayed reader,
timestamp injector) are left out.
-/

namespace Verif.LossyAudio

variable {α : Type}

open Depacketizer (St Pkt Frame Fault)
open FecFlow (Net)

/-- Frames of the given sizes are read one after another from a reader which returns the packets `q` one by one (depacketizer.cpp:77-101);
what one call leaves is there for the next one. Frames and packets that are not taken yet. -/
def listen (per : Int) : St α → List (Pkt α) → List Nat → Except Fault (List (Frame α) × List (Pkt α))
  | _, q, [] => .ok ([], q)
  | s, q, n :: ns => (Depacketizer.read per s q n).bind fun r =>
      (listen per r.1 r.2.1 ns).bind fun r' => .ok (r.2.2 :: r'.1, r'.2)

/-- The audio packet returned by the FEC reader: the received one, or the one whose content was restored (reader.cpp:138-179, 259-275). -/
def content (pkts : List (Pkt α)) : FecReader.Pkt → Option (Pkt α)
  | .recv f => pkts[f.tag]?
  | .rest t _ _ => pkts[t]?

/-- The decoder is right: what it restores for a position of a block is the packet which the sender wrote there. The first block has
number `b`. -/
def Faithful (k b : Nat) (ds : List Net) : Prop :=
  ∀ d ∈ ds, ∀ m g i t, d.dec (b + m) = some g → i < k → g i = some t → t = m * k + i

end Verif.LossyAudio
