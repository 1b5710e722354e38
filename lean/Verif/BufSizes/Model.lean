import Verif.SampleTime.Model
import Verif.FecCodec.Model
import Verif.Packetizer.Model

/-!
# Sizes of buffers for packets and frames

Code modelled:

* sizes chosen by the tools: `tools/roc_send/main.cpp:235-263`, `tools/roc_recv/main.cpp:230-256`, `roc_node/context.h:30-41`,
  `Packet::approx_size`;
* packets created in such buffers: `packetizer.cpp:172-196` (source), `roc_fec/writer.cpp:208-252` with `align` and `prepare` of
  `roc_fec/composer.h` (repair); the composers are those of `RtpCodec` and `FecCodec`;
* the check of the buffer in the constructor of `Pump` (`roc_sndio/pump.cpp:15-50`).

A buffer of the pool has exactly the size of the configuration (`roc_node/context.cpp:18-23`, `roc_core/buffer.cpp:15-27`) and begins at
an aligned address. Memory can be allocated. Conversions of durations are those of C78. Packets have the default encoding of the
sender (`roc_pipeline/config.cpp:17`): 44100 Hz, stereo, 16 bits.
-/

namespace Verif.BufSizes

open FecCodec (Kind)
open RtpCodec (Out need)

/-- Scheme of the source endpoint (`roc_pipeline/sender_endpoint.cpp:36-91`). -/
inductive Scheme where
  | none | ldpc | rs8m
deriving DecidableEq, Repr

/-- Payload id of source packets (`sender_endpoint.cpp:51-82`). -/
def Scheme.source : Scheme → Option Kind
  | .none => Option.none
  | .ldpc => some .ldpcSource
  | .rs8m => some .rs8m

/-- Payload id of repair packets (`sender_endpoint.cpp:62-92`). -/
def Scheme.repair : Scheme → Option Kind
  | .none => Option.none
  | .ldpc => some .ldpcRepair
  | .rs8m => some .rs8m

/-- `size_t` has 64 bits. (Used in tools/roc_send/main.cpp:230-263.) -/
abbrev m64 : Nat := 18446744073709551616

/-- `Packet::approx_size` (`roc_packet/packet.cpp:189-194`). -/
def approxSize (n : Nat) : Nat := (64 + n * 2) % m64

/-- Packet buffer of `roc-send` without `--max-packet-size` (`roc_send/main.cpp:246-252`): `rate` is zero without `--rate`; the other
defaults are 12 channels and 48000 Hz. `none` is an abort. -/
def sendPacketBuf (rate : Nat) (frameLen : Int) : Option Nat :=
  (SampleTime.nsToSamplesOverall (if rate = 0 then 48000 else rate) 12 frameLen).map fun n => approxSize n.toNat

/-- Frame buffer of `roc-recv` without `--max-frame-size` (`roc_recv/main.cpp:250-256`). -/
def recvFrameBuf (rate : Nat) (frameLen : Int) : Option Nat :=
  (SampleTime.nsToSamplesOverall (if rate = 0 then 48000 else rate) 12 frameLen).map fun n => n.toNat * 4 % m64

/-- Packet buffer of `roc-recv` without `--max-packet-size`, and of the library (`roc_node/context.h:38`). -/
def defaultPacketBuf : Nat := 2048

/-- Frame buffer of `roc-send` without `--max-frame-size`, and of the library (`roc_node/context.h:39`). -/
def defaultFrameBuf : Nat := 4096

/-- Default frame length of the tools, 10 ms (`roc_sndio/config.h:26`). -/
def defaultFrameLen : Int := 10000000

/-- Size of the payload of a packet of the given length (`packetizer.cpp:50-51`, `pcm_encoder.cpp:27-29`). `none` is an abort. -/
def payloadSize (packetLen : Int) : Option Nat := (SampleTime.nsToStreamTs 44100 packetLen).map fun n => n.toNat * 4

/-- `FlagAudio` (`roc_packet/packet.h:50`). -/
def flagAudio : BitVec 32 := 16

/-- `create_packet_` (`packetizer.cpp:172-196`) with a buffer of `buf` bytes. -/
def makeSource (s : Scheme) (buf payload : Nat) : Out Unit :=
  match s.source with
  | none => (RtpCodec.prepare flagAudio {} (List.replicate buf 0) ⟨0, buf⟩ payload).bind fun _ => .ok ()
  | some k => (FecCodec.prepareSource k flagAudio {} {} (List.replicate buf 0) ⟨0, buf⟩ payload).bind fun _ => .ok ()

/-- `AlignOps::pad_as` (`roc_core/align_ops.cpp:38-49`). -/
def padAs (size alignment : Nat) : Nat :=
  if alignment = 0 then 0
  else (if size / alignment * alignment < size then size / alignment * alignment + alignment else size / alignment * alignment) - size

/-- `make_repair_packet_` (`roc_fec/writer.cpp:208-252`) with a buffer of `buf` bytes, after `align` (`roc_fec/composer.h:36-63`; the
alignment is 8, `openfec_encoder.h:83`). The size is that of the source packet without its payload id: the header of 12 bytes of RTP and the
payload. -/
def makeRepair (k : Kind) (buf payload : Nat) : Out Unit :=
  if buf < padAs k.size 8 then .reject
  else (FecCodec.prepareRepair k 0 {} (List.replicate buf 0) ⟨padAs k.size 8, 0⟩ (12 + payload)).bind fun _ => .ok ()

/-- A datagram of this size gets to the receiver (`udp_port.cpp:235-237, 301-310`). -/
def arrives (buf size : Nat) : Bool := decide (0 < size) && decide (size ≤ min 65536 buf)

/-- The constructor of `Pump` succeeds (`pump.cpp:30-50`); `none` is an abort. -/
def pumpOk (buf rate chans : Nat) (frameLen : Int) : Option Bool :=
  (SampleTime.nsToSamplesOverall rate chans frameLen).map fun n => decide (n.toNat ≠ 0) && decide (n.toNat ≤ buf / 4)

/-- Frames written to the packetizer, as calls of `Packetizer`: creation of a packet succeeds if `makeSource` does; after a failure the rest
of the frame is not written (`packetizer.cpp:85-89, 188-191`). -/
def calls {α : Type} (s : Scheme) (buf payload : Nat) (frames : List (List α × Int)) : List (Packetizer.Op α) :=
  frames.map fun f => .write f.1 f.2 [decide (makeSource s buf payload = .ok ())]

end Verif.BufSizes
