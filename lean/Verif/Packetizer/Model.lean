/-!
# Packetizer

Model of `src/internal_modules/roc_audio/packetizer.cpp`. Simplifications:

- a sample is what is played at one moment on all channels, of an arbitrary type, and counts are per channel;
- a payload is the list of its samples; the encoder is represented by `bytes`, the number of bytes for a number of samples;
- conversion of a number of samples to nanoseconds is `per` times the number, without rounding;
- whether a packet can be allocated and prepared is given to the call as a list of attempts;
- a call of the packet writer is an element of the output; the panic on its failure is not modelled.
-/

namespace Verif.Packetizer

/-- A packet passed to the writer: samples in the payload, bytes of padding, capture timestamp and duration given to the sequencer
(packetizer.cpp:133-159). -/
structure Out (α : Type) where
  audio : List α
  pad : Nat
  cts : Int
  dur : Nat
deriving DecidableEq

/-- Configuration: `samples_per_packet_` (packetizer.h:103), duration of a sample in nanoseconds, `encoded_byte_count`
(pcm_encoder.cpp:27-29). -/
structure Cfg where
  spp : Nat
  per : Int
  bytes : Nat → Nat

/-- Members (packetizer.h:106-110): samples encoded into the current packet and `packet_cts_`, if there is a packet. -/
structure St (α : Type) where
  pkt : Option (List α × Int)

/-- `stream_timestamp_t` has 32 bits (roc_packet/units.h:36). -/
abbrev m32 : Nat := 4294967296

/-- `end_packet_` and `pad_packet_` (packetizer.cpp:133-170). `none` is the panic at 136. -/
def endPacket {α : Type} (c : Cfg) (audio : List α) (cts : Int) : Option (Out α) :=
  if c.bytes audio.length ≤ c.bytes c.spp then
    some ⟨audio, if audio.length < c.spp then c.bytes c.spp - c.bytes audio.length else 0, cts, audio.length % m32⟩
  else none

/-- The capture timestamp after `k` samples (packetizer.cpp:101-103). -/
def advance (c : Cfg) (ts : Int) (k : Nat) : Int := if ts = 0 then ts else ts + c.per * k

/-- `begin_packet_` (packetizer.cpp:117-131, 172-196): the current packet, the rest of allocation attempts. -/
def beginPacket {α : Type} (s : St α) (ts : Int) (allocs : List Bool) : Option (List α × Int) × List Bool :=
  match s.pkt with
  | some p => (some p, allocs)
  | none => (if allocs.headD true then some ([], ts) else none, allocs.tail)

/-- The loop of `write` (packetizer.cpp:84-108), repeated at most `fuel` times: packets, the state. `none` is a panic or an endless loop. -/
def loop {α : Type} (c : Cfg) : Nat → St α → List α → Int → List Bool → Option (List (Out α) × St α)
  | fuel, s, l, ts, allocs =>
    if l.length = 0 then some ([], s)
    else match fuel with
      | 0 => none
      | fuel + 1 =>
        match beginPacket s ts allocs with
        | (none, _) => some ([], s)
        | (some (audio, cts), allocs') =>
          if (audio ++ l.take (c.spp - audio.length)).length = c.spp then
            (endPacket c (audio ++ l.take (c.spp - audio.length)) cts).bind fun o =>
              (loop c fuel ⟨none⟩ (l.drop (c.spp - audio.length)) (advance c ts (min l.length (c.spp - audio.length))) allocs').map fun r => (o :: r.1, r.2)
          else loop c fuel ⟨some (audio ++ l.take (c.spp - audio.length), cts)⟩ (l.drop (c.spp - audio.length))
            (advance c ts (min l.length (c.spp - audio.length))) allocs'

/-- A call of `write` with a frame, its capture timestamp and allocation attempts, or a call of `flush`. (Part of the model of roc_audio/packetizer.cpp:75-196.) -/
inductive Op (α : Type) where
  | write (samples : List α) (cts : Int) (allocs : List Bool)
  | flush

/-- One call (packetizer.cpp:75-115). -/
def step {α : Type} (c : Cfg) (s : St α) : Op α → Option (List (Out α) × St α)
  | .write l cts allocs => loop c l.length s l cts allocs
  | .flush => match s.pkt with
    | none => some ([], s)
    | some (audio, cts) => (endPacket c audio cts).map fun o => ([o], ⟨none⟩)

/-- Calls: packets of each call. (Part of the model of roc_audio/packetizer.cpp:75-196.) -/
def run {α : Type} (c : Cfg) (s : St α) : List (Op α) → Option (List (List (Out α)) × St α)
  | [] => some ([], s)
  | o :: ops => (step c s o).bind fun r => (run c r.2 ops).map fun r' => (r.1 :: r'.1, r'.2)

end Verif.Packetizer
