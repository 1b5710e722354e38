import Mathlib.Data.List.Basic
import Mathlib.Tactic.NormNum

/-!
# WAV files: model

Models `WavHeader` (`roc_sndio/wav_header.cpp`) and `WavSink` (`roc_sndio/wav_sink.cpp`).

A file is the list of its bytes. `big` tells if the processor is big endian. `none` is `roc_panic`.
Simplified: `fseek`, `fwrite` and `fflush` succeed (their failures are only logged by the code).
-/

namespace Verif.WavFile

/-- Octets of a number of `k` bytes, the lowest first. (Part of the model of roc_sndio/wav_sink.cpp:19-172, wav_header.cpp:15-80.) -/
def octets : Nat → Nat → List Nat
  | 0, _ => []
  | k + 1, v => v % 256 :: octets k (v / 256)

/-- Number from its octets, the lowest first. (Part of the model of roc_sndio/wav_sink.cpp:19-172, wav_header.cpp:15-80.) -/
def fromOctets : List Nat → Nat
  | [] => 0
  | b :: l => b + 256 * fromOctets l

/-- Bytes of an unsigned integer in memory. (Part of the model of roc_sndio/wav_sink.cpp:19-172, wav_header.cpp:15-80.) -/
def memory (big : Bool) (k v : Nat) : List Nat := if big then (octets k v).reverse else octets k v

/-- `EndianOps::reverse_octets_`: `endian_ops.h:53-62`. -/
def reverseOctets (k v : Nat) : Nat := fromOctets (octets k v).reverse

/-- `EndianOps::swap_native_be`: `endian_ops.h:29-39`. -/
def swapBE (big : Bool) (k v : Nat) : Nat := if big then v else reverseOctets k v

/-- `EndianOps::swap_native_le`: `endian_ops.h:41-51`. -/
def swapLE (big : Bool) (k v : Nat) : Nat := if big then reverseOctets k v else v

/-- `WavHeader` with its `WavHeaderData`: `wav_header.h:26-95`. -/
structure Header where
  chunkId : Nat
  chunkSize : Nat
  format : Nat
  sub1Id : Nat
  sub1Size : Nat
  audioFormat : Nat
  channels : Nat
  rate : Nat
  byteRate : Nat
  blockAlign : Nat
  bits : Nat
  sub2Id : Nat
  sub2Size : Nat
  samples : Nat

/-- Constructor of `WavHeader`: `wav_header.cpp:15-55`. It initialises neither the sizes nor the number of
samples: these have what was in the memory (`junk`). -/
def Header.new (big : Bool) (junk : Nat × Nat × Nat) (channels rate bits : Nat) : Header where
  chunkId := swapBE big 4 0x52494646
  chunkSize := junk.1
  format := swapBE big 4 0x57415645
  sub1Id := swapBE big 4 0x666d7420
  sub1Size := swapLE big 2 0x10
  audioFormat := swapLE big 2 0x3
  channels := swapLE big 2 channels
  rate := swapLE big 4 rate
  byteRate := swapLE big 4 (rate * channels * (bits / 8) % 2 ^ 32)
  blockAlign := swapLE big 2 (channels * (bits / 8) % 2 ^ 16)
  bits := swapLE big 2 bits
  sub2Id := swapBE big 4 0x64617461
  sub2Size := junk.2.1
  samples := junk.2.2

/-- `WavHeader::update_and_get_header`: `wav_header.cpp:73-80`. -/
def Header.update (h : Header) (n : Nat) : Header :=
  let samples := (h.samples + n % 2 ^ 32) % 2 ^ 32
  let size := samples * h.channels * (h.bits / 8) % 2 ^ 32
  { h with samples := samples, sub2Size := size, chunkSize := (36 + size) % 2 ^ 32 }

/-- Bytes of the packed structure `WavHeaderData`: `wav_header.h:26-70`. -/
def Header.image (big : Bool) (h : Header) : List Nat :=
  memory big 4 h.chunkId ++ memory big 4 h.chunkSize ++ memory big 4 h.format ++ memory big 4 h.sub1Id ++
  memory big 4 h.sub1Size ++ memory big 2 h.audioFormat ++ memory big 2 h.channels ++ memory big 4 h.rate ++
  memory big 4 h.byteRate ++ memory big 2 h.blockAlign ++ memory big 2 h.bits ++ memory big 4 h.sub2Id ++
  memory big 4 h.sub2Size

/-- `WavSink`: `wav_sink.h:92-97`. -/
structure Sink where
  file : Option (List Nat)
  header : Header

/-- Constructor, for a configuration it takes: `wav_sink.cpp:19-44`. Samples are of type `float`. -/
def Sink.new (big : Bool) (junk : Nat × Nat × Nat) (channels rate : Nat) : Sink where
  file := none
  header := .new big junk channels rate 32

/-- `WavSink::open`: `wav_sink.cpp:54-62, 152-172`; `ok` tells if `fopen` does. -/
def Sink.open (s : Sink) (ok : Bool) : Option (Bool × Sink) :=
  match s.file with
  | some _ => none
  | none => if ok then some (true, { s with file := some [] }) else some (false, s)

/-- `WavSink::write`: `wav_sink.cpp:112-150`. A sample is the number whose bits are those of the `float`.
The header is written at the beginning, over what is there, and samples at the end. -/
def Sink.write (big : Bool) (s : Sink) (samples : List Nat) : Option Sink :=
  match s.file with
  | none => none
  | some f =>
    if 0 < samples.length then
      let h := s.header.update samples.length
      let f1 := h.image big ++ f.drop (h.image big).length
      some { file := some (f1 ++ samples.flatMap (memory big 4)), header := h }
    else some s

/-- Several calls of `write`. (Part of the model of roc_sndio/wav_sink.cpp:19-172, wav_header.cpp:15-80.) -/
def Sink.writes (big : Bool) (s : Sink) : List (List Nat) → Option Sink
  | [] => some s
  | x :: l => (s.write big x).bind fun s => s.writes big l

end Verif.WavFile
