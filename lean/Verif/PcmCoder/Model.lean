import Verif.PcmFormat.FloatModel

/-!
# PCM encoder and decoder: model

Models `roc_audio/pcm_encoder.cpp` and `roc_audio/pcm_decoder.cpp` on top of the model of
`PcmMapper` for an integer format (`Fmt`); the other side of the mapper is raw samples
(`Sample_RawFormat`, 32-bit floats), which are lists of numbers here and not bytes.

A call has an outcome: a result, an abort (`panic`), or undefined behaviour (`undef`: an
access out of bounds or the conversion of a NaN). Pointers passed by the caller are not null.
-/

namespace Verif.PcmCoder

open Verif.PcmFormat

/-- What can go wrong in a call. (Part of the model of roc_audio/pcm_encoder.cpp:19-69, pcm_decoder.cpp:20-114.) -/
inductive Err where
  | panic
  | undef
  deriving DecidableEq, Repr

/-- An outcome that is undefined if there is no result. (Part of the model of roc_audio/pcm_encoder.cpp:19-69, pcm_decoder.cpp:20-114.) -/
def orUndef {β : Type} : Option β → Except Err β
  | some r => .ok r
  | none => .error .undef

/-- `pcm_mapper<...>::map` (`pcm_format.cpp:12760-12776`) from raw samples. -/
def encLoop (o : Fmt) : List Flt → List Nat → Nat → Option (List Nat × Nat)
  | [], b, off => some (b, off)
  | x :: l, b, off =>
    (fromFloat o.code x).bind fun v =>
      (pack o.code o.big b off v).bind fun r => encLoop o l r.1 r.2

/-- `pcm_mapper<...>::map` (`pcm_format.cpp:12760-12776`) to raw samples: the samples with the
new offset. -/
def decLoop (i : Fmt) (b : List Nat) : Nat → Nat → Option (List ℚ × Nat)
  | 0, off => some ([], off)
  | n + 1, off =>
    (unpack i.code i.big b off).bind fun r =>
      (decLoop i b n r.2).map fun q => (toFloat 24 i.code r.1 :: q.1, q.2)

/-- `PcmMapper::map` (`pcm_mapper.cpp:65-91`) from raw samples, all of them from the beginning:
number of samples, output buffer, output offset. -/
def encMap (o : Fmt) (samples : List Flt) (b : List Nat) (off : Nat) :
    Except Err (Nat × List Nat × Nat) :=
  if off > b.length * 8 then .error .panic
  else
    let k := min samples.length ((b.length * 8 - off) / o.code.packed)
    if k ≠ 0 then (orUndef (encLoop o (samples.take k) b off)).map fun r => (k, r)
    else .ok (k, b, off)

/-- `PcmMapper::map` (`pcm_mapper.cpp:65-91`) to a buffer of `n` raw samples: the samples with
the input offset. -/
def decMap (i : Fmt) (b : List Nat) (off n : Nat) : Except Err (List ℚ × Nat) :=
  if off > b.length * 8 then .error .panic
  else
    let k := min n ((b.length * 8 - off) / i.code.packed)
    if k ≠ 0 then orUndef (decLoop i b k off)
    else .ok ([], off)

/-- Members of `PcmEncoder` (`pcm_encoder.h:44-50`): `frame_data_` with `frame_byte_size_`,
`frame_bit_off_`. -/
structure Enc where
  frame : Option (List Nat)
  off : Nat
  deriving DecidableEq, Repr

/-- Constructor: `pcm_encoder.cpp:19-25`. -/
def Enc.init : Enc := ⟨none, 0⟩

/-- `PcmEncoder::encoded_byte_count`: `pcm_encoder.cpp:27-29`, `pcm_mapper.cpp:53-55`. -/
def encodedByteCount (o : Fmt) (nch n : Nat) : Nat := (n * nch * o.code.packed + 7) / 8

/-- `PcmEncoder::begin`: `pcm_encoder.cpp:31-40`. -/
def Enc.begin (e : Enc) (b : List Nat) : Except Err Enc :=
  if e.frame.isSome then .error .panic else .ok { e with frame := some b }

/-- `PcmEncoder::write`: `pcm_encoder.cpp:42-59`. The buffer of the caller has
`n_samples * n_chans_` samples. The input offset is a multiple of 32 and the number mapped is
not larger than requested, so the checks at 55-56 do not fire. -/
def Enc.write (o : Fmt) (nch : Nat) (e : Enc) (samples : List Flt) : Except Err (Nat × Enc) :=
  match e.frame with
  | none => .error .panic
  | some b => (encMap o samples b e.off).map fun r => (r.1 / nch, ⟨some r.2.1, r.2.2⟩)

/-- `PcmEncoder::end`: `pcm_encoder.cpp:61-69`. -/
def Enc.finish (e : Enc) : Except Err Enc :=
  if e.frame.isNone then .error .panic else .ok ⟨none, 0⟩

/-- Calls of the encoder. (roc_audio/pcm_encoder.h:24-51) -/
inductive EncOp where
  | begin (b : List Nat)
  | write (samples : List Flt)
  | finish

/-- One call: the number returned by `write`, and the frame when it is given back by
`end`. (roc_audio/pcm_encoder.h:24-51) -/
def Enc.step (o : Fmt) (nch : Nat) (e : Enc) : EncOp → Except Err ((Nat × List Nat) × Enc)
  | .begin b => (e.begin b).map fun e' => ((0, []), e')
  | .write l => (e.write o nch l).map fun r => ((r.1, []), r.2)
  | .finish => (e.finish).map fun e' => ((0, e.frame.getD []), e')

/-- Calls one after another. (roc_audio/pcm_encoder.h:24-51) -/
def Enc.run (o : Fmt) (nch : Nat) : Enc → List EncOp → Except Err (List (Nat × List Nat) × Enc)
  | e, [] => .ok ([], e)
  | e, op :: ops =>
    (e.step o nch op).bind fun r => (Enc.run o nch r.2 ops).map fun q => (r.1 :: q.1, q.2)

/-- `stream_timestamp_t` has 32 bits (`roc_packet/units.h:36`). -/
abbrev m32 : Nat := 4294967296

/-- Members of `PcmDecoder` (`pcm_decoder.h:56-64`). -/
structure Dec where
  pos : Nat
  avail : Nat
  frame : Option (List Nat)
  off : Nat
  deriving DecidableEq, Repr

/-- Constructor: `pcm_decoder.cpp:20-28`. -/
def Dec.init : Dec := ⟨0, 0, none, 0⟩

/-- `PcmDecoder::decoded_sample_count`: `pcm_decoder.cpp:38-42`, `pcm_mapper.cpp:41-43`. -/
def decodedSampleCount (i : Fmt) (nch size : Nat) : Nat := size * 8 / i.code.packed / nch

/-- `PcmDecoder::begin`: `pcm_decoder.cpp:44-59`. -/
def Dec.begin (i : Fmt) (nch : Nat) (d : Dec) (pos : Nat) (b : List Nat) : Except Err Dec :=
  if d.frame.isSome then .error .panic
  else .ok { d with
    frame := some b
    pos := pos
    avail := b.length * 8 / i.code.packed / nch % m32 }

/-- `PcmDecoder::read`: `pcm_decoder.cpp:61-85`. The result is the number returned, and what is
written to the buffer of the caller. The checks at 78-79 do not fire, like those of the
encoder. -/
def Dec.read (i : Fmt) (nch : Nat) (d : Dec) (n : Nat) : Except Err ((Nat × List ℚ) × Dec) :=
  match d.frame with
  | none => .error .panic
  | some b =>
    (decMap i b d.off ((if n > d.avail then d.avail else n) * nch)).map fun r =>
      ((r.1.length / nch, r.1),
        ⟨(d.pos + r.1.length / nch % m32) % m32, (d.avail + m32 - r.1.length / nch % m32) % m32,
          some b, r.2⟩)

/-- `PcmDecoder::shift`: `pcm_decoder.cpp:87-102`. -/
def Dec.shift (i : Fmt) (nch : Nat) (d : Dec) (n : Nat) : Except Err (Nat × Dec) :=
  match d.frame with
  | none => .error .panic
  | some b =>
    let k := if n > d.avail then d.avail else n
    .ok (k, ⟨(d.pos + k % m32) % m32, (d.avail + m32 - k % m32) % m32, some b,
      d.off + k * nch * i.code.packed⟩)

/-- `PcmDecoder::end`: `pcm_decoder.cpp:104-114`. -/
def Dec.finish (d : Dec) : Except Err Dec :=
  if d.frame.isNone then .error .panic else .ok ⟨d.pos, 0, none, 0⟩

/-- Calls of the decoder. (roc_audio/pcm_decoder.h:24-65) -/
inductive DecOp where
  | begin (pos : Nat) (b : List Nat)
  | read (n : Nat)
  | shift (n : Nat)
  | finish

/-- One call: the number returned by `read` or `shift`, and the samples read. (roc_audio/pcm_decoder.h:24-65) -/
def Dec.step (i : Fmt) (nch : Nat) (d : Dec) : DecOp → Except Err ((Nat × List ℚ) × Dec)
  | .begin pos b => (d.begin i nch pos b).map fun d' => ((0, []), d')
  | .read n => d.read i nch n
  | .shift n => (d.shift i nch n).map fun r => ((r.1, []), r.2)
  | .finish => (d.finish).map fun d' => ((0, []), d')

/-- Calls one after another. (roc_audio/pcm_decoder.h:24-65) -/
def Dec.run (i : Fmt) (nch : Nat) : Dec → List DecOp → Except Err (List (Nat × List ℚ) × Dec)
  | d, [] => .ok ([], d)
  | d, op :: ops =>
    (d.step i nch op).bind fun r => (Dec.run i nch r.2 ops).map fun q => (r.1 :: q.1, q.2)

end Verif.PcmCoder
