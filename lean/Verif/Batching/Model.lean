import Verif.ChannelMapper.Model
import Verif.PcmCoder.Model
import Verif.SampleTime.Model

/-!
# Mapping of frames in batches: model

Models `roc_audio/channel_mapper_reader.cpp`, `channel_mapper_writer.cpp`,
`pcm_mapper_reader.cpp` and `pcm_mapper_writer.cpp`: each of them converts a frame through a
temporary buffer, in as many batches as needed.

Raw samples are lists of an arbitrary type (channel mappers) or of floating-point numbers (PCM
mappers); the other side of a PCM mapper is bytes in an integer format. Sizes of raw buffers are
in samples. The frame reader below is `Source`. Constructors and their checks are not modelled;
what they establish is in the hypotheses of the properties.
-/

namespace Verif.Batching

open Verif.ChannelSet Verif.ChannelMapper Verif.PcmFormat Verif.PcmCoder

/-- What can go wrong: an abort (or an access out of bounds), undefined behaviour, or a loop that
does not end. (Part of the model of roc_audio/channel_mapper_reader.cpp:58-111.) -/
inductive Err where
  | panic
  | undef
  | hang
  deriving DecidableEq, Repr

/-- `Frame::FlagNotRaw`: `frame.h:44`. -/
abbrev notRaw : Nat := 1

/-- `flags & FlagNotRaw`: `frame.cpp:52, 60`. -/
def hasNotRaw (flags : Nat) : Bool := flags &&& notRaw ≠ 0

/-- The frame reader below: sample number `k` of its stream; and what it answers to a request for
`n` samples after `p` samples were read: flags and capture timestamp, or `false`. (roc_audio/iframe_reader.h:22-35) -/
structure Source (α : Type) where
  sample : Nat → α
  info : Nat → Nat → Option (Nat × Int)

/-- The samples that fill the frame in such a request. (Part of the model of roc_audio/channel_mapper_reader.cpp:58-111.) -/
def Source.block {α : Type} (s : Source α) (p n : Nat) : List α :=
  (List.range n).map fun j => s.sample (p + j)

/-- The frame given to `read`, when it is filled: samples or bytes, flags, capture timestamp. (Part of the model of roc_audio/channel_mapper_reader.cpp:58-111.) -/
structure RSt (β : Type) where
  out : List β
  flags : Nat
  cts : Int
  deriving DecidableEq, Repr

/-- `stream_timestamp_t` has 32 bits (`roc_packet/units.h:36`). -/
abbrev m32 : Nat := 4294967296

/-- `Frame::set_duration`: `frame.cpp:87-93`. -/
def setDuration {β : Type} (n : Nat) (r : β) : Except Err (β × Nat) :=
  if n % m32 = 0 then .error .panic else .ok (r, n % m32)

variable {α : Type}

/-- `ChannelMapperReader::read_`: `channel_mapper_reader.cpp:95-111`, with what `read` does to the
frame at 81-83. `p` is the position in the stream, `op` the position in the frame, `first` tells if
this is the first batch. -/
def crBatch (ar : Arith α) (cin cout : CSet) (s : Source α) (p n op : Nat) (first : Bool)
    (st : RSt α) : Except Err (Option (RSt α)) :=
  match s.info p (n * cin.numChannels) with
  | none => .ok none
  | some (fl, cts) =>
    if hasNotRaw fl then .error .panic
    else
      match ChannelMapper.map ar cin cout (s.block p (n * cin.numChannels))
          ((st.out.drop op).take (n * cout.numChannels)) with
      | none => .error .panic
      | some res =>
        if first = true ∧ cts < 0 then .error .panic
        else .ok (some ⟨st.out.take op ++ res ++ st.out.drop (op + n * cout.numChannels),
          st.flags ||| fl, if first then cts else st.cts⟩)

/-- The loop of `ChannelMapperReader::read`: `channel_mapper_reader.cpp:73-87`, at most `fuel`
times. -/
def crLoop (ar : Arith α) (cin cout : CSet) (s : Source α) (maxBatch : Nat) :
    Nat → Nat → Nat → Nat → Bool → RSt α → Except Err (Option (RSt α))
  | fuel, n, p, op, first, st =>
    if n = 0 then .ok (some st)
    else match fuel with
      | 0 => .error .hang
      | fuel + 1 =>
        (crBatch ar cin cout s p (min n maxBatch) op first st).bind fun r =>
          match r with
          | none => .ok none
          | some st' =>
            crLoop ar cin cout s maxBatch fuel (n - min n maxBatch)
              (p + min n maxBatch * cin.numChannels) (op + min n maxBatch * cout.numChannels)
              false st'

/-- `ChannelMapperReader::read`: `channel_mapper_reader.cpp:58-93`. `buf` is the size of the
temporary buffer. The result is the frame with its duration, or `false`. A batch of at least one sample
makes progress, so `n` repetitions are enough; a batch of no samples repeats forever. -/
def crRead (ar : Arith α) (cin cout : CSet) (buf : Nat) (s : Source α) (p : Nat) (out : List α) :
    Except Err (Option (RSt α × Nat)) :=
  if out.length % cout.numChannels ≠ 0 then .error .panic
  else
    (crLoop ar cin cout s (buf / cin.numChannels) (out.length / cout.numChannels)
      (out.length / cout.numChannels) p 0 true ⟨out, 0, 0⟩).bind fun r =>
      match r with
      | none => .ok none
      | some st => (setDuration (out.length / cout.numChannels) st).map some

/-- A frame passed to the writer below. (roc_audio/channel_mapper_writer.cpp:58-101) -/
structure WFrame (β : Type) where
  samples : List β
  flags : Nat
  dur : Nat
  cts : Int
  deriving DecidableEq, Repr

/-- The end of `write_`: `frame.cpp:87-93, 103-109`. -/
def mkFrame {β : Type} (samples : List β) (flags dur : Nat) (cts : Int) : Except Err (WFrame β) :=
  if dur % m32 = 0 then .error .panic
  else if cts < 0 then .error .panic
  else .ok ⟨samples, flags, dur % m32, cts⟩

/-- Capture timestamp of the next batch: `channel_mapper_writer.cpp:81-83`,
`pcm_mapper_writer.cpp:106-108`. -/
def nextCts (rate : Nat) (cts : Int) (n : Nat) : Int :=
  if cts ≠ 0 then cts + SampleTime.samplesPerChanToNs rate n else cts

/-- `ChannelMapperWriter::write_`: `channel_mapper_writer.cpp:87-101`. The temporary buffer has some
samples from before (`junk`), which the mapping overwrites. -/
def cwBatch (ar : Arith α) (cin cout : CSet) (junk : α) (inp : List α) (n flags : Nat) (cts : Int) :
    Except Err (WFrame α) :=
  match ChannelMapper.map ar cin cout (inp.take (n * cin.numChannels))
      (List.replicate (n * cout.numChannels) junk) with
  | none => .error .panic
  | some res => mkFrame res flags n cts

/-- The loop of `ChannelMapperWriter::write`: `channel_mapper_writer.cpp:73-84`. -/
def cwLoop (ar : Arith α) (cin cout : CSet) (junk : α) (rate maxBatch flags : Nat) :
    Nat → List α → Nat → Int → Except Err (List (WFrame α))
  | fuel, inp, n, cts =>
    if n = 0 then .ok []
    else match fuel with
      | 0 => .error .hang
      | fuel + 1 =>
        (cwBatch ar cin cout junk inp (min n maxBatch) flags cts).bind fun f =>
          (cwLoop ar cin cout junk rate maxBatch flags fuel
            (inp.drop (min n maxBatch * cin.numChannels)) (n - min n maxBatch)
            (nextCts rate cts (min n maxBatch))).map fun fs => f :: fs

/-- `ChannelMapperWriter::write`: `channel_mapper_writer.cpp:58-85`. The result is the frames passed
to the writer below. -/
def cwWrite (ar : Arith α) (cin cout : CSet) (junk : α) (rate buf : Nat) (inp : List α) (flags : Nat)
    (cts : Int) : Except Err (List (WFrame α)) :=
  if hasNotRaw flags then .error .panic
  else if inp.length % cin.numChannels ≠ 0 then .error .panic
  else cwLoop ar cin cout junk rate (buf / cout.numChannels) flags (inp.length / cin.numChannels) inp
    (inp.length / cin.numChannels) cts

/-- Outcome of a mapper as an outcome here. (Part of the model of roc_audio/channel_mapper_reader.cpp:58-111.) -/
def ofMap {β : Type} : Except PcmCoder.Err β → Except Err β
  | .ok r => .ok r
  | .error .panic => .error .panic
  | .error .undef => .error .undef

/-- The loop of `PcmMapperReader::read` for raw samples below and an integer format above:
`pcm_mapper_reader.cpp:80-101`. `cnt` is `out_sample_count`, `so` is `out_sample_offset`, `bo` is
`out_bit_offset`. -/
def prLoop (o : Fmt) (nch : Nat) (s : Source Flt) (maxBatch cnt : Nat) :
    Nat → Nat → Nat → Nat → RSt Nat → Except Err (Option (RSt Nat))
  | fuel, p, so, bo, st =>
    if ¬ bo < cnt * nch * o.code.packed then .ok (some st)
    else match fuel with
      | 0 => .error .hang
      | fuel + 1 =>
        match s.info p (min (cnt - so) maxBatch * nch) with
        | none => .ok none
        | some (fl, cts) =>
          (ofMap (encMap o (s.block p (min (cnt - so) maxBatch * nch)) st.out bo)).bind fun r =>
            if so = 0 ∧ cts < 0 then .error .panic
            else prLoop o nch s maxBatch cnt fuel (p + min (cnt - so) maxBatch * nch)
              (so + min (cnt - so) maxBatch) r.2.2
              ⟨r.2.1, st.flags ||| fl, if so = 0 then cts else st.cts⟩

/-- `PcmMapperReader::read`: `pcm_mapper_reader.cpp:66-113`. `buf` is the size of the temporary
buffer in bytes, of which a raw sample takes four. The format above is not raw, so the flag is set
(line 106). -/
def prRead (o : Fmt) (nch buf : Nat) (s : Source Flt) (p : Nat) (out : List Nat) :
    Except Err (Option (RSt Nat × Nat)) :=
  (prLoop o nch s (buf * 8 / 32 / nch) (out.length * 8 / o.code.packed / nch)
    (out.length * 8 / o.code.packed / nch) p 0 0 ⟨out, 0, 0⟩).bind fun r =>
    match r with
    | none => .ok none
    | some st =>
      (setDuration (out.length * 8 / o.code.packed / nch)
        (⟨st.out, st.flags ||| notRaw, st.cts⟩ : RSt Nat)).map some

/-- The loop of `PcmMapperWriter::write` for an integer format above and raw samples below:
`pcm_mapper_writer.cpp:88-111`. `cnt` is `in_sample_count`, `so` is `in_sample_offset`, `bo` is
`in_bit_offset`. -/
def pwLoop (i : Fmt) (nch rate maxBatch cnt flags : Nat) (b : List Nat) :
    Nat → Nat → Nat → Int → Except Err (List (WFrame ℚ))
  | fuel, so, bo, cts =>
    if ¬ bo < cnt * nch * i.code.packed then .ok []
    else match fuel with
      | 0 => .error .hang
      | fuel + 1 =>
        (ofMap (decMap i b bo (min (cnt - so) maxBatch * nch))).bind fun r =>
          (mkFrame r.1 flags (min (cnt - so) maxBatch) cts).bind fun f =>
            (pwLoop i nch rate maxBatch cnt flags b fuel (so + min (cnt - so) maxBatch) r.2
              (nextCts rate cts (min (cnt - so) maxBatch))).map fun fs => f :: fs

/-- `PcmMapperWriter::write`: `pcm_mapper_writer.cpp:66-112`. The format below is raw, so the flag is
cleared (line 83). -/
def pwWrite (i : Fmt) (nch rate buf : Nat) (b : List Nat) (flags : Nat) (cts : Int) :
    Except Err (List (WFrame ℚ)) :=
  pwLoop i nch rate (buf * 8 / 32 / nch) (b.length * 8 / i.code.packed / nch)
    (flags - (flags &&& notRaw)) b (b.length * 8 / i.code.packed / nch) 0 0 cts

end Verif.Batching
