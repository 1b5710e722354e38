import Verif.SampleTime.Model
import Verif.ResamplerWriter.Model

/-!
# Capture timestamps of resamplers: model

Models `ResamplerReader::capture_ts_` and `push_input_` (`roc_audio/resampler_reader.cpp`) and
`ResamplerWriter::capture_ts_` (`roc_audio/resampler_writer.cpp`). Arithmetic in `float` is rounded
to 24 bits (see `Verif.PcmFormat.FloatModel`); the arithmetic of `int64_t` is not bounded. An
abort of a conversion is `none`.
-/

namespace Verif.ResamplerTime

open Verif.PcmFormat (rnd)
open Verif.SampleTime Verif.BuiltinResampler

/-- Conversion from `float` to an integer: towards zero. (Used in roc_audio/resampler_reader.cpp:57-151.) -/
def trunc (x : ℚ) : Int := if 0 ≤ x then ⌊x⌋ else ⌈x⌉

/-- `fract_samples_overall_2_ns`: `sample_spec.cpp:261-266`; the argument is `float`. -/
def fractOverallToNs (rate chans : Nat) (x : ℚ) : Int := samplesToNs (rnd 24 (x / rnd 24 (chans : ℚ))) rate

/-- `n_left_to_process`: `builtin_resampler.cpp:296-298, 41-43`, from the fixed-point number. -/
def leftFloat (chans left : Nat) : ℚ :=
  rnd 24 (rnd 24 (rnd 24 (left : ℚ) / rnd 24 (one : ℚ)) * rnd 24 (chans : ℚ))

/-- Length of the output frame multiplied by `scaling_`: `resampler_reader.cpp:139-140`,
`resampler_writer.cpp:166-167`. `n` is the number of samples per channel. -/
def scaledNs (outRate chans n : Nat) (scaling : ℚ) : Option Int :=
  (samplesOverallToNs outRate chans (n * chans)).map fun t : Int => trunc (rnd 24 (rnd 24 (t : ℚ) * scaling))

/-- Negative timestamps are replaced: `resampler_reader.cpp:142-148`, `resampler_writer.cpp:169-175`. -/
def clip (t : Int) : Int := if t < 0 then 0 else t

/-- `last_in_cts_` of the reader after `k` requests with the timestamps `cts`:
`resampler_reader.cpp:108-114`. A frame has `frame` samples per channel. -/
def lastIn (inRate chans frame : Nat) (cts : Nat → Int) : Nat → Option Int
  | 0 => some 0
  | k + 1 =>
    if cts k > 0 then (samplesOverallToNs inRate chans (frame * chans)).map fun d => cts k + d
    else lastIn inRate chans frame cts k

/-- `set_scaling` of the reader and of the writer: `resampler_reader.cpp:58-65`, `resampler_writer.cpp:67-74`.
The state is `scaling_` and what the resampler uses; the first part of the result is what is returned. -/
def setTs (c : Cfg) (inRate outRate : Nat) (mult : ℚ) (st : ℚ × Scal) : Except Err (Bool × ℚ × Scal) :=
  (setScaling c inRate outRate (.num mult)).map fun r =>
    match r with
    | none => (false, mult, st.2)
    | some sc => (true, mult, sc)

/-- `capture_ts_` of the reader: `resampler_reader.cpp:122-151`. -/
def readerTs (inRate outRate chans : Nat) (last : Int) (left n : Nat) (scaling : ℚ) : Option Int :=
  if last = 0 then some 0
  else (scaledNs outRate chans n scaling).map fun d =>
    clip (last - fractOverallToNs inRate chans (leftFloat chans left) - d)

/-- `capture_ts_` of the writer: `resampler_writer.cpp:147-181`, for an input frame with the timestamp
`cts`; `pos` is `in_pos` and `buf` is `input_buf_pos_`, per channel. -/
def writerTs (inRate outRate chans : Nat) (cts : Int) (pos buf left n : Nat) (scaling : ℚ) : Option Int :=
  if cts = 0 then some 0
  else (samplesOverallToNs inRate chans (pos * chans)).bind fun a =>
    (samplesOverallToNs inRate chans (buf * chans)).bind fun b =>
    (scaledNs outRate chans n scaling).map fun d =>
      clip (cts + a - b - fractOverallToNs inRate chans (leftFloat chans left) - d)

end Verif.ResamplerTime
