import Verif.PcmFormat.FloatModel

/-!
# Conversions between samples, durations and bytes: model

Models the conversions of `SampleSpec` in `roc_audio/sample_spec.cpp`.

Arithmetic in `float` is the exact result rounded to 24 bits (`rnd 24` of
`Verif.PcmFormat.FloatModel`); overflow and underflow of `float` are not modelled: all numbers
are far from 2¹²⁸ and from 2⁻¹²⁶ unless they are zero. `roundf` is exact.

The specification is `is_valid` (`sample_spec.cpp:133-137`) unless said otherwise: the rate and
the number of channels are not zero. An abort (`roc_panic_if_msg`) is `none`.
-/

namespace Verif.SampleTime

open Verif.PcmFormat (rnd)

/-- `roundf`: nearest integer, away from zero in the middle. (Used in roc_audio/sample_spec.cpp:23.) -/
def roundAway (x : ℚ) : Int := if 0 ≤ x then ⌊x + 1 / 2⌋ else ⌈x - 1 / 2⌉

/-- `core::Second` in nanoseconds: `roc_core/time.h:61-70`. -/
abbrev second : Int := 1000000000

/-- `ns_2_fract_samples`: `sample_spec.cpp:22-24`. All operands are converted to `float`. -/
def nsToFract (ns : Int) (rate : Nat) : Int :=
  roundAway (rnd 24 (rnd 24 (rnd 24 (ns : ℚ) / rnd 24 (second : ℚ)) * rnd 24 (rate : ℚ)))

/-- `ns_2_int_samples` for a type with the bounds `tmin` and `tmax`: `sample_spec.cpp:26-46`. -/
def nsToInt (tmin tmax : Int) (ns : Int) (rate mul : Nat) : Int :=
  if rnd 24 (nsToFract ns rate * rnd 24 (mul : ℚ)) ≤ rnd 24 (tmin : ℚ) then tmin.tdiv mul * mul
  else if rnd 24 (nsToFract ns rate * rnd 24 (mul : ℚ)) ≥ rnd 24 (tmax : ℚ) then
    tmax.tdiv mul * mul
  else nsToFract ns rate * mul

/-- Bounds of `nanoseconds_t`, which is `int64_t`. (roc_core/time.h:58) -/
abbrev nsMin : Int := -2 ^ 63
/-- See `nsMin`. (roc_core/time.h:58) -/
abbrev nsMax : Int := 2 ^ 63 - 1

/-- `nsamples_2_ns`: `sample_spec.cpp:48-63`. The argument is of type `float`. -/
def samplesToNs (x : ℚ) (rate : Nat) : Int :=
  if (roundAway (rnd 24 (rnd 24 (x / rnd 24 (rate : ℚ)) * rnd 24 (second : ℚ))) : ℚ)
      ≤ rnd 24 (nsMin : ℚ) then nsMin
  else if (roundAway (rnd 24 (rnd 24 (x / rnd 24 (rate : ℚ)) * rnd 24 (second : ℚ))) : ℚ)
      ≥ rnd 24 (nsMax : ℚ) then nsMax
  else roundAway (rnd 24 (rnd 24 (x / rnd 24 (rate : ℚ)) * rnd 24 (second : ℚ)))

/-- `ns_2_samples_per_chan`: `sample_spec.cpp:219-226`. -/
def nsToSamplesPerChan (rate : Nat) (ns : Int) : Option Int :=
  if ns < 0 then none else some (nsToInt 0 (2 ^ 64 - 1) ns rate 1)

/-- `samples_per_chan_2_ns`: `sample_spec.cpp:228-233`. -/
def samplesPerChanToNs (rate : Nat) (n : Nat) : Int := samplesToNs (rnd 24 (n : ℚ)) rate

/-- `ns_2_samples_overall`: `sample_spec.cpp:242-249`. -/
def nsToSamplesOverall (rate chans : Nat) (ns : Int) : Option Int :=
  if ns < 0 then none else some (nsToInt 0 (2 ^ 64 - 1) ns rate chans)

/-- `samples_overall_2_ns`: `sample_spec.cpp:251-259`. -/
def samplesOverallToNs (rate chans n : Nat) : Option Int :=
  if n % chans ≠ 0 then none
  else some (samplesToNs (rnd 24 (rnd 24 (n : ℚ) / rnd 24 (chans : ℚ))) rate)

/-- `ns_2_stream_timestamp`: `sample_spec.cpp:268-276`; `stream_timestamp_t` is `uint32_t`. -/
def nsToStreamTs (rate : Nat) (ns : Int) : Option Int :=
  if ns < 0 then none else some (nsToInt 0 (2 ^ 32 - 1) ns rate 1)

/-- `stream_timestamp_2_ns`: `sample_spec.cpp:278-284`. -/
def streamTsToNs (rate : Nat) (ts : Nat) : Int := samplesToNs (rnd 24 (ts : ℚ)) rate

/-- `ns_2_stream_timestamp_delta`: `sample_spec.cpp:290-296`; the difference is `int32_t`. -/
def nsToStreamDelta (rate : Nat) (ns : Int) : Int := nsToInt (-2 ^ 31) (2 ^ 31 - 1) ns rate 1

/-- `stream_timestamp_delta_2_ns`: `sample_spec.cpp:298-304`. -/
def streamDeltaToNs (rate : Nat) (d : Int) : Int := samplesToNs (rnd 24 (d : ℚ)) rate

/-- `bytes_2_stream_timestamp`: `sample_spec.cpp:311-324`; `width` is `pcm_width_`, which is not
zero. The result is converted to `uint32_t`. -/
def bytesToStreamTs (pcm : Bool) (width chans bytes : Nat) : Option Nat :=
  if !pcm then none else if width % 8 ≠ 0 then none
  else some (bytes / (width / 8) / chans % 2 ^ 32)

/-- `stream_timestamp_2_bytes`: `sample_spec.cpp:326-339`. The product is of type `size_t`. -/
def streamTsToBytes (pcm : Bool) (width chans ts : Nat) : Option Nat :=
  if !pcm then none else if width % 8 ≠ 0 then none
  else some (ts * (width / 8) % 2 ^ 64 * chans % 2 ^ 64)

end Verif.SampleTime
