import Verif.Units.Model

/-!
# Mapping of stream time to capture time

Model of `src/internal_modules/roc_rtp/timestamp_injector.cpp` (receiver) and
`roc_rtp/timestamp_extractor.cpp` (sender). The conversions of `audio::SampleSpec`
(`stream_timestamp_delta_2_ns`, `ns_2_stream_timestamp_delta`, sample_spec.cpp:279-304), done in
single precision floating point, are parameters. Nanoseconds are unbounded integers. Logging and
its rate limiter are not modelled.
-/

namespace Verif.TsMapping

open Verif.Units

/-- Fields of `TimestampInjector` (timestamp_injector.cpp:23-32) used for the mapping; the extractor
has the same ones (timestamp_extractor.cpp:22-30). -/
structure St where
  hasTs : Bool
  captTs : Int
  rtpTs : Timestamp
  nDrops : Nat
deriving DecidableEq, Repr

/-- Constructors. (Part of the model of roc_rtp/timestamp_injector.cpp:23-82, timestamp_extractor.cpp:22-86.) -/
def init : St := ⟨false, 0, 0, 0⟩

/-- The RTP fields in use. (roc_packet/rtp.h:27-58) -/
structure Pkt where
  streamTs : Timestamp
  captureTs : Int
deriving DecidableEq, Repr

/-- `TimestampInjector::update_mapping` (timestamp_injector.cpp:63-82). -/
def updateMapping (s : St) (captureTs : Int) (rtpTs : Timestamp) : St :=
  if captureTs ≤ 0 then { s with nDrops := s.nDrops + 1 }
  else { s with captTs := captureTs, rtpTs := rtpTs, hasTs := true }

/-- `TimestampInjector::read` (timestamp_injector.cpp:37-61) for an RTP packet read successfully from
the inner reader; `none` is the panic of line 47-50. -/
def inject (toNs : Int → Int) (s : St) (p : Pkt) : Option Pkt :=
  if p.captureTs ≠ 0 then none
  else if s.hasTs then
    some { p with captureTs := s.captTs + toNs (tsDiff p.streamTs s.rtpTs) }
  else some p

/-- `TimestampExtractor::write` (timestamp_extractor.cpp:35-56) for an RTP packet; `none` is the panic
of line 44-47. -/
def extract (s : St) (p : Pkt) : Option St :=
  if p.captureTs < 0 then none
  else if p.captureTs ≠ 0 then some { s with hasTs := true, captTs := p.captureTs, rtpTs := p.streamTs }
  else some s

/-- `TimestampExtractor::get_mapping` (timestamp_extractor.cpp:62-86); `none` is a panic. -/
def getMapping (toSamples : Int → Int) (s : St) (captureTs : Int) : Option Timestamp :=
  if captureTs ≤ 0 then none
  else if !s.hasTs then none
  else some (s.rtpTs + BitVec.ofInt 32 (toSamples (captureTs - s.captTs)))

end Verif.TsMapping
