import Verif.Units.Model

/-!
# RTP stream filter

Model of `src/internal_modules/roc_rtp/filter.cpp`.

Simplifications: `toNs` stands for `SampleSpec::stream_timestamp_delta_2_ns`
(roc_audio/sample_spec.cpp:298-304), which is floating point; nothing is assumed about it.
Packets are read from a reader that always succeeds; a failed read returns before
the state is touched (filter.cpp:30-32). The duration filled in by `populate_` does not
influence filtering and is a separate function.
-/

namespace Verif.Filter

open Verif.Units

/-- The packet fields examined by the filter (roc_packet/packet.h:62-100, rtp.h:27-58). -/
structure Pkt where
  isRtp : Bool
  isAudio : Bool
  source : BitVec 32
  payloadType : BitVec 7
  seqnum : Seqnum
  ts : Timestamp
  captureTs : Int
deriving DecidableEq, Repr

/-- `FilterConfig` (roc_rtp/filter.h:25-38). -/
structure Config where
  maxSnJump : Nat
  maxTsJump : Int

/-- Outcome of a check: pass, reject, or undefined behaviour (signed overflow). (Part of the model of roc_rtp/filter.cpp:27-136.) -/
inductive Verdict where
  | pass | reject | undefined
deriving DecidableEq, Repr

/-- Absolute value of an `int16_t` computed in `int` and narrowed back to `int16_t`
(roc_rtp/filter.cpp:89-92), then converted to `size_t` (filter.cpp:94). The value `-32768` stays
negative and becomes huge. -/
def snDist (next prev : Seqnum) : Nat :=
  let d := snDiff next prev
  if d < 0 then (if d = -32768 then 2 ^ 64 - 32768 else (-d).toNat) else d.toNat

/-- `Filter::validate_sequence_` (roc_rtp/filter.cpp:76-136). Negating `INT32_MIN` at
filter.cpp:104 is undefined behaviour. -/
def validateSequence (toNs : Int → Int) (cfg : Config) (prev next : Pkt) : Verdict :=
  if prev.source ≠ next.source then .reject
  else if next.payloadType ≠ prev.payloadType then .reject
  else if snDist next.seqnum prev.seqnum > cfg.maxSnJump then .reject
  else
    let d := tsDiff next.ts prev.ts
    if d = -2147483648 then .undefined
    else
      let d := if d < 0 then -d else d
      if toNs d > cfg.maxTsJump then .reject
      else if next.captureTs < 0 then .reject
      else if next.captureTs = 0 ∧ prev.captureTs ≠ 0 then .reject
      else .pass

/-- `Filter::validate_` (roc_rtp/filter.cpp:45-66). The state is `prev_packet_rtp_` when
`has_prev_packet_` is set. `RTP::compare(..) < 0` is `seqnum_lt` (roc_packet/rtp.cpp:24-32). -/
def validate (toNs : Int → Int) (cfg : Config) (prev : Option Pkt) (p : Pkt) :
    Verdict × Option Pkt :=
  if ¬ p.isRtp then (.reject, prev)
  else if ¬ p.isAudio then (.reject, prev)
  else
    match prev with
    | none => (.pass, some p)
    | some q =>
      match validateSequence toNs cfg q p with
      | .pass => (.pass, if snLt q.seqnum p.seqnum then some p else some q)
      | v => (v, some q)

/-- `Filter::read` (roc_rtp/filter.cpp:27-43) called for each packet in turn. The result is the
list of packets passed; `none` if undefined behaviour was reached. -/
def run (toNs : Int → Int) (cfg : Config) : Option Pkt → List Pkt → Option (List Pkt)
  | _, [] => some []
  | prev, p :: ps =>
    match validate toNs cfg prev p with
    | (.pass, st) => (run toNs cfg st ps).map (p :: ·)
    | (.reject, st) => run toNs cfg st ps
    | (.undefined, _) => none

end Verif.Filter
