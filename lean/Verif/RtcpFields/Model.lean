import Verif.Bytes.Basic
import Verif.RtcpNtp.Model

/-!
# Fields of RTCP packets

Model of the packed structures of `src/internal_modules/roc_rtcp/headers.h`. A structure is its memory
image, a list of bytes; a setter overwrites some bytes, a getter reads some.

`float` values of the fraction lost are rationals: the code only compares them, multiplies by 256 and
truncates, which is exact for all finite values between 0 and 1. NaN is not modelled.
-/

namespace Verif.RtcpFields

open Verif.Bytes Verif.RtcpNtp

/-- `ntoh16u`/`ntoh32u` of a member at an offset. (Part of the model of roc_rtcp/headers.h:32-1756.) -/
def fld (m : List Byte) (off n : Nat) : Nat := beNat (rdAt m off n)

/-- Assignment of `hton16u`/`hton32u` to a member at an offset; the value is cut to the size of the member. (Part of the model of roc_rtcp/headers.h:32-1756.) -/
def put (m : List Byte) (off n v : Nat) : List Byte := wrAt m off (toBe n v)

/-- `get_bit_field<uint32_t>` (headers.h:32-36). -/
def getBits (v shift mask : Nat) : Nat := (v >>> shift) &&& mask

/-- `set_bit_field<uint32_t>` (headers.h:43-47). -/
def setBits (v0 v1 shift mask : Nat) : Nat := (v0 &&& (0xFFFFFFFF ^^^ (mask <<< shift))) ||| ((v1 &&& mask) <<< shift)

/-- `get_bit_field<uint8_t>` (headers.h:32-36). -/
def getBits8 (v : Byte) (shift : Nat) (mask : Byte) : Byte := (v >>> shift) &&& mask

/-- `set_bit_field<uint8_t>` (headers.h:43-47). -/
def setBits8 (v0 v1 : Byte) (shift : Nat) (mask : Byte) : Byte := (v0 &&& ~~~(mask <<< shift)) ||| ((v1 &&& mask) <<< shift)

/-! ## Packet header (headers.h:126-238) -/

/-- First byte of a header. (Part of the model of roc_rtcp/headers.h:32-1756.) -/
def byte0 (m : List Byte) : Byte := BitVec.ofNat 8 (fld m 0 1)

/-- `counter` (headers.h:172-174). -/
def counter (m : List Byte) : Nat := (getBits8 (byte0 m) 0 0x1F).toNat

/-- `set_counter` (headers.h:177-180); `none` is the panic. -/
def setCounter (m : List Byte) (c : Nat) : Option (List Byte) :=
  if c > 31 then none else some (put m 0 1 (setBits8 (byte0 m) (BitVec.ofNat 8 c) 0 0x1F).toNat)

/-- `version` (headers.h:188-190). -/
def version (m : List Byte) : Nat := (getBits8 (byte0 m) 6 3).toNat

/-- `set_version` (headers.h:193-196). -/
def setVersion (m : List Byte) (v : Byte) : List Byte := put m 0 1 (setBits8 (byte0 m) v 6 3).toNat

/-- `has_padding` (headers.h:199-201). -/
def hasPadding (m : List Byte) : Bool := getBits8 (byte0 m) 5 1 != 0

/-- `set_padding` (headers.h:204-206). -/
def setPadding (m : List Byte) (b : Bool) : List Byte := put m 0 1 (setBits8 (byte0 m) (if b then 1 else 0) 5 1).toNat

/-- `type` (headers.h:209-211). -/
def ptype (m : List Byte) : Nat := fld m 1 1

/-- `set_type` (headers.h:214-217), for a valid type. -/
def setType (m : List Byte) (t : Nat) : List Byte := put m 1 1 t

/-- `len_bytes` (headers.h:220-232, 58-60). -/
def lenBytes (m : List Byte) : Nat := (fld m 2 2 + 1) * 4

/-- `set_len_bytes` (headers.h:225-237, 50-55); `none` is a panic. -/
def setLenBytes (m : List Byte) (len : Nat) : Option (List Byte) :=
  if len < 4 ∨ len > 0xFFFF ∨ len % 4 ≠ 0 then none else some (put m 2 2 (len / 4 - 1))

/-- `PacketHeader::reset` (headers.h:162-169). -/
def resetHeader (t : Nat) : List Byte := setType (setVersion [0, 0, 0, 0] 2) t

/-! ## Timestamps (headers.h:253-307) -/

/-- `NtpTimestamp64::value` (headers.h:264-267). -/
def ntp64 (m : List Byte) (off : Nat) : Nat := (fld m off 4 <<< 32) ||| fld m (off + 4) 4

/-- `NtpTimestamp64::set_value` (headers.h:270-273). -/
def setNtp64 (m : List Byte) (off t : Nat) : List Byte := put (put m off 4 (t >>> 32)) (off + 4) 4 t

/-- `NtpTimestamp32::value` (headers.h:297-299). -/
def ntp32 (m : List Byte) (off : Nat) : Nat := fld m off 4 <<< 16

/-- `NtpTimestamp32::set_value` (headers.h:304-306). -/
def setNtp32 (m : List Byte) (off t : Nat) : List Byte := put m off 4 (t >>> 16)

/-! ## Reception report block (headers.h:333-491) -/

/-- `fract_loss` (headers.h:388-395). -/
def fractLoss (m : List Byte) : Rat := (getBits (fld m 4 4) 24 0xFF : Nat) / 256

/-- Conversion in `set_fract_loss` (headers.h:399-410). -/
def fract8 (q : Rat) : Nat :=
  let q := if q > 1 then 1 else q
  let q := if q < 0 then 0 else q
  let v := (q * 256).floor.toNat
  if v > 0xFF then 0xFF else v

/-- `set_fract_loss` (headers.h:399-416). -/
def setFractLoss (m : List Byte) (q : Rat) : List Byte := put m 4 4 (setBits (fld m 4 4) (fract8 q) 24 0xFF)

/-- `cum_loss` (headers.h:420-432). -/
def cumLoss (m : List Byte) : Int :=
  let c := getBits (fld m 4 4) 0 0xFFFFFF
  let c := if c &&& (1 <<< 23) ≠ 0 then c ||| 0xFF000000 else c
  if c < 2 ^ 31 then c else (c : Int) - 2 ^ 32

/-- `set_cum_loss` (headers.h:436-448). -/
def setCumLoss (m : List Byte) (v : Int) : List Byte :=
  let v := if v > 0x7FFFFF then 0x7FFFFF else if v < -0x7FFFFF - 1 then -0x7FFFFF - 1 else v
  put m 4 4 (setBits (fld m 4 4) (v % 2 ^ 32).toNat 0 0xFFFFFF)

/-- What the getters of a reception report block give (headers.h:378-484). -/
structure Report where
  ssrc : Nat
  fract : Rat
  cum : Int
  lastSeq : Nat
  jitter : Nat
  lastSr : Nat
  delayLastSr : Nat
deriving DecidableEq

/-- All getters of a block (headers.h:378-484). -/
def readReport (m : List Byte) : Report :=
  ⟨fld m 0 4, fractLoss m, cumLoss m, fld m 8 4, fld m 12 4, ntp32 m 16, ntp32 m 20⟩

/-- `set_delay_last_sr` (headers.h:488-490). -/
def setDelayLastSr (m : List Byte) (t : Nat) : List Byte := setNtp32 m 20 (clamp32 t maxDelay)

/-! ## Sender report (headers.h:621-722) -/

/-- What the getters of a sender report give, without the header (headers.h:657-699). -/
structure SenderInfo where
  ssrc : Nat
  ntp : Nat
  rtp : Nat
  packets : Nat
  bytes : Nat
deriving DecidableEq

/-- All getters of a sender report (headers.h:657-699). -/
def readSender (m : List Byte) : SenderInfo := ⟨fld m 4 4, ntp64 m 8, fld m 16 4, fld m 20 4, fld m 24 4⟩

/-! ## Extended report blocks (headers.h:1100-1756) -/

/-- What the getters of a measurement information block give (headers.h:1412-1467). -/
structure MeasurementInfo where
  ssrc : Nat
  firstSeq : Nat
  intervalFirst : Nat
  intervalLast : Nat
  intervalDuration : Nat
  cumDuration : Nat
deriving DecidableEq

/-- All getters of a measurement information block (headers.h:1412-1467). -/
def readMeasurement (m : List Byte) : MeasurementInfo :=
  ⟨fld m 4 4, fld m 10 2, fld m 12 4, fld m 16 4, ntp32 m 20, ntp64 m 24⟩

/-- What the getters of a delay metrics block give (headers.h:1556-1634). -/
structure DelayMetrics where
  flag : Nat
  ssrc : Nat
  meanRtt : Nat
  minRtt : Nat
  maxRtt : Nat
  e2eLatency : Nat
deriving DecidableEq

/-- `metric_flag` (headers.h:1556-1559, 1705-1708). -/
def metricFlag (m : List Byte) : Nat := (getBits8 (BitVec.ofNat 8 (fld m 1 1)) 6 3).toNat

/-- `set_metric_flag` (headers.h:1562-1566, 1711-1715). -/
def setMetricFlag (m : List Byte) (f : Byte) : List Byte :=
  put m 1 1 (setBits8 (BitVec.ofNat 8 (fld m 1 1)) f 6 3).toNat

/-- All getters of a delay metrics block (headers.h:1556-1634). -/
def readDelay (m : List Byte) : DelayMetrics :=
  ⟨metricFlag m, fld m 4 4, ntp32 m 8, ntp32 m 12, ntp32 m 16, ntp64 m 20⟩

/-- `set_mean_rtt`, `set_min_rtt`, `set_max_rtt`, `set_niq_latency`, `set_niq_stalling` with the offset of
the member (headers.h:1590-1624, 1738-1755). -/
def setMetric (m : List Byte) (off t : Nat) : List Byte := setNtp32 m off (clamp32 t (metricUnavail32 - 1))

/-- `set_e2e_latency` (headers.h:1637-1639). -/
def setE2e (m : List Byte) (t : Nat) : List Byte := setNtp64 m 20 (clamp64 t (metricUnavail64 - 1))

/-- What the getters of a queue metrics block give (headers.h:1705-1750). -/
structure QueueMetrics where
  flag : Nat
  ssrc : Nat
  latency : Nat
  stalling : Nat
deriving DecidableEq

/-- All getters of a queue metrics block (headers.h:1705-1750). -/
def readQueue (m : List Byte) : QueueMetrics := ⟨metricFlag m, fld m 4 4, ntp32 m 8, ntp32 m 12⟩

/-- What the getters of a DLRR subblock give (headers.h:1247-1270). -/
structure Dlrr where
  ssrc : Nat
  lastRr : Nat
  delayLastRr : Nat
deriving DecidableEq

/-- All getters of a DLRR subblock (headers.h:1247-1270). -/
def readDlrr (m : List Byte) : Dlrr := ⟨fld m 0 4, ntp32 m 4, ntp32 m 8⟩

/-- `set_delay_last_rr` (headers.h:1274-1276). -/
def setDelayLastRr (m : List Byte) (t : Nat) : List Byte := setNtp32 m 8 (clamp32 t maxDelay)

/-- What the getters of a packet header give (headers.h:172-232). -/
structure Header where
  version : Nat
  padding : Bool
  counter : Nat
  type : Nat
  len : Nat
deriving DecidableEq

/-- All getters of a packet header (headers.h:172-232). -/
def readHeader (m : List Byte) : Header := ⟨version m, hasPadding m, counter m, ptype m, lenBytes m⟩

end Verif.RtcpFields
