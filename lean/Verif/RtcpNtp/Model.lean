/-!
# Compact NTP timestamps in RTCP

Model of `src/internal_modules/roc_rtcp/ntp.cpp`. `ntp_timestamp_t` (`uint64_t`) is a `Nat` below
2^64; additions and subtractions are reduced modulo 2^64; masks are the bitwise
operators of `Nat`.
-/

namespace Verif.RtcpNtp

/-- `header::MaxDelay` (roc_rtcp/headers.h:91). -/
def maxDelay : Nat := 0x0000FFFFFFFFFFFF

/-- `header::MetricUnavail_32` (roc_rtcp/headers.h:97). -/
def metricUnavail32 : Nat := 0x0000FFFFFFFF0000

/-- `header::MetricUnavail_64` (roc_rtcp/headers.h:94). -/
def metricUnavail64 : Nat := 0xFFFFFFFFFFFFFFFF

/-- `ntp_clamp_64` (roc_rtcp/ntp.cpp:15-21). -/
def clamp64 (value max : Nat) : Nat := if value > max then max else value

/-- `ntp_clamp_32` (roc_rtcp/ntp.cpp:23-35). -/
def clamp32 (value max : Nat) : Nat :=
  let value := (value + 0x8000) % 2 ^ 64
  let value := value &&& 0xFFFFFFFFFFFF0000
  let value := if value > (max &&& 0xFFFFFFFFFFFF0000) then max &&& 0xFFFFFFFFFFFF0000 else value
  value &&& 0x0000FFFFFFFF0000

/-- `int64_t(x)` for an unsigned `x`. (Part of the model of roc_rtcp/headers.h:91-97, roc_rtcp/ntp.cpp:15-64.) -/
def toInt64 (x : Nat) : Int := if x < 2 ^ 63 then x else x - 2 ^ 64

/-- `std::abs(int64_t(a - b))`; the result for `INT64_MIN` (undefined in C++) is excluded by
`C23_abs_defined`. (Part of the model of roc_rtcp/headers.h:91-97, roc_rtcp/ntp.cpp:15-64.) -/
def absDiff (a b : Nat) : Nat := (toInt64 ((a + 2 ^ 64 - b) % 2 ^ 64)).natAbs

/-- The three candidates of `ntp_extend` (roc_rtcp/ntp.cpp:42, 45-46, 49-50): extended, wrapped
forward, wrapped backward. -/
def candidates (base value : Nat) : Nat × Nat × Nat :=
  ((base &&& 0xFFFF000000000000) ||| value,
   (((base + 2 ^ 64 - 0x0001000000000000) % 2 ^ 64) &&& 0xFFFF000000000000) ||| value,
   (((base + 0x0001000000000000) % 2 ^ 64) &&& 0xFFFF000000000000) ||| value)

/-- `ntp_extend` (roc_rtcp/ntp.cpp:37-64); `none` is the panic of line 39. -/
def extend (base value : Nat) : Option Nat :=
  if value &&& 0xFFFF00000000FFFF ≠ 0 then none
  else
    let (ext, fwd, bwd) := candidates base value
    if absDiff ext base ≤ absDiff fwd base ∧ absDiff ext base ≤ absDiff bwd base then some ext
    else if absDiff fwd base ≤ absDiff bwd base then some fwd
    else some bwd

end Verif.RtcpNtp
