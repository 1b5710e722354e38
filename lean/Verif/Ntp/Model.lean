/-!
# NTP timestamps

Model of `src/internal_modules/roc_packet/ntp.cpp`. `nanoseconds_t` (`int64_t`) is `Int`;
every intermediate value of the modelled functions fits 64 bits for every `int64_t` input
(the largest are `Era1 * Second + UnixEpoch * Second < 4.3e18` and
`2^32 * 10^9 < 4.3e18`), so no reduction is needed there. `ntp_timestamp_t` (`uint64_t`)
is a `Nat` below 2^64; additions that can wrap are reduced explicitly.
`none` is `roc_panic`.
-/

namespace Verif.Ntp

/-- `core::Second` (roc_core/time.h:70), in nanoseconds. -/
def second : Nat := 1000000000

/-- `UnixEpoch` (roc_packet/ntp.cpp:21). -/
def unixEpoch : Nat := (70 * 365 + 17) * (24 * 3600)

/-- `Era1` (roc_packet/ntp.cpp:26-27). -/
def era1 : Nat := (66 * 365 + 16 + 37) * (24 * 3600) + 6 * 3600 + 28 * 60 + 16

/-- `bits_pack` (roc_packet/ntp.cpp:29-31). The operands do not overlap, so `|` is `+`. -/
def bitsPack (hi lo : Nat) : Nat := (hi % 2 ^ 32) * 2 ^ 32 + lo % 2 ^ 32

/-- `nanoseconds_2_ntp` (roc_packet/ntp.cpp:71-79). -/
def nanoseconds2ntp (ns : Int) : Option Nat :=
  if ns < 0 then none
  else
    let n := ns.toNat
    let seconds := n / second
    let nans := n - seconds * second
    let fraction := (nans * 2 ^ 32) / second
    some (bitsPack seconds fraction)

/-- `ntp_2_nanoseconds` with `bits_unpack` (roc_packet/ntp.cpp:33-36, 81-90). -/
def ntp2nanoseconds (v : Nat) : Int :=
  let hi := v / 2 ^ 32 % 2 ^ 32
  let lo := v % 2 ^ 32
  ((hi * second + lo * second / 2 ^ 32 : Nat) : Int)

/-- `unix_2_ntp` (roc_packet/ntp.cpp:40-52). -/
def unix2ntp (t : Int) : Option Nat :=
  if t < (era1 * second : Nat) then
    nanoseconds2ntp (t + (unixEpoch * second : Nat))
  else
    nanoseconds2ntp (t - (era1 * second : Nat))

/-- `ntp_2_unix` (roc_packet/ntp.cpp:54-69). The top bit selects the era. -/
def ntp2unix (v : Nat) : Int :=
  if 2 ^ 63 ≤ v then
    let epoch := unixEpoch * 2 ^ 32
    if v < epoch then - ntp2nanoseconds (epoch - v)
    else ntp2nanoseconds (v - epoch)
  else
    ntp2nanoseconds ((v + era1 * 2 ^ 32) % 2 ^ 64)

end Verif.Ntp
