import Verif.Ntp.Model

namespace Verif.Ntp

/-- `nanoseconds_2_ntp` in terms of whole seconds `q` and the rest `r`. -/
theorem nanoseconds2ntp_qr (q r : Nat) (hq : q < 4294967296) (hr : r < 1000000000) :
    nanoseconds2ntp ((q * 1000000000 + r : Nat) : Int) =
      some (q * 4294967296 + r * 4294967296 / 1000000000) := by
  have h0 : ¬ (((q * 1000000000 + r : Nat) : Int) < 0) := by omega
  have hd : (q * 1000000000 + r) / 1000000000 = q := by omega
  simp only [nanoseconds2ntp, h0, if_false, Int.toNat_natCast, second, bitsPack, hd,
    Nat.add_sub_cancel_left, Option.some.injEq, Nat.reducePow]
  omega

/-- `ntp_2_nanoseconds` in terms of the two halves. -/
theorem ntp2nanoseconds_hl (hi lo : Nat) (hh : hi < 4294967296) (hl : lo < 4294967296) :
    ntp2nanoseconds (hi * 4294967296 + lo) =
      ((hi * 1000000000 + lo * 1000000000 / 4294967296 : Nat) : Int) := by
  have h1 : (hi * 4294967296 + lo) / 4294967296 = hi := by omega
  have h2 : (hi * 4294967296 + lo) % 4294967296 = lo := by omega
  have h3 : hi % 4294967296 = hi := by omega
  simp only [ntp2nanoseconds, second, Nat.reducePow, h1, h2, h3]

/-- The fraction loses at most one nanosecond. -/
theorem fraction_round_trip (r : Nat) (hr : r < 1000000000) :
    r * 4294967296 / 1000000000 < 4294967296 ∧
    r * 4294967296 / 1000000000 * 1000000000 / 4294967296 ≤ r ∧
    r ≤ r * 4294967296 / 1000000000 * 1000000000 / 4294967296 + 1 := by
  omega

end Verif.Ntp
