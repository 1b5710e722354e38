import Verif.Ntp.Lemmas

/-!
# C02: NTP conversion round-trips

The supported calendar range is 1968-01-20 03:14:08 (NTP seconds `2^31` of era 0, i.e.
`2^31 - 2208988800` Unix seconds) to 2104-02-26 (`2^31` seconds into era 1).
-/

namespace Verif.Ntp

/-- First nanosecond (Unix time) of the supported range: NTP era 0, second `2^31`. -/
def firstNs : Int := (2 ^ 31 - 2208988800) * 1000000000

/-- End (exclusive) of the supported range: NTP era 1, second `2^31`, as Unix time. -/
def endNs : Int := (2 ^ 32 + 2 ^ 31 - 2208988800) * 1000000000

/-- **C02** (round trip). For every wall-clock time of the supported range the conversion to
NTP succeeds and converting back gives the same nanosecond or the previous one. -/
theorem C02_round_trip (t : Int) (hlo : firstNs ≤ t) (hhi : t < endNs) :
    ∃ v, unix2ntp t = some v ∧ v < 2 ^ 64 ∧ (ntp2unix v = t ∨ ntp2unix v = t - 1) := by
  simp only [firstNs, endNs] at hlo hhi
  unfold unix2ntp
  have he1 : era1 * second = 2085978496000000000 := by decide
  have he2 : unixEpoch * second = 2208988800000000000 := by decide
  have hu : unixEpoch * 2 ^ 32 = 2208988800 * 4294967296 := by decide
  have hv : era1 * 2 ^ 32 = 2085978496 * 4294967296 := by decide
  rw [he1, he2]
  by_cases he : t < 2085978496000000000
  · -- era 0
    obtain ⟨q, r, hqr, hr⟩ : ∃ q r : Nat, t + 2208988800000000000 = (q * 1000000000 + r : Nat) ∧ r < 1000000000 :=
      ⟨(t + 2208988800000000000).toNat / 1000000000, (t + 2208988800000000000).toNat % 1000000000,
        by omega, by omega⟩
    have ⟨hf1, hf2, hf3⟩ := fraction_round_trip r hr
    rw [if_pos (by omega), show ((2208988800000000000 : Nat) : Int) = 2208988800000000000 from rfl, hqr,
      nanoseconds2ntp_qr q r (by omega) hr]
    obtain ⟨f, hf⟩ : ∃ f, f = r * 4294967296 / 1000000000 := ⟨_, rfl⟩
    rw [← hf] at hf1 hf2 hf3 ⊢
    refine ⟨_, rfl, by omega, ?_⟩
    unfold ntp2unix
    rw [if_pos (by omega)]
    simp only [hu]
    by_cases hneg : q * 4294967296 + f < 2208988800 * 4294967296
    · rw [if_pos hneg]
      by_cases hz : f = 0
      · have : 2208988800 * 4294967296 - (q * 4294967296 + f) = (2208988800 - q) * 4294967296 + 0 := by omega
        rw [this, ntp2nanoseconds_hl _ _ (by omega) (by omega)]
        omega
      · have : 2208988800 * 4294967296 - (q * 4294967296 + f)
            = (2208988800 - q - 1) * 4294967296 + (4294967296 - f) := by omega
        rw [this, ntp2nanoseconds_hl _ _ (by omega) (by omega)]
        omega
    · rw [if_neg hneg]
      have : (q * 4294967296 + f) - 2208988800 * 4294967296 = (q - 2208988800) * 4294967296 + f := by omega
      rw [this, ntp2nanoseconds_hl _ _ (by omega) (by omega)]
      omega
  · -- era 1
    obtain ⟨q, r, hqr, hr⟩ : ∃ q r : Nat, t - 2085978496000000000 = (q * 1000000000 + r : Nat) ∧ r < 1000000000 :=
      ⟨(t - 2085978496000000000).toNat / 1000000000, (t - 2085978496000000000).toNat % 1000000000,
        by omega, by omega⟩
    have ⟨hf1, hf2, hf3⟩ := fraction_round_trip r hr
    rw [if_neg (by omega), show ((2085978496000000000 : Nat) : Int) = 2085978496000000000 from rfl, hqr,
      nanoseconds2ntp_qr q r (by omega) hr]
    obtain ⟨f, hf⟩ : ∃ f, f = r * 4294967296 / 1000000000 := ⟨_, rfl⟩
    rw [← hf] at hf1 hf2 hf3 ⊢
    refine ⟨_, rfl, by omega, ?_⟩
    unfold ntp2unix
    rw [if_neg (by omega), hv]
    have : (q * 4294967296 + f + 2085978496 * 4294967296) % 2 ^ 64 = (q + 2085978496) * 4294967296 + f := by omega
    rw [this, ntp2nanoseconds_hl _ _ (by omega) (by omega)]
    omega

/-- 2024-01-01, with an odd number of nanoseconds. -/
example : ∃ v, unix2ntp 1704067200123456789 = some v ∧ v < 2 ^ 64 ∧
    (ntp2unix v = 1704067200123456789 ∨ ntp2unix v = 1704067200123456789 - 1) :=
  C02_round_trip _ (by decide) (by decide)

/-- **C02** (monotonicity). Within one era, a later wall-clock time never gets an earlier
NTP timestamp. -/
theorem C02_monotone (s t : Int) (hst : s ≤ t) (hlo : firstNs ≤ s) (hhi : t < endNs)
    (hera : t < 2085978496 * 1000000000 ∨ 2085978496 * 1000000000 ≤ s) :
    ∃ v w, unix2ntp s = some v ∧ unix2ntp t = some w ∧ v ≤ w := by
  simp only [firstNs, endNs] at hlo hhi
  unfold unix2ntp
  have he1 : era1 * second = 2085978496000000000 := by decide
  have he2 : unixEpoch * second = 2208988800000000000 := by decide
  rw [he1, he2]
  rcases hera with he | he
  · obtain ⟨q, r, hqr, hr⟩ : ∃ q r : Nat, t + 2208988800000000000 = (q * 1000000000 + r : Nat) ∧ r < 1000000000 :=
      ⟨(t + 2208988800000000000).toNat / 1000000000, (t + 2208988800000000000).toNat % 1000000000,
        by omega, by omega⟩
    obtain ⟨q', r', hqr', hr'⟩ : ∃ q r : Nat, s + 2208988800000000000 = (q * 1000000000 + r : Nat) ∧ r < 1000000000 :=
      ⟨(s + 2208988800000000000).toNat / 1000000000, (s + 2208988800000000000).toNat % 1000000000,
        by omega, by omega⟩
    rw [if_pos (by omega), if_pos (by omega), show ((2208988800000000000 : Nat) : Int) = 2208988800000000000 from rfl, hqr, hqr',
      nanoseconds2ntp_qr q r (by omega) hr, nanoseconds2ntp_qr q' r' (by omega) hr']
    exact ⟨_, _, rfl, rfl, by omega⟩
  · obtain ⟨q, r, hqr, hr⟩ : ∃ q r : Nat, t - 2085978496000000000 = (q * 1000000000 + r : Nat) ∧ r < 1000000000 :=
      ⟨(t - 2085978496000000000).toNat / 1000000000, (t - 2085978496000000000).toNat % 1000000000,
        by omega, by omega⟩
    obtain ⟨q', r', hqr', hr'⟩ : ∃ q r : Nat, s - 2085978496000000000 = (q * 1000000000 + r : Nat) ∧ r < 1000000000 :=
      ⟨(s - 2085978496000000000).toNat / 1000000000, (s - 2085978496000000000).toNat % 1000000000,
        by omega, by omega⟩
    rw [if_neg (by omega), if_neg (by omega), show ((2085978496000000000 : Nat) : Int) = 2085978496000000000 from rfl, hqr, hqr',
      nanoseconds2ntp_qr q r (by omega) hr, nanoseconds2ntp_qr q' r' (by omega) hr']
    exact ⟨_, _, rfl, rfl, by omega⟩

example : ∃ v w, unix2ntp 1704067200123456789 = some v ∧ unix2ntp 1704067200123456790 = some w ∧ v ≤ w :=
  C02_monotone _ _ (by decide) (by decide) (by decide) (Or.inl (by decide))

/-- **C02** (era continuity). Seen as unbounded time the conversion is exact to the
1/2^32 s below: the NTP value is `floor (seconds since 1900 * 2^32)` reduced modulo 2^64. -/
theorem C02_value (t : Int) (hlo : firstNs ≤ t) (hhi : t < endNs) :
    ∃ v, unix2ntp t = some v ∧
      (v : Int) = ((t + 2208988800 * 1000000000) * 2 ^ 32 / 1000000000) % 2 ^ 64 := by
  simp only [firstNs, endNs] at hlo hhi
  unfold unix2ntp
  have he1 : era1 * second = 2085978496000000000 := by decide
  have he2 : unixEpoch * second = 2208988800000000000 := by decide
  rw [he1, he2]
  by_cases he : t < 2085978496000000000
  · obtain ⟨q, r, hqr, hr⟩ : ∃ q r : Nat, t + 2208988800000000000 = (q * 1000000000 + r : Nat) ∧ r < 1000000000 :=
      ⟨(t + 2208988800000000000).toNat / 1000000000, (t + 2208988800000000000).toNat % 1000000000,
        by omega, by omega⟩
    rw [if_pos (by omega), show ((2208988800000000000 : Nat) : Int) = 2208988800000000000 from rfl, hqr,
      nanoseconds2ntp_qr q r (by omega) hr]
    have hc : (t + 2208988800 * 1000000000) * 2 ^ 32 / 1000000000
        = ((q * 4294967296 + r * 4294967296 / 1000000000 : Nat) : Int) := by omega
    refine ⟨_, rfl, ?_⟩
    rw [hc]; omega
  · obtain ⟨q, r, hqr, hr⟩ : ∃ q r : Nat, t - 2085978496000000000 = (q * 1000000000 + r : Nat) ∧ r < 1000000000 :=
      ⟨(t - 2085978496000000000).toNat / 1000000000, (t - 2085978496000000000).toNat % 1000000000,
        by omega, by omega⟩
    rw [if_neg (by omega), show ((2085978496000000000 : Nat) : Int) = 2085978496000000000 from rfl, hqr,
      nanoseconds2ntp_qr q r (by omega) hr]
    have hc : (t + 2208988800 * 1000000000) * 2 ^ 32 / 1000000000
        = ((q * 4294967296 + r * 4294967296 / 1000000000 : Nat) : Int) + 2 ^ 64 := by omega
    refine ⟨_, rfl, ?_⟩
    rw [hc]; omega

example : ∃ v, unix2ntp 2085978496000000001 = some v ∧
    (v : Int) = ((2085978496000000001 + 2208988800 * 1000000000) * 2 ^ 32 / 1000000000) % 2 ^ 64 :=
  C02_value _ (by decide) (by decide)

end Verif.Ntp
