import Verif.RtcpNtp.Lemmas

/-! # C23: compact NTP timestamps -/

namespace Verif.RtcpNtp

/-- The middle 32 bits of a 64-bit NTP time, in place: what RTCP transmits. -/
def middle (t : Int) : Nat := (t / 2 ^ 16 % 2 ^ 32).toNat * 2 ^ 16

/-- The time with its low 16 bits cleared. -/
def cleared (t : Int) : Int := t / 2 ^ 16 * 2 ^ 16

/-- A true (unwrapped) time as 64-bit number. -/
def wire (t : Int) : Nat := (t % 2 ^ 64).toNat

/-- **C23** (expansion). For every time `t` and reference time `base` (true times, any number of
64-bit wraps) such that the cleared time is less than 2^47 units (half of the range of the
middle 32 bits) away from the reference, expanding the transmitted middle bits next to the
reference gives the time with its low 16 bits cleared. -/
theorem C23_extend (t base : Int) (hlo : -(2 ^ 47) < cleared t - base) (hhi : cleared t - base < 2 ^ 47) :
    extend (wire base) (middle t) = some (wire (cleared t)) := by
  unfold extend
  have hv : middle t < 2 ^ 48 ∧ middle t % 2 ^ 16 = 0 := by unfold middle; omega
  have hb : wire base < 2 ^ 64 := by unfold wire; omega
  rw [if_neg (by rw [(outside_zero _ (by omega)).mpr hv]; simp)]
  unfold candidates
  simp only
  rw [and_high16 _ hb, and_high16 _ (Nat.mod_lt _ (by decide)), and_high16 _ (Nat.mod_lt _ (by decide)),
    or_high _ _ hv.1, or_high _ _ hv.1, or_high _ _ hv.1]
  unfold wire middle at *
  unfold cleared at *
  -- name the pieces
  obtain ⟨q, hq⟩ : ∃ q, q = base / 2 ^ 48 := ⟨_, rfl⟩
  obtain ⟨m, hm⟩ : ∃ m : Int, m = base % 2 ^ 48 := ⟨_, rfl⟩
  obtain ⟨v, hvv⟩ : ∃ v : Nat, v = (t / 2 ^ 16 % 2 ^ 32).toNat * 2 ^ 16 := ⟨_, rfl⟩
  rw [← hvv]
  obtain ⟨c, hc⟩ : ∃ c, c = t / 2 ^ 16 * 2 ^ 16 := ⟨_, rfl⟩
  rw [← hc] at hlo hhi ⊢
  obtain ⟨k, hk⟩ : ∃ k, c = k * 2 ^ 48 + v := ⟨t / 2 ^ 48, by omega⟩
  have hkq : k = q ∨ k = q - 1 ∨ k = q + 1 := by omega
  have hv48 : v < 2 ^ 48 := by omega
  clear hc hvv hv
  obtain ⟨b, hbb⟩ : ∃ b : Nat, b = (base % 2 ^ 64).toNat := ⟨_, rfl⟩
  rw [← hbb]
  have hbq : b / 2 ^ 48 = (q % 2 ^ 16).toNat := by omega
  have hf : (b + 2 ^ 64 - 281474976710656) % 2 ^ 64 / 2 ^ 48 = ((q - 1) % 2 ^ 16).toNat := by omega
  have hw : (b + 281474976710656) % 2 ^ 64 / 2 ^ 48 = ((q + 1) % 2 ^ 16).toNat := by omega
  rw [hbq, hf, hw]
  have hbqm : b = (q % 2 ^ 16).toNat * 2 ^ 48 + m.toNat := by omega
  have hm0 : 0 ≤ m ∧ m < 2 ^ 48 := by omega
  rw [absDiff_cand q m v b q hbqm hm0.1 hm0.2 hv48 (by omega) (by omega),
    absDiff_cand q m v b (q - 1) hbqm hm0.1 hm0.2 hv48 (by omega) (by omega),
    absDiff_cand q m v b (q + 1) hbqm hm0.1 hm0.2 hv48 (by omega) (by omega)]
  have hbase : base = q * 2 ^ 48 + m := by omega
  have hwc := wire_cand c k v hk hv48
  rw [hwc]
  clear hwc hf hw hbq hbb hbqm
  rcases hkq with rfl | rfl | rfl
  · rw [if_pos (by omega)]
  · rw [if_neg (by omega), if_pos (by omega)]
  · rw [if_neg (by omega), if_neg (by omega)]

/-- Across a wrap of the middle bits: 5 units before and 3 units after. -/
example : extend (wire (7 * 2 ^ 48 + 3 * 2 ^ 16)) (middle (7 * 2 ^ 48 - 5 * 2 ^ 16 + 9)) =
    some (wire (cleared (7 * 2 ^ 48 - 5 * 2 ^ 16 + 9))) :=
  C23_extend _ _ (by decide) (by decide)

/-- **C23** (misuse). Values with bits outside of the middle are always detected. -/
theorem C23_extend_rejects (base v : Nat) (h : v < 2 ^ 64) (hv : ¬ (v < 2 ^ 48 ∧ v % 2 ^ 16 = 0)) :
    extend base v = none := by
  unfold extend
  rw [if_pos (fun hc => hv ((outside_zero v h).mp hc))]

example := C23_extend_rejects 5 (2 ^ 50) (by decide) (by decide)

/-- **C23** (shortening; partial: inputs below 2^64 - 2^15). The value is rounded to a multiple of
2^16 and saturated at the maximum; the result has only middle bits. Missing: the very top of
the range, `C23_clamp_fails`. -/
theorem C23_clamp_partial (v max : Nat) (hv : v < 2 ^ 64 - 2 ^ 15) (hm : max < 2 ^ 48) :
    clamp32 v max = min ((v + 2 ^ 15) / 2 ^ 16 * 2 ^ 16) (max / 2 ^ 16 * 2 ^ 16) := by
  unfold clamp32
  simp only
  rw [Nat.mod_eq_of_lt (by omega), and_high48 _ (by omega), and_high48 max (by omega), and_mid32]
  split <;> omega

/-- **C23** (shortening an unreasonably long delay saturates). -/
theorem C23_clamp_saturates_partial (v : Nat) (hv : v < 2 ^ 64 - 2 ^ 15) (h : maxDelay ≤ v) :
    clamp32 v maxDelay = 0x0000FFFFFFFF0000 := by
  have h2 : maxDelay = 2 ^ 48 - 1 := by decide
  rw [C23_clamp_partial v maxDelay hv (by rw [h2]; decide)]
  rw [h2] at h ⊢
  omega

/-- A metric that is set never looks like "not available". -/
theorem C23_metric_never_unavailable (v : Nat) (hv : v < 2 ^ 64) :
    clamp32 v (metricUnavail32 - 1) < metricUnavail32 ∧
    clamp64 v (metricUnavail64 - 1) < metricUnavail64 := by
  constructor
  · by_cases h : v < 2 ^ 64 - 2 ^ 15
    · rw [C23_clamp_partial v _ h (by decide)]
      have h2 : metricUnavail32 - 1 = 281474976645119 := by decide
      have h3 : metricUnavail32 = 281474976645120 := by decide
      rw [h2, h3]
      omega
    · unfold clamp32
      have hz : (v + 0x8000) % 2 ^ 64 < 2 ^ 15 := by omega
      simp only
      rw [and_high48 _ (by omega), and_high48 (metricUnavail32 - 1) (by decide), and_mid32]
      have h2 : metricUnavail32 - 1 = 281474976645119 := by decide
      have h3 : metricUnavail32 = 281474976645120 := by decide
      rw [h2, h3]
      split <;> omega
  · unfold clamp64 metricUnavail64
    split <;> omega

/-- **C23 fails**: for each of the 2^15 largest values the rounding wraps around, and the delay is
shortened to zero instead of being saturated. -/
theorem C23_clamp_fails (v max : Nat) (hlo : 2 ^ 64 - 2 ^ 15 ≤ v) (hhi : v < 2 ^ 64) :
    clamp32 v max = 0 := by
  unfold clamp32
  simp only
  have hz : (v + 0x8000) % 2 ^ 64 < 2 ^ 15 := by omega
  rw [and_high48 _ (by omega)]
  have : (v + 0x8000) % 2 ^ 64 / 2 ^ 16 = 0 := by omega
  rw [this]
  simp

example : clamp32 (2 ^ 64 - 1) maxDelay = 0 := C23_clamp_fails _ _ (by decide) (by decide)
example : clamp32 (5 * 2 ^ 32 + 0x18000) maxDelay = 5 * 2 ^ 32 + 0x20000 := by decide
example := C23_clamp_saturates_partial (2 ^ 60) (by decide) (by decide)

/-- The C++ absolute value is defined for all three candidates. -/
theorem C23_abs_defined (base v : Nat) (hb : base < 2 ^ 64) (hv : v < 2 ^ 48) :
    let c := candidates base v
    absDiff c.1 base < 2 ^ 63 ∧ absDiff c.2.1 base < 2 ^ 63 ∧ absDiff c.2.2 base < 2 ^ 63 := by
  unfold candidates absDiff toInt64
  simp only
  rw [and_high16 _ hb, and_high16 _ (Nat.mod_lt _ (by decide)), and_high16 _ (Nat.mod_lt _ (by decide)),
    or_high _ _ hv, or_high _ _ hv, or_high _ _ hv]
  refine ⟨?_, ?_, ?_⟩ <;> split <;> omega

example := C23_abs_defined (2 ^ 60) (2 ^ 40) (by decide) (by decide)

end Verif.RtcpNtp
