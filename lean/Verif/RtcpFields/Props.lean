import Mathlib.Data.Rat.Floor
import Mathlib.Tactic.SplitIfs
import Mathlib.Tactic.Linarith
import Verif.RtcpFields.Model
import Verif.RtcpNtp.Props

/-! Property C24. Each theorem gives the result of all getters after a setter: the field has the value
stored, saturated or rounded as documented, and the other fields keep theirs. -/

namespace Verif.RtcpFields

open Verif.Bytes Verif.RtcpNtp

theorem put_length {m : List Byte} {off n v : Nat} (h : off + n ≤ m.length) : (put m off n v).length = m.length := by
  unfold put
  rw [wrAt_length _ _ _ (by rw [toBe_length]; exact h)]

theorem fld_put {m : List Byte} {off n v : Nat} (h : off + n ≤ m.length) : fld (put m off n v) off n = v % 256 ^ n := by
  unfold fld put
  have := rdAt_wrAt_same m off (toBe n v) (by rw [toBe_length]; exact h)
  rw [toBe_length] at this
  rw [this, beNat_toBe]

theorem fld_put_ne {m : List Byte} {off n v o k : Nat} (h : off + n ≤ m.length) (hd : o + k ≤ off ∨ off + n ≤ o) :
    fld (put m off n v) o k = fld m o k := by
  unfold fld put
  rw [rdAt_wrAt_disjoint _ _ _ (by rw [toBe_length]; exact h) _ _ (by rw [toBe_length]; exact hd)]

theorem fld_lt {m : List Byte} {off n : Nat} (h : off + n ≤ m.length) : fld m off n < 256 ^ n := by
  have := beNat_lt (rdAt m off n)
  rw [rdAt_length m off n h] at this
  exact this

theorem ntp64_set {m : List Byte} {off t : Nat} (h : off + 8 ≤ m.length) (ht : t < 2 ^ 64) :
    ntp64 (setNtp64 m off t) off = t := by
  unfold ntp64 setNtp64
  have hl := put_length (m := m) (off := off) (n := 4) (v := t >>> 32) (by omega)
  rw [fld_put (by rw [hl]; omega), fld_put_ne (by rw [hl]; omega) (by omega), fld_put (by omega)]
  rw [Nat.shiftLeft_eq, Nat.shiftRight_eq_div_pow]
  have h2 : t % 256 ^ 4 < 2 ^ 32 := by omega
  rw [Nat.mul_comm, ← Nat.two_pow_add_eq_or_of_lt h2]
  omega

theorem fld_setNtp64_ne {m : List Byte} {off t o k : Nat} (h : off + 8 ≤ m.length) (hd : o + k ≤ off ∨ off + 8 ≤ o) :
    fld (setNtp64 m off t) o k = fld m o k := by
  unfold setNtp64
  have hl := put_length (m := m) (off := off) (n := 4) (v := t >>> 32) (by omega)
  rw [fld_put_ne (by rw [hl]; omega) (by omega), fld_put_ne (by omega) (by omega)]

theorem ntp32_set {m : List Byte} {off t : Nat} (h : off + 4 ≤ m.length) :
    ntp32 (setNtp32 m off t) off = t / 2 ^ 16 % 2 ^ 32 * 2 ^ 16 := by
  unfold ntp32 setNtp32
  rw [fld_put h, Nat.shiftLeft_eq, Nat.shiftRight_eq_div_pow, show (256 ^ 4 : Nat) = 2 ^ 32 from rfl]

/-! ## Bit fields -/

theorem getBits_high (v : Nat) : getBits v 24 0xFF = v / 2 ^ 24 % 256 := by
  unfold getBits
  rw [Nat.shiftRight_eq_div_pow, show (0xFF : Nat) = 2 ^ 8 - 1 from rfl, Nat.and_two_pow_sub_one_eq_mod]

theorem getBits_low (v : Nat) : getBits v 0 0xFFFFFF = v % 2 ^ 24 := by
  unfold getBits
  rw [Nat.shiftRight_zero, show (0xFFFFFF : Nat) = 2 ^ 24 - 1 from rfl, Nat.and_two_pow_sub_one_eq_mod]

theorem setBits_high {v0 v1 : Nat} (h1 : v1 < 256) : setBits v0 v1 24 0xFF = v1 * 2 ^ 24 + v0 % 2 ^ 24 := by
  unfold setBits
  have e : (0xFFFFFFFF ^^^ (0xFF <<< 24) : Nat) = 2 ^ 24 - 1 := by decide
  rw [e, Nat.and_two_pow_sub_one_eq_mod, show (0xFF : Nat) = 2 ^ 8 - 1 from rfl, Nat.and_two_pow_sub_one_eq_mod,
    Nat.mod_eq_of_lt (show v1 < 2 ^ 8 from h1), Nat.shiftLeft_eq, Nat.or_comm, Nat.mul_comm,
    ← Nat.two_pow_add_eq_or_of_lt (Nat.mod_lt _ (by decide))]

theorem setBits_low {v0 v1 : Nat} (h0 : v0 < 2 ^ 32) : setBits v0 v1 0 0xFFFFFF = v0 / 2 ^ 24 * 2 ^ 24 + v1 % 2 ^ 24 := by
  unfold setBits
  have e : (0xFFFFFFFF ^^^ (0xFFFFFF <<< 0) : Nat) = (2 ^ 8 - 1) * 2 ^ 24 := by decide
  rw [e, and_mask, Nat.shiftLeft_zero, show (0xFFFFFF : Nat) = 2 ^ 24 - 1 from rfl, Nat.and_two_pow_sub_one_eq_mod,
    Nat.mul_comm, ← Nat.two_pow_add_eq_or_of_lt (Nat.mod_lt _ (by decide))]
  have : v0 / 2 ^ 24 % 2 ^ 8 = v0 / 2 ^ 24 := Nat.mod_eq_of_lt (by omega)
  rw [this, Nat.mul_comm]

theorem fract8_lt (q : Rat) : fract8 q < 256 := by
  unfold fract8
  simp only
  split_ifs <;> omega

/-- Sign extension of the 24 bit field. -/
def signed24 (c : Nat) : Int := if c < 2 ^ 23 then c else (c : Int) - 2 ^ 24

theorem cumLoss_eq (m : List Byte) : cumLoss m = signed24 (fld m 4 4 % 2 ^ 24) := by
  unfold cumLoss signed24
  simp only [getBits_low]
  obtain ⟨c, hc⟩ : ∃ c, c = fld m 4 4 % 2 ^ 24 := ⟨_, rfl⟩
  have hlt : c < 2 ^ 24 := by rw [hc]; exact Nat.mod_lt _ (by decide)
  rw [← hc]
  have e1 : (1 <<< 23 : Nat) = (2 ^ 1 - 1) * 2 ^ 23 := by decide
  rw [e1, and_mask]
  by_cases h : c < 2 ^ 23
  · rw [if_neg (c := c / 2 ^ 23 % 2 ^ 1 * 2 ^ 23 ≠ 0) (by omega), if_pos (c := c < 2 ^ 31) (by omega), if_pos h]
  · rw [if_pos (c := c / 2 ^ 23 % 2 ^ 1 * 2 ^ 23 ≠ 0) (by omega), if_neg h]
    have e2 : c ||| 0xFF000000 = 0xFF000000 + c := by
      rw [Nat.or_comm, show (0xFF000000 : Nat) = 2 ^ 24 * 255 from rfl, ← Nat.two_pow_add_eq_or_of_lt hlt]
    rw [e2, if_neg (c := 0xFF000000 + c < 2 ^ 31) (by omega)]
    omega

/-! ## Reception report block -/

/-- **C24** (cumulative loss). Stored with saturation at 24 bit signed. -/
theorem C24_cum_loss (m : List Byte) (hm : m.length = 24) (v : Int) : readReport (setCumLoss m v) =
    { readReport m with cum := max (-(2 ^ 23)) (min (2 ^ 23 - 1) v) } := by
  obtain ⟨w, hw⟩ : ∃ w, w = max (-(2 ^ 23)) (min (2 ^ 23 - 1) v) := ⟨_, rfl⟩
  have hset : setCumLoss m v = put m 4 4 (setBits (fld m 4 4) (w % 2 ^ 32).toNat 0 0xFFFFFF) := by
    unfold setCumLoss
    have : (if v > 0x7FFFFF then (0x7FFFFF : Int) else if v < -0x7FFFFF - 1 then -0x7FFFFF - 1 else v) = w := by
      rw [hw]; split_ifs <;> omega
    simp only [this]
  have hw1 : -(2 ^ 23) ≤ w ∧ w ≤ 2 ^ 23 - 1 := by omega
  have hlt := fld_lt (m := m) (off := 4) (n := 4) (by omega)
  rw [hset, setBits_low hlt, ← hw]
  obtain ⟨l, hl⟩ : ∃ l, l = fld m 4 4 := ⟨_, rfl⟩
  obtain ⟨m', hm'⟩ : ∃ m', m' = put m 4 4 (fld m 4 4 / 2 ^ 24 * 2 ^ 24 + (w % 2 ^ 32).toNat % 2 ^ 24) := ⟨_, rfl⟩
  have h4 : fld m' 4 4 = l / 2 ^ 24 * 2 ^ 24 + (w % 2 ^ 32).toNat % 2 ^ 24 := by
    rw [hm', fld_put (by omega), ← hl]; omega
  have hne : ∀ o k, o + k ≤ 4 ∨ 8 ≤ o → fld m' o k = fld m o k := by
    intro o k h; rw [hm', fld_put_ne (by omega) h]
  rw [← hm']
  unfold readReport ntp32
  rw [hne 0 4 (by omega), hne 8 4 (by omega), hne 12 4 (by omega), hne 16 4 (by omega), hne 20 4 (by omega)]
  have hf : fractLoss m' = fractLoss m := by
    unfold fractLoss
    rw [getBits_high, getBits_high, h4, ← hl]
    have : (l / 2 ^ 24 * 2 ^ 24 + (w % 2 ^ 32).toNat % 2 ^ 24) / 2 ^ 24 % 256 = l / 2 ^ 24 % 256 := by omega
    rw [this]
  have hc : cumLoss m' = w := by
    rw [cumLoss_eq, h4]
    unfold signed24
    split_ifs <;> omega
  rw [hf, hc]

/-- Fraction lost, as it can be represented: multiples of 1/256 below 1, rounded down. -/
def representable (q r : Rat) : Prop :=
  (q < 0 → r = 0) ∧ (0 ≤ q → q < 1 → r ≤ q ∧ q < r + 1 / 256) ∧ (1 ≤ q → r = 255 / 256)

theorem fract8_spec (q : Rat) : representable q ((fract8 q : Nat) / 256) := by
  have hfl : ∀ x : Rat, 0 ≤ x → ((x.floor.toNat : Nat) : Rat) ≤ x ∧ x < (x.floor.toNat : Nat) + 1 := by
    intro x hx
    have h0 : 0 ≤ x.floor := Rat.le_floor_iff.2 (by simpa using hx)
    have e : ((x.floor.toNat : Nat) : Rat) = ((x.floor : Int) : Rat) := by
      rw [← Int.cast_natCast, Int.toNat_of_nonneg h0]
    rw [e]
    refine ⟨Rat.floor_le x, ?_⟩
    have := Rat.lt_floor_add_one x
    push_cast at this
    exact this
  unfold representable fract8
  simp only
  refine ⟨?_, ?_, ?_⟩
  · intro h
    rw [if_neg (c := q > 1) (by linarith), if_pos h]
    have : ((0 : Rat) * 256).floor.toNat = 0 := by decide +kernel
    rw [this]; simp
  · intro h0 h1
    rw [if_neg (c := q > 1) (by linarith), if_neg (c := q < 0) (by linarith)]
    obtain ⟨f1, f2⟩ := hfl (q * 256) (by linarith)
    obtain ⟨n, hn⟩ : ∃ n, n = (q * 256).floor.toNat := ⟨_, rfl⟩
    rw [← hn] at f1 f2 ⊢
    have hlt : n < 256 := by
      have : (n : Rat) < 256 := by linarith
      exact_mod_cast this
    rw [if_neg (by omega)]
    constructor <;> linarith
  · intro h
    have : (if q > 1 then 1 else q) = (1 : Rat) := by
      split_ifs with hq
      · rfl
      · linarith
    rw [this, if_neg (c := (1 : Rat) < 0) (by norm_num)]
    have : ((1 : Rat) * 256).floor.toNat = 256 := by decide +kernel
    rw [this, if_pos (by decide)]
    norm_num

/-- **C24** (fraction lost). -/
theorem C24_fract_loss (m : List Byte) (hm : m.length = 24) (q : Rat) : ∃ r, representable q r ∧
    readReport (setFractLoss m q) = { readReport m with fract := r } := by
  refine ⟨(fract8 q : Nat) / 256, fract8_spec q, ?_⟩
  have hlt := fld_lt (m := m) (off := 4) (n := 4) (by omega)
  have hq := fract8_lt q
  unfold setFractLoss
  rw [setBits_high hq]
  obtain ⟨l, hl⟩ : ∃ l, l = fld m 4 4 := ⟨_, rfl⟩
  obtain ⟨f, hf⟩ : ∃ f, f = fract8 q := ⟨_, rfl⟩
  rw [← hf] at hq ⊢
  obtain ⟨m', hm'⟩ : ∃ m', m' = put m 4 4 (f * 2 ^ 24 + fld m 4 4 % 2 ^ 24) := ⟨_, rfl⟩
  have h4 : fld m' 4 4 = f * 2 ^ 24 + l % 2 ^ 24 := by
    rw [hm', fld_put (by omega), ← hl]; omega
  have hne : ∀ o k, o + k ≤ 4 ∨ 8 ≤ o → fld m' o k = fld m o k := by
    intro o k h; rw [hm', fld_put_ne (by omega) h]
  rw [← hm']
  unfold readReport ntp32
  rw [hne 0 4 (by omega), hne 8 4 (by omega), hne 12 4 (by omega), hne 16 4 (by omega), hne 20 4 (by omega)]
  have hfr : fractLoss m' = (f : Rat) / 256 := by
    unfold fractLoss
    rw [getBits_high, h4]
    have : (f * 2 ^ 24 + l % 2 ^ 24) / 2 ^ 24 % 256 = f := by omega
    rw [this]
  have hc : cumLoss m' = cumLoss m := by
    rw [cumLoss_eq, cumLoss_eq, h4, ← hl]
    have : (f * 2 ^ 24 + l % 2 ^ 24) % 2 ^ 24 = l % 2 ^ 24 := by omega
    rw [this]
  rw [hfr, hc]

theorem losses_ne {m m' : List Byte} (h : fld m' 4 4 = fld m 4 4) : fractLoss m' = fractLoss m ∧ cumLoss m' = cumLoss m := by
  unfold fractLoss
  rw [cumLoss_eq, cumLoss_eq, h]
  exact ⟨rfl, rfl⟩

/-- **C24** (source, sequence number, jitter). -/
theorem C24_report_words (m : List Byte) (hm : m.length = 24) (v : Nat) (hv : v < 2 ^ 32) :
    readReport (put m 0 4 v) = { readReport m with ssrc := v } ∧
    readReport (put m 8 4 v) = { readReport m with lastSeq := v } ∧
    readReport (put m 12 4 v) = { readReport m with jitter := v } := by
  have hv2 : v % 256 ^ 4 = v := Nat.mod_eq_of_lt hv
  refine ⟨?_, ?_, ?_⟩ <;> unfold readReport ntp32
  · obtain ⟨h1, h2⟩ := losses_ne (fld_put_ne (m := m) (off := 0) (n := 4) (v := v) (o := 4) (k := 4) (by omega) (by omega))
    rw [h1, h2, fld_put (by omega), fld_put_ne (by omega) (by omega), fld_put_ne (by omega) (by omega),
      fld_put_ne (by omega) (by omega), fld_put_ne (by omega) (by omega), hv2]
  · obtain ⟨h1, h2⟩ := losses_ne (fld_put_ne (m := m) (off := 8) (n := 4) (v := v) (o := 4) (k := 4) (by omega) (by omega))
    rw [h1, h2, fld_put (by omega), fld_put_ne (by omega) (by omega), fld_put_ne (by omega) (by omega),
      fld_put_ne (by omega) (by omega), fld_put_ne (by omega) (by omega), hv2]
  · obtain ⟨h1, h2⟩ := losses_ne (fld_put_ne (m := m) (off := 12) (n := 4) (v := v) (o := 4) (k := 4) (by omega) (by omega))
    rw [h1, h2, fld_put (by omega), fld_put_ne (by omega) (by omega), fld_put_ne (by omega) (by omega),
      fld_put_ne (by omega) (by omega), fld_put_ne (by omega) (by omega), hv2]

/-- **C24** (time of the last sender report: the middle 32 bits). -/
theorem C24_last_sr (m : List Byte) (hm : m.length = 24) (t : Nat) :
    readReport (setNtp32 m 16 t) = { readReport m with lastSr := t / 2 ^ 16 % 2 ^ 32 * 2 ^ 16 } := by
  have h16 := ntp32_set (m := m) (off := 16) (t := t) (by omega)
  have hne : ∀ o k, o + k ≤ 16 ∨ 20 ≤ o → fld (setNtp32 m 16 t) o k = fld m o k := by
    intro o k h; unfold setNtp32; rw [fld_put_ne (by omega) h]
  obtain ⟨h1, h2⟩ := losses_ne (hne 4 4 (by omega))
  unfold readReport
  rw [h1, h2, h16, hne 0 4 (by omega), hne 8 4 (by omega), hne 12 4 (by omega)]
  unfold ntp32
  rw [hne 20 4 (by omega)]

theorem clamp_fits (v max : Nat) : clamp32 v max / 2 ^ 16 % 2 ^ 32 * 2 ^ 16 = clamp32 v max := by
  unfold clamp32
  simp only
  rw [and_mid32]
  omega

/-- Rounding to a multiple of 2^16, with a limit. -/
def rounded (t limit : Nat) : Nat := min ((t + 2 ^ 15) / 2 ^ 16 * 2 ^ 16) limit

theorem clamp_delay {t : Nat} (ht : t < 2 ^ 64 - 2 ^ 15) : clamp32 t maxDelay = rounded t 0xFFFFFFFF0000 := by
  rw [C23_clamp_partial t maxDelay ht (by decide)]; rfl

theorem clamp_metric {t : Nat} (ht : t < 2 ^ 64 - 2 ^ 15) : clamp32 t (metricUnavail32 - 1) = rounded t 0xFFFFFFFE0000 := by
  rw [C23_clamp_partial t _ ht (by decide)]; rfl

/-- **C24** (delay, partial: delays below 2^64 - 2^15, see `C24_delay_fails`). -/
theorem C24_delay_last_sr_partial (m : List Byte) (hm : m.length = 24) (t : Nat) (ht : t < 2 ^ 64 - 2 ^ 15) :
    readReport (setDelayLastSr m t) = { readReport m with delayLastSr := rounded t 0xFFFFFFFF0000 } := by
  unfold setDelayLastSr
  rw [← clamp_delay ht]
  obtain ⟨d, hd⟩ : ∃ d, d = clamp32 t maxDelay := ⟨_, rfl⟩
  have hfit := clamp_fits t maxDelay
  rw [← hd] at hfit ⊢
  have h20 := ntp32_set (m := m) (off := 20) (t := d) (by omega)
  rw [hfit] at h20
  have hne : ∀ o k, o + k ≤ 20 ∨ 24 ≤ o → fld (setNtp32 m 20 d) o k = fld m o k := by
    intro o k h; unfold setNtp32; rw [fld_put_ne (by omega) h]
  obtain ⟨h1, h2⟩ := losses_ne (hne 4 4 (by omega))
  unfold readReport
  rw [h1, h2, h20, hne 0 4 (by omega), hne 8 4 (by omega), hne 12 4 (by omega)]
  unfold ntp32
  rw [hne 16 4 (by omega)]

/-- **C24** fails for the largest delays: they are stored as zero instead of the maximum. -/
theorem C24_delay_fails (m : List Byte) (hm : m.length = 24) (t : Nat) (h1 : 2 ^ 64 - 2 ^ 15 ≤ t) (h2 : t < 2 ^ 64) :
    (readReport (setDelayLastSr m t)).delayLastSr = 0 := by
  unfold setDelayLastSr readReport
  simp only
  rw [ntp32_set (by omega), C23_clamp_fails t maxDelay h1 h2]
  decide

/-- A block with some contents. -/
def sampleReport : List Byte := setCumLoss (setFractLoss (List.replicate 24 7) (1 / 3)) (-5)

example : (readReport sampleReport).cum = -5 ∧ (readReport sampleReport).fract = 85 / 256 ∧
    (readReport sampleReport).ssrc = 0x07070707 ∧ sampleReport.length = 24 := by decide +kernel

/-! ## Sender report -/

/-- **C24** (sender report). -/
theorem C24_sender_report (m : List Byte) (hm : m.length = 28) (v t : Nat) (hv : v < 2 ^ 32) (ht : t < 2 ^ 64) :
    readSender (put m 4 4 v) = { readSender m with ssrc := v } ∧
    readSender (setNtp64 m 8 t) = { readSender m with ntp := t } ∧
    readSender (put m 16 4 v) = { readSender m with rtp := v } ∧
    readSender (put m 20 4 v) = { readSender m with packets := v } ∧
    readSender (put m 24 4 v) = { readSender m with bytes := v } := by
  have hv2 : v % 256 ^ 4 = v := Nat.mod_eq_of_lt hv
  refine ⟨?_, ?_, ?_, ?_, ?_⟩
  · have hne : ∀ o k, o + k ≤ 4 ∨ 8 ≤ o → fld (put m 4 4 v) o k = fld m o k := fun o k h => fld_put_ne (by omega) h
    unfold readSender ntp64
    rw [fld_put (by omega), hv2, hne 8 4 (by omega), hne (8 + 4) 4 (by omega), hne 16 4 (by omega), hne 20 4 (by omega),
      hne 24 4 (by omega)]
  · have hne : ∀ o k, o + k ≤ 8 ∨ 16 ≤ o → fld (setNtp64 m 8 t) o k = fld m o k :=
      fun o k h => fld_setNtp64_ne (by omega) h
    unfold readSender
    rw [ntp64_set (by omega) ht, hne 4 4 (by omega), hne 16 4 (by omega), hne 20 4 (by omega), hne 24 4 (by omega)]
  · have hne : ∀ o k, o + k ≤ 16 ∨ 20 ≤ o → fld (put m 16 4 v) o k = fld m o k := fun o k h => fld_put_ne (by omega) h
    unfold readSender ntp64
    rw [fld_put (by omega), hv2, hne 8 4 (by omega), hne (8 + 4) 4 (by omega), hne 4 4 (by omega), hne 20 4 (by omega),
      hne 24 4 (by omega)]
  · have hne : ∀ o k, o + k ≤ 20 ∨ 24 ≤ o → fld (put m 20 4 v) o k = fld m o k := fun o k h => fld_put_ne (by omega) h
    unfold readSender ntp64
    rw [fld_put (by omega), hv2, hne 8 4 (by omega), hne (8 + 4) 4 (by omega), hne 4 4 (by omega), hne 16 4 (by omega),
      hne 24 4 (by omega)]
  · have hne : ∀ o k, o + k ≤ 24 ∨ 28 ≤ o → fld (put m 24 4 v) o k = fld m o k := fun o k h => fld_put_ne (by omega) h
    unfold readSender ntp64
    rw [fld_put (by omega), hv2, hne 8 4 (by omega), hne (8 + 4) 4 (by omega), hne 4 4 (by omega), hne 16 4 (by omega),
      hne 20 4 (by omega)]

/-! ## Packet header -/

theorem bits_counter : ∀ b : Byte, ∀ c : Fin 32, let d := setBits8 b (BitVec.ofNat 8 c.val) 0 0x1F
    (getBits8 d 0 0x1F).toNat = c.val ∧ getBits8 d 6 3 = getBits8 b 6 3 ∧ getBits8 d 5 1 = getBits8 b 5 1 := by
  decide +kernel

theorem bits_padding : ∀ b : Byte, ∀ p : Bool, let d := setBits8 b (if p then 1 else 0) 5 1
    (getBits8 d 5 1 != 0) = p ∧ getBits8 d 6 3 = getBits8 b 6 3 ∧ getBits8 d 0 0x1F = getBits8 b 0 0x1F := by
  decide +kernel

theorem byte0_put (m : List Byte) (hm : 4 ≤ m.length) (b : Byte) : byte0 (put m 0 1 b.toNat) = b := by
  unfold byte0
  rw [fld_put (by omega)]
  apply BitVec.eq_of_toNat_eq
  rw [BitVec.toNat_ofNat]
  have := b.isLt
  omega

theorem byte0_ne {m : List Byte} {off n v : Nat} (h : off + n ≤ m.length) (ho : 1 ≤ off) : byte0 (put m off n v) = byte0 m := by
  unfold byte0
  rw [fld_put_ne h (by omega)]

/-- **C24** (packet header). -/
theorem C24_header (m : List Byte) (hm : 4 ≤ m.length) (c : Nat) (hc : c ≤ 31) (p : Bool) (len : Nat)
    (hl : 4 ≤ len ∧ len ≤ 65535 ∧ len % 4 = 0) :
    (setCounter m c).map readHeader = some { readHeader m with counter := c } ∧
    readHeader (setPadding m p) = { readHeader m with padding := p } ∧
    (setLenBytes m len).map readHeader = some { readHeader m with len := len } := by
  refine ⟨?_, ?_, ?_⟩
  · obtain ⟨h1, h2, h3⟩ := bits_counter (byte0 m) ⟨c, by omega⟩
    unfold setCounter
    rw [if_neg (by omega), Option.map_some]
    unfold readHeader version hasPadding counter ptype lenBytes
    rw [byte0_put m hm, fld_put_ne (by omega) (by omega), fld_put_ne (by omega) (by omega)]
    try simp only at h1 h2 h3
    rw [h1, h2, h3]
  · obtain ⟨h1, h2, h3⟩ := bits_padding (byte0 m) p
    unfold setPadding readHeader version hasPadding counter ptype lenBytes
    rw [byte0_put m hm, fld_put_ne (by omega) (by omega), fld_put_ne (by omega) (by omega)]
    try simp only at h1 h2 h3
    rw [h1, h2, h3]
  · unfold setLenBytes
    rw [if_neg (by omega), Option.map_some]
    unfold readHeader version hasPadding counter ptype lenBytes
    rw [byte0_ne (by omega) (by omega), fld_put_ne (by omega) (by omega), fld_put (by omega)]
    have : ((len / 4 - 1) % 256 ^ 2 + 1) * 4 = len := by omega
    rw [this]

/-- **C24** fails for long packets: a length above 65535 bytes, which the field could hold, aborts. -/
theorem C24_len_fails (m : List Byte) : setLenBytes m 65536 = none ∧ 65536 / 4 - 1 < 2 ^ 16 := by
  constructor
  · unfold setLenBytes; rw [if_pos (by omega)]
  · decide

example : readHeader (resetHeader 200) = ⟨2, false, 0, 200, 4⟩ := by decide +kernel

/-! ## Extended reports -/

theorem bits_flag : ∀ b : Byte, ∀ f : Fin 4, (getBits8 (setBits8 b (BitVec.ofNat 8 f.val) 6 3) 6 3).toNat = f.val := by
  decide +kernel

theorem flag_set (m : List Byte) (hm : 4 ≤ m.length) (f : Nat) (hf : f < 4) :
    metricFlag (setMetricFlag m (BitVec.ofNat 8 f)) = f := by
  unfold metricFlag setMetricFlag
  rw [fld_put (by omega)]
  have e : ∀ b : Byte, BitVec.ofNat 8 (b.toNat % 256 ^ 1) = b := by
    intro b
    apply BitVec.eq_of_toNat_eq
    rw [BitVec.toNat_ofNat]
    have := b.isLt
    omega
  rw [e]
  exact bits_flag _ ⟨f, hf⟩

/-- **C24** (delay metrics, partial: times below 2^64 - 2^15). -/
theorem C24_delay_metrics_partial (m : List Byte) (hm : m.length = 28) (v t f e : Nat) (hv : v < 2 ^ 32) (hf : f < 4)
    (ht : t < 2 ^ 64 - 2 ^ 15) (he : e < 2 ^ 64) :
    readDelay (setMetricFlag m (BitVec.ofNat 8 f)) = { readDelay m with flag := f } ∧
    readDelay (put m 4 4 v) = { readDelay m with ssrc := v } ∧
    readDelay (setMetric m 8 t) = { readDelay m with meanRtt := rounded t 0xFFFFFFFE0000 } ∧
    readDelay (setMetric m 12 t) = { readDelay m with minRtt := rounded t 0xFFFFFFFE0000 } ∧
    readDelay (setMetric m 16 t) = { readDelay m with maxRtt := rounded t 0xFFFFFFFE0000 } ∧
    readDelay (setE2e m e) = { readDelay m with e2eLatency := min e (2 ^ 64 - 2) } := by
  have hv2 : v % 256 ^ 4 = v := Nat.mod_eq_of_lt hv
  have hmetric : ∀ off, off + 4 ≤ 28 → ntp32 (setMetric m off t) off = rounded t 0xFFFFFFFE0000 := by
    intro off ho
    unfold setMetric
    rw [ntp32_set (by omega), clamp_fits, clamp_metric ht]
  have hmne : ∀ off o k, off + 4 ≤ 28 → o + k ≤ off ∨ off + 4 ≤ o → fld (setMetric m off t) o k = fld m o k := by
    intro off o k ho h
    unfold setMetric setNtp32
    rw [fld_put_ne (by omega) h]
  refine ⟨?_, ?_, ?_, ?_, ?_, ?_⟩
  · have hne : ∀ o k, 2 ≤ o → fld (setMetricFlag m (BitVec.ofNat 8 f)) o k = fld m o k := by
      intro o k h; unfold setMetricFlag; rw [fld_put_ne (by omega) (by omega)]
    unfold readDelay ntp32 ntp64
    rw [flag_set m (by omega) f hf, hne 4 4 (by omega), hne 8 4 (by omega), hne 12 4 (by omega), hne 16 4 (by omega),
      hne 20 4 (by omega), hne (20 + 4) 4 (by omega)]
  · have hne : ∀ o k, o + k ≤ 4 ∨ 8 ≤ o → fld (put m 4 4 v) o k = fld m o k := fun o k h => fld_put_ne (by omega) h
    unfold readDelay ntp32 ntp64 metricFlag
    rw [fld_put (by omega), hv2, hne 1 1 (by omega), hne 8 4 (by omega), hne 12 4 (by omega), hne 16 4 (by omega),
      hne 20 4 (by omega), hne (20 + 4) 4 (by omega)]
  · have hne := hmne 8
    unfold readDelay
    rw [hmetric 8 (by omega)]
    unfold ntp32 ntp64 metricFlag
    rw [hne 1 1 (by omega) (by omega), hne 4 4 (by omega) (by omega), hne 12 4 (by omega) (by omega),
      hne 16 4 (by omega) (by omega), hne 20 4 (by omega) (by omega), hne (20 + 4) 4 (by omega) (by omega)]
  · have hne := hmne 12
    unfold readDelay
    rw [hmetric 12 (by omega)]
    unfold ntp32 ntp64 metricFlag
    rw [hne 1 1 (by omega) (by omega), hne 4 4 (by omega) (by omega), hne 8 4 (by omega) (by omega),
      hne 16 4 (by omega) (by omega), hne 20 4 (by omega) (by omega), hne (20 + 4) 4 (by omega) (by omega)]
  · have hne := hmne 16
    unfold readDelay
    rw [hmetric 16 (by omega)]
    unfold ntp32 ntp64 metricFlag
    rw [hne 1 1 (by omega) (by omega), hne 4 4 (by omega) (by omega), hne 8 4 (by omega) (by omega),
      hne 12 4 (by omega) (by omega), hne 20 4 (by omega) (by omega), hne (20 + 4) 4 (by omega) (by omega)]
  · have hcl : clamp64 e (metricUnavail64 - 1) = min e (2 ^ 64 - 2) := by
      have : metricUnavail64 - 1 = 2 ^ 64 - 2 := by decide
      unfold clamp64
      rw [this]
      split_ifs <;> omega
    have hne : ∀ o k, o + k ≤ 20 → fld (setE2e m e) o k = fld m o k := by
      intro o k h; unfold setE2e; rw [fld_setNtp64_ne (by omega) (by omega)]
    unfold readDelay
    have h20 : ntp64 (setE2e m e) 20 = min e (2 ^ 64 - 2) := by
      unfold setE2e; rw [ntp64_set (by omega) (by rw [hcl]; omega), hcl]
    rw [h20]
    unfold ntp32 metricFlag
    rw [hne 1 1 (by omega), hne 4 4 (by omega), hne 8 4 (by omega), hne 12 4 (by omega), hne 16 4 (by omega)]

/-- **C24** (queue metrics, partial: times below 2^64 - 2^15). -/
theorem C24_queue_metrics_partial (m : List Byte) (hm : m.length = 16) (v t f : Nat) (hv : v < 2 ^ 32) (hf : f < 4)
    (ht : t < 2 ^ 64 - 2 ^ 15) :
    readQueue (setMetricFlag m (BitVec.ofNat 8 f)) = { readQueue m with flag := f } ∧
    readQueue (put m 4 4 v) = { readQueue m with ssrc := v } ∧
    readQueue (setMetric m 8 t) = { readQueue m with latency := rounded t 0xFFFFFFFE0000 } ∧
    readQueue (setMetric m 12 t) = { readQueue m with stalling := rounded t 0xFFFFFFFE0000 } := by
  have hv2 : v % 256 ^ 4 = v := Nat.mod_eq_of_lt hv
  have hmetric : ∀ off, off + 4 ≤ 16 → ntp32 (setMetric m off t) off = rounded t 0xFFFFFFFE0000 := by
    intro off ho
    unfold setMetric
    rw [ntp32_set (by omega), clamp_fits, clamp_metric ht]
  have hmne : ∀ off o k, off + 4 ≤ 16 → o + k ≤ off ∨ off + 4 ≤ o → fld (setMetric m off t) o k = fld m o k := by
    intro off o k ho h
    unfold setMetric setNtp32
    rw [fld_put_ne (by omega) h]
  refine ⟨?_, ?_, ?_, ?_⟩
  · have hne : ∀ o k, 2 ≤ o → fld (setMetricFlag m (BitVec.ofNat 8 f)) o k = fld m o k := by
      intro o k h; unfold setMetricFlag; rw [fld_put_ne (by omega) (by omega)]
    unfold readQueue ntp32
    rw [flag_set m (by omega) f hf, hne 4 4 (by omega), hne 8 4 (by omega), hne 12 4 (by omega)]
  · have hne : ∀ o k, o + k ≤ 4 ∨ 8 ≤ o → fld (put m 4 4 v) o k = fld m o k := fun o k h => fld_put_ne (by omega) h
    unfold readQueue ntp32 metricFlag
    rw [fld_put (by omega), hv2, hne 1 1 (by omega), hne 8 4 (by omega), hne 12 4 (by omega)]
  · have hne := hmne 8
    unfold readQueue
    rw [hmetric 8 (by omega)]
    unfold ntp32 metricFlag
    rw [hne 1 1 (by omega) (by omega), hne 4 4 (by omega) (by omega), hne 12 4 (by omega) (by omega)]
  · have hne := hmne 12
    unfold readQueue
    rw [hmetric 12 (by omega)]
    unfold ntp32 metricFlag
    rw [hne 1 1 (by omega) (by omega), hne 4 4 (by omega) (by omega), hne 8 4 (by omega) (by omega)]

/-- **C24** (measurement information, partial: durations below 2^64 - 2^15). -/
theorem C24_measurement_info_partial (m : List Byte) (hm : m.length = 32) (v s t d : Nat) (hv : v < 2 ^ 32)
    (hs : s < 2 ^ 16) (ht : t < 2 ^ 64 - 2 ^ 15) (hd : d < 2 ^ 64) :
    readMeasurement (put m 4 4 v) = { readMeasurement m with ssrc := v } ∧
    readMeasurement (put m 10 2 s) = { readMeasurement m with firstSeq := s } ∧
    readMeasurement (put m 12 4 v) = { readMeasurement m with intervalFirst := v } ∧
    readMeasurement (put m 16 4 v) = { readMeasurement m with intervalLast := v } ∧
    readMeasurement (setNtp32 m 20 (clamp32 t maxDelay)) =
      { readMeasurement m with intervalDuration := rounded t 0xFFFFFFFF0000 } ∧
    readMeasurement (setNtp64 m 24 d) = { readMeasurement m with cumDuration := d } := by
  have hv2 : v % 256 ^ 4 = v := Nat.mod_eq_of_lt hv
  have hs2 : s % 256 ^ 2 = s := Nat.mod_eq_of_lt hs
  have hne : ∀ off n v o k, off + n ≤ 32 → o + k ≤ off ∨ off + n ≤ o → fld (put m off n v) o k = fld m o k :=
    fun off n v o k ho h => fld_put_ne (by omega) h
  refine ⟨?_, ?_, ?_, ?_, ?_, ?_⟩
  · have g := hne 4 4 v
    unfold readMeasurement ntp32 ntp64
    rw [fld_put (by omega), hv2, g 10 2 (by omega) (by omega), g 12 4 (by omega) (by omega), g 16 4 (by omega) (by omega),
      g 20 4 (by omega) (by omega), g 24 4 (by omega) (by omega), g (24 + 4) 4 (by omega) (by omega)]
  · have g := hne 10 2 s
    unfold readMeasurement ntp32 ntp64
    rw [fld_put (by omega), hs2, g 4 4 (by omega) (by omega), g 12 4 (by omega) (by omega), g 16 4 (by omega) (by omega),
      g 20 4 (by omega) (by omega), g 24 4 (by omega) (by omega), g (24 + 4) 4 (by omega) (by omega)]
  · have g := hne 12 4 v
    unfold readMeasurement ntp32 ntp64
    rw [fld_put (by omega), hv2, g 4 4 (by omega) (by omega), g 10 2 (by omega) (by omega), g 16 4 (by omega) (by omega),
      g 20 4 (by omega) (by omega), g 24 4 (by omega) (by omega), g (24 + 4) 4 (by omega) (by omega)]
  · have g := hne 16 4 v
    unfold readMeasurement ntp32 ntp64
    rw [fld_put (by omega), hv2, g 4 4 (by omega) (by omega), g 10 2 (by omega) (by omega), g 12 4 (by omega) (by omega),
      g 20 4 (by omega) (by omega), g 24 4 (by omega) (by omega), g (24 + 4) 4 (by omega) (by omega)]
  · have g := hne 20 4 (clamp32 t maxDelay >>> 16)
    unfold readMeasurement
    rw [ntp32_set (by omega), clamp_fits]
    unfold setNtp32 ntp64
    rw [g 4 4 (by omega) (by omega), g 10 2 (by omega) (by omega), g 12 4 (by omega) (by omega), g 16 4 (by omega) (by omega),
      g 24 4 (by omega) (by omega), g (24 + 4) 4 (by omega) (by omega), clamp_delay ht]
  · have g : ∀ o k, o + k ≤ 24 → fld (setNtp64 m 24 d) o k = fld m o k := fun o k h => fld_setNtp64_ne (by omega) (by omega)
    unfold readMeasurement
    rw [ntp64_set (by omega) hd]
    unfold ntp32
    rw [g 4 4 (by omega), g 10 2 (by omega), g 12 4 (by omega), g 16 4 (by omega), g 20 4 (by omega)]

/-- **C24** (DLRR subblock, partial: delays below 2^64 - 2^15). -/
theorem C24_dlrr_partial (m : List Byte) (hm : m.length = 12) (v r t : Nat) (hv : v < 2 ^ 32) (ht : t < 2 ^ 64 - 2 ^ 15) :
    readDlrr (put m 0 4 v) = { readDlrr m with ssrc := v } ∧
    readDlrr (setNtp32 m 4 r) = { readDlrr m with lastRr := r / 2 ^ 16 % 2 ^ 32 * 2 ^ 16 } ∧
    readDlrr (setDelayLastRr m t) = { readDlrr m with delayLastRr := rounded t 0xFFFFFFFF0000 } := by
  have hv2 : v % 256 ^ 4 = v := Nat.mod_eq_of_lt hv
  have hne : ∀ off n v o k, off + n ≤ 12 → o + k ≤ off ∨ off + n ≤ o → fld (put m off n v) o k = fld m o k :=
    fun off n v o k ho h => fld_put_ne (by omega) h
  refine ⟨?_, ?_, ?_⟩
  · have g := hne 0 4 v
    unfold readDlrr ntp32
    rw [fld_put (by omega), hv2, g 4 4 (by omega) (by omega), g 8 4 (by omega) (by omega)]
  · have g := hne 4 4 (r >>> 16)
    unfold readDlrr
    rw [ntp32_set (by omega)]
    unfold setNtp32 ntp32
    rw [g 0 4 (by omega) (by omega), g 8 4 (by omega) (by omega)]
  · have g := hne 8 4 (clamp32 t maxDelay >>> 16)
    unfold readDlrr setDelayLastRr
    rw [ntp32_set (by omega), clamp_fits]
    unfold setNtp32 ntp32
    rw [g 0 4 (by omega) (by omega), g 4 4 (by omega) (by omega), clamp_delay ht]

example : readQueue (setMetric (List.replicate 16 255) 8 0x12345678) =
    ⟨3, 0xFFFFFFFF, 0x12340000, 0xFFFFFFFF0000⟩ := by decide +kernel
example : readDlrr (setDelayLastRr (List.replicate 12 0) (2 ^ 50)) = ⟨0, 0, 0xFFFFFFFF0000⟩ := by decide +kernel

end Verif.RtcpFields
