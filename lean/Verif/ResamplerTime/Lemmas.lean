import Verif.ResamplerTime.Model
import Verif.BuiltinResampler.PropsPosition

/-!
# Capture timestamps of resamplers: lemmas
-/

namespace Verif.ResamplerTime

open Verif.PcmFormat Verif.SampleTime Verif.BuiltinResampler

/-- Product of rounding errors. -/
def Near (k : Nat) (x : ℚ) : Prop := (1 - 1 / 16777216 : ℚ) ^ k ≤ x ∧ x ≤ (1 + 1 / 16777216 : ℚ) ^ k

theorem near_err (e : ℚ) (h : |e| ≤ 1 / 2 ^ 24) : Near 1 (1 + e) := by
  have := abs_le.1 h
  unfold Near
  norm_num at this ⊢
  constructor <;> linarith

theorem near_mul (j k : Nat) (x y : ℚ) (hx : Near j x) (hy : Near k y) : Near (j + k) (x * y) := by
  unfold Near at *
  have h1 : (0 : ℚ) ≤ (1 - 1 / 16777216 : ℚ) ^ j := by positivity
  have h2 : (0 : ℚ) ≤ (1 - 1 / 16777216 : ℚ) ^ k := by positivity
  rw [pow_add, pow_add]
  constructor
  · exact mul_le_mul hx.1 hy.1 h2 (h1.trans hx.1)
  · exact mul_le_mul hx.2 hy.2 (h2.trans hy.1) (by positivity)

theorem near_dist (k : Nat) (hk : k ≤ 6) (x : ℚ) (h : Near k x) : |x - 1| ≤ 1 / 2 ^ 21 := by
  have h1 : (1 - 1 / 16777216 : ℚ) ^ 6 ≤ (1 - 1 / 16777216 : ℚ) ^ k :=
    pow_le_pow_of_le_one (by norm_num) (by norm_num) hk
  have h2 : (1 + 1 / 16777216 : ℚ) ^ k ≤ (1 + 1 / 16777216 : ℚ) ^ 6 := pow_le_pow_right₀ (by norm_num) hk
  obtain ⟨h3, h4⟩ := h
  have h5 : (1 - 1 / 16777216 : ℚ) ^ 6 ≥ 1 - 1 / 2097152 := by norm_num
  have h6 : (1 + 1 / 16777216 : ℚ) ^ 6 ≤ 1 + 1 / 2097152 := by norm_num
  rw [abs_le]
  norm_num at *
  constructor <;> linarith

theorem rnd_near (x : ℚ) : ∃ y, Near 1 y ∧ rnd 24 x = x * y := by
  obtain ⟨e, h1, h2⟩ := rnd_rel 24 x
  exact ⟨1 + e, near_err e h1, h2⟩

/-- Conversion to nanoseconds: two relative errors and half of a nanosecond. -/
theorem ns_near (x : ℚ) (rate : Nat) (h1 : 1 ≤ rate) (h2 : rate ≤ 2 ^ 24) (h0 : 0 ≤ x) (hx : x ≤ 2 ^ 25) :
    ∃ y d, Near 2 y ∧ |d| ≤ 1 / 2 ∧ (samplesToNs x rate : ℚ) = x / rate * 1000000000 * y + d := by
  have hr : (1 : ℚ) ≤ rate := by exact_mod_cast h1
  have hq : x / rate ≤ 2 ^ 25 := by
    rw [div_le_iff₀ (by linarith)]
    nlinarith
  have hq0 : 0 ≤ x / rate := by positivity
  obtain ⟨e₁, e₂, d, g1, g2, g3, g4⟩ := samplesToNs_raw x rate h1 h2 (by
    rw [abs_of_nonneg (by positivity)]
    norm_num at hq ⊢
    linarith)
  refine ⟨(1 + e₁) * (1 + e₂), d, near_mul 1 1 _ _ (near_err _ g1) (near_err _ g2), g3, ?_⟩
  rw [g4]
  ring

theorem ns_err (x : ℚ) (rate : Nat) (h1 : 1 ≤ rate) (h2 : rate ≤ 2 ^ 24) (h0 : 0 ≤ x) (hx : x ≤ 2 ^ 25) :
    |(samplesToNs x rate : ℚ) - x / rate * 1000000000| ≤ x / rate * 1000000000 / 2 ^ 21 + 1 / 2 := by
  obtain ⟨y, d, g1, g2, g3⟩ := ns_near x rate h1 h2 h0 hx
  have hy := near_dist 2 (by norm_num) y g1
  have hX : 0 ≤ x / rate * 1000000000 := by positivity
  rw [g3, show x / rate * 1000000000 * y + d - x / rate * 1000000000
    = x / rate * 1000000000 * (y - 1) + d by ring]
  refine (abs_add_le _ _).trans (add_le_add ?_ g2)
  rw [abs_mul, abs_of_nonneg hX]
  calc _ ≤ x / rate * 1000000000 * (1 / 2 ^ 21) := mul_le_mul_of_nonneg_left hy hX
    _ = _ := by ring

theorem overall (rate chans n : Nat) (hc : 0 < chans) (hc2 : n * chans ≤ 2 ^ 24) (hc3 : chans ≤ 2 ^ 24) :
    samplesOverallToNs rate chans (n * chans) = some (samplesToNs n rate) := by
  unfold samplesOverallToNs
  rw [if_neg (by rw [Nat.mul_mod_left]; simp), rnd_rate _ hc2, rnd_rate _ hc3]
  have hcq : (chans : ℚ) ≠ 0 := by exact_mod_cast hc.ne'
  rw [show ((n * chans : Nat) : ℚ) / chans = n by push_cast; field_simp]
  have hn : n ≤ 2 ^ 24 := by
    have : n * 1 ≤ n * chans := Nat.mul_le_mul_left _ hc
    omega
  rw [rnd_rate _ hn]

theorem left_err (rate chans left : Nat) (h1 : 1 ≤ rate) (h2 : rate ≤ 2 ^ 24) (hc : 0 < chans)
    (hc3 : chans ≤ 2 ^ 24) (hl : left < m32) :
    |(fractOverallToNs rate chans (leftFloat chans left) : ℚ) - (left : ℚ) / 2 ^ 20 / rate * 1000000000|
      ≤ (left : ℚ) / 2 ^ 20 / rate * 1000000000 / 2 ^ 21 + 1 / 2 := by
  have hcq : (chans : ℚ) ≠ 0 := by exact_mod_cast hc.ne'
  have hone : rnd 24 (one : ℚ) = 1048576 := by
    rw [rnd_rate one (by unfold one; norm_num)]
    unfold one
    norm_num
  unfold fractOverallToNs leftFloat
  rw [hone, rnd_rate _ hc3]
  obtain ⟨y1, a1, b1⟩ := rnd_near (left : ℚ)
  rw [b1]
  obtain ⟨y2, a2, b2⟩ := rnd_near ((left : ℚ) * y1 / 1048576)
  rw [b2]
  obtain ⟨y3, a3, b3⟩ := rnd_near ((left : ℚ) * y1 / 1048576 * y2 * chans)
  rw [b3]
  obtain ⟨y4, a4, b4⟩ := rnd_near ((left : ℚ) * y1 / 1048576 * y2 * chans * y3 / chans)
  rw [b4]
  obtain ⟨v, hv⟩ : ∃ v : ℚ, v = left / 2 ^ 20 := ⟨_, rfl⟩
  obtain ⟨z, hz⟩ : ∃ z, z = y1 * y2 * y3 * y4 := ⟨_, rfl⟩
  have hzn : Near 4 z := by
    rw [hz]
    exact near_mul 3 1 _ _ (near_mul 2 1 _ _ (near_mul 1 1 _ _ a1 a2) a3) a4
  have e : (left : ℚ) * y1 / 1048576 * y2 * chans * y3 / chans * y4 = v * z := by
    rw [hv, hz]
    field_simp
    ring
  rw [e, ← hv]
  have hv0 : 0 ≤ v := by rw [hv]; positivity
  have hv1 : v ≤ 4096 := by
    rw [hv, div_le_iff₀ (by positivity)]
    have : (left : ℚ) < (m32 : ℚ) := by exact_mod_cast hl
    unfold m32 at this
    norm_num at this ⊢
    linarith
  have hz4 := abs_le.1 (near_dist 4 (by norm_num) z hzn)
  have hz0 : 0 ≤ z := by norm_num at hz4; linarith
  have hz2 : z ≤ 2 := by norm_num at hz4; linarith
  obtain ⟨y, d, g1, g2, g3⟩ := ns_near (v * z) rate h1 h2 (mul_nonneg hv0 hz0) (by nlinarith)
  have hy := near_dist 6 le_rfl _ (near_mul 4 2 _ _ hzn g1)
  have hX : 0 ≤ v / rate * 1000000000 := by positivity
  rw [g3, show v * z / rate * 1000000000 * y + d - v / rate * 1000000000
    = v / rate * 1000000000 * (z * y - 1) + d by ring]
  refine (abs_add_le _ _).trans (add_le_add ?_ g2)
  rw [abs_mul, abs_of_nonneg hX]
  calc _ ≤ v / rate * 1000000000 * (1 / 2 ^ 21) := mul_le_mul_of_nonneg_left hy hX
    _ = _ := by ring

theorem trunc_err (x : ℚ) : |(trunc x : ℚ) - x| ≤ 1 := by
  unfold trunc
  split_ifs with h
  · have h1 := Int.floor_le x
    have h2 := Int.lt_floor_add_one x
    rw [abs_le]
    constructor <;> linarith
  · have h1 := Int.le_ceil x
    have h2 := Int.ceil_lt_add_one x
    rw [abs_le]
    constructor <;> linarith

theorem scaled_err (rate chans n : Nat) (mult : ℚ) (h1 : 1 ≤ rate) (h2 : rate ≤ 2 ^ 24) (hc : 0 < chans)
    (hc2 : n * chans ≤ 2 ^ 24) (hc3 : chans ≤ 2 ^ 24) (hm : 0 ≤ mult) :
    ∃ t, scaledNs rate chans n mult = some t
      ∧ |(t : ℚ) - (n : ℚ) / rate * 1000000000 * mult|
        ≤ (n : ℚ) / rate * 1000000000 * mult / 2 ^ 21 + mult + 1 := by
  unfold scaledNs
  rw [overall rate chans n hc hc2 hc3]
  refine ⟨_, rfl, ?_⟩
  have hn : n ≤ 2 ^ 24 := by
    have : n * 1 ≤ n * chans := Nat.mul_le_mul_left _ hc
    omega
  have hnq : (n : ℚ) ≤ 2 ^ 25 := by
    have : (n : ℚ) ≤ ((2 ^ 24 : Nat) : ℚ) := by exact_mod_cast hn
    norm_num at this ⊢
    linarith
  obtain ⟨y, d, g1, g2, g3⟩ := ns_near (n : ℚ) rate h1 h2 (by positivity) hnq
  obtain ⟨y1, a1, b1⟩ := rnd_near ((samplesToNs (n : ℚ) rate : Int) : ℚ)
  beta_reduce
  rw [b1]
  obtain ⟨y2, a2, b2⟩ := rnd_near (((samplesToNs (n : ℚ) rate : Int) : ℚ) * y1 * mult)
  rw [b2]
  obtain ⟨w, hw⟩ : ∃ w, w = ((samplesToNs (n : ℚ) rate : Int) : ℚ) * y1 * mult * y2 := ⟨_, rfl⟩
  rw [← hw]
  have ht := trunc_err w
  obtain ⟨X, hX⟩ : ∃ X : ℚ, X = (n : ℚ) / rate * 1000000000 := ⟨_, rfl⟩
  rw [← hX] at g3 ⊢
  have hX0 : 0 ≤ X := by rw [hX]; positivity
  have hy4 := near_dist 4 (by norm_num) _ (near_mul 2 2 _ _ g1 (near_mul 1 1 _ _ a1 a2))
  have hy2 := abs_le.1 (near_dist 2 (by norm_num) _ (near_mul 1 1 _ _ a1 a2))
  have hyy : |y1 * y2| ≤ 2 := by
    rw [abs_le]
    norm_num at hy2
    constructor <;> linarith
  have hwe : |w - X * mult| ≤ X * mult / 2 ^ 21 + mult := by
    rw [hw, g3, show (X * y + d) * y1 * mult * y2 - X * mult
      = X * mult * (y * (y1 * y2) - 1) + d * (y1 * y2) * mult by ring]
    refine (abs_add_le _ _).trans (add_le_add ?_ ?_)
    · rw [abs_mul, abs_of_nonneg (mul_nonneg hX0 hm)]
      calc _ ≤ X * mult * (1 / 2 ^ 21) := mul_le_mul_of_nonneg_left hy4 (mul_nonneg hX0 hm)
        _ = _ := by ring
    · rw [abs_mul, abs_mul, abs_of_nonneg hm]
      have : |d| * |y1 * y2| ≤ 1 / 2 * 2 := mul_le_mul g2 hyy (abs_nonneg _) (by norm_num)
      nlinarith
  have := abs_le.1 ht
  have := abs_le.1 hwe
  rw [abs_le]
  constructor <;> linarith

theorem clip_err (t : Int) (x e : ℚ) (hx : 0 ≤ x) (h : |(t : ℚ) - x| ≤ e) : |((clip t : Int) : ℚ) - x| ≤ e := by
  unfold clip
  split_ifs with h0
  · have h1 : (t : ℚ) < 0 := by exact_mod_cast h0
    have := abs_le.1 h
    rw [abs_le]
    push_cast
    constructor <;> linarith
  · exact h

end Verif.ResamplerTime
