import Verif.SampleTime.Lemmas

/-!
# Conversions between samples and durations: property C78
-/

namespace Verif.SampleTime

open Verif.PcmFormat

theorem rnd_rel (p : Nat) (x : ℚ) : ∃ e : ℚ, |e| ≤ 1 / 2 ^ p ∧ rnd p x = x * (1 + e) := by
  by_cases hx : x = 0
  · subst hx
    exact ⟨0, by simp, by simp [rnd_zero]⟩
  · refine ⟨(rnd p x - x) / x, ?_, by field_simp; ring⟩
    rw [abs_div, div_le_iff₀ (abs_pos.2 hx)]
    have := rnd_err p x
    rw [div_mul_eq_mul_div, one_mul]
    exact this

theorem rnd_rate (rate : Nat) (h : rate ≤ 2 ^ 24) : rnd 24 (rate : ℚ) = rate := by
  have := rnd_int 24 (by norm_num) (rate : Int) (by
    rw [abs_of_nonneg (by positivity)]
    exact_mod_cast h)
  simpa using this

/-- The value before the bounds of the type are applied. -/
theorem samplesToNs_raw (x : ℚ) (rate : Nat) (h1 : 1 ≤ rate) (h2 : rate ≤ 2 ^ 24)
    (hb : |x / rate * 1000000000| ≤ 2 ^ 62) :
    ∃ e₁ e₂ d : ℚ, |e₁| ≤ 1 / 2 ^ 24 ∧ |e₂| ≤ 1 / 2 ^ 24 ∧ |d| ≤ 1 / 2 ∧
      (samplesToNs x rate : ℚ) = x / rate * 1000000000 * (1 + e₁) * (1 + e₂) + d := by
  obtain ⟨e₁, g1, q1⟩ := rnd_rel 24 (x / rate)
  obtain ⟨e₂, g2, q2⟩ := rnd_rel 24 (x / rate * (1 + e₁) * 1000000000)
  have hr := roundAway_err (x / rate * (1 + e₁) * 1000000000 * (1 + e₂))
  have hval : rnd 24 (rnd 24 (x / rnd 24 (rate : ℚ)) * rnd 24 ((second : Int) : ℚ))
      = x / rate * (1 + e₁) * 1000000000 * (1 + e₂) := by
    rw [rnd_rate rate h2, rnd_second, q1, q2]
  obtain ⟨w, hw⟩ : ∃ w, w = x / rate * (1 + e₁) * 1000000000 * (1 + e₂) := ⟨_, rfl⟩
  rw [← hw] at hval hr
  refine ⟨e₁, e₂, (roundAway w : ℚ) - w, g1, g2, hr, ?_⟩
  have hw' : w = x / rate * 1000000000 * (1 + e₁) * (1 + e₂) := by rw [hw]; ring
  have hwb : |w| ≤ 2 ^ 62 + 2 ^ 61 := by
    rw [hw', abs_mul, abs_mul]
    have a1 : |1 + e₁| ≤ 1 + 1 / 2 ^ 24 := by
      have := abs_le.1 g1
      rw [abs_le]
      constructor <;> linarith
    have a2 : |1 + e₂| ≤ 1 + 1 / 2 ^ 24 := by
      have := abs_le.1 g2
      rw [abs_le]
      constructor <;> linarith
    calc |x / rate * 1000000000| * |1 + e₁| * |1 + e₂|
        ≤ 2 ^ 62 * (1 + 1 / 2 ^ 24) * (1 + 1 / 2 ^ 24) := by gcongr
      _ ≤ 2 ^ 62 + 2 ^ 61 := by norm_num
  have hb1 := abs_le.1 hwb
  have hb2 := abs_le.1 hr
  have hmin : rnd 24 ((nsMin : Int) : ℚ) = -2 ^ 63 := by
    have := rnd_pow 24 (by norm_num) 63
    have e : ((nsMin : Int) : ℚ) = -(2 ^ (63 : Int)) := by norm_num
    rw [e, rnd_neg, this]
    norm_num
  have hmax : (7 : ℚ) * 2 ^ 60 ≤ rnd 24 ((nsMax : Int) : ℚ) := by
    have h7 : rnd 24 (((7 : Int) : ℚ) * 2 ^ (60 : Int)) = ((7 : Int) : ℚ) * 2 ^ (60 : Int) := by
      rw [rnd_scale, rnd_int 24 (by norm_num) 7 (by norm_num)]
    have := rnd_mono 24 (by norm_num) (((7 : Int) : ℚ) * 2 ^ (60 : Int)) ((nsMax : Int) : ℚ)
      (by norm_num)
    rw [h7] at this
    norm_num at this ⊢
    exact this
  unfold samplesToNs
  rw [hval, hmin]
  have n1 : ¬ ((roundAway w : ℚ) ≤ -2 ^ 63) := by
    push Not
    norm_num at *
    linarith
  have n2 : ¬ ((roundAway w : ℚ) ≥ rnd 24 ((nsMax : Int) : ℚ)) := by
    push Not
    norm_num at *
    linarith
  rw [if_neg n1, if_neg n2, hw']
  ring

theorem prod_err (e₁ e₂ : ℚ) (h1 : |e₁| ≤ 1 / 2 ^ 24) (h2 : |e₂| ≤ 1 / 2 ^ 24) :
    |(1 + e₁) * (1 + e₂) - 1| ≤ 2 / 2 ^ 24 + 1 / 2 ^ 48 := by
  have e : (1 + e₁) * (1 + e₂) - 1 = e₁ + e₂ + e₁ * e₂ := by ring
  rw [e]
  have h3 : |e₁ * e₂| ≤ 1 / 2 ^ 48 := by
    rw [abs_mul]
    calc |e₁| * |e₂| ≤ 1 / 2 ^ 24 * (1 / 2 ^ 24) := by gcongr
      _ = 1 / 2 ^ 48 := by norm_num
  calc |e₁ + e₂ + e₁ * e₂| ≤ |e₁| + |e₂| + |e₁ * e₂| := abs_add_three _ _ _
    _ ≤ 1 / 2 ^ 24 + 1 / 2 ^ 24 + 1 / 2 ^ 48 := by gcongr
    _ = 2 / 2 ^ 24 + 1 / 2 ^ 48 := by ring

/-- The duration of `n` samples is off by no more than a relative error of 2⁻²² and half a
nanosecond, as long as it is below 2⁶¹ nanoseconds (73 years). -/
theorem C78_duration_error (rate n : Nat) (h1 : 1 ≤ rate) (h2 : rate ≤ 2 ^ 24)
    (hb : (n : ℚ) / rate * 1000000000 ≤ 2 ^ 61) :
    |(samplesPerChanToNs rate n : ℚ) - (n : ℚ) / rate * 1000000000|
      ≤ (n : ℚ) / rate * 1000000000 / 2 ^ 22 + 1 / 2 := by
  obtain ⟨e₀, g0, q0⟩ := rnd_rel 24 (n : ℚ)
  obtain ⟨q, hq⟩ : ∃ q, q = (n : ℚ) / rate * 1000000000 := ⟨_, rfl⟩
  have hq0 : 0 ≤ q := by rw [hq]; positivity
  rw [← hq] at hb ⊢
  have hx : rnd 24 (n : ℚ) / rate * 1000000000 = q * (1 + e₀) := by
    rw [q0, hq]
    ring
  have b0 := abs_le.1 g0
  obtain ⟨e₁, e₂, d, g1, g2, g3, g4⟩ := samplesToNs_raw (rnd 24 (n : ℚ)) rate h1 h2 (by
    rw [hx, abs_mul, abs_of_nonneg hq0, abs_of_nonneg (by norm_num at *; linarith)]
    norm_num at *
    nlinarith)
  unfold samplesPerChanToNs
  rw [g4, hx]
  have p1 := prod_err e₁ e₂ g1 g2
  obtain ⟨t, ht⟩ : ∃ t, t = (1 + e₁) * (1 + e₂) - 1 := ⟨_, rfl⟩
  rw [← ht] at p1
  have e : q * (1 + e₀) * (1 + e₁) * (1 + e₂) + d - q = q * (e₀ + t + e₀ * t) + d := by
    rw [ht]
    ring
  rw [e]
  have h3 : |e₀ + t + e₀ * t| ≤ 1 / 2 ^ 22 := by
    calc |e₀ + t + e₀ * t| ≤ |e₀| + |t| + |e₀ * t| := abs_add_three _ _ _
      _ = |e₀| + |t| + |e₀| * |t| := by rw [abs_mul]
      _ ≤ 1 / 2 ^ 24 + (2 / 2 ^ 24 + 1 / 2 ^ 48) + 1 / 2 ^ 24 * (2 / 2 ^ 24 + 1 / 2 ^ 48) := by
        gcongr
      _ ≤ 1 / 2 ^ 22 := by norm_num
  calc |q * (e₀ + t + e₀ * t) + d| ≤ |q * (e₀ + t + e₀ * t)| + |d| := abs_add_le _ _
    _ = q * |e₀ + t + e₀ * t| + |d| := by rw [abs_mul, abs_of_nonneg hq0]
    _ ≤ q * (1 / 2 ^ 22) + 1 / 2 := by gcongr
    _ = q / 2 ^ 22 + 1 / 2 := by ring

/-- 44100 samples at a rate of 44100 per second are about one second. -/
example : (1 : ℕ) ≤ 44100 ∧ 44100 ≤ 2 ^ 24 ∧ ((44100 : ℕ) : ℚ) / (44100 : ℕ) * 1000000000 ≤ 2 ^ 61 := by
  norm_num

/-- Samples to nanoseconds and back, before the bounds of the type are applied. -/
theorem back (rate : Nat) (h1 : 1 ≤ rate) (h2 : rate ≤ 2 ^ 20) (n : Int)
    (hn : |n| ≤ 1500000) : nsToFract (samplesToNs (rnd 24 (n : ℚ)) rate) rate = n := by
  have hrate : (0 : ℚ) < rate := by exact_mod_cast h1
  have hrate1 : (1 : ℚ) ≤ rate := by exact_mod_cast h1
  have hrate2 : (rate : ℚ) ≤ 2 ^ 20 := by exact_mod_cast h2
  have hn' : |(n : ℚ)| ≤ 1500000 := by exact_mod_cast hn
  rw [rnd_int 24 (by norm_num) n (hn.trans (by norm_num))]
  obtain ⟨q, hq⟩ : ∃ q, q = (n : ℚ) / rate * 1000000000 := ⟨_, rfl⟩
  have hqb : |q| ≤ 2 ^ 62 := by
    rw [hq, abs_mul, abs_div, abs_of_pos hrate, abs_of_pos (by norm_num : (0 : ℚ) < 1000000000)]
    have : |(n : ℚ)| / rate ≤ 1500000 := by
      rw [div_le_iff₀ hrate]
      nlinarith [abs_nonneg (n : ℚ)]
    norm_num
    linarith
  obtain ⟨e₁, e₂, d, g1, g2, g3, g4⟩ := samplesToNs_raw (n : ℚ) rate h1 (h2.trans (by norm_num))
    (by rw [← hq]; exact hqb)
  rw [← hq] at g4
  obtain ⟨s, hs⟩ : ∃ s, s = samplesToNs (n : ℚ) rate := ⟨_, rfl⟩
  rw [← hs] at g4 ⊢
  obtain ⟨e₃, g5, q5⟩ := rnd_rel 24 (s : ℚ)
  obtain ⟨e₄, g6, q6⟩ := rnd_rel 24 (rnd 24 (s : ℚ) / 1000000000)
  obtain ⟨e₅, g7, q7⟩ := rnd_rel 24 (rnd 24 (rnd 24 (s : ℚ) / 1000000000) * rate)
  unfold nsToFract
  rw [rnd_second, rnd_rate rate (h2.trans (by norm_num)), q7, q6, q5, g4]
  apply roundAway_eq
  have p1 := prod_err e₁ e₂ g1 g2
  have p2 := prod_err e₃ e₄ g5 g6
  obtain ⟨t, ht⟩ : ∃ t, t = (1 + e₁) * (1 + e₂) - 1 := ⟨_, rfl⟩
  obtain ⟨u, hu⟩ : ∃ u, u = (1 + e₃) * (1 + e₄) - 1 := ⟨_, rfl⟩
  rw [← ht] at p1
  rw [← hu] at p2
  have e : (q * (1 + e₁) * (1 + e₂) + d) * (1 + e₃) / 1000000000 * (1 + e₄) * rate * (1 + e₅) - n
      = n * (t + u + e₅ + t * u + t * e₅ + u * e₅ + t * u * e₅)
        + d * (rate / 1000000000) * (1 + u) * (1 + e₅) := by
    rw [ht, hu, hq]
    field_simp
    ring
  rw [e]
  obtain ⟨m, hm⟩ : ∃ m, m = t + u + e₅ + t * u + t * e₅ + u * e₅ + t * u * e₅ := ⟨_, rfl⟩
  rw [← hm]
  have hU : (2 : ℚ) / 2 ^ 24 + 1 / 2 ^ 48 ≤ 3 / 2 ^ 24 := by norm_num
  have hme : |m| ≤ 5 / 2 ^ 24 + 1 / 2 ^ 40 := by
    rw [hm]
    have a1 := abs_le.1 p1
    have a2 := abs_le.1 p2
    have a3 := abs_le.1 g7
    have k1 : |t * u| ≤ 1 / 2 ^ 43 := by
      rw [abs_mul]
      calc |t| * |u| ≤ (2 / 2 ^ 24 + 1 / 2 ^ 48) * (2 / 2 ^ 24 + 1 / 2 ^ 48) := by gcongr
        _ ≤ 1 / 2 ^ 43 := by norm_num
    have k2 : |t * e₅| ≤ 1 / 2 ^ 43 := by
      rw [abs_mul]
      calc |t| * |e₅| ≤ (2 / 2 ^ 24 + 1 / 2 ^ 48) * (1 / 2 ^ 24) := by gcongr
        _ ≤ 1 / 2 ^ 43 := by norm_num
    have k3 : |u * e₅| ≤ 1 / 2 ^ 43 := by
      rw [abs_mul]
      calc |u| * |e₅| ≤ (2 / 2 ^ 24 + 1 / 2 ^ 48) * (1 / 2 ^ 24) := by gcongr
        _ ≤ 1 / 2 ^ 43 := by norm_num
    have k4 : |t * u * e₅| ≤ 1 / 2 ^ 43 := by
      rw [abs_mul]
      calc |t * u| * |e₅| ≤ 1 / 2 ^ 43 * (1 / 2 ^ 24) := by gcongr
        _ ≤ 1 / 2 ^ 43 := by norm_num
    have b1 := abs_le.1 k1
    have b2 := abs_le.1 k2
    have b3 := abs_le.1 k3
    have b4 := abs_le.1 k4
    rw [abs_le]
    norm_num at *
    constructor <;> linarith
  have hpart1 : |(n : ℚ) * m| ≤ 0.45 := by
    rw [abs_mul]
    calc |(n : ℚ)| * |m| ≤ 1500000 * (5 / 2 ^ 24 + 1 / 2 ^ 40) := by gcongr
      _ ≤ 0.45 := by norm_num
  have hpart2 : |d * (rate / 1000000000) * (1 + u) * (1 + e₅)| ≤ 0.01 := by
    have a1 : |1 + u| ≤ 2 := by
      have := abs_le.1 p2
      rw [abs_le]
      norm_num at *
      constructor <;> linarith
    have a2 : |1 + e₅| ≤ 2 := by
      have := abs_le.1 g7
      rw [abs_le]
      norm_num at *
      constructor <;> linarith
    have a3 : |(rate : ℚ) / 1000000000| ≤ 2 ^ 20 / 1000000000 := by
      rw [abs_of_pos (by positivity)]
      gcongr
    rw [abs_mul, abs_mul, abs_mul]
    calc |d| * |(rate : ℚ) / 1000000000| * |1 + u| * |1 + e₅|
        ≤ 1 / 2 * (2 ^ 20 / 1000000000) * 2 * 2 := by gcongr
      _ ≤ 0.01 := by norm_num
  calc _ ≤ |(n : ℚ) * m| + |d * (rate / 1000000000) * (1 + u) * (1 + e₅)| := abs_add_le _ _
    _ ≤ 0.45 + 0.01 := by gcongr
    _ < 1 / 2 := by norm_num

theorem rnd_ge (p : Nat) (hp : 1 ≤ p) (k : Nat) (x : ℚ) (h : 2 ^ k ≤ x) : 2 ^ k ≤ rnd p x := by
  have := rnd_mono p hp (2 ^ (k : Int)) x (by rw [zpow_natCast]; exact h)
  rw [rnd_pow p hp, zpow_natCast] at this
  exact this

theorem nsToInt_small (tmin tmax : Int) (ns : Int) (rate : Nat) (v : Int)
    (hv : nsToFract ns rate = v) (h1 : |v| ≤ 1500000) (hmin : tmin = 0 ∨ tmin ≤ -2 ^ 31)
    (h0 : tmin = 0 → 0 ≤ v) (hmax : 2 ^ 30 ≤ tmax) : nsToInt tmin tmax ns rate 1 = v := by
  have hone : rnd 24 ((1 : Nat) : ℚ) = 1 := by
    have := rnd_rate 1 (by norm_num)
    simpa using this
  have hmul : rnd 24 ((v : ℚ) * 1) = v := by
    rw [mul_one]
    exact rnd_int 24 (by norm_num) v (h1.trans (by norm_num))
  have hv' := abs_le.1 h1
  have hmaxr : (2 : ℚ) ^ 30 ≤ rnd 24 (tmax : ℚ) := by
    apply rnd_ge 24 (by norm_num)
    exact_mod_cast hmax
  have hlt : ¬ ((v : ℚ) ≥ rnd 24 (tmax : ℚ)) := by
    push Not
    have : (v : ℚ) ≤ 1500000 := by exact_mod_cast hv'.2
    norm_num at *
    linarith
  unfold nsToInt
  rw [hv, hone, hmul]
  rcases hmin with e | e
  · subst e
    have hz : rnd 24 ((0 : Int) : ℚ) = 0 := by simpa using rnd_zero 24
    rw [hz]
    by_cases hv0 : v = 0
    · subst hv0
      simp
    · have : ¬ ((v : ℚ) ≤ 0) := by
        push Not
        have := h0 rfl
        exact_mod_cast (by omega : 0 < v)
      rw [if_neg this, if_neg hlt]
      simp
  · have h31 : rnd 24 (tmin : ℚ) ≤ -2 ^ 31 := by
      have := rnd_ge 24 (by norm_num) 31 (-(tmin : ℚ)) (by
        have : (tmin : ℚ) ≤ ((-2 ^ 31 : Int) : ℚ) := by exact_mod_cast e
        push_cast at this
        linarith)
      rw [rnd_neg] at this
      linarith
    have : ¬ ((v : ℚ) ≤ rnd 24 (tmin : ℚ)) := by
      push Not
      have : (-1500000 : ℚ) ≤ v := by exact_mod_cast hv'.1
      norm_num at *
      linarith
    rw [if_neg this, if_neg hlt]
    simp

theorem samplesToNs_mono (rate : Nat) (h1 : 1 ≤ rate) (x y : ℚ) (h : x ≤ y) :
    samplesToNs x rate ≤ samplesToNs y rate := by
  have hr : (0 : ℚ) < rnd 24 (rate : ℚ) := by
    have := rnd_ge 24 (by norm_num) 0 (rate : ℚ) (by simpa using h1)
    linarith [this, pow_zero (2 : ℚ)]
  have hm : rnd 24 (rnd 24 (x / rnd 24 (rate : ℚ)) * rnd 24 ((second : Int) : ℚ))
      ≤ rnd 24 (rnd 24 (y / rnd 24 (rate : ℚ)) * rnd 24 ((second : Int) : ℚ)) := by
    apply rnd_mono 24 (by norm_num)
    rw [rnd_second]
    apply mul_le_mul_of_nonneg_right _ (by norm_num)
    apply rnd_mono 24 (by norm_num)
    exact div_le_div_of_nonneg_right h hr.le
  have hm' := roundAway_mono _ _ hm
  have hm'' : (roundAway (rnd 24 (rnd 24 (x / rnd 24 (rate : ℚ)) * rnd 24 ((second : Int) : ℚ))) : ℚ)
    ≤ roundAway (rnd 24 (rnd 24 (y / rnd 24 (rate : ℚ)) * rnd 24 ((second : Int) : ℚ))) := by
    exact_mod_cast hm'
  obtain ⟨a, ha⟩ : ∃ a, a = roundAway (rnd 24 (rnd 24 (x / rnd 24 (rate : ℚ))
    * rnd 24 ((second : Int) : ℚ))) := ⟨_, rfl⟩
  obtain ⟨b, hb⟩ : ∃ b, b = roundAway (rnd 24 (rnd 24 (y / rnd 24 (rate : ℚ))
    * rnd 24 ((second : Int) : ℚ))) := ⟨_, rfl⟩
  unfold samplesToNs
  rw [← ha, ← hb] at hm' hm''
  rw [← ha, ← hb]
  have hmin : rnd 24 ((nsMin : Int) : ℚ) = ((nsMin : Int) : ℚ) := by
    have := rnd_pow 24 (by norm_num) 63
    have e : ((nsMin : Int) : ℚ) = -(2 ^ (63 : Int)) := by norm_num
    rw [e, rnd_neg, this]
  have hmax : rnd 24 ((nsMax : Int) : ℚ) ≤ 2 ^ 63 := by
    have := rnd_mono 24 (by norm_num) ((nsMax : Int) : ℚ) (2 ^ (63 : Int)) (by norm_num)
    rw [rnd_pow 24 (by norm_num)] at this
    exact_mod_cast this
  rw [hmin]
  have hi : ∀ c : Int, ¬ ((c : ℚ) ≥ rnd 24 ((nsMax : Int) : ℚ)) → c ≤ nsMax := by
    intro c hc
    push Not at hc
    have : (c : ℚ) < ((2 ^ 63 : Int) : ℚ) := by
      push_cast
      linarith
    have : c < 2 ^ 63 := by exact_mod_cast this
    show c ≤ 2 ^ 63 - 1
    omega
  have hlo : ∀ c : Int, ¬ ((c : ℚ) ≤ ((nsMin : Int) : ℚ)) → nsMin ≤ c := by
    intro c hc
    have : ¬ (c ≤ nsMin) := by exact_mod_cast hc
    omega
  have hmm : nsMin ≤ nsMax := by norm_num
  split_ifs with c1 c2 c3 c4 c5 c6 c7 c8
  · exact le_rfl
  · exact hmm
  · exact hlo _ c2
  · exact absurd (hm''.trans c5) c1
  · exact le_rfl
  · exact absurd (c4.trans hm'') c6
  · exact absurd (hm''.trans c7) c1
  · exact hi _ c4
  · exact hm'

/-- More samples never last shorter. -/
theorem C78_duration_monotone (rate : Nat) (h1 : 1 ≤ rate) (n m : Nat) (h : n ≤ m) :
    samplesPerChanToNs rate n ≤ samplesPerChanToNs rate m :=
  samplesToNs_mono rate h1 _ _ (rnd_mono 24 (by norm_num) _ _ (by exact_mod_cast h))

theorem samplesToNs_zero (rate : Nat) (h1 : 1 ≤ rate) (h2 : rate ≤ 2 ^ 20) :
    samplesToNs (rnd 24 (((0 : Nat) : Int) : ℚ)) rate = 0 := by
  obtain ⟨e₁, e₂, d, _, _, g3, g4⟩ := samplesToNs_raw 0 rate h1 (h2.trans (by norm_num)) (by simp)
  have h0 : rnd 24 (((0 : Nat) : Int) : ℚ) = 0 := by simpa using rnd_zero 24
  rw [h0]
  have : |((samplesToNs 0 rate : Int) : ℚ)| < 1 := by
    rw [g4]
    simp
    linarith
  have : |samplesToNs 0 rate| < 1 := by exact_mod_cast this
  rw [abs_lt] at this
  omega

/-- Up to 1.5 million samples (31 seconds at 48000 per second), the number of samples comes
back exactly from the duration; rates up to a million per second. -/
theorem C78_roundtrip_partial (rate n : Nat) (h1 : 1 ≤ rate) (h2 : rate ≤ 2 ^ 20)
    (hn : n ≤ 1500000) :
    nsToSamplesPerChan rate (samplesPerChanToNs rate n) = some (n : Int) ∧
    nsToStreamTs rate (streamTsToNs rate n) = some (n : Int) := by
  have hb := back rate h1 h2 (n : Int) (by
    rw [abs_of_nonneg (by positivity)]
    exact_mod_cast hn)
  have hpos : 0 ≤ samplesToNs (rnd 24 (((n : Nat) : Int) : ℚ)) rate := by
    rw [← samplesToNs_zero rate h1 h2]
    exact samplesToNs_mono rate h1 _ _ (rnd_mono 24 (by norm_num) _ _ (by simp))
  have habs : |(n : Int)| ≤ 1500000 := by
    rw [abs_of_nonneg (by positivity)]
    exact_mod_cast hn
  have e : rnd 24 (((n : Nat) : Int) : ℚ) = rnd 24 ((n : Nat) : ℚ) := by push_cast; rfl
  rw [e] at hb hpos
  unfold nsToSamplesPerChan nsToStreamTs samplesPerChanToNs streamTsToNs
  rw [if_neg (by omega), if_neg (by omega)]
  constructor
  · rw [nsToInt_small 0 (2 ^ 64 - 1) _ rate n hb habs (Or.inl rfl) (fun _ => by positivity)
      (by norm_num)]
  · rw [nsToInt_small 0 (2 ^ 32 - 1) _ rate n hb habs (Or.inl rfl) (fun _ => by positivity)
      (by norm_num)]

/-- The same for differences of timestamps, which may be negative. -/
theorem C78_delta_partial (rate : Nat) (n : Int) (h1 : 1 ≤ rate) (h2 : rate ≤ 2 ^ 20)
    (hn : |n| ≤ 1500000) : nsToStreamDelta rate (streamDeltaToNs rate n) = n := by
  unfold nsToStreamDelta streamDeltaToNs
  exact nsToInt_small _ _ _ rate n (back rate h1 h2 n hn) hn (Or.inr (by norm_num))
    (fun h => absurd h (by norm_num)) (by norm_num)

example : |(-1500000 : Int)| ≤ 1500000 ∧ (48000 : Nat) ≤ 2 ^ 20 := by norm_num

/-- Without the bound it is wrong, for every rate: 16777216 and 16777217 samples, which is less
than six minutes at 48000 per second, have the same duration, because the number of samples is
converted to `float` first. So no function whatsoever gives both of them back. -/
theorem C78_roundtrip_fails (rate : Nat) :
    samplesPerChanToNs rate 16777217 = samplesPerChanToNs rate 16777216 ∧
    ¬ ∀ n, nsToSamplesPerChan rate (samplesPerChanToNs rate n) = some (n : Int) := by
  have h : rnd 24 ((16777217 : Nat) : ℚ) = rnd 24 ((16777216 : Nat) : ℚ) := by
    rw [rnd_nat 24 16777217 24 (by norm_num) (by norm_num),
      rnd_nat 24 16777216 24 (by norm_num) (by norm_num)]
    have h1 : ((16777217 : Nat) : ℚ) / 2 ^ (((24 : Nat) : Int) - ((24 : Nat) - 1))
        = 16777217 / 2 := by norm_num
    have h2 : ((16777216 : Nat) : ℚ) / 2 ^ (((24 : Nat) : Int) - ((24 : Nat) - 1))
        = ((8388608 : Int) : ℚ) := by norm_num
    have h3 : ⌊(16777217 / 2 : ℚ)⌋ = 8388608 := by
      rw [Int.floor_eq_iff]
      norm_num
    rw [h1, h2, roundEven_int]
    congr 2
    unfold roundEven
    rw [h3]
    norm_num
  have he : samplesPerChanToNs rate 16777217 = samplesPerChanToNs rate 16777216 := by
    unfold samplesPerChanToNs
    rw [h]
  refine ⟨he, fun hall => ?_⟩
  have a := hall 16777217
  have b := hall 16777216
  rw [he, b] at a
  simp at a

theorem nsToFract_mono (rate : Nat) (a b : Int) (h : a ≤ b) : nsToFract a rate ≤ nsToFract b rate := by
  unfold nsToFract
  apply roundAway_mono
  apply rnd_mono 24 (by norm_num)
  apply mul_le_mul_of_nonneg_right _ (rnd_nonneg 24 _ (by positivity))
  apply rnd_mono 24 (by norm_num)
  rw [rnd_second]
  apply div_le_div_of_nonneg_right _ (by norm_num)
  apply rnd_mono 24 (by norm_num)
  exact_mod_cast h

theorem nsToFract_nonneg (rate : Nat) (ns : Int) (h : 0 ≤ ns) : 0 ≤ nsToFract ns rate := by
  have h0 : nsToFract 0 rate = 0 := by
    unfold nsToFract
    have : rnd 24 ((0 : Int) : ℚ) = 0 := by simpa using rnd_zero 24
    rw [this]
    simp [rnd_zero, roundAway]
    norm_num
  rw [← h0]
  exact nsToFract_mono rate 0 ns h

/-- The number of samples of all channels is always a multiple of the number of channels, even
if it is cut at the largest number; and it is the number of samples per channel times the number
of channels if that is below 2⁶³. -/
theorem C78_overall (rate chans : Nat) (hc : 1 ≤ chans) (hc2 : chans ≤ 2 ^ 24) (ns : Int) (k : Int)
    (h : nsToSamplesOverall rate chans ns = some k) :
    (chans : Int) ∣ k ∧
    ∀ m, nsToSamplesPerChan rate ns = some m → m * chans < 2 ^ 63 → k = m * chans := by
  unfold nsToSamplesOverall at h
  by_cases hns : ns < 0
  · rw [if_pos hns] at h
    exact absurd h (by simp)
  rw [if_neg hns] at h
  have hk : nsToInt 0 (2 ^ 64 - 1) ns rate chans = k := by simpa using h
  obtain ⟨v, hv⟩ : ∃ v, v = nsToFract ns rate := ⟨_, rfl⟩
  have hv0 : 0 ≤ v := by
    rw [hv]
    exact nsToFract_nonneg rate ns (by omega)
  refine ⟨?_, ?_⟩
  · rw [← hk]
    unfold nsToInt
    split_ifs <;> exact Dvd.intro_left _ rfl
  · intro m hm hlt
    unfold nsToSamplesPerChan at hm
    rw [if_neg hns] at hm
    have hm' : nsToInt 0 (2 ^ 64 - 1) ns rate 1 = m := by simpa using hm
    have hz : rnd 24 ((0 : Int) : ℚ) = 0 := by simpa using rnd_zero 24
    have hone : rnd 24 ((1 : Nat) : ℚ) = 1 := by
      have := rnd_rate 1 (by norm_num)
      simpa using this
    have hbig : (3 : ℚ) * 2 ^ 62 ≤ rnd 24 (((2 ^ 64 - 1 : Int)) : ℚ) := by
      have h3 : rnd 24 (((3 : Int) : ℚ) * 2 ^ (62 : Int)) = ((3 : Int) : ℚ) * 2 ^ (62 : Int) := by
        rw [rnd_scale, rnd_int 24 (by norm_num) 3 (by norm_num)]
      have := rnd_mono 24 (by norm_num) (((3 : Int) : ℚ) * 2 ^ (62 : Int)) (((2 ^ 64 - 1 : Int)) : ℚ)
        (by norm_num)
      rw [h3] at this
      norm_num at this ⊢
      exact this
    have hchq : (1 : ℚ) ≤ chans := by exact_mod_cast hc
    have hvq : (0 : ℚ) ≤ v := by exact_mod_cast hv0
    -- the value that is used for all channels
    have all : ∀ c : Nat, 1 ≤ c → c ≤ 2 ^ 24 → (v * c < 2 ^ 63) →
        nsToInt 0 (2 ^ 64 - 1) ns rate c = v * c := by
      intro c h1 h2 h3
      unfold nsToInt
      rw [← hv, hz, rnd_rate c h2]
      by_cases h0 : v = 0
      · subst h0
        simp [rnd_zero]
      · have hcq : (1 : ℚ) ≤ c := by exact_mod_cast h1
        have hvq1 : (1 : ℚ) ≤ v := by exact_mod_cast (by omega : 1 ≤ v)
        have p1 : (1 : ℚ) ≤ rnd 24 ((v : ℚ) * c) := by
          have := rnd_ge 24 (by norm_num) 0 ((v : ℚ) * c) (by nlinarith)
          simpa using this
        have p2 : rnd 24 ((v : ℚ) * c) ≤ 2 ^ 63 := by
          have h3' : (v : ℚ) * c ≤ 2 ^ (63 : Int) := by
            have : ((v * c : Int) : ℚ) < ((2 ^ 63 : Int) : ℚ) := by exact_mod_cast h3
            push_cast at this
            norm_num at this ⊢
            linarith
          have := rnd_mono 24 (by norm_num) _ _ h3'
          rw [rnd_pow 24 (by norm_num)] at this
          exact_mod_cast this
        rw [if_neg (by linarith), if_neg (by push Not; norm_num at *; linarith)]
    have hvm : m * chans < 2 ^ 63 → v * chans < 2 ^ 63 ∧ v = m := by
      intro hlt
      by_cases hbound : v * (1 : Nat) < 2 ^ 63
      · have := all 1 le_rfl (by norm_num) hbound
        rw [hm'] at this
        have hmv : v = m := by simpa using this.symm
        rw [hmv]
        exact ⟨hlt, rfl⟩
      · -- then `m` is at least 2^63 as well
        exfalso
        have hv63 : (2 : Int) ^ 63 ≤ v := by
          push Not at hbound
          simpa using hbound
        have : (2 : Int) ^ 63 ≤ m := by
          rw [← hm']
          unfold nsToInt
          rw [← hv, hz, hone]
          have p1 : (2 : ℚ) ^ 63 ≤ rnd 24 ((v : ℚ) * 1) := by
            apply rnd_ge 24 (by norm_num)
            rw [mul_one]
            exact_mod_cast hv63
          rw [if_neg (by norm_num at *; linarith)]
          split_ifs
          · norm_num
          · simpa using hv63
        have hci : (1 : Int) ≤ chans := by exact_mod_cast hc
        nlinarith
    obtain ⟨q1, q2⟩ := hvm hlt
    rw [← hk, all chans hc hc2 q1, q2]

/-- Two channels, one second. -/
example : (1 : Nat) ≤ 2 ∧ (2 : Nat) ≤ 2 ^ 24 := by norm_num

/-- A number of frames in bytes and back is the same number: for all formats of whole bytes and
all timestamps. -/
theorem C78_bytes (width chans ts : Nat) (hw : width % 8 = 0) (hw0 : 8 ≤ width) (hw1 : width ≤ 64)
    (hc : 1 ≤ chans) (hc1 : chans ≤ 1024) (ht : ts < 2 ^ 32) :
    ∃ b, streamTsToBytes true width chans ts = some b ∧
      b = ts * (width / 8) * chans ∧ bytesToStreamTs true width chans b = some ts := by
  have hk0 : 1 ≤ width / 8 := by omega
  have hk1 : width / 8 ≤ 8 := by omega
  obtain ⟨k, hk⟩ : ∃ k, k = width / 8 := ⟨_, rfl⟩
  rw [← hk] at hk0 hk1
  have b1 : ts * k < 2 ^ 35 := by
    calc ts * k ≤ ts * 8 := Nat.mul_le_mul_left _ hk1
      _ < 2 ^ 35 := by omega
  have b2 : ts * k * chans < 2 ^ 64 := by
    calc ts * k * chans ≤ ts * k * 1024 := Nat.mul_le_mul_left _ hc1
      _ < 2 ^ 64 := by omega
  refine ⟨ts * k * chans, ?_, by rw [hk], ?_⟩
  · unfold streamTsToBytes
    simp only [Bool.not_true, Bool.false_eq_true, if_false]
    rw [if_neg (by omega), ← hk, Nat.mod_eq_of_lt (by omega : ts * k < 2 ^ 64),
      Nat.mod_eq_of_lt b2]
  · unfold bytesToStreamTs
    simp only [Bool.not_true, Bool.false_eq_true, if_false]
    rw [if_neg (by omega), ← hk]
    have : ts * k * chans / k / chans = ts := by
      rw [mul_assoc, mul_comm k chans, ← mul_assoc, Nat.mul_div_cancel _ (by omega),
        Nat.mul_div_cancel _ (by omega)]
    rw [this, Nat.mod_eq_of_lt ht]

example : streamTsToBytes true 16 2 44100 = some 176400 ∧
    bytesToStreamTs true 16 2 176400 = some 44100 ∧ bytesToStreamTs true 18 2 176400 = none := by
  decide

end Verif.SampleTime
