import Verif.BuiltinResampler.ScalingLemmas

/-!
# Built-in resampler: which samples an output sample is made of (C83)
-/

namespace Verif.BuiltinResampler

open Spec Verif.PcmFormat Verif.SampleTime

/-- What is known about a resampler that was created. -/
theorem create_inv (prof nch inRate outRate buf : Nat) (c : Cfg)
    (h : create prof nch inRate outRate buf = .ok (some c)) :
    (c.win, c.bits) = profile prof ∧ c.nch = nch ∧ c.frame = frameSize c.win inRate outRate
      ∧ c.frame * nch ≤ buf := by
  unfold create at h
  simp only at h
  by_cases h1 : frameSize (profile prof).1 inRate outRate * nch > 4096 * nch
  · rw [if_pos h1] at h
    cases h
  rw [if_neg h1] at h
  by_cases h2 : frameSize (profile prof).1 inRate outRate * nch > buf
  · rw [if_pos h2] at h
    cases h
  rw [if_neg h2] at h
  simp only [Except.ok.injEq, Option.some.injEq] at h
  subst h
  exact ⟨rfl, rfl, rfl, not_lt.1 h2⟩

theorem scaling_inv (c : Cfg) (inRate outRate : Nat) (mult : ℚ) (r : Scal)
    (h : setScaling c inRate outRate (.num mult) = .ok (some r)) :
    0 < inRate ∧ 0 < outRate ∧ 0 < newScaling inRate outRate mult
      ∧ setScalingTo c (newScaling inRate outRate mult) = .ok (some r) := by
  unfold setScaling at h
  simp only at h
  by_cases h1 : inRate = 0 ∨ outRate = 0
  · rw [if_pos h1] at h
    cases h
  rw [if_neg h1] at h
  by_cases h2 : newScaling inRate outRate mult ≤ 0
  · rw [if_pos h2] at h
    cases h
  rw [if_neg h2] at h
  push Not at h1 h2
  exact ⟨by omega, by omega, h2, h⟩

/-- A frame is long enough for the window unless the output rate is much higher. -/
theorem frame_long (prof inRate outRate W : Nat) (hW : W = (profile prof).1) (h0 : 0 < outRate)
    (hin : inRate ≤ 2 ^ 24) (hout : outRate ≤ 2 ^ 24) (h : 3 * outRate ≤ 4 * inRate) :
    10 * W < 9 * frameSize W inRate outRate := by
  have hw : 16 ≤ W ∧ W ≤ 64 := by
    rcases profile_cases prof with hp | hp | hp <;> rw [hW, hp] <;> omega
  unfold frameSize
  rw [rnd_rate _ hin, rnd_rate _ hout]
  have hoq : (0 : ℚ) < outRate := by exact_mod_cast h0
  have hr : (3 / 4 : ℚ) ≤ (inRate : ℚ) / outRate := by
    rw [le_div_iff₀ hoq]
    have : (3 * outRate : ℚ) ≤ 4 * inRate := by exact_mod_cast h
    linarith
  have h1 : (3 / 4 : ℚ) ≤ rnd 24 ((inRate : ℚ) / outRate) := by
    have := rnd_mono 24 (by norm_num) _ _ hr
    rwa [show rnd 24 (3 / 4) = 3 / 4 by decide +kernel] at this
  have h2 : (9 / 8 : ℚ) ≤ rnd 24 (rnd 24 ((inRate : ℚ) / outRate) * (3 / 2)) := by
    have := rnd_mono 24 (by norm_num) (9 / 8) (rnd 24 ((inRate : ℚ) / outRate) * (3 / 2)) (by linarith)
    rwa [show rnd 24 (9 / 8) = 9 / 8 by decide +kernel] at this
  obtain ⟨y, hy⟩ : ∃ y, y = rnd 24 (rnd 24 ((inRate : ℚ) / outRate) * (3 / 2)) := ⟨_, rfl⟩
  rw [← hy] at h2 ⊢
  have hWq : (16 : ℚ) ≤ W := by exact_mod_cast hw.1
  have h3 := (rnd_bounds ((W : ℚ) * y) (by positivity)).1
  have h4 := Int.le_ceil (rnd 24 ((W : ℚ) * y))
  have h5 : (⌈rnd 24 ((W : ℚ) * y)⌉ : Int) ≤ (⌈rnd 24 ((W : ℚ) * y)⌉.toNat : Int) := Int.self_le_toNat _
  have h6 : ((⌈rnd 24 ((W : ℚ) * y)⌉ : Int) : ℚ) ≤ (⌈rnd 24 ((W : ℚ) * y)⌉.toNat : ℚ) := by
    exact_mod_cast h5
  have h7 : (W : ℚ) * (9 / 8) ≤ W * y := mul_le_mul_of_nonneg_left h2 (by linarith)
  have h8 : (10 * W : ℚ) < 9 * (⌈rnd 24 ((W : ℚ) * y)⌉.toNat : ℚ) := by
    have : (W : ℚ) * (9 / 8) * (1 - 1 / 16777216) ≤ W * y * (1 - 1 / 16777216) :=
      mul_le_mul_of_nonneg_right h7 (by norm_num)
    linarith
  exact_mod_cast h8

theorem setup_good (prof nch inRate outRate buf : Nat) (mult : ℚ) (c : Cfg) (r : Scal) (hn : 0 < nch)
    (hbuf : buf ≤ 2047) (hin : inRate ≤ 2 ^ 24) (hout : outRate ≤ 2 ^ 24)
    (hr : 3 * outRate ≤ 4 * inRate ∨ 1 < newScaling inRate outRate mult)
    (hc : create prof nch inRate outRate buf = .ok (some c))
    (hs : setScaling c inRate outRate (.num mult) = .ok (some r)) : Good c r := by
  obtain ⟨c1, c2, c3, c4⟩ := create_inv _ _ _ _ _ _ hc
  obtain ⟨s1, s2, s3, s4⟩ := scaling_inv _ _ _ _ _ hs
  have hF : c.frame ≤ 2047 := by
    have : c.frame * 1 ≤ c.frame * nch := Nat.mul_le_mul_left _ hn
    omega
  refine accepted_good c prof c1 hF _ ?_ r s4
  rcases hr with hr | hr
  · right
    rw [c3]
    exact frame_long prof inRate outRate c.win (by rw [← c1]) s2 hin hout hr
  · left
    exact hr

/-- **C83.** If the resampler was created with buffers of at most 2047 samples, and `set_scaling` has
accepted a multiplier, and the output rate is at most 4/3 of the input rate or the scaling is
above one, then at every position inside of a frame, except for one, an output sample is made of
all samples of the window around the position and of no others, from left to right, each
with the entry of the table for its distance. No assertion fails, no access is outside of
a frame or of the table, and all loops end. -/
theorem C83_window_partial (prof nch inRate outRate buf : Nat) (mult : ℚ) (c : Cfg) (r : Scal)
    (hbuf : buf ≤ 2047) (hin : inRate ≤ 2 ^ 24) (hout : outRate ≤ 2 ^ 24)
    (hr : 3 * outRate ≤ 4 * inRate ∨ 1 < newScaling inRate outRate mult)
    (hc : create prof nch inRate outRate buf = .ok (some c))
    (hs : setScaling c inRate outRate (.num mult) = .ok (some r))
    (s ch : Nat) (hs1 : s < c.q) (hs2 : s + r.half ≠ c.q) (hch : ch < nch) :
    resample c r s ch = .ok (window c r (c.q + s) ch) := by
  have g := setup_good prof nch inRate outRate buf mult c r (by omega) hbuf hin hout hr hc hs
  have c2 := (create_inv _ _ _ _ _ _ hc).2.1
  rw [g.q] at hs1 hs2 ⊢
  exact resample_spec g s ch (by omega) hs1 hs2

/-- Medium quality, stereo, from 44100 to 48000, with the scaling slightly changed. -/
example : create 1 2 44100 48000 1024 = .ok (some ⟨32, 7, 45, 2⟩)
    ∧ setScaling ⟨32, 7, 45, 2⟩ 44100 48000 (.num (1001 / 1000))
      = .ok (some ⟨37282704, 943718, 964342⟩) := by decide +kernel

/-- High quality, mono, from 48000 to 44100: the window is wider. -/
example : create 2 1 48000 44100 1024 = .ok (some ⟨64, 9, 105, 1⟩)
    ∧ setScaling ⟨64, 9, 105, 1⟩ 48000 44100 (.num 1) = .ok (some ⟨81159632, 867041, 1141307⟩) := by
  decide +kernel

/-- A window: the positions in the table go down and then up. -/
example : ((window ⟨16, 6, 24, 1⟩ ⟨18641352, 943718, 1048576⟩ (24 * one + 12 * one + 1000) 0).map
    fun t => (t.slot, t.idx)).take 5 = [(0, 19), (0, 20), (0, 21), (0, 22), (0, 23)] := by decide +kernel

/-- **C83 fails** at the one position that is left out, where the right end of the window is exactly the
end of the current frame: the sample after the last one of the current frame is used, instead of
the first sample of the next frame. This position is reached: from 48000 to 48000 with a multiplier
above one by 2⁻²⁰, at output sample number 232998 (see C84). -/
theorem C83_edge_fails :
    create 0 1 48000 48000 1024 = .ok (some ⟨16, 6, 24, 1⟩)
    ∧ setScaling ⟨16, 6, 24, 1⟩ 48000 48000 (.num (1 + 1 / 1048576)) = .ok (some ⟨18641370, 943717, 1048577⟩)
    ∧ 6524454 + 18641370 = Cfg.q ⟨16, 6, 24, 1⟩
    ∧ 232998 * 1048577 % Cfg.q ⟨16, 6, 24, 1⟩ = 6524454
    ∧ resample ⟨16, 6, 24, 1⟩ ⟨18641370, 943717, 1048577⟩ 6524454 0 = .error .undef := by
  decide +kernel

/-- **C83 fails** for higher output rates: when the output rate is at least 3/2 of the input rate and the
scaling is not above one, every resampler that can be created and every scaling that is
accepted abort at the first output sample. -/
theorem C83_upsampling_fails (prof nch inRate outRate buf : Nat) (mult : ℚ) (c : Cfg) (r : Scal)
    (hin : inRate ≤ 2 ^ 24) (hout : outRate ≤ 2 ^ 24) (hr : 3 * inRate ≤ 2 * outRate)
    (hm : newScaling inRate outRate mult ≤ 1)
    (hc : create prof nch inRate outRate buf = .ok (some c))
    (hs : setScaling c inRate outRate (.num mult) = .ok (some r)) (ch : Nat) :
    resample c r 0 ch = .error .panic := by
  obtain ⟨c1, c2, c3, c4⟩ := create_inv _ _ _ _ _ _ hc
  obtain ⟨s1, s2, s3, s4⟩ := scaling_inv _ _ _ _ _ hs
  obtain ⟨g1, g2⟩ := accepted_small c prof c1 _ hm r s4
  obtain ⟨_, hw1, hw2, hw3, _, _⟩ := profile_facts c prof c1
  have hF : c.frame ≤ c.win := by
    rw [c3]
    unfold frameSize
    rw [rnd_rate _ hin, rnd_rate _ hout]
    have hoq : (0 : ℚ) < outRate := by exact_mod_cast s2
    have hr' : (inRate : ℚ) / outRate ≤ 2 / 3 := by
      rw [div_le_iff₀ hoq]
      have : (3 * inRate : ℚ) ≤ 2 * outRate := by exact_mod_cast hr
      linarith
    have h1 := rnd_mono 24 (by norm_num) _ _ hr'
    have h2 := rnd_mono 24 (by norm_num) (rnd 24 ((inRate : ℚ) / outRate) * (3 / 2))
      (rnd 24 (2 / 3) * (3 / 2)) (by linarith)
    rw [show rnd 24 (rnd 24 (2 / 3) * (3 / 2)) = 1 by decide +kernel] at h2
    have h3 := rnd_mono 24 (by norm_num)
      ((c.win : ℚ) * rnd 24 (rnd 24 ((inRate : ℚ) / outRate) * (3 / 2))) (c.win : ℚ)
      (mul_le_of_le_one_right (by positivity) h2)
    rw [rnd_rate c.win (by omega)] at h3
    have h4 : ⌈rnd 24 ((c.win : ℚ) * rnd 24 (rnd 24 ((inRate : ℚ) / outRate) * (3 / 2)))⌉ ≤ (c.win : Int) :=
      Int.ceil_le.2 (by exact_mod_cast h3)
    omega
  have hq : c.q = c.frame * one := by
    unfold Cfg.q
    apply Nat.mod_eq_of_lt
    rw [m32_eq]
    exact Nat.mul_lt_mul_of_pos_right (by omega) one_pos
  have hbp : beginPrev c r 0 > c.frame := by
    unfold beginPrev
    have hd : ∃ d, one < d ∧ d ≤ 75 * one ∧ c.frame * one + d = r.half := by
      refine ⟨r.half - c.frame * one, ?_⟩
      rw [g2]
      unfold one
      omega
    obtain ⟨d, d1, d2, d3⟩ := hd
    rw [if_neg (by omega), hq]
    have e : add32 0 (sub32 (c.frame * one) r.half) = m32 - d := by
      unfold add32 sub32 
      rw [← d3, show c.frame * one + m32 - (c.frame * one + d) = m32 - d by omega, Nat.zero_add,
        Nat.mod_mod]
      exact Nat.mod_eq_of_lt (by unfold m32; omega)
    rw [e, toSize_qceil _ (by unfold m32 one at *; omega)]
    have : c.frame + 1 ≤ (m32 - d + (one - 1)) / one := by
      rw [Nat.le_div_iff_mul_le one_pos]
      unfold m32 one at *
      omega
    omega
  unfold resample
  rw [if_neg (by omega), if_pos hbp]

/-- From 48000 to 96000. -/
example : create 0 1 48000 96000 1024 = .ok (some ⟨16, 6, 12, 1⟩)
    ∧ setScaling ⟨16, 6, 12, 1⟩ 48000 96000 (.num 1) = .ok (some ⟨18641352, 943718, 524288⟩)
    ∧ newScaling 48000 96000 1 ≤ 1 := by
  decide +kernel

/-- **C83 fails** for interpolation. The fraction used to interpolate between entries of the table is
computed once for each side of the window, but it is different for each sample, because the step in
the table is not a whole number of entries: at scaling 1 the third sample of the window is weighted
with a fraction that is off by more than half an entry. -/
theorem C83_fraction_fails :
    create 0 1 48000 48000 1024 = .ok (some ⟨16, 6, 24, 1⟩)
    ∧ setScaling ⟨16, 6, 24, 1⟩ 48000 48000 (.num 1) = .ok (some ⟨18641352, 943718, 1048576⟩)
    ∧ ∃ t ∈ window ⟨16, 6, 24, 1⟩ ⟨18641352, 943718, 1048576⟩ (24 * one) 0,
      t.slot = 0 ∧ t.idx = 9 ∧ fractOf ⟨16, 6, 24, 1⟩ t.arg > t.fract + one / 2 := by
  decide +kernel

/-- **C83 fails** before any output: a resampler with a frame larger than a buffer aborts in the
constructor (high quality, stereo, from 44100 to 8000, and buffers of 1024 samples). -/
theorem C83_create_fails : create 2 2 44100 8000 1024 = .error .panic := by decide +kernel

/-- **C83 fails** for a multiplier that is not a number: it passes all checks, and its conversion to
fixed-point is undefined behaviour. -/
theorem C83_nan_fails (c : Cfg) (inRate outRate : Nat) (h1 : 0 < inRate) (h2 : 0 < outRate) :
    setScaling c inRate outRate .nan = .error .undef := by
  unfold setScaling
  rw [if_neg (by omega)]

end Verif.BuiltinResampler
