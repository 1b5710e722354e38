import Verif.BuiltinResampler.Lemmas
import Verif.BuiltinResampler.RunLemmas

/-!
# Built-in resampler: lemmas about scaling
-/

namespace Verif.BuiltinResampler

open Spec Verif.PcmFormat Verif.SampleTime

theorem cutoff_val : cutoff = 15099494 / 16777216 := by decide +kernel

theorem toFix_cutoff : toFix cutoff = .ok 943718 := by decide +kernel

theorem toFix_half0 : toFix (rnd 24 (((16 : Nat) : ℚ) / cutoff)) = .ok 18641352 := by decide +kernel

theorem toFix_half1 : toFix (rnd 24 (((32 : Nat) : ℚ) / cutoff)) = .ok 37282704 := by decide +kernel

theorem toFix_half2 : toFix (rnd 24 (((64 : Nat) : ℚ) / cutoff)) = .ok 74565408 := by decide +kernel

theorem one_cast : ((one : Nat) : ℚ) = 1048576 := by unfold one; norm_num

theorem toFix_val (t : ℚ) (h0 : 0 ≤ t) (n : Nat) (h : toFix t = .ok n) :
    (n : ℚ) ≤ rnd 24 t * 1048576 ∧ rnd 24 t * 1048576 < n + 1 := by
  unfold toFix at h
  have e : rnd 24 (t * (one : Nat)) = rnd 24 t * 1048576 := by
    rw [one_cast, show (1048576 : ℚ) = 2 ^ (20 : Int) by norm_num, rnd_scale]
  have hr := rnd_nonneg 24 t h0
  rw [e] at h
  split_ifs at h with h1
  have hn : ⌊rnd 24 t * 1048576⌋.toNat = n := Except.ok.inj h
  have hf : (n : Int) = ⌊rnd 24 t * 1048576⌋ := by
    rw [← hn]
    exact Int.toNat_of_nonneg (Int.floor_nonneg.2 (by positivity))
  have h2 := Int.floor_le (rnd 24 t * 1048576)
  have h3 := Int.lt_floor_add_one (rnd 24 t * 1048576)
  rw [← hf] at h2 h3
  exact ⟨by exact_mod_cast h2, by exact_mod_cast h3⟩

theorem toFix_ok (t : ℚ) (h : rnd 24 t * 1048576 < 4294967296) : ∃ n, toFix t = .ok n := by
  have e : rnd 24 (t * (one : Nat)) = rnd 24 t * 1048576 := by
    rw [one_cast, show (1048576 : ℚ) = 2 ^ (20 : Int) by norm_num, rnd_scale]
  unfold toFix
  rw [e, if_pos]
  · exact ⟨_, rfl⟩
  · unfold m32
    exact_mod_cast h

theorem rnd_bounds (x : ℚ) (h : 0 ≤ x) :
    x * (1 - 1 / 16777216) ≤ rnd 24 x ∧ rnd 24 x ≤ x * (1 + 1 / 16777216) := by
  obtain ⟨e, g, q⟩ := rnd_rel 24 x
  rw [abs_le] at g
  norm_num at g
  rw [q]
  constructor
  · exact mul_le_mul_of_nonneg_left (by linarith) h
  · exact mul_le_mul_of_nonneg_left (by linarith) h

/-- Windows of profiles. -/
theorem profile_cases (n : Nat) : profile n = (16, 6) ∨ profile n = (32, 7) ∨ profile n = (64, 9) := by
  unfold profile
  split
  · exact Or.inl rfl
  · exact Or.inr (Or.inl rfl)
  · exact Or.inr (Or.inr rfl)

/-- The scaling is bounded by the size of a frame. -/
theorem win_scaling (c : Cfg) (prof : Nat) (hc : (c.win, c.bits) = profile prof) (hF : c.frame ≤ 4096)
    (sc : ℚ) (h : ¬ rnd 24 (c.win * sc) > rnd 24 ((c.frame - 1 : Nat) : ℚ)) :
    c.win * rnd 24 sc ≤ ((c.frame - 1 : Nat) : ℚ) := by
  have e1 : rnd 24 ((c.frame - 1 : Nat) : ℚ) = ((c.frame - 1 : Nat) : ℚ) :=
    rnd_rate _ (by
      have : (4096 : Nat) ≤ 2 ^ 24 := by norm_num
      omega)
  have e2 : rnd 24 (c.win * sc) = c.win * rnd 24 sc := by
    have hw : ∃ k : Int, (c.win : ℚ) = 2 ^ k := by
      rcases profile_cases prof with h | h | h <;> rw [h, Prod.mk.injEq] at hc <;> rw [hc.1]
      · exact ⟨4, by norm_num⟩
      · exact ⟨5, by norm_num⟩
      · exact ⟨6, by norm_num⟩
    obtain ⟨k, hk⟩ := hw
    rw [hk, mul_comm, rnd_scale, mul_comm]
  rw [e1, e2] at h
  exact not_lt.1 h

theorem bind_ok {ε β γ : Type} (x : Except ε β) (f : β → Except ε γ) (z : γ) (h : x.bind f = .ok z) :
    ∃ y, x = .ok y ∧ f y = .ok z := by
  cases x with
  | error e => cases h
  | ok y => exact ⟨y, rfl, h⟩

/-- What an accepted scaling means. -/
theorem accepted_inv (c : Cfg) (sc : ℚ) (r : Scal) (h : setScalingTo c sc = .ok (some r)) :
    ¬ rnd 24 (c.win * sc) > rnd 24 ((c.frame - 1 : Nat) : ℚ) ∧ toFix sc = .ok r.dt
    ∧ ((sc > 1 ∧ toFix (rnd 24 (rnd 24 (c.win / cutoff) * sc)) = .ok r.half
          ∧ toSize (qfloor r.half) + 1 ≤ c.frame ∧ toFix (rnd 24 (cutoff / sc)) = .ok r.step)
      ∨ (sc ≤ 1 ∧ toFix cutoff = .ok r.step ∧ toFix (rnd 24 (c.win / cutoff)) = .ok r.half)) := by
  unfold setScalingTo at h
  by_cases h1 : rnd 24 (c.win * sc) > rnd 24 ((c.frame - 1 : Nat) : ℚ)
  · rw [if_pos h1] at h
    cases h
  rw [if_neg h1] at h
  by_cases h2 : sc > 1
  · rw [if_pos h2] at h
    obtain ⟨half, g1, h⟩ := bind_ok _ _ _ h
    by_cases h3 : toSize (qceil (sub32 c.q half)) > c.frame ∨ toSize (qfloor half) + 1 > c.frame
    · rw [if_pos h3] at h
      cases h
    rw [if_neg h3] at h
    obtain ⟨step, g2, h⟩ := bind_ok _ _ _ h
    obtain ⟨dt, g3, h⟩ := bind_ok _ _ _ h
    simp only [Except.ok.injEq, Option.some.injEq] at h
    subst h
    exact ⟨h1, g3, Or.inl ⟨h2, g1, by push Not at h3; exact h3.2, g2⟩⟩
  · rw [if_neg h2] at h
    obtain ⟨step, g1, h⟩ := bind_ok _ _ _ h
    obtain ⟨half, g2, h⟩ := bind_ok _ _ _ h
    obtain ⟨dt, g3, h⟩ := bind_ok _ _ _ h
    simp only [Except.ok.injEq, Option.some.injEq] at h
    subst h
    exact ⟨h1, g3, Or.inr ⟨not_lt.1 h2, g1, g2⟩⟩

theorem accepted_small (c : Cfg) (prof : Nat) (hc : (c.win, c.bits) = profile prof) (sc : ℚ) (h1 : sc ≤ 1)
    (r : Scal) (h : setScalingTo c sc = .ok (some r)) :
    r.step = 943718 ∧ r.half = c.win * 1165084 + c.win / 2 := by
  obtain ⟨_, _, ⟨g, _⟩ | ⟨_, g1, g2⟩⟩ := accepted_inv c sc r h
  · linarith
  · rw [toFix_cutoff] at g1
    refine ⟨(Except.ok.inj g1).symm, ?_⟩
    rcases profile_cases prof with hp | hp | hp <;> rw [hp, Prod.mk.injEq] at hc <;> rw [hc.1] at g2 ⊢
    · rw [toFix_half0] at g2
      exact (Except.ok.inj g2).symm
    · rw [toFix_half1] at g2
      exact (Except.ok.inj g2).symm
    · rw [toFix_half2] at g2
      exact (Except.ok.inj g2).symm

theorem profile_facts (c : Cfg) (prof : Nat) (hc : (c.win, c.bits) = profile prof) :
    c.bits ≤ 20 ∧ 16 ≤ c.win ∧ c.win ≤ 64 ∧ c.win % 2 = 0 ∧ 2048 ≤ 2 ^ (20 - c.bits)
      ∧ c.win * one + 2 ^ (20 - c.bits) ≤ m32 := by
  rcases profile_cases prof with hp | hp | hp <;> rw [hp, Prod.mk.injEq] at hc <;> rw [hc.1, hc.2] <;>
    decide

/-- An accepted scaling that makes the signal shorter. -/
theorem accepted_large (c : Cfg) (prof : Nat) (hc : (c.win, c.bits) = profile prof)
    (hF : c.frame ≤ 2047) (sc : ℚ) (h1 : 1 < sc) (r : Scal) (h : setScalingTo c sc = .ok (some r)) :
    r.half < c.frame * one ∧ one ≤ r.half ∧ 0 < r.step ∧ Fits c r := by
  obtain ⟨hbits, hw1, hw2, _, hb, _⟩ := profile_facts c prof hc
  obtain ⟨hbig, hdt, ⟨_, g1, g2, g3⟩ | ⟨g, _⟩⟩ := accepted_inv c sc r h
  · have hwin := win_scaling c prof hc (by omega) sc hbig
    have hW1 : (16 : ℚ) ≤ c.win := by exact_mod_cast hw1
    have hW2 : (c.win : ℚ) ≤ 64 := by exact_mod_cast hw2
    have hWc : 0 ≤ (c.win : ℚ) / cutoff := by rw [cutoff_val]; positivity
    obtain ⟨a1, a2⟩ := rnd_bounds ((c.win : ℚ) / cutoff) hWc
    obtain ⟨x, hx⟩ : ∃ x, x = rnd 24 ((c.win : ℚ) / cutoff) := ⟨_, rfl⟩
    rw [← hx] at a1 a2 g1
    have hx0 : 0 ≤ x := by
      rw [hx]
      exact rnd_nonneg 24 _ hWc
    have hxs : 0 ≤ x * sc := mul_nonneg hx0 (by linarith)
    obtain ⟨b1, b2⟩ := rnd_bounds (x * sc) hxs
    have hcs : 0 ≤ cutoff / sc := by
      rw [cutoff_val]
      have : (0 : ℚ) ≤ sc := by linarith
      positivity
    obtain ⟨d1, d2⟩ := rnd_bounds (cutoff / sc) hcs
    obtain ⟨e1, e2⟩ := toFix_val _ (rnd_nonneg 24 _ hxs) _ g1
    obtain ⟨f1, f2⟩ := toFix_val _ (rnd_nonneg 24 _ hcs) _ g3
    rw [rnd_idem (by norm_num)] at e1 e2 f1 f2
    obtain ⟨s1, s2⟩ := rnd_bounds sc (by linarith)
    obtain ⟨hn, hhn⟩ : ∃ y : ℚ, y = (r.half : ℚ) := ⟨_, rfl⟩
    obtain ⟨st, hst⟩ : ∃ y : ℚ, y = (r.step : ℚ) := ⟨_, rfl⟩
    rw [← hhn] at e1 e2
    rw [← hst] at f1 f2
    have hsc0 : (0 : ℚ) < sc := by linarith
    -- the scaling is less than 128
    have hsc : sc < 130 := by
      have hFq : ((c.frame - 1 : Nat) : ℚ) ≤ 2046 := by
        have : c.frame - 1 ≤ 2046 := by omega
        exact_mod_cast this
      have : 16 * rnd 24 sc ≤ 2046 := by
        have h3 := rnd_nonneg 24 sc (by linarith)
        nlinarith
      linarith
    refine ⟨?_, ?_, ?_, ?_⟩
    · rw [toSize_qfloor] at g2
      exact (Nat.div_lt_iff_lt_mul one_pos).1 g2
    · have : (one : ℚ) ≤ (r.half : ℚ) := by
        rw [one_cast, ← hhn]
        have hx16 : 16 ≤ x := by
          rw [cutoff_val] at a1
          have : (c.win : ℚ) / (15099494 / 16777216) = c.win * (16777216 / 15099494) := by
            field_simp
          rw [this] at a1
          linarith
        have hxs16 : 16 ≤ x * sc := by nlinarith
        linarith
      exact_mod_cast this
    · have hlow : cutoff / 130 ≤ cutoff / sc := by
        rw [cutoff_val]
        exact div_le_div_of_nonneg_left (by norm_num) hsc0 (le_of_lt hsc)
      rw [cutoff_val] at hlow d1 f2
      have : (1 : ℚ) < st + 1 := by linarith
      rw [hst] at this
      have h0 : (0 : ℚ) < (r.step : ℚ) := by linarith
      exact_mod_cast h0
    · unfold Fits
      have hmul : hn * st ≤ (c.win : ℚ) * 1099511627776 * (1 + 1 / 4194304) := by
        have h3 : hn ≤ x * sc * (1 + 1 / 16777216) * 1048576 := by linarith
        have h4 : st ≤ cutoff / sc * (1 + 1 / 16777216) * 1048576 := by linarith
        have h5 : (0 : ℚ) ≤ st := by rw [hst]; positivity
        have h6 : hn * st ≤ (x * sc * (1 + 1 / 16777216) * 1048576)
            * (cutoff / sc * (1 + 1 / 16777216) * 1048576) :=
          mul_le_mul h3 h4 h5 (by positivity)
        have h7 : (x * sc * (1 + 1 / 16777216) * 1048576) * (cutoff / sc * (1 + 1 / 16777216) * 1048576)
            = x * cutoff * ((1 + 1 / 16777216) * 1048576 * (1 + 1 / 16777216) * 1048576) := by
          field_simp
        have h8 : x * cutoff ≤ c.win * (1 + 1 / 16777216) := by
          have hc0 : (0 : ℚ) < cutoff := by rw [cutoff_val]; norm_num
          have := mul_le_mul_of_nonneg_right a2 (le_of_lt hc0)
          have e : (c.win : ℚ) / cutoff * (1 + 1 / 16777216) * cutoff = c.win * (1 + 1 / 16777216) := by
            field_simp
          rwa [e] at this
        rw [h7] at h6
        nlinarith
      rw [Nat.div_lt_iff_lt_mul one_pos]
      have hfin : hn * st + 1048575 < ((c.win : ℚ) * 1048576 + 2048) * 1048576 := by nlinarith
      rw [hhn, hst] at hfin
      have hfin2 : ((r.half * r.step + 1048575 : Nat) : ℚ) < (((c.win * 1048576 + 2048) * 1048576 : Nat) : ℚ) := by
        push_cast
        exact hfin
      have hfin3 : r.half * r.step + 1048575 < (c.win * 1048576 + 2048) * 1048576 := by
        exact_mod_cast hfin2
      have : (c.win * 1048576 + 2048) * 1048576 ≤ (c.win * one + 2 ^ (20 - c.bits)) * one := by
        unfold one
        exact Nat.mul_le_mul_right _ (by omega)
      refine lt_of_le_of_lt ?_ (lt_of_lt_of_le hfin3 this)
      exact Nat.add_le_add_left (by unfold one; omega) _
  · linarith

/-- The step between output samples is at most a frame. -/
theorem accepted_dt (c : Cfg) (prof : Nat) (hc : (c.win, c.bits) = profile prof) (hF : c.frame ≤ 4096)
    (sc : ℚ) (h0 : 0 < sc) (r : Scal) (h : setScalingTo c sc = .ok (some r)) :
    r.dt + one ≤ c.frame * one ∨ r.dt = 0 := by
  obtain ⟨hbits, hw1, hw2, _, hb, _⟩ := profile_facts c prof hc
  obtain ⟨hbig, hdt, _⟩ := accepted_inv c sc r h
  have hwin := win_scaling c prof hc hF sc hbig
  obtain ⟨e1, e2⟩ := toFix_val _ (le_of_lt h0) _ hdt
  have hW1 : (16 : ℚ) ≤ c.win := by exact_mod_cast hw1
  have h3 := rnd_nonneg 24 sc (le_of_lt h0)
  have h4 : rnd 24 sc ≤ ((c.frame - 1 : Nat) : ℚ) := by nlinarith
  have h5 : (r.dt : ℚ) ≤ ((c.frame - 1 : Nat) : ℚ) * 1048576 := by linarith
  have h6 : r.dt ≤ (c.frame - 1) * 1048576 := by exact_mod_cast h5
  unfold one
  omega

theorem accepted_good (c : Cfg) (prof : Nat) (hc : (c.win, c.bits) = profile prof)
    (hF : c.frame ≤ 2047) (sc : ℚ) (h10 : 1 < sc ∨ 10 * c.win < 9 * c.frame) (r : Scal)
    (h : setScalingTo c sc = .ok (some r)) : Good c r := by
  obtain ⟨hbits, hw1, hw2, hw3, hb, ht⟩ := profile_facts c prof hc
  by_cases h1 : 1 < sc
  · obtain ⟨g1, g2, g3, g4⟩ := accepted_large c prof hc hF sc h1 r h
    exact ⟨hbits, hF, g1, g2, g3, ht, g4⟩
  · obtain ⟨g1, g2⟩ := accepted_small c prof hc sc (not_lt.1 h1) r h
    have h10' := h10.resolve_left h1
    refine ⟨hbits, hF, ?_, ?_, by omega, ht, ?_⟩
    · rw [g2]
      unfold one
      omega
    · rw [g2]
      unfold one
      omega
    · unfold Fits
      rw [g1, g2]
      rcases profile_cases prof with hp | hp | hp <;> rw [hp, Prod.mk.injEq] at hc <;>
        rw [hc.1, hc.2] <;> decide

end Verif.BuiltinResampler
