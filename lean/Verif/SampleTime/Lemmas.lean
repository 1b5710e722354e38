import Verif.SampleTime.Model
import Verif.PcmFormat.FloatLemmas

/-!
# Conversions between samples and durations: lemmas
-/

namespace Verif.SampleTime

open Verif.PcmFormat

theorem roundEven_mono (x y : ℚ) (h : x ≤ y) : roundEven x ≤ roundEven y := by
  have hf := Int.floor_le_floor h
  have x1 := Int.floor_le x
  have y1 := Int.floor_le y
  have x2 := Int.lt_floor_add_one x
  have y2 := Int.lt_floor_add_one y
  by_cases he : ⌊x⌋ = ⌊y⌋
  · unfold roundEven
    rw [he] at *
    split_ifs <;> first | omega | linarith
  · have : ⌊x⌋ + 1 ≤ ⌊y⌋ := by omega
    unfold roundEven
    split_ifs <;> omega

theorem floor_neg_of (x : ℚ) : (∃ m : Int, x = m) ∨ ⌊-x⌋ = -⌊x⌋ - 1 := by
  by_cases h : x = ⌊x⌋
  · exact Or.inl ⟨_, h⟩
  · right
    rw [Int.floor_eq_iff]
    have h1 := Int.floor_le x
    have h2 := Int.lt_floor_add_one x
    have h3 : (⌊x⌋ : ℚ) < x := lt_of_le_of_ne h1 (Ne.symm h)
    push_cast
    constructor <;> linarith

theorem roundEven_neg (x : ℚ) : roundEven (-x) = -roundEven x := by
  rcases floor_neg_of x with ⟨m, hm⟩ | h
  · rw [hm]
    have : (-(m : ℚ)) = ((-m : Int) : ℚ) := by push_cast; rfl
    rw [this, roundEven_int, roundEven_int]
  · unfold roundEven
    rw [h]
    push_cast
    by_cases h1 : x - ⌊x⌋ < 1 / 2
    · rw [if_pos h1, if_neg (by linarith), if_pos (by linarith)]
      ring
    by_cases h2 : 1 / 2 < x - ⌊x⌋
    · rw [if_neg h1, if_pos h2, if_pos (by linarith)]
      ring
    · rw [if_neg h1, if_neg h2, if_neg (by linarith), if_neg (by linarith)]
      split_ifs <;> omega

theorem rnd_neg (p : Nat) (x : ℚ) : rnd p (-x) = -rnd p x := by
  unfold rnd
  rw [abs_neg, neg_div, roundEven_neg]
  push_cast
  ring

theorem rnd_nonneg (p : Nat) (x : ℚ) (h : 0 ≤ x) : 0 ≤ rnd p x := by
  unfold rnd
  have : (0 : ℚ) < 2 ^ (Int.log 2 |x| - ((p : Int) - 1)) := zpow_pos (by norm_num) _
  have h1 := roundEven_mono 0 (x / 2 ^ (Int.log 2 |x| - ((p : Int) - 1))) (by positivity)
  have h0 : roundEven 0 = 0 := by simpa using roundEven_int 0
  rw [h0] at h1
  have : (0 : ℚ) ≤ (roundEven (x / 2 ^ (Int.log 2 |x| - ((p : Int) - 1))) : ℚ) := by
    exact_mod_cast h1
  positivity

theorem rnd_pow (p : Nat) (hp : 1 ≤ p) (k : Int) : rnd p (2 ^ k) = 2 ^ k := by
  have h1 := rnd_scale p ((1 : Int) : ℚ) k
  have h2 : |(1 : Int)| ≤ 2 ^ p := by
    rw [abs_one]
    exact one_le_pow₀ (by norm_num)
  rw [rnd_int p hp 1 h2] at h1
  simpa using h1

theorem rnd_mono_pos (p : Nat) (hp : 1 ≤ p) (x y : ℚ) (hx : 0 < x) (h : x ≤ y) :
    rnd p x ≤ rnd p y := by
  have hy : 0 < y := by linarith
  have hl : Int.log 2 x ≤ Int.log 2 y := Int.log_mono_right hx h
  -- numbers of the same magnitude
  have same : ∀ a b : ℚ, 0 < a → a ≤ b → Int.log 2 a = Int.log 2 b → rnd p a ≤ rnd p b := by
    intro a b ha hab hlog
    unfold rnd
    rw [abs_of_pos ha, abs_of_pos (by linarith : 0 < b), hlog]
    have hz : (0 : ℚ) < 2 ^ (Int.log 2 b - ((p : Int) - 1)) := zpow_pos (by norm_num) _
    apply mul_le_mul_of_nonneg_right _ hz.le
    exact_mod_cast roundEven_mono _ _ (div_le_div_of_nonneg_right hab hz.le)
  by_cases he : Int.log 2 x = Int.log 2 y
  · exact same x y hx h he
  · -- upper end of the magnitude of `x`
    have h1 : rnd p x ≤ 2 ^ (Int.log 2 x + 1) := by
      unfold rnd
      rw [abs_of_pos hx]
      obtain ⟨e, hee⟩ : ∃ e, e = Int.log 2 x - ((p : Int) - 1) := ⟨_, rfl⟩
      rw [← hee]
      have hz : (0 : ℚ) < 2 ^ e := zpow_pos (by norm_num) _
      have hb : |x / 2 ^ e| ≤ 2 ^ p := by
        rw [abs_of_pos (div_pos hx hz), div_le_iff₀ hz, ← zpow_natCast, ← zpow_add₀ (by norm_num),
          hee]
        have := Int.lt_zpow_succ_log_self (b := 2) (by norm_num) x
        push_cast at this
        rw [show (p : Int) + (Int.log 2 x - ((p : Int) - 1)) = Int.log 2 x + 1 by ring]
        exact this.le
      have hr := (abs_le.1 (roundEven_bound p _ hb)).2
      have hr' : (roundEven (x / 2 ^ e) : ℚ) ≤ 2 ^ p := by exact_mod_cast hr
      calc (roundEven (x / 2 ^ e) : ℚ) * 2 ^ e ≤ 2 ^ p * 2 ^ e :=
            mul_le_mul_of_nonneg_right hr' hz.le
        _ = 2 ^ (Int.log 2 x + 1) := by
            rw [← zpow_natCast, ← zpow_add₀ (by norm_num), hee]
            congr 1
            ring
    have h2 : (2 : ℚ) ^ (Int.log 2 x + 1) ≤ 2 ^ Int.log 2 y :=
      zpow_le_zpow_right₀ (by norm_num) (by omega)
    have h3 := Int.zpow_log_le_self (b := 2) (by norm_num) hy
    push_cast at h3
    have h4 : rnd p (2 ^ Int.log 2 y) ≤ rnd p y := by
      apply same _ _ (zpow_pos (by norm_num) _) h3
      have := Int.log_zpow (R := ℚ) (b := 2) (by norm_num) (Int.log 2 y)
      push_cast at this
      exact this
    rw [rnd_pow p hp] at h4
    linarith

/-- Rounding keeps the order. -/
theorem rnd_mono (p : Nat) (hp : 1 ≤ p) (x y : ℚ) (h : x ≤ y) : rnd p x ≤ rnd p y := by
  rcases lt_trichotomy x 0 with hx | hx | hx
  · rcases lt_or_ge y 0 with hy | hy
    · have := rnd_mono_pos p hp (-y) (-x) (by linarith) (by linarith)
      rw [rnd_neg, rnd_neg] at this
      linarith
    · have h1 := rnd_nonneg p (-x) (by linarith)
      rw [rnd_neg] at h1
      linarith [rnd_nonneg p y hy]
  · rw [hx, rnd_zero]
    exact rnd_nonneg p y (by linarith)
  · exact rnd_mono_pos p hp x y hx h

theorem roundAway_mono (x y : ℚ) (h : x ≤ y) : roundAway x ≤ roundAway y := by
  unfold roundAway
  split_ifs with h1 h2 h2
  · exact Int.floor_le_floor (by linarith)
  · linarith
  · have e1 : ⌈x - 1 / 2⌉ ≤ 0 := Int.ceil_le.2 (by push_cast; linarith)
    have e2 : 0 ≤ ⌊y + 1 / 2⌋ := Int.floor_nonneg.2 (by linarith)
    omega
  · exact Int.ceil_le_ceil (by linarith)

theorem roundAway_err (x : ℚ) : |(roundAway x : ℚ) - x| ≤ 1 / 2 := by
  unfold roundAway
  split_ifs
  · have h1 := Int.floor_le (x + 1 / 2)
    have h2 := Int.lt_floor_add_one (x + 1 / 2)
    rw [abs_le]
    constructor <;> linarith
  · have h1 := Int.le_ceil (x - 1 / 2)
    have h2 := Int.ceil_lt_add_one (x - 1 / 2)
    rw [abs_le]
    constructor <;> linarith

/-- The nearest integer. -/
theorem roundAway_eq (x : ℚ) (n : Int) (h : |x - n| < 1 / 2) : roundAway x = n := by
  have h1 := roundAway_err x
  rw [abs_lt] at h
  rw [abs_le] at h1
  have h2 : |((roundAway x - n : Int) : ℚ)| < 1 := by
    push_cast
    rw [abs_lt]
    constructor <;> linarith
  have h3 : |roundAway x - n| < 1 := by exact_mod_cast h2
  rw [abs_lt] at h3
  omega

theorem rnd_second : rnd 24 ((second : Int) : ℚ) = 1000000000 := by
  have h1 : ((second : Int) : ℚ) = ((1953125 : Int) : ℚ) * 2 ^ (9 : Int) := by norm_num
  rw [h1, rnd_scale, rnd_int 24 (by norm_num) _ (by norm_num)]
  norm_num

end Verif.SampleTime
