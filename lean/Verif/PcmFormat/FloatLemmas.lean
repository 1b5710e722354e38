import Verif.PcmFormat.FloatModel
import Verif.PcmFormat.MapLemmas
import Mathlib.Tactic.FieldSimp
import Mathlib.Tactic.Positivity

/-!
# PCM formats: lemmas on floating point
-/

namespace Verif.PcmFormat

open Spec

theorem roundEven_int (m : Int) : roundEven m = m := by
  unfold roundEven
  simp

theorem roundEven_err (x : ℚ) : |(roundEven x : ℚ) - x| ≤ 1 / 2 := by
  have h1 := Int.floor_le x
  have h2 := Int.lt_floor_add_one x
  unfold roundEven
  split_ifs <;> rw [abs_le] <;> push_cast <;> constructor <;> linarith

theorem rnd_zero (p : Nat) : rnd p 0 = 0 := by
  unfold rnd
  simp [roundEven]

theorem log_scale (x : ℚ) (hx : 0 < x) (k : Int) : Int.log 2 (x * 2 ^ k) = Int.log 2 x + k := by
  have h2 : (0 : ℚ) < 2 ^ k := zpow_pos (by norm_num) k
  apply le_antisymm
  · have h1 : x * 2 ^ k < ((2 : Nat) : ℚ) ^ (Int.log 2 x + k + 1) := by
      have := Int.lt_zpow_succ_log_self (b := 2) (by norm_num) x
      push_cast at this ⊢
      rw [show Int.log 2 x + k + 1 = (Int.log 2 x + 1) + k by ring, zpow_add₀ (by norm_num)]
      exact mul_lt_mul_of_pos_right this h2
    have := (Int.lt_zpow_iff_log_lt (by norm_num) (mul_pos hx h2)).1 h1
    omega
  · rw [← Int.zpow_le_iff_le_log (by norm_num) (mul_pos hx h2)]
    have := Int.zpow_log_le_self (b := 2) (by norm_num) hx
    push_cast at this ⊢
    rw [zpow_add₀ (by norm_num)]
    exact mul_le_mul_of_nonneg_right this h2.le

theorem rnd_scale (p : Nat) (x : ℚ) (k : Int) : rnd p (x * 2 ^ k) = rnd p x * 2 ^ k := by
  by_cases hx : x = 0
  · subst hx
    simp [rnd_zero]
  have h2 : (0 : ℚ) < 2 ^ k := zpow_pos (by norm_num) k
  unfold rnd
  rw [abs_mul, abs_of_pos h2, log_scale _ (abs_pos.2 hx)]
  obtain ⟨e, he⟩ : ∃ e, e = Int.log 2 |x| - ((p : Int) - 1) := ⟨_, rfl⟩
  rw [show Int.log 2 |x| + k - ((p : Int) - 1) = e + k by rw [he]; ring, ← he,
    zpow_add₀ (by norm_num)]
  have : x * 2 ^ k / (2 ^ e * 2 ^ k) = x / 2 ^ e := by
    field_simp
  rw [this]
  ring

/-- Integers of at most `p` bits need no rounding. -/
theorem rnd_int (p : Nat) (hp : 1 ≤ p) (m : Int) (h : |m| ≤ 2 ^ p) : rnd p (m : ℚ) = m := by
  by_cases hm : m = 0
  · subst hm
    simp [rnd_zero]
  have key : ∀ m : Int, m ≠ 0 → |m| < 2 ^ p → rnd p (m : ℚ) = m := by
    intro m hm h
    have hpos : (0 : ℚ) < |(m : ℚ)| := abs_pos.2 (by exact_mod_cast hm)
    have hl : Int.log 2 |(m : ℚ)| < p := by
      rw [← Int.lt_zpow_iff_log_lt (by norm_num) hpos]
      have : ((|m| : Int) : ℚ) < ((2 ^ p : Int) : ℚ) := by exact_mod_cast h
      push_cast at this ⊢
      rw [zpow_natCast]
      exact this
    obtain ⟨k, hk⟩ : ∃ k : Nat, Int.log 2 |(m : ℚ)| - ((p : Int) - 1) = -(k : Int) :=
      ⟨((p : Int) - 1 - Int.log 2 |(m : ℚ)|).toNat, by omega⟩
    unfold rnd
    rw [hk, zpow_neg, zpow_natCast, div_inv_eq_mul]
    have : (m : ℚ) * 2 ^ k = ((m * 2 ^ k : Int) : ℚ) := by push_cast; rfl
    rw [this, roundEven_int]
    push_cast
    field_simp
  by_cases hlt : |m| < 2 ^ p
  · exact key m hm hlt
  · have he : |m| = 2 ^ p := by omega
    have h1 : (1 : Int) < 2 ^ p := by
      calc (1 : Int) < 2 ^ 1 := by norm_num
        _ ≤ 2 ^ p := pow_le_pow_right₀ (by norm_num) hp
    rcases abs_eq (by positivity : (0 : Int) ≤ 2 ^ p) |>.1 he with e | e
    · have : ((m : Int) : ℚ) = ((1 : Int) : ℚ) * 2 ^ (p : Int) := by
        rw [e, zpow_natCast]
        push_cast
        ring
      rw [this, rnd_scale, key 1 (by norm_num) (by simpa using h1)]
    · have : ((m : Int) : ℚ) = ((-1 : Int) : ℚ) * 2 ^ (p : Int) := by
        rw [e, zpow_natCast]
        push_cast
        ring
      rw [this, rnd_scale, key (-1) (by norm_num) (by simpa using h1)]

theorem roundEven_bound (p : Nat) (x : ℚ) (h : |x| ≤ 2 ^ p) : |roundEven x| ≤ 2 ^ p := by
  have h1 := abs_le.1 h
  have h2 := Int.floor_le x
  have h3 := Int.lt_floor_add_one x
  have h4 : -(2 : Int) ^ p ≤ ⌊x⌋ := by
    apply Int.le_floor.2
    push_cast
    exact h1.1
  have h5 : ⌊x⌋ ≤ (2 : Int) ^ p := by
    have : (⌊x⌋ : ℚ) ≤ ((2 ^ p : Int) : ℚ) := by
      push_cast
      linarith
    exact_mod_cast this
  have h6 : ⌊x⌋ = (2 : Int) ^ p → x = 2 ^ p := by
    intro he
    rw [he] at h2
    push_cast at h2
    linarith
  rw [abs_le]
  unfold roundEven
  by_cases he : ⌊x⌋ = (2 : Int) ^ p
  · have hz : x - ⌊x⌋ < 1 / 2 := by
      rw [he, h6 he]
      push_cast
      norm_num
    rw [if_pos hz]
    omega
  · split_ifs <;> omega

/-- A number that is rounded to fewer bits stays. -/
theorem rnd_le {p p' : Nat} (hp : 1 ≤ p) (h : p ≤ p') (x : ℚ) : rnd p' (rnd p x) = rnd p x := by
  by_cases hx : x = 0
  · subst hx
    simp [rnd_zero]
  obtain ⟨e, he⟩ : ∃ e, e = Int.log 2 |x| - ((p : Int) - 1) := ⟨_, rfl⟩
  have h2 : (0 : ℚ) < 2 ^ e := zpow_pos (by norm_num) e
  have e1 : rnd p x = (roundEven (x / 2 ^ e) : ℚ) * 2 ^ e := by
    unfold rnd
    rw [← he]
  have hb : |x / 2 ^ e| ≤ 2 ^ p := by
    rw [abs_div, abs_of_pos h2, div_le_iff₀ h2, ← zpow_natCast, ← zpow_add₀ (by norm_num), he]
    have := Int.lt_zpow_succ_log_self (b := 2) (by norm_num) |x|
    push_cast at this
    rw [show (p : Int) + (Int.log 2 |x| - ((p : Int) - 1)) = Int.log 2 |x| + 1 by ring]
    exact this.le
  have hle : (2 : Int) ^ p ≤ 2 ^ p' := pow_le_pow_right₀ (by norm_num) h
  rw [e1, rnd_scale, rnd_int p' (by omega) _ ((roundEven_bound p _ hb).trans hle)]

/-- A number that is rounded already stays. -/
theorem rnd_idem {p : Nat} (hp : 1 ≤ p) (x : ℚ) : rnd p (rnd p x) = rnd p x := rnd_le hp le_rfl x

theorem rnd_err (p : Nat) (x : ℚ) : |rnd p x - x| ≤ |x| / 2 ^ p := by
  by_cases hx : x = 0
  · subst hx
    simp [rnd_zero]
  have hpos := abs_pos.2 hx
  obtain ⟨e, he⟩ : ∃ e, e = Int.log 2 |x| - ((p : Int) - 1) := ⟨_, rfl⟩
  have h2 : (0 : ℚ) < 2 ^ e := zpow_pos (by norm_num) e
  have h1 : |rnd p x - x| ≤ 1 / 2 * 2 ^ e := by
    unfold rnd
    rw [← he]
    have := roundEven_err (x / 2 ^ e)
    have e1 : (roundEven (x / 2 ^ e) : ℚ) * 2 ^ e - x
        = ((roundEven (x / 2 ^ e) : ℚ) - x / 2 ^ e) * 2 ^ e := by
      field_simp
    rw [e1, abs_mul, abs_of_pos h2]
    exact mul_le_mul_of_nonneg_right this h2.le
  refine h1.trans ?_
  have h3 := Int.zpow_log_le_self (b := 2) (by norm_num) hpos
  push_cast at h3
  have h4 : (1 : ℚ) / 2 * 2 ^ e = 2 ^ Int.log 2 |x| / 2 ^ p := by
    rw [he, zpow_sub₀ (by norm_num), zpow_sub₀ (by norm_num), zpow_natCast]
    field_simp
  rw [h4]
  gcongr

theorem rnd_nat (p n l : Nat) (h1 : 2 ^ l ≤ n) (h2 : n < 2 ^ (l + 1)) :
    rnd p (n : ℚ) = (roundEven ((n : ℚ) / 2 ^ ((l : Int) - (p - 1))) : ℚ)
      * 2 ^ ((l : Int) - (p - 1)) := by
  unfold rnd
  rw [abs_of_nonneg (by positivity), Int.log_natCast, Nat.log_eq_of_pow_le_of_lt_pow h1 h2]

theorem rnd_int64_max : rnd 53 ((2 ^ 63 - 1 : Nat) : ℚ) = 2 ^ 63 := by
  rw [rnd_nat 53 (2 ^ 63 - 1) 62 (by norm_num) (by norm_num)]
  have h1 : ((2 ^ 63 - 1 : Nat) : ℚ) / 2 ^ (((62 : Nat) : Int) - ((53 : Nat) - 1))
      = 9223372036854775807 / 1024 := by norm_num
  have h2 : ⌊(9223372036854775807 / 1024 : ℚ)⌋ = 9007199254740991 := by
    rw [Int.floor_eq_iff]
    norm_num
  rw [h1]
  unfold roundEven
  rw [h2]
  norm_num

theorem rnd_int64_max1 : rnd 53 ((2 ^ 63 + 1 : Nat) : ℚ) = 2 ^ 63 := by
  rw [rnd_nat 53 (2 ^ 63 + 1) 63 (by norm_num) (by norm_num)]
  have h1 : ((2 ^ 63 + 1 : Nat) : ℚ) / 2 ^ (((63 : Nat) : Int) - ((53 : Nat) - 1))
      = 9223372036854775809 / 2048 := by norm_num
  have h2 : ⌊(9223372036854775809 / 2048 : ℚ)⌋ = 4503599627370496 := by
    rw [Int.floor_eq_iff]
    norm_num
  rw [h1]
  unfold roundEven
  rw [h2]
  norm_num

theorem scale_eq (c : Code) (hc : c ∈ codes) : scale c = 2 ^ (c.width - 1) := by
  have hw : c.width ≤ 53 ∨ c.width = 64 := by
    simp only [codes, List.mem_cons, List.not_mem_nil, or_false] at hc
    rcases hc with h | h | h | h | h | h | h | h | h | h | h | h | h | h | h | h | h | h | h | h |
      h | h | h | h <;> subst h <;> decide
  obtain ⟨h1, _, _⟩ := codes_wf c hc
  unfold scale
  rcases hw with hw | hw
  · have hp : (2 : Int) ^ (c.width - 1) ≤ 2 ^ 53 := pow_le_pow_right₀ (by norm_num) (by omega)
    have hp0 : (0 : Int) < 2 ^ (c.width - 1) := by positivity
    rw [rnd_int 53 (by norm_num)]
    · have : ((smax c.width : Int) : ℚ) + 1 = ((2 ^ (c.width - 1) : Int) : ℚ) := by
        unfold smax
        push_cast
        ring
      rw [this, rnd_int 53 (by norm_num)]
      · push_cast
        rfl
      · rw [abs_of_pos hp0]
        exact hp
    · unfold smax
      rw [abs_of_nonneg (by linarith)]
      linarith
  · rw [hw]
    have e1 : ((smax 64 : Int) : ℚ) = ((2 ^ 63 - 1 : Nat) : ℚ) := by
      unfold smax
      norm_num
    rw [e1, rnd_int64_max]
    have e2 : (2 : ℚ) ^ 63 + 1 = ((2 ^ 63 + 1 : Nat) : ℚ) := by norm_num
    rw [e2, rnd_int64_max1]

theorem lvl_range (c : Code) (hc : c ∈ codes) (v : Int) (hv : InRange c v) :
    -2 ^ (c.width - 1) ≤ lvl c v ∧ lvl c v < 2 ^ (c.width - 1) := by
  obtain ⟨h1, _, _⟩ := codes_wf c hc
  have := two_pow_half h1
  unfold InRange at hv
  unfold lvl
  split_ifs at hv ⊢ <;> constructor <;> linarith [hv.1, hv.2]

theorem toFloat_eq (p : Nat) (i : Code) (hi : i ∈ codes) (v : Int) (hv : InRange i v) :
    toFloat p i v = rnd p (rnd 53 (lvl i v : ℚ)) * 2 ^ (-((i.width - 1 : Nat) : Int)) := by
  obtain ⟨h1, h2, h3⟩ := codes_wf i hi
  have hs : (if i.signed then v else toSigned i v) = lvl i v := by
    unfold lvl
    cases hsg : i.signed
    · simp only [Bool.false_eq_true, if_false]
      unfold InRange at hv
      rw [hsg] at hv
      simp only [Bool.false_eq_true, if_false] at hv
      exact toSigned_exact i h1 (by omega) v hv.1 hv.2
    · rfl
  unfold toFloat
  rw [hs, scale_eq i hi]
  have e1 : (1 : ℚ) / 2 ^ (i.width - 1) = ((1 : Int) : ℚ) * 2 ^ (-((i.width - 1 : Nat) : Int)) := by
    rw [zpow_neg, zpow_natCast]
    push_cast
    ring
  rw [e1, rnd_scale, rnd_int 53 (by norm_num) 1 (by norm_num)]
  push_cast
  rw [one_mul, rnd_scale, rnd_scale]
  rw [rnd_idem (by norm_num)]

theorem fromSigned_exact (c : Code) (hc : c ∈ codes) (x : Int) (h1 : -2 ^ (c.width - 1) ≤ x)
    (h2 : x < 2 ^ (c.width - 1)) : fromSigned c x = x + 2 ^ (c.width - 1) := by
  obtain ⟨a1, a2, a3⟩ := codes_wf c hc
  have hp := two_pow_half a1
  have hle : (2 : Int) ^ c.width ≤ 2 ^ c.unpacked := pow_le_pow_right₀ (by norm_num) (by omega)
  unfold fromSigned smax asU
  split_ifs with h
  · rw [Int.emod_eq_of_lt h (by linarith), Int.emod_eq_of_lt (by linarith) (by linarith)]
    ring
  · rw [Int.emod_eq_of_lt (by linarith) (by linarith)]
    ring

end Verif.PcmFormat
