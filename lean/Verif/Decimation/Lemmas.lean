import Verif.Decimation.Spec
import Verif.SampleTime.Lemmas
import Mathlib.Tactic.Linarith

/-!
# Decimation resampler: lemmas on the accumulator
-/

namespace Verif.Decimation

open Verif.PcmFormat Verif.SampleTime

theorem rnd_le_int (x : ℚ) (z : Int) (hz : |z| ≤ 2 ^ 24) (h : x ≤ z) : rnd 24 x ≤ z := by
  have := rnd_mono 24 (by norm_num) x z h
  rwa [rnd_int 24 (by norm_num) z hz] at this

theorem int_le_rnd (x : ℚ) (z : Int) (hz : |z| ≤ 2 ^ 24) (h : (z : ℚ) ≤ x) : (z : ℚ) ≤ rnd 24 x := by
  have := rnd_mono 24 (by norm_num) z x h
  rwa [rnd_int 24 (by norm_num) z hz] at this

theorem rnd_natCast (z : Nat) (hz : z ≤ 2 ^ 24) : rnd 24 (z : ℚ) = z := by
  have := rnd_int 24 (by norm_num) (z : Int) (by rw [abs_of_nonneg (by omega)]; exact_mod_cast hz)
  exact_mod_cast this

/-- The difference of a number and of an integer nearby is exact. -/
theorem rnd_sub_exact (q : ℚ) (z : Nat) (h1 : (z : ℚ) / 2 ≤ rnd 24 q) (h2 : rnd 24 q < 2 ^ 24)
    (hz : 0 < z) : rnd 24 (rnd 24 q - z) = rnd 24 q - z := by
  have hz' : (0 : ℚ) < z := by exact_mod_cast hz
  have hq : 0 < q := by
    by_contra hn
    have := rnd_mono 24 (by norm_num) q 0 (by linarith)
    rw [rnd_zero] at this
    linarith
  have hq2 : q < 2 ^ 24 := by
    by_contra hn
    have := int_le_rnd q (2 ^ 24) (by norm_num) (by push_cast; linarith)
    push_cast at this
    linarith
  obtain ⟨e, he⟩ : ∃ e, e = Int.log 2 |q| - (((24 : Nat) : Int) - 1) := ⟨_, rfl⟩
  have hp : (0 : ℚ) < 2 ^ e := zpow_pos (by norm_num) e
  have e1 : rnd 24 q = (roundEven (q / 2 ^ e) : ℚ) * 2 ^ e := by
    unfold rnd
    rw [← he]
  have hb : |q / 2 ^ e| ≤ 2 ^ 24 := by
    rw [abs_div, abs_of_pos hp, div_le_iff₀ hp, ← zpow_natCast, ← zpow_add₀ (by norm_num), he]
    have := Int.lt_zpow_succ_log_self (b := 2) (by norm_num) |q|
    push_cast at this
    rw [show ((24 : Nat) : Int) + (Int.log 2 |q| - (((24 : Nat) : Int) - 1)) = Int.log 2 |q| + 1 by ring]
    exact this.le
  have hr := roundEven_bound 24 _ hb
  have hlog : Int.log 2 |q| < 24 := by
    rw [abs_of_pos hq]
    refine (Int.lt_zpow_iff_log_lt (by norm_num) hq).1 ?_
    push_cast
    exact_mod_cast hq2
  have he0 : e ≤ 0 := by
    rw [he]
    push_cast
    omega
  obtain ⟨w, hw⟩ : ∃ w : Nat, e = -(w : Int) := ⟨e.natAbs, by omega⟩
  have hww : (2 : ℚ) ^ e * 2 ^ w = 1 := by
    rw [hw, zpow_neg, zpow_natCast]
    exact inv_mul_cancel₀ (by positivity)
  have e2 : rnd 24 q - z = ((roundEven (q / 2 ^ e) - z * 2 ^ w : Int) : ℚ) * 2 ^ e := by
    rw [e1]
    push_cast
    rw [sub_mul]
    congr 1
    rw [mul_assoc, mul_comm ((2 : ℚ) ^ w), hww, mul_one]
  have h3 : |roundEven (q / 2 ^ e) - z * 2 ^ w| ≤ 2 ^ 24 := by
    refine le_trans ?_ hr
    have h4 : |rnd 24 q - z| ≤ |rnd 24 q| := by
      rw [abs_le, abs_of_nonneg (by linarith)]
      constructor <;> linarith
    rw [e2, e1, abs_mul, abs_mul, abs_of_pos hp] at h4
    have := le_of_mul_le_mul_right h4 hp
    exact_mod_cast this
  rw [e2, rnd_scale, rnd_int 24 (by norm_num) _ h3]

/-- What the check of `set_scaling` is worth: a portion of input does not change the difference of
the accumulator and of the number of pending samples by more than `n`. -/
theorem inc_bound (n N : Nat) (m : ℚ) (h0 : 0 < n) (hn : n ≤ 65536) (hN : n ∣ N) (hle : N ≤ 16 * n)
    (hm : multOk n m = true) : (N : ℚ) - n ≤ rnd 24 ((N : ℚ) / m) ∧ rnd 24 ((N : ℚ) / m) ≤ N + n := by
  have hn' : (0 : ℚ) < n := by exact_mod_cast h0
  have hnq : (n : ℚ) ≤ 65536 := by exact_mod_cast hn
  unfold multOk frameSize at hm
  have hm := of_decide_eq_true hm
  have hm1 : 0 < m := by
    by_contra hc
    exact hm (Or.inl (by linarith))
  have hm2 : |rnd 24 (rnd 24 ((16 * n : Nat) / m) - (16 * n : Nat))| ≤ n := by
    by_contra hc
    exact hm (Or.inr (by linarith))
  obtain ⟨q, hq⟩ : ∃ q : ℚ, q = ((16 * n : Nat) : ℚ) / m := ⟨_, rfl⟩
  rw [← hq] at hm2
  have hqe := rnd_err 24 q
  obtain ⟨y, hy⟩ : ∃ y : ℚ, y = rnd 24 q - (16 * n : Nat) := ⟨_, rfl⟩
  rw [← hy] at hm2
  have hye := rnd_err 24 y
  -- a rough bound first
  have hy2 : |y| ≤ 2 * n := by
    have h1 : |y| - |rnd 24 y| ≤ |rnd 24 y - y| := by
      rw [abs_sub_comm]
      exact abs_sub_abs_le_abs_sub _ _
    have h2 : |y| / 2 ^ 24 ≤ |y| / 2 := by
      have := abs_nonneg y
      apply div_le_div_of_nonneg_left this (by norm_num) (by norm_num)
    linarith
  have hy3 := abs_le.1 hy2
  have hc16 : (((16 * n : Nat)) : ℚ) = 16 * n := by push_cast; ring
  have hex : rnd 24 y = y := by
    rw [hy]
    refine rnd_sub_exact q (16 * n) ?_ ?_ (by omega)
    · rw [hc16]
      rw [hc16] at hy
      linarith [hy3.1]
    · rw [hc16] at hy
      have : rnd 24 q ≤ 18 * n := by linarith [hy3.2]
      norm_num
      linarith
  rw [hex] at hm2
  have hm3 := abs_le.1 hm2
  rw [hc16] at hy
  have hr1 : rnd 24 q ≤ 17 * n := by linarith [hm3.2]
  have hr2 : 15 * n ≤ rnd 24 q := by linarith [hm3.1]
  rcases Nat.lt_or_ge N (16 * n) with hlt | hge
  · -- less than the full portion
    have hN15 : N ≤ 15 * n := by
      obtain ⟨k, rfl⟩ := hN
      have : k < 16 := by
        by_contra hc
        have : n * 16 ≤ n * k := Nat.mul_le_mul_left n (by omega)
        omega
      have : n * k ≤ n * 15 := Nat.mul_le_mul_left n (by omega)
      omega
    have hNq : (N : ℚ) ≤ 15 * n := by exact_mod_cast hN15
    have hN0 : (0 : ℚ) ≤ N := Nat.cast_nonneg N
    have hqpos : 0 < q := by
      rw [hq]
      apply div_pos _ hm1
      rw [hc16]
      linarith
    rw [abs_of_pos hqpos] at hqe
    have hqe' := abs_le.1 hqe
    have hq1 : q * (1 - 1 / 2 ^ 24) ≤ 17 * n := by
      have : q / 2 ^ 24 = q * (1 / 2 ^ 24) := by ring
      linarith [hqe'.1]
    have hq2 : 15 * n ≤ q * (1 + 1 / 2 ^ 24) := by
      have : q / 2 ^ 24 = q * (1 / 2 ^ 24) := by ring
      linarith [hqe'.2]
    have hinv : (N : ℚ) / m = N * q / (16 * n) := by
      rw [hq, hc16]
      field_simp
    have hb1 : (N : ℚ) / m ≤ N + n := by
      rw [hinv, div_le_iff₀ (by linarith)]
      have h5 : q ≤ 17 * n + n / 100 := by
        norm_num at hq1
        linarith
      nlinarith
    have hb2 : (N : ℚ) - n ≤ N / m := by
      rw [hinv, le_div_iff₀ (by linarith)]
      have h5 : 15 * n - (n : ℚ) / 100 ≤ q := by
        norm_num at hq2
        linarith
      nlinarith
    constructor
    · have := int_le_rnd ((N : ℚ) / m) ((N : Int) - n) (by rw [abs_le]; constructor <;> push_cast <;> omega)
        (by push_cast; exact hb2)
      push_cast at this
      exact this
    · have := rnd_le_int ((N : ℚ) / m) ((N : Int) + n) (by rw [abs_le]; constructor <;> push_cast <;> omega)
        (by push_cast; exact hb1)
      push_cast at this
      exact this
  · have : N = 16 * n := by omega
    subst this
    rw [← hq, hc16]
    constructor <;> linarith

/-- What holds between the calls. `j` is the number of portions of input taken, less the number
of frames inserted and omitted. -/
structure Inv {S : Type} (n : Nat) (st : St S) (j : Nat) : Prop where
  pos : 0 < n
  le : n ≤ 65536
  mult : multOk n st.mult = true
  buf : n ∣ st.inBuf.length
  at_ : n ∣ st.inPos
  within : st.inPos ≤ st.inBuf.length
  size : st.inBuf.length ≤ 16 * n
  last : st.last.length = n
  hi : st.acc ≤ rem st + 2 * n
  lo : (rem st : ℚ) - 2 * n ≤ st.acc
  c0 : j = 0 → st.acc = rem st
  c1 : j = 1 → (rem st : ℚ) - n ≤ st.acc ∧ st.acc ≤ rem st + n

/-- The accumulator is not far from the number of pending samples. -/
def Tight {S : Type} (n : Nat) (st : St S) : Prop := (rem st : ℚ) - n ≤ st.acc ∧ st.acc ≤ rem st + n

theorem rem_le {S : Type} {n : Nat} {st : St S} {j : Nat} (h : Inv n st j) : rem st ≤ 16 * n := by
  have := h.size
  unfold rem
  omega

theorem rem_dvd {S : Type} {n : Nat} {st : St S} {j : Nat} (h : Inv n st j) : n ∣ rem st :=
  Nat.dvd_sub h.buf h.at_

/-- Error of one operation. -/
def eps (n : Nat) : ℚ := 20 * n / 2 ^ 24

theorem op_err (n : Nat) (x : ℚ) (h : |x| ≤ 20 * n) : |rnd 24 x - x| ≤ eps n := by
  refine (rnd_err 24 x).trans ?_
  unfold eps
  exact div_le_div_of_nonneg_right h (by norm_num)

theorem take_empty_inv {S : Type} {n : Nat} {st : St S} {j : Nat} (h : Inv n st j) (hr : rem st = 0)
    (ht : Tight n st) : Inv n (take st []) j ∧ Tight n (take st []) ∧ |(take st []).acc - st.acc| ≤ eps n := by
  obtain ⟨t1, t2⟩ := ht
  have hn : (0 : ℚ) < n := by exact_mod_cast h.pos
  have hn2 := h.le
  rw [hr] at t1 t2
  push_cast at t1 t2
  have hacc : (take st []).acc = rnd 24 st.acc := by
    simp [take, rnd_zero]
  have e1 : (take st []).acc ≤ n := by
    rw [hacc]
    have := rnd_le_int st.acc (n : Int) (by rw [abs_le]; constructor <;> omega) (by push_cast; linarith)
    exact_mod_cast this
  have e2 : -(n : ℚ) ≤ (take st []).acc := by
    rw [hacc]
    have := int_le_rnd st.acc (-(n : Int)) (by rw [abs_le]; constructor <;> omega) (by push_cast; linarith)
    push_cast at this
    exact this
  have hrem : rem (take st []) = 0 := rfl
  refine ⟨⟨h.pos, h.le, h.mult, ?_, ?_, ?_, ?_, h.last, ?_, ?_, ?_, ?_⟩, ⟨?_, ?_⟩, ?_⟩
  · exact Nat.dvd_zero n
  · exact Nat.dvd_zero n
  · exact Nat.le_refl _
  · exact Nat.zero_le _
  · rw [hrem]; push_cast; linarith
  · rw [hrem]; push_cast; linarith
  · intro hj
    rw [hrem, hacc, h.c0 hj, hr]
    simp [rnd_zero]
  · intro _
    rw [hrem]; push_cast
    constructor <;> linarith
  · rw [hrem]; push_cast; linarith
  · rw [hrem]; push_cast; linarith
  · rw [hacc]
    apply op_err
    rw [abs_le]
    constructor <;> linarith

theorem take_inv {S : Type} {n : Nat} {st : St S} {j : Nat} (h : Inv n st j) (hr : rem st = 0)
    (ht : Tight n st) (d : List S) (hd : n ∣ d.length) (hd2 : d.length ≤ 16 * n) :
    Inv n (take st d) (j + 1) ∧ |(take st d).acc - st.acc - d.length / st.mult| ≤ 2 * eps n := by
  obtain ⟨t1, t2⟩ := ht
  have hn : (0 : ℚ) < n := by exact_mod_cast h.pos
  have hn2 := h.le
  rw [hr] at t1 t2
  push_cast at t1 t2
  obtain ⟨i1, i2⟩ := inc_bound n d.length st.mult h.pos h.le hd hd2 h.mult
  have hd3 : (d.length : ℚ) ≤ 16 * n := by exact_mod_cast hd2
  have hd0 : (0 : ℚ) ≤ d.length := Nat.cast_nonneg _
  obtain ⟨i, hi⟩ : ∃ i, i = rnd 24 ((d.length : ℚ) / st.mult) := ⟨_, rfl⟩
  rw [← hi] at i1 i2
  have hacc : (take st d).acc = rnd 24 (st.acc + i) := by rw [hi]; rfl
  have hrem : rem (take st d) = d.length := rfl
  have e1 : (take st d).acc ≤ d.length + 2 * n := by
    rw [hacc]
    have := rnd_le_int (st.acc + i) ((d.length : Int) + 2 * n) (by rw [abs_le]; constructor <;> omega)
      (by push_cast; linarith)
    push_cast at this
    exact this
  have e2 : (d.length : ℚ) - 2 * n ≤ (take st d).acc := by
    rw [hacc]
    have := int_le_rnd (st.acc + i) ((d.length : Int) - 2 * n) (by rw [abs_le]; constructor <;> omega)
      (by push_cast; linarith)
    push_cast at this
    exact this
  refine ⟨⟨h.pos, h.le, h.mult, hd, ?_, ?_, hd2, h.last, ?_, ?_, ?_, ?_⟩, ?_⟩
  · exact Nat.dvd_zero n
  · exact Nat.zero_le _
  · rw [hrem]; exact e1
  · rw [hrem]; exact e2
  · intro hj
    omega
  · intro hj
    have hj0 : j = 0 := by omega
    have ha := h.c0 hj0
    rw [hr] at ha
    push_cast at ha
    rw [hrem, hacc, ha]
    constructor
    · have := int_le_rnd (0 + i) ((d.length : Int) - n) (by rw [abs_le]; constructor <;> omega)
        (by push_cast; linarith)
      push_cast at this
      exact this
    · have := rnd_le_int (0 + i) ((d.length : Int) + n) (by rw [abs_le]; constructor <;> omega)
        (by push_cast; linarith)
      push_cast at this
      exact this
  · have h1 : |rnd 24 (st.acc + i) - (st.acc + i)| ≤ eps n := by
      apply op_err
      rw [abs_le]
      constructor <;> linarith
    have hq : |(d.length : ℚ) / st.mult| ≤ 20 * n := by
      have hre := rnd_err 24 ((d.length : ℚ) / st.mult)
      rw [← hi] at hre
      have h3 : |(d.length : ℚ) / st.mult| - |i| ≤ |i - (d.length : ℚ) / st.mult| := by
        rw [abs_sub_comm]
        exact abs_sub_abs_le_abs_sub _ _
      have h4 : |i| ≤ 17 * n := by
        rw [abs_le]
        constructor <;> linarith
      have h5 : |(d.length : ℚ) / st.mult| / 2 ^ 24 ≤ |(d.length : ℚ) / st.mult| / 100 := by
        apply div_le_div_of_nonneg_left (abs_nonneg _) (by norm_num) (by norm_num)
      linarith
    have h2 : |i - d.length / st.mult| ≤ eps n := by
      rw [hi]
      exact op_err n _ hq
    rw [hacc]
    have : rnd 24 (st.acc + i) - st.acc - d.length / st.mult
        = (rnd 24 (st.acc + i) - (st.acc + i)) + (i - d.length / st.mult) := by ring
    rw [this]
    refine (abs_add_le _ _).trans ?_
    linarith

end Verif.Decimation
