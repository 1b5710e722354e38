import Verif.PcmFormat.FloatLemmas

/-!
# PCM formats: property C76

Conversions between integer codes and floating point, for one sample. `lvl c v` is the signed
level of the value `v` (`v`, or `v - 2^(w-1)` for unsigned codes); `InRange c v` says that `v`
is a value of the code. Full scale is 1: a level of `w` bits stands for `level / 2^(w-1)`.
-/

namespace Verif.PcmFormat

open Spec

/-- Level for an exact sample `q`, if it is in `[-1, 1)`. -/
theorem fromFloat_num (o : Code) (ho : o ∈ codes) (q : ℚ) (hq : rnd 53 q = q) :
    ∃ r, fromFloat o (.num q) = some r ∧ InRange o r ∧
      (q < -1 → lvl o r = -2 ^ (o.width - 1)) ∧
      (1 ≤ q → lvl o r = 2 ^ (o.width - 1) - 1) ∧
      (-1 ≤ q → q < 1 → lvl o r = trunc (q * 2 ^ (o.width - 1))) := by
  obtain ⟨b1, _, _⟩ := codes_wf o ho
  have hd : rnd 53 (q * scale o) = q * 2 ^ (o.width - 1) := by
    rw [scale_eq o ho]
    have := rnd_scale 53 q ((o.width - 1 : Nat) : Int)
    rw [zpow_natCast, hq] at this
    exact this
  have hM : (0 : ℚ) < 2 ^ (o.width - 1) := by positivity
  have hMi : (0 : Int) < 2 ^ (o.width - 1) := by positivity
  have hmin : ((-smax o.width - 1 : Int) : ℚ) = -2 ^ (o.width - 1) := by
    unfold smax
    push_cast
    ring
  have fin : ∀ s : Int, -2 ^ (o.width - 1) ≤ s → s < 2 ^ (o.width - 1) →
      InRange o (if o.signed then s else fromSigned o s) ∧
      lvl o (if o.signed then s else fromSigned o s) = s := by
    intro s h1 h2
    have hp := two_pow_half b1
    unfold InRange lvl
    cases o.signed
    · simp only [Bool.false_eq_true, if_false]
      rw [fromSigned_exact o ho s h1 h2]
      exact ⟨⟨by linarith, by linarith⟩, by ring⟩
    · simp only [if_true]
      exact ⟨⟨h1, h2⟩, trivial⟩
  unfold fromFloat fromFloatSigned
  simp only [hd]
  rw [scale_eq o ho, hmin]
  by_cases h1 : q < -1
  · rw [if_pos (by nlinarith)]
    obtain ⟨f1, f2⟩ := fin (-smax o.width - 1) (by unfold smax; linarith) (by unfold smax; linarith)
    refine ⟨_, rfl, f1, fun _ => ?_, fun h => by linarith, fun h => by linarith⟩
    rw [f2]
    unfold smax
    ring
  · rw [if_neg (by push Not; nlinarith)]
    by_cases h2 : 1 ≤ q
    · rw [if_pos (by nlinarith)]
      obtain ⟨f1, f2⟩ := fin (smax o.width) (by unfold smax; linarith) (by unfold smax; linarith)
      refine ⟨_, rfl, f1, fun h => by linarith, fun _ => ?_, fun _ h => by linarith⟩
      rw [f2]
      rfl
    · push Not at h1 h2
      rw [if_neg (by push Not; nlinarith)]
      have g1 : -(2 : ℚ) ^ (o.width - 1) ≤ q * 2 ^ (o.width - 1) := by nlinarith
      have g2 : q * 2 ^ (o.width - 1) < 2 ^ (o.width - 1) := by nlinarith
      have t1 : -(2 : Int) ^ (o.width - 1) ≤ trunc (q * 2 ^ (o.width - 1)) := by
        unfold trunc
        split_ifs with h0
        · exact le_trans (by linarith) (Int.floor_nonneg.2 h0)
        · have : ((-(2 : Int) ^ (o.width - 1) : Int) : ℚ) ≤ (⌈q * 2 ^ (o.width - 1)⌉ : ℚ) := by
            push_cast
            exact g1.trans (Int.le_ceil _)
          exact_mod_cast this
      have t2 : trunc (q * 2 ^ (o.width - 1)) < (2 : Int) ^ (o.width - 1) := by
        unfold trunc
        split_ifs with h0
        · rw [Int.floor_lt]
          push_cast
          exact g2
        · have : ⌈q * 2 ^ (o.width - 1)⌉ ≤ 0 := Int.ceil_le.2 (by push_cast; linarith)
          linarith
      obtain ⟨f1, f2⟩ := fin _ t1 t2
      exact ⟨_, rfl, f1, fun h => by linarith, fun h => by linarith, fun _ _ => f2⟩

/-- An integer of at most 24 bits (53 for `Float64`), converted to floating point and then to
an integer code with at least as many bits, has the same level as before, scaled up. -/
theorem C76_exact (p : Nat) (hp : p = 24 ∨ p = 53) (i o : Code) (hi : i ∈ codes) (ho : o ∈ codes)
    (hip : i.width ≤ p) (hio : i.width ≤ o.width) (v : Int) (hv : InRange i v) :
    ∃ r, fromFloat o (.num (toFloat p i v)) = some r ∧ InRange o r ∧
      lvl o r = lvl i v * 2 ^ (o.width - i.width) := by
  obtain ⟨a1, _, _⟩ := codes_wf i hi
  obtain ⟨l1, l2⟩ := lvl_range i hi v hv
  have hpow : (2 : Int) ^ (i.width - 1) ≤ 2 ^ p := pow_le_pow_right₀ (by norm_num) (by omega)
  have habs : |lvl i v| ≤ 2 ^ p := by
    rw [abs_le]
    constructor <;> linarith
  have h53 : (2 : Int) ^ p ≤ 2 ^ 53 := pow_le_pow_right₀ (by norm_num) (by omega)
  have hf := toFloat_eq p i hi v hv
  have r1 : rnd 53 (lvl i v : ℚ) = lvl i v := rnd_int 53 (by norm_num) _ (habs.trans h53)
  rw [r1, rnd_int p (by omega) _ habs] at hf
  have hrep : rnd 53 (toFloat p i v) = toFloat p i v := by
    rw [hf, rnd_scale, r1]
  obtain ⟨r, g1, g2, _, _, g3⟩ := fromFloat_num o ho _ hrep
  have hW : (0 : ℚ) < 2 ^ (i.width - 1) := by positivity
  have hq : toFloat p i v = (lvl i v : ℚ) / 2 ^ (i.width - 1) := by
    rw [hf, zpow_neg, zpow_natCast]
    rfl
  have l1' : -(2 : ℚ) ^ (i.width - 1) ≤ (lvl i v : ℚ) := by exact_mod_cast l1
  have l2' : (lvl i v : ℚ) < (2 : ℚ) ^ (i.width - 1) := by exact_mod_cast l2
  refine ⟨r, g1, g2, ?_⟩
  rw [g3]
  · have e1 : toFloat p i v * 2 ^ (o.width - 1) = ((lvl i v * 2 ^ (o.width - i.width) : Int) : ℚ) := by
      rw [hq, show o.width - 1 = (i.width - 1) + (o.width - i.width) by omega, pow_add]
      push_cast
      field_simp
    rw [e1]
    unfold trunc
    split_ifs
    · exact Int.floor_intCast _
    · exact Int.ceil_intCast _
  · rw [hq, le_div_iff₀ hW]
    linarith
  · rw [hq, div_lt_one hW]
    exact l2'

/-- In particular a sample of at most 24 bits survives the conversion to `float`, in which the
library processes sound, and back. -/
theorem C76_roundtrip (p : Nat) (hp : p = 24 ∨ p = 53) (i : Code) (hi : i ∈ codes)
    (hip : i.width ≤ p) (v : Int) (hv : InRange i v) :
    fromFloat i (.num (toFloat p i v)) = some v := by
  obtain ⟨r, h1, h2, h3⟩ := C76_exact p hp i i hi hi hip le_rfl v hv
  rw [h1]
  rw [Nat.sub_self, pow_zero, mul_one] at h3
  unfold lvl at h3
  congr 1
  split_ifs at h3 <;> linarith

/-- The codes with at most 24 bits are 20 of the 24 codes; -32768 is a value of the 16-bit
code, 2^24 - 1 of the unsigned 24-bit code. -/
example : (codes.filter fun c => c.width ≤ 24).length = 20 ∧
    InRange ⟨true, 16, 16, 16⟩ (-32768) ∧ InRange ⟨false, 24, 24, 32⟩ 16777215 := by
  refine ⟨by decide, ?_, ?_⟩ <;> unfold InRange <;> norm_num

/-- A finite sample: louder than full scale is clipped, with the sign kept; otherwise the level
is nearer than one step, towards silence. -/
theorem C76_error (o : Code) (ho : o ∈ codes) (q : ℚ) (hq : rnd 53 q = q) :
    ∃ r, fromFloat o (.num q) = some r ∧ InRange o r ∧
      (q < -1 → lvl o r = -2 ^ (o.width - 1)) ∧
      (1 ≤ q → lvl o r = 2 ^ (o.width - 1) - 1) ∧
      (-1 ≤ q → q < 1 → |q * 2 ^ (o.width - 1) - lvl o r| < 1 ∧
        |(lvl o r : ℚ)| ≤ |q * 2 ^ (o.width - 1)|) := by
  obtain ⟨r, h1, h2, h3, h4, h5⟩ := fromFloat_num o ho q hq
  refine ⟨r, h1, h2, h3, h4, ?_⟩
  intro g1 g2
  rw [h5 g1 g2]
  obtain ⟨d, hd⟩ : ∃ d, d = q * 2 ^ (o.width - 1) := ⟨_, rfl⟩
  rw [← hd]
  unfold trunc
  split_ifs with h0
  · have f1 := Int.floor_le d
    have f2 := Int.lt_floor_add_one d
    have f3 : (0 : ℚ) ≤ ⌊d⌋ := by exact_mod_cast Int.floor_nonneg.2 h0
    rw [abs_of_nonneg (by linarith), abs_of_nonneg f3, abs_of_nonneg h0]
    exact ⟨by linarith, f1⟩
  · push Not at h0
    have f1 := Int.le_ceil d
    have f2 := Int.ceil_lt_add_one d
    have f3 : (⌈d⌉ : ℚ) ≤ 0 := by exact_mod_cast Int.ceil_le.2 (by push_cast; linarith)
    rw [abs_of_nonpos (by linarith), abs_of_nonpos f3, abs_of_nonpos h0.le]
    exact ⟨by linarith, by linarith⟩

/-- Half of full scale is such a sample. -/
example : rnd 53 (1 / 2) = 1 / 2 := by
  have := rnd_scale 53 ((1 : Int) : ℚ) (-1)
  rw [rnd_int 53 (by norm_num) 1 (by norm_num)] at this
  norm_num at this ⊢
  exact this

/-- Infinities are clipped. -/
theorem C76_infinite (o : Code) (ho : o ∈ codes) (neg : Bool) :
    ∃ r, fromFloat o (.inf neg) = some r ∧ InRange o r ∧
      lvl o r = if neg then -2 ^ (o.width - 1) else 2 ^ (o.width - 1) - 1 := by
  obtain ⟨b1, _, _⟩ := codes_wf o ho
  have hMi : (0 : Int) < 2 ^ (o.width - 1) := by positivity
  have hp := two_pow_half b1
  unfold fromFloat fromFloatSigned
  refine ⟨_, rfl, ?_, ?_⟩
  · unfold InRange smax
    cases neg <;> cases o.signed <;> simp only [Bool.false_eq_true, if_false, if_true]
    · rw [fromSigned_exact o ho _ (by linarith) (by linarith)]
      constructor <;> linarith
    · constructor <;> linarith
    · rw [fromSigned_exact o ho _ (by linarith) (by linarith)]
      constructor <;> linarith
    · constructor <;> linarith
  · unfold lvl smax
    cases neg <;> cases o.signed <;> simp only [Bool.false_eq_true, if_false, if_true]
    · rw [fromSigned_exact o ho _ (by linarith) (by linarith)]
      ring
    · rw [fromSigned_exact o ho _ (by linarith) (by linarith)]
      ring
    · ring

theorem trunc_mono (a b : ℚ) (h : a ≤ b) : trunc a ≤ trunc b := by
  unfold trunc
  split_ifs with h1 h2 h2
  · exact Int.floor_le_floor h
  · linarith
  · exact le_trans (Int.ceil_le.2 (by push_cast; linarith)) (Int.floor_nonneg.2 h2)
  · exact Int.ceil_le_ceil h

/-- The order of samples is kept. -/
theorem C76_monotone (o : Code) (ho : o ∈ codes) (q q' : ℚ) (hq : rnd 53 q = q)
    (hq' : rnd 53 q' = q') (h : q ≤ q') :
    ∃ r r', fromFloat o (.num q) = some r ∧ fromFloat o (.num q') = some r' ∧
      lvl o r ≤ lvl o r' := by
  obtain ⟨r, h1, h2, h3, h4, h5⟩ := fromFloat_num o ho q hq
  obtain ⟨r', g1, g2, g3, g4, g5⟩ := fromFloat_num o ho q' hq'
  obtain ⟨u1, u2⟩ := lvl_range o ho r h2
  obtain ⟨w1, w2⟩ := lvl_range o ho r' g2
  refine ⟨r, r', h1, g1, ?_⟩
  by_cases c1 : q < -1
  · rw [h3 c1]
    exact w1
  by_cases c2 : 1 ≤ q'
  · rw [g4 c2]
    linarith
  push Not at c1 c2
  rw [h5 c1 (by linarith), g5 (by linarith) c2]
  apply trunc_mono
  have : (0 : ℚ) < 2 ^ (o.width - 1) := by positivity
  exact mul_le_mul_of_nonneg_right h this.le

/-- An integer with more bits than the floating-point type has (but at most 53) comes back
with an error of no more than its level divided by 2^`p`, plus one step. -/
theorem C76_wide (p : Nat) (hp : p = 24 ∨ p = 53) (i : Code) (hi : i ∈ codes)
    (hw : i.width ≤ 53) (v : Int) (hv : InRange i v) :
    ∃ r, fromFloat i (.num (toFloat p i v)) = some r ∧ InRange i r ∧
      |(lvl i r : ℚ) - lvl i v| < |(lvl i v : ℚ)| / 2 ^ p + 1 := by
  obtain ⟨a1, _, _⟩ := codes_wf i hi
  obtain ⟨l1, l2⟩ := lvl_range i hi v hv
  have hpow : (2 : Int) ^ (i.width - 1) ≤ 2 ^ 53 := pow_le_pow_right₀ (by norm_num) (by omega)
  have habs : |lvl i v| ≤ 2 ^ 53 := by
    rw [abs_le]
    constructor <;> linarith
  have hf := toFloat_eq p i hi v hv
  rw [rnd_int 53 (by norm_num) _ habs] at hf
  have hidem : rnd 53 (rnd p (lvl i v : ℚ)) = rnd p (lvl i v : ℚ) := by
    rcases hp with e | e
    · subst e
      exact rnd_le (by norm_num) (by norm_num) _
    · subst e
      exact rnd_idem (by norm_num) _
  have hrep : rnd 53 (toFloat p i v) = toFloat p i v := by
    rw [hf, rnd_scale, hidem]
  obtain ⟨r, g1, g2, g3, g4, g5⟩ := C76_error i hi _ hrep
  have hW : (0 : ℚ) < 2 ^ (i.width - 1) := by positivity
  have hq : toFloat p i v = rnd p (lvl i v : ℚ) / 2 ^ (i.width - 1) := by
    rw [hf, zpow_neg, zpow_natCast]
    rfl
  have hmul : toFloat p i v * 2 ^ (i.width - 1) = rnd p (lvl i v : ℚ) := by
    rw [hq]
    field_simp
  have l1' : -(2 : ℚ) ^ (i.width - 1) ≤ (lvl i v : ℚ) := by exact_mod_cast l1
  have l2' : (lvl i v : ℚ) < (2 : ℚ) ^ (i.width - 1) := by exact_mod_cast l2
  have herr := abs_le.1 (rnd_err p (lvl i v : ℚ))
  refine ⟨r, g1, g2, ?_⟩
  have l2'' : (lvl i v : ℚ) ≤ (2 : ℚ) ^ (i.width - 1) - 1 := by
    have : lvl i v ≤ 2 ^ (i.width - 1) - 1 := by omega
    exact_mod_cast this
  by_cases c1 : toFloat p i v < -1
  · have e := g3 c1
    have e' : (lvl i r : ℚ) = -2 ^ (i.width - 1) := by exact_mod_cast e
    rw [hq, div_lt_iff₀ hW] at c1
    rw [e', abs_lt]
    constructor <;> linarith
  by_cases c2 : 1 ≤ toFloat p i v
  · have e := g4 c2
    have e' : (lvl i r : ℚ) = 2 ^ (i.width - 1) - 1 := by exact_mod_cast e
    rw [hq, le_div_iff₀ hW] at c2
    rw [e', abs_lt]
    constructor <;> linarith
  · push Not at c1 c2
    obtain ⟨k, _⟩ := g5 c1 c2
    rw [hmul] at k
    have k' := abs_lt.1 k
    rw [abs_lt]
    constructor <;> linarith

/-- A sample that is not a number is not silenced: both comparisons with the bounds are
false, and its conversion to an integer is undefined behaviour, for every integer format.
This is the only such sample. -/
theorem C76_nan_fails (o : Code) (x : Flt) : fromFloat o x = none ↔ x = .nan := by
  unfold fromFloat fromFloatSigned
  cases x with
  | nan => simp
  | inf neg => simp
  | num q =>
    simp only [Option.map_eq_none_iff, reduceCtorEq, iff_false]
    split_ifs <;> simp

end Verif.PcmFormat
