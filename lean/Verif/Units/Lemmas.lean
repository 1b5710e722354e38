import Verif.Units.Model

namespace Verif.Units

/-- The wrapped difference of two wrapped integers is their true difference when the true
difference fits the signed range. -/
theorem ofInt_sub_toInt {w : Nat} (x y : Int) (hlo : -(2 ^ (w - 1) : Int) ≤ x - y)
    (hhi : x - y < 2 ^ (w - 1)) (hw : 0 < w) :
    (BitVec.ofInt w x - BitVec.ofInt w y).toInt = x - y := by
  have h : BitVec.ofInt w x - BitVec.ofInt w y = BitVec.ofInt w (x - y) := by
    rw [BitVec.sub_eq_add_neg, ← BitVec.ofInt_neg, ← BitVec.ofInt_add, Int.sub_eq_add_neg]
  rw [h, BitVec.toInt_ofInt]
  obtain ⟨k, rfl⟩ : ∃ k, w = k + 1 := ⟨w - 1, by omega⟩
  simp only [Nat.add_sub_cancel] at hlo hhi
  have hp : ((2 ^ (k + 1) : Nat) : Int) = 2 * 2 ^ k := by
    rw [Nat.pow_succ]; push_cast; omega
  unfold Int.bmod
  rw [hp]
  have hpos : (0 : Int) < 2 ^ k := Int.pow_pos (by decide)
  generalize (2 : Int) ^ k = m at *
  have h1 : (2 * m + 1) / 2 = m := by omega
  rw [h1]
  generalize x - y = d at *
  by_cases hd : 0 ≤ d
  · rw [Int.emod_eq_of_lt hd (by omega)]
    simp [hhi]
  · have : d % (2 * m) = d + 2 * m := by
      rw [← Int.add_emod_right, Int.emod_eq_of_lt (by omega) (by omega)]
    rw [this]
    have : ¬ (d + 2 * m < m) := by omega
    simp only [this, if_false]
    omega

/-- At 32 bits the half range is a literal. -/
theorem diff32 (x y : Int) (h : -2147483648 ≤ x - y ∧ x - y < 2147483648) :
    (BitVec.ofInt 32 x - BitVec.ofInt 32 y).toInt = x - y :=
  ofInt_sub_toInt x y (by have := h.1; simpa using this) (by have := h.2; simpa using this) (by decide)

theorem diff16 (x y : Int) (h : -32768 ≤ x - y ∧ x - y < 32768) :
    (BitVec.ofInt 16 x - BitVec.ofInt 16 y).toInt = x - y :=
  ofInt_sub_toInt x y (by have := h.1; simpa using this) (by have := h.2; simpa using this) (by decide)

end Verif.Units
