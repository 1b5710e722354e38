import Verif.Units.Lemmas

/-!
# C01: wrap-around ordering agrees with stream order

`x` and `y` are true (unbounded) positions; `BitVec.ofInt` is what travels on the wire.
-/

namespace Verif.Units

/-- **C01** (timestamps). Within half of the 32-bit range the distance and both
comparisons computed from the wrapped values are those of the true positions. -/
theorem C01_timestamp_order (x y : Int) (hlo : -(2 ^ 31) < x - y) (hhi : x - y < 2 ^ 31) :
    tsDiff (BitVec.ofInt 32 x) (BitVec.ofInt 32 y) = x - y ∧
    (tsLt (BitVec.ofInt 32 x) (BitVec.ofInt 32 y) = true ↔ x < y) ∧
    (tsLe (BitVec.ofInt 32 x) (BitVec.ofInt 32 y) = true ↔ x ≤ y) := by
  have h := diff32 x y (by omega)
  simp only [tsLt, tsLe, tsDiff, h, decide_eq_true_eq, true_and]
  omega

/-- A position 10 samples before the second wrap, and one 20 samples after it. -/
example : tsLt (BitVec.ofInt 32 (2 * 2 ^ 32 - 10)) (BitVec.ofInt 32 (2 * 2 ^ 32 + 20)) = true :=
  (C01_timestamp_order _ _ (by decide) (by decide)).2.1.mpr (by decide)

/-- **C01** (RTP sequence numbers). -/
theorem C01_seqnum_order (x y : Int) (hlo : -(2 ^ 15) < x - y) (hhi : x - y < 2 ^ 15) :
    snDiff (BitVec.ofInt 16 x) (BitVec.ofInt 16 y) = x - y ∧
    (snLt (BitVec.ofInt 16 x) (BitVec.ofInt 16 y) = true ↔ x < y) ∧
    (snLe (BitVec.ofInt 16 x) (BitVec.ofInt 16 y) = true ↔ x ≤ y) := by
  have h := diff16 x y (by omega)
  simp only [snLt, snLe, snDiff, h, decide_eq_true_eq, true_and]
  omega

example : snDiff (BitVec.ofInt 16 (3 * 2 ^ 16 + 5)) (BitVec.ofInt 16 (3 * 2 ^ 16 - 7)) = 12 := by
  have := (C01_seqnum_order (3 * 2 ^ 16 + 5) (3 * 2 ^ 16 - 7) (by decide) (by decide)).1
  simpa using this

/-- **C01** (extended sequence numbers). -/
theorem C01_ext_seqnum_order (x y : Int) (hlo : -(2 ^ 31) < x - y) (hhi : x - y < 2 ^ 31) :
    extDiff (BitVec.ofInt 32 x) (BitVec.ofInt 32 y) = x - y ∧
    (extLt (BitVec.ofInt 32 x) (BitVec.ofInt 32 y) = true ↔ x < y) ∧
    (extLe (BitVec.ofInt 32 x) (BitVec.ofInt 32 y) = true ↔ x ≤ y) := by
  have h := diff32 x y (by omega)
  simp only [extLt, extLe, extDiff, h, decide_eq_true_eq, true_and]
  omega

example : extLe (BitVec.ofInt 32 (2 ^ 32 + 3)) (BitVec.ofInt 32 (2 ^ 32 + 3)) = true :=
  (C01_ext_seqnum_order _ _ (by decide) (by decide)).2.2.mpr (by decide)

/-- **C01** (FEC block numbers). -/
theorem C01_blknum_order (x y : Int) (hlo : -(2 ^ 15) < x - y) (hhi : x - y < 2 ^ 15) :
    blkDiff (BitVec.ofInt 16 x) (BitVec.ofInt 16 y) = x - y ∧
    (blkLt (BitVec.ofInt 16 x) (BitVec.ofInt 16 y) = true ↔ x < y) ∧
    (blkLe (BitVec.ofInt 16 x) (BitVec.ofInt 16 y) = true ↔ x ≤ y) := by
  have h := diff16 x y (by omega)
  simp only [blkLt, blkLe, blkDiff, h, decide_eq_true_eq, true_and]
  omega

example : blkLt (BitVec.ofInt 16 (2 ^ 16 - 1)) (BitVec.ofInt 16 (2 ^ 16)) = true :=
  (C01_blknum_order _ _ (by decide) (by decide)).2.1.mpr (by decide)

/-- The half-range hypothesis of `C01_timestamp_order` is sharp: at a distance of exactly
half the range each position is reported to be before the other one. -/
theorem C01_half_range_ambiguous (x : Int) :
    tsLt (BitVec.ofInt 32 x) (BitVec.ofInt 32 (x + 2 ^ 31)) = true ∧
    tsLt (BitVec.ofInt 32 (x + 2 ^ 31)) (BitVec.ofInt 32 x) = true := by
  have h1 := diff32 x (x + 2 ^ 31) (by omega)
  have h2 : BitVec.ofInt 32 (x + 2 ^ 31) = BitVec.ofInt 32 (x - 2 ^ 31) := by
    apply BitVec.eq_of_toInt_eq
    rw [BitVec.toInt_ofInt, BitVec.toInt_ofInt]
    have : x + 2 ^ 31 = x - 2 ^ 31 + (2 ^ 32 : Nat) := by omega
    rw [this, Int.add_bmod_right]
  have h3 := diff32 (x - 2 ^ 31) x (by omega)
  constructor
  · simp only [tsLt, tsDiff, h1, decide_eq_true_eq]; omega
  · rw [h2]; simp only [tsLt, tsDiff, h3, decide_eq_true_eq]; omega

example : tsLt (BitVec.ofInt 32 7) (BitVec.ofInt 32 (7 + 2 ^ 31)) = true :=
  (C01_half_range_ambiguous 7).1

end Verif.Units
