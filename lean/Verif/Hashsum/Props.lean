import Verif.Hashsum.Model
import Mathlib.Data.Nat.Bitwise
import Mathlib.Data.Nat.ModEq
import Mathlib.Tactic.Linarith

/-! # C98: hash functions -/

namespace Verif.Hashsum

theorem xorshift_inj {k x y : Nat} (hk : 0 < k) (h : xorshift k x = xorshift k y) : x = y := by
  unfold xorshift at h
  have h1 : (x ^^^ y) >>> k = x ^^^ y := by
    rw [Nat.shiftRight_xor_distrib]
    have : (x >>> k ^^^ x) ^^^ (y >>> k ^^^ y) = 0 := by rw [h, Nat.xor_self]
    have h2 : (x >>> k ^^^ y >>> k) ^^^ (x ^^^ y) = 0 := by
      rw [← this, Nat.xor_assoc, Nat.xor_assoc]
      congr 1
      rw [← Nat.xor_assoc, ← Nat.xor_assoc, Nat.xor_comm (y >>> k) x]
    exact Nat.xor_eq_zero_iff.1 h2
  rw [Nat.shiftRight_eq_div_pow] at h1
  by_contra hne
  have hpos : 0 < x ^^^ y := by
    rcases Nat.eq_zero_or_pos (x ^^^ y) with h0 | h0
    · exact absurd (Nat.xor_eq_zero_iff.1 h0) hne
    · exact h0
  have := Nat.div_lt_self hpos (Nat.one_lt_two_pow (by omega : k ≠ 0))
  omega

theorem xorshift_lt {k n x : Nat} (h : x < 2 ^ n) : xorshift k x < 2 ^ n := by
  unfold xorshift
  refine Nat.xor_lt_two_pow (lt_of_le_of_lt ?_ h) h
  rw [Nat.shiftRight_eq_div_pow]
  exact Nat.div_le_self _ _

theorem mul_inj {n m i a b : Nat} (hm : m * i % n = 1 % n) (ha : a < n) (hb : b < n) (h : a * m % n = b * m % n) : a = b := by
  have key : ∀ c, c < n → c * m % n * i % n = c := by
    intro c hc
    rw [Nat.mod_mul_mod, Nat.mul_assoc, Nat.mul_mod, hm, ← Nat.mul_mod, Nat.mul_one, Nat.mod_eq_of_lt hc]
  rw [← key a ha, ← key b hb, h]

/-- **C98.** Different 32-bit numbers have different hashes. -/
theorem C98_int32 (wide : Bool) (x y : Nat) (hx : x < 2 ^ 32) (hy : y < 2 ^ 32) (h : hash32 wide x = hash32 wide y) : x = y := by
  have lt32 : ∀ z, z % 4294967296 < 2 ^ 32 := fun z => Nat.mod_lt _ (by decide)
  have mlt : ∀ z, mix32 z < 2 ^ 32 := fun z => xorshift_lt (lt32 _)
  have hm : mix32 x = mix32 y := by
    unfold hash32 at h
    cases wide with
    | false => simpa using h
    | true =>
      simp only [if_true] at h
      have := congrArg (· % 2 ^ 32) h
      simp only [Nat.or_mod_two_pow, Nat.shiftLeft_eq, Nat.mul_mod_left, Nat.zero_or, Nat.mod_eq_of_lt (mlt _)] at this
      exact this
  unfold mix32 at hm
  simp only at hm
  have h1 := xorshift_inj (by decide) hm
  have h2 := mul_inj (i := 1124208931) (by decide) (xorshift_lt (lt32 _)) (xorshift_lt (lt32 _)) h1
  have h3 := xorshift_inj (by decide) h2
  have h4 := mul_inj (i := 493478565) (by decide) (xorshift_lt hx) (xorshift_lt hy) h3
  exact xorshift_inj (by decide) h4

example : hash32 true 1 ≠ hash32 true 2 := by decide +kernel

/-- **C98.** Different 64-bit numbers have different hashes, if the hash has 64 bits. -/
theorem C98_int64 (x y : Nat) (hx : x < 2 ^ 64) (hy : y < 2 ^ 64) (h : hash64 true x = hash64 true y) : x = y := by
  have lt64 : ∀ z, z % 18446744073709551616 < 2 ^ 64 := fun z => Nat.mod_lt _ (by decide)
  unfold hash64 at h
  simp only [if_true] at h
  have h1 := xorshift_inj (by decide) h
  have h2 := mul_inj (i := 3573116690164977347) (by decide) (xorshift_lt (lt64 _)) (xorshift_lt (lt64 _)) h1
  have h3 := xorshift_inj (by decide) h2
  have h4 := mul_inj (i := 10871156337175269513) (by decide) (xorshift_lt hx) (xorshift_lt hy) h3
  exact xorshift_inj (by decide) h4

/-- **C98.** The same for signed numbers. -/
theorem C98_signed (x y : Int) :
    (-2 ^ 31 ≤ x → x < 2 ^ 31 → -2 ^ 31 ≤ y → y < 2 ^ 31 → ∀ wide, hash32s wide x = hash32s wide y → x = y) ∧
    (-2 ^ 63 ≤ x → x < 2 ^ 63 → -2 ^ 63 ≤ y → y < 2 ^ 63 → hash64s true x = hash64s true y → x = y) := by
  constructor
  · intro h1 h2 h3 h4 wide h
    have := C98_int32 wide _ _ (by omega) (by omega) h
    omega
  · intro h1 h2 h3 h4 h
    have := C98_int64 _ _ (by omega) (by omega) h
    omega

example : hash64s true (-1) ≠ hash64s true 1 := by decide +kernel

/-- **C98** (partial: where it is defined). Different 16-bit numbers have different hashes, if their computation
has no undefined behaviour. -/
theorem C98_int16_partial (wide : Bool) (x y v : Nat) (hx : x < 2 ^ 16) (hy : y < 2 ^ 16) (h1 : hash16 wide x = some v) (h2 : hash16 wide y = some v) : x = y := by
  have key : ∀ z, z < 2 ^ 16 → hash16 wide z = some v →
      xorshift 9 (xorshift 7 (xorshift 8 z * 0x88b5 % 65536) * 0xdb2d % 65536) = v % 2 ^ 16 := by
    intro z hz h
    unfold hash16 mix16 mulInt at h
    split_ifs at h with ha
    all_goals simp only [Option.bind_none, Option.bind_some, Option.map_none, reduceCtorEq] at h
    all_goals split_ifs at h with hb
    all_goals simp only [Option.map_none, Option.map_some, reduceCtorEq, Option.some.injEq] at h
    all_goals
      have hl : xorshift 9 (xorshift 7 (xorshift 8 z * 0x88b5 % 65536) * 0xdb2d % 65536) < 2 ^ 16 := xorshift_lt (Nat.mod_lt _ (by decide))
      generalize xorshift 9 (xorshift 7 (xorshift 8 z * 0x88b5 % 65536) * 0xdb2d % 65536) = u at h hl
      rw [← h]
    · rw [Nat.or_mod_two_pow, Nat.or_mod_two_pow, Nat.or_mod_two_pow, Nat.mod_eq_of_lt hl, Nat.shiftLeft_eq, Nat.shiftLeft_eq, Nat.shiftLeft_eq,
        Nat.mul_mod_left, show u * 2 ^ 32 % 2 ^ 16 = 0 by omega, show u * 2 ^ 48 % 2 ^ 16 = 0 by omega]
      simp
    · rw [Nat.or_mod_two_pow, Nat.mod_eq_of_lt hl, Nat.shiftLeft_eq, Nat.mul_mod_left, Nat.zero_or]
  have hm := (key x hx h1).trans (key y hy h2).symm
  have lt16 : ∀ z, z % 65536 < 2 ^ 16 := fun z => Nat.mod_lt _ (by decide)
  have e1 := xorshift_inj (by decide) hm
  have e2 := mul_inj (i := 11429) (by decide) (xorshift_lt (lt16 _)) (xorshift_lt (lt16 _)) e1
  have e3 := xorshift_inj (by decide) e2
  have e4 := mul_inj (i := 9629) (by decide) (xorshift_lt hx) (xorshift_lt hy) e3
  exact xorshift_inj (by decide) e4

example : ∃ v, hash16 true 1 = some v ∧ v ≠ 0 := ⟨_, rfl, by decide +kernel⟩

/-- **C98 fails** (16 bits). The hash of small 16-bit numbers is undefined behaviour, by overflow of `int`. -/
theorem C98_int16_fails : hash16 true 3 = none ∧ hash16 true 5 = none ∧ hash16 true 80 = none ∧ hash16s true (-1) = none := by decide +kernel

theorem step_lt (wide : Bool) (h b : Nat) : step wide h b < range wide := Nat.mod_lt _ (by unfold range; split <;> decide)

theorem step_eq (wide : Bool) (h b : Nat) : step wide h b = (h * 33 + b) % range wide := by
  unfold step
  rw [Nat.shiftLeft_eq, Nat.add_assoc, Nat.mod_add_mod]
  congr 1
  omega

theorem step_inj_left (wide : Bool) {h g b : Nat} (h1 : h < range wide) (h2 : g < range wide) (he : step wide h b = step wide g b) : h = g := by
  rw [step_eq, step_eq] at he
  have he2 : h * 33 % range wide = g * 33 % range wide := Nat.ModEq.add_right_cancel' b he
  cases wide with
  | true => exact mul_inj (i := 1117984489315730401) (by decide) h1 h2 he2
  | false => exact mul_inj (i := 1041204193) (by decide) h1 h2 he2

theorem step_inj_right (wide : Bool) {h a b : Nat} (ha : a < 256) (hb : b < 256) (he : step wide h a = step wide h b) : a = b := by
  rw [step_eq, step_eq] at he
  have he2 : a % range wide = b % range wide := Nat.ModEq.add_left_cancel' (h * 33) he
  have : 256 ≤ range wide := by unfold range; split <;> decide
  rwa [Nat.mod_eq_of_lt (by omega), Nat.mod_eq_of_lt (by omega)] at he2

theorem fold_inj (wide : Bool) (l : List Nat) : ∀ h g, h < range wide → g < range wide → l.foldl (step wide) h = l.foldl (step wide) g → h = g := by
  induction l with
  | nil => intro h g _ _ he; exact he
  | cons b bs ih =>
    intro h g h1 h2 he
    exact step_inj_left wide h1 h2 (ih _ _ (step_lt _ _ _) (step_lt _ _ _) he)

/-- **C98.** If two byte strings differ in one byte only, their hashes differ. -/
theorem C98_one_byte (wide : Bool) (pre post : List Nat) (a b : Nat) (ha : a < 256) (hb : b < 256) (hne : a ≠ b) :
    mem wide (pre ++ a :: post) ≠ mem wide (pre ++ b :: post) := by
  intro h
  unfold mem add at h
  rw [if_pos rfl, List.foldl_append, List.foldl_append, List.foldl_cons, List.foldl_cons] at h
  exact hne (step_inj_right wide ha hb (fold_inj wide post _ _ (step_lt _ _ _) (step_lt _ _ _) h))

example : mem true [1, 2, 3] ≠ mem true [1, 7, 3] := C98_one_byte true [1] [3] 2 7 (by decide) (by decide) (by decide)

/-- **C98** (partial: unless the hash of the first part is zero). A hash may be computed in parts. -/
theorem C98_parts_partial (wide : Bool) (a b : List Nat) (h : mem wide a ≠ 0) : add wide (mem wide a) b = mem wide (a ++ b) := by
  have h1 : add wide (mem wide a) b = b.foldl (step wide) (mem wide a) := by
    generalize mem wide a = g at h
    unfold add
    rw [if_neg h]
  rw [h1]
  unfold mem add
  rw [List.foldl_append]

example : mem true [1, 2, 3] ≠ 0 := by decide +kernel

/-- **C98 fails** (parts). There is a byte string with the hash zero, and what is added after it is hashed as if it was the first
part. -/
theorem C98_parts_fails : mem true [5, 8, 22, 11, 13, 17, 27, 15, 0, 29, 11, 5, 24] = 0 ∧
    add true (mem true [5, 8, 22, 11, 13, 17, 27, 15, 0, 29, 11, 5, 24]) [65] ≠ mem true ([5, 8, 22, 11, 13, 17, 27, 15, 0, 29, 11, 5, 24] ++ [65]) := by decide +kernel

end Verif.Hashsum
