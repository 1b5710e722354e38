import Mathlib.Data.Int.CardIntervalMod
import Mathlib.Data.Set.Card
import Mathlib.Tactic.IntervalCases
import Verif.Uuid.Model

/-!
# Random numbers and UUIDs: properties (C133)
-/

namespace Verif.Uuid

theorem xor16_inv (x : BitVec 32) : (x ^^^ x >>> 16) ^^^ (x ^^^ x >>> 16) >>> 16 = x := by
  apply BitVec.eq_of_getLsbD_eq
  intro i hi
  simp only [BitVec.getLsbD_xor, BitVec.getLsbD_ushiftRight]
  have : x.getLsbD (16 + (16 + i)) = false := BitVec.getLsbD_of_ge _ _ (by omega)
  rw [this]
  cases x.getLsbD i <;> cases x.getLsbD (16 + i) <;> rfl

theorem xor15_inv (x : BitVec 32) : (x ^^^ x >>> 15) ^^^ (x ^^^ x >>> 15) >>> 15 ^^^ (x ^^^ x >>> 15) >>> 30 = x := by
  apply BitVec.eq_of_getLsbD_eq
  intro i hi
  simp only [BitVec.getLsbD_xor, BitVec.getLsbD_ushiftRight]
  have h1 : x.getLsbD (15 + (30 + i)) = false := BitVec.getLsbD_of_ge _ _ (by omega)
  have h2 : 15 + (15 + i) = 30 + i := by omega
  rw [h1, h2]
  cases x.getLsbD i <;> cases x.getLsbD (15 + i) <;> cases x.getLsbD (30 + i) <;> rfl

theorem xor16_inj {x y : BitVec 32} (h : x ^^^ x >>> 16 = y ^^^ y >>> 16) : x = y := by
  rw [← xor16_inv x, h, xor16_inv]

theorem xor15_inj {x y : BitVec 32} (h : x ^^^ x >>> 15 = y ^^^ y >>> 15) : x = y := by
  rw [← xor15_inv x, h, xor15_inv]

theorem mul_inj {c d x y : BitVec 32} (hc : c * d = 1#32) (h : x * c = y * c) : x = y := by
  have : x * c * d = y * c * d := by rw [h]
  rw [BitVec.mul_assoc, BitVec.mul_assoc, hc] at this
  simpa using this

theorem mix_inj {x y : BitVec 32} (h : mix x = mix y) : x = y := by
  unfold mix at h
  exact xor16_inj (mul_inj (d := 0x333C4925#32) (by decide) (xor15_inj (mul_inj (d := 0x97132227#32) (by decide) (xor15_inj h))))

/-- Results of calls of `fast_random`, one for each clock value. -/
def outs (s : BitVec 32) : List (BitVec 32) → List (BitVec 32)
  | [] => []
  | now :: l => (fastRandom now s).1 :: outs (fastRandom now s).2 l

theorem outs_eq (l : List (BitVec 32)) : ∀ s : BitVec 32, (∀ k < l.length, s + BitVec.ofNat 32 k * 0x9E3779B9#32 ≠ 0#32) →
    outs s l = (List.range l.length).map fun k => mix (s + BitVec.ofNat 32 k * 0x9E3779B9#32) := by
  induction l with
  | nil => intro s _; rfl
  | cons now l ih =>
    intro s hs
    have h0 : s ≠ 0#32 := by simpa using hs 0 (by simp)
    have hgen : ∀ (k : Nat) (c : BitVec 32), s + c + BitVec.ofNat 32 k * c = s + BitVec.ofNat 32 (k + 1) * c := by
      intro k c
      rw [BitVec.ofNat_add, BitVec.add_mul, BitVec.add_assoc, BitVec.add_comm c]
      congr 2
      exact (BitVec.one_mul c).symm
    have hstep : ∀ k, s + 0x9E3779B9#32 + BitVec.ofNat 32 k * 0x9E3779B9#32 = s + BitVec.ofNat 32 (k + 1) * 0x9E3779B9#32 := by
      exact fun k => hgen k _
    have hf : fastRandom now s = (mix s, s + 0x9E3779B9#32) := by
      unfold fastRandom
      rw [if_neg h0]
    have hz : s + BitVec.ofNat 32 0 * 0x9E3779B9#32 = s := by
      rw [show BitVec.ofNat 32 0 = 0#32 from rfl, BitVec.zero_mul, BitVec.add_zero]
    rw [outs, hf, ih]
    · rw [List.length_cons, List.range_succ_eq_map, List.map_cons, List.map_map, hz]
      refine congrArg (mix s :: ·) ?_
      apply List.map_congr_left
      intro k _
      exact congrArg mix (hstep k)
    · intro k hk
      rw [hstep]
      exact hs (k + 1) (by simpa using hk)

/-- **C133** (random numbers). Up to 2^32 results of `fast_random` one after another, without a new seed in between (the state does not become zero), are
all different. -/
theorem C133_distinct (s : BitVec 32) (clock : List (BitVec 32)) (hlen : clock.length ≤ 2 ^ 32)
    (hs : ∀ k < clock.length, s + BitVec.ofNat 32 k * 0x9E3779B9#32 ≠ 0#32) : (outs s clock).Nodup := by
  rw [outs_eq clock s hs]
  refine List.Nodup.map_on ?_ List.nodup_range
  intro a ha b hb h
  have ha := List.mem_range.1 ha
  have hb := List.mem_range.1 hb
  have h1 := mix_inj h
  have h2 : BitVec.ofNat 32 a * 0x9E3779B9#32 = BitVec.ofNat 32 b * 0x9E3779B9#32 := by
    exact (BitVec.add_right_inj s).1 h1
  have h3 := congrArg BitVec.toNat (mul_inj (d := 0x144CBC89#32) (by decide) h2)
  simp only [BitVec.toNat_ofNat] at h3
  rw [Nat.mod_eq_of_lt (by omega), Nat.mod_eq_of_lt (by omega)] at h3
  exact h3

theorem range_toNat {frm lst : BitVec 32} (h : ¬ lst < frm) :
    (lst.setWidth 64 - frm.setWidth 64 + 1 : BitVec 64).toNat = lst.toNat - frm.toNat + 1 := by
  have h1 : frm.toNat ≤ lst.toNat := by
    rw [BitVec.lt_def] at h; omega
  have h2 := lst.isLt
  have h3 := frm.isLt
  simp only [BitVec.toNat_add, BitVec.toNat_sub, BitVec.toNat_setWidth]
  rw [show (1 : BitVec 64).toNat = 1 from rfl]
  omega

theorem loop_once (range : BitVec 64) (h1 : 0 < range.toNat) (h2 : range.toNat ≤ 2 ^ 32) (now : BitVec 32) (l : List (BitVec 32)) (s : BitVec 32) :
    rangeLoop range (now :: l) s = .ok ((fastRandom now s).1.setWidth 64 % range, l, (fastRandom now s).2) := by
  simp only [rangeLoop]
  rw [if_neg]
  intro h
  rw [gt_iff_lt, BitVec.lt_def] at h
  have hz := (fastRandom now s).1.isLt
  generalize (fastRandom now s).1 = z at h hz
  have hm : (z.setWidth 64 % range).toNat ≤ z.toNat := by
    rw [BitVec.toNat_umod, BitVec.toNat_setWidth, Nat.mod_eq_of_lt (show z.toNat < 2 ^ 64 by omega)]
    exact Nat.mod_le _ _
  rw [BitVec.toNat_sub, BitVec.toNat_neg, BitVec.toNat_setWidth] at h
  omega

/-- `fast_random_range` returns a number between the bounds, both included, after one call of `fast_random`: the remainder of its result. It aborts
exactly if the bounds are in the wrong order. -/
theorem C133_range (frm lst now : BitVec 32) (l : List (BitVec 32)) (s : BitVec 32) :
    (frm.toNat ≤ lst.toNat → ∃ v, fastRandomRange frm lst (now :: l) s = .ok (v, l, (fastRandom now s).2) ∧ frm.toNat ≤ v.toNat ∧ v.toNat ≤ lst.toNat ∧
      v.toNat = frm.toNat + (fastRandom now s).1.toNat % (lst.toNat - frm.toNat + 1)) ∧
    (lst.toNat < frm.toNat → fastRandomRange frm lst (now :: l) s = .panic) := by
  constructor
  · intro hle
    have hn : ¬ lst < frm := by rw [BitVec.lt_def]; omega
    have hr := range_toNat hn
    have h2 := lst.isLt
    have hz := (fastRandom now s).1.isLt
    unfold fastRandomRange
    rw [if_neg hn, loop_once _ (by omega) (by omega)]
    generalize (fastRandom now s).1 = z at hz
    generalize (fastRandom now s).2 = s'
    have hm := Nat.mod_lt z.toNat (show lst.toNat - frm.toNat + 1 > 0 by omega)
    have hv : (frm + (z.setWidth 64 % (lst.setWidth 64 - frm.setWidth 64 + 1)).setWidth 32).toNat = frm.toNat + z.toNat % (lst.toNat - frm.toNat + 1) := by
      rw [BitVec.toNat_add, BitVec.toNat_setWidth, BitVec.toNat_umod, hr, BitVec.toNat_setWidth, Nat.mod_eq_of_lt (show z.toNat < 2 ^ 64 by omega)]
      omega
    refine ⟨frm + (z.setWidth 64 % (lst.setWidth 64 - frm.setWidth 64 + 1)).setWidth 32, ?_, by omega, by omega, hv⟩
    simp only
    rw [if_neg]
    rw [BitVec.lt_def, BitVec.lt_def]
    omega
  · intro h
    unfold fastRandomRange
    rw [if_pos (by rw [BitVec.lt_def]; exact h)]

theorem count_gap (r N : Nat) (hd : ¬ (r + 1) ∣ N) :
    Nat.count (fun z => z ≡ 0 [MOD (r + 1)]) N = Nat.count (fun z => z ≡ r [MOD (r + 1)]) N + 1 := by
  rw [Nat.count_modEq_card _ (by omega), Nat.count_modEq_card _ (by omega)]
  have h1 : 0 < N % (r + 1) := Nat.pos_of_ne_zero (fun e => hd (Nat.dvd_of_mod_eq_zero e))
  have h2 := Nat.mod_lt N (show r + 1 > 0 by omega)
  rw [if_pos (by rw [Nat.zero_mod]; exact h1), if_neg (by rw [Nat.mod_eq_of_lt (by omega : r < r + 1)]; omega)]

/-- **C133 fails** for the uniform distribution which the comment claims ("debiased"): the comparison is made with 64 bits and never rejects, so the
result is the plain remainder. Of all 2^32 results of `fast_random`, more give the first number of the range than the last one, for every length of the
range that is not a power of two. -/
theorem C133_debias_fails (frm lst : BitVec 32) (hle : frm.toNat ≤ lst.toNat) (hd : ¬ (lst.toNat - frm.toNat + 1) ∣ 2 ^ 32) :
    Nat.count (fun z => z ≡ 0 [MOD (lst.toNat - frm.toNat + 1)]) (2 ^ 32) =
      Nat.count (fun z => z ≡ lst.toNat - frm.toNat [MOD (lst.toNat - frm.toNat + 1)]) (2 ^ 32) + 1 ∧
    ∀ now l s, ∃ v, fastRandomRange frm lst (now :: l) s = .ok (v, l, (fastRandom now s).2) ∧
      v.toNat = frm.toNat + (fastRandom now s).1.toNat % (lst.toNat - frm.toNat + 1) := by
  constructor
  · exact count_gap _ _ hd
  · intro now l s
    obtain ⟨v, h1, -, -, h2⟩ := (C133_range frm lst now l s).1 hle
    exact ⟨v, h1, h2⟩

/-! ### UUIDs -/

theorem bytes_succ (n : Nat) (l l' : List (BitVec 32)) (s s' s'' b : BitVec 32) (bs : List (BitVec 8))
    (h1 : fastRandomRange 0#32 255#32 l s = .ok (b, l', s')) (h2 : randomBytes n l' s' = .ok (bs, s'')) :
    randomBytes (n + 1) l s = .ok (b.setWidth 8 :: bs, s'') := by
  rw [randomBytes, h1]
  dsimp only
  rw [h2]

theorem byte_ok (now : BitVec 32) (l : List (BitVec 32)) (s : BitVec 32) :
    ∃ v s', fastRandomRange 0#32 255#32 (now :: l) s = .ok (v, l, s') := by
  have hle : (0#32).toNat ≤ (255#32).toNat := by decide
  obtain ⟨v, h, -⟩ := (C133_range 0#32 255#32 now l s).1 hle
  exact ⟨v, _, h⟩

theorem bytes_ok (n : Nat) : ∀ (clock : List (BitVec 32)) (s : BitVec 32), n ≤ clock.length → ∃ r s', randomBytes n clock s = .ok (r, s') ∧ r.length = n := by
  induction n with
  | zero => intro clock s _; exact ⟨[], s, rfl, rfl⟩
  | succ n ih =>
    intro clock s h
    cases clock with
    | nil => exact absurd h (Nat.not_succ_le_zero n)
    | cons now l =>
      obtain ⟨v, s1, h1⟩ := byte_ok now l s
      obtain ⟨r, s', h2, h3⟩ := ih l s1 (Nat.le_of_succ_le_succ h)
      exact ⟨v.setWidth 8 :: r, s', bytes_succ n _ _ _ _ _ _ _ h1 h2, congrArg (· + 1) h3⟩

/-- Where the text of a byte begins. -/
def pos (i : Nat) : Nat := 2 * i + (if 4 ≤ i then 1 else 0) + (if 6 ≤ i then 1 else 0) + (if 8 ≤ i then 1 else 0) + (if 10 ≤ i then 1 else 0)

theorem loop_frame (b : Nat → BitVec 8) (n : Nat) : ∀ (c p : Nat) (buf : Nat → Nat) (k : Nat), 37 ≤ k → (textLoop b n c p buf).1 k = buf k := by
  induction n with
  | zero => intro c p buf k _; rfl
  | succ n ih =>
    intro c p buf k hk
    rw [textLoop]
    split
    · split
      · rw [ih _ _ _ _ hk, put, if_neg (by omega)]
      · rw [ih _ _ _ _ hk, put, if_neg (by omega), put, if_neg (by omega)]
    · rfl

theorem loop_text (b : Nat → BitVec 8) (buf : Nat → Nat) :
    (textLoop b 36 0 0 buf).2 = (36, 16) ∧
    (∀ i < 16, (textLoop b 36 0 0 buf).1 (pos i) = hex (b i >>> 4) ∧ (textLoop b 36 0 0 buf).1 (pos i + 1) = hex (b i &&& 0x0F#8)) ∧
    (∀ k, k = 8 ∨ k = 13 ∨ k = 18 ∨ k = 23 → (textLoop b 36 0 0 buf).1 k = 45) ∧
    ∀ k, 37 ≤ k → (textLoop b 36 0 0 buf).1 k = buf k := by
  refine ⟨rfl, ?_, ?_, ?_⟩
  · intro i hi
    interval_cases i <;> exact ⟨rfl, rfl⟩
  · rintro k (rfl | rfl | rfl | rfl) <;> rfl
  · intro k hk
    exact loop_frame b 36 0 0 buf k hk

theorem gen_ok (buf : Nat → Nat) (size : Nat) (hsz : 37 ≤ size) (clock : List (BitVec 32)) (hcl : 16 ≤ clock.length) (s : BitVec 32) :
    ∃ r s', randomBytes 16 clock s = .ok (r, s') ∧ r.length = 16 ∧
      generate (some buf) size clock s = .ok (put (textLoop (fixed r) 36 0 0 buf).1 36 0, s') := by
  obtain ⟨r, s', h1, h2⟩ := bytes_ok 16 clock s hcl
  refine ⟨r, s', h1, h2, ?_⟩
  have h3 := (loop_text (fixed r) buf).1
  unfold generate
  simp only
  rw [if_neg (by omega), h1]
  simp only [h3]
  simp

/-- **C133** (text of a UUID). For a buffer of at least 37 bytes the result is a text of 36 characters and its terminator: dashes after the digits of 4,
6, 8, and 10 bytes, other characters lower-case hexadecimal digits; the digit of the version is 4, and the one of the variant is 8, 9, a, or b. Nothing is
written behind. A null pointer and a smaller buffer abort. -/
theorem C133_text (buf : Nat → Nat) (size : Nat) (clock : List (BitVec 32)) (hcl : 16 ≤ clock.length) (s : BitVec 32) :
    (37 ≤ size → ∃ t s', generate (some buf) size clock s = .ok (t, s') ∧
      (∀ k, k = 8 ∨ k = 13 ∨ k = 18 ∨ k = 23 → t k = 45) ∧
      (∀ k < 36, k ≠ 8 → k ≠ 13 → k ≠ 18 → k ≠ 23 → (48 ≤ t k ∧ t k ≤ 57) ∨ (97 ≤ t k ∧ t k ≤ 102)) ∧
      t 14 = 52 ∧ (t 19 = 56 ∨ t 19 = 57 ∨ t 19 = 97 ∨ t 19 = 98) ∧ t 36 = 0 ∧ ∀ k, 37 ≤ k → t k = buf k) ∧
    (size < 37 → generate (some buf) size clock s = .panic) ∧ generate none size clock s = .panic := by
  refine ⟨?_, ?_, rfl⟩
  · intro hsz
    obtain ⟨r, s', h1, h2, h3⟩ := gen_ok buf size hsz clock hcl s
    obtain ⟨-, ht, hd, he⟩ := loop_text (fixed r) buf
    refine ⟨_, s', h3, ?_, ?_, ?_, ?_, ?_, ?_⟩
    · intro k hk
      rw [put, if_neg (by omega)]; exact hd k hk
    · intro k hk k1 k2 k3 k4
      rw [put, if_neg (by omega)]
      have hx : ∀ b : BitVec 8, ((48 ≤ hex (b >>> 4) ∧ hex (b >>> 4) ≤ 57) ∨ (97 ≤ hex (b >>> 4) ∧ hex (b >>> 4) ≤ 102)) ∧
          ((48 ≤ hex (b &&& 0x0F#8) ∧ hex (b &&& 0x0F#8) ≤ 57) ∨ (97 ≤ hex (b &&& 0x0F#8) ∧ hex (b &&& 0x0F#8) ≤ 102)) := by decide +kernel
      have : ∃ i < 16, k = pos i ∨ k = pos i + 1 := by
        interval_cases k <;> first | omega | decide
      obtain ⟨i, hi, rfl | rfl⟩ := this
      · rw [(ht i hi).1]; exact (hx _).1
      · rw [(ht i hi).2]; exact (hx _).2
    · rw [put, if_neg (by omega)]
      have := (ht 6 (by omega)).1
      rw [show (14 : Nat) = pos 6 from rfl, this]
      simp only [fixed]
      exact (by decide +kernel : ∀ b : BitVec 8, hex (((b &&& 0x0F#8) ||| 0x40#8) >>> 4) = 52) _
    · rw [put, if_neg (by omega)]
      have := (ht 8 (by omega)).1
      rw [show (19 : Nat) = pos 8 from rfl, this]
      simp only [fixed]
      exact (by decide +kernel : ∀ b : BitVec 8, hex (((b &&& 0x3F#8) ||| 0x80#8) >>> 4) = 56 ∨ hex (((b &&& 0x3F#8) ||| 0x80#8) >>> 4) = 57 ∨
        hex (((b &&& 0x3F#8) ||| 0x80#8) >>> 4) = 97 ∨ hex (((b &&& 0x3F#8) ||| 0x80#8) >>> 4) = 98) _
    · rw [put, if_pos rfl]
    · intro k hk
      rw [put, if_neg (by omega)]; exact he k hk
  · intro h
    simp only [generate]
    rw [if_pos h]

theorem hex_inj {a b : BitVec 8} (h1 : hex (a >>> 4) = hex (b >>> 4)) (h2 : hex (a &&& 0x0F#8) = hex (b &&& 0x0F#8)) : a = b := by
  have e1 : ∀ a : BitVec 8, hex (a >>> 4) = if a.toNat / 16 < 10 then 48 + a.toNat / 16 else 87 + a.toNat / 16 := by decide +kernel
  have e2 : ∀ a : BitVec 8, hex (a &&& 0x0F#8) = if a.toNat % 16 < 10 then 48 + a.toNat % 16 else 87 + a.toNat % 16 := by decide +kernel
  rw [e1, e1] at h1
  rw [e2, e2] at h2
  apply BitVec.eq_of_toNat_eq
  split at h1 <;> split at h1 <;> split at h2 <;> split at h2 <;> omega

/-- The text loses nothing of the random bytes but six bits: two texts are the same exactly if the random bytes are, apart from the upper four bits of
byte 6 and the upper two bits of byte 8. -/
theorem C133_injective (buf : Nat → Nat) (size : Nat) (hsz : 37 ≤ size) (c1 c2 : List (BitVec 32)) (s1 s2 : BitVec 32) (r1 r2 : List (BitVec 8))
    (z1 z2 : BitVec 32) (h1 : randomBytes 16 c1 s1 = .ok (r1, z1)) (h2 : randomBytes 16 c2 s2 = .ok (r2, z2)) :
    ∃ t1 t2, generate (some buf) size c1 s1 = .ok (t1, z1) ∧ generate (some buf) size c2 s2 = .ok (t2, z2) ∧
      ((∀ k < 36, t1 k = t2 k) ↔ (∀ i < 16, i ≠ 6 → i ≠ 8 → r1.getD i 0#8 = r2.getD i 0#8) ∧
        (r1.getD 6 0#8).toNat % 16 = (r2.getD 6 0#8).toNat % 16 ∧ (r1.getD 8 0#8).toNat % 64 = (r2.getD 8 0#8).toNat % 64) := by
  have g : ∀ c s r z, randomBytes 16 c s = .ok (r, z) → generate (some buf) size c s = .ok (put (textLoop (fixed r) 36 0 0 buf).1 36 0, z) := by
    intro c s r z h
    have h3 := (loop_text (fixed r) buf).1
    unfold generate
    simp only
    rw [if_neg (by omega), h]
    simp only [h3]
    simp
  refine ⟨_, _, g _ _ _ _ h1, g _ _ _ _ h2, ?_⟩
  obtain ⟨-, a2, a3, -⟩ := loop_text (fixed r1) buf
  obtain ⟨-, b2, b3, -⟩ := loop_text (fixed r2) buf
  have key : (∀ k < 36, put (textLoop (fixed r1) 36 0 0 buf).1 36 0 k = put (textLoop (fixed r2) 36 0 0 buf).1 36 0 k) ↔
      ∀ i < 16, fixed r1 i = fixed r2 i := by
    constructor
    · intro h i hi
      have hp : pos i + 1 < 36 := by interval_cases i <;> decide
      have e1 := h (pos i) (by omega)
      have e2 := h (pos i + 1) hp
      rw [put, put, if_neg (by omega), if_neg (by omega)] at e1 e2
      rw [(a2 i hi).1, (b2 i hi).1] at e1
      rw [(a2 i hi).2, (b2 i hi).2] at e2
      exact hex_inj e1 e2
    · intro h k hk
      rw [put, put, if_neg (by omega), if_neg (by omega)]
      by_cases hd : k = 8 ∨ k = 13 ∨ k = 18 ∨ k = 23
      · rw [a3 k hd, b3 k hd]
      · have : ∃ i < 16, k = pos i ∨ k = pos i + 1 := by
          interval_cases k <;> first | omega | decide
        obtain ⟨i, hi, rfl | rfl⟩ := this
        · rw [(a2 i hi).1, (b2 i hi).1, h i hi]
        · rw [(a2 i hi).2, (b2 i hi).2, h i hi]
  rw [key]
  have e6 : ∀ b : BitVec 8, (((b &&& 0x0F#8) ||| 0x40#8)).toNat = b.toNat % 16 + 64 := by decide +kernel
  have e8 : ∀ b : BitVec 8, (((b &&& 0x3F#8) ||| 0x80#8)).toNat = b.toNat % 64 + 128 := by decide +kernel
  constructor
  · intro h
    refine ⟨?_, ?_, ?_⟩
    · intro i hi i6 i8
      have := h i hi
      simpa only [fixed, if_neg i6, if_neg i8] using this
    · have := congrArg BitVec.toNat (h 6 (by omega))
      simp only [fixed] at this
      simp only [Nat.reduceEqDiff, if_false, if_true, e6] at this
      omega
    · have := congrArg BitVec.toNat (h 8 (by omega))
      simp only [fixed] at this
      simp only [if_true, e8] at this
      omega
  · rintro ⟨h0, h6, h8⟩ i hi
    by_cases i8 : i = 8
    · subst i8
      apply BitVec.eq_of_toNat_eq
      simp only [fixed, if_true, e8]
      omega
    · by_cases i6 : i = 6
      · subst i6
        apply BitVec.eq_of_toNat_eq
        simp only [fixed, Nat.reduceEqDiff, if_false, if_true, e6]
        omega
      · simp only [fixed, if_neg i6, if_neg i8]
        exact h0 i hi i6 i8

/-- The text for a state of the generator, as a list of characters. -/
def textOf (clock : List (BitVec 32)) (s : BitVec 32) : Option (List Nat) :=
  match generate (some fun _ => 0) 37 clock s with
  | .ok (t, _) => some ((List.range 36).map t)
  | _ => none

/-- **C133 fails** for the number of UUIDs which the comment gives (5.3 * 10^36, 122 random bits): the generator has a state of 32 bits, so for given readings
of the clock (which matter only when the state is zero) there are at most 2^32 different texts. -/
theorem C133_entropy_fails (clock : List (BitVec 32)) (hcl : 16 ≤ clock.length) :
    (∀ s, ∃ t, textOf clock s = some t) ∧ (Set.range (textOf clock)).ncard ≤ 2 ^ 32 ∧ 2 ^ 32 < 2 ^ 122 := by
  refine ⟨?_, ?_, by decide⟩
  · intro s
    obtain ⟨r, s', -, -, h⟩ := gen_ok (fun _ => 0) 37 (Nat.le_refl _) clock hcl s
    unfold textOf
    rw [h]
    exact ⟨_, rfl⟩
  · have h1 : Set.range (textOf clock) = (fun n => textOf clock (BitVec.ofNat 32 n)) '' (Finset.range (2 ^ 32) : Finset Nat) := by
      ext t
      constructor
      · rintro ⟨s, rfl⟩
        refine ⟨s.toNat, ?_, by simp⟩
        simp only [Finset.coe_range, Set.mem_Iio]
        exact s.isLt
      · rintro ⟨n, -, rfl⟩
        exact ⟨_, rfl⟩
    rw [h1]
    refine (Set.ncard_image_le (Finset.finite_toSet _)).trans ?_
    rw [Set.ncard_coe_finset, Finset.card_range]

/-! ### Cases -/

/-- Three calls from the state 1. -/
example : (outs 1#32 [5#32, 6#32, 7#32]).Nodup :=
  C133_distinct _ _ (by decide) (by intro k hk; simp only [List.length_cons, List.length_nil] at hk; interval_cases k <;> decide)

example : ∃ v, fastRandomRange 3#32 5#32 [7#32] 1#32 = .ok (v, [], (fastRandom 7#32 1#32).2) ∧ 3 ≤ v.toNat ∧ v.toNat ≤ 5 := by
  obtain ⟨v, h1, h2, h3, -⟩ := (C133_range 3#32 5#32 7#32 [] 1#32).1 (by decide)
  exact ⟨v, h1, h2, h3⟩

/-- Ranges of three numbers are biased: they meet the hypotheses of `C133_debias_fails`. -/
example : (3#32).toNat ≤ (5#32).toNat ∧ ¬ ((5#32).toNat - (3#32).toNat + 1) ∣ 2 ^ 32 := by decide

example : ∃ t s', generate (some fun _ => 0) 37 (List.replicate 16 9#32) 1#32 = .ok (t, s') ∧ t 14 = 52 := by
  obtain ⟨t, s', h1, -, -, h2, -⟩ := (C133_text (fun _ => 0) 37 (List.replicate 16 9#32) (by decide) 1#32).1 (by decide)
  exact ⟨t, s', h1, h2⟩

/-- Random bytes exist for every state, so that `C133_injective` applies. -/
example : ∃ r z, randomBytes 16 (List.replicate 16 9#32) 1#32 = .ok (r, z) := by
  obtain ⟨r, z, h, -⟩ := bytes_ok 16 (List.replicate 16 9#32) 1#32 (by decide)
  exact ⟨r, z, h⟩

example : (Set.range (textOf (List.replicate 16 9#32))).ncard ≤ 2 ^ 32 := (C133_entropy_fails _ (by decide)).2.1

end Verif.Uuid
