import Mathlib.Data.List.Induction
/-!
# Bytes, byte order, memory and slices

Shared by the packet codecs. A buffer (`core::Buffer`) is a list of bytes; a slice is an offset and a
length inside it (roc_core/slice.h). Numbers wider than a byte are always stored in network byte
order by the code (`hton16u` and friends, roc_core/endian.h:23-81), so fields of packed structures
are modelled as big-endian groups of bytes; host byte order does not occur.
-/

namespace Verif.Bytes

/-- `uint8_t`. -/
abbrev Byte := BitVec 8

/-- Value of a big-endian group of bytes (`ntoh16u`, `ntoh32u`, `ntoh64u`, roc_core/endian.h:23-51). -/
def beNat (bs : List Byte) : Nat := bs.foldl (fun a b => a * 256 + b.toNat) 0

/-- The `n` byte big-endian representation (`hton16u`, `hton32u`, `hton64u`, roc_core/endian.h:53-81). -/
def toBe : Nat → Nat → List Byte
  | 0, _ => []
  | n + 1, v => toBe n (v / 256) ++ [BitVec.ofNat 8 v]

/-- `n` bytes of a buffer starting at `off`. -/
def rdAt (m : List Byte) (off n : Nat) : List Byte := (m.drop off).take n

/-- Overwriting bytes of a buffer (a store through a pointer, or `memcpy`). -/
def wrAt (m : List Byte) (off : Nat) (bs : List Byte) : List Byte :=
  m.take off ++ bs ++ m.drop (off + bs.length)

/-- `core::Slice<uint8_t>` (roc_core/slice.h:208-211), relative to the beginning of its buffer. -/
structure Slice where
  off : Nat
  len : Nat
deriving DecidableEq, Repr

/-- The slice lies inside its buffer. -/
def Slice.Valid (m : List Byte) (s : Slice) : Prop := s.off + s.len ≤ m.length

/-- `Slice::capacity` (roc_core/slice.h:114-120). -/
def Slice.capacity (m : List Byte) (s : Slice) : Nat := m.length - s.off

/-- `Slice::subslice` (roc_core/slice.h:162-177); `none` is a panic. -/
def Slice.subslice (s : Slice) (f t : Nat) : Option Slice :=
  if f > t then none else if t > s.len then none else some ⟨s.off + f, t - f⟩

/-- `Slice::reslice` (roc_core/slice.h:126-141); `none` is a panic. -/
def Slice.reslice (m : List Byte) (s : Slice) (f t : Nat) : Option Slice :=
  if f > t then none else if t > s.capacity m then none else some ⟨s.off + f, t - f⟩

/-- Contents of a slice. -/
def Slice.bytes (m : List Byte) (s : Slice) : List Byte := rdAt m s.off s.len

/-- Reading `n` bytes at offset `i` of a slice; `none` is an access outside of the slice. -/
def Slice.rd (m : List Byte) (s : Slice) (i n : Nat) : Option (List Byte) :=
  if i + n ≤ s.len then some (rdAt m (s.off + i) n) else none

/-! ## Lemmas -/

theorem toBe_length (n v : Nat) : (toBe n v).length = n := by
  induction n generalizing v with
  | zero => rfl
  | succ n ih => simp [toBe, ih]

theorem beNat_concat (bs : List Byte) (b : Byte) : beNat (bs ++ [b]) = beNat bs * 256 + b.toNat := by
  simp [beNat]

theorem beNat_toBe (n v : Nat) : beNat (toBe n v) = v % 256 ^ n := by
  induction n generalizing v with
  | zero => simp [toBe, beNat, Nat.mod_one]
  | succ n ih =>
    have e : 256 ^ (n + 1) = 256 * 256 ^ n := by rw [Nat.pow_succ, Nat.mul_comm]
    rw [toBe, beNat_concat, ih, BitVec.toNat_ofNat, e, Nat.mod_mul]
    omega

theorem beNat_toBe_of_lt {n v : Nat} (h : v < 256 ^ n) : beNat (toBe n v) = v := by
  rw [beNat_toBe, Nat.mod_eq_of_lt h]

theorem beNat_lt (bs : List Byte) : beNat bs < 256 ^ bs.length := by
  induction bs using List.reverseRecOn with
  | nil => simp [beNat]
  | append_singleton bs b ih =>
    rw [beNat_concat, List.length_append, List.length_singleton, Nat.pow_succ]
    have := b.isLt
    omega

theorem toBe_beNat (bs : List Byte) : toBe bs.length (beNat bs) = bs := by
  induction bs using List.reverseRecOn with
  | nil => rfl
  | append_singleton bs b ih =>
    rw [beNat_concat, List.length_append, List.length_singleton, toBe]
    have hb := b.isLt
    have e1 : (beNat bs * 256 + b.toNat) / 256 = beNat bs := by omega
    have e2 : BitVec.ofNat 8 (beNat bs * 256 + b.toNat) = b := by
      apply BitVec.eq_of_toNat_eq
      rw [BitVec.toNat_ofNat]
      omega
    rw [e1, e2, ih]

theorem rdAt_length (m : List Byte) (off n : Nat) (h : off + n ≤ m.length) : (rdAt m off n).length = n := by
  simp [rdAt]; omega

theorem rdAt_getElem? (m : List Byte) (off n i : Nat) :
    (rdAt m off n)[i]? = if i < n then m[off + i]? else none := by
  unfold rdAt
  rw [List.getElem?_take]
  simp [List.getElem?_drop]

theorem wrAt_length (m : List Byte) (off : Nat) (bs : List Byte) (h : off + bs.length ≤ m.length) :
    (wrAt m off bs).length = m.length := by
  simp [wrAt]; omega

theorem wrAt_getElem? (m : List Byte) (off : Nat) (bs : List Byte) (h : off + bs.length ≤ m.length)
    (i : Nat) : (wrAt m off bs)[i]? =
      if off ≤ i ∧ i < off + bs.length then bs[i - off]? else m[i]? := by
  unfold wrAt
  rw [List.append_assoc]
  by_cases h1 : i < off
  · rw [List.getElem?_append_left (by simp; omega), List.getElem?_take_of_lt h1]
    rw [if_neg (by omega)]
  · have hl : (m.take off).length = off := by simp; omega
    rw [List.getElem?_append_right (by omega), hl]
    by_cases h2 : i < off + bs.length
    · rw [List.getElem?_append_left (by omega), if_pos (by omega)]
    · rw [List.getElem?_append_right (by omega), if_neg (by omega), List.getElem?_drop]
      congr 1
      omega

theorem rdAt_wrAt_same (m : List Byte) (off : Nat) (bs : List Byte) (h : off + bs.length ≤ m.length) :
    rdAt (wrAt m off bs) off bs.length = bs := by
  apply List.ext_getElem?
  intro i
  rw [rdAt_getElem?, wrAt_getElem? _ _ _ h]
  by_cases hi : i < bs.length
  · rw [if_pos hi, if_pos (by omega)]
    congr 1; omega
  · rw [if_neg hi, List.getElem?_eq_none (by omega)]

theorem rdAt_wrAt_disjoint (m : List Byte) (off : Nat) (bs : List Byte) (h : off + bs.length ≤ m.length)
    (o n : Nat) (hd : o + n ≤ off ∨ off + bs.length ≤ o) : rdAt (wrAt m off bs) o n = rdAt m o n := by
  apply List.ext_getElem?
  intro i
  rw [rdAt_getElem?, rdAt_getElem?, wrAt_getElem? _ _ _ h]
  by_cases hi : i < n
  · rw [if_pos hi, if_pos hi, if_neg (by omega)]
  · rw [if_neg hi, if_neg hi]

theorem rdAt_rdAt (m : List Byte) (a n b k : Nat) (h : b + k ≤ n) :
    rdAt (rdAt m a n) b k = rdAt m (a + b) k := by
  apply List.ext_getElem?
  intro i
  rw [rdAt_getElem?, rdAt_getElem?, rdAt_getElem?]
  by_cases hi : i < k
  · rw [if_pos hi, if_pos hi, if_pos (by omega), Nat.add_assoc]
  · rw [if_neg hi, if_neg hi]

theorem rdAt_append (m : List Byte) (a n k : Nat) :
    rdAt m a (n + k) = rdAt m a n ++ rdAt m (a + n) k := by
  unfold rdAt
  rw [List.take_add, List.drop_drop]

theorem rdAt_zero (m : List Byte) (a : Nat) : rdAt m a 0 = [] := by simp [rdAt]

theorem rdAt_all (m : List Byte) : rdAt m 0 m.length = m := by simp [rdAt]

theorem wrAt_self (m : List Byte) (off n : Nat) (h : off + n ≤ m.length) :
    wrAt m off (rdAt m off n) = m := by
  apply List.ext_getElem?
  intro i
  have hl := rdAt_length m off n h
  rw [wrAt_getElem? _ _ _ (by omega), hl, rdAt_getElem?]
  split
  · rw [if_pos (by omega)]; congr 1; omega
  · rfl

end Verif.Bytes
