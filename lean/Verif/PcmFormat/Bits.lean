import Verif.PcmFormat.MapLemmas

/-!
# PCM formats: reading samples that are packed without padding
-/

namespace Verif.PcmFormat

open Spec

theorem or_eq_add (a b k : Nat) (hb : b < 2 ^ k) : (a * 2 ^ k) ||| b = a * 2 ^ k + b := by
  rw [Nat.mul_comm]
  exact (Nat.two_pow_add_eq_or_of_lt hb a).symm

theorem getD_of (b : List Nat) (n x : Nat) (h : b[n]? = some x) : b.getD n 0 = x := by
  rw [List.getD_eq_getElem?_getD, h]
  rfl

theorem bit_of (b : List Nat) (q r x : Nat) (hr : r < 8) (h : b[q]? = some x) :
    bit b (8 * q + r) = x / 2 ^ (7 - r) % 2 := by
  unfold bit
  rw [show (8 * q + r) / 8 = q by omega, show (8 * q + r) % 8 = r by omega, getD_of b q x h]

/-- Bits inside of one byte. -/
theorem bits_one (b : List Nat) (q x : Nat) (h : b[q]? = some x) : ∀ (n r : Nat), r + n ≤ 8 →
    bits b (8 * q + r) n = x / 2 ^ (8 - r - n) % 2 ^ n := by
  intro n
  induction n with
  | zero => intro r _; simp [bits, Nat.mod_one]
  | succ n ih =>
    intro r hr
    rw [bits, ih r (by omega), Nat.add_assoc, bit_of b q (r + n) x (by omega) h]
    rw [show 8 - r - n = (7 - (r + n)) + 1 by omega, show 8 - r - (n + 1) = 7 - (r + n) by omega]
    obtain ⟨y, hy⟩ : ∃ y, y = x / 2 ^ (7 - (r + n)) := ⟨_, rfl⟩
    have : x / 2 ^ (7 - (r + n) + 1) = y / 2 := by
      rw [hy, Nat.div_div_eq_div_mul, pow_succ]
    rw [this, ← hy, pow_succ', Nat.mod_mul]
    omega

theorem bits_append (b : List Nat) (off m : Nat) : ∀ n,
    bits b off (m + n) = bits b off m * 2 ^ n + bits b (off + m) n := by
  intro n
  induction n with
  | zero => simp [bits]
  | succ n ih =>
    rw [← Nat.add_assoc, bits, ih, bits, pow_succ, Nat.add_assoc]
    ring

/-- `pcm_unaligned_read` gives the bits, and maybe other bits above them. -/
theorem unalignedRead_spec (b : List Nat) (hb : ∀ x ∈ b, x < 256) (q r len : Nat) (hr : r < 8)
    (hl1 : 1 ≤ len) (hl : len = 8 ∨ r + len ≤ 8) (hl8 : len ≤ 8) (hin : 8 * q + r + len ≤ 8 * b.length) :
    ∃ z, unalignedRead b (8 * q + r) len = some (z, 8 * q + r + len) ∧
      z % 2 ^ len = bits b (8 * q + r) len ∧ z < 256 := by
  have hx : b[q]? = some b[q] := List.getElem?_eq_getElem (by omega)
  obtain ⟨x, hxe⟩ : ∃ x, x = b[q] := ⟨_, rfl⟩
  rw [← hxe] at hx
  have hx256 : x < 256 := hb x (List.mem_of_getElem? hx)
  unfold unalignedRead
  rw [show (8 * q + r) / 8 = q by omega, show (8 * q + r) % 8 = r by omega, hx]
  simp only [Option.bind_some]
  by_cases h8 : r + len > 8
  · have hlen : len = 8 := by omega
    subst hlen
    rw [if_pos h8]
    have hy : b[q + 1]? = some b[q + 1] := List.getElem?_eq_getElem (by omega)
    obtain ⟨y, hye⟩ : ∃ y, y = b[q + 1] := ⟨_, rfl⟩
    rw [← hye] at hy
    have hy256 : y < 256 := hb y (List.mem_of_getElem? hy)
    rw [hy]
    simp only [Option.map_some]
    have e1 : ((x <<< r) >>> (8 - 8)) % 256 = x % 2 ^ (8 - r) * 2 ^ r := by
      rw [Nat.sub_self, Nat.shiftRight_zero, Nat.shiftLeft_eq]
      have : 256 = 2 ^ (8 - r) * 2 ^ r := by
        rw [← pow_add, show 8 - r + r = 8 by omega]
        norm_num
      rw [this, Nat.mul_mod_mul_right]
    have e2 : (y >>> (8 - r)) >>> (8 - 8) % 256 = y / 2 ^ (8 - r) := by
      rw [Nat.sub_self, Nat.shiftRight_zero, Nat.shiftRight_eq_div_pow]
      apply Nat.mod_eq_of_lt
      exact lt_of_le_of_lt (Nat.div_le_self _ _) hy256
    have e3 : y / 2 ^ (8 - r) < 2 ^ r := by
      rw [Nat.div_lt_iff_lt_mul (by positivity), ← pow_add, show r + (8 - r) = 8 by omega]
      exact hy256
    rw [e1, e2, or_eq_add _ _ _ e3]
    have e4 : bits b (8 * q + r) 8 = x % 2 ^ (8 - r) * 2 ^ r + y / 2 ^ (8 - r) := by
      have s1 : bits b (8 * q + r) ((8 - r) + r)
          = bits b (8 * q + r) (8 - r) * 2 ^ r + bits b (8 * q + r + (8 - r)) r :=
        bits_append b _ _ _
      rw [show 8 - r + r = 8 by omega, show 8 * q + r + (8 - r) = 8 * (q + 1) + 0 by omega,
        bits_one b q x hx (8 - r) r (by omega), bits_one b (q + 1) y hy r 0 (by omega)] at s1
      rw [show 8 - r - (8 - r) = 0 by omega, show 8 - 0 - r = 8 - r by omega] at s1
      rw [s1, pow_zero, Nat.div_one, Nat.mod_eq_of_lt e3]
    have e5 : x % 2 ^ (8 - r) * 2 ^ r + y / 2 ^ (8 - r) < 256 := by
      have : x % 2 ^ (8 - r) < 2 ^ (8 - r) := Nat.mod_lt _ (by positivity)
      have h256 : 256 = 2 ^ (8 - r) * 2 ^ r := by
        rw [← pow_add, show 8 - r + r = 8 by omega]
        norm_num
      rw [h256]
      have h7 := Nat.mul_le_mul_right (2 ^ r) (Nat.succ_le_of_lt this)
      rw [Nat.succ_mul] at h7
      omega
    refine ⟨_, rfl, ?_, e5⟩
    rw [e4]
    exact Nat.mod_eq_of_lt e5
  · rw [if_neg h8]
    refine ⟨_, rfl, ?_, Nat.mod_lt _ (by norm_num)⟩
    rw [bits_one b q x hx len r (by omega)]
    have h256 : 256 = 2 ^ len * 2 ^ (8 - len) := by
      rw [← pow_add, show len + (8 - len) = 8 by omega]
      norm_num
    have hdvd : 2 ^ len ∣ 256 := ⟨_, h256⟩
    rw [Nat.mod_mod_of_dvd _ hdvd, Nat.shiftLeft_eq, Nat.shiftRight_eq_div_pow]
    congr 1
    have : (2 : Nat) ^ (8 - len) = 2 ^ (8 - r - len) * 2 ^ r := by
      rw [← pow_add]
      congr 1
      omega
    rw [this, Nat.mul_div_mul_right _ _ (by positivity)]

theorem bits_lt (b : List Nat) (off : Nat) : ∀ n, bits b off n < 2 ^ n := by
  intro n
  induction n with
  | zero => simp [bits]
  | succ n ih =>
    have : bit b (off + n) < 2 := Nat.mod_lt _ (by norm_num)
    rw [bits, pow_succ]
    omega

theorem finish_mod (c : Code) (hc : c ∈ codes) (x : Nat) :
    finish c x ≡ (x : Int) [ZMOD 2 ^ c.width] := by
  obtain ⟨h1, h2, h3⟩ := codes_wf c hc
  have key : ∀ v : Int, v ≡ (x : Int) [ZMOD 2 ^ c.width] →
      (if c.signed = true ∧ c.width < c.unpacked ∧
          (if c.width < c.packed then v % 2 ^ c.width else v) / 2 ^ (c.width - 1) % 2 = 1 then
        (if c.width < c.packed then v % 2 ^ c.width else v) % 2 ^ c.width - 2 ^ c.width
      else (if c.width < c.packed then v % 2 ^ c.width else v)) ≡ (x : Int) [ZMOD 2 ^ c.width] := by
    intro v hv
    have h4 : (if c.width < c.packed then v % 2 ^ c.width else v) ≡ (x : Int) [ZMOD 2 ^ c.width] := by
      split_ifs
      · exact (Int.mod_modEq _ _).trans hv
      · exact hv
    split_ifs with h5
    all_goals
      refine Int.ModEq.trans ?_ hv
      unfold Int.ModEq
      simp
  unfold finish
  cases hs : c.signed
  · have := key (asU c.unpacked x) (asU_mod (by omega) _)
    rw [hs] at this
    exact this
  · have := key (asS c.unpacked x) (asS_mod (by omega) _)
    rw [hs] at this
    exact this

/-- Codes that are packed without padding into a number of bits that is not a multiple
of eight. -/
theorem packed_cases (c : Code) (hc : c ∈ codes) (h : c.packed % 8 ≠ 0) :
    c.width = c.packed ∧ c.unpacked = 32 ∧ (c.packed = 18 ∨ c.packed = 20) := by
  simp only [codes, List.mem_cons, List.not_mem_nil, or_false] at hc
  rcases hc with h | h | h | h | h | h | h | h | h | h | h | h | h | h | h | h | h | h | h | h |
    h | h | h | h <;> subst h <;> first | (exact absurd rfl h) | decide

theorem readOctet_packed (c : Code) (h : c.packed % 8 ≠ 0) (b : List Nat) (off n : Nat)
    (hn : n < packedOctets c) : readOctet c b off n = unalignedRead b off (bitLen c n) := by
  unfold readOctet
  rw [if_neg (by omega), if_neg h]

theorem read_bits (b : List Nat) (hb : ∀ x ∈ b, x < 256) (off len : Nat) (hl1 : 1 ≤ len)
    (hl : len = 8 ∨ off % 8 + len ≤ 8) (hl8 : len ≤ 8) (hin : off + len ≤ 8 * b.length) :
    ∃ z, unalignedRead b off len = some (z, off + len) ∧ z % 2 ^ len = bits b off len ∧ z < 256 := by
  have := unalignedRead_spec b hb (off / 8) (off % 8) len (by omega) hl1 hl hl8 (by omega)
  rw [show 8 * (off / 8) + off % 8 = off by omega] at this
  exact this

theorem unpack_packed (c : Code) (hc : c ∈ codes) (h : c.packed % 8 ≠ 0) (big : Bool)
    (b : List Nat) (hb : ∀ x ∈ b, x < 256) (off : Nat) (ho : off % (c.packed % 8) = 0)
    (hin : off + c.packed ≤ 8 * b.length) :
    ∃ v, unpack c big b off = some (v, off + c.packed) ∧
      v ≡ (packedSample big c.width b off : Int) [ZMOD 2 ^ c.width] := by
  obtain ⟨h1, h2, h3⟩ := packed_cases c hc h
  have hpo : packedOctets c = 3 := by unfold packedOctets; omega
  have huo : unpackedOctets c = 4 := by unfold unpackedOctets; omega
  have hb0 : bitLen c 0 = 8 := by unfold bitLen; rw [hpo]; rfl
  have hb1 : bitLen c 1 = 8 := by unfold bitLen; rw [hpo]; rfl
  have hb2 : bitLen c 2 = c.packed % 8 := by unfold bitLen; rw [hpo]; rfl
  have r3 : ∀ o, readOctet c b o 3 = some (0, o) := by
    intro o
    unfold readOctet
    rw [if_pos (by omega)]
  obtain ⟨t, ht⟩ : ∃ t, t = c.packed % 8 := ⟨_, rfl⟩
  have hpt : c.packed = 16 + t := by omega
  rw [← ht] at ho hb2
  rw [h1, hpt]
  rw [hpt] at hin
  have ht24 : t = 2 ∨ t = 4 := by omega
  have hfit : ∀ o, o % t = 0 → o % 8 + t ≤ 8 := by
    intro o
    rcases ht24 with e | e <;> rw [e] <;> omega
  have hfin := finish_mod c hc
  rw [h1, hpt] at hfin
  unfold unpack packedSample
  rw [huo]
  cases big
  · obtain ⟨z0, q0, m0, l0⟩ := read_bits b hb off 8 (by omega) (Or.inl rfl) (by omega) (by omega)
    obtain ⟨z1, q1, m1, l1⟩ := read_bits b hb (off + 8) 8 (by omega) (Or.inl rfl) (by omega) (by omega)
    obtain ⟨z2, q2, m2, l2⟩ := read_bits b hb (off + 8 + 8) t (by omega)
      (Or.inr (by have := hfit off ho; omega)) (by omega) (by omega)
    have e : unpackOctets c b (octetOrder false 4) off 0
        = some (z0 + z1 * 256 + z2 * 65536, off + (16 + t)) := by
      show unpackOctets c b [0, 1, 2, 3] off 0 = _
      simp only [unpackOctets, readOctet_packed c h b _ 0 (by omega),
        readOctet_packed c h b _ 1 (by omega), readOctet_packed c h b _ 2 (by omega), hb0, hb1,
        hb2, r3, q0, q1, q2, Option.bind_some]
      congr 1
      refine Prod.ext ?_ ?_
      · show 0 + z0 * 256 ^ 0 + z1 * 256 ^ 1 + z2 * 256 ^ 2 + 0 * 256 ^ 3 = _
        omega
      · show off + 8 + 8 + t = _
        omega
    rw [e]
    refine ⟨_, rfl, (hfin _).trans ?_⟩
    simp only [Bool.false_eq_true, if_false]
    rw [show 16 + t - 16 = t by omega, show off + 16 = off + 8 + 8 by omega, ← m0, ← m1, ← m2]
    rw [Nat.mod_eq_of_lt (by omega : z0 < 2 ^ 8), Nat.mod_eq_of_lt (by omega : z1 < 2 ^ 8)]
    unfold Int.ModEq
    rcases ht24 with e | e <;> rw [e] <;> push_cast <;> omega
  · obtain ⟨z2, q2, m2, l2⟩ := read_bits b hb off t (by omega)
      (Or.inr (hfit off ho)) (by omega) (by omega)
    obtain ⟨z1, q1, m1, l1⟩ := read_bits b hb (off + t) 8 (by omega) (Or.inl rfl) (by omega) (by omega)
    obtain ⟨z0, q0, m0, l0⟩ := read_bits b hb (off + t + 8) 8 (by omega) (Or.inl rfl) (by omega) (by omega)
    have e : unpackOctets c b (octetOrder true 4) off 0
        = some (z0 + z1 * 256 + z2 * 65536, off + (16 + t)) := by
      show unpackOctets c b [3, 2, 1, 0] off 0 = _
      simp only [unpackOctets, readOctet_packed c h b _ 0 (by omega),
        readOctet_packed c h b _ 1 (by omega), readOctet_packed c h b _ 2 (by omega), hb0, hb1,
        hb2, r3, q0, q1, q2, Option.bind_some]
      congr 1
      refine Prod.ext ?_ ?_
      · show 0 + 0 * 256 ^ 3 + z2 * 256 ^ 2 + z1 * 256 ^ 1 + z0 * 256 ^ 0 = _
        omega
      · show off + t + 8 + 8 = _
        omega
    rw [e]
    refine ⟨_, rfl, (hfin _).trans ?_⟩
    simp only [if_true]
    rw [show 16 + t = t + (8 + 8) by omega, bits_append, bits_append, ← m0, ← m1, ← m2]
    rw [Nat.mod_eq_of_lt (by omega : z0 < 2 ^ 8), Nat.mod_eq_of_lt (by omega : z1 < 2 ^ 8)]
    unfold Int.ModEq
    rcases ht24 with e | e <;> rw [e] <;> push_cast <;> omega

/-- Conversion to at least as many bits depends only on the significant bits of its
argument. -/
theorem convert_mod (i o : Code) (hi : i ∈ codes) (ho : o ∈ codes) (hw : i.width ≤ o.width)
    (v v' : Int) (h : v ≡ v' [ZMOD 2 ^ i.width]) :
    convert i o v ≡ convert i o v' [ZMOD 2 ^ o.width] := by
  obtain ⟨a1, a2, a3⟩ := codes_wf i hi
  obtain ⟨b1, b2, b3⟩ := codes_wf o ho
  have a4 : i.width ≤ i.unpacked := by omega
  have b4 : o.width ≤ o.unpacked := by omega
  unfold convert
  by_cases hio : i = o
  · rw [if_pos hio, if_pos hio, ← hio]
    exact h
  rw [if_neg hio, if_neg hio]
  have hin : convertIn i o v ≡ convertIn i o v' [ZMOD 2 ^ i.width] := by
    unfold convertIn
    split_ifs
    · unfold toSigned
      refine (asS_mod a4 _).trans (Int.ModEq.trans ?_ (asS_mod a4 _).symm)
      exact (h.sub_right _).sub_right _
    · exact h
  have har : convertArith i o (convertIn i o v) ≡ convertArith i o (convertIn i o v')
      [ZMOD 2 ^ o.width] := by
    unfold convertArith
    by_cases hc : o.width = i.width
    · rw [if_pos hc, if_pos hc, hc]
      exact hin
    · have hlt : ¬ o.width < i.width := by omega
      rw [if_neg hc, if_neg hc, if_neg hlt, if_neg hlt]
      have hm : convertIn i o v * 2 ^ (o.width - i.width)
          ≡ convertIn i o v' * 2 ^ (o.width - i.width) [ZMOD 2 ^ o.width] := by
        have := hin.mul_right' (c := 2 ^ (o.width - i.width))
        rw [← pow_add, show i.width + (o.width - i.width) = o.width by omega] at this
        exact this
      split_ifs
      · refine (asU_mod b4 _).trans (Int.ModEq.trans ?_ (asU_mod b4 _).symm)
        exact ((asU_mod b4 _).mul_right _).trans (hm.trans ((asU_mod b4 _).mul_right _).symm)
      · refine (asS_mod b4 _).trans (Int.ModEq.trans ?_ (asS_mod b4 _).symm)
        exact ((asU_mod b4 _).mul_right _).trans (hm.trans ((asU_mod b4 _).mul_right _).symm)
  simp only
  split_ifs
  · exact (fromSigned_mod o b1 b4 _).trans ((har.add_right _).trans (fromSigned_mod o b1 b4 _).symm)
  · exact har

theorem packedSample_lt (c : Code) (hc : c ∈ codes) (h : c.packed % 8 ≠ 0) (big : Bool)
    (b : List Nat) (off : Nat) : packedSample big c.width b off < 2 ^ c.packed := by
  obtain ⟨h1, h2, h3⟩ := packed_cases c hc h
  unfold packedSample
  cases big
  · simp only [Bool.false_eq_true, if_false]
    have e1 := bits_lt b off 8
    have e2 := bits_lt b (off + 8) 8
    have e3 := bits_lt b (off + 16) (c.packed - 16)
    rw [h1]
    rcases h3 with h3 | h3 <;> rw [h3] at e3 ⊢ <;> norm_num at e1 e2 e3 ⊢ <;> omega
  · simp only [if_true]
    rw [h1]
    exact bits_lt b off _

/-- What the loop does to samples that are packed without padding, if the output has whole
bytes and at least as many significant bits. -/
theorem mapLoop_packed (i o : Fmt) (hi : i.code ∈ codes) (ho : o.code ∈ codes)
    (ai : i.code.packed % 8 ≠ 0) (ao : o.code.packed % 8 = 0) (hw : i.code.width ≤ o.code.width)
    (inb : List Nat) (hin : ∀ x ∈ inb, x < 256) (n off : Nat) (outb : List Nat) (po : Nat)
    (hoff : off % (i.code.packed % 8) = 0) (h1 : off + n * i.code.packed ≤ 8 * inb.length)
    (h2 : po + n * packedOctets o.code ≤ outb.length) :
    ∃ outb', mapLoop i o inb n off outb (8 * po)
        = some (outb', off + n * i.code.packed, 8 * (po + n * packedOctets o.code)) ∧
      outb'.length = outb.length ∧
      (∀ q, q < po ∨ po + n * packedOctets o.code ≤ q → outb'[q]? = outb[q]?) ∧
      (∀ q x, po ≤ q → q < po + n * packedOctets o.code → outb'[q]? = some x → x < 256) ∧
      ∀ j, j < n →
        level o.code.signed o.code.width
          (container o.big (packedOctets o.code) outb' (po + j * packedOctets o.code))
          = target i.code o.code (packedSample i.big i.code.width inb (off + j * i.code.packed)) ∧
        container o.big (packedOctets o.code) outb' (po + j * packedOctets o.code)
          < 2 ^ o.code.width := by
  have := mapLoop_gen i o ho ao inb (fun j => off + j * i.code.packed)
    (fun j => target i.code o.code (packedSample i.big i.code.width inb (off + j * i.code.packed)))
    n 0 outb po ?_ h2
  · simp only [Nat.zero_mul, Nat.add_zero, Nat.zero_add] at this
    exact this
  · intro j _ hj
    have hle : (j + 1) * i.code.packed ≤ n * i.code.packed := Nat.mul_le_mul_right _ (by omega)
    have e1 : (j + 1) * i.code.packed = j * i.code.packed + i.code.packed := by ring
    have hoffj : (off + j * i.code.packed) % (i.code.packed % 8) = 0 := by
      obtain ⟨_, _, h3⟩ := packed_cases _ hi ai
      rcases h3 with h3 | h3 <;> rw [h3] at hoff ⊢ <;> norm_num at hoff ⊢ <;> omega
    obtain ⟨v, hv, hm⟩ := unpack_packed i.code hi ai i.big inb hin (off + j * i.code.packed) hoffj
      (by omega)
    obtain ⟨x, hx⟩ : ∃ x, x = packedSample i.big i.code.width inb (off + j * i.code.packed) :=
      ⟨_, rfl⟩
    rw [← hx] at hm
    have hxlt : x < 2 ^ i.code.packed := by
      rw [hx]
      exact packedSample_lt _ hi ai _ _ _
    obtain ⟨f1, f2⟩ := finish_spec i.code hi x hxlt
    refine ⟨v, ?_, ?_, ?_⟩
    · rw [hv, e1, Nat.add_assoc]
    · have hcv := convert_spec i.code o.code hi ho _ f1
      rw [f2] at hcv
      have hcm := convert_mod i.code o.code hi ho hw v (finish i.code x)
        (hm.trans (finish_mod i.code hi x).symm)
      rw [← hx]
      exact hcm.trans hcv
    · rw [← hx]
      exact target_range _ _ hi ho x

end Verif.PcmFormat
