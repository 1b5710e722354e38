import Verif.PcmFormat.Bits

/-!
# PCM formats: properties C73, C74, C75

`map` is `PcmMapper::map`. A format is a code with an endianness. A buffer of samples is
described by `Spec`: `container` is the number in the bytes of a sample, `level` is the signed
level that it stands for.

C73 and C74 are about the formats whose samples take whole bytes (20 of 24 integer codes, in
both endiannesses); C75 is about the four codes of 18 and 20 bits without padding.
-/

namespace Verif.PcmFormat

open Spec

/-! ## C73: every sample is converted, and nothing else is touched -/

theorem packedOctets_eq (c : Code) (ha : c.packed % 8 = 0) : packedOctets c = c.packed / 8 := by
  unfold packedOctets
  omega

theorem clamp_bytes (c : Code) (hc : c ∈ codes) (ha : c.packed % 8 = 0) (sz p : Nat) :
    (sz * 8 - 8 * p) / c.packed = (sz - p) / (c.packed / 8) := by
  obtain ⟨a1, a2, a3⟩ := codes_wf c hc
  obtain ⟨k, hk⟩ : ∃ k, k = c.packed / 8 := ⟨_, rfl⟩
  have : c.packed = 8 * k := by omega
  rw [this, show sz * 8 - 8 * p = 8 * (sz - p) by omega,
    show 8 * k / 8 = k by omega, Nat.mul_div_mul_left _ _ (by norm_num)]

/-- `map` converts as many samples as asked for, or as there are in the input, or as there is
room for in the output. Every level in the output is the level in the input, rescaled
(`Spec.rescale`); the padding bits are zero. No other byte of the output changes. The offsets
advance by the samples converted. -/
theorem C73_map (i o : Fmt) (hi : i.code ∈ codes) (ho : o.code ∈ codes)
    (ai : i.code.packed % 8 = 0) (ao : o.code.packed % 8 = 0)
    (inb outb : List Nat) (hin : ∀ x ∈ inb, x < 256) (pi po n : Nat)
    (hpi : pi ≤ inb.length) (hpo : po ≤ outb.length) :
    ∃ k outb', map i o inb (8 * pi) outb (8 * po) n
        = .ok k outb' (8 * (pi + k * (i.code.packed / 8))) (8 * (po + k * (o.code.packed / 8))) ∧
      k = min n (min ((inb.length - pi) / (i.code.packed / 8))
        ((outb.length - po) / (o.code.packed / 8))) ∧
      outb'.length = outb.length ∧
      (∀ q, q < po ∨ po + k * (o.code.packed / 8) ≤ q → outb'[q]? = outb[q]?) ∧
      (∀ q x, po ≤ q → q < po + k * (o.code.packed / 8) → outb'[q]? = some x → x < 256) ∧
      ∀ j, j < k →
        level o.code.signed o.code.width
          (container o.big (o.code.packed / 8) outb' (po + j * (o.code.packed / 8)))
          = rescale (!i.code.signed && !o.code.signed) i.code.width o.code.width
            (level i.code.signed i.code.width
              (container i.big (i.code.packed / 8) inb (pi + j * (i.code.packed / 8)))) ∧
        container o.big (o.code.packed / 8) outb' (po + j * (o.code.packed / 8))
          < 2 ^ o.code.width := by
  obtain ⟨a1, a2, a3⟩ := codes_wf _ hi
  obtain ⟨b1, b2, b3⟩ := codes_wf _ ho
  obtain ⟨k, hk⟩ : ∃ k, k = clampSamples i o inb.length (8 * pi) outb.length (8 * po) n := ⟨_, rfl⟩
  have hk' : k = min n (min ((inb.length - pi) / (i.code.packed / 8))
        ((outb.length - po) / (o.code.packed / 8))) := by
    rw [hk]
    unfold clampSamples
    rw [clamp_bytes _ hi ai, clamp_bytes _ ho ao, min_assoc]
  have f1 : pi + k * (i.code.packed / 8) ≤ inb.length := by
    have h1 : k ≤ (inb.length - pi) / (i.code.packed / 8) := by omega
    have := (Nat.le_div_iff_mul_le (by omega)).1 h1
    omega
  have f2 : po + k * (o.code.packed / 8) ≤ outb.length := by
    have h1 : k ≤ (outb.length - po) / (o.code.packed / 8) := by omega
    have := (Nat.le_div_iff_mul_le (by omega)).1 h1
    omega
  have hpanic1 : ¬ 8 * pi > inb.length * 8 := by omega
  have hpanic2 : ¬ 8 * po > outb.length * 8 := by omega
  rw [← packedOctets_eq _ ai] at f1 ⊢
  rw [← packedOctets_eq _ ao] at f2 ⊢
  rw [← packedOctets_eq _ ai, ← packedOctets_eq _ ao] at hk'
  by_cases h0 : k = 0
  · subst h0
    refine ⟨0, outb, ?_, hk', rfl, fun _ _ => rfl, ?_, by omega⟩
    · unfold map
      rw [if_neg hpanic1, if_neg hpanic2]
      simp only
      rw [← hk]
      simp
    · intro q x h1 h2
      omega
  · obtain ⟨outb', g1, g2, g3, g4, g5⟩ := mapLoop_spec i o hi ho ai ao inb hin k pi outb po f1 f2
    refine ⟨k, outb', ?_, hk', g2, g3, g4, fun j hj => g5 j hj⟩
    unfold map
    rw [if_neg hpanic1, if_neg hpanic2]
    simp only
    rw [← hk, if_pos h0, g1]
    rfl

/-- 16 bits little endian to 24 bits big endian: the level 1 becomes 256, the level -1
becomes -256; the byte in front and the byte behind are left alone. -/
example : map ⟨⟨true, 16, 16, 16⟩, false⟩ ⟨⟨true, 24, 24, 32⟩, true⟩ [1, 0, 0xff, 0xff] 0
    [7, 7, 7, 7, 7, 7, 7, 7] 8 5 = .ok 2 [7, 0, 1, 0, 0xff, 0xff, 0, 7] 32 56 := by decide

/-- The only thing that can go wrong is an offset behind the end of a buffer, which aborts. -/
theorem C73_abort_iff (i o : Fmt) (hi : i.code ∈ codes) (ho : o.code ∈ codes)
    (ai : i.code.packed % 8 = 0) (ao : o.code.packed % 8 = 0)
    (inb outb : List Nat) (hin : ∀ x ∈ inb, x < 256) (pi po n : Nat) :
    map i o inb (8 * pi) outb (8 * po) n ≠ .fault ∧
    (map i o inb (8 * pi) outb (8 * po) n = .panic ↔ inb.length < pi ∨ outb.length < po) := by
  by_cases h1 : inb.length < pi
  · have : map i o inb (8 * pi) outb (8 * po) n = .panic := by
      unfold map
      rw [if_pos (by omega)]
    rw [this]
    simp [h1]
  by_cases h2 : outb.length < po
  · have : map i o inb (8 * pi) outb (8 * po) n = .panic := by
      unfold map
      rw [if_neg (by omega), if_pos (by omega)]
    rw [this]
    simp [h2]
  obtain ⟨k, outb', h, _⟩ := C73_map i o hi ho ai ao inb outb hin pi po n (by omega) (by omega)
  rw [h]
  simp
  omega

example : map ⟨⟨true, 8, 8, 8⟩, false⟩ ⟨⟨true, 8, 8, 8⟩, true⟩ [1] 8 [1] 16 1 = .panic := by decide

theorem mapLoop_add (i o : Fmt) (inb : List Nat) : ∀ n m inOff outb outOff,
    mapLoop i o inb (n + m) inOff outb outOff
      = (mapLoop i o inb n inOff outb outOff).bind fun r => mapLoop i o inb m r.2.1 r.1 r.2.2 := by
  intro n
  induction n with
  | zero =>
    intro m inOff outb outOff
    simp [mapLoop]
  | succ n ih =>
    intro m inOff outb outOff
    rw [show n + 1 + m = (n + m) + 1 by ring]
    simp only [mapLoop]
    cases unpack i.code i.big inb inOff with
    | none => rfl
    | some r =>
      simp only [Option.bind_some]
      cases pack o.code o.big outb outOff (convert i.code o.code r.1) with
      | none => rfl
      | some q =>
        simp only [Option.bind_some]
        exact ih m r.2 q.1 q.2

theorem map_ok (i o : Fmt) (inb : List Nat) (inOff : Nat) (outb : List Nat) (outOff n k : Nat)
    (outb' : List Nat) (inOff' outOff' : Nat)
    (h : map i o inb inOff outb outOff n = .ok k outb' inOff' outOff') :
    inOff ≤ inb.length * 8 ∧ outOff ≤ outb.length * 8 ∧
      k = clampSamples i o inb.length inOff outb.length outOff n ∧
      mapLoop i o inb k inOff outb outOff = some (outb', inOff', outOff') := by
  unfold map at h
  by_cases h1 : inOff > inb.length * 8
  · rw [if_pos h1] at h
    exact absurd h (by simp)
  rw [if_neg h1] at h
  by_cases h2 : outOff > outb.length * 8
  · rw [if_pos h2] at h
    exact absurd h (by simp)
  rw [if_neg h2] at h
  simp only at h
  obtain ⟨c, hc⟩ : ∃ c, c = clampSamples i o inb.length inOff outb.length outOff n := ⟨_, rfl⟩
  rw [← hc] at h ⊢
  refine ⟨by omega, by omega, ?_⟩
  by_cases h3 : c ≠ 0
  · rw [if_pos h3] at h
    cases hm : mapLoop i o inb c inOff outb outOff with
    | none =>
      rw [hm] at h
      exact absurd h (by simp [ofLoop])
    | some r =>
      rw [hm] at h
      simp only [ofLoop, Out.ok.injEq] at h
      obtain ⟨e1, e2, e3, e4⟩ := h
      refine ⟨e1.symm, ?_⟩
      rw [← e1, hm, ← e2, ← e3, ← e4]
  · rw [if_neg h3] at h
    simp only [Out.ok.injEq] at h
    obtain ⟨e1, e2, e3, e4⟩ := h
    have : c = 0 := by omega
    refine ⟨e1.symm, ?_⟩
    rw [← e1, this, ← e2, ← e3, ← e4]
    rfl

theorem min_split (a b c d n m : Nat) (hc : 0 < c) (hd : 0 < d) :
    min n (min (a / c) (b / d)) + min m (min ((a - min n (min (a / c) (b / d)) * c) / c)
      ((b - min n (min (a / c) (b / d)) * d) / d)) = min (n + m) (min (a / c) (b / d)) := by
  have h1 : ∀ a c k : Nat, 0 < c → (a - k * c) / c = a / c - k := by
    intro a c k hc
    rw [mul_comm]
    exact Nat.sub_mul_div a c k
  rw [h1 a c _ hc, h1 b d _ hd]
  omega

/-- Two calls, the second one with the offsets that the first one left, do the same as one
call for the sum of the numbers, even if the buffers end before. -/
theorem C73_pieces (i o : Fmt) (hi : i.code ∈ codes) (ho : o.code ∈ codes)
    (ai : i.code.packed % 8 = 0) (ao : o.code.packed % 8 = 0)
    (inb outb : List Nat) (hin : ∀ x ∈ inb, x < 256) (pi po n m : Nat)
    (hpi : pi ≤ inb.length) (hpo : po ≤ outb.length) :
    ∃ k₁ b₁ x₁ y₁ k₂ b₂ x₂ y₂,
      map i o inb (8 * pi) outb (8 * po) n = .ok k₁ b₁ x₁ y₁ ∧
      map i o inb x₁ b₁ y₁ m = .ok k₂ b₂ x₂ y₂ ∧
      map i o inb (8 * pi) outb (8 * po) (n + m) = .ok (k₁ + k₂) b₂ x₂ y₂ := by
  obtain ⟨a1, a2, a3⟩ := codes_wf _ hi
  obtain ⟨b1, b2, b3⟩ := codes_wf _ ho
  obtain ⟨k₁, c₁, h1, e1, l1, _⟩ := C73_map i o hi ho ai ao inb outb hin pi po n hpi hpo
  obtain ⟨_, _, ek₁, p1⟩ := map_ok _ _ _ _ _ _ _ _ _ _ _ h1
  have f1 : pi + k₁ * (i.code.packed / 8) ≤ inb.length := by
    have h1 : k₁ ≤ (inb.length - pi) / (i.code.packed / 8) := by omega
    have := (Nat.le_div_iff_mul_le (by omega)).1 h1
    omega
  have f2 : po + k₁ * (o.code.packed / 8) ≤ outb.length := by
    have h1 : k₁ ≤ (outb.length - po) / (o.code.packed / 8) := by omega
    have := (Nat.le_div_iff_mul_le (by omega)).1 h1
    omega
  obtain ⟨k₂, c₂, h2, e2, l2, _⟩ := C73_map i o hi ho ai ao inb c₁ hin
    (pi + k₁ * (i.code.packed / 8)) (po + k₁ * (o.code.packed / 8)) m f1 (by rw [l1]; exact f2)
  obtain ⟨_, _, ek₂, p2⟩ := map_ok _ _ _ _ _ _ _ _ _ _ _ h2
  obtain ⟨k₃, c₃, h3, e3, l3, _⟩ := C73_map i o hi ho ai ao inb outb hin pi po (n + m) hpi hpo
  obtain ⟨_, _, ek₃, p3⟩ := map_ok _ _ _ _ _ _ _ _ _ _ _ h3
  have hk : k₃ = k₁ + k₂ := by
    have := min_split (inb.length - pi) (outb.length - po) (i.code.packed / 8) (o.code.packed / 8)
      n m (by omega) (by omega)
    rw [← e1, ← e3, Nat.sub_sub, Nat.sub_sub] at this
    rw [l1] at e2
    rw [← e2] at this
    exact this.symm
  rw [hk, mapLoop_add, p1] at p3
  simp only [Option.bind_some] at p3
  rw [p2] at p3
  simp only [Option.some.injEq, Prod.mk.injEq] at p3
  refine ⟨_, _, _, _, _, _, _, _, h1, h2, ?_⟩
  rw [h3, hk, ← p3.1, ← p3.2.1, ← p3.2.2]

/-! ## C74: what the conversion does to the levels -/

theorem rescale_back (cut cut' : Bool) (w w' : Nat) (hw : 1 ≤ w) (h : w ≤ w') (l : Int)
    (hl : l < 2 ^ (w - 1)) : rescale cut' w' w (rescale cut w w' l) = l := by
  unfold rescale
  rw [if_pos h]
  by_cases he : w' ≤ w
  · have : w' = w := by omega
    rw [if_pos he, this]
    simp
  rw [if_neg he]
  have hp : (0 : Int) < 2 ^ (w' - w) := by positivity
  have h1 : l * 2 ^ (w' - w) / 2 ^ (w' - w) = l := Int.mul_ediv_cancel _ (by omega)
  have h2 : (l * 2 ^ (w' - w) + 2 ^ (w' - w - 1)) / 2 ^ (w' - w) = l := by
    rw [Int.mul_comm, Int.mul_add_ediv_left _ _ (by omega)]
    have : (2 : Int) ^ (w' - w - 1) / 2 ^ (w' - w) = 0 := by
      apply Int.ediv_eq_zero_of_lt (by positivity)
      exact pow_lt_pow_right₀ (by norm_num) (by omega)
    omega
  split_ifs
  · exact h1
  · rw [h2]
    omega

/-- Conversion to at least as many bits and back gives every level back. If the padding
bits of the input are zero, the containers are the same as well. -/
theorem C74_lossless (i o : Fmt) (hi : i.code ∈ codes) (ho : o.code ∈ codes)
    (ai : i.code.packed % 8 = 0) (ao : o.code.packed % 8 = 0)
    (hw : i.code.width ≤ o.code.width) (inb mid outb : List Nat) (hin : ∀ x ∈ inb, x < 256)
    (hmid : ∀ x ∈ mid, x < 256) (pi pm po n : Nat)
    (f1 : pi + n * (i.code.packed / 8) ≤ inb.length)
    (f2 : pm + n * (o.code.packed / 8) ≤ mid.length)
    (f3 : po + n * (i.code.packed / 8) ≤ outb.length) :
    ∃ mid' outb' x y x' y',
      map i o inb (8 * pi) mid (8 * pm) n = .ok n mid' x y ∧
      map o i mid' (8 * pm) outb (8 * po) n = .ok n outb' x' y' ∧
      ∀ j, j < n →
        level i.code.signed i.code.width
          (container i.big (i.code.packed / 8) outb' (po + j * (i.code.packed / 8)))
        = level i.code.signed i.code.width
          (container i.big (i.code.packed / 8) inb (pi + j * (i.code.packed / 8))) ∧
        (container i.big (i.code.packed / 8) inb (pi + j * (i.code.packed / 8))
            < 2 ^ i.code.width →
          container i.big (i.code.packed / 8) outb' (po + j * (i.code.packed / 8))
          = container i.big (i.code.packed / 8) inb (pi + j * (i.code.packed / 8))) := by
  obtain ⟨a1, a2, a3⟩ := codes_wf _ hi
  obtain ⟨b1, b2, b3⟩ := codes_wf _ ho
  have fit : ∀ p s len : Nat, 0 < s → p + n * s ≤ len → n ≤ (len - p) / s := by
    intro p s len hs h
    rw [Nat.le_div_iff_mul_le hs]
    omega
  obtain ⟨k, mid', h1, e1, l1, u1, v1, g1⟩ :=
    C73_map i o hi ho ai ao inb mid hin pi pm n (by omega) (by omega)
  have hk : k = n := by
    have := fit _ _ _ (by omega) f1
    have := fit _ _ _ (by omega) f2
    omega
  subst hk
  have hm : ∀ x ∈ mid', x < 256 := by
    intro x hx
    obtain ⟨q, hq⟩ := List.mem_iff_getElem?.1 hx
    by_cases hc : q < pm ∨ pm + k * (o.code.packed / 8) ≤ q
    · rw [u1 q hc] at hq
      exact hmid x (List.mem_of_getElem? hq)
    · exact v1 q x (by omega) (by omega) hq
  obtain ⟨k', outb', h2, e2, l2, u2, v2, g2⟩ :=
    C73_map o i ho hi ao ai mid' outb hm pm po k (by omega) (by omega)
  have hk' : k' = k := by
    have := fit _ _ _ (by omega) (l1 ▸ f2 : pm + k * (o.code.packed / 8) ≤ mid'.length)
    have := fit _ _ _ (by omega) f3
    omega
  subst hk'
  refine ⟨mid', outb', _, _, _, _, h1, h2, ?_⟩
  intro j hj
  obtain ⟨p1, p2⟩ := g1 j hj
  obtain ⟨q1, q2⟩ := g2 j hj
  have hlev : level i.code.signed i.code.width
          (container i.big (i.code.packed / 8) outb' (po + j * (i.code.packed / 8)))
        = level i.code.signed i.code.width
          (container i.big (i.code.packed / 8) inb (pi + j * (i.code.packed / 8))) := by
    rw [q1, p1]
    exact rescale_back _ _ _ _ a1 hw _ (level_range _ _ a1 _).2
  refine ⟨hlev, fun hlt => ?_⟩
  unfold level at hlev
  rw [Nat.mod_eq_of_lt hlt, Nat.mod_eq_of_lt q2] at hlev
  have hc : ((2 ^ i.code.width : Nat) : Int) = (2 : Int) ^ i.code.width := by push_cast; rfl
  split_ifs at hlev <;> omega

/-- 16 bits to 24 bits in a container of 32 bits, and back. -/
example : map ⟨⟨false, 16, 16, 16⟩, false⟩ ⟨⟨true, 24, 32, 32⟩, true⟩ [0x34, 0x12] 0
      [9, 9, 9, 9] 0 1 = .ok 1 [0, 0x92, 0x34, 0] 16 32 ∧
    map ⟨⟨true, 24, 32, 32⟩, true⟩ ⟨⟨false, 16, 16, 16⟩, false⟩ [0, 0x92, 0x34, 0] 0 [0, 0] 0 1
      = .ok 1 [0x34, 0x12] 32 16 := by decide

/-- Conversion to fewer bits, unless both formats are unsigned, gives the nearest of all
levels that the output format has: no level `m` is nearer. -/
theorem C74_nearest (i o : Fmt) (hi : i.code ∈ codes) (ho : o.code ∈ codes)
    (ai : i.code.packed % 8 = 0) (ao : o.code.packed % 8 = 0)
    (hw : o.code.width < i.code.width) (hs : i.code.signed = true ∨ o.code.signed = true)
    (inb outb : List Nat) (hin : ∀ x ∈ inb, x < 256) (pi po n k : Nat) (outb' : List Nat)
    (x y : Nat) (h : map i o inb (8 * pi) outb (8 * po) n = .ok k outb' x y)
    (j : Nat) (hj : j < k) (a b m : Int)
    (ha : a = level i.code.signed i.code.width
      (container i.big (i.code.packed / 8) inb (pi + j * (i.code.packed / 8))))
    (hb : b = level o.code.signed o.code.width
      (container o.big (o.code.packed / 8) outb' (po + j * (o.code.packed / 8))))
    (hm : m < 2 ^ (o.code.width - 1)) :
    |a - b * 2 ^ (i.code.width - o.code.width)| ≤ |a - m * 2 ^ (i.code.width - o.code.width)| := by
  obtain ⟨a1, a2, a3⟩ := codes_wf _ hi
  obtain ⟨b1, b2, b3⟩ := codes_wf _ ho
  obtain ⟨o1, o2, _, _⟩ := map_ok _ _ _ _ _ _ _ _ _ _ _ h
  obtain ⟨k', c', h', _, _, _, _, g⟩ := C73_map i o hi ho ai ao inb outb hin pi po n (by omega) (by omega)
  rw [h] at h'
  simp only [Out.ok.injEq] at h'
  obtain ⟨e1, e2, _, _⟩ := h'
  subst e1 e2
  have hb' := (g j hj).1
  rw [← ha, ← hb] at hb'
  have hcut : (!i.code.signed && !o.code.signed) = false := by
    rcases hs with hs | hs <;> rw [hs] <;> simp
  rw [hcut] at hb'
  unfold rescale at hb'
  rw [if_neg (by omega)] at hb'
  simp only [Bool.false_eq_true, if_false] at hb'
  have hd : (2 : Int) ^ (i.code.width - o.code.width) = 2 ^ (i.code.width - o.code.width - 1) * 2 := by
    rw [← pow_succ]
    congr 1
    omega
  rw [hd] at hb' ⊢
  obtain ⟨D, hD⟩ : ∃ D : Int, D = 2 ^ (i.code.width - o.code.width - 1) := ⟨_, rfl⟩
  have hD0 : 0 < D := by rw [hD]; positivity
  rw [← hD] at hb' ⊢
  obtain ⟨M, hM⟩ : ∃ M : Int, M = 2 ^ (o.code.width - 1) := ⟨_, rfl⟩
  rw [← hM] at hb' hm
  obtain ⟨q, hq⟩ : ∃ q, q = (a + D) / (D * 2) := ⟨_, rfl⟩
  rw [← hq] at hb'
  have q1 : q * (D * 2) ≤ a + D := by rw [hq]; exact Int.ediv_mul_le _ (by omega)
  have q2 : a + D < (q + 1) * (D * 2) := by
    rw [hq]
    exact Int.lt_ediv_add_one_mul_self _ (by omega)
  have key : ∀ s t : Int, s ≤ t → s * D ≤ t * D := fun s t hst => mul_le_mul_of_nonneg_right hst hD0.le
  have em : m * (D * 2) = 2 * (m * D) := by ring
  have eb : b * (D * 2) = 2 * (b * D) := by ring
  have eq1 : q * (D * 2) = 2 * (q * D) := by ring
  have eq2 : (q + 1) * (D * 2) = 2 * (q * D) + 2 * D := by ring
  rw [em, eb]
  rw [eq1] at q1
  rw [eq2] at q2
  by_cases hc : q ≤ M - 1
  · have : b = q := by omega
    subst this
    rcases lt_trichotomy m b with hmb | hmb | hmb
    · have := key (m + 1) b (by omega)
      have e : (m + 1) * D = m * D + D := by ring
      rw [e] at this
      rw [abs_of_nonneg (by linarith : 0 ≤ a - 2 * (m * D))]
      rw [abs_le]
      constructor <;> linarith
    · rw [hmb]
    · have := key (b + 1) m (by omega)
      have e : (b + 1) * D = b * D + D := by ring
      rw [e] at this
      rw [abs_of_nonpos (by linarith : a - 2 * (m * D) ≤ 0)]
      rw [abs_le]
      constructor <;> linarith
  · have hbm : b = M - 1 := by omega
    have h1 := key m b (by omega)
    have h2 := key b q (by omega)
    have h3 := key (b + 1) q (by omega)
    have e : (b + 1) * D = b * D + D := by ring
    rw [e] at h3
    rw [abs_of_nonneg (by linarith : 0 ≤ a - 2 * (b * D)),
      abs_of_nonneg (by linarith : 0 ≤ a - 2 * (m * D))]
    linarith

/-- The largest 16-bit level does not wrap around; `0x00ff` goes up to `0x0100`. -/
example : map ⟨⟨true, 16, 16, 16⟩, true⟩ ⟨⟨true, 8, 8, 8⟩, true⟩ [0x7f, 0xff, 0x00, 0xff, 0x80, 0]
    0 [0, 0, 0] 0 3 = .ok 3 [0x7f, 0x01, 0x80] 48 24 := by decide

/-- Between unsigned formats bits are cut off, so the level is not always the nearest: 16 bits
`0x80ff`, which is level 255, becomes 8 bits `0x80`, which is level 0, though level 1 stands
for 256. The same level of signed format is rounded. -/
theorem C74_nearest_fails :
    ∃ outb x y, map ⟨⟨false, 16, 16, 16⟩, true⟩ ⟨⟨false, 8, 8, 8⟩, true⟩ [0x80, 0xff] 0 [0] 0 1
        = .ok 1 outb x y ∧
      level false 16 (container true 2 [0x80, 0xff] 0) = 255 ∧
      level false 8 (container true 1 outb 0) = 0 ∧
      |(255 : Int) - 1 * 2 ^ 8| < |(255 : Int) - 0 * 2 ^ 8| :=
  ⟨[0x80], 16, 8, by decide, by decide, by decide, by norm_num⟩

/-- Between unsigned formats the level is at most one step of the output format below. -/
theorem C74_unsigned_partial (i o : Fmt) (hi : i.code ∈ codes) (ho : o.code ∈ codes)
    (ai : i.code.packed % 8 = 0) (ao : o.code.packed % 8 = 0)
    (hw : o.code.width < i.code.width) (hs : i.code.signed = false ∧ o.code.signed = false)
    (inb outb : List Nat) (hin : ∀ x ∈ inb, x < 256) (pi po n k : Nat) (outb' : List Nat)
    (x y : Nat) (h : map i o inb (8 * pi) outb (8 * po) n = .ok k outb' x y)
    (j : Nat) (hj : j < k) (a b : Int)
    (ha : a = level i.code.signed i.code.width
      (container i.big (i.code.packed / 8) inb (pi + j * (i.code.packed / 8))))
    (hb : b = level o.code.signed o.code.width
      (container o.big (o.code.packed / 8) outb' (po + j * (o.code.packed / 8)))) :
    b * 2 ^ (i.code.width - o.code.width) ≤ a ∧
      a < (b + 1) * 2 ^ (i.code.width - o.code.width) := by
  obtain ⟨o1, o2, _, _⟩ := map_ok _ _ _ _ _ _ _ _ _ _ _ h
  obtain ⟨k', c', h', _, _, _, _, g⟩ := C73_map i o hi ho ai ao inb outb hin pi po n (by omega) (by omega)
  rw [h] at h'
  simp only [Out.ok.injEq] at h'
  obtain ⟨e1, e2, _, _⟩ := h'
  subst e1 e2
  have hb' := (g j hj).1
  rw [← ha, ← hb, hs.1, hs.2] at hb'
  unfold rescale at hb'
  rw [if_neg (by omega)] at hb'
  simp only [Bool.not_false, Bool.and_self, if_true] at hb'
  have hp : (0 : Int) < 2 ^ (i.code.width - o.code.width) := by positivity
  rw [hb']
  exact ⟨Int.ediv_mul_le _ (by omega), Int.lt_ediv_add_one_mul_self _ hp⟩

theorem rescale_mono (cut : Bool) (w w' : Nat) (l l' : Int) (h : l ≤ l') :
    rescale cut w w' l ≤ rescale cut w w' l' := by
  unfold rescale
  have hp : (0 : Int) < 2 ^ (w - w') := by positivity
  split_ifs
  · exact mul_le_mul_of_nonneg_right h (by positivity)
  · exact Int.ediv_le_ediv hp h
  · exact min_le_min_left _ (Int.ediv_le_ediv hp (by linarith))

theorem rescale_zero (cut : Bool) (w w' : Nat) : rescale cut w w' 0 = 0 := by
  unfold rescale
  by_cases h : w ≤ w'
  · rw [if_pos h]
    simp
  · rw [if_neg h]
    have : (2 : Int) ^ (w - w' - 1) / 2 ^ (w - w') = 0 := by
      apply Int.ediv_eq_zero_of_lt (by positivity)
      exact pow_lt_pow_right₀ (by norm_num) (by omega)
    have h1 : (0 : Int) < 2 ^ (w' - 1) := by positivity
    split_ifs
    · simp
    · rw [zero_add, this]
      omega

/-- The order of levels is kept: a sample that is not louder than another one does not become
louder. -/
theorem C74_monotone (i o : Fmt) (hi : i.code ∈ codes) (ho : o.code ∈ codes)
    (ai : i.code.packed % 8 = 0) (ao : o.code.packed % 8 = 0)
    (inb outb : List Nat) (hin : ∀ x ∈ inb, x < 256) (pi po n k : Nat) (outb' : List Nat)
    (x y : Nat) (h : map i o inb (8 * pi) outb (8 * po) n = .ok k outb' x y)
    (j j' : Nat) (hj : j < k) (hj' : j' < k)
    (hle : level i.code.signed i.code.width
        (container i.big (i.code.packed / 8) inb (pi + j * (i.code.packed / 8)))
      ≤ level i.code.signed i.code.width
        (container i.big (i.code.packed / 8) inb (pi + j' * (i.code.packed / 8)))) :
    level o.code.signed o.code.width
        (container o.big (o.code.packed / 8) outb' (po + j * (o.code.packed / 8)))
      ≤ level o.code.signed o.code.width
        (container o.big (o.code.packed / 8) outb' (po + j' * (o.code.packed / 8))) := by
  obtain ⟨o1, o2, _, _⟩ := map_ok _ _ _ _ _ _ _ _ _ _ _ h
  obtain ⟨k', c', h', _, _, _, _, g⟩ := C73_map i o hi ho ai ao inb outb hin pi po n (by omega) (by omega)
  rw [h] at h'
  simp only [Out.ok.injEq] at h'
  obtain ⟨e1, e2, _, _⟩ := h'
  subst e1 e2
  rw [(g j hj).1, (g j' hj').1]
  exact rescale_mono _ _ _ _ _ hle

/-- Silence stays silence, in every format. -/
theorem C74_silence (i o : Fmt) (hi : i.code ∈ codes) (ho : o.code ∈ codes)
    (ai : i.code.packed % 8 = 0) (ao : o.code.packed % 8 = 0)
    (inb outb : List Nat) (hin : ∀ x ∈ inb, x < 256) (pi po n k : Nat) (outb' : List Nat)
    (x y : Nat) (h : map i o inb (8 * pi) outb (8 * po) n = .ok k outb' x y)
    (j : Nat) (hj : j < k)
    (h0 : level i.code.signed i.code.width
        (container i.big (i.code.packed / 8) inb (pi + j * (i.code.packed / 8))) = 0) :
    level o.code.signed o.code.width
        (container o.big (o.code.packed / 8) outb' (po + j * (o.code.packed / 8))) = 0 := by
  obtain ⟨o1, o2, _, _⟩ := map_ok _ _ _ _ _ _ _ _ _ _ _ h
  obtain ⟨k', c', h', _, _, _, _, g⟩ := C73_map i o hi ho ai ao inb outb hin pi po n (by omega) (by omega)
  rw [h] at h'
  simp only [Out.ok.injEq] at h'
  obtain ⟨e1, e2, _, _⟩ := h'
  subst e1 e2
  rw [(g j hj).1, h0]
  exact rescale_zero _ _ _

/-- Silence and the two ends of the range, from 8 bits unsigned to 16 bits signed. -/
example : map ⟨⟨false, 8, 8, 8⟩, true⟩ ⟨⟨true, 16, 16, 16⟩, true⟩ [0x80, 0x00, 0xff] 0
    [1, 1, 1, 1, 1, 1] 0 3 = .ok 3 [0, 0, 0x80, 0, 0x7f, 0] 24 48 := by decide

/-! ## C75: samples of 18 and 20 bits without padding -/

/-- Reading works if the output format has whole bytes and at least as many significant
bits. Missing: fewer bits in the output, and writing, which do not work, see below. -/
theorem C75_packed_partial (i o : Fmt) (hi : i.code ∈ codes) (ho : o.code ∈ codes)
    (ai : i.code.packed % 8 ≠ 0) (ao : o.code.packed % 8 = 0)
    (hw : i.code.width ≤ o.code.width)
    (inb outb : List Nat) (hin : ∀ x ∈ inb, x < 256) (off po n : Nat)
    (hoff : off % (i.code.packed % 8) = 0)
    (f1 : off + n * i.code.packed ≤ 8 * inb.length)
    (f2 : po + n * (o.code.packed / 8) ≤ outb.length) :
    ∃ outb', map i o inb off outb (8 * po) n
        = .ok n outb' (off + n * i.code.packed) (8 * (po + n * (o.code.packed / 8))) ∧
      outb'.length = outb.length ∧
      (∀ q, q < po ∨ po + n * (o.code.packed / 8) ≤ q → outb'[q]? = outb[q]?) ∧
      ∀ j, j < n →
        level o.code.signed o.code.width
          (container o.big (o.code.packed / 8) outb' (po + j * (o.code.packed / 8)))
          = level i.code.signed i.code.width
              (packedSample i.big i.code.width inb (off + j * i.code.packed))
            * 2 ^ (o.code.width - i.code.width) ∧
        container o.big (o.code.packed / 8) outb' (po + j * (o.code.packed / 8))
          < 2 ^ o.code.width := by
  obtain ⟨a1, a2, a3⟩ := codes_wf _ hi
  obtain ⟨b1, b2, b3⟩ := codes_wf _ ho
  have hpanic1 : ¬ off > inb.length * 8 := by omega
  have hpanic2 : ¬ 8 * po > outb.length * 8 := by omega
  have hk : clampSamples i o inb.length off outb.length (8 * po) n = n := by
    unfold clampSamples
    rw [clamp_bytes _ ho ao]
    have h1 : n ≤ (inb.length * 8 - off) / i.code.packed := by
      rw [Nat.le_div_iff_mul_le (by omega)]
      omega
    have h2 : n ≤ (outb.length - po) / (o.code.packed / 8) := by
      rw [Nat.le_div_iff_mul_le (by omega)]
      omega
    omega
  rw [← packedOctets_eq _ ao] at f2 ⊢
  obtain ⟨outb', g1, g2, g3, g4, g5⟩ :=
    mapLoop_packed i o hi ho ai ao hw inb hin n off outb po hoff f1 f2
  refine ⟨outb', ?_, g2, g3, ?_⟩
  · unfold map
    rw [if_neg hpanic1, if_neg hpanic2]
    simp only
    rw [hk, g1]
    by_cases h0 : n = 0
    · subst h0
      simp only [mapLoop, Option.some.injEq, Prod.mk.injEq] at g1
      rw [if_neg (by simp), g1.1]
      simp
    · rw [if_pos h0]
      rfl
  · intro j hj
    obtain ⟨q1, q2⟩ := g5 j hj
    refine ⟨?_, q2⟩
    rw [q1]
    unfold target rescale
    rw [if_pos hw]

/-- Two samples of 20 bits, 16 and -16 (the second one begins in the middle of a byte). -/
example : map ⟨⟨true, 20, 20, 32⟩, true⟩ ⟨⟨true, 32, 32, 32⟩, true⟩ [0, 1, 0x0f, 0xff, 0xf0] 0
    [9, 9, 9, 9, 9, 9, 9, 9] 0 2 = .ok 2 [0, 1, 0, 0, 0xff, 0xff, 0, 0] 40 64 := by decide

/-- Reading to fewer bits is wrong: if a sample begins in the middle of a byte, the bits of the
sample in front of it are not cleared, and the rounding sees a value out of range. Here the
second 18-bit sample is 260, which is 65 in 16 bits, but the result is the largest level. -/
theorem C75_read_narrow_fails :
    ∃ outb x y, map ⟨⟨true, 18, 18, 32⟩, true⟩ ⟨⟨true, 16, 16, 16⟩, true⟩
        [0x00, 0x40, 0x40, 0x10, 0x40] 0 [0, 0, 0, 0] 0 2 = .ok 2 outb x y ∧
      level true 18 (packedSample true 18 [0x00, 0x40, 0x40, 0x10, 0x40] 18) = 260 ∧
      level true 16 (container true 2 outb 2) = 32767 := by
  refine ⟨[0, 64, 127, 255], 36, 32, ?_, ?_, ?_⟩ <;> decide

/-- Writing 18-bit samples is wrong: the bits of an octet that go to the next byte are shifted
by the wrong number (`bit_index` in place of `8 - bit_index`). The 18-bit level of the sample is
1, but the level in the output is 0. -/
theorem C75_write18_fails :
    ∃ outb x y, map ⟨⟨true, 32, 32, 32⟩, true⟩ ⟨⟨true, 18, 18, 32⟩, true⟩
        [0x00, 0x00, 0x40, 0x00] 0 [0, 0, 0] 0 1 = .ok 1 outb x y ∧
      level true 32 (container true 4 [0x00, 0x00, 0x40, 0x00] 0) = 1 * 2 ^ (32 - 18) ∧
      level true 18 (packedSample true 18 outb 0) = 0 := by
  refine ⟨[0, 0, 4], 32, 18, ?_, ?_, ?_⟩ <;> decide

/-- Writing 20-bit samples is wrong: the upper bits of a negative value are not cut off, and
they overwrite the end of the sample in front. The first sample is 1, and it is read back as
31, in place of 16. -/
theorem C75_write20_fails :
    ∃ outb x y, map ⟨⟨true, 16, 16, 16⟩, true⟩ ⟨⟨true, 20, 20, 32⟩, true⟩
        [0x00, 0x01, 0xff, 0xff] 0 [0, 0, 0, 0, 0] 0 2 = .ok 2 outb x y ∧
      level true 16 (container true 2 [0x00, 0x01, 0xff, 0xff] 0) = 1 ∧
      level true 20 (packedSample true 20 outb 0) = 31 := by
  refine ⟨[0, 1, 255, 255, 240], 32, 40, ?_, ?_, ?_⟩ <;> decide

end Verif.PcmFormat
