import Verif.RtpCodec.Spec

namespace Verif.RtpCodec
open Verif.Bytes

/-! ## Bit fields -/

theorem bits_version : ∀ x : BitVec 8, ((x >>> 6) &&& 0x3#8 = 2) ↔ x.toNat / 64 = 2 := by decide +kernel
theorem bits_padding : ∀ x : BitVec 8, ((x &&& (0x1#8 <<< 5)) != 0#8) = decide (x.toNat / 32 % 2 = 1) := by
  decide +kernel
theorem bits_ext : ∀ x : BitVec 8, ((x &&& (0x1#8 <<< 4)) != 0#8) = decide (x.toNat / 16 % 2 = 1) := by
  decide +kernel
theorem bits_csrc : ∀ x : BitVec 8, ((x >>> 0) &&& 0xf#8).toNat = x.toNat % 16 := by decide +kernel
theorem bits_marker : ∀ x : BitVec 8, ((x &&& (0x1#8 <<< 7)) != 0#8) = decide (x.toNat / 128 = 1) := by
  decide +kernel
theorem bits_pt : ∀ x : BitVec 8, ((x >>> 0) &&& 0x7f#8).toNat = x.toNat % 128 := by decide +kernel

theorem beNat_singleton (x : Byte) : beNat [x] = x.toNat := by simp [beNat]

theorem load_spec (l : List Byte) (hl : l.length = 12) : ∃ h, Header.load l = some h ∧
    h.flags.toNat = beNat (rdAt l 0 1) ∧ h.mpt.toNat = beNat (rdAt l 1 1) ∧
    h.seqnum = BitVec.ofNat 16 (beNat (rdAt l 2 2)) ∧
    h.timestamp = BitVec.ofNat 32 (beNat (rdAt l 4 4)) ∧
    h.ssrc = BitVec.ofNat 32 (beNat (rdAt l 8 4)) := by
  match l, hl with
  | [a, b, c, d, e, f, g, h, i, j, k, l], _ =>
    exact ⟨_, rfl, by simp [rdAt, beNat_singleton], by simp [rdAt, beNat_singleton], rfl, rfl, rfl⟩

theorem store_length (h : Header) : h.store.length = 12 := by
  simp [Header.store, toBe_length]

/-! ## The parser as a computation of region boundaries -/

/-- Beginning of the payload and size of the padding. -/
def layout (b : List Byte) : Option (Nat × Nat) :=
  let o := beNat (rdAt b 0 1)
  let hs := 12 + 4 * (o % 16)
  let x := o / 16 % 2
  let hs2 := hs + 4 * x + x * (4 * beNat (rdAt b (hs + 2) 2))
  let pad := beNat (rdAt b (b.length - 1) 1)
  if b.length < 12 then none
  else if o / 64 ≠ 2 then none
  else if b.length < hs + 4 * x then none
  else if b.length < hs2 then none
  else if o / 32 % 2 = 0 then some (hs2, 0)
  else if b.length = hs2 ∨ pad = 0 ∨ b.length - hs2 < pad then none
  else some (hs2, pad)

/-- The header structure read from the beginning of a packet. -/
def headerOf (b : List Byte) : Header := ((Header.load (rdAt b 0 12)).getD Header.clear)

theorem headerOf_spec (b : List Byte) (h : 12 ≤ b.length) :
    Header.load (rdAt b 0 12) = some (headerOf b) ∧
    (headerOf b).flags.toNat = beNat (rdAt b 0 1) ∧ (headerOf b).mpt.toNat = beNat (rdAt b 1 1) ∧
    (headerOf b).seqnum = BitVec.ofNat 16 (beNat (rdAt b 2 2)) ∧
    (headerOf b).timestamp = BitVec.ofNat 32 (beNat (rdAt b 4 4)) ∧
    (headerOf b).ssrc = BitVec.ofNat 32 (beNat (rdAt b 8 4)) := by
  obtain ⟨hd, h1, h2, h3, h4, h5, h6⟩ := load_spec (rdAt b 0 12) (rdAt_length _ _ _ (by omega))
  rw [rdAt_rdAt _ _ _ _ _ (by omega)] at h2 h3 h4 h5 h6
  simp only [Nat.zero_add] at h2 h3 h4 h5 h6
  have : headerOf b = hd := by simp [headerOf, h1]
  rw [this]
  exact ⟨h1, h2, h3, h4, h5, h6⟩

theorem slice_rd (m : List Byte) (buf : Slice) (i n : Nat) (h : i + n ≤ buf.len) :
    buf.rd m i n = some (rdAt (buf.bytes m) i n) := by
  unfold Slice.rd Slice.bytes
  rw [if_pos h, rdAt_rdAt _ _ _ _ _ h]

theorem bytes_length (m : List Byte) (buf : Slice) (hv : buf.Valid m) : (buf.bytes m).length = buf.len :=
  rdAt_length _ _ _ hv

theorem parse_eq (enc : Nat → Option (BitVec 32)) (flags : BitVec 32) (m : List Byte) (buf : Slice)
    (hv : buf.Valid m) : parse enc flags m buf = match layout (buf.bytes m) with
      | none => .reject
      | some (begin, pad) =>
        parseFields enc flags buf (headerOf (buf.bytes m)) begin (buf.len - pad) pad := by
  obtain ⟨b, hb⟩ : ∃ b, b = buf.bytes m := ⟨_, rfl⟩
  have hlen : b.length = buf.len := by rw [hb]; exact bytes_length m buf hv
  unfold parse layout
  rw [← hb]
  simp only [hlen]
  by_cases h1 : buf.len < 12
  · simp [headerLen, h1]
  have h1' : ¬ buf.len < headerLen := h1
  rw [if_neg h1', if_neg h1]
  have hrd : buf.rd m 0 headerLen = some (rdAt b 0 12) := by
    rw [hb]; exact slice_rd m buf 0 12 (by omega)
  obtain ⟨hl, hf, _⟩ := headerOf_spec b (by omega)
  rw [hrd, Option.bind_some, hl]
  simp only [need]
  obtain ⟨h, hh⟩ : ∃ h, h = headerOf b := ⟨_, rfl⟩
  rw [← hh] at hf ⊢
  have hver : h.version = 2 ↔ beNat (rdAt b 0 1) / 64 = 2 := by
    unfold Header.version; rw [bits_version, hf]
  have hext : h.hasExtension = decide (beNat (rdAt b 0 1) / 16 % 2 = 1) := by
    unfold Header.hasExtension; rw [bits_ext, hf]
  have hpad : h.hasPadding = decide (beNat (rdAt b 0 1) / 32 % 2 = 1) := by
    unfold Header.hasPadding; rw [bits_padding, hf]
  have hsz : h.size = 12 + 4 * (beNat (rdAt b 0 1) % 16) := by
    unfold Header.size Header.numCsrc; rw [bits_csrc, hf]; simp [headerLen]; omega
  obtain ⟨o, ho⟩ : ∃ o, o = beNat (rdAt b 0 1) := ⟨_, rfl⟩
  rw [← ho] at hver hext hpad hsz ⊢
  by_cases h2 : o / 64 = 2
  swap
  · rw [if_pos (c := h.version ≠ 2) (by rw [ne_eq, hver]; exact h2), if_pos h2]
  rw [if_neg (c := h.version ≠ 2) (by rw [ne_eq, hver]; simp [h2]), if_neg (c := o / 64 ≠ 2) (by simp [h2]), hsz]
  have key : ∀ hs2, hs2 ≤ buf.len → ((parsePadding m buf h hs2).bind fun (pend, padSize) =>
        parseFields enc flags buf h hs2 pend padSize) =
      match (if o / 32 % 2 = 0 then some (hs2, 0)
        else if buf.len = hs2 ∨ beNat (rdAt b (buf.len - 1) 1) = 0 ∨
          buf.len - hs2 < beNat (rdAt b (buf.len - 1) 1) then none
        else some (hs2, beNat (rdAt b (buf.len - 1) 1)) : Option (Nat × Nat)) with
      | none => .reject
      | some (begin, pad) => parseFields enc flags buf h begin (buf.len - pad) pad := by
    intro hs2 hle
    unfold parsePadding
    rw [hpad]
    by_cases h5 : o / 32 % 2 = 0
    · simp [h5, Out.bind]
    · have h5' : o / 32 % 2 = 1 := by omega
      simp only [h5', decide_true, if_true, Nat.one_ne_zero, if_false]
      by_cases h6 : hs2 = buf.len
      · simp [h6, Out.bind]
      · rw [if_neg h6, slice_rd m buf (buf.len - 1) 1 (by omega), ← hb]
        simp only [need]
        by_cases h7 : beNat (rdAt b (buf.len - 1) 1) = 0
        · simp [h7, Out.bind]
        · rw [if_neg h7]
          by_cases h8 : buf.len - hs2 < beNat (rdAt b (buf.len - 1) 1)
          · simp [h8, Out.bind]
          · rw [if_neg h8, if_neg (by omega)]; rfl
  by_cases h3 : o / 16 % 2 = 1
  · simp only [hext, h3, decide_true, if_true, extLen]
    by_cases h4 : buf.len < 12 + 4 * (o % 16) + 4
    · rw [if_pos h4, if_pos (by omega)]
    · rw [if_neg h4, if_neg (by omega), slice_rd m buf _ _ (by omega), ← hb]
      simp only [Option.map_some, extDataSize]
      rw [rdAt_rdAt _ _ _ _ _ (by omega), Nat.shiftLeft_eq]
      have e : 12 + 4 * (o % 16) + 4 * 1 + 1 * (4 * beNat (rdAt b (12 + 4 * (o % 16) + 2) 2)) =
        12 + 4 * (o % 16) + 4 + beNat (rdAt b (12 + 4 * (o % 16) + 2) 2) * 2 ^ 2 := by omega
      rw [e]
      by_cases h9 : buf.len < 12 + 4 * (o % 16) + 4 + beNat (rdAt b (12 + 4 * (o % 16) + 2) 2) * 2 ^ 2
      · rw [if_pos h9, if_pos h9]
      · rw [if_neg h9, if_neg h9]
        exact key _ (by omega)
  · have h3' : o / 16 % 2 = 0 := by omega
    have hx : h.hasExtension = false := by rw [hext]; simp [h3]
    simp only [hx, h3', Bool.false_eq_true, if_false, Nat.mul_zero, Nat.add_zero, Nat.zero_mul]
    by_cases h4 : buf.len < 12 + 4 * (o % 16)
    · rw [if_pos h4, if_pos h4]
    · rw [if_neg h4, if_neg h4, if_neg h4, if_neg h4]
      have h4' : 12 + 4 * (o % 16) ≤ buf.len := by omega
      exact key _ h4'

theorem layout_bounds {b : List Byte} {begin pad : Nat} (h : layout b = some (begin, pad)) :
    12 ≤ begin ∧ begin + pad ≤ b.length ∧ 12 ≤ b.length ∧ pad ≤ 255 := by
  unfold layout at h
  have := beNat_lt (rdAt b (b.length - 1) 1)
  by_cases h1 : b.length < 12
  · simp [h1] at h
  · have hl : (rdAt b (b.length - 1) 1).length = 1 := rdAt_length _ _ _ (by omega)
    rw [hl] at this
    simp only [h1, if_false] at h
    repeat' split at h
    all_goals simp at h
    all_goals omega

/-- The regions of a packet with a given layout. -/
def regionsOf (b : List Byte) (begin pad : Nat) : Regions where
  fixed := rdAt b 0 12
  csrc := rdAt b 12 (4 * (beNat (rdAt b 0 1) % 16))
  ext := rdAt b (12 + 4 * (beNat (rdAt b 0 1) % 16)) (begin - (12 + 4 * (beNat (rdAt b 0 1) % 16)))
  payload := rdAt b begin (b.length - pad - begin)
  padding := rdAt b (b.length - pad) pad

theorem layout_sound {b : List Byte} {begin pad : Nat} (h : layout b = some (begin, pad)) :
    (regionsOf b begin pad).WellFormed ∧ (regionsOf b begin pad).wire = b ∧
    (regionsOf b begin pad).fixed.length + (regionsOf b begin pad).csrc.length +
      (regionsOf b begin pad).ext.length = begin ∧
    (regionsOf b begin pad).padding.length = pad ∧
    (regionsOf b begin pad).payload.length = b.length - pad - begin := by
  obtain ⟨hb1, hb2, hb3, hb4⟩ := layout_bounds h
  have hx : rdAt (rdAt b 0 12) 0 1 = rdAt b 0 1 := by rw [rdAt_rdAt _ _ _ _ _ (by omega)]
  have ho : (regionsOf b begin pad).octet0 = beNat (rdAt b 0 1) := by
    unfold Regions.octet0 regionsOf
    simp only
    rw [← hx]; simp [rdAt]
  obtain ⟨o, hoo⟩ : ∃ o, o = beNat (rdAt b 0 1) := ⟨_, rfl⟩
  have hold := h
  unfold layout at h
  simp only [← hoo] at h
  rw [if_neg (by omega)] at h
  by_cases h2 : o / 64 = 2
  swap
  · simp [h2] at h
  rw [if_neg (by simp [h2])] at h
  by_cases h3 : b.length < 12 + 4 * (o % 16) + 4 * (o / 16 % 2)
  · simp [h3] at h
  rw [if_neg h3] at h
  by_cases h4 : b.length < 12 + 4 * (o % 16) + 4 * (o / 16 % 2) +
      o / 16 % 2 * (4 * beNat (rdAt b (12 + 4 * (o % 16) + 2) 2))
  · simp [h4] at h
  rw [if_neg h4] at h
  -- value of begin and the padding condition
  have hbeg : begin = 12 + 4 * (o % 16) + 4 * (o / 16 % 2) +
      o / 16 % 2 * (4 * beNat (rdAt b (12 + 4 * (o % 16) + 2) 2)) ∧
      (o / 32 % 2 = 0 → pad = 0) ∧ (o / 32 % 2 = 1 → pad ≠ 0 ∧ pad = beNat (rdAt b (b.length - 1) 1)) := by
    by_cases h5 : o / 32 % 2 = 0
    · rw [if_pos h5] at h
      simp at h
      exact ⟨h.1.symm, fun _ => h.2.symm, fun h6 => by omega⟩
    · rw [if_neg h5] at h
      by_cases h6 : (b.length = 12 + 4 * (o % 16) + 4 * (o / 16 % 2) +
          o / 16 % 2 * (4 * beNat (rdAt b (12 + 4 * (o % 16) + 2) 2)) ∨ beNat (rdAt b (b.length - 1) 1) = 0 ∨
          b.length - (12 + 4 * (o % 16) + 4 * (o / 16 % 2) +
          o / 16 % 2 * (4 * beNat (rdAt b (12 + 4 * (o % 16) + 2) 2))) < beNat (rdAt b (b.length - 1) 1))
      · rw [if_pos h6] at h; simp at h
      · rw [if_neg h6] at h
        simp only [Option.some.injEq, Prod.mk.injEq] at h
        exact ⟨h.1.symm, fun h7 => absurd h7 h5, fun _ => ⟨by omega, h.2.symm⟩⟩
  clear h
  obtain ⟨hbeg, hp0, hp1⟩ := hbeg
  have hge : 12 + 4 * (o % 16) ≤ begin := by omega
  have l1 : (rdAt b 0 12).length = 12 := rdAt_length _ _ _ (by omega)
  have l2 : (rdAt b 12 (4 * (o % 16))).length = 4 * (o % 16) := rdAt_length _ _ _ (by omega)
  have l3 : (rdAt b (12 + 4 * (o % 16)) (begin - (12 + 4 * (o % 16)))).length = begin - (12 + 4 * (o % 16)) :=
    rdAt_length _ _ _ (by omega)
  have l4 : (rdAt b begin (b.length - pad - begin)).length = b.length - pad - begin :=
    rdAt_length _ _ _ (by omega)
  have l5 : (rdAt b (b.length - pad) pad).length = pad := rdAt_length _ _ _ (by omega)
  refine ⟨⟨l1, ?_, ?_, ?_, ?_, ?_, ?_⟩, ?_, ?_, l5, l4⟩
  · rw [ho, ← hoo]; exact h2
  · rw [ho, ← hoo]; simp only [regionsOf, ← hoo]; exact l2
  · rw [ho, ← hoo]
    intro hx0
    simp only [regionsOf, ← hoo]
    apply List.eq_nil_of_length_eq_zero
    rw [l3, hbeg, hx0]
    omega
  · rw [ho, ← hoo]
    intro hx1
    rw [hx1] at hbeg
    have e : ((regionsOf b begin pad).ext.drop 2).take 2 = rdAt b (12 + 4 * (o % 16) + 2) 2 := by
      simp only [regionsOf, ← hoo]
      exact rdAt_rdAt b _ _ 2 2 (by omega)
    rw [e]
    have : (regionsOf b begin pad).ext.length = begin - (12 + 4 * (o % 16)) := by
      simp only [regionsOf, ← hoo]; exact l3
    rw [this]
    omega
  · rw [ho, ← hoo]
    intro hp
    have := hp0 hp
    apply List.eq_nil_of_length_eq_zero
    show (rdAt b (b.length - pad) pad).length = 0
    rw [l5, this]
  · rw [ho, ← hoo]
    intro hp
    obtain ⟨hpz, hpe⟩ := hp1 hp
    have e : (regionsOf b begin pad).padding.length = pad := l5
    rw [e]
    refine ⟨hpz, ?_⟩
    have e2 : (regionsOf b begin pad).padding.drop (pad - 1) = rdAt b (b.length - 1) 1 := by
      have e3 := rdAt_rdAt b (b.length - pad) pad (pad - 1) 1 (by omega)
      have e4 : b.length - pad + (pad - 1) = b.length - 1 := by omega
      rw [e4] at e3
      rw [← e3]
      show (rdAt b (b.length - pad) pad).drop (pad - 1) = ((rdAt b (b.length - pad) pad).drop (pad - 1)).take 1
      rw [List.take_of_length_le]
      rw [List.length_drop, l5]; omega
    rw [e2, hpe]
  · simp only [Regions.wire, regionsOf, ← hoo]
    rw [← rdAt_append b 0 12, ]
    have e1 : rdAt b 0 (12 + 4 * (o % 16)) ++ rdAt b (12 + 4 * (o % 16)) (begin - (12 + 4 * (o % 16))) =
        rdAt b 0 begin := by
      have := rdAt_append b 0 (12 + 4 * (o % 16)) (begin - (12 + 4 * (o % 16)))
      rw [Nat.zero_add] at this
      rw [← this]
      congr 1
      omega
    rw [e1]
    have e2 : rdAt b 0 begin ++ rdAt b begin (b.length - pad - begin) = rdAt b 0 (b.length - pad) := by
      have := rdAt_append b 0 begin (b.length - pad - begin)
      rw [Nat.zero_add] at this
      rw [← this]
      congr 1
      omega
    rw [e2]
    have e3 : rdAt b 0 (b.length - pad) ++ rdAt b (b.length - pad) pad = rdAt b 0 b.length := by
      have := rdAt_append b 0 (b.length - pad) pad
      rw [Nat.zero_add] at this
      rw [← this]
      congr 1
      omega
    rw [e3, rdAt_all]
  · show (rdAt b 0 12).length + (rdAt b 12 _).length + (rdAt b _ _).length = begin
    rw [← hoo, l1, l2, l3]
    omega

theorem rdAt_append_left (a b : List Byte) (off n : Nat) (h : off + n ≤ a.length) :
    rdAt (a ++ b) off n = rdAt a off n := by
  apply List.ext_getElem?
  intro i
  rw [rdAt_getElem?, rdAt_getElem?]
  by_cases hi : i < n
  · rw [if_pos hi, if_pos hi, List.getElem?_append_left (by omega)]
  · rw [if_neg hi, if_neg hi]

theorem rdAt_append_right (a b : List Byte) (off n : Nat) :
    rdAt (a ++ b) (a.length + off) n = rdAt b off n := by
  apply List.ext_getElem?
  intro i
  rw [rdAt_getElem?, rdAt_getElem?]
  by_cases hi : i < n
  · rw [if_pos hi, if_pos hi, List.getElem?_append_right (by omega)]
    congr 1
    omega
  · rw [if_neg hi, if_neg hi]

theorem layout_complete {r : Regions} (hw : r.WellFormed) :
    layout r.wire = some (r.fixed.length + r.csrc.length + r.ext.length, r.padding.length) := by
  have hlen : r.wire.length = 12 + r.csrc.length + r.ext.length + r.payload.length + r.padding.length := by
    simp only [Regions.wire, List.length_append, hw.fixed]
  have ho : beNat (rdAt r.wire 0 1) = r.octet0 := by
    unfold Regions.wire Regions.octet0
    rw [List.append_assoc, List.append_assoc, List.append_assoc, rdAt_append_left _ _ _ _ (by rw [hw.fixed]; omega)]
    simp [rdAt]
  unfold layout
  rw [ho]
  obtain ⟨o, hoo⟩ : ∃ o, o = r.octet0 := ⟨_, rfl⟩
  have hv := hw.version
  have hc := hw.csrc
  have hne := hw.noExt
  have he := hw.ext
  have hnp := hw.noPad
  have hp := hw.pad
  rw [← hoo] at hv hc hne he hnp hp ⊢
  have hext : o / 16 % 2 * (4 * beNat (rdAt r.wire (12 + 4 * (o % 16) + 2) 2)) =
      o / 16 % 2 * (4 * beNat ((r.ext.drop 2).take 2)) := by
    by_cases hx : o / 16 % 2 = 0
    · rw [hx]; simp
    · have hx1 : o / 16 % 2 = 1 := by omega
      obtain ⟨h4, _⟩ := he hx1
      have : rdAt r.wire (12 + 4 * (o % 16) + 2) 2 = (r.ext.drop 2).take 2 := by
        unfold Regions.wire
        have e1 : (r.fixed ++ r.csrc).length = 12 + 4 * (o % 16) := by
          rw [List.length_append, hw.fixed, hc]
        rw [List.append_assoc, List.append_assoc, ← e1, rdAt_append_right,
          rdAt_append_left _ _ _ _ (by omega)]
        rfl
      rw [this]
  have hextlen : r.ext.length = 4 * (o / 16 % 2) + o / 16 % 2 * (4 * beNat ((r.ext.drop 2).take 2)) := by
    by_cases hx : o / 16 % 2 = 0
    · rw [hx, hne hx]; simp
    · have hx1 : o / 16 % 2 = 1 := by omega
      obtain ⟨_, h4⟩ := he hx1
      rw [hx1]
      omega
  simp only [hext, hlen]
  have hbeg : 12 + 4 * (o % 16) + 4 * (o / 16 % 2) + o / 16 % 2 * (4 * beNat ((r.ext.drop 2).take 2)) =
      12 + r.csrc.length + r.ext.length := by
    rw [hc]; omega
  rw [hbeg]
  rw [if_neg (by omega), if_neg (by omega), if_neg (by omega), if_neg (by omega), hw.fixed]
  by_cases h5 : o / 32 % 2 = 0
  · rw [if_pos h5, hnp h5]; rfl
  · rw [if_neg h5]
    obtain ⟨hz, hb⟩ := hp (by omega)
    have : rdAt r.wire (12 + r.csrc.length + r.ext.length + r.payload.length + r.padding.length - 1) 1 =
        r.padding.drop (r.padding.length - 1) := by
      unfold Regions.wire
      have e1 : (r.fixed ++ r.csrc ++ r.ext ++ r.payload).length =
          12 + r.csrc.length + r.ext.length + r.payload.length := by
        simp only [List.length_append, hw.fixed]
      have e2 : 12 + r.csrc.length + r.ext.length + r.payload.length + r.padding.length - 1 =
          (r.fixed ++ r.csrc ++ r.ext ++ r.payload).length + (r.padding.length - 1) := by omega
      rw [e2, rdAt_append_right]
      unfold rdAt
      rw [List.take_of_length_le]
      rw [List.length_drop]; omega
    rw [this, hb, if_neg (by omega)]

theorem regions_fields {b : List Byte} {r : Regions} (hw : r.WellFormed) (hb : r.wire = b) :
    r.octet1 = beNat (rdAt b 1 1) ∧ r.seqnum = beNat (rdAt b 2 2) ∧ r.timestamp = beNat (rdAt b 4 4) ∧
    r.ssrc = beNat (rdAt b 8 4) := by
  have h : ∀ i n, i + n ≤ 12 → rdAt b i n = (r.fixed.drop i).take n := by
    intro i n hi
    rw [← hb]
    unfold Regions.wire
    rw [List.append_assoc, List.append_assoc, List.append_assoc, rdAt_append_left _ _ _ _ (by rw [hw.fixed]; omega)]
    rfl
  refine ⟨?_, ?_, ?_, ?_⟩
  · rw [h 1 1 (by omega)]; rfl
  · rw [h 2 2 (by omega)]; rfl
  · rw [h 4 4 (by omega)]; rfl
  · rw [h 8 4 (by omega)]; rfl

/-- Flags of an accepted packet. -/
def newFlags (enc : Nat → Option (BitVec 32)) (flags : BitVec 32) (pt : Nat) : BitVec 32 :=
  (flags ||| flagRTP) ||| ((enc pt).getD 0)

theorem parseFields_eq (enc : Nat → Option (BitVec 32)) (flags : BitVec 32) (m : List Byte) (buf : Slice)
    (hv : buf.Valid m) (hfl : flags &&& flagRTP = 0)
    (henc : ∀ pt fl, enc pt = some fl → (flags ||| flagRTP) &&& fl = 0)
    {r : Regions} (hw : r.WellFormed) (hb : r.wire = buf.bytes m) :
    parseFields enc flags buf (headerOf (buf.bytes m)) (r.fixed.length + r.csrc.length + r.ext.length)
      (buf.len - r.padding.length) r.padding.length =
    .ok (newFlags enc flags (r.octet1 % 128), r.seen buf.off) := by
  have hlen : r.fixed.length + r.csrc.length + r.ext.length + r.payload.length + r.padding.length = buf.len := by
    rw [← bytes_length m buf hv, ← hb]
    simp only [Regions.wire, List.length_append]
  have h12 := hw.fixed
  obtain ⟨_, f1, f2, f3, f4, f5⟩ := headerOf_spec (buf.bytes m) (by rw [bytes_length m buf hv]; omega)
  obtain ⟨g1, g2, g3, g4⟩ := regions_fields hw hb
  rw [← g1] at f2
  rw [← g2] at f3
  rw [← g3] at f4
  rw [← g4] at f5
  unfold parseFields addFlags
  rw [if_neg (by simp [hfl])]
  simp only [need]
  unfold Slice.subslice
  rw [if_neg (by omega), if_neg (by omega)]
  simp only []
  rw [if_neg (by omega), if_neg (by omega)]
  simp only []
  have hmk : (headerOf (buf.bytes m)).marker = decide (r.octet1 / 128 = 1) := by
    unfold Header.marker; rw [bits_marker, f2]
  have hpt : (headerOf (buf.bytes m)).payloadType.toNat = r.octet1 % 128 := by
    unfold Header.payloadType; rw [bits_pt, f2]
  have hptw : (headerOf (buf.bytes m)).payloadType.setWidth 32 = BitVec.ofNat 32 (r.octet1 % 128) := by
    apply BitVec.eq_of_toNat_eq
    rw [BitVec.toNat_setWidth, hpt, BitVec.toNat_ofNat]
  have hpad : (if r.padding.length ≠ 0 then
      (if buf.len - r.padding.length > buf.len - r.padding.length + r.padding.length then none
       else if buf.len - r.padding.length + r.padding.length > buf.len then none
       else some (⟨buf.off + (buf.len - r.padding.length),
         buf.len - r.padding.length + r.padding.length - (buf.len - r.padding.length)⟩ : Slice)).map some
      else some none) = some (r.seen buf.off).padding := by
    unfold Regions.seen
    by_cases hp : r.padding = []
    · simp [hp]
    · have : r.padding.length ≠ 0 := by
        intro e; exact hp (List.eq_nil_of_length_eq_zero e)
      rw [if_pos this, if_neg (by omega), if_neg (by omega)]
      simp only [hp, if_false, Option.map_some, Option.some.injEq, Slice.mk.injEq]
      omega
  rw [hpad]
  simp only []
  have hrtp : ({ source := (headerOf (buf.bytes m)).ssrc, seqnum := (headerOf (buf.bytes m)).seqnum,
                 timestamp := (headerOf (buf.bytes m)).timestamp, marker := (headerOf (buf.bytes m)).marker,
                 payloadType := (headerOf (buf.bytes m)).payloadType.setWidth 32,
                 header := some ⟨buf.off + 0, r.fixed.length + r.csrc.length + r.ext.length - 0⟩,
                 payload := some ⟨buf.off + (r.fixed.length + r.csrc.length + r.ext.length),
                   buf.len - r.padding.length - (r.fixed.length + r.csrc.length + r.ext.length)⟩,
                 padding := (r.seen buf.off).padding } : Rtp) = r.seen buf.off := by
    rw [hmk, hptw, f3, f4, f5]
    unfold Regions.seen
    have : buf.len - r.padding.length - (r.fixed.length + r.csrc.length + r.ext.length) = r.payload.length := by
      omega
    rw [this]
    simp
  rw [hrtp, hpt]
  unfold newFlags
  cases he : enc (r.octet1 % 128) with
  | none => simp
  | some fl =>
    simp only [Option.getD_some]
    rw [if_neg (by simp [henc _ _ he])]

end Verif.RtpCodec
