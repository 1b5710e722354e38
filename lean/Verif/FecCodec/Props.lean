import Verif.FecCodec.Model
import Verif.RtpCodec.Props

/-! # C34: FEC payload ids round-trip -/

namespace Verif.FecCodec
open Verif.Bytes Verif.RtpCodec

/-- The block length reported for a packet with the given kind of payload id. Only LDPC repair packets
carry it. -/
def reportedN (kind : Kind) (n : Nat) : Nat :=
  match kind with
  | .ldpcSource => 0
  | .ldpcRepair => n
  | .rs8m => 255

/-- The symbol ids that fit into the payload id. -/
def esiMax (kind : Kind) : Nat :=
  match kind with
  | .ldpcSource => 65536
  | .ldpcRepair => 65536
  | .rs8m => 256

theorem store_load (kind : Kind) (ids : Ids) (he : ids.esi < esiMax kind) (hs : ids.sbn < 65536)
    (hk : ids.k < 65536) (hn : ids.n < 65536) :
    ∃ b, kind.store ids = some b ∧ b.length = kind.size ∧
      kind.load b = { ids with n := reportedN kind ids.n } := by
  cases kind
  · refine ⟨_, rfl, by simp [toBe_length, Kind.size], ?_⟩
    simp only [esiMax] at he
    have e1 : rdAt (toBe 2 ids.sbn ++ toBe 2 ids.esi ++ toBe 2 ids.k) 2 2 = toBe 2 ids.esi := by simp [rdAt, toBe]
    have e2 : rdAt (toBe 2 ids.sbn ++ toBe 2 ids.esi ++ toBe 2 ids.k) 0 2 = toBe 2 ids.sbn := by simp [rdAt, toBe]
    have e3 : rdAt (toBe 2 ids.sbn ++ toBe 2 ids.esi ++ toBe 2 ids.k) 4 2 = toBe 2 ids.k := by simp [rdAt, toBe]
    simp only [Kind.load, e1, e2, e3, reportedN]
    rw [beNat_toBe_of_lt (by omega), beNat_toBe_of_lt (by omega), beNat_toBe_of_lt (by omega)]
  · refine ⟨_, rfl, by simp [toBe_length, Kind.size], ?_⟩
    simp only [esiMax] at he
    have e1 : rdAt (toBe 2 ids.sbn ++ toBe 2 ids.esi ++ toBe 2 ids.k ++ toBe 2 ids.n) 2 2 = toBe 2 ids.esi := by
      simp [rdAt, toBe]
    have e2 : rdAt (toBe 2 ids.sbn ++ toBe 2 ids.esi ++ toBe 2 ids.k ++ toBe 2 ids.n) 0 2 = toBe 2 ids.sbn := by
      simp [rdAt, toBe]
    have e3 : rdAt (toBe 2 ids.sbn ++ toBe 2 ids.esi ++ toBe 2 ids.k ++ toBe 2 ids.n) 4 2 = toBe 2 ids.k := by
      simp [rdAt, toBe]
    have e4 : rdAt (toBe 2 ids.sbn ++ toBe 2 ids.esi ++ toBe 2 ids.k ++ toBe 2 ids.n) 6 2 = toBe 2 ids.n := by
      simp [rdAt, toBe]
    simp only [Kind.load, e1, e2, e3, e4, reportedN]
    rw [beNat_toBe_of_lt (by omega), beNat_toBe_of_lt (by omega), beNat_toBe_of_lt (by omega),
      beNat_toBe_of_lt (by omega)]
  · simp only [esiMax] at he
    have h1 : ¬ ids.esi >>> 8 ≠ 0 := by simp only [Nat.shiftRight_eq_div_pow]; omega
    have h2 : ¬ ids.sbn >>> 24 ≠ 0 := by simp only [Nat.shiftRight_eq_div_pow]; omega
    refine ⟨toBe 3 ids.sbn ++ [BitVec.ofNat 8 ids.esi] ++ toBe 2 ids.k, ?_, by simp [toBe_length, Kind.size], ?_⟩
    · simp only [Kind.store]; rw [if_neg h1, if_neg h2]
    have e1 : rdAt (toBe 3 ids.sbn ++ [BitVec.ofNat 8 ids.esi] ++ toBe 2 ids.k) 3 1 = toBe 1 ids.esi := by
      simp [rdAt, toBe]
    have e2 : rdAt (toBe 3 ids.sbn ++ [BitVec.ofNat 8 ids.esi] ++ toBe 2 ids.k) 0 3 = toBe 3 ids.sbn := by
      simp [rdAt, toBe]
    have e3 : rdAt (toBe 3 ids.sbn ++ [BitVec.ofNat 8 ids.esi] ++ toBe 2 ids.k) 4 2 = toBe 2 ids.k := by
      simp [rdAt, toBe]
    simp only [Kind.load, e1, e2, e3, reportedN]
    rw [beNat_toBe_of_lt (by omega), beNat_toBe_of_lt (by omega), beNat_toBe_of_lt (by omega)]

theorem shr16 {a : Nat} : ¬ a >>> 16 ≠ 0 ↔ a < 65536 := by
  simp only [Nat.shiftRight_eq_div_pow]; omega

/-- **C34 (repair packets, partial).** Prepare a repair packet in any buffer with room for it, fill its
payload with anything, set the fields to any values in range, compose and parse: the symbol id, the
block number, the source block length and the payload are the same; the block length is the same for
LDPC. Missing: the block length of Reed-Solomon packets, see `C34_block_length_fails`. -/
theorem C34_repair_roundtrip_partial (kind : Kind) (m fill : List Byte) (buf : Slice) (size : Nat)
    (esi : Nat) (sbn : BitVec 16) (k n : Nat) (he : esi < esiMax kind) (hk : k < 65536) (hn : n < 65536)
    (hcap : kind.size + size ≤ buf.capacity m) (hoff : buf.off ≤ m.length) (hfill : fill.length = m.length) :
    ∃ flags fec pbuf m', prepareRepair kind 0 {} m buf size = .ok (flags, fec, pbuf) ∧
      fec.payload = some ⟨buf.off + kind.size, size⟩ ∧ pbuf = ⟨buf.off, kind.size + size⟩ ∧
      composeId kind flags { fec with esi := esi, sbn := sbn, k := k, n := n } fill = .ok m' ∧
      ∃ fl parsed pl, parseRepair kind 0 m' pbuf = .ok (fl, parsed) ∧ parsed.esi = esi ∧ parsed.sbn = sbn ∧
        parsed.k = k ∧ parsed.n = reportedN kind n ∧ (kind = .ldpcRepair → parsed.n = n) ∧
        parsed.payload = some pl ∧ pl.bytes m' = rdAt fill (buf.off + kind.size) size ∧
        fl = flagRepair ||| flagFEC := by
  obtain ⟨ks, hks⟩ : ∃ ks, ks = kind.size := ⟨_, rfl⟩
  rw [← hks] at hcap ⊢
  unfold Slice.capacity at hcap
  have hprep : prepareRepair kind 0 {} m buf size = .ok (flagRepair ||| flagFEC,
      { payloadId := some ⟨buf.off, ks⟩, payload := some ⟨buf.off + ks, size⟩ }, ⟨buf.off, ks + size⟩) := by
    unfold prepareRepair
    rw [← hks]
    simp only [Slice.subslice, Slice.reslice, Slice.capacity, need, Nat.add_zero, Nat.sub_self,
      Nat.sub_zero, gt_iff_lt, Nat.lt_irrefl, Nat.not_lt_zero, if_false]
    rw [if_neg (by omega), if_neg (by omega)]
    simp only [Nat.lt_irrefl, if_false, Nat.sub_self]
    rw [if_neg (by omega)]
    simp only [addFlags]
    rw [if_neg (by decide)]
    simp only []
    rw [if_neg (by decide), if_neg (by omega)]
    have : (0 : BitVec 32) ||| flagRepair ||| flagFEC = flagRepair ||| flagFEC := by decide
    rw [this]
  obtain ⟨b, hst, hbl, hld⟩ := store_load kind ⟨esi, sbn.toNat, k, n⟩ he sbn.isLt hk hn
  rw [← hks] at hbl
  refine ⟨_, _, _, wrAt fill buf.off b, hprep, rfl, rfl, ?_, ?_⟩
  · unfold composeId
    rw [if_neg (by decide)]
    simp only [need]
    rw [if_neg (by simp [hks]), if_neg]
    · rw [if_neg (by rw [shr16]; exact hk), if_neg (by rw [shr16]; exact hn), hst]
    · rw [shr16]
      have : esiMax kind ≤ 65536 := by cases kind <;> decide
      omega
  · have hlen : (wrAt fill buf.off b).length = fill.length := wrAt_length _ _ _ (by omega)
    have hrd : rdAt (wrAt fill buf.off b) buf.off ks = b := by
      rw [← hbl]; exact rdAt_wrAt_same _ _ _ (by omega)
    refine ⟨_, { esi := esi, sbn := sbn, k := k, n := reportedN kind n, payload := some ⟨buf.off + ks, size⟩ },
      ⟨buf.off + ks, size⟩, ?_, rfl, rfl, rfl, rfl, ?_, rfl, ?_, rfl⟩
    · unfold parseRepair
      rw [← hks, if_neg (by simp only; omega)]
      simp only [Slice.rd, Nat.add_zero, Nat.zero_add]
      rw [if_pos (by omega), hrd]
      simp only [need, addFlags]
      rw [if_neg (by decide)]
      simp only []
      rw [if_neg (by decide)]
      simp only [Slice.subslice]
      rw [if_neg (by omega), if_neg (by omega), hld]
      simp only [BitVec.ofNat_toNat, BitVec.setWidth_eq, Nat.add_sub_cancel_left]
      rfl
    · intro h; subst h; rfl
    · unfold Slice.bytes
      exact rdAt_wrAt_disjoint _ _ _ (by omega) _ _ (by simp only; omega)

example : esiMax Kind.rs8m = 256 ∧ Kind.rs8m.size + 40 ≤ (⟨2, 0⟩ : Slice).capacity (List.replicate 64 0) := by decide

/-- **C34 (source packets, partial).** Prepare a source packet (RTP packet followed by a payload id) in
any buffer with room for it, fill the payload, set all RTP and FEC fields to any values in range,
compose and parse: every RTP field, the payload bytes, the symbol id, the block number and the source
block length are the same. Missing: the block length, see `C34_block_length_fails`. -/
theorem C34_source_roundtrip_partial (kind : Kind) (enc : Nat → Option (BitVec 32)) (m fill : List Byte) (buf : Slice)
    (size : Nat) (esi : Nat) (sbn : BitVec 16) (k n : Nat) (source : BitVec 32) (seqnum : BitVec 16) (ts : BitVec 32)
    (marker : Bool) (pt : BitVec 32) (he : esi < esiMax kind) (hk : k < 65536) (hn : n < 65536)
    (hpt : pt.toNat < 128) (hcap : headerLen + size + kind.size ≤ buf.capacity m) (hoff : buf.off ≤ m.length)
    (hfill : fill.length = m.length) (henc : ∀ pt fl, enc pt = some fl → (flagFEC ||| flagRTP) &&& fl = 0) :
    ∃ flags fec rtp pbuf m', prepareSource kind 0 {} {} m buf size = .ok (flags, fec, rtp, pbuf) ∧
      rtp.payload = some ⟨buf.off + headerLen, size⟩ ∧ pbuf = ⟨buf.off, headerLen + size + kind.size⟩ ∧
      composeSource kind flags { fec with esi := esi, sbn := sbn, k := k, n := n }
        { rtp with source := source, seqnum := seqnum, timestamp := ts, marker := marker, payloadType := pt }
        fill = .ok m' ∧
      ∃ fl pfec prtp pl, parseSource kind enc 0 m' pbuf = .ok (fl, pfec, prtp) ∧ pfec.esi = esi ∧ pfec.sbn = sbn ∧
        pfec.k = k ∧ pfec.n = reportedN kind n ∧ prtp.source = source ∧ prtp.seqnum = seqnum ∧
        prtp.timestamp = ts ∧ prtp.marker = marker ∧ prtp.payloadType = pt ∧
        prtp.payload = some pl ∧ pl.bytes m' = rdAt fill (buf.off + headerLen) size := by
  obtain ⟨ks, hks⟩ : ∃ ks, ks = kind.size := ⟨_, rfl⟩
  rw [← hks] at hcap ⊢
  unfold Slice.capacity headerLen at hcap
  have hprep : prepareSource kind 0 {} {} m buf size = .ok (flagRTP ||| flagFEC,
      { payloadId := some ⟨buf.off + (12 + size), ks⟩, payload := some ⟨buf.off, 12 + size⟩ },
      { header := some ⟨buf.off, 12⟩, payload := some ⟨buf.off + 12, size⟩ }, ⟨buf.off, 12 + size + ks⟩) := by
    unfold prepareSource RtpCodec.prepare
    rw [← hks]
    simp only [Slice.subslice, Slice.reslice, Slice.capacity, headerLen, need, Nat.add_zero, Nat.sub_self,
      Nat.sub_zero, gt_iff_lt, Nat.lt_irrefl, Nat.not_lt_zero, if_false]
    rw [if_neg (by omega), if_neg (by omega)]
    simp only [Nat.lt_irrefl, if_false, Nat.sub_self, addFlags, Nat.add_zero]
    rw [if_neg (by omega)]
    rw [if_neg (by omega)]
    rw [if_neg (by decide)]
    simp only [Nat.sub_zero]
    rw [if_neg (by omega)]
    simp only [Out.bind, Nat.lt_irrefl, if_false, Nat.sub_self, Nat.sub_zero]
    rw [if_neg (by omega), if_neg (by omega), if_neg (by decide)]
    simp only []
    rw [if_neg (by omega)]
    have e1 : (0 : BitVec 32) ||| flagRTP ||| flagFEC = flagRTP ||| flagFEC := by decide
    have e2 : ks + (12 + size) = 12 + size + ks := by omega
    rw [e1, e2]
  obtain ⟨b, hst, hbl, hld⟩ := store_load kind ⟨esi, sbn.toNat, k, n⟩ he sbn.isLt hk hn
  rw [← hks] at hbl
  have hid : composeId kind (flagRTP ||| flagFEC)
      { payloadId := some ⟨buf.off + (12 + size), ks⟩, payload := some ⟨buf.off, 12 + size⟩,
        esi := esi, sbn := sbn, k := k, n := n } fill = .ok (wrAt fill (buf.off + (12 + size)) b) := by
    unfold composeId
    rw [if_neg (by decide)]
    simp only [need]
    rw [if_neg (by simp [hks]), if_neg]
    · rw [if_neg (by rw [shr16]; exact hk), if_neg (by rw [shr16]; exact hn), hst]
    · rw [shr16]
      have : esiMax kind ≤ 65536 := by cases kind <;> decide
      omega
  have hl1 : (wrAt fill (buf.off + (12 + size)) b).length = fill.length := wrAt_length _ _ _ (by omega)
  obtain ⟨m', hc, hlen, hout, fl, prtp, pl, hp, f1, f2, f3, f4, f5, f6, f7, _⟩ :=
    compose_parse enc (flagRTP ||| flagFEC) flagFEC
      { header := some ⟨buf.off, 12⟩, payload := some ⟨buf.off + 12, size⟩, source := source, seqnum := seqnum,
        timestamp := ts, marker := marker, payloadType := pt }
      (wrAt fill (buf.off + (12 + size)) b) buf.off size 0 (by decide) hpt (by omega) (by omega)
      (by rw [hl1]; omega) rfl (.inr ⟨rfl, rfl⟩) (by decide) henc
  refine ⟨_, _, _, _, m', hprep, rfl, rfl, ?_, ?_⟩
  · unfold composeSource
    simp only [hid, Out.bind, hc]
  · refine ⟨fl, { esi := esi, sbn := sbn, k := k, n := reportedN kind n, payload := some ⟨buf.off, 12 + size⟩ }, prtp,
      pl, ?_, rfl, rfl, rfl, rfl, f1, f2, f3, f4, f5, f6, ?_⟩
    · unfold parseSource
      rw [← hks, if_neg (by simp only; omega)]
      simp only [Slice.rd]
      rw [if_pos (by omega)]
      have e : buf.off + (12 + size + ks - ks) = buf.off + (12 + size) := by omega
      have hrd : rdAt m' (buf.off + (12 + size)) ks = b := by
        rw [hout _ _ (by omega), ← hbl]
        exact rdAt_wrAt_same _ _ _ (by omega)
      rw [e, hrd]
      simp only [need, addFlags]
      rw [if_neg (by decide)]
      simp only [Slice.subslice]
      rw [if_neg (by omega), if_neg (by omega), hld]
      have e0 : (0 : BitVec 32) ||| flagFEC = flagFEC := by decide
      have e2 : (⟨buf.off + 0, 12 + size + ks - ks - 0⟩ : Slice) = ⟨buf.off, 12 + size⟩ := by
        simp
      simp only [e0, e2, hp, Out.bind, BitVec.ofNat_toNat, BitVec.setWidth_eq]
    · rw [f7]
      exact rdAt_wrAt_disjoint _ _ _ (by omega) _ _ (by omega)

example : headerLen + 20 + Kind.ldpcSource.size ≤ (⟨2, 0⟩ : Slice).capacity (List.replicate 64 0) := by decide
example : ∀ pt fl, sampleEnc pt = some fl → (flagFEC ||| flagRTP) &&& fl = 0 := by
  intro pt fl; unfold sampleEnc; split <;> simp [flagRTP, flagFEC]; rintro rfl; decide

/-- **C34 (the block length is lost).** A Reed-Solomon packet of a block of 30 symbols is parsed as
belonging to a block of 255 symbols, and an LDPC source packet as belonging to a block of 0. -/
theorem C34_block_length_fails :
    (∃ b, Kind.rs8m.store ⟨3, 7, 20, 30⟩ = some b ∧ (Kind.rs8m.load b).n = 255) ∧
    (∃ b, Kind.ldpcSource.store ⟨3, 7, 20, 30⟩ = some b ∧ (Kind.ldpcSource.load b).n = 0) :=
  ⟨⟨_, rfl, rfl⟩, ⟨_, rfl, rfl⟩⟩

/-- **C34 (values out of range are not truncated).** Composing a payload id whose symbol id, source
block length or block length does not fit aborts instead of sending a different value. -/
theorem C34_out_of_range (kind : Kind) (flags : BitVec 32) (fec : Fec) (m : List Byte)
    (h : esiMax kind ≤ fec.esi ∨ 65536 ≤ fec.k ∨ 65536 ≤ fec.n) :
    composeId kind flags fec m = .panic := by
  unfold composeId
  split
  · rfl
  · cases fec.payloadId with
    | none => rfl
    | some s =>
      simp only [need]
      split
      · rfl
      by_cases h1 : fec.esi < 65536
      · rw [if_neg (by rw [shr16]; exact h1)]
        by_cases h2 : fec.k < 65536
        · rw [if_neg (by rw [shr16]; exact h2)]
          by_cases h3 : fec.n < 65536
          · rw [if_neg (by rw [shr16]; exact h3)]
            cases kind
            · simp only [esiMax] at h; omega
            · simp only [esiMax] at h; omega
            · simp only [esiMax] at h
              have h4 : fec.esi >>> 8 ≠ 0 := by simp only [Nat.shiftRight_eq_div_pow]; omega
              simp only [Kind.store]
              rw [if_pos h4]
          · rw [if_pos (fun e => h3 (shr16.mp (by simp [e])))]
        · rw [if_pos (fun e => h2 (shr16.mp (by simp [e])))]
      · rw [if_pos (fun e => h1 (shr16.mp (by simp [e])))]

example : esiMax .rs8m ≤ ({ esi := 300 } : Fec).esi := by decide

/-- **C34 (hostile repair packets).** Whatever bytes are received, parsing a repair packet does not
panic and does not read outside of the buffer; every packet at least as long as the payload id is
accepted, and its payload is the rest of the buffer. -/
theorem C34_repair_parse_safe (kind : Kind) (m : List Byte) (buf : Slice) :
    parseRepair kind 0 m buf ≠ .panic ∧
    ∀ fl fec, parseRepair kind 0 m buf = .ok (fl, fec) →
      kind.size ≤ buf.len ∧ fec.payload = some ⟨buf.off + kind.size, buf.len - kind.size⟩ := by
  unfold parseRepair
  split
  · simp
  · rename_i h
    simp only [Slice.rd]
    rw [if_pos (by omega)]
    simp only [need, addFlags]
    rw [if_neg (by decide)]
    simp only []
    rw [if_neg (by decide)]
    simp only [Slice.subslice]
    rw [if_neg (by omega), if_neg (by omega)]
    simp only [ne_eq, reduceCtorEq, not_false_eq_true, Out.ok.injEq, Prod.mk.injEq, true_and]
    rintro fl fec ⟨_, rfl⟩
    exact ⟨by omega, rfl⟩

/-- **C34 (hostile source packets).** The same for source packets, including the RTP packet inside. -/
theorem C34_source_parse_safe (kind : Kind) (enc : Nat → Option (BitVec 32)) (m : List Byte) (buf : Slice)
    (hv : buf.Valid m) (henc : ∀ pt fl, enc pt = some fl → (flagFEC ||| flagRTP) &&& fl = 0) :
    parseSource kind enc 0 m buf ≠ .panic := by
  unfold parseSource
  split
  · simp
  · rename_i h
    simp only [Slice.rd]
    rw [if_pos (by omega)]
    simp only [need, addFlags]
    rw [if_neg (by decide)]
    simp only [Slice.subslice]
    rw [if_neg (by omega), if_neg (by omega)]
    have e0 : (0 : BitVec 32) ||| flagFEC = flagFEC := by decide
    have hv' : (⟨buf.off + 0, buf.len - kind.size - 0⟩ : Slice).Valid m := by
      unfold Slice.Valid at *; simp only; omega
    have := C07_never_panics enc flagFEC m ⟨buf.off + 0, buf.len - kind.size - 0⟩ hv' (by decide) henc
    simp only [e0]
    cases hp : RtpCodec.parse enc flagFEC m ⟨buf.off + 0, buf.len - kind.size - 0⟩ with
    | panic => exact absurd hp this
    | reject => simp [Out.bind]
    | ok a => simp [Out.bind]

/-- **C34 (repair packets that do not fit).** Unlike every other composer, `prepare` of a repair packet
does not check that the payload fits into the buffer: it aborts instead of returning `false`. -/
theorem C34_prepare_no_room_fails :
    prepareRepair .ldpcRepair 0 {} (List.replicate 16 0) ⟨0, 0⟩ 20 = .panic ∧
    RtpCodec.prepare 0 {} (List.replicate 16 0) ⟨0, 0⟩ 20 = .reject := by decide +kernel

end Verif.FecCodec
