import Verif.RtpCodec.Lemmas

/-!
# C06: RTP composing and parsing are inverse; C07: parsing hostile input
-/

namespace Verif.RtpCodec
open Verif.Bytes

/-! ## C07 -/

/-- An encoding map that only adds the "audio" flag to two payload types (roc_rtp/encoding_map.cpp:18-41). -/
def sampleEnc : Nat → Option (BitVec 32) := fun pt => if pt = 10 ∨ pt = 11 then some 16 else none

/-- A packet with one CSRC, an extension of one word, three bytes of payload and two of padding. -/
def samplePacket : List Byte :=
  [0xb1, 0x8a, 0x12, 0x34, 1, 2, 3, 4, 5, 6, 7, 8, 9, 9, 9, 9, 0, 7, 0, 1, 1, 1, 1, 1, 0xaa, 0xbb, 0xcc, 0, 2]

/-- **C07 (no abort, no access outside).** Whatever bytes are received, parsing never panics and never
reads outside of the received buffer (both would be `Out.panic`). -/
theorem C07_never_panics (enc : Nat → Option (BitVec 32)) (flags : BitVec 32) (m : List Byte) (buf : Slice)
    (hv : buf.Valid m) (hfl : flags &&& flagRTP = 0)
    (henc : ∀ pt fl, enc pt = some fl → (flags ||| flagRTP) &&& fl = 0) :
    parse enc flags m buf ≠ .panic := by
  rw [parse_eq enc flags m buf hv]
  cases hl : layout (buf.bytes m) with
  | none => simp
  | some p =>
    obtain ⟨begin, pad⟩ := p
    obtain ⟨hw, hb, h1, h2, h3⟩ := layout_sound hl
    have := parseFields_eq enc flags m buf hv hfl henc hw hb
    rw [h1, h2] at this
    simp only [this]
    simp

/-- **C07 (exactly the well-formed packets are accepted, and split correctly).** A buffer is accepted
if and only if it is the concatenation of the regions of a well-formed RTP packet; then the parsed
fields are those of the header, and the header, payload and padding slices are exactly the
corresponding, adjacent and disjoint, regions of the buffer. -/
theorem C07_accepts_iff (enc : Nat → Option (BitVec 32)) (flags : BitVec 32) (m : List Byte) (buf : Slice)
    (hv : buf.Valid m) (hfl : flags &&& flagRTP = 0)
    (henc : ∀ pt fl, enc pt = some fl → (flags ||| flagRTP) &&& fl = 0) (fl : BitVec 32) (rtp : Rtp) :
    parse enc flags m buf = .ok (fl, rtp) ↔
    ∃ r : Regions, r.WellFormed ∧ r.wire = buf.bytes m ∧ rtp = r.seen buf.off ∧
      fl = flags ||| flagRTP ||| (enc (r.octet1 % 128)).getD 0 := by
  rw [parse_eq enc flags m buf hv]
  constructor
  · intro h
    cases hl : layout (buf.bytes m) with
    | none => rw [hl] at h; simp at h
    | some p =>
      obtain ⟨begin, pad⟩ := p
      obtain ⟨hw, hb, h1, h2, h3⟩ := layout_sound hl
      have := parseFields_eq enc flags m buf hv hfl henc hw hb
      rw [h1, h2] at this
      rw [hl] at h
      simp only [this] at h
      simp only [Out.ok.injEq, Prod.mk.injEq] at h
      exact ⟨_, hw, hb, h.2.symm, h.1.symm⟩
  · rintro ⟨r, hw, hb, rfl, rfl⟩
    have hl := layout_complete hw
    rw [hb] at hl
    rw [hl]
    exact parseFields_eq enc flags m buf hv hfl henc hw hb

example : (⟨3, samplePacket.length⟩ : Slice).Valid ([0, 0, 0] ++ samplePacket ++ [0]) := by
  simp [Slice.Valid]; decide
example : ∃ r : Regions, r.WellFormed ∧ r.wire = samplePacket :=
  ⟨⟨samplePacket.take 12, [9, 9, 9, 9], [0, 7, 0, 1, 1, 1, 1, 1], [0xaa, 0xbb, 0xcc], [0, 2]⟩,
    by constructor <;> decide, by decide⟩
example : parse sampleEnc 1 ([0, 0, 0] ++ samplePacket ++ [0]) ⟨3, samplePacket.length⟩ =
    .ok (1 ||| 2 ||| 16, {
      source := 0x05060708, seqnum := 0x1234, timestamp := 0x01020304, marker := true,
      payloadType := 10, header := some ⟨3, 24⟩, payload := some ⟨27, 3⟩, padding := some ⟨30, 2⟩ }) := by
  decide +kernel
example : ∀ pt fl, sampleEnc pt = some fl → (1 ||| flagRTP) &&& fl = 0 := by
  intro pt fl; unfold sampleEnc; split <;> simp [flagRTP]; rintro rfl; decide

/-- **C07 (regions inside the buffer).** For every accepted buffer: the header begins at the beginning
of the buffer, the payload follows the header, the padding follows the payload, and the last of
them ends at the end of the buffer; the header has at least 12 bytes. -/
theorem C07_regions (enc : Nat → Option (BitVec 32)) (flags : BitVec 32) (m : List Byte) (buf : Slice)
    (hv : buf.Valid m) (hfl : flags &&& flagRTP = 0)
    (henc : ∀ pt fl, enc pt = some fl → (flags ||| flagRTP) &&& fl = 0) (fl : BitVec 32) (rtp : Rtp)
    (h : parse enc flags m buf = .ok (fl, rtp)) :
    ∃ hd pl, rtp.header = some hd ∧ rtp.payload = some pl ∧ 12 ≤ hd.len ∧ hd.off = buf.off ∧
      pl.off = hd.off + hd.len ∧
      match rtp.padding with
      | none => pl.off + pl.len = buf.off + buf.len
      | some pd => 0 < pd.len ∧ pd.len ≤ 255 ∧ pd.off = pl.off + pl.len ∧ pd.off + pd.len = buf.off + buf.len := by
  obtain ⟨r, hw, hb, rfl, -⟩ := (C07_accepts_iff enc flags m buf hv hfl henc fl rtp).mp h
  have hlen : r.fixed.length + r.csrc.length + r.ext.length + r.payload.length + r.padding.length = buf.len := by
    rw [← bytes_length m buf hv, ← hb]
    simp only [Regions.wire, List.length_append]
  have h12 := hw.fixed
  have hl := layout_complete hw
  obtain ⟨_, _, _, h255⟩ := layout_bounds hl
  refine ⟨_, _, rfl, rfl, ?_, rfl, ?_, ?_⟩
  · show 12 ≤ r.fixed.length + r.csrc.length + r.ext.length
    omega
  · rfl
  · unfold Regions.seen
    by_cases hp : r.padding = []
    · simp only [hp, if_true]
      rw [hp] at hlen
      simp at hlen
      omega
    · have : 0 < r.padding.length := List.length_pos_iff.mpr hp
      simp only [hp, if_false]
      omega

/-! ## C06 -/

/-- The bytes of a composed padding: zeroes and the padding length. -/
def padBytes (n : Nat) : List Byte := if n = 0 then [] else List.replicate (n - 1) 0 ++ [BitVec.ofNat 8 n]

theorem padBytes_length (n : Nat) : (padBytes n).length = n := by
  unfold padBytes
  split
  · simp; omega
  · simp; omega

theorem marker_pt_bits : ∀ m : Bool, ∀ pt : BitVec 7,
    ((((0#8 &&& ~~~ (0x1#8 <<< 7)) ||| ((if m then 1#8 else 0#8) <<< 7)) &&& ~~~ (0x7f#8 <<< 0)) |||
      ((pt.setWidth 8) <<< 0)).toNat = (if m then 128 else 0) + pt.toNat := by decide +kernel

/-- The header of a composed packet as regions. -/
theorem composeHeader_spec (rtp : Rtp) (hpt : rtp.payloadType.toNat < 128) (pad : Bool) :
    ∃ h, composeHeader rtp = some h ∧
      (let g := if pad then h.setPadding true else h
       beNat (rdAt g.store 0 1) = 128 + (if pad then 32 else 0) ∧
       beNat (rdAt g.store 1 1) = (if rtp.marker then 128 else 0) + rtp.payloadType.toNat ∧
       beNat (rdAt g.store 2 2) = rtp.seqnum.toNat ∧ beNat (rdAt g.store 4 4) = rtp.timestamp.toNat ∧
       beNat (rdAt g.store 8 4) = rtp.source.toNat) := by
  have e0 : (rtp.payloadType.setWidth 8) = (rtp.payloadType.setWidth 7).setWidth 8 := by
    apply BitVec.eq_of_toNat_eq
    simp only [BitVec.toNat_setWidth]
    omega
  have hc : (rtp.payloadType.setWidth 8) &&& 0x7f#8 = rtp.payloadType.setWidth 8 := by
    have key : ∀ x : BitVec 7, (x.setWidth 8) &&& 0x7f#8 = x.setWidth 8 := by decide +kernel
    rw [e0]; exact key _
  refine ⟨_, by unfold composeHeader Header.setPayloadType; rw [if_neg (by rw [hc]; simp)], ?_⟩
  have hf0 : ((Header.clear.setVersion 2).flags) = 128#8 := by decide
  have hm : ∀ g : Header, beNat (rdAt g.store 0 1) = g.flags.toNat ∧ beNat (rdAt g.store 1 1) = g.mpt.toNat ∧
      beNat (rdAt g.store 2 2) = g.seqnum.toNat ∧ beNat (rdAt g.store 4 4) = g.timestamp.toNat ∧
      beNat (rdAt g.store 8 4) = g.ssrc.toNat := by
    intro g
    have hs := g.seqnum.isLt
    have ht := g.timestamp.isLt
    have hr := g.ssrc.isLt
    refine ⟨by simp [rdAt, Header.store, beNat_singleton], by simp [rdAt, Header.store, beNat_singleton], ?_, ?_, ?_⟩
    · have : rdAt g.store 2 2 = toBe 2 g.seqnum.toNat := by simp [rdAt, Header.store, toBe]
      rw [this, beNat_toBe_of_lt (by omega)]
    · have : rdAt g.store 4 4 = toBe 4 g.timestamp.toNat := by simp [rdAt, Header.store, toBe]
      rw [this, beNat_toBe_of_lt (by omega)]
    · have : rdAt g.store 8 4 = toBe 4 g.ssrc.toNat := by simp [rdAt, Header.store, toBe]
      rw [this, beNat_toBe_of_lt (by omega)]
  intro g
  obtain ⟨h1, h2, h3, h4, h5⟩ := hm g
  rw [h1, h2, h3, h4, h5]
  have hpt7 : (rtp.payloadType.setWidth 7).toNat = rtp.payloadType.toNat := by
    rw [BitVec.toNat_setWidth]; omega
  have hmp := marker_pt_bits rtp.marker (rtp.payloadType.setWidth 7)
  rw [← e0, hpt7] at hmp
  cases pad
  · refine ⟨?_, hmp, rfl, rfl, rfl⟩
    show (Header.clear.setVersion 2).flags.toNat = 128
    decide
  · refine ⟨?_, hmp, rfl, rfl, rfl⟩
    show ((Header.clear.setVersion 2).setPadding true).flags.toNat = 160
    decide

/-- Contents of the packet buffer after composing. -/
theorem compose_bytes (flags : BitVec 32) (rtp : Rtp) (m : List Byte) (off n pd : Nat)
    (hfl : flags &&& flagRTP ≠ 0) (hpt : rtp.payloadType.toNat < 128) (hpd : pd ≤ 255) (hn : pd ≤ n)
    (hsp : off + (12 + n) ≤ m.length)
    (hh : rtp.header = some ⟨off, 12⟩)
    (hpad : rtp.padding = some ⟨off + 12 + (n - pd), pd⟩ ∨ (pd = 0 ∧ rtp.padding = none)) :
    ∃ m' h, compose flags rtp m = .ok m' ∧ composeHeader rtp = some h ∧ m'.length = m.length ∧
      rdAt m' off (12 + n) =
        (if pd ≠ 0 then h.setPadding true else h).store ++ rdAt m (off + 12) (n - pd) ++ padBytes pd ∧
      (∀ o k, o + k ≤ off ∨ off + 12 + n ≤ o → rdAt m' o k = rdAt m o k) := by
  obtain ⟨h, hc, _⟩ := composeHeader_spec rtp hpt false
  by_cases hz : pd = 0
  · subst hz
    have hcomp : compose flags rtp m = .ok (wrAt m off h.store) := by
      unfold compose
      rw [if_neg hfl, hh]
      simp only [need, hc]
      rcases hpad with hp | ⟨_, hp⟩ <;> rw [hp] <;> simp [headerLen]
    rw [hcomp]
    have hsl := store_length h
    refine ⟨_, h, rfl, hc, wrAt_length _ _ _ (by omega), ?_, ?_⟩
    · rw [rdAt_append]
      have e1 := rdAt_wrAt_same m off h.store (by omega)
      rw [hsl] at e1
      rw [e1, rdAt_wrAt_disjoint _ _ _ (by omega) _ _ (by omega)]
      simp [padBytes]
    · intro o k hd
      exact rdAt_wrAt_disjoint _ _ _ (by omega) _ _ (by omega)
  · have hp : rtp.padding = some ⟨off + 12 + (n - pd), pd⟩ := by
      rcases hpad with hp | ⟨h0, _⟩
      · exact hp
      · omega
    unfold compose
    rw [if_neg hfl, hh]
    simp only [need, hc]
    rw [if_neg (by simp [headerLen]), hp]
    simp only
    rw [if_pos (by omega), if_neg (by omega)]
    obtain ⟨g, hg⟩ : ∃ g, g = h.setPadding true := ⟨_, rfl⟩
    rw [← hg]
    have hz' : pd ≠ 0 := hz
    simp only [hz', ne_eq, not_false_eq_true, if_true]
    have hsl := store_length g
    obtain ⟨m1, hm1⟩ : ∃ m1, m1 = wrAt m off g.store := ⟨_, rfl⟩
    rw [← hm1]
    have hl1 : m1.length = m.length := by rw [hm1]; exact wrAt_length _ _ _ (by omega)
    obtain ⟨m2, hm2⟩ : ∃ m2, m2 = if pd > 1 then wrAt m1 (off + 12 + (n - pd)) (List.replicate (pd - 1) 0)
        else m1 := ⟨_, rfl⟩
    rw [← hm2]
    have hl2 : m2.length = m.length := by
      rw [hm2]; split
      · rw [wrAt_length _ _ _ (by simp; omega), hl1]
      · exact hl1
    have hrd2 : ∀ o k, o + k ≤ off + 12 + (n - pd) ∨ off + 12 + (n - pd) + (pd - 1) ≤ o →
        rdAt m2 o k = rdAt m1 o k := by
      intro o k hd
      rw [hm2]; split
      · exact rdAt_wrAt_disjoint _ _ _ (by simp; omega) _ _ (by simp; omega)
      · rfl
    have hrep : rdAt m2 (off + 12 + (n - pd)) (pd - 1) = List.replicate (pd - 1) 0 := by
      rw [hm2]; split
      · have := rdAt_wrAt_same m1 (off + 12 + (n - pd)) (List.replicate (pd - 1) 0) (by simp; omega)
        rwa [List.length_replicate] at this
      · have : pd - 1 = 0 := by omega
        rw [this, rdAt_zero]; rfl
    have hrd3 : ∀ o k, o + k ≤ off + 12 + (n - pd) + (pd - 1) ∨ off + 12 + (n - pd) + (pd - 1) + 1 ≤ o →
        rdAt (wrAt m2 (off + 12 + (n - pd) + (pd - 1)) [BitVec.ofNat 8 pd]) o k = rdAt m2 o k := by
      intro o k hd
      exact rdAt_wrAt_disjoint _ _ _ (by simp; omega) _ _ (by simp; omega)
    have hlast : rdAt (wrAt m2 (off + 12 + (n - pd) + (pd - 1)) [BitVec.ofNat 8 pd])
        (off + 12 + (n - pd) + (pd - 1)) 1 = [BitVec.ofNat 8 pd] := by
      have := rdAt_wrAt_same m2 (off + 12 + (n - pd) + (pd - 1)) [BitVec.ofNat 8 pd] (by simp; omega)
      simpa using this
    refine ⟨_, h, rfl, rfl, ?_, ?_, ?_⟩
    · rw [wrAt_length _ _ _ (by simp; omega), hl2]
    · have en : 12 + n = 12 + ((n - pd) + ((pd - 1) + 1)) := by omega
      rw [en, rdAt_append, rdAt_append, rdAt_append, hlast, ← hg]
      rw [hrd3 off 12 (by omega), hrd2 off 12 (by omega)]
      rw [hrd3 (off + 12) _ (by omega), hrd2 (off + 12) _ (by omega)]
      rw [hrd3 (off + 12 + (n - pd)) _ (by omega), hrep]
      have e1 := rdAt_wrAt_same m off g.store (by omega)
      rw [hsl, ← hm1] at e1
      have e2 : rdAt m1 (off + 12) (n - pd) = rdAt m (off + 12) (n - pd) := by
        rw [hm1]; exact rdAt_wrAt_disjoint _ _ _ (by omega) _ _ (by omega)
      rw [e1, e2, List.append_assoc]
      simp [padBytes, hz]
    · intro o k hd
      rw [hrd3 o k (by omega), hrd2 o k (by omega), hm1]
      exact rdAt_wrAt_disjoint _ _ _ (by omega) _ _ (by omega)

/-- Composing a packet prepared at `off` and parsing the result. -/
theorem compose_parse (enc : Nat → Option (BitVec 32)) (flags flags0 : BitVec 32) (rtp : Rtp) (fill : List Byte)
    (off size pd : Nat) (hfl : flags &&& flagRTP ≠ 0) (hpt : rtp.payloadType.toNat < 128) (hpd : pd ≤ 255)
    (hps : pd ≤ size) (hsp : off + (12 + size) ≤ fill.length) (hh : rtp.header = some ⟨off, 12⟩)
    (hpad : rtp.padding = some ⟨off + 12 + (size - pd), pd⟩ ∨ (pd = 0 ∧ rtp.padding = none))
    (hfl0 : flags0 &&& flagRTP = 0)
    (henc : ∀ pt fl, enc pt = some fl → (flags0 ||| flagRTP) &&& fl = 0) :
    ∃ m', compose flags rtp fill = .ok m' ∧ m'.length = fill.length ∧
      (∀ o k, o + k ≤ off ∨ off + 12 + size ≤ o → rdAt m' o k = rdAt fill o k) ∧
      (∃ fl parsed pl, parse enc flags0 m' ⟨off, 12 + size⟩ = .ok (fl, parsed) ∧ parsed.source = rtp.source ∧
        parsed.seqnum = rtp.seqnum ∧ parsed.timestamp = rtp.timestamp ∧ parsed.marker = rtp.marker ∧
        parsed.payloadType = rtp.payloadType ∧
        parsed.payload = some pl ∧ pl.bytes m' = rdAt fill (off + 12) (size - pd) ∧
        (pd = 0 → parsed.padding = none) ∧
        (pd ≠ 0 → ∃ pds, parsed.padding = some pds ∧ pds.len = pd)) := by
  obtain ⟨m', h, hc, hch, hlen, hrd, hout⟩ := compose_bytes flags rtp fill off size pd hfl hpt hpd hps hsp hh hpad
  refine ⟨m', hc, hlen, hout, ?_⟩
  -- the regions
  obtain ⟨h', hch', hspec⟩ := composeHeader_spec rtp hpt (decide (pd ≠ 0))
  rw [hch] at hch'
  simp only [Option.some.injEq] at hch'
  subst hch'
  obtain ⟨g, hg⟩ : ∃ g, g = if pd ≠ 0 then h.setPadding true else h := ⟨_, rfl⟩
  have hgg : (if decide (pd ≠ 0) = true then h.setPadding true else h) = g := by rw [hg]; simp
  simp only [hgg] at hspec
  rw [← hg] at hrd
  obtain ⟨q0, q1, q2, q3, q4⟩ := hspec
  have hsl := store_length g
  have hv : (⟨off, 12 + size⟩ : Slice).Valid m' := by unfold Slice.Valid; simp only; omega
  obtain ⟨r, hr⟩ : ∃ r : Regions, r = ⟨g.store, [], [], rdAt fill (off + 12) (size - pd), padBytes pd⟩ := ⟨_, rfl⟩
  have ho0 : r.octet0 = 128 + if pd ≠ 0 then 32 else 0 := by
    rw [hr]; unfold Regions.octet0; simp only
    have : g.store.take 1 = rdAt g.store 0 1 := by simp [rdAt]
    rw [this, q0]; simp
  have ho1 : r.octet1 = (if rtp.marker = true then 128 else 0) + rtp.payloadType.toNat := by
    rw [hr]; unfold Regions.octet1; simp only
    exact q1
  have hw : r.WellFormed := by
    constructor
    · rw [hr]; exact hsl
    · rw [ho0]; split <;> omega
    · rw [ho0, hr]; split <;> simp
    · intro _; rw [hr]
    · intro hx; rw [ho0] at hx; split at hx <;> omega
    · intro hx
      rw [ho0] at hx
      have : pd = 0 := by
        by_cases h0 : pd = 0
        · exact h0
        · rw [if_pos h0] at hx; omega
      rw [hr, this]; simp [padBytes]
    · intro hx
      rw [ho0] at hx
      have h0 : pd ≠ 0 := by
        intro h0
        rw [if_neg (by simp [h0])] at hx; omega
      have e : r.padding = padBytes pd := by rw [hr]
      rw [e, padBytes_length]
      refine ⟨h0, ?_⟩
      unfold padBytes
      rw [if_neg h0]
      have : (List.replicate (pd - 1) (0 : Byte) ++ [BitVec.ofNat 8 pd]).drop (pd - 1) = [BitVec.ofNat 8 pd] := by
        rw [List.drop_append]
        simp
      rw [this, beNat_singleton, BitVec.toNat_ofNat]
      omega
  have hwire : r.wire = (⟨off, 12 + size⟩ : Slice).bytes m' := by
    unfold Slice.bytes
    simp only
    rw [hrd, hr]
    simp [Regions.wire]
  have hseen := (C07_accepts_iff enc flags0 m' ⟨off, 12 + size⟩ hv hfl0
    henc _ (r.seen off)).mpr ⟨r, hw, hwire, rfl, rfl⟩
  refine ⟨_, _, _, hseen, ?_, ?_, ?_, ?_, ?_, rfl, ?_, ?_, ?_⟩
  · have : r.ssrc = rtp.source.toNat := by rw [hr]; exact q4
    simp [Regions.seen, this]
  · have : r.seqnum = rtp.seqnum.toNat := by rw [hr]; exact q2
    simp [Regions.seen, this]
  · have : r.timestamp = rtp.timestamp.toNat := by rw [hr]; exact q3
    simp [Regions.seen, this]
  · simp only [Regions.seen, ho1]
    cases rtp.marker <;> simp <;> omega
  · simp only [Regions.seen, ho1]
    have : ((if rtp.marker = true then 128 else 0) + rtp.payloadType.toNat) % 128 = rtp.payloadType.toNat := by split <;> omega
    rw [this]; simp
  · have hlenp : r.payload.length = size - pd := by
      rw [hr]; exact rdAt_length _ _ _ (by omega)
    have hh : r.fixed.length + r.csrc.length + r.ext.length = 12 := by rw [hr]; simp [hsl]
    unfold Slice.bytes
    simp only [hlenp, hh]
    have e1 : rdAt (rdAt m' off (12 + size)) 12 (size - pd) = rdAt m' (off + 12) (size - pd) :=
      rdAt_rdAt _ _ _ _ _ (by omega)
    rw [← e1, hrd, List.append_assoc]
    have e2 := rdAt_append_right g.store (rdAt fill (off + 12) (size - pd) ++ padBytes pd) 0 (size - pd)
    rw [hsl] at e2
    rw [show (12 : Nat) = 12 + 0 from rfl, e2, rdAt_append_left _ _ _ _ (by rw [rdAt_length _ _ _ (by omega)]; omega)]
    rw [rdAt_rdAt _ _ _ _ _ (by omega)]
  · intro h0
    have : r.padding = [] := by rw [hr, h0]; rfl
    simp [Regions.seen, this]
  · intro h0
    have hl : r.padding.length = pd := by rw [hr]; exact padBytes_length pd
    have hne : r.padding ≠ [] := by intro e; rw [e] at hl; simp at hl; omega
    refine ⟨⟨off + (r.fixed.length + r.csrc.length + r.ext.length + r.payload.length), r.padding.length⟩, ?_, hl⟩
    simp [Regions.seen, hne]

/-- **C06 (round trip).** Take any buffer, prepare an RTP packet with `size` bytes of payload in it,
fill the payload with anything (`fill` is the buffer after that), optionally pad it with `pd` bytes,
set the fields to any values, and compose. Every step succeeds; and parsing the resulting packet
buffer yields the same source, sequence number, timestamp, marker and payload type, and a payload
with the same bytes (those which were not taken by padding). Bytes outside of the packet are
untouched. -/
theorem C06_roundtrip (enc : Nat → Option (BitVec 32)) (m fill : List Byte) (buf : Slice) (size pd : Nat)
    (doPad : Bool) (source : BitVec 32) (seqnum : BitVec 16) (ts : BitVec 32) (marker : Bool) (pt : BitVec 32)
    (hcap : headerLen + size ≤ buf.capacity m) (hoff : buf.off ≤ m.length) (hfill : fill.length = m.length)
    (hpt : pt.toNat < 128) (hpd : pd ≤ 255) (hps : pd ≤ size) (hnp : doPad = false → pd = 0)
    (henc : ∀ pt fl, enc pt = some fl → flagRTP &&& fl = 0) :
    ∃ flags rtp pbuf rtp2 m', prepare 0 {} m buf size = .ok (flags, rtp, pbuf) ∧
      rtp.payload = some ⟨buf.off + headerLen, size⟩ ∧ pbuf = ⟨buf.off, headerLen + size⟩ ∧
      (if doPad then pad flags rtp pd else .ok rtp) = .ok rtp2 ∧
      compose flags { rtp2 with source := source, seqnum := seqnum, timestamp := ts, marker := marker,
                                payloadType := pt } fill = .ok m' ∧
      (∃ fl parsed pl, parse enc 0 m' pbuf = .ok (fl, parsed) ∧ parsed.source = source ∧ parsed.seqnum = seqnum ∧
        parsed.timestamp = ts ∧ parsed.marker = marker ∧ parsed.payloadType = pt ∧
        parsed.payload = some pl ∧ pl.bytes m' = rdAt fill (buf.off + headerLen) (size - pd) ∧
        (pd = 0 → parsed.padding = none) ∧
        (pd ≠ 0 → ∃ pds, parsed.padding = some pds ∧ pds.len = pd)) ∧
      (∀ o k, o + k ≤ buf.off ∨ buf.off + headerLen + size ≤ o → rdAt m' o k = rdAt fill o k) := by
  unfold Slice.capacity headerLen at *
  have hprep : prepare 0 {} m buf size = .ok (flagRTP, { header := some ⟨buf.off, 12⟩, payload := some ⟨buf.off + 12, size⟩ },
      ⟨buf.off, 12 + size⟩) := by
    unfold prepare
    simp only [Slice.subslice, Slice.reslice, Slice.capacity, headerLen, need, Nat.add_zero, Nat.sub_self,
      Nat.sub_zero, gt_iff_lt, Nat.lt_irrefl, Nat.not_lt_zero, if_false]
    rw [if_neg (by omega), if_neg (by omega)]
    simp only [Nat.lt_irrefl, Nat.not_lt_zero, if_false, Nat.sub_self]
    rw [if_neg (by omega)]
    rw [if_neg (by omega)]
    simp only [addFlags]
    rw [if_neg (by decide)]
    rw [if_neg (by omega)]
    simp only [Nat.sub_zero]
    have : (0 : BitVec 32) ||| flagRTP = flagRTP := by decide
    rw [this]
  refine ⟨flagRTP, { header := some ⟨buf.off, 12⟩, payload := some ⟨buf.off + 12, size⟩ }, ⟨buf.off, 12 + size⟩, ?_⟩
  have hpadding : ∃ rtp2 : Rtp, (if doPad then pad flagRTP { header := some ⟨buf.off, 12⟩, payload := some ⟨buf.off + 12, size⟩ } pd
      else .ok { header := some ⟨buf.off, 12⟩, payload := some ⟨buf.off + 12, size⟩ }) = .ok rtp2 ∧
      rtp2.header = some ⟨buf.off, 12⟩ ∧
      (rtp2.padding = some ⟨buf.off + 12 + (size - pd), pd⟩ ∨ (pd = 0 ∧ rtp2.padding = none)) := by
    cases doPad
    · exact ⟨_, rfl, rfl, .inr ⟨hnp rfl, rfl⟩⟩
    · refine ⟨{ header := some ⟨buf.off, 12⟩, payload := some ⟨buf.off + 12, size - pd⟩,
                padding := some ⟨buf.off + 12 + (size - pd), pd⟩ }, ?_, rfl, .inl rfl⟩
      simp only [if_true, pad]
      rw [if_neg (by decide)]
      simp only [Option.isSome_none, Bool.false_eq_true, if_false, Slice.subslice]
      rw [if_neg (by omega), if_neg (by omega), if_neg (by omega)]
      simp only [need]
      rw [if_neg (by omega), if_neg (by omega)]
      simp only [Nat.add_zero, Nat.sub_zero]
      have : size - (size - pd) = pd := by omega
      rw [this]
  obtain ⟨rtp2, hp2, hh2, hpd2⟩ := hpadding
  obtain ⟨m', hc, hlen, hout, hp⟩ := compose_parse enc flagRTP 0
    { rtp2 with source := source, seqnum := seqnum, timestamp := ts, marker := marker, payloadType := pt }
    fill buf.off size pd (by decide) hpt hpd hps (by omega) hh2 hpd2 (by decide)
    (by intro p f hf; simpa using henc p f hf)
  exact ⟨rtp2, m', hprep, rfl, rfl, hp2, hc, hp, hout⟩

example : headerLen + 20 ≤ (⟨4, 0⟩ : Slice).capacity (List.replicate 64 0) ∧ (7 : Nat) ≤ 20 ∧ (7 : Nat) ≤ 255 := by
  decide
example : ∀ pt fl, sampleEnc pt = some fl → flagRTP &&& fl = 0 := by
  intro pt fl; unfold sampleEnc; split <;> simp [flagRTP]; rintro rfl; decide

/-- **C06 (too much padding).** A padding of more than 255 bytes cannot be expressed; composing reports
failure instead of producing a packet with a wrong length octet. -/
theorem C06_large_padding_rejected (flags : BitVec 32) (rtp : Rtp) (m : List Byte) (hd p : Slice)
    (hfl : flags &&& flagRTP ≠ 0) (hpt : rtp.payloadType.toNat < 128)
    (hh : rtp.header = some hd) (hl : hd.len = headerLen) (hp : rtp.padding = some p) (h : 255 < p.len) :
    compose flags rtp m = .reject := by
  obtain ⟨g, hc, _⟩ := composeHeader_spec rtp hpt false
  unfold compose
  rw [if_neg hfl, hh]
  simp only [need, hc, hp]
  rw [if_neg (by simp [hl]), if_pos (by omega), if_pos (by omega)]

example : compose flagRTP { payloadType := 10, header := some ⟨0, 12⟩, payload := some ⟨12, 0⟩, padding := some ⟨12, 256⟩ }
    (List.replicate 300 0) = .reject := by decide +kernel

/-- **C06 (payload types outside of the 7-bit range).** Payload types 128..255 abort; but the field is
a 32-bit number, and the range check is done after it has been truncated to 8 bits: a packet with
payload type 266 is silently sent with payload type 10. -/
theorem C06_payload_type_fails :
    (composeHeader { payloadType := 200 }) = none ∧
    ∃ h, composeHeader { payloadType := 266 } = some h ∧ h.payloadType = 10 := by
  exact ⟨by decide, _, rfl, by decide⟩

/-- **C06 (alignment).** After `align`, the payload of a packet prepared in the buffer starts at a
multiple of the alignment, and no more than `alignment - 1` bytes are spent. -/
theorem C06_align (m : List Byte) (buf buf' : Slice) (headerSize alignment : Nat) (ha : 0 < alignment)
    (h : align m buf headerSize alignment = .ok buf') :
    (buf'.off + headerSize + headerLen) % alignment = 0 ∧ buf.off ≤ buf'.off ∧ buf'.off < buf.off + alignment ∧
    buf'.len = 0 := by
  unfold align at h
  by_cases h1 : buf.off % alignment ≠ 0
  · rw [if_pos h1] at h; simp at h
  rw [if_neg h1] at h
  simp only at h
  by_cases h2 : buf.capacity m < padAs (headerSize + headerLen) alignment
  · rw [if_pos h2] at h; simp at h
  rw [if_neg h2] at h
  unfold Slice.reslice at h
  rw [if_neg (by omega), if_neg (by omega)] at h
  simp only [need, Out.ok.injEq] at h
  subst h
  simp only [Nat.sub_self, and_true]
  obtain ⟨s, hs⟩ : ∃ s, s = headerSize + headerLen := ⟨_, rfl⟩
  have hq : buf.off % alignment = 0 := by omega
  rw [Nat.add_assoc, ← hs]
  unfold padAs
  rw [if_neg (by omega)]
  simp only
  have hdm := Nat.div_add_mod s alignment
  have hml := Nat.mod_lt s ha
  obtain ⟨q, hqq⟩ : ∃ q, q = s / alignment := ⟨_, rfl⟩
  rw [← hqq] at hdm ⊢
  rw [Nat.mul_comm q alignment]
  obtain ⟨t, ht⟩ : ∃ t, t = alignment * q := ⟨_, rfl⟩
  rw [← ht] at hdm ⊢
  have ht0 : t % alignment = 0 := by rw [ht]; exact Nat.mul_mod_right _ _
  split
  · have e : buf.off + (t + alignment - s) + s = buf.off + (t + alignment) := by omega
    rw [e]
    refine ⟨?_, by omega, by omega⟩
    rw [Nat.add_mod, hq, Nat.add_mod_right, ht0]; simp
  · have e : buf.off + (t - s) + s = buf.off + t := by omega
    rw [e]
    refine ⟨?_, by omega, by omega⟩
    rw [Nat.add_mod, hq, ht0]; simp

example : align (List.replicate 64 0) ⟨8, 0⟩ 0 8 = .ok ⟨12, 0⟩ := by decide +kernel

end Verif.RtpCodec
