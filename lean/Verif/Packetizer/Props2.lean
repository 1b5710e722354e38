import Verif.Packetizer.Props
import Verif.RtpCodec.Props

/-!
# C63: packets of the packetizer can be transmitted
-/

namespace Verif.Packetizer

open Verif.Bytes

variable {α : Type}

theorem forall₂_mem {c : Cfg} {os : List (Out α)} {gs : List (List (α × Int))} (h : List.Forall₂ (Carries c) os gs) {o : Out α} (ho : o ∈ os) : ∃ g, Carries c o g := by
  induction h with
  | nil => cases ho
  | cons h1 _ ih =>
    rcases List.mem_cons.mp ho with h | h
    · rw [h]; exact ⟨_, h1⟩
    · exact ih h

theorem good_mem {c : Cfg} {pend pend' : List (α × Int)} {ops : List (Op α)} {outs : List (List (Out α))} (h : Good c pend ops outs pend') {o : Out α} (ho : o ∈ outs.flatten) :
    ∃ g, Carries c o g := by
  induction h with
  | nil => cases ho
  | @flush pend ops os outs pend' h hr ih =>
    rw [List.flatten_cons] at ho
    rcases List.mem_append.mp ho with ho | ho
    · rcases h with ⟨_, h2⟩ | ⟨o', h1, h2⟩
      · rw [h2] at ho; cases ho
      · rw [h1] at ho
        rw [List.mem_singleton.mp ho]
        exact ⟨_, h2⟩
    · exact ih ho
  | @write pend mid l cts allocs ops os outs pend' k hk hf gs hg hn' he hm hr ih =>
    rw [List.flatten_cons] at ho
    rcases List.mem_append.mp ho with ho | ho
    · exact forall₂_mem hg ho
    · exact ih ho

/-- Sending a packet: `prepare` for the fixed payload size, `pad`, and `compose` after the sequencer has set the fields
(packetizer.cpp:172-196, 161-170, shipper.cpp:42-48). `fill` is the buffer after encoding. -/
def send (m fill : List Byte) (buf : Slice) (size pad : Nat) (source : BitVec 32) (seqnum : BitVec 16) (ts : BitVec 32) (pt : BitVec 32) :
    RtpCodec.Out (List Byte × Slice) :=
  (RtpCodec.prepare 0 {} m buf size).bind fun r =>
    (if pad ≠ 0 then RtpCodec.pad r.1 r.2.1 pad else .ok r.2.1).bind fun rtp =>
      (RtpCodec.compose r.1 { rtp with source := source, seqnum := seqnum, timestamp := ts, marker := false, payloadType := pt } fill).bind fun m' => .ok (m', r.2.2)

/-- C63 for packets with at most 255 bytes of padding: sending succeeds, and the parser gives the bytes of the packet's samples and the
same fields. -/
theorem C63_flush_partial (c : Cfg) (hc : CfgOk c) (ops : List (Op α)) (ht : Times ops) (r : List (List (Out α)) × St α) (hr : run c ⟨none⟩ ops = some r)
    (o : Out α) (ho : o ∈ r.1.flatten) (hpad : o.pad ≤ 255) (enc : Nat → Option (BitVec 32)) (m fill : List Byte) (buf : Slice)
    (source : BitVec 32) (seqnum : BitVec 16) (ts : BitVec 32) (pt : BitVec 32)
    (hcap : RtpCodec.headerLen + c.bytes c.spp ≤ buf.capacity m) (hoff : buf.off ≤ m.length) (hfill : fill.length = m.length)
    (hpt : pt.toNat < 128) (henc : ∀ pt fl, enc pt = some fl → RtpCodec.flagRTP &&& fl = 0) :
    ∃ m' pbuf fl parsed pl, send m fill buf (c.bytes c.spp) o.pad source seqnum ts pt = .ok (m', pbuf) ∧
      RtpCodec.parse enc 0 m' pbuf = .ok (fl, parsed) ∧ parsed.source = source ∧ parsed.seqnum = seqnum ∧ parsed.timestamp = ts ∧ parsed.payloadType = pt ∧
      parsed.payload = some pl ∧ pl.bytes m' = rdAt fill (buf.off + RtpCodec.headerLen) (c.bytes o.audio.length) := by
  obtain ⟨r', pend, h1, h2⟩ := C38_packets c hc ops ht
  rw [hr] at h1
  rw [← Option.some.inj h1] at h2
  obtain ⟨g, hg⟩ := good_mem h2 ho
  have hlen : o.audio.length = g.length := by rw [hg.audio, List.length_map]
  have hp := hg.pad
  obtain ⟨flags, rtp, pbuf, rtp2, m', a1, a2, a3, a4, a5, ⟨fl, parsed, pl, b1, b2, b3, b4, b5, b6, b7, b8, b9, b10⟩, a7⟩ :=
    RtpCodec.C06_roundtrip enc m fill buf (c.bytes c.spp) o.pad (decide (o.pad ≠ 0)) source seqnum ts false pt hcap hoff hfill hpt hpad (by omega)
      (by intro h; simpa using h) henc
  refine ⟨m', pbuf, fl, parsed, pl, ?_, b1, b2, b3, b4, b6, b7, ?_⟩
  · unfold send
    rw [a1]
    show RtpCodec.Out.bind (if o.pad ≠ 0 then RtpCodec.pad flags rtp o.pad else .ok rtp) _ = _
    have a4' : (if o.pad ≠ 0 then RtpCodec.pad flags rtp o.pad else .ok rtp) = .ok rtp2 := by
      rw [← a4]
      by_cases h : o.pad ≠ 0
      · rw [if_pos h, if_pos (decide_eq_true h)]
      · rw [if_neg h, if_neg (by simpa using h)]
    rw [a4']
    show RtpCodec.Out.bind (RtpCodec.compose flags _ fill) _ = _
    rw [a5]
    rfl
  · rw [b8, hlen]
    congr 1
    omega

theorem prepare_ok (m : List Byte) (buf : Slice) (size : Nat) (hcap : RtpCodec.headerLen + size ≤ buf.capacity m) :
    RtpCodec.prepare 0 {} m buf size = .ok (RtpCodec.flagRTP, { header := some ⟨buf.off, 12⟩, payload := some ⟨buf.off + 12, size⟩ }, ⟨buf.off, 12 + size⟩) := by
  unfold Slice.capacity RtpCodec.headerLen at *
  unfold RtpCodec.prepare
  simp only [Slice.subslice, Slice.reslice, Slice.capacity, RtpCodec.headerLen, RtpCodec.need, Nat.add_zero, Nat.sub_self,
    Nat.sub_zero, gt_iff_lt, Nat.lt_irrefl, Nat.not_lt_zero, if_false]
  rw [if_neg (by omega), if_neg (by omega)]
  simp only [Nat.lt_irrefl, Nat.not_lt_zero, if_false, Nat.sub_self]
  rw [if_neg (by omega)]
  rw [if_neg (by omega)]
  simp only [RtpCodec.addFlags]
  rw [if_neg (by decide)]
  rw [if_neg (by omega)]
  simp only [Nat.sub_zero]
  have : (0 : BitVec 32) ||| RtpCodec.flagRTP = RtpCodec.flagRTP := by decide
  rw [this]

theorem send_reject (m fill : List Byte) (buf : Slice) (size pad : Nat) (source : BitVec 32) (seqnum : BitVec 16) (ts pt : BitVec 32)
    (hcap : RtpCodec.headerLen + size ≤ buf.capacity m) (h1 : 255 < pad) (h2 : pad ≤ size) (hpt : pt.toNat < 128) :
    send m fill buf size pad source seqnum ts pt = .reject := by
  have h : RtpCodec.compose RtpCodec.flagRTP
    { source := source, seqnum := seqnum, timestamp := ts, marker := false, payloadType := pt, header := some ⟨buf.off, 12⟩,
      payload := some ⟨buf.off + 12 + 0, size - pad⟩, padding := some ⟨buf.off + 12 + (size - pad), pad⟩ } fill = .reject :=
    RtpCodec.C06_large_padding_rejected RtpCodec.flagRTP _ fill ⟨buf.off, 12⟩ ⟨buf.off + 12 + (size - pad), pad⟩ (by decide) hpt rfl rfl rfl h1
  have hp : RtpCodec.pad RtpCodec.flagRTP { header := some ⟨buf.off, 12⟩, payload := some ⟨buf.off + 12, size⟩ } pad =
      .ok { header := some ⟨buf.off, 12⟩, payload := some ⟨buf.off + 12 + 0, size - pad⟩, padding := some ⟨buf.off + 12 + (size - pad), pad⟩ } := by
    unfold RtpCodec.pad
    rw [if_neg (by decide)]
    simp only [Option.isSome_none, Bool.false_eq_true, if_false, Slice.subslice]
    rw [if_neg (by omega), if_neg (by omega), if_neg (by omega)]
    simp only [RtpCodec.need]
    rw [if_neg (by omega), if_neg (by omega)]
    have : size - (size - pad) = pad := by omega
    rw [this, Nat.sub_zero]
  unfold send
  rw [prepare_ok m buf size hcap]
  simp only [RtpCodec.Out.bind]
  rw [if_pos (by omega), hp]
  simp only
  rw [h]

/-- 20 ms packets of 16 bit stereo sound, 44100 Hz. -/
def cdCfg : Cfg := ⟨882, 22675, fun n => 4 * n⟩

theorem cd_ok : CfgOk cdCfg := ⟨by decide, by decide, by decide, by intro a b h; show 4 * a ≤ 4 * b; omega⟩

/-- C63 is false: one written sample and a flush make a packet with 3524 bytes of padding. The composer rejects it, and the shipper
aborts. -/
theorem C63_flush_fails : outsOf cdCfg [.write [7] 0 [], .flush] = some [[], [⟨[7], 3524, 0, 1⟩]] ∧
    ∀ (m fill : List Byte) (buf : Slice) (source : BitVec 32) (seqnum : BitVec 16) (ts : BitVec 32),
      RtpCodec.headerLen + cdCfg.bytes cdCfg.spp ≤ buf.capacity m → buf.off ≤ m.length →
      send m fill buf (cdCfg.bytes cdCfg.spp) 3524 source seqnum ts 10 = .reject := by
  refine ⟨by decide +kernel, ?_⟩
  intro m fill buf source seqnum ts hcap hoff
  have hcap : RtpCodec.headerLen + 3528 ≤ buf.capacity m := hcap
  exact send_reject m fill buf 3528 3524 source seqnum ts 10 hcap (by decide) (by decide) (by decide)

end Verif.Packetizer
