import Verif.RtcpGen.Spec
import Verif.RtcpBuild.ReadAll

/-! Lemmas for C28. -/

namespace Verif.RtcpGen

open Verif.Bytes Verif.RtcpFields Verif.RtcpParse Verif.RtcpBuild

/-! ## Loops over streams -/

theorem nextRecv_eq (s : St) (i : Nat) : nextRecv s i =
    if s.curSend + max s.curRecv (i - s.recvIdx + 1) ≥ s.maxStreams then none
    else some { s with curRecv := max s.curRecv (i - s.recvIdx + 1) } := rfl

theorem nextSend_eq (s : St) (i : Nat) : nextSend s i =
    if max s.curSend (i - s.sendIdx + 1) + s.curRecv ≥ s.maxStreams then none
    else some { s with curSend := max s.curSend (i - s.sendIdx + 1) } := rfl

theorem recv_first (k : Nat) : ∀ (s : St) (j : Nat), s.curRecv = j →
    streams nextRecv k (s.recvIdx + j) s =
      ({ s with curRecv := j + min k (s.maxStreams - 1 - s.curSend - j) }, List.range' (s.recvIdx + j) (min k (s.maxStreams - 1 - s.curSend - j))) := by
  induction k with
  | zero => intro s j h; simp [streams, ← h]
  | succ k ih =>
    intro s j h
    rw [streams]
    rw [nextRecv_eq]
    have e : max s.curRecv (s.recvIdx + j - s.recvIdx + 1) = j + 1 := by omega
    rw [e]
    by_cases hc : s.curSend + (j + 1) ≥ s.maxStreams
    · rw [if_pos hc]
      have : min (k + 1) (s.maxStreams - 1 - s.curSend - j) = 0 := by omega
      rw [this]
      simp [← h]
    · rw [if_neg hc]
      simp only
      have hi := ih { s with curRecv := j + 1 } (j + 1) rfl
      simp only at hi
      rw [Nat.add_assoc s.recvIdx j 1, hi]
      have : min (k + 1) (s.maxStreams - 1 - s.curSend - j) = min k (s.maxStreams - 1 - s.curSend - (j + 1)) + 1 := by omega
      rw [this, List.range'_succ]
      simp only [Prod.mk.injEq, List.cons.injEq, true_and, St.mk.injEq, and_true]
      constructor
      · omega
      · rw [Nat.add_assoc]

theorem send_first (k : Nat) : ∀ (s : St) (j : Nat), s.curSend = j →
    streams nextSend k (s.sendIdx + j) s =
      ({ s with curSend := j + min k (s.maxStreams - 1 - s.curRecv - j) }, List.range' (s.sendIdx + j) (min k (s.maxStreams - 1 - s.curRecv - j))) := by
  induction k with
  | zero => intro s j h; simp [streams, ← h]
  | succ k ih =>
    intro s j h
    rw [streams]
    rw [nextSend_eq]
    have e : max s.curSend (s.sendIdx + j - s.sendIdx + 1) = j + 1 := by omega
    rw [e]
    by_cases hc : j + 1 + s.curRecv ≥ s.maxStreams
    · rw [if_pos hc]
      have : min (k + 1) (s.maxStreams - 1 - s.curRecv - j) = 0 := by omega
      rw [this]
      simp [← h]
    · rw [if_neg hc]
      simp only
      have hi := ih { s with curSend := j + 1 } (j + 1) rfl
      simp only at hi
      rw [Nat.add_assoc s.sendIdx j 1, hi]
      have : min (k + 1) (s.maxStreams - 1 - s.curRecv - j) = min k (s.maxStreams - 1 - s.curRecv - (j + 1)) + 1 := by omega
      rw [this, List.range'_succ]
      simp only [Prod.mk.injEq, List.cons.injEq, true_and, St.mk.injEq, and_true]
      constructor
      · omega
      · rw [Nat.add_assoc]

theorem recv_again (k : Nat) : ∀ (s : St) (j : Nat), j ≤ s.curRecv → s.curRecv ≤ j + k → s.curSend + s.curRecv < s.maxStreams →
    (s.curRecv = j + k ∨ s.curSend + s.curRecv + 1 ≥ s.maxStreams) →
    streams nextRecv k (s.recvIdx + j) s = (s, List.range' (s.recvIdx + j) (s.curRecv - j)) := by
  induction k with
  | zero =>
    intro s j h1 h2 h3 h4
    have : s.curRecv - j = 0 := by omega
    rw [this]; rfl
  | succ k ih =>
    intro s j h1 h2 h3 h4
    rw [streams]
    rw [nextRecv_eq]
    have e : max s.curRecv (s.recvIdx + j - s.recvIdx + 1) = max s.curRecv (j + 1) := by congr 1; omega
    rw [e]
    by_cases hj : s.curRecv = j
    · rw [if_pos (by omega), hj, Nat.sub_self]; rfl
    · rw [if_neg (by omega)]
      have hm : max s.curRecv (j + 1) = s.curRecv := by omega
      rw [hm]
      simp only
      rw [Nat.add_assoc s.recvIdx j 1, ih s (j + 1) (by omega) (by omega) h3 (by omega)]
      have : s.curRecv - j = (s.curRecv - (j + 1)) + 1 := by omega
      rw [this, List.range'_succ]
      simp only [Nat.add_assoc]

/-! ## One packet -/

/-- Part of the streams that is reported by one packet. -/
structure Seg where
  dest : Nat
  recvIdx : Nat
  recv : Nat
  sendIdx : Nat
  send : Nat
  hasDlrr : Bool

/-- Blocks for receiving streams. -/
def recvBlocks (r : Rep) (d : Nat) (i : Nat) : List XBlock :=
  [⟨.measurement, (r.measurement d i).1, [(r.measurement d i).2]⟩, ⟨.delay, (r.delay d i).1, [(r.delay d i).2]⟩,
   ⟨.queue, (r.queue d i).1, [(r.queue d i).2]⟩]

/-- DLRR block. -/
def dlrrBlock (r : Rep) (g : Seg) : List XBlock :=
  if g.hasDlrr then [⟨.dlrr, 0, (List.range' g.sendIdx g.send).map (r.dlrr g.dest)⟩] else []

/-- RRTR block and blocks for receiving streams. -/
def rrtrBlocks (r : Rep) (g : Seg) : List XBlock :=
  if r.isReceiving then ⟨.rrtr, 0, [r.rrtr]⟩ :: (List.range' g.recvIdx g.recv).flatMap (recvBlocks r g.dest) else []

/-- SR or RR. -/
def reportPkt (r : Rep) (g : Seg) : Pkt :=
  if r.isSending then .sr r.sr ((List.range' g.recvIdx g.recv).map (r.reception g.dest))
  else .rr r.rr ((List.range' g.recvIdx g.recv).map (r.reception g.dest))

/-- XR. -/
def xrPkts (r : Rep) (g : Seg) : List Pkt :=
  if g.hasDlrr || r.isReceiving then [.xr r.xr (dlrrBlock r g ++ rrtrBlocks r g)] else []

/-- SDES. -/
def sdesPkts (cfg : Config) (r : Rep) : List Pkt := if cfg.enableSdes then [.sdes [⟨r.ssrc, [(1, r.cname)]⟩]] else []

/-- BYE. -/
def byePkts (r : Rep) : List Pkt := if r.needGoodbye then [.bye [r.ssrc] none] else []

/-- All packets of a compound packet. -/
def segPkts (cfg : Config) (r : Rep) (g : Seg) : List Pkt := reportPkt r g :: (xrPkts r g ++ sdesPkts cfg r ++ byePkts r)

/-- State between packets. -/
structure Ready (r : Rep) (s : St) : Prop where
  maxLo : 2 ≤ s.maxStreams
  maxHi : s.maxStreams ≤ 31
  destCount : s.destCount = r.numDest
  dest : s.destIdx < r.numDest
  sendCount : s.sendCount = sendOf r s.destIdx
  recvCount : s.recvCount = recvOf r s.destIdx
  sendIdx : s.sendIdx ≤ s.sendCount
  recvIdx : s.recvIdx ≤ s.recvCount

/-- Number of receiving streams in the next packet. -/
def nRecv (s : St) : Nat := min (s.recvCount - s.recvIdx) (s.maxStreams - 1)

/-- Number of sending streams in the next packet. -/
def nSend (s : St) : Nat := min (s.sendCount - s.sendIdx) (s.maxStreams - 1 - nRecv s)

/-- Part reported by the next packet. -/
def seg (s : St) : Seg := ⟨s.destIdx, s.recvIdx, nRecv s, s.sendIdx, nSend s, decide (s.sendIdx < s.sendCount)⟩

theorem hasDlrr_eq (r : Rep) (s : St) (h : s.sendCount = sendOf r s.destIdx) : hasDlrr r s = decide (s.sendIdx < s.sendCount) := by
  unfold hasDlrr
  cases hs : r.isSending with
  | true => simp
  | false =>
    have : s.sendCount = 0 := by rw [h]; unfold sendOf; rw [hs]; rfl
    rw [this]; simp

theorem calls_reports (cfg : Config) (r : Rep) (s : St) (h1 : cfg.enableSrRr = true) (h2 : cfg.enableXr = true) (hr : Ready r s) :
    payloadCalls cfg r { s with curSend := 0, curRecv := 0 } .reports =
      ({ s with curSend := nSend s, curRecv := nRecv s }, (Compound.mk (segPkts cfg r (seg s)) 0).calls) := by
  have hm := hr.maxLo
  obtain ⟨s0, hs0⟩ : ∃ s0 : St, s0 = { s with curSend := 0, curRecv := 0 } := ⟨_, rfl⟩
  obtain ⟨s1, hs1⟩ : ∃ s1 : St, s1 = { s with curSend := 0, curRecv := nRecv s } := ⟨_, rfl⟩
  obtain ⟨s2, hs2⟩ : ∃ s2 : St, s2 = { s with curSend := nSend s, curRecv := nRecv s } := ⟨_, rfl⟩
  have hnr : nRecv s ≤ s.recvCount - s.recvIdx ∧ nRecv s ≤ s.maxStreams - 1 := by unfold nRecv; omega
  have hns : nSend s ≤ s.maxStreams - 1 - nRecv s := by unfold nSend; omega
  have nr0 : r.isReceiving = false → nRecv s = 0 := by
    intro hi
    unfold nRecv
    rw [hr.recvCount]; unfold recvOf; rw [hi]; simp
  have l1 : recvIf r s0 = (s1, List.range' s.recvIdx (nRecv s)) := by
    unfold recvIf
    cases hi : r.isReceiving with
    | false =>
      have hz := nr0 hi
      rw [hs0, hs1, hz]; rfl
    | true =>
      have := recv_first (s0.recvCount - s0.recvIdx) s0 0 (by rw [hs0])
      rw [if_pos rfl]
      unfold recvStreams
      rw [Nat.add_zero] at this
      rw [this, hs0, hs1]
      simp only [Nat.sub_zero, Nat.zero_add]
      rfl
  have hd1 : hasDlrr r s1 = decide (s.sendIdx < s.sendCount) := by
    have := hasDlrr_eq r s1 (by rw [hs1]; exact hr.sendCount)
    rw [this, hs1]
  have l2 : decide (s.sendIdx < s.sendCount) = true → sendStreams s1 = (s2, List.range' s.sendIdx (nSend s)) := by
    intro _
    have := send_first (s1.sendCount - s1.sendIdx) s1 0 (by rw [hs1])
    unfold sendStreams
    rw [Nat.add_zero] at this
    rw [this, hs1, hs2]
    simp only [Nat.sub_zero, Nat.zero_add]
    rfl
  have ns0 : decide (s.sendIdx < s.sendCount) = false → nSend s = 0 := by
    intro hi
    have : ¬ s.sendIdx < s.sendCount := by simpa using hi
    unfold nSend; omega
  have l3 : dlrrPart r s1 = (s2, if decide (s.sendIdx < s.sendCount) = true then .beginDlrr (xrBytes 5 (0, [])) ::
      (List.range' s.sendIdx (nSend s)).map (fun i => .dlrrReport (r.dlrr s.destIdx i)) ++ [.endDlrr] else []) := by
    unfold dlrrPart
    rw [hd1]
    cases hi : decide (s.sendIdx < s.sendCount) with
    | true =>
      rw [if_pos rfl, if_pos rfl, l2 hi, hs1]
    | false =>
      rw [if_neg (by decide), if_neg (by decide), hs1, hs2, ns0 hi]
  have l4 : recvPart r s2 = (s2, if r.isReceiving = true then .xrBlock (xrBytes 4 (0, r.rrtr)) :: (List.range' s.recvIdx (nRecv s)).flatMap (fun i =>
      [.xrBlock (xrBytes 14 (r.measurement s.destIdx i)), .xrBlock (xrBytes 16 (r.delay s.destIdx i)),
       .xrBlock (xrBytes 220 (r.queue s.destIdx i))]) else []) := by
    unfold recvPart
    cases hi : r.isReceiving with
    | false => rfl
    | true =>
      rw [if_pos rfl, if_pos rfl]
      have := recv_again (s2.recvCount - s2.recvIdx) s2 0 (by omega) (by rw [hs2]; simp only; omega) (by rw [hs2]; simp only; omega)
        (by rw [hs2]; simp only; unfold nRecv; omega)
      unfold recvStreams
      rw [Nat.add_zero] at this
      rw [this, hs2]
      simp only [Nat.sub_zero]
  unfold payloadCalls
  simp only
  rw [← hs0, ← hs2]
  have e1 : partIf cfg.enableSrRr (standard r) s0 = (s1, (reportPkt r (seg s)).calls) := by
    unfold partIf
    rw [h1, if_pos rfl]
    unfold standard reportPkt
    have hdi : s0.destIdx = s.destIdx := by rw [hs0]
    rw [l1, hdi]
    cases hsd : r.isSending with
    | true => simp [Pkt.calls, seg]
    | false => simp [Pkt.calls, seg]
  have e2 : partIf cfg.enableXr (extended r) s1 = (s2, (xrPkts r (seg s)).flatMap Pkt.calls) := by
    unfold partIf
    rw [h2, if_pos rfl]
    unfold extended xrPkts
    have hseg : (seg s).hasDlrr = decide (s.sendIdx < s.sendCount) := rfl
    rw [hd1, hseg]
    by_cases hc : (decide (s.sendIdx < s.sendCount) || r.isReceiving) = true
    · rw [if_pos hc, if_pos hc, l3, l4]
      simp only [List.flatMap_cons, List.flatMap_nil, List.append_nil, Pkt.calls]
      simp only [Prod.mk.injEq, true_and, List.cons_append, List.cons.injEq, List.flatMap_append]
      congr 1
      congr 1
      · unfold dlrrBlock
        rw [hseg]
        cases hi : decide (s.sendIdx < s.sendCount) with
        | false => rfl
        | true => simp [XBlock.calls, xrHead, xrType, xrBytes, seg]
      · unfold rrtrBlocks
        cases hi : r.isReceiving with
        | false => rfl
        | true => simp [XBlock.calls, xrHead, xrType, xrBytes, seg, recvBlocks, List.flatMap_assoc]
    · rw [if_neg hc, if_neg hc]
      simp only [List.flatMap_nil, Prod.mk.injEq, and_true]
      have hc' : decide (s.sendIdx < s.sendCount) = false := by
        revert hc; cases decide (s.sendIdx < s.sendCount) <;> simp
      rw [hs1, hs2, ns0 hc']
  rw [e1]
  simp only
  rw [e2]
  simp only [Prod.mk.injEq, true_and]
  unfold Compound.calls segPkts
  simp only [if_true, List.append_nil, List.flatMap_cons, List.flatMap_append, ← List.append_assoc]
  congr 1
  · congr 1
    unfold sdesPkts
    cases cfg.enableSdes <;> rfl
  · unfold byePkts
    cases r.needGoodbye <;> rfl

end Verif.RtcpGen
