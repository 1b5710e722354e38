import Verif.DelayedReader.Lemmas

/-! # C44: start-up delay -/

namespace Verif.DelayedReader

open Verif.SortedQueue

/-- **C44** (nothing is returned or lost before the start). As long as the reader has not started,
whatever the inner reader does, a read returns no packet, and everything that was taken from
the inner reader is in the queue. -/
theorem C44_waiting (delay : Nat) (s : St) (inner : List Res)
    (h : (read delay s inner).2.1.started = false) :
    (∀ p, (read delay s inner).1 ≠ .ok p) ∧
    ∃ consumed, inner = consumed ++ (read delay s inner).2.2 ∧
      (read delay s inner).2.1.queue = (packets consumed).foldl (Queue.write cmp) s.queue := by
  have hns : s.started = false := by
    cases hs : s.started with
    | false => rfl
    | true =>
      unfold read at h
      simp only [hs, if_true] at h
      split at h
      · simp at h
      · split at h <;> simp at h
  obtain ⟨c, h1, h2⟩ := fetchLoop_spec inner s.queue
  unfold read at *
  simp only [hns, Bool.false_eq_true, if_false] at h ⊢
  rcases hf : fetchLoop s.queue inner with ⟨q, inner', e⟩
  rw [hf] at h1 h2 h
  cases e with
  | some e => exact ⟨by simp, c, h1, h2⟩
  | none =>
    simp only at h ⊢
    split at h
    · rename_i hc
      rw [if_pos hc]
      exact ⟨by simp, c, h1, h2⟩
    · split at h
      · simp at h
      · split at h <;> simp at h

/-- **C44** (what is queued). The queue holds the fetched packets in stream order, without duplicates. -/
theorem C44_queue_content (seqPos : Pkt → Int) (S : Pkt → Prop) (ho : Ordered cmp seqPos S)
    (ps : List Pkt) (hS : ∀ p ∈ ps, S p) :
    let l := (ps.foldl (Queue.write cmp) (Queue.init Pkt 0)).list.reverse
    l.Pairwise (fun a b => seqPos a < seqPos b) ∧ (∀ p ∈ l, p ∈ ps) ∧
    ∀ p ∈ ps, ∃ x ∈ l, seqPos x = seqPos p := by
  have ⟨e1, e2, e3⟩ := foldl_write_run ps (Queue.init Pkt 0)
  obtain ⟨_, hd, dropped, hperm, hdrop⟩ := run_inv ho (ps.map .write) (Queue.init Pkt 0)
    (by simp [Queue.init]) (by simp [Desc, Queue.init]) (by rw [e3]; exact hS)
  rw [e2] at hperm hdrop
  rw [e3] at hperm
  have hi : (Queue.init Pkt 0).list = [] := rfl
  rw [hi] at hperm
  simp only [List.nil_append] at hperm hdrop
  rw [e1]
  simp only
  refine ⟨?_, ?_, ?_⟩
  · rw [List.pairwise_reverse]; exact hd
  · intro p hp
    exact hperm.mem_iff.mp (List.mem_append_left _ (List.mem_reverse.mp hp))
  · intro p hp
    rcases List.mem_append.mp (hperm.mem_iff.mpr hp) with hx | hx
    · exact ⟨p, by simpa using hx, rfl⟩
    · obtain ⟨x, hx1, hx2⟩ := hdrop rfl p hx
      exact ⟨x, by simpa using hx1, hx2⟩

/-- **C44** (start and delivery; partial: positive delay in samples). The inner reader delivers any
packets and then has no more. If the queued packets are shorter than the delay, nothing is
returned and they stay queued. Otherwise the next reads return the queued packets in order,
with the surplus trimmed, each exactly once, and after that every read returns what the inner
reader returns. Missing: delay of zero samples, `C44_zero_delay_fails`. -/
theorem C44_delivery_partial (pos : Pkt → Int) (delay : Nat) (hd : 0 < delay) (q : Queue Pkt)
    (ps : List Pkt) (rest : List Res)
    (ht : Timeline pos (ps.foldl (Queue.write cmp) q).list.reverse) :
    let q' := ps.foldl (Queue.write cmp) q
    let inner := ps.map .ok ++ .noData :: rest
    (span pos q'.list.reverse < delay → read delay ⟨q, false⟩ inner = (.noData, ⟨q', false⟩, rest)) ∧
    (delay ≤ span pos q'.list.reverse → ∀ n,
      (reads delay ((trim pos delay q'.list.reverse).length + n) ⟨q, false⟩ inner).1 =
        (trim pos delay q'.list.reverse).map .ok ++ direct n rest) := by
  simp only
  have hq := queueSize_eq _ ht
  constructor
  · intro hs
    unfold read
    simp only [Bool.false_eq_true, if_false, fetchLoop_oks]
    rw [if_pos (by omega)]
  · intro hs n
    have hne : (ps.foldl (Queue.write cmp) q).list.reverse ≠ [] := by
      intro he; rw [he] at hs; simp [span] at hs; omega
    have hlen : (ps.foldl (Queue.write cmp) q).list.length ≠ 0 := by
      intro he; apply hne; simpa using he
    obtain ⟨p, r, h1, h2, h3⟩ := readQueued_eq hd _ ((ps.foldl (Queue.write cmp) q).list.length + 1)
      (ps.foldl (Queue.write cmp) q) rfl hne ht (by simp)
    rw [h1]
    have e : (p :: r).length + n = (r.length + n) + 1 := by simp; omega
    rw [e]
    simp only [reads]
    have hr : read delay ⟨q, false⟩ (ps.map .ok ++ .noData :: rest) =
        (.ok p, ⟨{ (ps.foldl (Queue.write cmp) q) with list := r.reverse }, true⟩, rest) := by
      unfold read
      simp only [Bool.false_eq_true, if_false, fetchLoop_oks]
      rw [if_neg (by omega), if_pos hlen, h3]
    rw [hr]
    simp only [List.map_cons, List.cons_append]
    congr 1
    have htr : Timeline pos (p :: r) := h1 ▸ ht.suffix (trim_suffix pos delay _)
    exact reads_drain hd n r _ rest (by simp) htr.tail h2

/-- **C44** (the surplus). Trimming removes only leading packets, keeps at least the delay, and
leaves no packet that could be removed. -/
theorem C44_trim_exact (pos : Pkt → Int) (delay : Nat) (hd : 0 < delay) :
    ∀ ps : List Pkt, delay ≤ span pos ps →
      trim pos delay ps <:+ ps ∧ delay ≤ span pos (trim pos delay ps) ∧
      span pos (trim pos delay ps).tail < delay
  | [], h => absurd h (by simp [span]; omega)
  | p :: ps, h => by
    refine ⟨trim_suffix _ _ _, ?_⟩
    unfold trim
    split
    · exact ⟨h, by assumption⟩
    · exact (C44_trim_exact pos delay hd ps (by omega)).2

/-- **C44 fails** for a delay of zero samples: the first read throws away all queued packets and
returns no data, although packets were available and no delay was requested. -/
theorem C44_zero_delay_fails (p : Pkt) :
    read 0 init [.ok p] = (.noData, ⟨⟨[], some p, 0⟩, true⟩, []) := by
  simp [read, init, Queue.init, fetchLoop, Queue.write, SortedQueue.insert, readQueued,
    Queue.read]

/-- Four packets of 10 samples around the wrap of the timestamp, delay 25: the first one is surplus. -/
def demoPkts : List Pkt :=
  [⟨0xFFFF, 0xFFFFFFF6, 10⟩, ⟨0xFFFE, 0xFFFFFFEC, 10⟩, ⟨1, 10, 10⟩, ⟨0, 0, 10⟩]

example : (reads 25 5 init (demoPkts.map .ok ++ [.noData, .ok ⟨2, 20, 10⟩])).1 =
    [.ok ⟨0xFFFF, 0xFFFFFFF6, 10⟩, .ok ⟨0, 0, 10⟩, .ok ⟨1, 10, 10⟩, .ok ⟨2, 20, 10⟩, .noData] := by
  decide

/-- The hypotheses of `C44_delivery_partial` hold for it. -/
example : Timeline (fun p => p.ts.toInt) (demoPkts.foldl (Queue.write cmp) (Queue.init Pkt 0)).list.reverse := by
  have e : (demoPkts.foldl (Queue.write cmp) (Queue.init Pkt 0)).list.reverse =
    [⟨0xFFFE, 0xFFFFFFEC, 10⟩, ⟨0xFFFF, 0xFFFFFFF6, 10⟩, ⟨0, 0, 10⟩, ⟨1, 10, 10⟩] := by decide
  rw [e]
  exact ⟨by decide, by decide, by decide⟩

example : ((read 25 init [.ok ⟨0, 0, 10⟩, .err 7, .ok ⟨1, 10, 10⟩]).2.1.started = false) := by decide

/-- A set of packets meeting the order hypothesis of `C44_queue_content`. -/
example : Ordered cmp (fun p : Pkt => p.seq.toInt) (fun p => p ∈ demoPkts) := by
  intro a b ha hb
  simp only [demoPkts, List.mem_cons, List.not_mem_nil, or_false] at ha hb
  rcases ha with rfl | rfl | rfl | rfl <;> rcases hb with rfl | rfl | rfl | rfl <;> decide

example := C44_trim_exact (fun p => p.ts.toInt) 5 (by decide) [⟨0, 0, 10⟩] (by decide)

end Verif.DelayedReader
