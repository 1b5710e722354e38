import Verif.SortedQueue.Lemmas

/-!
# C03: the sorted queue emits packets in stream order without duplicates
-/

namespace Verif.SortedQueue

variable {P : Type} {cmp : P → P → Int} {pos : P → Int} {S : P → Prop}

/-- Comparison of RTP packets (here: of their sequence numbers) orders any set of packets
whose true positions span less than half of the sequence number range. Packets are pairs of
the true position and an identity; the wire carries only the low 16 bits. -/
theorem C03_rtp_ordered (base : Int) :
    Ordered (fun a b : Int × Nat => rtpCompare (BitVec.ofInt 16 a.1) (BitVec.ofInt 16 b.1))
      (fun a => a.1) (fun a => base ≤ a.1 ∧ a.1 < base + 2 ^ 15) := by
  intro a b ha hb
  have h := Units.diff16 a.1 b.1 (by omega)
  have hlt : Units.snLt (BitVec.ofInt 16 a.1) (BitVec.ofInt 16 b.1) = true ↔ a.1 < b.1 := by
    simp only [Units.snLt, Units.snDiff, h, decide_eq_true_eq]; omega
  have heq : BitVec.ofInt 16 a.1 = BitVec.ofInt 16 b.1 ↔ a.1 = b.1 := by
    constructor
    · intro e; rw [e] at h; simp at h; omega
    · intro e; rw [e]
  simp only [rtpCompare, hlt, heq]
  by_cases h1 : a.1 < b.1
  · simp [h1]; omega
  · by_cases h2 : a.1 = b.1
    · simp [h2]
    · simp [h1, h2]

/-- A packet of the FEC stream as a reader sees it: the true (unbounded) number of its block and
its symbol id. The wire carries only the low 16 bits of the former. -/
theorem C03_fec_ordered (base : Int) (E : Nat) :
    Ordered (fun a b : Int × Nat => fecCompare (BitVec.ofInt 16 a.1, a.2) (BitVec.ofInt 16 b.1, b.2))
      (fun a => a.1 * E + a.2) (fun a => base ≤ a.1 ∧ a.1 < base + 2 ^ 15 ∧ a.2 < E) := by
  intro a b ha hb
  have h := Units.diff16 a.1 b.1 (by omega)
  have hlt : Units.blkLt (BitVec.ofInt 16 a.1) (BitVec.ofInt 16 b.1) = true ↔ a.1 < b.1 := by
    simp only [Units.blkLt, Units.blkDiff, h, decide_eq_true_eq]; omega
  have heq : BitVec.ofInt 16 a.1 = BitVec.ofInt 16 b.1 ↔ a.1 = b.1 := by
    constructor
    · intro e; rw [e] at h; simp at h; omega
    · intro e; rw [e]
  simp only [fecCompare, hlt, heq]
  have step : ∀ x y : Int, x < y → x * E + E ≤ y * E := by
    intro x y hxy
    have : (x + 1) * (E : Int) ≤ y * E := Int.mul_le_mul_of_nonneg_right (by omega) (by omega)
    rw [Int.add_mul] at this; omega
  by_cases h1 : a.1 < b.1
  · have := step _ _ h1
    simp [h1]; omega
  · by_cases h2 : a.1 = b.1
    · rw [if_neg h1, if_pos h2, h2]
      by_cases h3 : a.2 < b.2
      · rw [if_pos h3]; omega
      · rw [if_neg h3]
        by_cases h4 : a.2 = b.2
        · rw [if_pos h4]; omega
        · rw [if_neg h4]; omega
    · have := step b.1 a.1 (by omega)
      rw [if_neg h1, if_neg h2]; omega

/-- **C03** (order of reads). Whatever was written and read before, in any order, the packet
returned by `read` comes before every packet left in the queue. -/
theorem C03_read_is_earliest (h : Ordered cmp pos S) (maxSize : Nat) (ops : List (Op P))
    (hw : ∀ p ∈ writes ops, S p) (p : P) (q' : Queue P)
    (hr : (run cmp (Queue.init P maxSize) ops).1.read = (some p, q')) :
    ∀ x ∈ q'.list, pos p < pos x := by
  have ⟨_, hd, _⟩ := run_inv h ops (Queue.init P maxSize) (by simp [Queue.init]) (by simp [Desc, Queue.init]) hw
  rcases read_cases (run cmp (Queue.init P maxSize) ops).1 with ⟨_, hr'⟩ | ⟨p', l, hl, hr'⟩
  · rw [hr'] at hr; simp at hr
  · rw [hr'] at hr
    simp only [Prod.mk.injEq, Option.some.injEq] at hr
    obtain ⟨rfl, rfl⟩ := hr
    rw [hl] at hd
    intro x hx
    exact (List.pairwise_append.mp hd).2.2 x hx p' (by simp)

/-- **C03** (runs of reads). Any number of reads without a write in between returns packets
in strictly ascending stream order (so no position is delivered twice). -/
theorem C03_reads_ascending (h : Ordered cmp pos S) (maxSize : Nat) (ops : List (Op P))
    (hw : ∀ p ∈ writes ops, S p) (n : Nat) :
    (readMany n (run cmp (Queue.init P maxSize) ops).1).Pairwise (fun a b => pos a < pos b) := by
  have ⟨_, hd, _⟩ := run_inv h ops (Queue.init P maxSize) (by simp [Queue.init]) (by simp [Desc, Queue.init]) hw
  rw [readMany_eq]
  refine List.Pairwise.sublist (List.take_sublist _ _) ?_
  rw [List.pairwise_reverse]
  exact hd

/-- **C03** (conservation, unlimited queue). The written packets are exactly the delivered
ones, the queued ones and the dropped ones; so nothing is invented and nothing delivered
twice. A packet is dropped only if a packet at the same stream position is delivered or
queued. -/
theorem C03_conservation (h : Ordered cmp pos S) (ops : List (Op P))
    (hw : ∀ p ∈ writes ops, S p) :
    ∃ dropped,
      ((run cmp (Queue.init P 0) ops).2 ++ (run cmp (Queue.init P 0) ops).1.list ++ dropped).Perm (writes ops) ∧
      ∀ d ∈ dropped, ∃ p ∈ (run cmp (Queue.init P 0) ops).2 ++ (run cmp (Queue.init P 0) ops).1.list,
        pos p = pos d := by
  have ⟨_, _, dropped, h1, h2⟩ := run_inv h ops (Queue.init P 0) (by simp [Queue.init]) (by simp [Desc, Queue.init]) hw
  exact ⟨dropped, by simpa [Queue.init] using h1, h2 rfl⟩

/-- **C03** (a single write). In any reachable state a write into an unlimited queue either
adds the packet, or the queue already holds a packet at that position and is unchanged. -/
theorem C03_write_adds_or_duplicate (h : Ordered cmp pos S) (ops : List (Op P))
    (hw : ∀ p ∈ writes ops, S p) (p : P) (hp : S p) :
    let q := (run cmp (Queue.init P 0) ops).1
    ((q.write cmp p).list.Perm (p :: q.list) ∧ ∀ x ∈ q.list, pos x ≠ pos p) ∨
    ((q.write cmp p).list = q.list ∧ ∃ x ∈ q.list, pos x = pos p) := by
  intro q
  have ⟨hl, hd, _⟩ := run_inv h ops (Queue.init P 0) (by simp [Queue.init]) (by simp [Desc, Queue.init]) hw
  have hm : q.maxSize = 0 := by
    have : ∀ (ops : List (Op P)) (q : Queue P), (run cmp q ops).1.maxSize = q.maxSize := by
      intro ops
      induction ops with
      | nil => intro q; rfl
      | cons op ops ih =>
        intro q
        cases op with
        | write p => simp only [run, ih, write_maxSize]
        | read => simp only [run, ih, read_maxSize]
    exact this ops _
  rcases (write_list (cmp := cmp) h hp hl hd).2 with h1 | ⟨h1, h2 | h2⟩
  · exact .inl h1
  · exact .inr ⟨h1, h2⟩
  · have h3 : q.maxSize > 0 := h2.1
    omega

/-- **C03** (latest). The packet reported as latest is a written packet and no written packet
is after it, also when it was read long ago. -/
theorem C03_latest (h : Ordered cmp pos S) (ops : List (Op P)) (hw : ∀ p ∈ writes ops, S p)
    (hne : writes ops ≠ []) :
    ∃ y ∈ writes ops, (run cmp (Queue.init P 0) ops).1.latest = some y ∧ ∀ p ∈ writes ops, pos p ≤ pos y := by
  have ⟨_, h2, h3⟩ := run_latest h ops (Queue.init P 0) rfl (by simp [Queue.init]) hw
  obtain ⟨p0, hp0⟩ := List.exists_mem_of_ne_nil _ hne
  obtain ⟨y, hy, _⟩ := h2 p0 hp0
  refine ⟨y, ?_, hy, ?_⟩
  · rcases h3 y hy with h | h
    · simp [Queue.init] at h
    · exact h
  · intro p hp
    obtain ⟨y', hy', hle⟩ := h2 p hp
    rw [hy] at hy'; cases hy'; exact hle

/-- **C03** (size limit). A limited queue never exceeds its limit. -/
theorem C03_size_limit (maxSize : Nat) (hm : 0 < maxSize) (ops : List (Op P)) :
    (run cmp (Queue.init P maxSize) ops).1.list.length ≤ maxSize :=
  run_size ops (Queue.init P maxSize) hm (by simp [Queue.init])

/-- Concrete history around the wrap of the sequence number: 65537, 65535, 65536 (duplicate
twice), one read in the middle. -/
def exOps : List (Op (Int × Nat)) :=
  [.write (65537, 0), .write (65535, 1), .read, .write (65536, 2), .write (65536, 3), .read]

example : (run (fun a b : Int × Nat => rtpCompare (BitVec.ofInt 16 a.1) (BitVec.ofInt 16 b.1))
    (Queue.init _ 0) exOps).2 = [(65535, 1), (65536, 2)] := by decide

example := C03_conservation (C03_rtp_ordered 65530) exOps (by simp [exOps, writes])
example := C03_reads_ascending (C03_rtp_ordered 65530) 0 exOps (by simp [exOps, writes]) 5
example := C03_latest (C03_rtp_ordered 65530) exOps (by simp [exOps, writes]) (by simp [exOps, writes])
example := C03_write_adds_or_duplicate (C03_rtp_ordered 65530) exOps (by simp [exOps, writes]) (65537, 7) (by simp)
example := C03_size_limit (cmp := fun a b : Int × Nat => rtpCompare (BitVec.ofInt 16 a.1) (BitVec.ofInt 16 b.1)) 1 (by decide) exOps
example : (run (fun a b : Int × Nat => rtpCompare (BitVec.ofInt 16 a.1) (BitVec.ofInt 16 b.1))
    (Queue.init _ 0) (exOps.take 2)).1.read.1 = some (65535, 1) := by decide

/-- Non-vacuity for FEC packets: the block number wraps between the two blocks. -/
example : fecCompare (BitVec.ofInt 16 65535, 19) (BitVec.ofInt 16 65536, 0) = -1 := by decide
example := (C03_fec_ordered 65530 20 (65535, 19) (65536, 0) (by decide) (by decide)).1

end Verif.SortedQueue
