import Verif.FecWriter.Lemmas

/-!
# FEC writer: properties
-/

namespace Verif.FecWriter

/-- C31, whatever fails: the output consists of consecutive blocks, numbered from the first one modulo 2^16, each with source
packets numbered from 0 followed by repair packets numbered from `k`, all with the sizes in force when the first packet of the
block was written; every block but the last has `k` source packets; and the source packets are, in order, a prefix of the written
ones. `Tame`: no resize with a sum of sizes above 2^64. -/
theorem C31_wellformed {maxLen first k r : Nat} {s0 : St} (hm : maxLen ≤ 65536) (hv : Valid maxLen (k, r)) (h0 : St.new maxLen first k r = some s0)
    (h : List Op) (ht : Tame h) :
    ∃ bs last, (run s0 h).2 = stream first bs last ∧
      (∀ b ∈ bs, b.Full ∧ b.Sized maxLen (k, r) h) ∧
      (last.items ≠ [] → last.Sized maxLen (k, r) h) ∧
      bs.flatMap (·.items) ++ last.items <+: written h := by
  obtain ⟨e1, _, _, hi⟩ := new_inv hv (by have := hv.2; simp only [m64] at *; omega) h0
  obtain ⟨bs, last, hf⟩ := run_inv (by rw [e1]; exact hm) hi h ht
  have e2 : (run s0 h).1.maxLen = maxLen := (maxLen_run h s0).trans e1
  refine ⟨bs, last, hf.out, fun b hb => ⟨hf.full b hb, ?_⟩, fun hne => ?_, hf.items⟩
  · have := hf.sized b hb; rw [e2] at this; exact this
  · have := (hf.last hne).2; rw [e2] at this; exact this

/-- C31 when all packets have the same size and nothing fails: also, every written packet is emitted, exactly once, every complete
block has all its repair packets, and the last block is shorter than its size. -/
theorem C31_complete_partial {maxLen first k r size : Nat} {s0 : St} (hm : maxLen ≤ 65536) (hv : Valid maxLen (k, r))
    (h0 : St.new maxLen first k r = some s0) (hz : size ≠ 0) (h : List Op) (ht : Tame h) (hs : Smooth size h) :
    ∃ bs last, (run s0 h).2 = stream first bs last ∧
      (∀ b ∈ bs, b.items.length = b.k ∧ b.reps = List.range b.r ∧ b.Sized maxLen (k, r) h) ∧
      (last.items ≠ [] → last.items.length < last.k ∧ last.Sized maxLen (k, r) h) ∧
      bs.flatMap (·.items) ++ last.items = written h := by
  obtain ⟨e1, e3, e4, hi⟩ := new_inv hv (by have := hv.2; simp only [m64] at *; omega) h0
  obtain ⟨bs, last, hf⟩ := run_inv (by rw [e1]; exact hm) hi h ht
  have e2 : (run s0 h).1.maxLen = maxLen := (maxLen_run h s0).trans e1
  have hal := run_alive hz h hs s0 e3 (fun c => absurd e4 c)
  have hok : AllOk h := by
    intro op hop
    have := hs op hop
    cases op with
    | write t n e o => exact this.2.2
    | resize a b => trivial
  refine ⟨bs, last, hf.out, fun b hb => ⟨(hf.full b hb).1, hf.reps hok b hb, ?_⟩, fun hne => ⟨?_, ?_⟩, hf.alive hal⟩
  · have := hf.sized b hb; rw [e2] at this; exact this
  · have h1 := (hf.last hne).1 hal
    rw [hf.cur hal, h1.1]; exact h1.2.2
  · have := (hf.last hne).2; rw [e2] at this; exact this

/-- Example history: two sizes. -/
def exOps : List Op :=
  [.write 1 8 true (fun _ => true), .resize 1 2, .write 2 8 true (fun _ => true), .write 3 8 true (fun _ => true)]

example : Valid 20 (2, 1) ∧ Tame exOps ∧ Smooth 8 exOps ∧
    (St.new 20 65535 2 1).map (fun s => (run s exOps).2) = some
      [.source 1 0 65535 2 3, .source 2 1 65535 2 3, .repair 2 65535 2 3, .source 3 0 0 1 3, .repair 1 0 1 3, .repair 2 0 1 3] := by
  refine ⟨by decide, ?_, ?_, by decide +kernel⟩
  · intro op hop
    simp only [exOps, List.mem_cons, List.not_mem_nil, or_false] at hop
    rcases hop with rfl | rfl | rfl | rfl <;> simp [m64]
  · intro op hop
    simp only [exOps, List.mem_cons, List.not_mem_nil, or_false] at hop
    rcases hop with rfl | rfl | rfl | rfl <;> simp

/-- A packet with another size in the middle of a block: it and all later packets are never emitted, although `write` returns OK. -/
theorem C31_size_fails : (St.new 20 0 2 1).map (fun s => (run s
      [.write 1 8 true (fun _ => true), .write 2 9 true (fun _ => true), .write 3 8 true (fun _ => true), .write 4 8 true (fun _ => true)]).2) = some
    [.source 1 0 0 2 3] := by decide +kernel

theorem run_dead (s : St) (hd : s.alive = false) (h : List Op) : (run s h).2 = [] := by
  induction h generalizing s with
  | nil => rfl
  | cons op h ih =>
    cases op with
    | write t n e o =>
      have hw : s.write t n e o = (s, []) := by unfold St.write; rw [if_pos (by rw [hd]; rfl)]
      simp only [run]
      rw [hw]
      exact ih s hd
    | resize a b =>
      simp only [run]
      apply ih
      unfold St.resize; split_ifs <;> exact hd

/-- Whenever a packet with another size is written in the middle of a block, nothing is emitted any more, whatever is written next. -/
theorem C31_dead_fails (s : St) (ha : s.alive = true) (hc : s.cur ≠ 0) (t n : Nat) (hn : n ≠ s.size) (e : Bool) (o : Nat → Bool) (h : List Op) :
    (run s (.write t n e o :: h)).2 = [] := by
  have hw : s.write t n e o = ({ s with alive := false }, []) := by
    unfold St.write
    rw [if_neg (by rw [ha]; decide), if_pos hc]
    unfold writeIn
    rw [if_pos hn]
  simp only [run]
  rw [hw]
  exact run_dead _ rfl h

example : (St.new 20 0 2 1).map (fun s => ((run s [.write 1 8 true (fun _ => true)]).1.alive, (run s [.write 1 8 true (fun _ => true)]).1.cur,
    (run s [.write 1 8 true (fun _ => true)]).1.size)) = some (true, 1, 8) := by decide +kernel

/-- Sizes 0 and 0 are accepted by the constructor, and the block never ends. -/
theorem C31_zero_fails : (St.new 20 0 0 0).map (fun s => (run s
      [.write 1 8 true (fun _ => true), .write 2 8 true (fun _ => true), .write 3 8 true (fun _ => true)]).2) = some
    [.source 1 0 0 0 0, .source 2 1 0 0 0, .source 3 2 0 0 0] := by decide +kernel

/-- Sizes whose sum wraps around are accepted. -/
theorem C31_resize_fails : (St.new 20 0 2 1).map (fun s => (s.resize (m64 - 1) 5).2) = some true := by decide +kernel

end Verif.FecWriter
