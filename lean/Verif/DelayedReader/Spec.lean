import Verif.DelayedReader.Model

/-! # Specification of the start-up delay -/

namespace Verif.DelayedReader

/-- Duration of a run of queued packets with true timestamps: end of the last minus start of the
first. -/
def span (pos : Pkt → Int) : List Pkt → Int
  | [] => 0
  | p :: ps => pos ((p :: ps).getLast (by simp)) + ((p :: ps).getLast (by simp)).dur.toNat - pos p

/-- The packets kept when playback starts: leading packets are surplus as long as what follows
them is still at least `delay` long. -/
def trim (pos : Pkt → Int) (delay : Nat) : List Pkt → List Pkt
  | [] => []
  | p :: ps => if span pos ps < delay then p :: ps else trim pos delay ps

/-- `pos` gives the true timestamps of the packets: the wire has their low 32 bits, they do not
decrease in stream order, and all packets lie within half of the timestamp range. -/
structure Timeline (pos : Pkt → Int) (ps : List Pkt) : Prop where
  wire : ∀ p ∈ ps, p.ts = BitVec.ofInt 32 (pos p)
  mono : ps.Pairwise (fun a b => pos a ≤ pos b)
  near : ∀ a ∈ ps, ∀ b ∈ ps, pos b + b.dur.toNat - pos a < 2 ^ 31

/-- Packets queued so far, in stream order. -/
def queued (s : St) : List Pkt := s.queue.list.reverse

/-- The inner results, packets only. -/
def packets : List Res → List Pkt
  | [] => []
  | .ok p :: rs => p :: packets rs
  | _ :: rs => packets rs

end Verif.DelayedReader
