import Verif.FecReader.Model

/-!
# FEC reader: specification
-/

namespace Verif.FecReader

/-- A call of `read`: packets which arrived before it (with their places in the queue), what the decoder would restore in each block,
and which allocations succeed. -/
structure Call where
  srcs : List (Fec × Nat)
  reps : List (Fec × Nat)
  dec : Nat → Option (Nat → Option Nat)
  alloc : Nat → Bool

/-- Perform calls; the result has all returned packets. -/
def run (maxLen maxJump : Nat) (s : St) : List Call → Except Fault (St × List (Option (Nat × Nat) × Pkt))
  | [] => .ok (s, [])
  | c :: h => (read ⟨maxLen, maxJump, c.alloc, c.dec⟩ s c.srcs c.reps).bind fun r =>
      (run maxLen maxJump r.1 h).bind fun r' => .ok (r'.1, r.2.toList ++ r'.2)

/-- Position `a` of the stream is before position `b`. -/
def Before (a b : Nat × Nat) : Prop := a.1 < b.1 ∨ (a.1 = b.1 ∧ a.2 < b.2)

instance (a b : Nat × Nat) : Decidable (Before a b) := by unfold Before; infer_instance

/-- Source packet `f` arrived. -/
def Arrived (h : List Call) (f : Fec) : Prop := ∃ c ∈ h, ∃ i, (f, i) ∈ c.srcs

/-- The decoder restored `tag` for position `p` of block `b`. -/
def Restored (h : List Call) (tag b p : Nat) : Prop := ∃ c ∈ h, ∃ g, c.dec b = some g ∧ g p = some tag

/-- The packet belongs to this position. -/
def Belongs (h : List Call) (at_ : Nat × Nat) : Pkt → Prop
  | .recv f => Arrived h f ∧ f.sbn = at_.1 % 65536 ∧ f.esi = at_.2
  | .rest t b p => (b, p) = at_ ∧ Restored h t b p

/-- Block numbers fit in the field of the header. -/
def Wire (h : List Call) : Prop := ∀ c ∈ h, (∀ x ∈ c.srcs, x.1.sbn < 65536) ∧ (∀ x ∈ c.reps, x.1.sbn < 65536)

/-- Block lengths of repair packets are supported by the decoder. -/
def Lengths (maxLen : Nat) (h : List Call) : Prop := ∀ c ∈ h, ∀ x ∈ c.reps, x.1.blen ≠ 0 ∧ x.1.blen ≤ maxLen

/-- The decoder restores all lost packets of a block or nothing. -/
def AllOrNothing (h : List Call) : Prop := ∀ c ∈ h, ∀ b g, c.dec b = some g → (∀ n, (g n).isSome = true) ∨ (∀ n, g n = none)

/-- A source packet of a stream with `k` source packets of `n` bytes in each block. (checks are those of `validate_incoming_source_packet_`) -/
def Reg (k n : Nat) (f : Fec) : Prop := validSource f = true ∧ f.sblen = k ∧ f.pay = n ∧ f.sbn < 65536

/-- A repair packet of such a stream. -/
def RegRep (k n : Nat) (f : Fec) : Prop := f.sblen = k ∧ f.pay = n ∧ f.sbn < 65536

/-- All packets are of a stream with `k` source packets of `n` bytes in each block. -/
def Uniform (k n : Nat) (h : List Call) : Prop := ∀ c ∈ h, (∀ x ∈ c.srcs, Reg k n x.1) ∧ (∀ x ∈ c.reps, RegRep k n x.1)

/-- Blocks of the packets do not decrease, seen from block `b`. -/
def Sorted (b : Nat) (q : List Fec) : Prop := q.Pairwise (fun f g => diff f.sbn b ≤ diff g.sbn b)

instance (b : Nat) (q : List Fec) : Decidable (Sorted b q) := by unfold Sorted; infer_instance

/-- In every call the queue of source packets is sorted, seen from the block that is being decoded. -/
def Tidy (maxLen maxJump : Nat) : St → List Call → Prop
  | _, [] => True
  | s, c :: h => (s.started = true → Sorted s.sbn (fetch c.srcs s.srcQ).1) ∧
      ∀ r, read ⟨maxLen, maxJump, c.alloc, c.dec⟩ s c.srcs c.reps = .ok r → Tidy maxLen maxJump r.1 h

end Verif.FecReader
