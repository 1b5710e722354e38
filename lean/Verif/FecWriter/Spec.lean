import Verif.FecWriter.Model

/-!
# FEC writer: specification
-/

namespace Verif.FecWriter

/-- A call. -/
inductive Op where
  | write (tag size : Nat) (enc : Bool) (ok : Nat → Bool)
  | resize (sblen rblen : Nat)

/-- Perform calls; the result has all emitted packets. -/
def run (s : St) : List Op → St × List Pkt
  | [] => (s, [])
  | .write t n e o :: h => ((run (s.write t n e o).1 h).1, (s.write t n e o).2 ++ (run (s.write t n e o).1 h).2)
  | .resize a b :: h => run (s.resize a b).1 h

/-- Sizes are acceptable. -/
def Valid (maxLen : Nat) (k : Nat × Nat) : Prop := k.1 ≠ 0 ∧ k.1 + k.2 ≤ maxLen

instance (maxLen : Nat) (k : Nat × Nat) : Decidable (Valid maxLen k) := by unfold Valid; infer_instance

/-- Sizes in force after a history: the last acceptable ones. -/
def inForce (maxLen : Nat) (k : Nat × Nat) : List Op → Nat × Nat
  | [] => k
  | .write _ _ _ _ :: h => inForce maxLen k h
  | .resize a b :: h => inForce maxLen (if Valid maxLen (a, b) then (a, b) else k) h

/-- Written packets: position in the history and tag. -/
def written (h : List Op) : List (Nat × Nat) :=
  h.zipIdx.filterMap (fun x => match x.1 with
    | .write t _ _ _ => some (x.2, t)
    | .resize _ _ => none)

/-- A block: sizes, written packets, and which repair packets were created. -/
structure Blk where
  k : Nat
  r : Nat
  items : List (Nat × Nat)
  reps : List Nat

/-- Source packets of block number `n`. -/
def Blk.sources (n : Nat) (b : Blk) : List Pkt := b.items.mapIdx (fun i x => .source x.2 i n b.k (b.k + b.r))

/-- Packets of block number `n`. -/
def Blk.emit (n : Nat) (b : Blk) : List Pkt := b.sources n ++ b.reps.map (fun j => .repair (b.k + j) n b.k (b.k + b.r))

/-- The sizes of a block are the ones in force when its first packet was written. -/
def Blk.Sized (maxLen : Nat) (init : Nat × Nat) (h : List Op) (b : Blk) : Prop :=
  ∃ x, b.items.head? = some x ∧ (b.k, b.r) = inForce maxLen init (h.take x.1)

/-- A complete block. -/
def Blk.Full (b : Blk) : Prop := b.items.length = b.k ∧ List.Sublist b.reps (List.range b.r)

/-- Output made of consecutive complete blocks and one incomplete block. -/
def stream (first : Nat) (bs : List Blk) (last : Blk) : List Pkt :=
  (bs.mapIdx (fun i b => b.emit ((first + i) % m16))).flatten ++ last.sources ((first + bs.length) % m16)

/-- Every packet has the same size and nothing fails. -/
def Smooth (size : Nat) (h : List Op) : Prop :=
  ∀ op ∈ h, match op with
    | .write _ n e o => n = size ∧ e = true ∧ ∀ i, o i = true
    | .resize _ _ => True

end Verif.FecWriter
