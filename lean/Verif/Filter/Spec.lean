import Verif.Filter.Model

/-! Specification: circular distances, and the newest packet of a list. -/

namespace Verif.Filter

/-- Shorter way around the circle of `2 ^ w` values. -/
def circDist {w : Nat} (a b : BitVec w) : Nat := min (a - b).toNat (b - a).toNat

/-- `q` is ahead of `p` when going from `p` forward reaches it within half of the circle. -/
def Ahead (p q : Units.Seqnum) : Prop := p ≠ q ∧ (q - p).toNat ≥ 1 ∧ (p - q).toNat ≥ 2 ^ 15

instance (p q : Units.Seqnum) : Decidable (Ahead p q) := by unfold Ahead; infer_instance

/-- The newest packet of a history (in passing order): the last one that was ahead of the
newest one before it. -/
def newest : List Pkt → Option Pkt :=
  List.foldl (fun acc p => match acc with
    | none => some p
    | some q => if Ahead q.seqnum p.seqnum then some p else some q) none

end Verif.Filter
