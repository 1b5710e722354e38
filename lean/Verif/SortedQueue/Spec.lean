import Verif.SortedQueue.Model

/-! Vocabulary of the sorted queue properties; does not depend on how the queue works. -/

namespace Verif.SortedQueue

variable {P : Type}

/-- The packets written by a call sequence, in order. -/
def writes : List (Op P) → List P
  | [] => []
  | .write p :: ops => p :: writes ops
  | .read :: ops => writes ops

/-- `pos` assigns to each packet of `S` its true (unbounded) stream position, and `cmp`
compares packets of `S` by it. -/
def Ordered (cmp : P → P → Int) (pos : P → Int) (S : P → Prop) : Prop :=
  ∀ a b, S a → S b →
    (cmp a b < 0 ↔ pos a < pos b) ∧ (cmp a b = 0 ↔ pos a = pos b)

end Verif.SortedQueue
