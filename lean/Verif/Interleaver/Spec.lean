import Verif.Interleaver.Model

/-! Vocabulary of the interleaver properties. -/

namespace Verif.Interleaver

variable {P : Type}

/-- The packets written by a call sequence. -/
def writes : List (Op P) → List P
  | [] => []
  | .write p :: ops => p :: writes ops
  | .flush :: ops => writes ops

/-- Number of writes since the start or the last flush. -/
def sinceFlush : Nat → List (Op P) → Nat
  | n, [] => n
  | n, .write _ :: ops => sinceFlush (n + 1) ops
  | _, .flush :: ops => sinceFlush 0 ops

/-- The packets held back: the contents of the slots. -/
def State.held (s : State P) : List P := (List.range s.blockSize).filterMap s.packets

/-- `f` permutes the numbers below `n`. -/
def IsPerm (n : Nat) (f : Nat → Nat) : Prop :=
  (∀ i < n, f i < n) ∧ (∀ i < n, ∀ j < n, f i = f j → i = j) ∧ (∀ v < n, ∃ i < n, f i = v)

end Verif.Interleaver
