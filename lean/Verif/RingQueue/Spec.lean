import Verif.RingQueue.Model

/-! Specification: a double-ended queue is a list; `none` when there is nothing to pop. -/

namespace Verif.RingQueue

variable {α : Type}

/-- One operation on the list. -/
def specStep (l : List α) : Op α → Option (List α)
  | .pushFront x => some (x :: l)
  | .popFront => if l = [] then none else some l.tail
  | .pushBack x => some (l ++ [x])
  | .popBack => if l = [] then none else some l.dropLast

/-- A history on the list in which the list never has more than `cap` elements; `none` if it
would, or if something is popped from the empty list. -/
def specRun (cap : Nat) (l : List α) : List (Op α) → Option (List α)
  | [] => some l
  | op :: ops => (specStep l op).bind fun l' => if l'.length ≤ cap then specRun cap l' ops else none

end Verif.RingQueue
