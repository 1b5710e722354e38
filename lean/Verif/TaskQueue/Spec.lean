import Verif.TaskQueue.Model

/-! Specification vocabulary: statements about the calls and callbacks of a history (newest first), and the
rules that callers and task functions have to follow. -/

namespace Verif.TaskQueue

/-- How many times the task was scheduled. -/
def nSched (t : Nat) : List Ev → Nat
  | [] => 0
  | .sched i _ :: l => (if i = t then 1 else 0) + nSched t l
  | _ :: l => nSched t l

/-- How many times the task was completed or cancelled. -/
def nDone (t : Nat) : List Ev → Nat
  | [] => 0
  | .done i _ :: l => (if i = t then 1 else 0) + nDone t l
  | _ :: l => nDone t l

/-- The last request for a task: the deadline, -1 for cancellation. -/
def lastReq (t : Nat) : List Ev → Option Int
  | [] => none
  | .sched i d :: l => if i = t then some d else lastReq t l
  | .cancel i :: l => if i = t then some (-1) else lastReq t l
  | _ :: l => lastReq t l

/-- The task was scheduled and not completed or cancelled since. -/
def owed (t : Nat) : List Ev → Bool
  | [] => false
  | .sched i _ :: l => i = t || owed t l
  | .done i _ :: l => !(i = t) && owed t l
  | _ :: l => owed t l

/-- The task was scheduled and since then was neither started (continuing after a pause does not count) nor
reported as cancelled. -/
def pending (t : Nat) : List Ev → Bool
  | [] => false
  | .sched i _ :: l => i = t || pending t l
  | .start i _ resumed :: l => (i ≠ t || resumed) && pending t l
  | .done i cancelled :: l => !(i = t && cancelled) && pending t l
  | _ :: l => pending t l

/-- The task was resumed and since then neither started nor completed. -/
def wakened (t : Nat) : List Ev → Bool
  | [] => false
  | .resume i :: l => i = t || wakened t l
  | .start i _ _ :: l => !(i = t) && wakened t l
  | .done i _ :: l => !(i = t) && wakened t l
  | _ :: l => wakened t l

/-- Every execution that does not continue a paused task obeys the last request: the task was scheduled,
not cancelled, and its deadline has come. A task is reported as cancelled only if the last request was to
cancel it. -/
def Obeys : List Ev → Prop
  | [] => True
  | .start t now resumed :: l => (resumed = true ∨ ∃ d, lastReq t l = some d ∧ 0 ≤ d ∧ d ≤ now) ∧ Obeys l
  | .done t cancelled :: l => (cancelled = true → lastReq t l = some (-1)) ∧ Obeys l
  | _ :: l => Obeys l

/-- What callers and task functions are asked for: no negative deadline; `resume` only for a task that is
paused or is running for the first time since it was scheduled; a task that was resumed while running does
not complete; a task that was resumed from a pause does not pause again. -/
def Allowed (s : State) : Op → Prop
  | .schedule _ dl => 0 ≤ dl
  | .resume t => (s.task t).paused = true ∨ (s.pc = .exec t ∧ t ∉ s.paused)
  | .finish .success | .finish .failure => ∀ t, s.pc = .exec t → (s.task t).resumed = false
  | .finish .pause => ∀ t, s.pc = .exec t → t ∉ s.paused
  | _ => True

/-- Reachable states. -/
inductive Reach : State → Prop where
  | init (now : Int) (comp : Nat → Bool) : 0 ≤ now → Reach (State.init now comp)
  | step {s s' : State} {o : Op} : Reach s → Allowed s o → s.step o = some s' → Reach s'

end Verif.TaskQueue
