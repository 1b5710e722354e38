import Verif.NetLoop.Model

/-!
# Network loop: rules of use, and what a user expects
-/

namespace Verif.NetLoop

/-- A handle that the user got from a task that succeeded. -/
def St.isHandle (s : St) (p : Nat) : Prop := ∃ t x k, s.tk t = some x ∧ x.req = .add k ∧ (x.st = .done ∨ x.st = .gone) ∧ x.success = true ∧ x.port = some p

/-- Removal of the port was requested. -/
def St.removing (s : St) (p : Nat) : Prop := ∃ t x, s.tk t = some x ∧ x.req = .remove p

/-- All tasks that use the port are finished. -/
def St.unused (s : St) (p : Nat) : Prop := ∀ t x, s.tk t = some x → x.req = .start p → x.st = .done ∨ x.st = .gone

/-- Rules of use:
a handle is used only until its removal is requested; only UDP ports are started; before a port is removed, tasks that use it are finished, and its connections are terminated;
a server does not accept connections after its removal is requested; a task is scheduled once, and destroyed after it is finished;
before the loop is destroyed, all tasks are finished and all connections are terminated, and nothing is scheduled or accepted afterwards. -/
def Legal (s : St) : Ev → Prop
  | .schedule (.start p) => s.stopReq = false ∧ s.isHandle p ∧ ¬ s.removing p ∧ ∀ y, s.pt p = some y → y.kind = .udp
  | .schedule (.remove p) => s.stopReq = false ∧ s.isHandle p ∧ ¬ s.removing p ∧ s.unused p ∧
      ∀ y, s.pt p = some y → (y.kind = .client → y.life = .termd) ∧ y.conns = 0
  | .schedule _ => s.stopReq = false
  | .again _ => False
  | .drop t => ∀ x, s.tk t = some x → x.st = .done
  | .connOpen p => s.stopReq = false ∧ ¬ s.removing p
  | .destroy => (∀ t x, s.tk t = some x → x.st = .done ∨ x.st = .gone) ∧ s.unsig = [] ∧
      ∀ p y, s.pt p = some y → (y.kind = .client → y.life ≠ .up) ∧ y.conns = 0
  | _ => True

/-- States that can be reached if the rules are followed. -/
inductive Reach : St → Prop
  | init : Reach St.init
  | step {s s' : St} (h : Reach s) (e : Ev) (hl : Legal s e) (hs : s.step e = .ok s') : Reach s'

/-- Run of a list of events, whether the rules are followed or not. -/
def runs (s : St) : List Ev → Except Err St
  | [] => .ok s
  | e :: es => s.step e >>= fun s => runs s es

/-- Events of the loop, of `libuv` and of threads inside of `schedule`. -/
def internal : Ev → Bool
  | .signal _ => true
  | .wake => true
  | .sleep => true
  | .proc _ => true
  | .closeDone _ => true
  | .termDone _ => true
  | .resolved _ _ => true
  | .stopCb => true
  | .finishDtor => true
  | _ => false

/-- A task is finished: it was completed, and its owner was notified. -/
def Task.finished (x : Task) : Prop := x.st = .done ∨ x.st = .gone

/-- No event of the loop, of `libuv` or of threads inside of `schedule` can happen. -/
def Quiet (s : St) : Prop := ∀ e s', internal e = true → s.step e ≠ .ok s'

end Verif.NetLoop
