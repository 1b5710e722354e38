import Verif.TcpServer.Model
/-!
# TCP server port: notions of the properties
-/
namespace Verif.TcpServer

/-- The connection was given to the acceptor, which returned handler `h`. -/
def St.handed (s : St) (c h : Nat) : Prop := Call.add c (some h) ∈ s.calls

/-- The acceptor was told that connection `c` with handler `h` is over. -/
def St.removed (s : St) (c h : Nat) : Prop := Call.remove c h ∈ s.calls

/-- What the interfaces ask of the users of the server: `open` is called once and before `async_close`; an
acceptor that returns null does not terminate the connection itself; a connection is terminated by
the user who got it, and once; `async_close` is called once, when every connection that was given to
the acceptor was removed from it; the server is destroyed after it is closed. -/
def Legal (s : St) : Ev → Prop
  | .opn _ => s.tried = false
  | .poll a => a ≠ .refused true
  | .term c => (∃ h, s.handed c h) ∧ ∃ x, s.conns[c]? = some x ∧ x.ph = .established
  | .close => s.tried = true ∧ s.result = none ∧ ∀ c h, s.handed c h → s.removed c h
  | .destroy => s.result = some false ∨ 0 < s.notes
  | _ => True

/-- States that users who follow the rules can reach. -/
inductive Reach : St → Prop
  | start : Reach {}
  | step {s s' : St} {e : Ev} : Reach s → Legal s e → s.step e = .ok s' → Reach s'

/-- Runs a list of events. -/
def runs (s : St) : List Ev → Except Err St
  | [] => .ok s
  | e :: es =>
    match s.step e with
    | .ok s => runs s es
    | .error e => .error e

/-- Whether an outcome is an abort. -/
def aborts : Except Err St → Bool
  | .error .panic => true
  | _ => false

/-- Callbacks that libuv delivers: completions of started operations. -/
def Ev.completion : Ev → Prop
  | .termDone _ | .closeDone _ | .closeCb => True
  | _ => False

/-- Connections on which the user holds a handle and which they did not terminate. -/
def St.held (s : St) (c : Nat) : Prop :=
  (∃ h, s.handed c h) ∧ ∃ x, s.conns[c]? = some x ∧ x.ph = .established

end Verif.TcpServer
