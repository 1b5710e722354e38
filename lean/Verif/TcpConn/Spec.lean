import Verif.TcpConn.Model

/-!
# Histories of a TCP connection

What the documentation of `IConn` and `IConnHandler` says, in terms of the steps made so far and of the
callbacks made so far. Lists of steps have the newest step first, lists of callbacks the oldest callback first.
-/

namespace Verif.TcpConn

/-- Ways in which a connection can run. If `q` is set, the user calls `async_terminate` only while the
event loop has nothing more to do in a callback: from another thread when the loop is waiting, or from within the last callback
that the loop makes. -/
inductive Reach (q server : Bool) : List L → W → Prop
  | new : Reach q server [] (W.new server)
  | step {ls : List L} {w w' : W} {l : L} : Reach q server ls w → (q = true → (∃ n, l = .term n) → w.net = []) → w.step l = some w' →
      Reach q server (l :: ls) w'

/-- `iconn_handler.h:23-58`: the documented order of callbacks: first `connection_refused` or `connection_established`,
once; readable and writable only after established; `connection_terminated` is last. -/
def Documented (l : List Cb) : Prop :=
  l = [] ∨ ∃ t, (t = [] ∨ t = [Cb.terminated]) ∧ (l = .refused :: t ∨ ∃ ds : List Dir, l = .established :: (ds.map Cb.io ++ t))

/-- A step that starts the termination. -/
def L.isTerm : L → Bool
  | .term _ | .giveUp => true
  | _ => false

/-- A termination was requested. -/
def terminatedIn (ls : List L) : Bool := ls.any L.isTerm

/-- A step that establishes the connection: at once by `connect` or `accept`, or later. -/
def L.isEstablish : L → Bool
  | .dial .immediate | .endConnect true => true
  | _ => false

/-- The connection was established. -/
def establishedIn (ls : List L) : Bool := ls.any L.isEstablish

/-- A failure that concerns the connection if it comes before termination: an error from polling, an error of
`connect`, an error of a system call (the end of the incoming stream is not an error). -/
def L.isFailure : L → Bool
  | .poll true _ _ => true
  | .endConnect false => true
  | .sys _ .failure => true
  | .sys .wr .streamEnd => true
  | _ => false

/-- A termination that is requested as a failure. -/
def L.isTermFailure : L → Bool
  | .term false | .giveUp => true
  | _ => false

/-- The connection has failed before its termination, or the termination was requested as a failure. -/
def failedIn : List L → Bool
  | [] => false
  | l :: ls => failedIn ls || (l.isFailure && !terminatedIn ls) || l.isTermFailure

/-- Steps about readiness of a direction: the loop reports readiness; a call of the user starts; the system
call of the user returns. -/
def L.about (d : Dir) : L → Bool
  | .ready e => e = d
  | .busy e => e = d
  | .sys e _ => e = d
  | _ => false

end Verif.TcpConn
