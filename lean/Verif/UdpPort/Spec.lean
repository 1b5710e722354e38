import Verif.UdpPort.Model

/-!
# What is allowed and what is expected of a UDP port
-/

namespace Verif.UdpPort

/-- The rules for users of a port (`basic_port.h:30-38`, `udp_port.h:86-97`, `udp_port.cpp:424-434`): it is opened first;
sending and receiving are started before the port is closed; packets are not empty and are written after
sending was started; the port is closed once, when no call of `write` is in progress, and not used later. -/
def legal (s : State) : Ev → Prop
  | .open_ _ _ => s = fresh
  | .startSend _ => s.want = false
  | .startRecv _ _ _ => s.want = false
  | .asyncClose => s.want = false ∧ s.act = []
  | .write size => s.sem = true ∧ s.want = false ∧ 0 < size
  | _ => True

/-- States that a port can get into when it is used by the rules. -/
inductive Reach (c : Cfg) : State → Prop
  | fresh : Reach c fresh
  | step (s s' : State) (e : Ev) : Reach c s → legal s e → s.step c e = some s' → Reach c s'

/-- Things that go on by themselves: steps of writers, and of the loop. -/
def internal : Ev → Bool
  | .step _ _ | .wake | .pop _ | .transmit _ | .complete | .closedH | .closedS => true
  | _ => false

/-- Nothing goes on by itself. -/
def Idle (c : Cfg) (s : State) : Prop := ∀ e, internal e = true → s.step c e = some s

/-- One state comes after another. -/
inductive After (c : Cfg) (s : State) : State → Prop
  | refl : After c s s
  | step (s' s'' : State) (e : Ev) : After c s s' → legal s' e → s'.step c e = some s'' → After c s s''

end Verif.UdpPort
