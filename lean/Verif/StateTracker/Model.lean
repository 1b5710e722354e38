/-!
# Activity of a receiver or sender: model

Models `StateTracker` (`roc_pipeline/state_tracker.cpp`) together with its users: inbound packets of
endpoints (`receiver_endpoint.cpp`, `sender_endpoint.cpp`), sessions (`receiver_session_group.cpp`),
and removal of slots.

Network threads write packets, a pipeline thread pulls them; every operation on an atomic counter
and on the queue is one step, in any order. Each packet has its place in the program, so all packets
can be at different places. That the queue itself is correct is proved in `Verif.Mpsc`; here, only
the number of packets matters, not their order, and `try_pop_front_exclusive` may find nothing even
if the queue is not empty.
-/

namespace Verif.StateTracker

/-- How far a packet has come:
`counted`: after `add_pending_packets(+1)`, before `push_back` (`receiver_endpoint.cpp:223-224`);
`queued`: in the queue;
`popped`: after `try_pop_front_exclusive` (`receiver_endpoint.cpp:200`);
`routed`: after `route_packet`, before `add_pending_packets(-1)` (`receiver_endpoint.cpp:206-207`). -/
inductive Stage where
  | counted | queued | popped | routed
  deriving DecidableEq, Repr

/-- A packet: the endpoint it was sent to, whether the parser accepts it, and its place. (roc_pipeline/receiver_endpoint.cpp:191-227) -/
structure Pkt where
  ep : Nat
  good : Bool
  stage : Stage
  deriving DecidableEq, Repr

/-- `pending_packets_` and `active_sessions_` of the tracker (`state_tracker.h:51-52`), the number of sessions
in all groups, and all packets that were written and not yet handled. -/
structure St where
  pending : Int
  active : Int
  sessions : Nat
  pkts : List Pkt
  deriving DecidableEq, Repr

/-- After the constructors: `state_tracker.cpp:15-18`. -/
def St.init : St := ⟨0, 0, 0, []⟩

/-- `DeviceState`: `roc_sndio/device_state.h:19-31`, the values used here. -/
inductive Dev where
  | active | idle
  deriving DecidableEq, Repr

/-- `get_state`: `state_tracker.cpp:20-33`. -/
def St.state (s : St) : Dev := if s.active ≠ 0 then .active else if s.pending ≠ 0 then .active else .idle

/-- What happens. (Part of the model of roc_pipeline/state_tracker.cpp:15-51, receiver_endpoint.cpp:191-227.) -/
inductive Ev where
  | write (ep : Nat) (good : Bool)
  | push
  | pop
  | drop
  | route
  | done
  | create
  | remove
  | unlink (ep : Nat)
  deriving DecidableEq, Repr

/-- Steps of all threads. A step that aborts (`state_tracker.cpp:41, 50`) leads to `none`. -/
inductive Step : St → Ev → Option St → Prop where
  /-- First part of `write`: `receiver_endpoint.cpp:223`, `sender_endpoint.cpp:210`,
  `state_tracker.cpp:48-51`. -/
  | write (s : St) (ep : Nat) (good : Bool) :
      Step s (.write ep good) (some { s with pending := s.pending + 1, pkts := s.pkts ++ [⟨ep, good, .counted⟩] })
  /-- Second part of `write`: `receiver_endpoint.cpp:224`, `sender_endpoint.cpp:211`. -/
  | push (s : St) (a b : List Pkt) (ep : Nat) (good : Bool) (h : s.pkts = a ++ ⟨ep, good, .counted⟩ :: b) :
      Step s .push (some { s with pkts := a ++ ⟨ep, good, .queued⟩ :: b })
  /-- `try_pop_front_exclusive` in `pull_packets`: `receiver_endpoint.cpp:200`,
  `sender_endpoint.cpp:186`. -/
  | pop (s : St) (a b : List Pkt) (ep : Nat) (good : Bool) (h : s.pkts = a ++ ⟨ep, good, .queued⟩ :: b) :
      Step s .pop (some { s with pkts := a ++ ⟨ep, good, .popped⟩ :: b })
  /-- The parser rejects the packet: `receiver_endpoint.cpp:201-204`, `sender_endpoint.cpp:187-190`. -/
  | drop (s : St) (a b : List Pkt) (ep : Nat) (h : s.pkts = a ++ ⟨ep, false, .popped⟩ :: b) :
      Step s .drop (some { s with pkts := a ++ b })
  /-- `route_packet`, apart from changes of sessions: `receiver_endpoint.cpp:206`,
  `sender_endpoint.cpp:192-193`. -/
  | route (s : St) (a b : List Pkt) (ep : Nat) (h : s.pkts = a ++ ⟨ep, true, .popped⟩ :: b) :
      Step s .route (some { s with pkts := a ++ ⟨ep, true, .routed⟩ :: b })
  /-- `add_pending_packets(-1)`: `receiver_endpoint.cpp:207`, `sender_endpoint.cpp:194`. -/
  | done (s : St) (a b : List Pkt) (ep : Nat) (good : Bool) (h : s.pkts = a ++ ⟨ep, good, .routed⟩ :: b)
      (h0 : 0 ≤ s.pending - 1) :
      Step s .done (some { s with pending := s.pending - 1, pkts := a ++ b })
  /-- The same, if the counter becomes negative. -/
  | donePanic (s : St) (a b : List Pkt) (ep : Nat) (good : Bool) (h : s.pkts = a ++ ⟨ep, good, .routed⟩ :: b)
      (h0 : s.pending - 1 < 0) : Step s .done none
  /-- End of `create_session_`: `receiver_session_group.cpp:407-410`; for a sender, `sender_slot.cpp:99-102`.
  The state is read under the same lock (`receiver_loop.cpp:152-158`), so this is one step. -/
  | create (s : St) : Step s .create (some { s with sessions := s.sessions + 1, active := s.active + 1 })
  /-- `remove_session_`: `receiver_session_group.cpp:415-423`; for a sender, `sender_slot.cpp:38-42`. -/
  | remove (s : St) (h : 0 < s.sessions) (h0 : 0 ≤ s.active - 1) :
      Step s .remove (some { s with sessions := s.sessions - 1, active := s.active - 1 })
  /-- The same, if the counter becomes negative. -/
  | removePanic (s : St) (h : 0 < s.sessions) (h0 : s.active - 1 < 0) : Step s .remove none
  /-- Removal of an endpoint with its slot. Its network port was removed before, so nothing is being
  written to it (`roc_node/receiver.cpp:402-424`), and it is done under the lock of the pipeline, so nothing
  is being pulled. Packets in the queue are freed with it (`receiver_endpoint.h` has no
  destructor). -/
  | unlink (s : St) (ep : Nat) (h : ∀ p ∈ s.pkts, p.ep = ep → p.stage = .queued) :
      Step s (.unlink ep) (some { s with pkts := s.pkts.filter (fun p => p.ep ≠ ep) })

/-- A run without aborts. (Part of the model of roc_pipeline/state_tracker.cpp:15-51, receiver_endpoint.cpp:191-227.) -/
inductive Run : St → List Ev → St → Prop where
  | nil (s : St) : Run s [] s
  | cons (s t u : St) (e : Ev) (es : List Ev) (h : Step s e (some t)) (hr : Run t es u) : Run s (e :: es) u

end Verif.StateTracker
