/-!
# UDP port

Model of `roc_netio/target_libuv/roc_netio/udp_port.cpp`: one UDP port, used by the network thread (event
loop callbacks and the calls of the network loop) and by any number of threads that write packets.

Threads interleave at the granularity of one access to a shared variable; callbacks of the event loop run one
at a time, but writers run between the steps of `write_sem_cb_`. The outbound queue is a FIFO in which a
packet can be unlinked while its `push_back` is in progress (see `Verif.Mpsc`); popping returns null when the
first packet is unlinked. libuv is modelled by what it documents: wakeups sent with `uv_async_send` are
coalesced and not lost, requests are sent in order, every request and every `uv_close` is completed by one
callback, later, from the loop. The results of all calls are arbitrary choices of the environment.

Outside of the model: statistics and log lines, addresses (a destination is not needed to state anything
here), descriptors, reference counts of packets and buffers.
-/

namespace Verif.UdpPort

/-- Configuration (`udp_port.h:32-64`) and environment: `multicast_interface` is not empty, `bind_address` is
a multicast / IPv6 address, its port, the two switches, and the size of the buffers of the factory. -/
structure Cfg where
  mcastIf : Bool
  multicast : Bool
  ipv6 : Bool
  port : Nat
  reuse : Bool
  nonBlocking : Bool
  bufSize : Nat
  deriving DecidableEq, Repr

/-- Results of `uv_udp_bind` that the code distinguishes (`udp_port.cpp:82-95`). -/
inductive UvErr
  | ok | einval | enotsup | other
  deriving DecidableEq, Repr

/-- One call of `uv_udp_bind`: the flags `UV_UDP_REUSEADDR` and `UV_UDP_IPV6ONLY`. (Part of the model of roc_netio/udp_port.cpp:28-546.) -/
structure Bind where
  reuse : Bool
  v6only : Bool
  deriving DecidableEq, Repr

/-- `udp_port.cpp:76-80`: flag for reuse of the address. -/
def reuseFlag (c : Cfg) : Bool := (c.reuse || c.multicast) && decide (c.port > 0)

/-- `udp_port.cpp:82-95`: calls of `uv_udp_bind`, in order, and if the last one succeeded. `uv` is the result
of a call. -/
def bind (c : Cfg) (uv : Bind → UvErr) : List Bind × Bool :=
  let a : Bind := ⟨reuseFlag c, true⟩
  let b : Bind := ⟨reuseFlag c, false⟩
  if c.ipv6 then
    if uv a = .einval ∨ uv a = .enotsup then ([a, b], decide (uv b = .ok)) else ([a], decide (uv a = .ok))
  else ([b], decide (uv b = .ok))

/-- An outgoing packet: number of the `write` call, size of the buffer, and (only to state the order of
packets) the numbers of the calls that had returned before this call began. (roc_netio/udp_port.h:32-163) -/
structure Pkt where
  id : Nat
  size : Nat
  seen : List Nat
  deriving DecidableEq, Repr

/-- Where a thread is in `write` (`udp_port.cpp:419-458`): it passed the test of `want_close_`; it will try to
send; it will push; it pushed, but the packet is not linked; it will call `uv_async_send`; it sent, and will
decrement the counter. -/
inductive Pc
  | checked | trying | push | link | signal | dec
  deriving DecidableEq, Repr

/-- A call of `write` that has not returned. (roc_netio/udp_port.h:70-163) -/
structure Wr where
  pkt : Pkt
  pc : Pc
  deriving DecidableEq, Repr

/-- What the kernel does with a datagram (`socket_ops.cpp:625-653`): takes all, would block, fails. -/
inductive Kernel
  | sent | wouldBlock | failed
  deriving DecidableEq, Repr

/-- `socket_ops.cpp:617-654`: `socket_try_send_to` returns the number of bytes or `SockErr_WouldBlock`,
`SockErr_Failure` (`socket_ops.h:40-49`). The loop on `EINTR` is not modelled. -/
def trySendTo (k : Kernel) (size : Nat) : Int :=
  match k with
  | .sent => size
  | .wouldBlock => -1
  | .failed => -3

/-- `udp_port.cpp:460-480`: `try_nonblocking_write_`. The returned number is converted to `bool`. -/
def tryWrite (c : Cfg) (k : Kernel) (size : Nat) : Bool :=
  if c.nonBlocking = false then false else decide (trySendTo k size ≠ 0)

/-- A datagram given to the inbound writer: its bytes and the source address. (Part of the model of roc_netio/udp_port.cpp:28-546.) -/
structure Dgram where
  bytes : List Nat
  src : Nat
  deriving DecidableEq, Repr

/-- What libuv reports to `recv_cb_`: a datagram that came, an error, or that there is no more data. (Part of the model of roc_netio/udp_port.cpp:28-546.) -/
inductive Rx
  | dgram (d : Dgram) | error | none
  deriving DecidableEq, Repr

/-- The port (`udp_port.h:135-162`), the state of libuv, the writers, and records of what happened. -/
structure State where
  /-- `handle_initialized_` -/
  init : Bool
  /-- `write_sem_initialized_` -/
  sem : Bool
  /-- `multicast_group_joined_` -/
  joined : Bool
  /-- `recv_started_` -/
  recvOn : Bool
  /-- `want_close_` -/
  want : Bool
  /-- `closed_` -/
  closed : Bool
  /-- `close_handler_` is set -/
  handler : Bool
  /-- `inbound_writer_` -/
  inbound : Option Nat
  /-- `pending_packets_` -/
  pending : Int
  /-- `outbound_queue_` -/
  queue : List Pkt
  /-- `uv_async_send` was called and the callback did not run since -/
  flag : Bool
  /-- `write_sem_cb_` is running -/
  draining : Bool
  /-- requests accepted by `uv_udp_send` and not yet given to the kernel -/
  unsent : List Pkt
  /-- requests processed, `send_cb_` not yet called -/
  done : List Pkt
  /-- `uv_close` of `handle_` was called, callback not yet -/
  hClosing : Bool
  /-- `uv_close` of `write_sem_` was called, callback not yet -/
  sClosing : Bool
  /-- calls of `write` in progress -/
  act : List Wr
  /-- datagrams taken by the kernel, in order -/
  wire : List Pkt
  /-- refused by the kernel, reported to `send_cb_` -/
  failed : List Pkt
  /-- refused by the kernel in `try_nonblocking_write_` -/
  dropped : List Pkt
  /-- `uv_udp_send` returned an error -/
  lost : List Pkt
  /-- numbers of calls of `write` that returned -/
  returned : List Nat
  /-- number of calls of `write` -/
  next : Nat
  /-- number of calls of the close handler -/
  closeCalls : Nat
  /-- result of `async_close`: `some true` for `AsyncOp_Started` -/
  result : Option Bool
  /-- packets given to the inbound writers -/
  delivered : List (Nat × Dgram)
  deriving DecidableEq, Repr

/-- `udp_port.cpp:28-48`: constructor. -/
def fresh : State :=
  { init := false, sem := false, joined := false, recvOn := false, want := false, closed := false,
    handler := false, inbound := none, pending := 0, queue := [], flag := false, draining := false,
    unsent := [], done := [], hClosing := false, sClosing := false, act := [], wire := [], failed := [],
    dropped := [], lost := [], returned := [], next := 0, closeCalls := 0, result := none, delivered := [] }

/-- `udp_port.cpp:50-60`: the destructor aborts. -/
def State.dtorAborts (s : State) : Bool := s.init || decide (s.pending ≠ 0)

/-- `udp_port.cpp:66-130`: `open`. `initOk` is the result of `uv_udp_init`, `rest` of the other calls. -/
def State.open_ (s : State) (initOk rest : Bool) : State × Bool :=
  if initOk = false then (s, false) else ({ s with init := true }, rest)

/-- `udp_port.cpp:482-492`: `fully_closed_`. -/
def State.fullyClosed (s : State) : Bool := (!s.init && !s.sem) || s.closed

/-- `udp_port.cpp:494-520`: `start_closing_`. -/
def State.startClosing (s : State) : State :=
  if s.fullyClosed then s
  else { s with recvOn := false, joined := false, hClosing := s.hClosing || s.init,
                sClosing := s.sClosing || s.sem }

/-- `udp_port.cpp:132-151`: `async_close`; `none` is an abort. -/
def State.asyncClose (s : State) : Option State :=
  if s.handler then none
  else
    let s := { s with handler := true, want := true }
    if s.fullyClosed then some { s with result := some false }
    else
      let s := if s.pending = 0 then s.startClosing else s
      some { s with result := some true }

/-- `udp_port.cpp:153-170`: `start_send`; `ok` is the result of `uv_async_init`. -/
def State.startSend (s : State) (ok : Bool) : State × Bool :=
  if s.init = false then (s, false)
  else if s.sem then (s, true)
  else if ok then ({ s with sem := true }, true) else (s, false)

/-- `udp_port.cpp:172-194, 522-546`: `start_recv` with writer `w`; results of `uv_udp_set_membership` and
`uv_udp_recv_start`. -/
def State.startRecv (c : Cfg) (s : State) (w : Nat) (joinOk startOk : Bool) : State × Bool :=
  if s.init = false then (s, false)
  else
    let join := c.mcastIf && !s.joined
    if join ∧ (c.multicast = false ∨ joinOk = false) then (s, false)
    else
      let s := if join then { s with joined := true } else s
      if s.recvOn = false ∧ startOk = false then (s, false)
      else ({ s with recvOn := true, inbound := some w }, true)

/-- `udp_port.cpp:196-217`: end of `close_cb_`, after one flag was cleared; `none` is an abort. -/
def State.closeCb (s : State) : Option State :=
  if s.init || s.sem then some s
  else if s.handler = false then none
  else some { s with closed := true, closeCalls := s.closeCalls + 1 }

/-- `udp_port.cpp:219-345`: `alloc_cb_` followed by `recv_cb_`. `bufOk`, `pktOk`: a buffer and a packet can
be allocated; `wrOk`: the inbound writer returns `StatusOK`. Without a buffer `recv_cb_` gets a null base and
dereferences a pointer computed from it. libuv offers 65536 bytes; a longer datagram is flagged as partial. -/
def State.recv (c : Cfg) (s : State) (r : Rx) (bufOk pktOk wrOk : Bool) : Option State :=
  if bufOk = false then none
  else match r with
    | .error => some s
    | .none => some s
    | .dgram d =>
      if d.bytes = [] then some s
      else if d.bytes.length > min 65536 c.bufSize then some s
      else if pktOk = false then some s
      else match s.inbound with
        | none => some s
        | some w => if wrOk then some { s with delivered := s.delivered ++ [(w, d)] } else none

/-- Things that happen to a port. (Part of the model of roc_netio/udp_port.cpp:28-546.) -/
inductive Ev
  /-- the network loop calls `open` -/
  | open_ (initOk rest : Bool)
  | startSend (ok : Bool)
  | startRecv (w : Nat) (joinOk startOk : Bool)
  | asyncClose
  /-- a thread calls `write` with a buffer of this size, and reads `want_close_` -/
  | write (size : Nat)
  /-- next step of the call in progress at position `i`; `k` is what the kernel does in `trying` -/
  | step (i : Nat) (k : Kernel)
  /-- the loop calls `write_sem_cb_` -/
  | wake
  /-- `write_sem_cb_` pops a packet or leaves; `ok` is the result of `uv_udp_send` -/
  | pop (ok : Bool)
  /-- libuv gives the first request to the kernel -/
  | transmit (ok : Bool)
  /-- libuv calls `send_cb_` -/
  | complete
  /-- libuv calls `close_cb_` for `handle_` or `write_sem_` -/
  | closedH
  | closedS
  /-- libuv calls `alloc_cb_` and `recv_cb_` -/
  | recv (r : Rx) (bufOk pktOk wrOk : Bool)
  deriving DecidableEq, Repr

/-- `udp_port.cpp:419-458`: one step of a call of `write`, at position `i` of the calls in progress. -/
def State.stepWr (c : Cfg) (s : State) (i : Nat) (w : Wr) (k : Kernel) : Option State :=
  let rest := s.act.eraseIdx i
  match w.pc with
  | .checked => -- 444: ++pending_packets_ > 1
    some { s with pending := s.pending + 1,
                  act := ⟨w.pkt, if s.pending + 1 > 1 then .push else .trying⟩ :: rest }
  | .trying => -- 446
    let s := if c.nonBlocking then
        match k with
        | .sent => { s with wire := s.wire ++ [w.pkt] }
        | _ => s
      else s
    if tryWrite c k w.pkt.size then
      some { s with act := ⟨w.pkt, .dec⟩ :: rest,
                    dropped := if k = .sent then s.dropped else s.dropped ++ [w.pkt] }
    else some { s with act := ⟨w.pkt, .push⟩ :: rest }
  | .dec => -- 447
    some { s with pending := s.pending - 1, act := rest, returned := w.pkt.id :: s.returned }
  | .push => -- 452, the exchange of the tail
    some { s with queue := s.queue ++ [w.pkt], act := ⟨w.pkt, .link⟩ :: rest }
  | .link => -- 452, the store of the link
    some { s with act := ⟨w.pkt, .signal⟩ :: rest }
  | .signal => -- 454
    if s.sem = false then none
    else some { s with flag := true, act := rest, returned := w.pkt.id :: s.returned }

/-- The first packet of the queue can be popped. (Part of the model of roc_netio/udp_port.cpp:28-546.) -/
def State.linked (s : State) (p : Pkt) : Bool := !s.act.any fun w => decide (w.pc = .link ∧ w.pkt.id = p.id)

/-- `udp_port.cpp:347-385`: one iteration of the loop of `write_sem_cb_`. -/
def State.pop (s : State) (ok : Bool) : Option State :=
  match s.queue with
  | [] => some { s with draining := false }
  | p :: q =>
    if s.linked p = false then some { s with draining := false }
    else if s.init = false ∨ s.hClosing then none
    else if ok then some { s with queue := q, unsent := s.unsent ++ [p] }
    else some { s with queue := q, lost := s.lost ++ [p] }

/-- `udp_port.cpp:387-417`: `send_cb_`. -/
def State.complete (s : State) (d : List Pkt) : State :=
  let s := { s with done := d, pending := s.pending - 1 }
  if s.pending = 0 ∧ s.want then s.startClosing else s

/-- Calls that the network thread makes, other than the steps of `write_sem_cb_`. (Part of the model of roc_netio/udp_port.cpp:28-546.) -/
def Ev.network : Ev → Bool
  | .write _ | .step _ _ | .wake | .pop _ | .transmit _ => false
  | _ => true

/-- One event. `none` is an abort or undefined behavior; an event of the loop that cannot happen (also because
the loop is inside of `write_sem_cb_`) changes nothing. (Part of the model of roc_netio/udp_port.cpp:28-546.) -/
def State.step (c : Cfg) (s : State) (e : Ev) : Option State :=
  if s.draining ∧ e.network then some s
  else match e with
    | .open_ a b => some (s.open_ a b).1
    | .startSend ok => some (s.startSend ok).1
    | .startRecv w a b => some (s.startRecv c w a b).1
    | .asyncClose => s.asyncClose
    | .write size => -- 432
      if s.want then none
      else some { s with next := s.next + 1, act := ⟨⟨s.next, size, s.returned⟩, .checked⟩ :: s.act }
    | .step i k =>
      match s.act[i]? with
      | none => some s
      | some w => s.stepWr c i w k
    | .wake =>
      if s.flag ∧ s.sem ∧ s.sClosing = false ∧ s.draining = false then
        some { s with flag := false, draining := true }
      else some s
    | .pop ok => if s.draining then s.pop ok else some s
    | .transmit ok =>
      match s.unsent with
      | [] => some s
      | p :: u =>
        if ok then some { s with unsent := u, done := s.done ++ [p], wire := s.wire ++ [p] }
        else some { s with unsent := u, done := s.done ++ [p], failed := s.failed ++ [p] }
    | .complete =>
      match s.done with
      | [] => some s
      | _ :: d => some (s.complete d)
    | .closedH => if s.hClosing then { s with init := false, hClosing := false }.closeCb else some s
    | .closedS => if s.sClosing then { s with sem := false, sClosing := false }.closeCb else some s
    | .recv r a b d => if s.recvOn then s.recv c r a b d else some s

/-- A sequence of events. (Part of the model of roc_netio/udp_port.cpp:28-546.) -/
def State.run (c : Cfg) (s : State) : List Ev → Option State
  | [] => some s
  | e :: l => (s.step c e).bind fun s => s.run c l

end Verif.UdpPort
