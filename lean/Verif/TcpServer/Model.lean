/-!
# TCP server port

Model of `roc_netio/target_libuv/roc_netio/tcp_server_port.cpp`: a listening port that accepts
connections, gives them to the acceptor of the user, and takes every connection back when it is
terminated.

All methods of the server and all callbacks of libuv run on the thread of the network loop; a step
of the model is one such call. The only call made from another thread is `IConn::async_terminate` of
the user, which only switches the state of a connection and wakes up the loop; it is one step.

One connection is reduced to the part that the server depends on: the phase of its state machine, the
terminate handler, the close handler (`tcp_connection_port.cpp`, whose complete state machine is the
component `TcpConn`).

Outside of the model: results of system calls and of libuv (an arbitrary choice of the environment),
addresses, descriptors and log lines, I/O on a connection, memory of the connection objects except
that the two lists own their elements.
-/

namespace Verif.TcpServer

/-- Outcomes other than a result: an abort (`roc_panic`); an event that libuv can not deliver or a call
on an object that does not exist. (Part of the model of roc_netio/tcp_server_port.cpp:35-312.) -/
inductive Err
  | panic | bad
  deriving DecidableEq, Repr

/-- `tcp_connection_port.h:208-239`: state of a connection, as far as the server depends on it:
before `accept` (`State_Opening`), `State_Connecting`, `State_Established` (also refused and broken),
and the four states of termination and close. -/
inductive Ph
  | opening | connecting | established | terminating | terminated | closing | closed
  deriving DecidableEq, Repr

/-- `tcp_connection_port.h:306-325`: one connection: its phase, whether the semaphore exists
(`terminate_sem_initialized_`), the terminate handler (`terminate_handler_`, with the argument
`terminate_handler_arg_`, a connection handler or null), whether `close_handler_` is set. -/
structure Conn where
  ph : Ph := .opening
  sem : Bool := false
  thandler : Option (Option Nat) := none
  chandler : Bool := false
  deriving DecidableEq, Repr

/-- Calls that the server makes to the acceptor and to the connection handlers
(`iconn_acceptor.h:31-46`, `tcp_server_port.cpp:173`, `183`, `225-226`): `add_connection` with its result,
`remove_connection`; the connection is recorded too. -/
inductive Call
  | add (c : Nat) (h : Option Nat)
  | remove (c h : Nat)
  deriving DecidableEq, Repr

/-- `tcp_server_port.h:96-118`: the server. `conns` are all connections ever created, `refs` the reference
counters of the connection handlers (as far as the server holds references), `init` and `polling` that the
poll handle is initialised and started, `pclosing` that
`uv_close` was called for the poll handle, `calls` the calls to the acceptor, `notes` the number of
calls of `handle_close_completed` of the owner, `result` what `async_close` returned (true when
started). -/
structure St where
  conns : List Conn := []
  opened : List Nat := []
  closing : List Nat := []
  refs : Nat → Nat := fun _ => 0
  init : Bool := false
  polling : Bool := false
  pclosing : Bool := false
  sock : Bool := false
  chandler : Bool := false
  want : Bool := false
  closed : Bool := false
  tried : Bool := false
  calls : List Call := []
  notes : Nat := 0
  result : Option Bool := none
  gone : Bool := false

/-- Replaces a connection. (Part of the model of roc_netio/tcp_server_port.cpp:35-312.) -/
def St.set (s : St) (c : Nat) (x : Conn) : St := { s with conns := s.conns.set c x }

/-- `tcp_server_port.cpp:56-100`: how `open` ends: the socket is not created; a later call fails
before or after the poll handle is initialised; success. -/
inductive OpenRes
  | noSocket | noPoll | noStart | ok
  deriving DecidableEq, Repr

/-- `tcp_server_port.cpp:56-100`: `open`. -/
def St.opn (s : St) (r : OpenRes) : Except Err St :=
  if s.tried then .error .bad
  else
    match r with
    | .noSocket => .ok { s with tried := true }
    | .noPoll => .ok { s with tried := true, sock := true }
    | .noStart => .ok { s with tried := true, sock := true, init := true }
    | .ok => .ok { s with tried := true, sock := true, init := true, polling := true }

/-- `tcp_connection_port.cpp:743-766`: `check_usable_`. -/
def Ph.usable : Ph → Bool
  | .connecting | .established | .terminating => true
  | _ => false

/-- `tcp_connection_port.cpp:227-239`: `attach_terminate_handler`. -/
def Conn.attach (x : Conn) (a : Option Nat) : Except Err Conn :=
  if x.ph.usable = false then .error .panic
  else if x.thandler.isSome then .error .panic
  else .ok { x with thandler := some a }

/-- `tcp_connection_port.cpp:379-405`: `async_terminate`. -/
def Conn.terminate (x : Conn) : Except Err Conn :=
  if x.ph = .terminating then .error .panic
  else if x.ph.usable = false then .error .panic
  else .ok { x with ph := .terminating }

/-- `tcp_connection_port.cpp:91-117`, `603-616`: `async_close` of a connection. The result tells whether
the operation is in progress. -/
def Conn.close (x : Conn) : Except Err (Conn × Bool) :=
  if x.ph ≠ .opening ∧ x.ph ≠ .terminated then .error .panic
  else if x.chandler then .error .panic
  else if x.sem then .ok ({ x with ph := .closing, chandler := true }, true)
  else .ok ({ x with ph := .closed, chandler := true }, false)

/-- `tcp_server_port.cpp:282-297`: `async_terminate_connection_`. -/
def St.terminateConn (s : St) (c : Nat) (x : Conn) : Except Err St := do
  if c ∈ s.closing then .error .panic
  else
    let s := { s with opened := s.opened.erase c }
    let s := { s with closing := s.closing ++ [c] }
    let x ← x.attach none
    let x ← x.terminate
    .ok (s.set c x)

/-- `tcp_server_port.cpp:299-312`: `async_close_connection_`. -/
def St.closeConn (s : St) (c : Nat) (x : Conn) : Except Err St := do
  let s := { s with opened := s.opened.erase c }
  let (x, started) ← x.close
  let s := s.set c x
  if started = true ∧ c ∉ s.closing then .ok { s with closing := s.closing ++ [c] }
  else .ok s

/-- What happens when the listening socket becomes readable (`tcp_server_port.cpp:136-180`): the poll
failed or the event is not readable; no memory for the connection; `open` of the connection fails;
`accept` fails; the acceptor returns null, possibly after it called `async_terminate` of the connection
it was given; the acceptor returns a connection handler (when the user calls `async_terminate` meanwhile, this
is the next step: the server only attaches its handlers, which a terminating connection allows too). -/
inductive Accept
  | ignored | noMem | noOpen | noAccept
  | refused (terminated : Bool)
  | taken (h : Nat)
  deriving DecidableEq, Repr

/-- `tcp_server_port.cpp:130-189`: `poll_cb_`; libuv calls it while the poll handle is open. -/
def St.poll (s : St) (a : Accept) : Except Err St :=
  if s.polling = false ∨ s.pclosing then .error .bad
  else
    let c := s.conns.length
    match a with
    | .ignored | .noMem => .ok s
    | .noOpen => -- 156-161
      let x : Conn := {}
      { s with conns := s.conns ++ [x] }.closeConn c x
    | .noAccept => -- 163-168
      let x : Conn := { ph := .connecting, sem := true }
      { s with conns := s.conns ++ [x] }.terminateConn c x
    | .refused t => -- 173-180
      let x : Conn := { ph := if t then .terminating else .established, sem := true }
      { s with conns := s.conns ++ [x], calls := s.calls ++ [Call.add c none] }.terminateConn c x
    | .taken h => do -- 182-188
      let x : Conn := { ph := .established, sem := true }
      let x ← x.attach (some h)
      .ok { s with conns := s.conns ++ [x], calls := s.calls ++ [Call.add c (some h)],
                   refs := fun i => if i = h then s.refs i + 1 else s.refs i,
                   opened := s.opened ++ [c] }

/-- `tcp_connection_port.cpp:379-405`: `async_terminate` of a connection, called by the user. -/
def St.term (s : St) (c : Nat) : Except Err St :=
  match s.conns[c]? with
  | none => .error .bad
  | some x => do
    let x ← x.terminate
    .ok (s.set c x)

/-- `tcp_connection_port.cpp:469-504` and `tcp_server_port.cpp:212-228`: the termination of a connection
is completed, `handle_terminate_completed` is called. -/
def St.termDone (s : St) (c : Nat) : Except Err St :=
  match s.conns[c]? with
  | none => .error .bad
  | some x =>
    if x.ph ≠ .terminating then .error .bad
    else
      match x.thandler with
      | none => .ok (s.set c { x with ph := .terminated })
      | some a => do
        let s ← s.closeConn c { x with ph := .terminated }
        match a with
        | none => .ok s
        | some h =>
          if s.refs h = 0 then .error .panic -- `decref` of a counter that is zero
          else
            .ok { s with refs := fun i => if i = h then s.refs i - 1 else s.refs i,
                         calls := s.calls ++ [Call.remove c h] }

/-- `tcp_server_port.cpp:248-267`: `async_close_server_`. The result tells whether the operation is in
progress. -/
def St.closeServer (s : St) : St × Bool :=
  if s.closed then (s, false)
  else if s.init = false then ({ s with sock := false, closed := true }, false)
  else ({ s with pclosing := true }, true)

/-- `tcp_server_port.cpp:243-245`: the server that waits for its connections is closed after the last one. -/
def St.closeLast (s : St) : St :=
  if s.want ∧ s.opened.length + s.closing.length = 0 then s.closeServer.1 else s

/-- `tcp_connection_port.cpp:506-529` and `tcp_server_port.cpp:230-246`: the handles of a connection are
closed, `handle_close_completed` of the server is called. -/
def St.closeDone (s : St) (c : Nat) : Except Err St :=
  match s.conns[c]? with
  | none => .error .bad
  | some x =>
    if x.ph ≠ .closing then .error .bad
    else
      let s := s.set c { x with ph := .closed, sem := false }
      if c ∉ s.closing then .error .panic
      else
        .ok { s with closing := s.closing.erase c }.closeLast

/-- `tcp_server_port.cpp:102-128`: `async_close` of the server. -/
def St.close (s : St) : Except Err St :=
  if s.opened.length ≠ 0 then .error .panic
  else if s.chandler then .error .panic
  else
    let s := { s with chandler := true }
    if s.closed then .ok { s with result := some false }
    else
      let s := { s with want := true }
      if s.opened.length + s.closing.length ≠ 0 then .ok { s with result := some true }
      else
        let r := s.closeServer
        .ok { r.1 with result := some r.2 }

/-- `tcp_server_port.cpp:191-210`, `269-276`: `close_cb_`, called by libuv after `uv_close`. -/
def St.closeCb (s : St) : Except Err St :=
  if s.init = false ∨ s.pclosing = false then .error .bad
  else if s.closed then .ok s
  else
    let s := { s with init := false, polling := false, sock := false }
    if s.chandler = false then .error .panic
    else .ok { s with closed := true, notes := s.notes + 1 }

/-- `tcp_server_port.cpp:35-50`: the destructor. -/
def St.destroy (s : St) : Except Err St :=
  if s.opened.length ≠ 0 then .error .panic
  else if s.closing.length ≠ 0 then .error .panic
  else if s.init ∨ s.sock then .error .panic
  else .ok { s with gone := true }

/-- One call or callback. (Part of the model of roc_netio/tcp_server_port.cpp:35-312.) -/
inductive Ev
  | opn (r : OpenRes)
  | poll (a : Accept)
  | term (c : Nat)
  | termDone (c : Nat)
  | closeDone (c : Nat)
  | close
  | closeCb
  | destroy
  deriving DecidableEq, Repr

/-- Runs one call or callback; none of them exists after the destructor. (Part of the model of roc_netio/tcp_server_port.cpp:35-312.) -/
def St.step (s : St) (e : Ev) : Except Err St :=
  if s.gone then .error .bad
  else
    match e with
    | .opn r => s.opn r
    | .poll a => s.poll a
    | .term c => s.term c
    | .termDone c => s.termDone c
    | .closeDone c => s.closeDone c
    | .close => s.close
    | .closeCb => s.closeCb
    | .destroy => s.destroy

end Verif.TcpServer
