/-!
# Network loop

Model of `NetworkLoop` (`roc_netio/target_libuv/roc_netio/network_loop.cpp`) and `NetworkTask` (`network_task.h`): tasks scheduled by threads of the user,
their processing on the thread of the event loop, and the ports that the loop owns.

Line numbers without a file are lines of `network_loop.cpp`.

Ports and tasks are identified by numbers, in the order of creation. Ports are represented by the part of their behaviour that matters for the loop: whether
they can be opened, whether closing ends at once, and the conditions that they check with a panic (`udp_port.cpp`, `tcp_server_port.cpp`, `tcp_connection_port.cpp`;
the UDP port and the TCP connection are modelled in `UdpPort` and `TcpConn`). `libuv` is an environment: it delivers callbacks of handles in any order, and remembers
that a semaphore (`uv_async_t`) was signalled. The lock-free queue of tasks (modelled in `Mpsc`) may appear empty while a thread has not yet finished to push;
such a thread will signal the semaphore afterwards.
Not modelled: logging, allocation of semaphores, bind addresses, failures of `uv_async_send` (a panic).
-/

namespace Verif.NetLoop

/-- Kinds of ports: `UdpPort` (389), `TcpServerPort` (466), `TcpConnectionPort` (505). (Part of the model of roc_netio/network_loop.cpp:183-566.) -/
inductive Kind where
  | udp
  | server
  | client
deriving DecidableEq

/-- Phase of a port. `up`: opened (basic_port.h:58). `termd`: a connection that is terminated (tcp_connection_port.cpp:482-504).
`terming t`: a connection that is being terminated by the loop for task `t` (330-336). `closing t`: `async_close` is in progress and will call
`handle_close_completed` with `t` (338-350). `closed`: closed. -/
inductive Life where
  | up
  | termd
  | terming (t : Nat)
  | closing (t : Option Nat)
  | closed
deriving DecidableEq

/-- A port. `handles`: it has initialized `libuv` handles, so that closing is asynchronous (udp_port.cpp:142, tcp_server_port.cpp:253, tcp_connection_port.cpp:604).
`conns`: open connections of a server (tcp_server_port.h:109). -/
structure Port where
  kind : Kind
  life : Life
  handles : Bool
  conns : Nat
deriving DecidableEq

/-- What a task does (`func_`, network_task.h:51; 18-98). `start` is `StartUdpSend` or `StartUdpRecv`. -/
inductive Req where
  | add (k : Kind)
  | start (p : Nat)
  | remove (p : Nat)
  | resolve
deriving DecidableEq

/-- `state_` of a task (network_task.h:42-48). `StateFinishing` exists only inside of one step. `resolving` is `StatePending` after `uv_getaddrinfo` has begun (577).
`gone` is a destroyed task. -/
inductive TS where
  | pending
  | resolving
  | closing
  | done
  | gone
deriving DecidableEq

/-- A task (network_task.h:29-67). `notes` counts notifications of completion (318-328). -/
structure Task where
  req : Req
  st : TS
  success : Bool
  port : Option Nat
  notes : Nat
deriving DecidableEq

/-- The loop (network_loop.h:250-271). `numOpen` is `num_open_ports_`. `sig`: `task_sem_` is signalled. `unsig`: tasks whose thread is between `push_back` and `uv_async_send` (195-197).
`awake`: the loop is inside of `process_pending_tasks_`. `stopReq`: the destructor was called; `sems`: semaphores are not closed; `ended`: the destructor returned. -/
structure St where
  tk : Nat → Option Task
  nt : Nat
  pt : Nat → Option Port
  np : Nat
  queue : List Nat
  opened : List Nat
  closing : List Nat
  numOpen : Nat
  sig : Bool
  unsig : List Nat
  awake : Bool
  stopReq : Bool
  sems : Bool
  ended : Bool

/-- Constructor (105-140), if it succeeds. -/
def St.init : St := ⟨fun _ => none, 0, fun _ => none, 0, [], [], [], 0, false, [], false, false, true, false⟩

/-- `panic`: `roc_panic`. `ub`: undefined behaviour. `bad`: not an event that can happen (events: network_loop.h:185-226). -/
inductive Err where
  | panic
  | ub
  | bad
deriving DecidableEq

/-- Change of one entry of a table (tables of objects, network_loop.h:264-269). -/
def upd {β : Type} (f : Nat → Option β) (i : Nat) (v : β) : Nat → Option β := fun j => if j = i then some v else f j

/-- Change of a task (network_task.h:53-61). -/
def St.setTask (s : St) (t : Nat) (x : Task) : St := { s with tk := upd s.tk t x }

/-- Change of a port (basic_port.h:27). -/
def St.setPort (s : St) (p : Nat) (x : Port) : St := { s with pt := upd s.pt p x }

/-- `finish_task_` (318-328): the state, then one notification. -/
def St.finish (s : St) (t : Nat) : Except Err St :=
  match s.tk t with
  | some x => if x.st = .gone then .error .ub else .ok (s.setTask t { x with st := .done, notes := x.notes + 1 })
  | none => .error .bad

/-- `async_close` of a port (udp_port.cpp:132-151, tcp_server_port.cpp:102-128, tcp_connection_port.cpp:91-117): whether it is in progress.
`raw`: the port was just created and `open` failed. -/
def Port.asyncClose (x : Port) (raw : Bool) (t : Option Nat) : Except Err (Port × Bool) :=
  match x.life with
  | .closing _ => .error .panic
  | .closed => .error .panic
  | .terming _ => .error .panic
  | .up =>
    if x.kind = .client ∧ raw = false then .error .panic
    else if 0 < x.conns then .error .panic
    else if x.handles then .ok ({ x with life := .closing t }, true)
    else .ok ({ x with life := .closed }, false)
  | .termd => if x.handles then .ok ({ x with life := .closing t }, true) else .ok ({ x with life := .closed }, false)

/-- `async_close_port_` (338-350). -/
def St.asyncClose (s : St) (p : Nat) (raw : Bool) (t : Option Nat) : Except Err (St × Bool) :=
  match s.pt p with
  | none => .error .bad
  | some x => do
    let (y, started) ← x.asyncClose raw t
    let s := s.setPort p y
    if started = true ∧ p ∉ s.closing then
      if p ∈ s.opened then .error .panic else .ok ({ s with closing := s.closing ++ [p] }, started)
    else .ok (s, started)

/-- `finish_closing_port_` (352-359). -/
def St.finishClosing (s : St) (p : Nat) (t : Option Nat) : Except Err St :=
  if p ∉ s.closing then .error .panic
  else
    let s := { s with closing := s.closing.erase p }
    match t with
    | none => .ok s
    | some t => s.finish t

/-- `schedule` and `schedule_and_wait` up to `push_back` (183-195, 203-219), for a new task. -/
def St.schedule (s : St) (r : Req) : Except Err St :=
  if s.ended = true then .error .ub
  else .ok { s with tk := upd s.tk s.nt ⟨r, .pending, false, match r with | .start p => some p | .remove p => some p | _ => none, 0⟩, nt := s.nt + 1,
                    queue := s.queue ++ [s.nt], unsig := s.unsig ++ [s.nt] }

/-- `schedule` for a task that was scheduled before (188-190). -/
def St.again (s : St) (t : Nat) : Except Err St :=
  match s.tk t with
  | none => .error .bad
  | some _ => .error .panic

/-- `uv_async_send(&task_sem_)` (197); the semaphore must not be closed. (Part of the model of roc_netio/network_loop.cpp:183-566.) -/
def St.signal (s : St) (t : Nat) : Except Err St :=
  if t ∉ s.unsig then .error .bad
  else if s.sems = false then .error .ub
  else .ok { s with sig := true, unsig := s.unsig.erase t }

/-- `~NetworkTask` (network_task.cpp:22-26). -/
def St.drop (s : St) (t : Nat) : Except Err St :=
  match s.tk t with
  | none => .error .bad
  | some x =>
    match x.st with
    | .done => .ok (s.setTask t { x with st := .gone })
    | .gone => .error .bad
    | _ => .error .panic

/-- `task_sem_cb_` (287-292): `process_pending_tasks_` begins. -/
def St.wake (s : St) : Except Err St :=
  if s.awake = true ∨ s.sig = false ∨ s.sems = false then .error .bad
  else .ok { s with awake := true, sig := false }

/-- `process_pending_tasks_` ends (309): the queue is empty, or appears to be empty because a thread is inside of `push_back`. (Part of the model of roc_netio/network_loop.cpp:183-566.) -/
def St.sleep (s : St) : Except Err St :=
  if s.awake = false then .error .bad
  else if s.queue = [] ∨ ∃ t ∈ s.queue, t ∈ s.unsig then .ok { s with awake := false }
  else .error .bad

/-- What the environment decides when a task is performed. For `add`: no memory, `open` failed (with or without initialized handles), `connect` failed, success (385-550).
For `start`: result of `start_send` or `start_recv` (430, 450). For `resolve`: finished at once with a result, or in progress (resolver.cpp:27-55). -/
inductive Res where
  | noMem
  | openFail (handles : Bool)
  | connFail
  | ok
  | result (b : Bool)
  | async
deriving DecidableEq

/-- `task_add_udp_port_`, `task_add_tcp_server_`, `task_add_tcp_client_` (385-420, 462-499, 501-550), with `finish_task_` (312-314) if the state is `StateFinishing`. -/
def St.doAdd (s : St) (t : Nat) (x : Task) (k : Kind) : Res → Except Err St
  | .noMem => (s.setTask t { x with success := false }).finish t
  | .openFail h => do
    let s := { s with pt := upd s.pt s.np ⟨k, .up, h, 0⟩, np := s.np + 1 }
    let s := s.setTask t { x with success := false, port := some (s.np - 1) }
    let (s, started) ← s.asyncClose (s.np - 1) true (some t)
    if started then .ok (s.setTask t { x with success := false, port := some (s.np - 1), st := .closing })
    else s.finish t
  | .connFail =>
    if k ≠ .client then .error .bad
    else
      let s := { s with pt := upd s.pt s.np ⟨k, .terming t, true, 0⟩, np := s.np + 1 }
      .ok { s.setTask t { x with success := false, port := some (s.np - 1), st := .closing } with closing := s.closing ++ [s.np - 1] }
  | .ok =>
    let s := { s with pt := upd s.pt s.np ⟨k, .up, true, 0⟩, np := s.np + 1 }
    let s := { s with opened := s.opened ++ [s.np - 1] }
    let s := { s with numOpen := s.opened.length }
    (s.setTask t { x with success := true, port := some (s.np - 1) }).finish t
  | _ => .error .bad

/-- `task_start_udp_send_`, `task_start_udp_recv_` (422-460). The port is used as a UDP port without a check; it must be open. -/
def St.doStart (s : St) (t : Nat) (x : Task) (p : Nat) : Res → Except Err St
  | .result b =>
    match s.pt p with
    | some y => if y.kind ≠ .udp ∨ y.life ≠ .up then .error .ub else (s.setTask t { x with success := b }).finish t
    | none => .error .ub
  | _ => .error .bad

/-- `task_remove_port_` (552-566). The list panics if the port is not in it. -/
def St.doRemove (s : St) (t : Nat) (x : Task) (p : Nat) : Except Err St :=
  if p ∉ s.opened then .error .panic
  else do
    let s := { s with opened := s.opened.erase p }
    let s := { s with numOpen := s.opened.length }
    let s := s.setTask t { x with success := true }
    let (s, started) ← s.asyncClose p false (some t)
    if started then .ok (s.setTask t { x with success := true, st := .closing })
    else s.finish t

/-- `task_resolve_endpoint_address_` (568-579). -/
def St.doResolve (s : St) (t : Nat) (x : Task) : Res → Except Err St
  | .result b => (s.setTask t { x with success := b }).finish t
  | .async => .ok (s.setTask t { x with st := .resolving })
  | _ => .error .bad

/-- One iteration of `process_pending_tasks_` (309-315). -/
def St.proc (s : St) (r : Res) : Except Err St :=
  if s.awake = false then .error .bad
  else
    match s.queue with
    | [] => .error .bad
    | t :: q =>
      let s := { s with queue := q }
      match s.tk t with
      | none => .error .bad
      | some x =>
        if x.st = .gone then .error .ub
        else
          match x.req with
          | .add k => s.doAdd t x k r
          | .start p => s.doStart t x p r
          | .remove p => s.doRemove t x p
          | .resolve => s.doResolve t x r

/-- `handle_close_completed` (254-266), when the port is closed. -/
def St.closeDone (s : St) (p : Nat) : Except Err St :=
  match s.pt p with
  | some x =>
    match x.life with
    | .closing t =>
      if p ∉ s.closing then .error .panic
      else (s.setPort p { x with life := .closed }).finishClosing p t
    | _ => .error .bad
  | none => .error .bad

/-- `handle_terminate_completed` (231-252), when the connection is terminated. -/
def St.termDone (s : St) (p : Nat) : Except Err St :=
  match s.pt p with
  | some x =>
    match x.life with
    | .terming t =>
      if p ∉ s.closing then .error .panic
      else do
        let s := s.setPort p { x with life := .termd }
        let (s, started) ← s.asyncClose p false (some t)
        if started then .ok s else s.finishClosing p (some t)
    | _ => .error .bad
  | none => .error .bad

/-- `handle_resolved` (268-274). -/
def St.resolved (s : St) (t : Nat) (b : Bool) : Except Err St :=
  match s.tk t with
  | some x => if x.st = .resolving then (s.setTask t { x with success := b }).finish t else .error .bad
  | none => .error .bad

/-- The user terminates the connection of a client port, and it is terminated (tcp_connection_port.cpp:379-405, 482-504). -/
def St.userTerm (s : St) (p : Nat) : Except Err St :=
  match s.pt p with
  | some x => if x.kind = .client ∧ x.life = .up then .ok (s.setPort p { x with life := .termd }) else .error .bad
  | none => .error .bad

/-- A server port accepts a connection (tcp_server_port.cpp:130-188). -/
def St.connOpen (s : St) (p : Nat) : Except Err St :=
  match s.pt p with
  | some x => if x.kind = .server ∧ x.life = .up then .ok (s.setPort p { x with conns := x.conns + 1 }) else .error .bad
  | none => .error .bad

/-- A connection of a server port is terminated (tcp_server_port.cpp:212-228). -/
def St.connGone (s : St) (p : Nat) : Except Err St :=
  match s.pt p with
  | some x => if x.kind = .server ∧ 0 < x.conns then .ok (s.setPort p { x with conns := x.conns - 1 }) else .error .bad
  | none => .error .bad

/-- The destructor begins (142-150). -/
def St.destroy (s : St) : Except Err St :=
  if s.stopReq = true then .error .bad else .ok { s with stopReq := true }

/-- `close_all_ports_` (365-371). -/
def St.closeAll (s : St) : Nat → Except Err St
  | 0 => .ok { s with numOpen := s.opened.length }
  | n + 1 =>
    match s.opened with
    | [] => .ok { s with numOpen := s.opened.length }
    | p :: ps => do
      let (s, _) ← ({ s with opened := ps } : St).asyncClose p false none
      s.closeAll n

/-- `stop_sem_cb_` (294-301); then `process_pending_tasks_` begins. -/
def St.stopCb (s : St) : Except Err St :=
  if s.stopReq = false ∨ s.sems = false ∨ s.awake = true then .error .bad
  else do
    let s ← s.closeAll s.opened.length
    .ok { s with sems := false, awake := true }

/-- There are no handles and no requests: `uv_run` returns (279). A port has handles until it is closed. (Part of the model of roc_netio/network_loop.cpp:183-566.) -/
def St.noHandles (s : St) : Bool :=
  decide (s.sems = false ∧ s.awake = false) && (List.range s.np).all (fun p => match s.pt p with | some x => decide (x.life = .closed) | none => true)
    && (List.range s.nt).all (fun t => match s.tk t with | some x => decide (x.st ≠ .resolving) | none => true)

/-- The thread ends, and the rest of the destructor (152-173). -/
def St.finishDtor (s : St) : Except Err St :=
  if s.ended = true ∨ s.noHandles = false then .error .bad
  else if s.opened ≠ [] then .error .panic
  else if s.closing ≠ [] then .error .panic
  else .ok { s with ended := true }

/-- What can happen (network_loop.h:185-226). -/
inductive Ev where
  | schedule (r : Req)
  | again (t : Nat)
  | signal (t : Nat)
  | drop (t : Nat)
  | wake
  | sleep
  | proc (r : Res)
  | closeDone (p : Nat)
  | termDone (p : Nat)
  | resolved (t : Nat) (b : Bool)
  | userTerm (p : Nat)
  | connOpen (p : Nat)
  | connGone (p : Nat)
  | destroy
  | stopCb
  | finishDtor
deriving DecidableEq

/-- One event (network_loop.h:185-226). -/
def St.step (s : St) : Ev → Except Err St
  | .schedule r => s.schedule r
  | .again t => s.again t
  | .signal t => s.signal t
  | .drop t => s.drop t
  | .wake => s.wake
  | .sleep => s.sleep
  | .proc r => s.proc r
  | .closeDone p => s.closeDone p
  | .termDone p => s.termDone p
  | .resolved t b => s.resolved t b
  | .userTerm p => s.userTerm p
  | .connOpen p => s.connOpen p
  | .connGone p => s.connGone p
  | .destroy => s.destroy
  | .stopCb => s.stopCb
  | .finishDtor => s.finishDtor

end Verif.NetLoop
