/-!
# TCP connection port

Model of `roc_netio/target_libuv/roc_netio/tcp_connection_port.cpp`: the state machine of one TCP
connection, driven by the network thread (event loop callbacks and the calls made by the network
loop and by the TCP server port) and by the thread of the user of `IConn`.

The two threads interleave at the granularity of one access to a shared atomic variable. Calls that
the code makes before any other thread can know the connection (`open`, `accept`, `connect`,
`attach_*`) and the completion of a termination (after which a user makes no calls) are one step.

Outside of the model: what the operating system and libuv do is an arbitrary choice of the
environment (results of system calls, poll events); I/O statistics, addresses, socket options,
descriptors and log lines. Reads of shared variables are sequentially consistent.
-/

namespace Verif.TcpConn

/-- `tcp_connection_port.h:208-239`: state of the connection. -/
inductive St
  | closed | opening | opened | connecting | refused | established | broken | terminating | terminated | closing
  deriving DecidableEq, Repr

/-- `tcp_connection_port.h:241-251`: status of one direction of the socket. -/
inductive Io
  | none | avail | busy
  deriving DecidableEq, Repr

/-- Direction of I/O: `writable_status_` or `readable_status_` (`tcp_connection_port.h:344-345`). -/
inductive Dir
  | wr | rd
  deriving DecidableEq, Repr

/-- `iconn_handler.h:64-77`: callbacks of the connection handler. -/
inductive Cb
  | refused | established | io (d : Dir) | terminated
  deriving DecidableEq, Repr

/-- How the socket was closed (`tcp_connection_port.cpp:584-598`): normally, after a shutdown, or with a reset. -/
inductive How
  | graceful | reset
  deriving DecidableEq, Repr

/-- Result of `socket_try_send` or `socket_try_recv` (`socket_ops.h`): bytes, `SockErr_WouldBlock`,
`SockErr_StreamEnd` or another error. (roc_netio/socket_ops.h:41-47, 89-93) -/
inductive Ret
  | bytes | wouldBlock | streamEnd | failure
  deriving DecidableEq, Repr

/-- Fields of the port (`tcp_connection_port.h:316-347`). A pointer or a socket is a flag that tells if it is set. -/
structure Conn where
  server : Bool
  st : St
  wasEst : Bool
  wasFail : Bool
  sock : Bool
  pollInit : Bool
  pollStarted : Bool
  semInit : Bool
  handler : Bool
  termH : Bool
  closeH : Bool
  streamEnd : Bool
  wr : Io
  rd : Io
  deriving DecidableEq, Repr

/-- `tcp_connection_port.cpp:24-47`: the constructor. -/
def Conn.new (server : Bool) : Conn := ⟨server, .closed, false, false, false, false, false, false, false, false, false, false, .none, .none⟩

/-- `tcp_connection_port.cpp:49-66`: the destructor does not panic. -/
def Conn.destroyOk (c : Conn) : Bool := c.st = .closed && !c.sock && !c.pollInit && !c.semInit

/-- The status of one direction (`tcp_connection_port.h:344-345`). -/
def Conn.io (c : Conn) : Dir → Io
  | .wr => c.wr
  | .rd => c.rd

/-- A store to `writable_status_` or `readable_status_` (`tcp_connection_port.cpp:312`, `352`, `621`, `631`). -/
def Conn.setIo (c : Conn) : Dir → Io → Conn
  | .wr, v => { c with wr := v }
  | .rd, v => { c with rd := v }

/-- `tcp_connection_port.cpp:675-680`: flags that `maybe_switch_state_` sets first. -/
def Conn.flags (c : Conn) (d : St) : Conn :=
  if d = .established then { c with wasEst := true }
  else if d = .refused ∨ d = .broken then { c with wasFail := true } else c

/-- `tcp_connection_port.cpp:673-698`: `maybe_switch_state_`, with the condition of lines 683-685 as it is written. -/
def Conn.maybeSwitch (c : Conn) (e d : St) : Conn × Bool :=
  let c := c.flags d
  if (e = .terminating ∨ e = .terminated) ∧ (e ≠ .terminating ∧ d ≠ .terminated ∧ d ≠ .closing) then (c, true)
  else if c.st = e then ({ c with st := d }, true) else (c, false)

/-- `tcp_connection_port.cpp:700-727`: `report_state_`, the callbacks that it makes. -/
def Conn.report (c : Conn) (n : St) : List Cb :=
  if c.handler then
    match n with
    | .refused => [.refused]
    | .established => [.established]
    | .terminated => [.terminated]
    | _ => []
  else []

/-- `tcp_connection_port.cpp:657-670`: `switch_and_report_state_` while no other thread changes the
state, for a state other than `Terminated`. -/
def Conn.switch (c : Conn) (n : St) : Conn × List Cb :=
  if c.st = n then (c, []) else
  let c' := (c.maybeSwitch c.st n).1
  (c', c'.report n)

/-- `tcp_connection_port.cpp:743-766`: `check_usable_` does not panic. -/
def St.usable : St → Bool
  | .connecting | .refused | .established | .broken | .terminating => true
  | _ => false

/-- `tcp_connection_port.cpp:768-780`: `check_usable_for_io_` does not panic. -/
def St.usableIo : St → Bool
  | .refused | .established | .broken => true
  | _ => false

/-- `tcp_connection_port.cpp:68-89`: `open`; `ok` is the result of `uv_async_init`. The result is
`none` for a panic, otherwise the port and the returned value. -/
def Conn.open_ (c : Conn) (ok : Bool) : Option (Conn × List Cb) :=
  if c.st ≠ .closed then none else
  let r := c.switch .opening
  if ok then
    let q := ({ r.1 with semInit := true }).switch .opened
    some (q.1, r.2 ++ q.2)
  else some r

/-- How far `accept` or `connect` goes: at which call it fails (`tcp_connection_port.cpp:135-151`, `177-213`, `531-551`),
or if it succeeds at once or stays in progress. `noSocket`: `socket_accept` or `socket_create`;
`setup`: `socket_setup`, `socket_bind` or `socket_begin_connect`; `pollInit`: `uv_poll_init_socket`; `pollStart`: `uv_poll_start`. -/
inductive Dial
  | noSocket | setup | pollInit | pollStart | pending | immediate
  deriving DecidableEq, Repr

/-- Does the call return true? `accept` and `connect` (`tcp_connection_port.cpp:159`, `224`). -/
def Dial.ok : Dial → Bool
  | .pending | .immediate => true
  | _ => false

/-- `tcp_connection_port.cpp:119-160`, `162-225`, `531-551`: `accept` (`server = true`) and `connect`.
`accept` never ends with `pending`. -/
def Conn.dial (c : Conn) (server : Bool) (d : Dial) : Option (Conn × List Cb) :=
  if c.server ≠ server then none else
  if c.st ≠ .opened then none else
  let r := c.switch .connecting
  let c := r.1
  match d with
  | .noSocket => some r
  | .setup => some ({ c with sock := true }, r.2)
  | .pollInit => some ({ c with sock := true }, r.2)
  | .pollStart => some ({ c with sock := true, pollInit := true }, r.2)
  | .pending => some ({ c with sock := true, pollInit := true, pollStarted := true }, r.2)
  | .immediate =>
    let q := ({ c with sock := true, pollInit := true, pollStarted := true }).switch .established
    some (q.1, r.2 ++ q.2)

/-- `tcp_connection_port.cpp:227-239`: `attach_terminate_handler`. -/
def Conn.attachTerm (c : Conn) : Option Conn :=
  if !c.st.usable then none else if c.termH then none else some { c with termH := true }

/-- `tcp_connection_port.cpp:241-249`, `729-735`: `attach_connection_handler`. -/
def Conn.attachConn (c : Conn) : Option (Conn × List Cb) :=
  if !c.st.usable then none else if c.handler then none else
  let c := { c with handler := true }
  some (c, c.report c.st)

/-- `tcp_connection_port.cpp:91-117`, `603-616`: `async_close`. The second part of the result tells if
`uv_close` of the semaphore was called (`AsyncOp_Started`). -/
def Conn.asyncClose (c : Conn) : Option (Conn × Bool) :=
  if c.st ≠ .opening ∧ c.st ≠ .opened ∧ c.st ≠ .terminated then none else
  if c.closeH then none else
  let c := (({ c with closeH := true }).switch .closing).1
  if !c.semInit then some ((c.switch .closed).1, false) else some (c, true)

/-- `tcp_connection_port.cpp:570-601`: `disconnect_socket_`; `sh` and `cl` are the results of
`socket_shutdown` and of closing the socket. -/
def Conn.disconnect (c : Conn) (sh cl : Bool) : Conn × Option How :=
  if !c.sock then (c, none) else
  let c := if c.wasEst && !c.wasFail && !sh then { c with wasFail := true } else c
  let how := if c.wasEst && !c.wasFail then How.graceful else How.reset
  let c := if !cl then { c with wasFail := true } else c
  ({ c with sock := false }, some how)

/-- `tcp_connection_port.cpp:482-504` with `643-655` and `737-741`: `finish_terminate_cb_`. -/
def Conn.finishTerminate (c : Conn) (sh cl : Bool) : Option (Conn × List Cb × Option How) :=
  if c.st ≠ .terminating then none else
  let r := ({ c with pollInit := false }).disconnect sh cl
  let cbs := r.1.report .terminated
  let q := r.1.maybeSwitch .terminating .terminated
  if !q.2 then none else some ({ q.1 with handler := false }, cbs, r.2)

/-- What remains to be done of the current callback of the event loop. `sw`, `cas`: an iteration of the
loop of `switch_and_report_state_` (`tcp_connection_port.cpp:657-667`), its read and its
compare-and-exchange; `rep`: line 670; `setIo`, `cbIo`: `tcp_connection_port.cpp:618-636`;
`endConn`: `socket_end_connect` (`tcp_connection_port.cpp:426`). -/
inductive Micro
  | sw (n : St) | cas (o n : St) | rep (n : St) | setIo (d : Dir) | cbIo (d : Dir) | endConn
  deriving DecidableEq, Repr

/-- `tcp_connection_port.cpp:618-636`: `set_and_report_writable_`, `set_and_report_readable_`. -/
def ioReport (d : Dir) : List Micro := [.setIo d, .cbIo d]

/-- `tcp_connection_port.cpp:407-467`: what `poll_cb_` is going to do after it has read the state. -/
def pollCb (st : St) (err w r : Bool) : List Micro :=
  if st = .connecting ∧ err then [.sw .refused]
  else if st = .connecting ∧ w then [.endConn]
  else if st = .established ∧ err then .sw .broken :: (ioReport .rd ++ ioReport .wr)
  else if st = .established ∧ (w ∨ r) then (if w then ioReport .wr else []) ++ (if r then ioReport .rd else [])
  else []

/-- What the thread of the user is doing. `begun`: `try_write` or `try_read` has read the state
(`tcp_connection_port.cpp:304`, `340`); `busy`: has stored `Io_InProgress` (312, 352); `got`: the system call
has returned (314, 354); `failing`: the status is updated, the state is to be switched (320, 363); `sending`: `async_terminate` has
switched the state (389); `done`: `async_terminate` was called. -/
inductive Usr
  | idle | begun (d : Dir) | busy (d : Dir) | got (d : Dir) (r : Ret) | failing | sending (normal : Bool) | done
  deriving DecidableEq, Repr

/-- How far the owner of the port is: the network loop (`network_loop.cpp:501-566`) or the TCP server port
(`tcp_server_port.cpp:130-189`, `212-246`). -/
inductive Stage
  | fresh | openFailed | opened | dialFailed | dialed | live | leaving | left | closing | gone
  deriving DecidableEq, Repr

/-- The connection with its threads and with the event loop (`tcp_connection_port.cpp`, whole file).
`semPending`: `uv_async_send` was called and its callback was not; `pollClosing`, `semClosing`: the same for `uv_close` of the
poll handle and of the semaphore; `cbs`: callbacks made so far; `termDone`, `closeDone`: numbers of
calls of the termination and of the close handler; `how`: how the socket was closed. (Part of the model of roc_netio/tcp_connection_port.cpp:24-780.) -/
structure W where
  c : Conn
  stage : Stage
  net : List Micro
  usr : Usr
  semPending : Bool
  pollClosing : Bool
  semClosing : Bool
  cbs : List Cb
  termDone : Nat
  closeDone : Nat
  how : Option How
  aborted : Bool
  deriving DecidableEq, Repr

/-- The port after the constructor (`tcp_connection_port.cpp:24-47`). -/
def W.new (server : Bool) : W := ⟨Conn.new server, .fresh, [], .idle, false, false, false, [], 0, 0, none, false⟩

/-- A panic (`roc_panic`). (Part of the model of roc_netio/tcp_connection_port.cpp:24-780.) -/
def W.abort (w : W) : W := { w with aborted := true }

/-- Steps. Owner: `open_`, `dial`, `attach`, `giveUp`, `close`. Event loop: `poll` with the status and the
events, `endConnect` (result of `socket_end_connect`), `ready` (the next operation of the current callback stores
`Io_Available`), `net` (another next operation of the current callback), `async`,
`pollClosed` (with results of shutdown and close), `semClosed`. User: `term`, `send`, `begin_`, `busy`, `sys`, `upd`, `fail`
(`tcp_connection_port.cpp:299-405`). -/
inductive L
  | open_ (ok : Bool) | dial (d : Dial) | attach | giveUp | close
  | poll (err w r : Bool) | endConnect (ok : Bool) | net | async (sh cl : Bool) | pollClosed (sh cl : Bool) | semClosed
  | ready (d : Dir) | term (normal : Bool) | send | begin_ (d : Dir) | busy (d : Dir) | sys (d : Dir) (r : Ret) | upd | fail
  deriving DecidableEq, Repr

/-- `network_loop.cpp:517`, `tcp_server_port.cpp:156`: the owner opens the port. -/
def W.open_ (w : W) (ok : Bool) : Option W :=
  if w.stage = .fresh then
    match w.c.open_ ok with
    | none => some w.abort
    | some (c, l) => some { w with c := c, cbs := w.cbs ++ l, stage := if ok then .opened else .openFailed }
  else none

/-- `network_loop.cpp:530`, `tcp_server_port.cpp:163`: the owner calls `connect` or `accept`. -/
def W.dial (w : W) (d : Dial) : Option W :=
  if w.stage = .opened ∧ ¬ (w.c.server ∧ d = .pending) then
    match w.c.dial w.c.server d with
    | none => some w.abort
    | some (c, l) => some { w with c := c, cbs := w.cbs ++ l, stage := if d.ok then .dialed else .dialFailed }
  else none

/-- `network_loop.cpp:540`, `tcp_server_port.cpp:187-188`: the owner attaches the handlers. A client port gets no
termination handler. -/
def W.attach (w : W) : Option W :=
  if w.stage = .dialed then
    match (if w.c.server then w.c.attachTerm else some w.c) with
    | none => some w.abort
    | some c =>
      match c.attachConn with
      | none => some w.abort
      | some (c, l) => some { w with c := c, cbs := w.cbs ++ l, stage := .live }
  else none

/-- `tcp_connection_port.cpp:379-392`: `async_terminate` up to the switch of the state; the loop ends with the
iteration in which no one has changed the state after it was read. -/
def W.asyncTerminate (w : W) (normal : Bool) : W :=
  if w.c.st = .terminating ∨ !w.c.st.usable then w.abort
  else { w with c := (w.c.maybeSwitch w.c.st .terminating).1, usr := .sending normal, stage := .leaving }

/-- `tcp_connection_port.cpp:397-404`: the rest of `async_terminate`. -/
def W.send (w : W) : Option W :=
  match w.usr with
  | .sending normal => some { w with c := { w.c with wasFail := w.c.wasFail || !normal }, semPending := true, usr := .done }
  | _ => none

/-- `network_loop.cpp:330-336`, `tcp_server_port.cpp:282-297`: the owner terminates a connection that
it could not connect or accept, or (server) that the acceptor has declined. -/
def W.giveUp (w : W) : Option W :=
  if w.stage = .dialFailed ∨ (w.stage = .dialed ∧ w.c.server) then
    match w.c.attachTerm with
    | none => some w.abort
    | some c =>
      let w := { w with c := c }.asyncTerminate false
      if w.aborted then some w else w.send
  else none

/-- `network_loop.cpp:338-350`, `tcp_server_port.cpp:299-312`: the owner closes a port that was not opened, or that was
terminated. -/
def W.close (w : W) : Option W :=
  if w.net = [] ∧ (w.stage = .openFailed ∨ w.stage = .left) then
    match w.c.asyncClose with
    | none => some w.abort
    | some (c, started) => some { w with c := c, semClosing := started, stage := if started then .closing else .gone }
  else none

/-- The event loop calls `poll_cb_` (`tcp_connection_port.cpp:407-413`); possible after `uv_poll_start`, before
`uv_poll_stop`, and not before the task that has opened the port ends. -/
def W.poll (w : W) (err wr rd : Bool) : Option W :=
  if w.net = [] ∧ w.c.pollStarted ∧ (w.stage = .live ∨ w.stage = .leaving) then
    some { w with net := pollCb w.c.st err wr rd }
  else none

/-- `tcp_connection_port.cpp:425-439`. -/
def W.endConnect (w : W) (ok : Bool) : Option W :=
  match w.net with
  | .endConn :: k => some { w with net := .sw (if ok then .established else .refused) :: k }
  | _ => none

/-- The next operation of the current callback (`tcp_connection_port.cpp:618-671`). -/
def W.runNet (w : W) : Option W :=
  match w.net with
  | .sw n :: k => if w.c.st = n then some { w with net := k } else some { w with net := .cas w.c.st n :: k }
  | .cas o n :: k =>
    let r := w.c.maybeSwitch o n
    some { w with c := r.1, net := (if r.2 then .rep n else .sw n) :: k }
  | .rep n :: k => some { w with cbs := w.cbs ++ w.c.report n, net := k }
  | .cbIo d :: k => some { w with cbs := w.cbs ++ (if w.c.handler then [.io d] else []), net := k }
  | _ => none

/-- The current callback stores `Io_Available` (`tcp_connection_port.cpp:621`, `631`). -/
def W.ready (w : W) (d : Dir) : Option W :=
  match w.net with
  | .setIo e :: k => if e = d then some { w with c := w.c.setIo d .avail, net := k } else none
  | _ => none

/-- `finish_terminate_cb_` (`tcp_connection_port.cpp:482-504`). -/
def W.finish (w : W) (sh cl : Bool) : W :=
  match w.c.finishTerminate sh cl with
  | none => w.abort
  | some (c, l, how) => { w with c := c, cbs := w.cbs ++ l, how := how, termDone := w.termDone + (if c.termH then 1 else 0), stage := .left }

/-- `start_terminate_cb_` with `async_stop_polling_` (`tcp_connection_port.cpp:469-480`, `553-568`). -/
def W.async (w : W) (sh cl : Bool) : Option W :=
  if w.net = [] ∧ w.semPending ∧ ¬ w.semClosing then
    let w := { w with semPending := false }
    if w.c.st ≠ .terminating then some w.abort
    else if !w.c.pollInit then some (w.finish sh cl)
    else some { w with c := { w.c with pollStarted := false }, pollClosing := true }
  else none

/-- The event loop has closed the poll handle (`tcp_connection_port.cpp:482`, `564`). -/
def W.pollClosed (w : W) (sh cl : Bool) : Option W :=
  if w.net = [] ∧ w.pollClosing then some ({ w with pollClosing := false }.finish sh cl) else none

/-- The event loop has closed the semaphore: `close_cb_` (`tcp_connection_port.cpp:506-529`). -/
def W.semClosed (w : W) : Option W :=
  if w.net = [] ∧ w.semClosing then
    let w := { w with semClosing := false }
    if w.c.st ≠ .closing then some w.abort
    else some { w with c := ({ w.c with semInit := false }.switch .closed).1, closeDone := w.closeDone + (if w.c.closeH then 1 else 0), stage := .gone }
  else none

/-- The user knows the connection: `connection_established` or `connection_refused` was called
(`iconn_handler.h:28-32`). -/
def W.known (w : W) : Bool := w.cbs.contains .established || w.cbs.contains .refused

/-- The user calls `async_terminate` (`tcp_connection_port.cpp:379`), once, and not during its own I/O. -/
def W.term (w : W) (normal : Bool) : Option W :=
  if w.usr = .idle ∧ w.known then some (w.asyncTerminate normal) else none

/-- The user calls `try_write` or `try_read`, up to the store of the status (`tcp_connection_port.cpp:299-310`, `335-350`). -/
def W.begin_ (w : W) (d : Dir) : Option W :=
  if w.usr = .idle ∧ w.known then
    if !w.c.st.usableIo then some w.abort
    else if w.c.st ≠ .established then some w
    else if d = .rd ∧ w.c.streamEnd then some w
    else some { w with usr := .begun d }
  else none

/-- `tcp_connection_port.cpp:312`, `352`. -/
def W.busy (w : W) (d : Dir) : Option W :=
  if w.usr = .begun d then some { w with c := w.c.setIo d .busy, usr := .busy d } else none

/-- The system call (`tcp_connection_port.cpp:314`, `354`). -/
def W.sys (w : W) (d : Dir) (r : Ret) : Option W :=
  if w.usr = .busy d then some { w with usr := .got d r } else none

/-- `tcp_connection_port.cpp:316-319`, `356-362`: the status is updated unless a poll event did it. -/
def W.upd (w : W) : Option W :=
  match w.usr with
  | .got d r =>
    let c := if w.c.io d = .busy then w.c.setIo d (if r = .bytes then .avail else .none) else w.c
    if r = .bytes ∨ r = .wouldBlock then some { w with c := c, usr := .idle }
    else if d = .rd ∧ r = .streamEnd then some { w with c := { c with streamEnd := true }, usr := .idle }
    else some { w with c := c, usr := .failing }
  | _ => none

/-- `tcp_connection_port.cpp:320`, `363`. -/
def W.fail (w : W) : Option W :=
  match w.usr with
  | .failing => some { w with c := (w.c.maybeSwitch .established .broken).1, usr := .idle }
  | _ => none

/-- One step; `none` if it is not possible (`tcp_connection_port.cpp`, whole file). (Part of the model of roc_netio/tcp_connection_port.cpp:24-780.) -/
def W.step (w : W) (l : L) : Option W :=
  if w.aborted then none else
  match l with
  | .open_ ok => w.open_ ok
  | .dial d => w.dial d
  | .attach => w.attach
  | .giveUp => w.giveUp
  | .close => w.close
  | .poll e a b => w.poll e a b
  | .endConnect ok => w.endConnect ok
  | .net => w.runNet
  | .async a b => w.async a b
  | .pollClosed a b => w.pollClosed a b
  | .semClosed => w.semClosed
  | .term n => w.term n
  | .send => w.send
  | .begin_ d => w.begin_ d
  | .busy d => w.busy d
  | .sys d r => w.sys d r
  | .ready d => w.ready d
  | .upd => w.upd
  | .fail => w.fail

/-- `is_writable`, `is_readable` (`tcp_connection_port.cpp:275-297`); `none` for a panic. -/
def Conn.isReady (c : Conn) (d : Dir) : Option Bool :=
  if !c.st.usable then none
  else if c.st ≠ .established ∧ c.st ≠ .broken then some false
  else some (c.io d ≠ .none)

/-- `is_failed` (`tcp_connection_port.cpp:267-273`); `none` for a panic. -/
def Conn.isFailed (c : Conn) : Option Bool := if !c.st.usable then none else some c.wasFail

end Verif.TcpConn
