/-!
# Slots of the receiver and sender nodes (roc_node)

Functions modelled: `Receiver::configure`, `bind`, `unlink`, `get_metrics`, the destructor
(roc_node/receiver.cpp:45-433) and `Sender::configure`, `connect`, `unlink`, `get_metrics`, the
destructor (roc_node/sender.cpp:44-542), which are the bodies of the public functions
`roc_receiver_configure`, `_bind`, `_unlink`, `_query`, `roc_sender_configure`, `_connect`,
`_unlink`, `_query`.

A node owns two kinds of resources that live on other threads: *pipeline slots* (created and
deleted in the pipeline) and *UDP ports* (created and removed in the network loop).  These hold
references to each other: a port holds the inbound writer of a pipeline endpoint
(`StartUdpRecv`) and an endpoint holds the outbound writer of a port (`StartUdpSend`).  The model
of a call yields the sequence of requests it makes to the two threads (`Act`); the world of live
resources and references is computed from these requests alone (`World`), so that the properties
can be stated about the world without the node's own bookkeeping.

Simplifications.  The answers of the environment (uri valid, address resolved, port opened, …)
are inputs of a call.  A resource is named by slot index, interface and a serial number, i.e. by
the place that asked for it; names are never reused.  Allocation of the `Slot` object and the
insertion in the hash map after a successful `CreateSlot` (receiver.cpp:379-390) always succeed.
An `AddEndpoint` that fails has kept no reference.  One call runs at a time (`mutex_`).
-/

namespace Verif.NodeSlots

/-- Interfaces of a slot; roc_address/interface.h:21-36 (`Iface_Invalid` is never passed by the
public API). -/
inductive Iface | consolidated | source | repair | control
  deriving DecidableEq, Repr

/-- The order in which `cleanup_slot_` visits the array of ports; receiver.cpp:404, sender.cpp:446. -/
def ifaces : List Iface := [.consolidated, .source, .repair, .control]

/-- Name of a pipeline slot: slot index and serial number (`SlotHandle`; receiver.cpp:379). -/
abbrev SlotId := Nat × Nat

/-- Name of a network port: slot index, interface that opened it, serial number (`PortHandle`;
receiver.cpp:191, sender.cpp:197). -/
abbrev PortId := Nat × Iface × Nat

/-- A request that succeeded on the pipeline or network thread:
`CreateSlot` (receiver.cpp:373), `DeleteSlot` (:417), `AddUdpPort` (:180), `RemovePort` (:406),
`AddEndpoint` with the outbound writer of a port (:210, sender.cpp:219), `StartUdpRecv` with the
inbound writer of an endpoint (:222, sender.cpp:232). -/
inductive Act
  | createSlot (s : SlotId)
  | deleteSlot (s : SlotId)
  | addPort (p : PortId)
  | removePort (p : PortId)
  | send (s : SlotId) (p : PortId)
  | recv (p : PortId) (s : SlotId)
  deriving DecidableEq, Repr

/-- Live resources and the references between them: `send s p` - an endpoint of pipeline slot `s`
writes to port `p`; `recv p = some s` - port `p` writes to an endpoint of slot `s`.
roc_netio/target_libuv/roc_netio/udp_port.cpp:153-217 (`start_send`, `start_recv`), roc_pipeline/sender_slot.cpp:49-110,
receiver_slot.cpp:49-74. -/
structure World where
  slots : SlotId → Bool
  ports : PortId → Bool
  send  : SlotId → PortId → Bool
  recv  : PortId → Option SlotId

/-- Nothing exists before the first call; receiver.cpp:35-42. -/
def World.empty : World where
  slots := fun _ => false
  ports := fun _ => false
  send  := fun _ _ => false
  recv  := fun _ => none

/-- Effect of a request on the other thread (citations at `Act`).  A deleted slot and a removed
port stop writing. (Part of the model of roc_node/receiver.cpp:18-433, sender.cpp:18-542.) -/
def World.act (w : World) : Act → World
  | .createSlot s => { w with slots := fun x => if x = s then true else w.slots x }
  | .deleteSlot s =>
    { w with slots := fun x => if x = s then false else w.slots x
             send := fun x p => if x = s then false else w.send x p }
  | .addPort p => { w with ports := fun x => if x = p then true else w.ports x }
  | .removePort p =>
    { w with ports := fun x => if x = p then false else w.ports x
             recv := fun x => if x = p then none else w.recv x }
  | .send s p => { w with send := fun x q => if x = s ∧ q = p then true else w.send x q }
  | .recv p s => { w with recv := fun x => if x = p then some s else w.recv x }

/-- Effect of a list of requests, one after another. (Part of the model of roc_node/receiver.cpp:18-433, sender.cpp:18-542.) -/
def World.run (w : World) : List Act → World
  | [] => w
  | a :: as => (w.act a).run as

/-- UDP configuration as far as the node looks at it: family and rest of the bind address (when
it is set), remaining fields; roc_netio/target_libuv/roc_netio/udp_port.h:31-70. -/
structure Cfg where
  addr : Option (Bool × Nat)
  rest : Nat
  deriving DecidableEq, Repr

/-- `Port`; sender.h:90-100 (`handle`, `config`, `orig_config`, `outbound_writer`), receiver.h:85-92
(`handle`, `config`). -/
structure Port where
  handle : Option Nat := none
  cfg    : Cfg := ⟨none, 0⟩
  orig   : Cfg := ⟨none, 0⟩
  writer : Bool := false
  deriving DecidableEq, Repr

/-- `Slot`; receiver.h:94-120, sender.h:102-130.  `ep i` stands for the pipeline slot's
`source_endpoint_`, `repair_endpoint_`, `control_endpoint_` being set (receiver_slot.h:79-85). -/
structure Slot where
  handle : Option Nat
  ports  : Iface → Port
  ep     : Iface → Bool
  broken : Bool

/-- Node; receiver.h:133-147, sender.h:144-158: `slot_map_`, `used_interfaces_` with
`used_protocols_`, and the source of serial numbers. -/
structure Node where
  slot : Nat → Option Slot
  used : Iface → Option Nat
  next : Nat

/-- A new node; receiver.cpp:35-36, sender.cpp:34-35. -/
def Node.new : Node := ⟨fun _ => none, fun _ => none, 0⟩

/-- What the environment answers during a call: pipeline slot created, uri verified, protocol of
the uri, address resolved, its family, port opened, sending started, endpoint accepted, endpoint
has an inbound writer (used by the sender), receiving started. (Part of the model of roc_node/receiver.cpp:18-433, sender.cpp:18-542.) -/
structure Env where
  create  : Bool := true
  uri     : Bool := true
  proto   : Nat := 0
  resolve : Bool := true
  family  : Bool := false
  port    : Bool := true
  send    : Bool := true
  ep      : Bool := true
  inbound : Bool := true
  recv    : Bool := true
  deriving DecidableEq, Repr

/-- Slot as created by `get_slot_`; receiver.cpp:379, receiver.h:100-107. -/
def Slot.fresh (h : Nat) : Slot := ⟨some h, fun _ => {}, fun _ => false, false⟩

/-- Slot after `break_slot_`; receiver.cpp:426-433, sender.cpp:458-464. -/
def Slot.broke (sl : Slot) : Slot :=
  ⟨none, fun i => { sl.ports i with handle := none }, fun _ => false, true⟩

/-- Store a slot in the map. (Part of the model of roc_node/receiver.cpp:18-433, sender.cpp:18-542.) -/
def Node.set (n : Node) (k : Nat) (sl : Option Slot) : Node :=
  { n with slot := fun j => if j = k then sl else n.slot j }

/-- `get_slot_(slot_index, true)`: the existing slot, or a new one with its pipeline slot;
receiver.cpp:364-400, sender.cpp:397-432. -/
def Node.getSlot (n : Node) (k : Nat) (create : Bool) : Option (List Act × Node × Slot) :=
  match n.slot k with
  | some sl => some ([], n, sl)
  | none =>
    if create then
      let sl := Slot.fresh n.next
      some ([.createSlot (k, n.next)], { n.set k (some sl) with next := n.next + 1 }, sl)
    else none

/-- `check_compatibility_`; receiver.cpp:344-356, sender.cpp:377-389. -/
def Node.compatible (n : Node) (i : Iface) (proto : Nat) : Bool :=
  match n.used i with
  | none => true
  | some q => q == proto

/-- Ports of a slot to be removed, in order; receiver.cpp:404-413, sender.cpp:446-455. -/
def portActs (k : Nat) (sl : Slot) : List Iface → List Act
  | [] => []
  | i :: is =>
    match (sl.ports i).handle with
    | some g => .removePort (k, i, g) :: portActs k sl is
    | none => portActs k sl is

/-- The pipeline slot to be deleted; receiver.cpp:416-423, sender.cpp:436-443. -/
def slotActs (k : Nat) (sl : Slot) : List Act :=
  match sl.handle with
  | some h => [.deleteSlot (k, h)]
  | none => []

/-- Which node: they differ in the order of `cleanup_slot_` and in `bind` / `connect`. (Part of the model of roc_node/receiver.cpp:18-433, sender.cpp:18-542.) -/
inductive Kind | receiver | sender
  deriving DecidableEq, Repr

/-- `cleanup_slot_`: the receiver removes the ports first (receiver.cpp:402-424), the sender the
pipeline slot (sender.cpp:434-456). -/
def cleanup : Kind → Nat → Slot → List Act
  | .receiver, k, sl => portActs k sl ifaces ++ slotActs k sl
  | .sender, k, sl => slotActs k sl ++ portActs k sl ifaces

/-- Update of one port. (Part of the model of roc_node/receiver.cpp:18-433, sender.cpp:18-542.) -/
def Slot.setPort (sl : Slot) (i : Iface) (p : Port) : Slot :=
  { sl with ports := fun j => if j = i then p else sl.ports j }

/-- The pipeline slot accepts an endpoint: not for the consolidated interface and only once for
each other interface; receiver_slot.cpp:58-73, 128-131, 160-163, 192-195, sender_slot.cpp:60-85,
161-164, 196-199, 231-234. -/
def Slot.accepts (sl : Slot) (i : Iface) (e : Env) : Bool :=
  decide (i ≠ .consolidated) && !sl.ep i && e.ep

/-- Body of `Receiver::bind` on a slot that is not broken, from the check of the uri;
receiver.cpp:143-241.  Result: requests, slot, success (every failure goes to `break_slot_`). -/
def Slot.bind (sl : Slot) (k : Nat) (i : Iface) (e : Env) (compat : Bool) (g : Nat) :
    List Act × Slot × Bool :=
  if !e.uri || !compat || !e.resolve || !e.port then ([], sl, false)
  else
    let p : PortId := (k, i, g)
    let s : SlotId := (k, sl.handle.getD 0)
    let sl1 := sl.setPort i { sl.ports i with handle := some g }
    if decide (i = .control) && !e.send then ([.addPort p], sl1, false)
    else if !sl.accepts i e then ([.addPort p], sl1, false)
    else
      let sl2 := { sl1 with ep := fun j => if j = i then true else sl1.ep j }
      let as := .addPort p :: (if i = .control then [.send s p] else [])
      if !e.recv then (as, sl2, false)
      else (as ++ [.recv p s], sl2, true)

/-- `select_outgoing_port_`: which port of the slot an interface uses; sender.cpp:466-503. -/
def Slot.select (sl : Slot) (i : Iface) (family : Bool) : Iface :=
  if i ≠ .consolidated ∧ (sl.ports i).handle = none then
    match ifaces.find? fun j =>
        decide (j ≠ i) && (sl.ports j).handle.isSome
          && decide ((sl.ports j).orig = (sl.ports i).cfg)
          && decide ((sl.ports j).cfg.addr.map Prod.fst = some family) with
    | some j => j
    | none => i
  else i

/-- `setup_outgoing_port_`; sender.cpp:505-542: `none` - the configured address has another
family. -/
def Port.setup (p : Port) (family : Bool) : Option Port :=
  if p.cfg.addr.any (fun a => a.1 != family) then none
  else match p.handle with
    | some _ => some p
    | none =>
      let cfg := match p.cfg.addr with
        | none => { p.cfg with addr := some (family, 0) }
        | some _ => p.cfg
      some { p with orig := p.cfg, cfg := cfg }

/-- Body of `Sender::connect` on a slot that is not broken, from the check of the uri;
sender.cpp:142-245. -/
def Slot.connect (sl : Slot) (k : Nat) (i : Iface) (e : Env) (compat : Bool) (g : Nat) :
    List Act × Slot × Bool :=
  if !e.uri || !compat || !e.resolve then ([], sl, false)
  else
    let j := sl.select i e.family
    let s : SlotId := (k, sl.handle.getD 0)
    match (sl.ports j).setup e.family with
    | none => ([], sl, false)
    | some p1 =>
      -- open the port unless it is open
      let opened : Option (List Act × Port × Nat) := match p1.handle with
        | some h => some ([], p1, h)
        | none => if e.port then some ([.addPort (k, j, g)], { p1 with handle := some g }, g)
                  else none
      match opened with
      | none => ([], sl.setPort j p1, false)
      | some (as, p2, h) =>
        if !p2.writer && !e.send then (as, sl.setPort j p2, false)
        else
          let sl3 := sl.setPort j { p2 with writer := true }
          if !sl.accepts i e then (as, sl3, false)
          else
            let sl4 := { sl3 with ep := fun j => if j = i then true else sl3.ep j }
            let as := as ++ [.send s (k, j, h)]
            if decide (i = .control) && e.inbound then
              if !e.recv then (as, sl4, false)
              else (as ++ [.recv (k, j, h) s], sl4, true)
            else (as, sl4, true)

/-- Body of `bind` / `connect` of a node. (Part of the model of roc_node/receiver.cpp:18-433, sender.cpp:18-542.) -/
def Slot.attach : Kind → Slot → Nat → Iface → Env → Bool → Nat → List Act × Slot × Bool
  | .receiver => Slot.bind
  | .sender => Slot.connect

/-- A call of the public API (roc_node/receiver.h:50-76, sender.h:48-78). -/
inductive Op
  | configure (k : Nat) (i : Iface) (c : Cfg) (create : Bool)
  | attach (k : Nat) (i : Iface) (e : Env)
  | unlink (k : Nat)
  | query (k : Nat)
  deriving DecidableEq, Repr

/-- Result of a call: return value, or `abort` - `roc_panic`. (Part of the model of roc_node/receiver.cpp:18-433, sender.cpp:18-542.) -/
inductive Res | ok | failed | abort
  deriving DecidableEq, Repr

/-- `configure`; receiver.cpp:63-108, sender.cpp:62-107. -/
def Node.configure (kd : Kind) (n : Node) (k : Nat) (i : Iface) (c : Cfg) (create : Bool) :
    List Act × Node × Res :=
  match n.getSlot k create with
  | none => ([], n, .failed)
  | some (as, n1, sl) =>
    if sl.broken then (as, n1, .failed)
    else if (sl.ports i).handle.isSome then
      (as ++ cleanup kd k sl, n1.set k (some sl.broke), .failed)
    else (as, n1.set k (some (sl.setPort i { sl.ports i with cfg := c })), .ok)

/-- `Receiver::bind`, receiver.cpp:110-244, and `Sender::connect`, sender.cpp:109-248. -/
def Node.attach (kd : Kind) (n : Node) (k : Nat) (i : Iface) (e : Env) :
    List Act × Node × Res :=
  match n.getSlot k e.create with
  | none => ([], n, .failed)
  | some (as, n1, sl) =>
    if sl.broken then (as, n1, .failed)
    else
      let (bs, sl1, ok) := sl.attach kd k i e (n1.compatible i e.proto) n1.next
      if ok then
        (as ++ bs,
          { n1.set k (some sl1) with
            next := n1.next + 1, used := fun j => if j = i then some e.proto else n1.used j },
          .ok)
      else (as ++ bs ++ cleanup kd k sl1,
        { n1.set k (some sl1.broke) with next := n1.next + 1 }, .failed)

/-- `unlink`; receiver.cpp:246-266, sender.cpp:250-270. -/
def Node.unlink (kd : Kind) (n : Node) (k : Nat) : List Act × Node × Res :=
  match n.slot k with
  | none => ([], n, .failed)
  | some sl => (cleanup kd k sl, n.set k none, .ok)

/-- `get_metrics`; receiver.cpp:268-323, sender.cpp:272-327.  `QuerySlot` panics when the handle is
NULL (roc_pipeline/receiver_loop.cpp:51-63, sender_loop.cpp:52-64).  Allocation of the buffer of
metrics succeeds. -/
def Node.query (n : Node) (k : Nat) : List Act × Node × Res :=
  match n.slot k with
  | none => ([], n, .failed)
  | some sl => ([], n, if sl.handle.isSome then .ok else .abort)

/-- One call. (Part of the model of roc_node/receiver.cpp:18-433, sender.cpp:18-542.) -/
def Node.step (kd : Kind) (n : Node) : Op → List Act × Node × Res
  | .configure k i c create => n.configure kd k i c create
  | .attach k i e => n.attach kd k i e
  | .unlink k => n.unlink kd k
  | .query k => n.query k

/-- A history of calls: all requests and the final node. (Part of the model of roc_node/receiver.cpp:18-433, sender.cpp:18-542.) -/
def Node.run (kd : Kind) (n : Node) : List Op → List Act × Node
  | [] => ([], n)
  | o :: os =>
    let (as, n1, _) := n.step kd o
    let (bs, n2) := n1.run kd os
    (as ++ bs, n2)

/-- Destructor: `cleanup_slot_` for each slot of the map, in the order `ks`;
receiver.cpp:45-57, sender.cpp:44-56. -/
def Node.destroy (kd : Kind) (n : Node) : List Nat → List Act
  | [] => []
  | k :: ks =>
    match n.slot k with
    | none => n.destroy kd ks
    | some sl => cleanup kd k sl ++ (n.set k none).destroy kd ks

end Verif.NodeSlots
