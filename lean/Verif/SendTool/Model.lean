import Verif.SenderSlots.Model

/-!
# Endpoints on the command line of `roc-send`: model

Models the part of `main` of `roc-send` (tools/roc_send/main.cpp) that chooses the FEC scheme, checks the numbers of packets in a block and of
endpoints, and connects the slots, with `Sender::configure`, `Sender::connect` and `Sender::has_incomplete` (roc_node/sender.cpp). The
pipeline behind the node is `Verif.SenderSlots`.

Not modelled: other options, and opening of the input; they are valid. URIs are parsed (`Verif.EndpointUri`): only the protocol is kept, and
whether the host is a multicast address. Ports of the node are in `Verif.NodeSlots`; here their creation succeeds or not, as the environment
says. After the first failure the program returns, so broken slots are not used again (sender.cpp:84-91, 132-139), and every
interface of a slot is configured once (:93-101).
-/

namespace Verif.SendTool

open ApiConfig (Iface Proto Fec)
open EncoderApi (protoIface protoFec)
open SenderSlots (Sink Slot Conf Ev Log)

/-- A URI on the command line: nothing if it cannot be parsed (main.cpp:117-122, 358-364). -/
abbrev Uri := Option (Proto × Bool)

/-- Options (main.cpp:116-153, 336-355): values of `--nbsrc` and `--nbrpr`, URIs of `--source`, `--repair`, `--control`. -/
structure Args where
  nbsrc : Option Int
  nbrpr : Option Int
  sources : List Uri
  repairs : List Uri
  controls : List Uri

/-- Environment of `configure` and `connect` for one interface of one slot: the slot can be allocated in the pipeline and in the node (sender.cpp:402-425), its
identity can be generated, the address is resolved and the port is ready (:160-217), the pipeline can be constructed, receiving on the port
can be started (:231-243). -/
structure CallEnv where
  slot : Bool
  identity : Bool
  node : Bool
  port : Bool
  add : SenderSlots.Env
  recv : Bool

/-- `Sender` (roc_node/sender.h): the pipeline, `slot_map_` (handle of the slot in the pipeline), `used_interfaces_` and `used_protocols_`. (roc_node/sender.h:153-156) -/
structure Node where
  sink : Sink
  slot : Nat → Option Nat
  used : Iface → Option Proto

/-- A new node (sender.cpp:17-43). -/
def Node.init : Node := ⟨.init, fun _ => none, fun _ => none⟩

/-- Outcome: the call succeeds, the program returns 1, the process aborts. (Part of the model of tools/roc_send/main.cpp:116-433.) -/
inductive Out (α : Type) where
  | ok (x : α)
  | exit
  | abort

/-- `get_slot_` with `auto_create` (sender.cpp:397-432), called by `configure` first (:75). -/
def Node.getSlot (c : Conf) (n : Node) (k : Nat) (e : CallEnv) : Out (Node × Nat) :=
  match n.slot k with
  | some id => .ok (n, id)
  | none =>
    match n.sink.step c (.create e.slot e.identity) with
    | .ok t (.created id) => if e.node then .ok ({ n with sink := t, slot := SenderSlots.upd n.slot k (some id) }, id) else .exit
    | .ok _ _ => .exit
    | _ => .abort

/-- `check_compatibility_` (sender.cpp:377-389). -/
def Node.compatible (n : Node) (i : Iface) (p : Proto) : Bool :=
  match n.used i with
  | none => true
  | some q => decide (q = p)

/-- `update_compatibility_` (sender.cpp:391-395). -/
def Node.use (n : Node) (i : Iface) (p : Proto) : Node := { n with used := fun j => if j = i then some p else n.used j }

/-- One pass of a loop over endpoints (main.cpp:357-378, 380-401, 403-425): the URI is parsed, then `configure` (sender.cpp:62-107) and
`connect` (:109-248) are called. -/
def Node.connect (c : Conf) (n : Node) (k : Nat) (i : Iface) (u : Uri) (e : CallEnv) : Out Node :=
  match u with
  | none => .exit
  | some (p, mc) =>
    match n.getSlot c k e with
    | .abort => .abort
    | .exit => .exit
    | .ok (n, id) =>
      if n.compatible i p = false then .exit
      else if e.port = false then .exit
      else match n.sink.step c (.add id i p mc e.add) with
        | .ok t (.added _ _ _ _) =>
          if i = .audioControl ∧ e.recv = false then .exit
          else .ok (Node.use { n with sink := t } i p)
        | .ok _ _ => .exit
        | _ => .abort

/-- Loop over the endpoints of an interface, from slot `k` on (main.cpp:357-425). -/
def Node.loop (c : Conf) (i : Iface) (env : Nat → CallEnv) : Node → Nat → List Uri → Out Node
  | n, _, [] => .ok n
  | n, k, u :: us =>
    match n.connect c k i u (env k) with
    | .ok n => Node.loop c i env n (k + 1) us
    | .exit => .exit
    | .abort => .abort

/-- `has_incomplete` (sender.cpp:329-354) for the slots below `k`. -/
def Node.incomplete (n : Node) : Nat → Bool
  | 0 => false
  | k + 1 =>
    (match n.slot k with
      | some id => !(n.sink.slot id).writer
      | none => false) || n.incomplete k

/-- FEC scheme of the configuration (main.cpp:116-129; default codec_config.h:36); nothing: the first URI cannot be parsed. -/
def scheme (us : List Uri) : Option Fec :=
  match us with
  | [] => some .none
  | none :: _ => none
  | some (p, _) :: _ => some (if protoIface p = none then .none else protoFec p)

/-- Check of `--nbsrc` and `--nbrpr` (main.cpp:131-141, 143-153). -/
def blockOk (f : Fec) (v : Option Int) : Bool :=
  match v with
  | none => true
  | some x => decide (f ≠ .none) && decide (0 < x)

/-- `main` (main.cpp:116-153, 336-433), `supp`: FEC schemes that were compiled in. `ok` means that the pump is created next. -/
def main (supp : Fec → Bool) (a : Args) (env : Iface → Nat → CallEnv) : Out Node :=
  match scheme a.sources with
  | none => .exit
  | some f =>
    if blockOk f a.nbsrc = false ∨ blockOk f a.nbrpr = false then .exit
    else if a.sources.length = 0 then .exit
    else if a.repairs.length ≠ 0 ∧ a.repairs.length ≠ a.sources.length then .exit
    else if a.controls.length ≠ 0 ∧ a.controls.length ≠ a.sources.length then .exit
    else match Node.loop ⟨supp, f⟩ .audioSource (env .audioSource) .init 0 a.sources with
      | .exit => .exit
      | .abort => .abort
      | .ok n => match Node.loop ⟨supp, f⟩ .audioRepair (env .audioRepair) n 0 a.repairs with
        | .exit => .exit
        | .abort => .abort
        | .ok n => match Node.loop ⟨supp, f⟩ .audioControl (env .audioControl) n 0 a.controls with
          | .exit => .exit
          | .abort => .abort
          | .ok n => if n.incomplete a.sources.length then .exit else .ok n

end Verif.SendTool
