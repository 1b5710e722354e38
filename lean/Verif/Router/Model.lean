/-!
# Packet router

Model of `src/internal_modules/roc_packet/router.cpp`. Flags are a bit mask (`BitVec 32`). A null packet
(panic, line 52) is excluded by typing; logging and the `queue_timestamp` update (58-60) are
not modelled. The result of a write says which route's writer got the packet.
-/

namespace Verif.Router

/-- The packet fields used by the router: flags, and `has_source_id()` / `source_id()`. (roc_packet/packet.h:31-169) -/
structure Pkt where
  flags : BitVec 32
  source : Option Nat
deriving DecidableEq, Repr

/-- `Router::Route` (roc_packet/router.h:65-79). -/
structure Route where
  flags : BitVec 32
  source : Nat
  hasSource : Bool
  isStarted : Bool
deriving DecidableEq, Repr

/-- Body of `Router::add_route` (router.cpp:22-33), successful allocation. -/
def addRoute (rs : List Route) (flags : BitVec 32) : List Route :=
  rs ++ [⟨flags, 0, false, false⟩]

/-- `Router::find_route_` (router.cpp:73-83), as an index. -/
def findRoute (rs : List Route) (flags : BitVec 32) : Option Nat :=
  rs.findIdx? (fun r => r.flags &&& flags == r.flags)

/-- `Router::allow_route_` (router.cpp:85-133): the answer and the updated route. -/
def allowRoute (r : Route) (p : Pkt) : Bool × Route :=
  match p.source with
  | some src =>
    if r.hasSource then (decide (r.source = src), r)
    else if r.isStarted then (false, r)
    else (true, { r with source := src, hasSource := true, isStarted := true })
  | none =>
    if r.hasSource then (false, r)
    else if ¬ r.isStarted then (true, { r with hasSource := false, isStarted := true })
    else (true, r)

/-- `Router::write` (router.cpp:51-71): index of the route that received the packet, or `none` when
it was dropped. -/
def write (rs : List Route) (p : Pkt) : Option Nat × List Route :=
  match findRoute rs p.flags with
  | none => (none, rs)
  | some i =>
    match rs[i]? with
    | none => (none, rs)
    | some r =>
      let (ok, r') := allowRoute r p
      if ok then (some i, rs.set i r') else (none, rs.set i r')

/-- `Router::has_source_id` (router.cpp:35-41) and `get_source_id` (router.cpp:43-49). -/
def sourceId (rs : List Route) (flags : BitVec 32) : Option Nat :=
  match findRoute rs flags with
  | none => none
  | some i => match rs[i]? with
    | none => none
    | some r => if r.hasSource then some r.source else none

/-- A client call: add a route or write a packet. (Part of the model of roc_packet/router.h:38-80.) -/
inductive Op where
  | add (flags : BitVec 32)
  | write (p : Pkt)
deriving DecidableEq, Repr

/-- One call: new route table and, for a written packet, where it went. (Part of the model of roc_packet/router.h:38-80.) -/
def step (rs : List Route) : Op → List Route × Option (Pkt × Option Nat)
  | .add f => (addRoute rs f, none)
  | .write p => ((write rs p).2, some (p, (write rs p).1))

/-- A sequence of calls from the empty router: final table and log of deliveries, oldest first. (Part of the model of roc_packet/router.h:38-80.) -/
def run : List Route → List Op → List Route × List (Pkt × Option Nat)
  | rs, [] => (rs, [])
  | rs, op :: ops =>
    let r := run (step rs op).1 ops
    (r.1, (step rs op).2.toList ++ r.2)

end Verif.Router
