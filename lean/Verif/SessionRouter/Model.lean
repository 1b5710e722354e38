/-!
# Session router and session group

Model of `src/internal_modules/roc_pipeline/receiver_session_router.cpp` and of the parts of `receiver_session_group.cpp` that create, find, and remove sessions.

Sources, CNAMEs, addresses and sessions are numbers; an empty address, an empty CNAME and a NULL session are `none`. A route has a number that is not reused (its address in memory).
A map is represented by the membership flags of the nodes in the routes: the key of a node is read from its route (receiver_session_router.h:150-235), and it does not change while the node is in the map.
`source_route_map_` has the nodes of the lists `source_nodes`. A panic is `none`. Allocation succeeds.
-/

namespace Verif.SessionRouter

/-- `Route` (receiver_session_router.h:250-282). `inA`, `inC`, `inS`: `address_node`, `cname_node`, `session_node` are members of their maps. -/
structure Route where
  id : Nat
  sess : Option Nat
  addr : Option Nat
  cname : Option Nat
  main : Option Nat
  sources : List Nat
  inA : Bool
  inC : Bool
  inS : Bool
deriving DecidableEq

/-- `ReceiverSessionRouter` (receiver_session_router.h:297-313). -/
structure St where
  routes : List Route
  fresh : Nat
deriving DecidableEq

/-- Constructor (receiver_session_router.cpp:19-26). -/
def St.init : St := ⟨[], 0⟩

/-- `StatusCode`s that are returned when allocation succeeds (receiver_session_router.cpp:77, 82, 117). -/
inductive Status
  | ok
  | conflict
deriving DecidableEq

/-- A route by its pointer (receiver_session_router.cpp:87). -/
def St.get (s : St) (i : Nat) : Option Route := s.routes.find? fun r => r.id = i

/-- Assignment to members of a route (as in receiver_session_router.cpp:101). -/
def St.set (s : St) (i : Nat) (f : Route → Route) : St := { s with routes := s.routes.map fun r => if r.id = i then f r else r }

/-- `source_route_map_.find` (receiver_session_router.cpp:37). -/
def St.bySrc (s : St) (x : Nat) : Option Route := s.routes.find? fun r => r.sources.contains x

/-- `address_route_map_.find` (receiver_session_router.cpp:49). -/
def St.byAddr (s : St) (a : Option Nat) : Option Route := s.routes.find? fun r => r.inA && decide (r.addr = a)

/-- `cname_route_map_.find` (receiver_session_router.cpp:161). -/
def St.byCname (s : St) (c : Option Nat) : Option Route := s.routes.find? fun r => r.inC && decide (r.cname = c)

/-- `session_route_map_.find` (receiver_session_router.cpp:60). -/
def St.bySess (s : St) (z : Option Nat) : Option Route := s.routes.find? fun r => r.inS && decide (r.sess = z)

/-- `find_by_source` (receiver_session_router.cpp:37-44). -/
def St.findBySource (s : St) (x : Nat) : Option Nat := (s.bySrc x).bind (·.sess)

/-- `find_by_address` (receiver_session_router.cpp:47-56); the address is not empty. -/
def St.findByAddress (s : St) (a : Nat) : Option Nat := (s.byAddr (some a)).bind (·.sess)

/-- `has_session` (receiver_session_router.cpp:58-62). -/
def St.hasSession (s : St) (z : Nat) : Bool := (s.bySess (some z)).isSome

/-- `address_route_map_.insert(route.address_node)`: panics if the node is in the map, or the key is (hashmap_impl.cpp:127-135). -/
def St.insA (s : St) (i : Nat) : Option St :=
  match s.get i with
  | none => none
  | some r => if r.inA then none else if (s.byAddr r.addr).isSome then none else some (s.set i fun r => { r with inA := true })

/-- `cname_route_map_.insert(route.cname_node)`. (receiver_session_router.cpp:225, 392) -/
def St.insC (s : St) (i : Nat) : Option St :=
  match s.get i with
  | none => none
  | some r => if r.inC then none else if (s.byCname r.cname).isSome then none else some (s.set i fun r => { r with inC := true })

/-- `session_route_map_.insert(route.session_node)`. (receiver_session_router.cpp:111, 414, 499) -/
def St.insS (s : St) (i : Nat) : Option St :=
  match s.get i with
  | none => none
  | some r => if r.inS then none else if (s.bySess r.sess).isSome then none else some (s.set i fun r => { r with inS := true })

/-- A new source node of a route: `source_nodes.push_back`, `source_route_map_.insert` (receiver_session_router.cpp:252-260, 365-371). -/
def St.insSrc (s : St) (i x : Nat) : Option St :=
  if (s.bySrc x).isSome then none else some (s.set i fun r => { r with sources := r.sources ++ [x] })

/-- Removal of a source node (receiver_session_router.cpp:290-291, 316-317). -/
def St.delSrc (s : St) (i x : Nat) : St := s.set i fun r => { r with sources := r.sources.filter (· ≠ x) }

/-- `remove_route_` (receiver_session_router.cpp:424-458): all nodes leave the maps. -/
def St.removeRoute (s : St) (i : Nat) : St := { s with routes := s.routes.filter fun r => r.id ≠ i }

/-- `collect_route_` (receiver_session_router.cpp:507-516). -/
def St.collect (s : St) (i : Nat) : St :=
  match s.get i with
  | none => s
  | some r => if r.sources = [] then s.removeRoute i else s

/-- The address of a route is set and put into the map, if it is not empty (receiver_session_router.cpp:100-108, 396-404). -/
def St.putA (s : St) (i : Nat) (a : Option Nat) : Option St :=
  if a.isSome then (s.set i fun r => { r with addr := a }).insA i else some s

/-- The same for the CNAME (receiver_session_router.cpp:383-393). -/
def St.putC (s : St) (i : Nat) (c : Option Nat) : Option St :=
  if c.isSome then (s.set i fun r => { r with cname := c }).insC i else some s

/-- The same for the session (receiver_session_router.cpp:110-116, 407-415). -/
def St.putS (s : St) (i : Nat) (z : Option Nat) : Option St :=
  if z.isSome then (s.set i fun r => { r with sess := z }).insS i else some s

/-- `create_route_` (receiver_session_router.cpp:351-421). -/
def St.create (s : St) (x : Nat) (a c z : Option Nat) : Option St :=
  ((({ routes := s.routes ++ [⟨s.fresh, none, none, none, none, [], false, false, false⟩], fresh := s.fresh + 1 : St }.insSrc s.fresh x).bind fun s1 =>
    (s1.set s.fresh fun r => { r with main := some x }).putC s.fresh c).bind fun s2 =>
    s2.putA s.fresh a).bind fun s3 => s3.putS s.fresh z

/-- `unlink_source` (receiver_session_router.cpp:267-298). -/
def St.unlink (s : St) (x : Nat) : St :=
  match s.bySrc x with
  | none => s
  | some r =>
    let s := s.delSrc r.id x
    let s := if r.main = some x then s.set r.id fun r => { r with main := none } else s
    s.collect r.id

/-- `add_session` (receiver_session_router.cpp:65-133). -/
def St.add (s : St) (z x : Nat) (a : Option Nat) : Option (St × Status) :=
  if a.isSome ∧ (s.byAddr a).isSome then some (s, .conflict)
  else if (s.bySess (some z)).isSome then some (s, .conflict)
  else
    match s.bySrc x with
    | some r =>
      if r.addr = none ∧ r.sess = none then
        ((s.putA r.id a).bind fun s => s.putS r.id (some z)).map fun s => (s, .ok)
      else ((s.unlink x).create x a none (some z)).map fun s => (s, .ok)
    | none => (s.create x a none (some z)).map fun s => (s, .ok)

/-- `remove_session` (receiver_session_router.cpp:134-150). -/
def St.remove (s : St) (z : Nat) : St :=
  match s.bySess (some z) with
  | none => s
  | some r => s.removeRoute r.id

/-- First half of `move_route_session_` (receiver_session_router.cpp:472-488): the address. -/
def St.moveA (s : St) (i j : Nat) : Option St :=
  let s := (s.set i fun r => { r with inA := false }).set j fun r => { r with inA := false }
  let a := (s.get i).bind (·.addr)
  ((s.set j fun r => { r with addr := a }).set i fun r => { r with addr := none }).insA j

/-- Second half of `move_route_session_` (receiver_session_router.cpp:490-505): the session. -/
def St.moveS (s : St) (i j : Nat) : Option St :=
  let s := (s.set i fun r => { r with inS := false }).set j fun r => { r with inS := false }
  let z := (s.get i).bind (·.sess)
  ((s.set j fun r => { r with sess := z }).set i fun r => { r with sess := none }).insS j

/-- The session and the address follow the main source (receiver_session_router.cpp:325-343). -/
def St.moveMain (s : St) (old x : Nat) : Option St :=
  match s.get old with
  | none => none
  | some o =>
    if o.main = some x then
      match s.bySrc x with
      | none => none
      | some n => ((s.moveA old n.id).bind fun s => s.moveS old n.id).map fun s =>
          (s.set n.id fun r => { r with main := some x }).set old fun r => { r with main := none }
    else some s

/-- `link_source` for a source without a route (receiver_session_router.cpp:166-175, 236-265). -/
def St.linkNew (s : St) (x c : Nat) : Option St :=
  match s.byCname (some c) with
  | none => s.create x none (some c) none
  | some r => s.insSrc r.id x

/-- `relink_source_` (receiver_session_router.cpp:301-343); `old` is the route of the source. It calls `link_source` when the source has no route. -/
def St.relink (s : St) (old x c : Nat) : Option St :=
  (((s.delSrc old x).linkNew x c).bind fun s => s.moveMain old x).map fun s => s.collect old

/-- `link_source` (receiver_session_router.cpp:152-265); an empty CNAME (`none`) panics. -/
def St.link (s : St) (x : Nat) : Option Nat → Option St
  | none => none
  | some c =>
    match s.bySrc x, s.byCname (some c) with
    | none, _ => s.linkNew x c
    | some r, some q => if r.id = q.id then some s else s.relink r.id x c
    | some r, none => if r.cname.isSome then s.relink r.id x c else (s.set r.id fun r => { r with cname := some c }).insC r.id

/-- Calls of the router. (Part of the model of roc_pipeline/receiver_session_router.cpp:19-518.) -/
inductive Op
  | add (z x : Nat) (a : Option Nat)
  | remove (z : Nat)
  | link (x : Nat) (c : Option Nat)
  | unlink (x : Nat)
deriving DecidableEq

/-- One call. (Part of the model of roc_pipeline/receiver_session_router.cpp:19-518.) -/
def St.call (s : St) : Op → Option (St × Status)
  | .add z x a => s.add z x a
  | .remove z => some (s.remove z, .ok)
  | .link x c => (s.link x c).map fun s => (s, .ok)
  | .unlink x => some (s.unlink x, .ok)

/-! ## Session group -/

/-- `ReceiverSessionGroup` (receiver_session_group.h): its router and the list `sessions_` (whose elements are the inputs of the mixer). (roc_pipeline/receiver_session_group.h:48-157) -/
structure Group where
  router : St
  sessions : List Nat
deriving DecidableEq

/-- `remove_session_` (receiver_session_group.cpp:415-423): `mixer_.remove_input` and `sessions_.remove` panic if the session is not there. -/
def Group.removeSession (g : Group) (z : Nat) : Option Group :=
  if z ∈ g.sessions then some ⟨g.router.remove z, g.sessions.filter (· ≠ z)⟩ else none

/-- `old_sess && !session_router_.has_session(old_sess)` (receiver_session_group.cpp:251-255, 273-277). -/
def Group.drop (g : Group) : Option Nat → Option Group
  | none => some g
  | some z => if g.router.hasSession z then some g else g.removeSession z

/-- `notify_recv_stream` (receiver_session_group.cpp:232-264). -/
def Group.notify (g : Group) (x : Nat) (c : Option Nat) : Option Group := do
  let old := g.router.findBySource x
  let r ← g.router.link x c
  Group.drop { g with router := r } old

/-- `halt_recv_stream` (receiver_session_group.cpp:266-278). -/
def Group.halt (g : Group) (x : Nat) : Option Group :=
  Group.drop { g with router := g.router.unlink x } (g.router.findBySource x)

/-- The session to which a packet is routed (receiver_session_group.cpp:284-308); `x` is its source if it has one, `a` the address of its sender. Routing is enabled. -/
def Group.target (g : Group) (x : Option Nat) (a : Nat) : Option Nat :=
  match x.bind g.router.findBySource with
  | some z => some z
  | none => g.router.findByAddress a

/-- `route_transport_packet_` (receiver_session_group.cpp:280-328) and `create_session_` (receiver_session_group.cpp:351-413): `z` is the new session if one is created;
`repair`: the packet has no RTP header, or is a repair packet, so that no session is created. A source packet has a source. -/
def Group.packet (g : Group) (x a z : Nat) (repair : Bool) : Option Group :=
  match g.target (if repair then none else some x) a with
  | some _ => some g
  | none =>
    if repair then some g
    else do
      let r ← g.router.add z x (some a)
      match r.2 with
      | .ok => some ⟨r.1, g.sessions ++ [z]⟩
      | .conflict => some { g with router := r.1 }

/-- What happens to the group: a packet, a report, the end of a stream, the end of a session (`refresh_sessions`, `reclock_sessions`). (roc_pipeline/receiver_session_group.h:48-157) -/
inductive GOp
  | packet (x a z : Nat) (repair : Bool)
  | notify (x : Nat) (c : Option Nat)
  | halt (x : Nat)
  | ended (z : Nat)
deriving DecidableEq

/-- One event. (roc_pipeline/receiver_session_group.h:48-157) -/
def Group.call (g : Group) : GOp → Option Group
  | .packet x a z rep => g.packet x a z rep
  | .notify x c => g.notify x c
  | .halt x => g.halt x
  | .ended z => g.removeSession z

end Verif.SessionRouter
