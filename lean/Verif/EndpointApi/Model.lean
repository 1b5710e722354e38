import Verif.EndpointUri.Model

/-!
# Public API of endpoints: model

Models `public_api/src/endpoint.cpp`: setters and getters of `roc_endpoint`. The operations of `EndpointUri` are those of
`Verif.EndpointUri`; here the parser also says in which state it leaves the URI when it fails. C strings are lists of bytes,
`none` is NULL. A protocol that is not known is `none`.

Not modelled: a NULL endpoint, or NULL for an output other than the buffer (-1 is returned and nothing else is done); failures
of memory allocation.
-/

namespace Verif.EndpointApi

open Verif.Pct (Byte ch isDigit)
open Verif.EndpointUri (Proto Uri Subset St Act Env edges atEof actOrder findScheme strtol toInt32 str)

/-- An action of the parser (endpoint_uri_parse.rl:47-116), like `EndpointUri.exec`: the variables after it, and false for
`return false`. -/
def exec (sub : Subset) (done rest : List Byte) (e : Env) : Act → Env × Bool
  | .protoStart | .hostStart | .portStart | .pathStart | .queryStart => ({ e with start := done.length }, true)
  | .setProto =>
    if done.length - e.start ≥ 16 then (e, false)
    else
      match findScheme (done.drop e.start) with
      | none => (e, false)
      | some p => ({ e with uri := e.uri.setProto p }, true)
  | .setHost =>
    if sub ≠ .full then (e, false)
    else
      let r := e.uri.setHost (done.drop e.start)
      ({ e with uri := r.1 }, r.2)
  | .setPort =>
    if sub ≠ .full then (e, false)
    else
      let r := strtol ((done ++ rest).drop e.start)
      if r.1 = 2 ^ 63 - 1 ∨ r.1 = -2 ^ 63 ∨ e.start + r.2 ≠ done.length then (e, false)
      else
        let r := e.uri.setPort (toInt32 r.1)
        ({ e with uri := r.1 }, r.2)
  | .setPath =>
    let r := e.uri.setEncodedPath (done.drop e.start)
    ({ e with uri := r.1 }, r.2)
  | .setQuery => ({ e with uri := e.uri.setQuery (done.drop e.start) }, true)

/-- Actions one after another, until one fails. (Part of the model of public_api/src/endpoint.cpp:19-282.) -/
def execList (sub : Subset) (done rest : List Byte) : List Act → Env → Env × Bool
  | [], e => (e, true)
  | a :: as, e =>
    match exec sub done rest e a with
    | (e, true) => execList sub done rest as e
    | (e, false) => (e, false)

/-- Actions in the order of the generated parser (endpoint_uri_parse.rl:118-128). -/
def execAll (sub : Subset) (done rest : List Byte) (acts : List Act) (e : Env) : Env × Bool :=
  execList sub done rest (actOrder.filter fun a => decide (a ∈ acts)) e

/-- The generated parser (endpoint_uri_parse.rl:118-138), like `EndpointUri.run`: the variables at the end, and whether it
succeeded. -/
def run (sub : Subset) : List St → Env → List Byte → List Byte → Env × Bool
  | ts, e, done, [] =>
    let fin := ts.filterMap atEof
    if fin = [] then (e, false) else execAll sub done [] fin.flatten e
  | ts, e, done, c :: rest =>
    let moves := (ts.map (edges · c)).flatten
    if moves = [] then (e, false)
    else
      match execAll sub done (c :: rest) (moves.map (·.2)).flatten e with
      | (e, false) => (e, false)
      | (e, true) => run sub (moves.map (·.1)) e (done ++ [c]) rest

/-- `parse_endpoint_uri` (endpoint_uri_parse.rl:24-171). -/
def parse (u : Uri) (sub : Subset) (s : Option (List Byte)) : Uri × Bool :=
  match s with
  | none => (u.invalidate sub, false)
  | some s =>
    match run sub [.start] ⟨0, u.clear sub⟩ [] s with
    | (e, false) => (e.uri.invalidate sub, false)
    | (e, true) => if e.uri.verify sub then (e.uri, true) else (e.uri.invalidate sub, false)

/-- Setters of the API. (Part of the model of public_api/src/endpoint.cpp:19-282.) -/
inductive Call where
  | setUri (s : Option (List Byte))
  | setProtocol (p : Option Proto)
  | setHost (s : Option (List Byte))
  | setPort (port : Int)
  | setResource (s : Option (List Byte))
  deriving DecidableEq

/-- A setter (endpoint.cpp:37-132); true for the result zero. -/
def step (u : Uri) : Call → Uri × Bool
  | .setUri s => parse u .full s
  | .setProtocol none => ({ u with badProto := true }, false) -- endpoint_uri.cpp:169-172
  | .setProtocol (some p) => (u.setProto p, true)
  | .setHost none => ({ u with badHost := true }, false) -- endpoint_uri.cpp:219-222
  | .setHost (some s) => u.setHost s
  | .setPort port => u.setPort port
  | .setResource none => (u.clear .resource, true)
  | .setResource (some s) => parse u .resource (some s)

/-- The endpoint after some setters, from `roc_endpoint_allocate` (endpoint.cpp:19-35) on. -/
def after (cs : List Call) : Uri := cs.foldl (fun u c => (step u c).1) Uri.init

/-- `roc_sender_connect` and `roc_receiver_bind` do not refuse the endpoint (roc_node/sender.cpp:142-148,
receiver.cpp:143-151). -/
def accepted (u : Uri) : Bool := u.verify .full

/-- `roc_endpoint_get_protocol` (endpoint.cpp:167-194, endpoint_uri.cpp:195-202). -/
def getProtocol (u : Uri) : Option Proto := if u.badProto then none else u.proto

/-- `roc_endpoint_get_port` (endpoint.cpp:228-247, endpoint_uri.cpp:294-301). -/
def getPort (u : Uri) : Option Int := if u.badPort ∨ u.port = -1 then none else some u.port

/-- What is appended to the destination, piece by piece, and whether the formatting succeeds. (Part of the model of public_api/src/endpoint.cpp:19-282.) -/
abbrev Pieces := List (List Byte) × Bool

/-- `format_host` (endpoint_uri.cpp:249-255). -/
def hostPieces (u : Uri) : Pieces := if u.badHost then ([], false) else ([u.host], true)

/-- Path and query (endpoint_uri_format.cpp:44-58, roc_address/pct.cpp:118-153). -/
def tailPieces (u : Uri) : Pieces :=
  let path : Pieces :=
    if u.path = [] then ([], true)
    else ((Pct.encode .nonPath u.path).2.map fun c => [c], (Pct.encode .nonPath u.path).1)
  if path.2 = false then path
  else if u.query = [] then path
  else (path.1 ++ [str "?", u.query], true)

/-- `format_endpoint_uri` (endpoint_uri_format.cpp:16-60). -/
def uriPieces (u : Uri) (sub : Subset) : Pieces :=
  if !u.verify sub then ([], false)
  else match sub with
    | .resource => if u.path = [] ∧ u.query = [] then ([], false) else tailPieces u
    | .full =>
      match u.proto with
      | none => ([], false)
      | some p =>
        let head := [p.scheme, str "://", u.host] ++
          (if u.port ≥ 0 then [str ":", (StringBuilder.uintChars u.port.toNat 10).getD []] else [])
        (head ++ (tailPieces u).1, (tailPieces u).2)

/-- What a getter with a buffer returns: zero or not, the buffer, the size. (Part of the model of public_api/src/endpoint.cpp:19-282.) -/
structure Got where
  ok : Bool
  buf : Option (List Byte)
  size : Nat
  deriving DecidableEq

/-- A getter with a buffer (endpoint.cpp:134-165, 196-226, 249-282); nothing: undefined behaviour. -/
def get (p : Pieces) (buf : Option (List Byte)) (size : Nat) : Option Got :=
  match StringBuilder.init buf size with
  | none => none
  | some b =>
    match StringBuilder.run b (p.1.map StringBuilder.Op.append) with
    | none => none
    | some b =>
      if p.2 = false then some ⟨false, b.buf, size⟩
      else some ⟨StringBuilder.isOk b, b.buf, StringBuilder.neededSize b⟩

end Verif.EndpointApi
