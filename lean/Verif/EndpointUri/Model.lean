import Verif.Pct.Model
import Verif.StringBuilder.Model

/-!
# Endpoint URI

Model of `src/internal_modules/roc_address/endpoint_uri.cpp`, `endpoint_uri_parse.rl`, `endpoint_uri_format.cpp`.

The parser is generated by Ragel from a regular expression with actions. It runs all threads of the
expression at once over shared variables: `edges` gives the moves of one thread and the actions
embedded in them, `run` moves the set of threads and executes the union of the actions in Ragel's
order, which is the order in which the actions appear in the expression. An entering action of a
part that may be empty is also a leaving action (Ragel, `FsmAp::startFsmAction`).

Not modelled: failures of memory allocation; the destination buffer of the formatter (C50); NULL
arguments.
-/

namespace Verif.EndpointUri

open Verif.Pct (Byte ch isDigit)

/-- `Protocol` (roc_address/protocol.h) without `Proto_None`. (roc_address/protocol.h:19-43) -/
inductive Proto where
  | rtsp | rtp | rtpRs8m | rs8m | rtpLdpc | ldpc | rtcp
deriving DecidableEq, Repr

/-- All of them, in the order of the enumeration. (roc_address/protocol.h:19-43) -/
def Proto.all : List Proto := [.rtsp, .rtp, .rtpRs8m, .rs8m, .rtpLdpc, .ldpc, .rtcp]

/-- A string literal. (Part of the model of roc_address/endpoint_uri_parse.rl:24-171.) -/
def str (s : String) : List Byte := s.toList.map ch

/-- `scheme_name` (protocol_map.cpp:15-86). -/
def Proto.scheme : Proto → List Byte
  | .rtsp => str "rtsp"
  | .rtp => str "rtp"
  | .rtpRs8m => str "rtp+rs8m"
  | .rs8m => str "rs8m"
  | .rtpLdpc => str "rtp+ldpc"
  | .ldpc => str "ldpc"
  | .rtcp => str "rtcp"

/-- `default_port` (protocol_map.cpp:15-86). -/
def Proto.defaultPort : Proto → Int
  | .rtsp => 554
  | _ => -1

/-- `path_supported` (protocol_map.cpp:15-86). -/
def Proto.pathSupported : Proto → Bool
  | .rtsp => true
  | _ => false

/-- `find_by_scheme` (protocol_map.cpp:104-122). -/
def findScheme (s : List Byte) : Option Proto := Proto.all.find? fun p => decide (p.scheme = s)

/-- Fields of `EndpointUri` (endpoint_uri.h:149-158). The bits of `invalid_parts_` are the flags
`bad...`; `service` is the number whose decimal digits are in `service_`. -/
structure Uri where
  badProto : Bool
  badHost : Bool
  badPort : Bool
  badPath : Bool
  badQuery : Bool
  proto : Option Proto
  host : List Byte
  port : Int
  service : Option Int
  path : List Byte
  query : List Byte
deriving DecidableEq, Repr

/-- `Subset` (endpoint_uri.h:30-33). -/
inductive Subset where
  | full | resource
deriving DecidableEq, Repr

/-- Constructor (endpoint_uri.cpp:28-34). -/
def Uri.init : Uri := ⟨true, true, true, false, false, none, [], -1, none, [], []⟩

/-- `clear` (endpoint_uri.cpp:141-159). -/
def Uri.clear (u : Uri) : Subset → Uri
  | .full => Uri.init
  | .resource => { u with badPath := false, path := [], badQuery := false, query := [] }

/-- `invalidate` (endpoint_uri.cpp:161-166). -/
def Uri.invalidate (u : Uri) : Subset → Uri
  | .full => { u with badProto := true, badHost := true, badPort := true, badPath := true, badQuery := true }
  | .resource => { u with badPath := true, badQuery := true }

/-- `set_proto` (endpoint_uri.cpp:168-186, 437-449). -/
def Uri.setProto (u : Uri) (p : Proto) : Uri :=
  let u := { u with proto := some p }
  let u :=
    if u.port = -1 then
      if p.defaultPort ≤ 0 then { u with badPort := true }
      else { u with service := some p.defaultPort, badPort := false }
    else u
  { u with badProto := false }

/-- `set_host` (endpoint_uri.cpp:227-240): false for the empty string. -/
def Uri.setHost (u : Uri) (s : List Byte) : Uri × Bool :=
  if s = [] then ({ u with host := s, badHost := true }, false) else ({ u with host := s, badHost := false }, true)

/-- `set_port` (endpoint_uri.cpp:257-285, 429-449). -/
def Uri.setPort (u : Uri) (port : Int) : Uri × Bool :=
  if port = -1 then
    let u := { u with port := -1 }
    match u.badProto, u.proto with
    | false, some p =>
      if p.defaultPort ≤ 0 then ({ u with badPort := true }, true)
      else ({ u with service := some p.defaultPort, badPort := false }, true)
    | _, _ => ({ u with badPort := true }, true)
  else if port < 0 ∨ port > 65535 then ({ u with badPort := true }, false)
  else ({ u with port := port, service := some port, badPort := false }, true)

/-- `set_path` (endpoint_uri.cpp:310-334). -/
def Uri.setPath (u : Uri) (s : List Byte) : Uri := { u with path := s, badPath := false }

/-- `set_encoded_path` (endpoint_uri.cpp:346-372). -/
def Uri.setEncodedPath (u : Uri) (s : List Byte) : Uri × Bool :=
  if s.length < 1 then ({ u with path := [], badPath := false }, true)
  else
    match Pct.decode s with
    | (true, d) => ({ u with path := d, badPath := false }, true)
    | (false, d) => ({ u with path := d, badPath := true }, false)

/-- `set_encoded_query` (endpoint_uri.cpp:398-412). -/
def Uri.setQuery (u : Uri) (s : List Byte) : Uri := { u with query := s, badQuery := false }

/-- `verify` (endpoint_uri.cpp:92-139). -/
def Uri.verify (u : Uri) : Subset → Bool
  | .resource => !(u.badPath || u.badQuery)
  | .full =>
    if u.badProto || u.badHost || u.badPort || u.badPath || u.badQuery then false
    else if u.service.isNone then false
    else
      match u.proto with
      | none => false
      | some p =>
        if u.port < 0 ∧ p.defaultPort < 0 then false
        else if !p.pathSupported && !(u.path.isEmpty && u.query.isEmpty) then false
        else true

/-- `is_equal` (endpoint_uri.cpp:36-62): all parts of both are valid and the same (the accessors give
the stored values then; an absent path or query is the empty string). -/
def Uri.isEqual (u v : Uri) : Bool :=
  !(u.badProto || u.badHost || u.badPort || u.badPath || u.badQuery) &&
    !(v.badProto || v.badHost || v.badPort || v.badPath || v.badQuery) &&
    decide (u.proto = v.proto) && decide (u.host = v.host) && decide (u.port = v.port) && decide (u.path = v.path) &&
    decide (u.query = v.query)

/-- `format_encoded_path` (endpoint_uri.cpp:381-386, endpoint_uri_format.cpp), nothing for an empty path. -/
def Uri.formatPath (u : Uri) : Option (List Byte) :=
  if u.path = [] then some []
  else match Pct.encode .nonPath u.path with
    | (true, e) => some e
    | (false, _) => none

/-- `format_endpoint_uri` (endpoint_uri_format.cpp:16-60); `none` for the result false. -/
def Uri.format (u : Uri) (sub : Subset) : Option (List Byte) :=
  if !u.verify sub then none
  else
    let head : Option (List Byte) :=
      match sub with
      | .resource => some []
      | .full =>
        match u.proto with
        | none => none
        | some p =>
          if u.port ≥ 0 then
            (Verif.StringBuilder.uintChars u.port.toNat 10).map fun d => p.scheme ++ str "://" ++ u.host ++ str ":" ++ d
          else some (p.scheme ++ str "://" ++ u.host)
    match head with
    | none => none
    | some head =>
      if sub = .resource ∧ u.path = [] ∧ u.query = [] then none
      else
        match u.formatPath with
        | none => none
        | some path => some (head ++ path ++ (if u.query = [] then [] else str "?" ++ u.query))

/-- `[a-z0-9+]` (endpoint_uri_parse.rl:118). -/
def isProtoChar (c : Byte) : Bool := (decide (ch 'a' ≤ c) && decide (c ≤ ch 'z')) || isDigit c || c == ch '+'

/-- `[^/@\[\]]` (endpoint_uri_parse.rl:120). -/
def isInner (c : Byte) : Bool := !(c == ch '/' || c == ch '@' || c == ch '[' || c == ch ']')

/-- `[^/:@\[\]]` (endpoint_uri_parse.rl:120). -/
def isHost (c : Byte) : Bool := !(c == ch '/' || c == ch ':' || c == ch '@' || c == ch '[' || c == ch ']')

/-- `pchar` (endpoint_uri_parse.rl:123). -/
def isPchar (c : Byte) : Bool := !(c == ch '?' || c == ch '#')

/-- Positions in the expression `uri` (endpoint_uri_parse.rl:118-128). -/
inductive St where
  | start | proto | colon | slash | slash2 | open_ | inner | close | host | portColon | port | path | query0 | query
deriving DecidableEq, Repr

/-- Actions, by the occurrence in the expression (endpoint_uri_parse.rl:118-126). -/
inductive Act where
  | protoStart | setProto | hostStart | setHost | portStart | setPort | pathStart | setPath | queryStart | setQuery
deriving DecidableEq, Repr

/-- Ragel's order of execution. (Part of the model of roc_address/endpoint_uri_parse.rl:24-171.) -/
def actOrder : List Act :=
  [.protoStart, .setProto, .hostStart, .setHost, .portStart, .setPort, .pathStart, .setPath, .queryStart, .setQuery]

/-- Moves after the host (endpoint_uri_parse.rl:128). -/
def afterHost (c : Byte) : List (St × List Act) :=
  if c = ch ':' then [(.portColon, [.setHost])]
  else if c = ch '/' then [(.path, [.setHost, .pathStart])]
  else if c = ch '?' then [(.query0, [.setHost])]
  else []

/-- Moves of a thread on a character (endpoint_uri_parse.rl:118-128). -/
def edges : St → Byte → List (St × List Act)
  | .start, c =>
    if isProtoChar c then [(.proto, [.protoStart])]
    else if c = ch '/' then [(.path, [.pathStart])]
    else if c = ch '?' then [(.query0, [])]
    else []
  | .proto, c => if isProtoChar c then [(.proto, [])] else if c = ch ':' then [(.colon, [.setProto])] else []
  | .colon, c => if c = ch '/' then [(.slash, [])] else []
  | .slash, c => if c = ch '/' then [(.slash2, [])] else []
  | .slash2, c => if c = ch '[' then [(.open_, [.hostStart])] else if isHost c then [(.host, [.hostStart])] else []
  | .open_, c => if isInner c then [(.inner, [])] else []
  | .inner, c => if isInner c then [(.inner, [])] else if c = ch ']' then [(.close, [])] else []
  | .close, c => afterHost c
  | .host, c => (if isHost c then [(.host, [])] else []) ++ afterHost c
  | .portColon, c => if isDigit c then [(.port, [.portStart])] else []
  | .port, c =>
    if isDigit c then [(.port, [])]
    else if c = ch '/' then [(.path, [.setPort, .pathStart])]
    else if c = ch '?' then [(.query0, [.setPort])]
    else []
  | .path, c => if isPchar c then [(.path, [])] else if c = ch '?' then [(.query0, [.setPath])] else []
  | .query0, c => if isPchar c then [(.query, [.queryStart])] else []
  | .query, c => if isPchar c then [(.query, [])] else []

/-- Actions at the end of the string; `none` where the expression cannot end. (Part of the model of roc_address/endpoint_uri_parse.rl:24-171.) -/
def atEof : St → Option (List Act)
  | .start => some []
  | .close => some [.setHost]
  | .host => some [.setHost]
  | .port => some [.setPort]
  | .path => some [.setPath]
  | .query0 => some [.queryStart, .setQuery]
  | .query => some [.setQuery]
  | _ => none

/-- Variables of `parse_endpoint_uri_imp`: `start_p` and `result`. (Part of the model of roc_address/endpoint_uri_parse.rl:24-171.) -/
structure Env where
  start : Nat
  uri : Uri
deriving DecidableEq, Repr

/-- Value of a string of decimal digits. (Part of the model of roc_address/endpoint_uri_parse.rl:24-171.) -/
def decimal (ds : List Byte) : Nat := ds.foldl (fun v d => v * 10 + (d.val - 48)) 0

/-- `strtol` in base 10 at a digit: the result, which saturates, and the number of characters used. (roc_address/endpoint_uri_parse.rl:91) -/
def strtol (s : List Byte) : Int × Nat :=
  let ds := s.takeWhile isDigit
  (if decimal ds > 2 ^ 63 - 1 then 2 ^ 63 - 1 else decimal ds, ds.length)

/-- Conversion of `long` to `int`. (roc_address/endpoint_uri_parse.rl:91) -/
def toInt32 (v : Int) : Int := ((v + 2 ^ 31) % 2 ^ 32) - 2 ^ 31

/-- An action (endpoint_uri_parse.rl:47-116); `done` is the text before `p`, `rest` the text from `p`
on; `none` is `return false`. -/
def exec (sub : Subset) (done rest : List Byte) (e : Env) : Act → Option Env
  | .protoStart | .hostStart | .portStart | .pathStart | .queryStart => some { e with start := done.length }
  | .setProto =>
    if done.length - e.start ≥ 16 then none
    else
      match findScheme (done.drop e.start) with
      | none => none
      | some p => some { e with uri := e.uri.setProto p }
  | .setHost =>
    if sub ≠ .full then none
    else
      match e.uri.setHost (done.drop e.start) with
      | (_, false) => none
      | (u, true) => some { e with uri := u }
  | .setPort =>
    if sub ≠ .full then none
    else
      let r := strtol ((done ++ rest).drop e.start)
      if r.1 = 2 ^ 63 - 1 ∨ r.1 = -2 ^ 63 ∨ e.start + r.2 ≠ done.length then none
      else
        match e.uri.setPort (toInt32 r.1) with
        | (_, false) => none
        | (u, true) => some { e with uri := u }
  | .setPath =>
    match e.uri.setEncodedPath (done.drop e.start) with
    | (_, false) => none
    | (u, true) => some { e with uri := u }
  | .setQuery => some { e with uri := e.uri.setQuery (done.drop e.start) }

/-- Executes actions in Ragel's order. (Part of the model of roc_address/endpoint_uri_parse.rl:24-171.) -/
def execAll (sub : Subset) (done rest : List Byte) (acts : List Act) (e : Env) : Option Env :=
  (actOrder.filter fun a => decide (a ∈ acts)).foldlM (exec sub done rest) e

/-- The generated automaton: `ts` are the threads. (Part of the model of roc_address/endpoint_uri_parse.rl:24-171.) -/
def run (sub : Subset) : List St → Env → List Byte → List Byte → Option Env
  | ts, e, done, [] =>
    let fin := ts.filterMap atEof
    if fin = [] then none else execAll sub done [] fin.flatten e
  | ts, e, done, c :: rest =>
    let moves := (ts.map (edges · c)).flatten
    if moves = [] then none
    else
      match execAll sub done (c :: rest) (moves.map (·.2)).flatten e with
      | none => none
      | some e => run sub (moves.map (·.1)) e (done ++ [c]) rest

/-- `parse_endpoint_uri` (endpoint_uri_parse.rl:24-171) into a URI that was `u`; `none` for the result
false (the URI is invalidated then). -/
def parseInto (u : Uri) (sub : Subset) (s : List Byte) : Option Uri :=
  match run sub [.start] ⟨0, u.clear sub⟩ [] s with
  | none => none
  | some e => if e.uri.verify sub then some e.uri else none

/-- Parsing a full URI into a new object. (Part of the model of roc_address/endpoint_uri_parse.rl:24-171.) -/
def parse (s : List Byte) : Option Uri := parseInto Uri.init .full s

end Verif.EndpointUri
